import Verif.Props.PlatformOps
/-!
# C78: what is refused on Windows, on macOS and on Linux, and with which error: open, stat, mkdir, symlink; file times

The theorems hold in every state; what is at a path is said with the lookup calls.
-/

namespace Verif
open Py Spec Cfg

section
variable {s : FS}

/-! ## rename to itself -/

/-- C78: renaming something that is no link, given with a trailing separator, to itself fails with EINVAL on Windows; on macOS and Linux with ENOTDIR. -/
theorem rename_self_sep {old new : Str} {o : Ref} (force : Bool) (hb : s.cfg.endsWithSep old = true) (hx : s.existsL (s.absnorm old) = .ok true)
    (ho : s.lresolve (s.absnorm old) = .ok o) (hl : s.isLink (s.absnorm old) = .ok false) (hk : s.getObject (s.absnorm old) = .ok o)
    (hok : (s.heap o).isLnk = false) (hself : s.absnorm new = s.absnorm old) (hda : ∃ d, s.isDir (s.absnorm old) false = .ok d) :
    rename old new force s = (.error (.os (byPlatform s.cfg .EINVAL .ENOTDIR .ENOTDIR)), s) := by
  have key : renameToExisting force (s.absnorm old) (s.absnorm old) o true s = (.error (.os (byPlatform s.cfg .EINVAL .ENOTDIR .ENOTDIR)), s) := by
    unfold renameToExisting
    rw [M.bind_eq, rd_eq (f := fun x => x.getObject _) hk]
    try dsimp only
    rw [M.bind_eq]
    dsimp only [M.get]
    rw [if_pos rfl, hok, if_pos (by simp)]
    unfold byPlatform
    cases s.cfg.isWin <;> cases s.cfg.isMac <;> rfl
  have hbr : s.brokenLinkSep (s.absnorm old) = .ok () := by
    unfold FS.brokenLinkSep
    simp only [hl, bind, Except.bind]; rfl
  have hpe : s.posixDirLinkErrors (s.absnorm old) (s.absnorm old) true = .ok () := by
    unfold FS.posixDirLinkErrors
    obtain ⟨d, hd⟩ := hda
    cases d <;> simp [hd, hl, bind, Except.bind]
  unfold rename
  rw [M.bind_eq]
  dsimp only [M.get]
  rw [hself, hb]
  rw [M.bind_eq, rd_eq (f := fun x => x.existsL _) hx]
  try dsimp only
  rw [if_neg (by simp)]
  try dsimp only
  rw [if_pos rfl, M.bind_eq, rd_eq (f := fun x => x.brokenLinkSep _) hbr]
  try dsimp only
  rw [M.bind_eq, rd_eq (f := fun x => x.lresolve _) ho]
  try dsimp only
  cases hw : s.cfg.isWin with
  | true =>
    rw [if_neg (by simp), M.bind_eq, rd_eq (f := fun x => x.existsL _) hx]
    try dsimp only
    rw [if_pos rfl, M.bind_eq, key]
  | false =>
    rw [if_pos (by simp), M.bind_eq, rd_eq (f := fun x => x.posixDirLinkErrors _ _ _) hpe]
    try dsimp only
    rw [M.bind_eq, rd_eq (f := fun x => x.existsL _) hx]
    try dsimp only
    rw [if_pos rfl, M.bind_eq, key]

/-! ## open -/

/-- C78: opening a directory (without truncating it) fails with EACCES on Windows and EISDIR elsewhere, whoever asks and whether it could be read or not
only decides whether EACCES comes first. -/
theorem open_directory {p real : Str} {r : Ref} {md : OpenModes} (hx : md.mustNotExist = false) (ht : (md.canWrite && md.truncate) = false)
    (ha : s.fileArg p = .ok (some r, real)) (hd : (s.heap r).isDirMode = true)
    (hperm : s.isRoot = true ∨ (¬ (md.canRead = true ∧ (s.heap r).mode &&& 0o400 = 0) ∧ ¬ (md.canWrite = true ∧ (s.heap r).mode &&& 0o200 = 0)))
    (bf : Option Nat) (raw del : Bool) :
    openPath p md bf raw del s = (.error (.os (byPlatform s.cfg .EACCES .EISDIR .EISDIR)), s) := by
  have e1 : initFileObject (some r) p real md s = (.ok r, s) := by
    unfold initFileObject
    dsimp only
    rw [M.bind_eq]
    dsimp only [M.get]
    rw [if_neg, if_neg (by simp [ht])]
    · rfl
    · rcases hperm with h | ⟨h1, h2⟩
      · simp [h]
      · have h1' : md.canRead = true → (s.heap r).mode &&& PERM_READ ≠ 0 := fun a b => h1 ⟨a, b⟩
        have h2' : md.canWrite = true → (s.heap r).mode &&& PERM_WRITE ≠ 0 := fun a b => h2 ⟨a, b⟩
        simp only [Bool.and_eq_true, Bool.or_eq_true, beq_iff_eq, not_and, not_or, Bool.not_eq_true']
        exact fun _ => ⟨fun a => h1' a, fun a => h2' a⟩
  have e2 : openObject (some r) p real md s = (.error (.os (byPlatform s.cfg .EACCES .EISDIR .EISDIR)), s) := by
    unfold openObject
    rw [if_neg (by simp [hx])]
    try dsimp only
    rw [M.bind_eq, e1]
    try dsimp only
    rw [M.bind_eq]
    dsimp only [M.get]
    rw [if_pos hd]
    unfold byPlatform
    cases s.cfg.isWin <;> cases s.cfg.isMac <;> rfl
  unfold openPath
  rw [M.bind_eq, rd_eq (f := fun x => x.fileArg _) ha]
  try dsimp only
  rw [M.bind_eq, e2]

/-- C78: opening a new file by a path that ends with a separator fails with EINVAL on Windows, ENOENT on macOS, EISDIR on Linux. -/
theorem open_new_sep {p real : Str} {md : OpenModes} (hm : md.mustExist = false) (ha : s.fileArg p = .ok (none, real))
    (hl : s.isLink p = .ok false) (hb : s.cfg.endsWithSep p = true) (bf : Option Nat) (raw del : Bool) :
    openPath p md bf raw del s = (.error (.os (byPlatform s.cfg .EINVAL .ENOENT .EISDIR)), s) := by
  have e1 : initFileObject none p real md s = (.error (.os (byPlatform s.cfg .EINVAL .ENOENT .EISDIR)), s) := by
    unfold initFileObject
    dsimp only
    rw [hm, if_neg (by simp)]
    try dsimp only
    rw [M.bind_eq, rd_eq (f := fun x => x.isLink _) hl]
    try dsimp only
    rw [if_neg (by simp), M.bind_eq]
    dsimp only [M.pure]
    rw [M.bind_eq]
    dsimp only [M.get]
    rw [if_pos hb]
    rfl
  have e2 : openObject none p real md s = (.error (.os (byPlatform s.cfg .EINVAL .ENOENT .EISDIR)), s) := by
    unfold openObject
    cases hx : md.mustNotExist with
    | false =>
      rw [if_neg (by simp)]
      try dsimp only
      rw [M.bind_eq, e1]
    | true =>
      rw [if_pos rfl]
      rw [if_neg (by simp), M.bind_eq]
      dsimp only [M.get]
      rw [M.bind_eq, rd_eq (f := fun x => x.isLink _) hl]
      try dsimp only
      rw [M.bind_eq]
      dsimp only [M.pure]
      rw [if_neg (by simp)]
      try dsimp only
      rw [M.bind_eq, e1]
  unfold openPath
  rw [M.bind_eq, rd_eq (f := fun x => x.fileArg _) ha]
  try dsimp only
  rw [M.bind_eq, e2]

/-- C78: opening a broken link exclusively fails with EEXIST on macOS and Linux; on Windows the link counts as absent: the call is the same as without the
exclusive flag. -/
theorem open_excl_link {p real : Str} {md : OpenModes} (hx : md.mustNotExist = true) (ha : s.fileArg p = .ok (none, real))
    (hl : s.isLink p = .ok true) (bf : Option Nat) (raw del : Bool) :
    (s.cfg.isWin = false → openPath p md bf raw del s = (.error (.os .EEXIST), s)) ∧
    (s.cfg.isWin = true → openPath p md bf raw del s = openPath p { md with mustNotExist := false } bf raw del s) := by
  have hwin : s.cfg.isWin = true → openObject none p real md s = openObject none p real { md with mustNotExist := false } s := by
    intro hw
    unfold openObject
    rw [if_pos hx, if_neg (show ¬ ({ md with mustNotExist := false } : OpenModes).mustNotExist = true by simp)]
    rw [if_neg (by simp), M.bind_eq]
    dsimp only [M.get]
    rw [M.bind_eq, rd_eq (f := fun x => x.isLink _) hl]
    try dsimp only
    rw [M.bind_eq]
    dsimp only [M.pure]
    rw [hw, if_neg (by simp)]
    rfl
  constructor
  · intro hw
    have e2 : openObject none p real md s = (.error (.os .EEXIST), s) := by
      unfold openObject
      rw [if_pos hx]
      rw [if_neg (by simp), M.bind_eq]
      dsimp only [M.get]
      rw [M.bind_eq, rd_eq (f := fun x => x.isLink _) hl]
      try dsimp only
      rw [M.bind_eq]
      dsimp only [M.pure]
      rw [hw, if_pos (by simp)]
      rfl
    unfold openPath
    rw [M.bind_eq, rd_eq (f := fun x => x.fileArg _) ha]
    try dsimp only
    rw [M.bind_eq, e2]
  · intro hw
    unfold openPath
    rw [M.bind_eq, rd_eq (f := fun x => x.fileArg _) ha, M.bind_eq, rd_eq (f := fun x => x.fileArg _) ha]
    try dsimp only
    rw [M.bind_eq, M.bind_eq, hwin hw]
    rfl

theorem getOpen_of_slot {t : FS} {fd h : Nat} {l : List Nat} (h1 : t.openFiles[fd]? = some (some (h :: l))) : t.getOpen fd = .ok h := by
  unfold FS.getOpen
  have hlt : fd < t.openFiles.length := (List.getElem?_eq_some_iff.mp h1).1
  have h0 : ¬ ((fd : Int) < 0) := by omega
  rw [if_neg (by omega)]
  simp only [if_neg h0, Int.toNat_natCast, h1]

/-- C78: `os.open` of a directory: outside Windows it succeeds for reading, without changing the tree; it fails with EISDIR for writing, and on Linux also
with O_CREAT. -/
theorem osOpen_directory (hs : Reachable s) {p : Str} {r : Ref} {f : OFlags} {mode : Nat} (hw : s.cfg.isWin = false) (hx : s.exists_ p = .ok true)
    (hr : s.resolve p = .ok r) (hd : (s.heap r).isDir = true) (hf : f.excl = true → f.creat = true) :
    ((f.wronly = true ∨ f.rdwr = true ∨ (f.creat = true ∧ s.cfg.isMac = false)) → osOpen p f mode s = (.error (.os .EISDIR), s)) ∧
    (¬ (f.wronly = true ∨ f.rdwr = true ∨ (f.creat = true ∧ s.cfg.isMac = false)) →
      ∃ fd s', osOpen p f mode s = (.ok fd, s') ∧ s'.heap = s.heap ∧ s'.next = s.next ∧ s'.getOpen fd = .ok s.hnext ∧ (s'.handles s.hnext).obj = r ∧
        (s'.handles s.hnext).kind = .dir) := by
  have ha : s.openDirArg p = .ok (some r) := by
    unfold FS.openDirArg
    rw [if_neg (by simp [hw])]
    simp [hx, hr, hd, bind, Except.bind]
  have hne : (f.modes.mustNotExist && f.modes.mustExist) = false := by
    unfold OFlags.modes
    cases hh : f.excl with
    | false => simp
    | true => simp [hf hh]
  have hcond : ((!f.modes.mustExist && !s.cfg.isMac) || f.modes.canWrite) = true ↔ (f.wronly = true ∨ f.rdwr = true ∨ (f.creat = true ∧ s.cfg.isMac = false)) := by
    unfold OFlags.modes
    cases f.wronly <;> cases f.rdwr <;> cases f.creat <;> cases s.cfg.isMac <;> simp
  constructor
  · intro h
    unfold osOpen
    try dsimp only
    rw [if_neg (by simp [hne])]
    try dsimp only
    rw [M.bind_eq]
    dsimp only [M.get]
    rw [M.bind_eq, rd_eq (f := fun x => x.openDirArg _) ha]
    try dsimp only
    rw [if_pos (hcond.mpr h)]
    rfl
  · intro h
    have hn : ¬ ((!f.modes.mustExist && !s.cfg.isMac) || f.modes.canWrite) = true := fun x => h (hcond.mp x)
    unfold osOpen
    try dsimp only
    rw [if_neg (by simp [hne])]
    try dsimp only
    rw [M.bind_eq]
    dsimp only [M.get]
    rw [M.bind_eq, rd_eq (f := fun x => x.openDirArg _) ha]
    try dsimp only
    rw [if_neg hn]
    try dsimp only
    rw [M.bind_eq]
    dsimp only [newHandle]
    rw [M.bind_eq]
    dsimp only [addOpenFile]
    cases hq : minFd s.freeFds with
    | none =>
      refine ⟨_, _, rfl, rfl, rfl, ?_, ?_, ?_⟩
      · exact getOpen_of_slot (l := []) (by simp [FS.setH])
      · simp [hmod, M.modify, FS.setH, upd, mkHandle]
      · simp [hmod, M.modify, FS.setH, upd, mkHandle]
    | some fd =>
      have hlt : fd < s.openFiles.length := by
        have := ((reachable_fdInv hs).free fd).mp (minFd_some hq).1
        exact (List.getElem?_eq_some_iff.mp this).1
      refine ⟨_, _, rfl, rfl, rfl, ?_, ?_, ?_⟩
      · exact getOpen_of_slot (l := []) (by simp [FS.setH, hlt])
      · simp [hmod, M.modify, FS.setH, upd, mkHandle]
      · simp [hmod, M.modify, FS.setH, upd, mkHandle]

/-! ## stat and lstat with a trailing separator -/

/-- C78: `os.stat` of a regular file with a trailing separator fails with EINVAL on Windows and ENOTDIR elsewhere (root, or a readable parent). -/
theorem stat_file_sep {p : Str} {r : Ref} (hb : s.cfg.endsWithSep p = true) (hr : s.resolve p true false = .ok r) (hroot : s.isRoot = true)
    (hf : (s.heap r).isRegMode = true) : s.stat p = .error (.os (byPlatform s.cfg .EINVAL .ENOTDIR .ENOTDIR)) := by
  have hnd : (s.heap r).isDirMode = false := by
    unfold Obj.isDirMode; unfold Obj.isRegMode at hf
    simp only [beq_iff_eq] at hf ⊢
    rw [beq_eq_false_iff_ne, hf]; decide
  have hnl : (s.heap r).isLnk = false := by
    unfold Obj.isLnk; unfold Obj.isRegMode at hf
    simp only [beq_iff_eq] at hf ⊢
    rw [beq_eq_false_iff_ne, hf]; decide
  unfold FS.stat FS.raiseForSep FS.raiseForSepG
  simp only [hr, hroot, bind, Except.bind, hb, if_true, hnl, Bool.false_eq_true, if_false, hf, hnd, Bool.and_false, Bool.not_true]
  unfold byPlatform
  cases s.cfg.isWin <;> cases s.cfg.isMac <;> simp [pure, Except.pure]

/-! ## mkdir and makedirs in the place of something -/

/-- C78: `os.mkdir` and `os.makedirs` of `link/` for a broken link: macOS removes the link and makes the directory in its place; elsewhere EEXIST. Without the
separator, or if the path leads somewhere, EEXIST everywhere (EACCES for the root directory of a Windows filesystem). -/
theorem mkdir_in_use {p q : Str} {x : Bool} (mode : Nat) (hp : s.cfg.stripTrailing p ≠ [])
    (hq : q = s.absnorm (if s.cfg.isWin then s.absnorm (s.cfg.stripTrailing p) else s.cfg.stripTrailing p))
    (hpar : s.mkdirParent (if s.cfg.isWin then s.absnorm (s.cfg.stripTrailing p) else s.cfg.stripTrailing p) = .ok ())
    (hx : s.existsL q = .ok true) (he : s.exists_ q = .ok x) :
    mkdir p mode s = if x = false ∧ s.cfg.isMac = true ∧ s.cfg.endsWithSep p = true then (removeObject q >>= fun _ => mkdirTail q mode) s
      else (.error (.os (if s.cfg.isWin = true ∧ q = [s.cfg.sep] then .EACCES else .EEXIST)), s) := by
  subst hq
  unfold mkdir
  rw [M.bind_eq]
  dsimp only [M.get]
  rw [if_neg hp]
  try dsimp only
  rw [M.bind_eq, rd_eq (f := fun x => x.mkdirParent _) hpar]
  try dsimp only
  rw [M.bind_eq, rd_eq (f := fun x => x.existsL _) hx]
  try dsimp only
  rw [if_pos rfl]
  have hbk : s.mkdirBroken (s.absnorm (if s.cfg.isWin then s.absnorm (s.cfg.stripTrailing p) else s.cfg.stripTrailing p)) (s.cfg.endsWithSep p) =
      .ok (decide (x = false ∧ s.cfg.isMac = true ∧ s.cfg.endsWithSep p = true)) := by
    unfold FS.mkdirBroken
    rw [he]
    cases x <;> cases s.cfg.isMac <;> cases s.cfg.endsWithSep p <;> simp [Except.map]
  rw [M.bind_eq, rd_eq (f := fun x => x.mkdirBroken _ _) hbk]
  try dsimp only
  by_cases c : x = false ∧ s.cfg.isMac = true ∧ s.cfg.endsWithSep p = true
  · rw [if_pos c, if_pos (by simp [c])]
  · rw [if_neg c, if_neg (by simpa using c)]
    rfl

theorem makedirs_broken_mac {p : Str} {x : Bool} (mode : Nat) (ok : Bool) (hp : p ≠ []) (hx : s.existsL (s.absnorm p) = .ok true)
    (he : s.exists_ (s.absnorm p) = .ok x) :
    makedirs p mode ok s = if x = false ∧ s.cfg.isMac = true ∧ s.cfg.endsWithSep p = true then
      (removeObject (s.absnorm p) >>= fun _ => makedirsTail (s.absnorm p) mode ok) s else makedirsTail (s.absnorm p) mode ok s := by
  unfold makedirs
  rw [if_neg hp]
  try dsimp only
  rw [M.bind_eq]
  dsimp only [M.get]
  by_cases c : (s.cfg.endsWithSep p && s.cfg.isMac) = true
  · rw [if_pos c, M.bind_eq, rd_eq (f := fun x => x.existsL _) hx]
    try dsimp only
    rw [if_pos rfl, M.bind_eq, rd_eq (f := fun x => x.exists_ _) he]
    simp only [Bool.and_eq_true] at c
    cases x with
    | true => try dsimp only
              rw [if_neg (by simp), if_neg (by simp)]
    | false => try dsimp only
               rw [if_pos (by simp), if_pos (by simp [c])]
  · rw [if_neg c, if_neg]
    rintro ⟨_, h1, h2⟩
    simp [h1, h2] at c

/-! ## write-protected directories -/

/-- C78: a user who is not root cannot add to a directory without the write bit (EACCES) — except on Windows, where directories are not write protected. -/
theorem add_protected {p : Str} {c d : Ref} (hp : p ≠ []) (hr : s.resolve p = .ok d) (hd : (s.heap d).isDirMode = true) (hdd : (s.heap d).isDir = true)
    (hroot : s.isRoot = false) (hm : (s.heap d).mode &&& 0o200 = 0) :
    (s.cfg.isWin = false → addObject p c s = (.error (.os .EACCES), s)) ∧
    (s.cfg.isWin = true → alookup (s.heap c).name (s.heap d).entries = none →
      (addObject p c s).1 ≠ .error (.os .EACCES) ∧ alookup (s.heap c).name ((addObject p c s).2.heap d).entries = some c) := by
  rw [addObject_at hr hp, if_pos hd]
  unfold addEntry
  rw [if_neg (by simp [hdd])]
  constructor
  · intro hw
    rw [if_pos ⟨hroot, hm, hw⟩]
  · intro hw ha
    rw [if_neg (by simp [hw]), if_neg (by simp [ha])]
    have hat : alookup (s.heap c).name (((s.attach d c)).heap d).entries = some c := by
      have hen : ((s.attach d c).heap d).entries = (s.heap d).entries ++ [((s.heap c).name, c)] := by
        rw [attach_heap]; simp only [Obj.entries, if_true]
      rw [hen]
      have hsn := alookup_snoc (s.heap c).name (s.heap c).name c (s.heap d).entries
      rw [ha] at hsn
      simpa using hsn
    by_cases c1 : ((s.attach d c).heap c).nlink = 1
    · simp only [c1, if_true]
      constructor
      · rcases changeDiskUsage_cases ((s.attach d c).sizeOf ((s.attach d c).next + 1) c) ((s.attach d c).heap d).dev (s.attach d c) with h | h
        · rw [h]; simp
        · rw [h.1]; simp
      · rw [changeDiskUsage_heap]; exact hat
    · simp only [c1, if_false]
      exact ⟨by simp, hat⟩

/-! ## raw handles and times -/

/-- C78: reading no bytes from a raw handle not open for reading, and writing no bytes to a raw handle not open for writing, succeeds on Windows; elsewhere
it fails with EBADF like any other read or write on it. -/
theorem raw_empty {h : Nat} (hl : s.isLarge (s.handles h).obj = false) (ho : s.isOpen h = true) (hraw : (s.handles h).rawIo = true) :
    ((s.handles h).read = false → ∀ n, read h n s = if s.cfg.isWin = true ∧ n = some 0 then (.ok [], s) else (.error (.os .EBADF), s)) ∧
    ((s.handles h).update = false → ∀ b, write h b s = if s.cfg.isWin = true ∧ b = [] then (.ok 0, s) else (.error (.os .EBADF), s)) := by
  constructor
  · intro hr n
    unfold read
    rw [M.bind_eq]
    dsimp only [M.get]
    rw [hl, if_neg (by simp)]
    try dsimp only
    rw [M.bind_eq, show checkOpen h s = (.ok (), s) by unfold checkOpen; rw [if_pos ho]]
    try dsimp only
    rw [if_pos hr]
    by_cases c : n = some 0 ∧ s.cfg.isWin = true
    · rw [if_pos ⟨c.1, c.2, hraw⟩, if_pos ⟨c.2, c.1⟩]; rfl
    · rw [if_neg (fun x => c ⟨x.1, x.2.1⟩), if_neg (fun x => c ⟨x.2, x.1⟩)]
      unfold hRaise
      rw [M.bind_eq]
      dsimp only [hget]
      rw [if_pos hraw]; rfl
  · intro hr b
    unfold write
    rw [M.bind_eq]
    dsimp only [M.get]
    rw [hl, if_neg (by simp)]
    try dsimp only
    rw [M.bind_eq, show checkOpen h s = (.ok (), s) by unfold checkOpen; rw [if_pos ho]]
    try dsimp only
    rw [if_pos hr]
    by_cases c : s.cfg.isWin = true ∧ b = []
    · rw [if_pos ⟨hraw, c.1, c.2⟩, if_pos ⟨c.1, c.2⟩]; rfl
    · rw [if_neg (fun x => c x.2), if_neg c]
      unfold hRaise
      rw [M.bind_eq]
      dsimp only [hget]
      rw [if_pos hraw]; rfl
end

/-! ## The hypotheses on concrete states of the three platforms -/

/-- a small tree: directories `/a`, `/a/d`, files `/a/f`, `/g`, a link `/k` to the directory `/a`, a broken link `/b` -/
def platOps : List Op :=
  [.mkdir "/a".toList 0o777, .createFile "/a/f".toList (S_IFREG ||| 0o666) (some [104, 105]) none true false, .mkdir "/a/d".toList 0o777,
   .createFile "/g".toList (S_IFREG ||| 0o666) (some [1]) none true false, .createSymlink "/k".toList "/a".toList false,
   .createSymlink "/b".toList "/zz".toList false]

def onLinux : FS := runs platOps (initFS demoCfg 50 0 0 0o022 7 none)
def onMac : FS := runs platOps (initFS macCfg 50 0 0 0o022 7 none)
def onWindows : FS := runs platOps (initFS { demoCfg with sep := '\\', altsep := some '/', isWin := true, caseSens := false, lower := fun s => s.map Char.toLower } 50 0 0 0o022 7 none)

theorem onLinux_reachable : Reachable onLinux := ⟨_, _, _, _, _, _, _, _, rfl⟩
theorem onMac_reachable : Reachable onMac := ⟨_, _, _, _, _, _, _, _, rfl⟩
theorem onWindows_reachable : Reachable onWindows := ⟨_, _, _, _, _, _, _, _, rfl⟩

theorem windows_onto : RenameOnto onWindows "/a/f".toList "/g".toList 3 5 :=
  ⟨by decide +kernel, by decide +kernel, by decide +kernel, by decide +kernel, by decide +kernel, by decide +kernel, by decide +kernel⟩
theorem windows_onto_dir : RenameOnto onWindows "/a/f".toList "/a/d".toList 3 4 :=
  ⟨by decide +kernel, by decide +kernel, by decide +kernel, by decide +kernel, by decide +kernel, by decide +kernel, by decide +kernel⟩
example : rename "/a/f".toList "/g".toList false onWindows = (.error (.os .EEXIST), onWindows) :=
  rename_windows_refused windows_onto (by decide +kernel)
example : rename "/a/f".toList "/a/d".toList true onWindows = (.error (.os .EACCES), onWindows) := by
  rw [replace_windows_refused windows_onto_dir (by decide +kernel) (Or.inl (by decide +kernel)), show ((onWindows.heap 4).isDirMode || (onWindows.heap 4).isLnk) = true by decide +kernel]
  rfl
example : rename "/a/f".toList "/g".toList true onWindows = (removeObject (onWindows.absnorm "/g".toList) >>= fun _ =>
    renameTail (onWindows.absnorm "/a/f".toList) (onWindows.absnorm "/g".toList) 3) onWindows :=
  replace_windows_file windows_onto (by decide +kernel) (by decide +kernel) (by decide +kernel) (by decide +kernel)
example : renameTail "/a/d".toList "/g/x".toList 4 onLinux = (.error (.os .ENOTDIR), onLinux) := by
  rw [← show byPlatform onLinux.cfg .EACCES .ENOTDIR .ENOTDIR = .ENOTDIR by decide +kernel]
  exact rename_into_file (by decide +kernel) (by decide +kernel) (od := 2) (by decide +kernel) (nd := 5) (by decide +kernel) (by decide +kernel) (by decide +kernel)
example : renameTail "/a/d".toList "/g/x".toList 4 onWindows = (.error (.os .EACCES), onWindows) := by
  rw [← show byPlatform onWindows.cfg .EACCES .ENOTDIR .ENOTDIR = .EACCES by decide +kernel]
  exact rename_into_file (by decide +kernel) (by decide +kernel) (od := 2) (by decide +kernel) (nd := 5) (by decide +kernel) (by decide +kernel) (by decide +kernel)
example : rename "/g/".toList "/g".toList false onWindows = (.error (.os .EINVAL), onWindows) := by
  rw [← show byPlatform onWindows.cfg .EINVAL .ENOTDIR .ENOTDIR = .EINVAL by decide +kernel]
  exact rename_self_sep (o := 5) false (by decide +kernel) (by decide +kernel) (by decide +kernel) (by decide +kernel) (by decide +kernel) (by decide +kernel) (by decide +kernel) ⟨false, by decide +kernel⟩

example : remove "/a".toList onWindows = (.error (.os .EACCES), onWindows) := by
  rw [← show byPlatform onWindows.cfg .EACCES .EPERM .EISDIR = .EACCES by decide +kernel]
  exact remove_directory (r := 2) (by decide +kernel) (by decide +kernel) (by decide +kernel) (by decide +kernel) (by decide +kernel)
example : remove "/a".toList onMac = (.error (.os .EPERM), onMac) := by
  rw [← show byPlatform onMac.cfg .EACCES .EPERM .EISDIR = .EPERM by decide +kernel]
  exact remove_directory (r := 2) (by decide +kernel) (by decide +kernel) (by decide +kernel) (by decide +kernel) (by decide +kernel)
example : remove "/a".toList onLinux = (.error (.os .EISDIR), onLinux) := by
  rw [← show byPlatform onLinux.cfg .EACCES .EPERM .EISDIR = .EISDIR by decide +kernel]
  exact remove_directory (r := 2) (by decide +kernel) (by decide +kernel) (by decide +kernel) (by decide +kernel) (by decide +kernel)
example : remove "/k/".toList onLinux = (.error (.os .ENOTDIR), onLinux) := by
  rw [← show byPlatform onLinux.cfg .EACCES .EPERM .ENOTDIR = .ENOTDIR by decide +kernel]
  exact remove_dirlink_sep (r := 2) (l := 6) (by decide +kernel) (by decide +kernel) (by decide +kernel) (by decide +kernel) (by decide +kernel) (by decide +kernel) (by decide +kernel) (by decide +kernel)
example : remove "/b/".toList onMac = (.error (.os .ENOENT), onMac) := by
  rw [← show byPlatform onMac.cfg .EINVAL .ENOENT .ENOTDIR = .ENOENT by decide +kernel]
  exact (remove_broken_sep (s := onMac) (by decide +kernel) (by decide +kernel) (by decide +kernel)).resolve_right (by rw [show onMac.cfg.isWin = false by decide +kernel]; simp)
example : rmdir ['.'] false onWindows = (.error (.os .EACCES), onWindows) := by
  rw [← show byPlatform onWindows.cfg .EACCES .EINVAL .EINVAL = .EACCES by decide +kernel]
  exact rmdir_dot false
example : rmdir "/k".toList false onLinux = (.error (.os .ENOTDIR), onLinux) := by
  rw [rmdir_link (r := 2) (by decide +kernel) (by decide +kernel) (by decide +kernel) (by decide +kernel)]
  exact if_pos ⟨by decide +kernel, Or.inl (by decide +kernel)⟩

example : link "/a".toList "/x".toList true onWindows = (.error (.os .EACCES), onWindows) := by
  rw [← show byPlatform onWindows.cfg .EACCES .EPERM .EPERM = .EACCES by decide +kernel]
  exact link_directory (r := 2) (by decide +kernel) (by decide +kernel) (by decide +kernel) (by decide +kernel) (by decide +kernel) (by decide +kernel)
example : link "/a".toList "/x".toList true onLinux = (.error (.os .EPERM), onLinux) := by
  rw [← show byPlatform onLinux.cfg .EACCES .EPERM .EPERM = .EPERM by decide +kernel]
  exact link_directory (r := 2) (by decide +kernel) (by decide +kernel) (by decide +kernel) (by decide +kernel) (by decide +kernel) (by decide +kernel)
example : link "/g/".toList "/x".toList true onWindows = (.error (.os .EINVAL), onWindows) := by
  rw [← show byPlatform onWindows.cfg .EINVAL .ENOTDIR .ENOTDIR = .EINVAL by decide +kernel]
  exact link_old_sep (by decide +kernel) (by decide +kernel) (by decide +kernel)
example : addObject "/g".toList 3 onWindows = (.error (.os .ENOENT), onWindows) := by
  rw [← show byPlatform onWindows.cfg .ENOENT .ENOTDIR .ENOTDIR = .ENOENT by decide +kernel]
  exact addObject_nondir (d := 5) (by decide +kernel) (by decide +kernel) (by decide +kernel)
example : ∃ t, makedirs "/g/x".toList 0o777 false onWindows = (.error (.os .ENOENT), t) := by
  have h : (createDir (onWindows.absnorm "/g/x".toList) (andNot 0o777 onWindows.umask) onWindows).1 = .error (.os .ENOTDIR) := by decide +kernel
  rcases hq : createDir (onWindows.absnorm "/g/x".toList) (andNot 0o777 onWindows.umask) onWindows with ⟨a, t⟩
  rw [hq] at h
  cases h
  refine ⟨t, ?_⟩
  rw [← show byPlatform onWindows.cfg .ENOENT .ENOTDIR .ENOTDIR = .ENOENT by decide +kernel]
  exact makedirs_through_file (by decide +kernel) (by decide +kernel) hq

/-- read-only, for an existing file -/
def rdMode : OpenModes := ⟨true, true, false, false, false, false⟩
/-- mode `x`: write-only, a new file -/
def newMode : OpenModes := ⟨false, false, true, false, false, true⟩
example : openPath "/a".toList rdMode none false false onWindows = (.error (.os .EACCES), onWindows) := by
  rw [← show byPlatform onWindows.cfg .EACCES .EISDIR .EISDIR = .EACCES by decide +kernel]
  exact open_directory (r := 2) rfl rfl (real := onWindows.absnorm "/a".toList) (by decide +kernel) (by decide +kernel) (Or.inl (by decide +kernel)) _ _ _
example : openPath "/a".toList rdMode none false false onMac = (.error (.os .EISDIR), onMac) := by
  rw [← show byPlatform onMac.cfg .EACCES .EISDIR .EISDIR = .EISDIR by decide +kernel]
  exact open_directory (r := 2) rfl rfl (real := "/a".toList) (by decide +kernel) (by decide +kernel) (Or.inl (by decide +kernel)) _ _ _
example : openPath "/x/".toList newMode none false false onLinux = (.error (.os .EISDIR), onLinux) := by
  rw [← show byPlatform onLinux.cfg .EINVAL .ENOENT .EISDIR = .EISDIR by decide +kernel]
  exact open_new_sep rfl (real := "/x".toList) (by decide +kernel) (by decide +kernel) (by decide +kernel) _ _ _
example : openPath "/x/".toList newMode none false false onMac = (.error (.os .ENOENT), onMac) := by
  rw [← show byPlatform onMac.cfg .EINVAL .ENOENT .EISDIR = .ENOENT by decide +kernel]
  exact open_new_sep rfl (real := "/x".toList) (by decide +kernel) (by decide +kernel) (by decide +kernel) _ _ _
example : openPath "/b".toList newMode none false false onLinux = (.error (.os .EEXIST), onLinux) :=
  (open_excl_link rfl (real := "/zz".toList) (by decide +kernel) (by decide +kernel) _ _ _).1 (by decide +kernel)
example : osOpen "/a".toList ⟨false, false, true, false, false, false⟩ 0o777 onLinux = (.error (.os .EISDIR), onLinux) :=
  (osOpen_directory onLinux_reachable (r := 2) (by decide +kernel) (by decide +kernel) (by decide +kernel) (by decide +kernel) (by simp)).1 (Or.inr (Or.inr ⟨rfl, by decide +kernel⟩))
example : ∃ fd s', osOpen "/a".toList ⟨false, false, true, false, false, false⟩ 0o777 onMac = (.ok fd, s') := by
  obtain ⟨fd, s', h, -⟩ := (osOpen_directory onMac_reachable (r := 2) (p := "/a".toList) (f := ⟨false, false, true, false, false, false⟩) (mode := 0o777)
    (by decide +kernel) (by decide +kernel) (by decide +kernel) (by decide +kernel) (by simp)).2 (by rw [show onMac.cfg.isMac = true by decide +kernel]; simp)
  exact ⟨fd, s', h⟩
example : onWindows.stat "/g/".toList = .error (.os .EINVAL) := by
  rw [← show byPlatform onWindows.cfg .EINVAL .ENOTDIR .ENOTDIR = .EINVAL by decide +kernel]
  exact stat_file_sep (r := 5) (by decide +kernel) (by decide +kernel) (by decide +kernel) (by decide +kernel)
example : onLinux.stat "/g/".toList = .error (.os .ENOTDIR) := by
  rw [← show byPlatform onLinux.cfg .EINVAL .ENOTDIR .ENOTDIR = .ENOTDIR by decide +kernel]
  exact stat_file_sep (r := 5) (by decide +kernel) (by decide +kernel) (by decide +kernel) (by decide +kernel)
example : mkdir "/".toList 0o777 onWindows = (.error (.os .EACCES), onWindows) := by
  rw [mkdir_in_use (q := ['\\']) (x := true) 0o777 (by decide +kernel) (by decide +kernel) (by decide +kernel) (by decide +kernel) (by decide +kernel), if_neg (by simp), if_pos ⟨by decide +kernel, by decide +kernel⟩]
example : mkdir "/b/".toList 0o777 onMac = (removeObject "/b".toList >>= fun _ => mkdirTail "/b".toList 0o777) onMac := by
  rw [mkdir_in_use (q := "/b".toList) (x := false) 0o777 (by decide +kernel) (by decide +kernel) (by decide +kernel) (by decide +kernel) (by decide +kernel), if_pos ⟨rfl, by decide +kernel, by decide +kernel⟩]
example : makedirs "/b/".toList 0o777 false onMac = (removeObject "/b".toList >>= fun _ => makedirsTail "/b".toList 0o777 false) onMac := by
  rw [makedirs_broken_mac (x := false) 0o777 false (by decide +kernel) (by decide +kernel) (by decide +kernel), if_pos ⟨rfl, by decide +kernel, by decide +kernel⟩, show onMac.absnorm "/b/".toList = "/b".toList by decide +kernel]

/-- a write-protected directory, and a user -/
def userOn (k : Cfg) : FS := runs (platOps ++ [.chmod "/a".toList 0o555 true]) (initFS k 50 1000 0 0o022 7 none)
example : addObject "/a".toList 5 (userOn demoCfg) = (.error (.os .EACCES), userOn demoCfg) :=
  (add_protected (d := 2) (by decide +kernel) (by decide +kernel) (by decide +kernel) (by decide +kernel) (by decide +kernel) (by decide +kernel)).1 (by decide +kernel)

/-- a file opened with `os.open`, read-only -/
def rawOn (k : Cfg) : FS := runs (platOps ++ [.osOpen "/g".toList ⟨false, false, false, false, false, false⟩ 0o777]) (initFS k 50 0 0 0o022 7 none)
example : write 3 [] (rawOn demoCfg) = (.error (.os .EBADF), rawOn demoCfg) := by
  rw [(raw_empty (s := rawOn demoCfg) (h := 3) (by decide +kernel) (by decide +kernel) (by decide +kernel)).2 (by decide +kernel) []]
  exact if_neg (by rw [show (rawOn demoCfg).cfg.isWin = false by decide +kernel]; simp)
end Verif
