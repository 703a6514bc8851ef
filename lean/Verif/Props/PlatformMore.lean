import Verif.Props.PlatformOpen
import Verif.Props.Owner
/-!
# C78, continued: links, trailing separators and renames by platform; C80: file times and modes on Windows
-/

namespace Verif
open Py Spec Cfg

section
variable {s : FS}

/-! ## symlink, link and readlink with a trailing separator -/

/-- C78: making a link whose path ends with a separator. If something is there: EEXIST. Otherwise, if the target exists: ENOENT, but on Windows the call goes on.
If the target does not exist either: EINVAL on Windows; ENOENT if there is not even a broken link; for a broken link EEXIST on Linux. -/
theorem symlink_sep {p t : Str} {cm b b' : Bool} (hnorm : s.cfg.normcase (s.cfg.makeStringPath p) = p) (ht : s.cfg.makeStringPath t = t)
    (hsep : s.cfg.endsWithSep p = true) (hp : s.exists_ p = .ok b) (htx : s.exists_ t = .ok b') :
    (b = true → createSymlink p t cm s = (.error (.os .EEXIST), s)) ∧
    (b = false → b' = true → s.cfg.isWin = false → createSymlink p t cm s = (.error (.os .ENOENT), s)) ∧
    (b = false → b' = false → s.cfg.isWin = true → createSymlink p t cm s = (.error (.os .EINVAL), s)) ∧
    (b = false → b' = false → s.cfg.isWin = false → s.existsL (s.cfg.stripTrailing p) = .ok false → createSymlink p t cm s = (.error (.os .ENOENT), s)) ∧
    (b = false → b' = false → s.cfg.isWin = false → s.cfg.isMac = false → s.existsL (s.cfg.stripTrailing p) = .ok true →
      createSymlink p t cm s = (.error (.os .EEXIST), s)) := by
  unfold createSymlink
  rw [M.bind_eq]
  dsimp only [M.get]
  rw [hnorm, ht, if_pos hsep]
  rw [M.bind_eq, rd_eq (f := fun x => x.exists_ _) hp]
  try dsimp only
  refine ⟨?_, ?_, ?_, ?_, ?_⟩
  · intro h1
    rw [if_pos h1]; rfl
  · intro h1 h2 h3
    rw [if_neg (by simp [h1])]
    try dsimp only
    rw [M.bind_eq, rd_eq (f := fun x => x.exists_ _) htx]
    try dsimp only
    rw [if_pos h2, h3, if_pos (by simp)]; rfl
  · intro h1 h2 h3
    rw [if_neg (by simp [h1])]
    try dsimp only
    rw [M.bind_eq, rd_eq (f := fun x => x.exists_ _) htx]
    try dsimp only
    rw [if_neg (by simp [h2]), if_pos h3]; rfl
  · intro h1 h2 h3 h4
    rw [if_neg (by simp [h1])]
    try dsimp only
    rw [M.bind_eq, rd_eq (f := fun x => x.exists_ _) htx]
    try dsimp only
    rw [if_neg (by simp [h2]), if_neg (by simp [h3])]
    try dsimp only
    rw [M.bind_eq, rd_eq (f := fun x => x.existsL _) h4]
    try dsimp only
    rw [if_pos (by simp)]; rfl
  · intro h1 h2 h3 h5 h4
    rw [if_neg (by simp [h1])]
    try dsimp only
    rw [M.bind_eq, rd_eq (f := fun x => x.exists_ _) htx]
    try dsimp only
    rw [if_neg (by simp [h2]), if_neg (by simp [h3])]
    try dsimp only
    rw [M.bind_eq, rd_eq (f := fun x => x.existsL _) h4]
    try dsimp only
    rw [if_neg (by simp), if_neg (by simp [h5])]; rfl

/-- C78: a hard link cannot get a name ending with a separator (ENOENT), except on Windows, where the separator is ignored: the call is the same as without it. -/
theorem link_new_sep {old new new' : Str} {f : Bool} (hb : s.cfg.endsWithSep old = false) (hb' : s.cfg.endsWithSep new = true)
    (hx : s.existsL (s.absnorm new) = .ok false)
    (hp : s.exists_ (if (s.cfg.splitpath (s.absnorm new)).1 = [] then s.cwd else (s.cfg.splitpath (s.absnorm new)).1) = .ok true) :
    (s.cfg.isWin = false → link old new f s = (.error (.os .ENOENT), s)) ∧
    (s.cfg.isWin = true → s.absnorm new' = s.absnorm new → link old new f s = link old new' f s) := by
  have e1 : linkParent (if (s.cfg.splitpath (s.absnorm new)).1 = [] then s.cwd else (s.cfg.splitpath (s.absnorm new)).1) false s = (.ok (), s) := by
    unfold linkParent
    rw [M.bind_eq, rd_eq (f := fun x => x.exists_ _) hp]
    rfl
  have front : ∀ new', s.absnorm new' = s.absnorm new → link old new' f s =
      linkTail old new' (if (s.cfg.splitpath (s.absnorm new)).1 = [] then s.cwd else (s.cfg.splitpath (s.absnorm new)).1) (s.cfg.splitpath (s.absnorm new)).2 f s := by
    intro new' hn
    unfold link createLink
    rw [M.bind_eq]
    dsimp only [M.get]
    rw [hn, M.bind_eq, rd_eq (f := fun x => x.existsL _) hx]
    try dsimp only
    rw [if_neg (by simp)]
    try dsimp only
    rw [M.bind_eq, e1]
  constructor
  · intro hw
    rw [front new rfl]
    unfold linkTail
    rw [M.bind_eq]
    dsimp only [M.get]
    rw [hb, hb', hw, if_neg (by simp), if_pos (by simp)]
    rfl
  · intro hw hn
    rw [front new rfl, front new' hn]
    unfold linkTail
    rw [M.bind_eq, M.bind_eq]
    dsimp only [M.get]
    simp only [hb, hw, Bool.false_eq_true, if_false, Bool.not_true, Bool.false_and]

/-- C78: `os.readlink` of a link given with a trailing separator: EINVAL if the path leads somewhere, except on Windows; if the link leads nowhere: EINVAL on
Windows, and otherwise ENOENT, or for a link in a circle ELOOP on Linux and the path of the link on macOS. -/
theorem readlink_sep {p : Str} {r : Ref} {b b' : Bool} (hsep : s.cfg.endsWithSep p = true) (hr : s.lresolve p = .ok r)
    (hl : ifmt (s.heap r).mode = S_IFLNK) (hx : s.exists_ p = .ok b) (ho : s.exists_ (s.objPath r) = .ok b') :
    (b = true → s.cfg.isWin = false → s.readlink p = .error (.os .EINVAL)) ∧
    (b' = true → (b = false ∨ s.cfg.isWin = true) → s.readlink p = .ok (s.linkTarget (s.heap r))) ∧
    (b' = false → s.cfg.isWin = true → s.readlink p = .error (.os .EINVAL)) ∧
    (b = false → b' = false → s.cfg.isWin = false → s.isCircular r = .ok false → s.readlink p = .error (.os .ENOENT)) ∧
    (b = false → b' = false → s.cfg.isWin = false → s.isCircular r = .ok true →
      s.readlink p = if s.cfg.isMac then .ok (s.objPath r) else .error (.os .ELOOP)) := by
  have hl' : ¬ ifmt (s.heap r).mode ≠ S_IFLNK := by simp [hl]
  unfold FS.readlink
  simp only [hr, hsep, if_true, hx, ho, bind, Except.bind, if_neg hl']
  refine ⟨?_, ?_, ?_, ?_, ?_⟩
  · intro h1 h2; simp [h1, h2]
  · intro h1 h2
    rcases h2 with h2 | h2
    · simp [h1, h2]
    · simp [h1, h2]
  · intro h1 h2; simp [h1, h2]
  · intro h1 h2 h3 h4; simp [h1, h2, h3, h4]
  · intro h1 h2 h3 h4; simp only [h1, h2, h3, h4]; cases s.cfg.isMac <;> simp

/-- C78: `os.path.islink` of a path with a trailing separator, at a link that leads somewhere: false, except on Windows, where it is true if the link does not
lead to a regular file. -/
theorem islink_sep {p : Str} {r l : Ref} (hsep : s.cfg.endsWithSep p = true) (hr : s.lresolve p = .ok r) (hl : (s.heap r).isLnk = true)
    (ht : s.resolve p = .ok l) (hll : (s.heap l).isLnk = false) : s.isLink p = .ok (s.cfg.isWin && !(s.heap l).isRegMode) := by
  have hnd : (s.heap r).isDirMode = false := by
    unfold Obj.isDirMode; unfold Obj.isLnk at hl
    simp only [beq_iff_eq] at hl ⊢
    rw [beq_eq_false_iff_ne, hl]; decide
  have hlm : (ifmt (s.heap r).mode == S_IFLNK) = true := hl
  have hr' : s.lresolveG s.rc p = .ok r := hr
  have ht' : s.resolveG s.rc p true = .ok l := ht
  unfold FS.isLink FS.isLinkG FS.isOfTypeG FS.resolveFG FS.raiseForSepG
  simp only [hr', ht', hsep, hl, if_true, Bool.false_eq_true, if_false, bind, Except.bind, Bool.not_true, Bool.false_or, Bool.not_false, Bool.and_true]
  cases hw : s.cfg.isWin <;> cases hm : s.cfg.isMac <;> cases hreg : (s.heap l).isRegMode <;> simp [hnd, hll, hreg, hlm, Err.isOS, pure, Except.pure]

/-- C78: `os.lstat` of a path with a trailing separator, at a link (root): if the link leads to something that is no directory (on Windows: to a regular
file), EINVAL on Windows and ENOTDIR elsewhere; if it leads nowhere, EINVAL on Windows and the error of following it on Linux; on macOS a link in a circle has an lstat. -/
theorem lstat_link_sep {p : Str} {r : Ref} (hsep : s.cfg.endsWithSep p = true) (hroot : s.isRoot = true) (hr : s.lresolve p = .ok r) (hl : (s.heap r).isLnk = true) :
    (∀ l, s.resolve p = .ok l → s.stat p false = if (if s.cfg.isWin then (s.heap l).isRegMode else !(s.heap l).isDirMode) then
      .error (.os (byPlatform s.cfg .EINVAL .ENOTDIR .ENOTDIR)) else .ok (s.statOf r)) ∧
    (∀ e, s.resolve p = .error (.os e) → s.stat p false = if s.cfg.isMac = true ∧ e ≠ .ENOENT then .ok (s.statOf r)
      else .error (.os (byPlatform s.cfg .EINVAL e e))) := by
  have hr' : s.lresolveG s.rc p = .ok r := hr
  constructor
  · intro l hl2
    have ht' : s.resolveG s.rc p true = .ok l := hl2
    unfold FS.stat FS.resolve FS.resolveFG FS.raiseForSep FS.raiseForSepG byPlatform
    simp only [hr', ht', hsep, hl, hroot, if_true, Bool.false_eq_true, if_false, bind, Except.bind, Bool.not_true, Bool.not_false, Bool.true_or, Bool.and_false]
    cases s.cfg.isWin <;> cases s.cfg.isMac <;> cases (s.heap l).isRegMode <;> cases (s.heap l).isDirMode <;> simp [pure, Except.pure]
  · intro e he
    have ht' : s.resolveG s.rc p true = .error (.os e) := he
    unfold FS.stat FS.resolve FS.resolveFG FS.raiseForSep FS.raiseForSepG byPlatform
    simp only [hr', ht', hsep, hl, hroot, if_true, Bool.false_eq_true, if_false, bind, Except.bind, Bool.not_true, Err.isOS, Bool.true_and]
    cases s.cfg.isWin <;> cases s.cfg.isMac <;> by_cases c : e = .ENOENT <;> simp [pure, Except.pure, c]

/-! ## rename between links and directories -/

/-- C78: outside Windows no directory replaces a link (ENOTDIR) and no link replaces a directory (EISDIR; ENOTDIR if given with a trailing separator on Linux);
on macOS a link given with a trailing separator takes the place of the directory, even of one with entries. -/
theorem rename_link_dir {old new : Str} {o : Ref} {b : Bool} (force : Bool) (hw : s.cfg.isWin = false) (hx : s.existsL (s.absnorm old) = .ok true)
    (ho : s.lresolve (s.absnorm old) = .ok o) (hbr : s.cfg.endsWithSep old = true → s.exists_ (s.absnorm old) = .ok true)
    (hlo : s.isLink (s.absnorm old) = .ok b) :
    (s.isDir (s.absnorm old) false = .ok true → s.isLink (s.absnorm new) = .ok true → rename old new force s = (.error (.os .ENOTDIR), s)) ∧
    (s.isDir (s.absnorm old) false = .ok false → b = true → s.isDir (s.absnorm new) false = .ok true →
      (s.cfg.endsWithSep old = false → rename old new force s = (.error (.os .EISDIR), s)) ∧
      (s.cfg.endsWithSep old = true → s.cfg.isMac = false → rename old new force s = (.error (.os .ENOTDIR), s)) ∧
      (s.cfg.endsWithSep old = true → s.cfg.isMac = true → ∀ n, s.existsL (s.absnorm new) = .ok true → s.getObject (s.absnorm new) = .ok n →
        s.absnorm old ≠ s.absnorm new → o ≠ n → (s.heap n).isDirMode = true → (s.heap n).isLnk = false → (s.heap o).isLnk = true →
        rename old new force s = renameTail (s.absnorm old) (s.absnorm new) o s)) := by
  have front : rename old new force s = (rd (·.posixDirLinkErrors (s.absnorm new) (s.absnorm old) (s.cfg.endsWithSep old)) >>= fun _ =>
      rd (·.existsL (s.absnorm new)) >>= fun x => if x = true then
        (renameToExisting force (s.absnorm new) (s.absnorm old) o (s.cfg.endsWithSep old) >>= fun y => match y with
          | none => M.pure ()
          | some new => renameTail (s.absnorm old) new o)
        else renameTail (s.absnorm old) (s.absnorm new) o) s := by
    unfold rename
    rw [M.bind_eq]
    dsimp only [M.get]
    rw [M.bind_eq, rd_eq (f := fun x => x.existsL _) hx]
    try dsimp only
    rw [if_neg (by simp)]
    try dsimp only
    cases he : s.cfg.endsWithSep old with
    | false =>
      rw [if_neg (by simp)]
      try dsimp only
      rw [M.bind_eq, rd_eq (f := fun x => x.lresolve _) ho]
      try dsimp only
      rw [hw, if_pos (by simp)]
      rfl
    | true =>
      have hb : s.brokenLinkSep (s.absnorm old) = .ok () := by
        unfold FS.brokenLinkSep
        simp only [hlo, hbr he, bind, Except.bind]
        cases b <;> rfl
      rw [if_pos (by simp)]
      try dsimp only
      rw [M.bind_eq, rd_eq (f := fun x => x.brokenLinkSep _) hb]
      try dsimp only
      rw [M.bind_eq, rd_eq (f := fun x => x.lresolve _) ho]
      try dsimp only
      rw [hw, if_pos (by simp)]
      rfl
  constructor
  · intro h1 h2
    have : s.posixDirLinkErrors (s.absnorm new) (s.absnorm old) (s.cfg.endsWithSep old) = .error (.os .ENOTDIR) := by
      unfold FS.posixDirLinkErrors
      simp [h1, h2, bind, Except.bind]
    rw [front, M.bind_eq, rd_eq (f := fun x => x.posixDirLinkErrors _ _ _) this]
  · intro h1 h2 h3
    refine ⟨fun h4 => ?_, fun h4 h5 => ?_, fun h4 h5 n hxn hn hne hon hnd hnl hol => ?_⟩
    · have : s.posixDirLinkErrors (s.absnorm new) (s.absnorm old) (s.cfg.endsWithSep old) = .error (.os .EISDIR) := by
        unfold FS.posixDirLinkErrors
        simp [h1, hlo, h2, h3, h4, bind, Except.bind]
      rw [front, M.bind_eq, rd_eq (f := fun x => x.posixDirLinkErrors _ _ _) this]
    · have : s.posixDirLinkErrors (s.absnorm new) (s.absnorm old) (s.cfg.endsWithSep old) = .error (.os .ENOTDIR) := by
        unfold FS.posixDirLinkErrors
        simp [h1, hlo, h2, h3, h4, h5, bind, Except.bind]
      rw [front, M.bind_eq, rd_eq (f := fun x => x.posixDirLinkErrors _ _ _) this]
    · have : s.posixDirLinkErrors (s.absnorm new) (s.absnorm old) (s.cfg.endsWithSep old) = .ok () := by
        unfold FS.posixDirLinkErrors
        simp [h1, hlo, h2, h3, h4, h5, bind, Except.bind]
      have horeg : (s.heap o).isRegMode = false := by
        unfold Obj.isRegMode; unfold Obj.isLnk at hol
        simp only [beq_iff_eq] at hol ⊢
        rw [beq_eq_false_iff_ne, hol]; decide
      have herr : s.renameDirLinkErr force n o true = .ok () := by
        unfold FS.renameDirLinkErr
        simp [hw, hnl, hol, h5, horeg]
      have hte : renameToExisting force (s.absnorm new) (s.absnorm old) o true s = (.ok (some (s.absnorm new)), s) := by
        unfold renameToExisting
        rw [M.bind_eq, rd_eq (f := fun x => x.getObject _) hn]
        try dsimp only
        rw [M.bind_eq]
        dsimp only [M.get]
        rw [if_neg hne, if_neg hon, if_pos (by simp [hnd])]
        try dsimp only
        rw [M.bind_eq, rd_eq (f := fun x => x.renameDirLinkErr _ _ _ _) herr]
        rfl
      rw [front, M.bind_eq, rd_eq (f := fun x => x.posixDirLinkErrors _ _ _) this]
      try dsimp only
      rw [M.bind_eq, rd_eq (f := fun x => x.existsL _) hxn]
      try dsimp only
      rw [if_pos rfl, h4, M.bind_eq, hte]

/-! ## paths -/

/-- C78: on Windows `..` is resolved by its text alone: paths with the same normal form lead to the same place, also through names that do not exist. -/
theorem dotdot_windows {p q : Str} (hw : s.cfg.isWin = true) (hp : p ≠ []) (hq : q ≠ []) (h : s.absnorm (s.originalPath p) = s.absnorm (s.originalPath q)) :
    s.resolvePath p = s.resolvePath q := by
  unfold FS.resolvePath FS.resolvePathG FS.validRelG
  simp only [hw, if_true, if_neg hp, if_neg hq, bind, Except.bind, Bool.not_true, Bool.false_eq_true, if_false, h]

/-- C78: on Windows a link text with the prefix `\\?\` leads where the text without the prefix leads; elsewhere the prefix is a part of the text. -/
theorem followLink_unc {res : List Str} {l l' : Ref} (ht : s.linkTarget (s.heap l) = '\\' :: '\\' :: '?' :: '\\' :: s.linkTarget (s.heap l'))
    (hn : ¬ ['\\', '\\', '?', '\\'] <+: s.linkTarget (s.heap l')) :
    (s.cfg.isWin = true → s.followLink res l = s.followLink res l') ∧
    (s.cfg.isWin = false → s.cfg.startsWithRoot (s.linkTarget (s.heap l)) = true → s.followLink res l = s.cfg.normpath (s.linkTarget (s.heap l))) := by
  unfold FS.followLink
  constructor
  · intro hw
    rw [ht]
    have hn' : (['\\', '\\', '?', '\\'] : Str).isPrefixOf (s.linkTarget (s.heap l')) = false := by
      rw [Bool.eq_false_iff]; intro h; exact hn (List.isPrefixOf_iff_prefix.mp h)
    simp [hw, hn']
  · intro hw h
    simp [hw, h]

/-- C78: looking up a name below something that is no directory gives ENOENT on Windows and ENOTDIR elsewhere. -/
theorem lresolve_below_file {p : Str} {r : Ref} {b : Option Bytes} (hp : p ≠ s.cfg.root) (hd : p ≠ s.devName) (hr : s.resolve (s.lparent p).1 = .ok r)
    (hf : (s.heap r).content = .file b) : s.lresolve p = .error (.os (byPlatform s.cfg .ENOENT .ENOTDIR .ENOTDIR)) ∨ p = [] := by
  by_cases h0 : p = []
  · exact Or.inr h0
  left
  have hr' : s.resolveG s.rc (s.lparent p).1 true = .ok r := hr
  unfold FS.lresolve FS.lresolveG FS.lentry byPlatform
  simp only [hp, h0, hr', hf, bind, Except.bind, if_false]
  cases s.cfg.isWin <;> cases s.cfg.isMac <;> simp

theorem objLoop_append (k : FS.Rec) (check : Bool) : ∀ (a b : List Str) (x r : Ref), s.objLoop k check x a = .ok r → s.objLoop k check x (a ++ b) = s.objLoop k check r b := by
  intro a
  induction a with
  | nil => intro b x r h; simp only [FS.objLoop, Except.ok.injEq] at h; subst h; rfl
  | cons c cs ih =>
    intro b x r h
    rw [List.cons_append]
    rw [FS.objLoop] at h ⊢
    simp only [bind, Except.bind] at h ⊢
    rcases hd : s.deref k x with e | y
    · rw [hd] at h; cases h
    rw [hd] at h
    dsimp only at h ⊢
    by_cases h1 : (!(s.heap y).isDirMode) = true
    · rw [if_pos h1] at h; cases h
    rw [if_neg h1] at h ⊢
    cases hc : (s.heap y).content with
    | file _ => rw [hc] at h; cases h
    | dir es =>
      rw [hc] at h
      dsimp only at h ⊢
      rcases hg : s.getEntry es c with e | z
      · rw [hg] at h; cases h
      rw [hg] at h
      dsimp only at h ⊢
      by_cases h2 : (!s.isRoot && check && decide ((s.heap z).mode &&& PERM_READ = 0)) = true
      · rw [if_pos h2] at h; cases h
      · rw [if_neg h2] at h ⊢
        exact ih b z r h

/-- C78: so does `get_object` of names that go on below something that is neither a directory nor a link. -/
theorem getObject_below_file {k : FS.Rec} {check : Bool} {a b : List Str} {c : Str} {r : Ref} (h : s.objLoop k check rootRef a = .ok r)
    (hd : (s.heap r).isDirMode = false) (hl : (s.heap r).isLnk = false) :
    s.objLoop k check rootRef (a ++ c :: b) = .error (.os (byPlatform s.cfg .ENOENT .ENOTDIR .ENOTDIR)) := by
  rw [objLoop_append k check a (c :: b) rootRef r h, FS.objLoop]
  unfold FS.deref byPlatform
  simp only [hl, hd, bind, Except.bind, Bool.false_eq_true, if_false, Bool.not_false, if_true]
  cases s.cfg.isWin <;> cases s.cfg.isMac <;> rfl

/-- C78: `os.mkdir` needs the parent directory. For a parent path that ends with `/..`, outside Windows it is the path before the first `/..` that must exist. -/
theorem mkdir_no_parent {p q base : Str} (mode : Nat) (hp : s.cfg.stripTrailing p ≠ [])
    (hq : q = (s.cfg.splitpath (if s.cfg.isWin then s.absnorm (s.cfg.stripTrailing p) else s.cfg.stripTrailing p)).1) (hne : q ≠ [])
    (hbase : base = (if s.cfg.isWin = false ∧ (s.cfg.sep :: ['.', '.']) <:+ q then (cutAtFirst (s.cfg.sep :: ['.', '.']) q).getD q else s.cfg.normpath q))
    (hx : s.exists_ base = .ok false) : mkdir p mode s = (.error (.os .ENOENT), s) := by
  subst hq
  have key : s.mkdirParent (if s.cfg.isWin then s.absnorm (s.cfg.stripTrailing p) else s.cfg.stripTrailing p) = .error (.os .ENOENT) := by
    unfold FS.mkdirParent
    dsimp only
    rw [if_pos hne]
    have hb : (if (List.isSuffixOf (s.cfg.sep :: Cfg.dotdot) (s.cfg.splitpath (if s.cfg.isWin then s.absnorm (s.cfg.stripTrailing p) else s.cfg.stripTrailing p)).1 && !s.cfg.isWin) = true
        then (cutAtFirst (s.cfg.sep :: Cfg.dotdot) (s.cfg.splitpath (if s.cfg.isWin then s.absnorm (s.cfg.stripTrailing p) else s.cfg.stripTrailing p)).1).getD
          (s.cfg.splitpath (if s.cfg.isWin then s.absnorm (s.cfg.stripTrailing p) else s.cfg.stripTrailing p)).1
        else s.cfg.normpath (s.cfg.splitpath (if s.cfg.isWin then s.absnorm (s.cfg.stripTrailing p) else s.cfg.stripTrailing p)).1) = base := by
      rw [hbase]
      by_cases c : s.cfg.isWin = false ∧ (s.cfg.sep :: ['.', '.']) <:+ (s.cfg.splitpath (if s.cfg.isWin then s.absnorm (s.cfg.stripTrailing p) else s.cfg.stripTrailing p)).1
      · rw [if_pos c, if_pos]
        · rfl
        · rw [Bool.and_eq_true]
          exact ⟨List.isSuffixOf_iff_suffix.mpr c.2, by simp [c.1]⟩
      · rw [if_neg c, if_neg]
        intro h
        rw [Bool.and_eq_true] at h
        exact c ⟨by simpa using h.2, List.isSuffixOf_iff_suffix.mp h.1⟩
    rw [hb, hx]
    rfl
  unfold mkdir
  rw [M.bind_eq]
  dsimp only [M.get]
  rw [if_neg hp]
  try dsimp only
  rw [M.bind_eq, rd_eq (f := fun x => x.mkdirParent _) key]

/-! ## modes and times on Windows (C80) -/

/-- C80: on Windows `os.chmod` only decides whether the file can be written: the write permissions of user, group and others are all set or all cleared,
as the argument has the user's write permission or not, and no other bit below 0o1000000 changes. -/
theorem chmod_windows {p : Str} {mode : Nat} {f : Bool} {r : Ref} (hw : s.cfg.isWin = true) (hr : s.resolve p f = .ok r) :
    ∃ s', chmod p mode f s = (.ok (), s') ∧ (∀ x, x ≠ r → s'.heap x = s.heap x) ∧
      (s'.heap r).mode &&& 0o222 = (if mode &&& 0o200 ≠ 0 then 0o222 else 0) ∧ (s'.heap r).mode &&& 0o777555 = (s.heap r).mode &&& 0o777555 ∧
      (s'.heap r).ctime = s.clock ∧ (s'.heap r).content = (s.heap r).content := by
  unfold chmod
  rw [M.bind_eq, rd_eq (f := fun x => x.resolve p f) hr]
  refine ⟨_, rfl, fun x hx => ?_, ?_, ?_, ?_, ?_⟩
  · show upd s.heap r _ x = _
    exact upd_ne _ _ hx
  all_goals (show _ = _; simp only [FS.setObj, upd_same, hw, if_true])
  · by_cases c : mode &&& 0o200 = 0
    · rw [if_neg (show ¬ mode &&& PERM_WRITE ≠ 0 from fun h => h c), if_neg (fun h => h c), Nat.and_assoc]
      simp
    · rw [if_pos (show mode &&& PERM_WRITE ≠ 0 from c), if_pos c, Nat.and_or_distrib_right]
      apply Nat.eq_of_testBit_eq
      intro i
      rw [Nat.testBit_or, Nat.testBit_and]
      cases (s.heap r).mode.testBit i <;> simp
  · by_cases c : mode &&& 0o200 = 0
    · rw [if_neg (show ¬ mode &&& PERM_WRITE ≠ 0 from fun h => h c), Nat.and_assoc]
      simp
    · rw [if_pos (show mode &&& PERM_WRITE ≠ 0 from c), Nat.and_or_distrib_right]
      simp

/-- C80: on Windows reading changes no time stamp: a read through a file object opened only for reading changes nothing about any file. -/
theorem read_windows {s' : FS} {h : Nat} {n : Option Nat} {b : Bytes} (hw : s.cfg.isWin = true) (hu : (s.handles h).update = false)
    (hr : read h n s = (.ok b, s')) : s'.heap = s.heap := by
  have key : Okp (read h n) (fun _ s' => s'.heap = s.heap) s := by
    unfold read
    apply okp_get
    dsimp only
    refine okp_ite (fun _ => okp_throw _) fun _ => ?_
    apply okp_checkOpen
    intro hop
    refine okp_ite (fun _ => ?_) fun _ => ?_
    · refine okp_ite (fun _ => ?_) fun _ => ?_
      · exact okp_pure rfl
      · unfold hRaise
        apply okp_hget
        exact okp_ite (fun _ => okp_raise _) fun _ => okp_throw _
    have q1 := fq_syncIo h s
    have e1 := syncIo_heap h s
    rcases hs : syncIo h s with ⟨_ | u, s1⟩
    · constructor; intro a t e; rw [M.bind_eq, hs] at e; injection e with e _; cases e
    rw [hs] at q1 e1
    apply okp_eqBind hs
    have hop1 : s1.isOpen h = true := by
      unfold FS.isOpen at hop ⊢
      rw [q1.openFiles, q1.fd]; exact hop
    have hu1 : (s1.handles h).update = false := by rw [q1.update]; exact hu
    apply okp_eqBind (flush_readonly hop1 hu1)
    rw [if_neg (by rw [hw]; simp)]
    apply okp_hget
    refine okp_ite (fun _ => ?_) fun _ => ?_
    · split
      · exact okp_throw _
      · constructor; intro a t e; injection e with _ e; subst e; exact e1
    · constructor; intro a t e; injection e with _ e; subst e; exact e1
  exact key.elim _ _ hr

/-- C80: on Windows `flush` stores what was written without touching any time stamp. -/
theorem flush_windows {s' : FS} {h : Nat} (hw : s.cfg.isWin = true) (hf : flush h s = (.ok (), s')) (hu : (s.handles h).update = true)
    (hn : (s.handles h).obj ≠ devNullRef) (hb : bytesOf s (s.handles h).obj ≠ none) :
    (∀ x, x ≠ (s.handles h).obj → s'.heap x = s.heap x) ∧
    (s'.heap (s.handles h).obj).atime = (s.heap (s.handles h).obj).atime ∧ (s'.heap (s.handles h).obj).mtime = (s.heap (s.handles h).obj).mtime ∧
    (s'.heap (s.handles h).obj).ctime = (s.heap (s.handles h).obj).ctime := by
  have hoh := flush_open hf
  obtain ⟨C, hC⟩ := Option.ne_none_iff_exists'.mp hb
  have key : ∃ D, Flushed s s' h (s.handles h).obj D := by
    by_cases hap : (s.handles h).append = true
    · have := flush_append_spec hoh hu hap hn rfl (bytesOf_some.mp hC)
      unfold wp at this; rw [hf] at this
      rcases this with ⟨e, _⟩ | ⟨_, f, _⟩
      · cases e
      · exact ⟨_, f⟩
    · rw [Bool.not_eq_true] at hap
      have := flush_spec hoh hu hap hn rfl (bytesOf_some.mp hC)
      unfold wp at this; rw [hf] at this
      rcases this with ⟨e, _⟩ | ⟨_, f, _⟩
      · cases e
      · exact ⟨_, f⟩
  obtain ⟨D, f⟩ := key
  refine ⟨f.others, by rw [f.obj], ?_, ?_⟩
  · rw [f.times.1]; unfold flushTime; rw [if_pos (Or.inl hw)]
  · rw [f.times.2]; unfold flushTime; rw [if_pos (Or.inl hw)]

theorem syncIo_changed (h : Nat) (s : FS) : ((syncIo h s).2.handles h).changed = (s.handles h).changed := by
  unfold syncIo setStream
  rw [M.bind_eq]
  dsimp only [M.get]
  split
  · rfl
  · rw [M.bind_eq]
    cases s.byteContents (s.handles h).obj with
    | none => show (upd s.handles h _ h).changed = _; rw [upd_same]
    | some b => show (upd (upd s.handles h _) h _ h).changed = _; rw [upd_same]; show (upd s.handles h _ h).changed = _; rw [upd_same]

/-- C80: on Windows `flush` makes the file object remember whether it has ever changed the bytes of the file. -/
theorem flush_remembers {s' : FS} {h : Nat} (hw : s.cfg.isWin = true) (hf : flush h s = (.ok (), s')) (hu : (s.handles h).update = true)
    (hn : (s.handles h).obj ≠ devNullRef) (hb : bytesOf s (s.handles h).obj ≠ none) :
    (s'.handles h).changed = ((s.handles h).changed || decide (bytesOf s' (s.handles h).obj ≠ bytesOf s (s.handles h).obj)) := by
  obtain ⟨C, hC⟩ := Option.ne_none_iff_exists'.mp hb
  have hcC := bytesOf_some.mp hC
  -- storing
  have store : ∀ (s : FS) (D : Bytes), s.cfg.isWin = true → (s.handles h).obj ≠ devNullRef → (s.heap (s.handles h).obj).content = .file (some C) →
      Okp (flushStore h D) (fun _ s' => (s'.handles h).changed = ((s.handles h).changed || decide (some C ≠ some D)) ∧ bytesOf s' (s.handles h).obj = some D) s := by
    intro s D hw hn hc
    unfold flushStore
    apply okp_hmodBind
    set s1 := s.setH h fun H => { H with flushPos := H.pos } with hs1
    have ho1 : (s1.handles h).obj = (s.handles h).obj := by rw [hs1]; show (upd s.handles h _ h).obj = _; rw [upd_same]
    have hch1 : (s1.handles h).changed = (s.handles h).changed := by rw [hs1]; show (upd s.handles h _ h).changed = _; rw [upd_same]
    apply okp_hget
    rw [ho1]
    have e := setContents_eq (s := s1) hc hn D
    by_cases hfit : fits (s1.heap (s.handles h).obj).dev ((D.length : Int) - s1.stSize (s1.heap (s.handles h).obj)) s1.mounts = true
    · rw [if_pos hfit] at e
      apply okp_eqBind e
      set s2 := s1.withContents (s.handles h).obj D with hs2
      have hc2 : (s2.heap (s.handles h).obj).content = .file (some D) := by
        rw [hs2]; unfold FS.withContents; dsimp only; rw [upd_same]
      have hd := withContents_data (s := s1) (r := (s.handles h).obj) (by unfold Obj.isDir; rw [show (s1.heap (s.handles h).obj).content = .file (some C) from hc]) D
      have hh2 : s2.handles = s1.handles := by have := hd.env; rw [hs2, this]
      have hw2 : s2.cfg.isWin = true := by have := hd.env; rw [hs2, this]; exact hw
      apply okp_get
      have fin : ∀ s3 : FS, s3.heap = s2.heap → (s3.handles h).obj = (s.handles h).obj →
          (s3.handles h).changed = ((s.handles h).changed || decide (some C ≠ some D)) →
          Okp (M.modify (fun s => s.setH h fun H => { H with fileEpoch := (s.heap H.obj).epoch }) >>= fun _ => flushRelated h)
            (fun _ s' => (s'.handles h).changed = ((s.handles h).changed || decide (some C ≠ some D)) ∧ bytesOf s' (s.handles h).obj = some D) s3 := by
        intro s3 h3 ho3 hch
        apply okp_modifyBind
        set s4 := s3.setH h fun H => { H with fileEpoch := (s3.heap H.obj).epoch } with hs4
        have ho4 : (s4.handles h).obj = (s.handles h).obj := by rw [hs4]; show (upd s3.handles h _ h).obj = _; rw [upd_same]; exact ho3
        have hch4 : (s4.handles h).changed = (s3.handles h).changed := by rw [hs4]; show (upd s3.handles h _ h).changed = _; rw [upd_same]
        have hc4 : (s4.heap (s.handles h).obj).content = .file (some D) := by show (s3.heap _).content = _; rw [h3]; exact hc2
        unfold flushRelated
        apply okp_get
        rw [ho4]
        constructor
        intro a t e
        rw [syncAll_eq hn _ s4 hc4] at e
        injection e with _ e
        subst e
        refine ⟨?_, bytesOf_some.mpr hc4⟩
        show (syncedAll s4.handles h _ D _ _ h).changed = _
        unfold syncedAll
        rw [if_neg (fun hh => hh.2.1 rfl), hch4, hch]
      by_cases hcd : some C = some D
      · rw [if_neg (by simp [hcd])]
        refine fin s2 rfl (by rw [hh2]; exact ho1) ?_
        rw [hh2, hch1]; simp [hcd]
      · rw [if_pos (by simpa using hcd), if_pos hw2]
        apply okp_hmodBind
        refine fin _ rfl ?_ ?_
        · show (upd s2.handles h _ h).obj = _; rw [upd_same, hh2]; exact ho1
        · show (upd s2.handles h _ h).changed = _; rw [upd_same]; simp [hcd]
    · rw [if_neg hfit] at e
      constructor
      intro a t e'
      rw [M.bind_eq, e] at e'
      injection e' with e' _
      cases e'
  have key : Okp (flush h) (fun _ s' => (s'.handles h).changed = ((s.handles h).changed || decide (bytesOf s' (s.handles h).obj ≠ bytesOf s (s.handles h).obj))) s := by
    have conv : ∀ (D : Bytes) (s' : FS), (s'.handles h).changed = ((s.handles h).changed || decide (some C ≠ some D)) ∧ bytesOf s' (s.handles h).obj = some D →
        (s'.handles h).changed = ((s.handles h).changed || decide (bytesOf s' (s.handles h).obj ≠ bytesOf s (s.handles h).obj)) := by
      rintro D s' ⟨h1, h2⟩
      rw [h1, h2, hC]
      congr 1
      by_cases c : C = D
      · subst c; rfl
      · have c' : ¬ D = C := fun h => c h.symm
        simp [c, c']
    unfold flush
    apply okp_checkOpen
    intro hop
    apply okp_hget
    rw [if_pos hu]
    unfold flushContents
    by_cases hap : (s.handles h).append = true
    · refine okp_seq (fun D s1 => s1.cfg = s.cfg ∧ s1.heap = s.heap ∧ (s1.handles h).changed = (s.handles h).changed ∧ (s1.handles h).obj = (s.handles h).obj) ?_ ?_
      · apply okp_hget
        rw [if_pos hap]
        have q1 := fq_syncIo h s
        have e1 := syncIo_heap h s
        have c1 := syncIo_changed h s
        have m1 := fm_syncIo h s
        rcases hs : syncIo h s with ⟨_ | u, s1⟩
        · constructor; intro a t e; rw [M.bind_eq, hs] at e; injection e with e _; cases e
        rw [hs] at q1 e1 c1 m1
        apply okp_eqBind hs
        apply okp_get
        split
        · exact okp_throw _
        · constructor
          intro a t e
          injection e with _ e
          subst e
          refine ⟨m1.cfg, e1, ?_, ?_⟩
          · show (upd s1.handles h _ h).changed = _; rw [upd_same]; exact c1
          · show (upd s1.handles h _ h).obj = _; rw [upd_same]; exact q1.obj h
      · rintro D s1 ⟨h1, h2, h3, h4⟩
        refine okp_mono (store s1 D (by rw [h1]; exact hw) (by rw [h4]; exact hn) (by rw [h4, h2]; exact hcC)) fun _ s' hh => conv D s' ?_
        rw [h3, h4] at hh
        exact hh
    · refine okp_seq (fun D s1 => s1 = s) ?_ ?_
      · apply okp_hget
        rw [if_neg hap]
        exact okp_pure rfl
      · rintro D s1 rfl
        exact okp_mono (store s1 D hw hn hcC) fun _ s' hh => conv D s' hh
  exact key.elim _ _ hf

/-- C80: on Windows it is closing a file object that sets the time of modification, and only if bytes of the file have changed through it; the other time
stamps stay as they are. -/
theorem close_windows {s' : FS} {h : Nat} (hw : s.cfg.isWin = true) (hk : (s.handles h).kind = .file) (ho : s.isOpen h = true) (hu : (s.handles h).update = true)
    (hraw : (s.handles h).rawIo = false) (hdel : (s.handles h).deleteOnClose = false) (hn : (s.handles h).obj ≠ devNullRef)
    (hb : bytesOf s (s.handles h).obj ≠ none) (hc : hClose h s = (.ok (), s')) :
    (∀ x, x ≠ (s.handles h).obj → s'.heap x = s.heap x) ∧
    (s'.heap (s.handles h).obj).atime = (s.heap (s.handles h).obj).atime ∧ (s'.heap (s.handles h).obj).ctime = (s.heap (s.handles h).obj).ctime ∧
    (s'.heap (s.handles h).obj).mtime = (if (s.handles h).changed = true ∨ bytesOf s' (s.handles h).obj ≠ bytesOf s (s.handles h).obj then s.clock
      else (s.heap (s.handles h).obj).mtime) := by
  rw [hClose_file hk ho] at hc
  have tail : ∀ s2 : FS, ((closeTable (s.handles h) h >>= fun _ => closeDelete (s.handles h)) s2).1 = .ok () ∧
      ((closeTable (s.handles h) h >>= fun _ => closeDelete (s.handles h)) s2).2.heap = s2.heap := by
    intro s2
    unfold closeTable closeDelete
    rw [hdel]
    cases (s.handles h).closefd <;> exact ⟨rfl, rfl⟩
  rw [M.bind_eq] at hc
  rcases hh : closeHead (s.handles h) h s with ⟨_ | u, s1⟩
  · rw [hh] at hc; injection hc with hc _; cases hc
  rw [hh] at hc
  dsimp only at hc
  have hheap : s'.heap = s1.heap := by
    have := (tail s1).2
    rw [hc] at this
    exact this
  unfold closeHead at hh
  rw [if_pos ⟨hu, hraw⟩, M.bind_eq] at hh
  rcases hf : flush h s with ⟨_ | u, s2⟩
  · rw [hf] at hh; injection hh with hh _; cases hh
  rw [hf] at hh
  dsimp only at hh
  have f1 := flush_windows hw hf hu hn hb
  have f2 := flush_remembers hw hf hu hn hb
  have m2 := fm_flush h s
  rw [hf] at m2
  have hw2 : s2.cfg.isWin = true := by rw [m2.cfg]; exact hw
  rw [M.bind_eq] at hh
  dsimp only [M.get] at hh
  have hbytes : ∀ t : FS, t.heap = s1.heap → (s1.heap (s.handles h).obj).content = (s2.heap (s.handles h).obj).content →
      bytesOf t (s.handles h).obj = bytesOf s2 (s.handles h).obj := by
    intro t ht hcc
    unfold bytesOf
    rw [ht, hcc]
  by_cases hch : (s2.handles h).changed = true
  · rw [if_pos ⟨hw2, hch⟩] at hh
    injection hh with _ hh
    subst hh
    have hx : ∀ x, x ≠ (s.handles h).obj → s'.heap x = s2.heap x := by
      intro x hx; rw [hheap]; show upd s2.heap _ _ x = _; rw [upd_ne _ _ hx]
    have hsame : s'.heap (s.handles h).obj = { s2.heap (s.handles h).obj with mtime := s2.clock } := by
      rw [hheap]; show upd s2.heap _ _ _ = _; rw [upd_same]
    have hby : bytesOf s' (s.handles h).obj = bytesOf s2 (s.handles h).obj := by unfold bytesOf; rw [hsame]
    refine ⟨fun x hxx => (hx x hxx).trans (f1.1 x hxx), by rw [hsame]; exact f1.2.1, by rw [hsame]; exact f1.2.2.2, ?_⟩
    rw [hch] at f2
    rw [hby, hsame, if_pos]
    · exact m2.clock
    · simpa using f2.symm
  · rw [if_neg (fun hh => hch hh.2)] at hh
    injection hh with _ hh
    subst hh
    have hby : bytesOf s' (s.handles h).obj = bytesOf s2 (s.handles h).obj := by unfold bytesOf; rw [hheap]
    rw [Bool.not_eq_true] at hch
    rw [hch] at f2
    refine ⟨fun x hxx => by rw [hheap]; exact f1.1 x hxx, by rw [hheap]; exact f1.2.1, by rw [hheap]; exact f1.2.2.2, ?_⟩
    rw [hby, hheap, if_neg]
    · exact f1.2.2.1
    · simpa using f2.symm

/-! ## calls a file object is not open for -/

/-- C78: what a file object from `open` is not open for is refused with `io.UnsupportedOperation` on every platform, also if there is nothing to read or write. -/
theorem unsupported_all {h : Nat} (hl : s.isLarge (s.handles h).obj = false) (ho : s.isOpen h = true) (hraw : (s.handles h).rawIo = false) :
    ((s.handles h).read = false → ∀ n, read h n s = (.error .unsupported, s)) ∧
    ((s.handles h).update = false → (∀ b, write h b s = (.error .unsupported, s)) ∧ ∀ n, hTruncate h n s = (.error .unsupported, s)) := by
  have hco : checkOpen h s = (.ok (), s) := by unfold checkOpen; rw [if_pos ho]
  have hrz : ∀ {α : Type}, (hRaise h : M α) s = (.error .unsupported, s) := by
    intro α
    unfold hRaise
    rw [M.bind_eq]
    dsimp only [hget]
    rw [if_neg (by simp [hraw])]; rfl
  refine ⟨fun hr n => ?_, fun hr => ⟨fun b => ?_, fun n => ?_⟩⟩
  · unfold read
    rw [M.bind_eq]
    dsimp only [M.get]
    rw [hl, if_neg (by simp)]
    try dsimp only
    rw [M.bind_eq, hco]
    try dsimp only
    rw [if_pos hr, if_neg (by simp [hraw]), hrz]
  · unfold write
    rw [M.bind_eq]
    dsimp only [M.get]
    rw [hl, if_neg (by simp)]
    try dsimp only
    rw [M.bind_eq, hco]
    try dsimp only
    rw [if_pos hr, if_neg (by simp [hraw]), hrz]
  · unfold hTruncate
    rw [M.bind_eq]
    dsimp only [M.get]
    rw [hl, if_neg (by simp)]
    try dsimp only
    rw [M.bind_eq, hco]
    try dsimp only
    rw [if_pos hr, if_neg (by simp [hraw]), hrz]

/-- C78: truncating through a descriptor opened only for reading: EBADF, but on Windows with a length given the library's own check fails with TypeError. -/
theorem truncate_readonly {h : Nat} {n : Option Nat} (hl : s.isLarge (s.handles h).obj = false) (ho : s.isOpen h = true) (hraw : (s.handles h).rawIo = true)
    (hu : (s.handles h).update = false) :
    hTruncate h n s = (.error (if s.cfg.isWin = true ∧ n ≠ none then .typeError else .os .EBADF), s) := by
  have hco : checkOpen h s = (.ok (), s) := by unfold checkOpen; rw [if_pos ho]
  unfold hTruncate
  rw [M.bind_eq]
  dsimp only [M.get]
  rw [hl, if_neg (by simp)]
  try dsimp only
  rw [M.bind_eq, hco]
  try dsimp only
  rw [if_pos hu]
  by_cases c : s.cfg.isWin = true ∧ n ≠ none
  · rw [if_pos ⟨hraw, c.1, Option.ne_none_iff_isSome.mp c.2⟩, if_pos c]; rfl
  · rw [if_neg (fun x => c ⟨x.2.1, Option.ne_none_iff_isSome.mpr x.2.2⟩), if_neg c]
    unfold hRaise
    rw [M.bind_eq]
    dsimp only [hget]
    rw [if_pos hraw]; rfl

end

/-! ## Cases -/

/-- a link to a directory (/k), one that leads nowhere (/b), one to the directory /a/d (/a/e), a link in a circle (/c), on the three platforms -/
def moreOps : List Op := platOps ++ [.createSymlink "/c".toList "/c".toList true]
def moreOn (k : Cfg) : FS := runs moreOps (initFS k 50 0 0 0o022 7 none)
theorem moreOn_reachable (k : Cfg) : Reachable (moreOn k) := ⟨_, _, _, _, _, _, _, _, rfl⟩

theorem linuxMore_c : (moreOn demoCfg).lresolve "/c/".toList = .ok 8 ∧ ifmt ((moreOn demoCfg).heap 8).mode = S_IFLNK := by decide +kernel

example : createSymlink "/x/".toList "/a".toList false onLinux = (.error (.os .ENOENT), onLinux) :=
  (symlink_sep (s := onLinux) (p := "/x/".toList) (t := "/a".toList) (b := false) (b' := true) (by decide +kernel) (by decide +kernel) (by decide +kernel)
    (by decide +kernel) (by decide +kernel)).2.1 rfl rfl (by decide +kernel)
example : createSymlink "\\x\\".toList "\\y".toList false onWindows = (.error (.os .EINVAL), onWindows) :=
  (symlink_sep (s := onWindows) (p := "\\x\\".toList) (t := "\\y".toList) (b := false) (b' := false) (by decide +kernel) (by decide +kernel) (by decide +kernel)
    (by decide +kernel) (by decide +kernel)).2.2.1 rfl rfl (by decide +kernel)
example : createSymlink "/b/".toList "/y".toList false onLinux = (.error (.os .EEXIST), onLinux) :=
  (symlink_sep (s := onLinux) (p := "/b/".toList) (t := "/y".toList) (b := false) (b' := false) (by decide +kernel) (by decide +kernel) (by decide +kernel)
    (by decide +kernel) (by decide +kernel)).2.2.2.2 rfl rfl (by decide +kernel) (by decide +kernel) (by decide +kernel)
example : link "/g".toList "/x/".toList true onLinux = (.error (.os .ENOENT), onLinux) :=
  (link_new_sep (s := onLinux) (new' := "/x".toList) (by decide +kernel) (by decide +kernel) (by decide +kernel) (by decide +kernel)).1 (by decide +kernel)
example : link "/g".toList "/x/".toList true onWindows = link "/g".toList "/x".toList true onWindows :=
  (link_new_sep (s := onWindows) (by decide +kernel) (by decide +kernel) (by decide +kernel) (by decide +kernel)).2 (by decide +kernel) (by decide +kernel)
example : onLinux.readlink "/k/".toList = .error (.os .EINVAL) :=
  (readlink_sep (s := onLinux) (r := 6) (b := true) (b' := true) (by decide +kernel) (by decide +kernel) (by decide +kernel) (by decide +kernel) (by decide +kernel)).1 rfl (by decide +kernel)
example : onWindows.readlink "/k/".toList = .ok (onWindows.linkTarget (onWindows.heap 6)) :=
  (readlink_sep (s := onWindows) (r := 6) (b := true) (b' := true) (by decide +kernel) (by decide +kernel) (by decide +kernel) (by decide +kernel) (by decide +kernel)).2.1 rfl (Or.inr (by decide +kernel))
example : onLinux.readlink "/b/".toList = .error (.os .ENOENT) :=
  (readlink_sep (s := onLinux) (r := 7) (b := false) (b' := false) (by decide +kernel) (by decide +kernel) (by decide +kernel) (by decide +kernel) (by decide +kernel)).2.2.2.1 rfl rfl (by decide +kernel) (by decide +kernel)
example : (moreOn demoCfg).readlink "/c/".toList = .error (.os .ELOOP) := by
  rw [(readlink_sep (s := moreOn demoCfg) (r := 8) (b := false) (b' := false) (by decide +kernel) linuxMore_c.1 linuxMore_c.2 (by decide +kernel) (by decide +kernel)).2.2.2.2 rfl rfl (by decide +kernel) (by decide +kernel)]
  exact if_neg (by decide +kernel)
example : onLinux.isLink "/k/".toList = .ok false := by
  rw [islink_sep (s := onLinux) (p := "/k/".toList) (r := 6) (l := 2) (by decide +kernel) (by decide +kernel) (by decide +kernel) (by decide +kernel) (by decide +kernel)]
  decide +kernel
example : onWindows.isLink "/k/".toList = .ok true := by
  rw [islink_sep (s := onWindows) (p := "/k/".toList) (r := 6) (l := 2) (by decide +kernel) (by decide +kernel) (by decide +kernel) (by decide +kernel) (by decide +kernel)]
  decide +kernel
example : onWindows.stat "/b/".toList false = .error (.os .EINVAL) := by
  rw [(lstat_link_sep (s := onWindows) (p := "/b/".toList) (r := 7) (by decide +kernel) (by decide +kernel) (by decide +kernel) (by decide +kernel)).2 .ENOENT (by decide +kernel)]
  decide +kernel
example : onLinux.stat "/k/".toList false = .ok (onLinux.statOf 6) := by
  rw [(lstat_link_sep (s := onLinux) (p := "/k/".toList) (r := 6) (by decide +kernel) (by decide +kernel) (by decide +kernel) (by decide +kernel)).1 2 (by decide +kernel)]
  exact if_neg (by decide +kernel)
example : rename "/a/d".toList "/k".toList false onLinux = (.error (.os .ENOTDIR), onLinux) :=
  (rename_link_dir (s := onLinux) (o := 4) (b := false) false (by decide +kernel) (by decide +kernel) (by decide +kernel) (by decide +kernel) (by decide +kernel)).1 (by decide +kernel) (by decide +kernel)
example : rename "/k/".toList "/a".toList false onMac = renameTail (onMac.absnorm "/k/".toList) (onMac.absnorm "/a".toList) 6 onMac :=
  ((rename_link_dir (s := onMac) (o := 6) (b := true) false (by decide +kernel) (by decide +kernel) (by decide +kernel) (by decide +kernel) (by decide +kernel)).2
    (by decide +kernel) rfl (by decide +kernel)).2.2 (by decide +kernel) (by decide +kernel) 2 (by decide +kernel) (by decide +kernel) (by decide +kernel) (by decide +kernel)
    (by decide +kernel) (by decide +kernel) (by decide +kernel)
example : rename "/k".toList "/a/d".toList false onLinux = (.error (.os .EISDIR), onLinux) :=
  ((rename_link_dir (s := onLinux) (o := 6) (b := true) false (by decide +kernel) (by decide +kernel) (by decide +kernel) (by decide +kernel) (by decide +kernel)).2
    (by decide +kernel) rfl (by decide +kernel)).1 (by decide +kernel)
example : onWindows.resolvePath "/nowhere/../a".toList = onWindows.resolvePath "/a".toList :=
  dotdot_windows (by decide +kernel) (by decide +kernel) (by decide +kernel) (by decide +kernel)
/-- a link whose text has the prefix `\\?\`, and one without it -/
def uncOn (k : Cfg) : FS := runs [.createDir "/a".toList 0o777, .createSymlink "/u".toList "\\\\?\\a".toList true, .createSymlink "/v".toList "a".toList true] (initFS k 50 0 0 0o022 7 none)
example : (uncOn { demoCfg with sep := '\\', altsep := some '/', isWin := true }).followLink ["u".toList] 3 =
    (uncOn { demoCfg with sep := '\\', altsep := some '/', isWin := true }).followLink ["u".toList] 4 :=
  (followLink_unc (by decide +kernel) (by decide +kernel)).1 (by decide +kernel)
example : onWindows.lresolve "/g/x".toList = .error (.os .ENOENT) := by
  rw [← show byPlatform onWindows.cfg .ENOENT .ENOTDIR .ENOTDIR = .ENOENT by decide +kernel]
  exact (lresolve_below_file (r := 5) (b := some [1]) (by decide +kernel) (by decide +kernel) (by decide +kernel) (by decide +kernel)).resolve_right (by decide +kernel)
example : onMac.objLoop onMac.rc true rootRef ["g".toList, "x".toList] = .error (.os .ENOTDIR) := by
  rw [← show byPlatform onMac.cfg .ENOENT .ENOTDIR .ENOTDIR = .ENOTDIR by decide +kernel]
  exact getObject_below_file (a := ["g".toList]) (b := []) (r := 5) (by decide +kernel) (by decide +kernel) (by decide +kernel)
example : mkdir "/no/x".toList 0o777 onLinux = (.error (.os .ENOENT), onLinux) :=
  mkdir_no_parent (q := "/no".toList) (base := "/no".toList) 0o777 (by decide +kernel) (by decide +kernel) (by decide +kernel) (by decide +kernel) (by decide +kernel)
example : ∃ s', chmod "/g".toList 0o444 true onWindows = (.ok (), s') ∧ (s'.heap 5).mode &&& 0o222 = 0 := by
  obtain ⟨s', h, _, h2, _⟩ := chmod_windows (s := onWindows) (p := "/g".toList) (mode := 0o444) (f := true) (r := 5) (by decide +kernel) (by decide +kernel)
  exact ⟨s', h, h2⟩

/-- a file open for reading (3) and one open for writing (4), the latter with a written byte, two seconds later -/
def winIO : FS := runs (platOps ++ [.openPath "/g".toList rdMode none false false, .openPath "/a/f".toList ⟨true, true, true, false, false, false⟩ none false false, .setClock 9, .hWrite 4 [7]])
  (initFS { demoCfg with sep := '\\', altsep := some '/', isWin := true, caseSens := false, lower := fun s => s.map Char.toLower } 50 0 0 0o022 7 none)
theorem winIO_reachable : Reachable winIO := ⟨_, _, _, _, _, _, _, _, rfl⟩
example : winIO.cfg.isWin = true ∧ (winIO.handles 3).update = false ∧ (read 3 none winIO).1 = .ok [1] := by decide +kernel
example : (flush 4 winIO).1 = .ok () ∧ (winIO.handles 4).update = true ∧ (winIO.handles 4).obj = 3 ∧ bytesOf winIO 3 ≠ none ∧
    ((flush 4 winIO).2.heap 3).mtime = 7 ∧ ((flush 4 winIO).2.handles 4).changed = true ∧
    (winIO.handles 4).kind = .file ∧ winIO.isOpen 4 = true ∧ (winIO.handles 4).rawIo = false ∧ (winIO.handles 4).deleteOnClose = false ∧
    (hClose 4 winIO).1 = .ok () ∧ ((hClose 4 winIO).2.heap 3).mtime = 9 := by decide +kernel
example : write 3 [] winIO = (.error .unsupported, winIO) := ((unsupported_all (by decide +kernel) (by decide +kernel) (by decide +kernel)).2 (by decide +kernel)).1 []
example : hTruncate 3 none (rawOn demoCfg) = (.error (.os .EBADF), rawOn demoCfg) := by
  rw [truncate_readonly (s := rawOn demoCfg) (h := 3) (by decide +kernel) (by decide +kernel) (by decide +kernel) (by decide +kernel)]
  rw [if_neg (by simp)]

end Verif
