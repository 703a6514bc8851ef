import Verif.Props.WinRemove
import Verif.Props.TrailMore
import Verif.Props.Case
import Verif.FileIO
import Verif.Props.Refine
/-!
# C78: what is refused on Windows, on macOS and on Linux, and with which error

The theorems hold in every state; what is at a path is said with the lookup calls (`exists`, `lexists`, `resolve`, `lresolve`,
`get_object`).
-/

namespace Verif
open Py Spec Cfg

namespace Spec
/-- the error of a call on the three platforms -/
def byPlatform (k : Cfg) (win mac linux : Errno) : Errno := if k.isWin then win else if k.isMac then mac else linux
end Spec

section
variable {s : FS}

/-! ## rename and replace -/

/-- what `rename` finds: the old path leads (without following a link at the end) to `o`, the new one is in use by `n` -/
structure Spec.RenameOnto (s : FS) (old new : Str) (o n : Ref) : Prop where
  bare : s.cfg.endsWithSep old = false
  oldThere : s.existsL (s.absnorm old) = .ok true
  oldObj : s.lresolve (s.absnorm old) = .ok o
  newThere : s.existsL (s.absnorm new) = .ok true
  newObj : s.getObject (s.absnorm new) = .ok n
  differ : s.absnorm old ≠ s.absnorm new
  other : o ≠ n

theorem Spec.RenameOnto.run {old new : Str} {o n : Ref} (h : RenameOnto s old new o n) (hw : s.cfg.isWin = true) (force : Bool) :
    rename old new force s = (renameToExisting force (s.absnorm new) (s.absnorm old) o false >>= fun x => match x with
      | none => M.pure ()
      | some new => renameTail (s.absnorm old) new o) s := by
  unfold rename
  rw [M.bind_eq]
  dsimp only [M.get]
  rw [M.bind_eq, rd_eq (f := fun x => x.existsL _) h.oldThere]
  try dsimp only
  rw [if_neg (by simp), h.bare, if_neg (by simp)]
  try dsimp only
  rw [M.bind_eq, rd_eq (f := fun x => x.lresolve _) h.oldObj]
  try dsimp only
  rw [hw, if_neg (by simp)]
  try dsimp only
  rw [M.bind_eq, rd_eq (f := fun x => x.existsL _) h.newThere]
  rfl

/-- C78: on Windows `os.rename` never replaces anything: if the new path is in use by another object it fails with EEXIST and
changes nothing. -/
theorem rename_windows_refused {old new : Str} {o n : Ref} (h : RenameOnto s old new o n) (hw : s.cfg.isWin = true) :
    rename old new false s = (.error (.os .EEXIST), s) := by
  rw [h.run hw, M.bind_eq]
  unfold renameToExisting
  rw [M.bind_eq, rd_eq (f := fun x => x.getObject _) h.newObj]
  try dsimp only
  rw [M.bind_eq]
  dsimp only [M.get]
  rw [if_neg h.differ, if_neg h.other]
  by_cases c : ((s.heap n).isDirMode || (s.heap n).isLnk) = true
  · rw [if_pos c, M.bind_eq]
    have e : s.renameDirLinkErr false n o false = .error (.os .EEXIST) := by unfold FS.renameDirLinkErr; rw [hw]; rfl
    rw [rd_eq (f := fun x => x.renameDirLinkErr _ _ _ _) e]
  · rw [if_neg c]
    by_cases d : (s.heap o).isDirMode = true
    · rw [if_pos d, hw]; rfl
    · rw [if_neg d, hw]; rfl

/-- C78: on Windows `os.replace` replaces no directory and no link (EACCES), and puts no directory in the place of a file (EEXIST). -/
theorem replace_windows_refused {old new : Str} {o n : Ref} (h : RenameOnto s old new o n) (hw : s.cfg.isWin = true)
    (hn : (s.heap n).isDirMode = true ∨ (s.heap n).isLnk = true ∨ (s.heap o).isDirMode = true) :
    rename old new true s = (.error (.os (if (s.heap n).isDirMode || (s.heap n).isLnk then .EACCES else .EEXIST)), s) := by
  rw [h.run hw, M.bind_eq]
  unfold renameToExisting
  rw [M.bind_eq, rd_eq (f := fun x => x.getObject _) h.newObj]
  try dsimp only
  rw [M.bind_eq]
  dsimp only [M.get]
  rw [if_neg h.differ, if_neg h.other]
  by_cases c : ((s.heap n).isDirMode || (s.heap n).isLnk) = true
  · rw [if_pos c, if_pos c, M.bind_eq]
    have e : s.renameDirLinkErr true n o false = .error (.os .EACCES) := by unfold FS.renameDirLinkErr; rw [hw]; rfl
    rw [rd_eq (f := fun x => x.renameDirLinkErr _ _ _ _) e]
  · rw [if_neg c, if_neg c]
    have d : (s.heap o).isDirMode = true := by
      rcases hn with hn | hn | hn
      · simp [hn] at c
      · simp [hn] at c
      · exact hn
    rw [if_pos d, hw]; rfl

/-- C78: on Windows `os.replace` of a file by a file first removes the file in the way, then moves. -/
theorem replace_windows_file {old new : Str} {o n : Ref} (h : RenameOnto s old new o n) (hw : s.cfg.isWin = true)
    (hn : (s.heap n).isDirMode = false) (hl : (s.heap n).isLnk = false) (ho : (s.heap o).isDirMode = false) :
    rename old new true s = (removeObject (s.absnorm new) >>= fun _ => renameTail (s.absnorm old) (s.absnorm new) o) s := by
  rw [h.run hw]
  have e : renameToExisting true (s.absnorm new) (s.absnorm old) o false s =
      (removeObject (s.absnorm new) >>= fun _ => M.pure (some (s.absnorm new))) s := by
    unfold renameToExisting
    rw [M.bind_eq, rd_eq (f := fun x => x.getObject _) h.newObj]
    try dsimp only
    rw [M.bind_eq]
    dsimp only [M.get]
    rw [if_neg h.differ, if_neg h.other, if_neg (by simp [hn, hl]), if_neg (by simp [ho]), if_neg (by simp)]
  rw [M.bind_eq, e, M.bind_eq, M.bind_eq]
  rcases removeObject (s.absnorm new) s with ⟨_ | a, t⟩ <;> rfl

/-- C78: a rename into something that is no directory fails with EACCES on Windows and ENOTDIR elsewhere (on one device). -/
theorem rename_into_file {old new : Str} {o od nd : Ref} (hne : new ≠ []) (hx : s.exists_ (s.cfg.splitpath new).1 = .ok true)
    (ho : s.resolve (s.cfg.splitpath old).1 = .ok od) (hn : s.resolve (s.cfg.splitpath new).1 = .ok nd) (hdev : (s.heap od).dev = (s.heap nd).dev)
    (hd : (s.heap nd).isDirMode = false) : renameTail old new o s = (.error (.os (byPlatform s.cfg .EACCES .ENOTDIR .ENOTDIR)), s) := by
  unfold renameTail
  rw [M.bind_eq]
  dsimp only [M.get]
  rw [if_neg hne]
  try dsimp only
  rw [M.bind_eq, rd_eq (f := fun x => x.exists_ _) hx]
  try dsimp only
  rw [if_neg (by simp)]
  try dsimp only
  rw [M.bind_eq, rd_eq (f := fun x => x.resolve _) ho]
  try dsimp only
  rw [M.bind_eq, rd_eq (f := fun x => x.resolve _) hn]
  try dsimp only
  rw [if_neg (by simp [hdev])]
  try dsimp only
  rw [if_pos (by simp [hd])]
  unfold byPlatform
  cases s.cfg.isWin <;> cases s.cfg.isMac <;> rfl

/-! ## remove, rmdir -/

/-- C78: `os.remove` of a directory fails with EACCES on Windows, EPERM on macOS and EISDIR on Linux. -/
theorem remove_directory {p : Str} {r : Ref} (hb : s.cfg.endsWithSep p = false) (hx : s.exists_ (s.absnorm p) = .ok true)
    (hr : s.resolve (s.absnorm p) true false = .ok r) (hd : ifmt (s.heap r).mode = S_IFDIR) (hl : s.lresolve (s.absnorm p) = .ok r) :
    remove p s = (.error (.os (byPlatform s.cfg .EACCES .EPERM .EISDIR)), s) := by
  have key : s.removeCheckPath p = .error (.os (byPlatform s.cfg .EACCES .EPERM .EISDIR)) := by
    unfold FS.removeCheckPath byPlatform
    have hnl : ifmt (s.heap r).mode ≠ S_IFLNK := by rw [hd]; decide
    simp only [hb, Bool.false_eq_true, if_false, hx, if_true, hr, hd, hl, bind, Except.bind, pure, Except.pure]
    rw [if_pos (by decide)]
  unfold remove
  rw [M.bind_eq, rd_eq (f := fun x => x.removeCheckPath _) key]

/-- C78: so does `os.remove` of a link to a directory given with a trailing separator, but for ENOTDIR on Linux. -/
theorem remove_dirlink_sep {p : Str} {r l : Ref} (hb : s.cfg.endsWithSep p = true) (hc : endsWithC s.cfg.sep p = true)
    (hk : s.isLink (s.absnorm p) = .ok true) (hx : s.exists_ (s.absnorm p) = .ok true)
    (hr : s.resolve (s.absnorm p) true false = .ok r) (hd : ifmt (s.heap r).mode = S_IFDIR) (hl : s.lresolve (s.absnorm p) = .ok l)
    (hll : ifmt (s.heap l).mode = S_IFLNK) : remove p s = (.error (.os (byPlatform s.cfg .EACCES .EPERM .ENOTDIR)), s) := by
  have key : s.removeCheckPath p = .error (.os (byPlatform s.cfg .EACCES .EPERM .ENOTDIR)) := by
    unfold FS.removeCheckPath byPlatform FS.brokenLinkSep
    simp only [hb, hk, hc, if_true, hx, Bool.not_true, Bool.false_eq_true, if_false, hr, hd, hl, hll, bind, Except.bind, pure, Except.pure]
    rw [if_neg (by simp)]
  unfold remove
  rw [M.bind_eq, rd_eq (f := fun x => x.removeCheckPath _) key]

/-- C78: a broken link given with a trailing separator cannot be removed: EINVAL on Windows, ENOENT on macOS, ENOTDIR on Linux. -/
theorem remove_broken_sep {p : Str} (hb : s.cfg.endsWithSep p = true) (hk : s.isLink (s.absnorm p) = .ok true)
    (hx : s.exists_ (s.absnorm p) = .ok false) : remove p s = (.error (.os (byPlatform s.cfg .EINVAL .ENOENT .ENOTDIR)), s) ∨
      (s.cfg.isWin = true ∧ s.cfg.isMac = true) := by
  by_cases hwm : s.cfg.isWin = true ∧ s.cfg.isMac = true
  · exact Or.inr hwm
  left
  have key : s.removeCheckPath p = .error (.os (byPlatform s.cfg .EINVAL .ENOENT .ENOTDIR)) := by
    unfold FS.removeCheckPath byPlatform FS.brokenLinkSep
    simp only [hb, hk, if_true, hx, Bool.not_false, bind, Except.bind]
    cases hw : s.cfg.isWin <;> cases hm : s.cfg.isMac <;> first | rfl | exact absurd ⟨hw, hm⟩ hwm
  unfold remove
  rw [M.bind_eq, rd_eq (f := fun x => x.removeCheckPath _) key]

/-- C78: `os.rmdir(".")` fails with EACCES on Windows and EINVAL elsewhere. -/
theorem rmdir_dot (b : Bool) : rmdir ['.'] b s = (.error (.os (byPlatform s.cfg .EACCES .EINVAL .EINVAL)), s) := by
  have key : s.rmdirCheck ['.'] b = .error (.os (byPlatform s.cfg .EACCES .EINVAL .EINVAL)) := by
    unfold FS.rmdirCheck byPlatform
    rw [if_pos (show ['.'] = dot from rfl)]
    cases s.cfg.isWin <;> cases s.cfg.isMac <;> rfl
  unfold rmdir
  rw [M.bind_eq, rd_eq (f := fun x => x.rmdirCheck _ _) key]

/-- C78: `os.rmdir` of a link to a directory: on Windows the link is followed (the directory must be empty and the link is removed); on Linux
it is refused with ENOTDIR; on macOS it is refused with ENOTDIR unless the path ends with a separator. -/
theorem rmdir_link {p : Str} {r : Ref} (hp : p ≠ ['.']) (hc : s.resolve (s.absnorm p) = .ok r) (hd : (s.heap r).mode &&& S_IFDIR ≠ 0)
    (hk : s.isLink (s.absnorm p) = .ok true) :
    rmdir p false s = if s.cfg.isWin = false ∧ (s.cfg.endsWithSep p = false ∨ s.cfg.isMac = false) then (.error (.os .ENOTDIR), s)
      else if (s.heap r).hasContents then (.error (.os .ENOTEMPTY), s) else removeObject (s.absnorm p) s := by
  have key : s.rmdirCheck p false = if s.cfg.isWin = false ∧ (s.cfg.endsWithSep p = false ∨ s.cfg.isMac = false) then .error (.os .ENOTDIR)
      else if (s.heap r).hasContents then .error (.os .ENOTEMPTY) else .ok true := by
    unfold FS.rmdirCheck FS.confirmdir
    rw [if_neg (show p ≠ dot from hp)]
    simp only [hc, bind, Except.bind, if_neg hd, hk]
    cases s.cfg.isWin <;> cases s.cfg.isMac <;> cases s.cfg.endsWithSep p <;> simp
  unfold rmdir
  rw [M.bind_eq]
  by_cases c : s.cfg.isWin = false ∧ (s.cfg.endsWithSep p = false ∨ s.cfg.isMac = false)
  · rw [if_pos c] at key ⊢
    rw [rd_eq (f := fun x => x.rmdirCheck _ _) key]
  · rw [if_neg c] at key ⊢
    cases hh : (s.heap r).hasContents with
    | true => rw [hh, if_pos rfl] at key; rw [rd_eq (f := fun x => x.rmdirCheck _ _) key]; rfl
    | false => rw [hh, if_neg (by simp)] at key; rw [rd_eq (f := fun x => x.rmdirCheck _ _) key]; rfl

/-! ## link, mkdir, makedirs, mknod -/

/-- C78: a hard link to a directory is refused with EACCES on Windows and EPERM elsewhere. -/
theorem link_directory {old new : Str} {r : Ref} {f : Bool} (hb : s.cfg.endsWithSep old = false) (hb' : s.cfg.endsWithSep new = false)
    (hx : s.existsL (s.absnorm new) = .ok false)
    (hp : s.exists_ (if (s.cfg.splitpath (s.absnorm new)).1 = [] then s.cwd else (s.cfg.splitpath (s.absnorm new)).1) = .ok true)
    (hr : s.resolve old f = .ok r) (hd : (s.heap r).mode &&& S_IFDIR ≠ 0) :
    link old new f s = (.error (.os (byPlatform s.cfg .EACCES .EPERM .EPERM)), s) := by
  unfold link createLink
  rw [M.bind_eq]
  dsimp only [M.get]
  rw [M.bind_eq, rd_eq (f := fun x => x.existsL _) hx]
  try dsimp only
  rw [if_neg (by simp)]
  have e1 : linkParent (if (s.cfg.splitpath (s.absnorm new)).1 = [] then s.cwd else (s.cfg.splitpath (s.absnorm new)).1) false s = (.ok (), s) := by
    unfold linkParent
    rw [M.bind_eq, rd_eq (f := fun x => x.exists_ _) hp]
    rfl
  try dsimp only
  rw [M.bind_eq, e1]
  try dsimp only
  unfold linkTail
  rw [M.bind_eq]
  dsimp only [M.get]
  rw [hb, hb', if_neg (by simp), if_neg (by simp)]
  have e2 : catchOS (rd fun x => x.resolve old f) (fun _ => M.raise .ENOENT) s = (.ok r, s) := by
    unfold catchOS M.tryCatch
    rw [rd_eq (f := fun x => x.resolve old f) hr]
  try dsimp only
  rw [M.bind_eq, e2]
  try dsimp only
  rw [M.bind_eq]
  dsimp only [M.get]
  rw [if_pos hd]
  unfold byPlatform
  cases s.cfg.isWin <;> cases s.cfg.isMac <;> rfl

/-- C78: a hard link to a path with a trailing separator is refused with EINVAL on Windows and ENOTDIR elsewhere. -/
theorem link_old_sep {old new : Str} {f : Bool} (hb : s.cfg.endsWithSep old = true)
    (hx : s.existsL (s.absnorm new) = .ok false)
    (hp : s.exists_ (if (s.cfg.splitpath (s.absnorm new)).1 = [] then s.cwd else (s.cfg.splitpath (s.absnorm new)).1) = .ok true) :
    link old new f s = (.error (.os (byPlatform s.cfg .EINVAL .ENOTDIR .ENOTDIR)), s) := by
  unfold link createLink
  rw [M.bind_eq]
  dsimp only [M.get]
  rw [M.bind_eq, rd_eq (f := fun x => x.existsL _) hx]
  try dsimp only
  rw [if_neg (by simp)]
  have e1 : linkParent (if (s.cfg.splitpath (s.absnorm new)).1 = [] then s.cwd else (s.cfg.splitpath (s.absnorm new)).1) false s = (.ok (), s) := by
    unfold linkParent
    rw [M.bind_eq, rd_eq (f := fun x => x.exists_ _) hp]
    rfl
  try dsimp only
  rw [M.bind_eq, e1]
  try dsimp only
  unfold linkTail
  rw [M.bind_eq]
  dsimp only [M.get]
  rw [hb, if_pos rfl]
  unfold byPlatform
  cases s.cfg.isWin <;> cases s.cfg.isMac <;> rfl

/-- C78: adding to something that is no directory fails with ENOENT on Windows and ENOTDIR elsewhere. -/
theorem addObject_nondir {p : Str} {c d : Ref} (hp : p ≠ []) (hr : s.resolve p = .ok d) (hd : (s.heap d).isDirMode = false) :
    addObject p c s = (.error (.os (byPlatform s.cfg .ENOENT .ENOTDIR .ENOTDIR)), s) := by
  rw [addObject_at hr hp, if_neg (by simp [hd])]
  unfold byPlatform
  cases s.cfg.isWin <;> cases s.cfg.isMac <;> rfl

/-- C78: where `create_dir` fails with ENOTDIR because a file is in the way, `os.makedirs` fails with ENOENT on Windows and
ENOTDIR elsewhere. -/
theorem makedirs_through_file {p : Str} {mode : Nat} {t : FS} (hp : p ≠ []) (hb : s.cfg.endsWithSep p = false)
    (hc : createDir (s.absnorm p) (andNot mode s.umask) s = (.error (.os .ENOTDIR), t)) :
    makedirs p mode false s = (.error (.os (byPlatform s.cfg .ENOENT .ENOTDIR .ENOTDIR)), t) := by
  unfold makedirs
  rw [if_neg hp]
  try dsimp only
  rw [M.bind_eq]
  dsimp only [M.get]
  rw [hb, if_neg (by simp)]
  unfold makedirsTail
  rw [M.bind_eq]
  dsimp only [M.get]
  unfold catchOS M.tryCatch
  rw [M.bind_eq, hc]
  try dsimp only
  rw [if_pos (show Err.isOS (.os .ENOTDIR) = true from rfl), if_neg (by simp), M.bind_eq]
  rw [rd_eq (f := fun x => x.makedirsBad _ _) (show t.makedirsBad (s.absnorm p) false = .ok true from rfl)]
  try dsimp only
  rw [if_pos rfl]
  unfold byPlatform
  cases s.cfg.isWin <;> cases s.cfg.isMac <;> rfl

/-- C78: `os.mknod` and the calls on extended attributes do not exist everywhere. -/
theorem posix_only : (s.cfg.isWin = true → ∀ p m, mknod p m s = (.error .typeError, s)) ∧
    (s.cfg.isWin = true ∨ s.cfg.isMac = true → (∀ p a f, s.getxattr p a f = .error .attributeError) ∧ (∀ p f, s.listxattr p f = .error .attributeError) ∧
      (∀ p a v fl f, setxattr p a v fl f s = (.error .attributeError, s)) ∧ ∀ p a f, removexattr p a f s = (.error .attributeError, s)) := by
  refine ⟨fun h p m => ?_, fun h => ?_⟩
  · unfold mknod
    rw [M.bind_eq]
    dsimp only [M.get]
    rw [if_pos h]
    rfl
  · have hc : (s.cfg.isWin || s.cfg.isMac) = true := by simpa using h
    refine ⟨fun p a f => ?_, fun p f => ?_, fun p a v fl f => ?_, fun p a f => ?_⟩
    · unfold FS.getxattr; rw [if_pos hc]
    · unfold FS.listxattr; rw [if_pos hc]
    · unfold setxattr; rw [M.bind_eq]; dsimp only [M.get]; rw [if_pos hc]; rfl
    · unfold removexattr; rw [M.bind_eq]; dsimp only [M.get]; rw [if_pos hc]; rfl
end
end Verif
