import Verif.Props.Rename
import Verif.Props.Dirs
/-!
# C62: creating never replaces an existing name
-/

namespace Verif
open Py Spec Cfg

section
variable {s : FS} (hs : Reachable s) (ht : s.cfg.Tree) (hg : Genuine s) (hrd : Readable s) {names : List Str} {nm : Str} {d e : Ref}
  (h : Spot s names nm d) (he : alookup nm (s.heap d).entries = some e)
include hs ht hg hrd h he

theorem spot_there : s.existsL (absPath s.cfg.sep (names ++ [nm])) = .ok true := by
  rw [spot_existsL (reachable_inv hs) ht hg hrd h, he]; rfl

/-- C62: `os.mkdir` of an existing name (also of a link leading nowhere). -/
theorem mkdir_existing (hm : s.cfg.isMac = false) (mode : Nat) :
    mkdir (absPath s.cfg.sep (names ++ [nm])) mode s = (.error (.os .EEXIST), s) := by
  have hi := reachable_inv hs
  have hcan := absCanon_names (plain_proper h.plain)
  have hP : s.mkdirParent (absPath s.cfg.sep (names ++ [nm])) = .ok () := by
    have := mkdirParent_plain hi ht h.plain h.noLink h.dev
    rw [h.here] at this
    simpa using this
  unfold mkdir
  rw [M.bind_eq]
  dsimp only [M.get]
  rw [stripTrailing_canon ht.posix hcan, if_neg absPath_ne_nil, ht.posix.win]
  simp only [Bool.false_eq_true, if_false, false_and]
  rw [M.bind_eq, rd_eq (f := (·.mkdirParent _)) hP]
  dsimp only
  rw [absnorm_canon hi ht.posix hcan, M.bind_eq, rd_eq (f := (·.existsL _)) (spot_there hs ht hg hrd h he)]
  dsimp only
  rw [if_pos rfl, M.bind_eq, rd_eq (f := (·.mkdirBroken _ _)) (r := .ok false) (by unfold FS.mkdirBroken; rw [hm, Bool.and_false, if_neg (by simp)])]
  rfl

/-- C62: `create_file` -/
theorem createFile_existing (hsep : s.cfg.sep = '/') (mode : Nat) (c : Option Bytes) (z : Option Nat) (cm um : Bool) :
    createFile (absPath s.cfg.sep (names ++ [nm])) mode c z cm um s = (.error (.os .EEXIST), s) := by
  have hi := reachable_inv hs
  have hcan := absCanon_names (plain_proper h.plain)
  unfold createFile createFileI
  rw [M.bind_eq]
  dsimp only [M.get]
  rw [makeStringPath_slash hsep, absnorm_canon hi ht.posix hcan, M.bind_eq, rd_eq (f := (·.existsL _)) (spot_there hs ht hg hrd h he)]
  rfl

/-- C62: `create_dir` -/
theorem createDir_existing (hsep : s.cfg.sep = '/') (mode : Nat) :
    createDir (absPath s.cfg.sep (names ++ [nm])) mode s = (.error (.os .EEXIST), s) := by
  have hi := reachable_inv hs
  have hcan := absCanon_names (plain_proper h.plain)
  unfold createDir createDirG
  rw [M.bind_eq]
  dsimp only [M.get]
  rw [makeStringPath_slash hsep, absnorm_canon hi ht.posix hcan, M.bind_eq, autoMount_posix ht.posix]
  dsimp only
  rw [M.bind_eq, rd_eq (f := (·.existsL _)) (spot_there hs ht hg hrd h he)]
  rfl

/-- C62: `os.makedirs` without `exist_ok`. -/
theorem makedirs_existing (hm : s.cfg.isMac = false) (hsep : s.cfg.sep = '/') (mode : Nat) :
    makedirs (absPath s.cfg.sep (names ++ [nm])) mode false s = (.error (.os .EEXIST), s) := by
  have hi := reachable_inv hs
  have hcan := absCanon_names (plain_proper h.plain)
  rw [makedirs_run hm absPath_ne_nil, absnorm_canon hi ht.posix hcan, createDir_existing hs ht hg hrd h he hsep]
  simp [FS.makedirsBad, Err.isOS]

/-- C62: `os.symlink` -/
theorem symlink_existing (hsep : s.cfg.sep = '/') (target : Str) (cm : Bool) :
    createSymlink (absPath s.cfg.sep (names ++ [nm])) target cm s = (.error (.os .EEXIST), s) := by
  have hi := reachable_inv hs
  have hcan := absCanon_names (plain_proper h.plain)
  unfold createSymlink
  rw [M.bind_eq]
  dsimp only [M.get]
  rw [makeStringPath_slash hsep, ht.posix.normcase, if_neg (by simp [absCanon_not_endsWithSep ht.posix hcan])]
  rw [M.bind_eq, rd_eq (f := (·.isLink _)) (spot_isLink hi ht hg hrd h), he]
  dsimp only
  cases hl : (s.heap e).isLnk with
  | true =>
    simp only [Bool.not_true, Bool.false_eq_true, if_false]
    exact createFile_existing hs ht hg hrd h he hsep _ _ _ _ _
  | false =>
    simp only [Bool.not_false, if_true]
    have hr : s.resolvePath (absPath s.cfg.sep (names ++ [nm])) = .ok (absPath s.cfg.sep (names ++ [nm])) :=
      resolvePath_plain hi ht s.rc h.plain (spot_noLink hi ht hg hrd h (fun y hy => by rw [he] at hy; injection hy with hy; subst hy; exact hl))
    rw [M.bind_eq, rd_eq (f := (·.resolvePath _)) hr]
    exact createFile_existing hs ht hg hrd h he hsep _ _ _ _ _

/-- C62: `os.link` -/
theorem link_existing (old : Str) (follow cm : Bool) :
    createLink old (absPath s.cfg.sep (names ++ [nm])) follow cm s = (.error (.os .EEXIST), s) := by
  have hi := reachable_inv hs
  have hcan := absCanon_names (plain_proper h.plain)
  unfold createLink
  rw [M.bind_eq]
  dsimp only [M.get]
  rw [absnorm_canon hi ht.posix hcan, M.bind_eq, rd_eq (f := (·.existsL _)) (spot_there hs ht hg hrd h he)]
  rfl

/-- C62: `os.mknod` -/
theorem mknod_existing (mode : Nat) (hr : mode &&& S_IFREG ≠ 0 ∨ s.isRoot = true) :
    mknod (absPath s.cfg.sep (names ++ [nm])) mode s = (.error (.os .EEXIST), s) := by
  have hi := reachable_inv hs
  have hnm := (h.plain nm (by simp)).1
  unfold mknod
  rw [M.bind_eq]
  dsimp only [M.get]
  rw [ht.posix.win, if_neg (by simp), splitpath_absPath ht.posix (fun w hw => (h.plain w (by simp [hw])).1) hnm]
  dsimp only
  rw [if_neg (by rcases hr with hr | hr <;> simp [hr]), if_neg hnm.1, if_neg (by rintro (g | g); exact hnm.2.1 g; exact hnm.2.2.1 g)]
  rw [M.bind_eq, rd_eq (f := (·.existsL _)) (spot_there hs ht hg hrd h he)]
  rfl

/-- C62: `open` with mode `x`, `os.open` with `O_CREAT | O_EXCL` (unless the name leads into a cycle of links). -/
theorem open_exclusive {q : Str} (hq : s.resolvePath (absPath s.cfg.sep (names ++ [nm])) = .ok q) {md : OpenModes} (hx : md.mustNotExist = true) (b : Option Nat) (raw del : Bool) :
    openPath (absPath s.cfg.sep (names ++ [nm])) md b raw del s = (.error (.os .EEXIST), s) := by
  have hi := reachable_inv hs
  have hl := spot_isLink hi ht hg hrd h
  rw [he] at hl
  dsimp only at hl
  have hone : ∀ o : Option Ref, (o.isSome = true ∨ (s.heap e).isLnk = true) →
      openObject o (absPath s.cfg.sep (names ++ [nm])) q md s = (.error (.os .EEXIST), s) := by
    intro o ho
    unfold openObject
    rw [if_pos hx]
    cases o with
    | some x => rfl
    | none =>
      have hk : (s.heap e).isLnk = true := by simpa using ho
      rw [hk] at hl
      simp only [Option.isSome_none, Bool.false_eq_true, if_false, M.bind_eq, M.get, rd_eq (f := (·.isLink _)) hl, ht.posix.win]
      rfl
  have harg : ∃ o : Option Ref, s.fileArg (absPath s.cfg.sep (names ++ [nm])) = .ok (o, q) ∧ (o.isSome = true ∨ (s.heap e).isLnk = true) := by
    unfold FS.fileArg
    rw [if_neg h.dev', hq]
    simp only [bind, Except.bind]
    rcases spot_exists hi ht hg hrd h with hex | ⟨hex, x, hxx⟩
    · rw [hex]
      refine ⟨none, rfl, Or.inr ?_⟩
      cases hk : (s.heap e).isLnk with
      | true => rfl
      | false =>
        have := exists_plain hi ht s.rc h.plain (spot_noLink hi ht hg hrd h (fun y hy => by rw [he] at hy; injection hy with hy; subst hy; exact hk)) h.dev'
        rw [spot_walk hi ht hg hrd h, he] at this
        unfold FS.exists_ at hex
        rw [hex] at this
        simp at this
    · rw [hex]
      have hr := hxx false
      unfold FS.resolve FS.resolveFG FS.resolveG at hr
      unfold FS.resolvePath at hq
      rw [if_pos rfl, hq] at hr
      simp only [bind, Except.bind] at hr
      refine ⟨some x, ?_, Or.inl rfl⟩
      simp only [if_true, hr]
  obtain ⟨o, ho, ho'⟩ := harg
  unfold openPath
  rw [M.bind_eq, rd_eq (f := (·.fileArg _)) ho]
  dsimp only
  rw [M.bind_eq, hone o ho']

end

/-- The hypotheses are met by the file `/a/f` of the demo filesystem; `open('/l', 'x')` on its link `/l` also fails. -/
example : (Reachable demo ∧ demo.cfg.Tree ∧ Genuine demo ∧ Readable demo ∧ demo.cfg.isMac = false ∧ demo.cfg.sep = '/') ∧
    Spot demo [['a']] ['f'] 2 ∧ alookup ['f'] (demo.heap 2).entries = some 3 ∧
    demo.resolvePath (absPath demo.cfg.sep ([['a']] ++ [['f']])) = .ok ['/', 'a', '/', 'f'] ∧
    (openPath ['/', 'l'] ⟨false, false, true, false, false, true⟩ none false false demo).1 = .error (.os .EEXIST) :=
  ⟨⟨demo_reachable, demo_tree, demo_genuine, Or.inl demo_root, demo_mac, demo_sep⟩, demo_spot _ (by decide) (by decide +kernel), by decide +kernel,
    by decide +kernel, by decide +kernel⟩

/-- A link whose target does not exist is not replaced either; a cycle of links makes `open(…, 'x')` fail with another error. -/
example : ∃ s, Reachable s ∧ s.cfg.Tree ∧ (alookup ['b'] (s.heap rootRef).entries).isSome = true ∧ s.exists_ ['/', 'b'] = .ok false ∧
    (mknod ['/', 'b'] (S_IFREG ||| 0o600) s).1 = .error (.os .EEXIST) ∧ (mkdir ['/', 'b'] 0o777 s).1 = .error (.os .EEXIST) ∧
    (openPath ['/', 'c'] ⟨false, false, true, false, false, true⟩ none false false s).1 = .error (.os .ELOOP) :=
  ⟨runs (demoOps ++ [.createSymlink ['/', 'b'] ['n'] false, .createSymlink ['/', 'c'] ['c'] false]) (initFS demoCfg 50 0 0 0o022 7 (some 1000)),
    ⟨_, _, _, _, _, _, _, _, rfl⟩, by rw [runs_cfg]; exact demoCfg_tree, by decide +kernel, by decide +kernel, by decide +kernel, by decide +kernel, by decide +kernel⟩

end Verif
