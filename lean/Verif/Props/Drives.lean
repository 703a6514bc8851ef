import Verif.Props.Mounts
import Verif.Demo
/-!
# C82: drives on an emulated Windows
-/

namespace Verif
open Py Spec Cfg

namespace Spec
/-- `s'` is `s` with the new drive `drive`: an entry of the root directory on a device of its own, without a limit and with nothing used -/
structure DriveAdded (s s' : FS) (drive : Str) (dev : Nat) (r : Ref) : Prop where
  fresh : ∀ m ∈ s.mounts, m.idev ≠ dev
  table : s'.mounts = s.mounts ++ [{ path := drive, idev := dev, total := none, used := 0 }]
  entry : (s'.heap rootRef).entries = (s.heap rootRef).entries ++ [(drive, r)]
  new : s.next ≤ r
  dir : (s'.heap r).content = .dir [] ∧ (s'.heap r).dev = some dev ∧ (s'.heap r).mode = (S_IFDIR ||| PERM_DEF) ∧ (s'.heap r).parent = some rootRef
  rest : ∀ x < s.next, x ≠ rootRef → s'.heap x = s.heap x
end Spec

/-- C82: nothing is mounted by itself on other systems, and on Windows nothing for a path that a mount point already covers. -/
theorem no_autoMount {s : FS} {p : Str} (h : s.cfg.isWin = false ∨ (0 < s.limit ∧ ∃ dev, s.findMount (s.absnorm (s.originalPath p)) = some dev)) :
    autoMount p s = (.ok (), s) := by
  unfold autoMount
  rw [M.bind_eq]
  dsimp only [M.get]
  rcases h with h | ⟨hlim, dev, h⟩
  · rw [h, if_neg (by simp)]; rfl
  · by_cases hw : s.cfg.isWin = true
    · rw [if_pos hw, M.bind_eq]
      have : mountForPath p s = (.ok dev, s) := by
        unfold mountForPath
        obtain ⟨n, hn⟩ : ∃ n, s.limit = n + 1 := ⟨s.limit - 1, by omega⟩
        rw [hn, mountForPathF, M.bind_eq]
        dsimp only [M.get]
        rw [h]; rfl
      rw [this]; rfl
    · rw [if_neg hw]; rfl

theorem findMount_self {s : FS} {q : Str} {m : Mount} (hm : m ∈ s.mounts) (hp : m.path = q) : ∃ dev, s.findMount q = some dev := by
  unfold FS.findMount
  cases hf : s.mounts.find? (fun m => m.path == q) with
  | none => exact absurd (List.find?_eq_none.mp hf m hm) (by simp [hp])
  | some m => exact ⟨m.idev, rfl⟩

theorem attach_fresh_dir {s : FS} {o : Obj} {d : Ref} (hd : d < s.next) (hdir : (s.heap d).isDir = true) (hw : s.cfg.isWin = true)
    (ho : o.content = .dir []) (hnl : o.nlink = 1) (hfree : alookup o.name (s.heap d).entries = none) :
    ∃ s', addEntry d s.next { s with heap := upd s.heap s.next o, next := s.next + 1 } = (.ok (), s') ∧
      (s'.heap d).entries = (s.heap d).entries ++ [(o.name, s.next)] ∧ (s'.heap s.next).content = .dir [] ∧ (s'.heap s.next).parent = some d ∧
      (s'.heap s.next).mode = o.mode ∧ (∀ x < s.next, x ≠ d → s'.heap x = s.heap x) ∧ s'.mounts = s.mounts ∧ s'.next = s.next + 1 := by
  have hne : d ≠ s.next := by rintro rfl; exact absurd hd (lt_irrefl _)
  set s1 : FS := { s with heap := upd s.heap s.next o, next := s.next + 1 } with hs1
  have h1 : s1.heap s.next = o := upd_same _ _ _
  have h2 : ∀ x, x ≠ s.next → s1.heap x = s.heap x := fun x hx => upd_ne _ _ hx
  have hH := attach_heap s1 d s.next
  refine ⟨s1.attach d s.next, ?_, ?_, ?_, ?_, ?_, ?_, ?_, ?_⟩
  · unfold addEntry
    rw [if_neg (by rw [h2 d hne, hdir]; simp), if_neg (by rintro ⟨_, _, h⟩; rw [show s1.cfg.isWin = true from hw] at h; cases h)]
    rw [h1, h2 d hne, if_neg (by rw [hfree]; simp)]
    dsimp only
    rw [if_neg]
    rw [hH s.next, h1]
    simp [Ne.symm hne, hnl]
  · rw [hH d, h1, h2 d hne]
    simp [Obj.entries]
  · rw [hH s.next, h1]; simp [Ne.symm hne, ho]
  · rw [hH s.next]; simp
  · rw [hH s.next, h1]
  · intro x hx hxd
    have hxs : x ≠ s.next := by rintro rfl; exact absurd hx (lt_irrefl _)
    rw [hH x, h2 x hxs]
    simp [hxd, hxs]
  · rw [(attach_misc s1 d s.next).2.2.1]
  · rw [(attach_misc s1 d s.next).1]

/-- C82: on Windows the first path on a drive that is not there (such as the argument of `create_dir` or `create_file`) mounts the drive. -/
theorem autoMount_drive {s : FS} (hs : Reachable s) {p drive : Str} (hw : s.cfg.isWin = true) (hlim : 2 ≤ s.limit)
    (hnone : s.findMount (s.absnorm (s.originalPath p)) = none) (hdrive : (s.cfg.splitdrive (s.absnorm (s.originalPath p))).1 = drive) (hne : drive ≠ [])
    (ha : s.absnorm drive = drive) (ho : s.originalPath drive = drive) (hstr : s.cfg.makeStringPath drive = drive) (hcomp : s.cfg.pathComponents drive = [drive])
    (hnew : ∀ m ∈ s.mounts, m.path ≠ drive) (hex : s.existsL drive = .ok false) (hfree : s.dirContent rootRef drive = none)
    (hfree' : alookup drive (s.heap rootRef).entries = none) :
    ∃ s' r, autoMount p s = (.ok (), s') ∧ DriveAdded s s' drive (s.lastDev + 1) r := by
  have hi := reachable_inv hs
  have hroot : drive ≠ s.cfg.root := by
    rintro rfl
    obtain ⟨m, hm, e⟩ := hi.n.rootMount
    exact hnew m hm e
  set s0 := s.mounted drive none with hs0
  have hag := agree_mounted s drive none
  have hex0 : s0.existsL drive = .ok false := by
    have : s0.existsL drive = s.existsL drive := hag.existsL (closed_true s) drive
    rw [this]; exact hex
  obtain ⟨n, hn⟩ : ∃ n, s.limit = n + 2 := ⟨s.limit - 2, by omega⟩
  -- the drive's directory
  obtain ⟨s2, hadd, a1, a2, a3, a4, a5, a6, a7⟩ := attach_fresh_dir (s := s0) (o := mkDirObj drive PERM_DEF s0) (d := rootRef) (show rootRef < s.next from root_lt hi)
    (show (s.heap rootRef).isDir = true from hi.g.rootDir) hw rfl rfl hfree'
  have hloop : createDirLoop rootRef [drive] [] s0 = (.ok (s0.next, [s0.next]), s2) := by
    rw [createDirLoop, M.bind_eq]
    dsimp only [M.get]
    have hdc : s0.dirContent rootRef drive = none := hfree
    rw [hdc]
    dsimp only
    rw [M.bind_eq]
    show (addEntry rootRef s0.next >>= _) { s0 with heap := upd s0.heap s0.next (mkDirObj drive PERM_DEF s0), next := s0.next + 1 } = _
    rw [M.bind_eq, hadd]
    dsimp only
    rw [createDirLoop]; rfl
  set s3 := s2.setObj s0.next fun o => { o with mode := S_IFDIR ||| PERM_DEF } with hs3
  have hauto : (if s.cfg.isWin then do let _ ← mountForPathF (n + 1) drive; M.pure () else M.pure () : M Unit) s0 = (.ok (), s0) := by
    rw [if_pos hw, M.bind_eq, mountForPathF, M.bind_eq]
    dsimp only [M.get]
    obtain ⟨dev, hdev⟩ := findMount_self (s := s0) (q := drive) (m := { path := drive, idev := s.lastDev + 1, total := none, used := 0 })
      (List.mem_append_right _ (List.mem_singleton.mpr rfl)) rfl
    rw [show s0.absnorm (s0.originalPath drive) = drive by
      rw [hag.originalPath (closed_true s), ho]
      exact ha, hdev]
    rfl
  have hcreate : createDirG (fun q => if s.cfg.isWin then do let _ ← mountForPathF (n + 1) q; M.pure () else M.pure ()) drive PERM_DEF s0 = (.ok s0.next, s3) := by
    unfold createDirG
    rw [M.bind_eq]
    dsimp only [M.get]
    rw [show s0.absnorm (s0.cfg.makeStringPath drive) = drive by
      show s.absnorm (s.cfg.makeStringPath drive) = drive
      rw [hstr, ha]]
    rw [M.bind_eq, hauto]
    dsimp only
    rw [M.bind_eq, rd_eq (f := fun x => x.existsL drive) hex0]
    dsimp only
    rw [if_neg (by simp), M.bind_eq, show s0.cfg.pathComponents drive = [drive] from hcomp, hloop]
    rfl
  have hmount : addMountG (fun q => if s.cfg.isWin then do let _ ← mountForPathF (n + 1) q; M.pure () else M.pure ()) drive none s =
      (.ok (s.lastDev + 1), s3.setObj s0.next fun o => { o with dev := some (s.lastDev + 1) }) := by
    unfold addMountG
    rw [M.bind_eq]
    dsimp only [M.get]
    rw [ha, if_neg (by
      intro h
      obtain ⟨m, hm, e⟩ := List.any_eq_true.mp h
      exact hnew m hm (by simpa using e))]
    try dsimp only
    rw [M.bind_eq]
    show (if drive = s.cfg.root then _ else _ : M Nat) s0 = _
    rw [if_neg hroot, M.bind_eq, hcreate]
    rfl
  refine ⟨s3.setObj s0.next fun o => { o with dev := some (s.lastDev + 1) }, s0.next, ?_, ?_⟩
  · unfold autoMount
    rw [M.bind_eq]
    dsimp only [M.get]
    rw [if_pos hw, M.bind_eq]
    have : mountForPath p s = (.ok (s.lastDev + 1), s3.setObj s0.next fun o => { o with dev := some (s.lastDev + 1) }) := by
      unfold mountForPath
      rw [hn, mountForPathF, M.bind_eq]
      dsimp only [M.get]
      rw [hnone]
      dsimp only
      rw [hdrive, if_pos (by simp [hw, hne])]
      exact hmount
    rw [this]; rfl
  · have hrn : rootRef ≠ s.next := by
      intro h
      have := hi.g.two
      rw [← h] at this
      exact absurd this (by decide)
    have hne0 : ∀ x, x ≠ s.next → (s3.setObj s0.next fun o => { o with dev := some (s.lastDev + 1) }).heap x = s2.heap x := by
      intro x hx
      show upd s3.heap s.next _ x = _
      rw [upd_ne _ _ hx]
      show upd s2.heap s.next _ x = _
      rw [upd_ne _ _ hx]
    have hsame : (s3.setObj s0.next fun o => { o with dev := some (s.lastDev + 1) }).heap s0.next =
        { s2.heap s0.next with mode := S_IFDIR ||| PERM_DEF, dev := some (s.lastDev + 1) } := by
      have h3 : s3.heap s0.next = { s2.heap s0.next with mode := S_IFDIR ||| PERM_DEF } := upd_same _ _ _
      have h4 : (s3.setObj s0.next fun o => { o with dev := some (s.lastDev + 1) }).heap s0.next = { s3.heap s0.next with dev := some (s.lastDev + 1) } := upd_same _ _ _
      rw [h3] at h4
      exact h4
    refine ⟨?_, ?_, ?_, le_refl _, ?_, ?_⟩
    · intro m hm h
      have := hi.m.devLe m hm
      omega
    · show s2.mounts = _
      rw [a6]; rfl
    · rw [hne0 rootRef hrn, a1]; rfl
    · rw [hsame]
      exact ⟨a2, rfl, rfl, a3⟩
    · intro x hx hxr
      rw [hne0 x (by rintro rfl; exact absurd hx (lt_irrefl _)), a5 x hx hxr]
      rfl

/-- C82: afterwards the paths on the drive belong to it, and it is not mounted again. -/
theorem drive_stays {s s' : FS} {drive : Str} {dev : Nat} {r : Ref} (h : DriveAdded s s' drive dev r) (hlim : 0 < s'.limit)
    {p : Str} (hp : s'.absnorm (s'.originalPath p) = drive) : autoMount p s' = (.ok (), s') ∧ ∃ d, s'.findMount (s'.absnorm (s'.originalPath p)) = some d := by
  have := findMount_self (s := s') (q := drive) (m := { path := drive, idev := dev, total := none, used := 0 }) (by rw [h.table]; simp) rfl
  rw [← hp] at this
  exact ⟨no_autoMount (Or.inr ⟨hlim, this⟩), this⟩

theorem letter_norm {k : Cfg} {c : Char} (hsep : k.sep = '\\') (halt : k.altsep = some '/') (h2 : c ≠ '/') : k.normcase [c, ':'] = [c, ':'] := by
  unfold Cfg.normcase
  rw [halt, hsep]
  simp [replaceC, h2]

theorem letter_split {k : Cfg} {c : Char} (hw : k.isWin = true) (hsep : k.sep = '\\') (halt : k.altsep = some '/') (h2 : c ≠ '/') :
    k.splitdrive [c, ':'] = ([c, ':'], []) := by
  unfold Cfg.splitdrive
  rw [if_pos hw, if_pos (by simp), letter_norm hsep halt h2, hsep]
  simp

/-- C82: a letter with a colon names such a drive: it is mounted by the first use of a path on it, if nothing of that name is in the root directory. -/
theorem drive_letter {s : FS} (hs : Reachable s) {p : Str} {c : Char} (hw : s.cfg.isWin = true) (hsep : s.cfg.sep = '\\') (halt : s.cfg.altsep = some '/')
    (h1 : c ≠ '\\') (h2 : c ≠ '/') (hlim : 2 ≤ s.limit)
    (hnone : s.findMount (s.absnorm (s.originalPath p)) = none) (hdrive : (s.cfg.splitdrive (s.absnorm (s.originalPath p))).1 = [c, ':'])
    (hnew : ∀ m ∈ s.mounts, m.path ≠ [c, ':']) (hex : s.existsL [c, ':'] = .ok false) (hfree : s.dirContent rootRef [c, ':'] = none) :
    ∃ s' r, autoMount p s = (.ok (), s') ∧ DriveAdded s s' [c, ':'] (s.lastDev + 1) r := by
  have hsp := letter_split (c := c) hw hsep halt h2
  have hnc := letter_norm (c := c) hsep halt h2
  have hcomp : s.cfg.pathComponents [c, ':'] = [[c, ':']] := by
    unfold Cfg.pathComponents
    rw [if_neg (by simp), hsp]
    simp [split]
  have hroot : s.cfg.startsWithRoot [c, ':'] = true := by
    unfold Cfg.startsWithRoot Cfg.startsWithDriveLetter
    rw [hnc, hw]
    simp
  have ha : s.absnorm [c, ':'] = [c, ':'] := by
    unfold FS.absnorm Cfg.absnormpath
    rw [hnc]
    have hd : ([c, ':'] : Str) ≠ Cfg.dot := by simp [Cfg.dot]
    have e1 : ([c, ':'] : Str) ≠ [] := by simp
    simp only [hroot, e1, hd, if_false, Bool.not_true, Bool.false_eq_true]
    unfold Cfg.normpath
    rw [hnc]
    simp only [hsp]
    simp [split, Cfg.collapse, startsWithC, join]
  refine autoMount_drive hs hw hlim hnone hdrive (by simp) ha ?_ ?_ hcomp hnew hex hfree ?_
  · unfold FS.originalPath
    by_cases hc : s.cfg.caseSens ∨ ([c, ':'] : Str) = []
    · rw [if_pos hc]
    · rw [if_neg hc, hcomp]
      simp only [FS.origComps, hfree, join]
      rw [if_neg]
      unfold Cfg.startsWithSep
      rw [hsep, halt]
      simp [startsWithC, h1, h2]
  · unfold Cfg.makeStringPath
    simp [replaceC, h2]
  · have hd := (reachable_inv hs).g.rootDir
    unfold FS.dirContent at hfree
    unfold Obj.entries
    unfold Obj.isDir at hd
    revert hfree hd
    cases (s.heap rootRef).content with
    | file b => intro _ hd; cases hd
    | dir es =>
      intro hfree _
      cases hl : alookup [c, ':'] es with
      | none => rfl
      | some x => simp [hl] at hfree

/-! ## Cases -/

/-- on Windows: the directory \\a -/
def driveFS : FS := runs [.mkdir "\\a".toList 0o777] (initFS { demoCfg with sep := '\\', altsep := some '/', isWin := true, caseSens := false, lower := fun s => s.map Char.toLower } 50 0 0 0o022 7 (some 100))
theorem driveFS_reachable : Reachable driveFS := ⟨_, _, _, _, _, _, _, _, rfl⟩

example : ∃ s' r, autoMount "E:/x".toList driveFS = (.ok (), s') ∧ DriveAdded driveFS s' ['E', ':'] (driveFS.lastDev + 1) r :=
  drive_letter driveFS_reachable (by decide +kernel) (by decide +kernel) (by decide +kernel) (by decide) (by decide) (by decide +kernel) (by decide +kernel) (by decide +kernel)
    (by decide +kernel) (by decide +kernel) (by decide +kernel)
example : ∃ s' r, autoMount "D:\\x\\y".toList driveFS = (.ok (), s') ∧ DriveAdded driveFS s' "D:".toList (driveFS.lastDev + 1) r :=
  autoMount_drive driveFS_reachable (by decide +kernel) (by decide +kernel) (by decide +kernel) (by decide +kernel) (by decide) (by decide +kernel)
    (by decide +kernel) (by decide +kernel) (by decide +kernel) (by decide +kernel) (by decide +kernel) (by decide +kernel) (by decide +kernel)
example : autoMount "\\a\\y".toList driveFS = (.ok (), driveFS) :=
  no_autoMount (Or.inr ⟨by decide +kernel, 1, by decide +kernel⟩)
end Verif
