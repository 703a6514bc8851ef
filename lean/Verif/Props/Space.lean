import Verif.Props.Excl
import Verif.EffData
/-!
# C12, C13, continued: exactly when `create_file` succeeds
-/

namespace Verif
open Py Spec Cfg

/-- Filling a file that is empty succeeds exactly if the contents fit. -/
theorem fillNew_fits {s : FS} {r : Ref} (hwin : s.cfg.isWin = false) (hr : r ≠ devNullRef) (hc : (s.heap r).content = .file none)
    (hz : (s.heap r).size = 0) (contents : Option Bytes) (size : Option Nat) :
    (fillNew r contents size s).1 = if fits (s.heap r).dev (newContents contents size).2 s.mounts then .ok () else .error (.os .ENOSPC) := by
  have hst : s.stSize (s.heap r) = 0 := by unfold FS.stSize; simp [hz]
  cases size with
  | some n =>
    unfold fillNew newContents setLargeFileSize
    simp only [hc, hst, ne_eq, not_true_eq_false, if_false]
    unfold M.bind M.pure M.get
    simp only [changeDiskUsage_eq]
    cases fits (s.heap r).dev (n : Int) s.mounts <;> rfl
  | none =>
    simp only [fillNew, newContents]
    rw [M.bind_eq, setInitialContents_eq hc hr, hst]
    simp only [Int.ofNat_zero, Int.sub_zero]
    split
    · rename_i hf; split at hf <;> simp_all [M.pure]
    · rename_i hf; split at hf <;> simp_all

section
variable {s : FS} (hs : Reachable s) (ht : s.cfg.Tree) (hg : Genuine s) (hrd : Readable s) (hw : Within s) {names : List Str} {nm : Str} {d : Ref}
  (h : Spot s names nm d)
include hs ht hg hrd hw h

/-- C12, C13: which call of `create_file` succeeds and which error the others raise. A file that does not fit on the device of the
directory is refused with ENOSPC (EACCES if the caller may not take it out of the directory again), all other files with a free name in a
directory that may be written are created. -/
theorem createFile_outcome (hsep : s.cfg.sep = '/') (hd : d ≠ devNullRef) (mode : Nat) (contents : Option Bytes) (size : Option Nat)
    (cm um : Bool) :
    (createFile (absPath s.cfg.sep (names ++ [nm])) mode contents size cm um s).1 =
      if (s.heap d).isDir = false then .error (.os .ENOTDIR)
      else if (alookup nm (s.heap d).entries).isSome then .error (.os .EEXIST)
      else if s.isRoot = false ∧ (s.heap d).mode &&& PERM_WRITE = 0 then .error (.os .EACCES)
      else if fits (s.heap d).dev (newContents contents size).2 s.mounts then .ok s.next
      else if mayRemove s d then .error (.os .ENOSPC) else .error (.os .EACCES) := by
  have hi := reachable_inv hs
  cases hal : alookup nm (s.heap d).entries with
  | some e =>
    have hdir : (s.heap d).isDir = true := isDir_of_entry (alookup_some hal)
    rw [createFile_existing hs ht hg hrd h hal hsep, if_neg (by simp [hdir])]
    rfl
  | none =>
    have hn : ∀ w ∈ names, Proper s.cfg.sep w := fun w hw => (h.plain w (by simp [hw])).1
    have hnm : Proper s.cfg.sep nm := (h.plain nm (by simp)).1
    have hcan := absCanon_names (plain_proper h.plain)
    have hcan' := absCanon_names hn
    have hres := spot_dir hi ht hg hrd h true
    have hlt := resolve_lt hi hres
    have hex : s.exists_ (absPath s.cfg.sep names) = .ok true :=
      exists_of_resolve hi ht (absCanon_not_endsWithSep ht.posix hcan') (by rw [absnorm_canon hi ht.posix hcan']; exact h.dev) hd hres
    have hL := spot_existsL hi ht hg hrd h
    rw [hal] at hL
    have e0 : createFile (absPath s.cfg.sep (names ++ [nm])) mode contents size cm um s =
        createFileTail (absPath s.cfg.sep names) nm (absPath s.cfg.sep (names ++ [nm])) mode contents size um s := by
      unfold createFile createFileI
      rw [M.bind_eq]
      dsimp only [M.get]
      rw [makeStringPath_slash hsep, absnorm_canon hi ht.posix hcan, M.bind_eq, rd_eq (f := (·.existsL _)) hL]
      dsimp only
      rw [if_neg (by simp), splitpath_absPath ht.posix hn hnm]
      dsimp only
      rw [if_neg absPath_ne_nil, M.bind_eq, autoMount_posix ht.posix]
      dsimp only
      rw [M.bind_eq]
      have e1 : fileParent (absPath s.cfg.sep names) cm s = (.ok (absPath s.cfg.sep names), s) := by
        unfold fileParent
        rw [M.bind_eq, rd_eq hex]
        show ((.ok (s.originalPath (absPath s.cfg.sep names)), s) : Except Err Str × FS) = _
        rw [originalPath_tree ht.cs]
      rw [e1]
    rw [e0]
    unfold createFileTail
    rw [M.bind_eq]
    dsimp only [M.get]
    generalize (if um = true then andNot mode s.umask else mode) = m
    have hnew := newFile_fresh hi nm m none
    unfold wp at hnew
    rw [M.bind_eq]
    have e2 : newObj (mkFileObj nm m none) s = (.ok s.next, { s with heap := upd s.heap s.next (mkFileObj nm m none s), next := s.next + 1 }) := rfl
    rw [e2] at hnew ⊢
    dsimp only at hnew ⊢
    obtain ⟨hg1, _, hf, _⟩ := hnew
    rw [M.bind_eq]
    have hname : NameOk { s with heap := upd s.heap s.next (mkFileObj nm m none s), next := s.next + 1 } s.next := by
      intro p m'
      show Proper s.cfg.sep (upd s.heap s.next _ s.next).name
      rw [upd_same]
      exact hnm
    have hgood := addObject_fresh hg1.inv (absPath s.cfg.sep names) hf hname
    rcases addObject_new (o := mkFileObj nm m none s) hi hw ht rfl rfl rfl rfl rfl (names := names)
      with ⟨e, he, hre⟩ | ⟨s2, d', ld, he, h1, h2, h3, h4⟩
    · rw [he]
      dsimp only
      rw [hres] at hre
      rcases hre with hre | ⟨d', hre, hre'⟩
      · simp at hre
      · injection hre with hre; subst hre
        have hgd := hg d hlt
        rcases hre' with ⟨h1, h2⟩ | ⟨h0, ⟨h1, h2⟩ | ⟨h1, h2, h3⟩ | ⟨h1, h2⟩⟩
        · rw [h2] at hgd; rw [if_pos hgd, h1]
        · rw [h2, h0] at hgd; simp at hgd
        · have hdd : (s.heap d).isDir = true := hgd.trans h0
          rw [h1, if_neg (by simp [hdd]), if_neg (by simp), if_pos ⟨h2, h3⟩]
        · have : (mkFileObj nm m none s).name = nm := rfl
          rw [this, hal] at h2; simp at h2
    · rw [he]
      unfold wp at hgood
      rw [he] at hgood
      dsimp only at hgood ⊢
      rw [hres] at h1; injection h1 with h1; subst h1
      have hne : s.next ≠ devNullRef := fun e => by have := devNull_lt hi; rw [e] at this; exact Nat.lt_irrefl _ this
      have hcfg : s2.cfg = s.cfg := by rw [h4.added.env]
      have hfill := fillNew_fits (s := s2) (r := s.next) (by rw [hcfg]; exact ht.posix.win) hne (by rw [h4.obj]; rfl) (by rw [h4.obj]; rfl) contents size
      have hdev : (s2.heap s.next).dev = (s.heap d).dev := by rw [h4.obj]; rfl
      rw [hdev, h4.mounts] at hfill
      have hcond : (if size = none ∧ contents = none then some [] else contents) ≠ none ∨ size ≠ none := by
        cases size <;> cases contents <;> simp
      have hgd : (if size = none ∧ contents = none then some [] else contents).getD [] = contents.getD [] := by
        cases contents <;> cases size <;> simp
      rw [if_pos hcond, M.bind_eq, hgd]
      refine Eq.trans (b := (match catchOS (fillNew s.next contents size) (fun e => do removeObject (absPath s.cfg.sep (names ++ [nm])); M.throw e) s2 with
        | (.ok a, s') => (.ok s.next, s') | (.error e, s') => (.error e, s') : Except Err Ref × FS).1) ?_ ?_
      · cases size <;> (dsimp only [fillNew]; generalize catchOS _ _ s2 = c; rcases c with ⟨_ | _, _⟩ <;> rfl)
      rw [if_neg (by simp [h3]), if_neg (by simp), if_neg (by
        rintro ⟨h5, h6⟩
        rcases h4.added.perm with h | h | h
        · rw [h] at h5; simp at h5
        · exact h h6
        · rw [ht.posix.win] at h; simp at h)]
      rcases hfe : fillNew s.next contents size s2 with ⟨r, s3⟩
      rw [hfe] at hfill
      dsimp only at hfill
      unfold catchOS M.tryCatch
      rw [hfe, hfill]
      cases hft : fits (s.heap d).dev (newContents contents size).2 s.mounts with
      | true => rfl
      | false =>
        have hs3 : s3 = s2 := by
          rcases h4.fill hi ht contents size with hq | ⟨s', hq, _⟩
          · rw [hfe] at hq; injection hq
          · rw [hfe] at hq; injection hq with hq _; rw [hfill, hft] at hq; simp at hq
        subst hs3
        simp only [Bool.false_eq_true, if_false]
        rcases h4.undo hi hw hgood.inv ht hn hnm (resolve_weaken hi ht hres) with ⟨h5, s', h6, h7⟩ | ⟨h5, h6⟩
        · rw [if_pos h5]
          rw [if_pos (show (Err.os .ENOSPC).isOS = true from rfl), M.bind_eq]
          have h6 : removeObject (absPath s.cfg.sep (names ++ [nm])) _ = _ := h6
          rw [h6]
          rfl
        · rw [if_neg h5]
          rw [if_pos (show (Err.os .ENOSPC).isOS = true from rfl), M.bind_eq]
          have h6 : removeObject (absPath s.cfg.sep (names ++ [nm])) _ = _ := h6
          rw [h6]


/-- C12: what does not fit is refused with ENOSPC, and nothing is left behind. -/
theorem createFile_full (hsep : s.cfg.sep = '/') (hdir : (s.heap d).isDir = true) (hmay : mayRemove s d)
    (hfree : alookup nm (s.heap d).entries = none) (mode : Nat) {contents : Bytes} {m : Mount} {t : Int}
    (hm : s.mounts.find? (fun m => (s.heap d).dev == some m.idev) = some m) (hlim : m.total = some t) (hbig : t < m.used + contents.length) (cm um : Bool) :
    (createFile (absPath s.cfg.sep (names ++ [nm])) mode (some contents) none cm um s).1 = .error (.os .ENOSPC) ∧
    Unchanged s (createFile (absPath s.cfg.sep (names ++ [nm])) mode (some contents) none cm um s).2 := by
  have hi := reachable_inv hs
  have hcan := absCanon_names (plain_proper h.plain)
  have hn : ∀ w ∈ names, Proper s.cfg.sep w := fun w hw => (h.plain w (by simp [hw])).1
  have hd : d ≠ devNullRef := fun e => isDir_ne_devNull hi hdir e
  have hfit : fits (s.heap d).dev (newContents (some contents) none).2 s.mounts = false := by
    unfold fits newContents
    cases hdv : (s.heap d).dev with
    | none =>
      rw [hdv] at hm
      have := List.find?_some hm
      simp at this
    | some i =>
      rw [hdv] at hm
      have e : (fun m : Mount => some i == some m.idev) = fun m => m.idev == i := by
        funext m; rw [Bool.eq_iff_iff, beq_iff_eq, beq_iff_eq, Option.some_inj]; exact eq_comm
      rw [e] at hm
      simp only [hm, hlim, Option.getD_some, decide_eq_false_iff_not, Int.not_le]
      exact hbig
  have hout := createFile_outcome hs ht hg hrd hw h hsep hd mode (some contents) none cm um
  rw [hfree, if_neg (by simp [hdir]), if_neg (by simp), if_neg (by
    rintro ⟨h1, h2⟩
    rcases hmay with h3 | h3
    · rw [h3] at h1; simp at h1
    · have := congrArg (· &&& PERM_WRITE) h3
      simp only [Nat.and_assoc] at this
      rw [show (PERM_WRITE ||| PERM_EXE) &&& PERM_WRITE = PERM_WRITE by decide, h2] at this
      exact absurd this (by decide)), hfit, if_neg (by simp), if_pos hmay] at hout
  refine ⟨hout, ?_⟩
  have hex : s.exists_ (absPath s.cfg.sep names) = .ok true :=
    exists_of_resolve hi ht (absCanon_not_endsWithSep ht.posix (absCanon_names hn)) (by rw [absnorm_canon hi ht.posix (absCanon_names hn)]; exact h.dev) hd
      (spot_dir hi ht hg hrd h true)
  rcases createFile_effect hs ht hw (absPath s.cfg.sep (names ++ [nm])) mode contents (cm := cm) um
    (Or.inr fun ns n h1 h2 e => by
      rw [makeStringPath_slash hsep, absnorm_canon hi ht.posix hcan] at e
      have := absPath_inj ht.posix (a := names ++ [nm]) (b := ns ++ [n]) (plain_proper h.plain) (by
        simp only [List.mem_append, List.mem_singleton]; rintro w (hw | rfl); exacts [h1 w hw, h2]) e
      rw [← (List.append_inj' this rfl).1]; exact hex)
    (fun ld n' d' hN => by
      rw [makeStringPath_slash hsep] at hN
      obtain ⟨ns, k1, k2, k3, k4⟩ := hN.split
      rw [absnorm_canon hi ht.posix hcan] at k3
      have := absPath_inj ht.posix (a := names ++ [nm]) (b := ns ++ [n']) (plain_proper h.plain) (by
        simp only [List.mem_append, List.mem_singleton]; rintro w (hw | rfl); exacts [k1 w hw, k2]) k3
      rw [← (List.append_inj' this rfl).1, spot_dir hi ht hg hrd h false] at k4
      injection k4 with k4; subst k4; exact hmay) with ⟨e, s', g1, g2⟩ | ⟨s', ld, n', d', x, g1, _⟩
  · rw [g1]; exact g2
  · rw [g1] at hout; simp at hout

end

deriving instance DecidableEq for Mount

/-- `/a/x` with 2000 bytes does not fit on the demo filesystem (limit 1000). -/
example : (createFile (absPath demo.cfg.sep ([['a']] ++ [['x']])) (S_IFREG ||| PERM_DEF_FILE) (some (List.replicate 2000 0)) none true false demo).1 = .error (.os .ENOSPC) :=
  (createFile_full (nm := ['x']) demo_reachable demo_tree demo_genuine (Or.inl demo_root) demo_within (demo_spot ['x'] (by decide) (by decide +kernel))
    (by rw [demo_sep]) (by decide +kernel) (Or.inl demo_root) (by decide +kernel) _ (contents := List.replicate 2000 0)
    (m := (demo.mounts.head?).getD ⟨[], 0, none, 0⟩) (t := 1000) (by decide +kernel) (by decide +kernel) (by decide +kernel) true false).1

end Verif
