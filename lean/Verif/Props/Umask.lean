import Verif.Props.Modes
import Verif.Props.Dirs
/-!
# C28: the umask

`Spec.Masked m req mask`: of the low twelve (permission) bits of `m`, exactly those are set that are set in the
requested mode and not in the mask.
-/

namespace Verif
open Py Spec Cfg

namespace Spec
/-- the permission bits of `m` are those of `req` without those of `mask` -/
def Masked (m req mask : Nat) : Prop := ∀ i < 12, m.testBit i = (req.testBit i && !mask.testBit i)

/-- the mask in force after a list of calls -/
def lastMask (m : Nat) : List Op → Nat
  | [] => m
  | .umask m' :: ops => lastMask m' ops
  | _ :: ops => lastMask m ops
end Spec

/-- **C28** (`umask`). The call returns the mask that was in force, puts the new one in force and changes nothing else. -/
theorem umask_effect (m : Nat) (s : FS) : ∃ s', umask m s = (.ok s.umask, s') ∧ s'.umask = m ∧ s' = { s with umask := s'.umask } :=
  ⟨_, rfl, rfl, rfl⟩

theorem next_umask (o : Op) {s : FS} (h : Inv s) : (o.next s).umask = lastMask s.umask [o] := by
  cases ho : o.env with
  | false =>
    have hm := (run_pres o ho s h).ext.umask
    rw [show (o.next s).umask = s.umask from hm]
    cases o <;> first | rfl | simp [Op.env] at ho
  | true =>
    cases o with
    | umask m => rfl
    | setUser u g => rfl
    | setClock t => rfl
    | setDiskUsage t p =>
      refine (show wp (setDiskUsage t p) (fun _ s' => s'.umask = s.umask) s from ?_)
      unfold setDiskUsage
      refine wp_seq (fun _ s' => s'.umask = s.umask) ?_ (fun _ _ h => h) ?_
      · exact wp_mono (mountForPath_pres p s h) fun _ _ g => g.ext.umask
      · intro dev s1 h1
        apply wp_getBind
        dsimp only
        split
        · exact h1
        · split
          · exact h1
          · exact h1
    | chdir p =>
      refine (show wp (chdir p) (fun _ s' => s'.umask = s.umask) s from ?_)
      unfold chdir
      refine wp_seq (fun _ s' => s' = s) rfl (fun _ _ e => by subst e; rfl) ?_
      intro q s1 e1
      subst e1
      refine wp_seq (fun _ s' => s' = s1) rfl (fun _ _ e => by subst e; rfl) ?_
      intro _ s2 e2
      subst e2
      refine wp_seq (fun _ s' => s' = s2) rfl (fun _ _ e => by subst e; rfl) ?_
      intro _ s3 e3
      subst e3
      rfl
    | _ => simp [Op.env] at ho

theorem runs_umask (ops : List Op) : ∀ {s : FS}, Inv s → (runs ops s).umask = lastMask s.umask ops := by
  induction ops with
  | nil => intro s _; rfl
  | cons o ops ih =>
    intro s h
    show (runs ops (o.next s)).umask = _
    rw [ih (next_step' o h).1.inv, next_umask o h]
    cases o <;> rfl

/-- **C28** (`umask` in a history). Whatever calls are made, the mask in force is the one set last, so `umask` returns it. -/
theorem umask_returns {s : FS} (hs : Reachable s) (ops : List Op) (m : Nat) :
    (umask m (runs ops s)).1 = .ok (lastMask s.umask ops) := by
  show Except.ok (runs ops s).umask = _
  rw [runs_umask ops (reachable_inv hs)]

theorem masked_andNot (a u : Nat) : Masked (andNot a u) a u := fun i _ => testBit_andNot a u i

theorem masked_or {f m a u : Nat} (hf : ∀ i < 12, f.testBit i = false) (h : Masked m a u) : Masked (f ||| m) a u := by
  intro i hi
  rw [Nat.testBit_or, hf i hi, h i hi, Bool.false_or]

theorem dirBit_low : ∀ i < 12, S_IFDIR.testBit i = false := by decide

/-- **C28** (`mkdir`). -/
theorem mkdir_mode {s : FS} (hs : Reachable s) (ht : s.cfg.Tree) (hm : s.cfg.isMac = false) (hw : Within s) (p : Str) (mode : Nat) {s' : FS}
    (h : mkdir p mode s = (.ok (), s')) :
    ∃ ld nm d x, Names s (s.cfg.stripTrailing p) ld nm d ∧ NewEntry s s' d ld nm x ∧ (s'.heap x).isDir = true ∧ Masked (s'.heap x).mode mode s.umask := by
  rcases mkdir_effect hs ht hm hw p mode with ⟨e, s2, h1, _⟩ | ⟨s2, ld, nm, d, x, h1, h2, h3, h4, h5, _⟩
  · rw [h] at h1; cases h1
  · rw [h] at h1
    injection h1 with _ h1
    subst h1
    exact ⟨ld, nm, d, x, h2, h3, by unfold Obj.isDir; rw [h4], by rw [h5]; exact masked_or dirBit_low (masked_andNot _ _)⟩

/-- **C28** (`makedirs`). Every directory made by `makedirs` (the missing ones, from the first to the last) has the
requested mode without the mask. -/
theorem makedirs_mode {s : FS} (hs : Reachable s) (ht : s.cfg.Tree) (hm : s.cfg.isMac = false) (hsep : s.cfg.sep = '/') (hw : Within s)
    (p : Str) (mode : Nat) (ok : Bool) {s' : FS} (h : makedirs p mode ok s = (.ok (), s')) :
    Unchanged s s' ∨ ∃ ld cs d, cs ≠ [] ∧ NewDirs s s' d ld cs (andNot mode s.umask) ∧
      ∀ k, 0 < k → k ≤ cs.length → ∃ x, s.next ≤ x ∧ walk s'.heap rootRef (ld ++ cs.take k) = some x ∧
        (s'.heap x).isDir = true ∧ Masked (s'.heap x).mode mode s.umask := by
  rcases makedirs_effect hs ht hm hsep hw p mode ok with ⟨e, s2, h1, _⟩ | ⟨s2, names, h1, _, _, h2⟩
  · rw [h] at h1; cases h1
  · rw [h] at h1
    injection h1 with _ h1
    subst h1
    rcases h2 with ⟨h2, _⟩ | ⟨_, pre, c, post, d, ld, _, _, h2⟩
    · exact Or.inl h2
    · refine Or.inr ⟨ld, c :: post, d, by simp, h2, ?_⟩
      intro k h1 h3
      obtain ⟨x, e1, e2, e3, e4, _⟩ := h2.made k h1 h3
      exact ⟨x, e1, e2, e3, by rw [e4]; exact masked_or dirBit_low (masked_andNot _ _)⟩

theorem regBit_low {m a u : Nat} (h : Masked m (S_IFREG ||| a) u) : Masked m a u := by
  intro i hi
  rw [h i hi, Nat.testBit_or]
  have : ∀ i < 12, S_IFREG.testBit i = false := by decide
  rw [this i hi, Bool.false_or]

/-- **C28** (`open`). A file made by `open` has mode `0o666` without the mask. -/
theorem open_mode {s : FS} (hs : Reachable s) (ht : s.cfg.Tree) (hw : Within s) {p : Str} (hp : p ≠ s.devName) (hex : s.exists_ p = .ok false)
    (md : OpenModes) (bf : Option Nat) (raw del : Bool) (hmay : ∀ q ld nm d, Names s q ld nm d → mayRemove s d) {h : Nat} {s' : FS}
    (ho : openPath p md bf raw del s = (.ok h, s')) :
    s.next ≤ (s'.handles h).obj ∧ (∃ loc, walk s.heap rootRef loc = none ∧ walk s'.heap rootRef loc = some (s'.handles h).obj) ∧
      (s'.heap (s'.handles h).obj).isDir = false ∧ Masked (s'.heap (s'.handles h).obj).mode 0o666 s.umask := by
  rcases open_new hs ht hw hp hex md bf raw del hmay with ⟨e, s2, h1, _⟩ | ⟨g, s1, s2, q, ld, nm, d, x, h1, _, _, _, h2, h3, h4, _, h5, h6, _⟩
  · rw [ho] at h1; cases h1
  · rw [ho] at h1
    injection h1 with h1 h1'
    injection h1 with h1
    subst h1; subst h1'
    have hheap : s'.heap = s1.heap := by rw [h5]
    rw [h6, hheap]
    refine ⟨h2.fresh, ⟨_, h2.name.absent, h2.name.here⟩, by unfold Obj.isDir; rw [h3], ?_⟩
    rw [h4]
    exact regBit_low (masked_andNot _ _)

/-- **C28** (`mknod`). A node made by `mknod` has the requested mode without the mask. -/
theorem mknod_mode {s : FS} (hs : Reachable s) (ht : s.cfg.Tree) (hw : Within s) (p : Str) (mode : Nat) {s' : FS}
    (h : mknod p mode s = (.ok (), s')) :
    ∃ ld d x, NewEntry s s' d ld (s.cfg.splitpath p).2 x ∧ (s'.heap x).isDir = false ∧ Masked (s'.heap x).mode mode s.umask := by
  have hi := reachable_inv hs
  have hg := mknod_pres p mode s hi
  unfold wp at hg
  rw [h] at hg
  rcases hsp : s.cfg.splitpath p with ⟨head, tail⟩
  have key : wp (mknod p mode) (fun r s' => r = .ok () → ∃ d ld, walk s.heap rootRef ld = some d ∧
      Made s s' d tail (mkFileObj tail (andNot mode s.umask) none s)) s := by
    unfold mknod
    apply wp_getBind
    rw [hsp]
    dsimp only
    apply wp_ite
    · intro _ e; cases e
    intro _
    apply wp_ite
    · intro _ e; cases e
    intro _
    split
    · refine wp_seq (fun _ _ => True) trivial (fun _ _ _ e => by cases e) ?_
      intro b s1 _
      split
      · intro e; cases e
      · intro e; cases e
    split
    · intro e; cases e
    refine wp_seq (fun _ s' => s' = s) rfl (fun _ _ _ e => by cases e) ?_
    intro b s1 e1
    subst e1
    split
    · intro e; cases e
    refine wp_bindOk (a := s1.next) (s' := { s1 with heap := upd s1.heap s1.next (mkFileObj tail (andNot mode s1.umask) none s1), next := s1.next + 1 }) rfl ?_
    unfold addObject
    have fin : ∀ d ld, walk s1.heap rootRef ld = some d → d < s1.next → wp (addEntry d s1.next) (fun r s' => r = .ok () → ∃ d ld, walk s1.heap rootRef ld = some d ∧
        Made s1 s' d tail (mkFileObj tail (andNot mode s1.umask) none s1))
        { s1 with heap := upd s1.heap s1.next (mkFileObj tail (andNot mode s1.umask) none s1), next := s1.next + 1 } := by
      intro d ld hld hlt
      rcases addEntry_new hi hw ht (o := mkFileObj tail (andNot mode s1.umask) none s1) hlt rfl rfl rfl rfl rfl with ⟨e, he, hr⟩ | ⟨s', he, h1, h2, h3, h4, h5⟩
      · unfold wp; rw [he]; intro e; cases e
      · unfold wp; rw [he]; intro _; exact ⟨d, ld, hld, h1, h2, h3, h4, h5⟩
    split
    · refine wp_bindOk (a := rootRef) rfl ?_
      exact fin rootRef [] rfl (root_lt hi)
    · have hsame := new_same s1 (mkFileObj tail (andNot mode s1.umask) none s1)
      have hres : ∀ q f c, ({ s1 with heap := upd s1.heap s1.next (mkFileObj tail (andNot mode s1.umask) none s1), next := s1.next + 1 } : FS).resolve q f c = s1.resolve q f c :=
        (hsame.agree hi).resolve (Closed.lt hi)
      refine wp_readBind ?_ ?_
      · intro e _ h; cases h
      intro d hd
      rw [hres] at hd
      apply wp_getBind
      split
      · intro e; cases e
      rename_i hdm
      refine wp_bindOk (a := d) rfl ?_
      have hlt := resolve_lt hi hd
      by_cases hdn : d = devNullRef
      · subst hdn
        have := hi.n.devMode
        dsimp only at hdm
        rw [upd_ne _ _ (Nat.ne_of_lt hlt)] at hdm
        unfold Obj.isDirMode at hdm
        rw [this] at hdm
        exact absurd (by decide) hdm
      · obtain ⟨ld, hld⟩ := resolve_loc hi ht hd hdn
        exact fin d ld hld hlt
  unfold wp at key
  rw [h] at key
  obtain ⟨d, ld, hld, hM⟩ := key rfl
  have hN := hM.added.newEntry hi hg.inv ht (by rw [hM.obj]; rfl) hld
  exact ⟨ld, d, s.next, hN, by rw [hM.obj]; rfl, by rw [hM.obj]; exact masked_andNot _ _⟩

/-! ## The hypotheses are met; a finding -/

/-- The calls of the theorems above succeed in the demo filesystem, whose mask is `0o022`. -/
example : demo.umask = 0o022 ∧ (mkdir ['/', 'a', '/', 'x'] 0o777 demo).1 = .ok () ∧ (makedirs ['/', 'x', '/', 'y'] 0o777 false demo).1 = .ok () ∧
    (mknod ['/', 'a', '/', 'x'] (S_IFREG ||| 0o666) demo).1 = .ok () ∧
    ((mknod ['/', 'a', '/', 'x'] (S_IFREG ||| 0o666) demo).2.heap 6).mode = S_IFREG ||| 0o644 := by
  decide +kernel

/-- **C28** (finding). `os.open` with a mode does not apply the mask: the file made gets exactly the requested mode. It also changes
the mode of files that exist. -/
theorem osOpen_mode_counterexample :
    let f : OFlags := ⟨true, false, true, false, false, false⟩
    demo.umask = 0o022 ∧ (osOpen ['/', 'a', '/', 'x'] f 0o777 demo).1 = .ok 3 ∧
    ((osOpen ['/', 'a', '/', 'x'] f 0o777 demo).2.heap 6).mode = S_IFREG ||| 0o777 ∧
    (demo.heap 3).mode ≠ S_IFREG ||| 0o777 ∧ (osOpen ['/', 'a', '/', 'f'] f 0o777 demo).1 = .ok 3 ∧
    ((osOpen ['/', 'a', '/', 'f'] f 0o777 demo).2.heap 3).mode = S_IFREG ||| 0o777 := by
  decide +kernel

end Verif
