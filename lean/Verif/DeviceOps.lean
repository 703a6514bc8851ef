import Verif.Device
/-!
# A filesystem with a single device: the operations on paths
-/

namespace Verif
open Py Spec Cfg

section
variable {b : Bool}

/-- Anything found by a lookup, but the null device, is a directory or has a name. -/
theorem One.named {s : FS} (h : One b s) : Closed s fun r => r < s.next ∧ (r = devNullRef ∨ (s.heap r).isDir = true ∨ 1 ≤ (s.heap r).nlink) :=
  ⟨⟨root_lt h.inv, Or.inr (Or.inl h.inv.g.rootDir)⟩, ⟨devNull_lt h.inv, Or.inl rfl⟩, fun d hd e he => by
    refine ⟨h.inv.g.entLt d hd.1 e he, ?_⟩
    cases hk : (s.heap e.2).isDir with
    | true => exact Or.inr (Or.inl rfl)
    | false => exact Or.inr (Or.inr (live_entry h.inv h.tree hd.1 he hk))⟩

/-! ## Sizes and contents -/

/-- A change of the size of a file with a name, with the charge for it. -/
theorem one_resize {s : FS} (h : One b s) {r : Ref} (n : Nat) (f : FS → Obj → Obj) (hk : (s.heap r).isDir = false)
    (hf : ∀ s o, o.isDir = false → SameS o (f s o) ∧ (f s o).dev = o.dev ∧ (f s o).size = n)
    (hl : b = true → r < s.next ∧ 1 ≤ (s.heap r).nlink) (hz : b = true → r ≠ devNullRef ∨ n = 0) :
    wp (M.bind (changeDiskUsage ((n : Int) - (s.heap r).size) (s.heap r).dev) (fun _ => M.modify fun s => s.setObj r (f s)))
      (fun res s' => One b s' ∧ Ext s s' ∧ s'.next = s.next ∧ (res = .ok () → ∀ x, (s'.heap x).nlink = (s.heap x).nlink ∧ (s'.heap x).isDir = (s.heap x).isDir)) s := by
  have hgc := changeDiskUsage_good ((n : Int) - (s.heap r).size) (s.heap r).dev h.inv
  apply wp_seqB (fun res s1 => One false s1 ∧ Good s s1 ∧ s1.heap = s.heap ∧ s1.next = s.next ∧ (∀ e, res = .error e → One b s1) ∧
    (b = true → res = .ok () → ∃ m, s.mounts = [m] ∧ s1.mounts = [{ m with used := m.used + ((n : Int) - (s.heap r).size) }] ∧
      (∀ t, m.total = some t → 0 ≤ t ∧ m.used + ((n : Int) - (s.heap r).size) ≤ t)))
  · have hF := ko_changeF ((n : Int) - (s.heap r).size) (s.heap r).dev s h.weaken
    unfold wp at hF hgc ⊢
    refine ⟨hF.1, hgc.1, hgc.2.1, hgc.2.2, ?_, ?_⟩
    · intro e he
      by_cases hd : (s.heap r).dev = some 1
      · rw [hd] at he ⊢
        obtain ⟨m, h1, h2, ⟨h3, _⟩ | ⟨h3, _⟩⟩ := change_one h ((n : Int) - (s.heap r).size)
        · rw [h3] at he; simp at he
        · rw [h3]; exact h
      · rw [change_none h _ hd]; exact h
    · intro e he
      have hd := h.live (hl e).1 hk (hl e).2
      rw [hd] at he ⊢
      obtain ⟨m, h1, h2, ⟨h3, h4⟩ | ⟨h3, _⟩⟩ := change_one h ((n : Int) - (s.heap r).size)
      · rw [h3]; exact ⟨m, h1, rfl, h4 e⟩
      · rw [h3] at he; simp at he
  · intro e s1 h1; exact ⟨h1.2.2.2.2.1 e rfl, h1.2.1.ext, h1.2.2.2.1, fun e => by simp at e⟩
  · intro _ s1 ⟨hF, hg, hh, hn, _, hm⟩
    apply wp_modify
    have hk1 : (s1.heap r).isDir = false := by rw [hh]; exact hk
    obtain ⟨k1, k2, k3⟩ := hf s1 (s1.heap r) hk1
    have hg2 := good_setObj hg.inv r (f s1) k1
    have hx : ∀ x, ((s1.setObj r (f s1)).heap x) = if x = r then f s1 (s1.heap r) else s1.heap x := by
      intro x; show upd s1.heap r (f s1 (s1.heap r)) x = _; rw [upd_apply]
    have hdev : ∀ x, ((s1.setObj r (f s1)).heap x).dev = (s1.heap x).dev := by
      intro x; rw [hx]; split
      · rename_i e; rw [k2, e]
      · rfl
    have hent : ∀ x, ((s1.setObj r (f s1)).heap x).entries = (s1.heap x).entries := by
      intro x; rw [hx]; split
      · rename_i e; rw [k1.entries, e]
      · rfl
    have hnl : ∀ x, ((s1.setObj r (f s1)).heap x).nlink = (s1.heap x).nlink := by
      intro x; rw [hx]; split
      · rename_i e; rw [k1.nlink, e]
      · rfl
    have hkd : ∀ x, ((s1.setObj r (f s1)).heap x).isDir = (s1.heap x).isDir := by
      intro x; rw [hx]; split
      · rename_i e; rw [k1.content, e]
      · rfl
    obtain ⟨mF, hF1, hF2, _, _⟩ := hF.mount
    refine ⟨⟨hg2.inv, by rw [hg2.ext.cfg]; exact hF.tree, by rw [hdev]; exact hF.root, ?_, ⟨mF, hF1, hF2, ?_, ?_⟩, ?_⟩, hg.ext.trans hg2.ext, hn,
      fun _ x => by rw [hnl, hkd, hh]; exact ⟨rfl, rfl⟩⟩
    · intro d hd e he
      rw [hent] at he; rw [hdev]; exact hF.ent d hd e he
    · intro e t ht
      obtain ⟨m, hm1, hm2, hm3⟩ := hm e rfl
      rw [hm2] at hF1; injection hF1 with hF1 _; subst hF1
      exact hm3 t ht
    · intro e
      obtain ⟨m, hm1, hm2, hm3⟩ := hm e rfl
      rw [hm2] at hF1; injection hF1 with hF1 _; subst hF1
      obtain ⟨m0, h1, _, _, h4⟩ := h.mount
      rw [hm1] at h1; injection h1 with h1 _; subst h1
      show m.used + _ = _
      have hst := stored_one (s := s) (s' := s1.setObj r (f s1)) (r := r) hn (hl e).1 (by
        intro x _ hxr
        rw [hx, if_neg hxr, hh])
      rw [hst, weight_live hk (hl e).2]
      rw [weight_live (o := (s1.setObj r (f s1)).heap r) (by rw [hkd, hh]; exact hk) (by rw [hnl, hh]; exact (hl e).2)]
      rw [hx r, if_pos rfl, k3, h4 e]
      omega
    · intro e
      rw [hx]
      split
      · rename_i e'
        rw [k3]
        rcases hz e with hz | hz
        · exact absurd e'.symm hz
        · exact hz
      · rw [hh]; exact h.null e

/-- what the setters of sizes and contents keep -/
def Resized (b : Bool) (s : FS) {α : Type} (res : Except Err α) (s' : FS) : Prop :=
  One b s' ∧ Ext s s' ∧ s'.next = s.next ∧ ((∃ a, res = .ok a) → ∀ x, (s'.heap x).nlink = (s.heap x).nlink ∧ (s'.heap x).isDir = (s.heap x).isDir)

theorem Resized.here {s : FS} (h : One b s) {α : Type} (res : Except Err α) : Resized b s res s := ⟨h, Ext.refl s, rfl, fun _ _ => ⟨rfl, rfl⟩⟩

theorem one_setSize {s : FS} (h : One b s) {r : Ref} (n : Nat) (hl : b = true → (s.heap r).isDir = false → r < s.next ∧ 1 ≤ (s.heap r).nlink)
    (hz : b = true → r ≠ devNullRef ∨ n = 0) : wp (setSize r n) (Resized b s) s := by
  unfold wp setSize
  split
  · exact Resized.here h _
  · rename_i old hold
    dsimp only
    rw [stSize_posix h.tree]
    have hk := isDir_file hold
    have := one_resize h (r := r) n (fun _ o => { o with
          content := .file (old.map fun b => if b = [] then b else if n < (s.heap r).size then b.take n else b ++ List.replicate (n - (s.heap r).size) 0)
          size := n, epoch := o.epoch + 1 }) hk (fun s o ho => ⟨sameS_file ho rfl rfl rfl rfl rfl, rfl, rfl⟩) (fun e => hl e hk) hz
    unfold wp at this
    refine ⟨this.1, this.2.1, this.2.2.1, ?_⟩
    rintro ⟨⟨⟩, e⟩
    exact this.2.2.2 e

theorem one_setInitialContents {s : FS} (h : One b s) {r : Ref} (c : Bytes)
    (hl : b = true → r ≠ devNullRef → (s.heap r).isDir = false → r < s.next ∧ 1 ≤ (s.heap r).nlink ∧ ∀ o, (s.heap r).content = .file o → o.getD [] = []) :
    wp (setInitialContents r c) (Resized b s) s := by
  unfold wp setInitialContents
  split
  · exact Resized.here h _
  rename_i hnull
  split
  · exact Resized.here h _
  rename_i old hold
  have hk := isDir_file hold
  dsimp only
  rw [stSize_posix h.tree]
  by_cases hold' : old.getD [] = []
  · rw [if_neg (by simpa using hold')]
    have := one_resize h (r := r) c.length (fun _ o => { o with content := .file (some c), size := c.length, epoch := o.epoch + 1 }) hk
      (fun s o ho => ⟨sameS_file ho rfl rfl rfl rfl rfl, rfl, rfl⟩) (fun e => ⟨(hl e hnull hk).1, (hl e hnull hk).2.1⟩) (fun _ => Or.inl hnull)
    show wp (M.bind _ _) (Resized b s) s
    apply wp_seqB (fun res s1 => (∀ e, res = .error e → Resized b s res s1) ∧
      (res = .ok () → Resized b s (.ok ()) (s1.setObj r fun o => { o with content := .file (some c), size := c.length, epoch := o.epoch + 1 })))
    · unfold wp M.bind at this
      unfold wp
      rcases hc : changeDiskUsage ((c.length : Int) - (s.heap r).size) (s.heap r).dev s with ⟨res, s1⟩
      rw [hc] at this
      cases res with
      | ok a =>
        refine ⟨fun e he => by simp at he, fun _ => ?_⟩
        simp only [M.modify] at this
        exact ⟨this.1, this.2.1, this.2.2.1, fun _ => this.2.2.2 trivial⟩
      | error e =>
        refine ⟨fun e' _ => ⟨this.1, this.2.1, this.2.2.1, fun ⟨a, ha⟩ => by simp at ha⟩, fun e => by simp at e⟩
    · intro e s1 h1
      obtain ⟨k1, k2, k3, k4⟩ := h1.1 e rfl
      exact ⟨k1, k2, k3, fun ⟨a, ha⟩ => by simp at ha⟩
    · intro _ s1 h1
      obtain ⟨k1, k2, k3, k4⟩ := h1.2 rfl
      exact ⟨k1, k2, k3, fun _ => k4 ⟨_, rfl⟩⟩
  · cases b with
    | true => exact absurd ((hl rfl hnull hk).2.2 old hold) hold'
    | false =>
      rw [if_pos (by simpa using hold')]
      show wp (M.bind _ _) (Resized false s) s
      have hg := changeDiskUsage_good ((c.length : Int) - (s.heap r).size) (s.heap r).dev h.inv
      have hF := ko_changeF ((c.length : Int) - (s.heap r).size) (s.heap r).dev s h
      apply wp_seqB (fun _ s1 => One false s1 ∧ Ext s s1 ∧ s1.heap = s.heap ∧ s1.next = s.next)
      · exact ⟨hF.1, hF.2, hg.2.1, hg.2.2⟩
      · intro e s1 h1; exact ⟨h1.1, h1.2.1, h1.2.2.2, fun ⟨a, ha⟩ => by simp at ha⟩
      intro _ s1 ⟨h1, e1, hh, hn⟩
      apply wp_seqB _ (one_setSize h1 (r := r) 0 (fun e => by simp at e) (fun e => by simp at e))
      · intro e s2 ⟨k1, k2, k3, _⟩; exact ⟨k1, e1.trans k2, k3.trans hn, fun ⟨a, ha⟩ => by simp at ha⟩
      intro _ s2 ⟨k1, k2, k3, k4⟩
      have k4 := k4 ⟨_, rfl⟩
      have hk2 : (s2.heap r).isDir = false := by rw [(k4 r).2, hh]; exact hk
      have hs := sameS_file (o := s2.heap r) (o' := { s2.heap r with content := .file (some c), size := c.length, epoch := (s2.heap r).epoch + 1 }) hk2 rfl rfl rfl rfl rfl
      have hg3 := good_setObj k1.inv r (fun o => { o with content := .file (some c), size := c.length, epoch := o.epoch + 1 }) hs
      have hx : ∀ x, ((s2.setObj r fun o => { o with content := .file (some c), size := c.length, epoch := o.epoch + 1 }).heap x) =
          if x = r then { s2.heap r with content := .file (some c), size := c.length, epoch := (s2.heap r).epoch + 1 } else s2.heap x := by
        intro x; show upd s2.heap r _ x = _; rw [upd_apply]
      have hSame : ∀ x, SameS (s2.heap x) ((s2.setObj r fun o => { o with content := .file (some c), size := c.length, epoch := o.epoch + 1 }).heap x) ∧
          ((s2.setObj r fun o => { o with content := .file (some c), size := c.length, epoch := o.epoch + 1 }).heap x).dev = (s2.heap x).dev := by
        intro x; rw [hx]; split
        · rename_i e; subst e; exact ⟨hs, rfl⟩
        · exact ⟨SameS.refl _, rfl⟩
      obtain ⟨mF, hF1, hF2, _, _⟩ := k1.mount
      show Resized false s (Except.ok (decide (old ≠ some c))) (s2.setObj r fun o => { o with content := .file (some c), size := c.length, epoch := o.epoch + 1 })
      refine ⟨⟨hg3.inv, k1.tree, by rw [(hSame _).2]; exact k1.root, ?_, ⟨mF, hF1, hF2, fun e => by simp at e, fun e => by simp at e⟩, fun e => by simp at e⟩,
        (e1.trans k2).trans hg3.ext, k3.trans hn, fun _ x => ⟨?_, ?_⟩⟩
      · intro d hd e he
        rw [(hSame d).1.entries] at he; rw [(hSame _).2]; exact k1.ent d hd e he
      · rw [(hSame x).1.nlink, (k4 x).1, hh]
      · rw [(hSame x).1.content, (k4 x).2, hh]

theorem one_setContents {s : FS} (h : One b s) {r : Ref} (c : Bytes)
    (hl : b = true → r ≠ devNullRef → (s.heap r).isDir = false → r < s.next ∧ 1 ≤ (s.heap r).nlink ∧ ∀ o, (s.heap r).content = .file o → o.getD [] = []) :
    wp (setContents r c) (Resized b s) s := by
  unfold wp setContents
  split
  · exact Resized.here h _
  · exact one_setInitialContents h c hl

theorem one_setLargeFileSize {s : FS} (h : One b s) {r : Ref} (n : Nat)
    (hl : b = true → (s.heap r).isDir = false → r < s.next ∧ 1 ≤ (s.heap r).nlink) (hz : b = true → r ≠ devNullRef) : wp (setLargeFileSize r n) (Resized b s) s := by
  unfold wp setLargeFileSize
  split
  · exact Resized.here h _
  rename_i old hold
  have hk := isDir_file hold
  show wp (M.bind _ _) (Resized b s) s
  apply wp_seqB (fun res s1 => Resized b s res s1 ∧ (res = .ok () → (s1.heap r).size = 0))
  · rw [stSize_posix h.tree]
    apply wp_ite
    · intro _
      refine ⟨one_setSize h 0 hl (fun _ => Or.inr rfl), ?_⟩
      unfold setSize
      rw [hold]
      dsimp only
      unfold M.bind
      split
      · intro _
        show (upd (α := Obj) _ r _ r).size = 0
        rw [upd_same]
      · intro e; simp at e
    · intro h0
      exact ⟨Resized.here h _, fun _ => by show (s.heap r).size = 0; simpa using h0⟩
  · intro e s1 h1
    obtain ⟨k1, k2, k3, k4⟩ := h1.1
    exact ⟨k1, k2, k3, fun ⟨a, ha⟩ => by simp at ha⟩
  intro _ s1 ⟨⟨k1, k2, k3, k4⟩, hsz⟩
  have k4 := k4 ⟨_, rfl⟩
  have hsz := hsz rfl
  show wp (M.get >>= _) (Resized b s) s1
  apply wp_getBind
  have hk1 : (s1.heap r).isDir = false := by rw [(k4 r).2]; exact hk
  have := one_resize k1 (r := r) n (fun _ o => { o with content := .file none, size := n }) hk1
    (fun s o ho => ⟨sameS_file ho rfl rfl rfl rfl rfl, rfl, rfl⟩)
    (fun e => by rw [k3, (k4 r).1]; exact hl e hk) (fun e => Or.inl (hz e))
  rw [hsz] at this
  simp only [Nat.cast_zero, sub_zero] at this
  apply wp_mono this
  intro res s2 ⟨j1, j2, j3, j4⟩
  refine ⟨j1, k2.trans j2, j3.trans k3, ?_⟩
  rintro ⟨⟨⟩, rfl⟩ x
  rw [(j4 rfl x).1, (j4 rfl x).2, (k4 x).1, (k4 x).2]
  exact ⟨rfl, rfl⟩

/-! ## New objects -/

theorem attach_stored {s : FS} (h : Inv s) {d c : Ref} (pre : AddPre s d c) (hdir : (s.heap d).isDir = true)
    (hnew : alookup (s.heap c).name (s.heap d).entries = none) : (s.attach d c).stored = s.stored - weight (s.heap c) + weight ((s.attach d c).heap c) := by
  have hg := attach_good h pre hdir hnew
  apply stored_one (attach_misc s d c).1 pre.cLt
  intro x hx hxc
  by_cases hxd : x = d
  · subst hxd
    rw [weight_dir hdir, weight_dir]
    rw [hg.ext.kind x hx]; exact hdir
  · rw [attach_heap]; exact weight_eq (if_neg hxd) (by simp [hxc, hxd]) rfl

/-- `add_entry` of something that takes no more room than before -/
theorem one_addEntry' {s : FS} (h : One b s) {d c : Ref} (pre : AddPre s d c) (hdev : (s.heap d).isDir = true → (s.heap d).dev = some 1)
    (hc : b = true → (s.heap c).isDir = true ∨ (s.heap c).size = 0 ∨ 1 ≤ (s.heap c).nlink) :
    wp (addEntry d c) (fun res s' => One b s' ∧ Ext s s' ∧ (res = .ok () → (s'.heap c).dev = some 1 ∧ (s'.heap c).isDir = (s.heap c).isDir ∧
      1 ≤ (s'.heap c).nlink ∧ (s'.heap c).content = (s.heap c).content)) s := by
  by_cases hdir : (s.heap d).isDir = true
  · by_cases hnew : alookup (s.heap c).name (s.heap d).entries = none
    · have hg := attach_good h.inv pre hdir hnew
      have hcd : (s.attach d c).next = s.next := (attach_misc s d c).1
      have k := one_addEntry h pre hdev (fun e m hm t ht => by
        obtain ⟨m0, h1, h2, h3, h4⟩ := h.mount
        rw [h1] at hm; simp at hm; subst hm
        have hle : (s.attach d c).stored ≤ s.stored := by
          rw [attach_stored h.inv pre hdir hnew]
          have hw : weight ((s.attach d c).heap c) ≤ weight (s.heap c) := by
            have hkc : ((s.attach d c).heap c).isDir = (s.heap c).isDir := hg.ext.kind c pre.cLt
            rcases hc e with hc | hc | hc
            · rw [weight_dir (hkc.trans hc), weight_dir hc]
            · have hsz : ((s.attach d c).heap c).size = 0 := by rw [attach_heap]; exact hc
              have : weight ((s.attach d c).heap c) ≤ 0 := by unfold weight; rw [hsz]; split <;> simp
              exact le_trans this (weight_nonneg _)
            · cases hk : (s.heap c).isDir with
              | true => rw [weight_dir (hkc.trans hk), weight_dir hk]
              | false =>
                have hn : ((s.attach d c).heap c).nlink = (s.heap c).nlink + (if c = d then 1 else 0) + 1 := by rw [attach_heap]; simp
                have : 1 ≤ ((s.attach d c).heap c).nlink := by rw [hn]; split <;> omega
                rw [weight_live (hkc.trans hk) this, weight_live hk hc, attach_heap]
          omega
        have := (h3 e t ht).2
        rw [h4 e] at this
        omega)
      refine ⟨k.1, k.2, ?_⟩
      unfold addEntry
      rw [if_neg (by simp [hdir])]
      split
      · intro e; simp at e
      rw [if_neg (by simp [hnew])]
      dsimp only
      have hcn : c ≠ d ∨ c = d := by tauto
      have hAt : ((s.attach d c).heap c).dev = some 1 ∧ ((s.attach d c).heap c).isDir = (s.heap c).isDir ∧ 1 ≤ ((s.attach d c).heap c).nlink ∧
          ((s.heap c).isDir = false → ((s.attach d c).heap c).content = (s.heap c).content) := by
        refine ⟨by rw [attach_heap]; simp [hdev hdir], hg.ext.kind c pre.cLt, ?_, ?_⟩
        · have hn : ((s.attach d c).heap c).nlink = (s.heap c).nlink + (if c = d then 1 else 0) + 1 := by rw [attach_heap]; simp
          have : 0 ≤ (s.heap c).nlink := by
            cases hk : (s.heap c).isDir with
            | true => have := dir_nlink h.inv h.tree pre.cLt hk; omega
            | false => rw [nlink_file h.inv h.tree pre.cLt hk]; omega
          rw [hn]; split <;> omega
        · intro hk
          have : c ≠ d := by rintro rfl; rw [hdir] at hk; simp at hk
          rw [attach_heap]; exact if_neg this
      have hct : ((s.attach d c).heap c).content = (s.heap c).content := by
        cases hk : (s.heap c).isDir with
        | false => exact hAt.2.2.2 hk
        | true =>
          have : c ≠ d := by
            rintro rfl
            exact pre.noAnc hk h.tree Anc.refl
          rw [attach_heap]; exact if_neg this
      split
      · have hgc := changeDiskUsage_good ((s.attach d c).sizeOf ((s.attach d c).next + 1) c : Int) ((s.attach d c).heap d).dev hg.inv
        unfold wp at hgc
        intro _
        rw [hgc.2.1]
        exact ⟨hAt.1, hAt.2.1, hAt.2.2.1, hct⟩
      · intro _; exact ⟨hAt.1, hAt.2.1, hAt.2.2.1, hct⟩
    · unfold wp addEntry
      rw [if_neg (by simp [hdir])]
      split
      · exact ⟨h, Ext.refl s, fun e => by simp at e⟩
      · rw [if_pos (by cases hx : alookup (s.heap c).name (s.heap d).entries with
          | none => exact absurd hx hnew
          | some v => rfl)]
        exact ⟨h, Ext.refl s, fun e => by simp at e⟩
  · unfold wp addEntry
    rw [if_pos (by simpa using hdir)]
    exact ⟨h, Ext.refl s, fun e => by simp at e⟩

/-- `add_object` -/
theorem one_addObject {s : FS} (h : One b s) (p : Str) {c : Ref} (pre : ∀ d, (∃ q f g, s.resolve q f g = .ok d) ∨ d = rootRef → AddPre s d c)
    (hc : b = true → (s.heap c).isDir = true ∨ (s.heap c).size = 0 ∨ 1 ≤ (s.heap c).nlink) :
    wp (addObject p c) (fun res s' => One b s' ∧ Ext s s' ∧ (res = .ok () → (s'.heap c).dev = some 1 ∧ (s'.heap c).isDir = (s.heap c).isDir ∧
      1 ≤ (s'.heap c).nlink ∧ (s'.heap c).content = (s.heap c).content)) s := by
  unfold addObject
  split
  · exact one_addEntry' h (pre _ (Or.inr rfl)) (fun _ => h.root) hc
  · apply wp_readBind
    · intro e _; exact ⟨h, Ext.refl s, fun e => by simp at e⟩
    intro d hd
    apply wp_getBind
    apply wp_ite
    · intro _; exact ⟨h, Ext.refl s, fun e => by cases e⟩
    · intro _; exact one_addEntry' h (pre _ (Or.inl ⟨_, _, _, hd⟩)) (h.closed.resolve hd).2 hc

theorem Fresh.preOf {s : FS} (h : Inv s) {c : Ref} (f : Fresh s c) (hn : NameOk s c) :
    ∀ d, (∃ q fo g, s.resolve q fo g = .ok d) ∨ d = rootRef → AddPre s d c := by
  rintro d (⟨q, fo, g, hd⟩ | rfl)
  · have := (f.closed h).resolve hd
    exact f.addPre h this.1 this.2 hn
  · exact f.addPre h (f.closed h).root.1 (f.closed h).root.2 hn

/-! ## Directories -/

theorem weight_newDir (nm : Str) (perm : Nat) (s : FS) : weight (mkDirObj nm perm s) = 0 := weight_dir rfl
theorem weight_newFile (nm : Str) (mode : Nat) (c : Option Bytes) (s : FS) : weight (mkFileObj nm mode c s) = 0 := weight_dead (by simp [mkFileObj])

theorem one_newDir {s : FS} (h : One b s) (nm : Str) (perm : Nat) :
    wp (newObj (mkDirObj nm perm)) (fun r s' => One b s' ∧ Good s s' ∧ r = .ok s.next ∧ Fresh s' s.next ∧
      s' = { s with heap := upd s.heap s.next (mkDirObj nm perm s), next := s.next + 1 }) s := by
  apply wp_mono (newDir_fresh h.inv nm perm)
  rintro r s' ⟨h1, h2, h3, h4⟩
  refine ⟨?_, h1, h2, h3, h4⟩
  rw [h4] at h1 ⊢
  exact one_new h _ rfl (weight_newDir nm perm s) h1

theorem one_newFile {s : FS} (h : One b s) (nm : Str) (mode : Nat) (c : Option Bytes) :
    wp (newObj (mkFileObj nm mode c)) (fun r s' => One b s' ∧ Good s s' ∧ r = .ok s.next ∧ Fresh s' s.next ∧
      s' = { s with heap := upd s.heap s.next (mkFileObj nm mode c s), next := s.next + 1 }) s := by
  apply wp_mono (newFile_fresh h.inv nm mode c)
  rintro r s' ⟨h1, h2, h3, h4⟩
  refine ⟨?_, h1, h2, h3, h4⟩
  rw [h4] at h1 ⊢
  exact one_new h _ rfl (weight_newFile nm mode c s) h1

theorem one_createDirLoop {s0 : FS} : ∀ (cs : List Str) (s : FS) (cur : Ref) (news : List Ref),
    One b s → Ext s0 s → cur < s.next → ((s.heap cur).isDir = true → (s.heap cur).dev = some 1) → CompsOk s.cfg cs →
    wp (createDirLoop cur cs news) (fun _ s' => One b s' ∧ Ext s0 s') s := by
  intro cs
  induction cs with
  | nil => intro s cur news h e _ _ _; exact ⟨h, e⟩
  | cons c cs ih =>
    intro s cur news h e0 hc hdev hok
    have hok' : CompsOk s.cfg cs := fun p w hw => hok p w (by simp [hw])
    unfold createDirLoop
    apply wp_getBind
    split
    · apply wp_seq _ (one_newDir h c PERM_DEF)
      · intro e s1 h1; exact absurd h1.2.2.1 (by simp)
      · intro d s1 ⟨h1, hg1, hd, hf, hs1⟩
        injection hd with hd; subst hd
        have hne : cur ≠ s.next := Nat.ne_of_lt hc
        have hc1 : cur < s1.next := Nat.lt_of_lt_of_le hc hg1.ext.next
        have hname : NameOk s1 s.next := by
          intro p m
          rw [hs1] at p ⊢
          show Proper s.cfg.sep (upd s.heap s.next (mkDirObj c PERM_DEF s) s.next).name
          rw [upd_same]
          exact hok p c (by simp)
        have hcur : s1.heap cur = s.heap cur := by rw [hs1]; exact upd_ne _ _ hne
        have hnd : (s1.heap s.next).isDir = true := by
          rw [hs1]; show (upd s.heap s.next (mkDirObj c PERM_DEF s) s.next).isDir = true; rw [upd_same]; rfl
        apply wp_seq _ (one_addEntry' h1 (hf.addPre hg1.inv hc1 hne hname) (by rw [hcur]; exact hdev) (fun _ => Or.inl hnd))
        · intro e s2 h2; exact ⟨h2.1, e0.trans (hg1.ext.trans h2.2.1)⟩
        · intro _ s2 ⟨h2, e2, k2⟩
          have k2 := k2 rfl
          apply ih s2 s.next _ h2 (e0.trans (hg1.ext.trans e2)) (Nat.lt_of_lt_of_le hf.lt e2.next) (fun _ => k2.1)
          rw [e2.cfg, hg1.ext.cfg]; exact hok'
    · rename_i nm r hr
      have step : ∀ x, x < s.next ∧ ((s.heap x).isDir = true → (s.heap x).dev = some 1) → wp (M.get >>= fun s => if (s.heap x).mode &&& S_IFDIR ≠ S_IFDIR then M.raise .ENOTDIR
          else createDirLoop x cs news) (fun _ s' => One b s' ∧ Ext s0 s') s := by
        intro x hx
        apply wp_getBind
        apply wp_ite
        · intro _; exact ⟨h, e0⟩
        · intro _; exact ih s x news h e0 hx.1 hx.2 hok'
      split
      · apply wp_readBind
        · intro e _; exact ⟨h, e0⟩
        · intro a ha; exact step a (h.closed.resolve ha)
      · exact step r (h.closed.dirContent ⟨hc, hdev⟩ hr)

theorem ko_autoMount (p : Str) : KeepsOne b (autoMount p) := by
  intro s h
  unfold wp
  rw [autoMount_posix h.tree.posix]
  exact ⟨h, Ext.refl s⟩

theorem One.setMode {s0 s : FS} (h : One b s) (hg : Good s0 s) {r : Ref} (hr : s0.next ≤ r) (hr2 : 2 ≤ r) (perm : Nat) :
    One b (s.setObj r fun o => { o with mode := S_IFDIR ||| perm }) ∧ Good s0 (s.setObj r fun o => { o with mode := S_IFDIR ||| perm }) := by
  have hg' := good_setMode hg hr hr2 perm
  refine ⟨?_, hg'⟩
  have hx : ∀ x, ((s.setObj r fun o => { o with mode := S_IFDIR ||| perm }).heap x) = if x = r then { s.heap r with mode := S_IFDIR ||| perm } else s.heap x := by
    intro x; show upd s.heap r _ x = _; rw [upd_apply]
  have f : ∀ {β : Type} (g : Obj → β) (_ : ∀ o m, g { o with mode := m } = g o) (x : Ref),
      g ((s.setObj r fun o => { o with mode := S_IFDIR ||| perm }).heap x) = g (s.heap x) := by
    intro β g hg x
    rw [hx]; split
    · rename_i e; rw [hg, e]
    · rfl
  obtain ⟨m, h1, h2, h3, h4⟩ := h.mount
  refine ⟨hg'.inv, h.tree, (f Obj.dev (fun _ _ => rfl) _).trans h.root, ?_, ⟨m, h1, h2, h3, fun e => ?_⟩, fun e => (f Obj.size (fun _ _ => rfl) _).trans (h.null e)⟩
  · intro d hd e he
    rw [f Obj.entries (fun _ _ => rfl)] at he
    rw [f Obj.dev (fun _ _ => rfl)]
    exact h.ent d hd e he
  · rw [h4 e]
    symm
    refine stored_congr (s := s) (s' := s.setObj r fun o => { o with mode := S_IFDIR ||| perm }) rfl ?_
    intro x _
    exact f weight (fun _ _ => rfl) x

theorem One.setModes {s0 : FS} (perm : Nat) : ∀ (news : List Ref) {s : FS}, One b s → Good s0 s → (∀ r ∈ news, s0.next ≤ r ∧ 2 ≤ r) →
    One b (news.foldl (fun s d => s.setObj d fun o => { o with mode := S_IFDIR ||| perm }) s) := by
  intro news
  induction news with
  | nil => intro s h _ _; exact h
  | cons r rs ih =>
    intro s h hg hr
    obtain ⟨k1, k2⟩ := h.setMode hg (hr r (by simp)).1 (hr r (by simp)).2 perm
    exact ih k1 k2 fun x hx => hr x (by simp [hx])

theorem ko_createDir (p : Str) (perm : Nat) : KeepsOne b (createDir p perm) := by
  intro s h
  unfold createDir createDirG
  apply wp_getBind
  apply wp_seq (fun r s1 => s1 = s) (by unfold wp; rw [autoMount_posix h.tree.posix])
  · rintro e s1 rfl; exact ⟨h, Ext.refl _⟩
  · rintro _ s1 rfl
    apply wp_readBind
    · intro e _; exact ⟨h, Ext.refl _⟩
    · intro b0 _
      apply wp_ite
      · intro _; exact ⟨h, Ext.refl _⟩
      · intro _
        have k1 := createDirLoop_good h.inv.g.two _ s1 rootRef [] (Good.refl h.inv) (root_lt h.inv) (pathComponents_ok h.inv (s1.cfg.makeStringPath p)) (by simp)
        have k2 := one_createDirLoop (s0 := s1) _ s1 rootRef [] h (Ext.refl s1) (root_lt h.inv) (fun _ => h.root) (pathComponents_ok h.inv (s1.cfg.makeStringPath p))
        apply wp_seq (fun r s' => (Good s1 s' ∧ ∀ d ns, r = .ok (d, ns) → d < s'.next ∧ ∀ x ∈ ns, s1.next ≤ x) ∧ (One b s' ∧ Ext s1 s')) ⟨k1, k2⟩
        · intro e s2 h2; exact h2.2
        · rintro ⟨cur, news⟩ s2 ⟨⟨hg2, hd⟩, h2, e2⟩
          obtain ⟨hd1, hd2⟩ := hd cur news rfl
          apply wp_modifyBind
          apply wp_pure
          have hb : ∀ r ∈ news, s1.next ≤ r ∧ 2 ≤ r := fun r hr => ⟨hd2 r hr, Nat.le_trans h.inv.g.two (hd2 r hr)⟩
          exact ⟨h2.setModes perm news hg2 hb, (good_setModes perm news hg2 hb).ext⟩

/-! ## Removing -/

theorem ko_removeObject (p : Str) : KeepsOne b (removeObject p) := by
  intro s h
  unfold removeObject
  apply wp_getBind
  apply wp_ite
  · intro _; exact ⟨h, Ext.refl s⟩
  · intro _
    apply wp_tryCatch
    have : wp (do
        let d ← rd (·.resolve (s.cfg.splitpath (s.absnorm (s.originalPath p))).1 true false)
        removeEntry d (s.cfg.splitpath (s.absnorm (s.originalPath p))).2 true) (fun _ s' => One b s' ∧ Ext s s') s := by
      apply ko_rdB h
      intro d hd
      exact wp_mono (ko_removeEntry _ _ h (resolve_lt h.inv hd)) fun _ _ hp => ⟨hp.1, hp.2.1.ext⟩
    apply wp_mono this
    intro r s' hg
    cases r with
    | ok a => exact hg
    | error e => cases e <;> exact hg

/-! ## Files and links -/

theorem one_createFileTail {s : FS} (h : One b s) (parent nm p : Str) (mode : Nat) (contents : Option Bytes)
    (size : Option Nat) (um : Bool) (hn : Proper s.cfg.sep nm) :
    wp (createFileTail parent nm p mode contents size um) (fun _ s' => One b s' ∧ Ext s s') s := by
  unfold createFileTail
  apply wp_getBind
  apply wp_seq _ (one_newFile h nm _ none)
  · intro e s1 h1; exact absurd h1.2.2.1 (by simp)
  · intro r s1 ⟨h1, hg1, hr, hf, hs1⟩
    injection hr with hr; subst hr
    have hob : s1.heap s.next = mkFileObj nm (if um then andNot mode s.umask else mode) none s := by rw [hs1]; exact upd_same _ _ _
    have hname : NameOk s1 s.next := by
      intro p m
      rw [hob, hg1.ext.cfg]; exact hn
    apply wp_seq _ (one_addObject h1 parent (hf.preOf hg1.inv hname) (fun _ => Or.inr (Or.inl (by rw [hob]; rfl))))
    · intro e s2 h2; exact ⟨h2.1, hg1.ext.trans h2.2.1⟩
    · intro _ s2 ⟨h2, e2, k2⟩
      have k2 := k2 rfl
      have e02 : Ext s s2 := hg1.ext.trans e2
      have hlt : s.next < s2.next := Nat.lt_of_lt_of_le hf.lt e2.next
      have hnn : s.next ≠ devNullRef := fun e => absurd (e ▸ hf.two) (by decide)
      have hct : (s2.heap s.next).content = .file none := by rw [k2.2.2.2, hob]; rfl
      dsimp only
      have cat : ∀ c : Option Bytes, wp (catchOS (match size with
          | some n => setLargeFileSize s.next n
          | none => do let _ ← setInitialContents s.next (c.getD []); M.pure ())
          fun e => do removeObject p; M.throw e) (fun _ s' => One b s' ∧ Ext s s') s2 := by
        intro c
        unfold catchOS
        apply wp_tryCatch
        have : wp (match size with
          | some n => setLargeFileSize s.next n
          | none => do let _ ← setInitialContents s.next (c.getD []); M.pure ()) (fun _ s' => One b s' ∧ Ext s s') s2 := by
          split
          · exact wp_mono (one_setLargeFileSize h2 _ (fun _ _ => ⟨hlt, k2.2.2.1⟩) (fun _ => hnn)) fun _ _ hp => ⟨hp.1, e02.trans hp.2.1⟩
          · apply wp_seq _ (one_setInitialContents h2 (r := s.next) (c.getD []) (fun _ _ _ => ⟨hlt, k2.2.2.1, fun o ho => by rw [hct] at ho; injection ho with ho; rw [← ho]; rfl⟩))
            · intro e s3 h3; exact ⟨h3.1, e02.trans h3.2.1⟩
            · intro _ s3 h3; exact ⟨h3.1, e02.trans h3.2.1⟩
        apply wp_mono this
        intro r s3 h3
        cases r with
        | ok a => exact h3
        | error e =>
          apply wp_ite
          · intro _; exact wp_end1 h3.1 h3.2 (ko_bind (ko_removeObject p) fun _ => ko_throw _)
          · intro _; exact h3
      apply wp_ite
      · intro _
        apply wp_seq _ (cat _)
        · intro e s3 h3; exact h3
        · intro _ s3 h3; exact h3
      · intro _; exact ⟨h2, e02⟩

theorem ko_fileParent (parent : Str) (cm : Bool) : KeepsOne b (fileParent parent cm) := by
  unfold fileParent
  apply ko_bind (ko_rd _)
  intro b
  apply ko_ite
  · intro _
    apply ko_ite
    · intro _; exact ko_raise _
    · intro _; exact ko_bind (ko_createDir _ _) fun _ => ko_pure _
  · intro _; exact ko_bind ko_get fun _ => ko_pure _

theorem ko_createFileI (p : Str) (mode : Nat) (contents : Option Bytes) (size : Option Nat) (cm um : Bool) :
    KeepsOne b (createFileI p mode contents size cm um) := by
  intro s h
  unfold createFileI
  apply wp_getBind
  apply ko_rdB h
  intro b0 hb
  apply wp_ite
  · intro _; exact ⟨h, Ext.refl s⟩
  · intro hbf
    have hname := splitName_ok h.inv hb hbf h.tree.posix
    dsimp only
    apply ko_seq h (Ext.refl s) (ko_autoMount _)
    intro _ s1 h1 _ e1
    apply ko_seq h1 e1 (ko_fileParent _ _)
    intro parent s2 h2 _ e2
    apply wp_endW e2
    apply one_createFileTail h2
    rw [e2.cfg]; exact hname

theorem ko_createSymlink (p target : Str) (cm : Bool) : KeepsOne b (createSymlink p target cm) := by
  unfold createSymlink
  apply ko_bind ko_get
  intro s
  dsimp only
  have tail : ∀ q, KeepsOne b (do
      let p ← if !(← rd (·.isLink q)) then rd (·.resolvePath q) else M.pure q
      createFileI p (S_IFLNK ||| PERM_DEF) (some (s.cfg.enc (s.cfg.makeStringPath target))) none cm false) := by
    intro q
    apply ko_bind (ko_rd _)
    intro b
    split
    · exact ko_bind (ko_rd _) fun _ => ko_createFileI _ _ _ _ _ _
    · exact ko_bind (ko_pure _) fun _ => ko_createFileI _ _ _ _ _ _
  apply ko_ite
  · intro _
    apply ko_bind (ko_rd _)
    intro b
    apply ko_ite
    · intro _; exact ko_raise _
    · intro _
      apply ko_bind (ko_rd _)
      intro b2
      apply ko_ite
      · intro _
        apply ko_ite
        · intro _; exact ko_raise _
        · intro _; exact tail _
      · intro _
        apply ko_ite
        · intro _; exact ko_raise _
        · intro _
          apply ko_bind (ko_rd _)
          intro b3
          apply ko_ite
          · intro _; exact ko_raise _
          · intro _
            apply ko_ite
            · intro _
              apply ko_bind (ko_rd _)
              intro b4
              apply ko_ite
              · intro _; exact ko_bind (ko_removeObject _) fun _ => tail _
              · intro _; exact tail _
            · intro _; exact ko_raise _
  · intro _; exact tail _

theorem ko_linkParent (parent : Str) (cm : Bool) : KeepsOne b (linkParent parent cm) := by
  unfold linkParent
  apply ko_bind (ko_rd _)
  intro b
  apply ko_ite
  · intro _
    apply ko_ite
    · intro _; exact ko_bind (ko_createDir _ _) fun _ => ko_pure' _
    · intro _; exact ko_raise _
  · intro _; exact ko_pure' _

theorem one_linkTail {s : FS} (h : One b s) (old new parent base : Str) (follow : Bool) (hn : Proper s.cfg.sep base) :
    wp (linkTail old new parent base follow) (fun _ s' => One b s' ∧ Ext s s') s := by
  unfold linkTail
  apply wp_getBind
  apply wp_ite
  · intro _; exact ⟨h, Ext.refl s⟩
  intro _
  apply wp_ite
  · intro _; exact ⟨h, Ext.refl s⟩
  intro _
  apply wp_seq (fun r s1 => s1 = s ∧ ∀ x, r = .ok x → s.resolve old follow = .ok x)
  · unfold catchOS
    apply wp_tryCatch
    apply wp_read
    cases hr : s.resolve old follow with
    | ok a => exact ⟨rfl, fun x e => by injection e with e; subst e; rfl⟩
    | error e =>
      apply wp_ite
      · intro _; exact ⟨rfl, fun x e => by cases e⟩
      · intro _; exact ⟨rfl, fun x e => by cases e⟩
  · rintro e s1 ⟨rfl, _⟩; exact ⟨h, Ext.refl _⟩
  · rintro r s1 ⟨rfl, hr⟩
    have hres := hr r rfl
    have hr := resolve_lt h.inv hres
    apply wp_getBind
    apply wp_ite
    · intro _; exact ⟨h, Ext.refl _⟩
    · intro hmode
      have hfile : (s1.heap r).isDir = false := by
        cases hd : (s1.heap r).isDir with
        | false => rfl
        | true => exact absurd (h.inv.g.dirMode r hr hd) hmode
      apply wp_modifyBind
      have hneu : Neutral (s1.heap r) { s1.heap r with name := base } := ⟨⟨rfl, rfl, rfl, rfl, rfl, fun e => by rw [hfile] at e; simp at e, rfl⟩, rfl, rfl⟩
      have h2 := h.setObj r (fun o => { o with name := base }) hneu
      have hg := good_setObj h.inv r (fun o => { o with name := base }) hneu.same
      have hob : (s1.setObj r fun o => { o with name := base }).heap r = { s1.heap r with name := base } := upd_same _ _ _
      apply wp_seq _ (one_addObject h2 parent (c := r) ?_ ?_)
      · intro e s2 h3; exact ⟨h3.1, hg.ext.trans h3.2.1⟩
      · intro _ s2 h3; exact ⟨h3.1, hg.ext.trans h3.2.1⟩
      · have hk : ((s1.setObj r fun o => { o with name := base }).heap r).isDir = false := by rw [hob]; exact hfile
        have hd : ∀ d, d < s1.next → AddPre (s1.setObj r fun o => { o with name := base }) d r := fun d hd =>
          ⟨hd, hr, fun e => by rw [e, h.inv.g.rootDir] at hfile; simp at hfile, fun e => by simp [hk] at e, fun e => by simp [hk] at e, fun _ _ => by rw [hob]; exact hn⟩
        rintro d (⟨q, fo, g, hd'⟩ | rfl)
        · exact hd d (resolve_lt h2.inv hd')
        · exact hd _ (root_lt h.inv)
      · intro e
        rw [hob]
        rcases (h.named.resolve hres).2 with hx | hx | hx
        · subst hx; exact Or.inr (Or.inl (h.null e))
        · exact Or.inl hx
        · exact Or.inr (Or.inr hx)

theorem ko_createLink (old new : Str) (follow cm : Bool) : KeepsOne b (createLink old new follow cm) := by
  intro s h
  unfold createLink
  apply wp_getBind
  apply ko_rdB h
  intro b0 hb
  apply wp_ite
  · intro _; exact ⟨h, Ext.refl s⟩
  · intro hbf
    have hname := splitName_ok h.inv hb hbf h.tree.posix
    dsimp only
    apply ko_seq h (Ext.refl s) (ko_linkParent _ _)
    intro _ s1 h1 _ e1
    apply wp_endW e1
    apply one_linkTail h1
    rw [e1.cfg]; exact hname

end

end Verif
