import Verif.FrameIO
import Verif.Props.Append
/-!
# Every change of the data of a file is recorded in its epoch
-/

namespace Verif
open Py Spec Cfg

/-- Epochs only grow, and an object whose epoch did not change has its bytes (or has become a file without contents). -/
structure Epoch (s s' : FS) : Prop where
  next : s.next ≤ s'.next
  kind : ∀ r < s.next, (s'.heap r).isDir = (s.heap r).isDir
  epoch : ∀ r < s.next, (s.heap r).epoch ≤ (s'.heap r).epoch
  data : ∀ r < s.next, (s'.heap r).epoch = (s.heap r).epoch → bytesOf s' r = bytesOf s r ∨ bytesOf s' r = none

theorem Epoch.same {s s' : FS} (h1 : s'.next = s.next) (h2 : ∀ r, (s'.heap r).isDir = (s.heap r).isDir ∧
    (s'.heap r).epoch = (s.heap r).epoch ∧ bytesOf s' r = bytesOf s r) : Epoch s s' :=
  ⟨Nat.le_of_eq h1.symm, fun r _ => (h2 r).1, fun r _ => Nat.le_of_eq (h2 r).2.1.symm, fun r _ _ => Or.inl (h2 r).2.2⟩

theorem Epoch.trans {a b c : FS} (h : Epoch a b) (k : Epoch b c) : Epoch a c := by
  refine ⟨Nat.le_trans h.next k.next, fun r hr => ?_, fun r hr => ?_, fun r hr e => ?_⟩
  · exact (k.kind r (Nat.lt_of_lt_of_le hr h.next)).trans (h.kind r hr)
  · exact Nat.le_trans (h.epoch r hr) (k.epoch r (Nat.lt_of_lt_of_le hr h.next))
  · have hr' := Nat.lt_of_lt_of_le hr h.next
    have h1 := h.epoch r hr
    have h2 := k.epoch r hr'
    have e1 : (b.heap r).epoch = (a.heap r).epoch := Nat.le_antisymm (e ▸ h2) h1
    have e2 : (c.heap r).epoch = (b.heap r).epoch := e.trans e1.symm
    rcases k.data r hr' e2 with k1 | k1
    · rw [k1]; exact h.data r hr e1
    · exact Or.inr k1

theorem bytesOf_isDir {s : FS} {r : Ref} (h : (s.heap r).isDir = true) : bytesOf s r = none := by
  unfold Obj.isDir at h
  unfold bytesOf
  cases hc : (s.heap r).content with
  | file b => rw [hc] at h; simp at h
  | dir l => rfl

theorem bytesOf_content {s s' : FS} {r : Ref} (h : (s'.heap r).content = (s.heap r).content) : bytesOf s' r = bytesOf s r := by
  unfold bytesOf; rw [h]

/-- changing one object without touching its contents -/
theorem epoch_meta (s : FS) (r : Ref) (f : Obj → Obj) (h1 : ∀ o, (f o).content = o.content) (h2 : ∀ o, (f o).epoch = o.epoch) :
    Epoch s (s.setObj r f) := by
  refine Epoch.same rfl fun d => ?_
  by_cases e : d = r
  · subst e
    have : (s.setObj d f).heap d = f (s.heap d) := upd_same _ _ _
    refine ⟨?_, by rw [this]; exact h2 _, bytesOf_content (by rw [this]; exact h1 _)⟩
    rw [this]; unfold Obj.isDir; rw [h1]
  · have : (s.setObj r f).heap d = s.heap d := upd_ne _ _ e
    exact ⟨by rw [this], by rw [this], bytesOf_content (by rw [this])⟩

instance : OpRelIO Epoch where
  N := fun _ => True
  D := fun _ => True
  refl s := Epoch.same rfl fun _ => ⟨rfl, rfl, rfl⟩
  trans := Epoch.trans
  le h := h.next
  kind h := h.kind
  A _ := True
  T := True
  ino _ _ := Epoch.same rfl fun _ => ⟨rfl, rfl, rfl⟩
  used _ _ _ := Epoch.same rfl fun _ => ⟨rfl, rfl, rfl⟩
  mount _ _ _ _ := Epoch.same rfl fun _ => ⟨rfl, rfl, rfl⟩
  total _ _ _ _ := Epoch.same rfl fun _ => ⟨rfl, rfl, rfl⟩
  winA _ _ := trivial
  hand s hs hn f ff := Epoch.same rfl fun _ => ⟨rfl, rfl, rfl⟩
  new s o _ := by
    have key : ∀ d < s.next, upd s.heap s.next o d = s.heap d := fun d hd => upd_ne _ _ (Nat.ne_of_lt hd)
    exact ⟨Nat.le_succ _, fun d hd => congrArg Obj.isDir (key d hd), fun d hd => Nat.le_of_eq (congrArg Obj.epoch (key d hd)).symm,
      fun d hd _ => Or.inl (bytesOf_content (congrArg Obj.content (key d hd)))⟩
  dat s r o h := by
    have key : ∀ d, d ≠ r → (s.setObj r fun _ => o).heap d = s.heap d := fun d hd => upd_ne _ _ hd
    have own : (s.setObj r fun _ => o).heap r = o := upd_same _ _ _
    refine ⟨Nat.le_refl _, fun d _ => ?_, fun d _ => ?_, fun d _ e => ?_⟩
    · by_cases e : d = r
      · subst e
        rw [own]
        cases hd : (s.heap d).isDir with
        | true => unfold Obj.isDir at hd ⊢; rw [h.dir (by unfold Obj.isDir; exact hd)]; exact hd
        | false => exact h.file hd
      · rw [key d e]
    · by_cases e : d = r
      · subst e; rw [own]; exact h.epoch
      · rw [key d e]
    · by_cases hd : d = r
      · subst hd
        rw [own] at e
        rcases h.data e with h1 | h1
        · exact Or.inl (bytesOf_content (by rw [own]; exact h1))
        · refine Or.inr ?_
          unfold bytesOf; rw [own, h1]
      · exact Or.inl (bytesOf_content (by rw [key d hd]))
  att s d c hd hn := by
    refine Epoch.same (attach_misc s d c).1 fun x => ?_
    have hdir : ((s.attach d c).heap x).isDir = (s.heap x).isDir := by
      rw [attach_heap]
      by_cases h : x = d
      · subst h; simp only [if_true]; rw [hd]; rfl
      · simp only [if_neg h]; rfl
    refine ⟨hdir, by rw [attach_heap], ?_⟩
    by_cases h : x = d
    · subst h
      rw [bytesOf_isDir hd, bytesOf_isDir (hdir.trans hd)]
    · apply bytesOf_content; rw [attach_heap]; simp only [if_neg h]
  det s0 s d nm e h hd hc hk := by
    have hk : ∀ x, ((detach d nm e s).2.heap x).epoch = (s.heap x).epoch ∧ ((detach d nm e s).2.heap x).isDir = (s.heap x).isDir ∧
        bytesOf (detach d nm e s).2 x = bytesOf s x := by
      intro x
      have h1 : ∀ (t : FS) (r : Ref), ((t.setObj r fun o => { o with nlink := o.nlink - 1 }).heap x).epoch = (t.heap x).epoch ∧
          ((t.setObj r fun o => { o with nlink := o.nlink - 1 }).heap x).isDir = (t.heap x).isDir ∧
          bytesOf (t.setObj r fun o => { o with nlink := o.nlink - 1 }) x = bytesOf t x := by
        intro t r
        by_cases e : x = r
        · subst e
          have : (t.setObj x fun o => { o with nlink := o.nlink - 1 }).heap x = { t.heap x with nlink := (t.heap x).nlink - 1 } := upd_same _ _ _
          unfold bytesOf
          rw [this]; exact ⟨rfl, rfl, rfl⟩
        · have : (t.setObj r fun o => { o with nlink := o.nlink - 1 }).heap x = t.heap x := upd_ne _ _ e
          unfold bytesOf
          rw [this]; exact ⟨rfl, rfl, rfl⟩
      unfold detach
      dsimp only
      generalize hs1 : s.setObj d (fun o => { o with nlink := o.nlink - 1 }) = s1
      generalize hs2 : s1.setObj e (fun o => { o with nlink := o.nlink - 1 }) = s2
      have e1 := h1 s d
      have e2 := h1 s1 e
      rw [hs1] at e1
      rw [hs2] at e2
      have hmo := e2.1.trans e1.1
      have hko := e2.2.1.trans e1.2.1
      have hbo := e2.2.2.trans e1.2.2
      split
      · exact ⟨hmo, hko, hbo⟩
      · split
        · exact ⟨hmo, hko, hbo⟩
        · by_cases ed : x = d
          · subst ed
            have : (s2.setObj x fun o => { o with content := .dir (aerase nm o.entries) }).heap x =
              { s2.heap x with content := .dir (aerase nm (s2.heap x).entries) } := upd_same _ _ _
            rename_i hne
            obtain ⟨y, hy⟩ : ∃ y, alookup nm (s2.heap x).entries = some y := by
              cases ha : alookup nm (s2.heap x).entries with
              | none => rw [ha] at hne; simp at hne
              | some y => exact ⟨y, rfl⟩
            have h3 := isDir_of_entry (alookup_mem hy)
            refine ⟨by rw [this]; exact hmo, by rw [this, ← hko, h3]; rfl, ?_⟩
            rw [← hbo, bytesOf_isDir h3]
            unfold bytesOf
            rw [this]
          · have : (s2.setObj d fun o => { o with content := .dir (aerase nm o.entries) }).heap x = s2.heap x := upd_ne _ _ ed
            refine ⟨by rw [this]; exact hmo, by rw [this]; exact hko, ?_⟩
            rw [← hbo]; exact bytesOf_content (by rw [this])
    have hnx : (detach d nm e s).2.next = s.next := by
      unfold detach
      dsimp only
      split
      · rfl
      · split <;> rfl
    exact h.trans (Epoch.same hnx fun x => ⟨(hk x).2.1, (hk x).1, (hk x).2.2⟩)
  dirMode s0 s d perm h hn hd hp := h.trans (epoch_meta s d _ (fun _ => rfl) fun _ => rfl)
  dirN _ _ _ _ := trivial
  defD := trivial
  lnkN _ _ := trivial
  regN _ _ _ := trivial

theorem epoch_chmod (p : Str) (m : Nat) (f : Bool) : Fr Epoch (chmod p m f) := by
  unfold chmod
  refine fo_bind (fo_rd _) fun r => ?_
  intro s
  dsimp only [M.modify]
  exact epoch_meta s r _ (fun _ => rfl) fun _ => rfl

end Verif
