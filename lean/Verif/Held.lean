import Verif.Epoch
/-!
# Calls that change names and directories leave the data of all files alone
-/

namespace Verif
open Py Spec Cfg

/-- every file has the bytes, the size and the epoch it had -/
structure Held (s s' : FS) : Prop where
  next : s.next ≤ s'.next
  kind : ∀ r < s.next, (s'.heap r).isDir = (s.heap r).isDir
  data : ∀ r < s.next, (s.heap r).isDir = false →
    (s'.heap r).content = (s.heap r).content ∧ (s'.heap r).size = (s.heap r).size ∧ (s'.heap r).epoch = (s.heap r).epoch

theorem Held.same {s s' : FS} (h1 : s'.next = s.next) (h2 : ∀ r, (s'.heap r).isDir = (s.heap r).isDir ∧ ((s.heap r).isDir = false →
    (s'.heap r).content = (s.heap r).content ∧ (s'.heap r).size = (s.heap r).size ∧ (s'.heap r).epoch = (s.heap r).epoch)) : Held s s' :=
  ⟨Nat.le_of_eq h1.symm, fun r _ => (h2 r).1, fun r _ => (h2 r).2⟩

theorem Held.heap {s s' : FS} (h1 : s'.next = s.next) (h2 : s'.heap = s.heap) : Held s s' :=
  Held.same h1 fun _ => by rw [h2]; exact ⟨rfl, fun _ => ⟨rfl, rfl, rfl⟩⟩

theorem Held.trans {a b c : FS} (h : Held a b) (k : Held b c) : Held a c := by
  refine ⟨Nat.le_trans h.next k.next, fun r hr => ?_, fun r hr hd => ?_⟩
  · exact (k.kind r (Nat.lt_of_lt_of_le hr h.next)).trans (h.kind r hr)
  · have hr' := Nat.lt_of_lt_of_le hr h.next
    obtain ⟨h1, h2, h3⟩ := h.data r hr hd
    obtain ⟨k1, k2, k3⟩ := k.data r hr' ((h.kind r hr).trans hd)
    exact ⟨k1.trans h1, k2.trans h2, k3.trans h3⟩

/-- changing one object without touching its contents -/
theorem held_meta (s : FS) (r : Ref) (f : Obj → Obj) (hf : (f (s.heap r)).content = (s.heap r).content ∧ (f (s.heap r)).size = (s.heap r).size ∧
    (f (s.heap r)).epoch = (s.heap r).epoch) : Held s (s.setObj r f) := by
  refine Held.same rfl fun d => ?_
  by_cases e : d = r
  · subst e
    have : (s.setObj d f).heap d = f (s.heap d) := upd_same _ _ _
    rw [this]
    exact ⟨by unfold Obj.isDir; rw [hf.1], fun _ => hf⟩
  · have : (s.setObj r f).heap d = s.heap d := upd_ne _ _ e
    rw [this]; exact ⟨rfl, fun _ => ⟨rfl, rfl, rfl⟩⟩

instance : OpRel Held where
  N := fun _ => True
  D := fun _ => True
  refl s := Held.heap rfl rfl
  trans := Held.trans
  le h := h.next
  kind h := h.kind
  A _ := True
  T := True
  ino _ _ := Held.heap rfl rfl
  used _ _ _ := Held.heap rfl rfl
  mount _ _ _ _ := Held.heap rfl rfl
  total _ _ _ _ := Held.heap rfl rfl
  winA _ _ := trivial
  new s o _ := by
    have key : ∀ d < s.next, upd s.heap s.next o d = s.heap d := fun d hd => upd_ne _ _ (Nat.ne_of_lt hd)
    refine ⟨Nat.le_succ _, fun d hd => congrArg Obj.isDir (key d hd), fun d hd _ => ?_⟩
    show (upd s.heap s.next o d).content = _ ∧ (upd s.heap s.next o d).size = _ ∧ (upd s.heap s.next o d).epoch = _
    rw [key d hd]; exact ⟨rfl, rfl, rfl⟩
  obj s r o h := held_meta s r _ ⟨h.content, h.size, h.epoch⟩
  att s d c hd hn := by
    refine Held.same (attach_misc s d c).1 fun x => ?_
    rw [attach_heap]
    by_cases h : x = d
    · subst h; simp only [if_true]; rw [hd]; exact ⟨rfl, fun e => by simp at e⟩
    · simp only [if_neg h]; exact ⟨rfl, fun _ => by simp⟩
  det s0 s d nm e h hd hc hk := by
    have hnx : (detach d nm e s).2.next = s.next := by
      unfold detach
      dsimp only
      split
      · rfl
      · split <;> rfl
    refine h.trans (Held.same hnx fun x => ?_)
    have h1 : ∀ (t : FS) (r : Ref), ((t.setObj r fun o => { o with nlink := o.nlink - 1 }).heap x).content = (t.heap x).content ∧
        ((t.setObj r fun o => { o with nlink := o.nlink - 1 }).heap x).size = (t.heap x).size ∧
        ((t.setObj r fun o => { o with nlink := o.nlink - 1 }).heap x).epoch = (t.heap x).epoch := by
      intro t r
      by_cases e : x = r
      · subst e
        have : (t.setObj x fun o => { o with nlink := o.nlink - 1 }).heap x = { t.heap x with nlink := (t.heap x).nlink - 1 } := upd_same _ _ _
        rw [this]; exact ⟨rfl, rfl, rfl⟩
      · have : (t.setObj r fun o => { o with nlink := o.nlink - 1 }).heap x = t.heap x := upd_ne _ _ e
        rw [this]; exact ⟨rfl, rfl, rfl⟩
    unfold detach
    dsimp only
    generalize hs1 : s.setObj d (fun o => { o with nlink := o.nlink - 1 }) = s1
    generalize hs2 : s1.setObj e (fun o => { o with nlink := o.nlink - 1 }) = s2
    have e1 := h1 s d
    have e2 := h1 s1 e
    rw [hs1] at e1
    rw [hs2] at e2
    have e3 : (s2.heap x).content = (s.heap x).content ∧ (s2.heap x).size = (s.heap x).size ∧ (s2.heap x).epoch = (s.heap x).epoch :=
      ⟨e2.1.trans e1.1, e2.2.1.trans e1.2.1, e2.2.2.trans e1.2.2⟩
    have hko : (s2.heap x).isDir = (s.heap x).isDir := by unfold Obj.isDir; rw [e3.1]
    split
    · exact ⟨hko, fun _ => e3⟩
    · split
      · exact ⟨hko, fun _ => e3⟩
      · by_cases ed : x = d
        · subst ed
          have : (s2.setObj x fun o => { o with content := .dir (aerase nm o.entries) }).heap x =
            { s2.heap x with content := .dir (aerase nm (s2.heap x).entries) } := upd_same _ _ _
          rename_i hne
          obtain ⟨y, hy⟩ : ∃ y, alookup nm (s2.heap x).entries = some y := by
            cases ha : alookup nm (s2.heap x).entries with
            | none => rw [ha] at hne; simp at hne
            | some y => exact ⟨y, rfl⟩
          have h3 := isDir_of_entry (alookup_mem hy)
          rw [this]
          exact ⟨by rw [← hko, h3]; rfl, fun hf => by rw [← hko, h3] at hf; simp at hf⟩
        · have : (s2.setObj d fun o => { o with content := .dir (aerase nm o.entries) }).heap x = s2.heap x := upd_ne _ _ ed
          rw [this]; exact ⟨hko, fun _ => e3⟩
  dirMode s0 s d perm h hn hd hp := h.trans (held_meta s d _ ⟨rfl, rfl, rfl⟩)
  dirN _ _ _ _ := trivial
  defD := trivial
  lnkN _ _ := trivial
  regN _ _ _ := trivial

theorem held_chmod (p : Str) (m : Nat) (f : Bool) : Fr Held (chmod p m f) := by
  unfold chmod
  refine fo_bind (fo_rd _) fun r => ?_
  intro s
  dsimp only [M.modify]
  exact held_meta s r _ ⟨rfl, rfl, rfl⟩

end Verif
