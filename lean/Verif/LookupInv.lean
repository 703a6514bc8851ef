import Verif.InvRemove
/-!
# Lookups return existing objects; the ancestor test is exact
-/

namespace Verif
open Py

theorem mem_entries {o : Obj} {es : List (Str × Ref)} (h : o.content = .dir es) : o.entries = es := by
  simp [Obj.entries, h]

theorem dirContent_mem {s : FS} {r : Ref} {c nm : Str} {x : Ref} (h : s.dirContent r c = some (nm, x)) :
    (nm, x) ∈ (s.heap r).entries ∧ (s.heap r).isDir = true := by
  unfold FS.dirContent at h
  split at h
  · simp at h
  · rename_i es hes
    rw [mem_entries hes]
    refine ⟨?_, by simp [Obj.isDir, hes]⟩
    split at h
    · rename_i y hy
      injection h with h; injection h with h1 h2; subst h1; subst h2
      exact alookup_some hy
    · split at h
      · simp at h
      · exact List.mem_of_find?_eq_some h

theorem dirContent_lt {s : FS} (h : Inv s) {r : Ref} (hr : r < s.next) {c nm : Str} {x : Ref}
    (hc : s.dirContent r c = some (nm, x)) : x < s.next :=
  h.g.entLt r hr _ (dirContent_mem hc).1

theorem root_lt {s : FS} (h : Inv s) : rootRef < s.next := Nat.lt_of_lt_of_le (by decide) h.g.two
theorem devNull_lt {s : FS} (h : Inv s) : devNullRef < s.next := Nat.lt_of_lt_of_le (by decide) h.g.two

theorem except_bind_ok {α β : Type} {x : Except Err α} {f : α → Except Err β} {b : β}
    (h : (x >>= f) = .ok b) : ∃ a, x = .ok a ∧ f a = .ok b := by
  cases x with
  | error e => simp [bind, Except.bind] at h
  | ok a => exact ⟨a, rfl, h⟩

/-- A set of objects containing the root directory and the null device and closed under directory entries. -/
structure Closed (s : FS) (P : Ref → Prop) : Prop where
  root : P rootRef
  dev : P devNullRef
  ent : ∀ d, P d → ∀ e ∈ (s.heap d).entries, P e.2

theorem Closed.lt {s : FS} (h : Inv s) : Closed s (· < s.next) :=
  ⟨root_lt h, devNull_lt h, fun d hd e he => h.g.entLt d hd e he⟩

section
variable {s : FS} {P : Ref → Prop} (h : Closed s P)
include h

theorem Closed.dirContent {r : Ref} (hr : P r) {c nm : Str} {x : Ref}
    (hc : s.dirContent r c = some (nm, x)) : P x :=
  h.ent r hr _ (dirContent_mem hc).1

theorem Closed.objLoop {k : FS.Rec} (hk : ∀ p r, k.res p = .ok r → P r) {check : Bool} :
    ∀ cs r x, P r → s.objLoop k check r cs = .ok x → P x := by
  intro cs
  induction cs with
  | nil => intro r x hr hx; simp [FS.objLoop] at hx; exact hx ▸ hr
  | cons c cs ih =>
    intro r x hr hx
    simp only [FS.objLoop] at hx
    obtain ⟨r1, h1, h2⟩ := except_bind_ok hx
    have hr1 : P r1 := by
      unfold FS.deref at h1
      split at h1
      · exact hk _ _ h1
      · injection h1 with h1; exact h1 ▸ hr
    split at h2
    · simp at h2
    · split at h2
      · simp at h2
      · rename_i es hes
        split at h2
        · simp at h2
        · rename_i r2 hr2
          have : P r2 := h.ent r1 hr1 _ (by rw [mem_entries hes]; exact getEntry_mem hr2)
          split at h2
          · simp at h2
          · exact ih r2 x this h2

theorem Closed.getObjNormG {k : FS.Rec} (hk : ∀ p r, k.res p = .ok r → P r) {p : Str}
    {check : Bool} {x : Ref} (hx : s.getObjNormG k p check = .ok x) : P x := by
  unfold FS.getObjNormG at hx
  split at hx
  · injection hx with hx; exact hx ▸ h.root
  · split at hx
    · injection hx with hx; exact hx ▸ h.dev
    · exact h.objLoop hk _ _ _ h.root hx

theorem Closed.resolveG {k : FS.Rec} (hk : ∀ p r, k.res p = .ok r → P r) {p : Str}
    {check : Bool} {x : Ref} (hx : s.resolveG k p check = .ok x) : P x := by
  unfold FS.resolveG at hx
  obtain ⟨q, _, h2⟩ := except_bind_ok hx
  exact h.getObjNormG hk h2

theorem Closed.recN : ∀ n p r, (s.recN n).res p = .ok r → P r := by
  intro n
  induction n with
  | zero => intro p r hr; simp [FS.recN] at hr
  | succ n ih => intro p r hr; exact h.resolveG ih hr

theorem Closed.lresolveG {k : FS.Rec} (hk : ∀ p r, k.res p = .ok r → P r) {p : Str}
    {x : Ref} (hx : s.lresolveG k p = .ok x) : P x := by
  unfold FS.lresolveG at hx
  split at hx
  · simp at hx
  · split at hx
    · injection hx with hx; exact hx ▸ h.root
    · obtain ⟨r, h1, h2⟩ := except_bind_ok hx
      have hr := h.resolveG hk h1
      unfold FS.lentry at h2
      split at h2
      · simp at h2
      · rename_i es hes
        split at h2
        · simp at h2
        · split at h2
          · injection h2 with h2; exact h2 ▸ hr
          · split at h2
            · rename_i y hy
              injection h2 with h2; subst h2
              exact h.ent r hr _ (by rw [mem_entries hes]; exact getEntry_mem hy)
            · simp at h2

theorem Closed.resolve {p : Str} {f c : Bool} {x : Ref} (hx : s.resolve p f c = .ok x) : P x := by
  unfold FS.resolve FS.resolveFG at hx
  split at hx
  · exact h.resolveG (h.recN _) hx
  · exact h.lresolveG (h.recN _) hx

theorem Closed.lresolve {p : Str} {x : Ref} (hx : s.lresolve p = .ok x) : P x :=
  h.lresolveG (h.recN _) hx

theorem Closed.getObject {p : Str} {c : Bool} {x : Ref} (hx : s.getObject p c = .ok x) :
    P x := h.getObjNormG (h.recN _) hx

end

theorem resolve_lt {s : FS} (h : Inv s) {p : Str} {f c : Bool} {x : Ref} (hx : s.resolve p f c = .ok x) :
    x < s.next := (Closed.lt h).resolve hx

theorem lresolve_lt {s : FS} (h : Inv s) {p : Str} {x : Ref} (hx : s.lresolve p = .ok x) : x < s.next :=
  (Closed.lt h).lresolve hx

theorem getObject_lt {s : FS} (h : Inv s) {p : Str} {c : Bool} {x : Ref} (hx : s.getObject p c = .ok x) :
    x < s.next := (Closed.lt h).getObject hx

/-! ## Ancestors -/

theorem hasParentF_mono {s : FS} : ∀ n m r d, n ≤ m → s.hasParentF n r d = true → s.hasParentF m r d = true := by
  intro n
  induction n with
  | zero => intro m r d _ h; simp [FS.hasParentF] at h
  | succ n ih =>
    intro m r d hm h
    obtain ⟨m, rfl⟩ : ∃ k, m = k + 1 := ⟨m - 1, by omega⟩
    simp only [FS.hasParentF, Bool.or_eq_true] at h ⊢
    rcases h with h | h
    · exact Or.inl h
    · right
      split at h
      · simp at h
      · exact ih m _ d (by omega) h

theorem anc_chain {s : FS} {a r : Ref} (ha : Anc s.heap a r) (hr : Rooted s.heap r) :
    ∃ l : List Ref, l.Nodup ∧ (∀ x ∈ l, Anc s.heap x r) ∧ s.hasParentF l.length r a = true := by
  induction ha with
  | refl => exact ⟨[a], by simp, by simp; exact .refl, by simp [FS.hasParentF]⟩
  | @up r p h0 _ ih =>
    have hp : Rooted s.heap p := by
      cases hr with
      | top h1 => rw [h0] at h1; simp at h1
      | up h1 h2 => rw [h0] at h1; injection h1 with e; exact e ▸ h2
    obtain ⟨l, h1, h2, h3⟩ := ih hp
    refine ⟨r :: l, ?_, ?_, ?_⟩
    · rw [List.nodup_cons]
      exact ⟨fun hm => hr.noCycle h0 (h2 r hm), h1⟩
    · intro x hx
      rcases List.mem_cons.mp hx with rfl | hx
      · exact .refl
      · exact .up h0 (h2 x hx)
    · simp only [List.length_cons, FS.hasParentF, h0, h3, Bool.or_true]

theorem anc_lt {hp : Ref → Obj} {nx li : Nat} (h : InvG hp nx li) {a r : Ref} (ha : Anc hp a r) (hr : r < nx) :
    a < nx := by
  induction ha with
  | refl => exact hr
  | up h0 _ ih => exact ih (h.parDir _ hr _ h0).1

/-- `has_parent_object` is the ancestor relation. -/
theorem hasParent_of_anc {s : FS} (h : Inv s) (cs : s.cfg.Tree) {a r : Ref} (hr : r < s.next)
    (ha : Anc s.heap a r) : s.hasParent r a = true := by
  obtain ⟨l, h1, h2, h3⟩ := anc_chain ha ((h.t cs).rooted r hr)
  apply hasParentF_mono _ _ _ _ _ h3
  have hsub : l ⊆ List.range s.next := by
    intro x hx
    exact List.mem_range.mpr (anc_lt h.g (h2 x hx) hr)
  simpa using (h1.subperm hsub).length_le

theorem anc_of_hasParentF {s : FS} : ∀ n r a, s.hasParentF n r a = true → Anc s.heap a r := by
  intro n
  induction n with
  | zero => intro r a h; simp [FS.hasParentF] at h
  | succ n ih =>
    intro r a h
    simp only [FS.hasParentF, Bool.or_eq_true] at h
    rcases h with h | h
    · have : r = a := by simpa using h
      subst this; exact .refl
    · split at h
      · simp at h
      · rename_i p hp; exact .up hp (ih p a h)

end Verif
