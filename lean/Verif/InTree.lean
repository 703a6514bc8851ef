import Verif.SpecRef
/-!
# Which files are in a tree
-/

namespace Verif
open Py

/-- the file has a name in the tree -/
def Spec.InTree (t : Ref.Tree) (i : Nat) : Prop := ∃ l b, t l = some (.file i b)

open Spec

section
variable {t : Ref.Tree}

theorem inTree_set {p : Ref.Path} {n : Option Ref.Node} {i : Nat} (h : InTree (t.set p n) i) : InTree t i ∨ ∃ b, n = some (.file i b) := by
  obtain ⟨l, b, h⟩ := h
  unfold Ref.Tree.set at h
  split at h
  · exact Or.inr ⟨b, h⟩
  · exact Or.inl ⟨l, b, h⟩

theorem inTree_grow {p : Ref.Path} {i : Nat} (h : InTree (t.grow p) i) : InTree t i := by
  obtain ⟨l, b, h⟩ := h
  unfold Ref.Tree.grow at h
  split at h
  · simp at h
  · exact ⟨l, b, h⟩

theorem inTree_cut {p : Ref.Path} {i : Nat} (h : InTree (t.cut p) i) : InTree t i := by
  obtain ⟨l, b, h⟩ := h
  unfold Ref.Tree.cut at h
  split at h
  · simp at h
  · exact ⟨l, b, h⟩

theorem inTree_move {a b : Ref.Path} {i : Nat} (h : InTree (t.move a b) i) : InTree t i := by
  obtain ⟨l, c, h⟩ := h
  unfold Ref.Tree.move at h
  split at h
  · exact ⟨_, c, h⟩
  · split at h
    · simp at h
    · exact ⟨l, c, h⟩

theorem inTree_store {x : Nat} {d : Bytes} {i : Nat} (h : InTree (t.store x d) i) : InTree t i := by
  obtain ⟨l, c, h⟩ := h
  unfold Ref.Tree.store at h
  split at h
  · rename_i j e hl
    split at h <;> · injection h with h; injection h with h1 h2; subst h1; exact ⟨l, e, hl⟩
  · exact ⟨l, c, h⟩

end
end Verif
