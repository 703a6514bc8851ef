import Verif.Props.Lookup
import Mathlib.Data.List.Forall2
/-!
# Paths that differ only in the case of their components
-/

namespace Verif
open Py Spec Cfg

namespace Spec
/-- The paths have the same components up to case. -/
def SamePath (k : Cfg) (p q : Str) : Prop := List.Forall₂ (fun a b => k.lower a = k.lower b) (split k.sep p) (split k.sep q)

/-- A case-insensitive POSIX filesystem (the default macOS configuration): lower-casing gives the empty name, `.`, `..` and the separator
only for themselves, and does not touch leading dots. -/
structure Folds (k : Cfg) : Prop where
  posix : k.Posix
  cs : k.caseSens = false
  fixed : ∀ v ∈ [[], ['.'], ['.', '.'], [k.sep]], ∀ w, k.lower w = k.lower v → w = v
  dots : ∀ w w', k.lower w = k.lower w' → (['.', '.'] : Str).isPrefixOf w = (['.', '.'] : Str).isPrefixOf w'
end Spec

/-- the names are equal up to case, and not called `nul` -/
structure RN (k : Cfg) (nul a b : Str) : Prop where
  low : k.lower a = k.lower b
  sep : k.sep ∉ a
  sep' : k.sep ∉ b
  free : k.lower a ≠ k.lower nul

abbrev RL (k : Cfg) (nul : Str) := List.Forall₂ (RN k nul)
/-- the paths are equal up to case, and nothing in them is called `nul` -/
def RP (k : Cfg) (nul p q : Str) : Prop := RL k nul (split k.sep p) (split k.sep q)

section
variable {k : Cfg} {nul : Str} (F : Folds k) (hnul : nul ≠ [] ∧ nul ≠ ['.'])

theorem RN.symm {a b : Str} (h : RN k nul a b) : RN k nul b a := ⟨h.low.symm, h.sep', h.sep, by rw [← h.low]; exact h.free⟩
theorem RL.symm {a b : List Str} (h : RL k nul a b) : RL k nul b a := by
  induction h with
  | nil => exact .nil
  | cons h _ ih => exact .cons h.symm ih
theorem RL.nosep {a b : List Str} (h : RL k nul a b) : ∀ w ∈ a, k.sep ∉ w := by
  induction h with
  | nil => simp
  | cons h _ ih => intro w hw; rcases List.mem_cons.mp hw with rfl | hw; exact h.sep; exact ih w hw
theorem RL.left {a b : List Str} (h : RL k nul a b) : RL k nul a a := by
  induction h with
  | nil => exact .nil
  | cons h _ ih => exact .cons ⟨rfl, h.sep, h.sep, h.free⟩ ih
theorem RP.symm {p q : Str} (h : RP k nul p q) : RP k nul q p := RL.symm h

theorem RL.append {a b c d : List Str} (h : RL k nul a b) (h' : RL k nul c d) : RL k nul (a ++ c) (b ++ d) := by
  induction h with
  | nil => exact h'
  | cons h _ ih => exact .cons h ih

theorem RL.reverse {a b : List Str} (h : RL k nul a b) : RL k nul a.reverse b.reverse := List.rel_reverse h

theorem RL.dropLast {a b : List Str} (h : RL k nul a b) : RL k nul a.dropLast b.dropLast := by
  induction h with
  | nil => exact .nil
  | @cons x y l l' h h' ih =>
    cases h' with
    | nil => exact .nil
    | cons h1 h2 => exact .cons h ih

include F in
theorem RN.fixed {a b : Str} (h : RN k nul a b) {v : Str} (hv : v ∈ [[], ['.'], ['.', '.'], [k.sep]]) : a = v ↔ b = v := by
  constructor
  · rintro rfl; exact F.fixed _ hv _ h.low.symm
  · rintro rfl; exact F.fixed _ hv _ h.low

include F in
theorem RN.nil {a b : Str} (h : RN k nul a b) : a = [] ↔ b = [] := h.fixed F (by simp)
include F in
theorem RN.dot {a b : Str} (h : RN k nul a b) : a = Cfg.dot ↔ b = Cfg.dot := h.fixed F (by simp [Cfg.dot])
include F in
theorem RN.dotdot {a b : Str} (h : RN k nul a b) : a = Cfg.dotdot ↔ b = Cfg.dotdot := h.fixed F (by simp [Cfg.dotdot])

include F hnul in
theorem rn_nil : RN k nul [] [] := ⟨rfl, by simp, by simp, fun e => hnul.1 (F.fixed [] (by simp) nul e.symm)⟩

include F in
theorem collapse_rl (b : Bool) {cs cs' : List Str} (h : RL k nul cs cs') : ∀ {acc acc' : List Str}, RL k nul acc acc' →
    RL k nul (Cfg.collapse b cs acc) (Cfg.collapse b cs' acc') := by
  induction h with
  | nil => intro acc acc' ha; exact ha.reverse
  | @cons c c' l l' h _ ih =>
    intro acc acc' ha
    unfold Cfg.collapse
    by_cases h1 : c = [] ∨ c = Cfg.dot
    · have h1' : c' = [] ∨ c' = Cfg.dot := by rwa [← h.nil F, ← h.dot F]
      rw [if_pos h1, if_pos h1']; exact ih ha
    · have h1' : ¬ (c' = [] ∨ c' = Cfg.dot) := by rwa [← h.nil F, ← h.dot F]
      rw [if_neg h1, if_neg h1']
      by_cases h2 : c = Cfg.dotdot
      · have h2' := (h.dotdot F).mp h2
        rw [if_pos h2, if_pos h2']
        cases ha with
        | nil =>
          dsimp only
          split
          · exact ih .nil
          · exact ih (.cons h .nil)
        | @cons t t' m m' h3 h4 =>
          dsimp only
          by_cases h5 : t = Cfg.dotdot
          · have h5' := (h3.dotdot F).mp h5
            rw [if_neg (not_not_intro h5), if_neg (not_not_intro h5')]
            split
            · exact ih (.cons h3 h4)
            · exact ih (.cons h (.cons h3 h4))
          · have h5' : ¬ t' = Cfg.dotdot := by rwa [← h3.dotdot F]
            rw [if_pos h5, if_pos h5']
            exact ih h4
      · have h2' : ¬ c' = Cfg.dotdot := by rwa [← h.dotdot F]
        rw [if_neg h2, if_neg h2']
        exact ih (.cons h ha)

/-! ### strings -/

theorem isAbs_split {c : Char} {p : Str} : isAbs c p ↔ ∃ x xs, split c p = [] :: x :: xs := by
  constructor
  · rintro ⟨q, rfl⟩
    rw [split_abs]
    obtain ⟨x, xs, e⟩ := List.exists_cons_of_ne_nil (split_ne_nil c q)
    exact ⟨x, xs, by rw [e]⟩
  · rintro ⟨x, xs, e⟩
    have := join_split c p
    rw [e] at this
    exact ⟨join c (x :: xs), by rw [← this]; simp [join]⟩

theorem split_inj {c : Char} {p q : Str} (h : split c p = split c q) : p = q := by
  rw [← join_split c p, h, join_split]

include F in
theorem RP.abs {p q : Str} (h : RP k nul p q) : isAbs k.sep p ↔ isAbs k.sep q := by
  have key : ∀ {p q : Str}, RP k nul p q → isAbs k.sep p → isAbs k.sep q := by
    intro p q h ha
    rw [isAbs_split] at ha ⊢
    obtain ⟨x, xs, e⟩ := ha
    unfold RP at h
    rw [e] at h
    obtain ⟨b, l, h1, h2, e2⟩ := List.forall₂_cons_left_iff.mp h
    obtain ⟨b', l', h3, h4, rfl⟩ := List.forall₂_cons_left_iff.mp h2
    exact ⟨b', l', by rw [e2, (h1.nil F).mp rfl]⟩
  exact ⟨key h, key h.symm⟩

include F in
/-- a fixed path without separator -/
theorem RP.fixed {p q : Str} (h : RP k nul p q) {v : Str} (hv : v ∈ [[], ['.'], ['.', '.'], [k.sep]]) (hs : k.sep ∉ v) : p = v ↔ q = v := by
  have key : ∀ {p q : Str}, RP k nul p q → p = v → q = v := by
    intro p q h e
    subst e
    unfold RP at h
    rw [split_no_sep hs] at h
    obtain ⟨b, l, h1, h2, e2⟩ := List.forall₂_cons_left_iff.mp h
    have e3 := List.forall₂_nil_left_iff.mp h2
    have := (h1.fixed F hv).mp rfl
    refine split_inj (c := k.sep) ?_
    rw [e2, split_no_sep hs, this, e3]
  exact ⟨key h, key h.symm⟩

include F in
theorem RP.nil {p q : Str} (h : RP k nul p q) : p = [] ↔ q = [] := h.fixed F (by simp) (by simp)
include F in
theorem RP.dot {p q : Str} (h : RP k nul p q) : p = Cfg.dot ↔ q = Cfg.dot := h.fixed F (by simp [Cfg.dot]) (by simp [Cfg.dot, F.posix.sepDot])
include F in
theorem RP.root {p q : Str} (h : RP k nul p q) : p = [k.sep] ↔ q = [k.sep] := by
  have key : ∀ {p q : Str}, RP k nul p q → p = [k.sep] → q = [k.sep] := by
    intro p q h e
    subst e
    have e1 : split k.sep [k.sep] = [[], []] := by simp [split]
    unfold RP at h
    rw [e1] at h
    obtain ⟨b, l, h1, h2, e2⟩ := List.forall₂_cons_left_iff.mp h
    obtain ⟨b', l', h3, h4, rfl⟩ := List.forall₂_cons_left_iff.mp h2
    have e3 := List.forall₂_nil_left_iff.mp h4
    refine split_inj (c := k.sep) ?_
    rw [e2, e1, (h1.nil F).mp rfl, (h3.nil F).mp rfl, e3]
  exact ⟨key h, key h.symm⟩

include F hnul in
theorem RL.join {l l' : List Str} (h : RL k nul l l') : RP k nul (join k.sep l) (join k.sep l') := by
  cases h with
  | nil => exact .cons (rn_nil F hnul) .nil
  | cons h1 h2 =>
    have h := List.Forall₂.cons h1 h2
    unfold RP
    rw [split_join (by simp) (RL.nosep h), split_join (by simp) (RL.nosep (RL.symm h))]
    exact h

include F hnul in
theorem RP.slash {p q : Str} (h : RP k nul p q) : RP k nul (k.sep :: p) (k.sep :: q) := by
  unfold RP
  rw [split_abs, split_abs]
  exact .cons (rn_nil F hnul) h

include F hnul in
theorem RP.cat {a b p q : Str} (h : RP k nul a b) (h' : RP k nul p q) : RP k nul (a ++ k.sep :: p) (b ++ k.sep :: q) := by
  unfold RP
  rw [split_append_sep, split_append_sep]
  exact RL.append h h'

include F hnul in
theorem RP.normpath {p q : Str} (h : RP k nul p q) : RP k nul (k.normpath p) (k.normpath q) := by
  rw [normpath_posix F.posix, normpath_posix F.posix]
  by_cases ha : isAbs k.sep p
  · rw [if_pos ha, if_pos ((h.abs F).mp ha)]
    exact (RL.join F hnul (collapse_rl F true h .nil)).slash F hnul
  · rw [if_neg ha, if_neg (fun e => ha ((h.abs F).mpr e))]
    have hc := collapse_rl F false h .nil
    by_cases he : Cfg.collapse false (split k.sep p) [] = []
    · have he' : Cfg.collapse false (split k.sep q) [] = [] := by
        rw [he] at hc
        exact List.forall₂_nil_left_iff.mp hc
      rw [if_pos he, if_pos he']
      have hd : k.sep ∉ Cfg.dot := by simp [Cfg.dot, F.posix.sepDot]
      unfold RP
      rw [split_no_sep hd]
      exact .cons ⟨rfl, hd, hd, fun e => hnul.2 (F.fixed ['.'] (by simp) nul e.symm)⟩ .nil
    · have he' : ¬ Cfg.collapse false (split k.sep q) [] = [] := by
        intro e
        rw [e] at hc
        exact he (List.forall₂_nil_right_iff.mp hc)
      rw [if_neg he, if_neg he']
      exact RL.join F hnul hc


include F hnul in
theorem RP.absnormpath {cwd p q : Str} (hc : isAbs k.sep cwd) (hw : RP k nul cwd cwd) (h : RP k nul p q) :
    RP k nul (k.absnormpath cwd p) (k.absnormpath cwd q) := by
  rw [absnormpath_posix F.posix hc, absnormpath_posix F.posix hc]
  refine RP.normpath F hnul ?_
  have hn : RP k nul [] [] := .cons (rn_nil F hnul) .nil
  by_cases h1 : p = []
  · rw [if_pos h1, if_pos ((h.nil F).mp h1)]
    exact hn.slash F hnul
  rw [if_neg h1, if_neg (fun e => h1 ((h.nil F).mpr e))]
  by_cases h2 : p = Cfg.dot
  · rw [if_pos h2, if_pos ((h.dot F).mp h2)]
    exact hw
  rw [if_neg h2, if_neg (fun e => h2 ((h.dot F).mpr e))]
  by_cases h3 : isAbs k.sep p
  · rw [if_pos h3, if_pos ((h.abs F).mp h3)]
    exact h
  rw [if_neg h3, if_neg (fun e => h3 ((h.abs F).mpr e))]
  simp only [join]
  split
  · exact RP.cat F hnul hw h
  · exact RP.cat F hnul hn h

include F in
theorem RP.components {p q : Str} (h : RP k nul p q) : RL k nul (k.pathComponents p) (k.pathComponents q) := by
  unfold Cfg.pathComponents
  by_cases h1 : p = [] ∨ p = [k.sep]
  · rw [if_pos h1, if_pos (by rwa [← h.nil F, ← h.root F])]
    exact .nil
  rw [if_neg h1, if_neg (by rwa [← h.nil F, ← h.root F])]
  simp only [F.posix.splitdrive, ne_eq, not_true, if_false]
  unfold RP at h
  generalize split k.sep p = a at h
  generalize split k.sep q = b at h
  cases h with
  | nil => exact .nil
  | @cons x y l l' h2 h3 =>
    by_cases hx : x = []
    · have hy := (h2.nil F).mp hx
      subst hx; subst hy
      cases h3 with
      | nil => exact .nil
      | @cons x2 y2 l2 l2' h4 h5 =>
        by_cases hx2 : x2 = []
        · have hy2 := (h4.nil F).mp hx2
          subst hx2; subst hy2
          exact .nil
        · have hy2 : y2 ≠ [] := fun e => hx2 ((h4.nil F).mpr e)
          obtain ⟨_, _, rfl⟩ := List.exists_cons_of_ne_nil hx2
          obtain ⟨_, _, rfl⟩ := List.exists_cons_of_ne_nil hy2
          exact .cons h4 h5
    · have hy : y ≠ [] := fun e => hx ((h2.nil F).mpr e)
      obtain ⟨_, _, rfl⟩ := List.exists_cons_of_ne_nil hx
      obtain ⟨_, _, rfl⟩ := List.exists_cons_of_ne_nil hy
      exact .cons h2 h3

include F hnul in
theorem RL.toPath {l l' : List Str} (h : RL k nul l l') : RP k nul (k.componentsToPath l) (k.componentsToPath l') := by
  have hj := RL.join F hnul h
  unfold Cfg.componentsToPath
  simp only [F.posix.startsWithRoot, startsWithC_eq]
  by_cases ha : isAbs k.sep (Py.join k.sep l)
  · rw [decide_eq_true ha, decide_eq_true ((hj.abs F).mp ha)]
    exact hj
  · rw [decide_eq_false ha, decide_eq_false (fun e => ha ((hj.abs F).mpr e))]
    exact hj.slash F hnul

/-! ### trailing separators -/

theorem endsWithC_split {c : Char} {p : Str} : endsWithC c p = true ↔ ∃ l, l ≠ [] ∧ split c p = l ++ [[]] := by
  unfold endsWithC
  rcases List.eq_nil_or_concat p with rfl | ⟨q, x, rfl⟩
  · simp [split]
  · rw [List.concat_eq_append]
    constructor
    · intro h
      have : x = c := by simpa using h
      subst this
      exact ⟨split x q, split_ne_nil _ _, by rw [split_append_sep]; simp [split]⟩
    · rintro ⟨l, hl, e⟩
      have := join_split c (q ++ [x])
      rw [e, join_append c hl (by simp)] at this
      have h2 : (Py.join c l ++ c :: Py.join c [[]]).getLast? = (q ++ [x]).getLast? := by rw [this]
      simp [Py.join] at h2
      simp [h2]

theorem forall₂_concat {R : Str → Str → Prop} {l : List Str} {x : Str} {b : List Str} (h : List.Forall₂ R (l ++ [x]) b) :
    ∃ l' y, b = l' ++ [y] ∧ List.Forall₂ R l l' ∧ R x y := by
  induction l generalizing b with
  | nil =>
    obtain ⟨y, u, h1, h2, rfl⟩ := List.forall₂_cons_left_iff.mp h
    rw [List.forall₂_nil_left_iff.mp h2]
    exact ⟨[], y, rfl, .nil, h1⟩
  | cons a l ih =>
    obtain ⟨y, u, h1, h2, rfl⟩ := List.forall₂_cons_left_iff.mp h
    obtain ⟨l', z, rfl, h3, h4⟩ := ih h2
    exact ⟨y :: l', z, rfl, .cons h1 h3, h4⟩

include F in
theorem RP.ends {p q : Str} (h : RP k nul p q) : endsWithC k.sep p = endsWithC k.sep q := by
  have key : ∀ {p q : Str}, RP k nul p q → endsWithC k.sep p = true → endsWithC k.sep q = true := by
    intro p q h ha
    rw [endsWithC_split] at ha ⊢
    obtain ⟨l, hl, e⟩ := ha
    unfold RP at h
    rw [e] at h
    obtain ⟨l', y, e2, h3, h4⟩ := forall₂_concat h
    refine ⟨l', ?_, by rw [e2, (h4.nil F).mp rfl]⟩
    rintro rfl
    exact hl (List.forall₂_nil_right_iff.mp h3)
  rw [Bool.eq_iff_iff]
  exact ⟨key h, key h.symm⟩

include F in
theorem RP.endsSep {p q : Str} (h : RP k nul p q) : k.endsWithSep p = k.endsWithSep q := by
  unfold Cfg.endsWithSep
  simp only [F.posix.altsep, h.ends F, Bool.or_false]
  congr 1
  rw [Bool.eq_iff_iff]
  simp [h.nil F, h.root F]

theorem endsWithC_dropLast {c : Char} {p : Str} (h : endsWithC c p = true) : split c p = split c p.dropLast ++ [[]] := by
  unfold endsWithC at h
  rcases List.eq_nil_or_concat p with rfl | ⟨q, x, rfl⟩
  · simp at h
  · rw [List.concat_eq_append] at h ⊢
    have : x = c := by simpa using h
    subst this
    rw [List.dropLast_concat, split_append_sep]
    simp [split]

include F in
theorem RP.stripLoop : ∀ {n n' : Nat} {p q : Str}, p.length ≤ n → q.length ≤ n' → RP k nul p q → RP k nul (k.stripLoop n p) (k.stripLoop n' q) := by
  intro n
  induction n with
  | zero =>
    intro n' p q hp hq h
    have e : p = [] := List.length_eq_zero_iff.mp (by omega)
    have e2 := (h.nil F).mp e
    have : ∀ n', k.stripLoop n' [] = [] := by
      intro n'
      cases n' with
      | zero => rfl
      | succ n' => simp [Cfg.stripLoop, Cfg.endsWithSep]
    rw [e] at h ⊢
    rw [e2] at h ⊢
    rw [this n']
    exact h
  | succ n ih =>
    intro n' p q hp hq h
    unfold Cfg.stripLoop
    by_cases he : k.endsWithSep p = true
    · have he2 : k.endsWithSep q = true := by rw [← h.endsSep F]; exact he
      have hep : endsWithC k.sep p = true := by
        unfold Cfg.endsWithSep at he
        simp only [F.posix.altsep, Bool.or_false, Bool.and_eq_true] at he
        exact he.2
      have heq : endsWithC k.sep q = true := by rw [← h.ends F]; exact hep
      have hd : RP k nul p.dropLast q.dropLast := by
        have h' := h
        unfold RP at h'
        rw [endsWithC_dropLast hep, endsWithC_dropLast heq] at h'
        have := RL.dropLast h'
        rwa [List.dropLast_concat, List.dropLast_concat] at this
      have hq0 : q ≠ [] := by
        rintro rfl
        simp [Cfg.endsWithSep] at he2
      have hl : 0 < q.length := List.length_pos_iff.mpr hq0
      obtain ⟨m, rfl⟩ : ∃ m, n' = m + 1 := ⟨n' - 1, by omega⟩
      simp only [Cfg.stripLoop, if_pos he, if_pos he2]
      exact ih (by simp; omega) (by simp; omega) hd
    · have he2 : ¬ k.endsWithSep q = true := by rw [← h.endsSep F]; exact he
      rw [if_neg he]
      cases n' with
      | zero => exact h
      | succ m => simp only [Cfg.stripLoop, if_neg he2]; exact h

include F in
theorem RP.strip {p q : Str} (h : RP k nul p q) : RP k nul (k.stripTrailing p) (k.stripTrailing q) :=
  RP.stripLoop F (le_refl _) (le_refl _) h

/-! ### splitpath -/

include F in
theorem RL.dropWhile {l l' : List Str} (h : RL k nul l l') : RL k nul (l.dropWhile (· == [])) (l'.dropWhile (· == [])) := by
  induction h with
  | nil => exact .nil
  | @cons a b l l' h1 h2 ih =>
    by_cases ha : a = []
    · have hb := (h1.nil F).mp ha
      subst ha; subst hb
      exact ih
    · have hb : b ≠ [] := fun e => ha ((h1.nil F).mpr e)
      simp [ha, hb]; exact ⟨h1, h2⟩

include F in
theorem RL.any {l l' : List Str} (h : RL k nul l l') : l.any (fun x => decide (x ≠ [])) = l'.any (fun x => decide (x ≠ [])) := by
  induction h with
  | nil => rfl
  | @cons a b l l' h1 h2 ih =>
    simp only [List.any_cons, ih]
    congr 1
    rw [Bool.eq_iff_iff]
    simp [h1.nil F]

include F hnul in
theorem RP.splitpath {p q : Str} (h : RP k nul p q) : RP k nul (k.splitpath p).1 (k.splitpath q).1 ∧ RN k nul (k.splitpath p).2 (k.splitpath q).2 := by
  unfold RP at h
  have hn : RP k nul [] [] := .cons (rn_nil F hnul) .nil
  have hd := RL.dropLast h
  have hl : RN k nul ((split k.sep p).getLastD []) ((split k.sep q).getLastD []) := by
    rcases List.eq_nil_or_concat (split k.sep p) with e | ⟨l, x, e⟩
    · exact absurd e (split_ne_nil _ _)
    · rw [e, List.concat_eq_append] at h
      obtain ⟨l', y, e2, h3, h4⟩ := forall₂_concat h
      rw [e, e2, List.concat_eq_append]
      simpa using h4
  have hdt : RL k nul (Cfg.dropTrailingEmpty (split k.sep p).dropLast) (Cfg.dropTrailingEmpty (split k.sep q).dropLast) := by
    unfold Cfg.dropTrailingEmpty
    exact (RL.dropWhile F hd.reverse).reverse
  unfold Cfg.splitpath
  simp only [F.posix.normcase, F.posix.drive, Bool.false_eq_true, false_and, if_false]
  by_cases h1 : (split k.sep p).dropLast = []
  · have h1' : (split k.sep q).dropLast = [] := by
      rw [h1] at hd; exact List.forall₂_nil_left_iff.mp hd
    rw [if_pos h1, if_pos h1']
    exact ⟨hn, hl⟩
  · have h1' : ¬ (split k.sep q).dropLast = [] := by
      intro e; rw [e] at hd; exact h1 (List.forall₂_nil_right_iff.mp hd)
    rw [if_neg h1, if_neg h1', RL.any F hd]
    split
    · exact ⟨RL.join F hnul hdt, hl⟩
    · exact ⟨hn.slash F hnul, hl⟩

/-! ### the text before the last `/..` -/

/-- the components before the last one, other than the first, that starts with two dots -/
def cutL : List Str → Option (List Str)
  | [] => none
  | [_] => none
  | c :: d :: cs =>
    match cutL (d :: cs) with
    | some pre => some (c :: pre)
    | none => if Cfg.dotdot.isPrefixOf d then some [c] else none

theorem cutL_ne_nil : ∀ {l pre : List Str}, cutL l = some pre → pre ≠ []
  | [], _, h => by simp [cutL] at h
  | [_], _, h => by simp [cutL] at h
  | c :: d :: cs, pre, h => by
    unfold cutL at h
    split at h
    · injection h with h; rw [← h]; simp
    · split at h
      · injection h with h; rw [← h]; simp
      · cases h

theorem cutL_head {c c' : Str} {l : List Str} : cutL (c :: l) = (cutL (c' :: l)).map fun pre => c :: pre.tail := by
  cases l with
  | nil => simp [cutL]
  | cons d l =>
    simp only [cutL]
    split
    · simp
    · split <;> simp

theorem isPrefixOf_head {c : Char} (hc : c ≠ '.') (q : Str) : ∀ w ws, split c q = w :: ws → Cfg.dotdot.isPrefixOf q = Cfg.dotdot.isPrefixOf w := by
  intro w ws h
  have key : ∀ (q : Str) (w : Str) (ws : List Str), split c q = w :: ws → q = w ∨ ∃ t, q = w ++ c :: t := by
    intro q w ws h
    have := join_split c q
    rw [h] at this
    cases ws with
    | nil => left; rw [← this]; rfl
    | cons a as => right; exact ⟨Py.join c (a :: as), by rw [← this]; rfl⟩
  have hw : c ∉ w := mem_split_no_sep (s := q) (by rw [h]; simp)
  rcases key q w ws h with rfl | ⟨t, rfl⟩
  · rfl
  · match w with
    | [] => simp [Cfg.dotdot, List.isPrefixOf, hc.symm]
    | [a] => simp [Cfg.dotdot, List.isPrefixOf, hc.symm]
    | a :: b :: w => simp [Cfg.dotdot, List.isPrefixOf]

theorem cutAtLast_split {c : Char} (hc : c ≠ '.') : ∀ p : Str, cutAtLast (c :: Cfg.dotdot) p = (cutL (split c p)).map (Py.join c)
  | [] => by simp [cutAtLast, split, cutL]
  | x :: xs => by
    have ih := cutAtLast_split hc xs
    by_cases hx : x = c
    · subst hx
      rw [split_cons_sep]
      obtain ⟨w, ws, e⟩ := List.exists_cons_of_ne_nil (split_ne_nil x xs)
      rw [e] at ih ⊢
      unfold cutAtLast
      rw [ih]
      simp only [cutL]
      cases hcl : cutL (w :: ws) with
      | some pre =>
        have hne := cutL_ne_nil hcl
        simp only [Option.map_some]
        rw [join_cons _ _ hne]
        rfl
      | none =>
        have h1 : (x :: Cfg.dotdot).isPrefixOf (x :: xs) = Cfg.dotdot.isPrefixOf w := by
          rw [← isPrefixOf_head hc xs w ws e]
          simp
        simp only [Option.map_none, h1]
        cases Cfg.dotdot.isPrefixOf w <;> simp [Py.join]
    · obtain ⟨w, ws, h1, h2⟩ := split_cons_ne hx xs
      rw [h2]
      rw [h1] at ih
      unfold cutAtLast
      have h3 : (c :: Cfg.dotdot).isPrefixOf (x :: xs) = false := by simp [List.isPrefixOf, Ne.symm hx]
      rw [ih, cutL_head (c := x :: w) (c' := w), h3]
      cases hcl : cutL (w :: ws) with
      | none => simp
      | some pre =>
        have hne := cutL_ne_nil hcl
        obtain ⟨a, t, rfl⟩ := List.exists_cons_of_ne_nil hne
        have : a = w := by
          cases ws with
          | nil => simp [cutL] at hcl
          | cons d ws =>
            simp only [cutL] at hcl
            split at hcl
            · injection hcl with hcl; injection hcl with hcl _; exact hcl.symm
            · split at hcl
              · injection hcl with hcl; injection hcl with hcl _; exact hcl.symm
              · cases hcl
        subst this
        simp only [Option.map_some, List.tail_cons]
        cases t with
        | nil => simp [Py.join]
        | cons b t => simp [Py.join]

include F in
theorem cutL_rl {l l' : List Str} (h : RL k nul l l') : (cutL l = none ∧ cutL l' = none) ∨
    ∃ pre pre', cutL l = some pre ∧ cutL l' = some pre' ∧ RL k nul pre pre' := by
  induction h with
  | nil => exact Or.inl ⟨rfl, rfl⟩
  | @cons a b l l' h1 h2 ih =>
    cases h2 with
    | nil => exact Or.inl ⟨rfl, rfl⟩
    | @cons c d m m' h3 h4 =>
      rcases ih with ⟨e1, e2⟩ | ⟨pre, pre', e1, e2, h5⟩
      · have hd : Cfg.dotdot.isPrefixOf c = Cfg.dotdot.isPrefixOf d := F.dots _ _ h3.low
        simp only [cutL, e1, e2, hd]
        split
        · exact Or.inr ⟨[a], [b], rfl, rfl, .cons h1 .nil⟩
        · exact Or.inl ⟨rfl, rfl⟩
      · refine Or.inr ⟨a :: pre, b :: pre', ?_, ?_, .cons h1 h5⟩
        · simp only [cutL, e1]
        · simp only [cutL, e2]

include F hnul in
theorem RP.cut {p q : Str} (h : RP k nul p q) :
    (cutAtLast (k.sep :: Cfg.dotdot) p = none ∧ cutAtLast (k.sep :: Cfg.dotdot) q = none) ∨
    ∃ p' q', cutAtLast (k.sep :: Cfg.dotdot) p = some p' ∧ cutAtLast (k.sep :: Cfg.dotdot) q = some q' ∧ RP k nul p' q' := by
  rw [cutAtLast_split F.posix.sepDot, cutAtLast_split F.posix.sepDot]
  rcases cutL_rl F h with ⟨e1, e2⟩ | ⟨pre, pre', e1, e2, h5⟩
  · left; rw [e1, e2]; exact ⟨rfl, rfl⟩
  · right; rw [e1, e2]; exact ⟨_, _, rfl, rfl, RL.join F hnul h5⟩

end
end Verif
