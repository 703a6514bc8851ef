import Verif.SpecWin
import Verif.Props.Paths
/-!
# Windows paths: lemmas on drives

The path functions of `Path.lean` with Windows rules.
-/

namespace Verif
open Py Spec Cfg

/-- Windows rules: the separators are no dots and no colons; comparing without case recognises the root directory. -/
structure Cfg.Win (k : Cfg) : Prop where
  win : k.isWin = true
  sepDot : k.sep ≠ '.'
  sepColon : k.sep ≠ ':'
  alt : ∀ a, k.altsep = some a → a ≠ k.sep ∧ a ≠ '.' ∧ a ≠ ':'
  low : k.caseSens = true ∨ ∀ p, (k.lower [k.sep]).isPrefixOf (k.lower p) = startsWithC k.sep p

section
variable {k : Cfg}

theorem normcase_eq (k : Cfg) (p : Str) : k.normcase p = unify k.sep k.altsep p := by
  unfold Cfg.normcase unify
  cases ha : k.altsep with
  | none => simp
  | some a => simp only [replaceC, Option.some.injEq]; congr 1; funext x; simp only [eq_comm]

theorem unify_append (sep : Char) (alt : Option Char) (p q : Str) : unify sep alt (p ++ q) = unify sep alt p ++ unify sep alt q := by
  simp [unify]

theorem unify_length (sep : Char) (alt : Option Char) (p : Str) : (unify sep alt p).length = p.length := by simp [unify]

theorem unify_nil_iff (sep : Char) (alt : Option Char) (p : Str) : unify sep alt p = [] ↔ p = [] := by simp [unify]

/-- no alternative separator -/
def Flat (k : Cfg) (p : Str) : Prop := ∀ x ∈ p, k.altsep ≠ some x

theorem Flat.unify {p : Str} (h : Flat k p) : unify k.sep k.altsep p = p := by
  have : (p.map fun x => if k.altsep = some x then k.sep else x) = p.map id :=
    List.map_congr_left fun x hx => by rw [if_neg (h x hx)]; rfl
  rw [List.map_id] at this; exact this

theorem Flat.normcase {p : Str} (h : Flat k p) : k.normcase p = p := by rw [normcase_eq, h.unify]

theorem flat_unify (W : k.Win) (p : Str) : Flat k (unify k.sep k.altsep p) := by
  intro x hx
  obtain ⟨y, hy, rfl⟩ := List.mem_map.1 hx
  split
  · intro h; exact (W.alt _ h).1 rfl
  · assumption

theorem Flat.append {p q : Str} : Flat k (p ++ q) ↔ Flat k p ∧ Flat k q := by
  simp only [Flat, List.mem_append, or_imp, forall_and]

theorem findIdx_append {c : Char} {a : Str} (b : Str) (h : c ∉ a) : (a ++ c :: b).findIdx? (· == c) = some a.length := by
  induction a with
  | nil => simp [List.findIdx?_cons]
  | cons x a ih =>
    simp only [List.mem_cons, not_or] at h
    rw [List.cons_append, List.findIdx?_cons, if_neg (by simpa using fun e => h.1 e.symm), ih h.2]
    simp

theorem findIdx_none {c : Char} {a : Str} (h : c ∉ a) : a.findIdx? (· == c) = none := by
  rw [List.findIdx?_eq_none_iff]
  intro x hx
  have : x ≠ c := fun e => h (e ▸ hx)
  simpa using this

/-- a string either lacks `c` or is cut at its first `c` -/
theorem cut_first (c : Char) (t : Str) : c ∉ t ∨ ∃ a b, t = a ++ c :: b ∧ c ∉ a := by
  induction t with
  | nil => simp
  | cons x t ih =>
    by_cases hx : x = c
    · right; exact ⟨[], t, by simp [hx], by simp⟩
    · rcases ih with h | ⟨a, b, rfl, h⟩
      · left; simp [h, Ne.symm hx]
      · right; exact ⟨x :: a, b, rfl, by simp [h, Ne.symm hx]⟩

theorem find_two (c : Char) (a b : Char) (t : Str) : find c (a :: b :: t) 2 = (t.findIdx? (· == c)).map (· + 2) := rfl

/-- a letter and a colon -/
theorem splitdrive_letter (W : k.Win) (c : Char) {r : Str} (hf : Flat k (c :: ':' :: r)) :
    k.splitdrive (c :: ':' :: r) = ([c, ':'], r) := by
  unfold Cfg.splitdrive
  rw [if_pos W.win, if_pos (by simp), hf.normcase]
  have h : ¬ ((c :: ':' :: r).take 2 = [k.sep, k.sep] ∧ ((c :: ':' :: r).drop 2).take 1 ≠ [k.sep]) := by
    simp only [List.take_succ_cons, List.take_zero, List.cons.injEq, and_true]
    exact fun h => W.sepColon h.1.2.symm
  dsimp only
  rw [if_neg h]
  simp

/-- the paths starting with two separators -/
theorem splitdrive_two (W : k.Win) {t : Str} (hf : Flat k (k.sep :: k.sep :: t)) :
    k.splitdrive (k.sep :: k.sep :: t) =
      if t.take 1 = [k.sep] then ([], k.sep :: k.sep :: t)
      else match find k.sep (k.sep :: k.sep :: t) 2 with
        | none => ([], k.sep :: k.sep :: t)
        | some i => match find k.sep (k.sep :: k.sep :: t) (i + 1) with
          | none => (k.sep :: k.sep :: t, [])
          | some j => if j = i + 1 then ([], k.sep :: k.sep :: t)
            else ((k.sep :: k.sep :: t).take j, (k.sep :: k.sep :: t).drop j) := by
  unfold Cfg.splitdrive
  rw [if_pos W.win, if_pos (by simp), hf.normcase]
  dsimp only
  by_cases h : t.take 1 = [k.sep]
  · rw [if_neg (by simp [h]), if_pos h, if_neg (by simp [W.sepColon])]
  · rw [if_neg h, if_pos (by simp [h])]
    rfl

theorem take1_ne {c : Char} {host : Str} (t : Str) (h1 : host ≠ []) (h2 : c ∉ host) : (host ++ t).take 1 ≠ [c] := by
  cases host with
  | nil => exact absurd rfl h1
  | cons x h => simp at h2 ⊢; exact fun e => h2.1 e.symm

theorem splitdrive_share (W : k.Win) {host share r : Str} (h1 : host ≠ []) (h2 : k.sep ∉ host) (h3 : k.sep ∉ share)
    (hr : r = [] ∨ share ≠ [] ∧ isAbs k.sep r) (hf : Flat k (k.sep :: k.sep :: (host ++ k.sep :: share) ++ r)) :
    k.splitdrive (k.sep :: k.sep :: (host ++ k.sep :: share) ++ r) = (k.sep :: k.sep :: (host ++ k.sep :: share), r) := by
  have e : k.sep :: k.sep :: (host ++ k.sep :: share) ++ r = k.sep :: k.sep :: (host ++ k.sep :: (share ++ r)) := by simp
  have ed : (k.sep :: k.sep :: (host ++ k.sep :: (share ++ r))).drop (host.length + 2 + 1) = share ++ r := by
    have : k.sep :: k.sep :: (host ++ k.sep :: (share ++ r)) = (k.sep :: k.sep :: (host ++ [k.sep])) ++ (share ++ r) := by simp
    rw [this]
    exact List.drop_left' (by simp)
  rw [e] at hf ⊢
  rw [splitdrive_two W hf, if_neg (take1_ne _ h1 h2), find_two, findIdx_append _ h2]
  simp only [Option.map_some]
  have ef : find k.sep (k.sep :: k.sep :: (host ++ k.sep :: (share ++ r))) (host.length + 2 + 1) =
      ((share ++ r).findIdx? (· == k.sep)).map (· + (host.length + 2 + 1)) := by unfold find; rw [ed]
  rw [ef]
  rcases hr with rfl | ⟨h4, q, rfl⟩
  · rw [List.append_nil, findIdx_none h3]
    simp
  · rw [findIdx_append _ h3]
    simp only [Option.map_some]
    have : 0 < share.length := List.length_pos_iff.2 h4
    rw [if_neg (by omega)]
    have e2 : k.sep :: k.sep :: (host ++ k.sep :: (share ++ k.sep :: q)) =
        (k.sep :: k.sep :: (host ++ k.sep :: share)) ++ k.sep :: q := by simp
    rw [e2, List.take_left' (by simp; omega), List.drop_left' (by simp; omega)]

theorem Drive.split (W : k.Win) {d r : Str} (h : Drive k.sep d r) (hf : Flat k (d ++ r)) : k.splitdrive (d ++ r) = (d, r) := by
  cases h with
  | letter c r => exact splitdrive_letter W c hf
  | share host share r h1 h2 h3 hr => exact splitdrive_share W h1 h2 h3 hr hf

/-- `splitdrive` finds the parts -/
theorem splitdrive_flat (W : k.Win) {p : Str} (hf : Flat k p) : Parts k.sep p (k.splitdrive p).1 (k.splitdrive p).2 := by
  by_cases hd : ∃ d r, p = d ++ r ∧ Drive k.sep d r
  · obtain ⟨d, r, rfl, h⟩ := hd
    rw [Drive.split W h hf]
    exact ⟨rfl, .inl h⟩
  · have hd' : ∀ d' r', p = d' ++ r' → ¬ Drive k.sep d' r' := fun d r h1 h2 => hd ⟨d, r, h1, h2⟩
    suffices h : k.splitdrive p = ([], p) by rw [h]; exact ⟨rfl, .inr ⟨rfl, hd'⟩⟩
    match p with
    | [] => simp [Cfg.splitdrive]
    | [x] => simp [Cfg.splitdrive]
    | a :: b :: t =>
      by_cases hb : b = ':'
      · subst hb; exact absurd (.letter a t) (hd' [a, ':'] t rfl)
      by_cases hs : a = k.sep ∧ b = k.sep
      · obtain ⟨rfl, rfl⟩ := hs
        rw [splitdrive_two W hf]
        split
        · rfl
        rename_i ht
        rcases cut_first k.sep t with h | ⟨host, u, rfl, h⟩
        · rw [find_two, findIdx_none h]; rfl
        · have hh : host ≠ [] := by rintro rfl; exact ht rfl
          rcases cut_first k.sep u with h' | ⟨share, q, rfl, h'⟩
          · exact absurd (.share host u [] hh h h' (.inl rfl)) (hd' _ [] (by simp))
          · cases share with
            | nil =>
              rw [find_two, findIdx_append _ h]
              simp only [Option.map_some, List.nil_append]
              have ed : (k.sep :: k.sep :: (host ++ k.sep :: k.sep :: q)).drop (host.length + 2 + 1) = k.sep :: q := by
                have : k.sep :: k.sep :: (host ++ k.sep :: k.sep :: q) = (k.sep :: k.sep :: (host ++ [k.sep])) ++ (k.sep :: q) := by simp
                rw [this]; exact List.drop_left' (by simp)
              have : find k.sep (k.sep :: k.sep :: (host ++ k.sep :: k.sep :: q)) (host.length + 2 + 1) = some (host.length + 2 + 1) := by
                unfold find; rw [ed]; simp [List.findIdx?_cons]
              rw [this]; simp
            | cons x share =>
              exact absurd (.share host (x :: share) (k.sep :: q) hh h h' (.inr ⟨by simp, q, rfl⟩)) (hd' _ (k.sep :: q) (by simp))
      · unfold Cfg.splitdrive
        rw [if_pos W.win, if_pos (by simp), hf.normcase]
        dsimp only
        rw [if_neg (by simpa using fun h1 h2 => absurd ⟨h1, h2⟩ hs), if_neg (by simpa using hb)]

theorem parts_flat (W : k.Win) {p d r : Str} (hf : Flat k p) (h : Parts k.sep p d r) : k.splitdrive p = (d, r) := by
  obtain ⟨rfl, h | ⟨rfl, h⟩⟩ := h
  · exact Drive.split W h hf
  · obtain ⟨h1, h2 | ⟨h2, -⟩⟩ := splitdrive_flat W hf
    · exact absurd h2 (h _ _ h1)
    · rw [h2] at h1
      exact Prod.ext h2 h1.symm

end
end Verif
