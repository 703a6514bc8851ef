import Verif.Path
import Verif.SpecPath
/-! Helper lemmas about the path functions on POSIX-style configurations. -/

namespace Verif
open Py Spec

/-- A POSIX-style configuration: no alternative separator, no drive letters, `.` is not the separator,
and (only relevant for the case-insensitive macOS flavour) lower-casing does not invent or destroy a
leading separator. -/
structure Cfg.Posix (k : Cfg) : Prop where
  altsep : k.altsep = none
  win : k.isWin = false
  sepDot : k.sep ≠ '.'
  low : k.caseSens = true ∨ ∀ p, (k.lower [k.sep]).isPrefixOf (k.lower p) = startsWithC k.sep p

theorem startsWithC_iff {c : Char} {p : Str} : startsWithC c p = true ↔ isAbs c p := by
  cases p with
  | nil => simp [startsWithC, isAbs]
  | cons x xs => simp [startsWithC, isAbs]

theorem startsWithC_eq (c : Char) (p : Str) : startsWithC c p = decide (isAbs c p) := by
  rw [Bool.eq_iff_iff, startsWithC_iff]; simp

@[simp] theorem isAbs_cons (c : Char) (p : Str) : isAbs c (c :: p) := ⟨p, rfl⟩
@[simp] theorem not_isAbs_nil (c : Char) : ¬ isAbs c [] := by rintro ⟨q, h⟩; cases h

namespace Cfg.Posix
variable {k : Cfg} (h : k.Posix)
include h

theorem normcase (p : Str) : k.normcase p = p := by simp [Cfg.normcase, h.altsep]
theorem splitdrive (p : Str) : k.splitdrive p = ([], p) := by simp [Cfg.splitdrive, h.win]
theorem drive (p : Str) : k.startsWithDriveLetter p = false := by
  simp [Cfg.startsWithDriveLetter, h.win]
theorem startsWithRoot (p : Str) : k.startsWithRoot p = startsWithC k.sep p := by
  simp only [Cfg.startsWithRoot, h.normcase, h.drive, Cfg.root]
  rcases h.low with hl | hl
  · simp [hl]
  · rw [hl]; cases startsWithC k.sep p <;> simp

end Cfg.Posix

/-! ### `split` and absoluteness -/

theorem split_abs (c : Char) (q : Str) : split c (c :: q) = [] :: split c q := split_cons_sep c q

theorem foldl_step_nil_cons (l : List Str) (st : List Str) :
    ([] :: l).foldl step st = l.foldl step st := by simp [step]

/-! ### `collapse` -/

open Cfg (dot dotdot)

/-- What `collapse` keeps in its accumulator. -/
def AccOk (c : Char) (isAbs : Bool) (acc : List Str) : Prop :=
  ∃ n names, acc = names ++ List.replicate n dotdot ∧ (∀ w ∈ names, Proper c w) ∧
    (isAbs = true → n = 0)

theorem collapse_shape {c : Char} (isAbs : Bool) (cs acc : List Str)
    (hcs : ∀ w ∈ cs, c ∉ w) (hacc : AccOk c isAbs acc) :
    AccOk c isAbs (Cfg.collapse isAbs cs acc).reverse := by
  induction cs generalizing acc with
  | nil => simpa [Cfg.collapse] using hacc
  | cons x xs ih =>
    have hxs : ∀ w ∈ xs, c ∉ w := fun w hw => hcs w (by simp [hw])
    have hx : c ∉ x := hcs x (by simp)
    unfold Cfg.collapse
    by_cases h1 : x = [] ∨ x = dot
    · simp only [h1, if_true]; exact ih _ hxs hacc
    · simp only [h1, if_false]
      by_cases h2 : x = dotdot
      · simp only [h2, if_true]
        obtain ⟨n, names, rfl, hn, hz⟩ := hacc
        cases names with
        | nil =>
          cases n with
          | zero =>
            simp only [List.replicate_zero, List.append_nil]
            cases isAbs with
            | true => exact ih _ hxs ⟨0, [], by simp, by simp, by simp⟩
            | false => exact ih _ hxs ⟨1, [], by simp, by simp, by simp⟩
          | succ n =>
            cases isAbs with
            | true => simp at hz
            | false =>
              simp only [List.replicate_succ, List.nil_append, ne_eq, not_true, if_false]
              exact ih _ hxs ⟨n+2, [], by simp [List.replicate_succ], by simp, by simp⟩
        | cons w ws =>
          have hw := hn w (by simp)
          have : w ≠ dotdot := hw.2.2.1
          simp only [List.cons_append, ne_eq, this, not_false_iff, if_true]
          exact ih _ hxs ⟨n, ws, rfl, fun v hv => hn v (by simp [hv]), hz⟩
      · simp only [h2, if_false]
        obtain ⟨n, names, rfl, hn, hz⟩ := hacc
        refine ih _ hxs ⟨n, x :: names, rfl, ?_, hz⟩
        intro w hw
        rcases List.mem_cons.mp hw with rfl | hw
        · exact ⟨fun e => h1 (.inl e), fun e => h1 (.inr e), h2, hx⟩
        · exact hn w hw

theorem foldl_step_names {c : Char} {names : List Str} (hn : ∀ w ∈ names, Proper c w)
    (st : List Str) : names.foldl step st = names.reverse ++ st := by
  induction names generalizing st with
  | nil => rfl
  | cons w ws ih =>
    have hw := hn w (by simp)
    simp only [List.foldl_cons, List.reverse_cons, List.append_assoc, List.singleton_append]
    rw [ih (fun v hv => hn v (by simp [hv]))]
    simp [step, hw.1, hw.2.1, hw.2.2.1]

theorem step_name {c : Char} {w : Str} (hw : Proper c w) (st : List Str) : step st w = w :: st := by
  simp [step, hw.1, hw.2.1, hw.2.2.1]

theorem collapse_eval {c : Char} (isAbs : Bool) (cs acc st : List Str)
    (hcs : ∀ w ∈ cs, c ∉ w) (hacc : AccOk c isAbs acc) (hst : isAbs = true → st = []) :
    (Cfg.collapse isAbs cs acc).foldl step st = cs.foldl step (acc.reverse.foldl step st) := by
  induction cs generalizing acc with
  | nil => simp [Cfg.collapse]
  | cons x xs ih =>
    have hxs : ∀ w ∈ xs, c ∉ w := fun w hw => hcs w (by simp [hw])
    have hx : c ∉ x := hcs x (by simp)
    unfold Cfg.collapse
    by_cases h1 : x = [] ∨ x = dot
    · simp only [h1, if_true, List.foldl_cons]
      rw [ih _ hxs hacc]; congr 1; exact (if_pos h1).symm
    · simp only [h1, if_false]
      by_cases h2 : x = dotdot
      · have hstep : ∀ s, step s x = s.tail := by intro s; subst h2; simp [step, dotdot]
        simp only [List.foldl_cons, hstep]
        simp only [h2, if_true]
        obtain ⟨n, names, rfl, hn, hz⟩ := hacc
        cases names with
        | nil =>
          cases n with
          | zero =>
            simp only [List.replicate_zero, List.append_nil]
            cases isAbs with
            | true =>
              rw [if_pos rfl, ih _ hxs ⟨0, [], by simp, by simp, by simp⟩]
              simp [hst rfl]
            | false =>
              simp only [Bool.false_eq_true, if_false]
              rw [ih _ hxs ⟨1, [], by simp, by simp, by simp⟩]
              simp [step, dotdot]
          | succ n =>
            cases isAbs with
            | true => simp at hz
            | false =>
              simp only [List.replicate_succ, List.nil_append, ne_eq, not_true, if_false]
              rw [if_neg (by simp), ih _ hxs ⟨n+2, [], by simp [List.replicate_succ], by simp, by simp⟩]
              simp [step, dotdot]
        | cons w ws =>
          have hw := hn w (by simp)
          have : w ≠ dotdot := hw.2.2.1
          simp only [List.cons_append, ne_eq, this, not_false_iff, if_true]
          rw [ih _ hxs ⟨n, ws, rfl, fun v hv => hn v (by simp [hv]), hz⟩]
          simp [step_name hw]
      · simp only [h2, if_false, List.foldl_cons]
        obtain ⟨n, names, rfl, hn, hz⟩ := hacc
        have hp : Proper c x := ⟨fun e => h1 (.inl e), fun e => h1 (.inr e), h2, hx⟩
        have hok : AccOk c isAbs (x :: (names ++ List.replicate n dotdot)) := by
          refine ⟨n, x :: names, rfl, ?_, hz⟩
          intro w hw
          rcases List.mem_cons.mp hw with rfl | hw
          · exact hp
          · exact hn w hw
        rw [ih _ hxs hok]; simp

/-- Shape of the component list after `collapse`. -/
theorem collapse_split_shape (c : Char) (isAbs : Bool) (p : Str) :
    ∃ n names, Cfg.collapse isAbs (split c p) [] = List.replicate n dotdot ++ names ∧
      (∀ w ∈ names, Proper c w) ∧ (isAbs = true → n = 0) := by
  obtain ⟨n, names, h1, h2, h3⟩ := collapse_shape (c := c) isAbs (split c p) []
    (fun w hw => mem_split_no_sep hw) ⟨0, [], by simp, by simp, by simp⟩
  refine ⟨n, names.reverse, ?_, by simpa using h2, h3⟩
  have := congrArg List.reverse h1
  simpa using this

theorem collapse_names {c : Char} (isAbs : Bool) {names acc : List Str}
    (hn : ∀ w ∈ names, Proper c w) :
    Cfg.collapse isAbs names acc = acc.reverse ++ names := by
  induction names generalizing acc with
  | nil => simp [Cfg.collapse]
  | cons w ws ih =>
    have hw := hn w (by simp)
    unfold Cfg.collapse
    have h1 : ¬ (w = [] ∨ w = dot) := by
      rintro (e | e)
      · exact hw.1 e
      · exact hw.2.1 e
    have h2 : w ≠ dotdot := hw.2.2.1
    simp only [h1, if_false, h2]
    rw [ih (fun v hv => hn v (by simp [hv]))]
    simp

theorem collapse_replicate {c : Char} (n m : Nat) {names : List Str}
    (hn : ∀ w ∈ names, Proper c w) :
    Cfg.collapse false (List.replicate n dotdot ++ names) (List.replicate m dotdot) =
      List.replicate (m + n) dotdot ++ names := by
  induction n generalizing m with
  | zero =>
    have := collapse_names false (acc := List.replicate m dotdot) hn
    simpa [List.reverse_replicate] using this
  | succ n ih =>
    have e : List.replicate (n+1) dotdot ++ names = dotdot :: (List.replicate n dotdot ++ names) := by
      simp [List.replicate_succ]
    rw [e]; unfold Cfg.collapse
    have h1 : ¬ (dotdot = ([] : Str) ∨ dotdot = dot) := by decide
    simp only [h1, if_false, if_true]
    cases m with
    | zero =>
      have := ih 1
      simp only [List.replicate_zero, Bool.false_eq_true, if_false]
      rw [show [dotdot] = List.replicate 1 dotdot from rfl, this]
      congr 2; omega
    | succ m =>
      have := ih (m+2)
      simp only [List.replicate_succ, ne_eq, not_true, if_false, Bool.false_eq_true]
      rw [show dotdot :: dotdot :: List.replicate m dotdot = List.replicate (m+2) dotdot from by
        simp [List.replicate_succ], this]
      rw [show m + 2 + n = m + 1 + (n + 1) by omega]

theorem proper_no_sep {c : Char} {names : List Str} (h : ∀ w ∈ names, Proper c w) :
    ∀ w ∈ names, c ∉ w := fun w hw => (h w hw).2.2.2

theorem isAbs_join_names {c : Char} {names : List Str} (h : ∀ w ∈ names, Proper c w) :
    ¬ isAbs c (join c names) := by
  cases names with
  | nil => simp [join]
  | cons w ws =>
    have hw := h w (by simp)
    rintro ⟨q, hq⟩
    cases w with
    | nil => exact hw.1 rfl
    | cons x xs =>
      have hx : x = c := by
        cases ws with
        | nil => simp [join] at hq; exact hq.1
        | cons => simp [join] at hq; exact hq.1
      exact hw.2.2.2 (by simp [hx])

theorem split_join_names {c : Char} {names : List Str} (h : ∀ w ∈ names, c ∉ w) :
    split c (join c names) = names ∨ (names = [] ∧ split c (join c names) = [[]]) := by
  cases names with
  | nil => right; simp [join, split]
  | cons w ws => left; exact split_join (by simp) h

end Verif
