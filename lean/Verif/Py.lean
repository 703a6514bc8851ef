/-!
# Python string primitives on `List Char`

Standard-library behaviour (not in /repo), used by the model of
`pyfakefs/fake_filesystem.py`.  Strings are lists of characters.
-/

namespace Verif

/-- A Python `str`. -/
abbrev Str := List Char
/-- A Python `bytes`. -/
abbrev Bytes := List UInt8

namespace Py

/-- `s.split(c)` for a one-character separator. Never returns the empty list. -/
def split (c : Char) : Str → List Str
  | [] => [[]]
  | x :: xs =>
    if x = c then [] :: split c xs
    else match split c xs with
      | [] => [[x]]
      | w :: ws => (x :: w) :: ws

/-- `c.join(ws)` for a one-character separator. -/
def join (c : Char) : List Str → Str
  | [] => []
  | [w] => w
  | w :: ws => w ++ c :: join c ws

/-- `s.startswith(c)` for one character. -/
def startsWithC (c : Char) (s : Str) : Bool := s.head? == some c

/-- `s.endswith(c)` for one character. -/
def endsWithC (c : Char) (s : Str) : Bool := s.getLast? == some c

/-- `s.find(c, start)`. -/
def find (c : Char) (s : Str) (start : Nat) : Option Nat :=
  ((s.drop start).findIdx? (· == c)).map (· + start)

/-- `s[:s.rfind(pat)]` if `pat` occurs in `s`, else `none`. -/
def cutAtLast (pat : Str) : Str → Option Str
  | [] => if pat = [] then some [] else none
  | x :: xs =>
    match cutAtLast pat xs with
    | some pre => some (x :: pre)
    | none => if pat.isPrefixOf (x :: xs) then some [] else none

/-- `s.partition(pat)[0]` if `pat` occurs in `s` (text before the first occurrence), else `none`. -/
def cutAtFirst (pat : Str) : Str → Option Str
  | [] => if pat = [] then some [] else none
  | x :: xs =>
    if pat.isPrefixOf (x :: xs) then some []
    else (cutAtFirst pat xs).map (x :: ·)

/-- `s.replace(a, b)` for single characters. -/
def replaceC (a b : Char) (s : Str) : Str := s.map fun x => if x = a then b else x

/-- `s.lstrip(c)` for one character. -/
def lstrip (c : Char) : Str → Str
  | [] => []
  | x :: xs => if x = c then lstrip c xs else x :: xs

/-! ## Lemmas -/

theorem split_ne_nil (c : Char) (s : Str) : split c s ≠ [] := by
  cases s with
  | nil => simp [split]
  | cons x xs => 
    simp only [split]
    split
    · simp
    · split <;> simp

theorem split_cons_sep (c : Char) (xs : Str) : split c (c :: xs) = [] :: split c xs := by
  simp [split]

theorem split_cons_ne {c x : Char} (h : x ≠ c) (xs : Str) :
    ∃ w ws, split c xs = w :: ws ∧ split c (x :: xs) = (x :: w) :: ws := by
  match hs : split c xs with
  | [] => exact absurd hs (split_ne_nil c xs)
  | w :: ws => exact ⟨w, ws, rfl, by simp [split, h, hs]⟩

theorem join_cons (c : Char) (w : Str) {ws : List Str} (h : ws ≠ []) :
    join c (w :: ws) = w ++ c :: join c ws := by
  cases ws with
  | nil => exact absurd rfl h
  | cons => rfl

theorem join_split (c : Char) (s : Str) : join c (split c s) = s := by
  induction s with
  | nil => simp [split, join]
  | cons x xs ih =>
    by_cases h : x = c
    · subst h; rw [split_cons_sep, join_cons _ _ (split_ne_nil _ _), ih]; rfl
    · obtain ⟨w, ws, h1, h2⟩ := split_cons_ne h xs
      rw [h2]; rw [h1] at ih
      cases ws with
      | nil => simp only [join] at ih ⊢; rw [ih]
      | cons a as => simp only [join] at ih ⊢; rw [← ih]; rfl

theorem split_no_sep {c : Char} {s : Str} (h : c ∉ s) : split c s = [s] := by
  induction s with
  | nil => rfl
  | cons x xs ih =>
    simp only [List.mem_cons, not_or] at h
    have : x ≠ c := fun e => h.1 e.symm
    simp [split, this, ih h.2]

theorem split_append_sep (c : Char) (a b : Str) :
    split c (a ++ c :: b) = split c a ++ split c b := by
  induction a with
  | nil => simp [split]
  | cons x xs ih =>
    by_cases h : x = c
    · subst h; simp [split_cons_sep, ih]
    · obtain ⟨w, ws, h1, h2⟩ := split_cons_ne h xs
      obtain ⟨w', ws', h1', h2'⟩ := split_cons_ne h (xs ++ c :: b)
      rw [List.cons_append, h2', h2]
      rw [ih, h1] at h1'
      simp only [List.cons_append, List.cons.injEq] at h1' ⊢
      simp [h1'.1, h1'.2]

theorem mem_split_no_sep {c : Char} {s w : Str} (h : w ∈ split c s) : c ∉ w := by
  induction s generalizing w with
  | nil => simp [split] at h; simp [h]
  | cons x xs ih =>
    by_cases hx : x = c
    · subst hx
      rw [split_cons_sep] at h
      cases List.mem_cons.mp h with
      | inl h => simp [h]
      | inr h => exact ih h
    · obtain ⟨v, vs, h1, h2⟩ := split_cons_ne hx xs
      rw [h2] at h
      cases List.mem_cons.mp h with
      | inl h =>
        subst h
        have := @ih v (by simp [h1])
        simp only [List.mem_cons, not_or]
        exact ⟨fun e => hx e.symm, this⟩
      | inr h => exact ih (by simp [h1, h])

theorem split_join {c : Char} {ws : List Str} (hne : ws ≠ []) (h : ∀ w ∈ ws, c ∉ w) :
    split c (join c ws) = ws := by
  induction ws with
  | nil => exact absurd rfl hne
  | cons w ws ih =>
    cases ws with
    | nil => simp [join, split_no_sep (h w (by simp))]
    | cons a as =>
      rw [join_cons _ _ (by simp), split_append_sep, split_no_sep (h w (by simp)),
        ih (by simp) (fun w hw => h w (by simp [hw]))]
      rfl

theorem join_append (c : Char) {a b : List Str} (ha : a ≠ []) (hb : b ≠ []) :
    join c (a ++ b) = join c a ++ c :: join c b := by
  induction a with
  | nil => exact absurd rfl ha
  | cons w ws ih =>
    cases ws with
    | nil => rw [List.singleton_append, join_cons _ _ hb]; rfl
    | cons x xs =>
      rw [List.cons_append, join_cons c w (ws := x :: xs ++ b) (by simp), ih (by simp),
        join_cons c w (ws := x :: xs) (by simp)]
      simp

theorem join_eq_nil {c : Char} {ws : List Str} (h : join c ws = []) : ws = [] ∨ ws = [[]] := by
  match ws with
  | [] => simp
  | [w] => simp [join] at h; simp [h]
  | w :: a :: as => simp [join] at h

theorem cutAtLast_length {pat s pre : Str} (hp : pat ≠ []) (h : cutAtLast pat s = some pre) :
    pre.length < s.length := by
  induction s generalizing pre with
  | nil => simp [cutAtLast, hp] at h
  | cons x xs ih =>
    simp only [cutAtLast] at h
    split at h
    · rename_i p hp'
      simp at h; subst h
      have := ih hp'
      simp; omega
    · split at h
      · simp at h; subst h; simp
      · simp at h

theorem cutAtLast_prefix {pat s pre : Str} (h : cutAtLast pat s = some pre) :
    ∃ t, s = pre ++ pat ++ t := by
  induction s generalizing pre with
  | nil =>
    simp only [cutAtLast] at h
    split at h <;> simp_all
  | cons x xs ih =>
    simp only [cutAtLast] at h
    split at h
    · rename_i p hp'
      simp at h; subst h
      obtain ⟨t, ht⟩ := ih hp'
      exact ⟨t, by simp [ht]⟩
    · split at h
      · rename_i hpre
        simp at h; subst h
        obtain ⟨t, ht⟩ := List.isPrefixOf_iff_prefix.mp hpre
        exact ⟨t, by simp [ht]⟩
      · simp at h

end Py
end Verif
