import Verif.Py
/-!
# Independent specification of path meaning

Nothing here refers to the model of pyfakefs.  A location is a stack of directory names (innermost
first); the meaning of a path string is the location reached by reading its components one by one.
-/

namespace Verif.Spec

/-- Effect of one path component on a location: a name goes down, `..` goes up (the root is its own
parent), `.` and the empty component do nothing. -/
def step (loc : List Str) (c : Str) : List Str :=
  if c = [] ∨ c = ['.'] then loc
  else if c = ['.', '.'] then loc.tail
  else c :: loc

/-- Is the path absolute (first character is the separator)? -/
def isAbs (sep : Char) (p : Str) : Prop := ∃ q, p = sep :: q

instance (sep : Char) (p : Str) : Decidable (isAbs sep p) :=
  match p with
  | [] => isFalse (by simp [isAbs])
  | c :: q => if h : c = sep then isTrue ⟨q, by rw [h]⟩
    else isFalse (by rintro ⟨r, hr⟩; exact h (by injection hr))

/-- The location meant by path `p` when the current location is `start`. -/
def loc (sep : Char) (start : List Str) (p : Str) : List Str :=
  (Py.split sep p).foldl step (if isAbs sep p then [] else start)

/-- A proper file name: not empty, not `.`, not `..`, without separator. -/
def Proper (sep : Char) (w : Str) : Prop :=
  w ≠ [] ∧ w ≠ ['.'] ∧ w ≠ ['.', '.'] ∧ sep ∉ w

instance (sep : Char) (w : Str) : Decidable (Proper sep w) := by unfold Proper; infer_instance

/-- The absolute path string with the given names. -/
def absPath (sep : Char) (names : List Str) : Str := sep :: Py.join sep names

/-- An absolute canonical path: the separator followed by proper names joined by single separators. -/
def AbsCanon (sep : Char) (p : Str) : Prop :=
  ∃ names : List Str, (∀ w ∈ names, Proper sep w) ∧ p = absPath sep names

/-- A canonical path: absolute canonical, or `.`, or a run of `..` followed by proper names. -/
def Canon (sep : Char) (p : Str) : Prop :=
  AbsCanon sep p ∨ p = ['.'] ∨
  ∃ (n : Nat) (names : List Str), (∀ w ∈ names, Proper sep w) ∧ (0 < n ∨ names ≠ []) ∧
    p = Py.join sep (List.replicate n ['.', '.'] ++ names)

end Verif.Spec
