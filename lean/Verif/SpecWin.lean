import Verif.SpecPath
/-!
# Independent specification of Windows paths

Nothing here refers to the model of pyfakefs.  A Windows path is a drive (a letter with a colon, a network share
or nothing) followed by a path on that drive.
-/

namespace Verif.Spec

/-- The path with every separator written in the same way. -/
def unify (sep : Char) (alt : Option Char) (p : Str) : Str := p.map fun x => if alt = some x then sep else x

/-- `d` is a drive in front of `r`: a character and a colon, or `\\host\share` where the share is followed by nothing
or by an absolute path. -/
inductive Drive (sep : Char) : Str → Str → Prop
  | letter (c : Char) (r : Str) : Drive sep [c, ':'] r
  | share (host share r : Str) : host ≠ [] → sep ∉ host → sep ∉ share → (r = [] ∨ share ≠ [] ∧ isAbs sep r) →
      Drive sep (sep :: sep :: (host ++ sep :: share)) r

/-- The path `p` consists of the drive `d` (empty: there is no drive) and the rest `r`. -/
def Parts (sep : Char) (p d r : Str) : Prop :=
  p = d ++ r ∧ (Drive sep d r ∨ d = [] ∧ ∀ d' r', p = d' ++ r' → ¬ Drive sep d' r')

/-- Going along the path `p`.  A position is a drive (empty: the current one) and a location on this drive.  A path without
drive stays on the drive; a path with the same drive too (`same` says which names mean the same drive);
a path with another drive starts at the current location `env` of that drive. -/
def Goes (sep : Char) (alt : Option Char) (same : Str → Str → Prop) (env : Str → List Str)
    (pos : Str × List Str) (p : Str) (pos' : Str × List Str) : Prop :=
  ∃ d r, Parts sep (unify sep alt p) d r ∧
    (d = [] ∧ pos' = (pos.1, loc sep pos.2 r) ∨
     d ≠ [] ∧ same d pos.1 ∧ pos' = (d, loc sep pos.2 r) ∨
     d ≠ [] ∧ ¬ same d pos.1 ∧ pos' = (d, loc sep (env d) r))

/-- Going along several paths, one after the other. -/
inductive Travels (sep : Char) (alt : Option Char) (same : Str → Str → Prop) (env : Str → List Str) :
    Str × List Str → List Str → Str × List Str → Prop
  | done (pos) : Travels sep alt same env pos [] pos
  | next {pos p pos1 ps pos2} : Goes sep alt same env pos p pos1 → Travels sep alt same env pos1 ps pos2 →
      Travels sep alt same env pos (p :: ps) pos2

/-- An ordinary Windows path: the drive, if any, is a letter and a colon or `\\host\share`; there is no other colon, and the
rest does not start with two separators. -/
def Tame (sep : Char) (alt : Option Char) (p : Str) : Prop :=
  ∃ d r, unify sep alt p = d ++ r ∧ ':' ∉ r ∧ (¬ ∃ x, r = sep :: sep :: x) ∧
    (d = [] ∨ (∃ c, d = [c, ':'] ∧ c ≠ sep) ∨
     ∃ host share, d = sep :: sep :: (host ++ sep :: share) ∧ host ≠ [] ∧ sep ∉ host ∧ sep ∉ share ∧ share ≠ [] ∧
       ':' ∉ share ∧ (r = [] ∨ isAbs sep r))

end Verif.Spec
