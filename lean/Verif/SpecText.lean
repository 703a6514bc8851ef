import Verif.SpecRef
import Verif.SpecPath
/-!
# The reference file system with a current directory and written paths

The calls of `SpecRef` with paths as a program writes them: absolute or relative to the current directory, with `.` and `..` components
and repeated separators; and `os.chdir` and `os.getcwd`. The current directory is a location (as in pyfakefs; on Linux it follows the
directory when that is renamed).
-/

namespace Verif.Ref
open Verif Py Spec

/-- the call with other places -/
def CallOf.map {P Q : Type} (f : P → Q) : CallOf P → CallOf Q
  | .mkdir p => .mkdir (f p)
  | .rmdir p => .rmdir (f p)
  | .remove p => .remove (f p)
  | .rename a b => .rename (f a) (f b)
  | .link a b => .link (f a) (f b)
  | .writeBytes p b => .writeBytes (f p) b
  | .readBytes p => .readBytes (f p)
  | .listdir p => .listdir (f p)
  | .exists p => .exists (f p)
  | .isfile p => .isfile (f p)
  | .isdir p => .isdir (f p)
  | .getsize p => .getsize (f p)
  | .replace a b => .replace (f a) (f b)
  | .makedirs p ok => .makedirs (f p) ok
  | .createDir p => .createDir (f p)
  | .createFile p b => .createFile (f p) b
  | .removeAll p => .removeAll (f p)
  | .samefile p q => .samefile (f p) (f q)
  | .lexists p => .lexists (f p)
  | .removedirs p => .removedirs (f p)

/-- the location a path means in the directory `w` -/
def meaning (w : Path) (p : Str) : Path := (loc '/' w.reverse p).reverse

/-- what a program says -/
inductive Said
  | call (c : CallOf Str)
  | chdir (p : Str)
  | getcwd

/-- `os.mkdir` of a bare name when the current directory has been removed: here, and only here, `os.mkdir` reports ENOTDIR for a path
that leads through a file which is not the parent. -/
def Lost (t : Tree) (w : Path) (c : CallOf Str) : Prop := t w = none ∧ ∃ p, c = .mkdir p ∧ '/' ∉ p

/-- On the tree `t` with the current directory `w`, this gives the result `r` and leaves the tree `t'` and the current directory `w'`. -/
def Tells (t : Tree) (w : Path) : Said → Res → Tree → Path → Prop
  | .call c, r, t', w' => w' = w ∧
    ((¬ Lost t w c ∧ Step t (c.map (meaning w)) r t') ∨ (Lost t w c ∧ ∃ e, Absent t w e ∧ Fails t e r t'))
  | .chdir p, r, t', w' =>
    match t (meaning w p) with
    | some .dir => r = .done ∧ t' = t ∧ w' = meaning w p
    | some (.file _ _) => Fails t .ENOTDIR r t' ∧ w' = w
    | none => (∃ e, Absent t (meaning w p) e ∧ Fails t e r t') ∧ w' = w
  | .getcwd, r, t', w' => r = .text (absPath '/' w) ∧ t' = t ∧ w' = w

/-- All that is said, in turn, gives these results. -/
inductive Talk : Tree → Path → List Said → List Res → Tree → Path → Prop
  | nil (t : Tree) (w : Path) : Talk t w [] [] t w
  | cons {t t1 t2 : Tree} {w w1 w2 : Path} {c : Said} {r : Res} {cs : List Said} {rs : List Res} :
    Tells t w c r t1 w1 → Talk t1 w1 cs rs t2 w2 → Talk t w (c :: cs) (r :: rs) t2 w2

end Verif.Ref
