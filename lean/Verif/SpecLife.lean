import Verif.SpecFdText
/-!
# The reference file system, its user's umask, and the attributes it does not have

What a program does in `SpecFdText`, and besides `os.umask`, `os.chmod`, `os.chown`, `os.utime`, `os.setxattr` (without flags)
and `os.removexattr`. The reference file system has no modes, owners, times and extended attributes: for root they decide nothing about names, contents and descriptors, so these calls answer whether the path means something and
leave everything as it is. The umask is kept to be told by the next `os.umask`.
Every object is readable for its owner, and so `os.access` with R_OK is true wherever something is.
There are no symbolic links: `follow_symlinks` (and with it `os.lchmod`) makes no difference, `os.path.islink` is false and `os.readlink` fails with EINVAL where something is.
-/

namespace Verif.Ref
open Verif Py Spec

/-- what a program does -/
inductive Deed
  | told (c : FdSaid)
  | chmod (p : Str) (mode : Nat) (follow : Bool)
  | chown (p : Str) (uid gid : Int) (follow : Bool)
  | utime (p : Str) (times : Option (Int × Int)) (follow : Bool)
  | setxattr (p attr : Str) (value : Bytes) (follow : Bool)
  | removexattr (p attr : Str) (follow : Bool)
  | readable (p : Str) (wr : Bool)
  | islink (p : Str)
  | readlink (p : Str)
  | umask (m : Nat)

/-- nothing is different -/
def Same (y y' : Sys) : Prop := y'.names = y.names ∧ y'.fds = y.fds ∧ y.Keeps y' fun _ => False

/-- the call reaches what the location means, if it means something -/
def Reaches (y : Sys) (l : Path) (r : Res) (y' : Sys) : Prop :=
  match y.names l with
  | some _ => r = .done ∧ Same y y'
  | none => ∃ e, Absent y.tree l e ∧ Refuses y e r y'

/-- In the system `y` with the current directory `w` and the umask `u`, this gives the result `r` and leaves `y'`, `w'` and `u'`. -/
def Does (y : Sys) (w : Path) (u : Nat) : Deed → Res → Sys → Path → Nat → Prop
  | .told c, r, y', w', u' => u' = u ∧ FdTells y w c r y' w'
  | .chmod p _ _, r, y', w', u' => u' = u ∧ w' = w ∧ Reaches y (meaning w p) r y'
  | .chown p _ _ _, r, y', w', u' => u' = u ∧ w' = w ∧ Reaches y (meaning w p) r y'
  | .utime p _ _, r, y', w', u' => u' = u ∧ w' = w ∧ Reaches y (meaning w p) r y'
  | .setxattr p _ _ _, r, y', w', u' => u' = u ∧ w' = w ∧ Reaches y (meaning w p) r y'
  | .removexattr p _ _, r, y', w', u' => u' = u ∧ w' = w ∧ Reaches y (meaning w p) r y'
  | .readable p wr, r, y', w', u' => u' = u ∧ FdTells y w (.access p wr) r y' w'
  | .islink _, r, y', w', u' => u' = u ∧ w' = w ∧ r = .bool false ∧ Same y y'
  | .readlink p, r, y', w', u' => u' = u ∧ w' = w ∧
    match y.names (meaning w p) with
    | some _ => Refuses y .EINVAL r y'
    | none => ∃ e, Absent y.tree (meaning w p) e ∧ Refuses y e r y'
  | .umask m, r, y', w', u' => u' = m ∧ w' = w ∧ r = .num u ∧ Same y y'

/-- All that is done, in turn, gives these results. -/
inductive Life : Sys → Path → Nat → List Deed → List Res → Sys → Path → Nat → Prop
  | nil (y : Sys) (w : Path) (u : Nat) : Life y w u [] [] y w u
  | cons {y y1 y2 : Sys} {w w1 w2 : Path} {u u1 u2 : Nat} {c : Deed} {r : Res} {cs : List Deed} {rs : List Res} :
    Does y w u c r y1 w1 u1 → Life y1 w1 u1 cs rs y2 w2 u2 → Life y w u (c :: cs) (r :: rs) y2 w2 u2

end Verif.Ref
