import Verif.State
/-!
# A reference file system

A file system as the POSIX manual describes it: a tree maps a location (the list of names on the way from the root) to a directory or
to a file, a file has an identity (shared by its hard links) and bytes. Nothing of the fake filesystem's code is used here, only the
types of names, bytes and `errno` values.

Three things in it are pyfakefs's and not Linux's: `removedirs` of the only directory below the root removes it and fails with EBUSY
because the root cannot be removed (CPython ignores that error); a path that leads through a file is reported as ENOENT, not ENOTDIR, by `readBytes`,
and by `mkdir`, `rename`, `link` and `writeBytes` when the file is not the parent itself; and where more than one error applies to a
`rename` or a `link`, the one pyfakefs reports is given (`rename` of a directory below itself to an existing name, `link` of a directory
to a missing directory, ...).
-/

namespace Verif.Ref
open Verif Py

/-- what is at a location: a directory, or a file with its identity and its bytes -/
inductive Node
  | dir
  | file (id : Nat) (data : Bytes)
  deriving DecidableEq

/-- a location: the names on the way from the root -/
abbrev Path := List Str

/-- the tree: what is at each location -/
abbrev Tree := Path → Option Node

/-- the calls, with places given as `P` -/
inductive CallOf (P : Type)
  | mkdir (p : P)
  | rmdir (p : P)
  | remove (p : P)
  | rename (old new : P)
  | link (old new : P)
  | writeBytes (p : P) (b : Bytes)
  | readBytes (p : P)
  | listdir (p : P)
  | exists (p : P)
  | isfile (p : P)
  | isdir (p : P)
  | getsize (p : P)
  | replace (old new : P)
  | makedirs (p : P) (existOk : Bool)
  | createDir (p : P)
  | createFile (p : P) (b : Bytes)
  | removeAll (p : P)
  | samefile (p q : P)
  | lexists (p : P)
  | removedirs (p : P)

/-- the calls -/
abbrev Call := CallOf Path

/-- what a caller gets; `crash` is any exception that is not an OSError with one of the modelled `errno` values -/
inductive Res
  | done
  | err (e : Errno)
  | bytes (b : Bytes)
  | names (l : List Str)
  | bool (b : Bool)
  | num (n : Nat)
  | text (p : Str)
  | crash
  deriving DecidableEq

/-- the tree with something else at one location -/
def Tree.set (t : Tree) (p : Path) (n : Option Node) : Tree := fun l => if l = p then n else t l

/-- the tree in which the file `id` holds `b`, under each of its names -/
def Tree.store (t : Tree) (id : Nat) (b : Bytes) : Tree := fun l =>
  match t l with
  | some (.file i c) => if i = id then some (.file i b) else some (.file i c)
  | x => x

/-- the tree in which everything at and below `old` is at and below `new`, in place of what was there -/
def Tree.move (t : Tree) (old new : Path) : Tree := fun l =>
  if new.isPrefixOf l then t (old ++ l.drop new.length) else if old.isPrefixOf l then none else t l

/-- the tree with a directory at each location on the way to `p`, and at `p` itself, where nothing was -/
def Tree.grow (t : Tree) (p : Path) : Tree := fun l => if l.isPrefixOf p ∧ t l = none then some .dir else t l

/-- the tree with nothing at and below `p` -/
def Tree.cut (t : Tree) (p : Path) : Tree := fun l => if p.isPrefixOf l then none else t l

/-- there is a file at the location -/
def Tree.isFile (t : Tree) (p : Path) : Prop := ∃ i b, t p = some (.file i b)

/-- the directory is empty -/
def Tree.empty (t : Tree) (p : Path) : Prop := ∀ n, t (p ++ [n]) = none

/-- the way to the location leads through a file -/
def Blocked (t : Tree) (p : Path) : Prop := ∃ pre rest, p = pre ++ rest ∧ rest ≠ [] ∧ t.isFile pre

/-- the error for a location where nothing is: ENOTDIR if the way there leads through a file, else ENOENT -/
def Absent (t : Tree) (p : Path) (e : Errno) : Prop := (Blocked t p ∧ e = .ENOTDIR) ∨ (¬ Blocked t p ∧ e = .ENOENT)

/-- the directory a location is in -/
def parent (p : Path) : Path := p.dropLast

/-- The call fails with `e`. -/
def Fails (t : Tree) (e : Errno) (r : Res) (t' : Tree) : Prop := r = .err e ∧ t' = t

/-- A rename that is not refused because of what is at the new location: it fails with EINVAL if the new location is below the old
one, and moves everything otherwise. -/
def Moves (t : Tree) (old new : Path) (r : Res) (t' : Tree) : Prop :=
  if old.isPrefixOf (parent new) then Fails t .EINVAL r t' else r = .done ∧ t' = t.move old new

/-- Everything at and below `old` comes to `new`. -/
def Renames (t : Tree) (old new : Path) (r : Res) (t' : Tree) : Prop :=
  match t old, t (parent new) with
  | none, _ => Fails t .ENOENT r t'
  | some _, none => Fails t .ENOENT r t'
  | some _, some (.file _ _) => Fails t .ENOTDIR r t'
  | some n, some .dir =>
    if old = new then r = .done ∧ t' = t
    else match n, t new with
      | _, none => Moves t old new r t'
      | .dir, some (.file _ _) => Fails t .ENOTDIR r t'
      | .file i _, some (.file j _) => if i = j then r = .done ∧ t' = t else Moves t old new r t'
      | .file _ _, some .dir => (t.empty new ∧ Fails t .EISDIR r t') ∨ (¬ t.empty new ∧ Fails t .ENOTEMPTY r t')
      | .dir, some .dir => (t.empty new ∧ Moves t old new r t') ∨ (¬ t.empty new ∧ Fails t .ENOTEMPTY r t')

/-- Every missing directory on the way to `p`, and `p` itself, is made. -/
def MakesDirs (t : Tree) (p : Path) (r : Res) (t' : Tree) : Prop :=
  (Blocked t p ∧ Fails t .ENOTDIR r t') ∨ (¬ Blocked t p ∧ r = .done ∧ t' = t.grow p)

/-- The directory `p` has lost an entry: it is removed if it is empty now, and so on up to the root, which cannot be removed. -/
inductive Prunes : Tree → Path → Res → Tree → Prop
  | stop {t : Tree} {p : Path} : ¬ t.empty p → Prunes t p .done t
  | root {t : Tree} : t.empty [] → Prunes t [] (.err .EBUSY) t
  | up {t t' : Tree} {p : Path} {n : Str} {r : Res} : t.empty (p ++ [n]) → Prunes (t.set (p ++ [n]) none) p r t' → Prunes t (p ++ [n]) r t'

/-- A call on the tree `t` may give the result `r` and leave the tree `t'`. The only freedom is the identity of a new file and the
order of the names of a listing. -/
def Step (t : Tree) : Call → Res → Tree → Prop
  | .mkdir p, r, t' =>
    match t (parent p) with
    | none => Fails t .ENOENT r t'
    | some (.file _ _) => Fails t .ENOTDIR r t'
    | some .dir => if t p = none then r = .done ∧ t' = t.set p (some .dir) else Fails t .EEXIST r t'
  | .rmdir p, r, t' =>
    match t p with
    | none => ∃ e, Absent t p e ∧ Fails t e r t'
    | some (.file _ _) => Fails t .ENOTDIR r t'
    | some .dir => (t.empty p ∧ r = .done ∧ t' = t.set p none) ∨ (¬ t.empty p ∧ Fails t .ENOTEMPTY r t')
  | .remove p, r, t' =>
    match t p with
    | none => ∃ e, Absent t p e ∧ Fails t e r t'
    | some .dir => Fails t .EISDIR r t'
    | some (.file _ _) => r = .done ∧ t' = t.set p none
  | .rename old new, r, t' | .replace old new, r, t' => Renames t old new r t'
  | .link old new, r, t' =>
    if t new ≠ none then Fails t .EEXIST r t'
    else match t (parent new), t old with
      | none, _ => Fails t .ENOENT r t'
      | some _, none => Fails t .ENOENT r t'
      | some _, some .dir => Fails t .EPERM r t'
      | some (.file _ _), some (.file _ _) => Fails t .ENOTDIR r t'
      | some .dir, some (.file i b) => r = .done ∧ t' = t.set new (some (.file i b))
  | .writeBytes p b, r, t' =>
    match t p with
    | some .dir => Fails t .EISDIR r t'
    | some (.file i _) => r = .num b.length ∧ t' = t.store i b
    | none =>
      match t (parent p) with
      | none => Fails t .ENOENT r t'
      | some (.file _ _) => Fails t .ENOTDIR r t'
      | some .dir => r = .num b.length ∧ ∃ i, (∀ l c, t l ≠ some (.file i c)) ∧ t' = t.set p (some (.file i b))
  | .readBytes p, r, t' =>
    match t p with
    | some .dir => Fails t .EISDIR r t'
    | some (.file _ b) => r = .bytes b ∧ t' = t
    | none => Fails t .ENOENT r t'
  | .listdir p, r, t' =>
    match t p with
    | some .dir => (∃ l, r = .names l ∧ l.Nodup ∧ ∀ n, n ∈ l ↔ t (p ++ [n]) ≠ none) ∧ t' = t
    | some (.file _ _) => Fails t .ENOTDIR r t'
    | none => ∃ e, Absent t p e ∧ Fails t e r t'
  | .exists p, r, t' => r = .bool (t p).isSome ∧ t' = t
  | .isfile p, r, t' => (∃ b, r = .bool b ∧ (b = true ↔ t.isFile p)) ∧ t' = t
  | .isdir p, r, t' => r = .bool (t p == some .dir) ∧ t' = t
  | .getsize p, r, t' =>
    match t p with
    | some .dir => (∃ n, r = .num n) ∧ t' = t
    | some (.file _ b) => r = .num b.length ∧ t' = t
    | none => ∃ e, Absent t p e ∧ Fails t e r t'
  | .makedirs p ok, r, t' =>
    match t p with
    | some n => if ok = true ∧ n = .dir then r = .done ∧ t' = t else Fails t .EEXIST r t'
    | none => MakesDirs t p r t'
  | .createDir p, r, t' =>
    match t p with
    | some _ => Fails t .EEXIST r t'
    | none => MakesDirs t p r t'
  | .createFile p b, r, t' =>
    match t p with
    | some _ => Fails t .EEXIST r t'
    | none => (Blocked t p ∧ Fails t .ENOTDIR r t') ∨
      (¬ Blocked t p ∧ r = .done ∧ ∃ i, (∀ l c, t l ≠ some (.file i c)) ∧ t' = (t.grow (parent p)).set p (some (.file i b)))
  | .removeAll p, r, t' =>
    match t p with
    | some _ => r = .done ∧ t' = t.cut p
    | none => ∃ e, Absent t p e ∧ Fails t e r t'
  | .samefile p q, r, t' =>
    match t p, t q with
    | none, _ => ∃ e, Absent t p e ∧ Fails t e r t'
    | some _, none => ∃ e, Absent t q e ∧ Fails t e r t'
    | some (.file i _), some (.file j _) => r = .bool (i = j) ∧ t' = t
    | some .dir, some .dir => r = .bool (p = q) ∧ t' = t
    | some _, some _ => r = .bool false ∧ t' = t
  | .lexists p, r, t' => r = .bool (t p).isSome ∧ t' = t
  | .removedirs p, r, t' =>
    match t p with
    | none => ∃ e, Absent t p e ∧ Fails t e r t'
    | some (.file _ _) => Fails t .ENOTDIR r t'
    | some .dir => (¬ t.empty p ∧ Fails t .ENOTEMPTY r t') ∨ (t.empty p ∧ Prunes (t.set p none) (parent p) r t')

/-- The calls in turn give these results. -/
inductive Run : Tree → List Call → List Res → Tree → Prop
  | nil (t : Tree) : Run t [] [] t
  | cons {t t1 t2 : Tree} {c : Call} {r : Res} {cs : List Call} {rs : List Res} :
    Step t c r t1 → Run t1 cs rs t2 → Run t (c :: cs) (r :: rs) t2

/-- the tree of a new file system -/
def Tree.new : Tree := fun l => if l = [] then some .dir else none

end Verif.Ref
