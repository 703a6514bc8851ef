import Verif.SpecRef
/-!
# The reference file system with file descriptors

The reference file system of `SpecRef` with the table of open descriptors. A name leads to a directory or to a file, which is known by a
number; the bytes of a file are kept under its number, so that a file without a name lives on as long as a descriptor refers to it. A
descriptor has a position of its own.

Three things in it are pyfakefs's and not Linux's: `os.read` of the descriptor of a directory raises an AttributeError (Linux: EISDIR),
opening without O_CREAT below a file is reported as ENOENT (Linux: ENOTDIR), and opening a directory with O_CREAT and O_EXCL is reported as
EISDIR (Linux: EEXIST).
-/

namespace Verif.Ref
open Verif Py

/-- what a name leads to -/
inductive What
  | dir
  | file (id : Nat)
  deriving DecidableEq

/-- an open descriptor: of a directory; of a file, with its position and what it is open for; of a file opened for appending -/
inductive Desc
  | dir
  | file (id pos : Nat) (rd wr : Bool)
  | append (id : Nat)
  deriving DecidableEq

/-- names, the bytes of the files, and the open descriptors -/
structure Sys where
  names : Path → Option What
  data : Nat → Bytes
  fds : Nat → Option Desc

/-- the tree of a system -/
def Sys.tree (y : Sys) : Tree := fun l =>
  match y.names l with
  | none => none
  | some .dir => some .dir
  | some (.file i) => some (.file i (y.data i))

/-- the file a descriptor refers to -/
def Desc.id : Desc → Option Nat
  | .dir => none
  | .file i _ _ _ => some i
  | .append i => some i

/-- the file has a name -/
def Sys.Named (y : Sys) (i : Nat) : Prop := ∃ l, y.names l = some (.file i)

/-- the file is open -/
def Sys.Opened (y : Sys) (i : Nat) : Prop := ∃ fd d, y.fds fd = some d ∧ d.id = some i

/-- Every file that has a name or is open, except those of `P`, has its bytes. -/
def Sys.Keeps (y y' : Sys) (P : Nat → Prop) : Prop := ∀ i, y.Named i ∨ y.Opened i → ¬ P i → y'.data i = y.data i

/-- `fd` is the smallest free descriptor (0, 1 and 2 are the standard streams) -/
def Sys.Lowest (y : Sys) (fd : Nat) : Prop := 3 ≤ fd ∧ y.fds fd = none ∧ ∀ j, 3 ≤ j → j < fd → y.fds j ≠ none

/-- one value of a function changed -/
def set1 {α : Type} [DecidableEq α] {β : Type} (f : α → β) (a : α) (b : β) : α → β := fun x => if x = a then b else f x

/-- `b` written into `d` at position `p`: byte by byte; a gap is filled with zeros, and writing nothing changes nothing -/
def put (d : Bytes) (p : Nat) (b : Bytes) : Bytes :=
  if b = [] then d
  else (List.range (max d.length (p + b.length))).map fun i => if p ≤ i ∧ i < p + b.length then b.getD (i - p) 0 else d.getD i 0

/-- how to open -/
structure Flags where
  rd : Bool
  wr : Bool
  creat : Bool
  excl : Bool
  trunc : Bool
  append : Bool
  deriving DecidableEq

/-- the calls: those of `SpecRef`, and `os.open`, `os.read`, `os.write`, `os.close`, `os.fstat(fd).st_size` -/
inductive FdCall
  | tree (c : Call)
  | open (p : Path) (f : Flags) (mode : Nat)
  | read (fd n : Nat)
  | write (fd : Nat) (b : Bytes)
  | close (fd : Nat)
  | size (fd : Nat)

/-- The call fails with `e` and changes nothing. -/
def Refuses (y : Sys) (e : Errno) (r : Res) (y' : Sys) : Prop :=
  r = .err e ∧ y'.names = y.names ∧ y'.fds = y.fds ∧ y.Keeps y' fun _ => False

/-- The smallest free descriptor becomes `d`. -/
def Opens (y : Sys) (d : Desc) (r : Res) (y' : Sys) : Prop := ∃ fd, y.Lowest fd ∧ r = .num fd ∧ y'.fds = set1 y.fds fd (some d)

/-- the new descriptor of a file -/
def Flags.desc (f : Flags) (i : Nat) : Desc := if f.append then .append i else .file i 0 f.rd f.wr

/-- A call gives the result `r` and leaves `y'`. -/
def FdStep (y : Sys) : FdCall → Res → Sys → Prop
  | .tree c, r, y' =>
    Step y.tree c r y'.tree ∧ y'.fds = y.fds ∧
    -- what is open keeps its bytes (unless it is written by name) and gets no new name if it has none
    y.Keeps y' (fun i => ∃ p b, c = .writeBytes p b ∧ y.names p = some (.file i)) ∧
    ∀ i, y.Opened i → y'.Named i → y.Named i
  | .open p f _, r, y' =>
    match y.names p with
    | some .dir =>
      if f.wr ∨ f.creat then Refuses y .EISDIR r y'
      else Opens y .dir r y' ∧ y'.names = y.names ∧ y.Keeps y' fun _ => False
    | some (.file i) =>
      if f.creat ∧ f.excl then Refuses y .EEXIST r y'
      else Opens y (f.desc i) r y' ∧ y'.names = y.names ∧ y.Keeps y' (fun j => j = i ∧ f.wr ∧ f.trunc) ∧ (f.wr ∧ f.trunc → y'.data i = [])
    | none =>
      if ¬ f.creat then Refuses y .ENOENT r y'
      else match y.names (parent p) with
        | none => Refuses y .ENOENT r y'
        | some (.file _) => Refuses y .ENOTDIR r y'
        | some .dir => ∃ i, ¬ y.Named i ∧ ¬ y.Opened i ∧ Opens y (f.desc i) r y' ∧ y'.names = set1 y.names p (some (.file i)) ∧
            y.Keeps y' (fun _ => False) ∧ y'.data i = []
  | .read fd n, r, y' =>
    match y.fds fd with
    | none => Refuses y .EBADF r y'
    | some .dir => r = .crash ∧ y'.names = y.names ∧ y'.fds = y.fds ∧ y.Keeps y' fun _ => False
    | some (.append _) => Refuses y .EBADF r y'
    | some (.file i pos rd wr) =>
      if rd = false then Refuses y .EBADF r y'
      else r = .bytes (((y.data i).drop pos).take n) ∧ y'.names = y.names ∧ (y.Keeps y' fun _ => False) ∧
        y'.fds = set1 y.fds fd (some (.file i (pos + (((y.data i).drop pos).take n).length) rd wr))
  | .write fd b, r, y' =>
    match y.fds fd with
    | none => Refuses y .EBADF r y'
    | some .dir => Refuses y .EBADF r y'
    | some (.append i) => r = .num b.length ∧ y'.names = y.names ∧ y'.fds = y.fds ∧ y.Keeps y' (· = i) ∧ y'.data i = y.data i ++ b
    | some (.file i pos rd wr) =>
      if wr = false then Refuses y .EBADF r y'
      else r = .num b.length ∧ y'.names = y.names ∧ y.Keeps y' (· = i) ∧ y'.data i = put (y.data i) pos b ∧
        y'.fds = set1 y.fds fd (some (.file i (pos + b.length) rd wr))
  | .close fd, r, y' =>
    match y.fds fd with
    | none => Refuses y .EBADF r y'
    | some _ => r = .done ∧ y'.names = y.names ∧ y'.fds = set1 y.fds fd none ∧ y.Keeps y' fun _ => False
  | .size fd, r, y' =>
    y'.names = y.names ∧ y'.fds = y.fds ∧ (y.Keeps y' fun _ => False) ∧
    match y.fds fd with
    | none => r = .err .EBADF
    | some .dir => ∃ n, r = .num n
    | some (.append i) => r = .num (y.data i).length
    | some (.file i _ _ _) => r = .num (y.data i).length

/-- The calls in turn give these results. -/
inductive FdRun : Sys → List FdCall → List Res → Sys → Prop
  | nil (y : Sys) : FdRun y [] [] y
  | cons {y y1 y2 : Sys} {c : FdCall} {r : Res} {cs : List FdCall} {rs : List Res} :
    FdStep y c r y1 → FdRun y1 cs rs y2 → FdRun y (c :: cs) (r :: rs) y2

/-- a new system: only the root, and no descriptor open -/
structure Sys.IsNew (y : Sys) : Prop where
  names : ∀ l, y.names l = if l = [] then some .dir else none
  fds : ∀ fd, y.fds fd = none

end Verif.Ref
