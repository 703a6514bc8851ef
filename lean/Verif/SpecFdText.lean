import Verif.SpecFd
import Verif.SpecText
/-!
# The reference file system with descriptors, a current directory and written paths

`SpecFd` and `SpecText` together: a program opens files by paths as it writes them, reads and writes through descriptors, and changes its
current directory. Descriptors do not depend on the current directory. Also `os.truncate`, `os.ftruncate`, `os.fsync`, `os.fdatasync`, and
`os.access` with F_OK or W_OK. Three things about these are pyfakefs's and not Linux's: truncating a directory raises an AttributeError (Linux:
EISDIR, EINVAL), `os.ftruncate` does not ask what the descriptor is open for (Linux: EINVAL if it is only for reading), and `os.access` below
a file raises ENOTDIR (Linux: false).
-/

namespace Verif.Ref
open Verif Py Spec

/-- what a program says: calls on paths, `os.chdir`, `os.getcwd`, and calls on descriptors -/
inductive FdSaid
  | said (c : Said)
  | open (p : Str) (f : Flags) (mode : Nat)
  | read (fd n : Nat)
  | write (fd : Nat) (b : Bytes)
  | close (fd : Nat)
  | size (fd : Nat)
  | truncate (p : Str) (n : Nat)
  | ftruncate (fd n : Nat)
  | fsync (fd : Nat)
  | fdatasync (fd : Nat)
  | access (p : Str) (wr : Bool)

/-- the first `n` bytes, or all and zeros up to `n` -/
def resize (d : Bytes) (n : Nat) : Bytes := d.take n ++ List.replicate (n - d.length) 0

/-- The file `i` gets the size `n`; nothing else changes, in particular no position of a descriptor. -/
def Resizes (y : Sys) (i n : Nat) (r : Res) (y' : Sys) : Prop :=
  r = .done ∧ y'.names = y.names ∧ y'.fds = y.fds ∧ y.Keeps y' (· = i) ∧ y'.data i = resize (y.data i) n

/-- The call raises something that is not one of the modelled errors, and changes nothing. -/
def Crashes (y : Sys) (r : Res) (y' : Sys) : Prop := r = .crash ∧ y'.names = y.names ∧ y'.fds = y.fds ∧ y.Keeps y' fun _ => False

/-- Any open descriptor can be synchronised; nothing changes. -/
def Syncs (y : Sys) (fd : Nat) (r : Res) (y' : Sys) : Prop :=
  match y.fds fd with
  | none => Refuses y .EBADF r y'
  | some _ => r = .done ∧ y'.names = y.names ∧ y'.fds = y.fds ∧ y.Keeps y' fun _ => False

/-- In the system `y` with the current directory `w`, this gives the result `r` and leaves the system `y'` and the directory `w'`. -/
def FdTells (y : Sys) (w : Path) : FdSaid → Res → Sys → Path → Prop
  | .said (.call c), r, y', w' => w' = w ∧
    ((¬ Lost y.tree w c ∧ FdStep y (.tree (c.map (meaning w))) r y') ∨ (Lost y.tree w c ∧ ∃ e, Absent y.tree w e ∧ Refuses y e r y'))
  | .said (.chdir p), r, y', w' =>
    match y.names (meaning w p) with
    | some .dir => r = .done ∧ y'.names = y.names ∧ y'.fds = y.fds ∧ (y.Keeps y' fun _ => False) ∧ w' = meaning w p
    | some (.file _) => Refuses y .ENOTDIR r y' ∧ w' = w
    | none => (∃ e, Absent y.tree (meaning w p) e ∧ Refuses y e r y') ∧ w' = w
  | .said .getcwd, r, y', w' => r = .text (absPath '/' w) ∧ y'.names = y.names ∧ y'.fds = y.fds ∧ (y.Keeps y' fun _ => False) ∧ w' = w
  | .open p f mode, r, y', w' => w' = w ∧ FdStep y (.open (meaning w p) f mode) r y'
  | .read fd n, r, y', w' => w' = w ∧ FdStep y (.read fd n) r y'
  | .write fd b, r, y', w' => w' = w ∧ FdStep y (.write fd b) r y'
  | .close fd, r, y', w' => w' = w ∧ FdStep y (.close fd) r y'
  | .size fd, r, y', w' => w' = w ∧ FdStep y (.size fd) r y'
  | .truncate p n, r, y', w' => w' = w ∧
    match y.names (meaning w p) with
    | none => ∃ e, Absent y.tree (meaning w p) e ∧ Refuses y e r y'
    | some .dir => Crashes y r y'
    | some (.file i) => Resizes y i n r y'
  | .ftruncate fd n, r, y', w' => w' = w ∧
    match y.fds fd with
    | none => Refuses y .EBADF r y'
    | some .dir => Crashes y r y'
    | some (.append i) => Resizes y i n r y'
    | some (.file i _ _ _) => Resizes y i n r y'
  | .fsync fd, r, y', w' => w' = w ∧ Syncs y fd r y'
  | .fdatasync fd, r, y', w' => w' = w ∧ Syncs y fd r y'
  | .access p _, r, y', w' => w' = w ∧ y'.names = y.names ∧ y'.fds = y.fds ∧ (y.Keeps y' fun _ => False) ∧
    match y.names (meaning w p) with
    | some _ => r = .bool true
    | none => ∃ e, Absent y.tree (meaning w p) e ∧ r = if e = .ENOENT then .bool false else .err e

/-- All that is said, in turn, gives these results. -/
inductive FdTalk : Sys → Path → List FdSaid → List Res → Sys → Path → Prop
  | nil (y : Sys) (w : Path) : FdTalk y w [] [] y w
  | cons {y y1 y2 : Sys} {w w1 w2 : Path} {c : FdSaid} {r : Res} {cs : List FdSaid} {rs : List Res} :
    FdTells y w c r y1 w1 → FdTalk y1 w1 cs rs y2 w2 → FdTalk y w (c :: cs) (r :: rs) y2 w2

end Verif.Ref
