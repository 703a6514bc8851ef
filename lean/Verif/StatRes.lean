import Verif.Ops
import Verif.Dbl
/-!
# Stat results

`FakeStatResult` of `pyfakefs/helpers.py`: the attributes, item access, comparison, copies and the Windows attributes.
Not modelled: `None` values of a result that was never filled, and setting times through `st_atime = …` (see `Rounding.toNs`).
-/

namespace Verif
open Py

/-- The stored fields of a stat result (helpers.py 78-93). Times are in nanoseconds; `useFloat` is `_use_float`. -/
structure StatResult where
  mode : Nat
  ino : Option Nat
  dev : Option Nat
  nlink : Int
  uid : Int
  gid : Int
  storedSize : Nat
  isWin : Bool
  atimeNs : Int
  mtimeNs : Int
  ctimeNs : Int
  useFloat : Option Bool
  deriving DecidableEq

/-- A number as Python returns it. -/
inductive PyNum
  | int (n : ℤ)
  | float (x : ℚ)

namespace StatResult

/-- `st_size` (helpers.py 193-197). -/
def size (a : StatResult) : Nat := if a.mode &&& S_IFLNK = S_IFLNK ∧ a.isWin = true then 0 else a.storedSize

/-- `use_float` (helpers.py 95-103); `g` is the class attribute `_stat_float_times`. -/
def floats (g : Bool) (a : StatResult) : Bool := match a.useFloat with | none => g | some b => b

/-- `__eq__` for two stat results (helpers.py 105-118). -/
def eq (a b : StatResult) : Bool :=
  a.atimeNs == b.atimeNs && a.ctimeNs == b.ctimeNs && a.mtimeNs == b.mtimeNs && a.size == b.size && a.gid == b.gid &&
  a.uid == b.uid && a.nlink == b.nlink && a.dev == b.dev && a.ino == b.ino && a.mode == b.mode

/-- `copy` (helpers.py 123-129). -/
def copy (g : Bool) (a : StatResult) : StatResult := { a with useFloat := some (a.floats g) }

/-- `set_from_stat_result` (helpers.py 131-142). -/
def setFrom (a b : StatResult) : StatResult :=
  { a with mode := b.mode, uid := b.uid, gid := b.gid, storedSize := b.size, atimeNs := b.atimeNs, mtimeNs := b.mtimeNs,
           ctimeNs := b.ctimeNs }

/-- `st_atime`, `st_mtime`, `st_ctime` (helpers.py 160-176) for a time in nanoseconds. -/
def seconds (R : Rounding) (g : Bool) (a : StatResult) (ns : Int) : PyNum :=
  if a.floats g then .float (R.fl (R.fl ns / 1000000000)) else .int (truncQ (R.fl (R.fl ns / 1000000000)))

/-- `int(x)` -/
def _root_.Verif.PyNum.toInt : PyNum → ℤ
  | .int n => n
  | .float x => truncQ x

/-- `__getitem__` (helpers.py 229-254); the indices are those of the module `stat`; `none`: ValueError. -/
def item (R : Rounding) (g : Bool) (a : StatResult) : Nat → Option (Option ℤ)
  | 0 => some (some a.mode)
  | 1 => some (a.ino.map Int.ofNat)
  | 2 => some (a.dev.map Int.ofNat)
  | 3 => some (some a.nlink)
  | 4 => some (some a.uid)
  | 5 => some (some a.gid)
  | 6 => some (some a.size)
  | 7 => some (some (a.seconds R g a.atimeNs).toInt)
  | 8 => some (some (a.seconds R g a.mtimeNs).toInt)
  | 9 => some (some (a.seconds R g a.ctimeNs).toInt)
  | _ => none

def S_IFCHR : Nat := 0o020000
def S_IFBLK : Nat := 0o060000
def ATTR_DIRECTORY : Nat := 16
def ATTR_DEVICE : Nat := 64
def ATTR_NORMAL : Nat := 128
def ATTR_REPARSE : Nat := 1024
def TAG_SYMLINK : Nat := 0xa000000c

/-- `st_file_attributes` (helpers.py 203-218); `none`: AttributeError. -/
def fileAttributes (a : StatResult) : Option Nat :=
  if a.isWin = false then none
  else some ((if a.mode &&& S_IFDIR ≠ 0 then ATTR_DIRECTORY else 0) ||| (if a.mode &&& S_IFREG ≠ 0 then ATTR_NORMAL else 0) |||
    (if a.mode &&& (S_IFCHR ||| S_IFBLK) ≠ 0 then ATTR_DEVICE else 0) ||| (if a.mode &&& S_IFLNK ≠ 0 then ATTR_REPARSE else 0))

/-- `st_reparse_tag` (helpers.py 220-227), Python ≥ 3.8. -/
def reparseTag (a : StatResult) : Option Nat :=
  if a.isWin = false then none else some (if a.mode &&& S_IFLNK ≠ 0 then TAG_SYMLINK else 0)

end StatResult

/-- The stat result of an object: what `stat` of an existing object returns (fake_filesystem.py 1161-1188). -/
def FS.statResult (s : FS) (r : Ref) : StatResult :=
  let o := s.heap r
  { mode := o.mode, ino := o.ino, dev := o.dev, nlink := o.nlink, uid := o.uid, gid := o.gid, storedSize := o.size,
    isWin := s.cfg.isWin, atimeNs := o.atime, mtimeNs := o.mtime, ctimeNs := o.ctime, useFloat := none }

end Verif
