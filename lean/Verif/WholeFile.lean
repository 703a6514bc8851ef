import Verif.FileIO
/-!
# `Path.read_bytes`, `Path.write_bytes`, `Path.touch`
-/

namespace Verif
open Py

/-- `with file as f: …` (fake_filesystem.py 4693-4699): `__exit__` closes the file whatever happened in the block; an exception
raised by `close` replaces the outcome of the block. -/
def withFile {α : Type} (h : Nat) (body : M α) : M α := fun s =>
  match hClose h (body s).2 with
  | (.error e, s2) => (.error e, s2)
  | (.ok _, s2) => ((body s).1, s2)

/-- `Path.read_bytes` (fake_pathlib.py 523-531). -/
def readBytes (p : Str) : M Bytes := do
  let h ← openPath p ⟨true, true, false, false, false, false⟩ none false false
  withFile h (read h none)

/-- `Path.write_bytes` (fake_pathlib.py 542-553). -/
def writeBytes (p : Str) (b : Bytes) : M Nat := do
  let h ← openPath p ⟨false, false, true, true, false, false⟩ none false false
  withFile h (write h b)

/-- `Path.exists` of the host's `pathlib` (it calls the faked `stat`): the errors ENOENT, ENOTDIR, EBADF and ELOOP mean false,
others are raised. -/
def FS.pathExists (s : FS) (p : Str) : Except Err Bool :=
  match s.stat p with
  | .ok _ => .ok true
  | .error (.os .ENOENT) | .error (.os .ENOTDIR) | .error (.os .EBADF) | .error (.os .ELOOP) => .ok false
  | .error e => .error e

/-- `Path.touch` (fake_pathlib.py 620-642). The file is opened with mode `'w'` and closed at once, which is the same in text
and binary mode. -/
def touch (p : Str) (mode : Nat) (existOk : Bool) : M Unit := do
  if ← rd (·.pathExists p) then
    if existOk then utime p none else M.raise .EEXIST
  else do
    let h ← openPath p ⟨false, false, true, true, false, false⟩ none false false
    hClose h
    chmod p mode

end Verif
