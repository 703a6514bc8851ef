import Verif.FileIO
/-!
# `os.sendfile`, `os.fsync`, `os.fdatasync`
-/

namespace Verif
open Py

def S_IFSOCK : Nat := 0o140000

/-- the test for the standard streams (fake_filesystem.py 4486, 4510, 4533-4536) -/
def notStd (fd : Int) : M Unit := if 0 ≤ fd ∧ fd < 3 then M.raise .EINVAL else M.pure ()

/-- On macOS the destination must be a socket (fake_filesystem.py 4539-4541); the `OSError` raised has no error number (`unsupported` here). -/
def macSocket (g : Nat) : M Unit := do
  let s ← M.get
  if s.cfg.isMac then
    if (s.handles g).kind = .std then M.throw .attributeError
    else if (s.heap (s.handles g).obj).mode &&& 0o777000 ≠ S_IFSOCK then M.throw .unsupported
    else M.pure ()
  else M.pure ()

/-- The part of `sendfile` that reads (fake_filesystem.py 4542-4553).  Directories and standard streams have no `read`. -/
def sendRead (h : Nat) (offset : Option Int) (count : Nat) : M Bytes := do
  let s ← M.get
  match offset with
  | none =>
    if s.cfg.isMac then M.throw .typeError
    else if (s.handles h).kind ≠ .file then M.throw .attributeError
    else read h (some count)
  | some o =>
    if (s.handles h).kind ≠ .file then M.throw .attributeError
    else do
      let position ← tell h
      seek h o
      let contents ← read h (if count = 0 ∧ s.cfg.isMac then none else some count)
      seek h position
      M.pure contents

/-- The part of `sendfile` that writes (fake_filesystem.py 4554-4558). -/
def sendWrite (g : Nat) (contents : Bytes) : M Nat := do
  let s ← M.get
  if contents = [] then M.pure 0
  else if (s.handles g).kind ≠ .file then M.throw .attributeError
  else do
    let written ← write g contents
    flush g
    M.pure written

/-- `os.sendfile` (fake_filesystem.py 4512-4558). -/
def sendfile (fdOut fdIn : Int) (offset : Option Int) (count : Nat) : M Nat := do
  let s ← M.get
  if s.cfg.isWin then M.throw .attributeError
  else do
    notStd fdIn
    notStd fdOut
    let h ← rd (·.getOpen fdIn)
    let g ← rd (·.getOpen fdOut)
    macSocket g
    let contents ← sendRead h offset count
    sendWrite g contents

/-- `os.fsync` (fake_filesystem.py 4475-4493).  Directories and standard streams have no `allow_update`. -/
def fsync (fd : Int) : M Unit := do
  notStd fd
  let h ← rd (·.getOpen fd)
  let s ← M.get
  if s.cfg.isWin ∧ ((s.handles h).kind ≠ .file ∨ (s.handles h).update = false) then M.raise .EBADF
  else M.pure ()

/-- `os.fdatasync` (fake_filesystem.py 4495-4510). -/
def fdatasync (fd : Int) : M Unit := do
  let s ← M.get
  if s.cfg.isWin ∨ s.cfg.isMac then M.throw .attributeError
  else do
    notStd fd
    let _ ← rd (·.getOpen fd)
    M.pure ()

end Verif
