import Verif.Props.Lookup
import Verif.Ops
/-!
# More of `os.path`, and paths relative to a directory descriptor
-/

namespace Verif
open Py Spec Cfg

/-- `os.path.getsize` (fake_filesystem.py 3216-3231) -/
def FS.getsize (s : FS) (p : Str) : Except Err Nat := do
  let r ← s.resolve p
  if s.cfg.endsWithSep p && !(s.heap r).isDirMode then .error (.os (if s.cfg.isWin then .EINVAL else .ENOTDIR))
  else .ok (s.stSize (s.heap r))

/-- the object asked by `getmtime`, `getatime`, `getctime`: every OSError becomes ENOENT (fake_filesystem.py 3275-3279, 3297-3301, 3316-3320) -/
def FS.timesOf (s : FS) (p : Str) : Except Err Ref :=
  match s.resolve p with
  | .ok r => .ok r
  | .error e => .error (if e.isOS then .os .ENOENT else e)

/-- `os.path.getmtime` (fake_filesystem.py 3262-3279), in nanoseconds -/
def FS.getmtime (s : FS) (p : Str) : Except Err Int := do .ok (s.heap (← s.timesOf p)).mtime
/-- `os.path.getatime` (fake_filesystem.py 3281-3301), in nanoseconds -/
def FS.getatime (s : FS) (p : Str) : Except Err Int := do .ok (s.heap (← s.timesOf p)).atime
/-- `os.path.getctime` (fake_filesystem.py 3303-3320), in nanoseconds -/
def FS.getctime (s : FS) (p : Str) : Except Err Int := do .ok (s.heap (← s.timesOf p)).ctime

/-- `str.rstrip(sep)` (fake_filesystem.py 3507) -/
def rstripC (c : Char) (p : Str) : Str := (p.reverse.dropWhile (· == c)).reverse

/-- the part of `ismount` for Windows: `some` if it decides (fake_filesystem.py 3494-3505) -/
def FS.ismountWin (s : FS) (normed : Str) : Option Bool :=
  let seps : List Str := [s.cfg.sep] :: (match s.cfg.altsep with | some a => [[a]] | none => [])
  let dr := s.cfg.splitdrive normed
  if dr.1 ≠ [] ∧ dr.1.take 1 ∈ seps then some (dr.2 = [] ∨ dr.2 ∈ seps)
  else if dr.2 ∈ seps then some true else none

/-- `os.path.ismount` (fake_filesystem.py 3478-3509) -/
def FS.ismount (s : FS) (p : Str) : Bool :=
  if p = [] then false
  else
    let q := s.absnorm p
    match (if s.cfg.isWin then s.ismountWin q else none) with
    | some b => b
    | none => s.mounts.any fun m => rstripC s.cfg.sep q == rstripC s.cfg.sep m.path

/-- `_path_with_dir_fd` (fake_filesystem.py 4235-4251) for a string path and a function supporting `dir_fd`. -/
def FS.pathWithDirFd (s : FS) (p : Str) (dirFd : Option Int) : Except Err Str :=
  match dirFd with
  | none => .ok p
  | some fd =>
    if s.cfg.isabs p then .ok p
    else do
      let h ← s.getOpen fd
      if (s.handles h).kind = .std then .error .attributeError
      else .ok (s.cfg.joinpaths [s.objPath (s.handles h).obj, p])

/-- `os.stat(path, dir_fd=…, follow_symlinks=…)` (fake_filesystem.py 4025-4044) -/
def FS.statAt (s : FS) (p : Str) (dirFd : Option Int) (follow : Bool := true) : Except Err Stat := do
  s.stat (← s.pathWithDirFd p dirFd) follow

/-- `os.mkdir(path, mode, dir_fd=…)` (fake_filesystem.py 4186-4212); the error of `mkdir` itself -/
def mkdirAt (p : Str) (mode : Nat) (dirFd : Option Int) : M Unit := do
  mkdir (← rd (·.pathWithDirFd p dirFd)) mode

/-- `os.remove(path, dir_fd=…)`, `os.unlink(path, dir_fd=…)` (fake_filesystem.py 4062-4092) -/
def removeAt (p : Str) (dirFd : Option Int) : M Unit := do
  remove (← rd (·.pathWithDirFd p dirFd))

/-- `os.rename(src, dst, src_dir_fd=…, dst_dir_fd=…)` (fake_filesystem.py 4094-4121) -/
def renameAt (old new : Str) (srcFd dstFd : Option Int) (force : Bool) : M Unit := do
  let o ← rd (·.pathWithDirFd old srcFd)
  let n ← rd (·.pathWithDirFd new dstFd)
  rename o n force

/-- `os.symlink(src, dst, dir_fd=…)` (fake_filesystem.py 4437-4451): the descriptor is applied to `src`, the target of the link. -/
def symlinkAt (src dst : Str) (dirFd : Option Int) : M Ref := do
  createSymlink dst (← rd (·.pathWithDirFd src dirFd)) false

end Verif
