import Verif.Ops
/-!
# Scanning directories

Source: `pyfakefs/fake_scandir.py`. The filesystem is not changed while the generator runs, and the caller does not edit the
lists it is given (`os.walk` allows that in top-down mode).
-/

namespace Verif
open Py

/-- What `os.walk` yields for a directory: its path, and the names in it that are directories and that are not. -/
structure WalkItem where
  path : Str
  dirs : List Str
  files : List Str
  deriving DecidableEq

namespace FS
variable (s : FS)

/-- The loop of `_classify_directory_contents` (fake_scandir.py 202-206). -/
def classifyLoop (root : Str) : List Str → List Str → List Str → Except Err WalkItem
  | [], dirs, files => .ok ⟨root, dirs, files⟩
  | n :: ns, dirs, files => do
    if ← s.isDir (s.cfg.joinpaths [root, n]) then classifyLoop root ns (dirs ++ [n]) files
    else classifyLoop root ns dirs (files ++ [n])

/-- `_classify_directory_contents` (fake_scandir.py 183-207). -/
def classify (root : Str) : Except Err WalkItem := do
  s.classifyLoop root (← s.listdir root) [] []

/-- `if check and filesystem.islink(p): return`/`continue` before `m` (fake_scandir.py 230-231, 245-246). -/
def unlessLink (check : Bool) (p : Str) (m : Except Err (List WalkItem)) : Except Err (List WalkItem) :=
  if check then do
    if ← s.isLink p then .ok [] else m
  else m

/-- The loop over the subdirectories in `do_walk` (fake_scandir.py 243-248); `k` is the recursive call. -/
def walkSubs (followlinks : Bool) (k : Str → Except Err (List WalkItem)) (top : Str) : List Str → Except Err (List WalkItem)
  | [] => .ok []
  | d :: ds => do
    let path := s.cfg.joinpaths [top, d]
    let here ← s.unlessLink (!followlinks) path (k path)
    return here ++ (← walkSubs followlinks k top ds)

/-- `do_walk` (fake_scandir.py 229-250) with `onerror=None`; the first argument is the nesting depth the interpreter allows. -/
def walkDir (topdown followlinks : Bool) : Nat → Str → Bool → Except Err (List WalkItem)
  | 0, _, _ => .error .recursion
  | n + 1, top, topmost => s.unlessLink (!topmost && !followlinks) top <|
    match s.classify top with
    | .error e => if e.isOS then .ok [] else .error e
    | .ok item => do
      let subs ← s.walkSubs followlinks (fun p => walkDir topdown followlinks n p false) top item.dirs
      return if topdown then item :: subs else subs ++ [item]

/-- `os.walk` (fake_scandir.py 210-252): the list of everything the generator yields. -/
def osWalk (top : Str) (topdown : Bool := true) (followlinks : Bool := false) : Except Err (List WalkItem) :=
  s.walkDir topdown followlinks s.limit top true

/-- A `DirEntry` as filled in by `ScanDirIter.__next__` (fake_scandir.py 142-152). -/
structure DirEntry where
  name : Str
  path : Str
  abspath : Str
  isdir : Bool
  islink : Bool

/-- The loop of a client over `ScanDirIter` (fake_scandir.py 142-152). -/
def scanLoop (path abspath : Str) : List Str → Except Err (List DirEntry)
  | [] => .ok []
  | n :: ns => do
    let a := s.cfg.joinpaths [abspath, n]
    let isdir ← s.isDir a
    let islink ← s.isLink a
    return ⟨n, s.cfg.joinpaths [path, n], a, isdir, islink⟩ :: (← scanLoop path abspath ns)

/-- `scandir(path)` (fake_scandir.py 117-180) for a string path, with the whole iterator consumed. -/
def scandir (path : Str) : Except Err (List DirEntry) := do
  let abspath := s.absnorm path
  let r ← s.confirmdir abspath
  match (s.heap r).content with
  | .dir es => s.scanLoop path abspath (es.map (·.1))
  | .file _ => .error .attributeError

/-- `DirEntry.is_dir`, `is_file`, `is_symlink` (fake_scandir.py 57-87). -/
def DirEntry.is_dir (e : DirEntry) (follow : Bool) : Bool := e.isdir && (follow || !e.islink)
def DirEntry.is_file (e : DirEntry) (follow : Bool) : Bool := !e.isdir && (follow || !e.islink)
def DirEntry.is_symlink (e : DirEntry) : Bool := e.islink

/-- `DirEntry.stat` (fake_scandir.py 89-110): the object whose status is returned. -/
def DirEntry.stat (e : DirEntry) (follow : Bool) : Except Err Ref := if follow then s.resolve e.abspath else s.lresolve e.abspath

end FS
end Verif
