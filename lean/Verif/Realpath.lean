import Verif.Ops
/-!
# `os.path.realpath`

Source: `FakePathModule.realpath` and `_joinrealpath`.
-/

namespace Verif
open Py

namespace FS
variable (s : FS)

/-- `FakePathModule.abspath` (fake_filesystem.py 3320-3338) for a string path. -/
def abspath (p : Str) : Str :=
  let k := s.cfg
  k.normpath <|
    if !k.isabs p then k.joinpaths [s.cwd, p]
    else if k.isWin && k.startsWithSep p && k.startsWithDriveLetter s.cwd then k.joinpaths [s.cwd.take 2, p]
    else p

/-- The dictionary `seen`: the resolved form of a link, or `None` while it is being resolved; new values are put in front. -/
abbrev Seen := List (Str × Option Str)

/-- What `_joinrealpath` does with `path` for the component `..` (fake_filesystem.py 3434-3441). -/
def realParent (path : Str) : Str :=
  if path ≠ [] then
    let pc := s.cfg.splitpath path
    if pc.2 = Cfg.dotdot then s.cfg.joinpaths [pc.1, Cfg.dotdot, Cfg.dotdot] else pc.1
  else Cfg.dotdot

/-- The loop of `_joinrealpath` (fake_filesystem.py 3428-3463); taking parts from `rest` with `partition` goes through
`rest.split(sep)`, and the rest of the path is the remaining parts joined again. `k` is the recursive call. -/
def realLoop (k : Str → Str → Seen → Except Err (Str × Bool × Seen)) : Str → List Str → Seen → Except Err (Str × Bool × Seen)
  | path, [], seen => .ok (path, true, seen)
  | path, name :: rest, seen =>
    if name = [] ∨ name = Cfg.dot then realLoop k path rest seen
    else if name = Cfg.dotdot then realLoop k (s.realParent path) rest seen
    else
      let newpath := s.cfg.joinpaths [path, name]
      match s.isLink newpath with
      | .error e => .error e
      | .ok false => realLoop k newpath rest seen
      | .ok true =>
        match alookup newpath seen with
        | some (some p) => realLoop k p rest seen
        | some none => .ok (s.cfg.joinpaths [newpath, join s.cfg.sep rest], false, seen)
        | none =>
          match s.readlink newpath with
          | .error e => .error e
          | .ok target =>
            match k path target ((newpath, none) :: seen) with
            | .error e => .error e
            | .ok (p, false, seen) => .ok (s.cfg.joinpaths [p, join s.cfg.sep rest], false, seen)
            | .ok (p, true, seen) => realLoop k p rest ((newpath, some p) :: seen)

/-- `_joinrealpath` (fake_filesystem.py 3416-3463); the number is the nesting depth the interpreter allows. -/
def joinReal : Nat → Str → Str → Seen → Except Err (Str × Bool × Seen)
  | 0, _, _, _ => .error .recursion
  | n + 1, path, rest, seen =>
    if s.cfg.isabs rest then s.realLoop (joinReal n) [s.cfg.sep] (split s.cfg.sep (rest.drop 1)) seen
    else s.realLoop (joinReal n) path (split s.cfg.sep rest) seen

/-- `FakePathModule.realpath` (fake_filesystem.py 3390-3398). -/
def realpath (p : Str) : Except Err Str :=
  if s.cfg.isWin then .ok (s.abspath p)
  else match s.joinReal s.limit [] p [] with
    | .error e => .error e
    | .ok (q, _, _) => .ok (s.abspath q)

end FS
end Verif
