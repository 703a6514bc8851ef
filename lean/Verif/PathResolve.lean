import Verif.Realpath
/-!
# `Path.resolve` of the fake pathlib on POSIX

Source: `_FakeFlavour._resolve_posix` and `FakePath.resolve` in `pyfakefs/fake_pathlib.py`.
-/

namespace Verif
open Py

/-- `path.rpartition(sep)[0]`: what is before the last separator, nothing if there is none. -/
def beforeLast (c : Char) (p : Str) : Str := join c (split c p).dropLast

namespace FS
variable (s : FS)

/-- The loop of `_resolve` (fake_pathlib.py 248-279); `k` is the recursive call. -/
def resolveLoop (strict : Bool) (k : Str → Str → Seen → Except Err (Str × Seen)) : Str → List Str → Seen → Except Err (Str × Seen)
  | path, [], seen => .ok (path, seen)
  | path, name :: rest, seen =>
    if name = [] ∨ name = Cfg.dot then resolveLoop strict k path rest seen
    else if name = Cfg.dotdot then resolveLoop strict k (beforeLast s.cfg.sep path) rest seen
    else
      let newpath := path ++ s.cfg.sep :: name
      match alookup newpath seen with
      | some (some p) => resolveLoop strict k p rest seen
      | some none => .error .runtimeError
      | none =>
        match s.readlink newpath with
        | .error e =>
          if e.isOS = false ∨ e ≠ .os .EINVAL ∧ strict then .error e else resolveLoop strict k newpath rest seen
        | .ok target =>
          match k path target ((newpath, none) :: seen) with
          | .error e => .error e
          | .ok (p, seen) => resolveLoop strict k p rest ((newpath, some p) :: seen)

/-- `_resolve` (fake_pathlib.py 244-279); the number is the nesting depth the interpreter allows. -/
def resolveRec (strict : Bool) : Nat → Str → Str → Seen → Except Err (Str × Seen)
  | 0, _, _, _ => .error .recursion
  | n + 1, path, rest, seen =>
    s.resolveLoop strict (resolveRec strict n) (if startsWithC s.cfg.sep rest then [] else path) (split s.cfg.sep rest) seen

/-- `_resolve_posix` (fake_pathlib.py 240-285) for the string form of a path. -/
def resolvePosix (strict : Bool) (p : Str) : Except Err Str :=
  match s.resolveRec strict s.limit (if startsWithC s.cfg.sep p then [] else s.cwd) p [] with
  | .error e => .error e
  | .ok (q, _) => .ok (if q = [] then [s.cfg.sep] else q)

/-- `Path(p).resolve(strict)` (fake_pathlib.py 480-509) on a POSIX filesystem; `p` is the string form of the path. -/
def pathResolve (strict : Bool) (p : Str) : Except Err Str :=
  match s.resolvePosix strict p with
  | .error e => .error e
  | .ok q => .ok (s.absnorm q)

end FS
end Verif
