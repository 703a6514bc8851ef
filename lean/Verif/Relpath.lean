import Verif.Props.Lookup
/-!
# `os.path.relpath`

The fake function converts separators and calls the host's `posixpath.relpath`, whose `os.getcwd` is the fake one
(`self._os_path.os = os_module`, fake_filesystem.py 3183).  The host is POSIX.
-/

namespace Verif
open Py Spec Cfg

/-- the component loop of the host's `posixpath.normpath` (CPython; called through fake_filesystem.py 3387); the accumulator is reversed -/
def hostLoop (initial : Bool) : List Str → List Str → List Str
  | [], acc => acc.reverse
  | c :: cs, acc =>
    if c = [] ∨ c = dot then hostLoop initial cs acc
    else if c ≠ dotdot ∨ (initial = false ∧ acc = []) ∨ acc.head? = some dotdot then hostLoop initial cs (c :: acc)
    else hostLoop initial cs acc.tail

/-- the number of leading separators kept by `posixpath.normpath` (CPython; called through fake_filesystem.py 3387) -/
def hostSlashes (p : Str) : Nat :=
  match p with
  | '/' :: '/' :: '/' :: _ => 1
  | '/' :: '/' :: _ => 2
  | '/' :: _ => 1
  | _ => 0

/-- `posixpath.normpath` of the host (CPython; called through fake_filesystem.py 3387) -/
def hostNormpath (p : Str) : Str :=
  if p = [] then dot
  else
    let n := hostSlashes p
    let q := List.replicate n '/' ++ join '/' (hostLoop (n != 0) (split '/' p) [])
    if q = [] then dot else q

/-- `posixpath.join` of two paths, of which the second is relative (CPython; called through fake_filesystem.py 3387) -/
def hostJoin (a b : Str) : Str := if a = [] ∨ a.getLast? = some '/' then a ++ b else a ++ '/' :: b

/-- `posixpath.abspath` with the fake `getcwd` (CPython; called through fake_filesystem.py 3387) -/
def hostAbspath (cwd p : Str) : Str := hostNormpath (if isAbs '/' p then p else hostJoin cwd p)

/-- `[x for x in p.split(sep) if x]` (`posixpath.relpath`, CPython; called through fake_filesystem.py 3387) -/
def hostParts (p : Str) : List Str := (split '/' p).filter (· ≠ [])

/-- the length of the common prefix (`len(commonprefix([a, b]))` in `posixpath.relpath`, CPython; called through fake_filesystem.py 3387) -/
def commonLen : List Str → List Str → Nat
  | a :: as, b :: bs => if a = b then commonLen as bs + 1 else 0
  | _, _ => 0

/-- `posixpath.relpath` of the host for non-empty `p` (CPython; called through fake_filesystem.py 3387) -/
def hostRelpath (cwd p start : Str) : Str :=
  let sl := hostParts (hostAbspath cwd start)
  let pl := hostParts (hostAbspath cwd p)
  let i := commonLen sl pl
  let rel := List.replicate (sl.length - i) dotdot ++ pl.drop i
  if rel = [] then dot else join '/' rel

/-- to the host's separators (fake_filesystem.py 3380-3386) -/
def Cfg.toHost (k : Cfg) (p : Str) : Str :=
  replaceC k.sep '/' (match k.altsep with
    | some a => replaceC a '/' p
    | none => p)

/-- `relpath` (fake_filesystem.py 3369-3388); `start` is the current directory if not given -/
def FS.relpath (s : FS) (p : Str) (start : Option Str) : Except Err Str :=
  if p = [] then .error .valueError
  else .ok (replaceC '/' s.cfg.sep (hostRelpath s.cwd (s.cfg.toHost p) (s.cfg.toHost (start.getD s.cwd))))

end Verif
