import Verif.Prim
/-!
# Path lookup

All functions here only read the state.  `exists` and `resolve` are mutually recursive in the source
(`exists → resolve_path → _valid_relative_path → exists` and
`get_object_from_normpath → resolve → get_object_from_normpath`); the recursion is cut by `Rec`, the
two recursive entry points, indexed by the remaining nesting depth.
-/

namespace Verif
open Py

namespace FS
variable (s : FS)

/-- `_directory_content` (fake_filesystem.py 1752-1764). -/
def dirContent (r : Ref) (c : Str) : Option (Str × Ref) :=
  match (s.heap r).content with
  | .file _ => none
  | .dir es =>
    match alookup c es with
    | some x => some (c, x)
    | none =>
      if s.cfg.caseSens then none
      else es.find? (fun e => s.cfg.lower e.1 == s.cfg.lower c)

/-- the component loop of `_original_path` with the rest appended (fake_filesystem.py 1449-1476) -/
def origComps : Ref → List Str → List Str
  | _, [] => []
  | r, c :: cs =>
    match s.dirContent r c with
    | none => c :: cs
    | some (nm, r') => nm :: origComps r' cs

/-- `_original_path` (fake_filesystem.py 1437-1476).  The test for unread real directories
(1470-1473) is dropped: such objects are not modelled. -/
def originalPath (p : Str) : Str :=
  if s.cfg.caseSens ∨ p = [] then p
  else
    let q := join s.cfg.sep (s.origComps rootRef (s.cfg.pathComponents p))
    if s.cfg.startsWithSep p && !s.cfg.startsWithSep q then s.cfg.sep :: q else q

/-- `absnormpath` of this filesystem (fake_filesystem.py 1478-1505). -/
def absnorm (p : Str) : Str := s.cfg.absnormpath s.cwd p

/-- Result of scanning components from the root until a symlink is met
(body of the loop in `_resolve_components`, fake_filesystem.py 1874-1905). -/
inductive Scan
  | done (resolved : List Str)
  | link (resolved : List Str) (target : Ref) (rest : List Str)

/-- The part of the `_resolve_components` loop between two links.  `acc` are the resolved components
in reverse. -/
def scan : Ref → List Str → List Str → Scan
  | _, acc, [] => .done acc.reverse
  | r, acc, c :: cs =>
    match s.dirContent r c with
    | none => .done (acc.reverse ++ c :: cs)
    | some (_, r') =>
      if (s.heap r').isLnk then .link (c :: acc).reverse r' cs
      else scan r' (c :: acc) cs

/-- `_follow_link` (fake_filesystem.py 1919-1961). -/
def followLink (resolved : List Str) (l : Ref) : Str :=
  let t := s.linkTarget (s.heap l)
  let unc : Str := ['\\', '\\', '?', '\\']
  let t := if s.cfg.isWin && unc.isPrefixOf t then t.drop 4 else t
  let t := if !s.cfg.startsWithRoot t then join s.cfg.sep (resolved.dropLast ++ [t]) else t
  s.cfg.normpath t

/-- `_resolve_components` (fake_filesystem.py 1870-1906).  The argument counts the links which may still
be followed: `link_depth > _MAX_LINK_DEPTH` (40) raises, so 41 links are followed. -/
def resolveComps : Nat → List Str → Except Err (List Str)
  | n, cs =>
    match s.scan rootRef [] cs with
    | .done r => .ok r
    | .link res l rest =>
      match n with
      | 0 => .error (.os .ELOOP)
      | n + 1 => resolveComps n (s.cfg.pathComponents (s.followLink res l) ++ rest)

/-- Number of links followed before ELOOP (fake_filesystem.py 148-154, 1891-1894). -/
def maxLinks : Nat := 41

/-- The two recursive entry points. -/
structure Rec where
  ex : Str → Except Err Bool
  res : Str → Except Err Ref

section G
variable (k : Rec)

/-- the loop of `_valid_relative_path` (fake_filesystem.py 1913-1917); every turn shortens the path -/
def validLoop : Nat → Str → Except Err Bool
  | 0, _ => .ok true
  | n + 1, p =>
    match cutAtLast (s.cfg.sep :: Cfg.dotdot) p with
    | none => .ok true
    | some q => do
      if !(← k.ex (s.absnorm q)) then .ok false else validLoop n q

/-- `_valid_relative_path` (fake_filesystem.py 1908-1917). -/
def validRelG (p : Str) : Except Err Bool :=
  if s.cfg.isWin then .ok true else s.validLoop k p.length p

/-- `resolve_path` (fake_filesystem.py 1804-1860) for a string path. -/
def resolvePathG (p : Str) : Except Err Str := do
  if p = [] then .error (.os .ENOENT)
  else if !(← s.validRelG k p) then .error (.os .ENOENT)
  else
    let p := s.absnorm (s.originalPath p)
    if s.cfg.isRootPath p then .ok p
    else if p = s.devName then .ok p
    else do
      let cs ← s.resolveComps maxLinks (s.cfg.pathComponents p)
      .ok (s.cfg.componentsToPath cs)

/-- the object or, for a symlink, the object its contents resolve to (fake_filesystem.py 1990-1991) -/
def deref (r : Ref) : Except Err Ref :=
  if (s.heap r).isLnk then k.res (s.linkTarget (s.heap r)) else .ok r

/-- the component loop of `get_object_from_normpath` (fake_filesystem.py 1987-1999) -/
def objLoop (check : Bool) : Ref → List Str → Except Err Ref
  | r, [] => .ok r
  | r, c :: cs => do
    let r ← s.deref k r
    if !(s.heap r).isDirMode then
      .error (.os (if s.cfg.isWin then .ENOENT else .ENOTDIR))
    else match (s.heap r).content with
      | .file _ => .error .attributeError
      | .dir es =>
        match s.getEntry es c with
        | .error _ => .error (.os .ENOENT)
        | .ok r' =>
          if !s.isRoot && check && (s.heap r').mode &&& PERM_READ = 0 then .error (.os .EACCES)
          else objLoop check r' cs

/-- `get_object_from_normpath` (fake_filesystem.py 1963-2002). -/
def getObjNormG (p : Str) (check : Bool) : Except Err Ref :=
  if p = s.cfg.root then .ok rootRef
  else if p = s.devName then .ok devNullRef
  else s.objLoop k check rootRef (s.cfg.pathComponents (s.originalPath p))

/-- `resolve` following links (fake_filesystem.py 2023-2051). -/
def resolveG (p : Str) (check : Bool) : Except Err Ref := do
  s.getObjNormG k (← s.resolvePathG k p) check

/-- parent path and name looked up by `lresolve` (fake_filesystem.py 2075-2083) -/
def lparent (p : Str) : Str × Str :=
  let p := s.cfg.stripTrailing p
  let p := if p = Cfg.dot then s.cwd else p
  let pc := s.cfg.splitpath (s.originalPath p)
  (if pc.1 = [] then s.cwd else pc.1, pc.2)

/-- the entry of an object looked up by `lresolve` (fake_filesystem.py 2084-2096) -/
def lentry (r : Ref) (child : Str) : Except Err Ref :=
  match (s.heap r).content with
  | .file _ => .error (.os (if s.cfg.isWin then .ENOENT else .ENOTDIR))
  | .dir es =>
    if (s.heap r).mode &&& PERM_READ = 0 then .error (.os .EACCES)
    else if child = [] then .ok r
    else match s.getEntry es child with
      | .ok x => .ok x
      | .error _ => .error (.os .ENOENT)

/-- `lresolve` (fake_filesystem.py 2053-2096). -/
def lresolveG (p : Str) : Except Err Ref :=
  if p = [] then .error (.os .ENOENT)
  else if p = s.cfg.root then .ok rootRef
  else do
    let r ← s.resolveG k (s.lparent p).1 true
    s.lentry r (s.lparent p).2

/-- `resolve` (fake_filesystem.py 2023-2051) for a string path. -/
def resolveFG (p : Str) (follow check : Bool) : Except Err Ref :=
  if follow then s.resolveG k p check else s.lresolveG k p

/-- `raise_for_filepath_ending_with_separator` (fake_filesystem.py 1190-1215). -/
def raiseForSepG (p : Str) (r : Ref) (follow macos : Bool) : Except Err Unit :=
  if s.cfg.endsWithSep p then
    let tail (r : Ref) : Except Err Unit :=
      let o := s.heap r
      let isErr := if s.cfg.isWin then o.isRegMode
        else if s.cfg.isMac && macos then !o.isLnk
        else !o.isDirMode
      if isErr then .error (.os (if s.cfg.isWin then .EINVAL else .ENOTDIR)) else .ok ()
    if (s.heap r).isLnk then
      match s.resolveG k p true with
      | .error e =>
        if e.isOS && s.cfg.isMac && e != .os .ENOENT then .ok ()
        else if e.isOS && s.cfg.isWin then .error (.os .EINVAL)
        else .error e
      | .ok l => tail (if !follow || s.cfg.isWin || s.cfg.isMac then l else r)
    else tail r
  else .ok ()

/-- `_is_of_type` (fake_filesystem.py 2909-2935). -/
def isOfTypeG (p : Str) (flag : Nat) (follow : Bool) : Except Err Bool :=
  match (do
    let r ← s.resolveFG k p follow true
    s.raiseForSepG k p r true (!follow)
    pure r : Except Err Ref) with
  | .ok r => .ok (ifmt (s.heap r).mode == flag)
  | .error e => if e.isOS then .ok false else .error e

/-- `isfile` (fake_filesystem.py 2951-2963), `islink` (2965-2977), `isdir` (2937-2949). -/
def isFileG (p : Str) : Except Err Bool := s.isOfTypeG k p S_IFREG true
def isLinkG (p : Str) : Except Err Bool := s.isOfTypeG k p S_IFLNK false
def isDirG (p : Str) (follow : Bool) : Except Err Bool := s.isOfTypeG k p S_IFDIR follow

/-- The final loop of `exists` (fake_filesystem.py 1797-1802). -/
def existsLoop : Ref → List Str → Bool
  | _, [] => true
  | r, c :: cs => match s.dirContent r c with | none => false | some (_, r') => existsLoop r' cs

/-- `is_filepath_ending_with_separator` (fake_filesystem.py 1747-1750). -/
def isFileSepG (p : Str) : Except Err Bool :=
  if s.cfg.endsWithSep p then s.isFileG k (s.cfg.stripTrailing p) else .ok false

/-- `exists` without `check_link` (fake_filesystem.py 1766-1802), Python ≥ 3.8. -/
def existsG (p : Str) : Except Err Bool :=
  if p = [] then .ok false
  else if p = s.devName then .ok true
  else match (do
      if ← s.isFileSepG k p then pure none
      else pure (some (← s.resolvePathG k p)) : Except Err (Option Str)) with
    | .error e => if e.isOS then .ok false else .error e
    | .ok none => .ok false
    | .ok (some q) =>
      if q = s.cfg.root then .ok true else .ok (s.existsLoop rootRef (s.cfg.pathComponents q))

/-- `exists(p, check_link=True)` (fake_filesystem.py 1778-1779). -/
def existsLG (p : Str) : Except Err Bool := do
  if ← s.isLinkG k p then .ok true else s.existsG k p

end G

/-- The recursive entry points with nesting depth `n` left; depth 0 is `RecursionError`. -/
def recN : Nat → Rec
  | 0 => { ex := fun _ => .error .recursion, res := fun _ => .error .recursion }
  | n + 1 => { ex := s.existsG (recN n), res := fun p => s.resolveG (recN n) p true }

/-- recursive entry points for calls made at top level -/
def rc : Rec := s.recN s.limit

def resolvePath (p : Str) : Except Err Str := s.resolvePathG s.rc p
def resolve (p : Str) (follow : Bool := true) (check : Bool := true) : Except Err Ref :=
  s.resolveFG s.rc p follow check
def lresolve (p : Str) : Except Err Ref := s.lresolveG s.rc p
def exists_ (p : Str) : Except Err Bool := s.existsG s.rc p
def existsL (p : Str) : Except Err Bool := s.existsLG s.rc p
def isFile (p : Str) : Except Err Bool := s.isFileG s.rc p
def isLink (p : Str) : Except Err Bool := s.isLinkG s.rc p
def isDir (p : Str) (follow : Bool := true) : Except Err Bool := s.isDirG s.rc p follow
def raiseForSep (p : Str) (r : Ref) (follow macos : Bool) : Except Err Unit :=
  s.raiseForSepG s.rc p r follow macos

/-- `get_object` (fake_filesystem.py 2004-2021). -/
def getObject (p : Str) (check : Bool := true) : Except Err Ref :=
  s.getObjNormG s.rc (s.absnorm (s.originalPath p)) check

/-- `confirmdir` (fake_filesystem.py 2979-2996). -/
def confirmdir (p : Str) : Except Err Ref := do
  let r ← s.resolve p
  if (s.heap r).mode &&& S_IFDIR = 0 then .error (.os .ENOTDIR) else .ok r

/-- names from an object up to the top of its parent chain, outermost first (the loop of `path`,
fake_filesystem.py 444-448); fuel: number of objects -/
def pathNames : Nat → Ref → List Str → List Str
  | 0, _, acc => acc
  | n + 1, r, acc =>
    match (s.heap r).parent with
    | none => (s.heap r).name :: acc
    | some p => pathNames n p ((s.heap r).name :: acc)

/-- `path` property (fake_filesystem.py 441-461). -/
def objPath (r : Ref) : Str :=
  let sep := s.cfg.sep
  let p := match s.pathNames s.next r [] with
    | [] => []
    | n :: ns =>
      if n = [sep] then
        let p := join sep ns
        match ns with
        | [_, ':'] :: _ => p
        | _ => sep :: p
      else join sep (n :: ns)
  s.absnorm p

/-- `has_parent_object` (fake_filesystem.py 749-757); fuel: number of objects -/
def hasParentF : Nat → Ref → Ref → Bool
  | 0, _, _ => false
  | n + 1, r, d =>
    r == d || match (s.heap r).parent with | none => false | some p => hasParentF n p d

def hasParent (r d : Ref) : Bool := s.hasParentF s.next r d

end FS
end Verif
