import Verif.Py
/-!
# Pure path functions of `FakeFilesystem`

Source: `pyfakefs/fake_filesystem.py`.  All paths are `str` (bytes paths are not modelled, so
`matching_string` is the identity and `make_string_path`/`to_string` are the identity).
-/

namespace Verif
open Py

/-- The attributes of a `FakeFilesystem` the path functions read
(fake_filesystem.py 872-892: path_separator, alternative_path_separator, is_windows_fs, is_macos,
is_case_sensitive; 908: the name of the null device, fixed at construction).
`root.name` is the path separator (894, 939).  `lower` is `str.lower`; `enc`/`dec` encode and decode
text with the preferred encoding (both are arbitrary functions, laws are hypotheses where needed). -/
structure Cfg where
  sep : Char
  altsep : Option Char
  isWin : Bool
  isMac : Bool
  caseSens : Bool
  lower : Str → Str
  enc : Str → Bytes
  dec : Bytes → Str
  devNull : Str

namespace Cfg
variable (k : Cfg)

def dot : Str := ['.']
def dotdot : Str := ['.', '.']

/-- `root.name` (fake_filesystem.py 894). -/
def root : Str := [k.sep]

/-- `_normalize_path_sep` / `normcase` (fake_filesystem.py 1367-1386): replace the alternative separator. -/
def normcase (p : Str) : Str :=
  match k.altsep with
  | none => p
  | some a => replaceC a k.sep p

/-- `_starts_with_sep` (fake_filesystem.py 1016-1021). -/
def startsWithSep (p : Str) : Bool :=
  startsWithC k.sep p || (match k.altsep with | none => false | some a => startsWithC a p)

/-- `splitdrive` (fake_filesystem.py 1551-1586). -/
def splitdrive (p : Str) : Str × Str :=
  if k.isWin then
    if 2 ≤ p.length then
      let p := k.normcase p
      if p.take 2 = [k.sep, k.sep] ∧ (p.drop 2).take 1 ≠ [k.sep] then
        match find k.sep p 2 with
        | none => ([], p)
        | some i =>
          match find k.sep p (i + 1) with
          | none => (p, [])
          | some j => if j = i + 1 then ([], p) else (p.take j, p.drop j)
      else if (p.drop 1).take 1 = [':'] then (p.take 2, p.drop 2)
      else ([], p)
    else ([], p)
  else ([], p)

/-- The component loop of `normpath` (fake_filesystem.py 1418-1431).
The accumulator is kept reversed (Python appends at the end). -/
def collapse (isAbs : Bool) : List Str → List Str → List Str
  | [], acc => acc.reverse
  | c :: cs, acc =>
    if c = [] ∨ c = dot then collapse isAbs cs acc
    else if c = dotdot then
      match acc with
      | top :: rest =>
        if top ≠ dotdot then collapse isAbs cs rest
        else if isAbs then collapse isAbs cs (top :: rest)
        else collapse isAbs cs (c :: top :: rest)
      | [] => if isAbs then collapse isAbs cs [] else collapse isAbs cs [c]
    else collapse isAbs cs (c :: acc)

/-- `normpath` (fake_filesystem.py 1388-1435). -/
def normpath (p : Str) : Str :=
  let p := k.normcase p
  let (drive, p) := k.splitdrive p
  let isAbs := startsWithC k.sep p
  let collapsed := join k.sep (collapse isAbs (split k.sep p) [])
  let collapsed := if isAbs then k.sep :: collapsed else collapsed
  if drive ++ collapsed = [] then dot else drive ++ collapsed

/-- `_starts_with_drive_letter` (fake_filesystem.py 1693-1717) on a POSIX host.
Note that the source tests the bound method `isalpha` without calling it (1704-1705),
so any first character is accepted. -/
def startsWithDriveLetter (p : Str) : Bool :=
  decide (2 ≤ p.length ∧ (p.drop 1).take 1 = [':']) && k.isWin

/-- `_starts_with_root_path` (fake_filesystem.py 1719-1725). -/
def startsWithRoot (p : Str) : Bool :=
  let p := k.normcase p
  startsWithC k.sep p || (!k.caseSens && (k.lower k.root).isPrefixOf (k.lower p)) ||
    k.startsWithDriveLetter p

/-- `_is_root_path` (fake_filesystem.py 1727-1732). -/
def isRootPath (p : Str) : Bool :=
  p == k.root || (!k.caseSens && k.lower p == k.lower k.root) ||
    (decide (2 ≤ p.length ∧ p.length ≤ 3) && k.startsWithDriveLetter p)

/-- `absnormpath` (fake_filesystem.py 1478-1505). -/
def absnormpath (cwd : Str) (p : Str) : Str :=
  let p := k.normcase p
  let p := if p = [] then [k.sep] else p
  let p := if p = dot then cwd
    else if !k.startsWithRoot p then
      join k.sep [if cwd ≠ k.root then cwd else [], p]
    else p
  let p := if p = dot then cwd else p
  k.normpath p

/-- Drop the empty strings at the end of a list (the loop at fake_filesystem.py 1537-1538). -/
def dropTrailingEmpty (l : List Str) : List Str :=
  (l.reverse.dropWhile (· == [])).reverse

/-- `splitpath` (fake_filesystem.py 1507-1549). -/
def splitpath (p : Str) : Str × Str :=
  let p := k.normcase p
  let comps := split k.sep p
  let startsWithDrive := k.startsWithDriveLetter p
  let basename := comps.getLastD []
  let comps := comps.dropLast
  if comps = [] then
    if startsWithDrive then
      let cs := split ':' basename
      (cs.headD [] ++ [':'], cs.tail.headD [])
    else ([], basename)
  else if comps.any (· ≠ []) then
    let comps := dropTrailingEmpty comps
    if startsWithDrive ∧ comps.length = 1 ∧ endsWithC ':' (comps.headD []) then
      (comps.headD [] ++ [k.sep], basename)
    else (join k.sep comps, basename)
  else ([k.sep], basename)

/-- The loop of `joinpaths` for non-Windows filesystems (fake_filesystem.py 1640-1652).
The list of segments is kept as the joined string; its last segment ends with the separator
iff the joined string does (segments are never empty). -/
def joinLoop : Str → List Str → Str
  | acc, [] => acc
  | acc, seg :: segs =>
    if k.startsWithRoot seg then joinLoop seg segs
    else
      let acc := if acc ≠ [] ∧ ¬ endsWithC k.sep acc then acc ++ [k.sep] else acc
      joinLoop (acc ++ seg) segs

/-- One step of `_join_paths_with_drive_support` (fake_filesystem.py 1596-1616). -/
def joinDriveStep (r : Str × Str) (p : Str) : Str × Str :=
  let isSep (c : Option Char) : Bool := c == some k.sep || (k.altsep.isSome && c == k.altsep)
  let (rd, rp) := r
  let (d, q) := k.splitdrive p
  if isSep q.head? then
    ((if d ≠ [] ∨ rd = [] then d else rd), q)
  else if d ≠ [] ∧ d ≠ rd ∧ (k.caseSens ∨ k.lower d ≠ k.lower rd) then (d, q)
  else
    let rd := if d ≠ [] ∧ d ≠ rd then d else rd
    let rp := if rp ≠ [] ∧ ¬ isSep rp.getLast? then rp ++ [k.sep] else rp
    (rd, rp ++ q)

/-- `_join_paths_with_drive_support` (fake_filesystem.py 1588-1622). -/
def joinDrive (p : Str) (ps : List Str) : Str :=
  let isSep (c : Option Char) : Bool := c == some k.sep || (k.altsep.isSome && c == k.altsep)
  let (rd, rp) := ps.foldl k.joinDriveStep (k.splitdrive p)
  if rp ≠ [] ∧ ¬ isSep rp.head? ∧ rd ≠ [] ∧ rd.getLast? ≠ some ':' then rd ++ k.sep :: rp
  else rd ++ rp

/-- `joinpaths` (fake_filesystem.py 1624-1652). -/
def joinpaths (ps : List Str) : Str :=
  match ps with
  | [p] => p
  | [] => []
  | p :: ps => if k.isWin then k.joinDrive p ps else k.joinLoop [] (p :: ps)

/-- `_path_components` (fake_filesystem.py 1654-1691). -/
def pathComponents (p : Str) : List Str :=
  if p = [] ∨ p = [k.sep] then []
  else
    let (drive, p) := k.splitdrive p
    let comps := split k.sep p
    let comps :=
      match comps with
      | [] :: [] :: _ => []
      | [] :: rest => rest
      | cs => cs
    if drive ≠ [] then drive :: comps else comps

/-- `_components_to_path` (fake_filesystem.py 1862-1868). -/
def componentsToPath (cs : List Str) : Str :=
  let p := join k.sep cs
  if !k.startsWithRoot p then k.sep :: p else p

/-- `ends_with_path_separator` (fake_filesystem.py 1734-1745). -/
def endsWithSep (p : Str) : Bool :=
  decide (p ≠ [] ∧ p ≠ [k.sep] ∧ (∀ a, k.altsep = some a → p ≠ [a])) &&
  (endsWithC k.sep p || (match k.altsep with | none => false | some a => endsWithC a p))

/-- The loop of `_path_without_trailing_separators`; each turn removes one character, so the
length of the path is enough fuel. -/
def stripLoop : Nat → Str → Str
  | 0, p => p
  | n + 1, p => if k.endsWithSep p then stripLoop n p.dropLast else p

/-- `_path_without_trailing_separators` (fake_filesystem.py 2854-2857). -/
def stripTrailing (p : Str) : Str := k.stripLoop p.length p

/-- `make_string_path` method (fake_filesystem.py 2309-2313): replace the host separator `/`. -/
def makeStringPath (p : Str) : Str := replaceC '/' k.sep p

/-- `FakePathModule.isabs` (fake_filesystem.py 3233-3238). -/
def isabs (p : Str) : Bool :=
  let p := if k.isWin then (k.splitdrive p).2 else p
  k.startsWithSep p

end Cfg

/-- The configuration of a Linux-like fake filesystem (`fs.os = OSType.LINUX`,
fake_filesystem.py 925-936) with a given separator. -/
def posixCfg (sep : Char) (lower : Str → Str) (enc : Str → Bytes) (dec : Bytes → Str) : Cfg :=
  { sep := sep, altsep := none, isWin := false, isMac := false, caseSens := true,
    lower := lower, enc := enc, dec := dec, devNull := "/dev/null".toList }

end Verif
