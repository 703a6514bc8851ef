import Verif.Path
/-!
# The pathlib flavour of the fake filesystem

Source: `pyfakefs/fake_pathlib.py`, class `_FakeFlavour` (139-331). `pathlib` itself (parsing the rest of the path, the path
objects) is the standard library and not modelled.
-/

namespace Verif
open Py

/-- `ext_namespace_prefix` (fake_pathlib.py 147): `\\?\`. -/
def extPrefix : Str := ['\\', '\\', '?', '\\']

/-- `drive_letters` (fake_pathlib.py 149-152): the ASCII letters. -/
def isDriveLetter (c : Char) : Bool := ('a'.toNat ≤ c.toNat && c.toNat ≤ 'z'.toNat) || ('A'.toNat ≤ c.toNat && c.toNat ≤ 'Z'.toNat)

/-- `_split_extended_path` (fake_pathlib.py 161-170). -/
def splitExtended (p : Str) : Str × Str :=
  if extPrefix.isPrefixOf p then
    let q := p.drop 4
    if ['U', 'N', 'C', '\\'].isPrefixOf q then (p.take 4 ++ q.take 3, '\\' :: q.drop 3) else (p.take 4, q)
  else ([], p)

/-- The part of `_splitroot_with_drive` after the prefix was split off, for the case that the path is no UNC path
(fake_pathlib.py 200-208). -/
def splitDriveRoot (pre p : Str) (sep : Char) : Str × Str × Str :=
  let first := p.take 1
  let second := (p.drop 1).take 1
  let third := (p.drop 2).take 1
  let drv := if second = [':'] ∧ p.head?.any isDriveLetter then p.take 2 else []
  let path := if second = [':'] ∧ p.head?.any isDriveLetter then p.drop 2 else p
  let first := if second = [':'] ∧ p.head?.any isDriveLetter then third else first
  if first = [sep] then (pre ++ drv, first, lstrip sep path) else (pre ++ drv, [], path)

/-- `_splitroot_with_drive` (fake_pathlib.py 172-208). -/
def splitrootDrive (p : Str) (sep : Char) : Str × Str × Str :=
  let ext := if (p.drop 1).take 1 = [sep] ∧ p.take 1 = [sep] then splitExtended p else ([], p)
  let pre := ext.1
  let p := ext.2
  if (p.drop 1).take 1 = [sep] ∧ p.take 1 = [sep] ∧ (p.drop 2).take 1 ≠ [sep] then
    match find sep p 2 with
    | none => splitDriveRoot pre p sep
    | some i =>
      match find sep p (i + 1) with
      | none => (if pre ≠ [] then pre ++ p.drop 1 else p, [sep], [])
      | some j =>
        if j = i + 1 then splitDriveRoot pre p sep
        else (if pre ≠ [] then pre ++ (p.take j).drop 1 else p.take j, [sep], p.drop (j + 1))
  else splitDriveRoot pre p sep

/-- `_splitroot_posix` (fake_pathlib.py 210-218). -/
def splitrootPosix (p : Str) (sep : Char) : Str × Str × Str :=
  if p.head? = some sep then
    let rest := lstrip sep p
    if p.length - rest.length = 2 then ([], [sep, sep], rest) else ([], [sep], rest)
  else ([], [], p)

/-- `splitroot` (fake_pathlib.py 220-226) with `sep=None`. -/
def Cfg.splitroot (k : Cfg) (p : Str) : Str × Str × Str := if k.isWin then splitrootDrive p k.sep else splitrootPosix p k.sep

end Verif
