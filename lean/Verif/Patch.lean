import Verif.Stub
/-!
# What `Patcher` replaces: `_find_modules`, `patch_modules`, `patch_functions`, and `sys.modules`

Python objects are numbers.
-/

namespace Verif.Patch
open Verif.Stub

/-- What the patcher sees of the interpreter: `inspect.ismodule`, `isclass`, `isfunction or isbuiltin`, the attributes `__name__` and
`__module__` (`none`: missing), the `__dict__` of modules, and `sys.modules`. Simplified: looking at an object has no side effects; every module has a
`__name__`. -/
structure Interp where
  isMod : Nat → Bool
  isCls : Nat → Bool
  isFn : Nat → Bool
  nm : Nat → Option Str
  mdl : Nat → Option Str
  dict : Nat → List (Str × Nat)
  sys : List (Str × Nat)

/-- The settings of a patcher (fake_filesystem_unittest.py 388-489, 499-559): `SKIPMODULES`, `_skip_names`, the names of the fake
modules (`fake_modules`, the keys of `_fake_module_classes` and `PATH_MODULE`), of the unfaked ones, `_class_modules`, for each function name the modules
for which there is a fake (`_fake_module_functions`), `use_cache`. -/
structure Setup where
  skipObjs : List Nat
  skipNames : List Str
  fakes : List Str
  unfaked : List Str
  classMods : Str → Option (List Str)
  fcts : Str → List Str
  useCache : Bool

/-- `_is_fs_module` (fake_filesystem_unittest.py 573-588). -/
def isFsModule (I : Interp) (S : Setup) (n : Str) (v : Nat) : Bool :=
  (match I.nm v with | some a => decide (a ∈ S.fakes) && I.isMod v | none => false) ||
  (match S.classMods n, I.mdl v with | some l, some m => decide (m ∈ l) && I.isCls v | _, _ => false)

/-- `_is_fs_function` (fake_filesystem_unittest.py 590-602). -/
def isFsFunction (I : Interp) (S : Setup) (v : Nat) : Bool :=
  match I.nm v, I.mdl v with
  | some f, some m => decide (m ∈ S.fcts f) && I.isFn v
  | _, _ => false

/-- The tables kept in the class `Patcher` (fake_filesystem_unittest.py 370-374): `CACHED_MODULES`, `FS_MODULES` and `SKIPPED_FS_MODULES` (attribute
name, module, name of the fake), `FS_FUNCTIONS` (attribute name, module, name and module of the function). Sets are lists here. -/
structure Cache where
  seen : List Nat
  mods : List (Str × Nat × Str)
  skipped : List (Str × Nat × Str)
  fcts : List (Str × Nat × Str × Str)

/-- `clear_cache` (fake_filesystem_unittest.py 491-497) -/
def Cache.empty : Cache := ⟨[], [], [], []⟩

/-- is the module skipped by name? (fake_filesystem_unittest.py 659-660): its name is the beginning of a name to be skipped -/
def isSkipped (I : Interp) (S : Setup) (M : Nat) : Bool := S.skipNames.any fun sn => ((I.nm M).getD []).isPrefixOf sn

/-- One round of the loop of `_find_modules` (fake_filesystem_unittest.py 644-687). Default arguments are in `Stub.Patcher`. -/
def findOne (I : Interp) (S : Setup) (c : Cache) (M : Nat) : Cache :=
  if (S.useCache = true ∧ M ∈ c.seen) ∨ M ∈ S.skipObjs ∨ I.isMod M = false then c
  else
    let modules := ((I.dict M).filter fun x => isFsModule I S x.1 x.2).map fun x => (x.1, M, (I.nm x.2).getD [])
    if isSkipped I S M then { c with skipped := c.skipped ++ modules }
    else { seen := if S.useCache then M :: c.seen else c.seen
           mods := c.mods ++ modules
           skipped := c.skipped
           fcts := c.fcts ++ ((I.dict M).filter fun x => isFsFunction I S x.2).map fun x => (x.1, M, (I.nm x.2).getD [], (I.mdl x.2).getD []) }

/-- `_find_modules` (fake_filesystem_unittest.py 638-687). -/
def find (I : Interp) (S : Setup) (c : Cache) : Cache := I.sys.foldl (fun c x => findOne I S c x.2) c

/-- What an attribute is replaced by: a fake module, a function of a fake module, or the wrapper of a real module. -/
inductive Repl
  | mod (a : Str)
  | fn (f m : Str)
  | real (a : Str)
  deriving DecidableEq

/-- The replacements made by `patch_modules` and `patch_functions` (fake_filesystem_unittest.py 755-773); `none`: KeyError, there is no fake of
this name. -/
def replacements (S : Setup) (c : Cache) : Option (List (Nat × Str × Repl)) :=
  if c.mods.all (fun x => decide (x.2.2 ∈ S.fakes)) then
    some (c.mods.map (fun x => (x.2.1, x.1, .mod x.2.2)) ++
      (c.skipped.filter fun x => decide (x.2.2 ∈ S.unfaked)).map (fun x => (x.2.1, x.1, .real x.2.2)) ++
      c.fcts.map (fun x => (x.2.1, x.1, .fn x.2.2.1 x.2.2.2)))
  else none

/-- the namespaces of the interpreter, for `Stub` -/
def worldOf (I : Interp) : World where
  kind o := if I.isMod o then .mod else if I.isCls o then .cls else .inst
  anc _ := []
  own o n := ((I.dict o).lookup n).map fun v => .plain (.orig v)

/-- The patcher of `Stub` with these replacements, before the first `setUp` (`code` numbers the replacements). -/
def patcherOf (I : Interp) (code : Repl → Nat) (l : List (Nat × Str × Repl)) : Patcher where
  binds := l.map fun x => ⟨x.1, x.2.1, code x.2.2⟩
  defs := []
  st := { w := worldOf I, cache := [], stubs := [] }
  hasStubs := false
  gen := 0
  patching := false
  defaults := fun _ _ => .orig 0
  metaPath := []
  dyn := 0
  broken := false

/-! ## `sys.modules` -/

/-- `DynamicPatcher` with `sys.modules` (fake_filesystem_unittest.py 872-927): the fake modules by name, what was replaced, the names of
modules loaded since. -/
structure Dyn where
  fakes : List (Str × Nat)
  sys : Str → Option Nat
  saved : List (Str × Nat)
  loaded : List Str

/-- the entries of `l` put into `sys.modules` one after the other -/
def putAll (l : List (Str × Nat)) (sys : Str → Option Nat) : Str → Option Nat :=
  l.foldl (fun s x n => if n = x.1 then some x.2 else s n) sys

/-- `DynamicPatcher.__init__` (878-892). `needs_patch` of a fake name is true here: line 915 compares a type with a module. -/
def Dyn.init (fakes : List (Str × Nat)) (sys : Str → Option Nat) : Dyn where
  fakes := fakes
  sys := putAll fakes sys
  saved := fakes.filterMap fun x => (sys x.1).map fun m => (x.1, m)
  loaded := []

/-- What a test does with modules: `import n`, where `m` is what the other finders make of a name not loaded yet (`none`: no such module),
`importlib.reload` of `n`, `del sys.modules[n]`. -/
inductive Act
  | imp (n : Str) (m : Option Nat)
  | reload (n : Str)
  | del (n : Str)

/-- `find_spec` and `load_module` (919-927), called for an `import` of a name not in `sys.modules` and for every `reload` -/
def Dyn.act (d : Dyn) : Act → Dyn
  | .imp n m => match d.sys n with
    | some _ => d
    | none => match d.fakes.lookup n with
      | some f => { d with sys := fun k => if k = n then some f else d.sys k }
      | none => { d with loaded := n :: d.loaded, sys := fun k => if k = n then m else d.sys k }
  | .reload n => match d.sys n with
    | none => d
    | some _ => match d.fakes.lookup n with
      | some f => { d with sys := fun k => if k = n then some f else d.sys k }
      | none => { d with loaded := n :: d.loaded }
  | .del n => { d with sys := fun k => if k = n then none else d.sys k }

/-- what `import n` evaluates to: the module in `sys.modules` after it (`none`: ModuleNotFoundError) -/
def Dyn.import (d : Dyn) (n : Str) (m : Option Nat) : Option Nat := (d.act (.imp n m)).sys n

/-- `cleanup` (894-907); `rel` are the names of `modules_to_reload`. -/
def Dyn.cleanup (d : Dyn) (rel : List Str) : Str → Option Nat :=
  let s := putAll d.saved d.sys
  fun n => if n ∈ d.loaded ∧ n ∉ rel then none else s n

end Verif.Patch
