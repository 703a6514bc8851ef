import Verif.Py
/-!
# `mox3_stubout.StubOutForTesting` and the patching of `Patcher`

Python objects are numbers; `own o n` is what `o.__dict__[n]` holds.
-/

namespace Verif.Stub

/-- Values: those present before patching and the fake ones (generation of the fake filesystem, which module or
function). -/
inductive Val
  | orig (n : Nat)
  | fake (gen k : Nat)
  deriving DecidableEq, Repr

/-- What a `__dict__` holds: a plain value (functions included), a `staticmethod` or a `classmethod` around something,
or a bound method object. -/
inductive Raw
  | plain (v : Val)
  | static (r : Raw)
  | classm (r : Raw)
  | bound (r : Raw)
  deriving DecidableEq, Repr

/-- Kinds of objects. -/
inductive Kind
  | mod | cls | inst
  deriving DecidableEq

/-- The classes and attributes of the interpreter. `anc o` are the objects searched by `getattr` after `o` itself:
nothing for a module, the other classes of the MRO for a class, the MRO of its class for an instance. -/
structure World where
  kind : Nat → Kind
  anc : Nat → List Nat
  own : Nat → Str → Option Raw

/-- What `getattr` makes of an attribute found in a class: a staticmethod yields what it wraps, a classmethod a bound
method. (Data descriptors and `__getattr__` are not modelled; a plain function of a class got through an instance
becomes a bound method, which makes no difference when it is stored in the instance again.) -/
def Raw.get : Raw → Raw
  | .static r => r
  | .classm r => .bound r
  | r => r

/-- The raw attribute found along a list of classes. -/
def World.find (w : World) (n : Str) : List Nat → Option Raw
  | [] => none
  | o :: os => match w.own o n with | some r => some r | none => w.find n os

/-- `getattr(o, n)`; `none`: AttributeError.  What is found in the `__dict__` of a module or instance is returned as it
is. -/
def World.getattr (w : World) (o : Nat) (n : Str) : Option Raw :=
  match w.own o n with
  | some r => some (if w.kind o = .cls then r.get else r)
  | none => (w.find n (w.anc o)).map Raw.get

/-- `setattr(o, n, v)`. -/
def World.setattr (w : World) (o : Nat) (n : Str) (v : Raw) : World :=
  { w with own := fun o' n' => if o' = o ∧ n' = n then some v else w.own o' n' }

/-- `__func__` of a method object. -/
def Raw.func : Raw → Raw
  | .bound r => r
  | .static r => r
  | .classm r => r
  | r => r

/-- `StubOutForTesting` with the interpreter state (mox3_stubout.py 46-48). Entries: object, name, old value. -/
structure St where
  w : World
  cache : List (Nat × Str × Raw)
  stubs : List (Nat × Str × Raw)

/-- `set` (mox3_stubout.py 121-144); `false`: AttributeError. -/
def St.set (s : St) (parent : Nat) (name : Str) (new : Raw) : St × Bool :=
  match s.w.getattr parent name with
  | none => (s, false)
  | some old =>
    let old := match s.w.own parent name with
      | some (.static _) => .static old
      | some (.classm _) => .classm old.func
      | _ => old
    ({ s with w := s.w.setattr parent name new, cache := s.cache ++ [(parent, name, old)] }, true)

/-- `setattr` of all recorded values in turn. -/
def restore : List (Nat × Str × Raw) → World → World
  | [], w => w
  | (o, n, v) :: l, w => restore l (w.setattr o n v)

/-- `unset_all` (mox3_stubout.py 146-160). -/
def St.unsetAll (s : St) : St := { s with w := restore s.cache.reverse s.w, cache := [] }

/-- the object whose attribute `smart_set` replaces (mox3_stubout.py 73-91): the object itself, for an instance
without such an attribute of its own its class (the last class of the reversed MRO for which `getattr(obj, …)`
works, that is the class itself) -/
def St.target (s : St) (obj : Nat) (name : Str) : Nat :=
  if s.w.kind obj = .inst ∧ s.w.own obj name = none then (s.w.anc obj).headD obj else obj

/-- `smart_set` (mox3_stubout.py 50-106); `false`: AttributeError.  The value `None` is not modelled. -/
def St.smartSet (s : St) (obj : Nat) (name : Str) (new : Raw) : St × Bool :=
  match s.w.getattr obj name with
  | none => (s, false)
  | some old =>
    let old := match s.w.own obj name with
      | some (.static _) => .static old
      | _ => old
    let t := s.target obj name
    ({ s with w := s.w.setattr t name new, stubs := s.stubs ++ [(t, name, old)] }, true)

/-- `smart_unset_all` (mox3_stubout.py 108-119). -/
def St.smartUnsetAll (s : St) : St := { s with w := restore s.stubs.reverse s.w, stubs := [] }

/-! ## Patcher -/

/-- One binding replaced by the patcher: a module attribute (`FS_MODULES`, `FS_FUNCTIONS`, `SKIPPED_FS_MODULES`) and
the index of the replacement in `fake_modules`. -/
structure Bind where
  obj : Nat
  name : Str
  fake : Nat

/-- A default argument found by `_find_def_values`: function, index, original value, replacement. -/
structure DefArg where
  fct : Nat
  idx : Nat
  orig : Val
  fake : Nat

/-- `Patcher` (fake_filesystem_unittest.py 340-860) with the interpreter state. `gen` counts the fake filesystems
made by `_refresh`; a fake value is a pair of its kind and the generation. `defaults` are the `__defaults__` tuples,
`metaPath` is `sys.meta_path`. The lists of bindings are those collected by `_find_modules`. -/
structure Patcher where
  binds : List Bind
  defs : List DefArg
  st : St
  hasStubs : Bool
  gen : Nat
  patching : Bool
  defaults : Nat → Nat → Val
  metaPath : List Nat
  dyn : Nat
  broken : Bool

/-- the replacement value of kind `k` for generation `g` -/
def fakeVal (g k : Nat) : Raw := .plain (.fake g k)

/-- `patch_modules` and `patch_functions` (fake_filesystem_unittest.py 755-773): `smart_set` for every binding. -/
def patchBinds (g : Nat) : List Bind → St → St
  | [], s => s
  | b :: bs, s => patchBinds g bs (s.smartSet b.obj b.name (fakeVal g b.fake)).1

/-- `patch_defaults` (fake_filesystem_unittest.py 775-788). -/
def patchDefs (g : Nat) : List DefArg → (Nat → Nat → Val) → Nat → Nat → Val
  | [], d => d
  | a :: as, d => patchDefs g as fun f i => if f = a.fct ∧ i = a.idx then .fake g a.fake else d f i

/-- `unset_defaults` (fake_filesystem_unittest.py 820-829). -/
def unsetDefs : List DefArg → (Nat → Nat → Val) → Nat → Nat → Val
  | [], d => d
  | a :: as, d => unsetDefs as fun f i => if f = a.fct ∧ i = a.idx then a.orig else d f i

/-- `start_patching` (fake_filesystem_unittest.py 740-753). Without `_stubs` (before the first `setUp`) it raises
AttributeError after setting `_patching`; reloading modules is not modelled. -/
def Patcher.start (p : Patcher) : Patcher :=
  if p.patching then p
  else if !p.hasStubs ∧ p.binds ≠ [] then { p with patching := true, broken := true }
  else { p with
    patching := true
    st := patchBinds p.gen p.binds p.st
    defaults := patchDefs p.gen p.defs p.defaults
    metaPath := p.dyn :: p.metaPath }

/-- `stop_patching` (fake_filesystem_unittest.py 811-818). -/
def Patcher.stop (p : Patcher) : Patcher :=
  if p.patching then { p with
    patching := false
    st := p.st.smartUnsetAll
    defaults := unsetDefs p.defs p.defaults
    metaPath := p.metaPath.tail }
  else p

/-- `_refresh` (fake_filesystem_unittest.py 688-706): the old stubs are undone, a new fake filesystem and new stubs
are made. -/
def Patcher.refresh (p : Patcher) : Patcher :=
  { p with
    st := { w := (if p.hasStubs then p.st.smartUnsetAll else p.st).w, cache := [], stubs := [] }
    hasStubs := true
    gen := p.gen + 1 }

/-- `setUp` (fake_filesystem_unittest.py 708-738) as far as patching goes. -/
def Patcher.setUp (p : Patcher) : Patcher := p.refresh.start

/-- The calls of a history. `tearDown` (803-809), `pause` (832-839) and `resume` (841-847) are these functions. -/
inductive Call
  | setUp | tearDown | pause | resume

def Patcher.call (p : Patcher) : Call → Patcher
  | .setUp => p.setUp
  | .tearDown => p.stop
  | .pause => p.stop
  | .resume => p.start

end Verif.Stub
