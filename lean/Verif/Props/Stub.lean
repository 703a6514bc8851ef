import Verif.Stub
/-!
# Stubbing is undone exactly (C36); pause and resume bracket patching (C37)
-/

namespace Verif.Stub

/-! ## C36 -/

def Raw.isStatic : Raw → Bool
  | .static _ => true
  | _ => false
def Raw.isClassm : Raw → Bool
  | .classm _ => true
  | _ => false

/-- Values that may live in the namespace of `o`: staticmethod objects only in classes (in a module or an instance they
would be wrapped once more). -/
def Fits (w : World) (o : Nat) (r : Raw) : Prop := w.kind o = .cls ∨ r.isStatic = false

/-- `smart_set` does not know classmethods. -/
def FitsSmart (w : World) (o : Nat) (r : Raw) : Prop := Fits w o r ∧ (w.kind o = .cls → r.isClassm = false)

theorem setattr_back (w : World) (o : Nat) (n : Str) (v raw : Raw) (h : w.own o n = some raw) :
    (w.setattr o n v).setattr o n raw = w := by
  unfold World.setattr
  cases w with
  | mk kind anc own =>
    congr 1
    funext o' n'
    by_cases hc : o' = o ∧ n' = n
    · obtain ⟨rfl, rfl⟩ := hc; simp only [and_self, if_true]; exact h.symm
    · simp [hc]

/-- Invariant of a sequence of calls: undoing what is recorded gives the world at the beginning. -/
structure Undo (w0 : World) (good : Nat → Raw → Prop) (l : List (Nat × Str × Raw)) (w : World) : Prop where
  back : restore l.reverse w = w0
  kind : w.kind = w0.kind
  anc : w.anc = w0.anc
  has : ∀ o n, w.own o n = none ↔ w0.own o n = none
  fits : ∀ o n raw, w.own o n = some raw → w0.own o n = some raw ∨ good o raw

theorem find_none {w w0 : World} (h : ∀ o n, w.own o n = none ↔ w0.own o n = none) (n : Str) :
    ∀ l, w.find n l = none ↔ w0.find n l = none := by
  intro l
  induction l with
  | nil => simp [World.find]
  | cons o l ih =>
    simp only [World.find]
    have := h o n
    cases h1 : w.own o n <;> cases h2 : w0.own o n <;> simp [h1, h2] at this ⊢
    exact ih

theorem getattr_none {w w0 : World} (ha : w.anc = w0.anc) (h : ∀ o n, w.own o n = none ↔ w0.own o n = none)
    (o : Nat) (n : Str) : w.getattr o n = none ↔ w0.getattr o n = none := by
  unfold World.getattr
  have := h o n
  cases h1 : w.own o n <;> cases h2 : w0.own o n <;> simp [h1, h2] at this ⊢
  rw [ha]; exact find_none h n _

theorem Undo.step {w0 w : World} {good : Nat → Raw → Prop} {l : List (Nat × Str × Raw)} (u : Undo w0 good l w) {o : Nat} {n : Str}
    {raw new : Raw} (h : w.own o n = some raw) (hn : good o new) : Undo w0 good (l ++ [(o, n, raw)]) (w.setattr o n new) := by
  refine ⟨?_, u.kind, u.anc, ?_, ?_⟩
  · rw [List.reverse_append]
    show restore l.reverse ((w.setattr o n new).setattr o n raw) = w0
    rw [setattr_back _ _ _ _ _ h]; exact u.back
  · intro o' n'
    show (if o' = o ∧ n' = n then some new else w.own o' n') = none ↔ _
    by_cases hc : o' = o ∧ n' = n
    · obtain ⟨rfl, rfl⟩ := hc
      rw [← u.has, h]; simp
    · rw [if_neg hc]; exact u.has o' n'
  · intro o' n' raw' h'
    change (if o' = o ∧ n' = n then some new else w.own o' n') = some raw' at h'
    by_cases hc : o' = o ∧ n' = n
    · obtain ⟨rfl, rfl⟩ := hc
      simp only [and_self, if_true, Option.some.injEq] at h'
      exact Or.inr (h' ▸ hn)
    · rw [if_neg hc] at h'; exact u.fits o' n' raw' h'

theorem set_own {s : St} {o : Nat} {n : Str} {raw new : Raw} (h : s.w.own o n = some raw) (hf : Fits s.w o raw) :
    s.set o n new = ({ s with w := s.w.setattr o n new, cache := s.cache ++ [(o, n, raw)] }, true) := by
  unfold St.set World.getattr
  simp only [h]
  unfold Fits at hf
  by_cases hk : s.w.kind o = .cls
  · simp only [hk, if_true]
    cases raw <;> rfl
  · simp only [hk, if_false]
    cases raw with
    | static r => simp [hk, Raw.isStatic] at hf
    | classm r => rfl
    | plain v => rfl
    | bound r => rfl

theorem smartSet_own {s : St} {o : Nat} {n : Str} {raw new : Raw} (h : s.w.own o n = some raw) (hf : FitsSmart s.w o raw) :
    s.smartSet o n new = ({ s with w := s.w.setattr o n new, stubs := s.stubs ++ [(o, n, raw)] }, true) := by
  unfold St.smartSet World.getattr
  have ht : s.target o n = o := by unfold St.target; rw [if_neg (by rw [h]; simp)]
  simp only [h, ht]
  obtain ⟨hf, hf2⟩ := hf
  unfold Fits at hf
  by_cases hk : s.w.kind o = .cls
  · simp only [hk, if_true]
    cases raw with
    | classm r => simp [Raw.isClassm] at hf2; exact absurd hk hf2
    | static r => rfl
    | plain v => rfl
    | bound r => rfl
  · simp only [hk, if_false]
    cases raw with
    | static r => simp [hk, Raw.isStatic] at hf
    | classm r => rfl
    | plain v => rfl
    | bound r => rfl

/-- A call of `set` or `smart_set`. -/
structure SetCall where
  obj : Nat
  name : Str
  new : Raw

/-- The condition on a call, for `set`: the attribute is in the namespace of the object itself or does not exist. -/
def SetCall.Own (w : World) (good : Nat → Raw → Prop) (c : SetCall) : Prop :=
  good c.obj c.new ∧ ((∃ raw, w.own c.obj c.name = some raw ∧ good c.obj raw) ∨ w.getattr c.obj c.name = none)

theorem sets_undo {w0 : World} (calls : List SetCall) : ∀ (s : St), Undo w0 (Fits w0) s.cache s.w →
    (∀ c ∈ calls, c.Own w0 (Fits w0)) →
    Undo w0 (Fits w0) (calls.foldl (fun s c => (s.set c.obj c.name c.new).1) s).cache
      (calls.foldl (fun s c => (s.set c.obj c.name c.new).1) s).w := by
  induction calls with
  | nil => intro s u _; exact u
  | cons c calls ih =>
    intro s u hc
    rw [List.foldl_cons]
    apply ih _ _ (fun c' h' => hc c' (List.mem_cons_of_mem _ h'))
    obtain ⟨h1, h2⟩ := hc c List.mem_cons_self
    cases hraw : s.w.own c.obj c.name with
    | none =>
      have h0 := (u.has _ _).mp hraw
      rcases h2 with ⟨raw, h3, _⟩ | h2
      · rw [h0] at h3; simp at h3
      · have := (getattr_none u.anc u.has c.obj c.name).mpr h2
        have e : s.set c.obj c.name c.new = (s, false) := by unfold St.set; rw [this]
        rw [e]; exact u
    | some raw =>
      have hk : Fits s.w c.obj raw := by
        unfold Fits at *
        rw [u.kind]
        rcases u.fits _ _ _ hraw with h0 | h0
        · rcases h2 with ⟨raw', h3, h4⟩ | h2
          · rw [h0] at h3; injection h3 with h3; exact h3 ▸ h4
          · unfold World.getattr at h2; rw [h0] at h2; simp at h2
        · exact h0
      rw [set_own hraw hk]
      exact u.step hraw h1

/-- C36: after any sequence of `set` calls — repeated, overlapping, failing — on attributes living in the namespace of
the given objects, `unset_all` restores the namespaces of all objects exactly; a second `unset_all` does nothing. -/
theorem set_unset_all (w0 : World) (st : List (Nat × Str × Raw)) (calls : List SetCall) (h : ∀ c ∈ calls, c.Own w0 (Fits w0)) :
    let s := calls.foldl (fun (s : St) c => (s.set c.obj c.name c.new).1) ({ w := w0, cache := [], stubs := st } : St)
    s.unsetAll.w = w0 ∧ s.unsetAll.unsetAll = s.unsetAll := by
  intro s
  have u := sets_undo (w0 := w0) calls { w := w0, cache := [], stubs := st }
    ⟨rfl, rfl, rfl, fun _ _ => Iff.rfl, fun _ _ _ h => Or.inl h⟩ h
  exact ⟨u.back, rfl⟩

theorem smartSets_undo {w0 : World} (calls : List SetCall) : ∀ (s : St), Undo w0 (FitsSmart w0) s.stubs s.w →
    (∀ c ∈ calls, c.Own w0 (FitsSmart w0)) →
    Undo w0 (FitsSmart w0) (calls.foldl (fun s c => (s.smartSet c.obj c.name c.new).1) s).stubs
      (calls.foldl (fun s c => (s.smartSet c.obj c.name c.new).1) s).w := by
  induction calls with
  | nil => intro s u _; exact u
  | cons c calls ih =>
    intro s u hc
    rw [List.foldl_cons]
    apply ih _ _ (fun c' h' => hc c' (List.mem_cons_of_mem _ h'))
    obtain ⟨h1, h2⟩ := hc c List.mem_cons_self
    cases hraw : s.w.own c.obj c.name with
    | none =>
      have h0 := (u.has _ _).mp hraw
      rcases h2 with ⟨raw, h3, _⟩ | h2
      · rw [h0] at h3; simp at h3
      · have := (getattr_none u.anc u.has c.obj c.name).mpr h2
        have e : s.smartSet c.obj c.name c.new = (s, false) := by unfold St.smartSet; rw [this]
        rw [e]; exact u
    | some raw =>
      have hk : FitsSmart s.w c.obj raw := by
        have : FitsSmart w0 c.obj raw := by
          rcases u.fits _ _ _ hraw with h0 | h0
          · rcases h2 with ⟨raw', h3, h4⟩ | h2
            · rw [h0] at h3; injection h3 with h3; exact h3 ▸ h4
            · unfold World.getattr at h2; rw [h0] at h2; simp at h2
          · exact h0
        unfold FitsSmart Fits at *
        rw [u.kind]; exact this
      rw [smartSet_own hraw hk]
      exact u.step hraw h1

/-- C36 for `smart_set` and `smart_unset_all`. -/
theorem smart_set_unset_all (w0 : World) (ca : List (Nat × Str × Raw)) (calls : List SetCall)
    (h : ∀ c ∈ calls, c.Own w0 (FitsSmart w0)) :
    let s := calls.foldl (fun (s : St) c => (s.smartSet c.obj c.name c.new).1) ({ w := w0, cache := ca, stubs := [] } : St)
    s.smartUnsetAll.w = w0 ∧ s.smartUnsetAll.smartUnsetAll = s.smartUnsetAll := by
  intro s
  have u := smartSets_undo (w0 := w0) calls { w := w0, cache := ca, stubs := [] }
    ⟨rfl, rfl, rfl, fun _ _ => Iff.rfl, fun _ _ _ h => Or.inl h⟩ h
  exact ⟨u.back, rfl⟩

/-- A module (0), a class (1) with a subclass (2) and an instance of the class (3). The class has a plain method `f`, a
staticmethod `s` and a classmethod `c`; the module has an attribute `a`. -/
def demoWorld : World where
  kind := fun o => if o = 0 then .mod else if o = 3 then .inst else .cls
  anc := fun o => if o = 2 ∨ o = 3 then [1] else []
  own := fun o n =>
    if o = 0 ∧ n = ['a'] then some (.plain (.orig 0))
    else if o = 1 ∧ n = ['f'] then some (.plain (.orig 1))
    else if o = 1 ∧ n = ['s'] then some (.static (.plain (.orig 2)))
    else if o = 1 ∧ n = ['c'] then some (.classm (.plain (.orig 3)))
    else none

/-- The hypotheses are met by overlapping calls on a module attribute, a method, a staticmethod and a classmethod, and
by a call for a missing attribute. -/
def demoCalls : List SetCall :=
  [⟨0, ['a'], .plain (.orig 7)⟩, ⟨1, ['s'], .plain (.orig 8)⟩, ⟨0, ['a'], .plain (.orig 9)⟩, ⟨1, ['c'], .static (.plain (.orig 8))⟩,
    ⟨0, ['z'], .plain (.orig 9)⟩]
example : ∀ c ∈ demoCalls, c.Own demoWorld (Fits demoWorld) := by
  intro c hc
  simp only [demoCalls, List.mem_cons, List.not_mem_nil, or_false] at hc
  unfold SetCall.Own Fits
  rcases hc with rfl | rfl | rfl | rfl | rfl
  · exact ⟨Or.inr rfl, Or.inl ⟨_, rfl, Or.inr rfl⟩⟩
  · exact ⟨Or.inl rfl, Or.inl ⟨_, rfl, Or.inl rfl⟩⟩
  · exact ⟨Or.inr rfl, Or.inl ⟨_, rfl, Or.inr rfl⟩⟩
  · exact ⟨Or.inl rfl, Or.inl ⟨_, rfl, Or.inl rfl⟩⟩
  · exact ⟨Or.inr rfl, Or.inr rfl⟩

/-- C36 fails for inherited attributes: stubbing a base class and then the inherited attribute of a subclass leaves the
stub in the subclass (mox3_stubout.py 133, 142). -/
theorem set_inherited_counterexample :
    let s0 : St := { w := demoWorld, cache := [], stubs := [] }
    let s := ((s0.set 1 ['f'] (.plain (.orig 8))).1.set 2 ['f'] (.plain (.orig 9))).1.unsetAll
    s0.w.getattr 2 ['f'] = some (.plain (.orig 1)) ∧ s.w.getattr 2 ['f'] = some (.plain (.orig 8)) := by decide

/-- C36 fails when `set` and `smart_set` are mixed: after `smart_set` and then `set` of the same attribute, undoing the
smart stubs first (the order of `__del__`, mox3_stubout.py 46-48) leaves a stub. -/
theorem set_mixed_counterexample :
    let s0 : St := { w := demoWorld, cache := [], stubs := [] }
    let s := ((s0.smartSet 0 ['a'] (.plain (.orig 8))).1.set 0 ['a'] (.plain (.orig 9))).1.smartUnsetAll.unsetAll
    s0.w.getattr 0 ['a'] = some (.plain (.orig 0)) ∧ s.w.getattr 0 ['a'] = some (.plain (.orig 8)) := by decide

/-- C36 fails for `smart_set` on a classmethod (it comes back as a method bound to the class) and on a staticmethod
given through an instance (it comes back as a plain method) (mox3_stubout.py 98-102). -/
theorem smart_set_method_counterexample :
    let s0 : St := { w := demoWorld, cache := [], stubs := [] }
    (s0.smartSet 1 ['c'] (.plain (.orig 8))).1.smartUnsetAll.w.own 1 ['c'] = some (.bound (.plain (.orig 3))) ∧
    (s0.smartSet 3 ['s'] (.plain (.orig 8))).1.smartUnsetAll.w.own 1 ['s'] = some (.plain (.orig 2)) := by decide

/-! ## C37 -/

namespace Spec
/-- the replacement of an attribute: that of the last binding for it, if any -/
def fakeOf : List Bind → Nat → Str → Option Nat
  | [], _, _ => none
  | b :: bs, o, n => match fakeOf bs o n with
    | some k => some k
    | none => if b.obj = o ∧ b.name = n then some b.fake else none

/-- the replacement of a default argument -/
def fakeDef : List DefArg → Nat → Nat → Option Nat
  | [], _, _ => none
  | a :: as, f, i => match fakeDef as f i with
    | some k => some k
    | none => if a.fct = f ∧ a.idx = i then some a.fake else none

/-- the attribute `n` of `o` under patching by the filesystem `g` (`none`: not patched) -/
def ownOf (p0 : Patcher) (g : Option Nat) (o : Nat) (n : Str) : Option Raw := match g, fakeOf p0.binds o n with
  | some g, some k => some (.plain (.fake g k))
  | _, _ => p0.st.w.own o n

/-- the default argument `i` of the function `f` -/
def defOf (p0 : Patcher) (g : Option Nat) (f i : Nat) : Val := match g, fakeDef p0.defs f i with
  | some g, some k => .fake g k
  | _, _ => p0.defaults f i

/-- `sys.meta_path` -/
def findersOf (p0 : Patcher) (g : Option Nat) : List Nat := match g with
  | some _ => p0.dyn :: p0.metaPath
  | none => p0.metaPath

/-- What the interpreter looks like: `g = none`: as at the beginning; `g = some n`: exactly the bindings of the patcher
are those of the fake filesystem number `n`, and its finder is in front of `sys.meta_path`. -/
structure Looks (p0 p : Patcher) (g : Option Nat) : Prop where
  own : ∀ o n, p.st.w.own o n = ownOf p0 g o n
  defaults : ∀ f i, p.defaults f i = defOf p0 g f i
  finders : p.metaPath = findersOf p0 g

/-- Whether patching is active after some calls, and which fake filesystem is the current one: `setUp` makes a new one
and activates patching, `resume` activates, `pause` and `tearDown` deactivate. -/
def after : List Call → Bool × Nat
  | [] => (false, 0)
  | cs => cs.foldl (fun (a, g) c => match c with
      | .setUp => (true, g + 1)
      | .resume => (true, g)
      | .pause | .tearDown => (false, g)) (false, 0)

/-- A well-formed use: the first call is not `resume`, and `setUp` is not called while patching is active. -/
def Use : Bool → Nat → List Call → Prop
  | _, _, [] => True
  | a, g, c :: cs => match c with
    | .setUp => a = false ∧ Use true (g + 1) cs
    | .resume => g ≠ 0 ∧ Use true g cs
    | .pause | .tearDown => Use false g cs
end Spec

/-- The patcher before the first call: every binding is an attribute of a module which is not a staticmethod object,
and the recorded default arguments are the ones in use. -/
structure Fresh (p : Patcher) : Prop where
  stubs : p.hasStubs = false ∧ p.st.stubs = [] ∧ p.gen = 0 ∧ p.patching = false ∧ p.broken = false
  binds : ∀ b ∈ p.binds, p.st.w.kind b.obj = .mod ∧ ∃ raw, p.st.w.own b.obj b.name = some raw ∧ raw.isStatic = false
  defs : ∀ a ∈ p.defs, p.defaults a.fct a.idx = a.orig

theorem patchBinds_spec (g : Nat) : ∀ (bs : List Bind) (s : St) (w0 : World), Undo w0 (FitsSmart w0) s.stubs s.w →
    (∀ b ∈ bs, w0.kind b.obj = .mod ∧ ∃ raw, w0.own b.obj b.name = some raw ∧ raw.isStatic = false) →
    Undo w0 (FitsSmart w0) (patchBinds g bs s).stubs (patchBinds g bs s).w ∧
    (∀ o n, (patchBinds g bs s).w.own o n = match Spec.fakeOf bs o n with
      | some k => some (.plain (.fake g k))
      | none => s.w.own o n) := by
  intro bs
  induction bs with
  | nil => intro s w0 u _; exact ⟨u, fun _ _ => rfl⟩
  | cons b bs ih =>
    intro s w0 u hb
    obtain ⟨hk, raw0, hraw0, hst0⟩ := hb b List.mem_cons_self
    have hmod : ∀ r : Raw, r.isStatic = false → FitsSmart w0 b.obj r := fun r hr =>
      ⟨Or.inr hr, fun h => by rw [hk] at h; cases h⟩
    obtain ⟨raw, hraw⟩ : ∃ raw, s.w.own b.obj b.name = some raw := by
      cases h : s.w.own b.obj b.name with
      | none => rw [(u.has _ _).mp h] at hraw0; simp at hraw0
      | some r => exact ⟨r, rfl⟩
    have hfit : FitsSmart s.w b.obj raw := by
      have : FitsSmart w0 b.obj raw := by
        rcases u.fits _ _ _ hraw with h0 | h0
        · rw [hraw0] at h0; injection h0 with h0; exact h0 ▸ hmod _ hst0
        · exact h0
      unfold FitsSmart Fits at *
      rw [u.kind]; exact this
    have e := smartSet_own (new := fakeVal g b.fake) hraw hfit
    obtain ⟨i1, i2⟩ := ih (s.smartSet b.obj b.name (fakeVal g b.fake)).1 w0
      (by rw [e]; exact u.step hraw (hmod _ rfl)) (fun b' h' => hb b' (List.mem_cons_of_mem _ h'))
    refine ⟨i1, fun o n => ?_⟩
    show (patchBinds g bs _).w.own o n = _
    rw [i2 o n, e]
    simp only [Spec.fakeOf]
    cases hf : Spec.fakeOf bs o n with
    | some k => rfl
    | none =>
      simp only
      show (if o = b.obj ∧ n = b.name then some (fakeVal g b.fake) else s.w.own o n) = _
      by_cases hc : b.obj = o ∧ b.name = n
      · obtain ⟨rfl, rfl⟩ := hc; simp [fakeVal]
      · rw [if_neg hc, if_neg (fun h => hc ⟨h.1.symm, h.2.symm⟩)]

theorem patchDefs_spec (g : Nat) : ∀ (as : List DefArg) (d : Nat → Nat → Val) (f i : Nat),
    patchDefs g as d f i = match Spec.fakeDef as f i with | some k => .fake g k | none => d f i := by
  intro as
  induction as with
  | nil => intro d f i; rfl
  | cons a as ih =>
    intro d f i
    simp only [patchDefs, ih, Spec.fakeDef]
    cases hf : Spec.fakeDef as f i with
    | some k => rfl
    | none =>
      simp only
      by_cases hc : a.fct = f ∧ a.idx = i
      · obtain ⟨rfl, rfl⟩ := hc; simp
      · rw [if_neg hc, if_neg (fun h => hc ⟨h.1.symm, h.2.symm⟩)]

theorem unsetDefs_spec {d0 : Nat → Nat → Val} : ∀ (as : List DefArg) (d : Nat → Nat → Val) (f i : Nat),
    (∀ a ∈ as, d0 a.fct a.idx = a.orig) →
    unsetDefs as d f i = match Spec.fakeDef as f i with | some _ => d0 f i | none => d f i := by
  intro as
  induction as with
  | nil => intro d f i _; rfl
  | cons a as ih =>
    intro d f i ha
    simp only [unsetDefs, ih _ _ _ (fun x hx => ha x (List.mem_cons_of_mem _ hx)), Spec.fakeDef]
    cases hf : Spec.fakeDef as f i with
    | some k => rfl
    | none =>
      simp only
      by_cases hc : a.fct = f ∧ a.idx = i
      · obtain ⟨rfl, rfl⟩ := hc; simp [ha a List.mem_cons_self]
      · rw [if_neg hc, if_neg (fun h => hc ⟨h.1.symm, h.2.symm⟩)]

/-- Invariant of the patcher. -/
structure PInv (p0 p : Patcher) (a : Bool) (g : Nat) : Prop where
  same : p.binds = p0.binds ∧ p.defs = p0.defs ∧ p.dyn = p0.dyn
  flag : p.patching = a
  gen : p.gen = g
  ok : p.broken = false
  stubs : p.hasStubs = decide (g ≠ 0)
  undo : Undo p0.st.w (FitsSmart p0.st.w) p.st.stubs p.st.w
  empty : a = false → p.st.stubs = []
  looks : Spec.Looks p0 p (if a then some g else none)

theorem Undo.nil {w0 w : World} {good : Nat → Raw → Prop} (u : Undo w0 good [] w) : w = w0 := u.back

theorem PInv.start {p0 p : Patcher} (hf : Fresh p0) {g : Nat} (h : PInv p0 p false g) (hg : g ≠ 0) : PInv p0 p.start true g := by
  have hw : p.st.w = p0.st.w := by have := h.undo; rw [h.empty rfl] at this; exact this.nil
  have hs : p.hasStubs = true := by rw [h.stubs]; simpa using hg
  have e : p.start = { p with
      patching := true, st := patchBinds p.gen p.binds p.st, defaults := patchDefs p.gen p.defs p.defaults,
      metaPath := p.dyn :: p.metaPath } := by
    unfold Patcher.start
    rw [h.flag, hs]; simp
  have hb := patchBinds_spec p.gen p.binds p.st p0.st.w h.undo (by rw [h.same.1]; exact hf.binds)
  rw [e]
  refine ⟨h.same, rfl, h.gen, h.ok, h.stubs, hb.1, by simp, ?_⟩
  obtain ⟨l1, l2, l3⟩ := h.looks
  refine ⟨?_, ?_, ?_⟩
  · intro o n
    show (patchBinds p.gen p.binds p.st).w.own o n = _
    rw [hb.2, h.same.1, h.gen, hw]
    simp only [if_true, Spec.ownOf]
    cases Spec.fakeOf p0.binds o n <;> rfl
  · intro f i
    show patchDefs p.gen p.defs p.defaults f i = _
    rw [patchDefs_spec, h.same.2.1, h.gen, l2 f i]
    simp only [if_true, Spec.defOf]
    cases Spec.fakeDef p0.defs f i <;> rfl
  · show p.dyn :: p.metaPath = p0.dyn :: p0.metaPath
    rw [l3, h.same.2.2]; rfl

theorem PInv.stop {p0 p : Patcher} (hf : Fresh p0) {g : Nat} {a : Bool} (h : PInv p0 p a g) : PInv p0 p.stop false g := by
  cases a with
  | false =>
    have e : p.stop = p := by unfold Patcher.stop; rw [h.flag]; rfl
    rw [e]; exact h
  | true =>
    have e : p.stop = { p with
        patching := false, st := p.st.smartUnsetAll, defaults := unsetDefs p.defs p.defaults,
        metaPath := p.metaPath.tail } := by
      unfold Patcher.stop; rw [h.flag]; rfl
    have hw : p.st.smartUnsetAll.w = p0.st.w := h.undo.back
    obtain ⟨l1, l2, l3⟩ := h.looks
    rw [e]
    refine ⟨h.same, rfl, h.gen, h.ok, h.stubs, ?_, fun _ => rfl, ?_, ?_, ?_⟩
    · show Undo _ _ [] p.st.smartUnsetAll.w
      rw [hw]; exact ⟨rfl, rfl, rfl, fun _ _ => Iff.rfl, fun _ _ _ h => Or.inl h⟩
    · intro o n
      show p.st.smartUnsetAll.w.own o n = _
      rw [hw]; rfl
    · intro f i
      show unsetDefs p.defs p.defaults f i = p0.defaults f i
      rw [h.same.2.1, unsetDefs_spec p0.defs p.defaults f i hf.defs, l2 f i]
      simp only [if_true, Spec.defOf]
      cases Spec.fakeDef p0.defs f i <;> rfl
    · show p.metaPath.tail = p0.metaPath
      rw [l3]; rfl

theorem PInv.refresh {p0 p : Patcher} {g : Nat} (h : PInv p0 p false g) : PInv p0 p.refresh false (g + 1) := by
  have hw : p.st.w = p0.st.w := by have := h.undo; rw [h.empty rfl] at this; exact this.nil
  have hw2 : (if p.hasStubs then p.st.smartUnsetAll else p.st).w = p0.st.w := by
    split
    · exact h.undo.back
    · exact hw
  obtain ⟨l1, l2, l3⟩ := h.looks
  refine ⟨h.same, h.flag, by show p.gen + 1 = _; rw [h.gen], h.ok, ?_, ?_, fun _ => rfl, ?_, l2, l3⟩
  · show true = _; simp
  · show Undo _ _ [] (if p.hasStubs then p.st.smartUnsetAll else p.st).w
    rw [hw2]; exact ⟨rfl, rfl, rfl, fun _ _ => Iff.rfl, fun _ _ _ h => Or.inl h⟩
  · intro o n
    show (if p.hasStubs then p.st.smartUnsetAll else p.st).w.own o n = _
    rw [hw2]; rfl

theorem start_active {p : Patcher} (h : p.patching = true) : p.start = p := by unfold Patcher.start; simp [h]

theorem calls_pinv {p0 : Patcher} (hf : Fresh p0) : ∀ (cs : List Call) (p : Patcher) (a : Bool) (g : Nat), PInv p0 p a g →
    Spec.Use a g cs →
    PInv p0 (cs.foldl Patcher.call p)
      (cs.foldl (fun (x : Bool × Nat) c => match c with
        | .setUp => (true, x.2 + 1) | .resume => (true, x.2) | .pause | .tearDown => (false, x.2)) (a, g)).1
      (cs.foldl (fun (x : Bool × Nat) c => match c with
        | .setUp => (true, x.2 + 1) | .resume => (true, x.2) | .pause | .tearDown => (false, x.2)) (a, g)).2 := by
  intro cs
  induction cs with
  | nil => intro p a g h _; exact h
  | cons c cs ih =>
    intro p a g h hu
    rw [List.foldl_cons, List.foldl_cons]
    cases c with
    | setUp =>
      obtain ⟨rfl, hu⟩ := hu
      exact ih _ _ _ ((h.refresh).start hf (by omega)) hu
    | resume =>
      obtain ⟨hg, hu⟩ := hu
      refine ih _ _ _ ?_ hu
      show PInv p0 p.start true g
      cases a with
      | true => rw [start_active h.flag]; exact h
      | false => exact h.start hf hg
    | pause => exact ih _ _ _ (h.stop hf) hu
    | tearDown => exact ih _ _ _ (h.stop hf) hu

/-- C37: after any well-formed sequence of `setUp`, `pause`, `resume` and `tearDown` the interpreter has exactly the
fake bindings of the current fake filesystem if patching is active, and exactly the original ones otherwise. -/
theorem patch_brackets {p0 : Patcher} (hf : Fresh p0) (cs : List Call) (hu : Spec.Use false 0 cs) :
    (cs.foldl Patcher.call p0).patching = (Spec.after cs).1 ∧
    Spec.Looks p0 (cs.foldl Patcher.call p0) (if (Spec.after cs).1 then some (Spec.after cs).2 else none) := by
  obtain ⟨h1, h2, h3, h4, h5⟩ := hf.stubs
  have h0 : PInv p0 p0 false 0 := by
    refine ⟨⟨rfl, rfl, rfl⟩, h4, h3, h5, by rw [h1]; rfl, ?_, fun _ => h2, fun _ _ => rfl, fun _ _ => rfl, rfl⟩
    rw [h2]; exact ⟨rfl, rfl, rfl, fun _ _ => Iff.rfl, fun _ _ _ h => Or.inl h⟩
  have := calls_pinv hf cs p0 false 0 h0 hu
  have e : Spec.after cs = cs.foldl (fun (x : Bool × Nat) c => match c with
        | .setUp => (true, x.2 + 1) | .resume => (true, x.2) | .pause | .tearDown => (false, x.2)) (false, 0) := by
    cases cs with
    | nil => rfl
    | cons c cs =>
      unfold Spec.after
      congr 1
  rw [e]
  exact ⟨this.flag, this.looks⟩

/-- C37: `pause` and `resume` are idempotent, in every state. -/
theorem pause_resume_idem (p : Patcher) : (p.call .pause).call .pause = p.call .pause ∧
    (p.call .resume).call .resume = p.call .resume := by
  constructor
  · show p.stop.stop = p.stop
    have : p.stop.patching = false := by
      unfold Patcher.stop
      split
      · rfl
      · rename_i h; simpa using h
    generalize p.stop = q at *
    unfold Patcher.stop
    rw [this]; rfl
  · show p.start.start = p.start
    apply start_active
    unfold Patcher.start
    split
    · assumption
    · split <;> rfl

/-- A patcher for the module attribute `a` of the demo world and one default argument. -/
def demoPatcher : Patcher where
  binds := [⟨0, ['a'], 5⟩]
  defs := [⟨1, 0, .orig 4, 6⟩]
  st := { w := demoWorld, cache := [], stubs := [] }
  hasStubs := false
  gen := 0
  patching := false
  defaults := fun _ _ => .orig 4
  metaPath := [1, 2]
  dyn := 3
  broken := false

theorem demoPatcher_fresh : Fresh demoPatcher :=
  ⟨⟨rfl, rfl, rfl, rfl, rfl⟩, fun b hb => by
    simp only [demoPatcher, List.mem_singleton] at hb; subst hb; exact ⟨rfl, _, rfl, rfl⟩, fun a ha => by
    simp only [demoPatcher, List.mem_singleton] at ha; subst ha; rfl⟩

example : Spec.Use false 0 [.setUp, .pause, .resume, .resume, .tearDown, .setUp] := by
  simp [Spec.Use]

/-- C37 fails when `setUp` is called twice without `tearDown`: patching counts as active but the bindings are the
original ones, because `_refresh` undoes the stubs and `start_patching` sees the flag still set
(fake_filesystem_unittest.py 690-691, 727, 732, 741). -/
theorem setUp_twice_counterexample :
    let p := [Call.setUp, .setUp].foldl Patcher.call demoPatcher
    p.patching = true ∧ p.st.w.own 0 ['a'] = some (.plain (.orig 0)) := by decide +kernel

end Verif.Stub
