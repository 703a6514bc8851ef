import Verif.Patch
import Verif.Props.Stub
/-!
# C72, C73: what is faked, and what is left behind
-/

namespace Verif.Patch
open Verif.Stub

namespace Spec
/-- `M` is a loaded module that is not excluded -/
structure Loaded (I : Interp) (S : Setup) (M : Nat) : Prop where
  loaded : ∃ k, (k, M) ∈ I.sys
  isMod : I.isMod M = true
  notExcluded : M ∉ S.skipObjs

/-- the name of `M` is the beginning of a name to be skipped -/
def NameSkipped (I : Interp) (S : Setup) (M : Nat) : Prop := ∃ sn ∈ S.skipNames, ∃ rest, sn = (I.nm M).getD [] ++ rest

/-- the object `v`, bound to the name `n`, is a file system module or a class for which there is a fake -/
def FsModule (I : Interp) (S : Setup) (n : Str) (v : Nat) : Prop :=
  (I.isMod v = true ∧ ∃ a ∈ S.fakes, I.nm v = some a) ∨ (I.isCls v = true ∧ ∃ l, S.classMods n = some l ∧ ∃ m ∈ l, I.mdl v = some m)

/-- the object `v` is a file system function: `f` of the module `m` -/
def FsFunction (I : Interp) (S : Setup) (v : Nat) (f m : Str) : Prop :=
  I.isFn v = true ∧ I.nm v = some f ∧ I.mdl v = some m ∧ m ∈ S.fcts f

/-- the attribute `n` of the module `M` is to be replaced by `r` -/
inductive Target (I : Interp) (S : Setup) (M : Nat) (n : Str) : Repl → Prop
  | mod {v a} : Loaded I S M → (n, v) ∈ I.dict M → ¬ NameSkipped I S M → FsModule I S n v → a = (I.nm v).getD [] → Target I S M n (.mod a)
  | fn {v f m} : Loaded I S M → (n, v) ∈ I.dict M → ¬ NameSkipped I S M → FsFunction I S v f m → Target I S M n (.fn f m)
  | real {v a} : Loaded I S M → (n, v) ∈ I.dict M → NameSkipped I S M → FsModule I S n v → a = (I.nm v).getD [] → a ∈ S.unfaked →
      Target I S M n (.real a)

/-- a function is neither a module nor a class, and a name occurs once in a namespace -/
structure Sound (I : Interp) : Prop where
  kinds : ∀ v, I.isFn v = true → I.isMod v = false ∧ I.isCls v = false
  keys : ∀ M n v w, (n, v) ∈ I.dict M → (n, w) ∈ I.dict M → v = w

/-- the two states of the interpreter agree about the modules loaded in the first -/
structure SameOn (J I : Interp) : Prop where
  dict : ∀ k M, (k, M) ∈ J.sys → I.dict M = J.dict M ∧ I.isMod M = J.isMod M
  objs : I.nm = J.nm ∧ I.mdl = J.mdl ∧ I.isCls = J.isCls ∧ I.isFn = J.isFn ∧ I.isMod = J.isMod
end Spec
open Spec

/-! ## the tests -/

theorem isFsModule_iff {I : Interp} {S : Setup} {n : Str} {v : Nat} : isFsModule I S n v = true ↔ FsModule I S n v := by
  unfold isFsModule FsModule
  rw [Bool.or_eq_true]
  constructor
  · rintro (h | h)
    · cases hn : I.nm v with
      | none => rw [hn] at h; cases h
      | some a =>
        rw [hn] at h
        simp only [Bool.and_eq_true, decide_eq_true_eq] at h
        exact Or.inl ⟨h.2, a, h.1, rfl⟩
    · cases hc : S.classMods n with
      | none => rw [hc] at h; cases h
      | some l =>
        cases hm : I.mdl v with
        | none => rw [hc, hm] at h; cases h
        | some m =>
          rw [hc, hm] at h
          simp only [Bool.and_eq_true, decide_eq_true_eq] at h
          exact Or.inr ⟨h.2, l, rfl, m, h.1, rfl⟩
  · rintro (⟨h1, a, h2, h3⟩ | ⟨h1, l, h2, m, h3, h4⟩)
    · left; rw [h3]; simp [h1, h2]
    · right; rw [h2, h4]; simp [h1, h3]

theorem isFsFunction_iff {I : Interp} {S : Setup} {v : Nat} : isFsFunction I S v = true ↔ ∃ f m, FsFunction I S v f m := by
  unfold isFsFunction FsFunction
  cases hn : I.nm v with
  | none => simp
  | some f =>
    cases hm : I.mdl v with
    | none => simp
    | some m =>
      simp only [Bool.and_eq_true, decide_eq_true_eq]
      constructor
      · rintro ⟨h1, h2⟩; exact ⟨f, m, h2, rfl, rfl, h1⟩
      · rintro ⟨f', m', h1, h2, h3, h4⟩
        injection h2 with h2; injection h3 with h3
        subst h2 h3; exact ⟨h4, h1⟩

theorem isSkipped_iff {I : Interp} {S : Setup} {M : Nat} : isSkipped I S M = true ↔ NameSkipped I S M := by
  unfold isSkipped NameSkipped
  rw [List.any_eq_true]
  constructor
  · rintro ⟨sn, h1, h2⟩
    obtain ⟨rest, h3⟩ := List.isPrefixOf_iff_prefix.mp h2
    exact ⟨sn, h1, rest, h3.symm⟩
  · rintro ⟨sn, h1, rest, h2⟩
    exact ⟨sn, h1, List.isPrefixOf_iff_prefix.mpr ⟨rest, h2.symm⟩⟩

/-! ## what `_find_modules` collects -/

/-- the contribution of one module -/
structure Adds (I : Interp) (S : Setup) (M : Nat) (c c' : Cache) : Prop where
  mods : ∀ x, x ∈ c'.mods ↔ x ∈ c.mods ∨ (¬ NameSkipped I S M ∧ x.2.1 = M ∧ ∃ v, (x.1, v) ∈ I.dict M ∧ FsModule I S x.1 v ∧ x.2.2 = (I.nm v).getD [])
  skipped : ∀ x, x ∈ c'.skipped ↔ x ∈ c.skipped ∨ (NameSkipped I S M ∧ x.2.1 = M ∧ ∃ v, (x.1, v) ∈ I.dict M ∧ FsModule I S x.1 v ∧ x.2.2 = (I.nm v).getD [])
  fcts : ∀ x, x ∈ c'.fcts ↔ x ∈ c.fcts ∨ (¬ NameSkipped I S M ∧ x.2.1 = M ∧ ∃ v, (x.1, v) ∈ I.dict M ∧ FsFunction I S v x.2.2.1 x.2.2.2)
  seen : ∀ y, y ∈ c'.seen ↔ y ∈ c.seen ∨ (S.useCache = true ∧ ¬ NameSkipped I S M ∧ y = M)

theorem mem_found {I : Interp} {S : Setup} {M : Nat} (x : Str × Nat × Str) :
    x ∈ ((I.dict M).filter fun y => isFsModule I S y.1 y.2).map (fun y => (y.1, M, (I.nm y.2).getD [])) ↔
      x.2.1 = M ∧ ∃ v, (x.1, v) ∈ I.dict M ∧ FsModule I S x.1 v ∧ x.2.2 = (I.nm v).getD [] := by
  rw [List.mem_map]
  constructor
  · rintro ⟨⟨n, v⟩, h1, rfl⟩
    rw [List.mem_filter] at h1
    exact ⟨rfl, v, h1.1, isFsModule_iff.mp h1.2, rfl⟩
  · obtain ⟨n, M', a⟩ := x
    rintro ⟨h1, v, h2, h3, h4⟩
    dsimp only at h1 h2 h3 h4
    subst h1 h4
    exact ⟨(n, v), List.mem_filter.mpr ⟨h2, isFsModule_iff.mpr h3⟩, rfl⟩

theorem mem_foundF {I : Interp} {S : Setup} {M : Nat} (x : Str × Nat × Str × Str) :
    x ∈ ((I.dict M).filter fun y => isFsFunction I S y.2).map (fun y => (y.1, M, (I.nm y.2).getD [], (I.mdl y.2).getD [])) ↔
      x.2.1 = M ∧ ∃ v, (x.1, v) ∈ I.dict M ∧ FsFunction I S v x.2.2.1 x.2.2.2 := by
  rw [List.mem_map]
  constructor
  · rintro ⟨⟨n, v⟩, h1, rfl⟩
    rw [List.mem_filter] at h1
    obtain ⟨f, m, h2⟩ := isFsFunction_iff.mp h1.2
    refine ⟨rfl, v, h1.1, ?_⟩
    dsimp only
    rw [h2.2.1, h2.2.2.1]; exact h2
  · obtain ⟨n, M', f, m⟩ := x
    rintro ⟨h1, v, h2, h3⟩
    dsimp only at h1 h2 h3
    subst h1
    refine ⟨(n, v), List.mem_filter.mpr ⟨h2, isFsFunction_iff.mpr ⟨f, m, h3⟩⟩, ?_⟩
    dsimp only
    rw [h3.2.1, h3.2.2.1]; rfl

theorem findOne_adds {I : Interp} {S : Setup} {M : Nat} (c : Cache) (hM : I.isMod M = true) (hx : M ∉ S.skipObjs)
    (hs : S.useCache = true → M ∉ c.seen) : Adds I S M c (findOne I S c M) := by
  unfold findOne
  rw [if_neg (by
    rintro (⟨h1, h2⟩ | h1 | h1)
    · exact hs h1 h2
    · exact hx h1
    · rw [hM] at h1; cases h1)]
  dsimp only
  by_cases hk : isSkipped I S M = true
  · rw [if_pos hk]
    have hk' := isSkipped_iff.mp hk
    refine ⟨fun x => ?_, fun x => ?_, fun x => ?_, fun y => ?_⟩
    · simp [hk']
    · dsimp only; rw [List.mem_append, mem_found]; simp [hk']
    · simp [hk']
    · simp [hk']
  · rw [if_neg hk]
    have hk' : ¬ NameSkipped I S M := fun h => hk (isSkipped_iff.mpr h)
    refine ⟨fun x => ?_, fun x => ?_, fun x => ?_, fun y => ?_⟩
    · dsimp only; rw [List.mem_append, mem_found]; simp [hk']
    · simp [hk']
    · dsimp only; rw [List.mem_append, mem_foundF]; simp [hk']
    · dsimp only
      cases hu : S.useCache with
      | false => simp
      | true =>
        simp only [if_true, List.mem_cons, hk', not_false_eq_true, true_and]
        exact Or.comm

/-- a module that has been looked at, in the way `I` shows it -/
def Done (I : Interp) (S : Setup) (M : Nat) : Prop := I.isMod M = true ∧ M ∉ S.skipObjs

/-- The tables hold exactly what the modules of `P` contribute. -/
structure Holds (I : Interp) (S : Setup) (P : Nat → Prop) (c : Cache) : Prop where
  mods : ∀ n M a, (n, M, a) ∈ c.mods ↔ P M ∧ ¬ NameSkipped I S M ∧ ∃ v, (n, v) ∈ I.dict M ∧ FsModule I S n v ∧ a = (I.nm v).getD []
  skipped : ∀ n M a, (n, M, a) ∈ c.skipped ↔ P M ∧ NameSkipped I S M ∧ ∃ v, (n, v) ∈ I.dict M ∧ FsModule I S n v ∧ a = (I.nm v).getD []
  fcts : ∀ n M f m, (n, M, f, m) ∈ c.fcts ↔ P M ∧ ¬ NameSkipped I S M ∧ ∃ v, (n, v) ∈ I.dict M ∧ FsFunction I S v f m
  seen : ∀ M, M ∈ c.seen → P M
  good : ∀ M, P M → Done I S M

theorem Holds.step {I : Interp} {S : Setup} {P : Nat → Prop} {c : Cache} (h : Holds I S P c) (M : Nat) :
    Holds I S (fun y => P y ∨ (y = M ∧ Done I S M)) (findOne I S c M) := by
  rcases Classical.em (¬ Done I S M) with hd | hd
  · have e : findOne I S c M = c := by
      unfold findOne
      rw [if_pos]
      by_cases h1 : M ∈ S.skipObjs
      · exact Or.inr (Or.inl h1)
      · refine Or.inr (Or.inr ?_)
        cases hm : I.isMod M with
        | false => rfl
        | true => exact absurd ⟨hm, h1⟩ hd
    have eP : ∀ y, (P y ∨ (y = M ∧ Done I S M)) ↔ P y := fun y => ⟨fun h => h.elim id fun h => absurd h.2 hd, Or.inl⟩
    rw [e]
    refine ⟨fun n y a => ?_, fun n y a => ?_, fun n y f m => ?_, fun y hy => ?_, fun y hy => ?_⟩
    · rw [eP]; exact h.mods n y a
    · rw [eP]; exact h.skipped n y a
    · rw [eP]; exact h.fcts n y f m
    · rw [eP]; exact h.seen y hy
    · exact h.good y ((eP y).mp hy)
  have hd : Done I S M := Classical.not_not.mp hd
  by_cases hs : S.useCache = true ∧ M ∈ c.seen
  · have e : findOne I S c M = c := by unfold findOne; rw [if_pos (Or.inl hs)]
    have hp := h.seen M hs.2
    have eP : ∀ y, (P y ∨ (y = M ∧ Done I S M)) ↔ P y := fun y => ⟨fun h => h.elim id fun h => h.1 ▸ hp, Or.inl⟩
    rw [e]
    refine ⟨fun n y a => ?_, fun n y a => ?_, fun n y f m => ?_, fun y hy => ?_, fun y hy => ?_⟩
    · rw [eP]; exact h.mods n y a
    · rw [eP]; exact h.skipped n y a
    · rw [eP]; exact h.fcts n y f m
    · rw [eP]; exact h.seen y hy
    · exact h.good y ((eP y).mp hy)
  have ad := findOne_adds c hd.1 hd.2 (fun h1 h2 => hs ⟨h1, h2⟩)
  refine ⟨fun n y a => ?_, fun n y a => ?_, fun n y f m => ?_, fun y hy => ?_, fun y hy => ?_⟩
  · rw [ad.mods, h.mods]
    constructor
    · rintro (⟨h1, h2⟩ | ⟨h1, rfl, h2⟩)
      · exact ⟨Or.inl h1, h2⟩
      · exact ⟨Or.inr ⟨rfl, hd⟩, h1, h2⟩
    · rintro ⟨h1 | ⟨rfl, _⟩, h2, h3⟩
      · exact Or.inl ⟨h1, h2, h3⟩
      · exact Or.inr ⟨h2, rfl, h3⟩
  · rw [ad.skipped, h.skipped]
    constructor
    · rintro (⟨h1, h2⟩ | ⟨h1, rfl, h2⟩)
      · exact ⟨Or.inl h1, h2⟩
      · exact ⟨Or.inr ⟨rfl, hd⟩, h1, h2⟩
    · rintro ⟨h1 | ⟨rfl, _⟩, h2, h3⟩
      · exact Or.inl ⟨h1, h2, h3⟩
      · exact Or.inr ⟨h2, rfl, h3⟩
  · rw [ad.fcts, h.fcts]
    constructor
    · rintro (⟨h1, h2⟩ | ⟨h1, rfl, h2⟩)
      · exact ⟨Or.inl h1, h2⟩
      · exact ⟨Or.inr ⟨rfl, hd⟩, h1, h2⟩
    · rintro ⟨h1 | ⟨rfl, _⟩, h2, h3⟩
      · exact Or.inl ⟨h1, h2, h3⟩
      · exact Or.inr ⟨h2, rfl, h3⟩
  · rcases (ad.seen y).mp hy with h1 | ⟨_, _, rfl⟩
    · exact Or.inl (h.seen y h1)
    · exact Or.inr ⟨rfl, hd⟩
  · rcases hy with h1 | ⟨rfl, h1⟩
    · exact h.good y h1
    · exact h1

theorem Holds.congr {I : Interp} {S : Setup} {P Q : Nat → Prop} {c : Cache} (h : Holds I S P c) (e : ∀ y, P y ↔ Q y) : Holds I S Q c := by
  have : P = Q := funext fun y => propext (e y)
  rw [← this]; exact h

theorem Holds.run {I : Interp} {S : Setup} : ∀ (l : List (Str × Nat)) {P : Nat → Prop} {c : Cache}, Holds I S P c →
    Holds I S (fun y => P y ∨ ((∃ k, (k, y) ∈ l) ∧ Done I S y)) (l.foldl (fun c x => findOne I S c x.2) c)
  | [], P, c, h => h.congr fun y => by simp
  | (k, M) :: l, P, c, h => by
    refine (Holds.run l (h.step M)).congr fun y => ?_
    constructor
    · rintro ((h1 | ⟨rfl, h1⟩) | ⟨⟨k', h1⟩, h2⟩)
      · exact Or.inl h1
      · exact Or.inr ⟨⟨k, by simp⟩, h1⟩
      · exact Or.inr ⟨⟨k', by simp [h1]⟩, h2⟩
    · rintro (h1 | ⟨⟨k', h1⟩, h2⟩)
      · exact Or.inl (Or.inl h1)
      · rcases List.mem_cons.mp h1 with h1 | h1
        · injection h1 with _ h1; subst h1; exact Or.inl (Or.inr ⟨rfl, h2⟩)
        · exact Or.inr ⟨⟨k', h1⟩, h2⟩

theorem holds_empty (I : Interp) (S : Setup) : Holds I S (fun _ => False) Cache.empty := by
  refine ⟨?_, ?_, ?_, ?_, ?_⟩ <;> simp [Cache.empty]

theorem holds_find (I : Interp) (S : Setup) : Holds I S (Loaded I S) (find I S Cache.empty) :=
  ((holds_empty I S).run I.sys).congr fun y => by
    constructor
    · rintro (h | ⟨h1, h2, h3⟩)
      · exact h.elim
      · exact ⟨h1, h2, h3⟩
    · rintro ⟨h1, h2, h3⟩; exact Or.inr ⟨h1, h2, h3⟩

/-- The replacements are exactly the targets. -/
theorem mem_replacements {I : Interp} {S : Setup} {c : Cache} {P : Nat → Prop} (h : Holds I S P c) (hp : ∀ M, P M ↔ Loaded I S M)
    {l : List (Nat × Str × Repl)} (hl : replacements S c = some l) (M : Nat) (n : Str) (r : Repl) : (M, n, r) ∈ l ↔ Target I S M n r := by
  unfold replacements at hl
  rcases Classical.em (¬ (c.mods.all fun x => decide (x.2.2 ∈ S.fakes)) = true) with hall | hall
  · rw [if_neg hall] at hl; cases hl
  replace hall := Classical.not_not.mp hall
  rw [if_pos hall] at hl
  injection hl with hl
  subst hl
  rw [List.mem_append, List.mem_append, List.mem_map, List.mem_map, List.mem_map]
  constructor
  · rintro ((⟨⟨n', M', a⟩, h1, h2⟩ | ⟨⟨n', M', a⟩, h1, h2⟩) | ⟨⟨n', M', f, m⟩, h1, h2⟩)
    · simp only [Prod.mk.injEq] at h2
      obtain ⟨rfl, rfl, rfl⟩ := h2
      obtain ⟨k1, k2, v, k3, k4, k5⟩ := (h.mods _ _ _).mp h1
      exact .mod ((hp _).mp k1) k3 k2 k4 k5
    · simp only [Prod.mk.injEq] at h2
      obtain ⟨rfl, rfl, rfl⟩ := h2
      rw [List.mem_filter] at h1
      obtain ⟨k1, k2, v, k3, k4, k5⟩ := (h.skipped _ _ _).mp h1.1
      exact .real ((hp _).mp k1) k3 k2 k4 k5 (of_decide_eq_true h1.2)
    · simp only [Prod.mk.injEq] at h2
      obtain ⟨rfl, rfl, rfl⟩ := h2
      obtain ⟨k1, k2, v, k3, k4⟩ := (h.fcts _ _ _ _).mp h1
      exact .fn ((hp _).mp k1) k3 k2 k4
  · rintro (⟨k1, k2, k3, k4, k5⟩ | ⟨k1, k2, k3, k4⟩ | ⟨k1, k2, k3, k4, k5, k6⟩)
    · exact Or.inl (Or.inl ⟨(n, M, _), (h.mods _ _ _).mpr ⟨(hp _).mpr k1, k3, _, k2, k4, k5⟩, rfl⟩)
    · exact Or.inr ⟨(n, M, _, _), (h.fcts _ _ _ _).mpr ⟨(hp _).mpr k1, k3, _, k2, k4⟩, rfl⟩
    · exact Or.inl (Or.inr ⟨(n, M, _), List.mem_filter.mpr ⟨(h.skipped _ _ _).mpr ⟨(hp _).mpr k1, k3, _, k2, k4, k5⟩, decide_eq_true k6⟩, rfl⟩)

/-- **C72**: with a fresh cache (`use_cache=False`, or the first test), the attributes replaced are exactly those of the loaded modules that are bound to a
file system module, a `Path` class or a file system function (in skipped modules: to a module with a wrapper of the real one). -/
theorem find_exact {I : Interp} {S : Setup} {l : List (Nat × Str × Repl)} (hl : replacements S (find I S Cache.empty) = some l)
    (M : Nat) (n : Str) (r : Repl) : (M, n, r) ∈ l ↔ Target I S M n r :=
  mem_replacements (holds_find I S) (fun _ => Iff.rfl) hl M n r

/-! ## later tests, with the cache -/

/-- the states of the interpreter at the `setUp` calls so far -/
def findAll (S : Setup) (Is : List Interp) (c : Cache) : Cache := Is.foldl (fun c J => find J S c) c

theorem findOne_same {I J : Interp} {S : Setup} (hs : SameOn J I) {k : Str} {M : Nat} (hM : (k, M) ∈ J.sys) (c : Cache) :
    findOne J S c M = findOne I S c M := by
  obtain ⟨h1, h2⟩ := hs.dict k M hM
  obtain ⟨h3, h4, h5, h6, h7⟩ := hs.objs
  unfold findOne isFsModule isFsFunction isSkipped
  rw [h1, h3, h4, h5, h6, h7]

theorem find_same {I J : Interp} {S : Setup} (hs : SameOn J I) (c : Cache) : find J S c = J.sys.foldl (fun c x => findOne I S c x.2) c := by
  unfold find
  have : ∀ (l : List (Str × Nat)), (∀ x ∈ l, x ∈ J.sys) → ∀ c, l.foldl (fun c x => findOne J S c x.2) c = l.foldl (fun c x => findOne I S c x.2) c := by
    intro l
    induction l with
    | nil => intro _ c; rfl
    | cons x l ih =>
      intro hl c
      rw [List.foldl_cons, List.foldl_cons, findOne_same hs (hl x (by simp)), ih fun y hy => hl y (by simp [hy])]
  exact this _ (fun _ h => h) c

/-- **C72** (with the cache): in a series of tests with the same settings, the attributes replaced are exactly those described above, of all modules
loaded at this or an earlier `setUp`, provided that no module that had been looked at has changed since. -/
theorem find_cached {I : Interp} {S : Setup} {Is : List Interp} (hs : ∀ J ∈ Is, SameOn J I)
    {l : List (Nat × Str × Repl)} (hl : replacements S (findAll S Is Cache.empty) = some l) (M : Nat) (n : Str) (r : Repl) :
    (M, n, r) ∈ l ↔ ∃ J ∈ Is, Target { I with sys := J.sys } S M n r := by
  have key : ∀ (Is : List Interp), (∀ J ∈ Is, SameOn J I) → ∀ (K : List (Str × Nat)) (c : Cache),
      Holds { I with sys := K } S (Loaded { I with sys := K } S) c →
      Holds { I with sys := K ++ Is.flatMap (·.sys) } S (Loaded { I with sys := K ++ Is.flatMap (·.sys) } S) (findAll S Is c) := by
    intro Is
    induction Is with
    | nil => intro _ K c h; simpa [findAll] using h
    | cons J Is ih =>
      intro hs K c h
      have h1 := (Holds.run J.sys h)
      have e : find J S c = J.sys.foldl (fun c x => findOne { I with sys := K } S c x.2) c :=
        find_same (I := { I with sys := K }) ⟨(hs J (by simp)).dict, (hs J (by simp)).objs⟩ c
      rw [← e] at h1
      have h2 : Holds { I with sys := K ++ J.sys } S (Loaded { I with sys := K ++ J.sys } S) (find J S c) := by
        have h3 : Holds { I with sys := K ++ J.sys } S (fun y => Loaded { I with sys := K } S y ∨ ((∃ k, (k, y) ∈ J.sys) ∧ Done { I with sys := K } S y)) (find J S c) :=
          ⟨h1.mods, h1.skipped, h1.fcts, h1.seen, h1.good⟩
        refine h3.congr fun y => ?_
        constructor
        · rintro (⟨⟨k, k1⟩, k2, k3⟩ | ⟨⟨k, k1⟩, k2, k3⟩)
          · exact ⟨⟨k, List.mem_append.mpr (Or.inl k1)⟩, k2, k3⟩
          · exact ⟨⟨k, List.mem_append.mpr (Or.inr k1)⟩, k2, k3⟩
        · rintro ⟨⟨k, k1⟩, k2, k3⟩
          rcases List.mem_append.mp k1 with k1 | k1
          · exact Or.inl ⟨⟨k, k1⟩, k2, k3⟩
          · exact Or.inr ⟨⟨k, k1⟩, k2, k3⟩
      have := ih (fun J' hJ => hs J' (by simp [hJ])) (K ++ J.sys) _ h2
      rw [List.append_assoc] at this
      exact this
  have h0 : Holds { I with sys := [] } S (Loaded { I with sys := [] } S) Cache.empty :=
    (holds_empty _ S).congr fun y => ⟨False.elim, fun ⟨⟨_, h⟩, _, _⟩ => by cases h⟩
  have h1 := key Is hs [] _ h0
  rw [mem_replacements h1 (fun _ => Iff.rfl) hl]
  have split : ∀ J ∈ Is, ∀ M, Loaded { I with sys := J.sys } S M → Loaded { I with sys := [] ++ Is.flatMap (·.sys) } S M := by
    rintro J hJ M ⟨⟨k, k1⟩, k2, k3⟩
    exact ⟨⟨k, List.mem_flatMap.mpr ⟨J, hJ, k1⟩⟩, k2, k3⟩
  have back : ∀ M, Loaded { I with sys := [] ++ Is.flatMap (·.sys) } S M → ∃ J ∈ Is, Loaded { I with sys := J.sys } S M := by
    rintro M ⟨⟨k, k1⟩, k2, k3⟩
    obtain ⟨J, hJ, k1⟩ := List.mem_flatMap.mp k1
    exact ⟨J, hJ, ⟨k, k1⟩, k2, k3⟩
  constructor
  · rintro (⟨k1, k2, k3, k4, k5⟩ | ⟨k1, k2, k3, k4⟩ | ⟨k1, k2, k3, k4, k5, k6⟩)
    · obtain ⟨J, hJ, k1⟩ := back _ k1
      exact ⟨J, hJ, .mod k1 k2 k3 k4 k5⟩
    · obtain ⟨J, hJ, k1⟩ := back _ k1
      exact ⟨J, hJ, .fn k1 k2 k3 k4⟩
    · obtain ⟨J, hJ, k1⟩ := back _ k1
      exact ⟨J, hJ, .real k1 k2 k3 k4 k5 k6⟩
  · rintro ⟨J, hJ, ⟨k1, k2, k3, k4, k5⟩ | ⟨k1, k2, k3, k4⟩ | ⟨k1, k2, k3, k4, k5, k6⟩⟩
    · exact .mod (split J hJ _ k1) k2 k3 k4 k5
    · exact .fn (split J hJ _ k1) k2 k3 k4
    · exact .real (split J hJ _ k1) k2 k3 k4 k5 k6

/-! ## the effect on the namespaces -/

theorem target_unique {I : Interp} (hI : Sound I) {S : Setup} {M : Nat} {n : Str} {r r' : Repl} (h : Target I S M n r) (h' : Target I S M n r') : r = r' := by
  have excl : ∀ {v f m}, FsFunction I S v f m → ¬ FsModule I S n v := by
    rintro v f m hf (⟨h1, _⟩ | ⟨h1, _⟩)
    · rw [(hI.kinds v hf.1).1] at h1; cases h1
    · rw [(hI.kinds v hf.1).2] at h1; cases h1
  rcases h with ⟨_, h2, h3, h4, h5⟩ | ⟨_, h2, h3, h4⟩ | ⟨_, h2, h3, h4, h5, _⟩ <;>
    rcases h' with ⟨_, k2, k3, k4, k5⟩ | ⟨_, k2, k3, k4⟩ | ⟨_, k2, k3, k4, k5, _⟩ <;> have e := hI.keys _ _ _ _ h2 k2 <;> subst e
  · rw [h5, k5]
  · exact absurd h4 (excl k4)
  · exact absurd k3 h3
  · exact absurd k4 (excl h4)
  · have e1 := h4.2.1.symm.trans k4.2.1
    have e2 := h4.2.2.1.symm.trans k4.2.2.1
    injection e1 with e1; injection e2 with e2
    rw [e1, e2]
  · exact absurd k3 h3
  · exact absurd h3 k3
  · exact absurd h3 k3
  · rw [h5, k5]

theorem target_own {I : Interp} {S : Setup} {M : Nat} {n : Str} {r : Repl} (h : Target I S M n r) : Loaded I S M ∧ ∃ v, (n, v) ∈ I.dict M := by
  rcases h with ⟨h1, h2, _⟩ | ⟨h1, h2, _⟩ | ⟨h1, h2, _⟩ <;> exact ⟨h1, _, h2⟩

theorem lookup_mem {l : List (Str × Nat)} {n : Str} {v : Nat} (hu : ∀ v w, (n, v) ∈ l → (n, w) ∈ l → v = w) (h : (n, v) ∈ l) : l.lookup n = some v := by
  induction l with
  | nil => cases h
  | cons x l ih =>
    obtain ⟨k, w⟩ := x
    rw [List.lookup_cons]
    by_cases hk : n = k
    · subst hk
      have e : (n == n) = true := by simp
      rw [e]
      exact congrArg some (hu w v (by simp) h)
    · have e : (n == k) = false := by simpa using hk
      rw [e]
      rcases List.mem_cons.mp h with h | h
      · injection h with h _; exact absurd h hk
      · exact ih (fun v w h1 h2 => hu v w (by simp [h1]) (by simp [h2])) h

theorem fakeOf_none {bs : List Bind} {o : Nat} {n : Str} (h : ∀ b ∈ bs, ¬ (b.obj = o ∧ b.name = n)) : Stub.Spec.fakeOf bs o n = none := by
  induction bs with
  | nil => rfl
  | cons b bs ih =>
    unfold Stub.Spec.fakeOf
    rw [ih fun b' hb => h b' (by simp [hb])]
    exact if_neg (h b (by simp))

theorem fakeOf_some {bs : List Bind} {o : Nat} {n : Str} {k : Nat} (h : ∃ b ∈ bs, b.obj = o ∧ b.name = n)
    (hk : ∀ b ∈ bs, b.obj = o ∧ b.name = n → b.fake = k) : Stub.Spec.fakeOf bs o n = some k := by
  induction bs with
  | nil => obtain ⟨b, hb, _⟩ := h; cases hb
  | cons b bs ih =>
    unfold Stub.Spec.fakeOf
    by_cases h2 : ∃ b ∈ bs, b.obj = o ∧ b.name = n
    · rw [ih h2 fun b' hb => hk b' (by simp [hb])]
    · rw [fakeOf_none fun b' hb hh => h2 ⟨b', hb, hh⟩]
      obtain ⟨b', hb, hh⟩ := h
      rcases List.mem_cons.mp hb with rfl | hb
      · dsimp only
        rw [if_pos hh, hk b' (by simp) hh]
      · exact absurd ⟨b', hb, hh⟩ h2

/-- **C72** (effect): with a fresh cache, any well-formed sequence of `setUp`, `pause`, `resume` and `tearDown` leaves every namespace as follows: while patching
is active, an attribute that is a target holds its replacement, belonging to the current fake filesystem; every other attribute, and every attribute while
patching is not active, holds what it held at the beginning. -/
theorem patched_exactly {I : Interp} (hI : Sound I) {S : Setup} {l : List (Nat × Str × Repl)} (hl : replacements S (find I S Cache.empty) = some l)
    (code : Repl → Nat) (cs : List Call) (hu : Stub.Spec.Use false 0 cs) (M : Nat) (n : Str) :
    let p := cs.foldl Patcher.call (patcherOf I code l)
    ((Stub.Spec.after cs).1 = true → ∀ r, Target I S M n r → p.st.w.own M n = some (.plain (.fake (Stub.Spec.after cs).2 (code r)))) ∧
    ((Stub.Spec.after cs).1 = false ∨ (∀ r, ¬ Target I S M n r) → p.st.w.own M n = (worldOf I).own M n) := by
  intro p
  have hex := find_exact hl
  have hf : Fresh (patcherOf I code l) := by
    refine ⟨⟨rfl, rfl, rfl, rfl, rfl⟩, ?_, fun a ha => by cases ha⟩
    intro b hb
    obtain ⟨⟨M', n', r⟩, h1, rfl⟩ := List.mem_map.mp hb
    obtain ⟨h2, v, h3⟩ := target_own ((hex _ _ _).mp h1)
    refine ⟨?_, .plain (.orig v), ?_, rfl⟩
    · show (if I.isMod M' then Kind.mod else _) = _
      rw [if_pos h2.isMod]
    · show ((I.dict M').lookup n').map _ = _
      rw [lookup_mem (fun v w => hI.keys M' n' v w) h3]; rfl
  obtain ⟨_, lk, _, _⟩ := patch_brackets hf cs hu
  have hown := lk M n
  constructor
  · intro ha r hr
    rw [ha, if_pos rfl] at hown
    show p.st.w.own M n = _
    rw [hown]
    unfold Stub.Spec.ownOf
    have fk : Stub.Spec.fakeOf (patcherOf I code l).binds M n = some (code r) := by
      refine fakeOf_some ⟨⟨M, n, code r⟩, List.mem_map.mpr ⟨(M, n, r), (hex _ _ _).mpr hr, rfl⟩, rfl, rfl⟩ ?_
      rintro b hb ⟨h1, h2⟩
      obtain ⟨⟨M', n', r'⟩, h3, rfl⟩ := List.mem_map.mp hb
      dsimp only at h1 h2 ⊢
      subst h1 h2
      rw [target_unique hI ((hex _ _ _).mp h3) hr]
    rw [fk]
  · intro h
    show p.st.w.own M n = _
    rw [hown]
    cases ha : (Stub.Spec.after cs).1 with
    | false => rw [if_neg (by simp)]; rfl
    | true =>
      rw [if_pos rfl]
      have hn : ∀ r, ¬ Target I S M n r := by
        rcases h with h | h
        · rw [ha] at h; cases h
        · exact h
      unfold Stub.Spec.ownOf
      have fk : Stub.Spec.fakeOf (patcherOf I code l).binds M n = none := by
        refine fakeOf_none ?_
        rintro b hb ⟨h1, h2⟩
        obtain ⟨⟨M', n', r'⟩, h3, rfl⟩ := List.mem_map.mp hb
        dsimp only at h1 h2
        subst h1 h2
        exact hn _ ((hex _ _ _).mp h3)
      rw [fk]; rfl

/-! ## `sys.modules` -/

theorem putAll_other {l : List (Str × Nat)} {n : Str} (h : ∀ x ∈ l, x.1 ≠ n) (sys : Str → Option Nat) : putAll l sys n = sys n := by
  induction l generalizing sys with
  | nil => rfl
  | cons x l ih =>
    show putAll l _ n = _
    rw [ih fun y hy => h y (by simp [hy])]
    exact if_neg fun e => h x (by simp) e.symm

theorem putAll_mem {l : List (Str × Nat)} {n : Str} {v : Nat} (h : (n, v) ∈ l) (hu : ∀ w, (n, w) ∈ l → w = v) (sys : Str → Option Nat) :
    putAll l sys n = some v := by
  induction l generalizing sys with
  | nil => cases h
  | cons x l ih =>
    show putAll l _ n = _
    by_cases hm : (n, v) ∈ l
    · exact ih hm (fun w hw => hu w (by simp [hw])) _
    · have hx : x = (n, v) := by
        rcases List.mem_cons.mp h with h | h
        · exact h.symm
        · exact absurd h hm
      rw [putAll_other]
      · subst hx; exact if_pos rfl
      · rintro ⟨k, w⟩ hy e
        dsimp only at e
        subst e
        rw [hu w (by simp [hy])] at hy
        exact hm hy

namespace Spec
/-- the names of a dictionary are different -/
def Keys (l : List (Str × Nat)) : Prop := ∀ n v w, (n, v) ∈ l → (n, w) ∈ l → v = w

/-- what the test does, from the start of patching on -/
def during (fakes : List (Str × Nat)) (sys : Str → Option Nat) (acts : List Act) : Dyn := acts.foldl Dyn.act (Dyn.init fakes sys)
end Spec

theorem mem_saved {fakes : List (Str × Nat)} {sys : Str → Option Nat} {n : Str} {m : Nat} :
    (n, m) ∈ (Dyn.init fakes sys).saved ↔ (∃ f, (n, f) ∈ fakes) ∧ sys n = some m := by
  show (n, m) ∈ fakes.filterMap _ ↔ _
  rw [List.mem_filterMap]
  constructor
  · rintro ⟨⟨k, f⟩, h1, h2⟩
    dsimp only at h2
    cases hk : sys k with
    | none => rw [hk] at h2; cases h2
    | some m' =>
      rw [hk] at h2
      simp only [Option.map_some, Option.some.injEq, Prod.mk.injEq] at h2
      obtain ⟨rfl, rfl⟩ := h2
      exact ⟨⟨f, h1⟩, hk⟩
  · rintro ⟨⟨f, h1⟩, h2⟩
    exact ⟨(n, f), h1, by dsimp only; rw [h2]; rfl⟩

theorem lookup_none {l : List (Str × Nat)} {n : Str} (h : ∀ v, (n, v) ∉ l) : l.lookup n = none := by
  induction l with
  | nil => rfl
  | cons x l ih =>
    obtain ⟨k, w⟩ := x
    rw [List.lookup_cons]
    have e : (n == k) = false := by
      simp only [beq_eq_false_iff_ne]
      rintro rfl; exact h w (by simp)
    rw [e]
    exact ih fun v hv => h v (by simp [hv])

/-- what holds throughout the test -/
structure DynInv (fakes : List (Str × Nat)) (sys0 : Str → Option Nat) (d : Dyn) : Prop where
  table : d.fakes = fakes
  saved : d.saved = (Dyn.init fakes sys0).saved
  fake : ∀ n f, (n, f) ∈ fakes → d.sys n = some f ∨ d.sys n = none
  loaded : ∀ n, n ∈ d.loaded → ∀ f, (n, f) ∉ fakes
  other : ∀ n, sys0 n = none → (∀ f, (n, f) ∉ fakes) → n ∉ d.loaded → d.sys n = none

theorem DynInv.init {fakes : List (Str × Nat)} (hk : Keys fakes) (sys0 : Str → Option Nat) : DynInv fakes sys0 (Dyn.init fakes sys0) where
  table := rfl
  saved := rfl
  fake n f h := Or.inl (putAll_mem h (fun w hw => hk n w f hw h) _)
  loaded n h := by cases h
  other n h1 h2 _ := (putAll_other (fun x hx e => h2 x.2 (by rw [← e]; exact hx)) _).trans h1

theorem DynInv.act {fakes : List (Str × Nat)} (hk : Keys fakes) {sys0 : Str → Option Nat} {d : Dyn} (h : DynInv fakes sys0 d) (a : Act) :
    DynInv fakes sys0 (d.act a) := by
  have put : ∀ n f, (n, f) ∈ fakes → DynInv fakes sys0 { d with sys := fun k => if k = n then some f else d.sys k } := by
    intro n f hf
    refine ⟨h.table, h.saved, fun n' f' hf' => ?_, h.loaded, fun n' h1 h2 h3 => ?_⟩
    · show (if n' = n then some f else d.sys n') = _ ∨ (if n' = n then some f else d.sys n') = none
      by_cases e : n' = n
      · subst e; rw [if_pos rfl]; exact Or.inl (congrArg some (hk _ _ _ hf hf'))
      · rw [if_neg e]; exact h.fake n' f' hf'
    · show (if n' = n then some f else d.sys n') = none
      rw [if_neg (by rintro rfl; exact h2 f hf)]
      exact h.other n' h1 h2 h3
  have miss : ∀ n, fakes.lookup n = none → ∀ f, (n, f) ∉ fakes := by
    intro n hn f hf
    rw [lookup_mem (fun v w => hk n v w) hf] at hn
    cases hn
  have hit : ∀ n f, fakes.lookup n = some f → (n, f) ∈ fakes := by
    intro n f hn
    rcases Classical.em (∃ f', (n, f') ∈ fakes) with ⟨f', hf⟩ | hf
    · rw [lookup_mem (fun v w => hk n v w) hf] at hn
      injection hn with hn
      rw [← hn]; exact hf
    · rw [lookup_none fun v hv => hf ⟨v, hv⟩] at hn; cases hn
  have load : ∀ n (sys' : Str → Option Nat), (∀ f, (n, f) ∉ fakes) → (∀ k, k ≠ n → sys' k = d.sys k) →
      DynInv fakes sys0 { d with loaded := n :: d.loaded, sys := sys' } := by
    intro n sys' hn hs
    refine ⟨h.table, h.saved, fun n' f' hf' => ?_, fun n' hn' => ?_, fun n' h1 h2 h3 => ?_⟩
    · show sys' n' = _ ∨ sys' n' = none
      rw [hs n' (by rintro rfl; exact hn f' hf')]
      exact h.fake n' f' hf'
    · rcases List.mem_cons.mp hn' with rfl | hn'
      · exact hn
      · exact h.loaded n' hn'
    · show sys' n' = none
      have h3 := fun e => h3 (List.mem_cons.mpr e)
      rw [hs n' fun e => h3 (Or.inl e)]
      exact h.other n' h1 h2 fun e => h3 (Or.inr e)
  cases a with
  | imp n m =>
    show DynInv fakes sys0 (match d.sys n with | some _ => d | none => match d.fakes.lookup n with
      | some f => { d with sys := fun k => if k = n then some f else d.sys k }
      | none => { d with loaded := n :: d.loaded, sys := fun k => if k = n then m else d.sys k })
    cases d.sys n with
    | some _ => exact h
    | none =>
      have hl : d.fakes.lookup n = fakes.lookup n := by rw [h.table]
      revert hl
      cases d.fakes.lookup n with
      | some f => intro hl; exact put n f (hit n f hl.symm)
      | none => intro hl; exact load n _ (miss n hl.symm) fun k hk => if_neg hk
  | reload n =>
    show DynInv fakes sys0 (match d.sys n with | none => d | some _ => match d.fakes.lookup n with
      | some f => { d with sys := fun k => if k = n then some f else d.sys k }
      | none => { d with loaded := n :: d.loaded })
    cases d.sys n with
    | none => exact h
    | some _ =>
      have hl : d.fakes.lookup n = fakes.lookup n := by rw [h.table]
      revert hl
      cases d.fakes.lookup n with
      | some f => intro hl; exact put n f (hit n f hl.symm)
      | none => intro hl; exact load n _ (miss n hl.symm) fun k _ => rfl
  | del n =>
    refine ⟨h.table, h.saved, fun n' f' hf' => ?_, h.loaded, fun n' h1 h2 h3 => ?_⟩
    · show (if n' = n then none else d.sys n') = _ ∨ (if n' = n then none else d.sys n') = none
      by_cases e : n' = n
      · rw [if_pos e]; exact Or.inr rfl
      · rw [if_neg e]; exact h.fake n' f' hf'
    · show (if n' = n then none else d.sys n') = none
      by_cases e : n' = n
      · rw [if_pos e]
      · rw [if_neg e]; exact h.other n' h1 h2 h3

theorem DynInv.run {fakes : List (Str × Nat)} (hk : Keys fakes) {sys0 : Str → Option Nat} (acts : List Act) {d : Dyn} (h : DynInv fakes sys0 d) :
    DynInv fakes sys0 (acts.foldl Dyn.act d) := by
  induction acts generalizing d with
  | nil => exact h
  | cons a acts ih => exact ih (h.act hk a)

theorem dynInv_during {fakes : List (Str × Nat)} (hk : Keys fakes) (sys0 : Str → Option Nat) (acts : List Act) :
    DynInv fakes sys0 (during fakes sys0 acts) := (DynInv.init hk sys0).run hk acts

/-- **C73** (imports get the fakes): whatever has been imported, reloaded or removed from `sys.modules` during a test, `import` of a faked module gives its fake. -/
theorem import_fake {fakes : List (Str × Nat)} (hk : Keys fakes) (sys0 : Str → Option Nat) (acts : List Act) {n : Str} {f : Nat}
    (hf : (n, f) ∈ fakes) (m : Option Nat) : (during fakes sys0 acts).import n m = some f := by
  have h := dynInv_during hk sys0 acts
  show (match (during fakes sys0 acts).sys n with | some _ => during fakes sys0 acts | none => match (during fakes sys0 acts).fakes.lookup n with
      | some f => { during fakes sys0 acts with sys := fun k => if k = n then some f else (during fakes sys0 acts).sys k }
      | none => { during fakes sys0 acts with loaded := n :: (during fakes sys0 acts).loaded, sys := fun k => if k = n then m else (during fakes sys0 acts).sys k }).sys n = _
  rcases h.fake n f hf with e | e
  · rw [e]; exact e
  · rw [e, h.table, lookup_mem (fun v w => hk n v w) hf]
    exact if_pos rfl

theorem cleanup_saved {fakes : List (Str × Nat)} {sys0 : Str → Option Nat} {d : Dyn} (h : DynInv fakes sys0 d) {n : Str} {f : Nat}
    (hf : (n, f) ∈ fakes) (rel : List Str) : d.cleanup rel n = if (sys0 n).isSome then sys0 n else d.sys n := by
  show (if n ∈ d.loaded ∧ n ∉ rel then none else putAll d.saved d.sys n) = _
  rw [if_neg fun e => h.loaded n e.1 f hf, h.saved]
  cases hs : sys0 n with
  | some m =>
    exact putAll_mem (mem_saved.mpr ⟨⟨f, hf⟩, hs⟩) (fun w hw => Option.some.inj ((mem_saved.mp hw).2.symm.trans hs)) _
  | none =>
    rw [if_neg (by simp)]
    refine putAll_other ?_ _
    rintro ⟨k, m⟩ hx e
    dsimp only at e
    subst e
    rw [(mem_saved.mp hx).2] at hs; cases hs

theorem cleanup_other {fakes : List (Str × Nat)} {sys0 : Str → Option Nat} {d : Dyn} (h : DynInv fakes sys0 d) {n : Str}
    (hn : ∀ f, (n, f) ∉ fakes) (rel : List Str) : d.cleanup rel n = if n ∈ d.loaded ∧ n ∉ rel then none else d.sys n := by
  show (if n ∈ d.loaded ∧ n ∉ rel then none else putAll d.saved d.sys n) = _
  rw [h.saved, putAll_other]
  rintro ⟨k, m⟩ hx e
  dsimp only at e
  subst e
  obtain ⟨⟨f, hf⟩, _⟩ := mem_saved.mp hx
  exact hn f hf

/-- **C73** (the real modules are back): after `tearDown`, a faked module that had been loaded before is the real one again, whatever the test did. -/
theorem restored_fake {fakes : List (Str × Nat)} (hk : Keys fakes) {sys0 : Str → Option Nat} (acts : List Act) (rel : List Str) {n : Str} {f m : Nat}
    (hf : (n, f) ∈ fakes) (hm : sys0 n = some m) : (during fakes sys0 acts).cleanup rel n = some m := by
  rw [cleanup_saved (dynInv_during hk sys0 acts) hf, hm]; rfl

/-- **C73** (nothing loaded in the test survives): a module that was not loaded before the test and is neither a faked one nor to be reloaded is not
in `sys.modules` after it, whatever the test did; it is loaded anew, with the real file system, when it is next imported. -/
theorem dropped_new {fakes : List (Str × Nat)} (hk : Keys fakes) {sys0 : Str → Option Nat} (acts : List Act) {rel : List Str} {n : Str}
    (hn : ∀ f, (n, f) ∉ fakes) (hr : n ∉ rel) (h0 : sys0 n = none) : (during fakes sys0 acts).cleanup rel n = none := by
  have h := dynInv_during hk sys0 acts
  rw [cleanup_other h hn]
  by_cases hl : n ∈ (during fakes sys0 acts).loaded
  · exact if_pos ⟨hl, hr⟩
  · rw [if_neg fun e => hl e.1]
    exact h.other n h0 hn hl

/-- a module loaded before stays where it is -/
theorem keeps_loaded {fakes : List (Str × Nat)} {sys0 : Str → Option Nat} {n : Str} {m : Nat} (hk : Keys fakes) (hn : ∀ f, (n, f) ∉ fakes) (h0 : sys0 n = some m) :
    ∀ (acts : List Act), (∀ a ∈ acts, a ≠ .reload n ∧ a ≠ .del n) → (during fakes sys0 acts).sys n = some m ∧ n ∉ (during fakes sys0 acts).loaded := by
  have key : ∀ (acts : List Act), (∀ a ∈ acts, a ≠ .reload n ∧ a ≠ .del n) → ∀ d : Dyn, d.sys n = some m → n ∉ d.loaded → d.fakes = fakes →
      (acts.foldl Dyn.act d).sys n = some m ∧ n ∉ (acts.foldl Dyn.act d).loaded := by
    intro acts
    induction acts with
    | nil => intro _ d h1 h2 _; exact ⟨h1, h2⟩
    | cons a acts ih =>
      intro ha d h1 h2 h3
      have ha' := ha a (by simp)
      refine ih (fun b hb => ha b (by simp [hb])) (d.act a) ?_ ?_ ?_
      · cases a with
        | imp k v =>
          simp only [Dyn.act]
          by_cases e : k = n
          · subst e; rw [h1]; exact h1
          · cases d.sys k with
            | some _ => exact h1
            | none =>
              cases d.fakes.lookup k with
              | some f => exact (if_neg fun e' => e e'.symm).trans h1
              | none => exact (if_neg fun e' => e e'.symm).trans h1
        | reload k =>
          simp only [Dyn.act]
          have e : k ≠ n := fun e => ha'.1 (by rw [e])
          cases d.sys k with
          | none => exact h1
          | some _ =>
            cases d.fakes.lookup k with
            | some f => exact (if_neg fun e' => e e'.symm).trans h1
            | none => exact h1
        | del k =>
          have e : k ≠ n := fun e => ha'.2 (by rw [e])
          exact (if_neg fun e' => e e'.symm).trans h1
      · cases a with
        | imp k v =>
          simp only [Dyn.act]
          by_cases e : k = n
          · subst e; rw [h1]; exact h2
          · cases d.sys k with
            | some _ => exact h2
            | none =>
              cases d.fakes.lookup k with
              | some f => exact h2
              | none => exact fun e' => (List.mem_cons.mp e').elim (fun e' => e e'.symm) h2
        | reload k =>
          simp only [Dyn.act]
          have e : k ≠ n := fun e => ha'.1 (by rw [e])
          cases d.sys k with
          | none => exact h2
          | some _ =>
            cases d.fakes.lookup k with
            | some f => exact h2
            | none => exact fun e' => (List.mem_cons.mp e').elim (fun e' => e e'.symm) h2
        | del k => exact h2
      · cases a with
        | imp k v =>
          simp only [Dyn.act]
          cases d.sys k with
          | some _ => exact h3
          | none => cases d.fakes.lookup k <;> exact h3
        | reload k =>
          simp only [Dyn.act]
          cases d.sys k with
          | none => exact h3
          | some _ => cases d.fakes.lookup k <;> exact h3
        | del k => exact h3
  intro acts ha
  refine key acts ha _ ?_ (fun h => by cases h) rfl
  exact (putAll_other (fun x hx e => hn x.2 (by rw [← e]; exact hx)) _).trans h0

/-- **C73** (the rest is as before): a module loaded before the test that the test neither reloads nor removes from `sys.modules` is there, the same object, after it. -/
theorem kept_loaded {fakes : List (Str × Nat)} (hk : Keys fakes) {sys0 : Str → Option Nat} {acts : List Act} (rel : List Str) {n : Str} {m : Nat}
    (hn : ∀ f, (n, f) ∉ fakes) (h0 : sys0 n = some m) (ha : ∀ a ∈ acts, a ≠ .reload n ∧ a ≠ .del n) :
    (during fakes sys0 acts).cleanup rel n = some m := by
  obtain ⟨h1, h2⟩ := keeps_loaded hk hn h0 acts ha
  rw [cleanup_other (dynInv_during hk sys0 acts) hn, if_neg fun e => h2 e.1]
  exact h1

/-- **C73** (fakes left behind): a fake whose name was not in `sys.modules` before the test (in practice `Path`) is still there afterwards, unless the test removed it. -/
theorem leaked_fake {fakes : List (Str × Nat)} (hk : Keys fakes) {sys0 : Str → Option Nat} (acts : List Act) (rel : List Str) {n : Str} {f : Nat}
    (hf : (n, f) ∈ fakes) (h0 : sys0 n = none) : (during fakes sys0 acts).cleanup rel n = some f ∨ (during fakes sys0 acts).cleanup rel n = none := by
  have h := dynInv_during hk sys0 acts
  rw [cleanup_saved h hf, h0, if_neg (by simp)]
  exact h.fake n f hf

/-! ## examples -/

def nOs : Str := "os".toList
def nPath : Str := "Path".toList
def nPathlib : Str := "pathlib".toList
def nExists : Str := "exists".toList
def nGenericpath : Str := "genericpath".toList
def nApp : Str := "app".toList

/-- The objects: 0 = `os`, 1 = `pathlib`, 2 = `pathlib.Path`, 3 = `genericpath.exists`, 4 = `genericpath`, 10 = the module `app` with
`import os as system; from pathlib import Path; from os.path import exists as there; import json`, 11 = a module named `g`, the beginning of `genericpath`,
with `import os`, 5 = `json`, 6 = `pathlib.PurePath`. -/
def demoI : Interp where
  isMod v := decide (v ∈ [0, 1, 4, 5, 10, 11])
  isCls v := decide (v ∈ [2, 6])
  isFn v := decide (v = 3)
  nm v := match v with
    | 0 => some nOs | 1 => some nPathlib | 2 => some nPath | 3 => some nExists | 4 => some nGenericpath | 5 => some "json".toList
    | 6 => some "PurePath".toList | 10 => some nApp | 11 => some ['g'] | _ => none
  mdl v := match v with
    | 2 => some nPathlib | 6 => some nPathlib | 3 => some nGenericpath | _ => none
  dict v := match v with
    | 10 => [("system".toList, 0), (nPath, 2), ("there".toList, 3), ("json".toList, 5), ("P".toList, 2)]
    | 11 => [(nOs, 0)]
    | 4 => [(nOs, 0)]
    | _ => []
  sys := [(nOs, 0), (nPathlib, 1), (nGenericpath, 4), ("json".toList, 5), (nApp, 10), (['g'], 11)]

def demoS : Setup where
  skipObjs := [0, 1]
  skipNames := [nOs, nPathlib, nGenericpath]
  fakes := [nOs, nPathlib, nPath]
  unfaked := [nPathlib]
  classMods n := if n = nPath then some [nPathlib] else none
  fcts f := if f = nExists then [nGenericpath] else []
  useCache := true

/-- what is replaced: `app.system`, `app.Path`, `app.there`; not `app.P`, nor anything in the module `g` -/
example : (replacements demoS (find demoI demoS Cache.empty)) =
    some [(10, "system".toList, .mod nOs), (10, nPath, .mod nPath), (10, "there".toList, .fn nExists nGenericpath)] := by decide +kernel

/-- **finding**: `from pathlib import PurePath as Path` makes `setUp` fail with KeyError -/
example : replacements demoS (find { demoI with dict := fun v => if v = 10 then [(nPath, 6)] else [] } demoS Cache.empty) = none := by decide +kernel

/-- **finding**: an attribute added to a module that is in the cache is not found -/
example : (find { demoI with dict := fun v => if v = 5 then [(nOs, 0)] else demoI.dict v } demoS (find demoI demoS Cache.empty)).mods =
    (find demoI demoS Cache.empty).mods := by decide +kernel

theorem demo_sound : Sound demoI where
  kinds v h := by
    have : v = 3 := of_decide_eq_true h
    subst this; exact ⟨by decide, by decide⟩
  keys M n v w h1 h2 := by
    have hM : M = 10 ∨ M = 11 ∨ M = 4 := by
      have : (n, v) ∈ (match M with
        | 10 => [("system".toList, 0), (nPath, 2), ("there".toList, 3), ("json".toList, 5), ("P".toList, 2)]
        | 11 => [(nOs, 0)]
        | 4 => [(nOs, 0)]
        | _ => []) := h1
      split at this
      · exact Or.inl rfl
      · exact Or.inr (Or.inl rfl)
      · exact Or.inr (Or.inr rfl)
      · cases this
    rcases hM with rfl | rfl | rfl
    · have key : ∀ x ∈ demoI.dict 10, ∀ y ∈ demoI.dict 10, x.1 = y.1 → x.2 = y.2 := by decide +kernel
      exact key _ h1 _ h2 rfl
    · have key : ∀ x ∈ demoI.dict 11, ∀ y ∈ demoI.dict 11, x.1 = y.1 → x.2 = y.2 := by decide +kernel
      exact key _ h1 _ h2 rfl
    · have key : ∀ x ∈ demoI.dict 4, ∀ y ∈ demoI.dict 4, x.1 = y.1 → x.2 = y.2 := by decide +kernel
      exact key _ h1 _ h2 rfl

/-- during the test, after a pause and a resume, `app.system` is the fake `os`, and `app.P` the real class -/
example : ∃ l, replacements demoS (find demoI demoS Cache.empty) = some l ∧ Stub.Spec.Use false 0 [.setUp, .pause, .resume] ∧
    (Stub.Spec.after [.setUp, .pause, .resume]).1 = true ∧ Target demoI demoS 10 "system".toList (.mod nOs) ∧ ∀ r, ¬ Target demoI demoS 10 "P".toList r := by
  refine ⟨[(10, "system".toList, .mod nOs), (10, nPath, .mod nPath), (10, "there".toList, .fn nExists nGenericpath)], by decide +kernel, ?_, by decide +kernel, ?_, ?_⟩
  · simp [Stub.Spec.Use]
  · exact (find_exact (l := [(10, "system".toList, .mod nOs), (10, nPath, .mod nPath), (10, "there".toList, .fn nExists nGenericpath)]) (by decide +kernel) _ _ _).mp (by decide +kernel)
  · intro r h
    have := (find_exact (l := [(10, "system".toList, .mod nOs), (10, nPath, .mod nPath), (10, "there".toList, .fn nExists nGenericpath)]) (by decide +kernel) _ _ _).mpr h
    revert this
    simp [nPath]

/-- `sys.modules` of the example -/
def demoSys : Str → Option Nat := fun n => demoI.sys.lookup n

def demoFakes : List (Str × Nat) := [(nOs, 20), (nPathlib, 21), (nPath, 22)]

theorem demo_keys : Keys demoFakes := by
  have key : ∀ x ∈ demoFakes, ∀ y ∈ demoFakes, x.1 = y.1 → x.2 = y.2 := by decide +kernel
  exact fun n v w h1 h2 => key _ h1 _ h2 rfl

theorem demo_miss {n : Str} (h : n ∉ demoFakes.map (·.1)) (f : Nat) : (n, f) ∉ demoFakes := fun hf => h (List.mem_map.mpr ⟨(n, f), hf, rfl⟩)

/-- a test that imports `new` and removes `os` -/
def demoActs : List Act := [.imp "new".toList (some 30), .del nOs, .imp nApp none, .reload "json".toList]

example : (during demoFakes demoSys demoActs).import nOs (some 0) = some 20 := import_fake demo_keys _ _ (by decide +kernel) _
example : (during demoFakes demoSys demoActs).sys "new".toList = some 30 := by decide +kernel
example : (during demoFakes demoSys demoActs).cleanup [] "new".toList = none := dropped_new demo_keys _ (demo_miss (by decide +kernel)) (by decide +kernel) (by decide +kernel)
example : (during demoFakes demoSys demoActs).cleanup [] nOs = some 0 := restored_fake (f := 20) demo_keys _ _ (by decide +kernel) (by decide +kernel)
example : (during demoFakes demoSys demoActs).cleanup [] nApp = some 10 := kept_loaded demo_keys _ (demo_miss (by decide +kernel)) (by decide +kernel) (by simp [demoActs, nApp, nOs])

/-- **finding**: `sys.modules['Path']` stays the fake -/
example : demoSys nPath = none ∧ (during demoFakes demoSys demoActs).cleanup [] nPath = some 22 := by decide +kernel

/-- **finding**: a module reloaded in the test is missing from `sys.modules` afterwards -/
example : demoSys "json".toList = some 5 ∧ (during demoFakes demoSys demoActs).cleanup [] "json".toList = none := by decide +kernel

end Verif.Patch
