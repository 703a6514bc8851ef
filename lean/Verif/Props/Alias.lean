import Verif.Props.RefinePrune
import Verif.Props.Query
/-!
# C77: a path through links to directories means the same as the path without them
-/

namespace Verif
open Py Spec Cfg

namespace Spec
/-- The path of the directory `l` resolves to the path `r` (which has no links in it); `n` is a name in it.  The names are
ordinary ones (no `..`), the null device is not involved, and the longer path does not fail with ELOOP where the
shorter one does not. -/
structure Alias (s : FS) (l r : List Str) (n : Str) : Prop where
  plainL : ∀ w ∈ l ++ [n], Plain s.cfg.sep w
  plainR : ∀ w ∈ r ++ [n], Plain s.cfg.sep w
  same : s.resolvePath (absPath s.cfg.sep l) = .ok (absPath s.cfg.sep r)
  devL : absPath s.cfg.sep l ≠ s.devName
  devR : absPath s.cfg.sep r ≠ s.devName
  devL' : absPath s.cfg.sep (l ++ [n]) ≠ s.devName
  devR' : absPath s.cfg.sep (r ++ [n]) ≠ s.devName
  budget : s.resolvePath (absPath s.cfg.sep (l ++ [n])) = .error (.os .ELOOP) →
    s.resolvePath (absPath s.cfg.sep (r ++ [n])) = .error (.os .ELOOP)
end Spec

/-! ## resolution -/

theorem firstLink_more {hp : Ref → Obj} {cs pre rest b : List Str} {c : Str} {t : Ref} (h : FirstLink hp cs pre c t rest) :
    FirstLink hp (cs ++ b) pre c t (rest ++ b) :=
  ⟨by rw [h.1]; simp, h.2.1, h.2.2.1, h.2.2.2⟩

theorem resolveComps_first {s : FS} (cs : s.cfg.caseSens = true) {l pre rest : List Str} {c : Str} {t : Ref} (n : Nat)
    (h : FirstLink s.heap l pre c t rest) :
    s.resolveComps (n + 1) l = s.resolveComps n (s.cfg.pathComponents (s.followLink (pre ++ [c]) t) ++ rest) := by
  have := scan_link_iff cs l rootRef [] pre rest c t h.1 h.2.1 h.2.2.1 h.2.2.2
  rw [resolveComps_eq, this]
  rfl

/-- Resolving a longer path first resolves its beginning. -/
theorem resolveComps_more {s : FS} (cs : s.cfg.caseSens = true) : ∀ (n : Nat) (l r : List Str), s.resolveComps n l = .ok r →
    ∃ m ≤ n, ∀ b, s.resolveComps n (l ++ b) = s.resolveComps m (r ++ b) := by
  intro n
  induction n with
  | zero =>
    intro l r h
    rw [resolveComps_eq] at h
    rcases scan_cases cs l with ⟨_, hs⟩ | ⟨pre, c, t, rest, _, hs⟩
    · rw [hs] at h; cases h; exact ⟨0, le_refl _, fun _ => rfl⟩
    · rw [hs] at h; cases h
  | succ n ih =>
    intro l r h
    rcases scan_cases cs l with ⟨_, hs⟩ | ⟨pre, c, t, rest, hf, _⟩
    · rw [resolveComps_eq, hs] at h; cases h; exact ⟨n + 1, le_refl _, fun _ => rfl⟩
    · rw [resolveComps_first cs n hf] at h
      obtain ⟨m, hm, hb⟩ := ih _ _ h
      refine ⟨m, by omega, fun b => ?_⟩
      rw [resolveComps_first cs n (firstLink_more hf), ← hb b, List.append_assoc]

theorem resolveComps_mono {s : FS} (cs : s.cfg.caseSens = true) {n m : Nat} (hm : n ≤ m) {l r : List Str}
    (h : s.resolveComps n l = .ok r) : s.resolveComps m l = .ok r := by
  obtain ⟨k, hk, hl⟩ := ((resolveComps_spec cs n l).1 r).mp h
  exact ((resolveComps_spec cs m l).1 r).mpr ⟨k, by omega, hl⟩

/-- `resolve_path` of an absolute path of ordinary names. -/
theorem resolvePath_comps {s : FS} (hi : Inv s) (ht : s.cfg.Tree) (k : FS.Rec) {l : List Str} (hl : ∀ w ∈ l, Plain s.cfg.sep w)
    (hd : absPath s.cfg.sep l ≠ s.devName) :
    s.resolvePathG k (absPath s.cfg.sep l) = (s.resolveComps FS.maxLinks l).map (absPath s.cfg.sep) := by
  have hcan := absCanon_names (plain_proper hl)
  have hprop := plain_proper hl
  by_cases he : l = []
  · subst he
    have h1 : s.resolveComps FS.maxLinks [] = .ok [] := resolveComps_noLink ht.cs (l := []) trivial _
    rw [h1]
    exact resolvePath_plain hi ht k hl trivial
  have hroot : absPath s.cfg.sep l ≠ s.cfg.root := fun h => he ((absPath_eq_root fun w hw => proper_compOk (hprop w hw)).mp h)
  unfold FS.resolvePathG
  rw [if_neg absPath_ne_nil, validRel_plain ht.posix k hl]
  simp only [bind, Except.bind, Bool.not_true, Bool.false_eq_true, if_false, originalPath_tree ht.cs, absnorm_canon hi ht.posix hcan]
  have h2 : s.cfg.isRootPath (absPath s.cfg.sep l) = false := by
    cases h : s.cfg.isRootPath (absPath s.cfg.sep l) with
    | false => rfl
    | true => exact absurd ((isRootPath_tree ht _).mp h) hroot
  rw [h2, if_neg hd, pathComponents_absPath ht.posix hprop]
  simp only [Bool.false_eq_true, if_false]
  cases hr : s.resolveComps FS.maxLinks l with
  | error e => rfl
  | ok r =>
    have := resolveComps_ok ht.cs ht.posix _ _ _ (fun w hw => proper_compOk (hprop w hw)) hr
    simp only [Except.map]
    rw [(pathComponents_toPath ht.posix this.1).2]

section
variable {s : FS} {l r : List Str} {n : Str} (hi : Inv s) (ht : s.cfg.Tree) (h : Alias s l r n)
include hi ht h

theorem Spec.Alias.pl : ∀ w ∈ l, Plain s.cfg.sep w := fun w hw => h.plainL w (List.mem_append_left _ hw)
theorem Spec.Alias.pr : ∀ w ∈ r, Plain s.cfg.sep w := fun w hw => h.plainR w (List.mem_append_left _ hw)
theorem Spec.Alias.pn : Plain s.cfg.sep n := h.plainL n (by simp)

theorem Spec.Alias.comps : s.resolveComps FS.maxLinks l = .ok r ∧ NoLink s.heap rootRef r := by
  have h1 := h.same
  unfold FS.resolvePath at h1
  rw [resolvePath_comps hi ht _ (h.pl hi ht) h.devL] at h1
  cases hr : s.resolveComps FS.maxLinks l with
  | error e => rw [hr] at h1; cases h1
  | ok q =>
    rw [hr] at h1
    simp only [Except.map, Except.ok.injEq] at h1
    have hq := resolveComps_ok ht.cs ht.posix _ _ _ (fun w hw => proper_compOk (plain_proper (h.pl hi ht) w hw)) hr
    have e1 : q = r := by
      have := pathComponents_toPath ht.posix hq.1
      rw [this.2, h1, pathComponents_absPath ht.posix (plain_proper (h.pr hi ht))] at this
      exact this.1.symm
    exact ⟨by rw [e1], e1 ▸ hq.2⟩

theorem Spec.Alias.resolveDir : s.resolvePath (absPath s.cfg.sep r) = .ok (absPath s.cfg.sep r) :=
  resolvePath_plain hi ht _ (h.pr hi ht) (h.comps hi ht).2

/-- Both paths have the same resolved form. -/
theorem Spec.Alias.resolvePath : s.resolvePath (absPath s.cfg.sep (l ++ [n])) = s.resolvePath (absPath s.cfg.sep (r ++ [n])) := by
  have e1 : s.resolvePath (absPath s.cfg.sep (l ++ [n])) = _ := resolvePath_comps hi ht _ h.plainL h.devL'
  have e2 : s.resolvePath (absPath s.cfg.sep (r ++ [n])) = _ := resolvePath_comps hi ht _ h.plainR h.devR'
  obtain ⟨m, hm, hb⟩ := resolveComps_more ht.cs _ _ _ (h.comps hi ht).1
  cases hr : s.resolveComps FS.maxLinks (l ++ [n]) with
  | ok y =>
    have := resolveComps_mono ht.cs hm ((hb [n]) ▸ hr)
    rw [e1, e2, hr, this]
  | error e =>
    have he := (((resolveComps_spec ht.cs _ _).2 e).mp hr).1
    have e3 : s.resolvePath (absPath s.cfg.sep (l ++ [n])) = .error (.os .ELOOP) := by rw [e1, hr, he]; rfl
    rw [e3, h.budget e3]

theorem Spec.Alias.dir (c : Bool) : s.resolve (absPath s.cfg.sep l) true c = s.resolve (absPath s.cfg.sep r) true c := by
  show s.resolveG _ _ _ = s.resolveG _ _ _
  unfold FS.resolveG
  have e1 := h.same
  have e2 := h.resolveDir hi ht
  unfold FS.resolvePath at e1 e2
  rw [e1, e2]

theorem Spec.Alias.resolveT (c : Bool) :
    s.resolve (absPath s.cfg.sep (l ++ [n])) true c = s.resolve (absPath s.cfg.sep (r ++ [n])) true c := by
  show s.resolveG _ _ _ = s.resolveG _ _ _
  unfold FS.resolveG
  have e1 := h.resolvePath hi ht
  unfold FS.resolvePath at e1
  rw [e1]
end

theorem lparent_absPath {s : FS} (ht : s.cfg.Tree) {names : List Str} {w : Str} (hn : ∀ x ∈ names ++ [w], Plain s.cfg.sep x) :
    s.lparent (absPath s.cfg.sep (names ++ [w])) = (absPath s.cfg.sep names, w) := by
  have hp := plain_proper hn
  have hcan : AbsCanon s.cfg.sep (absPath s.cfg.sep (names ++ [w])) := absCanon_names hp
  unfold FS.lparent
  simp only [stripTrailing_canon ht.posix hcan, absPath_ne_dot ht.posix, if_false, originalPath_tree ht.cs,
    splitpath_absPath ht.posix (fun x hx => hp x (List.mem_append_left _ hx)) (hp w (by simp)), absPath_ne_nil]

section
variable {s : FS} {l r : List Str} {n : Str} (hi : Inv s) (ht : s.cfg.Tree) (h : Alias s l r n)
include hi ht h

theorem Spec.Alias.lresolve : s.lresolve (absPath s.cfg.sep (l ++ [n])) = s.lresolve (absPath s.cfg.sep (r ++ [n])) := by
  have hp := plain_proper h.plainL
  have hq := plain_proper h.plainR
  unfold FS.lresolve FS.lresolveG
  rw [if_neg absPath_ne_nil, if_neg absPath_ne_nil,
    if_neg (absPath_snoc_ne_root (fun x hx => hp x (List.mem_append_left _ hx)) (hp n (by simp))),
    if_neg (absPath_snoc_ne_root (fun x hx => hq x (List.mem_append_left _ hx)) (hq n (by simp))),
    lparent_absPath ht h.plainL, lparent_absPath ht h.plainR]
  have := h.dir hi ht true
  change s.resolveG _ _ _ = s.resolveG _ _ _ at this
  rw [this]

theorem Spec.Alias.resolve (f c : Bool) :
    s.resolve (absPath s.cfg.sep (l ++ [n])) f c = s.resolve (absPath s.cfg.sep (r ++ [n])) f c := by
  cases f with
  | true => exact h.resolveT hi ht c
  | false => exact h.lresolve hi ht

theorem Spec.Alias.sepL : s.cfg.endsWithSep (absPath s.cfg.sep (l ++ [n])) = false :=
  absCanon_not_endsWithSep ht.posix (absCanon_names (plain_proper h.plainL))
theorem Spec.Alias.sepR : s.cfg.endsWithSep (absPath s.cfg.sep (r ++ [n])) = false :=
  absCanon_not_endsWithSep ht.posix (absCanon_names (plain_proper h.plainR))

theorem Spec.Alias.raise (x : Ref) (f m : Bool) :
    s.raiseForSep (absPath s.cfg.sep (l ++ [n])) x f m = s.raiseForSep (absPath s.cfg.sep (r ++ [n])) x f m := by
  rw [noSep_raise (h.sepL hi ht), noSep_raise (h.sepR hi ht)]

theorem Spec.Alias.ofType (flag : Nat) (f : Bool) :
    s.isOfTypeG s.rc (absPath s.cfg.sep (l ++ [n])) flag f = s.isOfTypeG s.rc (absPath s.cfg.sep (r ++ [n])) flag f := by
  unfold FS.isOfTypeG
  have e1 := h.resolve hi ht f true
  have e2 := fun x m => h.raise hi ht x true m
  unfold FS.resolve at e1
  unfold FS.raiseForSep at e2
  simp only [e1, e2]

theorem Spec.Alias.exists_ : s.exists_ (absPath s.cfg.sep (l ++ [n])) = s.exists_ (absPath s.cfg.sep (r ++ [n])) := by
  unfold FS.exists_ FS.existsG
  have e1 := h.resolvePath hi ht
  unfold FS.resolvePath at e1
  rw [if_neg absPath_ne_nil, if_neg absPath_ne_nil, if_neg h.devL', if_neg h.devR']
  simp only [FS.isFileSepG, h.sepL hi ht, h.sepR hi ht, e1, Bool.false_eq_true, if_false]

theorem Spec.Alias.existsL : s.existsL (absPath s.cfg.sep (l ++ [n])) = s.existsL (absPath s.cfg.sep (r ++ [n])) := by
  unfold FS.existsL FS.existsLG FS.isLinkG
  have e1 := h.exists_ hi ht
  unfold FS.exists_ at e1
  rw [h.ofType hi ht, e1]

theorem Spec.Alias.existsDir : s.exists_ (absPath s.cfg.sep l) = s.exists_ (absPath s.cfg.sep r) := by
  have s1 := absCanon_not_endsWithSep ht.posix (absCanon_names (plain_proper (h.pl hi ht)))
  have s2 := absCanon_not_endsWithSep ht.posix (absCanon_names (plain_proper (h.pr hi ht)))
  unfold FS.exists_ FS.existsG
  have e1 := h.same
  have e2 := h.resolveDir hi ht
  unfold FS.resolvePath at e1 e2
  rw [if_neg absPath_ne_nil, if_neg absPath_ne_nil, if_neg h.devL, if_neg h.devR]
  simp only [FS.isFileSepG, s1, s2, e1, e2, Bool.false_eq_true, if_false]

theorem Spec.Alias.isLink : s.isLink (absPath s.cfg.sep (l ++ [n])) = s.isLink (absPath s.cfg.sep (r ++ [n])) :=
  h.ofType hi ht _ _
theorem Spec.Alias.isDir (f : Bool) : s.isDir (absPath s.cfg.sep (l ++ [n])) f = s.isDir (absPath s.cfg.sep (r ++ [n])) f :=
  h.ofType hi ht _ _
end

/-- The two paths stay two names of one place as long as lookups do not change. -/
theorem Spec.Alias.agree {s s' : FS} {l r : List Str} {n : Str} (h : Alias s l r n) (a : Agree (fun _ => True) s s') :
    Alias s' l r n := by
  have e := fun p => a.resolvePath (closed_true s) p
  exact ⟨a.cfg ▸ h.plainL, a.cfg ▸ h.plainR, by rw [e, a.cfg]; exact h.same, by rw [a.cfg, a.devName]; exact h.devL,
    by rw [a.cfg, a.devName]; exact h.devR, by rw [a.cfg, a.devName]; exact h.devL', by rw [a.cfg, a.devName]; exact h.devR',
    by rw [e, e, a.cfg]; exact h.budget⟩

end Verif
