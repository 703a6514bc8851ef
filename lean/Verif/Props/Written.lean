import Verif.Props.AliasOpen
import Verif.Joined
/-!
# C85: how a path is written does not matter

A path can be written relative to the current directory, with `.` components and with repeated separators. Every call does with such a
path what it does with the absolute path of the place it means.
-/

namespace Verif
open Py Spec Cfg

namespace Spec
/-- Where the path goes up, there is something to go up from: the text before a separator and two dots, read component by component from
the current directory, leads to a place whose names do not start with two dots and which exists at the time of the call (and at least one
nested call is left to see that). -/
def Passable (s : FS) (p : Str) : Prop := ∀ q r, p = q ++ s.cfg.sep :: '.' :: '.' :: r → s.limit ≠ 0 ∧ (q ≠ [] →
  ∃ names, (∀ w ∈ names, Plain s.cfg.sep w) ∧ loc s.cfg.sep (loc s.cfg.sep [] s.cwd) q = names.reverse ∧
    s.exists_ (absPath s.cfg.sep names) = .ok true)

/-- `p` is a way to write the place `n` in the directory with the names `l`: read component by component from the current directory it
leads there, its last component is the name, and where it goes up there is something to go up from. The current directory has a canonical
path; the null device, its name and its parent, are not meant. -/
structure Written (s : FS) (p : Str) (l : List Str) (n : Str) : Prop where
  plain : ∀ w ∈ l ++ [n], Plain s.cfg.sep w
  means : loc s.cfg.sep (loc s.cfg.sep [] s.cwd) p = (l ++ [n]).reverse
  last : (split s.cfg.sep p).getLast? = some n
  up : Passable s p
  cwd : AbsCanon s.cfg.sep s.cwd
  null : AbsCanon s.cfg.sep s.devName
  dev : absPath s.cfg.sep l ≠ s.devName
  dev' : absPath s.cfg.sep (l ++ [n]) ≠ s.devName
end Spec

theorem cut_of_dots {k : Cfg} (hp : k.Posix) {p : Str} (h : dots k.sep p = 0) : cutAtLast (k.sep :: dotdot) p = none := by
  cases hc : cutAtLast (k.sep :: dotdot) p with
  | none => rfl
  | some q => have := dots_cut hp.sepDot hc; omega

theorem validRel_dots {s : FS} (hp : s.cfg.Posix) (k : FS.Rec) {p : Str} (h : dots s.cfg.sep p = 0) : s.validRelG k p = .ok true := by
  unfold FS.validRelG
  rw [if_neg (by simp [hp.win])]
  cases p.length with
  | zero => rfl
  | succ n => simp [FS.validLoop, cut_of_dots hp h]

/-- whether an absolute path exists does not depend on the depth of nesting -/
theorem exists_abs {s : FS} (hi : Inv s) (ht : s.cfg.Tree) (k : FS.Rec) {l : List Str} (hl : ∀ w ∈ l, Plain s.cfg.sep w) :
    s.existsG k (absPath s.cfg.sep l) = .ok true ↔ (absPath s.cfg.sep l = s.devName ∨ absPath s.cfg.sep l = s.cfg.root ∨
      ∃ cs, s.resolveComps FS.maxLinks l = .ok cs ∧ (walk s.heap rootRef cs).isSome) := by
  have hc := absCanon_names (plain_proper hl)
  rw [existsG_true hi ht k (absCanon_not_endsWithSep ht.posix hc), absnorm_canon hi ht.posix hc, validRel_plain ht.posix k hl,
    pathComponents_absPath ht.posix (plain_proper hl)]
  constructor
  · rintro ⟨_, h | ⟨_, h | ⟨_, h, _⟩ | ⟨_, _, h⟩⟩⟩
    · exact .inl h
    · exact .inr (.inl h)
    · exact .inl h
    · exact .inr (.inr h)
  · intro h
    refine ⟨absPath_ne_nil, ?_⟩
    by_cases h1 : absPath s.cfg.sep l = s.devName
    · exact .inl h1
    by_cases h2 : absPath s.cfg.sep l = s.cfg.root
    · exact .inr ⟨rfl, .inl h2⟩
    rcases h with h | h | h
    · exact absurd h h1
    · exact absurd h h2
    · exact .inr ⟨rfl, .inr (.inr ⟨h2, h1, h⟩)⟩

theorem Spec.Passable.prefix {s : FS} {p q : Str} (h : Passable s p) (hq : ∃ r, p = q ++ r) : Passable s q := by
  obtain ⟨r, rfl⟩ := hq
  intro a b e
  exact h a (b ++ r) (by rw [e]; simp)

theorem validLoop_pass {s : FS} (hi : Inv s) (ht : s.cfg.Tree) : ∀ (n : Nat) {p : Str}, Passable s p → s.validLoop s.rc n p = .ok true := by
  intro n
  induction n with
  | zero => intro p _; rfl
  | succ n ih =>
    intro p h
    unfold FS.validLoop
    cases hc : cutAtLast (s.cfg.sep :: Cfg.dotdot) p with
    | none => rfl
    | some q =>
      obtain ⟨t, e⟩ := cutAtLast_prefix hc
      have e' : p = q ++ s.cfg.sep :: '.' :: '.' :: t := by rw [e]; simp [Cfg.dotdot]
      obtain ⟨hlim, hq⟩ := h q t e'
      have hex : s.rc.ex (s.absnorm q) = .ok true := by
        obtain ⟨m, hm⟩ : ∃ m, s.limit = m + 1 := ⟨s.limit - 1, by omega⟩
        unfold FS.rc
        rw [hm]
        show s.existsG (s.recN m) (s.absnorm q) = .ok true
        by_cases hne : q = []
        · subst hne
          have hr : s.absnorm [] = absPath s.cfg.sep [] := by
            obtain ⟨ns, h1, h2⟩ := hi.absnorm ht.posix []
            have h3 := absnormpath_meaning ht.posix (hi.n.cwd ht.posix) [] []
            rw [if_pos rfl] at h3
            have h4 : loc s.cfg.sep [] (s.absnorm []) = [] := h3
            rw [h2, Verif.loc_absPath h1] at h4
            rw [h2, List.reverse_eq_nil_iff.mp h4]
          rw [hr]
          exact (exists_abs hi ht _ (l := []) (by simp)).mpr (.inr (.inl rfl))
        · obtain ⟨names, h1, h2, h3⟩ := hq hne
          rw [absnorm_of_loc hi ht.posix (plain_proper h1) hne h2]
          exact (exists_abs hi ht _ h1).mpr ((exists_abs hi ht _ h1).mp h3)
      simp only [hex, bind, Except.bind, Bool.not_true, Bool.false_eq_true, if_false]
      exact ih (h.prefix ⟨_, e'⟩)

theorem validRel_pass {s : FS} (hi : Inv s) (ht : s.cfg.Tree) {p : Str} (h : Passable s p) : s.validRelG s.rc p = .ok true := by
  unfold FS.validRelG
  rw [if_neg (by simp [ht.posix.win])]
  exact validLoop_pass hi ht _ h

/-- A path in which no component starts with two dots goes nowhere up. -/
theorem passable_of_dots {s : FS} (hp : s.cfg.Posix) {p : Str} (h : dots s.cfg.sep p = 0) : Passable s p := by
  intro q r e
  exfalso
  unfold dots at h
  rw [e, split_append_sep, List.countP_append] at h
  have : (split s.cfg.sep ('.' :: '.' :: r)).countP (fun w => (['.', '.'] : Str).isPrefixOf w) = 0 := by omega
  rw [List.countP_eq_zero] at this
  obtain ⟨w1, ws1, _, h1⟩ := split_cons_ne (Ne.symm hp.sepDot) r
  obtain ⟨w2, ws2, h2, h3⟩ := split_cons_ne (Ne.symm hp.sepDot) ('.' :: r)
  rw [h1] at h2
  injection h2 with e1 e2
  subst e1
  rw [h3] at this
  exact this ('.' :: '.' :: w1) (by simp) (by simp [List.isPrefixOf])

/-- Resolving looks only at the normal form. -/
theorem resolvePath_word {s : FS} (hi : Inv s) (ht : s.cfg.Tree) (k : FS.Rec) {p : Str} {l : List Str} (hne : p ≠ []) (hd : s.validRelG k p = .ok true)
    (hl : ∀ w ∈ l, Plain s.cfg.sep w) (he : s.absnorm p = absPath s.cfg.sep l) :
    s.resolvePathG k p = s.resolvePathG k (absPath s.cfg.sep l) := by
  unfold FS.resolvePathG
  rw [if_neg hne, if_neg absPath_ne_nil, hd, validRel_plain ht.posix k hl, originalPath_tree ht.cs, originalPath_tree ht.cs,
    he, absnorm_canon hi ht.posix (absCanon_names (plain_proper hl))]

section
variable {s : FS} {p : Str} {l : List Str} {n : Str} (hi : Inv s) (ht : s.cfg.Tree) (h : Written s p l n)
include hi ht h

theorem Spec.Written.pl : ∀ w ∈ l, Plain s.cfg.sep w := fun w hw => h.plain w (List.mem_append_left _ hw)
theorem Spec.Written.pn : Plain s.cfg.sep n := h.plain n (by simp)

theorem Spec.Written.ne : p ≠ [] := by
  rintro rfl
  have := h.last
  simp [split] at this
  exact (h.pn hi ht).1.1 (by first | exact this | exact this.symm)

theorem Spec.Written.norm : s.absnorm p = absPath s.cfg.sep (l ++ [n]) :=
  absnorm_of_loc hi ht.posix (plain_proper h.plain) (h.ne hi ht) h.means

/-- the directory part and the name -/
theorem Spec.Written.split : ∃ hd, s.cfg.splitpath p = (hd, n) ∧
    ((hd = [] ∧ s.cwd = absPath s.cfg.sep l) ∨ (hd ≠ [] ∧ Passable s hd ∧ s.absnorm hd = absPath s.cfg.sep l)) := by
  obtain ⟨m, h1, h2, h3⟩ := splitpath_shape ht.posix p
  rcases hsp : s.cfg.splitpath p with ⟨hd, tl⟩
  rw [hsp] at h1 h2 h3
  dsimp only at h1 h2 h3
  have htl : tl = n := by
    have hl := h.last
    have : ∀ a : Str, (Py.split s.cfg.sep (a ++ s.cfg.sep :: tl)).getLast? = some tl := by
      intro a; rw [split_append_sep, split_no_sep h2]; simp
    rcases Nat.eq_zero_or_pos m with rfl | hm
    · rcases h3 with ⟨rfl, _⟩ | rfl | ⟨_, h3⟩
      · rw [h1] at hl; simp only [List.replicate_zero, List.append_nil, List.nil_append] at hl
        rw [split_no_sep h2] at hl; simpa using hl
      · rw [h1] at hl
        have e := this []
        simp only [List.replicate_zero, List.append_nil, List.nil_append, List.cons_append] at hl e
        rw [e] at hl; simpa using hl
      · omega
    · obtain ⟨j, rfl⟩ : ∃ j, m = j + 1 := ⟨m - 1, by omega⟩
      rw [h1, List.replicate_succ', ← List.append_assoc, List.append_assoc _ [_]] at hl
      have e := this (hd ++ List.replicate j s.cfg.sep)
      rw [show [s.cfg.sep] ++ tl = s.cfg.sep :: tl from rfl, e] at hl; simpa using hl
  subst htl
  have hnn := (h.pn hi ht).1
  have hna : ¬ isAbs s.cfg.sep tl := by rintro ⟨q, e⟩; exact hnn.2.2.2 (by rw [e]; simp)
  obtain ⟨c, hc1, hc2⟩ := h.cwd
  have hmeans := h.means
  rw [List.reverse_append, List.reverse_singleton, List.singleton_append] at hmeans
  have hcl : loc s.cfg.sep [] s.cwd = c.reverse := by rw [hc2]; exact Verif.loc_absPath hc1
  refine ⟨hd, rfl, ?_⟩
  -- the directory part means `l`
  have hdots : Passable s hd := h.up.prefix ⟨_, by rw [h1, List.append_assoc]⟩
  have hloc : hd ≠ [] → loc s.cfg.sep (loc s.cfg.sep [] s.cwd) hd = l.reverse := by
    intro hne
    rcases Nat.eq_zero_or_pos m with rfl | hm
    · rcases h3 with ⟨e, _⟩ | rfl | ⟨_, h3⟩
      · exact absurd e hne
      · have e : p = [] ++ s.cfg.sep :: tl := by rw [h1]; simp
        rw [e, loc_append_sep _ _ _ hna, if_pos rfl, loc_name hnn] at hmeans
        injection hmeans with _ e2
        rw [← e2]
        unfold loc
        rw [if_pos ⟨[], rfl⟩]
        simp [Py.split, step]
      · omega
    · obtain ⟨j, rfl⟩ : ∃ j, m = j + 1 := ⟨m - 1, by omega⟩
      rw [h1, loc_replicate_sep _ _ _ _ hna hne, loc_name hnn] at hmeans
      injection hmeans
  by_cases hne : hd = []
  · left
    refine ⟨hne, ?_⟩
    have hm : m = 0 := by
      rcases h3 with ⟨_, e⟩ | e | ⟨⟨i, x, e, _⟩, _⟩
      · exact e
      · rw [hne] at e; cases e
      · rw [hne] at e; simp at e
    rw [hne, hm] at h1
    simp only [List.replicate_zero, List.append_nil, List.nil_append] at h1
    rw [h1, loc_name hnn, hcl] at hmeans
    injection hmeans with _ e
    rw [hc2, List.reverse_injective e]
  · right
    exact ⟨hne, hdots, absnorm_of_loc hi ht.posix (plain_proper (h.pl hi ht)) hne (hloc hne)⟩

theorem Spec.Written.ends : endsWithC s.cfg.sep p = false := by
  obtain ⟨hd, h1, _⟩ := h.split hi ht
  obtain ⟨m, h2⟩ := split_lossless ht.posix p
  rw [h1] at h2
  dsimp only at h2
  unfold endsWithC
  rw [h2]
  cases hl : n.getLast? with
  | none => exact absurd (List.getLast?_eq_none_iff.mp hl) (h.pn hi ht).1.1
  | some x =>
    have : (hd ++ List.replicate m s.cfg.sep ++ n).getLast? = some x := by rw [List.getLast?_append, hl]; rfl
    rw [this]
    have hx : x ∈ n := List.mem_of_getLast? hl
    rw [beq_eq_false_iff_ne]
    intro e
    injection e with e
    exact (h.pn hi ht).1.2.2.2 (e ▸ hx)

theorem Spec.Written.sepL : s.cfg.endsWithSep p = false := by
  unfold Cfg.endsWithSep
  rw [ht.posix.altsep, h.ends hi ht]
  simp
theorem Spec.Written.sepR : s.cfg.endsWithSep (absPath s.cfg.sep (l ++ [n])) = false :=
  absCanon_not_endsWithSep ht.posix (absCanon_names (plain_proper h.plain))

theorem Spec.Written.strip : s.cfg.stripTrailing p = p := by
  unfold Cfg.stripTrailing
  cases p.length with
  | zero => rfl
  | succ n => simp [Cfg.stripLoop, h.sepL hi ht]

theorem Spec.Written.normR : s.absnorm (absPath s.cfg.sep (l ++ [n])) = absPath s.cfg.sep (l ++ [n]) :=
  absnorm_canon hi ht.posix (absCanon_names (plain_proper h.plain))

theorem Spec.Written.devL : p ≠ s.devName := by
  intro e
  have h1 := h.norm hi ht
  rw [e, absnorm_canon hi ht.posix h.null] at h1
  exact h.dev' h1.symm

theorem Spec.Written.neDot : p ≠ Cfg.dot := by
  rintro rfl
  have := h.last
  rw [split_no_sep (by intro hm; simp [Cfg.dot] at hm; exact ht.posix.sepDot hm)] at this
  simp at this
  exact (h.pn hi ht).1.2.1 this.symm

end
end Verif
