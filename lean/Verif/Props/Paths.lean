import Verif.PathLemmas
/-!
# Path functions: C01-C07

`Posix k` = no alternative separator, no drives.  `Canon`, `AbsCanon`, `loc` are the independent
specification in `SpecPath.lean`.
-/

namespace Verif
open Py Spec
open Cfg (dot dotdot)

variable {k : Cfg}

/-! ## Helpers: `normpath` on a POSIX configuration -/

theorem normpath_posix (h : k.Posix) (p : Str) : k.normpath p =
    if isAbs k.sep p then k.sep :: join k.sep (Cfg.collapse true (split k.sep p) [])
    else if Cfg.collapse false (split k.sep p) [] = [] then dot
    else join k.sep (Cfg.collapse false (split k.sep p) []) := by
  simp only [Cfg.normpath, h.normcase, h.splitdrive, startsWithC_eq, List.nil_append]
  by_cases ha : isAbs k.sep p
  · simp [ha]
  · simp only [ha, decide_false, Bool.false_eq_true, if_false]
    obtain ⟨n, names, he, hn, -⟩ := collapse_split_shape k.sep false p
    rw [he]
    by_cases hz : List.replicate n dotdot ++ names = []
    · simp [hz, join]
    · rw [if_neg hz, if_neg]
      intro hj
      rcases join_eq_nil hj with h1 | h1
      · exact hz h1
      · cases n with
        | zero =>
          simp only [List.replicate_zero, List.nil_append] at h1
          exact (hn [] (by simp [h1])).1 rfl
        | succ n => simp [List.replicate_succ, dotdot] at h1

theorem dotdot_no_sep (h : k.Posix) : k.sep ∉ dotdot := by
  simp [dotdot, h.sepDot]

theorem rel_no_sep (h : k.Posix) {n : Nat} {names : List Str} (hn : ∀ w ∈ names, Proper k.sep w) :
    ∀ w ∈ List.replicate n dotdot ++ names, k.sep ∉ w := by
  intro w hw
  rcases List.mem_append.mp hw with hw | hw
  · rw [List.eq_of_mem_replicate hw]; exact dotdot_no_sep h
  · exact (hn w hw).2.2.2

theorem rel_not_abs (h : k.Posix) {n : Nat} {names : List Str} (hn : ∀ w ∈ names, Proper k.sep w) :
    ¬ isAbs k.sep (join k.sep (List.replicate n dotdot ++ names)) := by
  cases n with
  | zero => simpa using isAbs_join_names hn
  | succ n =>
    rintro ⟨q, hq⟩
    rw [List.replicate_succ, List.cons_append] at hq
    have : ∀ l : List Str, ∃ r, join k.sep (dotdot :: l) = '.' :: r := by
      intro l; cases l <;> simp [join, dotdot]
    obtain ⟨r, hr⟩ := this (List.replicate n dotdot ++ names)
    rw [hr] at hq
    exact h.sepDot (by injection hq with h1; exact h1.symm)

theorem normpath_abs_names (h : k.Posix) {names : List Str} (hn : ∀ w ∈ names, Proper k.sep w) :
    k.normpath (absPath k.sep names) = absPath k.sep names := by
  rw [normpath_posix h, if_pos ⟨_, rfl⟩, absPath, split_abs]
  have : Cfg.collapse true ([] :: split k.sep (join k.sep names)) [] = names := by
    unfold Cfg.collapse
    simp only [true_or, if_true]
    rcases split_join_names (proper_no_sep hn) with h1 | ⟨h1, h2⟩
    · rw [h1]; simpa using collapse_names true (acc := []) hn
    · rw [h2, h1]; simp [Cfg.collapse]
  rw [this]

theorem normpath_canon_id (h : k.Posix) {p : Str} (hp : Canon k.sep p) : k.normpath p = p := by
  rcases hp with ⟨names, hn, rfl⟩ | rfl | ⟨n, names, hn, hne, rfl⟩
  · exact normpath_abs_names h hn
  · rw [normpath_posix h]
    have hns : k.sep ∉ ['.'] := by simp [h.sepDot]
    rw [if_neg, split_no_sep hns]
    · simp [Cfg.collapse, dot]
    · rintro ⟨q, hq⟩
      exact h.sepDot (by injection hq with h1; exact h1.symm)
  · have hne' : List.replicate n dotdot ++ names ≠ [] := by
      rcases hne with h1 | h1
      · intro e; simp at e; omega
      · simp [h1]
    show k.normpath (join k.sep (List.replicate n dotdot ++ names)) = _
    rw [normpath_posix h, if_neg (rel_not_abs h hn)]
    show (if Cfg.collapse false (split k.sep (join k.sep (List.replicate n dotdot ++ names))) [] = [] then _ else _) = join k.sep (List.replicate n dotdot ++ names)
    rw [split_join hne' (rel_no_sep h hn)]
    have := collapse_replicate n 0 hn
    simp only [List.replicate_zero, Nat.zero_add] at this
    rw [this, if_neg hne']

/-! ## C01 -/

/-- C01: the result of `normpath` is canonical: absolute with proper names only, or `.`, or a leading
run of `..` followed by proper names. -/
theorem normpath_canonical (h : k.Posix) (p : Str) : Canon k.sep (k.normpath p) := by
  rw [normpath_posix h]
  by_cases ha : isAbs k.sep p
  · rw [if_pos ha]
    obtain ⟨n, names, he, hn, hz⟩ := collapse_split_shape k.sep true p
    refine Or.inl ⟨names, hn, ?_⟩
    rw [he, hz rfl]; rfl
  · rw [if_neg ha]
    obtain ⟨n, names, he, hn, -⟩ := collapse_split_shape k.sep false p
    rw [he]
    by_cases hz : List.replicate n dotdot ++ names = []
    · rw [if_pos hz]; exact Or.inr (Or.inl rfl)
    · rw [if_neg hz]
      refine Or.inr (Or.inr ⟨n, names, hn, ?_, rfl⟩)
      by_cases h0 : 0 < n
      · exact Or.inl h0
      · right; intro e; apply hz; rw [e]; simp; omega

/-- C01: the result is absolute exactly when the argument is. -/
theorem normpath_abs_iff (h : k.Posix) (p : Str) : isAbs k.sep (k.normpath p) ↔ isAbs k.sep p := by
  rw [normpath_posix h]
  by_cases ha : isAbs k.sep p
  · simp [ha]
  · simp only [ha, if_false, iff_false]
    obtain ⟨n, names, he, hn, -⟩ := collapse_split_shape k.sep false p
    rw [he]
    split
    · rintro ⟨q, hq⟩
      exact h.sepDot (by injection hq with h1; exact h1.symm)
    · exact rel_not_abs h hn

/-- C01: canonical paths are exactly the fixed points of `normpath`. -/
theorem normpath_fixed_iff (h : k.Posix) (p : Str) : k.normpath p = p ↔ Canon k.sep p :=
  ⟨fun e => e ▸ normpath_canonical h p, normpath_canon_id h⟩

/-- C01: normalising twice equals normalising once. -/
theorem normpath_idempotent (h : k.Posix) (p : Str) :
    k.normpath (k.normpath p) = k.normpath p :=
  normpath_canon_id h (normpath_canonical h p)

/-! ## C02 -/

/-- C02: `normpath` preserves the location a path denotes, for every starting location. -/
theorem normpath_meaning (h : k.Posix) (start : List Str) (p : Str) :
    loc k.sep start (k.normpath p) = loc k.sep start p := by
  have hsp : ∀ w ∈ split k.sep p, k.sep ∉ w := fun w hw => mem_split_no_sep hw
  rw [normpath_posix h]
  by_cases ha : isAbs k.sep p
  · rw [if_pos ha]
    simp only [loc, isAbs_cons, if_true, ha, split_abs, foldl_step_nil_cons]
    have hev := collapse_eval (c := k.sep) true (split k.sep p) [] [] hsp
      ⟨0, [], by simp, by simp, by simp⟩ (fun _ => rfl)
    simp only [List.reverse_nil, List.foldl_nil] at hev
    rw [← hev]
    obtain ⟨n, names, he, hn, hz⟩ := collapse_split_shape k.sep true p
    rw [he, hz rfl]
    simp only [List.replicate_zero, List.nil_append]
    rcases split_join_names (proper_no_sep hn) with h1 | ⟨h1, h2⟩
    · rw [h1]
    · rw [h2, h1]; simp [step]
  · rw [if_neg ha]
    have hev := collapse_eval (c := k.sep) false (split k.sep p) [] start hsp
      ⟨0, [], by simp, by simp, by simp⟩ (by simp)
    simp only [List.reverse_nil, List.foldl_nil] at hev
    simp only [loc, ha, if_false, ← hev]
    obtain ⟨n, names, he, hn, -⟩ := collapse_split_shape k.sep false p
    rw [he]
    by_cases hz : List.replicate n dotdot ++ names = []
    · rw [if_pos hz, hz]
      have hns : k.sep ∉ dot := by simp [dot, h.sepDot]
      rw [if_neg, split_no_sep hns]
      · simp [step, dot]
      · rintro ⟨q, hq⟩
        exact h.sepDot (by injection hq with h1; exact h1.symm)
    · rw [if_neg hz, if_neg (rel_not_abs h hn), split_join hz (rel_no_sep h hn)]

/-- C02 (completeness): two absolute paths have the same normal form iff they denote the same
location. -/
theorem normpath_eq_iff_same_location (h : k.Posix) {p q : Str}
    (hp : isAbs k.sep p) (hq : isAbs k.sep q) :
    k.normpath p = k.normpath q ↔ loc k.sep [] p = loc k.sep [] q := by
  constructor
  · intro e; rw [← normpath_meaning h, e, normpath_meaning h]
  · intro e
    have key : ∀ p, isAbs k.sep p → k.normpath p = absPath k.sep (loc k.sep [] p).reverse := by
      intro p hp
      rcases normpath_canonical h p with ⟨names, hn, he⟩ | he | ⟨n, names, hn, -, he⟩
      · rw [← normpath_meaning h, he]
        congr 1
        simp only [loc, absPath, isAbs_cons, if_true, split_abs, foldl_step_nil_cons]
        rcases split_join_names (proper_no_sep hn) with h1 | ⟨h1, h2⟩
        · rw [h1, foldl_step_names hn]; simp
        · rw [h2, h1]; simp [step]
      · have := (normpath_abs_iff h p).mpr hp
        rw [he] at this
        obtain ⟨q, hq⟩ := this
        exact absurd (by injection hq with h1; exact h1.symm) h.sepDot
      · have := (normpath_abs_iff h p).mpr hp
        rw [he] at this
        exact absurd this (rel_not_abs h hn)
    rw [key p hp, key q hq, e]

/-! ## C03 -/

theorem absCanon_isAbs {c : Char} {p : Str} (h : AbsCanon c p) : isAbs c p := by
  obtain ⟨names, -, rfl⟩ := h; exact ⟨_, rfl⟩

theorem absCanon_of_abs (h : k.Posix) {p : Str} (hp : isAbs k.sep p) :
    AbsCanon k.sep (k.normpath p) := by
  rw [normpath_posix h, if_pos hp]
  obtain ⟨n, names, he, hn, hz⟩ := collapse_split_shape k.sep true p
  exact ⟨names, hn, by rw [he, hz rfl]; rfl⟩

theorem dot_not_abs (h : k.Posix) : ¬ isAbs k.sep dot := by
  rintro ⟨q, hq⟩
  exact h.sepDot (by injection hq with h1; exact h1.symm)

/-- the string `absnormpath` hands to `normpath` -/
theorem absnormpath_posix (h : k.Posix) {cwd : Str} (hc : isAbs k.sep cwd) (p : Str) :
    k.absnormpath cwd p = k.normpath (
      if p = [] then [k.sep] else if p = dot then cwd
      else if isAbs k.sep p then p
      else join k.sep [if cwd ≠ [k.sep] then cwd else [], p]) := by
  have hcd : cwd ≠ dot := fun e => dot_not_abs h (e ▸ hc)
  have hsd : [k.sep] ≠ dot := by simp [dot, h.sepDot]
  simp only [Cfg.absnormpath, h.normcase, h.startsWithRoot, startsWithC_eq, Cfg.root]
  congr 1
  by_cases hp : p = []
  · subst hp; simp [hsd]
  · simp only [hp, if_false]
    by_cases hpd : p = dot
    · simp [hpd, hcd]
    · simp only [hpd, if_false]
      by_cases ha : isAbs k.sep p
      · simp [ha, hpd]
      · simp only [ha, decide_false, Bool.not_false, if_true, if_false]
        have hnd : join k.sep [if cwd ≠ [k.sep] then cwd else [], p] ≠ dot := by
          intro e
          have hm : k.sep ∈ dot := by
            rw [← e]; simp [join]
          simp [dot, h.sepDot] at hm
        exact if_neg hnd

theorem absnormpath_arg_abs {c : Char} {cwd : Str} (hc : isAbs c cwd) (p : Str) :
    isAbs c (if p = [] then [c] else if p = dot then cwd
      else if isAbs c p then p
      else join c [if cwd ≠ [c] then cwd else [], p]) := by
  split
  · simp
  · split
    · exact hc
    · split
      · assumption
      · by_cases h1 : cwd = [c]
        · simp [h1, join]
        · obtain ⟨q, rfl⟩ := hc
          simp [h1, join]

/-- C03: `absnormpath` always returns an absolute canonical path. -/
theorem absnormpath_canonical (h : k.Posix) {cwd : Str} (hc : isAbs k.sep cwd) (p : Str) :
    AbsCanon k.sep (k.absnormpath cwd p) := by
  rw [absnormpath_posix h hc]
  exact absCanon_of_abs h (absnormpath_arg_abs hc p)

/-- C03: for an absolute path the current directory does not matter. -/
theorem absnormpath_absolute (h : k.Posix) {cwd : Str} (hc : isAbs k.sep cwd) {p : Str}
    (hp : isAbs k.sep p) : k.absnormpath cwd p = k.normpath p := by
  rw [absnormpath_posix h hc]
  have h1 : p ≠ [] := by rintro rfl; exact not_isAbs_nil _ hp
  have h2 : p ≠ dot := by rintro rfl; exact dot_not_abs h hp
  simp [h1, h2, hp]

theorem loc_append_sep {c : Char} (start : List Str) (a b : Str) (hb : ¬ isAbs c b) :
    loc c start (a ++ c :: b) = if a = [] then loc c [] b else loc c (loc c start a) b := by
  cases a with
  | nil => 
    simp only [List.nil_append, if_true, loc, isAbs_cons, split_abs, foldl_step_nil_cons, hb, if_false]
  | cons x xs =>
    have : isAbs c (x :: xs ++ c :: b) ↔ isAbs c (x :: xs) := by
      simp [isAbs]
    simp only [loc, this, split_append_sep, List.foldl_append, hb, if_false, List.cons_ne_nil]

/-- C03: for every non-empty path `absnormpath` denotes the location reached from the current
directory; the empty path denotes the root. -/
theorem absnormpath_meaning (h : k.Posix) {cwd : Str} (hc : isAbs k.sep cwd) (start : List Str)
    (p : Str) : loc k.sep start (k.absnormpath cwd p) =
      if p = [] then [] else loc k.sep (loc k.sep start cwd) p := by
  rw [absnormpath_posix h hc, normpath_meaning h]
  by_cases hp : p = []
  · simp [hp, loc, split_abs, split, step]
  · simp only [hp, if_false]
    by_cases hpd : p = dot
    · have hns : k.sep ∉ dot := by simp [dot, h.sepDot]
      subst hpd
      simp only [if_true]
      conv => rhs; rw [loc]
      rw [if_neg (dot_not_abs h), split_no_sep hns]
      simp [step, dot]
    · simp only [hpd, if_false]
      by_cases ha : isAbs k.sep p
      · simp only [ha, if_true, loc]
      · simp only [ha, if_false]
        by_cases hr : cwd = [k.sep]
        · subst hr
          simp only [ne_eq, not_true, if_false, join]
          rw [loc_append_sep _ _ _ ha, if_pos rfl]
          simp [loc, split_abs, split, step]
        · have hce : cwd ≠ [] := by rintro rfl; exact not_isAbs_nil _ hc
          simp only [ne_eq, hr, not_false_iff, if_true, join]
          rw [loc_append_sep _ _ _ ha, if_neg hce]

/-- C03: applying `absnormpath` again, under any current directory, changes nothing. -/
theorem absnormpath_idempotent (h : k.Posix) {cwd cwd' : Str} (hc : isAbs k.sep cwd)
    (hc' : isAbs k.sep cwd') (p : Str) :
    k.absnormpath cwd' (k.absnormpath cwd p) = k.absnormpath cwd p := by
  have hcan := absnormpath_canonical h hc p
  rw [absnormpath_absolute h hc' (absCanon_isAbs hcan)]
  exact normpath_canon_id h (Or.inl hcan)

/-! ## C04 -/

/-- what one more argument does to the joined path -/
theorem joinLoop_cons (_h : k.Posix) (acc seg : Str) (segs : List Str) :
    k.joinLoop acc (seg :: segs) = k.joinLoop (k.joinLoop acc [seg]) segs := by
  simp only [Cfg.joinLoop]
  split <;> rfl

theorem joinLoop_nil_one (_h : k.Posix) (a : Str) : k.joinLoop [] [a] = a := by
  simp [Cfg.joinLoop]

theorem joinpaths_eq (h : k.Posix) (p : Str) (ps : List Str) :
    k.joinpaths (p :: ps) = k.joinLoop p ps := by
  cases ps with
  | nil => simp [Cfg.joinpaths, Cfg.joinLoop]
  | cons q qs =>
    simp only [Cfg.joinpaths, h.win, Bool.false_eq_true, if_false]
    rw [joinLoop_cons h, joinLoop_nil_one h]

instance (c : Char) (a : Str) : Decidable (∃ r, a = r ++ [c]) :=
  decidable_of_iff (a.getLast? = some c) List.getLast?_eq_some_iff

theorem join_two (h : k.Posix) (a b : Str) : k.joinpaths [a, b] =
    if isAbs k.sep b then b
    else if a = [] ∨ ∃ r, a = r ++ [k.sep] then a ++ b else a ++ k.sep :: b := by
  rw [joinpaths_eq h]
  simp only [Cfg.joinLoop, h.startsWithRoot, startsWithC_eq, decide_eq_true_eq]
  split
  · rfl
  · have he : endsWithC k.sep a = true ↔ ∃ r, a = r ++ [k.sep] := by
      simp only [endsWithC, beq_iff_eq]
      exact List.getLast?_eq_some_iff
    by_cases h1 : a = []
    · simp [h1]
    · by_cases h2 : ∃ r, a = r ++ [k.sep]
      · rw [if_neg (by simp [he, h2]), if_pos (Or.inr h2)]
      · rw [if_pos ⟨h1, fun e => h2 (he.mp e)⟩, if_neg (fun e => e.elim h1 h2)]
        simp

/-- C04: the one-argument call is the identity. -/
theorem join_one (p : Str) : k.joinpaths [p] = p := rfl

/-- C04: n-ary join is iterated binary join. -/
theorem join_fold (h : k.Posix) (a b : Str) (cs : List Str) :
    k.joinpaths (a :: b :: cs) = k.joinpaths (k.joinpaths [a, b] :: cs) := by
  rw [joinpaths_eq h, joinpaths_eq h, joinpaths_eq h, joinLoop_cons h]

/-- C04: join restarts at an absolute argument: everything before it is dropped. -/
theorem join_restart (h : k.Posix) (as : List Str) (b : Str) (cs : List Str)
    (hb : isAbs k.sep b) : k.joinpaths (as ++ b :: cs) = k.joinpaths (b :: cs) := by
  cases as with
  | nil => rfl
  | cons a as =>
    rw [List.cons_append, joinpaths_eq h, joinpaths_eq h]
    induction as generalizing a with
    | nil => 
      rw [List.nil_append, joinLoop_cons h]
      congr 1
      simp [Cfg.joinLoop, h.startsWithRoot, startsWithC_eq, hb]
    | cons x xs ih => rw [List.cons_append, joinLoop_cons h, ih]

/-- C04: join is associative. -/
theorem join_assoc (h : k.Posix) (a b c : Str) :
    k.joinpaths [k.joinpaths [a, b], c] = k.joinpaths [a, k.joinpaths [b, c]] := by
  simp only [join_two h]
  by_cases hc : isAbs k.sep c
  · simp [hc]
  simp only [hc, if_false]
  by_cases hb : isAbs k.sep b
  · have h1 : ∀ t, isAbs k.sep (b ++ t) := by
      obtain ⟨q, rfl⟩ := hb; intro t; exact ⟨q ++ t, rfl⟩
    simp only [hb, if_true]
    split <;> simp [h1]
  simp only [hb, if_false]
  have hbt : ∀ t, ¬ isAbs k.sep t → ¬ isAbs k.sep (b ++ t) := by
    intro t ht
    cases b with
    | nil => simpa using ht
    | cons x xs =>
      rintro ⟨q, hq⟩
      exact hb ⟨xs, by injection hq with h1; rw [h1]⟩
  by_cases hbe : b = []
  · subst hbe
    simp only [List.append_nil, true_or, if_true, List.nil_append, hc, if_false]
    by_cases ha : a = [] ∨ ∃ r, a = r ++ [k.sep]
    · simp [ha]
    · simp only [ha, if_false]
      rw [if_pos (Or.inr ⟨a, rfl⟩)]; simp
  · have hend : ∀ x : Str, (x ++ b = [] ∨ ∃ r, x ++ b = r ++ [k.sep]) ↔ ∃ r, b = r ++ [k.sep] := by
      intro x
      constructor
      · rintro (e | ⟨r, hr⟩)
        · simp at e; exact absurd e.2 hbe
        · rcases List.eq_nil_or_concat b with e | ⟨L, y, e⟩
          · exact absurd e hbe
          · rw [e] at hr ⊢
            rw [List.concat_eq_append, ← List.append_assoc] at hr
            have := List.append_inj_right' hr rfl
            exact ⟨L, by rw [List.concat_eq_append, this]⟩
      · rintro ⟨r, hr⟩
        exact Or.inr ⟨x ++ r, by rw [hr, List.append_assoc]⟩
    have hcons : a ++ k.sep :: b = (a ++ [k.sep]) ++ b := by simp
    have hbeq : (b = [] ∨ ∃ r, b = r ++ [k.sep]) ↔ ∃ r, b = r ++ [k.sep] := by simp [hbe]
    have hab : ¬ isAbs k.sep (b ++ k.sep :: c) := by
      cases b with
      | nil => exact absurd rfl hbe
      | cons x xs =>
        rintro ⟨q, hq⟩
        exact hb ⟨xs, by injection hq with h1; rw [h1]⟩
    by_cases hs : ∃ r, b = r ++ [k.sep]
    · have hbc := hbt c hc
      rw [if_pos (hbeq.mpr hs), if_neg hbc]
      by_cases ha : a = [] ∨ ∃ r, a = r ++ [k.sep]
      · rw [if_pos ha, if_pos ha, if_pos ((hend a).mpr hs)]; simp
      · rw [if_neg ha, if_neg ha, hcons, if_pos ((hend _).mpr hs)]; simp
    · rw [if_neg (fun e => hs (hbeq.mp e)), if_neg hab]
      by_cases ha : a = [] ∨ ∃ r, a = r ++ [k.sep]
      · rw [if_pos ha, if_pos ha, if_neg (fun e => hs ((hend a).mp e))]; simp
      · rw [if_neg ha, if_neg ha, hcons, if_neg (fun e => hs ((hend _).mp e))]; simp

theorem loc_snoc_sep {c : Char} (start : List Str) (r b : Str) (hb : ¬ isAbs c b) :
    loc c start (r ++ [c] ++ b) = loc c (loc c start (r ++ [c])) b := by
  have e : r ++ [c] ++ b = r ++ c :: b := by simp
  rw [e, loc_append_sep _ _ _ hb, show r ++ [c] = r ++ c :: [] from rfl,
    loc_append_sep _ _ _ (not_isAbs_nil c)]
  by_cases hr : r = []
  · simp [hr, loc, split, step]
  · have : ∀ l, loc c l [] = l := by intro l; simp [loc, split, step]
    simp only [hr, if_false, this]

/-- C04: joining means going to each argument in turn, starting from anywhere. -/
theorem join_meaning (h : k.Posix) (start : List Str) (p : Str) (ps : List Str) :
    loc k.sep start (k.joinpaths (p :: ps)) = (p :: ps).foldl (loc k.sep) start := by
  induction ps generalizing p with
  | nil => rfl
  | cons q qs ih =>
    rw [join_fold h, ih]
    simp only [List.foldl_cons]
    congr 1
    rw [join_two h]
    by_cases hq : isAbs k.sep q
    · simp [hq, loc]
    · simp only [hq, if_false]
      by_cases hp : p = []
      · subst hp; simp [loc, split, step]
      · by_cases hs : ∃ r, p = r ++ [k.sep]
        · simp only [hs, or_true, if_true]
          obtain ⟨r, rfl⟩ := hs
          exact loc_snoc_sep start r q hq
        · simp only [hp, hs, or_self, if_false]
          rw [loc_append_sep _ _ _ hq, if_neg hp]

/-- C04: composed with normalisation. -/
theorem normpath_join_meaning (h : k.Posix) (start : List Str) (a b : Str) :
    loc k.sep start (k.normpath (k.joinpaths [a, b])) = loc k.sep (loc k.sep start a) b := by
  rw [normpath_meaning h, join_meaning h]; rfl

/-! ## C05 -/

theorem dropTrailingEmpty_spec (l : List Str) :
    ∃ n, l = Cfg.dropTrailingEmpty l ++ List.replicate n [] := by
  have : ∀ l : List Str, ∃ n, l = List.replicate n [] ++ l.dropWhile (· == []) := by
    intro l
    induction l with
    | nil => exact ⟨0, rfl⟩
    | cons x xs ih =>
      obtain ⟨n, hn⟩ := ih
      by_cases hx : x = []
      · refine ⟨n+1, ?_⟩
        subst hx
        simp only [List.dropWhile_cons, beq_self_eq_true, if_true, List.replicate_succ, List.cons_append]
        rw [← hn]
      · exact ⟨0, by simp [List.dropWhile_cons, hx]⟩
  obtain ⟨n, hn⟩ := this l.reverse
  refine ⟨n, ?_⟩
  have := congrArg List.reverse hn
  simpa [Cfg.dropTrailingEmpty] using this

theorem dropTrailingEmpty_last (l : List Str) :
    Cfg.dropTrailingEmpty l = [] ∨ ∃ i w, Cfg.dropTrailingEmpty l = i ++ [w] ∧ w ≠ [] := by
  unfold Cfg.dropTrailingEmpty
  match hd : l.reverse.dropWhile (· == []) with
  | [] => left; rfl
  | x :: xs =>
    right
    refine ⟨xs.reverse, x, by simp, ?_⟩
    have := List.head_dropWhile_not (· == ([] : Str)) (l := l.reverse) (by rw [hd]; simp)
    simp only [hd] at this
    simpa using this

theorem join_replicate_empty {c : Char} (cs : List Str) (n : Nat) (hcs : cs ≠ []) (t : Str) :
    join c (cs ++ List.replicate n [] ++ [t]) = join c cs ++ List.replicate (n + 1) c ++ t := by
  induction n generalizing cs with
  | zero =>
    simp only [List.replicate_zero, List.append_nil]
    rw [join_append c hcs (by simp)]; simp [join, List.replicate_succ]
  | succ n ih =>
    have : cs ++ List.replicate (n+1) [] ++ [t] = (cs ++ [[]]) ++ List.replicate n [] ++ [t] := by
      simp [List.replicate_succ]
    rw [this, ih _ (by simp), join_append c hcs (by simp)]
    simp [join, List.replicate_succ]

theorem splitpath_shape (h : k.Posix) (p : Str) :
    ∃ n, p = (k.splitpath p).1 ++ List.replicate n k.sep ++ (k.splitpath p).2 ∧
      k.sep ∉ (k.splitpath p).2 ∧
      ((k.splitpath p).1 = [] ∧ n = 0 ∨ (k.splitpath p).1 = [k.sep] ∨
        (∃ i x, (k.splitpath p).1 = i ++ [x] ∧ x ≠ k.sep) ∧ 0 < n) := by
  simp only [Cfg.splitpath, h.normcase, h.drive, Bool.false_eq_true, if_false, false_and]
  have hj := join_split k.sep p
  have hns : ∀ w ∈ split k.sep p, k.sep ∉ w := fun w hw => mem_split_no_sep hw
  have hne := split_ne_nil k.sep p
  obtain ⟨cs, t, he⟩ : ∃ cs t, split k.sep p = cs ++ [t] := by
    rcases List.eq_nil_or_concat (split k.sep p) with e | ⟨L, y, e⟩
    · exact absurd e hne
    · exact ⟨L, y, by rw [e, List.concat_eq_append]⟩
  rw [he] at hj hns ⊢
  have hlast : (cs ++ [t]).getLastD [] = t := by simp
  have hinit : (cs ++ [t]).dropLast = cs := by simp
  simp only [hlast, hinit]
  have ht : k.sep ∉ t := hns t (by simp)
  by_cases hcs : cs = []
  · subst hcs
    simp only [if_true]
    refine ⟨0, ?_, ht, by simp⟩
    simpa [join] using hj.symm
  · simp only [hcs, if_false]
    by_cases hany : cs.any (· ≠ []) = true
    · simp only [hany, if_true]
      obtain ⟨n, hn⟩ := dropTrailingEmpty_spec cs
      have hd : Cfg.dropTrailingEmpty cs ≠ [] := by
        intro e
        rw [e] at hn
        simp only [List.nil_append] at hn
        rw [hn] at hany
        simp at hany
      refine ⟨n+1, ?_, ht, Or.inr (Or.inr ⟨?_, by omega⟩)⟩
      · rw [← join_replicate_empty _ _ hd, ← hn, hj]
      · rcases dropTrailingEmpty_last cs with e | ⟨i, w, e, hw⟩
        · exact absurd e hd
        · have hwm : w ∈ cs := by
            rw [hn, e]; simp
          have hws := hns w (by simp [hwm])
          obtain ⟨i', x, hx⟩ : ∃ i' x, w = i' ++ [x] := by
            rcases List.eq_nil_or_concat w with e | ⟨L, y, e⟩
            · exact absurd e hw
            · exact ⟨L, y, by rw [e, List.concat_eq_append]⟩
          have hxs : x ≠ k.sep := by rintro rfl; apply hws; simp [hx]
          rw [e]
          by_cases hi : i = []
          · exact ⟨i', x, by simp [hi, join, hx], hxs⟩
          · refine ⟨join k.sep i ++ k.sep :: i', x, ?_, hxs⟩
            rw [join_append k.sep hi (by simp)]; simp [join, hx]
    · simp only [hany]
      have hall : ∃ n, cs = List.replicate (n+1) [] := by
        have : ∀ w ∈ cs, w = [] := by
          intro w hw
          simp only [List.any_eq_true, decide_eq_true_eq, not_exists, not_and, ne_eq] at hany
          exact Classical.not_not.mp (hany w hw)
        have h2 := List.eq_replicate_of_mem this
        cases hl : cs.length with
        | zero => exact absurd (List.length_eq_zero_iff.mp hl) hcs
        | succ n => exact ⟨n, by rw [hl] at h2; exact h2⟩
      obtain ⟨n, hn⟩ := hall
      refine ⟨n, ?_, ht, Or.inr (Or.inl rfl)⟩
      rw [← hj, hn]
      have := join_replicate_empty (c := k.sep) [[]] n (by simp) t
      simp only [List.singleton_append, ← List.replicate_succ] at this
      rw [this]
      simp [join, List.replicate_succ]

/-- C05: `os.path.split` is lossless up to the separators between head and tail. -/
theorem split_lossless (h : k.Posix) (p : Str) :
    ∃ n, p = (k.splitpath p).1 ++ List.replicate n k.sep ++ (k.splitpath p).2 := by
  obtain ⟨n, h1, -⟩ := splitpath_shape h p; exact ⟨n, h1⟩

/-- C05: the tail contains no separator. -/
theorem split_tail_no_sep (h : k.Posix) (p : Str) : k.sep ∉ (k.splitpath p).2 := by
  obtain ⟨n, -, h1, -⟩ := splitpath_shape h p; exact h1

/-- C05: the head does not end with a separator unless it is the root. -/
theorem split_head_no_trailing_sep (h : k.Posix) (p : Str) (hr : (k.splitpath p).1 ≠ [k.sep]) :
    ¬ ∃ r, (k.splitpath p).1 = r ++ [k.sep] := by
  obtain ⟨n, -, -, h1 | h1 | ⟨⟨i, x, h1, hx⟩, -⟩⟩ := splitpath_shape h p
  · rw [h1.1]; rintro ⟨r, hr⟩; simp at hr
  · exact absurd h1 hr
  · rw [h1]
    rintro ⟨r, hr⟩
    have := List.append_inj_right' hr rfl
    exact hx (by simpa using this)

theorem loc_replicate_sep {c : Char} (start : List Str) (a b : Str) (n : Nat) (hb : ¬ isAbs c b)
    (ha : a ≠ []) :
    loc c start (a ++ List.replicate (n+1) c ++ b) = loc c (loc c start a) b := by
  induction n with
  | zero => 
    have : a ++ List.replicate 1 c ++ b = a ++ c :: b := by simp
    rw [this, loc_append_sep _ _ _ hb, if_neg ha]
  | succ n ih =>
    have e : a ++ List.replicate (n+2) c ++ b = (a ++ List.replicate (n + 1) c) ++ c :: b := by
      rw [List.replicate_succ' (n := n+1)]; simp
    rw [e, loc_append_sep _ _ _ hb, if_neg (by simp [ha])]
    congr 1
    -- trailing separators do not matter
    have : ∀ m, loc c start (a ++ List.replicate m c) = loc c start a := by
      intro m
      induction m with
      | zero => simp
      | succ m ih2 =>
        have e : a ++ List.replicate (m+1) c = (a ++ List.replicate m c) ++ c :: [] := by
          rw [List.replicate_succ' (n := m)]; simp
        rw [e, loc_append_sep _ _ _ (not_isAbs_nil c), if_neg (by simp [ha]), ih2]
        simp [loc, split, step]
    exact this _

/-- C05: joining the two halves denotes the original location. -/
theorem split_join_meaning (h : k.Posix) (start : List Str) (p : Str) :
    loc k.sep start (k.joinpaths [(k.splitpath p).1, (k.splitpath p).2]) = loc k.sep start p := by
  rw [join_meaning h]
  simp only [List.foldl_cons, List.foldl_nil]
  obtain ⟨n, hp, ht, hh⟩ := splitpath_shape h p
  generalize (k.splitpath p).1 = hd at *
  generalize (k.splitpath p).2 = tl at *
  have hta : ¬ isAbs k.sep tl := by rintro ⟨q, hq⟩; apply ht; simp [hq]
  rcases hh with ⟨rfl, rfl⟩ | rfl | ⟨⟨i, x, rfl, hx⟩, hn⟩
  · rw [hp]; simp [loc, split, step]
  · rw [hp]
    cases n with
    | zero => rw [List.replicate_zero, List.append_nil]
              have := loc_snoc_sep start [] tl hta
              simpa using this.symm
    | succ n => rw [loc_replicate_sep _ _ _ _ hta (by simp)]
  · rw [hp]
    obtain ⟨m, rfl⟩ : ∃ m, n = m + 1 := ⟨n - 1, by omega⟩
    rw [loc_replicate_sep _ _ _ _ hta (by simp)]

/-! ## C06 (any configuration, Windows included) -/

/-- C06: drive and rest concatenate to the path (with the alternative separator replaced when Windows
rules apply, and untouched for paths shorter than two characters). -/
theorem splitdrive_lossless (k : Cfg) (p : Str) :
    (k.splitdrive p).1 ++ (k.splitdrive p).2 =
      if k.isWin = true ∧ 2 ≤ p.length then k.normcase p else p := by
  unfold Cfg.splitdrive
  by_cases h1 : k.isWin = true <;> by_cases h2 : 2 ≤ p.length <;> simp [h1, h2]
  split
  · split
    · simp
    · split
      · simp
      · split <;> simp
  · split <;> simp

/-- C06: without Windows rules there is no drive. -/
theorem splitdrive_posix (k : Cfg) (hk : k.isWin = false) (p : Str) :
    k.splitdrive p = ([], p) := by simp [Cfg.splitdrive, hk]

/-- C06: a drive is empty, one character and a colon, or a UNC share starting with two
separators. -/
theorem splitdrive_drive_shape (k : Cfg) (p : Str) :
    (k.splitdrive p).1 = [] ∨ (∃ c, (k.splitdrive p).1 = [c, ':']) ∨
      ∃ r, (k.splitdrive p).1 = k.sep :: k.sep :: r := by
  unfold Cfg.splitdrive
  by_cases h1 : k.isWin = true <;> by_cases h2 : 2 ≤ p.length <;> simp [h1, h2]
  have hlen : 2 ≤ (k.normcase p).length := by
    unfold Cfg.normcase
    split
    · exact h2
    · simpa [replaceC] using h2
  generalize k.normcase p = q at *
  match q, hlen with
  | a :: b :: r, _ =>
    simp only [List.take_succ_cons, List.take_zero, List.cons.injEq, and_true, List.drop_succ_cons,
      List.drop_zero]
    split
    · rename_i hh
      obtain ⟨⟨rfl, rfl⟩, -⟩ := hh
      split
      · simp
      · rename_i i hi
        have hi2 : 2 ≤ i := by
          simp only [find, Option.map_eq_some_iff] at hi
          obtain ⟨x, -, hx⟩ := hi; omega
        split
        · right; right; exact ⟨r, rfl⟩
        · rename_i j hj
          have hj2 : i + 1 ≤ j := by
            simp only [find, Option.map_eq_some_iff] at hj
            obtain ⟨x, -, hx⟩ := hj; omega
          split
          · simp
          · right; right
            obtain ⟨m, rfl⟩ : ∃ m, j = m + 2 := ⟨j - 2, by omega⟩
            exact ⟨List.take m r, by simp⟩
    · split
      · rename_i hb
        simp at hb
        subst hb
        right; left; exact ⟨a, by simp⟩
      · simp

/-! ## C07 -/

/-- C07: the components of an absolute canonical path are its names. -/
theorem components_of_absPath (h : k.Posix) {names : List Str} (hn : ∀ w ∈ names, Proper k.sep w) :
    k.pathComponents (absPath k.sep names) = names := by
  unfold Cfg.pathComponents
  simp only [h.splitdrive, absPath]
  by_cases he : join k.sep names = []
  · have : names = [] := by
      rcases join_eq_nil he with e | e
      · exact e
      · exact absurd rfl (hn [] (by simp [e])).1
    simp [this, join]
  · rw [if_neg (by simp [he])]
    have hne : names ≠ [] := by rintro rfl; simp [join] at he
    rw [split_abs, split_join hne (proper_no_sep hn)]
    simp only [ne_eq, not_true, if_false]
    cases names with
    | nil => exact absurd rfl hne
    | cons w ws =>
      have := (hn w (by simp)).1
      cases w with
      | nil => exact absurd rfl this
      | cons => rfl

/-- C07: components → path gives the absolute canonical path with these names. -/
theorem path_of_components (h : k.Posix) {names : List Str} (hn : ∀ w ∈ names, Proper k.sep w) :
    k.componentsToPath names = absPath k.sep names := by
  simp only [Cfg.componentsToPath, h.startsWithRoot, startsWithC_eq, isAbs_join_names hn]
  simp [absPath]

/-- C07: decomposing and recomposing a canonical absolute path is the identity. -/
theorem components_roundtrip (h : k.Posix) {p : Str} (hp : AbsCanon k.sep p) :
    k.componentsToPath (k.pathComponents p) = p := by
  obtain ⟨names, hn, rfl⟩ := hp
  rw [components_of_absPath h hn, path_of_components h hn]

/-- C07: every list of proper names comes from exactly one canonical absolute path. -/
theorem components_unique (h : k.Posix) {names : List Str} (hn : ∀ w ∈ names, Proper k.sep w) :
    ∃ p, (AbsCanon k.sep p ∧ k.pathComponents p = names) ∧
      ∀ q, AbsCanon k.sep q → k.pathComponents q = names → q = p := by
  refine ⟨absPath k.sep names, ⟨⟨names, hn, rfl⟩, components_of_absPath h hn⟩, ?_⟩
  rintro q ⟨ms, hm, rfl⟩ he
  rw [components_of_absPath h hm] at he
  rw [he]

/-! ## Non-vacuity -/

/-- A concrete POSIX configuration. -/
def linux : Cfg := posixCfg '/' (fun s => s.map Char.toLower) (fun s => s.map fun c => c.toNat.toUInt8)
  (fun b => b.map fun x => Char.ofNat x.toNat)

theorem linux_posix : linux.Posix := ⟨rfl, rfl, by decide, Or.inl rfl⟩

/-- A Windows configuration: `\` with `/` as alternative. -/
def windows : Cfg := { linux with sep := '\\', altsep := some '/', isWin := true, caseSens := false }

example : linux.normpath "/a//b/./../c/".toList = "/a/c".toList := by decide
example : linux.normpath "../x/../..".toList = "../..".toList := by decide
example : linux.absnormpath "/home".toList "../a/./b".toList = "/a/b".toList := by decide
example : linux.joinpaths ["a".toList, "/b".toList, "c".toList] = "/b/c".toList := by decide
example : linux.splitpath "/a/b//c".toList = ("/a/b".toList, "c".toList) := by decide
example : windows.splitdrive "//host/share/x".toList = ("\\\\host\\share".toList, "\\x".toList) := by decide
example : linux.pathComponents "/foo/bar".toList = ["foo".toList, "bar".toList] := by decide
example : AbsCanon '/' "/foo/bar".toList :=
  ⟨["foo".toList, "bar".toList], by decide, by decide⟩

/-- Finding: on a Windows filesystem `normpath` is not idempotent: `.\c:.` ↦ `c:.` ↦ `c:`. -/
theorem windows_normpath_not_idempotent :
    windows.normpath (windows.normpath ".\\c:.".toList) ≠ windows.normpath ".\\c:.".toList := by
  decide

end Verif
