import Verif.PathResolve
import Verif.Props.Realpath
/-!
# The paths `Path.resolve` works on

They have one or (if the current directory is the root) two leading separators.
-/

namespace Verif
open Py Spec Cfg

/-- the location `l` as a path: nothing for the root, and an additional separator if `d` -/
def pth (c : Char) (d : Bool) (l : List Str) : Str := (if d then [c] else []) ++ (if l = [] then [] else absPath c l)

/-- the path is written as one of these -/
def At (c : Char) (l : List Str) (p : Str) : Prop := ∃ d, p = pth c d l

theorem pth_snoc {c : Char} {d : Bool} {l : List Str} {w : Str} : pth c d l ++ c :: w = pth c d (l ++ [w]) := by
  unfold pth
  rw [if_neg (by simp : l ++ [w] ≠ [])]
  by_cases h : l = []
  · subst h; simp [absPath, join]
  · rw [if_neg h]
    unfold absPath
    rw [join_append c h (by simp)]
    simp [join]

theorem At.snoc {c : Char} {l : List Str} {p w : Str} (h : At c l p) : At c (l ++ [w]) (p ++ c :: w) := by
  obtain ⟨d, rfl⟩ := h
  exact ⟨d, pth_snoc⟩

theorem At.up {c : Char} {l : List Str} {p : Str} (hl : ∀ w ∈ l, Proper c w) (h : At c l p) : At c l.dropLast (beforeLast c p) := by
  obtain ⟨d, rfl⟩ := h
  rcases List.eq_nil_or_concat l with rfl | ⟨l', w, rfl⟩
  · refine ⟨false, ?_⟩
    cases d <;> simp [pth, beforeLast, split, join]
  · rw [List.concat_eq_append] at hl ⊢
    refine ⟨d, ?_⟩
    rw [List.dropLast_concat, ← pth_snoc]
    unfold beforeLast
    rw [split_append_sep, split_no_sep (hl w (by simp)).2.2.2, List.dropLast_concat]
    exact join_split c _

theorem At.nil {c : Char} : At c [] [] := ⟨false, by simp [pth]⟩

theorem parts_pth {c : Char} {d : Bool} {l : List Str} (hl : ∀ w ∈ l, Proper c w) : (split c (pth c d l)).filter (· ≠ []) = l := by
  have h0 : (split c (if l = [] then [] else absPath c l)).filter (· ≠ []) = l := by
    by_cases h : l = []
    · subst h; simp [split]
    · rw [if_neg h]
      unfold absPath
      rw [split_abs, split_join h (fun w hw => (hl w hw).2.2.2)]
      simp only [ne_eq, not_true, decide_false, List.filter_cons_of_neg, Bool.false_eq_true, not_false_eq_true]
      rw [List.filter_eq_self]
      intro w hw
      simpa using (hl w hw).1
  unfold pth
  cases d
  · simpa using h0
  · simp only [if_true, List.singleton_append, split_abs]
    simpa using h0

theorem At.inj {c : Char} {l l' : List Str} {p : Str} (hl : ∀ w ∈ l, Proper c w) (hl' : ∀ w ∈ l', Proper c w) (h : At c l p) (h' : At c l' p) : l = l' := by
  obtain ⟨d, rfl⟩ := h
  obtain ⟨d', h'⟩ := h'
  rw [← parts_pth (d := d) hl, h', parts_pth hl']

theorem normpath_slash {k : Cfg} (h : k.Posix) {names : List Str} (hn : ∀ w ∈ names, Proper k.sep w) :
    k.normpath (k.sep :: absPath k.sep names) = absPath k.sep names := by
  rw [normpath_posix h, if_pos ⟨_, rfl⟩, absPath, split_abs, split_abs]
  have : Cfg.collapse true ([] :: [] :: split k.sep (join k.sep names)) [] = names := by
    unfold Cfg.collapse
    simp only [true_or, if_true]
    unfold Cfg.collapse
    simp only [true_or, if_true]
    rcases split_join_names (fun w hw => (hn w hw).2.2.2) with h1 | ⟨h1, h2⟩
    · rw [h1]; simpa using collapse_names true (acc := []) hn
    · rw [h2, h1]; simp [Cfg.collapse]
  rw [this]

theorem absnorm_slash {s : FS} (hi : Inv s) (hp : s.cfg.Posix) {l : List Str} (hl : ∀ w ∈ l, Proper s.cfg.sep w) :
    s.absnorm (s.cfg.sep :: absPath s.cfg.sep l) = absPath s.cfg.sep l := by
  unfold FS.absnorm
  rw [absnormpath_absolute hp (hi.n.cwd hp) ⟨_, rfl⟩]
  exact normpath_slash hp hl

/-- the path returned for a location -/
theorem At.absnorm {s : FS} (hi : Inv s) (hp : s.cfg.Posix) {l : List Str} {p : Str} (hl : ∀ w ∈ l, Proper s.cfg.sep w)
    (h : At s.cfg.sep l p) : s.absnorm (if p = [] then [s.cfg.sep] else p) = absPath s.cfg.sep l := by
  obtain ⟨d, rfl⟩ := h
  by_cases hl0 : l = []
  · subst hl0
    have : (if pth s.cfg.sep d [] = [] then [s.cfg.sep] else pth s.cfg.sep d []) = absPath s.cfg.sep [] := by
      cases d <;> simp [pth, absPath, join]
    rw [this]
    exact absnorm_canon hi hp (absCanon_names hl)
  · cases d
    · have : pth s.cfg.sep false l = absPath s.cfg.sep l := by simp [pth, hl0]
      rw [this, if_neg absPath_ne_nil]
      exact absnorm_canon hi hp (absCanon_names hl)
    · have : pth s.cfg.sep true l = s.cfg.sep :: absPath s.cfg.sep l := by simp [pth, hl0]
      rw [this, if_neg (by simp)]
      exact absnorm_slash hi hp hl

theorem endsWithSep_slash {k : Cfg} (hp : k.Posix) {l : List Str} {w : Str} (hl : ∀ v ∈ l, Proper k.sep v) (hw : Proper k.sep w) :
    k.endsWithSep (k.sep :: absPath k.sep (l ++ [w])) = false := by
  have h := absCanon_not_endsWithSep hp (p := absPath k.sep (l ++ [w])) (absCanon_names (fun v hv => by
    rcases List.mem_append.mp hv with hv | hv
    · exact hl v hv
    · simp at hv; rw [hv]; exact hw))
  have hne : absPath k.sep (l ++ [w]) ≠ [k.sep] := absPath_snoc_ne_root hl hw
  have hnil : absPath k.sep (l ++ [w]) ≠ [] := absPath_ne_nil
  have hg : endsWithC k.sep (k.sep :: absPath k.sep (l ++ [w])) = endsWithC k.sep (absPath k.sep (l ++ [w])) := by
    obtain ⟨a, t, e⟩ := List.exists_cons_of_ne_nil hnil
    rw [e]
    simp [endsWithC]
  unfold Cfg.endsWithSep at h ⊢
  rw [hg]
  simp only [hp.altsep, Bool.or_false] at h ⊢
  rw [decide_eq_true (by simp [hnil, hne])] at h
  simp only [Bool.true_and] at h
  rw [h, Bool.and_false]

theorem splitpath_slash {k : Cfg} (h : k.Posix) {names : List Str} {w : Str}
    (hn : ∀ x ∈ names, Proper k.sep x) (hw : Proper k.sep w) :
    k.splitpath (k.sep :: absPath k.sep (names ++ [w])) = (if names = [] then [k.sep] else k.sep :: absPath k.sep names, w) := by
  have hall : ∀ x ∈ names ++ [w], k.sep ∉ x := by
    intro x hx
    rcases List.mem_append.mp hx with hx | hx
    · exact (hn x hx).2.2.2
    · simp at hx; subst hx; exact hw.2.2.2
  have hsp : split k.sep (k.sep :: absPath k.sep (names ++ [w])) = ([] :: [] :: names) ++ [w] := by
    unfold absPath
    rw [split_abs, split_abs, split_join (by simp) hall]; rfl
  unfold Cfg.splitpath
  simp only [h.normcase, h.drive, hsp, List.dropLast_concat]
  simp only [List.cons_ne_nil, if_false, Bool.false_eq_true, false_and]
  have hg : ∀ l : List Str, (l ++ [w]).getLastD [] = w := by intro l; simp
  have hl : (([] :: [] :: names) ++ [w]).getLastD [] = w := hg _
  rw [hl]
  by_cases he : names = []
  · subst he; simp
  · have hany : (([] : Str) :: [] :: names).any (fun x => decide (x ≠ [])) = true := by
      obtain ⟨x, xs, rfl⟩ := List.exists_cons_of_ne_nil he
      have := (hn x (by simp)).1
      simp [this]
    rw [if_pos hany, if_neg he]
    have hd : Cfg.dropTrailingEmpty ([] :: [] :: names) = [] :: [] :: names := by
      unfold Cfg.dropTrailingEmpty
      have : ([] :: [] :: names).reverse.dropWhile (fun x => x == []) = ([] :: [] :: names).reverse := by
        rcases List.eq_nil_or_concat names with e | ⟨L, y, e⟩
        · exact absurd e he
        · rw [e, List.concat_eq_append]
          have hy := (hn y (by rw [e]; simp)).1
          simp [hy]
      rw [this, List.reverse_reverse]
    rw [hd]
    obtain ⟨x, xs, rfl⟩ := List.exists_cons_of_ne_nil he
    simp [absPath, join]

theorem validRel_slash {s : FS} (hp : s.cfg.Posix) (k : FS.Rec) {l : List Str} (hl : ∀ w ∈ l, Plain s.cfg.sep w) :
    s.validRelG k (s.cfg.sep :: absPath s.cfg.sep l) = .ok true := by
  unfold FS.validRelG
  rw [if_neg (by simp [hp.win])]
  have : cutAtLast (s.cfg.sep :: dotdot) (s.cfg.sep :: absPath s.cfg.sep l) = none := by
    have hd := hp.sepDot
    rw [cutAtLast, cutAtLast_plain hp hl]
    simp [absPath, dotdot, Ne.symm hd]
  cases (s.cfg.sep :: absPath s.cfg.sep l).length with
  | zero => rfl
  | succ n => simp only [FS.validLoop, this]

theorem resolve_slash {s : FS} (hi : Inv s) (ht : s.cfg.Tree) (k : FS.Rec) {l : List Str} {c : Bool} (hl : ∀ w ∈ l, Plain s.cfg.sep w) :
    s.resolveG k (s.cfg.sep :: absPath s.cfg.sep l) c = s.resolveG k (absPath s.cfg.sep l) c := by
  unfold FS.resolveG FS.resolvePathG
  rw [validRel_slash ht.posix k hl, validRel_plain ht.posix k hl, if_neg (by simp), if_neg absPath_ne_nil]
  simp only [originalPath_tree ht.cs, absnorm_slash hi ht.posix (plain_proper hl), absnorm_canon hi ht.posix (absCanon_names (plain_proper hl))]

theorem lresolve_slash {s : FS} (hi : Inv s) (ht : s.cfg.Tree) (k : FS.Rec) {l : List Str} {w : Str} (hl : ∀ w ∈ l, Plain s.cfg.sep w) (hw : Plain s.cfg.sep w) :
    s.lresolveG k (s.cfg.sep :: absPath s.cfg.sep (l ++ [w])) = s.lresolveG k (absPath s.cfg.sep (l ++ [w])) := by
  have hcan : AbsCanon s.cfg.sep (absPath s.cfg.sep (l ++ [w])) := absCanon_names (fun v hv => by
    rcases List.mem_append.mp hv with hv | hv
    · exact (hl v hv).1
    · simp at hv; rw [hv]; exact hw.1)
  have hp : s.lparent (absPath s.cfg.sep (l ++ [w])) = (absPath s.cfg.sep l, w) := by
    unfold FS.lparent
    simp only [stripTrailing_canon ht.posix hcan, absPath_ne_dot ht.posix, if_false, originalPath_tree ht.cs,
      splitpath_absPath ht.posix (plain_proper hl) hw.1, absPath_ne_nil]
  have hst : s.cfg.stripTrailing (s.cfg.sep :: absPath s.cfg.sep (l ++ [w])) = s.cfg.sep :: absPath s.cfg.sep (l ++ [w]) := by
    unfold Cfg.stripTrailing
    simp [Cfg.stripLoop, endsWithSep_slash ht.posix (plain_proper hl) hw.1]
  have hnd : s.cfg.sep :: absPath s.cfg.sep (l ++ [w]) ≠ dot := by simp [dot, absPath]
  have hp2 : s.lparent (s.cfg.sep :: absPath s.cfg.sep (l ++ [w])) = (if l = [] then [s.cfg.sep] else s.cfg.sep :: absPath s.cfg.sep l, w) := by
    unfold FS.lparent
    simp only [hst, hnd, if_false, originalPath_tree ht.cs, splitpath_slash ht.posix (plain_proper hl) hw.1]
    congr 1
    split <;> simp
  unfold FS.lresolveG
  rw [if_neg (by simp), if_neg absPath_ne_nil, if_neg (absPath_snoc_ne_root (plain_proper hl) hw.1), if_neg (by simp [Cfg.root, absPath]), hp, hp2]
  by_cases h : l = []
  · subst h; simp [absPath, join]
  · simp only [if_neg h, resolve_slash hi ht k hl]

/-- `readlink` does not depend on the number of leading separators -/
theorem readlink_at {s : FS} (hi : Inv s) (ht : s.cfg.Tree) {l : List Str} {w : Str} {p : Str} (hl : ∀ w ∈ l, Plain s.cfg.sep w) (hw : Plain s.cfg.sep w)
    (h : At s.cfg.sep (l ++ [w]) p) : s.readlink p = s.readlink (absPath s.cfg.sep (l ++ [w])) := by
  have hcan : AbsCanon s.cfg.sep (absPath s.cfg.sep (l ++ [w])) := absCanon_names (fun v hv => by
    rcases List.mem_append.mp hv with hv | hv
    · exact (hl v hv).1
    · simp at hv; rw [hv]; exact hw.1)
  obtain ⟨d, rfl⟩ := h
  cases d
  · simp [pth]
  · have : pth s.cfg.sep true (l ++ [w]) = s.cfg.sep :: absPath s.cfg.sep (l ++ [w]) := by simp [pth]
    rw [this]
    unfold FS.readlink FS.lresolve
    simp only [lresolve_slash hi ht _ hl hw, endsWithSep_slash ht.posix (plain_proper hl) hw.1, absCanon_not_endsWithSep ht.posix hcan, Bool.false_eq_true, if_false]

end Verif
