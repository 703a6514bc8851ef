import Verif.Pres
import Verif.Props.Paths
/-!
# Paths in states satisfying the invariant
-/

namespace Verif
open Py Spec

theorem splitpath_absPath {k : Cfg} (h : k.Posix) {names : List Str} {w : Str}
    (hn : ∀ x ∈ names, Proper k.sep x) (hw : Proper k.sep w) :
    k.splitpath (absPath k.sep (names ++ [w])) = (absPath k.sep names, w) := by
  have hall : ∀ x ∈ names ++ [w], k.sep ∉ x := by
    intro x hx
    rcases List.mem_append.mp hx with hx | hx
    · exact (hn x hx).2.2.2
    · simp at hx; subst hx; exact hw.2.2.2
  have hsp : split k.sep (absPath k.sep (names ++ [w])) = ([] :: names) ++ [w] := by
    unfold absPath
    rw [split_abs, split_join (by simp) hall]; rfl
  unfold Cfg.splitpath
  simp only [h.normcase, h.drive, hsp, List.dropLast_concat]
  simp only [List.cons_ne_nil, if_false, Bool.false_eq_true, false_and]
  have hg : ∀ l : List Str, (l ++ [w]).getLastD [] = w := by intro l; simp
  have hl : (([] :: names) ++ [w]).getLastD [] = w := hg _
  rw [hl]
  by_cases he : names = []
  · subst he; simp [absPath, join]
  · have hany : (([] : Str) :: names).any (fun x => decide (x ≠ [])) = true := by
      obtain ⟨x, xs, rfl⟩ := List.exists_cons_of_ne_nil he
      have := (hn x (by simp)).1
      simp [this]
    rw [if_pos hany]
    have hd : Cfg.dropTrailingEmpty ([] :: names) = [] :: names := by
      unfold Cfg.dropTrailingEmpty
      have : ([] :: names).reverse.dropWhile (fun x => x == []) = ([] :: names).reverse := by
        rcases List.eq_nil_or_concat names with e | ⟨L, y, e⟩
        · exact absurd e he
        · rw [e, List.concat_eq_append]
          have hy := (hn y (by rw [e]; simp)).1
          simp [hy]
      rw [this, List.reverse_reverse]
    rw [hd]
    have hj : join k.sep ([] :: names) = absPath k.sep names := by
      rw [join_cons _ _ he]; rfl
    rw [hj]

theorem splitpath_root {k : Cfg} (h : k.Posix) : k.splitpath (absPath k.sep []) = (absPath k.sep [], []) := by
  unfold Cfg.splitpath
  simp [h.normcase, absPath, join, split]

theorem absPath_nil (k : Cfg) : absPath k.sep [] = k.root := by simp [absPath, join, Cfg.root]

/-- absolute paths in a state satisfying the invariant -/
theorem Inv.absnorm {s : FS} (h : Inv s) (hp : s.cfg.Posix) (p : Str) : AbsCanon s.cfg.sep (s.absnorm p) :=
  absnormpath_canonical hp ((h.n.cwd hp)) p

/-- the root directory or a proper name below a directory -/
theorem absCanon_cases {c : Char} {p : Str} (h : AbsCanon c p) :
    p = absPath c [] ∨ ∃ names w, (∀ x ∈ names, Proper c x) ∧ Proper c w ∧ p = absPath c (names ++ [w]) := by
  obtain ⟨l, hl, rfl⟩ := h
  rcases List.eq_nil_or_concat l with e | ⟨L, y, e⟩
  · left; rw [e]
  · right
    rw [List.concat_eq_append] at e
    subst e
    exact ⟨L, y, fun x hx => hl x (by simp [hx]), hl y (by simp), rfl⟩

theorem normpath_root {k : Cfg} (h : k.Posix) : k.normpath k.root = k.root := by
  apply normpath_canon_id h
  left; exact ⟨[], by simp, (absPath_nil k).symm⟩

theorem absnorm_root {s : FS} (h : s.cfg.Posix) (hc : isAbs s.cfg.sep s.cwd) : s.absnorm s.cfg.root = s.cfg.root := by
  have : isAbs s.cfg.sep s.cfg.root := ⟨[], rfl⟩
  unfold FS.absnorm
  rw [absnormpath_absolute h hc this, normpath_root h]

theorem endsWithSep_root (k : Cfg) : k.endsWithSep k.root = false := by
  simp [Cfg.endsWithSep, Cfg.root]

theorem cutAtLast_root (k : Cfg) : cutAtLast (k.sep :: Cfg.dotdot) k.root = none := by
  simp [cutAtLast, Cfg.root, Cfg.dotdot, List.isPrefixOf]

theorem exists_root {s : FS} (h : s.cfg.Posix) (hc : isAbs s.cfg.sep s.cwd) (k : FS.Rec) :
    s.existsG k s.cfg.root = .ok true := by
  have hv : s.validRelG k s.cfg.root = .ok true := by
    unfold FS.validRelG
    rw [if_neg (by simp [h.win])]
    have : s.cfg.root.length = 1 := rfl
    rw [this]
    simp [FS.validLoop, cutAtLast_root]
  have ho : s.cfg.caseSens = true ∨ s.originalPath s.cfg.root = s.cfg.root := by
    by_cases cs : s.cfg.caseSens = true
    · exact Or.inl cs
    · right
      unfold FS.originalPath
      rw [if_neg (by simp [cs, Cfg.root])]
      simp [Cfg.pathComponents, Cfg.root, FS.origComps, join, Cfg.startsWithSep, startsWithC, h.altsep]
  have ho : s.originalPath s.cfg.root = s.cfg.root := by
    rcases ho with cs | ho
    · simp [FS.originalPath, cs]
    · exact ho
  have hr : s.resolvePathG k s.cfg.root = .ok s.cfg.root := by
    unfold FS.resolvePathG
    rw [if_neg (by simp [Cfg.root]), hv]
    simp only [bind, Except.bind]
    rw [ho, absnorm_root h hc]
    simp [Cfg.isRootPath]
  unfold FS.existsG
  rw [if_neg (by simp [Cfg.root])]
  split
  · rfl
  · simp [FS.isFileSepG, endsWithSep_root, hr, bind, Except.bind, pure, Except.pure]

theorem existsL_root {s : FS} (hi : Inv s) (h : s.cfg.Posix) : s.existsL s.cfg.root = .ok true := by
  have hc : isAbs s.cfg.sep s.cwd := (hi.n.cwd h)
  unfold FS.existsL FS.existsLG FS.isLinkG FS.isOfTypeG FS.resolveFG
  have : s.lresolveG s.rc s.cfg.root = .ok rootRef := by
    unfold FS.lresolveG; simp [Cfg.root]
  simp [this, bind, Except.bind, FS.raiseForSepG, endsWithSep_root, pure, Except.pure, exists_root h hc]

end Verif
