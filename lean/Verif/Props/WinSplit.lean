import Verif.Props.WinJoin
import Verif.Hist
/-!
# C60: splitting Windows paths
-/

namespace Verif
open Py Spec Cfg

section
variable {k : Cfg}

/-- the pieces of `splitpath` -/
theorem splitpath_pieces (k : Cfg) (p : Str) : k.splitpath p =
    let P := k.normcase p
    let comps := (split k.sep P).dropLast
    let base := (split k.sep P).getLastD []
    if comps = [] then
      if k.startsWithDriveLetter P then ((split ':' base).headD [] ++ [':'], (split ':' base).tail.headD []) else ([], base)
    else if comps.any (· ≠ []) then
      if k.startsWithDriveLetter P ∧ (dropTrailingEmpty comps).length = 1 ∧ endsWithC ':' ((dropTrailingEmpty comps).headD []) then
        ((dropTrailingEmpty comps).headD [] ++ [k.sep], base)
      else (join k.sep (dropTrailingEmpty comps), base)
    else ([k.sep], base) := rfl

theorem splitpath_noDrive (W : k.Win) {p : Str} (h : k.startsWithDriveLetter (unify k.sep k.altsep p) = false) :
    k.splitpath p = k.posix.splitpath (unify k.sep k.altsep p) := by
  rw [splitpath_pieces, splitpath_pieces, (posix_ok W).normcase, normcase_eq]
  dsimp only
  rw [h, (posix_ok W).drive]
  rfl

theorem driveLetter_iff (W : k.Win) {P : Str} : k.startsWithDriveLetter P = true ↔ ∃ c r, P = c :: ':' :: r := by
  unfold Cfg.startsWithDriveLetter
  rw [W.win]
  match P with
  | [] => simp
  | [x] => simp
  | x :: y :: t => simp

/-- C60: splitting loses nothing but repeated separators: the path is the head, some separators and the tail; the tail contains no
separator; the head does not end with a separator unless it is the root directory or the root of a drive; and a drive letter stays
in the head. -/
theorem win_splitpath (W : k.Win) {p : Str}
    (hc : ∀ c r, unify k.sep k.altsep p = c :: ':' :: r → c ≠ ':' ∧ c ≠ k.sep ∧ ':' ∉ r) :
    ∃ n, unify k.sep k.altsep p = (k.splitpath p).1 ++ List.replicate n k.sep ++ (k.splitpath p).2 ∧
      k.sep ∉ (k.splitpath p).2 ∧
      ((k.splitpath p).1 = [] ∧ n = 0 ∨ (k.splitpath p).1 = [k.sep] ∨ (∃ c, (k.splitpath p).1 = [c, ':'] ∧ n = 0) ∨
        (∃ c, (k.splitpath p).1 = [c, ':', k.sep]) ∨ (∃ i x, (k.splitpath p).1 = i ++ [x] ∧ x ≠ k.sep) ∧ 0 < n) ∧
      ∀ c r, unify k.sep k.altsep p = c :: ':' :: r → ∃ r', (k.splitpath p).1 = c :: ':' :: r' := by
  generalize hP : unify k.sep k.altsep p = P at hc
  obtain ⟨n, h1, h2, h3⟩ := splitpath_shape (posix_ok W) P
  change P = _ ++ List.replicate n k.sep ++ _ at h1
  change k.sep ∉ _ at h2
  change _ ∨ (k.posix.splitpath P).1 = [k.sep] ∨ (∃ i x, (k.posix.splitpath P).1 = i ++ [x] ∧ x ≠ k.sep) ∧ 0 < n at h3
  by_cases hd : k.startsWithDriveLetter P = true
  · obtain ⟨c, r, rfl⟩ := (driveLetter_iff W).1 hd
    obtain ⟨hcc, hcs, hcr⟩ := hc c r rfl
    have hne : ¬ k.sep = c := fun e => hcs e.symm
    have e1 : k.splitpath p = _ := splitpath_pieces k p
    rw [normcase_eq, hP] at e1
    dsimp only at e1
    have e2 : k.posix.splitpath (c :: ':' :: r) = _ := splitpath_pieces k.posix (c :: ':' :: r)
    rw [(posix_ok W).normcase] at e2
    dsimp only at e2
    rw [(posix_ok W).drive] at e2
    simp only [Bool.false_eq_true, if_false, false_and, show k.posix.sep = k.sep from rfl] at e2
    by_cases hs : k.sep ∈ (c :: ':' :: r : Str)
    · -- at least two components
      have hdl : (split k.sep (c :: ':' :: r)).dropLast ≠ [] := by
        intro e
        rw [if_pos e] at e2
        rw [e2] at h1 h2 h3
        have hg : (split k.sep (c :: ':' :: r)).getLastD [] ≠ c :: ':' :: r := by
          intro g; rw [g] at h2; exact h2 hs
        rcases h3 with ⟨-, rfl⟩ | h3 | ⟨⟨i, x, h3, -⟩, -⟩
        · exact hg (by simpa using h1.symm)
        · cases h3
        · simp at h3
      rw [if_neg hdl] at e1 e2
      have hany : (split k.sep (c :: ':' :: r)).dropLast.any (· ≠ []) = true := by
        rw [← Bool.not_eq_false]
        intro e
        rw [if_neg (by rw [e]; simp)] at e2
        rw [e2] at h1
        simp only [List.cons_append] at h1
        injection h1 with h1 _
        exact hcs h1
      rw [if_pos hany] at e1 e2
      rw [hd] at e1
      simp only [true_and] at e1
      rw [e2] at h1 h2 h3
      dsimp only at h1 h2 h3
      have h4 : (∃ i x, join k.sep (dropTrailingEmpty (split k.sep (c :: ':' :: r)).dropLast) = i ++ [x] ∧ x ≠ k.sep) ∧ 0 < n := by
        rcases h3 with ⟨h3, h5⟩ | h3 | h3
        · rw [h3, h5] at h1
          simp only [List.replicate_zero, List.nil_append] at h1
          rw [← h1] at h2; exact absurd hs h2
        · rw [h3] at h1
          simp only [List.cons_append] at h1
          injection h1 with h1 _
          exact absurd h1 hcs
        · exact h3
      generalize hdt : dropTrailingEmpty (split k.sep (c :: ':' :: r)).dropLast = D at *
      generalize hB : (split k.sep (c :: ':' :: r)).getLastD [] = B at *
      by_cases hq : D.length = 1 ∧ endsWithC ':' (D.headD []) = true
      · rw [if_pos hq] at e1
        obtain ⟨w, rfl⟩ := List.length_eq_one_iff.1 hq.1
        have hw : w = [c, ':'] := by
          simp only [join] at h1 h4
          obtain ⟨⟨i, x, hx, hxs⟩, hn⟩ := h4
          have hw2 : w.getLast? = some ':' := by simpa [endsWithC] using hq.2
          obtain ⟨m, rfl⟩ : ∃ m, n = m + 1 := ⟨n - 1, by omega⟩
          match w, h1, hw2 with
          | [], _, h => simp at h
          | [a], h1, h =>
            simp only [List.cons_append, List.nil_append, List.replicate_succ] at h1
            injection h1 with _ h1
            injection h1 with h1 _
            exact absurd h1.symm W.sepColon
          | [a, b], h1, h =>
            simp only [List.cons_append] at h1
            injection h1 with e1 h1
            injection h1 with e2 h1
            rw [e1, e2]
          | a :: b :: y :: t, h1, h =>
            simp only [List.cons_append] at h1
            injection h1 with e1 h1
            injection h1 with e2 h1
            exfalso
            apply hcr
            rw [h1]
            have : ':' ∈ y :: t := List.mem_of_getLast? (by simpa using h)
            rcases List.mem_cons.1 this with g | g
            · rw [← g]; simp
            · simp [g]
        subst hw
        obtain ⟨m, rfl⟩ : ∃ m, n = m + 1 := ⟨n - 1, by omega⟩
        rw [e1]
        refine ⟨m, ?_, h2, .inr (.inr (.inr (.inl ⟨c, rfl⟩))), ?_⟩
        · rw [h1]; simp [join, List.replicate_succ]
        · intro c' r' e
          injection e with e _
          subst e
          exact ⟨[k.sep], rfl⟩
      · rw [if_neg hq] at e1
        rw [e1]
        refine ⟨n, h1, h2, .inr (.inr (.inr (.inr h4))), ?_⟩
        intro c' r' e
        injection e with e _
        subst e
        obtain ⟨⟨i, x, hx, hxs⟩, hn⟩ := h4
        dsimp only
        obtain ⟨m, rfl⟩ : ∃ m, n = m + 1 := ⟨n - 1, by omega⟩
        generalize join k.sep D = w at *
        match w, h1, hx with
        | [], _, h => simp at h
        | [a], h1, h =>
          simp only [List.cons_append, List.nil_append, List.replicate_succ] at h1
          injection h1 with _ h1
          injection h1 with h1 _
          exact absurd h1.symm W.sepColon
        | a :: b :: t, h1, h =>
          simp only [List.cons_append] at h1
          injection h1 with e1 h1
          injection h1 with e2 h1
          exact ⟨t, by rw [e1, e2]⟩
    · rw [split_no_sep hs] at e1
      simp only [List.dropLast_singleton, if_true, List.getLastD_cons, List.getLastD_nil, hd] at e1
      have es : split ':' (c :: ':' :: r) = [[c], r] := by
        have := split_append_sep ':' [c] r
        simp only [List.cons_append, List.nil_append] at this
        rw [this, split_no_sep (by simp [Ne.symm hcc]), split_no_sep hcr]; rfl
      rw [es] at e1
      rw [e1]
      refine ⟨0, by simp, ?_, .inr (.inr (.inl ⟨c, rfl, rfl⟩)), ?_⟩
      · intro h; apply hs; simp at h ⊢; simp [h]
      · intro c' r' e
        injection e with e _
        subst e
        exact ⟨[], rfl⟩
  · have hd' : k.startsWithDriveLetter P = false := by simpa using hd
    have e := splitpath_noDrive W (p := p) (by rw [hP]; exact hd')
    rw [hP] at e
    rw [e]
    refine ⟨n, h1, h2, ?_, ?_⟩
    · rcases h3 with h3 | h3 | h3
      · exact .inl h3
      · exact .inr (.inl h3)
      · exact .inr (.inr (.inr (.inr h3)))
    · intro c r hcr
      exact absurd ((driveLetter_iff W).2 ⟨c, r, hcr⟩) hd

/-- A second colon is lost by splitting (`os.path.split("c:a:b")`). -/
theorem win_split_counterexample : windows.splitpath "c:a:b".toList = ("c:".toList, "a".toList) := by decide +kernel

theorem toLower_backslash {c : Char} (h : c.toLower = '\\') : c = '\\' := by
  unfold Char.toLower at h
  split at h
  · rename_i hc
    exfalso
    have h1 : 65 ≤ c.val.toNat := by simpa [UInt32.le_iff_toNat_le] using hc.1
    have h2 : c.val.toNat ≤ 90 := by simpa [UInt32.le_iff_toNat_le] using hc.2
    have h3 := congrArg UInt32.toNat (congrArg Char.val h)
    rw [UInt32.toNat_add] at h3
    have h4 : (c.val.toNat + 32) % 2 ^ 32 = 92 := h3
    omega
  · exact h

/-- The Windows configuration meets the rules. -/
theorem windows_win : windows.Win := by
  refine ⟨rfl, by decide, by decide, ?_, .inr ?_⟩
  · intro a ha; cases ha; decide
  · intro p
    show (['\\'] : Str).isPrefixOf (p.map Char.toLower) = startsWithC '\\' p
    have hs : ('\\' : Char).toLower = '\\' := by decide
    cases p with
    | nil => rfl
    | cons a l =>
      rw [Bool.eq_iff_iff]
      simp only [List.map_cons, List.isPrefixOf, startsWithC, Bool.and_true, beq_iff_eq, List.head?_cons, Option.some.injEq]
      exact ⟨fun e => toLower_backslash e.symm, fun e => by rw [e, hs]⟩

theorem windows_low : windows.caseSens = true ∨ ∀ p, windows.lower p = windows.lower [] → p = [] :=
  .inr fun p h => by
    have h' : p.map Char.toLower = [] := h
    simpa using h'

theorem windows_env : EnvOk windows fun d => if isAbs '\\' d then [] else if d = [] then ["w".toList] else [] := by
  refine ⟨?_, fun d hd => if_pos hd⟩
  intro d e h
  have ha : isAbs '\\' d ↔ isAbs '\\' e := by
    rcases h with rfl | ⟨-, h⟩
    · exact Iff.rfl
    · have h1 := (windows_win.low.resolve_left (by decide)) d
      have h2 := (windows_win.low.resolve_left (by decide)) e
      rw [h, h2] at h1
      rw [← startsWithC_iff, ← startsWithC_iff]
      exact Bool.eq_iff_iff.1 h1.symm
  have hn : d = [] ↔ e = [] := by
    rcases h with rfl | ⟨-, h⟩
    · exact Iff.rfl
    · have h' : d.map Char.toLower = e.map Char.toLower := h
      rw [← List.map_eq_nil_iff (f := Char.toLower), h', List.map_eq_nil_iff]
  simp only [ha, hn]

/-- ordinary paths: with a drive letter, relative with both separators, on a network share -/
theorem windows_tame : Tame '\\' (some '/') "C:\\a\\b".toList ∧ Tame '\\' (some '/') "c/..\\d".toList ∧
    Tame '\\' (some '/') "//host/share/x".toList := by
  refine ⟨⟨"C:".toList, "\\a\\b".toList, by decide, by decide, ?_, .inr (.inl ⟨'C', by decide, by decide⟩)⟩,
    ⟨[], "c\\..\\d".toList, by decide, by decide, ?_, .inl rfl⟩,
    ⟨"\\\\host\\share".toList, "\\x".toList, by decide, by decide, ?_,
      .inr (.inr ⟨"host".toList, "share".toList, by decide, by decide, by decide, by decide, by decide, by decide, .inr ⟨['x'], rfl⟩⟩)⟩⟩
  all_goals rintro ⟨x, hx⟩; simp at hx

/-- C59, a concrete case: joining a path on a drive, a relative path and an absolute one of the same drive; a path on another drive. -/
example : windows.joinpaths ["C:\\a".toList, "b/c".toList] = "C:\\a\\b\\c".toList ∧
    windows.joinpaths ["C:\\a".toList, "c:b".toList] = "c:\\a\\b".toList ∧
    windows.joinpaths ["C:\\a".toList, "\\b".toList] = "C:\\b".toList ∧
    windows.joinpaths ["C:\\a".toList, "D:b".toList] = "D:b".toList ∧
    windows.joinpaths ["//host/share".toList, "b".toList] = "\\\\host\\share\\b".toList := by decide +kernel

/-- C59: paths that are not ordinary: joining invents a drive. -/
theorem win_join_counterexample :
    (windows.splitdrive (windows.joinpaths ["\\".toList, ":x".toList])).1 = "\\:".toList ∧
    (windows.splitdrive (windows.joinpaths ["\\\\a".toList, "b".toList])).1 = "\\\\a\\b".toList ∧
    (windows.splitdrive "\\".toList).1 = [] ∧ (windows.splitdrive ":x".toList).1 = [] ∧
    (windows.splitdrive "\\\\a".toList).1 = [] ∧ (windows.splitdrive "b".toList).1 = [] := by decide +kernel

/-- A Windows filesystem with a directory on a drive, which is the working directory. -/
def demoWin : FS := runs [.makedirs "C:\\w\\v".toList 0o777 false, .chdir "c:\\w/v".toList] (initFS windows 50 0 0 0o022 7 none)

/-- C59: a reachable state meets the hypotheses on the working directory. -/
theorem demoWin_cwd : ∃ c rc, WinCwd demoWin.cfg demoWin.cwd c rc :=
  ⟨'C', "\\w\\v".toList, by decide +kernel, by unfold Flat; decide +kernel, by decide +kernel,
    ⟨"w\\v".toList, by decide +kernel⟩, ⟨by decide +kernel, by rintro ⟨x, hx⟩; rw [show demoWin.cfg.sep = '\\' by decide +kernel] at hx; simp at hx⟩⟩

example : demoWin.abspath "..\\x".toList = "C:\\w\\x".toList ∧ demoWin.abspath "\\y".toList = "C:\\y".toList ∧
    demoWin.abspath "c:z".toList = "c:\\w\\v\\z".toList ∧ demoWin.abspath "D:z".toList = "D:z".toList := by decide +kernel

/-- C58: a concrete case. -/
example : windows.normpath "C:/a/../b\\.\\c/".toList = "C:\\b\\c".toList ∧ windows.normpath "C:.".toList = "C:".toList ∧
    windows.normpath "//h/s/../x".toList = "\\\\h\\s\\x".toList := by decide +kernel

/-- C60: a concrete case. -/
example : windows.splitpath "C:\\a".toList = ("C:\\".toList, "a".toList) ∧ windows.splitpath "C:a".toList = ("C:".toList, "a".toList) ∧
    windows.splitpath "C:\\a//b".toList = ("C:\\a".toList, "b".toList) := by decide +kernel

end
end Verif
