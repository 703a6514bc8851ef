import Verif.Pathlib
/-!
# C44: splitting off drive and root in pathlib
-/

namespace Verif
open Py

namespace Spec
/-- The root that pathlib gives a path with `n` leading separators: POSIX leaves the meaning of exactly two open, so they are kept;
any other number counts as one. -/
def posixRoot (sep : Char) : Nat → Str
  | 0 => []
  | 2 => [sep, sep]
  | _ => [sep]

/-- `w` does not start with a separator -/
def Relative (sep : Char) (w : Str) : Prop := ∀ q, w ≠ sep :: q
end Spec
open Spec

theorem lstrip_spec (c : Char) (p : Str) : ∃ n, p = List.replicate n c ++ lstrip c p ∧ Relative c (lstrip c p) := by
  induction p with
  | nil => exact ⟨0, rfl, fun q h => by simp [lstrip] at h⟩
  | cons x xs ih =>
    unfold lstrip
    by_cases h : x = c
    · obtain ⟨n, h1, h2⟩ := ih
      rw [if_pos h, h]
      refine ⟨n + 1, ?_, h2⟩
      rw [List.replicate_succ, List.cons_append, ← h1]
    · rw [if_neg h]
      refine ⟨0, rfl, ?_⟩
      intro q e
      injection e with e _
      exact h e

/-- **C44** (POSIX). `splitroot` splits a path into the leading separators and the rest, which does not start with a separator;
the root is empty, one separator or (exactly for two leading separators) two, there is no drive. So no part of the path is lost
except the number of leading separators if it is three or more. -/
theorem splitroot_posix {k : Cfg} (hk : k.isWin = false) (p : Str) :
    ∃ n rest, p = List.replicate n k.sep ++ rest ∧ Relative k.sep rest ∧ k.splitroot p = ([], posixRoot k.sep n, rest) := by
  unfold Cfg.splitroot
  rw [hk, if_neg (by simp)]
  unfold splitrootPosix
  by_cases h : p.head? = some k.sep
  · rw [if_pos h]
    obtain ⟨n, h1, h2⟩ := lstrip_spec k.sep p
    refine ⟨n, lstrip k.sep p, h1, h2, ?_⟩
    have hlen : p.length - (lstrip k.sep p).length = n := by
      have := congrArg List.length h1
      simp at this
      omega
    have hn : n ≠ 0 := by
      intro h0
      subst h0
      simp at h1
      rw [← h1] at h2
      cases p with
      | nil => simp at h
      | cons x xs => simp at h; exact h2 xs (by rw [h])
    dsimp only
    rw [hlen]
    by_cases h3 : n = 2
    · rw [if_pos h3, h3]; rfl
    · rw [if_neg h3]
      match n, hn, h3 with
      | 1, _, _ => rfl
      | n + 3, _, _ => rfl
  · rw [if_neg h]
    refine ⟨0, p, rfl, ?_, rfl⟩
    intro q e
    rw [e] at h
    simp at h

/-- the four cases -/
example : (posixCfg '/' id (fun _ => []) (fun _ => [])).splitroot ['/', '/', '/', 'a', '/', 'b'] = ([], ['/'], ['a', '/', 'b']) ∧
    (posixCfg '/' id (fun _ => []) (fun _ => [])).splitroot ['/', '/', 'a'] = ([], ['/', '/'], ['a']) ∧
    (posixCfg '/' id (fun _ => []) (fun _ => [])).splitroot ['/', 'a'] = ([], ['/'], ['a']) ∧
    (posixCfg '/' id (fun _ => []) (fun _ => [])).splitroot ['a', '/'] = ([], [], ['a', '/']) := by decide

/-! ## Windows -/

theorem take_one {c : Char} {p : Str} (h : p.take 1 = [c]) : ∃ q, p = c :: q := by
  cases p with
  | nil => simp at h
  | cons x xs => simp at h; exact ⟨xs, by rw [h]⟩

theorem splitDriveRoot_spec (pre p : Str) (sep : Char) :
    ∃ drv n root rest, splitDriveRoot pre p sep = (pre ++ drv, root, rest) ∧ p = drv ++ List.replicate n sep ++ rest ∧ Relative sep rest ∧
      ((n = 0 ∧ root = []) ∨ (n ≠ 0 ∧ root = [sep])) ∧ (drv = [] ∨ ∃ c, isDriveLetter c = true ∧ drv = [c, ':']) := by
  unfold splitDriveRoot
  by_cases hd : (p.drop 1).take 1 = [':'] ∧ p.head?.any isDriveLetter = true
  · simp only [hd, and_self, if_true]
    obtain ⟨h1, h2⟩ := hd
    have hp : ∃ c q, isDriveLetter c = true ∧ p = c :: ':' :: q := by
      match p with
      | [] => simp at h1
      | [x] => simp at h1
      | x :: y :: q =>
        simp at h1 h2
        exact ⟨x, q, h2, by rw [h1]⟩
    obtain ⟨c, q, hc, rfl⟩ := hp
    simp only [List.drop_succ_cons, List.drop_zero, List.take_succ_cons, List.take_zero]
    by_cases hf : q.take 1 = [sep]
    · rw [if_pos hf]
      obtain ⟨n, h3, h4⟩ := lstrip_spec sep q
      refine ⟨[c, ':'], n, _, _, rfl, by simp only [List.cons_append, List.nil_append]; rw [← h3], h4, Or.inr ⟨?_, hf⟩, Or.inr ⟨c, hc, rfl⟩⟩
      rintro rfl
      simp at h3
      rw [← h3] at h4
      obtain ⟨q', hq'⟩ := take_one hf
      exact h4 q' hq'
    · rw [if_neg hf]
      refine ⟨[c, ':'], 0, _, _, rfl, rfl, ?_, Or.inl ⟨rfl, rfl⟩, Or.inr ⟨c, hc, rfl⟩⟩
      intro q' e
      rw [e] at hf
      simp at hf
  · simp only [hd, if_false]
    by_cases hf : p.take 1 = [sep]
    · rw [if_pos hf]
      obtain ⟨n, h3, h4⟩ := lstrip_spec sep p
      refine ⟨[], n, _, _, by simp, by simpa using h3, h4, Or.inr ⟨?_, hf⟩, Or.inl rfl⟩
      rintro rfl
      simp at h3
      rw [← h3] at h4
      obtain ⟨q', hq'⟩ := take_one hf
      exact h4 q' hq'
    · rw [if_neg hf]
      refine ⟨[], 0, [], p, by simp, by simp, ?_, Or.inl ⟨rfl, rfl⟩, Or.inl rfl⟩
      intro q' e
      rw [e] at hf
      simp at hf

theorem find_some {c : Char} {p : Str} {i j : Nat} (h : find c p i = some j) : i ≤ j ∧ ∃ q, p.drop j = c :: q := by
  unfold find at h
  cases hf : (p.drop i).findIdx? (· == c) with
  | none => rw [hf] at h; simp at h
  | some m =>
    rw [hf] at h
    simp only [Option.map_some, Option.some.injEq] at h
    subst h
    refine ⟨by omega, ?_⟩
    obtain ⟨hm, hv, _⟩ := List.findIdx?_eq_some_iff_getElem.mp hf
    have hv : (p.drop i)[m] = c := by simpa using hv
    refine ⟨(p.drop (m + i)).drop 1, ?_⟩
    rw [List.drop_eq_getElem_cons (by simp at hm; omega : m + i < p.length)]
    simp only [List.drop_succ_cons, List.drop_zero]
    congr 1
    rw [← hv, List.getElem_drop]
    congr 1
    omega

theorem splitExtended_spec (p : Str) :
    splitExtended p = ([], p) ∨
    (∃ q, p = extPrefix ++ q ∧ splitExtended p = (extPrefix, q)) ∨
    ∃ q, p = extPrefix ++ ['U', 'N', 'C'] ++ '\\' :: q ∧ splitExtended p = (extPrefix ++ ['U', 'N', 'C'], '\\' :: '\\' :: q) := by
  unfold splitExtended
  by_cases h : extPrefix.isPrefixOf p = true
  · rw [if_pos h]
    obtain ⟨q, rfl⟩ := List.isPrefixOf_iff_prefix.mp h
    have e1 : (extPrefix ++ q).drop 4 = q := List.drop_left' rfl
    have e2 : (extPrefix ++ q).take 4 = extPrefix := List.take_left' rfl
    dsimp only
    rw [e1, e2]
    by_cases hu : ['U', 'N', 'C', '\\'].isPrefixOf q = true
    · rw [if_pos hu]
      obtain ⟨q', rfl⟩ := List.isPrefixOf_iff_prefix.mp hu
      exact Or.inr (Or.inr ⟨q', by simp, by simp⟩)
    · rw [if_neg hu]
      exact Or.inr (Or.inl ⟨q, rfl, rfl⟩)
  · rw [if_neg h]; exact Or.inl rfl

namespace Spec
/-- `(drv, root, rest)` is a splitting of the Windows path `p`: put together (with some number of separators between drive and
rest, none only if the root is empty or nothing follows) they give `p`; the root is empty or one separator; the drive is empty, a
letter with a colon, or starts with two separators (UNC and extended paths), and only in the last case the rest may start with a
separator. -/
def DriveSplit (sep : Char) (p drv root rest : Str) : Prop :=
  ∃ n, p = drv ++ List.replicate n sep ++ rest ∧ ((n = 0 ∧ root = []) ∨ (n ≠ 0 ∧ root = [sep]) ∨ (n = 0 ∧ root = [sep] ∧ rest = [])) ∧
    (drv = [] ∨ (∃ c, isDriveLetter c = true ∧ drv = [c, ':']) ∨ ∃ q, drv = sep :: sep :: q) ∧
    (Relative sep rest ∨ ∃ q, drv = sep :: sep :: q)
end Spec

/-- **C44** (Windows). The same for a Windows filesystem, with drives, UNC and extended paths. Excluded are paths starting with
`\\?\\\`, where the code drops a separator (`splitroot_extended_counterexample`). -/
theorem splitroot_windows {k : Cfg} (hk : k.isWin = true) {p : Str} (hx : ∀ q, p ≠ extPrefix ++ '\\' :: '\\' :: q) :
    ∃ drv root rest, k.splitroot p = (drv, root, rest) ∧ DriveSplit k.sep p drv root rest := by
  unfold Cfg.splitroot
  rw [hk, if_pos rfl]
  generalize k.sep = sep
  unfold splitrootDrive
  -- the extended prefix
  have plain : ∀ q, p = q → ∃ drv root rest, splitDriveRoot [] q sep = (drv, root, rest) ∧ DriveSplit sep p drv root rest := by
    rintro q rfl
    obtain ⟨drv, n, root, rest, h1, h2, h3, h4, h5⟩ := splitDriveRoot_spec [] p sep
    refine ⟨_, _, _, h1, n, by simpa using h2, ?_, ?_, Or.inl h3⟩
    · rcases h4 with h4 | h4
      · exact Or.inl h4
      · exact Or.inr (Or.inl h4)
    · simp only [List.nil_append]
      rcases h5 with h5 | h5
      · exact Or.inl h5
      · exact Or.inr (Or.inl h5)
  have unc : (p.drop 1).take 1 = [sep] ∧ p.take 1 = [sep] → ∃ drv root rest,
      (match find sep p 2 with
      | none => splitDriveRoot [] p sep
      | some i =>
        match find sep p (i + 1) with
        | none => (if ([] : Str) ≠ [] then [] ++ p.drop 1 else p, [sep], [])
        | some j =>
          if j = i + 1 then splitDriveRoot [] p sep
          else (if ([] : Str) ≠ [] then [] ++ (p.take j).drop 1 else p.take j, [sep], p.drop (j + 1))) = (drv, root, rest) ∧ DriveSplit sep p drv root rest := by
    rintro ⟨h1, h2⟩
    obtain ⟨q, rfl⟩ := take_one h2
    obtain ⟨q, rfl⟩ := take_one (p := q) (by simpa using h1)
    cases hi : find sep (sep :: sep :: q) 2 with
    | none => exact plain _ rfl
    | some i =>
      have h2i := (find_some hi).1
      dsimp only
      cases hj : find sep (sep :: sep :: q) (i + 1) with
      | none =>
        refine ⟨_, _, _, rfl, 0, by simp, Or.inr (Or.inr ⟨rfl, rfl, rfl⟩), Or.inr (Or.inr ⟨q, by simp⟩), Or.inr ⟨q, by simp⟩⟩
      | some j =>
        dsimp only
        obtain ⟨hij, r, hr⟩ := find_some hj
        by_cases hji : j = i + 1
        · rw [if_pos hji]; exact plain _ rfl
        · rw [if_neg hji]
          have h2j : 2 ≤ j := by omega
          obtain ⟨j', rfl⟩ : ∃ j', j = j' + 2 := ⟨j - 2, by omega⟩
          refine ⟨_, _, _, rfl, 1, ?_, Or.inr (Or.inl ⟨by simp, rfl⟩), Or.inr (Or.inr ⟨q.take j', by simp⟩), Or.inr ⟨q.take j', by simp⟩⟩
          have e1 : (sep :: sep :: q).drop (j' + 2 + 1) = r := by
            rw [← List.drop_drop, hr]; rfl
          rw [e1]
          simp only [ne_eq, not_true_eq_false, if_false, List.replicate_one, List.append_assoc, List.cons_append, List.nil_append]
          rw [← hr, List.take_append_drop]
  by_cases hc : (p.drop 1).take 1 = [sep] ∧ p.take 1 = [sep]
  · rw [if_pos hc]
    rcases splitExtended_spec p with he | ⟨q, hq, he⟩ | ⟨q, hq, he⟩
    · rw [he]
      dsimp only
      split
      · exact unc hc
      · exact plain _ rfl
    · rw [he]
      have hsep : sep = '\\' := by
        have := hc.2
        rw [hq] at this
        simp [extPrefix] at this
        exact this.symm
      subst hsep
      dsimp only
      have hnu : ¬ ((q.drop 1).take 1 = ['\\'] ∧ q.take 1 = ['\\'] ∧ (q.drop 2).take 1 ≠ ['\\']) := by
        rintro ⟨h1, h2, _⟩
        obtain ⟨q, rfl⟩ := take_one h2
        obtain ⟨q, rfl⟩ := take_one (p := q) (by simpa using h1)
        exact hx q hq
      rw [if_neg hnu]
      obtain ⟨drv, n, root, rest, h1, h2, h3, h4, h5⟩ := splitDriveRoot_spec extPrefix q '\\'
      refine ⟨_, _, _, h1, n, by rw [hq, h2]; simp, ?_, Or.inr (Or.inr ⟨_, rfl⟩), Or.inl h3⟩
      rcases h4 with h4 | h4
      · exact Or.inl h4
      · exact Or.inr (Or.inl h4)
    · rw [he]
      have hsep : sep = '\\' := by
        have := hc.2
        rw [hq] at this
        simp [extPrefix] at this
        exact this.symm
      subst hsep
      dsimp only
      have fin : ∃ drv root rest, splitDriveRoot (extPrefix ++ ['U', 'N', 'C']) ('\\' :: '\\' :: q) '\\' = (drv, root, rest) ∧ DriveSplit '\\' p drv root rest := by
        obtain ⟨n, h3, h4⟩ := lstrip_spec '\\' q
        have hl : splitDriveRoot (extPrefix ++ ['U', 'N', 'C']) ('\\' :: '\\' :: q) '\\' = (extPrefix ++ ['U', 'N', 'C'], ['\\'], lstrip '\\' q) := by
          unfold splitDriveRoot
          simp [lstrip]
        refine ⟨_, _, _, hl, n + 1, ?_, Or.inr (Or.inl ⟨by simp, rfl⟩), Or.inr (Or.inr ⟨_, rfl⟩), Or.inl h4⟩
        rw [List.append_assoc, List.replicate_succ, List.cons_append, ← h3, hq]
      split
      · cases hi : find '\\' ('\\' :: '\\' :: q) 2 with
        | none => exact fin
        | some i =>
          have h2i := (find_some hi).1
          dsimp only
          cases hj : find '\\' ('\\' :: '\\' :: q) (i + 1) with
          | none =>
            refine ⟨_, _, _, rfl, 0, ?_, Or.inr (Or.inr ⟨rfl, rfl, rfl⟩), Or.inr (Or.inr ⟨_, rfl⟩), Or.inr ⟨_, rfl⟩⟩
            rw [hq, if_pos (by simp [extPrefix])]
            simp
          | some j =>
            dsimp only
            obtain ⟨hij, r, hr⟩ := find_some hj
            by_cases hji : j = i + 1
            · rw [if_pos hji]; exact fin
            · rw [if_neg hji]
              obtain ⟨j', rfl⟩ : ∃ j', j = j' + 2 := ⟨j - 2, by omega⟩
              have e1 : ('\\' :: '\\' :: q).drop (j' + 2 + 1) = r := by
                rw [← List.drop_drop, hr]; rfl
              refine ⟨_, _, _, rfl, 1, ?_, Or.inr (Or.inl ⟨by simp, rfl⟩), Or.inr (Or.inr ⟨_, rfl⟩), Or.inr ⟨_, rfl⟩⟩
              rw [hq, e1, if_pos (by simp [extPrefix])]
              have hr' : q.drop j' = '\\' :: r := by simpa using hr
              simp only [List.take_succ_cons, List.drop_succ_cons, List.drop_zero, List.replicate_one, List.append_assoc, List.cons_append, List.nil_append]
              rw [← hr', List.take_append_drop]
      · exact fin
  · rw [if_neg hc]
    dsimp only
    rw [if_neg (by rintro ⟨h1, h2, _⟩; exact hc ⟨h1, h2⟩)]
    exact plain _ rfl

/-- a Windows filesystem -/
def winCfg : Cfg where
  sep := '\\'
  altsep := some '/'
  isWin := true
  isMac := false
  caseSens := false
  lower := id
  enc := fun _ => []
  dec := fun _ => []
  devNull := ['N', 'U', 'L']

/-- drive letter, UNC, extended and extended UNC paths -/
example : winCfg.splitroot "c:\\\\a\\b".toList = ("c:".toList, "\\".toList, "a\\b".toList) ∧
    winCfg.splitroot "\\\\m\\s\\a".toList = ("\\\\m\\s".toList, "\\".toList, "a".toList) ∧
    winCfg.splitroot "\\\\?\\c:\\a".toList = ("\\\\?\\c:".toList, "\\".toList, "a".toList) ∧
    winCfg.splitroot "\\\\?\\UNC\\m\\s\\a".toList = ("\\\\?\\UNC\\m\\s".toList, "\\".toList, "a".toList) := by decide +kernel

/-- The excluded case: from `\\?\\\m\s` a separator is lost in the drive. -/
theorem splitroot_extended_counterexample :
    winCfg.splitroot "\\\\?\\\\\\m\\s".toList = ("\\\\?\\\\m\\s".toList, "\\".toList, []) ∧
    ∀ drv root rest, winCfg.splitroot "\\\\?\\\\\\m\\s".toList = (drv, root, rest) → ¬ DriveSplit '\\' "\\\\?\\\\\\m\\s".toList drv root rest := by
  have h : winCfg.splitroot "\\\\?\\\\\\m\\s".toList = ("\\\\?\\\\m\\s".toList, "\\".toList, []) := by decide +kernel
  refine ⟨h, ?_⟩
  intro drv root rest e
  rw [h] at e
  injection e with e1 e2
  injection e2 with e2 e3
  subst e1 e2 e3
  rintro ⟨n, hn, _⟩
  have := congrArg List.length hn
  simp at this
  subst this
  revert hn
  decide +kernel

end Verif
