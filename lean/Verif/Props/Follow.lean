import Verif.Props.Lookup
import Verif.DemoFacts
/-!
# C20: what one followed link stands for
-/

namespace Verif
open Py Spec Cfg

/-- reading the components of a canonical path from the root -/
theorem components_location {k : Cfg} (h : k.Posix) {p : Str} (hp : Canon k.sep p) :
    (k.pathComponents p).foldl step [] = loc k.sep [] p := by
  rcases hp with ⟨names, hn, rfl⟩ | rfl | ⟨n, names, hn, hne, rfl⟩
  · rw [components_of_absPath h hn, loc, absPath, split_abs, foldl_step_nil_cons, if_pos ⟨_, rfl⟩]
    rcases split_join_names (proper_no_sep hn) with e | ⟨rfl, e⟩
    · rw [e]
    · rw [e]; rfl
  · unfold pathComponents
    rw [if_neg (by have := h.sepDot; simp [Ne.symm this]), h.splitdrive]
    unfold loc
    have e : split k.sep ['.'] = [['.']] := split_no_sep (by simpa using h.sepDot)
    simp [e, isAbs, Ne.symm h.sepDot]
  · have hns := rel_no_sep h (n := n) hn
    have hab := rel_not_abs h (n := n) hn
    have hnil : List.replicate n dotdot ++ names ≠ [] := by
      rcases hne with hne | hne
      · cases n with
        | zero => omega
        | succ n => simp [List.replicate_succ]
      · simp [hne]
    have hd0 : (['.', '.'] : Str) = dotdot := rfl
    rw [hd0]
    have e := split_join hnil hns
    unfold pathComponents
    have hj : ¬ (join k.sep (List.replicate n dotdot ++ names) = [] ∨ join k.sep (List.replicate n dotdot ++ names) = [k.sep]) := by
      rintro (hj | hj)
      · rcases join_eq_nil hj with hj | hj
        · exact hnil hj
        · rw [List.append_eq_singleton_iff] at hj
          rcases hj with ⟨_, hj⟩ | ⟨hj, _⟩
          · exact (hn [] (by rw [hj]; simp)).1 rfl
          · cases n with
            | zero => simp at hj
            | succ n => simp [List.replicate_succ, dotdot] at hj
      · exact hab ⟨[], hj⟩
    rw [if_neg hj, h.splitdrive]
    simp only [e]
    unfold loc
    rw [if_neg hab, e]
    cases hl : List.replicate n dotdot ++ names with
    | nil => exact absurd hl hnil
    | cons a l =>
      have ha : a ≠ [] := by
        intro ha
        cases n with
        | zero =>
          simp at hl
          exact (hn a (by rw [hl]; simp)).1 ha
        | succ n => simp [List.replicate_succ, dotdot] at hl; rw [ha] at hl; simp at hl
      cases a with
      | nil => exact absurd rfl ha
      | cons => rfl

/-- C20: following the link `c` found in the directory with the names `pre` leads to the place its target text
means when read from that directory (from the root, if the text is absolute). -/
theorem followLink_location {s : FS} (hp : s.cfg.Posix) {pre : List Str} (hn : ∀ w ∈ pre, Proper s.cfg.sep w)
    (c : Str) (t : Ref) :
    (s.cfg.pathComponents (s.followLink (pre ++ [c]) t)).foldl step [] =
      loc s.cfg.sep pre.reverse (s.linkTarget (s.heap t)) := by
  unfold FS.followLink
  simp only [hp.win, Bool.false_and, Bool.false_eq_true, if_false, List.dropLast_concat]
  rw [components_location hp (normpath_canonical hp _), normpath_meaning hp]
  rw [hp.startsWithRoot]
  by_cases ha : isAbs s.cfg.sep (s.linkTarget (s.heap t))
  · rw [startsWithC_eq, if_neg (by simpa using ha)]
    unfold loc
    rw [if_pos ha, if_pos ha]
  · rw [startsWithC_eq, if_pos (by simpa using ha)]
    by_cases e : pre = []
    · subst e; rfl
    · rw [join_append _ e (by simp)]
      simp only [join]
      rw [loc_append_sep _ _ _ ha, if_neg]
      · congr 1
        unfold loc
        rw [if_neg (isAbs_join_names hn), split_join e (proper_no_sep hn), foldl_step_names hn]
        simp
      · intro hj
        rcases join_eq_nil hj with hj | hj
        · exact e hj
        · exact (hn [] (by rw [hj]; simp)).1 rfl

/-- C20 in a reachable state: the location of the first link on the way. -/
theorem firstLink_location {s : FS} (hs : Reachable s) (ht : s.cfg.Tree) (hm : s.cfg.isMac = false)
    {cs pre rest : List Str} {c : Str} {t : Ref} (hf : FirstLink s.heap cs pre c t rest) :
    (s.cfg.pathComponents (s.followLink (pre ++ [c]) t)).foldl step [] =
      loc s.cfg.sep pre.reverse (s.linkTarget (s.heap t)) := by
  have hi := reachable_inv hs
  obtain ⟨-, -, hw, -⟩ := hf
  exact followLink_location ht.posix (fun w hw' => walk_proper hi ht.posix hm (root_lt hi) hw w (by simp [hw'])) c t

/-- the link `/l` of the example filesystem, with the target text `a/f` -/
example : FirstLink demo.heap ["l".toList] [] "l".toList 4 [] ∧ demo.linkTarget (demo.heap 4) = "a/f".toList := by
  refine ⟨⟨rfl, trivial, ?_, ?_⟩, ?_⟩ <;> decide +kernel

end Verif
