import Verif.Relpath
import Verif.Props.Visible
/-!
# C53: `os.path.relpath`
-/

namespace Verif
open Py Spec Cfg

theorem hostLoop_abs : ∀ (cs acc : List Str), dotdot ∉ acc → hostLoop true cs acc = (cs.foldl step acc).reverse
  | [], acc, _ => rfl
  | c :: cs, acc, h => by
    have h1 : acc.head? ≠ some dotdot := by
      intro e
      cases acc with
      | nil => cases e
      | cons a l => simp at e; subst e; exact h (by simp)
    unfold hostLoop
    simp only [List.foldl_cons]
    by_cases hc : c = [] ∨ c = dot
    · rw [if_pos hc, hostLoop_abs cs acc h]
      have : step acc c = acc := by unfold step; exact if_pos hc
      rw [this]
    · rw [if_neg hc]
      by_cases hd : c = dotdot
      · rw [if_neg (by simp [hd, h1]), hostLoop_abs cs acc.tail (fun e => h (List.mem_of_mem_tail e))]
        have : step acc c = acc.tail := by
          unfold step; exact (if_neg hc).trans (if_pos hd)
        rw [this]
      · rw [if_pos (Or.inl hd), hostLoop_abs cs (c :: acc) (by
          intro e; rcases List.mem_cons.mp e with e | e
          · exact hd e.symm
          · exact h e)]
        have : step acc c = c :: acc := by
          unfold step; exact (if_neg hc).trans (if_neg hd)
        rw [this]

theorem step_proper {c : Char} {st : List Str} {w : Str} (hs : ∀ x ∈ st, Proper c x) (hw : c ∉ w) : ∀ x ∈ step st w, Proper c x := by
  unfold step
  split
  · exact hs
  · rename_i h1
    split
    · intro x hx; exact hs x (List.mem_of_mem_tail hx)
    · rename_i h2
      intro x hx
      rcases List.mem_cons.mp hx with rfl | hx
      · exact ⟨fun e => h1 (Or.inl e), fun e => h1 (Or.inr e), h2, hw⟩
      · exact hs x hx

theorem foldl_proper {c : Char} : ∀ (cs : List Str) (st : List Str), (∀ w ∈ cs, c ∉ w) → (∀ x ∈ st, Proper c x) → ∀ x ∈ cs.foldl step st, Proper c x
  | [], _, _, h => h
  | w :: cs, st, hc, h => foldl_proper cs (step st w) (fun v hv => hc v (by simp [hv])) (step_proper h (hc w (by simp)))

theorem loc_proper {c : Char} {st : List Str} (hs : ∀ x ∈ st, Proper c x) (p : Str) : ∀ x ∈ loc c st p, Proper c x := by
  unfold loc
  refine foldl_proper _ _ (fun w hw => mem_split_no_sep hw) ?_
  split
  · intro x hx; cases hx
  · exact hs

theorem hostSlashes_pos {q : Str} : ∃ n, hostSlashes ('/' :: q) = n + 1 := by
  unfold hostSlashes
  split
  · exact ⟨0, rfl⟩
  · exact ⟨1, rfl⟩
  · exact ⟨0, rfl⟩
  · rename_i h; exact absurd rfl (h q)

theorem hostParts_slashes (n : Nat) {names : List Str} (h : ∀ w ∈ names, Proper '/' w) :
    hostParts (List.replicate n '/' ++ join '/' names) = names := by
  induction n with
  | zero =>
    simp only [List.replicate_zero, List.nil_append]
    unfold hostParts
    rcases split_join_names (c := '/') (names := names) (fun w hw => (h w hw).2.2.2) with e | ⟨e1, e2⟩
    · rw [e, List.filter_eq_self]; intro w hw; simpa using (h w hw).1
    · rw [e2, e1]; rfl
  | succ n ih =>
    rw [List.replicate_succ, List.cons_append]
    unfold hostParts at ih ⊢
    rw [split_abs, List.filter_cons_of_neg (by simp)]
    exact ih

theorem hostParts_norm {q : Str} (h : isAbs '/' q) : hostParts (hostNormpath q) = (loc '/' [] q).reverse := by
  have h0 := h
  obtain ⟨r, rfl⟩ := h
  unfold hostNormpath
  rw [if_neg (by simp)]
  obtain ⟨n, hn⟩ := hostSlashes_pos (q := r)
  dsimp only
  rw [hn, show (n + 1 != 0) = true from by simp, hostLoop_abs _ _ (by simp), if_neg (by simp [List.replicate_succ])]
  unfold loc
  rw [if_pos h0]
  exact hostParts_slashes _ (by
    intro w hw
    exact foldl_proper (c := '/') _ [] (fun w hw => mem_split_no_sep hw) (by simp) w (List.mem_reverse.mp hw))

theorem hostAbspath_parts {cwd : Str} (hc : isAbs '/' cwd) (p : Str) : hostParts (hostAbspath cwd p) = (loc '/' (loc '/' [] cwd) p).reverse := by
  unfold hostAbspath
  by_cases hp : isAbs '/' p
  · rw [if_pos hp, hostParts_norm hp]
    unfold loc; rw [if_pos hp, if_pos hp]
  · rw [if_neg hp]
    have hcn : cwd ≠ [] := by obtain ⟨r, rfl⟩ := hc; simp
    have hj : isAbs '/' (hostJoin cwd p) := by
      obtain ⟨r, rfl⟩ := hc
      unfold hostJoin
      split
      · exact ⟨_, rfl⟩
      · exact ⟨_, rfl⟩
    rw [hostParts_norm hj]
    congr 1
    unfold hostJoin
    by_cases hl : cwd.getLast? = some '/'
    · rw [if_pos (Or.inr hl)]
      obtain ⟨r, rfl⟩ := List.getLast?_eq_some_iff.mp hl
      exact loc_snoc_sep [] r p hp
    · rw [if_neg (by rintro (e | e); exacts [hcn e, hl e]), loc_append_sep [] cwd p hp, if_neg hcn]

theorem commonLen_le_left : ∀ (a b : List Str), commonLen a b ≤ a.length
  | [], _ => by simp [commonLen]
  | _ :: _, [] => by simp [commonLen]
  | a :: as, b :: bs => by
    have := commonLen_le_left as bs
    unfold commonLen; split
    · simp only [List.length_cons]; omega
    · omega

theorem commonLen_le_right : ∀ (a b : List Str), commonLen a b ≤ b.length
  | [], _ => by simp [commonLen]
  | _ :: _, [] => by simp [commonLen]
  | a :: as, b :: bs => by
    have := commonLen_le_right as bs
    unfold commonLen; split
    · simp only [List.length_cons]; omega
    · omega

theorem commonLen_take : ∀ (a b : List Str), a.take (commonLen a b) = b.take (commonLen a b)
  | [], _ => by simp [commonLen]
  | _ :: _, [] => by simp [commonLen]
  | a :: as, b :: bs => by
    have := commonLen_take as bs
    unfold commonLen; split
    · rename_i e; subst e; simp [this]
    · simp

theorem commonLen_self : ∀ a : List Str, commonLen a a = a.length
  | [] => rfl
  | a :: as => by unfold commonLen; rw [if_pos rfl, commonLen_self as]; rfl

theorem commonLen_snoc : ∀ (a b : List Str) (c : Str), commonLen a b ≤ commonLen (a ++ [c]) b ∧ commonLen (a ++ [c]) b ≤ commonLen a b + 1
  | [], [], c => by simp [commonLen]
  | [], b :: bs, c => by
    simp only [List.nil_append, commonLen]
    split
    · simp [commonLen]
    · simp
  | a :: as, [], c => by simp [commonLen]
  | a :: as, b :: bs, c => by
    have := commonLen_snoc as bs c
    simp only [List.cons_append, commonLen]
    split <;> omega

/-- going up and down -/
theorem foldl_ups (n : Nat) (st : List Str) : (List.replicate n dotdot).foldl step st = st.drop n := by
  induction n generalizing st with
  | zero => simp
  | succ n ih =>
    rw [List.replicate_succ, List.foldl_cons, ih]
    have : step st dotdot = st.tail := by unfold step; rw [if_neg (by decide), if_pos (by decide)]
    rw [this, List.drop_tail]

theorem foldl_downs {c : Char} : ∀ (names st : List Str), (∀ w ∈ names, Proper c w) → names.foldl step st = names.reverse ++ st
  | [], _, _ => rfl
  | w :: ws, st, h => by
    rw [List.foldl_cons]
    have hw := h w (by simp)
    have : step st w = w :: st := by unfold step; rw [if_neg (by rintro (e | e); exacts [hw.1 e, hw.2.1 e]), if_neg hw.2.2.1]
    rw [this, foldl_downs ws _ (fun v hv => h v (by simp [hv]))]
    simp

/-- The relative path between two locations leads from the one to the other. -/
theorem rel_leads {c : Char} {S P : List Str} (hP : ∀ w ∈ P, Proper c w) :
    (List.replicate (S.length - commonLen S P) dotdot ++ P.drop (commonLen S P)).foldl step S.reverse = P.reverse := by
  rw [List.foldl_append, foldl_ups, foldl_downs _ _ (fun w hw => hP w (List.mem_of_mem_drop hw))]
  have e1 : S.reverse.drop (S.length - commonLen S P) = (S.take (commonLen S P)).reverse := by
    rw [List.reverse_take]
  rw [e1, commonLen_take, ← List.reverse_append, List.take_append_drop]

/-- No way between two locations has fewer components. -/
theorem way_length : ∀ (cs S P : List Str), cs.foldl step S.reverse = P.reverse → S.length + P.length ≤ cs.length + 2 * commonLen S P
  | [], S, P, h => by
    have e : S = P := by simpa using h
    subst e
    rw [commonLen_self]; simp only [List.length_nil]; omega
  | c :: cs, S, P, h => by
    rw [List.foldl_cons] at h
    have cases : step S.reverse c = S.reverse ∨ (∃ a d, S = a ++ [d] ∧ step S.reverse c = a.reverse) ∨ step S.reverse c = (S ++ [c]).reverse := by
      unfold step
      split
      · exact Or.inl rfl
      split
      · rcases List.eq_nil_or_concat S with e | ⟨a, d, e⟩
        · subst e; exact Or.inl rfl
        · right; left; refine ⟨a, d, by simpa using e, ?_⟩; rw [e]; simp
      · right; right; simp
    rcases cases with e | ⟨a, d, e1, e⟩ | e
    · rw [e] at h
      have := way_length cs S P h
      simp only [List.length_cons]; omega
    · rw [e] at h
      have h1 := way_length cs a P h
      have h2 := commonLen_snoc a P d
      rw [e1]; simp only [List.length_cons, List.length_append, List.length_nil]; omega
    · rw [e] at h
      have h1 := way_length cs (S ++ [c]) P h
      have h2 := commonLen_snoc S P c
      simp only [List.length_cons, List.length_append, List.length_nil] at h1 ⊢; omega

theorem replaceC_self (c : Char) (p : Str) : replaceC c c p = p := by
  unfold replaceC
  induction p with
  | nil => rfl
  | cons x p ih => rw [List.map_cons, ih]; split <;> simp_all

/-- C53: `relpath(p, start)` is a relative path which, read from `start`, leads to where `p` leads: joined to `start` it is the same absolute path as `p`. No
relative path doing this has fewer components. `start` is the current directory if not given; an empty `p` raises ValueError. -/
theorem relpath_meaning {s : FS} (hs : Reachable s) (hx : s.cfg.Posix) (hsep : s.cfg.sep = '/') {p : Str} (hp : p ≠ []) (start : Option Str) :
    ∃ r, s.relpath p start = .ok r ∧ ¬ isAbs '/' r ∧ Canon '/' r ∧
      (let here := loc '/' [] s.cwd
       let from_ := loc '/' here (start.getD s.cwd)
       loc '/' from_ r = loc '/' here p ∧
       (∀ q, ¬ isAbs '/' q → loc '/' from_ q = loc '/' here p → (split '/' r).length ≤ (split '/' q).length) ∧
       (r = ['.'] ↔ from_ = loc '/' here p)) ∧
      s.absnorm (s.cfg.joinpaths [start.getD s.cwd, r]) = s.absnorm p := by
  have hc : isAbs '/' s.cwd := by have := (reachable_inv hs).n.cwd hx; rw [hsep] at this; exact this
  generalize hst : start.getD s.cwd = st
  have hrel : s.relpath p start = .ok (hostRelpath s.cwd p st) := by
    unfold FS.relpath Cfg.toHost
    rw [if_neg hp, hx.altsep, hsep, hst]
    simp only [replaceC_self]
  have hh : ∀ x ∈ loc '/' [] s.cwd, Proper '/' x := loc_proper (by simp) _
  have hP := loc_proper hh p
  have hS := loc_proper hh st
  generalize hPe : loc '/' (loc '/' [] s.cwd) p = P at hP
  generalize hSe : loc '/' (loc '/' [] s.cwd) st = S at hS
  have hPr : ∀ w ∈ P.reverse, Proper '/' w := fun w hw => hP w (List.mem_reverse.mp hw)
  have hrl := rel_leads (c := '/') (S := S.reverse) hPr
  rw [List.reverse_reverse, List.reverse_reverse] at hrl
  have hwl := way_length
  have e0 : hostRelpath s.cwd p st = if List.replicate (S.reverse.length - commonLen S.reverse P.reverse) dotdot ++ P.reverse.drop (commonLen S.reverse P.reverse) = [] then dot
      else join '/' (List.replicate (S.reverse.length - commonLen S.reverse P.reverse) dotdot ++ P.reverse.drop (commonLen S.reverse P.reverse)) := by
    unfold hostRelpath
    dsimp only
    rw [hostAbspath_parts hc, hostAbspath_parts hc, hPe, hSe]
  have hlen : ∀ q, ¬ isAbs '/' q → loc '/' S q = P → S.length + P.length ≤ (split '/' q).length + 2 * commonLen S.reverse P.reverse := by
    intro q hq h
    unfold loc at h
    rw [if_neg hq] at h
    have := way_length (split '/' q) S.reverse P.reverse (by rw [List.reverse_reverse, List.reverse_reverse]; exact h)
    simpa using this
  have hsp : ∀ q : Str, 1 ≤ (split '/' q).length := by
    intro q; cases h : split '/' q with
    | nil => exact absurd h (split_ne_nil _ _)
    | cons a l => simp
  have k1 := commonLen_le_left S.reverse P.reverse
  have k2 := commonLen_le_right S.reverse P.reverse
  have core : ∃ r, s.relpath p start = .ok r ∧ r ≠ [] ∧ ¬ isAbs '/' r ∧ Canon '/' r ∧ loc '/' S r = P ∧
       (∀ q, ¬ isAbs '/' q → loc '/' S q = P → (split '/' r).length ≤ (split '/' q).length) ∧ (r = ['.'] ↔ S = P) := by
    refine ⟨_, hrel, ?_⟩
    rw [e0]
    generalize hn : S.reverse.length - commonLen S.reverse P.reverse = n at hrl ⊢
    have hlenrel : n + (P.reverse.drop (commonLen S.reverse P.reverse)).length + 2 * commonLen S.reverse P.reverse = S.length + P.length := by
      rw [List.length_drop, ← hn]
      simp only [List.length_reverse] at k1 k2 ⊢
      omega
    have hpr : ∀ w ∈ P.reverse.drop (commonLen S.reverse P.reverse), Proper '/' w := fun w hw => hPr w (List.mem_of_mem_drop hw)
    generalize hds : P.reverse.drop (commonLen S.reverse P.reverse) = ds at hrl hlenrel hpr ⊢
    by_cases hr : List.replicate n dotdot ++ ds = []
    · rw [if_pos hr]
      rw [hr] at hrl
      have hSP : S = P := hrl
      refine ⟨by decide, by decide, Or.inr (Or.inl rfl), ?_, fun q _ _ => ?_, ⟨fun _ => hSP, fun _ => rfl⟩⟩
      · unfold loc; rw [if_neg (by decide)]; exact hSP
      · exact hsp q
    · rw [if_neg hr]
      have hns : ∀ w ∈ List.replicate n dotdot ++ ds, '/' ∉ w := by
        intro w hw
        rcases List.mem_append.mp hw with hw | hw
        · rw [List.eq_of_mem_replicate hw]; decide
        · exact (hpr w hw).2.2.2
      have hspl : split '/' (join '/' (List.replicate n dotdot ++ ds)) = List.replicate n dotdot ++ ds := split_join hr hns
      have hne : join '/' (List.replicate n dotdot ++ ds) ≠ [] := by
        intro e
        rw [e] at hspl
        have : (List.replicate n dotdot ++ ds) = [[]] := hspl.symm
        have hm : ([] : Str) ∈ List.replicate n dotdot ++ ds := by rw [this]; simp
        rcases List.mem_append.mp hm with hm | hm
        · exact absurd (List.eq_of_mem_replicate hm) (by decide)
        · exact (hpr _ hm).1 rfl
      have hna : ¬ isAbs '/' (join '/' (List.replicate n dotdot ++ ds)) := by
        rintro ⟨q, e⟩
        rw [e, split_abs] at hspl
        have hm : ([] : Str) ∈ List.replicate n dotdot ++ ds := by rw [← hspl]; simp
        rcases List.mem_append.mp hm with hm | hm
        · exact absurd (List.eq_of_mem_replicate hm) (by decide)
        · exact (hpr _ hm).1 rfl
      refine ⟨hne, hna, Or.inr (Or.inr ⟨n, ds, hpr, ?_, rfl⟩), ?_, fun q hq hl => ?_, ⟨fun e => ?_, fun e => ?_⟩⟩
      · by_cases h0 : ds = []
        · left; by_contra h1
          have : n = 0 := by omega
          exact hr (by rw [this, h0]; rfl)
        · exact Or.inr h0
      · unfold loc; rw [if_neg hna, hspl]; exact hrl
      · have := hlen q hq hl
        rw [hspl, List.length_append, List.length_replicate]
        omega
      · exfalso
        rw [e] at hspl
        have hm : (['.'] : Str) ∈ List.replicate n dotdot ++ ds := by rw [← hspl]; decide
        rcases List.mem_append.mp hm with hm | hm
        · exact absurd (List.eq_of_mem_replicate hm) (by decide)
        · exact (hpr _ hm).2.1 rfl
      · exfalso
        apply hr
        rw [← hn, ← hds, e, commonLen_self]
        simp
  obtain ⟨r, c1, c2, c3, c4, c5, c6, c7⟩ := core
  refine ⟨r, c1, c3, c4, ?_, ?_⟩
  · dsimp only
    rw [hSe, hPe]
    exact ⟨c5, c6, c7⟩
  · have hc' : isAbs s.cfg.sep s.cwd := (reachable_inv hs).n.cwd hx
    have hjn : s.cfg.joinpaths [st, r] ≠ [] := by
      rw [join_two hx]
      split
      · exact c2
      · split
        · intro e; exact c2 (List.append_eq_nil_iff.mp e).2
        · simp
    have m1 := absnormpath_meaning hx hc' [] (s.cfg.joinpaths [st, r])
    have m2 := absnormpath_meaning hx hc' [] p
    rw [if_neg hjn, join_meaning hx] at m1
    rw [if_neg hp] at m2
    have a1 := absnormpath_canonical hx hc' (s.cfg.joinpaths [st, r])
    have a2 := absnormpath_canonical hx hc' p
    have hloc : loc s.cfg.sep [] (s.cfg.absnormpath s.cwd (s.cfg.joinpaths [st, r])) = loc s.cfg.sep [] (s.cfg.absnormpath s.cwd p) := by
      rw [m1, m2, hsep]
      simp only [List.foldl_cons, List.foldl_nil]
      rw [hSe, c5, hPe]
    have := (normpath_eq_iff_same_location hx (absCanon_isAbs a1) (absCanon_isAbs a2)).mpr hloc
    rw [normpath_canon_id hx (Or.inl a1), normpath_canon_id hx (Or.inl a2)] at this
    exact this

/-- C53: an empty path raises ValueError. -/
theorem relpath_empty (s : FS) (start : Option Str) : s.relpath [] start = .error .valueError := rfl

example : demo.relpath "/g".toList (some "/a/d".toList) = .ok "../../g".toList ∧ demo.relpath "a//d/.".toList none = .ok "a/d".toList ∧
    demo.relpath "/a".toList (some "a/".toList) = .ok ".".toList := by decide +kernel

/-- C53 fails for a separator other than that of the host: the host's `abspath` takes the current directory for a single name
(fake_filesystem.py 3380-3388), so a relative path going up leads elsewhere. -/
theorem relpath_separator_counterexample : ∃ s : FS, Reachable s ∧ s.cfg.Posix ∧ s.cfg.sep = '!' ∧ ∃ p start r,
    s.relpath p (some start) = .ok r ∧ s.absnorm (s.cfg.joinpaths [start, r]) ≠ s.absnorm p := by
  refine ⟨runs [.mkdir "!x".toList 0o777, .mkdir "!x!y".toList 0o777, .chdir "!x!y".toList] (initFS { linux with sep := '!' } 50 0 0 0o022 7 none),
    ⟨_, _, _, _, _, _, _, _, rfl⟩, ?_, by rw [runs_cfg], "..!a".toList, "!".toList, ['a'], ?_, ?_⟩
  · rw [runs_cfg]; exact ⟨rfl, rfl, by decide, Or.inl rfl⟩
  · decide +kernel
  · decide +kernel

end Verif
