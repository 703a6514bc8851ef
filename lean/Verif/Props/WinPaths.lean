import Verif.WinPath
import Verif.Realpath
/-!
# C58: Windows paths: drives and normalisation
-/

namespace Verif
open Py Spec Cfg

section
variable {k : Cfg}

theorem unify_unify (W : k.Win) (p : Str) : unify k.sep k.altsep (unify k.sep k.altsep p) = unify k.sep k.altsep p :=
  (flat_unify W p).unify

theorem normcase_normcase (W : k.Win) (p : Str) : k.normcase (k.normcase p) = k.normcase p := by
  rw [normcase_eq, normcase_eq, unify_unify W]

theorem splitdrive_unify (W : k.Win) (p : Str) :
    k.splitdrive (unify k.sep k.altsep p) = ((k.splitdrive p).1, unify k.sep k.altsep (k.splitdrive p).2) ∧
      Flat k (k.splitdrive p).1 := by
  by_cases h2 : 2 ≤ p.length
  · have e : k.splitdrive (unify k.sep k.altsep p) = k.splitdrive p := by
      unfold Cfg.splitdrive
      rw [if_pos W.win, if_pos W.win, if_pos h2, if_pos (by rw [unify_length]; exact h2), ← normcase_eq,
        normcase_normcase W]
    have hl := splitdrive_lossless k p
    rw [if_pos ⟨W.win, h2⟩, normcase_eq] at hl
    have hf := flat_unify W p
    rw [← hl, Flat.append] at hf
    rw [e, hf.2.unify]
    exact ⟨rfl, hf.1⟩
  · have e : ∀ q : Str, ¬ 2 ≤ q.length → k.splitdrive q = ([], q) := by
      intro q hq; unfold Cfg.splitdrive; rw [if_pos W.win, if_neg hq]
    rw [e p h2, e _ (by rw [unify_length]; exact h2)]
    exact ⟨rfl, by simp [Flat]⟩

/-- C58: `splitdrive` splits the path into its drive and the rest. -/
theorem splitdrive_parts (W : k.Win) (p : Str) :
    Parts k.sep (unify k.sep k.altsep p) (k.splitdrive p).1 (unify k.sep k.altsep (k.splitdrive p).2) := by
  have h := splitdrive_flat W (flat_unify W p)
  rw [(splitdrive_unify W p).1] at h
  exact h

theorem parts_splitdrive (W : k.Win) {p d r : Str} (h : Parts k.sep (unify k.sep k.altsep p) d r) :
    (k.splitdrive p).1 = d ∧ unify k.sep k.altsep (k.splitdrive p).2 = r := by
  have := parts_flat W (flat_unify W p) h
  rw [(splitdrive_unify W p).1] at this
  exact ⟨congrArg Prod.fst this, congrArg Prod.snd this⟩

/-- C58: every path has exactly one drive. -/
theorem parts_unique (W : k.Win) {p d r d' r' : Str} (h : Parts k.sep p d r) (h' : Parts k.sep p d' r') : d = d' ∧ r = r' := by
  let K : Cfg := { k with altsep := none, caseSens := true }
  have WK : K.Win := ⟨W.win, W.sepDot, W.sepColon, by simp [K], .inl rfl⟩
  have hf : Flat K p := by simp [Flat, K]
  have e1 := parts_flat WK hf (by exact h)
  have e2 := parts_flat WK hf (by exact h')
  rw [e1] at e2
  exact ⟨congrArg Prod.fst e2, congrArg Prod.snd e2⟩

theorem parts_exist (W : k.Win) (p : Str) : ∃ d r, Parts k.sep p d r := by
  let K : Cfg := { k with altsep := none, caseSens := true }
  have WK : K.Win := ⟨W.win, W.sepDot, W.sepColon, by simp [K], .inl rfl⟩
  exact ⟨_, _, splitdrive_flat (k := K) WK (p := p) (by simp [Flat, K])⟩

/-- C58: `os.path.isabs` asks whether the part after the drive starts with a separator. -/
theorem win_isabs (W : k.Win) {p d r : Str} (h : Parts k.sep (unify k.sep k.altsep p) d r) :
    k.isabs p = true ↔ isAbs k.sep r := by
  obtain ⟨-, rfl⟩ := parts_splitdrive W h
  unfold Cfg.isabs
  rw [if_pos W.win]
  generalize (k.splitdrive p).2 = q
  unfold Cfg.startsWithSep
  cases q with
  | nil => cases k.altsep <;> simp [startsWithC, isAbs, unify]
  | cons x q =>
    unfold isAbs unify
    cases ha : k.altsep with
    | none => simp [startsWithC]
    | some a =>
      simp only [startsWithC, List.head?_cons, List.map_cons, List.cons.injEq, exists_and_left, exists_eq', and_true,
        Option.some.injEq, Bool.or_eq_true, beq_iff_eq]
      constructor
      · rintro (rfl | rfl)
        · split <;> simp_all
        · simp
      · split
        · rename_i e; intro _; exact .inr e.symm
        · intro e; exact .inl e

/-! ## normpath -/

/-- the POSIX rules with the same separator -/
def Cfg.posix (k : Cfg) : Cfg := posixCfg k.sep k.lower k.enc k.dec

theorem posix_ok (W : k.Win) : k.posix.Posix := ⟨rfl, rfl, W.sepDot, .inl rfl⟩

theorem canon_ne_dot {c : Char} (hc : c ≠ '.') {n : Nat} {names : List Str} (hn : ∀ w ∈ names, Proper c w) :
    join c (List.replicate n ['.', '.'] ++ names) ≠ ['.'] := by
  intro h
  have h1 : ∀ w ∈ List.replicate n ['.', '.'] ++ names, c ∉ w := by
    intro w hw
    rcases List.mem_append.1 hw with hw | hw
    · rw [List.eq_of_mem_replicate hw]; simp [hc]
    · exact (hn w hw).2.2.2
  have h2 := split_join_names h1
  rw [h, split_no_sep (by simp [hc])] at h2
  rcases h2 with h2 | ⟨-, h2⟩
  · have hm : ['.'] ∈ List.replicate n ['.', '.'] ++ names := by rw [← h2]; simp
    rcases List.mem_append.1 hm with hm | hm
    · have := List.eq_of_mem_replicate hm; simp at this
    · exact (hn _ hm).2.1 rfl
  · simp at h2

/-- the rest of a normalised path with a drive -/
def tidy (k : Cfg) (r : Str) : Str := if k.posix.normpath r = dot then [] else k.posix.normpath r

theorem normpath_win (W : k.Win) (p : Str) {d r : Str} (h : Parts k.sep (unify k.sep k.altsep p) d r) :
    k.normpath p = if d = [] then k.posix.normpath r else d ++ tidy k r := by
  have hs := parts_flat W (flat_unify W p) h
  have e0 : k.normpath p = (let isA := startsWithC k.sep r
      let c := join k.sep (collapse isA (split k.sep r) [])
      let c := if isA then k.sep :: c else c
      if d ++ c = [] then dot else d ++ c) := by
    unfold Cfg.normpath; dsimp only; rw [normcase_eq, hs]
  rw [e0]
  dsimp only
  rw [startsWithC_eq]
  have hP := normpath_posix (posix_ok W) r
  change k.posix.normpath r = if isAbs k.sep r then k.sep :: join k.sep (Cfg.collapse true (split k.sep r) [])
    else if Cfg.collapse false (split k.sep r) [] = [] then dot else join k.sep (Cfg.collapse false (split k.sep r) []) at hP
  by_cases ha : isAbs k.sep r
  · rw [if_pos ha] at hP
    have hne : k.posix.normpath r ≠ dot := by rw [hP]; intro e; injection e with e _; exact W.sepDot e
    unfold tidy
    rw [if_neg hne, hP]
    simp only [ha, decide_true, if_true, List.append_eq_nil_iff]
    by_cases hd : d = []
    · simp [hd]
    · simp [hd]
  · rw [if_neg ha] at hP
    simp only [ha, decide_false, Bool.false_eq_true, if_false]
    obtain ⟨n, names, hc, hn, -⟩ := collapse_split_shape k.sep false r
    unfold tidy
    by_cases he : Cfg.collapse false (split k.sep r) [] = []
    · rw [if_pos he] at hP
      rw [he, hP]
      by_cases hd : d = [] <;> simp [hd, join]
    · rw [if_neg he] at hP
      have hj : join k.sep (Cfg.collapse false (split k.sep r) []) ≠ [] := by
        intro e
        rcases join_eq_nil e with e | e
        · exact he e
        · have hm : ([] : Str) ∈ List.replicate n dotdot ++ names := by rw [← hc, e]; simp
          rcases List.mem_append.1 hm with hm | hm
          · have := List.eq_of_mem_replicate hm; simp [dotdot] at this
          · exact (hn _ hm).1 rfl
      have hnd : k.posix.normpath r ≠ dot := by rw [hP, hc]; exact canon_ne_dot W.sepDot hn
      rw [if_neg hnd, hP, if_neg (by simp [hj])]
      by_cases hd : d = [] <;> simp [hd]

theorem collapse_mem (b : Bool) (cs acc : List Str) : ∀ w ∈ Cfg.collapse b cs acc, w ∈ cs ∨ w ∈ acc := by
  induction cs generalizing acc with
  | nil => intro w hw; right; simpa [Cfg.collapse] using hw
  | cons c cs ih =>
    intro w hw
    rw [Cfg.collapse.eq_def] at hw
    dsimp only at hw
    split at hw
    · rcases ih _ w hw with h | h <;> simp [h]
    · split at hw
      · split at hw
        · split at hw
          · rcases ih _ w hw with h | h <;> simp [h]
          · split at hw
            · rcases ih _ w hw with h | h
              · simp [h]
              · exact .inr h
            · rcases ih _ w hw with h | h
              · simp [h]
              · rcases List.mem_cons.1 h with h | h
                · simp [h]
                · exact .inr h
        · split at hw
          · rcases ih _ w hw with h | h <;> simp_all
          · rcases ih _ w hw with h | h <;> simp_all
      · rcases ih _ w hw with h | h
        · simp [h]
        · rcases List.mem_cons.1 h with h | h <;> simp [h]

theorem mem_join {c x : Char} {ws : List Str} (h : x ∈ join c ws) : x = c ∨ ∃ w ∈ ws, x ∈ w := by
  induction ws with
  | nil => simp [join] at h
  | cons w ws ih =>
    cases ws with
    | nil => right; exact ⟨w, by simp, by simpa [join] using h⟩
    | cons a as =>
      rw [join_cons _ _ (by simp)] at h
      rcases List.mem_append.1 h with h | h
      · exact .inr ⟨w, by simp, h⟩
      · rcases List.mem_cons.1 h with h | h
        · exact .inl h
        · rcases ih h with h | ⟨v, hv, h⟩
          · exact .inl h
          · exact .inr ⟨v, by simp [hv], h⟩

theorem mem_of_split {c x : Char} {p w : Str} (hw : w ∈ split c p) (hx : x ∈ w) : x ∈ p := by
  induction p generalizing w with
  | nil => simp [split] at hw; simp [hw] at hx
  | cons y p ih =>
    by_cases h : y = c
    · subst h
      rw [split_cons_sep] at hw
      rcases List.mem_cons.1 hw with rfl | hw
      · simp at hx
      · exact List.mem_cons_of_mem _ (ih hw hx)
    · obtain ⟨v, vs, h1, h2⟩ := split_cons_ne h p
      rw [h2] at hw
      rcases List.mem_cons.1 hw with rfl | hw
      · rcases List.mem_cons.1 hx with rfl | hx
        · simp
        · exact List.mem_cons_of_mem _ (ih (w := v) (by simp [h1]) hx)
      · exact List.mem_cons_of_mem _ (ih (w := w) (by simp [h1, hw]) hx)

/-- normalising brings in no new characters but separator and dot -/
theorem normpath_chars {K : Cfg} (h : K.Posix) {p : Str} {x : Char} (hx : x ∈ K.normpath p) : x = K.sep ∨ x = '.' ∨ x ∈ p := by
  have hj : ∀ b, x ∈ join K.sep (Cfg.collapse b (split K.sep p) []) → x = K.sep ∨ x ∈ p := by
    intro b hb
    rcases mem_join hb with e | ⟨w, hw, hxw⟩
    · exact .inl e
    · rcases collapse_mem _ _ _ w hw with hw | hw
      · exact .inr (mem_of_split hw hxw)
      · simp at hw
  rw [normpath_posix h] at hx
  split at hx
  · rcases List.mem_cons.1 hx with e | hx
    · exact .inl e
    · rcases hj _ hx with h | h
      · exact .inl h
      · exact .inr (.inr h)
  · split at hx
    · simp [dot] at hx; exact .inr (.inl hx)
    · rcases hj _ hx with h | h
      · exact .inl h
      · exact .inr (.inr h)

/-- a path without colon that does not start with two separators has no drive -/
theorem noDrive {c : Char} {p : Str} (h1 : ':' ∉ p) (h2 : ¬ ∃ x, p = c :: c :: x) : ∀ d r, p = d ++ r → ¬ Drive c d r := by
  intro d r e hd
  cases hd with
  | letter x => rw [e] at h1; simp at h1
  | share host share => exact h2 ⟨_, e⟩

theorem normpath_not_two {K : Cfg} (h : K.Posix) (p : Str) : ¬ ∃ x, K.normpath p = K.sep :: K.sep :: x := by
  rintro ⟨x, hx⟩
  rcases normpath_canonical h p with ⟨names, hn, e⟩ | e | ⟨n, names, hn, -, e⟩
  · rw [e] at hx
    injection hx with _ hx
    exact isAbs_join_names hn ⟨x, hx⟩
  · rw [e] at hx; injection hx with hx _; exact h.sepDot hx.symm
  · exact rel_not_abs h (n := n) hn ⟨K.sep :: x, by rw [← hx, e]; rfl⟩

theorem unify_colon (W : k.Win) {p : Str} (h : ':' ∉ p) : ':' ∉ unify k.sep k.altsep p := by
  intro hm
  obtain ⟨x, hx, e⟩ := List.mem_map.1 hm
  split at e
  · exact W.sepColon e
  · exact h (e ▸ hx)

theorem loc_tidy (W : k.Win) (start : List Str) (r : Str) : loc k.sep start (tidy k r) = loc k.sep start r := by
  have h := normpath_meaning (posix_ok W) start r
  change loc k.sep start (k.posix.normpath r) = _ at h
  unfold tidy
  split
  · rename_i e
    rw [e] at h
    rw [show loc k.sep start r = loc k.posix.sep start r from rfl, ← h]
    unfold loc
    rw [if_neg (by simp [isAbs]), if_neg (by rintro ⟨q, hq⟩; simp [dot] at hq; exact W.sepDot hq.1.symm)]
    have e1 : split k.sep dot = [dot] := split_no_sep (by simp [dot, W.sepDot])
    rw [e1]
    simp [split, step, dot]
  · exact h

theorem tidy_abs (W : k.Win) {r : Str} : isAbs k.sep (tidy k r) ↔ isAbs k.sep r := by
  have h := normpath_abs_iff (posix_ok W) r
  change isAbs k.sep (k.posix.normpath r) ↔ isAbs k.sep r at h
  unfold tidy
  split
  · rename_i e
    rw [e] at h
    rw [← h]
    simp only [isAbs, dot]
    constructor
    · rintro ⟨q, hq⟩; cases hq
    · rintro ⟨q, hq⟩; simp at hq; exact absurd hq.1.symm W.sepDot
  · exact h

theorem tidy_tidy (W : k.Win) (r : Str) : tidy k (tidy k r) = tidy k r := by
  by_cases h : k.posix.normpath r = dot
  · have e : tidy k r = [] := by unfold tidy; rw [if_pos h]
    rw [e]
    unfold tidy
    have : k.posix.normpath [] = dot := by rw [normpath_posix (posix_ok W)]; simp [isAbs, split, Cfg.collapse]
    rw [if_pos this]
  · have e : tidy k r = k.posix.normpath r := by unfold tidy; rw [if_neg h]
    rw [e]
    unfold tidy
    rw [normpath_idempotent (posix_ok W), if_neg h]

/-- C58: the result of normalising has the same drive and a canonical rest with the same meaning, provided the path has a drive or
contains no colon at all. -/
theorem win_normpath_parts (W : k.Win) {p d r : Str} (h : Parts k.sep (unify k.sep k.altsep p) d r) (hc : d ≠ [] ∨ ':' ∉ p) :
    ∃ r', Parts k.sep (unify k.sep k.altsep (k.normpath p)) d r' ∧ (∀ start, loc k.sep start r' = loc k.sep start r) ∧
      (isAbs k.sep r' ↔ isAbs k.sep r) ∧ (Canon k.sep r' ∨ d ≠ [] ∧ r' = []) ∧
      k.normpath p = d ++ r' := by
  have hf : Flat k (d ++ r) := h.1 ▸ flat_unify W p
  have hfn : Flat k (k.posix.normpath r) := by
    intro x hx he
    rcases normpath_chars (posix_ok W) hx with e | e | e
    · exact (W.alt x he).1 e
    · exact (W.alt x he).2.1 e
    · exact (Flat.append.1 hf).2 x e he
  rw [normpath_win W p h]
  by_cases hd : d = []
  · subst hd
    rw [if_pos rfl, hfn.unify]
    refine ⟨k.posix.normpath r, ⟨rfl, .inr ⟨rfl, noDrive ?_ (normpath_not_two (posix_ok W) r)⟩⟩,
      fun st => normpath_meaning (posix_ok W) st r, normpath_abs_iff (posix_ok W) r, .inl (normpath_canonical (posix_ok W) r), rfl⟩
    intro hx
    rcases normpath_chars (posix_ok W) hx with e | e | e
    · exact W.sepColon e.symm
    · cases e
    · have := unify_colon W (hc.resolve_left (fun h => h rfl))
      rw [h.1] at this
      exact this e
  · rw [if_neg hd]
    have hft : Flat k (tidy k r) := by unfold tidy; split; exact (by simp [Flat]); exact hfn
    rw [(Flat.append.2 ⟨(Flat.append.1 hf).1, hft⟩).unify]
    refine ⟨tidy k r, ⟨rfl, .inl ?_⟩, fun st => loc_tidy W st r, tidy_abs W, ?_, rfl⟩
    · rcases h.2 with h | ⟨h, -⟩
      · cases h with
        | letter c => exact .letter c _
        | share host share r h1 h2 h3 hr =>
          refine .share host share _ h1 h2 h3 ?_
          rcases hr with rfl | ⟨h4, h5⟩
          · left
            have : k.posix.normpath [] = dot := by rw [normpath_posix (posix_ok W)]; simp [isAbs, split, Cfg.collapse]
            unfold tidy; rw [if_pos this]
          · exact .inr ⟨h4, (tidy_abs W).2 h5⟩
      · exact absurd h hd
    · unfold tidy; split
      · exact .inr ⟨hd, rfl⟩
      · exact .inl (normpath_canonical (posix_ok W) r)

/-- C58: normalising twice is the same as normalising once. -/
theorem win_normpath_idempotent (W : k.Win) {p d r : Str} (h : Parts k.sep (unify k.sep k.altsep p) d r)
    (hc : d ≠ [] ∨ ':' ∉ p) : k.normpath (k.normpath p) = k.normpath p := by
  obtain ⟨r', h1, -, -, -, e0⟩ := win_normpath_parts W h hc
  rw [normpath_win W _ h1]
  have hu : ∃ q, Parts k.sep (unify k.sep k.altsep (k.normpath p)) d q ∧ q = if d = [] then k.posix.normpath r else tidy k r := by
    refine ⟨r', h1, ?_⟩
    have e := e0
    rw [normpath_win W p h] at e
    split at e
    · rename_i hd; rw [if_pos hd, e, hd]; rfl
    · rename_i hd; rw [if_neg hd]; exact (List.append_cancel_left e).symm
  obtain ⟨q, hq, e⟩ := hu
  obtain ⟨-, rfl⟩ := parts_unique W h1 hq
  rw [normpath_win W p h]
  by_cases hd : d = []
  · rw [if_pos hd] at e
    rw [if_pos hd, if_pos hd, e, normpath_idempotent (posix_ok W)]
  · rw [if_neg hd] at e
    rw [if_neg hd, if_neg hd, e, tidy_tidy W]

/-- C58: the normalised path leads to the same place, on the same drive, from everywhere. -/
theorem win_normpath_meaning (W : k.Win) (same : Str → Str → Prop) (env : Str → List Str) (pos pos' : Str × List Str) {p d r : Str}
    (h : Parts k.sep (unify k.sep k.altsep p) d r) (hc : d ≠ [] ∨ ':' ∉ p) :
    Goes k.sep k.altsep same env pos (k.normpath p) pos' ↔ Goes k.sep k.altsep same env pos p pos' := by
  obtain ⟨r', h1, h2, -⟩ := win_normpath_parts W h hc
  constructor
  · rintro ⟨d0, r0, h3, h4⟩
    obtain ⟨rfl, rfl⟩ := parts_unique W h1 h3
    exact ⟨d, r, h, by simpa only [h2] using h4⟩
  · rintro ⟨d0, r0, h3, h4⟩
    obtain ⟨rfl, rfl⟩ := parts_unique W h h3
    exact ⟨d, r', h1, by simpa only [h2] using h4⟩

end
end Verif
