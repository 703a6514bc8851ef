import Verif.Props.WinPaths
/-!
# C59: joining Windows paths, absolute Windows paths; C60: splitting them
-/

namespace Verif
open Py Spec Cfg

section
variable {k : Cfg}

/-- Two names of a drive are the same for this filesystem: equal, or equal without regard to case if it is not case-sensitive. -/
def SameDrive (k : Cfg) (d e : Str) : Prop := d = e ∨ k.caseSens = false ∧ k.lower d = k.lower e

/-- is it a separator (as in `joinDriveStep`) -/
def isSepC (k : Cfg) (c : Option Char) : Bool := c == some k.sep || (k.altsep.isSome && c == k.altsep)

theorem isSepC_unify (W : k.Win) (c : Option Char) : isSepC k (c.map fun x => if k.altsep = some x then k.sep else x) = isSepC k c := by
  unfold isSepC
  cases c with
  | none => rfl
  | some x =>
    cases ha : k.altsep with
    | none => simp
    | some a =>
      by_cases hx : a = x
      · subst hx; simp
      · simp [hx]

theorem isSepC_head (W : k.Win) (q : Str) : isSepC k (unify k.sep k.altsep q).head? = isSepC k q.head? := by
  rw [← isSepC_unify W q.head?]; simp [unify]

theorem isSepC_last (W : k.Win) (q : Str) : isSepC k (unify k.sep k.altsep q).getLast? = isSepC k q.getLast? := by
  rw [← isSepC_unify W q.getLast?]; simp [unify]

theorem isSepC_flat_head {q : Str} (hf : Flat k q) : isSepC k q.head? = true ↔ isAbs k.sep q := by
  unfold isSepC isAbs
  cases q with
  | nil => cases k.altsep <;> simp
  | cons x q =>
    have := hf x (by simp)
    simp [this.symm]

theorem isSepC_flat_last {q : Str} (hf : Flat k q) : isSepC k q.getLast? = true ↔ ∃ r, q = r ++ [k.sep] := by
  unfold isSepC
  rcases List.eq_nil_or_concat q with rfl | ⟨q, x, rfl⟩
  · cases k.altsep <;> simp
  · have := hf x (by simp)
    simp [this.symm]

theorem joinDriveStep_eq (rd rp p : Str) : k.joinDriveStep (rd, rp) p =
    if isSepC k (k.splitdrive p).2.head? then ((if (k.splitdrive p).1 ≠ [] ∨ rd = [] then (k.splitdrive p).1 else rd), (k.splitdrive p).2)
    else if (k.splitdrive p).1 ≠ [] ∧ (k.splitdrive p).1 ≠ rd ∧ (k.caseSens ∨ k.lower (k.splitdrive p).1 ≠ k.lower rd) then k.splitdrive p
    else ((if (k.splitdrive p).1 ≠ [] ∧ (k.splitdrive p).1 ≠ rd then (k.splitdrive p).1 else rd),
      (if rp ≠ [] ∧ ¬ isSepC k rp.getLast? then rp ++ [k.sep] else rp) ++ (k.splitdrive p).2) := rfl

theorem joinDrive_eq (p : Str) (ps : List Str) : k.joinDrive p ps =
    if (ps.foldl k.joinDriveStep (k.splitdrive p)).2 ≠ [] ∧ ¬ isSepC k (ps.foldl k.joinDriveStep (k.splitdrive p)).2.head? ∧
        (ps.foldl k.joinDriveStep (k.splitdrive p)).1 ≠ [] ∧ (ps.foldl k.joinDriveStep (k.splitdrive p)).1.getLast? ≠ some ':' then
      (ps.foldl k.joinDriveStep (k.splitdrive p)).1 ++ k.sep :: (ps.foldl k.joinDriveStep (k.splitdrive p)).2
    else (ps.foldl k.joinDriveStep (k.splitdrive p)).1 ++ (ps.foldl k.joinDriveStep (k.splitdrive p)).2 := rfl

theorem unify_sep (W : k.Win) : unify k.sep k.altsep [k.sep] = [k.sep] := by simp [unify]

theorem step_unify (W : k.Win) {rd : Str} (rp p : Str) (hr : Flat k rd) :
    k.joinDriveStep (rd, unify k.sep k.altsep rp) (unify k.sep k.altsep p) =
      ((k.joinDriveStep (rd, rp) p).1, unify k.sep k.altsep (k.joinDriveStep (rd, rp) p).2) ∧
    Flat k (k.joinDriveStep (rd, rp) p).1 := by
  obtain ⟨e, hf⟩ := splitdrive_unify W p
  rw [joinDriveStep_eq, joinDriveStep_eq, e]
  dsimp only
  rw [isSepC_head W, isSepC_last W]
  generalize k.splitdrive p = dq at *
  obtain ⟨d, q⟩ := dq
  dsimp only at *
  by_cases h1 : isSepC k q.head? = true
  · rw [if_pos h1, if_pos h1]
    refine ⟨rfl, ?_⟩
    dsimp only; split <;> assumption
  · rw [if_neg h1, if_neg h1]
    by_cases h2 : d ≠ [] ∧ d ≠ rd ∧ (k.caseSens = true ∨ k.lower d ≠ k.lower rd)
    · rw [if_pos h2, if_pos h2]; exact ⟨rfl, hf⟩
    · rw [if_neg h2, if_neg h2]
      refine ⟨?_, ?_⟩
      · dsimp only
        rw [unify_append]
        congr 2
        have : unify k.sep k.altsep rp ≠ [] ↔ rp ≠ [] := not_congr (unify_nil_iff _ _ _)
        simp only [this]
        split
        · rw [unify_append, unify_sep W]
        · rfl
      · dsimp only; split <;> assumption

theorem foldl_unify (W : k.Win) (ps : List Str) {rd : Str} (rp : Str) (hr : Flat k rd) :
    (ps.map (unify k.sep k.altsep)).foldl k.joinDriveStep (rd, unify k.sep k.altsep rp) =
      ((ps.foldl k.joinDriveStep (rd, rp)).1, unify k.sep k.altsep (ps.foldl k.joinDriveStep (rd, rp)).2) ∧
    Flat k (ps.foldl k.joinDriveStep (rd, rp)).1 := by
  induction ps generalizing rd rp with
  | nil => exact ⟨rfl, hr⟩
  | cons p ps ih =>
    obtain ⟨h1, h2⟩ := step_unify W rp p hr
    rw [List.map_cons, List.foldl_cons, List.foldl_cons, h1]
    exact ih _ h2

theorem joinDrive_unify (W : k.Win) (p : Str) (ps : List Str) :
    unify k.sep k.altsep (k.joinDrive p ps) = k.joinDrive (unify k.sep k.altsep p) (ps.map (unify k.sep k.altsep)) := by
  obtain ⟨e, hf⟩ := splitdrive_unify W p
  obtain ⟨h1, h2⟩ := foldl_unify W ps (k.splitdrive p).2 hf
  rw [joinDrive_eq, joinDrive_eq, e, h1]
  dsimp only
  rw [isSepC_head W]
  generalize ps.foldl k.joinDriveStep (k.splitdrive p) = res at *
  obtain ⟨rd, rp⟩ := res
  dsimp only at *
  have : unify k.sep k.altsep rp ≠ [] ↔ rp ≠ [] := not_congr (unify_nil_iff _ _ _)
  simp only [this]
  split
  · rw [unify_append, h2.unify]
    simp [unify]
  · rw [unify_append, h2.unify]

/-! ## The fold -/

/-- a drive of an ordinary path -/
def TameDrive (sep : Char) (d : Str) : Prop :=
  d = [] ∨ (∃ c, d = [c, ':'] ∧ c ≠ sep) ∨
    ∃ host share, d = sep :: sep :: (host ++ sep :: share) ∧ host ≠ [] ∧ sep ∉ host ∧ sep ∉ share ∧ share ≠ [] ∧ ':' ∉ share

/-- an ordinary rest -/
structure TameRest (sep : Char) (r : Str) : Prop where
  colon : ':' ∉ r
  two : ¬ ∃ x, r = sep :: sep :: x

theorem TameDrive.last {sep : Char} {d : Str} (h : TameDrive sep d) (hs : sep ≠ ':') : d = [] ∨ (∃ c, d = [c, ':'] ∧ c ≠ sep) ∨
    isAbs sep d ∧ d.getLast? ≠ some ':' := by
  rcases h with h | h | ⟨host, share, rfl, -, -, -, h1, h2⟩
  · exact .inl h
  · exact .inr (.inl h)
  · refine .inr (.inr ⟨⟨_, rfl⟩, ?_⟩)
    obtain ⟨i, x, rfl⟩ := (List.eq_nil_or_concat share).resolve_left h1
    simp only [List.concat_eq_append] at h2 ⊢
    rw [show sep :: sep :: (host ++ sep :: (i ++ [x])) = (sep :: sep :: (host ++ sep :: i)) ++ [x] by simp, List.getLast?_concat]
    intro e; injection e with e; subst e; simp at h2

/-- the parts of an ordinary path -/
theorem tame_parts {p : Str} (h : Tame k.sep k.altsep p) : ∃ d r, Parts k.sep (unify k.sep k.altsep p) d r ∧
    TameDrive k.sep d ∧ TameRest k.sep r ∧ (isAbs k.sep d → r = [] ∨ isAbs k.sep r) := by
  obtain ⟨d, r, h1, h2, h3, h4⟩ := h
  refine ⟨d, r, ⟨h1, ?_⟩, ?_, ⟨h2, h3⟩, ?_⟩
  · rcases h4 with rfl | ⟨c, rfl, -⟩ | ⟨host, share, rfl, h5, h6, h7, h8, -, h9⟩
    · refine .inr ⟨rfl, ?_⟩
      rw [h1]; exact noDrive h2 h3
    · exact .inl (.letter c r)
    · refine .inl (.share host share r h5 h6 h7 ?_)
      rcases h9 with h9 | h9
      · exact .inl h9
      · exact .inr ⟨h8, h9⟩
  · rcases h4 with h4 | h4 | ⟨host, share, h4, h5, h6, h7, h8, h9, -⟩
    · exact .inl h4
    · exact .inr (.inl h4)
    · exact .inr (.inr ⟨host, share, h4, h5, h6, h7, h8, h9⟩)
  · rcases h4 with rfl | ⟨c, rfl, h4⟩ | ⟨host, share, h4, h5, h6, h7, h8, h9, h10⟩
    · rintro ⟨q, hq⟩; cases hq
    · rintro ⟨q, hq⟩; injection hq with hq _; exact absurd hq h4
    · exact fun _ => h10

/-- What the current locations of the drives must satisfy: the same drive has one current location, and that of a network share is
its root. -/
structure EnvOk (k : Cfg) (env : Str → List Str) : Prop where
  same : ∀ d e, SameDrive k d e → env d = env e
  share : ∀ d, isAbs k.sep d → env d = []

theorem sameDrive_nil (hl : k.caseSens = true ∨ ∀ p, k.lower p = k.lower [] → p = []) {d : Str} (hd : d ≠ []) : ¬ SameDrive k d [] := by
  rintro (h | ⟨h1, h2⟩)
  · exact hd h
  · rcases hl with h | h
    · rw [h1] at h; cases h
    · exact hd (h d h2)

/-- appending a relative path -/
theorem loc_glue {c : Char} (start : List Str) (rp q : Str) (hq : ¬ isAbs c q) :
    loc c start ((if rp ≠ [] ∧ ¬ (∃ r, rp = r ++ [c]) then rp ++ [c] else rp) ++ q) = loc c (loc c start rp) q := by
  by_cases h1 : rp = []
  · subst h1
    rw [if_neg (by simp), List.nil_append]
    congr 1
  · by_cases h2 : ∃ r, rp = r ++ [c]
    · rw [if_neg (by simp [h2])]
      obtain ⟨r, rfl⟩ := h2
      exact loc_snoc_sep start r q hq
    · rw [if_pos ⟨h1, h2⟩, List.append_assoc, List.singleton_append, loc_append_sep _ _ _ hq, if_neg h1]

/-- what the loop of `joinpaths` keeps -/
structure JoinInv (k : Cfg) (env : Str → List Str) (st : Str × Str) (pos : Str × List Str) : Prop where
  drive : TameDrive k.sep st.1
  rest : TameRest k.sep st.2
  flat : Flat k st.1 ∧ Flat k st.2
  pos : pos = (st.1, loc k.sep (env st.1) st.2)

theorem joinInv_step (W : k.Win) {env : Str → List Str} (he : EnvOk k env) {st : Str × Str} {pos pos' : Str × List Str}
    (hi : JoinInv k env st pos) {p : Str} (hf : Flat k p) (ht : Tame k.sep k.altsep p) (hg : Goes k.sep k.altsep (SameDrive k) env pos p pos') :
    JoinInv k env (k.joinDriveStep st p) pos' := by
  obtain ⟨rd, rp⟩ := st
  obtain ⟨hd, hr, ⟨f1, f2⟩, rfl⟩ := hi
  dsimp only at hd hr f1 f2 hg
  obtain ⟨d, r, h1, h2, h3, h4⟩ := tame_parts ht
  obtain ⟨d', r', h1', hg⟩ := hg
  obtain ⟨rfl, rfl⟩ := parts_unique W h1 h1'
  rw [hf.unify] at h1
  have hs := parts_flat W hf h1
  rw [h1.1] at hf
  obtain ⟨f3, f4⟩ := Flat.append.1 hf
  rw [joinDriveStep_eq, hs]
  dsimp only
  by_cases ha : isSepC k r.head? = true
  · have ha' := (isSepC_flat_head f4).1 ha
    have hl : ∀ a b, loc k.sep a r = loc k.sep b r := by intro a b; unfold loc; rw [if_pos ha', if_pos ha']
    rw [if_pos ha]
    rcases hg with ⟨e, rfl⟩ | ⟨e, h5, rfl⟩ | ⟨e, h5, rfl⟩
    · subst e
      have : (if ([] : Str) ≠ [] ∨ rd = [] then [] else rd) = rd := by split <;> simp_all
      rw [this]
      exact ⟨hd, h3, ⟨f1, f4⟩, by rw [hl]⟩
    · rw [if_pos (.inl e)]; exact ⟨h2, h3, ⟨f3, f4⟩, by rw [hl]⟩
    · rw [if_pos (.inl e)]; exact ⟨h2, h3, ⟨f3, f4⟩, rfl⟩
  · have ha' : ¬ isAbs k.sep r := fun h => ha ((isSepC_flat_head f4).2 h)
    rw [if_neg ha]
    have hrp : TameRest k.sep ((if rp ≠ [] ∧ ¬ isSepC k rp.getLast? then rp ++ [k.sep] else rp) ++ r) := by
      refine ⟨?_, ?_⟩
      · intro hm
        rcases List.mem_append.1 hm with hm | hm
        · split at hm
          · rcases List.mem_append.1 hm with hm | hm
            · exact hr.colon hm
            · simp at hm; exact W.sepColon hm.symm
          · exact hr.colon hm
        · exact h3.colon hm
      · rintro ⟨x, hx⟩
        match rp, hx with
        | [], hx => rw [if_neg (by simp)] at hx; exact h3.two ⟨x, hx⟩
        | [y], hx =>
          by_cases hy : y = k.sep
          · subst hy
            rw [if_neg (by simp [isSepC])] at hx
            injection hx with _ hx
            exact ha' ⟨x, hx⟩
          · split at hx <;> injection hx with hx _ <;> exact hy hx
        | a :: b :: t, hx =>
          split at hx <;> (injection hx with e1 hx; injection hx with e2 hx; exact hr.two ⟨t, by rw [e1, e2]⟩)
    have hfl : Flat k ((if rp ≠ [] ∧ ¬ isSepC k rp.getLast? then rp ++ [k.sep] else rp) ++ r) := by
      refine Flat.append.2 ⟨?_, f4⟩
      split
      · refine Flat.append.2 ⟨f2, ?_⟩
        intro x hx e; simp at hx; exact (W.alt x e).1 hx
      · exact f2
    have hl : ∀ st, loc k.sep st ((if rp ≠ [] ∧ ¬ isSepC k rp.getLast? then rp ++ [k.sep] else rp) ++ r) = loc k.sep (loc k.sep st rp) r := by
      intro st
      rw [← loc_glue st rp r ha']
      simp only [isSepC_flat_last f2]
    rcases hg with ⟨e, rfl⟩ | ⟨e, h5, rfl⟩ | ⟨e, h5, rfl⟩
    · subst e
      rw [if_neg (by simp), if_neg (by simp)]
      exact ⟨hd, hrp, ⟨f1, hfl⟩, by rw [hl]⟩
    · have hns : ¬ (d ≠ [] ∧ d ≠ rd ∧ (k.caseSens = true ∨ k.lower d ≠ k.lower rd)) := by
        rintro ⟨-, g1, g2⟩
        rcases h5 with h5 | ⟨h5, h6⟩
        · exact g1 h5
        · rw [h5] at g2; rcases g2 with g2 | g2
          · cases g2
          · exact g2 h6
      rw [if_neg hns]
      have : (if d ≠ [] ∧ d ≠ rd then d else rd) = d := by
        split
        · rfl
        · rename_i h; exact Decidable.byContradiction fun hx => h ⟨e, fun g => hx g.symm⟩
      rw [this]
      exact ⟨h2, hrp, ⟨f3, hfl⟩, by dsimp only; rw [hl, he.same _ _ h5]⟩
    · have hns : d ≠ [] ∧ d ≠ rd ∧ (k.caseSens = true ∨ k.lower d ≠ k.lower rd) := by
        refine ⟨e, fun g => h5 (.inl g), ?_⟩
        by_cases hcs : k.caseSens = true
        · exact .inl hcs
        · exact .inr fun g => h5 (.inr ⟨by simpa using hcs, g⟩)
      rw [if_pos hns]
      exact ⟨h2, h3, ⟨f3, f4⟩, rfl⟩

theorem joinInv_fold (W : k.Win) {env : Str → List Str} (he : EnvOk k env) (ps : List Str) {st : Str × Str} {pos pos' : Str × List Str}
    (hi : JoinInv k env st pos) (hf : ∀ p ∈ ps, Flat k p ∧ Tame k.sep k.altsep p) (hg : Travels k.sep k.altsep (SameDrive k) env pos ps pos') :
    JoinInv k env (ps.foldl k.joinDriveStep st) pos' := by
  induction ps generalizing st pos with
  | nil => cases hg; exact hi
  | cons p ps ih =>
    cases hg with
    | next g gs => exact ih (joinInv_step W he hi (hf p (by simp)).1 (hf p (by simp)).2 g) (fun q hq => hf q (by simp [hq])) gs

/-- the end of the loop -/
theorem joinInv_end (W : k.Win) {env : Str → List Str} (he : EnvOk k env) (hl : k.caseSens = true ∨ ∀ p, k.lower p = k.lower [] → p = [])
    {rd rp : Str} {pos : Str × List Str} (hi : JoinInv k env (rd, rp) pos) :
    let q := if rp ≠ [] ∧ ¬ isSepC k rp.head? ∧ rd ≠ [] ∧ rd.getLast? ≠ some ':' then rd ++ k.sep :: rp else rd ++ rp
    Tame k.sep k.altsep q ∧ Goes k.sep k.altsep (SameDrive k) env ([], env []) q pos ∧
      (isAbs k.sep rp → Parts k.sep (unify k.sep k.altsep q) rd rp) := by
  obtain ⟨hd, hr, ⟨f1, f2⟩, rfl⟩ := hi
  dsimp only at hd hr f1 f2 ⊢
  have key : ∀ r, TameRest k.sep r → Flat k r → (isAbs k.sep rd → r = [] ∨ isAbs k.sep r) → loc k.sep (env rd) r = loc k.sep (env rd) rp →
      Tame k.sep k.altsep (rd ++ r) ∧ Goes k.sep k.altsep (SameDrive k) env ([], env []) (rd ++ r) (rd, loc k.sep (env rd) rp) ∧
        Parts k.sep (unify k.sep k.altsep (rd ++ r)) rd r := by
    intro r h1 h2 h3 h4
    have hfu : unify k.sep k.altsep (rd ++ r) = rd ++ r := (Flat.append.2 ⟨f1, h2⟩).unify
    have ht : Tame k.sep k.altsep (rd ++ r) := by
      refine ⟨rd, r, hfu, h1.colon, h1.two, ?_⟩
      rcases hd with hd | hd | ⟨host, share, e, g1, g2, g3, g4, g5⟩
      · exact .inl hd
      · exact .inr (.inl hd)
      · exact .inr (.inr ⟨host, share, e, g1, g2, g3, g4, g5, h3 ⟨_, e⟩⟩)
    have hpt : Parts k.sep (unify k.sep k.altsep (rd ++ r)) rd r := by
      refine ⟨hfu, ?_⟩
      rw [hfu]
      rcases hd with hd | ⟨c, hd, -⟩ | ⟨host, share, e, g1, g2, g3, g4, g5⟩
      · rw [hd]; exact .inr ⟨rfl, noDrive h1.colon h1.two⟩
      · rw [hd]; exact .inl (.letter c r)
      · have := h3 ⟨_, e⟩
        rw [e]
        refine .inl (.share host share r g1 g2 g3 ?_)
        rcases this with h | h
        · exact .inl h
        · exact .inr ⟨g4, h⟩
    refine ⟨ht, ⟨rd, r, hpt, ?_⟩, hpt⟩
    · by_cases hn : rd = []
      · left; exact ⟨hn, by rw [← h4, hn]⟩
      · right; right; exact ⟨hn, sameDrive_nil hl hn, by rw [h4]⟩
  split
  · rename_i h
    obtain ⟨h1, h2, h3, h4⟩ := h
    have hna : ¬ isAbs k.sep rp := fun h => h2 ((isSepC_flat_head f2).2 h)
    have hab : isAbs k.sep rd := by
      rcases hd.last W.sepColon with h | ⟨c, h, -⟩ | h
      · exact absurd h h3
      · rw [h] at h4; simp at h4
      · exact h.1
    suffices hk : TameRest k.sep (k.sep :: rp) ∧ Flat k (k.sep :: rp) ∧ loc k.sep (env rd) (k.sep :: rp) = loc k.sep (env rd) rp by
      obtain ⟨k1, k2, -⟩ := key (k.sep :: rp) hk.1 hk.2.1 (fun _ => .inr ⟨rp, rfl⟩) hk.2.2
      exact ⟨k1, k2, fun h => absurd h hna⟩
    refine ⟨⟨?_, ?_⟩, ?_, ?_⟩
    · simp only [List.mem_cons, not_or]; exact ⟨W.sepColon.symm, hr.colon⟩
    · rintro ⟨x, hx⟩; injection hx with _ hx; exact hna ⟨x, hx⟩
    · intro x hx e
      rcases List.mem_cons.1 hx with rfl | hx
      · exact (W.alt _ e).1 rfl
      · exact f2 x hx e
    · rw [he.share rd hab]
      unfold loc
      rw [if_pos ⟨rp, rfl⟩, if_neg hna, split_abs, foldl_step_nil_cons]
  · rename_i h
    have hab : isAbs k.sep rd → rp = [] ∨ isAbs k.sep rp := ?_
    · obtain ⟨k1, k2, k3⟩ := key rp hr f2 hab rfl
      exact ⟨k1, k2, fun _ => k3⟩
    intro hab
    refine Decidable.byContradiction fun hx => h ?_
    simp only [not_or] at hx
    refine ⟨hx.1, fun g => hx.2 ((isSepC_flat_head f2).1 g), ?_, ?_⟩
    · rintro rfl; obtain ⟨q, hq⟩ := hab; cases hq
    · rcases hd.last W.sepColon with h | ⟨c, h, hc⟩ | h
      · rw [h] at hab; obtain ⟨q, hq⟩ := hab; cases hq
      · rw [h] at hab; obtain ⟨q, hq⟩ := hab; injection hq with hq _; exact absurd hq hc
      · exact h.2

theorem goes_unify (W : k.Win) {same : Str → Str → Prop} {env : Str → List Str} {pos pos' : Str × List Str} {p : Str} :
    Goes k.sep k.altsep same env pos (unify k.sep k.altsep p) pos' ↔ Goes k.sep k.altsep same env pos p pos' := by
  unfold Goes; rw [unify_unify W]

theorem tame_unify (W : k.Win) {p : Str} : Tame k.sep k.altsep (unify k.sep k.altsep p) ↔ Tame k.sep k.altsep p := by
  unfold Tame; rw [unify_unify W]

theorem travels_unify (W : k.Win) {same : Str → Str → Prop} {env : Str → List Str} {pos pos' : Str × List Str} {ps : List Str}
    (h : Travels k.sep k.altsep same env pos ps pos') : Travels k.sep k.altsep same env pos (ps.map (unify k.sep k.altsep)) pos' := by
  induction h with
  | done => exact .done _
  | next g _ ih => exact .next ((goes_unify W).2 g) ih

/-- C59: joining ordinary paths gives an ordinary path that leads where going along the parts one after the other leads. -/
theorem win_join_meaning (W : k.Win) (hl : k.caseSens = true ∨ ∀ p, k.lower p = k.lower [] → p = []) {env : Str → List Str} (he : EnvOk k env)
    (ps : List Str) (hne : ps ≠ []) (ht : ∀ p ∈ ps, Tame k.sep k.altsep p) {pos : Str × List Str}
    (hg : Travels k.sep k.altsep (SameDrive k) env ([], env []) ps pos) :
    Tame k.sep k.altsep (k.joinpaths ps) ∧ Goes k.sep k.altsep (SameDrive k) env ([], env []) (k.joinpaths ps) pos := by
  match ps with
  | [] => exact absurd rfl hne
  | [p] =>
    cases hg with
    | next g gs => cases gs; exact ⟨ht p (by simp), g⟩
  | p :: q :: ps =>
    have e : k.joinpaths (p :: q :: ps) = k.joinDrive p (q :: ps) := by
      simp only [Cfg.joinpaths]; rw [if_pos W.win]
    rw [e, ← goes_unify W, ← tame_unify W, joinDrive_unify W, joinDrive_eq]
    have hg' := travels_unify W hg
    rw [List.map_cons] at hg'
    cases hg' with
    | next g gs =>
      have htp := (tame_unify W).2 (ht p (by simp))
      obtain ⟨d, r, h1, h2, h3, h4⟩ := tame_parts htp
      rw [unify_unify W] at h1
      have hs := parts_flat W (flat_unify W p) h1
      have hfl : Flat k (d ++ r) := h1.1 ▸ flat_unify W p
      rename_i pos1
      have hi : JoinInv k env (k.splitdrive (unify k.sep k.altsep p)) pos1 := by
        rw [hs]
        refine ⟨h2, h3, Flat.append.1 hfl, ?_⟩
        obtain ⟨d', r', h1', g⟩ := g
        rw [unify_unify W] at h1'
        obtain ⟨rfl, rfl⟩ := parts_unique W h1 h1'
        rcases g with ⟨e, g⟩ | ⟨e, g0, g⟩ | ⟨e, -, g⟩
        · subst e; exact g
        · exact absurd g0 (sameDrive_nil hl e)
        · exact g
      have hi' := joinInv_fold W he ((q :: ps).map (unify k.sep k.altsep)) hi (by
        intro x hx
        obtain ⟨y, hy, rfl⟩ := List.mem_map.1 hx
        exact ⟨flat_unify W y, (tame_unify W).2 (ht y (List.mem_cons_of_mem _ hy))⟩) gs
      exact ⟨(joinInv_end W he hl hi').1, (joinInv_end W he hl hi').2.1⟩

theorem goes_exists (W : k.Win) (same : Str → Str → Prop) (env : Str → List Str) (pos : Str × List Str) (p : Str) :
    ∃ pos', Goes k.sep k.altsep same env pos p pos' := by
  obtain ⟨d, r, h⟩ := parts_exist W (unify k.sep k.altsep p)
  by_cases hd : d = []
  · exact ⟨_, d, r, h, .inl ⟨hd, rfl⟩⟩
  · by_cases hs : same d pos.1
    · exact ⟨_, d, r, h, .inr (.inl ⟨hd, hs, rfl⟩)⟩
    · exact ⟨_, d, r, h, .inr (.inr ⟨hd, hs, rfl⟩)⟩

theorem goes_unique (W : k.Win) {same : Str → Str → Prop} {env : Str → List Str} {pos a b : Str × List Str} {p : Str}
    (h : Goes k.sep k.altsep same env pos p a) (h' : Goes k.sep k.altsep same env pos p b) : a = b := by
  obtain ⟨d, r, h1, h2⟩ := h
  obtain ⟨d', r', h1', h2'⟩ := h'
  obtain ⟨rfl, rfl⟩ := parts_unique W h1 h1'
  rcases h2 with ⟨g1, rfl⟩ | ⟨g1, g2, rfl⟩ | ⟨g1, g2, rfl⟩ <;> rcases h2' with ⟨g1', rfl⟩ | ⟨g1', g2', rfl⟩ | ⟨g1', g2', rfl⟩ <;>
    first | rfl | exact absurd g1 g1' | exact absurd g1' g1 | exact absurd g2 g2' | exact absurd g2' g2

/-- C59: every list of paths leads somewhere, and only to one place. -/
theorem travels_exists (W : k.Win) (same : Str → Str → Prop) (env : Str → List Str) (pos : Str × List Str) (ps : List Str) :
    ∃ pos', Travels k.sep k.altsep same env pos ps pos' ∧ ∀ b, Travels k.sep k.altsep same env pos ps b → b = pos' := by
  induction ps generalizing pos with
  | nil => exact ⟨pos, .done pos, fun b hb => by cases hb; rfl⟩
  | cons p ps ih =>
    obtain ⟨pos1, h1⟩ := goes_exists W same env pos p
    obtain ⟨pos2, h2, h3⟩ := ih pos1
    refine ⟨pos2, .next h1 h2, fun b hb => ?_⟩
    cases hb with
    | next g gs => rw [goes_unique W g h1] at gs; exact h3 b gs

/-- C59: an absolute path joined with a path without drive or on the same drive is absolute, and so is any path joined with an absolute one. -/
theorem win_join_absolute (W : k.Win) (hl : k.caseSens = true ∨ ∀ p, k.lower p = k.lower [] → p = []) {a b da ra db rb : Str}
    (ta : Tame k.sep k.altsep a) (tb : Tame k.sep k.altsep b)
    (ha : Parts k.sep (unify k.sep k.altsep a) da ra) (hb : Parts k.sep (unify k.sep k.altsep b) db rb) 
    (hd : isAbs k.sep ra ∧ (db = [] ∨ SameDrive k db da) ∨ isAbs k.sep rb) : k.isabs (k.joinpaths [a, b]) = true := by
  have he : EnvOk k (fun _ => []) := ⟨fun _ _ _ => rfl, fun _ _ => rfl⟩
  have e : k.joinpaths [a, b] = k.joinDrive a [b] := by simp only [Cfg.joinpaths]; rw [if_pos W.win]
  have eu := joinDrive_unify W a [b]
  rw [← e, joinDrive_eq] at eu
  obtain ⟨d, r, h1, h2, h3, h4⟩ := tame_parts ta
  obtain ⟨rfl, rfl⟩ := parts_unique W ha h1
  have hfa : Flat k (da ++ ra) := h1.1 ▸ flat_unify W a
  have hi : JoinInv k (fun _ => []) (da, ra) (da, loc k.sep [] ra) := ⟨h2, h3, Flat.append.1 hfa, rfl⟩
  obtain ⟨pos, hg⟩ := goes_exists W (SameDrive k) (fun _ => []) (da, loc k.sep [] ra) (unify k.sep k.altsep b)
  have hi' := joinInv_step W he hi (flat_unify W b) ((tame_unify W).2 tb) hg
  rw [parts_flat W (flat_unify W a) ha] at eu
  simp only [List.map_cons, List.map_nil, List.foldl_cons, List.foldl_nil] at eu
  have hab : isAbs k.sep (k.joinDriveStep (da, ra) (unify k.sep k.altsep b)).2 := by
    have hfb : Flat k (db ++ rb) := hb.1 ▸ flat_unify W b
    rw [joinDriveStep_eq, parts_flat W (flat_unify W b) hb]
    dsimp only
    split
    · rename_i h; exact (isSepC_flat_head (Flat.append.1 hfb).2).1 h
    · rename_i h
      have hnb : ¬ isAbs k.sep rb := fun g => h ((isSepC_flat_head (Flat.append.1 hfb).2).2 g)
      split
      · rename_i hx
        exfalso
        rcases hd with ⟨-, g | g⟩ | g
        · exact hx.1 g
        · rcases g with g | ⟨g1, g2⟩
          · exact hx.2.1 g
          · rcases hx.2.2 with y | y
            · rw [g1] at y; cases y
            · exact y g2
        · exact hnb g
      · obtain ⟨q, rfl⟩ := (hd.resolve_right hnb).1
        dsimp only
        split
        · exact ⟨_, rfl⟩
        · exact ⟨_, rfl⟩
  generalize k.joinDriveStep (da, ra) (unify k.sep k.altsep b) = st at *
  obtain ⟨rd, rp⟩ := st
  obtain ⟨-, -, h5⟩ := joinInv_end W he hl hi'
  dsimp only at hab eu h5
  have h6 := h5 hab
  rw [← eu, unify_unify W] at h6
  exact (win_isabs W h6).2 hab

/-! ## abspath -/

theorem goes_abs {same : Str → Str → Prop} {env : Str → List Str} {pos pos2 pos' : Str × List Str} {p d r : Str} (W : k.Win)
    (hp : Parts k.sep (unify k.sep k.altsep p) d r) (ha : isAbs k.sep r) (he : pos.1 = pos2.1 ∨ d ≠ [])
    (hg : Goes k.sep k.altsep same env pos p pos') : Goes k.sep k.altsep same env pos2 p pos' := by
  obtain ⟨d', r', h1, h2⟩ := hg
  obtain ⟨rfl, rfl⟩ := parts_unique W hp h1
  have hl : ∀ a b, loc k.sep a r = loc k.sep b r := by intro a b; unfold loc; rw [if_pos ha, if_pos ha]
  refine ⟨d, r, hp, ?_⟩
  rcases h2 with ⟨e, rfl⟩ | ⟨e, -, rfl⟩ | ⟨e, -, rfl⟩
  · rcases he with he | he
    · exact .inl ⟨e, by rw [he, hl]⟩
    · exact absurd e he
  · by_cases hs : same d pos2.1
    · exact .inr (.inl ⟨e, hs, by rw [hl]⟩)
    · exact .inr (.inr ⟨e, hs, by rw [hl _ (env d)]⟩)
  · by_cases hs : same d pos2.1
    · exact .inr (.inl ⟨e, hs, by rw [hl _ pos2.2]⟩)
    · exact .inr (.inr ⟨e, hs, rfl⟩)

/-- The working directory of a Windows filesystem: a drive letter and an absolute path. -/
structure WinCwd (k : Cfg) (cwd : Str) (c : Char) (rc : Str) : Prop where
  eq : cwd = c :: ':' :: rc
  flat : Flat k cwd
  letter : c ≠ k.sep
  abs : isAbs k.sep rc
  rest : TameRest k.sep rc

theorem WinCwd.parts {cwd : Str} {c : Char} {rc : Str} (h : WinCwd k cwd c rc) : Parts k.sep (unify k.sep k.altsep cwd) [c, ':'] rc := by
  rw [h.flat.unify, h.eq]; exact ⟨rfl, .inl (.letter c rc)⟩

theorem WinCwd.tame {cwd : Str} {c : Char} {rc : Str} (h : WinCwd k cwd c rc) : Tame k.sep k.altsep cwd :=
  ⟨[c, ':'], rc, by rw [h.flat.unify, h.eq]; rfl, h.rest.colon, h.rest.two, .inr (.inl ⟨c, rfl, h.letter⟩)⟩

theorem startsWithSep_unify (p : Str) (h : k.startsWithSep p = false) : ¬ isAbs k.sep (unify k.sep k.altsep p) := by
  rintro ⟨q, hq⟩
  cases p with
  | nil => simp [unify] at hq
  | cons x p =>
    unfold Cfg.startsWithSep at h
    simp only [unify, List.map_cons, List.cons.injEq] at hq
    cases ha : k.altsep with
    | none => simp_all [startsWithC]
    | some a =>
      simp only [ha, startsWithC, List.head?_cons, Bool.or_eq_false_iff, beq_eq_false_iff_ne, ne_eq, Option.some.injEq] at h hq
      rw [if_neg (fun e => h.2 e.symm)] at hq
      exact h.1 hq.1

theorem abspath_arg {s : FS} (W : s.cfg.Win) (hl : s.cfg.caseSens = true ∨ ∀ p, s.cfg.lower p = s.cfg.lower [] → p = [])
    {env : Str → List Str} (he : EnvOk s.cfg env) {c : Char} {rc : Str} (hc : WinCwd s.cfg s.cwd c rc) {p : Str}
    (tp : Tame s.cfg.sep s.cfg.altsep p) {pos : Str × List Str}
    (hg : Goes s.cfg.sep s.cfg.altsep (SameDrive s.cfg) env ([c, ':'], loc s.cfg.sep [] rc) p pos) :
    ∃ q, s.abspath p = s.cfg.normpath q ∧ Goes s.cfg.sep s.cfg.altsep (SameDrive s.cfg) env ([], env []) q pos ∧
      ∀ d r, Parts s.cfg.sep (unify s.cfg.sep s.cfg.altsep p) d r →
        d = [] ∨ SameDrive s.cfg d [c, ':'] ∨ isAbs s.cfg.sep r → s.cfg.isabs q = true := by
  obtain ⟨d, r, hp⟩ := parts_exist W (unify s.cfg.sep s.cfg.altsep p)
  have hnn : ([c, ':'] : Str) ≠ [] := by simp
  have hcg : Goes s.cfg.sep s.cfg.altsep (SameDrive s.cfg) env ([], env []) s.cwd ([c, ':'], loc s.cfg.sep [] rc) :=
    ⟨_, rc, hc.parts, .inr (.inr ⟨hnn, sameDrive_nil hl hnn, by unfold loc; rw [if_pos hc.abs, if_pos hc.abs]⟩)⟩
  unfold FS.abspath
  dsimp only
  by_cases ha : isAbs s.cfg.sep r
  · have hia := (win_isabs W hp).2 ha
    rw [hia]
    simp only [Bool.not_true, Bool.false_eq_true, if_false]
    by_cases hss : s.cfg.startsWithSep p = true
    · have hdl : s.cfg.startsWithDriveLetter s.cwd = true := by
        unfold Cfg.startsWithDriveLetter; rw [W.win, hc.eq]; simp
      rw [if_pos (by simp [W.win, hss, hdl])]
      have ht2 : s.cwd.take 2 = [c, ':'] := by rw [hc.eq]; rfl
      have hfl : Flat s.cfg [c, ':'] := by
        have := hc.flat; rw [hc.eq] at this
        exact (Flat.append (p := [c, ':']) (q := rc).1 this).1
      have hpt : Parts s.cfg.sep (unify s.cfg.sep s.cfg.altsep [c, ':']) [c, ':'] [] := by
        rw [hfl.unify]; exact ⟨rfl, .inl (.letter c [])⟩
      have ht : Tame s.cfg.sep s.cfg.altsep [c, ':'] :=
        ⟨[c, ':'], [], by rw [hfl.unify]; rfl, by simp, by simp, .inr (.inl ⟨c, rfl, hc.letter⟩)⟩
      rw [ht2]
      refine ⟨_, rfl, ?_, ?_⟩
      · refine (win_join_meaning W hl he [[c, ':'], p] (by simp) ?_ (.next (pos1 := ([c, ':'], loc s.cfg.sep (env [c, ':']) [])) ?_ (.next ?_ (.done _)))).2
        · intro x hx
          simp only [List.mem_cons, List.not_mem_nil, or_false] at hx
          rcases hx with rfl | rfl
          · exact ht
          · exact tp
        · exact ⟨_, [], hpt, .inr (.inr ⟨hnn, sameDrive_nil hl hnn, rfl⟩)⟩
        · exact goes_abs (pos := ([c, ':'], loc s.cfg.sep [] rc)) W hp ha (.inl rfl) hg
      · intro d' r' hp' _
        exact win_join_absolute W hl ht tp hpt hp (.inr ha)
    · rw [if_neg (by simp [hss])]
      refine ⟨p, rfl, ?_, fun _ _ _ _ => hia⟩
      have hd : d ≠ [] := by
        rintro rfl
        apply startsWithSep_unify p (by simpa using hss)
        rw [hp.1]; exact ha
      exact goes_abs W hp ha (.inr hd) hg
  · have hia : s.cfg.isabs p = false := by
      rw [Bool.eq_false_iff]; exact fun h => ha ((win_isabs W hp).1 h)
    rw [hia]
    simp only [Bool.not_false, if_true]
    refine ⟨_, rfl, ?_, ?_⟩
    · refine (win_join_meaning W hl he [s.cwd, p] (by simp) ?_ (.next hcg (.next hg (.done _)))).2
      intro x hx
      simp only [List.mem_cons, List.not_mem_nil, or_false] at hx
      rcases hx with rfl | rfl
      · exact hc.tame
      · exact tp
    · intro d' r' hp' hd
      obtain ⟨rfl, rfl⟩ := parts_unique W hp hp'
      refine win_join_absolute W hl hc.tame tp hc.parts hp (.inl ⟨hc.abs, ?_⟩)
      rcases hd with g | g | g
      · exact .inl g
      · exact .inr g
      · exact absurd g ha

/-- C59: with a working directory on a drive, `os.path.abspath` of an ordinary path leads where the path leads from the working
directory, wherever one starts; it is absolute unless the path is relative to another drive. -/
theorem win_abspath {s : FS} (W : s.cfg.Win) (hl : s.cfg.caseSens = true ∨ ∀ p, s.cfg.lower p = s.cfg.lower [] → p = [])
    {env : Str → List Str} (he : EnvOk s.cfg env) {c : Char} {rc : Str} (hc : WinCwd s.cfg s.cwd c rc) {p d r : Str}
    (tp : Tame s.cfg.sep s.cfg.altsep p) (hp : Parts s.cfg.sep (unify s.cfg.sep s.cfg.altsep p) d r) {pos : Str × List Str}
    (hg : Goes s.cfg.sep s.cfg.altsep (SameDrive s.cfg) env ([c, ':'], loc s.cfg.sep [] rc) p pos) :
    Goes s.cfg.sep s.cfg.altsep (SameDrive s.cfg) env ([], env []) (s.abspath p) pos ∧
      (d = [] ∨ SameDrive s.cfg d [c, ':'] ∨ isAbs s.cfg.sep r → s.cfg.isabs (s.abspath p) = true) := by
  obtain ⟨q, e, h1, h2⟩ := abspath_arg W hl he hc tp hg
  rw [e]
  obtain ⟨dq, rq, hq, h3⟩ := id h1
  have hdq : dq ≠ [] := by
    rintro rfl
    rcases h3 with ⟨-, rfl⟩ | ⟨g, -⟩ | ⟨g, -⟩
    · obtain ⟨d', r', -, h4⟩ := hg
      rcases h4 with ⟨g, e⟩ | ⟨g, -, e⟩ | ⟨g, -, e⟩
      · have := congrArg Prod.fst e; simp at this
      · exact g (congrArg Prod.fst e).symm
      · exact g (congrArg Prod.fst e).symm
    · exact g rfl
    · exact g rfl
  refine ⟨(win_normpath_meaning W _ env _ _ hq (.inl hdq)).2 h1, fun hd => ?_⟩
  obtain ⟨r', h5, -, h6, -⟩ := win_normpath_parts W hq (.inl hdq)
  rw [win_isabs W h5, h6, ← win_isabs W hq]
  exact h2 d r hp hd

end
end Verif
