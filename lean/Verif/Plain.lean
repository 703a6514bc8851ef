import Verif.PresRename
/-!
# Paths without `..`: lookups are walks
-/

namespace Verif
open Py Spec Cfg

namespace Spec
/-- Number of path components starting with two dots. -/
def dots (sep : Char) (p : Str) : Nat := (split sep p).countP fun w => (['.', '.'] : Str).isPrefixOf w

/-- An ordinary file name: proper and not starting with two dots (`_valid_relative_path` treats the text
`/..` in `/..name` like a parent reference). -/
def Plain (sep : Char) (w : Str) : Prop := Proper sep w ∧ (['.', '.'] : Str).isPrefixOf w = false

instance (sep : Char) (w : Str) : Decidable (Plain sep w) := by unfold Plain; infer_instance
end Spec

theorem plain_proper {c : Char} {l : List Str} (h : ∀ w ∈ l, Plain c w) : ∀ w ∈ l, Proper c w := fun w hw => (h w hw).1

theorem dots_cut {c : Char} (hc : c ≠ '.') {p q : Str} (h : cutAtLast (c :: dotdot) p = some q) :
    dots c q + 1 ≤ dots c p := by
  obtain ⟨t, rfl⟩ := cutAtLast_prefix h
  have e : q ++ c :: dotdot ++ t = q ++ c :: (dotdot ++ t) := by simp
  unfold dots
  rw [e, split_append_sep, List.countP_append]
  have : 1 ≤ (split c (dotdot ++ t)).countP fun w => (['.', '.'] : Str).isPrefixOf w := by
    obtain ⟨w, ws, h1, h2⟩ := split_cons_ne (c := c) (x := '.') hc.symm t
    obtain ⟨w', ws', h1', h2'⟩ := split_cons_ne (c := c) (x := '.') hc.symm ('.' :: t)
    rw [h2] at h1'
    have e2 : dotdot ++ t = '.' :: '.' :: t := rfl
    rw [e2, h2']
    injection h1' with a b
    subst a
    simp
  omega

theorem dots_absPath {k : Cfg} (h : k.Posix) {l : List Str} (hl : ∀ w ∈ l, k.sep ∉ w) :
    dots k.sep (absPath k.sep l) = l.countP fun w => (['.', '.'] : Str).isPrefixOf w := by
  unfold dots absPath
  rw [split_abs]
  by_cases e : l = []
  · subst e; simp [join, split]
  · rw [split_join e hl]; simp

theorem cutAtLast_plain {k : Cfg} (h : k.Posix) {l : List Str} (hl : ∀ w ∈ l, Plain k.sep w) :
    cutAtLast (k.sep :: dotdot) (absPath k.sep l) = none := by
  cases hc : cutAtLast (k.sep :: dotdot) (absPath k.sep l) with
  | none => rfl
  | some q =>
    have := dots_cut h.sepDot hc
    rw [dots_absPath h (fun w hw => (hl w hw).1.2.2.2)] at this
    have hz : (l.countP fun w => (['.', '.'] : Str).isPrefixOf w) = 0 := by
      rw [List.countP_eq_zero]
      intro w hw; rw [(hl w hw).2]; simp
    omega

theorem collapse_count (P : Str → Bool) (b : Bool) (cs acc : List Str) :
    (Cfg.collapse b cs acc).countP P ≤ cs.countP P + acc.countP P := by
  induction cs generalizing acc with
  | nil => simp [Cfg.collapse]
  | cons c cs ih =>
    have hle : cs.countP P ≤ (c :: cs).countP P := (List.sublist_cons_self c cs).countP_le
    unfold Cfg.collapse
    split
    · have := ih acc; omega
    · split
      · split
        · rename_i top rest
          have hr : rest.countP P ≤ (top :: rest).countP P := (List.sublist_cons_self top rest).countP_le
          split
          · have := ih rest; omega
          · split
            · have := ih (top :: rest); omega
            · have := ih (c :: top :: rest)
              simp only [List.countP_cons] at this ⊢
              omega
        · split
          · have := ih []; simp at this ⊢; omega
          · have := ih [c]
            simp only [List.countP_cons, List.countP_nil] at this ⊢
            omega
      · have := ih (c :: acc)
        simp only [List.countP_cons] at this ⊢
        omega

theorem dots_normpath {k : Cfg} (h : k.Posix) (p : Str) : dots k.sep (k.normpath p) ≤ dots k.sep p := by
  have hns : ∀ b, ∀ w ∈ Cfg.collapse b (split k.sep p) [], k.sep ∉ w := by
    intro b w hw
    obtain ⟨n, names, e, hn, _⟩ := collapse_split_shape k.sep b p
    rw [e] at hw
    rcases List.mem_append.mp hw with hw | hw
    · rw [(List.mem_replicate.mp hw).2]; exact dotdot_no_sep h
    · exact (hn w hw).2.2.2
  have hcount := fun b => collapse_count (fun w => (['.', '.'] : Str).isPrefixOf w) b (split k.sep p) []
  simp only [List.countP_nil, Nat.add_zero] at hcount
  rw [normpath_posix h]
  split
  · rw [show k.sep :: join k.sep (Cfg.collapse true (split k.sep p) []) = absPath k.sep (Cfg.collapse true (split k.sep p) []) from rfl,
      dots_absPath h (hns true)]
    exact hcount true
  · split
    · have : dots k.sep dot = 0 := by
        unfold dots
        rw [split_no_sep (by simp [dot, h.sepDot])]
        simp [dot]
      omega
    · rename_i hne
      have : dots k.sep (join k.sep (Cfg.collapse false (split k.sep p) [])) =
          (Cfg.collapse false (split k.sep p) []).countP fun w => (['.', '.'] : Str).isPrefixOf w := by
        unfold dots; rw [split_join hne (hns false)]
      rw [this]
      exact hcount false

theorem dots_absnormpath {k : Cfg} (h : k.Posix) {cwd : Str} (hc : isAbs k.sep cwd) (p : Str) :
    dots k.sep (k.absnormpath cwd p) ≤ dots k.sep p + (if isAbs k.sep p then 0 else dots k.sep cwd) := by
  rw [absnormpath_posix h hc]
  refine Nat.le_trans (dots_normpath h _) ?_
  have hdot : dots k.sep [k.sep] = 0 := by simp [dots, split]
  split
  · rename_i e; subst e; rw [hdot]; exact Nat.zero_le _
  · split
    · rename_i e; subst e
      rw [if_neg (dot_not_abs h)]; omega
    · split
      · simp
      · have : ∀ a, dots k.sep (join k.sep [a, p]) = dots k.sep a + dots k.sep p := by
          intro a; unfold dots; simp only [join]; rw [split_append_sep, List.countP_append]
        rw [this]
        split
        · omega
        · have : dots k.sep ([] : Str) = 0 := by simp [dots, split]
          omega

section
variable {s : FS}

theorem absnorm_canon (hi : Inv s) (hp : s.cfg.Posix) {p : Str} (h : AbsCanon s.cfg.sep p) : s.absnorm p = p := by
  unfold FS.absnorm
  rw [absnormpath_absolute hp (hi.n.cwd hp) (absCanon_isAbs h)]
  exact normpath_canon_id hp (Or.inl h)

theorem absCanon_names {c : Char} {l : List Str} (h : ∀ w ∈ l, Proper c w) : AbsCanon c (absPath c l) := ⟨l, h, rfl⟩

theorem validRel_plain (hp : s.cfg.Posix) (k : FS.Rec) {l : List Str} (hl : ∀ w ∈ l, Plain s.cfg.sep w) :
    s.validRelG k (absPath s.cfg.sep l) = .ok true := by
  unfold FS.validRelG
  rw [if_neg (by simp [hp.win])]
  cases (absPath s.cfg.sep l).length with
  | zero => rfl
  | succ n => simp [FS.validLoop, cutAtLast_plain hp hl]

theorem resolveComps_noLink (cs : s.cfg.caseSens = true) {l : List Str} (hn : NoLink s.heap rootRef l) (n : Nat) :
    s.resolveComps n l = .ok l := by
  have := (scan_done_iff cs (acc := []) (l := l)).mpr hn
  simp only [List.reverse_nil, List.nil_append] at this
  unfold FS.resolveComps
  rw [this]

theorem pathComponents_absPath {k : Cfg} (h : k.Posix) {l : List Str} (hl : ∀ w ∈ l, Proper k.sep w) :
    k.pathComponents (absPath k.sep l) = l := by
  have := pathComponents_toPath h (l := l) (fun w hw => proper_compOk (hl w hw))
  rw [this.2] at this; exact this.1

/-- A path of plain names without links resolves to itself. -/
theorem resolvePath_plain (hi : Inv s) (h : s.cfg.Tree) (k : FS.Rec) {l : List Str} (hl : ∀ w ∈ l, Plain s.cfg.sep w)
    (hn : NoLink s.heap rootRef l) : s.resolvePathG k (absPath s.cfg.sep l) = .ok (absPath s.cfg.sep l) := by
  have hlp := plain_proper hl
  have ha := absnorm_canon hi h.posix (absCanon_names hlp)
  apply (resolvePathG_ok h (hi.n.cwd h.posix) k).mpr
  refine ⟨absPath_ne_nil, validRel_plain h.posix k hl, ?_⟩
  rw [ha]
  by_cases e : absPath s.cfg.sep l = s.cfg.root
  · exact Or.inl ⟨e, e⟩
  · by_cases e2 : absPath s.cfg.sep l = s.devName
    · exact Or.inr (Or.inl ⟨e, e2, e2⟩)
    · refine Or.inr (Or.inr ⟨e, e2, l, ?_, fun w hw => proper_compOk (hlp w hw), hn, rfl⟩)
      rw [pathComponents_absPath h.posix hlp, resolveComps_noLink h.cs hn]

/-- Resolving a path of plain names without links is a walk. -/
theorem resolve_plain (hi : Inv s) (h : s.cfg.Tree) (k : FS.Rec) {l : List Str} (hl : ∀ w ∈ l, Plain s.cfg.sep w)
    (hn : NoLink s.heap rootRef l) (hd : absPath s.cfg.sep l ≠ s.devName) {c : Bool} {x : Ref} :
    s.resolveG k (absPath s.cfg.sep l) c = .ok x ↔ walk s.heap rootRef l = some x ∧ Through s.heap rootRef l ∧
      ∀ y ∈ walked s.heap rootRef l, s.readable c y := by
  have hlp := plain_proper hl
  unfold FS.resolveG
  rw [resolvePath_plain hi h k hl hn]
  show s.getObjNormG k (absPath s.cfg.sep l) c = .ok x ↔ _
  rw [getObjNormG_leads h (root_not_lnk hi) k c (fun w hw => proper_compOk (hlp w hw)) hn]
  unfold FS.leads
  simp [hd]

/-- `exists` of a path of plain names without links. -/
theorem exists_plain (hi : Inv s) (h : s.cfg.Tree) (k : FS.Rec) {l : List Str} (hl : ∀ w ∈ l, Plain s.cfg.sep w)
    (hn : NoLink s.heap rootRef l) (hd : absPath s.cfg.sep l ≠ s.devName) :
    s.existsG k (absPath s.cfg.sep l) = .ok (walk s.heap rootRef l).isSome := by
  have hlp := plain_proper hl
  have hsep := absCanon_not_endsWithSep h.posix (absCanon_names hlp)
  unfold FS.existsG
  rw [if_neg absPath_ne_nil, if_neg hd]
  simp only [FS.isFileSepG, hsep, Bool.false_eq_true, if_false, bind, Except.bind, pure, Except.pure,
    resolvePath_plain hi h k hl hn]
  have hroot := absPath_eq_root (k := s.cfg) (l := l) (fun w hw => proper_compOk (hlp w hw))
  split
  · rename_i e; rw [hroot.mp e]; rfl
  · rw [existsLoop_tree h.cs, pathComponents_absPath h.posix hlp]

theorem lresolve_plain (hi : Inv s) (h : s.cfg.Tree) (k : FS.Rec) {l : List Str} {w : Str} (hl : ∀ x ∈ l, Plain s.cfg.sep x)
    (hw : Proper s.cfg.sep w) (hn : NoLink s.heap rootRef l) (hd : absPath s.cfg.sep l ≠ s.devName) {x : Ref} :
    s.lresolveG k (absPath s.cfg.sep (l ++ [w])) = .ok x ↔ walk s.heap rootRef (l ++ [w]) = some x ∧ Through s.heap rootRef l ∧
      (∀ y ∈ walked s.heap rootRef l, s.readable true y) ∧
      ∃ r, walk s.heap rootRef l = some r ∧ (s.heap r).mode &&& PERM_READ ≠ 0 := by
  rw [lresolve_tree h k (plain_proper hl) hw]
  constructor
  · rintro ⟨r, h1, h2, h3, h4⟩
    obtain ⟨h5, h6, h7⟩ := (resolve_plain hi h k hl hn hd).mp h1
    refine ⟨?_, h6, h7, r, h5, h3⟩
    rw [walk_append, h5]; simp [walk, h4]
  · rintro ⟨h1, h2, h3, r, h4, h5⟩
    rw [walk_append, h4] at h1
    simp only [Option.bind_some, walk] at h1
    cases ha : alookup w (s.heap r).entries with
    | none => simp [ha] at h1
    | some y =>
      simp [ha] at h1; subst h1
      refine ⟨r, (resolve_plain hi h k hl hn hd).mpr ⟨h4, h2, h3⟩, ?_, h5, ha⟩
      have := alookup_some ha
      unfold Obj.entries at this; unfold Obj.isDir
      split at this
      · rfl
      · simp at this

end
end Verif
