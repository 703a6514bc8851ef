import Verif.PathFacts
/-!
# Lookup on case-sensitive POSIX filesystems is a walk through directory entries
-/

namespace Verif
open Py Spec Cfg

namespace Spec
/-- Walk from an object through directory entries, no links followed: the object reached by a list of names. -/
def walk (hp : Ref → Obj) : Ref → List Str → Option Ref
  | r, [] => some r
  | r, c :: cs => (alookup c (hp r).entries).bind fun x => walk hp x cs
end Spec

theorem walk_append (hp : Ref → Obj) (r : Ref) (a b : List Str) :
    walk hp r (a ++ b) = (walk hp r a).bind fun x => walk hp x b := by
  induction a generalizing r with
  | nil => rfl
  | cons c cs ih =>
    simp only [List.cons_append, walk]
    cases alookup c (hp r).entries with
    | none => rfl
    | some x => simp [ih]

/-- a usable path component: non-empty, without separator -/
def CompOk (c : Char) (w : Str) : Prop := w ≠ [] ∧ c ∉ w

theorem proper_compOk {c : Char} {w : Str} (h : Proper c w) : CompOk c w := ⟨h.1, h.2.2.2⟩

section
variable {s : FS}

theorem dirContent_tree (cs : s.cfg.caseSens = true) (r : Ref) (c : Str) :
    s.dirContent r c = (alookup c (s.heap r).entries).map fun x => (c, x) := by
  unfold FS.dirContent
  split
  · rename_i b hb; simp [Obj.entries, hb, alookup]
  · rename_i es hes
    rw [mem_entries hes]
    split
    · rename_i x hx; simp [hx]
    · rename_i hx; simp [hx, cs]

theorem getEntry_tree (cs : s.cfg.caseSens = true) (es : List (Str × Ref)) (c : Str) :
    s.getEntry es c = match alookup c es with | some r => .ok r | none => .error .keyError := by
  simp only [FS.getEntry, FS.normEntry, cs, if_true]
  cases alookup c es <;> rfl

theorem originalPath_tree (cs : s.cfg.caseSens = true) (p : Str) : s.originalPath p = p := by
  simp [FS.originalPath, cs]

theorem existsLoop_tree (cs : s.cfg.caseSens = true) (r : Ref) (l : List Str) :
    s.existsLoop r l = (walk s.heap r l).isSome := by
  induction l generalizing r with
  | nil => rfl
  | cons c l ih =>
    simp only [FS.existsLoop, dirContent_tree cs, walk]
    cases alookup c (s.heap r).entries with
    | none => rfl
    | some x => simp [ih]

/-- `scan` stops at the end only with the given components. -/
theorem scan_done {r : Ref} {acc cs res : List Str} (h : s.scan r acc cs = .done res) :
    res = acc.reverse ++ cs := by
  induction cs generalizing r acc with
  | nil => simp [FS.scan] at h; simp [h]
  | cons c cs ih =>
    simp only [FS.scan] at h
    split at h
    · injection h with h; exact h.symm
    · split at h
      · simp at h
      · rw [ih h]; simp

/-- no object met on the walk (after the start) is a symbolic link -/
def NoLink (hp : Ref → Obj) : Ref → List Str → Prop
  | _, [] => True
  | r, c :: cs => ∀ x, alookup c (hp r).entries = some x → (hp x).isLnk = false ∧ NoLink hp x cs

theorem noLink_append {hp : Ref → Obj} {r : Ref} {a b : List Str} :
    NoLink hp r (a ++ b) ↔ NoLink hp r a ∧ ∀ x, walk hp r a = some x → NoLink hp x b := by
  induction a generalizing r with
  | nil => simp [NoLink, walk]
  | cons c cs ih =>
    simp only [List.cons_append, NoLink, walk]
    cases alookup c (hp r).entries with
    | none => simp
    | some y => simp [ih, and_assoc]

theorem scan_done_iff (cs : s.cfg.caseSens = true) {r : Ref} {acc l : List Str} :
    s.scan r acc l = .done (acc.reverse ++ l) ↔ NoLink s.heap r l := by
  induction l generalizing r acc with
  | nil => simp [FS.scan, NoLink]
  | cons c l ih =>
    simp only [FS.scan, dirContent_tree cs, NoLink]
    cases h : alookup c (s.heap r).entries with
    | none => simp
    | some x =>
      simp only [Option.map_some, Option.some.injEq, forall_eq']
      cases hl : (s.heap x).isLnk with
      | true => simp
      | false =>
        have := ih (r := x) (acc := c :: acc)
        simp only [List.reverse_cons, List.append_assoc, List.singleton_append] at this
        simp [this]

/-- A scan stopping at a link: what was walked and the link. -/
theorem scan_link (cs : s.cfg.caseSens = true) {r : Ref} {acc l res rest : List Str} {t : Ref}
    (h : s.scan r acc l = .link res t rest) :
    ∃ pre c, res = acc.reverse ++ pre ++ [c] ∧ l = pre ++ c :: rest ∧ NoLink s.heap r pre ∧
      walk s.heap r (pre ++ [c]) = some t ∧ (s.heap t).isLnk = true := by
  induction l generalizing r acc with
  | nil => simp [FS.scan] at h
  | cons c l ih =>
    simp only [FS.scan, dirContent_tree cs] at h
    cases hx : alookup c (s.heap r).entries with
    | none => simp [hx] at h
    | some x =>
      simp only [hx, Option.map_some] at h
      cases hl : (s.heap x).isLnk with
      | true =>
        simp only [hl, if_true] at h
        injection h with h1 h2 h3
        subst h1; subst h2; subst h3
        exact ⟨[], c, by simp, by simp, trivial, by simp [walk, hx], hl⟩
      | false =>
        simp only [hl] at h
        obtain ⟨pre, c', h1, h2, h3, h4, h5⟩ := ih h
        refine ⟨c :: pre, c', by simp [h1], by simp [h2], ?_, ?_, h5⟩
        · intro y hy; rw [hx] at hy; injection hy with hy; subst hy; exact ⟨hl, h3⟩
        · simp [walk, hx, h4]

end

/-! ## The component lists -/

theorem isAbs_join_compOk {c : Char} {l : List Str} (h : ∀ w ∈ l, CompOk c w) : ¬ isAbs c (join c l) := by
  cases l with
  | nil => simp [join, isAbs]
  | cons w ws =>
    obtain ⟨h1, h2⟩ := h w (by simp)
    obtain ⟨x, xs, rfl⟩ := List.exists_cons_of_ne_nil h1
    have hx : x ≠ c := fun e => h2 (by simp [e])
    rintro ⟨q, hq⟩
    cases ws with
    | nil => simp [join] at hq; exact hx hq.1
    | cons a as => rw [join_cons _ _ (by simp)] at hq; simp at hq; exact hx hq.1

theorem pathComponents_toPath {k : Cfg} (h : k.Posix) {l : List Str} (hl : ∀ w ∈ l, CompOk k.sep w) :
    k.pathComponents (k.componentsToPath l) = l ∧ k.componentsToPath l = absPath k.sep l := by
  have ha := isAbs_join_compOk hl
  have e : k.componentsToPath l = absPath k.sep l := by
    unfold Cfg.componentsToPath
    simp only [h.startsWithRoot, startsWithC_eq, ha, decide_false, Bool.not_false, if_true]; rfl
  refine ⟨?_, e⟩
  rw [e]
  unfold Cfg.pathComponents
  simp only [h.splitdrive, absPath]
  by_cases hne : l = []
  · subst hne; simp [join]
  · have hj : join k.sep l ≠ [] := by
      intro hj
      rcases join_eq_nil hj with h1 | h1
      · exact hne h1
      · subst h1; exact (hl [] (by simp)).1 rfl
    rw [if_neg (by simp [hj]), split_abs, split_join hne (fun w hw => (hl w hw).2)]
    obtain ⟨w, ws, rfl⟩ := List.exists_cons_of_ne_nil hne
    have hw := (hl w (by simp)).1
    obtain ⟨x, xs, rfl⟩ := List.exists_cons_of_ne_nil hw
    simp

theorem canon_components {k : Cfg} (h : k.Posix) {p : Str} (hp : Canon k.sep p) :
    ∀ w ∈ k.pathComponents p, CompOk k.sep w := by
  have gen : ∀ l : List Str, l ≠ [] → (∀ w ∈ l, CompOk k.sep w) → k.pathComponents (join k.sep l) = l := by
    intro l hne hl
    unfold Cfg.pathComponents
    have hj : join k.sep l ≠ [] := by
      intro hj
      rcases join_eq_nil hj with h1 | h1
      · exact hne h1
      · subst h1; exact (hl [] (by simp)).1 rfl
    have hs : join k.sep l ≠ [k.sep] := fun e => isAbs_join_compOk hl ⟨[], e⟩
    rw [if_neg (by simp [hj, hs])]
    simp only [h.splitdrive, split_join hne (fun w hw => (hl w hw).2)]
    obtain ⟨w, ws, rfl⟩ := List.exists_cons_of_ne_nil hne
    have hw := (hl w (by simp)).1
    obtain ⟨x, xs, rfl⟩ := List.exists_cons_of_ne_nil hw
    simp
  rcases hp with ⟨names, hn, rfl⟩ | rfl | ⟨n, names, hn, hne, rfl⟩
  · intro w hw
    rw [← (pathComponents_toPath h (fun w hw => proper_compOk (hn w hw))).2,
      (pathComponents_toPath h (fun w hw => proper_compOk (hn w hw))).1] at hw
    exact proper_compOk (hn w hw)
  · have hd : CompOk k.sep ['.'] := ⟨by simp, by simp [h.sepDot]⟩
    have := gen [['.']] (by simp) (by simpa using hd)
    simp only [join] at this
    rw [this]; simpa using hd
  · have hall : ∀ w ∈ List.replicate n dotdot ++ names, CompOk k.sep w := by
      intro w hw
      rcases List.mem_append.mp hw with hw | hw
      · rw [(List.mem_replicate.mp hw).2]; exact ⟨by simp [dotdot], dotdot_no_sep h⟩
      · exact proper_compOk (hn w hw)
    have := gen (List.replicate n dotdot ++ names) (by
      rcases hne with h0 | h0
      · cases n with
        | zero => omega
        | succ n => simp [List.replicate_succ]
      · simp [h0]) hall
    intro w hw
    have e : (['.', '.'] : Str) = dotdot := rfl
    rw [e, this] at hw
    exact hall w hw

section
variable {s : FS}

theorem resolveComps_ok (cs : s.cfg.caseSens = true) (hp : s.cfg.Posix) : ∀ n l r, (∀ w ∈ l, CompOk s.cfg.sep w) →
    s.resolveComps n l = .ok r → (∀ w ∈ r, CompOk s.cfg.sep w) ∧ NoLink s.heap rootRef r := by
  intro n
  induction n with
  | zero =>
    intro l r hl h
    unfold FS.resolveComps at h
    split at h
    · rename_i res hres
      injection h with h; subst h
      have := scan_done hres
      simp at this; subst this
      exact ⟨hl, (scan_done_iff cs (acc := [])).mp hres⟩
    · simp at h
  | succ n ih =>
    intro l r hl h
    unfold FS.resolveComps at h
    split at h
    · rename_i res hres
      injection h with h; subst h
      have := scan_done hres
      simp at this; subst this
      exact ⟨hl, (scan_done_iff cs (acc := [])).mp hres⟩
    · rename_i res t rest hres
      obtain ⟨pre, c, h1, h2, -⟩ := scan_link cs hres
      apply ih _ _ _ h
      intro w hw
      rcases List.mem_append.mp hw with hw | hw
      · exact canon_components hp (normpath_canonical hp _) w hw
      · exact hl w (by rw [h2]; simp [hw])

/-- permission on an object met by a lookup -/
def FS.readable (s : FS) (check : Bool) (r : Ref) : Prop :=
  s.isRoot = true ∨ check = false ∨ (s.heap r).mode &&& PERM_READ ≠ 0

/-- the objects met by a walk, without the start -/
def walked (hp : Ref → Obj) : Ref → List Str → List Ref
  | _, [] => []
  | r, c :: cs => match alookup c (hp r).entries with | none => [] | some x => x :: walked hp x cs

/-- the directories a walk goes through have directory mode bits -/
def Through (hp : Ref → Obj) : Ref → List Str → Prop
  | _, [] => True
  | r, c :: cs => (hp r).isDirMode = true ∧ ∀ x, alookup c (hp r).entries = some x → Through hp x cs

theorem objLoop_tree (cs : s.cfg.caseSens = true) (k : FS.Rec) (check : Bool) :
    ∀ l r x, (s.heap r).isLnk = false → NoLink s.heap r l →
    (s.objLoop k check r l = .ok x ↔ walk s.heap r l = some x ∧ Through s.heap r l ∧
      ∀ y ∈ walked s.heap r l, s.readable check y) := by
  intro l
  induction l with
  | nil => intro r x _ _; simp [FS.objLoop, walk, Through, walked]
  | cons c l ih =>
    intro r x hr hn
    simp only [FS.objLoop, FS.deref, hr, Bool.false_eq_true, if_false, bind, Except.bind, walk, Through, walked]
    cases hd : (s.heap r).isDirMode with
    | false => simp
    | true =>
      simp only [Bool.not_true, Bool.false_eq_true, if_false]
      cases hc : (s.heap r).content with
      | file b => simp [Obj.entries, hc, alookup]
      | dir es =>
        simp only [getEntry_tree cs, mem_entries hc]
        cases ha : alookup c es with
        | none => simp
        | some y =>
          have hy := hn y (by rw [mem_entries hc]; exact ha)
          simp only [Option.bind_some, Option.some.injEq, forall_eq', true_and, List.mem_cons, forall_eq_or_imp]
          split
          · rename_i hperm
            simp only [Bool.and_eq_true, Bool.not_eq_true', decide_eq_true_eq] at hperm
            have : ¬ s.readable check y := by
              rintro (h1 | h1 | h1)
              · rw [hperm.1.1] at h1; simp at h1
              · rw [h1] at hperm; simp at hperm
              · exact h1 hperm.2
            simp [this]
          · rename_i hperm
            have : s.readable check y := by
              unfold FS.readable
              cases hroot : s.isRoot <;> cases check <;> simp_all
            rw [ih y x hy.1 hy.2]
            simp [this]

theorem isRootPath_tree (h : s.cfg.Tree) (p : Str) : s.cfg.isRootPath p = true ↔ p = s.cfg.root := by
  simp [Cfg.isRootPath, h.cs, h.posix.drive]

/-- What a successful `resolve_path` means. -/
theorem resolvePathG_ok (h : s.cfg.Tree) (hc : isAbs s.cfg.sep s.cwd) (k : FS.Rec) {p q : Str} :
    s.resolvePathG k p = .ok q ↔
    p ≠ [] ∧ s.validRelG k p = .ok true ∧
    ((s.absnorm p = s.cfg.root ∧ q = s.cfg.root) ∨
     (s.absnorm p ≠ s.cfg.root ∧ s.absnorm p = s.devName ∧ q = s.devName) ∨
     (s.absnorm p ≠ s.cfg.root ∧ s.absnorm p ≠ s.devName ∧ ∃ cs,
        s.resolveComps FS.maxLinks (s.cfg.pathComponents (s.absnorm p)) = .ok cs ∧
        (∀ w ∈ cs, CompOk s.cfg.sep w) ∧ NoLink s.heap rootRef cs ∧ q = absPath s.cfg.sep cs)) := by
  constructor
  · intro hq
    unfold FS.resolvePathG at hq
    split at hq
    · simp at hq
    · rename_i hne
      obtain ⟨b, hb, hq⟩ := except_bind_ok hq
      cases b with
      | false => simp at hq
      | true =>
        refine ⟨hne, hb, ?_⟩
        simp only [Bool.not_true, Bool.false_eq_true, if_false, originalPath_tree h.cs] at hq
        split at hq
        · rename_i hr
          injection hq with hq
          have := (isRootPath_tree h _).mp hr
          exact Or.inl ⟨this, hq ▸ this⟩
        · rename_i hr
          have hr : s.absnorm p ≠ s.cfg.root := fun e => hr ((isRootPath_tree h _).mpr e)
          split at hq
          · rename_i hd
            injection hq with hq
            exact Or.inr (Or.inl ⟨hr, hd, hq ▸ hd⟩)
          · rename_i hd
            obtain ⟨cs, h1, h2⟩ := except_bind_ok hq
            injection h2 with h2
            have hcan : Canon s.cfg.sep (s.absnorm p) := Or.inl (absnormpath_canonical h.posix hc p)
            obtain ⟨h3, h4⟩ := resolveComps_ok h.cs h.posix _ _ _ (canon_components h.posix hcan) h1
            exact Or.inr (Or.inr ⟨hr, hd, cs, h1, h3, h4, by rw [← h2, (pathComponents_toPath h.posix h3).2]⟩)
  · rintro ⟨hne, hv, hq⟩
    unfold FS.resolvePathG
    rw [if_neg hne, hv]
    simp only [bind, Except.bind, Bool.not_true, Bool.false_eq_true, if_false, originalPath_tree h.cs]
    rcases hq with ⟨h1, h2⟩ | ⟨h1, h2, h3⟩ | ⟨h1, h2, cs, h3, h4, h5, h6⟩
    · rw [if_pos ((isRootPath_tree h _).mpr h1), h1, h2]
    · rw [if_neg (fun e => h1 ((isRootPath_tree h _).mp e)), if_pos h2, h2, h3]
    · rw [if_neg (fun e => h1 ((isRootPath_tree h _).mp e)), if_neg h2, h3]
      simp only [h6, (pathComponents_toPath h.posix h4).2]

theorem absPath_eq_root {k : Cfg} {l : List Str} (hl : ∀ w ∈ l, CompOk k.sep w) :
    absPath k.sep l = k.root ↔ l = [] := by
  constructor
  · intro e
    unfold absPath Cfg.root at e
    injection e with _ e
    rcases join_eq_nil e with e | e
    · exact e
    · subst e; exact absurd rfl (hl [] (by simp)).1
  · rintro rfl; exact absPath_nil k

/-- the object found by resolving: where the components lead -/
def FS.leads (s : FS) (check : Bool) (cs : List Str) (x : Ref) : Prop :=
  (cs ≠ [] ∧ absPath s.cfg.sep cs = s.devName ∧ x = devNullRef) ∨
  ((cs = [] ∨ absPath s.cfg.sep cs ≠ s.devName) ∧ walk s.heap rootRef cs = some x ∧ Through s.heap rootRef cs ∧
    ∀ y ∈ walked s.heap rootRef cs, s.readable check y)

theorem getObjNormG_leads (h : s.cfg.Tree) (hr : (s.heap rootRef).isLnk = false) (k : FS.Rec) (check : Bool)
    {cs : List Str} (hcs : ∀ w ∈ cs, CompOk s.cfg.sep w) (hn : NoLink s.heap rootRef cs) {x : Ref} :
    s.getObjNormG k (absPath s.cfg.sep cs) check = .ok x ↔ s.leads check cs x := by
  unfold FS.getObjNormG FS.leads
  have hroot := absPath_eq_root (k := s.cfg) hcs
  by_cases e : cs = []
  · subst e
    rw [if_pos (hroot.mpr rfl)]
    simp [walk, Through, walked, eq_comm]
  · rw [if_neg (fun a => e (hroot.mp a))]
    by_cases e2 : absPath s.cfg.sep cs = s.devName
    · rw [if_pos e2]; simp [e, e2, eq_comm]
    · rw [if_neg e2, originalPath_tree h.cs]
      have := (pathComponents_toPath h.posix hcs)
      rw [this.2] at this
      rw [this.1, objLoop_tree h.cs k check cs rootRef x hr hn]
      simp [e, e2]

theorem root_not_lnk (hi : Inv s) : (s.heap rootRef).isLnk = false := by
  simp [Obj.isLnk, hi.n.rootMode, S_IFDIR, S_IFLNK]

/-- What a successful `resolve` means on a case-sensitive POSIX filesystem. -/
theorem resolveG_ok (hi : Inv s) (h : s.cfg.Tree) (k : FS.Rec) {p : Str} {check : Bool} {x : Ref} :
    s.resolveG k p check = .ok x ↔
    p ≠ [] ∧ s.validRelG k p = .ok true ∧
    ((s.absnorm p = s.cfg.root ∧ x = rootRef) ∨
     (s.absnorm p ≠ s.cfg.root ∧ s.absnorm p = s.devName ∧ x = devNullRef) ∨
     (s.absnorm p ≠ s.cfg.root ∧ s.absnorm p ≠ s.devName ∧ ∃ cs,
        s.resolveComps FS.maxLinks (s.cfg.pathComponents (s.absnorm p)) = .ok cs ∧ s.leads check cs x)) := by
  have hc : isAbs s.cfg.sep s.cwd := (hi.n.cwd h.posix)
  have hcan : Canon s.cfg.sep (s.absnorm p) := Or.inl (absnormpath_canonical h.posix hc p)
  constructor
  · intro hx
    unfold FS.resolveG at hx
    obtain ⟨q, hq, hx⟩ := except_bind_ok hx
    obtain ⟨h1, h2, h3⟩ := (resolvePathG_ok h hc k).mp hq
    refine ⟨h1, h2, ?_⟩
    rcases h3 with ⟨h3, rfl⟩ | ⟨h3, h4, rfl⟩ | ⟨h3, h4, cs, h5, h6, h7, rfl⟩
    · simp [FS.getObjNormG] at hx; exact Or.inl ⟨h3, hx.symm⟩
    · unfold FS.getObjNormG at hx
      rw [if_neg (by rw [← h4]; exact h3)] at hx
      simp at hx; exact Or.inr (Or.inl ⟨h3, h4, hx.symm⟩)
    · exact Or.inr (Or.inr ⟨h3, h4, cs, h5, (getObjNormG_leads h (root_not_lnk hi) k check h6 h7).mp hx⟩)
  · rintro ⟨h1, h2, h3⟩
    unfold FS.resolveG
    rcases h3 with ⟨h3, rfl⟩ | ⟨h3, h4, rfl⟩ | ⟨h3, h4, cs, h5, h6⟩
    · rw [(resolvePathG_ok h hc k).mpr ⟨h1, h2, Or.inl ⟨h3, rfl⟩⟩]
      simp [FS.getObjNormG, bind, Except.bind]
    · rw [(resolvePathG_ok h hc k).mpr ⟨h1, h2, Or.inr (Or.inl ⟨h3, h4, rfl⟩)⟩]
      show s.getObjNormG k s.devName check = _
      unfold FS.getObjNormG
      rw [if_neg (by rw [← h4]; exact h3), if_pos rfl]
    · obtain ⟨h7, h8⟩ := resolveComps_ok h.cs h.posix _ _ _ (canon_components h.posix hcan) h5
      rw [(resolvePathG_ok h hc k).mpr ⟨h1, h2, Or.inr (Or.inr ⟨h3, h4, cs, h5, h7, h8, rfl⟩)⟩]
      exact (getObjNormG_leads h (root_not_lnk hi) k check h7 h8).mpr h6

theorem absCanon_not_endsWithSep {k : Cfg} (hp : k.Posix) {p : Str} (h : AbsCanon k.sep p) : k.endsWithSep p = false := by
  rcases absCanon_cases h with e | ⟨names, w, hn, hw, e⟩
  · rw [e, absPath_nil]; exact endsWithSep_root k
  · have hl : p.getLast? ≠ some k.sep := by
      rw [e]
      unfold absPath
      obtain ⟨x, xs, rfl⟩ := List.exists_cons_of_ne_nil hw.1
      have : ∃ a, k.sep :: join k.sep (names ++ [x :: xs]) = a ++ x :: xs := by
        by_cases hne : names = []
        · exact ⟨[k.sep], by simp [hne, join]⟩
        · exact ⟨k.sep :: (join k.sep names ++ [k.sep]), by rw [join_append _ hne (by simp)]; simp [join]⟩
      obtain ⟨a, ha⟩ := this
      rw [ha, List.getLast?_append]
      intro hh
      have : (x :: xs).getLast? = some k.sep := by
        cases hx : (x :: xs).getLast? with
        | none => simp at hx
        | some y => simpa [hx] using hh
      exact hw.2.2.2 (List.mem_of_getLast? this)
    unfold Cfg.endsWithSep
    simp [endsWithC, hp.altsep, hl]

/-- What a true `exists` means (path not ending with the separator). -/
theorem existsG_true (hi : Inv s) (h : s.cfg.Tree) (k : FS.Rec) {p : Str} (hs : s.cfg.endsWithSep p = false) :
    s.existsG k p = .ok true ↔
    p ≠ [] ∧ (p = s.devName ∨ (s.validRelG k p = .ok true ∧
    (s.absnorm p = s.cfg.root ∨
     (s.absnorm p ≠ s.cfg.root ∧ s.absnorm p = s.devName ∧
        (walk s.heap rootRef (s.cfg.pathComponents s.devName)).isSome) ∨
     (s.absnorm p ≠ s.cfg.root ∧ s.absnorm p ≠ s.devName ∧ ∃ cs,
        s.resolveComps FS.maxLinks (s.cfg.pathComponents (s.absnorm p)) = .ok cs ∧
        (walk s.heap rootRef cs).isSome)))) := by
  have hc : isAbs s.cfg.sep s.cwd := (hi.n.cwd h.posix)
  have hcan : Canon s.cfg.sep (s.absnorm p) := Or.inl (absnormpath_canonical h.posix hc p)
  unfold FS.existsG
  by_cases e : p = []
  · simp [e]
  by_cases e2 : p = s.devName
  · subst e2; simp [e]
  rw [if_neg e, if_neg e2]
  simp only [FS.isFileSepG, hs, Bool.false_eq_true, if_false, bind, Except.bind, pure, Except.pure, ne_eq, e,
    not_false_eq_true, e2, false_or, true_and]
  constructor
  · intro hx
    split at hx
    · split at hx <;> simp at hx
    · simp at hx
    · rename_i q hq
      have hq : s.resolvePathG k p = .ok q := by
        cases hr : s.resolvePathG k p with
        | error e => simp [hr] at hq
        | ok a => simp [hr] at hq; rw [hq]
      obtain ⟨h1, h2, h3⟩ := (resolvePathG_ok h hc k).mp hq
      refine ⟨h2, ?_⟩
      rcases h3 with ⟨h3, rfl⟩ | ⟨h3, h4, rfl⟩ | ⟨h3, h4, cs, h5, h6, h7, rfl⟩
      · exact Or.inl h3
      · rw [if_neg (by rw [← h4]; exact h3), existsLoop_tree h.cs] at hx
        exact Or.inr (Or.inl ⟨h3, h4, by simpa using hx⟩)
      · refine Or.inr (Or.inr ⟨h3, h4, cs, h5, ?_⟩)
        split at hx
        · rename_i hh
          rw [(absPath_eq_root h6).mp hh]; rfl
        · have := (pathComponents_toPath h.posix h6)
          rw [this.2] at this
          rw [existsLoop_tree h.cs, this.1] at hx
          simpa using hx
  · rintro ⟨h2, h3⟩
    rcases h3 with h3 | ⟨h3, h4, h5⟩ | ⟨h3, h4, cs, h5, h6⟩
    · rw [(resolvePathG_ok h hc k).mpr ⟨e, h2, Or.inl ⟨h3, rfl⟩⟩]
      simp
    · rw [(resolvePathG_ok h hc k).mpr ⟨e, h2, Or.inr (Or.inl ⟨h3, h4, rfl⟩)⟩]
      simp only []
      rw [if_neg (by rw [← h4]; exact h3), existsLoop_tree h.cs, h5]
    · obtain ⟨h7, h8⟩ := resolveComps_ok h.cs h.posix _ _ _ (canon_components h.posix hcan) h5
      rw [(resolvePathG_ok h hc k).mpr ⟨e, h2, Or.inr (Or.inr ⟨h3, h4, cs, h5, h7, h8, rfl⟩)⟩]
      simp only []
      split
      · rfl
      · have := (pathComponents_toPath h.posix h7)
        rw [this.2] at this
        rw [existsLoop_tree h.cs, this.1, h6]

end

/-! ## Lookups after removing entries -/

theorem alookup_sublist {l l' : List (Str × Ref)} (hs : List.Sublist l' l) (hn : (l.map Prod.fst).Nodup) {c : Str} {x : Ref}
    (h : alookup c l' = some x) : alookup c l = some x :=
  alookup_of_mem hn (hs.subset (alookup_some h))

theorem walk_lt {s : FS} (h : Inv s) : ∀ (l : List Str) {r x : Ref}, r < s.next → walk s.heap r l = some x → x < s.next := by
  intro l
  induction l with
  | nil => intro r x hr hx; simp [walk] at hx; exact hx ▸ hr
  | cons c l ih =>
    intro r x hr hx
    simp only [walk, Option.bind_eq_some_iff] at hx
    obtain ⟨y, hy, hx⟩ := hx
    exact ih (h.g.entLt r hr _ (alookup_some hy)) hx

theorem walked_lt {s : FS} (h : Inv s) : ∀ (l : List Str) {r : Ref}, r < s.next → ∀ y ∈ walked s.heap r l, y < s.next := by
  intro l
  induction l with
  | nil => intro r _ y hy; simp [walked] at hy
  | cons c l ih =>
    intro r hr y hy
    simp only [walked] at hy
    split at hy
    · simp at hy
    · rename_i x hx
      have hlt := h.g.entLt r hr _ (alookup_some hx)
      rcases List.mem_cons.mp hy with rfl | hy
      · exact hlt
      · exact ih hlt y hy

/-- What is found by a lookup in `s'` (the smaller state) is found in `s`: same configuration, current
directory and user, every entry of `s'` is an entry of `s`, objects of `s'` have the same mode and link target. -/
structure Sub (s' s : FS) : Prop where
  cfg : s'.cfg = s.cfg
  limit : s'.limit = s.limit
  cwd : s'.cwd = s.cwd
  uid : s'.uid = s.uid
  devName : s'.devName = s.devName
  ent : ∀ d < s'.next, ∀ c x, alookup c (s'.heap d).entries = some x → alookup c (s.heap d).entries = some x
  mode : ∀ x < s'.next, (s'.heap x).mode = (s.heap x).mode
  kind : ∀ x < s'.next, (s'.heap x).isDir = (s.heap x).isDir
  target : ∀ x < s'.next, (s'.heap x).isLnk = true → s'.linkTarget (s'.heap x) = s.linkTarget (s.heap x)

section
variable {s s' : FS} (hi' : Inv s') (hs : Sub s' s)
include hi' hs

theorem Sub.walk {l : List Str} : ∀ {r x : Ref}, r < s'.next → walk s'.heap r l = some x → walk s.heap r l = some x := by
  induction l with
  | nil => intro r x _ h; exact h
  | cons c l ih =>
    intro r x hr h
    simp only [Spec.walk] at h ⊢
    cases ha : Verif.alookup c (s'.heap r).entries with
    | none => simp [ha] at h
    | some y =>
      have hy := hs.ent _ hr _ _ ha
      rw [ha] at h
      rw [hy]
      exact ih (hi'.g.entLt r hr _ (alookup_some ha)) h

omit hi' in
theorem Sub.isLnk {x : Ref} (hx : x < s'.next) : (s'.heap x).isLnk = (s.heap x).isLnk := by
  simp [Obj.isLnk, hs.mode x hx]

theorem Sub.noLink {l : List Str} : ∀ {r : Ref}, r < s'.next → NoLink s'.heap r l → (Spec.walk s'.heap r l).isSome →
    NoLink s.heap r l := by
  induction l with
  | nil => intro r _ _ _; trivial
  | cons c l ih =>
    intro r hr h hw
    simp only [Spec.walk] at hw
    cases ha : Verif.alookup c (s'.heap r).entries with
    | none => simp [ha] at hw
    | some y =>
      have hy := hs.ent _ hr _ _ ha
      rw [ha] at hw
      intro z hz
      rw [hy] at hz; injection hz with hz; subst hz
      obtain ⟨h1, h2⟩ := h y ha
      exact ⟨by rw [← hs.isLnk (hi'.g.entLt r hr _ (alookup_some ha))]; exact h1, ih (hi'.g.entLt r hr _ (alookup_some ha)) h2 hw⟩

theorem Sub.scan_link (cs : s.cfg.caseSens = true) {l res rest : List Str} {t : Ref} : ∀ {r : Ref} {acc : List Str}, r < s'.next →
    s'.scan r acc l = .link res t rest → s.scan r acc l = .link res t rest := by
  have cs' : s'.cfg.caseSens = true := by rw [hs.cfg]; exact cs
  induction l with
  | nil => intro r acc _ h; simp [FS.scan] at h
  | cons c l ih =>
    intro r acc hr h
    simp only [FS.scan, dirContent_tree cs, dirContent_tree cs'] at h ⊢
    cases ha : Verif.alookup c (s'.heap r).entries with
    | none => simp [ha] at h
    | some y =>
      have hy := hs.ent _ hr _ _ ha
      simp only [ha, Option.map_some, hs.isLnk (hi'.g.entLt r hr _ (alookup_some ha))] at h
      simp only [hy, Option.map_some]
      cases hl : (s.heap y).isLnk with
      | true => simp only [hl, if_true] at h ⊢; exact h
      | false =>
        simp only [hl] at h ⊢
        exact ih (hi'.g.entLt r hr _ (alookup_some ha)) h

theorem Sub.resolveComps (h : s.cfg.Tree) : ∀ n l cs, s'.resolveComps n l = .ok cs →
    (Spec.walk s'.heap rootRef cs).isSome → s.resolveComps n l = .ok cs := by
  have cs' : s'.cfg.caseSens = true := by rw [hs.cfg]; exact h.cs
  have hdone : ∀ l res, s'.scan rootRef [] l = .done res → (Spec.walk s'.heap rootRef res).isSome →
      s.scan rootRef [] l = .done res := by
    intro l res h1 h2
    have := scan_done h1
    simp at this; subst this
    exact (scan_done_iff h.cs (acc := [])).mpr (hs.noLink hi' (root_lt hi') ((scan_done_iff cs' (acc := [])).mp h1) h2)
  intro n
  induction n with
  | zero =>
    intro l cs h1 h2
    unfold FS.resolveComps at h1 ⊢
    split at h1
    · rename_i res hres
      injection h1 with h1; subst h1
      rw [hdone l _ hres h2]
    · simp at h1
  | succ n ih =>
    intro l cs h1 h2
    unfold FS.resolveComps at h1 ⊢
    split at h1
    · rename_i res hres
      injection h1 with h1; subst h1
      rw [hdone l _ hres h2]
    · rename_i res t rest hres
      rw [hs.scan_link hi' h.cs (root_lt hi') hres]
      simp only
      have hfl : s'.followLink res t = s.followLink res t := by
        obtain ⟨pre, c, _, _, _, hw, hlk⟩ := Verif.scan_link cs' hres
        have hf : s'.linkTarget (s'.heap t) = s.linkTarget (s.heap t) := hs.target t (walk_lt hi' _ (root_lt hi') hw) hlk
        unfold FS.followLink
        rw [hf, hs.cfg]
      rw [hfl, hs.cfg] at h1
      exact ih _ _ h1 h2

omit hi' in
theorem Sub.readable {c : Bool} {x : Ref} (hx : x < s'.next) : s'.readable c x ↔ s.readable c x := by
  unfold FS.readable FS.isRoot
  rw [hs.mode x hx, hs.uid]

theorem Sub.through {l : List Str} : ∀ {r : Ref}, r < s'.next → Through s'.heap r l → (Spec.walk s'.heap r l).isSome →
    Through s.heap r l := by
  induction l with
  | nil => intro r _ _ _; trivial
  | cons c l ih =>
    intro r hr h hw
    simp only [Spec.walk] at hw
    cases ha : Verif.alookup c (s'.heap r).entries with
    | none => simp [ha] at hw
    | some y =>
      have hy := hs.ent _ hr _ _ ha
      rw [ha] at hw
      refine ⟨by have := h.1; simpa [Obj.isDirMode, hs.mode r hr] using this, ?_⟩
      intro z hz
      rw [hy] at hz; injection hz with hz; subst hz
      exact ih (hi'.g.entLt r hr _ (alookup_some ha)) (h.2 y ha) hw

theorem Sub.walked {l : List Str} : ∀ {r : Ref}, r < s'.next → (Spec.walk s'.heap r l).isSome →
    walked s'.heap r l = walked s.heap r l := by
  induction l with
  | nil => intro r _ _; rfl
  | cons c l ih =>
    intro r hr hw
    simp only [Spec.walk] at hw
    cases ha : Verif.alookup c (s'.heap r).entries with
    | none => simp [ha] at hw
    | some y =>
      have hy := hs.ent _ hr _ _ ha
      rw [ha] at hw
      simp only [Verif.walked, ha, hy]
      rw [ih (hi'.g.entLt r hr _ (alookup_some ha)) hw]

omit hi' in
theorem Sub.absnorm (p : Str) : s'.absnorm p = s.absnorm p := by
  unfold FS.absnorm; rw [hs.cfg, hs.cwd]

theorem Sub.resolveLeads (h : s.cfg.Tree) {c : Bool} {l cs : List Str} {x : Ref} {n : Nat} (hr : s'.resolveComps n l = .ok cs)
    (hl : s'.leads c cs x) (hx : x ≠ devNullRef) : s.resolveComps n l = .ok cs ∧ s.leads c cs x := by
  unfold FS.leads at *
  rw [hs.cfg, hs.devName] at hl
  rcases hl with ⟨h1, h2, h3⟩ | ⟨h1, h2, h3, h4⟩
  · exact absurd h3 hx
  · have hw : (Spec.walk s'.heap rootRef cs).isSome := by rw [h2]; rfl
    refine ⟨hs.resolveComps hi' h n l cs hr hw,
      Or.inr ⟨h1, hs.walk hi' (root_lt hi') h2, hs.through hi' (root_lt hi') h3 hw, ?_⟩⟩
    rw [← hs.walked hi' (root_lt hi') hw]
    exact fun y hy => (hs.readable (walked_lt hi' _ (root_lt hi') y hy)).mp (h4 y hy)

omit hi' in
theorem Sub.valid {k k' : FS.Rec} (hk : ∀ p, k'.ex (s.absnorm p) = .ok true → k.ex (s.absnorm p) = .ok true) {p : Str}
    (h : s'.validRelG k' p = .ok true) : s.validRelG k p = .ok true := by
  have loop : ∀ n p, s'.validLoop k' n p = .ok true → s.validLoop k n p = .ok true := by
    intro n
    induction n with
    | zero => intro p _; rfl
    | succ n ih =>
      intro p h
      unfold FS.validLoop at h ⊢
      rw [hs.cfg] at h
      split at h
      · rfl
      · rename_i q hq
        obtain ⟨b, hb, h⟩ := except_bind_ok h
        rw [hs.absnorm] at hb
        cases b with
        | false => simp at h
        | true =>
          rw [hk q hb]
          simp at h
          simp [bind, Except.bind, ih q h]
  unfold FS.validRelG at h ⊢
  rw [hs.cfg] at h
  split at h
  · rename_i hw; rw [if_pos hw]
  · rename_i hw; rw [if_neg hw]; exact loop _ _ h

theorem Sub.ex (hi : Inv s) (h : s.cfg.Tree) : ∀ n p, (s'.recN n).ex (s.absnorm p) = .ok true →
    (s.recN n).ex (s.absnorm p) = .ok true := by
  have h' : s'.cfg.Tree := by rw [hs.cfg]; exact h
  intro n
  induction n with
  | zero => intro p hp; simp [FS.recN] at hp
  | succ n ih =>
    intro p hp
    have hsep : s.cfg.endsWithSep (s.absnorm p) = false := absCanon_not_endsWithSep h.posix (hi.absnorm h.posix p)
    simp only [FS.recN] at hp ⊢
    obtain ⟨h1, h2⟩ := (existsG_true hi' h' _ (by rw [hs.cfg]; exact hsep)).mp hp
    refine (existsG_true hi h _ hsep).mpr ⟨h1, ?_⟩
    rw [hs.devName] at h2
    rcases h2 with h2 | ⟨h2, h3⟩
    · exact Or.inl h2
    · refine Or.inr ⟨hs.valid ih h2, ?_⟩
      rw [hs.absnorm, hs.cfg] at h3
      have some_walk : ∀ l, (Spec.walk s'.heap rootRef l).isSome → (Spec.walk s.heap rootRef l).isSome := by
        intro l hl
        obtain ⟨x, hx⟩ := Option.isSome_iff_exists.mp hl
        rw [hs.walk hi' (root_lt hi') hx]; rfl
      rcases h3 with h3 | ⟨h3, h4, h5⟩ | ⟨h3, h4, cs, h5, h6⟩
      · exact Or.inl h3
      · exact Or.inr (Or.inl ⟨h3, h4, some_walk _ h5⟩)
      · exact Or.inr (Or.inr ⟨h3, h4, cs, hs.resolveComps hi' h _ _ _ h5 h6, some_walk _ h6⟩)

/-- An object found in the smaller state is found in the larger one. -/
theorem Sub.resolve (hi : Inv s) (h : s.cfg.Tree) {p : Str} {c : Bool} {x : Ref} (hr : s'.resolve p true c = .ok x)
    (hx : x ≠ devNullRef) : s.resolve p true c = .ok x := by
  have h' : s'.cfg.Tree := by rw [hs.cfg]; exact h
  have hlim : s'.limit = s.limit := hs.limit
  unfold FS.resolve FS.resolveFG at *
  simp only [if_true] at *
  obtain ⟨h1, h2, h3⟩ := (resolveG_ok hi' h' _).mp hr
  have hv := hs.valid (k := s.rc) (fun p => by unfold FS.rc; rw [hlim]; exact hs.ex hi' hi h _ p) h2
  refine (resolveG_ok hi h _).mpr ⟨h1, hv, ?_⟩
  rw [hs.absnorm, hs.cfg, hs.devName] at h3
  rcases h3 with h3 | h3 | ⟨h3, h4, cs, h5, h6⟩
  · exact Or.inl h3
  · exact Or.inr (Or.inl h3)
  · obtain ⟨h7, h8⟩ := hs.resolveLeads hi' h h5 h6 hx
    exact Or.inr (Or.inr ⟨h3, h4, cs, h7, h8⟩)

end

theorem Shrink.sub {s s' : FS} (hi : Inv s) (hs : Shrink s s') : Sub s' s where
  cfg := hs.cfg
  limit := hs.ext.limit
  cwd := hs.ext.cwd
  uid := hs.ext.uid
  devName := hs.name devNullRef
  ent d hd c x h := alookup_sublist (hs.entries d) (hi.g.keys d (hs.next ▸ hd)) h
  mode x _ := hs.mode x
  kind x _ := hs.kind x
  target x _ _ := by
    unfold FS.linkTarget
    rw [hs.cfg]
    cases hd : (s.heap x).isDir with
    | false => rw [hs.file x hd]
    | true =>
      have hd' : (s'.heap x).isDir = true := by rw [hs.kind]; exact hd
      unfold Obj.isDir at hd hd'
      split at hd
      · split at hd'
        · rename_i e1 _ _ e2; rw [e1, e2]
        · simp at hd'
      · simp at hd

/-- A directory found after removing entries was found before. -/
theorem Shrink.resolve {s s' : FS} (hi : Inv s) (hs : Shrink s s') (hi' : Inv s') (h : s.cfg.Tree) {p : Str} {c : Bool} {x : Ref}
    (hr : s'.resolve p true c = .ok x) (hx : x ≠ devNullRef) : s.resolve p true c = .ok x :=
  (hs.sub hi).resolve hi' hi h hr hx

end Verif
