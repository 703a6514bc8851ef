import Verif.Props.Lookup
import Verif.Props.Create
/-!
# Paths made by joining a name to a path

`os.walk`, `scandir` and `realpath` build the paths they look at with `joinpaths`. These lemmas say what such a path means.
-/

namespace Verif
open Py Spec Cfg

theorem loc_absPath {c : Char} {names start : List Str} (hn : ∀ w ∈ names, Proper c w) : loc c start (absPath c names) = names.reverse := by
  unfold loc absPath
  rw [if_pos ⟨_, rfl⟩, split_abs]
  rcases split_join_names (proper_no_sep hn) with h1 | ⟨h1, h2⟩
  · rw [h1]
    show (names.foldl step (step [] [])) = _
    rw [show step [] [] = [] from by simp [step], foldl_step_names hn]; simp
  · rw [h2, h1]; simp [step]

theorem loc_name {c : Char} {nm : Str} (h : Proper c nm) (start : List Str) : loc c start nm = nm :: start := by
  unfold loc
  have h1 : ¬ isAbs c nm := by
    rintro ⟨q, e⟩
    exact h.2.2.2 (by rw [e]; simp)
  rw [if_neg h1]
  have h2 : split c nm = [nm] := by
    have := split_join (c := c) (ws := [nm]) (by simp) (by intro w hw; simp at hw; rw [hw]; exact h.2.2.2)
    simpa [join] using this
  rw [h2]
  simp [step_name h]

/-- The normal form of a path is determined by the location it means. -/
theorem absnorm_of_loc {s : FS} (hi : Inv s) (hp : s.cfg.Posix) {p : Str} {names : List Str} (hn : ∀ w ∈ names, Proper s.cfg.sep w)
    (hne : p ≠ []) (h : loc s.cfg.sep (loc s.cfg.sep [] s.cwd) p = names.reverse) : s.absnorm p = absPath s.cfg.sep names := by
  obtain ⟨ns, h1, h2⟩ := hi.absnorm hp p
  have h3 := absnormpath_meaning hp (hi.n.cwd hp) [] p
  rw [if_neg hne, h] at h3
  have h4 : loc s.cfg.sep [] (s.absnorm p) = names.reverse := h3
  rw [h2, loc_absPath h1] at h4
  rw [h2, List.reverse_injective h4]

theorem loc_of_absnorm {s : FS} (hi : Inv s) (hp : s.cfg.Posix) {p : Str} {names : List Str} (hn : ∀ w ∈ names, Proper s.cfg.sep w)
    (hne : p ≠ []) (h : s.absnorm p = absPath s.cfg.sep names) : loc s.cfg.sep (loc s.cfg.sep [] s.cwd) p = names.reverse := by
  have h3 := absnormpath_meaning hp (hi.n.cwd hp) [] p
  rw [if_neg hne] at h3
  rw [← h3]
  show loc s.cfg.sep [] (s.absnorm p) = _
  rw [h, loc_absPath hn]

theorem join_ne_nil {k : Cfg} (hp : k.Posix) {q nm : Str} (hn : nm ≠ []) : k.joinpaths [q, nm] ≠ [] := by
  rw [join_two hp]
  split
  · exact hn
  · split
    · simp [hn]
    · simp

theorem absnorm_join {s : FS} (hi : Inv s) (hp : s.cfg.Posix) {q nm : Str} {names : List Str} (hn : ∀ w ∈ names, Proper s.cfg.sep w)
    (hm : Proper s.cfg.sep nm) (hq : q ≠ []) (h : s.absnorm q = absPath s.cfg.sep names) :
    s.absnorm (s.cfg.joinpaths [q, nm]) = absPath s.cfg.sep (names ++ [nm]) := by
  apply absnorm_of_loc hi hp
  · intro w hw
    rcases List.mem_append.mp hw with hw | hw
    · exact hn w hw
    · simp at hw; rw [hw]; exact hm
  · exact join_ne_nil hp hm.1
  · rw [join_meaning hp]
    simp only [List.foldl_cons, List.foldl_nil]
    rw [loc_of_absnorm hi hp hn hq h, loc_name hm]
    simp

/-! ## `_valid_relative_path` -/

theorem validLoop_fuel (s : FS) (k : FS.Rec) : ∀ (n m : Nat) (p : Str), p.length ≤ n → p.length ≤ m → s.validLoop k n p = s.validLoop k m p := by
  intro n
  induction n with
  | zero =>
    intro m p hn hm
    have : p = [] := by cases p with | nil => rfl | cons _ _ => simp at hn
    subst this
    cases m with
    | zero => rfl
    | succ m => simp [FS.validLoop, cutAtLast]
  | succ n ih =>
    intro m p hn hm
    cases m with
    | zero =>
      have : p = [] := by cases p with | nil => rfl | cons _ _ => simp at hm
      subst this
      simp [FS.validLoop, cutAtLast]
    | succ m =>
      simp only [FS.validLoop]
      cases hc : cutAtLast (s.cfg.sep :: dotdot) p with
      | none => rfl
      | some q =>
        have := cutAtLast_length (by simp) hc
        simp only [ih m q (by omega) (by omega)]

/-- A suffix in which the pattern does not start changes nothing. -/
theorem cutAtLast_append {pat : Str} (t : Str) (hp : pat ≠ []) (ht : cutAtLast pat t = none) :
    ∀ q : Str, (∀ u v, q = u ++ v → v ≠ [] → pat.isPrefixOf (v ++ t) = pat.isPrefixOf v) → cutAtLast pat (q ++ t) = cutAtLast pat q := by
  intro q
  induction q with
  | nil => intro _; rw [List.nil_append, ht]; simp [cutAtLast, hp]
  | cons x xs ih =>
    intro h
    simp only [List.cons_append, cutAtLast]
    rw [ih (fun u v e hv => h (x :: u) v (by rw [e]; rfl) hv)]
    have := h [] (x :: xs) rfl (by simp)
    rw [List.cons_append] at this
    rw [this]

theorem cutAtLast_noSep {c : Char} {rest t : Str} (h : c ∉ t) : cutAtLast (c :: rest) t = none := by
  induction t with
  | nil => simp [cutAtLast]
  | cons x xs ih =>
    simp only [List.mem_cons, not_or] at h
    simp only [cutAtLast, ih h.2, List.isPrefixOf, Bool.and_eq_true, beq_iff_eq]
    rw [if_neg (fun e => h.1 e.1)]

theorem isPrefix_dd {c : Char} (hc : c ≠ '.') {v t : Str} (hv : v ≠ []) (ht : ∀ x r, t = x :: r → x ≠ '.') :
    (c :: dotdot).isPrefixOf (v ++ t) = (c :: dotdot).isPrefixOf v := by
  match v with
  | [] => exact absurd rfl hv
  | [a] =>
    cases t with
    | nil => simp
    | cons x r =>
      have := ht x r rfl
      simp [dotdot, List.isPrefixOf, Ne.symm this]
  | [a, b] =>
    cases t with
    | nil => simp
    | cons x r =>
      have := ht x r rfl
      simp [dotdot, List.isPrefixOf, Ne.symm this]
  | a :: b :: d :: v => simp [dotdot, List.isPrefixOf]

theorem validRel_join {s : FS} (hp : s.cfg.Posix) (k : FS.Rec) {q nm : Str} (hm : Plain s.cfg.sep nm) (hq : q ≠ [])
    (hs : ∀ r, q = r ++ [s.cfg.sep] → r = []) :
    s.validRelG k (s.cfg.joinpaths [q, nm]) = s.validRelG k q := by
  have hnd : cutAtLast (s.cfg.sep :: dotdot) (s.cfg.sep :: nm) = none := by
    simp only [cutAtLast]
    rw [cutAtLast_noSep hm.1.2.2.2]
    simp only
    rw [if_neg]
    intro e
    have h2 := hm.2
    simp only [List.isPrefixOf, beq_self_eq_true, Bool.true_and, dotdot] at e
    rw [h2] at e
    simp at e
  have hna : ¬ isAbs s.cfg.sep nm := by
    rintro ⟨q, e⟩
    exact hm.1.2.2.2 (by rw [e]; simp)
  have key : cutAtLast (s.cfg.sep :: dotdot) (s.cfg.joinpaths [q, nm]) = cutAtLast (s.cfg.sep :: dotdot) q := by
    rw [join_two hp, if_neg hna]
    by_cases hr : q = [] ∨ ∃ r, q = r ++ [s.cfg.sep]
    · rw [if_pos hr]
      rcases hr with hr | ⟨r, hr⟩
      · exact absurd hr hq
      · rw [hs r hr] at hr
        rw [hr]
        show cutAtLast _ (s.cfg.sep :: nm) = _
        rw [hnd]
        exact (cutAtLast_root s.cfg).symm
    · rw [if_neg hr]
      apply cutAtLast_append _ (by simp) hnd
      intro u v _ hv
      apply isPrefix_dd hp.sepDot hv
      intro x r e
      injection e with e _
      rw [← e]; exact hp.sepDot
  unfold FS.validRelG
  rw [if_neg (by simp [hp.win]), if_neg (by simp [hp.win])]
  rw [validLoop_fuel s k _ ((s.cfg.joinpaths [q, nm]).length + q.length + 1) _ (Nat.le_refl _) (by omega),
    validLoop_fuel s k _ ((s.cfg.joinpaths [q, nm]).length + q.length + 1) q (Nat.le_refl _) (by omega)]
  simp only [FS.validLoop, key]

/-! ## Splitting and looking up -/

/-- `q` is the root or a non-empty path without trailing separator -/
def Tidy (k : Cfg) (q : Str) : Prop := q ≠ [] ∧ ∀ r, q = r ++ [k.sep] → r = []

theorem append_replicate_inj {c : Char} {q hd : Str} {n : Nat} (h : hd ++ List.replicate n c = q ++ [c]) (hn : 0 < n)
    (hq : ∀ r, q ≠ r ++ [c]) : hd = q := by
  obtain ⟨m, rfl⟩ : ∃ m, n = m + 1 := ⟨n - 1, by omega⟩
  rw [List.replicate_succ', ← List.append_assoc] at h
  have h1 := List.append_inj_left' h rfl
  cases m with
  | zero => simpa using h1
  | succ m =>
    rw [List.replicate_succ', ← List.append_assoc] at h1
    exact absurd h1.symm (hq _)

theorem join_tidy {k : Cfg} (hp : k.Posix) {q nm : Str} (hq : Tidy k q) (hm : Proper k.sep nm) :
    k.joinpaths [q, nm] = (if q = [k.sep] then [] else q) ++ k.sep :: nm := by
  have hna : ¬ isAbs k.sep nm := by
    rintro ⟨q, e⟩
    exact hm.2.2.2 (by rw [e]; simp)
  rw [join_two hp, if_neg hna]
  by_cases h1 : q = [k.sep]
  · rw [if_pos (Or.inr ⟨[], h1⟩), if_pos h1, h1]; rfl
  · rw [if_neg h1, if_neg]
    rintro (h2 | ⟨r, h2⟩)
    · exact hq.1 h2
    · have := hq.2 r h2
      rw [this] at h2
      exact h1 h2

theorem proper_last {c : Char} {nm : Str} (hm : Proper c nm) (r l : Str) : l ++ c :: nm ≠ r ++ [c] := by
  intro e
  obtain ⟨m, x, rfl⟩ : ∃ m x, nm = m ++ [x] := by
    rcases List.eq_nil_or_concat nm with h | ⟨m, x, h⟩
    · exact absurd h hm.1
    · exact ⟨m, x, by rw [h]; simp⟩
  have e' : (l ++ c :: m) ++ [x] = r ++ [c] := by rw [← e]; simp
  have := List.append_inj_right' e' rfl
  simp at this
  exact hm.2.2.2 (by rw [this]; simp)

theorem tidy_join {k : Cfg} (hp : k.Posix) {q nm : Str} (hq : Tidy k q) (hm : Proper k.sep nm) : Tidy k (k.joinpaths [q, nm]) := by
  refine ⟨join_ne_nil hp hm.1, ?_⟩
  intro r e
  rw [join_tidy hp hq hm] at e
  exact absurd e (proper_last hm _ _)

theorem splitpath_join {k : Cfg} (hp : k.Posix) {q nm : Str} (hq : Tidy k q) (hm : Proper k.sep nm) :
    k.splitpath (k.joinpaths [q, nm]) = (q, nm) := by
  have h2 := splitpath_join_name hp (a := q) hm
  refine Prod.ext ?_ h2
  obtain ⟨n, h3, _, h4⟩ := splitpath_shape hp (k.joinpaths [q, nm])
  rw [h2] at h3
  generalize (k.splitpath (k.joinpaths [q, nm])).1 = hd at h3 h4
  rw [join_tidy hp hq hm] at h3
  have h5 : hd ++ List.replicate n k.sep = (if q = [k.sep] then [] else q) ++ [k.sep] := by
    have : ((if q = [k.sep] then [] else q) ++ [k.sep]) ++ nm = (hd ++ List.replicate n k.sep) ++ nm := by
      rw [← h3]; simp
    exact (List.append_inj_left' this rfl).symm
  show hd = q
  by_cases h1 : q = [k.sep]
  · rw [if_pos h1] at h5
    rcases h4 with ⟨h4, h6⟩ | h4 | ⟨⟨i, x, h4, h6⟩, h7⟩
    · rw [h4, h6] at h5; simp at h5
    · rw [h4, h1]
    · have := congrArg List.length h5
      rw [h4] at this
      simp at this
      omega
  · rw [if_neg h1] at h5
    have hnot : ∀ r, q ≠ r ++ [k.sep] := by
      intro r e
      have := hq.2 r e
      rw [this] at e
      exact h1 e
    rcases h4 with ⟨h4, h6⟩ | h4 | ⟨_, h7⟩
    · rw [h4, h6] at h5; simp at h5
    · exfalso
      rw [h4] at h5
      cases n with
      | zero =>
        simp at h5
        have := congrArg List.length h5
        simp at this
        exact hq.1 (by simpa using this)
      | succ n =>
        rw [List.replicate_succ', ← List.append_assoc] at h5
        have h6 := List.append_inj_left' h5 rfl
        rcases Nat.eq_zero_or_pos n with rfl | hn
        · exact h1 (by simpa using h6.symm)
        · obtain ⟨m, rfl⟩ : ∃ m, n = m + 1 := ⟨n - 1, by omega⟩
          rw [List.replicate_succ', ← List.append_assoc] at h6
          exact hnot _ h6.symm
    · exact append_replicate_inj h5 h7 hnot

theorem endsWithSep_join {k : Cfg} (hp : k.Posix) {q nm : Str} (hq : Tidy k q) (hm : Proper k.sep nm) :
    k.endsWithSep (k.joinpaths [q, nm]) = false := by
  unfold Cfg.endsWithSep
  rw [hp.altsep]
  simp only [Bool.or_false]
  have : endsWithC k.sep (k.joinpaths [q, nm]) = false := by
    cases h : endsWithC k.sep (k.joinpaths [q, nm]) with
    | false => rfl
    | true =>
      unfold endsWithC at h
      simp only [beq_iff_eq] at h
      obtain ⟨r, e⟩ := List.getLast?_eq_some_iff.mp h
      rw [join_tidy hp hq hm] at e
      exact absurd e (proper_last hm _ _)
  rw [this]
  simp

theorem stripTrailing_join {k : Cfg} (hp : k.Posix) {q nm : Str} (hq : Tidy k q) (hm : Proper k.sep nm) :
    k.stripTrailing (k.joinpaths [q, nm]) = k.joinpaths [q, nm] := by
  unfold Cfg.stripTrailing
  cases (k.joinpaths [q, nm]).length with
  | zero => rfl
  | succ n => simp [Cfg.stripLoop, endsWithSep_join hp hq hm]

theorem join_ne_root {k : Cfg} (hp : k.Posix) {q nm : Str} (hq : Tidy k q) (hm : Proper k.sep nm) : k.joinpaths [q, nm] ≠ k.root := by
  intro e
  rw [join_tidy hp hq hm] at e
  exact proper_last hm [] _ e

theorem lparent_join {s : FS} (ht : s.cfg.Tree) {q nm : Str} (hq : Tidy s.cfg q) (hm : Proper s.cfg.sep nm) :
    s.lparent (s.cfg.joinpaths [q, nm]) = (q, nm) := by
  have hp := ht.posix
  unfold FS.lparent
  rw [stripTrailing_join hp hq hm]
  have hd : s.cfg.joinpaths [q, nm] ≠ dot := by
    intro e
    rw [join_tidy hp hq hm] at e
    have : s.cfg.sep ∈ dot := by rw [← e]; simp
    simp [dot] at this
    exact hp.sepDot this
  dsimp only
  rw [if_neg hd, originalPath_tree ht.cs, splitpath_join hp hq hm]
  simp [hq.1]

/-- Looking up an entry of a directory without following it. -/
theorem lresolve_join {s : FS} (hi : Inv s) (ht : s.cfg.Tree) {q nm : Str} {d e : Ref} (hq : Tidy s.cfg q) (hm : Proper s.cfg.sep nm)
    (hr : s.resolve q true true = .ok d) (hrd : (s.heap d).mode &&& PERM_READ ≠ 0) (he : alookup nm (s.heap d).entries = some e) :
    s.lresolve (s.cfg.joinpaths [q, nm]) = .ok e := by
  unfold FS.lresolve FS.lresolveG
  rw [if_neg (join_ne_nil ht.posix hm.1), if_neg (join_ne_root ht.posix hq hm), lparent_join ht hq hm]
  have hr : s.resolveG s.rc q true = .ok d := hr
  simp only [hr, bind, Except.bind]
  unfold FS.lentry
  have hdir := isDir_of_entry (alookup_mem he)
  unfold Obj.isDir at hdir
  unfold Obj.entries at he
  split
  · rename_i h; rw [h] at hdir; simp at hdir
  · rename_i es h
    rw [h] at he
    have he : alookup nm es = some e := he
    rw [if_neg hrd, if_neg hm.1, getEntry_tree ht.cs, he]

/-- `q` means the directory `d`: it is tidy, valid, and resolves to it -/
structure DirAt (s : FS) (q : Str) (names : List Str) (d : Ref) : Prop where
  tidy : Tidy s.cfg q
  valid : s.validRelG s.rc q = .ok true
  norm : s.absnorm q = absPath s.cfg.sep names
  plain : ∀ w ∈ names, Plain s.cfg.sep w
  dir : (s.heap d).isDir = true
  res : s.resolve q true true = .ok d

/-- The normal form of a valid path resolves like the path. -/
theorem resolve_norm {s : FS} (hi : Inv s) (ht : s.cfg.Tree) {q : Str} {names : List Str} (hne : q ≠ []) (hv : s.validRelG s.rc q = .ok true)
    (hn : s.absnorm q = absPath s.cfg.sep names) (hpl : ∀ w ∈ names, Plain s.cfg.sep w) {c : Bool} {x : Ref} :
    s.resolve q true c = .ok x ↔ s.resolve (absPath s.cfg.sep names) true c = .ok x := by
  rw [FS.resolve, FS.resolveFG, if_pos rfl, FS.resolve, FS.resolveFG, if_pos rfl, resolveG_ok hi ht, resolveG_ok hi ht,
    absnorm_canon hi ht.posix (absCanon_names (plain_proper hpl)), hn]
  constructor
  · rintro ⟨_, _, h⟩; exact ⟨absPath_ne_nil, validRel_plain ht.posix _ hpl, h⟩
  · rintro ⟨_, _, h⟩; exact ⟨hne, hv, h⟩

/-- A user who may read everything is never refused. -/
theorem resolve_check {s : FS} (hi : Inv s) (ht : s.cfg.Tree) (hrd : Readable s) {p : Str} {x : Ref}
    (h : s.resolve p true false = .ok x) : s.resolve p true true = .ok x := by
  rw [FS.resolve, FS.resolveFG, if_pos rfl, resolveG_ok hi ht] at h ⊢
  obtain ⟨h1, h2, h3⟩ := h
  refine ⟨h1, h2, ?_⟩
  rcases h3 with h3 | h3 | ⟨h3, h4, cs, h5, h6⟩
  · exact Or.inl h3
  · exact Or.inr (Or.inl h3)
  · refine Or.inr (Or.inr ⟨h3, h4, cs, h5, ?_⟩)
    rcases h6 with h6 | ⟨h6, h7, h8, h9⟩
    · exact Or.inl h6
    · exact Or.inr ⟨h6, h7, h8, fun y hy => hrd.readable (walked_lt hi _ (root_lt hi) y hy) true⟩

end Verif
