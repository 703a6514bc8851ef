import Verif.Plain
import Verif.Props.Tree
/-!
# C20, C21, C23, C43, C46: path resolution

`Spec.dots`, `Spec.Plain` are defined in Plain.lean, `Spec.walk`, `NoLink` in LookupTree.lean.
-/

namespace Verif
open Py Spec Cfg

/-! ## C20 -/

/-- The first symbolic link on the way from the root: `cs = pre ++ c :: rest`, nothing met before is a link, the
entry `c` is the link `t`. -/
def FirstLink (hp : Ref → Obj) (cs pre : List Str) (c : Str) (t : Ref) (rest : List Str) : Prop :=
  cs = pre ++ c :: rest ∧ NoLink hp rootRef pre ∧ walk hp rootRef (pre ++ [c]) = some t ∧ (hp t).isLnk = true

/-- `n` links are followed one after the other from `cs`, leaving the components `cs'`: each time the first link
on the way is replaced by the components of its target. -/
inductive Links (s : FS) : Nat → List Str → List Str → Prop
  | zero (cs) : Links s 0 cs cs
  | step {n cs pre c t rest cs'} : FirstLink s.heap cs pre c t rest →
      Links s n (s.cfg.pathComponents (s.followLink (pre ++ [c]) t) ++ rest) cs' → Links s (n + 1) cs cs'

theorem scan_link_iff {s : FS} (cs : s.cfg.caseSens = true) : ∀ (l : List Str) (r : Ref) (acc pre rest : List Str) (c : Str) (t : Ref),
    l = pre ++ c :: rest → NoLink s.heap r pre → walk s.heap r (pre ++ [c]) = some t → (s.heap t).isLnk = true →
    s.scan r acc l = .link (acc.reverse ++ pre ++ [c]) t rest := by
  intro l
  induction l with
  | nil => intro r acc pre rest c t e; simp at e
  | cons a l ih =>
    intro r acc pre rest c t e hn hw hl
    cases pre with
    | nil =>
      simp only [List.nil_append, List.cons.injEq] at e
      obtain ⟨rfl, rfl⟩ := e
      simp only [List.nil_append, walk, Option.bind_eq_some_iff] at hw
      obtain ⟨y, hy, hw⟩ := hw
      injection hw with hw; subst hw
      simp [FS.scan, dirContent_tree cs, hy, hl]
    | cons b pre =>
      simp only [List.cons_append, List.cons.injEq] at e
      obtain ⟨rfl, rfl⟩ := e
      simp only [List.cons_append, walk, Option.bind_eq_some_iff] at hw
      obtain ⟨y, hy, hw⟩ := hw
      obtain ⟨h1, h2⟩ := hn y hy
      simp only [FS.scan, dirContent_tree cs, hy, Option.map_some, h1]
      have := ih y (a :: acc) pre rest c t rfl h2 hw hl
      simpa using this

theorem scan_cases {s : FS} (cs : s.cfg.caseSens = true) (l : List Str) :
    (NoLink s.heap rootRef l ∧ s.scan rootRef [] l = .done l) ∨
    ∃ pre c t rest, FirstLink s.heap l pre c t rest ∧ s.scan rootRef [] l = .link (pre ++ [c]) t rest := by
  cases h : s.scan rootRef [] l with
  | done r =>
    have := scan_done h
    simp at this; subst this
    exact Or.inl ⟨(scan_done_iff cs (acc := [])).mp h, rfl⟩
  | link res t rest =>
    obtain ⟨pre, c, h1, h2, h3, h4, h5⟩ := scan_link cs h
    simp at h1
    exact Or.inr ⟨pre, c, t, rest, ⟨h2, h3, h4, h5⟩, by rw [h1]⟩

theorem firstLink_not_noLink {hp : Ref → Obj} {cs pre rest : List Str} {c : Str} {t : Ref} (h : FirstLink hp cs pre c t rest) :
    ¬ NoLink hp rootRef cs := by
  obtain ⟨rfl, h1, h2, h3⟩ := h
  intro hn
  rw [noLink_append] at hn
  rw [walk_append, Option.bind_eq_some_iff] at h2
  obtain ⟨x, hx, h2⟩ := h2
  simp only [walk, Option.bind_eq_some_iff] at h2
  obtain ⟨y, hy, h2⟩ := h2
  injection h2 with h2; subst h2
  have := (hn.2 x hx y hy).1
  rw [h3] at this; simp at this

theorem resolveComps_eq {s : FS} (n : Nat) (l : List Str) : s.resolveComps n l =
    match s.scan rootRef [] l with
    | .done r => .ok r
    | .link res t rest => match n with
      | 0 => .error (.os .ELOOP)
      | n + 1 => s.resolveComps n (s.cfg.pathComponents (s.followLink res t) ++ rest) := by
  cases n <;> rw [FS.resolveComps] <;> cases s.scan rootRef [] l <;> rfl

/-- C20: following links stops: the result is the components without links reached after at most `n` links; ELOOP
is raised exactly when another link remains after `n` links. -/
theorem resolveComps_spec {s : FS} (cs : s.cfg.caseSens = true) : ∀ (n : Nat) (l : List Str),
    (∀ r, s.resolveComps n l = .ok r ↔ ∃ m ≤ n, Links s m l r ∧ NoLink s.heap rootRef r) ∧
    (∀ e, s.resolveComps n l = .error e ↔ e = .os .ELOOP ∧ ∃ r, Links s (n + 1) l r) := by
  intro n
  induction n with
  | zero =>
    intro l
    rcases scan_cases cs l with ⟨hn, hsc⟩ | ⟨pre, c, t, rest, hf, hsc⟩
    · constructor
      · intro r
        rw [resolveComps_eq, hsc]
        constructor
        · intro h; injection h with h; subst h; exact ⟨0, le_refl _, .zero _, hn⟩
        · rintro ⟨m, hm, hl, _⟩
          cases hl with
          | zero => rfl
          | step => omega
      · intro e
        rw [resolveComps_eq, hsc]
        constructor
        · intro h; simp at h
        · rintro ⟨_, r, hl⟩
          cases hl with
          | step hf _ => exact absurd hn (firstLink_not_noLink hf)
    · constructor
      · intro r
        rw [resolveComps_eq, hsc]
        constructor
        · intro h; simp at h
        · rintro ⟨m, hm, hl, hr⟩
          cases hl with
          | zero => exact absurd hr (firstLink_not_noLink hf)
          | step => omega
      · intro e
        rw [resolveComps_eq, hsc]
        constructor
        · intro h; injection h with h; exact ⟨h.symm, _, .step hf (.zero _)⟩
        · rintro ⟨rfl, _⟩; rfl
  | succ n ih =>
    intro l
    rcases scan_cases cs l with ⟨hn, hsc⟩ | ⟨pre, c, t, rest, hf, hsc⟩
    · constructor
      · intro r
        rw [resolveComps_eq, hsc]
        constructor
        · intro h; injection h with h; subst h; exact ⟨0, Nat.zero_le _, .zero _, hn⟩
        · rintro ⟨m, hm, hl, _⟩
          cases hl with
          | zero => rfl
          | step hf _ => exact absurd hn (firstLink_not_noLink hf)
      · intro e
        rw [resolveComps_eq, hsc]
        constructor
        · intro h; simp at h
        · rintro ⟨_, r, hl⟩
          cases hl with
          | step hf _ => exact absurd hn (firstLink_not_noLink hf)
    · have hu : ∀ {pre' c' t' rest'}, FirstLink s.heap l pre' c' t' rest' → pre' ++ [c'] = pre ++ [c] ∧ t' = t ∧ rest' = rest := by
        intro pre' c' t' rest' hf'
        have := scan_link_iff cs l rootRef [] pre' rest' c' t' hf'.1 hf'.2.1 hf'.2.2.1 hf'.2.2.2
        rw [hsc] at this
        injection this with h1 h2 h3
        exact ⟨by simpa using h1.symm, h2.symm, h3.symm⟩
      obtain ⟨ih1, ih2⟩ := ih (s.cfg.pathComponents (s.followLink (pre ++ [c]) t) ++ rest)
      constructor
      · intro r
        rw [resolveComps_eq, hsc]
        simp only
        rw [ih1]
        constructor
        · rintro ⟨m, hm, hl, hr⟩; exact ⟨m + 1, by omega, .step hf hl, hr⟩
        · rintro ⟨m, hm, hl, hr⟩
          cases hl with
          | zero => exact absurd hr (firstLink_not_noLink hf)
          | @step m _ pre' c' t' rest' _ hf' hl =>
            obtain ⟨e1, rfl, rfl⟩ := hu hf'
            rw [e1] at hl
            exact ⟨m, by omega, hl, hr⟩
      · intro e
        rw [resolveComps_eq, hsc]
        simp only
        rw [ih2]
        constructor
        · rintro ⟨he, r, hl⟩; exact ⟨he, r, .step hf hl⟩
        · rintro ⟨he, r, hl⟩
          cases hl with
          | step hf' hl =>
            obtain ⟨e1, rfl, rfl⟩ := hu hf'
            rw [e1] at hl
            exact ⟨he, r, hl⟩

/-- C20: links that are never left (a link to itself, a cycle of links, more than 41 links in a row) give ELOOP. -/
theorem resolve_loop_eloop {s : FS} (hs : Reachable s) (ht : s.cfg.Tree) {l : List Str} (hl : ∀ w ∈ l, Plain s.cfg.sep w)
    (hd : absPath s.cfg.sep l ≠ s.devName) (hloop : ∀ n, ∃ r, Links s n l r) :
    s.resolvePath (absPath s.cfg.sep l) = .error (.os .ELOOP) := by
  have hi := reachable_inv hs
  have hne : l ≠ [] := by
    rintro rfl
    obtain ⟨r, hr⟩ := hloop 1
    cases hr with
    | step hf _ => exact firstLink_not_noLink hf trivial
  have hlp := plain_proper hl
  have hroot := absPath_eq_root (k := s.cfg) (l := l) (fun w hw => proper_compOk (hlp w hw))
  unfold FS.resolvePath FS.resolvePathG
  rw [if_neg absPath_ne_nil, validRel_plain ht.posix _ hl]
  simp only [bind, Except.bind, Bool.not_true, Bool.false_eq_true, if_false, originalPath_tree ht.cs,
    absnorm_canon hi ht.posix (absCanon_names hlp)]
  rw [if_neg (fun e => hne (hroot.mp ((isRootPath_tree ht _).mp e))), if_neg hd, pathComponents_absPath ht.posix hlp,
    ((resolveComps_spec ht.cs FS.maxLinks l).2 (.os .ELOOP)).mpr ⟨rfl, hloop _⟩]

/-- every iteration of the loop of `_valid_relative_path` finishes -/
theorem validLoop_total {s : FS} (hp : s.cfg.Posix) {k : FS.Rec} {A : Str → Prop} {B : Nat}
    (hA : ∀ p q, A p → cutAtLast (s.cfg.sep :: dotdot) p = some q → A q)
    (hk : ∀ q, A q → dots s.cfg.sep q < B → ∃ b, k.ex (s.absnorm q) = .ok b) :
    ∀ m p, A p → dots s.cfg.sep p ≤ B → ∃ b, s.validLoop k m p = .ok b := by
  intro m
  induction m with
  | zero => intro p _ _; exact ⟨true, rfl⟩
  | succ m ih =>
    intro p hp' hB
    unfold FS.validLoop
    cases hc : cutAtLast (s.cfg.sep :: dotdot) p with
    | none => exact ⟨true, rfl⟩
    | some q =>
      have hd := dots_cut hp.sepDot hc
      obtain ⟨b, hb⟩ := hk q (hA p q hp' hc) (by omega)
      simp only [hb, bind, Except.bind]
      cases b with
      | false => exact ⟨false, rfl⟩
      | true =>
        obtain ⟨b, hb⟩ := ih q (hA p q hp' hc) (by omega)
        exact ⟨b, by simpa using hb⟩

theorem resolvePath_total {s : FS} (ht : s.cfg.Tree) {k : FS.Rec} {p : Str} (hv : ∃ b, s.validRelG k p = .ok b) :
    ∃ q, s.resolvePathG k p = .ok q ∨ ∃ e, s.resolvePathG k p = .error (.os e) := by
  unfold FS.resolvePathG
  split
  · exact ⟨[], Or.inr ⟨_, rfl⟩⟩
  · obtain ⟨b, hb⟩ := hv
    rw [hb]
    simp only [bind, Except.bind]
    cases b with
    | false => exact ⟨[], Or.inr ⟨_, rfl⟩⟩
    | true =>
      simp only [Bool.not_true, Bool.false_eq_true, if_false]
      split
      · exact ⟨_, Or.inl rfl⟩
      · split
        · exact ⟨_, Or.inl rfl⟩
        · cases hr : s.resolveComps FS.maxLinks (s.cfg.pathComponents (s.absnorm (s.originalPath p))) with
          | ok cs => exact ⟨_, Or.inl rfl⟩
          | error e =>
            obtain ⟨rfl, _⟩ := ((resolveComps_spec ht.cs _ _).2 e).mp hr
            exact ⟨[], Or.inr ⟨_, rfl⟩⟩

theorem ex_total {s : FS} (hi : Inv s) (ht : s.cfg.Tree) : ∀ n p, AbsCanon s.cfg.sep p → dots s.cfg.sep p < n →
    ∃ b, (s.recN n).ex p = .ok b := by
  intro n
  induction n with
  | zero => intro p _ h; omega
  | succ n ih =>
    intro p hp hd
    have hc := hi.n.cwd ht.posix
    have hval : ∃ b, s.validRelG (s.recN n) p = .ok b := by
      unfold FS.validRelG
      rw [if_neg (by simp [ht.posix.win])]
      apply validLoop_total ht.posix (A := fun q => isAbs s.cfg.sep q ∨ q = []) (B := dots s.cfg.sep p)
      · intro p q hp hq
        obtain ⟨t, e⟩ := cutAtLast_prefix hq
        cases q with
        | nil => exact Or.inr rfl
        | cons x q =>
          rcases hp with ⟨r, hr⟩ | hp
          · rw [hr] at e; simp at e; exact Or.inl ⟨q, by rw [e.1]⟩
          · rw [hp] at e; simp at e
      · intro q hq hlt
        apply ih _ (hi.absnorm ht.posix q)
        have h1 := dots_absnormpath ht.posix hc q
        rcases hq with hq | rfl
        · rw [if_pos hq] at h1
          show dots s.cfg.sep (s.cfg.absnormpath s.cwd q) < n
          omega
        · have : s.absnorm [] = s.cfg.root := by
            unfold FS.absnorm
            rw [absnormpath_posix ht.posix hc]
            simp only [if_true]
            exact normpath_root ht.posix
          rw [this]
          have : dots s.cfg.sep s.cfg.root = 0 := by simp [dots, Cfg.root, split]
          omega
      · exact Or.inl (absCanon_isAbs hp)
      · exact le_refl _
    obtain ⟨q, hq⟩ := resolvePath_total ht hval
    show ∃ b, s.existsG (s.recN n) p = .ok b
    unfold FS.existsG
    split
    · exact ⟨_, rfl⟩
    · split
      · exact ⟨_, rfl⟩
      · simp only [FS.isFileSepG, absCanon_not_endsWithSep ht.posix hp, Bool.false_eq_true, if_false, bind, Except.bind,
          pure, Except.pure]
        rcases hq with hq | ⟨e, hq⟩
        · rw [hq]; simp only
          split
          · exact ⟨_, rfl⟩
          · exact ⟨_, rfl⟩
        · rw [hq]; exact ⟨false, rfl⟩

/-- C20: resolving any path in any reachable state, whatever the links are, ends with a path or an `OSError`, if
the interpreter allows as many nested calls as there are `..` components in the path and the current directory. -/
theorem resolve_terminates {s : FS} (hs : Reachable s) (ht : s.cfg.Tree) (p : Str)
    (hl : dots s.cfg.sep p + dots s.cfg.sep s.cwd ≤ s.limit) :
    (∃ q, s.resolvePath p = .ok q) ∨ ∃ e, s.resolvePath p = .error (.os e) := by
  have hi := reachable_inv hs
  have hval : ∃ b, s.validRelG s.rc p = .ok b := by
    unfold FS.validRelG
    rw [if_neg (by simp [ht.posix.win])]
    apply validLoop_total ht.posix (A := fun _ => True) (B := dots s.cfg.sep p) (fun _ _ _ _ => trivial)
    · intro q _ hlt
      apply ex_total hi ht _ _ (hi.absnorm ht.posix q)
      have h1 := dots_absnormpath ht.posix (hi.n.cwd ht.posix) q
      have h2 : (if isAbs s.cfg.sep q then 0 else dots s.cfg.sep s.cwd) ≤ dots s.cfg.sep s.cwd := by split <;> omega
      show dots s.cfg.sep (s.cfg.absnormpath s.cwd q) < s.limit
      omega
    · trivial
    · exact le_refl _
  obtain ⟨q, hq⟩ := resolvePath_total ht hval
  rcases hq with hq | hq
  · exact Or.inl ⟨q, hq⟩
  · exact Or.inr hq

/-- C20: a path that can be resolved resolves to an object or an error, the lookup itself follows no further
link (so it cannot loop): the object is found by walking the resolved names. -/
theorem resolve_object {s : FS} (hs : Reachable s) (ht : s.cfg.Tree) {p : Str} {c : Bool} {x : Ref}
    (h : s.resolve p true c = .ok x) (hx : x ≠ devNullRef) :
    ∃ cs, s.resolvePath p = .ok (absPath s.cfg.sep cs) ∧ walk s.heap rootRef cs = some x ∧ (s.heap x).isLnk = false := by
  have hi := reachable_inv hs
  have hc := hi.n.cwd ht.posix
  obtain ⟨h1, h2, h3⟩ := (resolveG_ok hi ht _).mp h
  rcases h3 with ⟨h3, rfl⟩ | ⟨_, _, rfl⟩ | ⟨h3, h4, cs, h5, h6⟩
  · refine ⟨[], ?_, rfl, root_not_lnk hi⟩
    exact (resolvePathG_ok ht hc _).mpr ⟨h1, h2, Or.inl ⟨h3, absPath_nil _⟩⟩
  · exact absurd rfl hx
  · have hcan : Canon s.cfg.sep (s.absnorm p) := Or.inl (hi.absnorm ht.posix p)
    obtain ⟨h7, h8⟩ := resolveComps_ok ht.cs ht.posix _ _ _ (canon_components ht.posix hcan) h5
    rcases h6 with ⟨_, _, rfl⟩ | ⟨_, hw, _, _⟩
    · exact absurd rfl hx
    refine ⟨cs, (resolvePathG_ok ht hc _).mpr ⟨h1, h2, Or.inr (Or.inr ⟨h3, h4, cs, h5, h7, h8, rfl⟩)⟩, hw, ?_⟩
    rcases List.eq_nil_or_concat cs with rfl | ⟨l, c, rfl⟩
    · simp [walk] at hw; subst hw; exact root_not_lnk hi
    · rw [List.concat_eq_append] at hw h8
      obtain ⟨y, hy, he⟩ := walk_snoc hw
      exact ((noLink_append.mp h8).2 y hy x he).1

/-- a filesystem with a link to itself -/
def loopFS : FS := runs [.createSymlink ['/', 'l'] ['l'] false, .createSymlink ['/', 'm'] ['.', '.', '/', 'x'] false]
  (initFS demoCfg 50 0 0 0o022 7 none)

theorem loop_reachable : Reachable loopFS := ⟨_, _, _, _, _, _, _, _, rfl⟩

theorem loop_links : ∀ n, Links loopFS n [['l']] [['l']] := by
  intro n
  induction n with
  | zero => exact .zero _
  | succ n ih =>
    refine .step (pre := []) (c := ['l']) (t := 2) (rest := []) ⟨rfl, trivial, by decide +kernel, by decide +kernel⟩ ?_
    have : loopFS.cfg.pathComponents (loopFS.followLink ([] ++ [['l']]) 2) ++ [] = [['l']] := by decide +kernel
    rw [this]; exact ih

/-- the hypotheses of `resolve_loop_eloop` are met by a link to itself -/
example : loopFS.resolvePath ['/', 'l'] = .error (.os .ELOOP) :=
  resolve_loop_eloop (l := [['l']]) loop_reachable ⟨rfl, demoCfg_tree.posix⟩ (by decide +kernel) (by decide +kernel)
    (fun n => ⟨_, loop_links n⟩)

/-! ## C21 -/

theorem noLink_prefix {hp : Ref → Obj} {r : Ref} {a b : List Str} (h : NoLink hp r (a ++ b)) : NoLink hp r a :=
  (noLink_append.mp h).1

theorem noLink_last {hp : Ref → Obj} {a : List Str} (hr : (hp rootRef).isLnk = false) (h : NoLink hp rootRef a) {x : Ref}
    (hx : walk hp rootRef a = some x) : (hp x).isLnk = false := by
  rcases List.eq_nil_or_concat a with rfl | ⟨l, c, rfl⟩
  · simp [walk] at hx; exact hx ▸ hr
  · rw [List.concat_eq_append] at hx h
    obtain ⟨y, hy, he⟩ := walk_snoc hx
    exact ((noLink_append.mp h).2 y hy x he).1

/-- C21: if `resolve_path(p)` returns `q` (and `q` is not the null device), `q` is an absolute path of non-empty
names and no prefix of it that exists is a symbolic link. -/
theorem resolvePath_no_symlink {s : FS} (hs : Reachable s) (ht : s.cfg.Tree) {p q : Str} (h : s.resolvePath p = .ok q)
    (hd : q ≠ s.devName) : ∃ cs, q = absPath s.cfg.sep cs ∧ (∀ w ∈ cs, w ≠ [] ∧ s.cfg.sep ∉ w) ∧
      ∀ pre rest x, cs = pre ++ rest → walk s.heap rootRef pre = some x → (s.heap x).isLnk = false := by
  have hi := reachable_inv hs
  obtain ⟨h1, h2, h3⟩ := (resolvePathG_ok ht (hi.n.cwd ht.posix) _).mp h
  rcases h3 with ⟨h3, rfl⟩ | ⟨_, _, rfl⟩ | ⟨h3, h4, cs, h5, h6, h7, rfl⟩
  · refine ⟨[], (absPath_nil _).symm, by simp, ?_⟩
    intro pre rest x e hx
    have : pre = [] := by cases pre with | nil => rfl | cons => simp at e
    subst this; simp [walk] at hx; subst hx; exact root_not_lnk hi
  · exact absurd rfl hd
  · refine ⟨cs, rfl, h6, ?_⟩
    rintro pre rest x rfl hx
    exact noLink_last (root_not_lnk hi) (noLink_prefix h7) hx

/-- `os.path.islink` is not true for a path of plain names leading to no link. -/
theorem isLink_plain {s : FS} (hi : Inv s) (ht : s.cfg.Tree) {l : List Str} (hl : ∀ w ∈ l, Plain s.cfg.sep w)
    (hd : absPath s.cfg.sep l.dropLast ≠ s.devName) (hn : NoLink s.heap rootRef l) :
    s.isLink (absPath s.cfg.sep l) ≠ .ok true := by
  intro h
  have hcan := absCanon_names (plain_proper hl)
  unfold FS.isLink FS.isLinkG FS.isOfTypeG FS.resolveFG at h
  simp only [Bool.false_eq_true, if_false] at h
  cases hr : s.lresolveG s.rc (absPath s.cfg.sep l) with
  | error e => simp only [hr, bind, Except.bind] at h; split at h <;> simp at h
  | ok x =>
    simp only [hr, bind, Except.bind, FS.raiseForSepG, absCanon_not_endsWithSep ht.posix hcan, Bool.false_eq_true, if_false,
      pure, Except.pure, Except.ok.injEq, beq_iff_eq] at h
    have hlnk : (s.heap x).isLnk = true := by unfold Obj.isLnk; rw [h]; rfl
    rcases List.eq_nil_or_concat l with rfl | ⟨l, c, rfl⟩
    · rw [absPath_nil, lresolve_root] at hr
      injection hr with hr; subst hr
      rw [root_not_lnk hi] at hlnk; simp at hlnk
    · rw [List.concat_eq_append] at *
      rw [List.dropLast_concat] at hd
      have h1 := (lresolve_plain hi ht s.rc (fun w hw => hl w (by simp [hw])) (hl c (by simp)).1 (noLink_prefix hn) hd).mp hr
      have := noLink_last (root_not_lnk hi) hn h1.1
      rw [this] at hlnk; simp at hlnk

theorem resolvePath_noLink {s : FS} (hi : Inv s) (ht : s.cfg.Tree) {p : Str} {cs : List Str}
    (h : s.resolvePath p = .ok (absPath s.cfg.sep cs)) (hcs : ∀ w ∈ cs, CompOk s.cfg.sep w)
    (hd : absPath s.cfg.sep cs ≠ s.devName) : NoLink s.heap rootRef cs := by
  obtain ⟨h1, h2, h3⟩ := (resolvePathG_ok ht (hi.n.cwd ht.posix) _).mp h
  rcases h3 with ⟨_, e⟩ | ⟨_, _, e⟩ | ⟨h3, h4, cs', h5, h6, h7, e⟩
  · rw [(absPath_eq_root hcs).mp e]; trivial
  · exact absurd e hd
  · have := (pathComponents_toPath ht.posix hcs)
    rw [this.2] at this
    have h' := (pathComponents_toPath ht.posix h6)
    rw [h'.2] at h'
    rw [e, h'.1] at this
    rw [← this.1]; exact h7

/-- C21 in terms of the API: if the resolved path has only plain names, resolving it again gives itself, and no
prefix of it is a link for `os.path.islink`. -/
theorem resolvePath_stable {s : FS} (hs : Reachable s) (ht : s.cfg.Tree) {p : Str} {cs : List Str}
    (h : s.resolvePath p = .ok (absPath s.cfg.sep cs)) (hcs : ∀ w ∈ cs, Plain s.cfg.sep w)
    (hd : ∀ pre rest, cs = pre ++ rest → absPath s.cfg.sep pre ≠ s.devName) :
    s.resolvePath (absPath s.cfg.sep cs) = .ok (absPath s.cfg.sep cs) ∧
    ∀ pre rest, cs = pre ++ rest → s.isLink (absPath s.cfg.sep pre) ≠ .ok true := by
  have hi := reachable_inv hs
  have hn : NoLink s.heap rootRef cs :=
    resolvePath_noLink hi ht h (fun w hw => proper_compOk (hcs w hw).1) (hd cs [] (by simp))
  refine ⟨resolvePath_plain hi ht _ hcs hn, ?_⟩
  rintro pre rest rfl
  apply isLink_plain hi ht (fun w hw => hcs w (by simp [hw])) _ (noLink_prefix hn)
  apply hd pre.dropLast (pre.drop (pre.length - 1) ++ rest)
  rw [← List.append_assoc, List.dropLast_eq_take, List.take_append_drop]

example : demo.resolvePath ['/', 'l'] = .ok ['/', 'a', '/', 'f'] := by decide +kernel

/-- C21 fails for "canonical": a link in the root directory with a target leading above the root resolves to a
path with a `..` component (fake_filesystem.py 1919-1961). -/
theorem resolvePath_not_canonical : ∃ s, Reachable s ∧ s.cfg.Tree ∧ ∃ p q, s.resolvePath p = .ok q ∧ ¬ AbsCanon s.cfg.sep q := by
  refine ⟨loopFS, loop_reachable, ⟨rfl, demoCfg_tree.posix⟩, ['/', 'm'], ['/', '.', '.', '/', 'x'], by decide +kernel, ?_⟩
  intro h
  have := normpath_canon_id (k := loopFS.cfg) demoCfg_tree.posix (Or.inl h)
  revert this
  decide +kernel

/-! ## C23 -/

theorem ifdir_of_ifreg {m : Nat} (h : ifmt m = S_IFREG) : m &&& S_IFDIR = 0 := by
  have e : S_IFDIR = S_IFMT &&& S_IFDIR := by decide
  rw [e, ← Nat.and_assoc]
  unfold ifmt at h
  rw [h]; decide

/-- C23: `listdir` returns, without duplicates, exactly the names of the entries of the directory found. -/
theorem listdir_entries {s : FS} (hs : Reachable s) {p : Str} {ns : List Str} (h : s.listdir p = .ok ns) :
    ∃ q d, s.resolvePath p = .ok q ∧ s.resolve q = .ok d ∧ (s.heap d).isDir = true ∧ ns.Nodup ∧
      ∀ n, n ∈ ns ↔ ∃ x, alookup n (s.heap d).entries = some x := by
  have hi := reachable_inv hs
  unfold FS.listdir at h
  obtain ⟨q, hq, h⟩ := except_bind_ok h
  obtain ⟨d, hd, h⟩ := except_bind_ok h
  unfold FS.confirmdir at hd
  obtain ⟨r, hr, hd⟩ := except_bind_ok hd
  split at hd
  · simp at hd
  · injection hd with e; subst e
    split at h
    · rename_i es hes
      injection h with h; subst h
      have hlt := resolve_lt hi hr
      have hk := hi.g.keys r hlt
      rw [mem_entries hes] at hk
      refine ⟨q, r, hq, hr, by simp [Obj.isDir, hes], hk, ?_⟩
      intro n
      rw [mem_entries hes]
      cases ha : alookup n es with
      | none => simpa [ha] using (alookup_none.mp ha)
      | some x => simp only [Option.some.injEq, exists_eq', iff_true]; exact List.mem_map.mpr ⟨_, alookup_some ha, rfl⟩
    · simp at h

/-- `os.path.lexists` of a plain name in a directory which can be resolved and read. -/
theorem existsL_entry {s : FS} (hi : Inv s) (ht : s.cfg.Tree) {l : List Str} (hl : ∀ w ∈ l, Plain s.cfg.sep w)
    (hnl : NoLink s.heap rootRef l) (hdl : absPath s.cfg.sep l ≠ s.devName) {d : Ref}
    (hr : s.resolve (absPath s.cfg.sep l) = .ok d)
    (hperm : (s.heap d).mode &&& PERM_READ ≠ 0) {n : Str} (hn : Plain s.cfg.sep n)
    (hd : absPath s.cfg.sep (l ++ [n]) ≠ s.devName) :
    s.existsL (absPath s.cfg.sep (l ++ [n])) = .ok (alookup n (s.heap d).entries).isSome := by
  have hall : ∀ w ∈ l ++ [n], Plain s.cfg.sep w := by
    intro w hw
    rcases List.mem_append.mp hw with hw | hw
    · exact hl w hw
    · simp at hw; subst hw; exact hn
  obtain ⟨hw, hth, hrd⟩ := (resolve_plain hi ht s.rc hl hnl hdl).mp hr
  have hwn : walk s.heap rootRef (l ++ [n]) = alookup n (s.heap d).entries := by
    rw [walk_append, hw]
    simp only [Option.bind_some, walk]
    cases alookup n (s.heap d).entries <;> rfl
  have hcan := absCanon_names (plain_proper hall)
  unfold FS.existsL FS.existsLG FS.isLinkG FS.isOfTypeG FS.resolveFG
  simp only [Bool.false_eq_true, if_false]
  cases ha : alookup n (s.heap d).entries with
  | none =>
    have hlr : ∃ e, s.lresolveG s.rc (absPath s.cfg.sep (l ++ [n])) = .error (.os e) := by
      unfold FS.lresolveG
      rw [if_neg absPath_ne_nil, if_neg (absPath_snoc_ne_root (plain_proper hl) hn.1)]
      have hlp : s.lparent (absPath s.cfg.sep (l ++ [n])) = (absPath s.cfg.sep l, n) := by
        unfold FS.lparent
        simp only [stripTrailing_canon ht.posix hcan, absPath_ne_dot ht.posix, if_false, originalPath_tree ht.cs,
          splitpath_absPath ht.posix (plain_proper hl) hn.1, absPath_ne_nil]
      have hr' : s.resolveG s.rc (absPath s.cfg.sep l) true = .ok d := hr
      rw [hlp, hr']
      simp only [bind, Except.bind]
      unfold FS.lentry
      cases hc : (s.heap d).content with
      | file b => exact ⟨_, rfl⟩
      | dir es => rw [mem_entries hc] at ha; simp [hperm, hn.1.1, getEntry_tree ht.cs, ha]
    obtain ⟨e, hlr⟩ := hlr
    have hnn : NoLink s.heap rootRef (l ++ [n]) := by
      rw [noLink_append]; refine ⟨hnl, ?_⟩
      intro x hx; rw [hw] at hx; injection hx with hx; subst hx
      intro y hy; rw [ha] at hy; simp at hy
    simp only [hlr, bind, Except.bind, Err.isOS, if_true, Bool.false_eq_true, if_false]
    rw [exists_plain hi ht _ hall hnn hd, hwn, ha]
  | some x =>
    have hlr : s.lresolveG s.rc (absPath s.cfg.sep (l ++ [n])) = .ok x :=
      (lresolve_plain hi ht s.rc hl hn.1 hnl hdl).mpr ⟨by rw [hwn, ha], hth, hrd, d, hw, hperm⟩
    simp only [hlr, bind, Except.bind, FS.raiseForSepG, absCanon_not_endsWithSep ht.posix hcan, Bool.false_eq_true, if_false,
      pure, Except.pure]
    by_cases hlk : (s.heap x).isLnk = true
    · have : (ifmt (s.heap x).mode == S_IFLNK) = true := hlk
      simp [this]
    · have : (ifmt (s.heap x).mode == S_IFLNK) = false := by
        have := hlk; unfold Obj.isLnk at this; simpa using this
      have hnn : NoLink s.heap rootRef (l ++ [n]) := by
        rw [noLink_append]; refine ⟨hnl, ?_⟩
        intro y hy; rw [hw] at hy; injection hy with hy; subst hy
        intro z hz; rw [ha] at hz; injection hz with hz; subst hz
        exact ⟨by simpa using hlk, trivial⟩
      simp only [this, Bool.false_eq_true, if_false]
      rw [exists_plain hi ht _ hall hnn hd, hwn, ha]

/-- C23 in terms of the API: if a readable directory is listed, a plain name is listed exactly if
`os.path.lexists(directory/name)` is true (directory and entry not named like the null device). -/
theorem listdir_lexists {s : FS} (hs : Reachable s) (ht : s.cfg.Tree) {p : Str} {ns l : List Str}
    (h : s.listdir p = .ok ns) (hq : s.resolvePath p = .ok (absPath s.cfg.sep l)) (hl : ∀ w ∈ l, Plain s.cfg.sep w)
    (hdl : absPath s.cfg.sep l ≠ s.devName)
    (hperm : ∀ d, s.resolve (absPath s.cfg.sep l) = .ok d → (s.heap d).mode &&& PERM_READ ≠ 0)
    {n : Str} (hn : Plain s.cfg.sep n) (hd : absPath s.cfg.sep (l ++ [n]) ≠ s.devName) :
    s.existsL (absPath s.cfg.sep (l ++ [n])) = .ok (decide (n ∈ ns)) := by
  have hi := reachable_inv hs
  obtain ⟨q, d, hq', hr, hdir, _, hns⟩ := listdir_entries hs h
  rw [hq] at hq'; injection hq' with e; subst e
  rw [existsL_entry hi ht hl (resolvePath_noLink hi ht hq (fun w hw => proper_compOk (hl w hw).1) hdl) hdl hr
    (hperm d hr) hn hd]
  congr 1
  rw [Bool.eq_iff_iff, decide_eq_true_eq, hns, Option.isSome_iff_exists]

example : demo.listdir ['/', 'a'] = .ok [['f'], ['d']] ∧ demo.resolvePath ['/', 'a'] = .ok ['/', 'a'] ∧
    demo.existsL ['/', 'a', '/', 'd'] = .ok true ∧ demo.existsL ['/', 'a', '/', 'x'] = .ok false := by decide +kernel

/-- Without read permission on the directory `lexists` misses broken links, even for root
(fake_filesystem.py 2089-2090): the listing reports the name, `lexists` does not. -/
theorem listdir_lexists_counterexample : ∃ s, Reachable s ∧ s.cfg.Tree ∧ ∃ d n ns, s.listdir d = .ok ns ∧ n ∈ ns ∧
    s.existsL (d ++ '/' :: n) = .ok false := by
  refine ⟨runs [.mkdir ['/', 'a'] 0o777, .createSymlink ['/', 'a', '/', 'l'] ['x'] false, .chmod ['/', 'a'] 0o300 true]
    (initFS demoCfg 50 0 0 0o022 7 none), ⟨_, _, _, _, _, _, _, _, rfl⟩, (by rw [runs_cfg]; exact demoCfg_tree), ['/', 'a'], ['l'], [['l']],
    by decide +kernel, by decide +kernel, by decide +kernel⟩

/-! ## C43 -/

theorem pathNames_walk {s : FS} (h : Inv s) : ∀ (l : List Str) {d : Ref} (n : Nat) (acc : List Str),
    walk s.heap rootRef l = some d → (s.heap d).isDir = true → l.length < n →
    s.pathNames n d acc = s.cfg.root :: l ++ acc := by
  intro l
  induction l using List.reverseRecOn with
  | nil =>
    intro d n acc hw _ hn
    simp [walk] at hw; subst hw
    cases n with
    | zero => simp at hn
    | succ n => simp [FS.pathNames, h.g.rootPar, h.n.rootName]
  | append_singleton l c ih =>
    intro d n acc hw hd hn
    obtain ⟨y, hy, he⟩ := walk_snoc hw
    have hm := alookup_mem he
    obtain ⟨h1, h2⟩ := h.g.dirEnt y (walk_lt h _ (root_lt h) hy) _ hm hd
    cases n with
    | zero => simp at hn
    | succ n =>
      simp only at h1 h2
      simp only [FS.pathNames, h1, h2]
      rw [ih n (c :: acc) hy (isDir_of_entry hm) (by simp at hn; omega)]
      simp

/-- The two-character names with a colon, which the code takes for Windows drives on every filesystem. -/
def DriveLike (w : Str) : Prop := ∃ c, w = [c, ':']

/-- C43: the path computed from the parents of a directory in the tree consists of the names leading to it, unless
the first one looks like a Windows drive. -/
theorem objPath_names {s : FS} (hs : Reachable s) (ht : s.cfg.Tree) (hm : s.cfg.isMac = false) {l : List Str} {d : Ref}
    (hw : walk s.heap rootRef l = some d) (hd : (s.heap d).isDir = true) (hdr : ∀ w ∈ l.head?, ¬ DriveLike w) :
    s.objPath d = absPath s.cfg.sep l := by
  have h := reachable_inv hs
  have hprop : ∀ w ∈ l, Proper s.cfg.sep w := by
    have : ∀ (l : List Str) (r x : Ref), r < s.next → walk s.heap r l = some x → ∀ w ∈ l, Proper s.cfg.sep w := by
      intro l
      induction l with
      | nil => simp
      | cons c l ih =>
        intro r x hr hx w hw
        simp only [walk, Option.bind_eq_some_iff] at hx
        obtain ⟨y, hy, hx⟩ := hx
        rcases List.mem_cons.mp hw with rfl | hw
        · exact h.n.names ht.posix hm r hr _ (alookup_some hy)
        · exact ih y x (h.g.entLt r hr _ (alookup_some hy)) hx w hw
    exact this l _ _ (root_lt h) hw
  unfold FS.objPath
  rw [pathNames_walk h l s.next [] hw hd (depth_lt h hw hd)]
  simp only [List.append_nil, Cfg.root, if_true]
  have hfin := absnorm_canon h ht.posix (absCanon_names hprop)
  clear hw hprop
  split
  · rename_i c _
    exact absurd ⟨c, rfl⟩ (hdr _ (by simp))
  · exact hfin

/-- C43: the reported path of a directory in the tree resolves to this directory (plain names, permission to
search). -/
theorem objPath_resolves {s : FS} (hs : Reachable s) (ht : s.cfg.Tree) (hm : s.cfg.isMac = false) {l : List Str} {d : Ref}
    (hw : walk s.heap rootRef l = some d) (hd : (s.heap d).isDir = true) (hdr : ∀ w ∈ l.head?, ¬ DriveLike w)
    (hl : ∀ w ∈ l, Plain s.cfg.sep w) (hth : Through s.heap rootRef l) (hdev : absPath s.cfg.sep l ≠ s.devName)
    (hnl : NoLink s.heap rootRef l) :
    s.resolve (s.objPath d) true false = .ok d ∧ s.exists_ (s.objPath d) = .ok true := by
  rw [objPath_names hs ht hm hw hd hdr]
  have h := reachable_inv hs
  constructor
  · exact (resolve_plain h ht s.rc hl hnl hdev).mpr ⟨hw, hth, fun y _ => Or.inr (Or.inl rfl)⟩
  · have := exists_plain h ht s.rc hl hnl hdev
    rw [hw] at this; exact this

example : walk demo.heap rootRef [['a'], ['d']] = some 5 ∧ demo.objPath 5 = ['/', 'a', '/', 'd'] := by decide +kernel

/-- C43 fails for a directory with a name like a Windows drive on a POSIX filesystem: its path is reported relative
to the current directory (fake_filesystem.py 450-457). -/
theorem objPath_drive_counterexample : ∃ s, Reachable s ∧ s.cfg.Tree ∧ ∃ l d, walk s.heap rootRef l = some d ∧
    (s.heap d).isDir = true ∧ s.exists_ (s.objPath d) = .ok false := by
  refine ⟨runs [.mkdir ['/', 'c', ':'] 0o777, .mkdir ['/', 'a'] 0o777, .chdir ['/', 'a']]
    (initFS demoCfg 50 0 0 0o022 7 none), ⟨_, _, _, _, _, _, _, _, rfl⟩, (by rw [runs_cfg]; exact demoCfg_tree), [['c', ':']], 2,
    by decide +kernel⟩

/-! ## C46 -/

/-- C46: the current directory is an absolute path after every history. -/
theorem cwd_absolute {s : FS} (hs : Reachable s) (hp : s.cfg.Posix) : isAbs s.cfg.sep s.cwd :=
  (reachable_inv hs).n.cwd hp

/-- C46: `chdir` that succeeds makes the resolved path of an existing directory the current one; one that fails
changes nothing. -/
theorem chdir_effect (p : Str) (s : FS) :
    (∃ e, chdir p s = (.error e, s)) ∨
    ∃ q d, chdir p s = (.ok (), { s with cwd := q }) ∧ s.resolvePath p = .ok q ∧ s.resolve q = .ok d ∧
      (s.heap d).mode &&& S_IFDIR ≠ 0 := by
  have key : wp (chdir p) (fun r s' => (∃ e, r = .error e ∧ s' = s) ∨
    ∃ q d, r = .ok () ∧ s' = { s with cwd := q } ∧ s.resolvePath p = .ok q ∧ s.resolve q = .ok d ∧
      (s.heap d).mode &&& S_IFDIR ≠ 0) s := by
    unfold chdir
    apply wp_readBind
    · intro e _; exact Or.inl ⟨e, rfl, rfl⟩
    · intro q hq
      apply wp_readBind
      · intro e _; exact Or.inl ⟨e, rfl, rfl⟩
      · intro r hr
        apply wp_readBind
        · intro e _; exact Or.inl ⟨e, rfl, rfl⟩
        · intro r' hr'
          apply wp_modify
          right
          unfold FS.confirmdir at hr
          obtain ⟨d, hd, hr⟩ := except_bind_ok hr
          split at hr
          · simp at hr
          · rename_i hm
            exact ⟨q, d, rfl, rfl, hq, hd, hm⟩
  unfold wp at key
  rcases key with ⟨e, h1, h2⟩ | ⟨q, d, h1, h2, h3⟩
  · left; exact ⟨e, Prod.ext h1 h2⟩
  · right; exact ⟨q, d, Prod.ext h1 h2, h3⟩

/-- No other call changes the current directory. -/
theorem cwd_only_chdir {s : FS} (hs : Reachable s) (o : Op) (ho : ∀ p, o ≠ .chdir p) : (o.next s).cwd = s.cwd :=
  next_cwd o (reachable_inv hs) ho

/-- C46 fails for "canonical": through a link in the root directory leading above the root the current directory
becomes a path with `..`. -/
theorem cwd_not_canonical : ∃ s, Reachable s ∧ s.cfg.Tree ∧ ¬ AbsCanon s.cfg.sep s.cwd := by
  refine ⟨runs [.mkdir ['/', 'x'] 0o777, .createSymlink ['/', 'm'] ['.', '.', '/', 'x'] false, .chdir ['/', 'm']]
    (initFS demoCfg 50 0 0 0o022 7 none), ⟨_, _, _, _, _, _, _, _, rfl⟩, (by rw [runs_cfg]; exact demoCfg_tree), ?_⟩
  rw [runs_cfg]
  intro h
  have := normpath_canon_id (k := demoCfg) demoCfg_tree.posix (Or.inl h)
  revert this
  decide +kernel

end Verif
