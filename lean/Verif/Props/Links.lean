import Verif.Props.Create
/-!
# C19: symbolic links are followed to their target, and only where they should be
-/

namespace Verif
open Py Spec Cfg

theorem pathComponents_join {k : Cfg} (h : k.Posix) {l : List Str} (hne : l ≠ []) (hl : ∀ w ∈ l, CompOk k.sep w) :
    k.pathComponents (join k.sep l) = l := by
  unfold Cfg.pathComponents
  have hj : join k.sep l ≠ [] := by
    intro hj
    rcases join_eq_nil hj with h1 | h1
    · exact hne h1
    · subst h1; exact (hl [] (by simp)).1 rfl
  have hs : join k.sep l ≠ [k.sep] := fun e => isAbs_join_compOk hl ⟨[], e⟩
  rw [if_neg (by simp [hj, hs])]
  simp only [h.splitdrive, split_join hne (fun w hw => (hl w hw).2)]
  obtain ⟨w, ws, rfl⟩ := List.exists_cons_of_ne_nil hne
  have hw := (hl w (by simp)).1
  obtain ⟨x, xs, rfl⟩ := List.exists_cons_of_ne_nil hw
  simp

theorem loc_absPath {c : Char} {l st : List Str} (hl : ∀ w ∈ l, Proper c w) : loc c st (absPath c l) = l.reverse := by
  unfold loc absPath
  rw [if_pos ⟨_, rfl⟩, split_abs, foldl_step_nil_cons]
  by_cases e : l = []
  · subst e; simp [join, split, step]
  · rw [split_join e (fun w hw => (hl w hw).2.2.2), foldl_step_names hl]; simp

theorem loc_join {c : Char} {l st : List Str} (hl : ∀ w ∈ l, Proper c w) : loc c st (join c l) = l.reverse ++ st := by
  unfold loc
  by_cases e : l = []
  · subst e; simp [join, split, step, isAbs]
  · rw [if_neg (isAbs_join_compOk fun w hw => proper_compOk (hl w hw)), split_join e (fun w hw => (hl w hw).2.2.2), foldl_step_names hl]

/-- The components of a canonical path are the names of the location it means, unless one is a dot name. -/
theorem canon_loc {k : Cfg} (h : k.Posix) {q : Str} (hq : Canon k.sep q) (hp : ∀ w ∈ k.pathComponents q, Proper k.sep w) :
    k.pathComponents q = (loc k.sep [] q).reverse := by
  rcases hq with ⟨names, hn, rfl⟩ | rfl | ⟨n, names, hn, hne, rfl⟩
  · rw [pathComponents_absPath h hn, loc_absPath hn, List.reverse_reverse]
  · have hd : CompOk k.sep ['.'] := ⟨by simp, by simp [h.sepDot]⟩
    have := pathComponents_join h (l := [['.']]) (by simp) (by simpa using hd)
    simp only [join] at this
    rw [this] at hp
    exact absurd rfl (hp ['.'] (by simp)).2.1
  · have hall : ∀ w ∈ List.replicate n dotdot ++ names, CompOk k.sep w := by
      intro w hw
      rcases List.mem_append.mp hw with hw | hw
      · rw [(List.mem_replicate.mp hw).2]; exact ⟨by simp [dotdot], dotdot_no_sep h⟩
      · exact proper_compOk (hn w hw)
    have hc := pathComponents_join h (l := List.replicate n dotdot ++ names) (by
      rcases hne with h0 | h0
      · cases n with
        | zero => omega
        | succ n => simp [List.replicate_succ]
      · simp [h0]) hall
    have e : (['.', '.'] : Str) = dotdot := rfl
    rw [e, hc] at hp
    cases n with
    | succ n => exact absurd rfl (hp dotdot (by simp [List.replicate_succ])).2.2.1
    | zero => rw [e, hc]; simp only [List.replicate_zero, List.nil_append]; rw [loc_join hn]; simp

/-- Where a link found in the location `pre` points to: the location its contents mean there. -/
theorem followLink_loc {s : FS} (ht : s.cfg.Tree) {pre : List Str} {c : Str} {t : Ref} (hpre : ∀ w ∈ pre, Proper s.cfg.sep w)
    (hp : ∀ w ∈ s.cfg.pathComponents (s.followLink (pre ++ [c]) t), Proper s.cfg.sep w) :
    s.cfg.pathComponents (s.followLink (pre ++ [c]) t) = (loc s.cfg.sep pre.reverse (s.linkTarget (s.heap t))).reverse := by
  have hcan : Canon s.cfg.sep (s.followLink (pre ++ [c]) t) := normpath_canonical ht.posix _
  rw [canon_loc ht.posix hcan hp]
  congr 1
  unfold FS.followLink
  rw [normpath_meaning ht.posix]
  simp only [ht.posix.win, Bool.false_and, Bool.false_eq_true, if_false, List.dropLast_concat, ht.posix.startsWithRoot, startsWithC_eq]
  generalize s.linkTarget (s.heap t) = tg
  by_cases ha : isAbs s.cfg.sep tg
  · simp only [ha, decide_true, Bool.not_true, Bool.false_eq_true, if_false]
    unfold loc; rw [if_pos ha, if_pos ha]
  · simp only [ha, decide_false, Bool.not_false, if_true]
    by_cases e : pre = []
    · subst e; simp [join]
    · rw [join_append _ e (by simp), loc_append_sep _ _ _ (by simpa [join] using ha), loc_join hpre]
      have : join s.cfg.sep pre ≠ [] := by
        intro hj
        rcases join_eq_nil hj with h1 | h1
        · exact e h1
        · rw [h1] at hpre; exact (hpre [] (by simp)).1 rfl
      rw [if_neg this]; simp [join]

/-- C19: let `pre/c` be the first link on the path `pre/c/rest` and `target` its text.  The path leads (with and
without permission checks) to the object to which the path leads that one gets by replacing the link by the
location `target` means in the directory of the link; conversely it leads there unless too many links
were met (ELOOP).  The dots of the target must not climb above the root (`hq`). -/
theorem symlink_followed {s : FS} (hs : Reachable s) (ht : s.cfg.Tree) {pre rest : List Str} {c : Str} {t : Ref}
    (hp : ∀ w ∈ pre ++ c :: rest, Plain s.cfg.sep w) (hd : absPath s.cfg.sep (pre ++ c :: rest) ≠ s.devName)
    (hl : FirstLink s.heap (pre ++ c :: rest) pre c t rest)
    (hq : ∀ w ∈ s.cfg.pathComponents (s.followLink (pre ++ [c]) t) ++ rest, Plain s.cfg.sep w)
    (hd' : absPath s.cfg.sep ((loc s.cfg.sep pre.reverse (s.linkTarget (s.heap t))).reverse ++ rest) ≠ s.devName) {ck : Bool} {y : Ref} :
    let there := absPath s.cfg.sep ((loc s.cfg.sep pre.reverse (s.linkTarget (s.heap t))).reverse ++ rest)
    (s.resolve (absPath s.cfg.sep (pre ++ c :: rest)) true ck = .ok y → s.resolve there true ck = .ok y) ∧
    (s.resolve there true ck = .ok y → s.resolve (absPath s.cfg.sep (pre ++ c :: rest)) true ck = .ok y ∨
      s.resolve (absPath s.cfg.sep (pre ++ c :: rest)) true ck = .error (.os .ELOOP)) := by
  have hi := reachable_inv hs
  have hfl := followLink_loc ht (pre := pre) (c := c) (t := t) (fun w hw => (hp w (by simp [hw])).1)
    (fun w hw => (hq w (List.mem_append_left _ hw)).1)
  rw [← hfl] at hd' ⊢
  dsimp only
  generalize hL : s.cfg.pathComponents (s.followLink (pre ++ [c]) t) ++ rest = L at *
  have hcp := absCanon_names (plain_proper hp)
  have hcq := absCanon_names (plain_proper hq)
  have hroot : absPath s.cfg.sep (pre ++ c :: rest) ≠ s.cfg.root := by
    intro e
    have := absPath_inj ht.posix (plain_proper hp) (b := []) (by simp) (by rw [e, absPath_nil])
    simp at this
  have hstep : s.resolveComps FS.maxLinks (pre ++ c :: rest) = s.resolveComps 40 L := by
    rw [resolveComps_eq, scan_link_iff ht.cs _ rootRef [] pre rest c t rfl hl.2.1 hl.2.2.1 hl.2.2.2]
    simp only [FS.maxLinks, List.reverse_nil, List.nil_append, hL]
  have hA : ∀ {x}, s.resolve (absPath s.cfg.sep (pre ++ c :: rest)) true ck = .ok x ↔
      ∃ cs, s.resolveComps 40 L = .ok cs ∧ s.leads ck cs x := by
    intro x
    refine (resolveG_ok hi ht s.rc).trans ?_
    rw [absnorm_canon hi ht.posix hcp, pathComponents_absPath ht.posix (plain_proper hp), hstep]
    constructor
    · rintro ⟨_, _, h | h | h⟩
      · exact absurd h.1 hroot
      · exact absurd h.2.1 hd
      · exact h.2.2
    · intro h
      exact ⟨absPath_ne_nil, validRel_plain ht.posix _ hp, Or.inr (Or.inr ⟨hroot, hd, h⟩)⟩
  have hB : ∀ {x}, s.resolve (absPath s.cfg.sep L) true ck = .ok x ↔
      ∃ cs, s.resolveComps FS.maxLinks L = .ok cs ∧ s.leads ck cs x := by
    intro x
    refine (resolveG_ok hi ht s.rc).trans ?_
    rw [absnorm_canon hi ht.posix hcq, pathComponents_absPath ht.posix (plain_proper hq)]
    by_cases e : absPath s.cfg.sep L = s.cfg.root
    · have e0 : L = [] := absPath_inj ht.posix (plain_proper hq) (by simp) (by rw [e, absPath_nil])
      have hr : s.resolveComps FS.maxLinks [] = .ok [] := by rw [resolveComps_eq]; rfl
      subst e0
      rw [hr]
      constructor
      · rintro ⟨_, _, h | h | h⟩
        · exact ⟨[], rfl, Or.inr ⟨Or.inl rfl, by rw [h.2]; rfl, trivial, by simp [walked]⟩⟩
        · exact absurd e h.1
        · exact absurd e h.1
      · rintro ⟨cs, h1, h2⟩
        injection h1 with h1; subst h1
        refine ⟨absPath_ne_nil, validRel_plain ht.posix _ hq, Or.inl ⟨e, ?_⟩⟩
        rcases h2 with ⟨h2, _⟩ | ⟨_, h2, _⟩
        · exact absurd rfl h2
        · simp only [walk, Option.some.injEq] at h2; exact h2.symm
    · constructor
      · rintro ⟨_, _, h | h | h⟩
        · exact absurd h.1 e
        · exact absurd h.2.1 hd'
        · exact h.2.2
      · intro h
        exact ⟨absPath_ne_nil, validRel_plain ht.posix _ hq, Or.inr (Or.inr ⟨e, hd', h⟩)⟩
  constructor
  · intro h
    obtain ⟨cs, h1, h2⟩ := hA.mp h
    obtain ⟨m, hm, h3, h4⟩ := ((resolveComps_spec ht.cs 40 L).1 cs).mp h1
    exact hB.mpr ⟨cs, ((resolveComps_spec ht.cs FS.maxLinks L).1 cs).mpr ⟨m, by unfold FS.maxLinks; omega, h3, h4⟩, h2⟩
  · intro h
    obtain ⟨cs, h1, h2⟩ := hB.mp h
    obtain ⟨m, hm, h3, h4⟩ := ((resolveComps_spec ht.cs FS.maxLinks L).1 cs).mp h1
    by_cases hm' : m ≤ 40
    · exact Or.inl (hA.mpr ⟨cs, ((resolveComps_spec ht.cs 40 L).1 cs).mpr ⟨m, hm', h3, h4⟩, h2⟩)
    · right
      have hm2 : m = 40 + 1 := by unfold FS.maxLinks at hm; omega
      rw [hm2] at h3
      have he := ((resolveComps_spec ht.cs 40 L).2 (.os .ELOOP)).mpr ⟨rfl, cs, h3⟩
      show s.resolveG s.rc _ ck = _
      unfold FS.resolveG FS.resolvePathG
      rw [if_neg absPath_ne_nil]
      simp only [validRel_plain ht.posix _ hp, originalPath_tree ht.cs, absnorm_canon hi ht.posix hcp, isRootPath_tree ht, hd, if_false,
        pathComponents_absPath ht.posix (plain_proper hp), hstep, he, bind, Except.bind]
      simp [hroot]

theorem makeStringPath_slash {k : Cfg} (h : k.sep = '/') (p : Str) : k.makeStringPath p = p := by
  unfold Cfg.makeStringPath replaceC; rw [h]
  have : (fun x : Char => if x = '/' then '/' else x) = id := by funext x; simp only [id]; split <;> simp_all
  rw [this, List.map_id]

/-- C19: after a successful `symlink(target, p)`, `readlink(p)` is exactly the target and `lstat(p)` finds the new link
itself.  `p` is an absolute path without links whose directory may be read; the target can be encoded. -/
theorem readlink_symlink {s s' : FS} (hs : Reachable s) (ht : s.cfg.Tree) (hm : s.cfg.isMac = false) (hw : Within s)
    (hmay : ∀ q ld nm d, Names s q ld nm d → mayRemove s d) (hsl : s.cfg.sep = '/')
    {names : List Str} {nm : Str} (hn : ∀ w ∈ names ++ [nm], Plain s.cfg.sep w) (hl : NoLink s.heap rootRef (names ++ [nm]))
    {d : Ref} (hr : s.resolve (absPath s.cfg.sep names) = .ok d) (hd : d ≠ devNullRef)
    (hread : (s.heap d).mode &&& PERM_READ ≠ 0) {target : Str} (henc : s.cfg.dec (s.cfg.enc target) = target) {x : Ref}
    (h : createSymlink (absPath s.cfg.sep (names ++ [nm])) target false s = (.ok x, s')) :
    s'.readlink (absPath s.cfg.sep (names ++ [nm])) = .ok target ∧
    s'.resolve (absPath s.cfg.sep (names ++ [nm])) false = .ok x ∧ (s'.heap x).isLnk = true ∧ s.next ≤ x := by
  have hi := reachable_inv hs
  have hi' : Inv s' := by
    have := createSymlink_pres (absPath s.cfg.sep (names ++ [nm])) target false s hi
    unfold wp at this; rw [h] at this; exact this.inv
  have hnl : ∀ w ∈ names, Plain s.cfg.sep w := fun w hw => hn w (by simp [hw])
  rcases symlink_effect hs ht hm hw (absPath s.cfg.sep (names ++ [nm])) target hmay with ⟨e, s2, h1, _⟩ | ⟨s2, q, ld, nm', d', x', h1, h2, h3, h4, h5, h6, h7, h8, h9⟩
  · rw [h] at h1; injection h1 with h1; simp at h1
  rw [h] at h1; injection h1 with h0 h1; injection h0 with h0; subst h0; subst h1
  rw [makeStringPath_slash hsl] at h2 h3
  have hq : q = absPath s.cfg.sep (names ++ [nm]) := by
    rcases h2 with h2 | h2
    · exact h2
    · have := resolvePath_plain hi ht s.rc hn hl
      have h2' : s.resolvePathG s.rc (absPath s.cfg.sep (names ++ [nm])) = .ok q := h2
      rw [this] at h2'; injection h2' with h2'; exact h2'.symm
  subst hq
  obtain ⟨⟨ns, h10, h11, h12, h13⟩, h14, h15⟩ := h3
  rw [absnorm_canon hi ht.posix (absCanon_names (plain_proper hn))] at h12
  have hpr : ∀ w ∈ ns ++ [nm'], Proper s.cfg.sep w := by
    intro w hw; rcases List.mem_append.mp hw with hw | hw
    · exact h10 w hw
    · simp at hw; subst hw; exact h11
  have heq := absPath_inj ht.posix (plain_proper hn) hpr h12
  have heq1 := List.append_inj' heq rfl
  obtain ⟨rfl, hnm⟩ := heq1
  simp only [List.cons.injEq, and_true] at hnm
  subst hnm
  rw [resolve_weaken hi ht hr] at h13; injection h13 with h13; subst h13
  have hcfg : s'.cfg = s.cfg := by rw [h4.rest]
  have hal : alookup nm (s'.heap d).entries = some x := by
    have := h4.name.here
    obtain ⟨y, hy, hal⟩ := walk_snoc this
    rw [h4.name.elsewhere ld (fun e => by have := congrArg List.length e; simp at this), h15] at hy
    injection hy with hy; subst hy; exact hal
  have hlr : s'.lresolve (absPath s.cfg.sep (names ++ [nm])) = .ok x := by
    have := (lresolve_tree (s := s') (by rw [hcfg]; exact ht) s'.rc (names := names) (w := nm) (x := x)
      (by rw [hcfg]; exact h10) (by rw [hcfg]; exact h11)).mpr ⟨d, by rw [hcfg]; exact h4.resolves _ true true d hr hd,
        isDir_of_entry (alookup_some hal), by rw [h4.dir]; exact hread, hal⟩
    rw [hcfg] at this; exact this
  refine ⟨?_, hlr, h7, h4.fresh⟩
  unfold FS.readlink
  rw [hlr]
  have hmode : ifmt (s'.heap x).mode = S_IFLNK := by unfold Obj.isLnk at h7; simpa using h7
  have hes : s'.cfg.endsWithSep (absPath s.cfg.sep (names ++ [nm])) = false := by
    rw [hcfg]; exact absCanon_not_endsWithSep ht.posix (absCanon_names (plain_proper hn))
  simp only [bind, Except.bind, hmode, ne_eq, not_true_eq_false, if_false, hes, Bool.false_eq_true, h9]
  rw [makeStringPath_slash hsl, henc]

/-- The hypotheses of `symlink_followed` are met by `/l` of the demo filesystem, a link to `a/f`. -/
example : FirstLink demo.heap ([] ++ ['l'] :: []) [] ['l'] 4 [] ∧ (∀ w ∈ [] ++ ['l'] :: [], Plain demo.cfg.sep w) ∧
    (∀ w ∈ demo.cfg.pathComponents (demo.followLink ([] ++ [['l']]) 4) ++ [], Plain demo.cfg.sep w) ∧
    (loc demo.cfg.sep [].reverse (demo.linkTarget (demo.heap 4))).reverse = [['a'], ['f']] := by
  refine ⟨⟨rfl, trivial, by decide +kernel, by decide +kernel⟩, by rw [demo_sep]; decide, ?_, by decide +kernel⟩
  have h : demo.cfg.pathComponents (demo.followLink ([] ++ [['l']]) 4) ++ [] = [['a'], ['f']] := by decide +kernel
  rw [h, demo_sep]; decide

/-- The hypotheses of `readlink_symlink` are met by `symlink("d", "/a/x")` in the demo filesystem. -/
example : NoLink demo.heap rootRef ([['a']] ++ [['x']]) ∧ demo.resolve (absPath demo.cfg.sep [['a']]) = .ok 2 ∧
    (demo.heap 2).mode &&& PERM_READ ≠ 0 ∧ demo.cfg.dec (demo.cfg.enc ['d']) = ['d'] ∧ demo.cfg.sep = '/' ∧
    (createSymlink (absPath demo.cfg.sep ([['a']] ++ [['x']])) ['d'] false demo).1 = .ok 6 := by
  refine ⟨?_, by decide +kernel, by decide +kernel, by decide +kernel, demo_sep, by decide +kernel⟩
  intro x hx
  have h : alookup ['a'] (demo.heap rootRef).entries = some 2 := by decide +kernel
  rw [h] at hx
  cases hx
  refine ⟨by decide +kernel, fun y hy => ?_⟩
  have h : alookup ['x'] (demo.heap 2).entries = none := by decide +kernel
  rw [h] at hy
  cases hy

end Verif
