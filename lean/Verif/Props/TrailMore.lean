import Verif.Props.Trail
/-!
# C61, continued: lstat, mknod and link of paths with a trailing separator
-/

namespace Verif
open Py Spec Cfg

section
variable {s : FS} (hs : Reachable s) (ht : s.cfg.Tree) (hg : Genuine s) (hrd : Readable s) {names : List Str} {nm : Str} {d : Ref}
  (h : Spot s names nm d)
include hs ht hg hrd h

omit hg hrd in
theorem spot_bare' : Bare s.cfg (absPath s.cfg.sep (names ++ [nm])) := by
  have hcan := absCanon_names (plain_proper h.plain)
  refine ⟨absPath_ne_nil, fun r g => ?_⟩
  have := absCanon_not_endsWithSep ht.posix hcan
  rw [g] at this
  by_cases hr : r = []
  · rw [hr] at g
    exact absPath_snoc_ne_root (fun w hw => (h.plain w (by simp [hw])).1) (h.plain nm (by simp)).1 g
  · rw [endsWithSep_trail ht.posix hr] at this
    simp at this

omit hg hrd in
theorem spot_lresolve_trail : s.lresolveG s.rc (absPath s.cfg.sep (names ++ [nm]) ++ [s.cfg.sep]) = s.lresolveG s.rc (absPath s.cfg.sep (names ++ [nm])) := by
  have hb := spot_bare' hs ht h
  have hcan := absCanon_names (plain_proper h.plain)
  have hroot : absPath s.cfg.sep (names ++ [nm]) ≠ s.cfg.root :=
    absPath_snoc_ne_root (fun w hw => (h.plain w (by simp [hw])).1) (h.plain nm (by simp)).1
  have hroot' : absPath s.cfg.sep (names ++ [nm]) ++ [s.cfg.sep] ≠ s.cfg.root := by
    intro g
    have := congrArg List.length g
    simp only [List.length_append, Cfg.root, List.length_cons, List.length_nil] at this
    exact hb.ne (List.eq_nil_of_length_eq_zero (by omega))
  have e1 : s.lparent (absPath s.cfg.sep (names ++ [nm]) ++ [s.cfg.sep]) = s.lparent (absPath s.cfg.sep (names ++ [nm])) := by
    unfold FS.lparent
    rw [stripTrailing_trail ht.posix hb, stripTrailing_canon ht.posix hcan]
  unfold FS.lresolveG
  rw [if_neg hb.ne, if_neg hroot, if_neg (by simp), if_neg hroot', e1]

/-- C61: `lstat` of a link given with a trailing separator follows the link to see whether it leads to a directory: it fails with
the error of following it if that fails, with ENOTDIR if it leads to something else, and else describes the link (not, as
POSIX has it, the directory).  On macOS only ENOENT is passed on: a link that cannot be followed for another reason is
described itself. -/
theorem lstat_trailing (hrt : s.isRoot = true) {e : Ref} (he : alookup nm (s.heap d).entries = some e) (hl : (s.heap e).isLnk = true) :
    s.stat (absPath s.cfg.sep (names ++ [nm]) ++ [s.cfg.sep]) false =
      match s.resolve (absPath s.cfg.sep (names ++ [nm])) with
      | .error x => if s.cfg.isMac = true ∧ x.isOS = true ∧ x ≠ .os .ENOENT then s.stat (absPath s.cfg.sep (names ++ [nm])) false else .error x
      | .ok r => if (s.heap r).isDirMode then s.stat (absPath s.cfg.sep (names ++ [nm])) false else .error (.os .ENOTDIR) := by
  have hi := reachable_inv hs
  have hb := spot_bare' hs ht h
  have hlr : s.lresolveG s.rc (absPath s.cfg.sep (names ++ [nm])) = .ok e := spot_lresolve hi ht hg hrd h he
  have hlr' := spot_lresolve_trail hs ht h
  have hst : s.stat (absPath s.cfg.sep (names ++ [nm])) false = .ok (s.statOf e) := by
    unfold FS.stat FS.resolve FS.resolveFG
    simp only [Bool.false_eq_true, if_false, hlr, bind, Except.bind, hrt, Bool.not_true, pure, Except.pure]
    have e1 : s.raiseForSep (absPath s.cfg.sep (names ++ [nm])) e false false = .ok () := by
      unfold FS.raiseForSep FS.raiseForSepG; rw [endsWithSep_bare ht.posix hb]; rfl
    rw [e1]
  rw [hst]
  unfold FS.stat
  rw [show s.resolve (absPath s.cfg.sep (names ++ [nm]) ++ [s.cfg.sep]) false false = .ok e from hlr'.trans hlr]
  simp only [bind, Except.bind, hrt, Bool.not_true, Bool.false_eq_true, if_false, pure, Except.pure]
  have hrr : s.resolveG s.rc (absPath s.cfg.sep (names ++ [nm]) ++ [s.cfg.sep]) true = s.resolve (absPath s.cfg.sep (names ++ [nm])) :=
    resolve_trail hi ht true hb.ne
  unfold FS.raiseForSep FS.raiseForSepG
  rw [if_pos (endsWithSep_trail ht.posix hb.ne), if_pos hl, hrr]
  cases s.resolve (absPath s.cfg.sep (names ++ [nm])) with
  | error x =>
    simp only [ht.posix.win, Bool.and_false, Bool.false_eq_true, if_false]
    by_cases hc : s.cfg.isMac = true ∧ x.isOS = true ∧ x ≠ .os .ENOENT
    · rw [if_pos hc, if_pos (by simp [hc.1, hc.2.1, hc.2.2])]
    · rw [if_neg hc, if_neg (by simpa [and_left_comm, and_assoc] using hc)]
  | ok r =>
    simp only [ht.posix.win, Bool.false_eq_true, if_false, Bool.and_false, Bool.not_false, Bool.true_or, if_true]
    cases (s.heap r).isDirMode <;> rfl

/-- C61: `os.mknod` of a path with a trailing separator makes nothing: EEXIST if there is something of that name, ENOENT
otherwise. -/
theorem mknod_trailing (hrt : s.isRoot = true) (mode : Nat) :
    mknod (absPath s.cfg.sep (names ++ [nm]) ++ [s.cfg.sep]) mode s =
      (.error (.os (if (alookup nm (s.heap d).entries).isSome then .EEXIST else .ENOENT)), s) := by
  have hi := reachable_inv hs
  have hb := spot_bare' hs ht h
  have hsp : s.cfg.splitpath (absPath s.cfg.sep (names ++ [nm]) ++ [s.cfg.sep]) = (absPath s.cfg.sep (names ++ [nm]), []) := by
    obtain ⟨n, h1, h2, h3⟩ := splitpath_shape ht.posix (absPath s.cfg.sep (names ++ [nm]) ++ [s.cfg.sep])
    generalize absPath s.cfg.sep (names ++ [nm]) = P at hb h1 h2 h3 ⊢
    generalize hq : s.cfg.splitpath (P ++ [s.cfg.sep]) = q at h1 h2 h3 ⊢
    obtain ⟨q1, q2⟩ := q
    dsimp only at h1 h2 h3
    have hq2 : q2 = [] := by
      rcases List.eq_nil_or_concat q2 with e | ⟨l, c, e⟩
      · exact e
      · rw [List.concat_eq_append] at e
        subst e
        have e := congrArg List.getLast? h1
        rw [← List.append_assoc] at e
        simp only [List.getLast?_append, List.getLast?_singleton, Option.some_or] at e
        injection e with e
        exact absurd (by simp [e]) h2
    subst hq2
    rw [List.append_nil] at h1
    have rep : ∀ m, List.replicate (m + 1) s.cfg.sep = List.replicate m s.cfg.sep ++ [s.cfg.sep] := fun m => List.replicate_succ'
    have cut : ∀ a b : Str, P ++ [s.cfg.sep] = a ++ (b ++ [s.cfg.sep]) → P = a ++ b := fun a b g => by
      rw [← List.append_assoc] at g; exact List.append_cancel_right g
    rcases h3 with ⟨rfl, rfl⟩ | rfl | ⟨⟨i, x, rfl, hx⟩, hn⟩
    · simp at h1
    · exfalso
      cases n with
      | zero => exact hb.ne (by simpa using h1)
      | succ m =>
        have := cut _ _ (rep m ▸ h1)
        cases m with
        | zero => exact hb.last [] (by simpa using this)
        | succ m' => rw [rep m', ← List.append_assoc] at this; exact hb.last _ this
    · cases n with
      | zero => omega
      | succ m =>
        have := cut _ _ (rep m ▸ h1)
        cases m with
        | zero => rw [this]; simp
        | succ m' => rw [rep m', ← List.append_assoc] at this; exact absurd this (hb.last _)
  have hex := spot_existsL hi ht hg hrd h
  unfold mknod
  rw [M.bind_eq]
  dsimp only [M.get]
  rw [if_neg (by rw [ht.posix.win]; simp), if_neg (by simp [hrt]), hsp]
  dsimp only
  rw [if_pos rfl, M.bind_eq, rd_eq (f := fun x => x.existsL _) hex]
  dsimp only
  cases (alookup nm (s.heap d).entries).isSome <;> rfl

/-- C61: `os.link` to a path with a trailing separator makes nothing: EEXIST if there is something of that name, ENOENT otherwise. -/
theorem link_trailing (hex' : s.exists_ (absPath s.cfg.sep names) = .ok true) {old : Str} (ho : Bare s.cfg old) (f : Bool) :
    link old (absPath s.cfg.sep (names ++ [nm]) ++ [s.cfg.sep]) f s =
      (.error (.os (if (alookup nm (s.heap d).entries).isSome then .EEXIST else .ENOENT)), s) := by
  have hi := reachable_inv hs
  have hb := spot_bare' hs ht h
  have hex := spot_existsL hi ht hg hrd h
  have hcan := absCanon_names (plain_proper h.plain)
  unfold link createLink
  rw [M.bind_eq]
  dsimp only [M.get]
  rw [absnorm_trail hi ht.posix hb.ne, absnorm_canon hi ht.posix hcan, M.bind_eq, rd_eq (f := fun x => x.existsL _) hex]
  dsimp only
  cases (alookup nm (s.heap d).entries).isSome with
  | true => rfl
  | false =>
    rw [if_neg (by simp), splitpath_absPath ht.posix (fun w hw => (h.plain w (by simp [hw])).1) (h.plain nm (by simp)).1]
    dsimp only
    rw [if_neg absPath_ne_nil]
    have e1 : linkParent (absPath s.cfg.sep names) false s = (.ok (), s) := by
      unfold linkParent
      rw [M.bind_eq, rd_eq (f := fun x => x.exists_ _) hex']
      rfl
    rw [M.bind_eq, e1]
    dsimp only
    unfold linkTail
    rw [M.bind_eq]
    dsimp only [M.get]
    rw [if_neg (by rw [endsWithSep_bare ht.posix ho]; simp), if_pos (by simp [ht.posix.win, endsWithSep_trail ht.posix hb.ne])]
    rfl
end

/-- the demo file system with a link `/a/k → d` to a directory, and a dangling link `/a/b → x` -/
def trailFS : FS := runs (demoOps ++ [.createSymlink ['/', 'a', '/', 'k'] ['d'] false, .createSymlink ['/', 'a', '/', 'b'] ['x'] false])
  (initFS demoCfg 50 0 0 0o022 7 (some 1000))

example : trailFS.stat ['/', 'a', '/', 'k', '/'] false = trailFS.stat ['/', 'a', '/', 'k'] false ∧
    (trailFS.stat ['/', 'a', '/', 'k'] false).isOk = true ∧
    trailFS.stat ['/', 'a', '/', 'b', '/'] false = .error (.os .ENOENT) ∧ (trailFS.stat ['/', 'a', '/', 'b'] false).isOk = true := by
  refine ⟨?_, ?_, ?_, ?_⟩ <;> decide +kernel
example : Spot demo [['a']] ['d'] 2 ∧ demo.exists_ (absPath demo.cfg.sep [['a']]) = .ok true :=
  ⟨demo_spot _ (by decide) (by decide +kernel), by decide +kernel⟩
example : ∃ e, Spot demo [] ['l'] rootRef ∧ alookup ['l'] (demo.heap rootRef).entries = some e ∧ (demo.heap e).isLnk = true :=
  ⟨4, ⟨by rw [demo_sep]; decide, trivial, by decide +kernel, by decide +kernel, rfl, by decide +kernel⟩, by decide +kernel, by decide +kernel⟩
end Verif
