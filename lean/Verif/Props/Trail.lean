import Verif.Props.Query
import Verif.Props.Descr
import Verif.Props.Excl
/-!
# C61: a path ending with a separator names only directories
-/

namespace Verif
open Py Spec Cfg

/-- A path not ending with a separator. -/
structure Bare (k : Cfg) (p : Str) : Prop where
  ne : p ≠ []
  last : ∀ r, p ≠ r ++ [k.sep]

section
variable {s : FS}

theorem loc_trail {c : Char} (start : List Str) {p : Str} (hp : p ≠ []) : loc c start (p ++ [c]) = loc c start p := by
  rw [loc_append_sep start p [] (by simp [isAbs]), if_neg hp]
  simp [loc, split, step, isAbs]

theorem absnorm_trail (hi : Inv s) (hp : s.cfg.Posix) {p : Str} (h : p ≠ []) : s.absnorm (p ++ [s.cfg.sep]) = s.absnorm p := by
  obtain ⟨names, hn, e⟩ := hi.absnorm hp p
  rw [e]
  refine absnorm_of_loc hi hp hn (by simp) ?_
  rw [loc_trail _ h]
  exact loc_of_absnorm hi hp hn h e

theorem validRel_trail (hp : s.cfg.Posix) (k : FS.Rec) (p : Str) : s.validRelG k (p ++ [s.cfg.sep]) = s.validRelG k p := by
  unfold FS.validRelG
  rw [if_neg (by simp [hp.win]), if_neg (by simp [hp.win])]
  have e : cutAtLast (s.cfg.sep :: dotdot) (p ++ [s.cfg.sep]) = cutAtLast (s.cfg.sep :: dotdot) p := by
    refine cutAtLast_append _ (by simp) ?_ p fun u v _ hv => isPrefix_dd hp.sepDot hv ?_
    · simp [cutAtLast, dotdot, List.isPrefixOf]
    · intro x r e; cases e; exact hp.sepDot
  rw [validLoop_fuel s k p.length (p.length + 1) p (by omega) (by omega),
    show (p ++ [s.cfg.sep]).length = p.length + 1 by simp]
  simp only [FS.validLoop, e]

theorem resolvePath_trail (hi : Inv s) (ht : s.cfg.Tree) (k : FS.Rec) {p : Str} (h : p ≠ []) :
    s.resolvePathG k (p ++ [s.cfg.sep]) = s.resolvePathG k p := by
  unfold FS.resolvePathG
  rw [if_neg (by simp), if_neg h, validRel_trail ht.posix, originalPath_tree ht.cs, originalPath_tree ht.cs,
    absnorm_trail hi ht.posix h]

theorem resolve_trail (hi : Inv s) (ht : s.cfg.Tree) (c : Bool) {p : Str} (h : p ≠ []) :
    s.resolve (p ++ [s.cfg.sep]) true c = s.resolve p true c := by
  unfold FS.resolve FS.resolveFG
  simp only [if_true]
  unfold FS.resolveG
  rw [resolvePath_trail hi ht _ h]

theorem endsWithSep_trail (hp : s.cfg.Posix) {p : Str} (h : p ≠ []) : s.cfg.endsWithSep (p ++ [s.cfg.sep]) = true := by
  unfold Cfg.endsWithSep
  rw [hp.altsep]
  simp [endsWithC, h]

theorem endsWithSep_bare (hp : s.cfg.Posix) {p : Str} (h : Bare s.cfg p) : s.cfg.endsWithSep p = false := by
  unfold Cfg.endsWithSep
  rw [hp.altsep]
  rcases List.eq_nil_or_concat p with e | ⟨r, x, e⟩
  · exact absurd e h.ne
  · rw [List.concat_eq_append] at e
    have : x ≠ s.cfg.sep := fun g => h.last r (by rw [e, g])
    simp [e, endsWithC, this]

theorem stripTrailing_trail (hp : s.cfg.Posix) {p : Str} (h : Bare s.cfg p) : s.cfg.stripTrailing (p ++ [s.cfg.sep]) = p := by
  unfold Cfg.stripTrailing
  rw [show (p ++ [s.cfg.sep]).length = p.length + 1 by simp, Cfg.stripLoop, if_pos (endsWithSep_trail hp h.ne)]
  rw [List.dropLast_concat]
  cases hl : p.length with
  | zero => rfl
  | succ n => rw [Cfg.stripLoop, if_neg (by simp [endsWithSep_bare hp h])]

theorem isLnk_not_dirMode {o : Obj} (h : o.isLnk = true) : o.isDirMode = false := by
  unfold Obj.isLnk at h
  unfold Obj.isDirMode
  simp only [beq_iff_eq] at h
  rw [h]; decide

/-- the error for the trailing separator -/
theorem raiseForSep_trail (hi : Inv s) (ht : s.cfg.Tree) (hm : s.cfg.isMac = false) {p : Str} (h : p ≠ []) {r : Ref} {f m : Bool}
    (hr : s.resolve p = .ok r) : s.raiseForSep (p ++ [s.cfg.sep]) r f m =
      if (s.heap r).isDirMode then .ok () else .error (.os .ENOTDIR) := by
  unfold FS.raiseForSep FS.raiseForSepG
  rw [if_pos (endsWithSep_trail ht.posix h)]
  have hrr : s.resolveG s.rc (p ++ [s.cfg.sep]) true = .ok r := by
    have := resolve_trail hi ht true h
    rw [hr] at this
    exact this
  simp only [ht.posix.win, hm, Bool.false_eq_true, if_false, Bool.false_and, hrr, Bool.or_false, ite_self]
  cases (s.heap r).isDirMode <;> cases (s.heap r).isLnk <;> rfl

/-- C61: `stat` of a path with a trailing separator is `stat` of the path if that is a directory, and otherwise fails with ENOTDIR. -/
theorem stat_trailing (hs : Reachable s) (ht : s.cfg.Tree) (hm : s.cfg.isMac = false) (hrt : s.isRoot = true) {p : Str} (h : Bare s.cfg p) {r : Ref}
    (hr : s.resolve p = .ok r) (hr' : s.resolve p true false = .ok r) :
    s.stat (p ++ [s.cfg.sep]) = if (s.heap r).isDirMode then s.stat p else .error (.os .ENOTDIR) := by
  have hi := reachable_inv hs
  unfold FS.stat
  rw [resolve_trail hi ht false h.ne, hr']
  simp only [bind, Except.bind, hrt, Bool.not_true, Bool.false_eq_true, if_false, pure, Except.pure]
  rw [raiseForSep_trail hi ht hm h.ne hr]
  have e : s.raiseForSep p r true false = .ok () := by
    unfold FS.raiseForSep FS.raiseForSepG; rw [endsWithSep_bare ht.posix h]; rfl
  rw [e]
  cases (s.heap r).isDirMode <;> rfl

/-- C61: what fails without trailing separator fails with it, with the same error. -/
theorem stat_trailing_missing (hs : Reachable s) (ht : s.cfg.Tree) {p : Str} (h : Bare s.cfg p) {e : Err}
    (hr : s.resolve p true false = .error e) : s.stat (p ++ [s.cfg.sep]) = .error e ∧ s.stat p = .error e := by
  have hi := reachable_inv hs
  unfold FS.stat
  rw [resolve_trail hi ht false h.ne, hr]
  exact ⟨rfl, rfl⟩

/-- C61: `os.path.isfile` and `os.path.isdir`. -/
theorem isfile_trailing (hs : Reachable s) (ht : s.cfg.Tree) (hm : s.cfg.isMac = false) {p : Str} (h : Bare s.cfg p) {r : Ref}
    (hr : s.resolve p = .ok r) :
    s.isFile (p ++ [s.cfg.sep]) = .ok false ∧ s.isDir (p ++ [s.cfg.sep]) = .ok (s.heap r).isDirMode ∧ s.isDir p = .ok (s.heap r).isDirMode := by
  have hi := reachable_inv hs
  have e1 : s.resolveFG s.rc (p ++ [s.cfg.sep]) true true = .ok r := by
    rw [← hr]; exact resolve_trail hi ht true h.ne
  have e2 : s.resolveFG s.rc p true true = .ok r := hr
  have e3 := raiseForSep_trail hi ht hm h.ne (f := true) (m := false) hr
  have e4 : s.raiseForSepG s.rc p r true false = .ok () := by unfold FS.raiseForSepG; rw [endsWithSep_bare ht.posix h]; rfl
  change s.raiseForSepG s.rc _ _ _ _ = _ at e3
  unfold FS.isFile FS.isFileG FS.isDir FS.isDirG FS.isOfTypeG
  simp only [e1, e2, bind, Except.bind, Bool.not_true, e3, e4, pure, Except.pure]
  cases hd : (s.heap r).isDirMode with
  | false =>
    refine ⟨rfl, rfl, ?_⟩
    rw [Obj.isDirMode] at hd
    simp only [hd]
  | true =>
    rw [Obj.isDirMode] at hd
    simp only [if_true, hd, and_true]
    rw [beq_iff_eq] at hd
    rw [hd]; decide

/-- C61: `os.path.getsize` -/
theorem getsize_trailing (hs : Reachable s) (ht : s.cfg.Tree) {p : Str} (h : Bare s.cfg p) {r : Ref} (hr : s.resolve p = .ok r) :
    s.getsize (p ++ [s.cfg.sep]) = if (s.heap r).isDirMode then s.getsize p else .error (.os .ENOTDIR) := by
  have hi := reachable_inv hs
  unfold FS.getsize
  rw [resolve_trail hi ht true h.ne, hr]
  simp only [bind, Except.bind, endsWithSep_trail ht.posix h.ne, endsWithSep_bare ht.posix h, ht.posix.win]
  cases (s.heap r).isDirMode <;> rfl

/-- C61: `os.listdir` -/
theorem listdir_trailing (hs : Reachable s) (ht : s.cfg.Tree) {p : Str} (h : Bare s.cfg p) :
    s.listdir (p ++ [s.cfg.sep]) = s.listdir p := by
  unfold FS.listdir FS.resolvePath
  rw [resolvePath_trail (reachable_inv hs) ht _ h.ne]

/-- C61: `os.path.exists` is false for a regular file with a trailing separator and unchanged otherwise. -/
theorem exists_trailing (hs : Reachable s) (ht : s.cfg.Tree) {p : Str} (h : Bare s.cfg p) (hd : p ≠ s.devName) (hd' : p ++ [s.cfg.sep] ≠ s.devName)
    {r : Ref} (hr : s.resolve p = .ok r) :
    s.exists_ (p ++ [s.cfg.sep]) = if (s.heap r).isRegMode then .ok false else s.exists_ p := by
  have hi := reachable_inv hs
  have e2 : s.resolveFG s.rc p true true = .ok r := hr
  have e4 : s.raiseForSepG s.rc p r true false = .ok () := by unfold FS.raiseForSepG; rw [endsWithSep_bare ht.posix h]; rfl
  have hf : s.isFileG s.rc p = .ok (s.heap r).isRegMode := by
    unfold FS.isFileG FS.isOfTypeG
    simp only [e2, bind, Except.bind, Bool.not_true, e4, pure, Except.pure]
    rfl
  have g1 : s.isFileSepG s.rc (p ++ [s.cfg.sep]) = .ok (s.heap r).isRegMode := by
    unfold FS.isFileSepG; rw [if_pos (endsWithSep_trail ht.posix h.ne), stripTrailing_trail ht.posix h, hf]
  have g2 : s.isFileSepG s.rc p = .ok false := by
    unfold FS.isFileSepG; rw [if_neg (by simp [endsWithSep_bare ht.posix h])]
  unfold FS.exists_ FS.existsG
  rw [if_neg (by simp), if_neg hd', if_neg h.ne, if_neg hd, g1, g2]
  simp only [bind, Except.bind, pure, Except.pure, Bool.false_eq_true, if_false]
  rw [resolvePath_trail hi ht _ h.ne]
  cases (s.heap r).isRegMode <;> rfl

end

section
variable {s : FS} (hs : Reachable s) (ht : s.cfg.Tree) (hg : Genuine s) (hrd : Readable s) {names : List Str} {nm : Str} {d e : Ref}
  (h : Spot s names nm d) (he : alookup nm (s.heap d).entries = some e)
include hs ht hg hrd h he

theorem spot_bare : Bare s.cfg (absPath s.cfg.sep (names ++ [nm])) := by
  have hcan := absCanon_names (plain_proper h.plain)
  refine ⟨absPath_ne_nil, fun r g => ?_⟩
  have := absCanon_not_endsWithSep ht.posix hcan
  rw [g] at this
  by_cases hr : r = []
  · rw [hr] at g
    exact absPath_snoc_ne_root (fun w hw => (h.plain w (by simp [hw])).1) (h.plain nm (by simp)).1 g
  · rw [endsWithSep_trail ht.posix hr] at this
    simp at this

/-- C61: `os.remove` never removes an entry given with a trailing separator: EISDIR for a directory, ENOTDIR for
everything else (files, links to files or directories, broken links). -/
theorem remove_trailing (hm : s.cfg.isMac = false) :
    remove (absPath s.cfg.sep (names ++ [nm]) ++ [s.cfg.sep]) s =
      (.error (.os (if (s.heap e).isDirMode then .EISDIR else .ENOTDIR)), s) := by
  have hi := reachable_inv hs
  have hb := spot_bare hs ht hg hrd h he
  have hcan := absCanon_names (plain_proper h.plain)
  have hl := spot_isLink hi ht hg hrd h
  rw [he] at hl
  dsimp only at hl
  have hlr := spot_lresolve hi ht hg hrd h he
  have key : s.removeCheckPath (absPath s.cfg.sep (names ++ [nm]) ++ [s.cfg.sep]) =
      .error (.os (if (s.heap e).isDirMode then .EISDIR else .ENOTDIR)) := by
    unfold FS.removeCheckPath
    rw [absnorm_trail hi ht.posix hb.ne, absnorm_canon hi ht.posix hcan]
    dsimp only
    rw [if_pos (endsWithSep_trail ht.posix hb.ne)]
    unfold FS.brokenLinkSep
    rw [hl]
    cases hk : (s.heap e).isLnk with
    | true =>
      have hnd : (s.heap e).isDirMode = false := isLnk_not_dirMode hk
      rw [hnd]
      have hk2 : ifmt (s.heap e).mode = S_IFLNK := by simpa [Obj.isLnk] using hk
      rcases spot_exists hi ht hg hrd h with hex | ⟨hex, x, hx⟩
      · simp [hex, bind, Except.bind, hm, ht.posix.win]
      · simp only [hex, bind, Except.bind, Bool.not_true, Bool.false_eq_true, if_false, if_true, pure, Except.pure, hx false, hlr, hk2]
        have hrs := raiseForSep_trail hi ht hm hb.ne (f := true) (m := false) (hx true)
        rw [hrs]
        cases hxd : (s.heap x).isDirMode with
        | true =>
          have : ifmt (s.heap x).mode = S_IFDIR := by simpa [Obj.isDirMode] using hxd
          rw [if_pos this]
          simp [endsWithC, hm, ht.posix.win]
        | false =>
          have : ifmt (s.heap x).mode ≠ S_IFDIR := by simpa [Obj.isDirMode] using hxd
          rw [if_neg this]
          rfl
    | false =>
      have hk2 : ifmt (s.heap e).mode ≠ S_IFLNK := by simpa [Obj.isLnk] using hk
      have hex : s.exists_ (absPath s.cfg.sep (names ++ [nm])) = .ok true := by
        have := exists_plain hi ht s.rc h.plain (spot_noLink hi ht hg hrd h (fun y hy => by rw [he] at hy; injection hy with hy; subst hy; exact hk)) h.dev'
        rw [spot_walk hi ht hg hrd h, he] at this
        exact this
      have hrs := raiseForSep_trail hi ht hm hb.ne (f := true) (m := false) (spot_resolve hi ht hg hrd h he hk true)
      simp only [hex, bind, Except.bind, Bool.not_true, Bool.false_eq_true, if_false, if_true, pure, Except.pure, spot_resolve hi ht hg hrd h he hk, hlr]
      rw [hrs]
      cases hxd : (s.heap e).isDirMode with
      | true =>
        have : ifmt (s.heap e).mode = S_IFDIR := by simpa [Obj.isDirMode] using hxd
        rw [if_pos this, if_pos hk2]
        simp [hm, ht.posix.win]
      | false =>
        have : ifmt (s.heap e).mode ≠ S_IFDIR := by simpa [Obj.isDirMode] using hxd
        rw [if_neg this]
        rfl
  unfold remove
  rw [M.bind_eq, rd_eq (f := (·.removeCheckPath _)) key]

/-- C61: `open` of a regular file given with a trailing separator fails and changes nothing: ENOENT in a mode that needs the
file to exist, EISDIR otherwise. -/
theorem open_trailing (hm : s.cfg.isMac = false) (hk : (s.heap e).isRegMode = true)
    (hdv : absPath s.cfg.sep (names ++ [nm]) ++ [s.cfg.sep] ≠ s.devName) (md : OpenModes) (b : Option Nat) (raw del : Bool) :
    openPath (absPath s.cfg.sep (names ++ [nm]) ++ [s.cfg.sep]) md b raw del s =
      (.error (.os (if md.mustExist then .ENOENT else .EISDIR)), s) := by
  have hi := reachable_inv hs
  have hb := spot_bare hs ht hg hrd h he
  have hr : ifmt (s.heap e).mode = S_IFREG := by simpa [Obj.isRegMode] using hk
  have hnl : (s.heap e).isLnk = false := by unfold Obj.isLnk; rw [hr]; decide
  have hres := spot_resolve hi ht hg hrd h he hnl true
  have hno := spot_noLink hi ht hg hrd h (fun y hy => by rw [he] at hy; injection hy with hy; subst hy; exact hnl)
  have hrp := resolvePath_plain hi ht s.rc h.plain hno
  have hex := exists_trailing hs ht hb h.dev' hdv hres
  rw [if_pos hk] at hex
  have hlink : s.isLink (absPath s.cfg.sep (names ++ [nm]) ++ [s.cfg.sep]) = .ok false := by
    have hlr : s.lresolveG s.rc (absPath s.cfg.sep (names ++ [nm]) ++ [s.cfg.sep]) = .ok e := by
      have h1 : s.lresolveG s.rc (absPath s.cfg.sep (names ++ [nm])) = .ok e := spot_lresolve hi ht hg hrd h he
      have hcan := absCanon_names (plain_proper h.plain)
      have hroot : absPath s.cfg.sep (names ++ [nm]) ≠ s.cfg.root :=
        absPath_snoc_ne_root (fun w hw => (h.plain w (by simp [hw])).1) (h.plain nm (by simp)).1
      have hroot' : absPath s.cfg.sep (names ++ [nm]) ++ [s.cfg.sep] ≠ s.cfg.root := by
        intro g
        have := congrArg List.length g
        simp only [List.length_append, Cfg.root, List.length_cons, List.length_nil] at this
        exact hb.ne (List.eq_nil_of_length_eq_zero (by omega))
      have e1 : s.lparent (absPath s.cfg.sep (names ++ [nm]) ++ [s.cfg.sep]) = s.lparent (absPath s.cfg.sep (names ++ [nm])) := by
        unfold FS.lparent
        rw [stripTrailing_trail ht.posix hb, stripTrailing_canon ht.posix hcan]
      unfold FS.lresolveG at h1 ⊢
      rw [if_neg hb.ne, if_neg hroot] at h1
      rw [if_neg (by simp), if_neg hroot', e1]
      exact h1
    have hrs := raiseForSep_trail hi ht hm hb.ne (f := true) (m := true) hres
    unfold FS.raiseForSep at hrs
    unfold FS.isLink FS.isLinkG FS.isOfTypeG FS.resolveFG
    have hnd : (s.heap e).isDirMode = false := by unfold Obj.isDirMode; rw [hr]; decide
    simp only [Bool.false_eq_true, if_false, hlr, bind, Except.bind, Bool.not_false, hrs, hnd]
    rfl
  have harg : s.fileArg (absPath s.cfg.sep (names ++ [nm]) ++ [s.cfg.sep]) = .ok (none, absPath s.cfg.sep (names ++ [nm])) := by
    unfold FS.fileArg FS.resolvePath
    rw [if_neg hdv, resolvePath_trail hi ht s.rc hb.ne, hrp]
    simp only [bind, Except.bind, hex, Bool.false_eq_true, if_false]
  have hobj : openObject none (absPath s.cfg.sep (names ++ [nm]) ++ [s.cfg.sep]) (absPath s.cfg.sep (names ++ [nm])) md s =
      (.error (.os (if md.mustExist then .ENOENT else .EISDIR)), s) := by
    have hin : initFileObject none (absPath s.cfg.sep (names ++ [nm]) ++ [s.cfg.sep]) (absPath s.cfg.sep (names ++ [nm])) md s =
        (.error (.os (if md.mustExist then .ENOENT else .EISDIR)), s) := by
      unfold initFileObject
      cases md.mustExist with
      | true => rfl
      | false =>
        simp only [Bool.false_eq_true, if_false, M.bind_eq, rd_eq (f := (·.isLink _)) hlink, M.pure, M.get,
          endsWithSep_trail ht.posix hb.ne, if_true, ht.posix.win, hm]
        rfl
    unfold openObject
    cases md.mustNotExist with
    | true =>
      simp only [if_true, Option.isSome_none, Bool.false_eq_true, if_false, M.bind_eq, rd_eq (f := (·.isLink _)) hlink, M.pure, M.get, Bool.false_and, hin]
    | false =>
      simp only [if_true, Option.isSome_none, Bool.false_eq_true, if_false, M.bind_eq, rd_eq (f := (·.isLink _)) hlink, M.pure, M.get, Bool.false_and, hin]
  unfold openPath
  rw [M.bind_eq, rd_eq (f := (·.fileArg _)) harg]
  dsimp only
  rw [M.bind_eq, hobj]

end

/-- The hypotheses are met: `/a/f/` in the demo filesystem (a regular file) and `/a/d/` (a directory). -/
example : (Reachable demo ∧ demo.cfg.Tree ∧ Genuine demo ∧ Readable demo ∧ demo.cfg.isMac = false ∧ demo.isRoot = true) ∧
    Spot demo [['a']] ['f'] 2 ∧ alookup ['f'] (demo.heap 2).entries = some 3 ∧ (demo.heap 3).isRegMode = true ∧
    demo.resolve ['/', 'a', '/', 'f'] = .ok 3 ∧ demo.resolve ['/', 'a', '/', 'f'] true false = .ok 3 ∧
    demo.stat ['/', 'a', '/', 'f', '/'] = .error (.os .ENOTDIR) ∧ demo.exists_ ['/', 'a', '/', 'f', '/'] = .ok false ∧
    (remove ['/', 'l', '/'] demo).1 = .error (.os .ENOTDIR) ∧
    demo.resolve ['/', 'a', '/', 'd'] true false = .ok 5 ∧ (demo.heap 5).isDirMode = true ∧ demo.isDir ['/', 'a', '/', 'd', '/'] = .ok true ∧
    ['/', 'a', '/', 'f'] ≠ demo.devName ∧ ['/', 'a', '/', 'f', '/'] ≠ demo.devName :=
  ⟨⟨demo_reachable, demo_tree, demo_genuine, Or.inl demo_root, demo_mac, demo_root⟩, demo_spot _ (by decide) (by decide +kernel), by decide +kernel,
    by decide +kernel, by decide +kernel, by decide +kernel, by decide +kernel, by decide +kernel, by decide +kernel, by decide +kernel,
    by decide +kernel, by decide +kernel, by decide +kernel, by decide +kernel⟩

example : Bare demo.cfg ['/', 'a', '/', 'f'] :=
  ⟨by simp, fun r g => by
    rw [demo_sep] at g
    have := congrArg List.getLast? g
    simp at this⟩

/-- Two deviations from POSIX: `exists` of a FIFO with a trailing separator is true, and `lstat` of a link to a directory with a
trailing separator describes the link, not the directory. -/
theorem trailing_counterexample : ∃ s, Reachable s ∧ s.cfg.Tree ∧ s.cfg.isMac = false ∧
    (s.exists_ ['/', 'p', '/'] = .ok true ∧ s.isDir ['/', 'p'] = .ok false ∧ s.stat ['/', 'p', '/'] = .error (.os .ENOTDIR)) ∧
    s.isDir ['/', 'k', '/'] = .ok true ∧ (s.stat ['/', 'k', '/'] false).map (fun st => ifmt st.mode) = .ok S_IFLNK :=
  ⟨runs (demoOps ++ [.mknod ['/', 'p'] (0o010600), .createSymlink ['/', 'k'] ['a'] false]) (initFS demoCfg 50 0 0 0o022 7 (some 1000)),
    ⟨_, _, _, _, _, _, _, _, rfl⟩, by rw [runs_cfg]; exact demoCfg_tree, by rw [runs_cfg]; rfl,
    ⟨by decide +kernel, by decide +kernel, by decide +kernel⟩, by decide +kernel, by decide +kernel⟩

end Verif
