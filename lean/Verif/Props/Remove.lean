import Verif.Props.Links
/-!
# C15, C16: exactly one name disappears
-/

namespace Verif
open Py Spec Cfg

namespace Spec
/-- The name `nm`, which belonged to the object `e`, was removed from the directory `d` at `ld`.  No other location
changes, no object changes but for the entries of `d` and the link counts of `d` and `e` (contents, mode, times, ...
of `e` stay: its other names still have them); no path leads to anything it did not lead to before. -/
structure EntryGone (s s' : FS) (d : Ref) (ld : List Str) (nm : Str) (e : Ref) : Prop where
  was : alookup nm (s.heap d).entries = some e
  name : NameGone s s' (ld ++ [nm])
  dir : s'.heap d = { s.heap d with content := .dir (aerase nm (s.heap d).entries), nlink := (s.heap d).nlink - 1 }
  object : s'.heap e = { s.heap e with nlink := (s.heap e).nlink - 1 }
  others : ∀ y, y ≠ d → y ≠ e → s'.heap y = s.heap y
  resolves : ∀ q f c y, s'.resolve q f c = .ok y → y ≠ devNullRef → s.resolve q f c = .ok y
  mounts : s'.mounts = released s e
  rest : s' = { s with heap := s'.heap, mounts := s'.mounts }
end Spec

theorem Removed.sub {s s' : FS} (hi : Inv s) {d e : Ref} {nm : Str} (h : Removed s s' d nm e) : Sub s' s where
  cfg := by rw [h.env]
  limit := by rw [h.env]
  cwd := by rw [h.env]
  uid := by rw [h.env]
  devName := by
    unfold FS.devName
    by_cases e1 : devNullRef = d
    · rw [e1, h.parent]
    · by_cases e2 : devNullRef = e
      · rw [e2, h.child]
      · rw [h.others _ e1 e2]
  ent x hx c y hy := by
    by_cases e1 : x = d
    · subst e1
      rw [h.parent] at hy
      have : alookup c (aerase nm (s.heap x).entries) = some y := hy
      rw [alookup_aerase] at this
      split at this
      · simp at this
      · exact this
    · by_cases e2 : x = e
      · subst e2; rw [h.child] at hy; exact hy
      · rw [h.others x e1 e2] at hy; exact hy
  mode x _ := by
    by_cases e1 : x = d
    · subst e1; rw [h.parent]
    · by_cases e2 : x = e
      · subst e2; rw [h.child]
      · rw [h.others x e1 e2]
  kind x _ := by
    by_cases e1 : x = d
    · subst e1; rw [h.parent, isDir_of_entry (alookup_mem h.was)]; rfl
    · by_cases e2 : x = e
      · subst e2; rw [h.child]; rfl
      · rw [h.others x e1 e2]
  target x _ hl := by
    have hcfg : s'.cfg = s.cfg := by rw [h.env]
    unfold FS.linkTarget
    rw [hcfg]
    by_cases e1 : x = d
    · subst e1
      have hd := isDir_of_entry (alookup_mem h.was)
      rw [h.parent]
      unfold Obj.isDir at hd
      cases hc : (s.heap x).content with
      | file b => rw [hc] at hd; simp at hd
      | dir es => rfl
    · by_cases e2 : x = e
      · subst e2; rw [h.child]
      · rw [h.others x e1 e2]

theorem Removed.entryGone {s s' : FS} (hi : Inv s) (hi' : Inv s') (ht : s.cfg.Tree) {d e : Ref} {nm : Str} (h : Removed s s' d nm e)
    {ld : List Str} (hld : walk s.heap rootRef ld = some d) (hm : s'.mounts = released s e) : EntryGone s s' d ld nm e := by
  refine ⟨h.was, h.nameGone hi hld, h.parent, h.child, h.others, ?_, hm, ?_⟩
  · intro q f c y hr hy
    cases f with
    | true => exact (h.sub hi).resolve hi' hi ht hr hy
    | false => exact (h.sub hi).lresolve hi' hi ht (p := q) hr
  · have he := h.env
    unfold Env at he
    rw [h.next, h.lastIno] at he
    exact he

/-- The path itself no longer leads anywhere. -/
theorem Removed.gone {s s' : FS} (hi : Inv s) (hi' : Inv s') (ht : s.cfg.Tree) {d e : Ref} {nm : Str} (h : Removed s s' d nm e)
    {p : Str} {ld : List Str} (hN : Names s p ld nm d) (y : Ref) : s'.lresolve (s.absnorm p) ≠ .ok y := by
  intro hy
  obtain ⟨⟨names, h1, h2, h3, h4⟩, h5, h6⟩ := hN
  have hcfg : s'.cfg = s.cfg := by rw [h.env]
  rw [h3, ← hcfg] at hy
  obtain ⟨r, h7, h8, _, h9⟩ := (lresolve_tree (s := s') (by rw [hcfg]; exact ht) s'.rc (by rw [hcfg]; exact h1) (by rw [hcfg]; exact h2)).mp hy
  have hr : s.resolve (absPath s.cfg.sep names) true true = .ok r := by
    rw [hcfg] at h7
    exact (h.sub hi).resolve hi' hi ht h7 (isDir_ne_devNull hi' h8)
  rw [resolve_weaken hi ht hr] at h4
  injection h4 with h4; subst h4
  rw [h.parent] at h9
  have : alookup nm (aerase nm (s.heap r).entries) = some y := h9
  rw [alookup_aerase, if_pos rfl] at this
  simp at this

/-- C15: `remove` (`unlink`) either fails and changes nothing at all, or removes exactly the name given by the path;
that name never belonged to a directory. -/
theorem remove_effect {s : FS} (hs : Reachable s) (ht : s.cfg.Tree) (hm : s.cfg.isMac = false) (hw : Within s) (hg : Genuine s)
    (hnd : NoDev s) {p : Str} (ho : Ordinary s p) :
    (∃ e, remove p s = (.error e, s)) ∨
    ∃ s' ld nm d e, remove p s = (.ok (), s') ∧ Names s p ld nm d ∧ EntryGone s s' d ld nm e ∧
      (s.heap e).isDir = false ∧ mayRemove s d ∧ ∀ c y, s'.resolve (s.absnorm p) false c ≠ .ok y := by
  have hi := reachable_inv hs
  have hk := remove_spec hi hw ht hg hnd hm ho
  have hp := remove_pres p s hi
  unfold wp at hk hp
  rcases hr : remove p s with ⟨r, s'⟩
  rw [hr] at hk hp
  simp only at hk hp
  rcases hk with ⟨e, h1, h2⟩ | ⟨ld, nm, d, e, h1, h2, h3, h4, h5, h6⟩
  · exact Or.inl ⟨e, by rw [h1, h2]⟩
  · refine Or.inr ⟨s', ld, nm, d, e, by rw [h1], h2, h3.entryGone hi hp.inv ht h2.loc h6, ?_, h5, fun c y => h3.gone hi hp.inv ht h2 y⟩
    rw [hg e (hi.g.entLt d h3.dLt _ (alookup_mem h3.was))]; exact h4

/-- C16: `rmdir` either fails and changes nothing at all, or removes exactly the name given by the path, which
belonged to an object without entries; if all directories may be read and no socket or block device is there, it was
an empty directory. -/
theorem rmdir_effect {s : FS} (hs : Reachable s) (ht : s.cfg.Tree) (hm : s.cfg.isMac = false) (hw : Within s) (hg : Genuine s)
    (hnd : NoDev s) {p : Str} (ho : Ordinary s p)
    (hread : ∀ x < s.next, (s.heap x).isDir = true → (s.heap x).mode &&& PERM_READ ≠ 0)
    (hbit : ∀ x < s.next, (s.heap x).mode &&& S_IFDIR ≠ 0 → (s.heap x).isDir = true) :
    (∃ e, rmdir p false s = (.error e, s)) ∨
    ∃ s' ld nm d e, rmdir p false s = (.ok (), s') ∧ Names s p ld nm d ∧ EntryGone s s' d ld nm e ∧
      (s.heap e).isDir = true ∧ (s.heap e).entries = [] ∧ mayRemove s d ∧ s'.mounts = s.mounts ∧
      ∀ c y, s'.resolve (s.absnorm p) false c ≠ .ok y := by
  have hi := reachable_inv hs
  have hk := rmdir_spec hi hw ht hg hnd hm ho
  have hp := rmdir_pres p false s hi
  unfold wp at hk hp
  rcases hr : rmdir p false s with ⟨r, s'⟩
  rw [hr] at hk hp
  simp only at hk hp
  rcases hk with ⟨e, h1, h2⟩ | ⟨ld, nm, d, e, h1, h2, h3, h5, h6, h7⟩
  · exact Or.inl ⟨e, by rw [h1, h2]⟩
  · have helt := hi.g.entLt d h3.dLt _ (alookup_mem h3.was)
    have hdir : (s.heap e).isDir = true ∧ (s.heap e).entries = [] := by
      rcases h7 with ⟨h7, h8⟩ | ⟨h7, h8, h9⟩
      · rw [isLink_true hi ht hread h2 h3.was h7] at h8; simp at h8
      · exact ⟨hbit e helt h8, hasContents_entries h9⟩
    refine Or.inr ⟨s', ld, nm, d, e, by rw [h1], h2, h3.entryGone hi hp.inv ht h2.loc h6, hdir.1, hdir.2, h5, ?_,
      fun c y => h3.gone hi hp.inv ht h2 y⟩
    rw [h6]; unfold released; rw [if_neg]; rintro ⟨_, h⟩; rw [hdir.1] at h; simp at h

/-! ## Which error -/

namespace Spec
/-- The absolute path `names/nm` of plain names, whose directory part leads without links to `d`, which may be read;
the null device is not involved. -/
structure Spot (s : FS) (names : List Str) (nm : Str) (d : Ref) : Prop where
  plain : ∀ w ∈ names ++ [nm], Plain s.cfg.sep w
  noLink : NoLink s.heap rootRef names
  dev : absPath s.cfg.sep names ≠ s.devName
  dev' : absPath s.cfg.sep (names ++ [nm]) ≠ s.devName
  here : walk s.heap rootRef names = some d
  read : (s.heap d).mode &&& PERM_READ ≠ 0
end Spec

section
variable {s : FS} (hi : Inv s) (ht : s.cfg.Tree) (hg : Genuine s) (hrd : Readable s) {names : List Str} {nm : Str} {d : Ref}
  (h : Spot s names nm d)
include hi ht hg hrd h

theorem spot_dir (c : Bool) : s.resolve (absPath s.cfg.sep names) true c = .ok d :=
  (resolve_plain hi ht s.rc (fun w hw => h.plain w (by simp [hw])) h.noLink h.dev).mpr
    ⟨h.here, through_genuine hi hg (root_lt hi) h.here, fun y hy => hrd.readable (walked_lt hi _ (root_lt hi) y hy) _⟩

theorem spot_lresolve {e : Ref} (he : alookup nm (s.heap d).entries = some e) :
    s.lresolve (absPath s.cfg.sep (names ++ [nm])) = .ok e :=
  (lresolve_tree ht s.rc (fun w hw => (h.plain w (by simp [hw])).1) (h.plain nm (by simp)).1).mpr
    ⟨d, spot_dir hi ht hg hrd h true, isDir_of_entry (alookup_mem he), h.read, he⟩

theorem spot_noLink (hl : ∀ e, alookup nm (s.heap d).entries = some e → (s.heap e).isLnk = false) :
    NoLink s.heap rootRef (names ++ [nm]) := by
  rw [noLink_append]; refine ⟨h.noLink, ?_⟩
  intro x hx; rw [h.here] at hx; injection hx with hx; subst hx
  intro y hy
  exact ⟨hl y hy, trivial⟩

theorem spot_walk : walk s.heap rootRef (names ++ [nm]) = alookup nm (s.heap d).entries := by
  rw [walk_append, h.here]
  simp only [Option.bind_some, walk]
  cases alookup nm (s.heap d).entries <;> rfl

theorem spot_resolve {e : Ref} (he : alookup nm (s.heap d).entries = some e) (hl : (s.heap e).isLnk = false) (c : Bool) :
    s.resolve (absPath s.cfg.sep (names ++ [nm])) true c = .ok e := by
  have hw : walk s.heap rootRef (names ++ [nm]) = some e := (spot_walk hi ht hg hrd h).trans he
  refine (resolve_plain hi ht s.rc h.plain (spot_noLink hi ht hg hrd h (fun y hy => ?_)) h.dev').mpr
    ⟨hw, through_genuine hi hg (root_lt hi) hw, fun y hy => hrd.readable (walked_lt hi _ (root_lt hi) y hy) _⟩
  rw [he] at hy; injection hy with hy; subst hy; exact hl

/-- `exists` never raises for such a path; if it is true the path leads somewhere. -/
theorem spot_exists : s.exists_ (absPath s.cfg.sep (names ++ [nm])) = .ok false ∨
    (s.exists_ (absPath s.cfg.sep (names ++ [nm])) = .ok true ∧
      ∃ x, ∀ c, s.resolve (absPath s.cfg.sep (names ++ [nm])) true c = .ok x) := by
  have hcan := absCanon_names (plain_proper h.plain)
  have hes := absCanon_not_endsWithSep ht.posix hcan
  have htot := resolvePath_total ht (k := s.rc) ⟨true, validRel_plain ht.posix s.rc h.plain⟩
  have hb : ∃ b, s.exists_ (absPath s.cfg.sep (names ++ [nm])) = .ok b := by
    unfold FS.exists_ FS.existsG
    rw [if_neg absPath_ne_nil, if_neg h.dev']
    simp only [FS.isFileSepG, hes, Bool.false_eq_true, if_false, bind, Except.bind, pure, Except.pure]
    obtain ⟨q, hq | ⟨e, hq⟩⟩ := htot
    · rw [hq]; simp only
      split
      · exact ⟨_, rfl⟩
      · exact ⟨_, rfl⟩
    · rw [hq]; exact ⟨false, rfl⟩
  obtain ⟨b, hb⟩ := hb
  cases b with
  | false => exact Or.inl hb
  | true =>
    refine Or.inr ⟨hb, ?_⟩
    have hroot' : absPath s.cfg.sep (names ++ [nm]) ≠ s.cfg.root :=
      absPath_snoc_ne_root (fun w hw => (h.plain w (by simp [hw])).1) (h.plain nm (by simp)).1
    obtain ⟨_, h2⟩ := (existsG_true hi ht s.rc hes).mp hb
    rw [absnorm_canon hi ht.posix hcan] at h2
    rcases h2 with h2 | ⟨h2, h3 | h3 | ⟨_, _, cs, h4, h5⟩⟩
    · exact absurd h2 h.dev'
    · exact absurd h3 hroot'
    · exact absurd h3.2.1 h.dev'
    · obtain ⟨x, hx⟩ := Option.isSome_iff_exists.mp h5
      by_cases hdv : cs ≠ [] ∧ absPath s.cfg.sep cs = s.devName
      · refine ⟨devNullRef, fun c => (resolveG_ok hi ht s.rc).mpr ⟨absPath_ne_nil, h2, Or.inr (Or.inr ?_)⟩⟩
        rw [absnorm_canon hi ht.posix hcan]
        exact ⟨hroot', h.dev', cs, h4, Or.inl ⟨hdv.1, hdv.2, rfl⟩⟩
      · refine ⟨x, fun c => (resolveG_ok hi ht s.rc).mpr ⟨absPath_ne_nil, h2, Or.inr (Or.inr ?_)⟩⟩
        rw [absnorm_canon hi ht.posix hcan]
        refine ⟨hroot', h.dev', cs, h4, Or.inr ⟨?_, hx, through_genuine hi hg (root_lt hi) hx, fun y hy => hrd.readable (walked_lt hi _ (root_lt hi) y hy) _⟩⟩
        by_cases e : cs = []
        · exact Or.inl e
        · exact Or.inr fun e2 => hdv ⟨e, e2⟩

/-- `remove_object` of such a path. -/
theorem spot_removeObject (hw : Within s) (hone : ∀ e, alookup nm (s.heap d).entries = some e → (s.heap e).entries = []) :
    (removeObject (absPath s.cfg.sep (names ++ [nm])) s).1 =
      match alookup nm (s.heap d).entries with
      | none => .error (.os (if (s.heap d).isDir then .ENOENT else .ENOTDIR))
      | some _ => if mayRemove s d then .ok () else .error (.os .EACCES) := by
  have hnp : ∀ w ∈ names, Proper s.cfg.sep w := fun w hw => (h.plain w (by simp [hw])).1
  have hmn : Proper s.cfg.sep nm := (h.plain nm (by simp)).1
  have hcan := absCanon_names (plain_proper h.plain)
  have hd := spot_dir hi ht hg hrd h false
  have hun : removeObject (absPath s.cfg.sep (names ++ [nm])) s =
      M.tryCatch (removeEntry d nm true) (fun e => match e with
      | .keyError => M.raise .ENOENT
      | .attributeError => M.raise .ENOTDIR
      | e => M.throw e) s := by
    unfold removeObject
    rw [M.bind_eq]
    simp only [M.get, originalPath_tree ht.cs, absnorm_canon hi ht.posix hcan]
    rw [if_neg]
    · simp only [M.tryCatch, splitpath_absPath ht.posix hnp hmn, M.bind_eq,
        rd_eq (f := fun x => x.resolve (absPath s.cfg.sep names) true false) hd]
      rfl
    · rw [isRootPath_tree ht]; simpa using absPath_snoc_ne_root hnp hmn
  rw [hun]
  unfold M.tryCatch
  rcases removeEntry_one hi hw ht (resolve_lt hi hd) (nm := nm) true (fun _ => hone) with ⟨x, hx, hx'⟩ | ⟨s', e, hx, h1, h2, h3⟩
  · rw [hx]
    simp only
    rcases hx' with ⟨rfl, h1⟩ | ⟨rfl, h1⟩ | ⟨rfl, ⟨y, hw1⟩, h1⟩
    · rw [h1]
      have : alookup nm (s.heap d).entries = none := by rw [mem_entries_nil h1]; rfl
      rw [this]; rfl
    · rw [h1]
      by_cases hdd : (s.heap d).isDir = true
      · rw [hdd]; rfl
      · exfalso
        have hdd : (s.heap d).isDir = false := by simpa using hdd
        have : removeEntry d nm true s = (.error .attributeError, s) := by
          unfold removeEntry removeEntryF; rw [if_pos (by simp [hdd])]
        rw [this] at hx; simp at hx
    · rw [hw1]; simp only; rw [if_neg (show ¬ mayRemove s d from h1)]; rfl
  · rw [hx, h1.was]; simp only; rw [if_pos (show mayRemove s d from h2)]

end

/-- C15: which call of `remove` succeeds, for root or someone who may read everything: those for anything but a directory (a link is removed itself,
whatever it points to); a directory raises EISDIR, a missing name ENOENT. -/
theorem remove_outcome {s : FS} (hs : Reachable s) (ht : s.cfg.Tree) (hm : s.cfg.isMac = false) (hw : Within s) (hg : Genuine s)
    (hrd : Readable s) {names : List Str} {nm : Str} {d : Ref} (h : Spot s names nm d) :
    (remove (absPath s.cfg.sep (names ++ [nm])) s).1 =
      match alookup nm (s.heap d).entries with
      | none => .error (.os (if (s.heap d).isDir then .ENOENT else .ENOTDIR))
      | some e => if (s.heap e).isDir then .error (.os .EISDIR) else if mayRemove s d then .ok () else .error (.os .EACCES) := by
  have hi := reachable_inv hs
  have hcan := absCanon_names (plain_proper h.plain)
  have hes := absCanon_not_endsWithSep ht.posix hcan
  have hend : endsWithC s.cfg.sep (absPath s.cfg.sep (names ++ [nm])) = false := by
    have h1 : absPath s.cfg.sep (names ++ [nm]) ≠ [s.cfg.sep] :=
      absPath_snoc_ne_root (fun w hw => (h.plain w (by simp [hw])).1) (h.plain nm (by simp)).1
    unfold Cfg.endsWithSep at hes
    simp only [ht.posix.altsep, reduceCtorEq, IsEmpty.forall_iff, implies_true, and_true, Bool.or_false] at hes
    simpa [h1, absPath_ne_nil] using hes
  have hlt := resolve_lt hi (spot_dir hi ht hg hrd h true)
  refine (show wp (remove _) (fun r _ => r = _) s from ?_)
  unfold remove
  have hchk : s.removeCheckPath (absPath s.cfg.sep (names ++ [nm])) =
      match alookup nm (s.heap d).entries with
      | none => .ok ()
      | some e => if (s.heap e).isDir then .error (.os .EISDIR) else .ok () := by
    unfold FS.removeCheckPath
    simp only [absnorm_canon hi ht.posix hcan, hes, Bool.false_eq_true, if_false, hend]
    cases ha : alookup nm (s.heap d).entries with
    | none =>
      have hex : s.exists_ (absPath s.cfg.sep (names ++ [nm])) = .ok false := by
        have := exists_plain hi ht s.rc h.plain (spot_noLink hi ht hg hrd h (fun e he => by rw [ha] at he; simp at he)) h.dev'
        rw [spot_walk hi ht hg hrd h, ha] at this
        exact this
      simp only [hex, bind, Except.bind, pure, Except.pure, Bool.false_eq_true, if_false]
    | some e =>
      have helt := hi.g.entLt d hlt _ (alookup_mem ha)
      simp only
      by_cases hdir : (s.heap e).isDir = true
      · have hdm := hg e helt
        rw [hdir] at hdm
        have hl : (s.heap e).isLnk = false := by
          by_contra hl
          rw [lnk_not_dirMode (by simpa using hl)] at hdm; simp at hdm
        have hex : s.exists_ (absPath s.cfg.sep (names ++ [nm])) = .ok true := by
          have := exists_plain hi ht s.rc h.plain (spot_noLink hi ht hg hrd h (fun y hy => by
            rw [ha] at hy; injection hy with hy; subst hy; exact hl)) h.dev'
          rw [spot_walk hi ht hg hrd h, ha] at this
          exact this
        have hmode : ifmt (s.heap e).mode = S_IFDIR := (isDirMode_iff _).mp hdm.symm
        have hne : ¬ (S_IFDIR = S_IFLNK) := by decide
        simp only [hex, spot_resolve hi ht hg hrd h ha hl, spot_lresolve hi ht hg hrd h ha, bind, Except.bind, pure, Except.pure,
          if_true, hmode, hdir, ht.posix.win, hm, Bool.false_eq_true, if_false, ne_eq, hne, not_false_eq_true]
      · have hdir : (s.heap e).isDir = false := by simpa using hdir
        have hdm := hg e helt
        rw [hdir] at hdm
        rw [hdir]
        simp only [Bool.false_eq_true, if_false]
        rcases spot_exists hi ht hg hrd h with hex | ⟨hex, x, hx⟩
        · simp only [hex, bind, Except.bind, pure, Except.pure, Bool.false_eq_true, if_false]
        · simp only [hex, hx, bind, Except.bind, pure, Except.pure, if_true]
          split
          · have hl : (s.heap e).isLnk = true := by
              by_contra hl
              rename_i hxm
              have := hx true
              rw [spot_resolve hi ht hg hrd h ha (by simpa using hl)] at this
              injection this with this; subst this
              rw [(isDirMode_iff _).mpr hxm] at hdm; simp at hdm
            have hlm : ifmt (s.heap e).mode = S_IFLNK := by unfold Obj.isLnk at hl; simpa using hl
            simp only [spot_lresolve hi ht hg hrd h ha, hlm, ne_eq, not_true_eq_false, if_false]
          · unfold FS.raiseForSep FS.raiseForSepG
            rw [hes]; rfl
  cases ha : alookup nm (s.heap d).entries with
  | none =>
    rw [ha] at hchk
    refine wp_bindOk (rd_eq hchk) ?_
    apply wp_getBind
    rw [absnorm_canon hi ht.posix hcan]
    have := spot_removeObject hi ht hg hrd h hw (fun e he => by rw [ha] at he; simp at he)
    rw [ha] at this
    exact this
  | some e =>
    rw [ha] at hchk
    simp only at hchk ⊢
    by_cases hdir : (s.heap e).isDir = true
    · rw [if_pos hdir] at hchk ⊢
      exact wp_bindErr (rd_eq hchk) rfl
    · rw [if_neg hdir] at hchk ⊢
      refine wp_bindOk (rd_eq hchk) ?_
      apply wp_getBind
      rw [absnorm_canon hi ht.posix hcan]
      have := spot_removeObject hi ht hg hrd h hw (fun y hy => by
        rw [ha] at hy; injection hy with hy; subst hy; exact mem_entries_nil (by simpa using hdir))
      rw [ha] at this
      exact this

/-- C16: which call of `rmdir` succeeds, for root or someone who may read everything, and for something that is not a link: those for an empty directory;
a directory with entries raises ENOTEMPTY, a regular file ENOTDIR, a missing name ENOENT. -/
theorem rmdir_outcome {s : FS} (hs : Reachable s) (ht : s.cfg.Tree) (hw : Within s) (hg : Genuine s)
    (hrd : Readable s) {names : List Str} {nm : Str} {d : Ref} (h : Spot s names nm d) (hdir : (s.heap d).isDir = true)
    (hnl : NoLink s.heap rootRef (names ++ [nm]))
    (hreg : ∀ e, alookup nm (s.heap d).entries = some e → (s.heap e).isDir = true ∨ ifmt (s.heap e).mode = S_IFREG) :
    (rmdir (absPath s.cfg.sep (names ++ [nm])) false s).1 =
      match alookup nm (s.heap d).entries with
      | none => .error (.os .ENOENT)
      | some e => if (s.heap e).isDir = false then .error (.os .ENOTDIR)
        else if (s.heap e).entries ≠ [] then .error (.os .ENOTEMPTY)
        else if mayRemove s d then .ok () else .error (.os .EACCES) := by
  have hi := reachable_inv hs
  have hcan := absCanon_names (plain_proper h.plain)
  have hes := absCanon_not_endsWithSep ht.posix hcan
  have hlt := resolve_lt hi (spot_dir hi ht hg hrd h true)
  have hdot : absPath s.cfg.sep (names ++ [nm]) ≠ dot := absPath_ne_dot ht.posix
  have hlnk : ∀ {e}, alookup nm (s.heap d).entries = some e → (s.heap e).isLnk = false := by
    intro e he
    exact noLink_last (root_not_lnk hi) hnl ((spot_walk hi ht hg hrd h).trans he)
  have hchk : s.rmdirCheck (absPath s.cfg.sep (names ++ [nm])) false =
      match alookup nm (s.heap d).entries with
      | none => .error (.os .ENOENT)
      | some e => if (s.heap e).isDir = false then .error (.os .ENOTDIR)
        else if (s.heap e).entries ≠ [] then .error (.os .ENOTEMPTY) else .ok true := by
    unfold FS.rmdirCheck
    rw [if_neg hdot]
    simp only [absnorm_canon hi ht.posix hcan, hes]
    cases ha : alookup nm (s.heap d).entries with
    | none =>
      have hres : s.resolve (absPath s.cfg.sep (names ++ [nm])) = .error (.os .ENOENT) := by
        show s.resolveG s.rc _ true = _
        unfold FS.resolveG
        rw [resolvePath_plain hi ht s.rc h.plain hnl]
        simp only [bind, Except.bind]
        unfold FS.getObjNormG
        rw [if_neg (absPath_snoc_ne_root (fun w hw => (h.plain w (by simp [hw])).1) (h.plain nm (by simp)).1), if_neg h.dev',
          originalPath_tree ht.cs, pathComponents_absPath ht.posix (plain_proper h.plain)]
        have key : ∀ (l : List Str) (r : Ref), r < s.next → (s.heap r).isLnk = false → NoLink s.heap r l → walk s.heap r l = some d →
            s.objLoop s.rc true r (l ++ [nm]) = .error (.os .ENOENT) := by
          intro l
          induction l with
          | nil =>
            intro r hr hrl _ hwk
            simp only [walk, Option.some.injEq] at hwk
            subst hwk
            have hdm := hg r hr
            rw [hdir] at hdm
            simp only [List.nil_append, FS.objLoop, FS.deref, hrl, Bool.false_eq_true, if_false, bind, Except.bind, ← hdm, Bool.not_true]
            unfold Obj.isDir at hdir
            cases hc : (s.heap r).content with
            | file b => rw [hc] at hdir; simp at hdir
            | dir es =>
              rw [mem_entries hc] at ha
              simp only [getEntry_tree ht.cs, ha]
          | cons w l ih =>
            intro r hr hrl hn hwk
            simp only [walk] at hwk
            cases hw' : alookup w (s.heap r).entries with
            | none => rw [hw'] at hwk; simp at hwk
            | some y =>
              rw [hw'] at hwk
              have hdr := isDir_of_entry (alookup_mem hw')
              have hdm := hg r hr
              rw [hdr] at hdm
              have hny := hn y hw'
              simp only [List.cons_append, FS.objLoop, FS.deref, hrl, Bool.false_eq_true, if_false, bind, Except.bind, ← hdm, Bool.not_true]
              unfold Obj.isDir at hdr
              cases hc : (s.heap r).content with
              | file b => rw [hc] at hdr; simp at hdr
              | dir es =>
                have hent : (s.heap r).entries = es := mem_entries hc
                rw [hent] at hw'
                have hylt := hi.g.entLt r hr (w, y) (by rw [hent]; exact alookup_some hw')
                simp only [getEntry_tree ht.cs, hw']
                rw [if_neg]
                · exact ih y hylt hny.1 hny.2 hwk
                · rcases hrd with h1 | h1
                  · simp [h1]
                  · simpa using fun _ => h1 y hylt
        exact key names rootRef (root_lt hi) (root_not_lnk hi) h.noLink h.here
      simp only [FS.confirmdir, hres, bind, Except.bind]
    | some e =>
      have helt := hi.g.entLt d hlt _ (alookup_mem ha)
      have hl := hlnk ha
      have hres := spot_resolve hi ht hg hrd h ha hl
      have hil : s.isLink (absPath s.cfg.sep (names ++ [nm])) = .ok false := by
        have hlr : s.lresolveG s.rc (absPath s.cfg.sep (names ++ [nm])) = .ok e := spot_lresolve hi ht hg hrd h ha
        unfold FS.isLink FS.isLinkG FS.isOfTypeG FS.resolveFG
        simp only [Bool.false_eq_true, if_false, hlr, bind, Except.bind, FS.raiseForSepG, hes, pure, Except.pure]
        unfold Obj.isLnk at hl; rw [hl]
      simp only [FS.confirmdir, hres, bind, Except.bind]
      by_cases hed : (s.heap e).isDir = true
      · have hdm := hg e helt
        rw [hed] at hdm
        have hbit : (s.heap e).mode &&& S_IFDIR ≠ 0 := by
          have h1 : (s.heap e).mode &&& S_IFMT = S_IFDIR := (isDirMode_iff _).mp hdm.symm
          intro h0
          have h2 : (s.heap e).mode &&& S_IFMT &&& S_IFDIR = S_IFDIR &&& S_IFDIR := by rw [h1]
          rw [Nat.and_assoc] at h2
          have h3 : S_IFMT &&& S_IFDIR = S_IFDIR := by decide
          rw [h3, h0] at h2
          exact absurd h2 (by decide)
        have hhas : (s.heap e).hasContents = decide ((s.heap e).entries ≠ []) := by
          unfold Obj.hasContents Obj.entries
          unfold Obj.isDir at hed
          cases hc : (s.heap e).content with
          | file b => rw [hc] at hed; simp at hed
          | dir es => cases es <;> simp
        simp only [hbit, if_false, ht.posix.win, Bool.not_false, if_true, hil, Bool.false_and, Bool.false_eq_true, hhas, hed,
          decide_eq_true_eq, Bool.true_eq_false]
      · have hed : (s.heap e).isDir = false := by simpa using hed
        have hbit : (s.heap e).mode &&& S_IFDIR = 0 := by
          rcases hreg e ha with h1 | h1
          · rw [hed] at h1; simp at h1
          · exact ifdir_of_ifreg h1
        simp only [hbit, if_true, hed]
  refine (show wp (rmdir _ _) (fun r _ => r = _) s from ?_)
  unfold rmdir
  cases ha : alookup nm (s.heap d).entries with
  | none =>
    rw [ha] at hchk
    exact wp_bindErr (rd_eq (f := fun s => s.rmdirCheck _ false) hchk) rfl
  | some e =>
    rw [ha] at hchk
    simp only at hchk ⊢
    by_cases hed : (s.heap e).isDir = false
    · rw [if_pos hed] at hchk ⊢
      exact wp_bindErr (rd_eq (f := fun s => s.rmdirCheck _ false) hchk) rfl
    · rw [if_neg hed] at hchk ⊢
      by_cases hem : (s.heap e).entries ≠ []
      · rw [if_pos hem] at hchk ⊢
        exact wp_bindErr (rd_eq (f := fun s => s.rmdirCheck _ false) hchk) rfl
      · rw [if_neg hem] at hchk ⊢
        refine wp_bindOk (rd_eq (f := fun s => s.rmdirCheck _ false) hchk) ?_
        apply wp_getBind
        rw [if_pos rfl, absnorm_canon hi ht.posix hcan]
        have := spot_removeObject hi ht hg hrd h hw (fun y hy => by
          rw [ha] at hy; injection hy with hy; subst hy; simpa using hem)
        rw [ha] at this
        exact this

/-- The demo filesystem meets every hypothesis of the theorems above. -/
theorem demo_read : ∀ x < demo.next, (demo.heap x).isDir = true → (demo.heap x).mode &&& PERM_READ ≠ 0 := by
  intro x hx
  rw [demo_next] at hx
  have h : ∀ x < 6, (demo.heap x).isDir = true → (demo.heap x).mode &&& PERM_READ ≠ 0 := by decide +kernel
  exact h x hx

example : (Reachable demo ∧ demo.cfg.Tree ∧ demo.cfg.isMac = false ∧ Within demo ∧ Genuine demo ∧ NoDev demo) ∧
    Ordinary demo ['/', 'g'] ∧ (remove ['/', 'g'] demo).1 = .ok () ∧ (remove ['/', 'a'] demo).1 = .error (.os .EISDIR) ∧
    Ordinary demo ['/', 'a', '/', 'd'] ∧ (rmdir ['/', 'a', '/', 'd'] false demo).1 = .ok () ∧
    (rmdir ['/', 'a'] false demo).1 = .error (.os .ENOTEMPTY) ∧
    (∀ x < demo.next, (demo.heap x).mode &&& S_IFDIR ≠ 0 → (demo.heap x).isDir = true) := by
  refine ⟨⟨demo_reachable, demo_tree, demo_mac, demo_within, demo_genuine, demo_noDev⟩,
    demo_ordinary (l := [['g']]) (by decide) (by decide +kernel) (by decide +kernel), by decide +kernel, by decide +kernel,
    demo_ordinary (l := [['a'], ['d']]) (by decide) (by decide +kernel) (by decide +kernel), by decide +kernel, by decide +kernel, ?_⟩
  intro x hx
  rw [demo_next] at hx
  have h : ∀ x < 6, (demo.heap x).mode &&& S_IFDIR ≠ 0 → (demo.heap x).isDir = true := by decide +kernel
  exact h x hx

/-- The place `/a/f` of the demo filesystem, for the outcome theorems. -/
theorem demo_spot (nm : Str) (h : Plain '/' nm) (h' : absPath '/' [['a'], nm] ≠ demo.devName) : Spot demo [['a']] nm 2 where
  plain := by
    rw [demo_sep]
    intro w hw
    rcases List.mem_append.mp hw with hw | hw
    · simp only [List.mem_singleton] at hw
      subst hw
      decide
    · simp only [List.mem_singleton] at hw
      rw [hw]; exact h
  noLink := by
    intro x hx
    have h : alookup ['a'] (demo.heap rootRef).entries = some 2 := by decide +kernel
    rw [h] at hx
    cases hx
    exact ⟨by decide +kernel, trivial⟩
  dev := by decide +kernel
  dev' := by rw [demo_sep]; exact h'
  here := by decide +kernel
  read := by decide +kernel

example : Spot demo [['a']] ['f'] 2 ∧ Spot demo [['a']] ['d'] 2 ∧ Spot demo [['a']] ['n'] 2 :=
  ⟨demo_spot _ (by decide) (by decide +kernel), demo_spot _ (by decide) (by decide +kernel),
    demo_spot _ (by decide) (by decide +kernel)⟩

end Verif
