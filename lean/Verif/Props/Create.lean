import Verif.EffLink
import Verif.Props.Lookup
import Verif.DemoFacts
/-!
# C13, C14, C18, C19 (creation): exactly one new name
-/

namespace Verif
open Py Spec Cfg

namespace Spec

/-- A failed call left no trace: every path (followed or not, with or without permission checks) gives what it
gave before, every object, all disk usage and everything else are as before. -/
structure Unchanged (s s' : FS) : Prop where
  resolve : ∀ q f c, s'.resolve q f c = s.resolve q f c
  obj : ∀ x < s.next, s'.heap x = s.heap x
  mounts : s'.mounts = s.mounts
  rest : s' = { s with heap := s'.heap, next := s'.next, lastIno := s'.lastIno, mounts := s'.mounts }

/-- The object `x`, which is not in use in `s`, is put under the name `nm` into the directory `d` at `ld`; no
other location and no other object changes, and every path that led to something still leads to it. -/
structure NewEntry (s s' : FS) (d : Ref) (ld : List Str) (nm : Str) (x : Ref) : Prop where
  name : NewName s s' (ld ++ [nm]) x
  fresh : s.next ≤ x
  listed : (s'.heap d).entries = (s.heap d).entries ++ [(nm, x)]
  dir : s'.heap d = { s.heap d with content := (s'.heap d).content, nlink := (s.heap d).nlink + 1 }
  others : ∀ y < s.next, y ≠ d → s'.heap y = s.heap y
  resolves : ∀ q f c y, s.resolve q f c = .ok y → y ≠ devNullRef → s'.resolve q f c = .ok y
  rest : s' = { s with heap := s'.heap, next := s'.next, lastIno := s'.lastIno, mounts := s'.mounts }

end Spec

theorem Same.unchanged {s s' : FS} (hi : Inv s) (h : Same s s') : Unchanged s s' :=
  ⟨fun q f c => (h.agree hi).resolve (Closed.lt hi) q f c, h.obj, h.mounts, h.env⟩

theorem Spec.Unchanged.refl (s : FS) : Unchanged s s := ⟨fun _ _ _ => rfl, fun _ _ => rfl, rfl, rfl⟩

theorem Added.newEntry {s s' : FS} (hi : Inv s) (hi' : Inv s') (ht : s.cfg.Tree) {d : Ref} {nm : Str}
    (h : Added s s' d nm s.next) (hc : (s'.heap s.next).entries = []) {ld : List Str}
    (hld : walk s.heap rootRef ld = some d) : NewEntry s s' d ld nm s.next := by
  have hne : s.next ≠ devNullRef := fun e => by have := devNull_lt hi; rw [e] at this; exact Nat.lt_irrefl _ this
  have hcfg : s'.cfg = s.cfg := by rw [h.env]
  have hsub : Sub s s' := h.sub hi hne (fun h => absurd h (Nat.lt_irrefl _))
  refine ⟨h.newName hi hld hc (fun h => absurd h (Nat.lt_irrefl _)), Nat.le_refl _, h.entries, ?_, ?_, ?_, h.env⟩
  · rw [h.parent]
  · intro y hy hyd
    exact h.others y hy hyd (Nat.ne_of_lt hy)
  · intro q f c y hr hy
    cases f with
    | true => exact hsub.resolve hi hi' (by rw [hcfg]; exact ht) hr hy
    | false =>
      have hr' : s.lresolve q = .ok y := hr
      exact hsub.lresolve hi hi' (by rw [hcfg]; exact ht) hr'

/-- Every plain path whose directory part led to the directory leads to the new object. -/
theorem Spec.NewEntry.reach {s s' : FS} (hi : Inv s) (hi' : Inv s') (ht : s.cfg.Tree) (hg : Genuine s) {d x : Ref} {ld : List Str} {nm : Str}
    (h : NewEntry s s' d ld nm x) {p : Str} (hN : Names s p ld nm d) (ho : Ordinary s p) (hl : (s'.heap x).isLnk = false)
    (hfree : alookup nm (s.heap d).entries = none)
    (hdev : absPath s.cfg.sep (ld ++ [nm]) ≠ s.devName) : s'.resolve (s.absnorm p) true false = .ok x := by
  obtain ⟨⟨names, h1, h2, h3, h4⟩, h5, h6⟩ := hN
  obtain ⟨⟨names', h7, h8⟩, h9⟩ := ho
  have hp' : ∀ w ∈ names ++ [nm], Proper s.cfg.sep w := by
    intro w hw; rcases List.mem_append.mp hw with hw | hw
    · exact h1 w hw
    · simp at hw; subst hw; exact h2
  have e1 : names ++ [nm] = names' := absPath_inj ht.posix hp' (plain_proper h7) (by rw [← h3, h8])
  have hdlt : d < s.next := resolve_lt hi h4
  have hcfg : s'.cfg = s.cfg := by rw [h.rest]
  have hmode : (s'.heap d).mode = (s.heap d).mode := by rw [h.dir]
  have hdn : s'.devName = s.devName := by
    have : (s'.heap devNullRef) = s.heap devNullRef :=
      h.others _ (devNull_lt hi) (fun e => by
        have := isDir_ne_devNull hi h5; exact this e.symm)
    unfold FS.devName; rw [this]
  have hw : walk s'.heap rootRef ld = some d := by
    rw [h.name.elsewhere ld (fun e => by have := congrArg List.length e; simp at this)]; exact h6
  have hal : alookup nm (s'.heap d).entries = some x := by rw [h.listed, alookup_snoc, hfree]; simp
  have hdir : (s'.heap d).isDir = true := isDir_of_entry (alookup_some hal)
  rw [h3]
  have key := resolve_child (s := s') (names := names) (ld := ld) (nm := nm) (d := d) (c := x) hi' (by rw [hcfg]; exact ht)
    (by rw [hcfg, e1]; exact h7) (by rw [hcfg]; exact h.resolves _ true false _ h4 (isDir_ne_devNull hi h5))
    (by unfold Obj.isDirMode; rw [hmode]; have := hg d hdlt; rw [h5] at this; exact this.symm) hdir hw hal hl
    (by rw [hcfg, hdn, ← h3]; exact h9) (by rw [hcfg, hdn]; exact hdev)
  rw [hcfg] at key
  exact key

/-! ## C14: mkdir -/

/-- C14: `mkdir` either fails without a trace, or it makes exactly one new name, for a new empty directory with
the requested permissions minus the umask; nothing else changes. -/
theorem mkdir_effect {s : FS} (hs : Reachable s) (ht : s.cfg.Tree) (hm : s.cfg.isMac = false) (hw : Within s) (p : Str) (mode : Nat) :
    (∃ e s', mkdir p mode s = (.error e, s') ∧ Unchanged s s') ∨
    ∃ s' ld nm d x, mkdir p mode s = (.ok (), s') ∧ Names s (s.cfg.stripTrailing p) ld nm d ∧ NewEntry s s' d ld nm x ∧
      (s'.heap x).content = .dir [] ∧ (s'.heap x).mode = S_IFDIR ||| andNot mode s.umask ∧ (s'.heap x).name = nm ∧
      (s'.heap x).parent = some d ∧ (s'.heap x).dev = (s.heap d).dev ∧ (s'.heap x).nlink = 2 ∧ s'.mounts = s.mounts ∧
      (Genuine s → Ordinary s (s.cfg.stripTrailing p) → absPath s.cfg.sep (ld ++ [nm]) ≠ s.devName →
        (S_IFDIR ||| andNot mode s.umask) &&& S_IFMT ≠ S_IFLNK → s'.resolve (s.absnorm (s.cfg.stripTrailing p)) true false = .ok x) := by
  have hi := reachable_inv hs
  have hk := mkdir_spec hi hw ht hm p mode
  have hg := mkdir_pres p mode s hi
  unfold wp at hk hg
  rcases hr : mkdir p mode s with ⟨r, s'⟩
  rw [hr] at hk hg
  simp only at hk hg
  rcases hk with ⟨e, h1, h2⟩ | ⟨ld, nm, d, h1, h2, h3⟩
  · exact Or.inl ⟨e, s', by rw [h1], h2.unchanged hi⟩
  · have hN : NewEntry s s' d ld nm s.next := h3.added.newEntry hi hg.inv ht (by rw [h3.obj]; rfl) h2.loc
    refine Or.inr ⟨s', ld, nm, d, s.next, by rw [h1], h2, hN, by rw [h3.obj]; rfl, by rw [h3.obj]; rfl, by rw [h3.obj]; rfl,
      by rw [h3.obj]; rfl, by rw [h3.obj]; rfl, by rw [h3.obj]; rfl, h3.mounts, ?_⟩
    intro hge ho hd hlk
    refine hN.reach hi hg.inv ht hge h2 ho ?_ h3.added.free hd
    rw [h3.obj]
    unfold Obj.isLnk ifmt
    simpa [freshObj, mkDirObj] using hlk

/-! ### the errors of mkdir -/

/-- The demo filesystem meets every hypothesis of `mkdir_effect`, and the second case of its conclusion happens
for `mkdir("/a/x")`, the first for `mkdir("/a/d")`. -/
example : (Reachable demo ∧ demo.cfg.Tree ∧ demo.cfg.isMac = false ∧ Within demo ∧ Genuine demo) ∧
    (mkdir ['/', 'a', '/', 'x'] 0o777 demo).1 = .ok () ∧ (mkdir ['/', 'a', '/', 'd'] 0o777 demo).1 = .error (.os .EEXIST) ∧
    Ordinary demo (demo.cfg.stripTrailing ['/', 'a', '/', 'x']) :=
  ⟨⟨demo_reachable, demo_tree, demo_mac, demo_within, demo_genuine⟩, by decide +kernel, by decide +kernel,
    demo_ordinary (l := [['a'], ['x']]) (by decide) (by decide +kernel) (by decide +kernel)⟩

theorem not_dotdot_suffix {k : Cfg} (h : k.Posix) {l : List Str} (hl : ∀ w ∈ l, Plain k.sep w) :
    (k.sep :: dotdot).isSuffixOf (absPath k.sep l) = false := by
  by_contra hc
  have hc : (k.sep :: dotdot).isSuffixOf (absPath k.sep l) = true := by simpa using hc
  rw [List.isSuffixOf_iff_suffix] at hc
  obtain ⟨q, hq⟩ := hc
  have h1 := dots_absPath h (l := l) (fun w hw => (hl w hw).1.2.2.2)
  have hz : (l.countP fun w => (['.', '.'] : Str).isPrefixOf w) = 0 := by
    rw [List.countP_eq_zero]
    intro w hw; rw [(hl w hw).2]; simp
  rw [hz, ← hq] at h1
  unfold dots at h1
  rw [split_append_sep, List.countP_append, split_no_sep (dotdot_no_sep h)] at h1
  have : ([dotdot] : List Str).countP (fun w => (['.', '.'] : Str).isPrefixOf w) = 1 := by decide
  omega

theorem mkdirParent_plain {s : FS} (hi : Inv s) (ht : s.cfg.Tree) {names : List Str} {nm : Str}
    (hn : ∀ w ∈ names ++ [nm], Plain s.cfg.sep w) (hl : NoLink s.heap rootRef names) (hd : absPath s.cfg.sep names ≠ s.devName) :
    s.mkdirParent (absPath s.cfg.sep (names ++ [nm])) =
      if (walk s.heap rootRef names).isSome then .ok () else .error (.os .ENOENT) := by
  have hnp : ∀ w ∈ names, Proper s.cfg.sep w := fun w hw => (hn w (by simp [hw])).1
  have hnl : ∀ w ∈ names, Plain s.cfg.sep w := fun w hw => hn w (by simp [hw])
  have hmn : Proper s.cfg.sep nm := (hn nm (by simp)).1
  unfold FS.mkdirParent
  dsimp only
  rw [splitpath_absPath ht.posix hnp hmn]
  dsimp only
  rw [if_pos absPath_ne_nil, not_dotdot_suffix ht.posix hnl, normpath_canon_id ht.posix (Or.inl (absCanon_names hnp))]
  simp only [Bool.false_and, Bool.false_eq_true, if_false, FS.exists_, exists_plain hi ht s.rc hnl hl hd, bind, Except.bind]
  cases walk s.heap rootRef names <;> rfl

theorem through_genuine {s : FS} (hi : Inv s) (hg : Genuine s) : ∀ {l : List Str} {r x : Ref}, r < s.next →
    walk s.heap r l = some x → Through s.heap r l := by
  intro l
  induction l with
  | nil => intro r x _ _; trivial
  | cons c l ih =>
    intro r x hr h
    simp only [walk] at h
    cases ha : alookup c (s.heap r).entries with
    | none => rw [ha] at h; simp at h
    | some y =>
      rw [ha] at h
      refine ⟨?_, ?_⟩
      · rw [← hg r hr]; exact isDir_of_entry (alookup_some ha)
      · intro z hz
        rw [ha] at hz; injection hz with hz; subst hz
        exact ih (hi.g.entLt r hr _ (alookup_some ha)) h

namespace Spec
/-- The caller is root or may read everything. -/
def Readable (s : FS) : Prop := s.isRoot = true ∨ ∀ x < s.next, (s.heap x).mode &&& PERM_READ ≠ 0
end Spec

theorem Spec.Readable.readable {s : FS} (h : Readable s) {x : Ref} (hx : x < s.next) (c : Bool) : s.readable c x := by
  rcases h with h | h
  · exact Or.inl h
  · exact Or.inr (Or.inr (h x hx))

/-- C14: which call of `mkdir` succeeds and which error the others raise.  The caller (root, or someone who may read
everything) gives the absolute path of the name `nm` in the location `names`, which contains no links and has no
unreadable last directory. -/
theorem mkdir_outcome {s : FS} (hs : Reachable s) (ht : s.cfg.Tree) (hm : s.cfg.isMac = false) (hw : Within s) (hg : Genuine s)
    (hrd : Readable s) {names : List Str} {nm : Str} (hn : ∀ w ∈ names ++ [nm], Plain s.cfg.sep w)
    (hl : NoLink s.heap rootRef names) (hd : absPath s.cfg.sep names ≠ s.devName) (hd' : absPath s.cfg.sep (names ++ [nm]) ≠ s.devName)
    (hread : ∀ x, walk s.heap rootRef names = some x → (s.heap x).mode &&& PERM_READ ≠ 0) (mode : Nat) :
    (mkdir (absPath s.cfg.sep (names ++ [nm])) mode s).1 =
      match walk s.heap rootRef names with
      | none => .error (.os .ENOENT)
      | some d =>
        if (s.heap d).isDir = false then .error (.os .ENOTDIR)
        else if (alookup nm (s.heap d).entries).isSome then .error (.os .EEXIST)
        else if s.isRoot = false ∧ (s.heap d).mode &&& PERM_WRITE = 0 then .error (.os .EACCES)
        else .ok () := by
  have hi := reachable_inv hs
  have hnl : ∀ w ∈ names, Plain s.cfg.sep w := fun w hw => hn w (by simp [hw])
  have hnp : ∀ w ∈ names, Proper s.cfg.sep w := fun w hw => (hn w (by simp [hw])).1
  have hmn : Proper s.cfg.sep nm := (hn nm (by simp)).1
  have hcan := absCanon_names (plain_proper hn)
  refine (show wp (mkdir _ _) (fun r _ => r = _) s from ?_)
  unfold mkdir
  apply wp_getBind
  dsimp only
  rw [stripTrailing_canon ht.posix hcan, if_neg absPath_ne_nil, ht.posix.win]
  simp only [Bool.false_eq_true, if_false, false_and]
  refine (show wp (rd (·.mkdirParent (absPath s.cfg.sep (names ++ [nm]))) >>= _) _ s from ?_)
  have hP := mkdirParent_plain hi ht hn hl hd
  cases hwk : walk s.heap rootRef names with
  | none =>
    rw [hwk] at hP
    exact wp_bindErr (rd_eq (by simpa using hP)) rfl
  | some d =>
    rw [hwk] at hP
    refine wp_bindOk (rd_eq (by simpa using hP)) ?_
    have hres : s.resolve (absPath s.cfg.sep names) = .ok d :=
      (resolve_plain hi ht s.rc hnl hl hd).mpr ⟨hwk, through_genuine hi hg (root_lt hi) hwk, fun y hy => hrd.readable (walked_lt hi _ (root_lt hi) y hy) _⟩
    have hlt := resolve_lt hi hres
    have hex := existsL_entry hi ht hnl hl hd hres (hread d hwk) (hn nm (by simp)) hd'
    rw [absnorm_canon hi ht.posix hcan]
    refine wp_bindOk (rd_eq hex) ?_
    simp only
    cases hal : alookup nm (s.heap d).entries with
    | some e =>
      have hdir : (s.heap d).isDir = true := isDir_of_entry (alookup_some hal)
      simp only [Option.isSome_some, if_true, hdir]
      refine wp_bindOk (rd_eq (r := .ok false) ?_) ?_
      · unfold FS.mkdirBroken; rw [hm, Bool.and_false, if_neg (by simp)]
      · exact rfl
    | none =>
      simp only [Option.isSome_none, Bool.false_eq_true, if_false]
      unfold mkdirTail
      apply wp_getBind
      rw [splitpath_absPath ht.posix hnp hmn]
      show wp (newObj _ >>= fun d => addObject (absPath s.cfg.sep names) d) _ s
      refine wp_bindOk (a := s.next)
        (s' := { s with heap := upd s.heap s.next (mkDirObj nm (andNot mode s.umask) s), next := s.next + 1 }) rfl ?_
      rcases addObject_new (o := mkDirObj nm (andNot mode s.umask) s) hi hw ht rfl rfl rfl rfl rfl (names := names) with
        ⟨e, he, hre⟩ | ⟨s', d', ld, he, h1, h2, h3, h4⟩
      · unfold wp; rw [he]
        rw [hres] at hre
        simp only
        rcases hre with hre | ⟨d', hre, hre'⟩
        · simp at hre
        · injection hre with hre; subst hre
          have hgd := hg d hlt
          rcases hre' with ⟨h1, h2⟩ | ⟨h0, ⟨h1, h2⟩ | ⟨h1, h2, h3⟩ | ⟨h1, h2⟩⟩
          · rw [h2] at hgd; rw [if_pos hgd, h1]
          · rw [h2, h0] at hgd; simp at hgd
          · have hdd : (s.heap d).isDir = true := hgd.trans h0
            rw [h1, if_neg (by simp [hdd]), if_pos ⟨h2, h3⟩]
          · have : (mkDirObj nm (andNot mode s.umask) s).name = nm := rfl
            rw [this, hal] at h2; simp at h2
      · unfold wp; rw [he]
        rw [hres] at h1; injection h1 with h1; subst h1
        simp only
        rw [if_neg (by simp [h3]), if_neg]
        rintro ⟨h5, h6⟩
        rcases h4.added.perm with h | h | h
        · rw [h] at h5; simp at h5
        · exact h h6
        · rw [ht.posix.win] at h; simp at h

/-! ## C13: create_file -/

/-- The hypotheses of `mkdir_outcome` are met below `/a` of the demo filesystem. -/
example : (∀ w ∈ [['a']] ++ [['x']], Plain demo.cfg.sep w) ∧ NoLink demo.heap rootRef [['a']] ∧
    absPath demo.cfg.sep [['a']] ≠ demo.devName ∧ absPath demo.cfg.sep ([['a']] ++ [['x']]) ≠ demo.devName ∧
    (∀ x, walk demo.heap rootRef [['a']] = some x → (demo.heap x).mode &&& PERM_READ ≠ 0) ∧ Readable demo := by
  refine ⟨by rw [demo_sep]; decide, ?_, by decide +kernel, by decide +kernel, ?_, Or.inl demo_root⟩
  · intro x hx
    have h : alookup ['a'] (demo.heap rootRef).entries = some 2 := by decide +kernel
    rw [h] at hx
    cases hx
    exact ⟨by decide +kernel, trivial⟩
  · intro x hx
    have h : walk demo.heap rootRef [['a']] = some 2 := by decide +kernel
    rw [h] at hx
    cases hx
    decide +kernel

theorem notLnk_mode {o : Obj} (h : o.mode &&& S_IFMT ≠ S_IFLNK) : o.isLnk = false := by
  unfold Obj.isLnk ifmt; simpa using h

/-- C13: `create_file` of `contents` on a path whose parent exists (or with `create_missing_dirs=False`), in a
directory from which the caller may remove names: it either fails without a trace, or it makes exactly one new
name, for a new file with exactly these contents, size and mode, and charges the size to the device. -/
theorem createFile_effect {s : FS} (hs : Reachable s) (ht : s.cfg.Tree) (hw : Within s) (p : Str) (mode : Nat) (contents : Bytes)
    {cm : Bool} (um : Bool)
    (hcm : cm = false ∨ ∀ names nm, (∀ w ∈ names, Proper s.cfg.sep w) → Proper s.cfg.sep nm →
      s.absnorm (s.cfg.makeStringPath p) = absPath s.cfg.sep (names ++ [nm]) → s.exists_ (absPath s.cfg.sep names) = .ok true)
    (hmay : ∀ ld nm d, Names s (s.cfg.makeStringPath p) ld nm d → mayRemove s d) :
    (∃ e s', createFile p mode (some contents) none cm um s = (.error e, s') ∧ Unchanged s s') ∨
    ∃ s' ld nm d x, createFile p mode (some contents) none cm um s = (.ok x, s') ∧
      Names s (s.cfg.makeStringPath p) ld nm d ∧ NewEntry s s' d ld nm x ∧
      (s'.heap x).content = .file (some contents) ∧ (s'.heap x).size = contents.length ∧
      (s'.heap x).mode = (if um then andNot mode s.umask else mode) ∧ (s'.heap x).nlink = 1 ∧
      (s'.heap x).dev = (s.heap d).dev ∧ s'.mounts = charge (s.heap d).dev contents.length s.mounts ∧
      (Genuine s → Ordinary s (s.cfg.makeStringPath p) → absPath s.cfg.sep (ld ++ [nm]) ≠ s.devName →
        (s'.heap x).mode &&& S_IFMT ≠ S_IFLNK → s'.resolve (s.absnorm (s.cfg.makeStringPath p)) true false = .ok x) := by
  have hi := reachable_inv hs
  have hk := createFileI_spec hi hw ht (p := p) mode (some contents) none um hcm
  have hg := createFileI_pres p mode (some contents) none cm um s hi
  unfold wp at hk hg
  unfold createFile
  rcases hr : createFileI p mode (some contents) none cm um s with ⟨r, s'⟩
  rw [hr] at hk hg
  simp only [newContents, Option.getD_some] at hk hg
  rcases hk with ⟨e, h1, h2⟩ | ⟨ld, nm, d, h2, ⟨h1, h3, _⟩ | ⟨h1, h3⟩⟩
  · exact Or.inl ⟨e, s', by rw [h1], h2.unchanged hi⟩
  · exact absurd (hmay ld nm d h2) h3
  · obtain ⟨ep, ho⟩ := h3.obj
    have hN : NewEntry s s' d ld nm s.next := h3.added.newEntry hi hg.inv ht (by rw [ho]; rfl) h2.loc
    refine Or.inr ⟨s', ld, nm, d, s.next, by rw [h1], h2, hN, by rw [ho], by rw [ho], by rw [ho]; rfl,
      by rw [ho]; rfl, by rw [ho]; rfl, h3.mounts, ?_⟩
    intro hge ho' hd hlk
    exact hN.reach hi hg.inv ht hge h2 ho' (notLnk_mode hlk) h3.added.free hd

/-! ## C19: symlink -/

/-- C19: `symlink(target, p)` either fails without a trace, or it makes exactly one new name, for a new link
whose contents are exactly the target. -/
theorem symlink_effect {s : FS} (hs : Reachable s) (ht : s.cfg.Tree) (hm : s.cfg.isMac = false) (hw : Within s) (p target : Str)
    (hmay : ∀ q ld nm d, Names s q ld nm d → mayRemove s d) :
    (∃ e s', createSymlink p target false s = (.error e, s') ∧ Unchanged s s') ∨
    ∃ s' q ld nm d x, createSymlink p target false s = (.ok x, s') ∧
      (q = s.cfg.makeStringPath p ∨ s.resolvePath (s.cfg.makeStringPath p) = .ok q) ∧
      Names s (s.cfg.makeStringPath q) ld nm d ∧ NewEntry s s' d ld nm x ∧
      (s'.heap x).content = .file (some (s.cfg.enc (s.cfg.makeStringPath target))) ∧
      (s'.heap x).mode = S_IFLNK ||| PERM_DEF ∧ (s'.heap x).isLnk = true ∧ (s'.heap x).nlink = 1 ∧
      s'.linkTarget (s'.heap x) = s.cfg.dec (s.cfg.enc (s.cfg.makeStringPath target)) := by
  have hi := reachable_inv hs
  have hk := symlink_spec hi hw ht hm p target
  have hg := createSymlink_pres p target false s hi
  unfold wp at hk hg
  rcases hr : createSymlink p target false s with ⟨r, s'⟩
  rw [hr] at hk hg
  simp only at hk hg
  rcases hk with ⟨e, h1, h2⟩ | ⟨q, hq, ⟨e, h1, h2⟩ | ⟨ld, nm, d, h2, ⟨h1, h3, _⟩ | ⟨h1, h3⟩⟩⟩
  · exact Or.inl ⟨e, s', by rw [h1], h2.unchanged hi⟩
  · exact Or.inl ⟨e, s', by rw [h1], h2.unchanged hi⟩
  · exact absurd (hmay _ ld nm d h2) h3
  · obtain ⟨ep, ho⟩ := h3.obj
    have hN : NewEntry s s' d ld nm s.next := h3.added.newEntry hi hg.inv ht (by rw [ho]; rfl) h2.loc
    have hcfg : s'.cfg = s.cfg := by rw [hN.rest]
    refine Or.inr ⟨s', q, ld, nm, d, s.next, by rw [h1], ?_, h2, hN, by rw [ho], by rw [ho]; rfl,
      by rw [ho]; unfold Obj.isLnk; simp [freshObj, mkFileObj]; decide, by rw [ho]; rfl, ?_⟩
    · rcases hq with ⟨_, h⟩ | ⟨_, h⟩
      · exact Or.inl h
      · exact Or.inr h
    · rw [ho]; unfold FS.linkTarget; rw [hcfg]

/-- The hypotheses of `createFile_effect` and `symlink_effect` are met by the demo filesystem; the calls succeed. -/
example : (∀ q ld nm d, Names demo q ld nm d → mayRemove demo d) ∧
    (createFile ['/', 'a', '/', 'x'] (S_IFREG ||| 0o666) (some [1, 2, 3]) none false true demo).1 = .ok 6 ∧
    (createSymlink ['/', 'a', '/', 'x'] ['d'] false demo).1 = .ok 6 ∧
    (createFile ['/', 'a', '/', 'f'] (S_IFREG ||| 0o666) (some [1, 2, 3]) none false true demo).1 = .error (.os .EEXIST) :=
  ⟨fun _ _ _ d _ => demo_may d, by decide +kernel, by decide +kernel, by decide +kernel⟩

end Verif
