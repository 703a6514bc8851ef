import Verif.EffRemove
/-!
# Creating files: exact effects
-/

namespace Verif
open Py Spec Cfg

/-- A file was made (as number `s.next`) in the directory `d` and got contents `c` and size `n`, which its device is
charged; nothing else changed. -/
structure MadeFile (s s' : FS) (d : Ref) (nm : Str) (o : Obj) (c : Option Bytes) (n : Nat) : Prop where
  added : Added s s' d nm s.next
  obj : ∃ ep, s'.heap s.next = { freshObj s o d with content := .file c, size := n, epoch := ep }
  mounts : s'.mounts = charge (s.heap d).dev n s.mounts
  next : s'.next = s.next + 1
  lastIno : s'.lastIno = s.lastIno + 1

/-- contents and size of a new file -/
def newContents (contents : Option Bytes) (size : Option Nat) : Option Bytes × Nat :=
  match size with
  | some n => (none, n)
  | none => (some (contents.getD []), (contents.getD []).length)

/-- filling a new file (the `try` block of `create_file_internally`) -/
def fillNew (r : Ref) (contents : Option Bytes) (size : Option Nat) : M Unit :=
  match size with
  | some n => setLargeFileSize r n
  | none => do let _ ← setInitialContents r (contents.getD []); M.pure ()

theorem M.bind_eq {α β : Type} (m : M α) (f : α → M β) (s : FS) :
    (m >>= f) s = match m s with | (.ok a, s') => f a s' | (.error e, s') => (.error e, s') := rfl

theorem wp_bindOk {α β : Type} {m : M α} {f : α → M β} {Q : Except Err β → FS → Prop} {s s' : FS} {a : α}
    (h : m s = (.ok a, s')) (hf : wp (f a) Q s') : wp (m >>= f) Q s := by
  apply wp_bind; unfold wp; rw [h]; exact hf

theorem wp_bindErr {α β : Type} {m : M α} {f : α → M β} {Q : Except Err β → FS → Prop} {s s' : FS} {e : Err}
    (h : m s = (.error e, s')) (hf : Q (.error e) s') : wp (m >>= f) Q s := by
  apply wp_bind; unfold wp; rw [h]; exact hf

theorem wp_eq {α : Type} {m : M α} {Q : Except Err α → FS → Prop} {s s' : FS} {r : Except Err α}
    (h : m s = (r, s')) (hf : Q r s') : wp m Q s := by unfold wp; rw [h]; exact hf

theorem charge_eq (dev : Option Nat) (c : Int) (s : FS) :
    ({ s with mounts := charge dev c s.mounts } : FS).heap = s.heap := rfl

/-- Filling a file that is empty: ENOSPC, or the contents are set and the device is charged. -/
theorem fillNew_eq {s : FS} {r : Ref} (hwin : s.cfg.isWin = false) (hr : r ≠ devNullRef) (hc : (s.heap r).content = .file none)
    (hz : (s.heap r).size = 0) (contents : Option Bytes) (size : Option Nat) :
    (fillNew r contents size s = (.error (.os .ENOSPC), s)) ∨ ∃ s' ep, fillNew r contents size s = (.ok (), s') ∧
      s' = { s with
        mounts := charge (s.heap r).dev (newContents contents size).2 s.mounts
        heap := upd s.heap r { s.heap r with
          content := .file (newContents contents size).1, size := (newContents contents size).2, epoch := ep } } := by
  have hst : s.stSize (s.heap r) = 0 := by unfold FS.stSize; simp [hz]
  cases size with
  | some n =>
    unfold fillNew newContents setLargeFileSize
    simp only [hc, hst, ne_eq, not_true_eq_false, if_false]
    unfold M.bind M.pure M.get
    simp only
    rcases changeDiskUsage_cases n (s.heap r).dev s with h | ⟨h, _⟩
    · right
      rw [h]
      refine ⟨_, (s.heap r).epoch, rfl, ?_⟩
      rfl
    · left; rw [h]
  | none =>
    simp only [fillNew, newContents]
    rw [M.bind_eq]
    unfold setInitialContents
    simp only [if_neg hr, hc, hst, Int.ofNat_zero, Int.sub_zero, Option.getD_none, ne_eq, not_true_eq_false, if_false]
    unfold M.bind M.pure
    simp only
    rcases changeDiskUsage_cases (contents.getD []).length (s.heap r).dev s with h | ⟨h, _⟩
    · right
      simp only [h]
      refine ⟨_, (s.heap r).epoch + 1, rfl, rfl⟩
    · left
      simp only [h]


/-- Filling the file just made. -/
theorem Made.fill {s s1 : FS} (hi : Inv s) (ht : s.cfg.Tree) {d : Ref} {nm : Str} {m : Nat}
    (h : Made s s1 d nm (mkFileObj nm m none s)) (contents : Option Bytes) (size : Option Nat) :
    (fillNew s.next contents size s1 = (.error (.os .ENOSPC), s1)) ∨ ∃ s', fillNew s.next contents size s1 = (.ok (), s') ∧
      MadeFile s s' d nm (mkFileObj nm m none s) (newContents contents size).1 (newContents contents size).2 := by
  have hcfg : s1.cfg = s.cfg := by rw [h.added.env]
  have hne : s.next ≠ devNullRef := fun e => by have := devNull_lt hi; rw [e] at this; exact Nat.lt_irrefl _ this
  rcases fillNew_eq (s := s1) (r := s.next) (by rw [hcfg]; exact ht.posix.win) hne (by rw [h.obj]; rfl) (by rw [h.obj]; rfl)
    contents size with h1 | ⟨s', ep, h1, h2⟩
  · exact Or.inl h1
  · refine Or.inr ⟨s', h1, ?_⟩
    have hdne : d ≠ s.next := h.added.ne
    subst h2
    refine ⟨⟨?_, ?_, h.added.dLt, h.added.dir, hdne, h.added.perm, h.added.free, ?_, ?_⟩, ⟨ep, ?_⟩, ?_, h.next, h.lastIno⟩
    · exact h.added.env.trans rfl
    · exact h.added.next
    · show upd s1.heap s.next _ d = _
      rw [upd_ne _ _ hdne]; exact h.added.parent
    · intro x hx h3 h4
      show upd s1.heap s.next _ x = _
      rw [upd_ne _ _ h4]; exact h.added.others x hx h3 h4
    · show upd s1.heap s.next _ s.next = _
      rw [upd_same, h.obj]
    · show charge (s1.heap s.next).dev _ s1.mounts = _
      rw [h.obj, h.mounts]; rfl

theorem made_resolve {s s1 : FS} (hi : Inv s) (hi1 : Inv s1) (ht : s.cfg.Tree) {d : Ref} {nm : Str} {o : Obj}
    (h : Made s s1 d nm o) {p : Str} {c : Bool} {x : Ref} (hr : s.resolve p true c = .ok x) (hx : x ≠ devNullRef) :
    s1.resolve p true c = .ok x := by
  have hne : s.next ≠ devNullRef := fun e => by have := devNull_lt hi; rw [e] at this; exact Nat.lt_irrefl _ this
  have hcfg : s1.cfg = s.cfg := by rw [h.added.env]
  exact (h.added.sub hi hne (fun h => absurd h (Nat.lt_irrefl _))).resolve hi hi1 (by rw [hcfg]; exact ht) hr hx

theorem aerase_snoc {α : Type} {nm : Str} {c : α} {l : List (Str × α)} (h : alookup nm l = none) :
    aerase nm (l ++ [(nm, c)]) = l := by
  have hn := alookup_none.mp h
  unfold aerase
  rw [List.filter_append, List.filter_eq_self.mpr (fun e he => by
    simp only [ne_eq, decide_eq_true_eq]
    rintro rfl
    exact hn (List.mem_map_of_mem he))]
  simp

/-- Removing the file just made gives the old tree back, unless the directory does not allow it. -/
theorem Made.undo {s s1 : FS} (hi : Inv s) (hw : Within s) (hi1 : Inv s1) (ht : s.cfg.Tree) {d : Ref} {names : List Str} {nm : Str} {m : Nat}
    (h : Made s s1 d nm (mkFileObj nm m none s)) (hn : ∀ w ∈ names, Proper s.cfg.sep w) (hnm : Proper s.cfg.sep nm)
    (hres : s.resolve (absPath s.cfg.sep names) true false = .ok d) :
    (mayRemove s d ∧ ∃ s', removeObject (absPath s.cfg.sep (names ++ [nm])) s1 = (.ok (), s') ∧ Same s s') ∨
    (¬ mayRemove s d ∧ removeObject (absPath s.cfg.sep (names ++ [nm])) s1 = (.error (.os .EACCES), s1)) := by
  have hcfg : s1.cfg = s.cfg := by rw [h.added.env]
  have ht1 : s1.cfg.Tree := by rw [hcfg]; exact ht
  have hp' : ∀ w ∈ names ++ [nm], Proper s.cfg.sep w := by
    intro w hw; rcases List.mem_append.mp hw with hw | hw
    · exact hn w hw
    · simp at hw; subst hw; exact hnm
  have hdne := isDir_ne_devNull hi h.added.dir
  have hres1 := made_resolve hi hi1 ht h hres hdne
  have hdlt : d < s1.next := Nat.lt_of_lt_of_le h.added.dLt h.added.next
  have hent := h.added.entries
  have hal : alookup nm (s1.heap d).entries = some s.next := by rw [hent, alookup_snoc, h.added.free]; simp
  have hw1 : Within s1 := by unfold Within; rw [h.mounts]; exact hw
  have hmay : mayRemove s1 d ↔ mayRemove s d := by
    unfold mayRemove
    have e1 : (s1.heap d).mode = (s.heap d).mode := by rw [h.added.parent]
    have e2 : s1.isRoot = s.isRoot := by rw [h.added.env]; rfl
    rw [e1, e2]
  have hun : removeObject (absPath s.cfg.sep (names ++ [nm])) s1 =
      M.tryCatch (removeEntry d nm true) (fun e =>
      match e with
      | .keyError => M.raise .ENOENT
      | .attributeError => M.raise .ENOTDIR
      | e => M.throw e) s1 := by
    unfold removeObject
    rw [M.bind_eq]
    show (if s1.cfg.isRootPath (s1.absnorm (s1.originalPath _)) = true then _ else _ : M Unit) s1 = _
    have hcan : s1.absnorm (absPath s.cfg.sep (names ++ [nm])) = absPath s.cfg.sep (names ++ [nm]) :=
      absnorm_canon hi1 ht1.posix (by rw [hcfg]; exact absCanon_names hp')
    rw [originalPath_tree ht1.cs, hcan, hcfg]
    rw [if_neg (by
      rw [← hcfg, isRootPath_tree ht1, hcfg]
      exact absPath_snoc_ne_root hn hnm)]
    dsimp only
    rw [splitpath_absPath ht.posix hn hnm]
    unfold M.tryCatch
    rw [M.bind_eq]
    have : rd (fun x => x.resolve (absPath s.cfg.sep names, nm).1 true false) s1 = (.ok d, s1) := by
      show (s1.resolve (absPath s.cfg.sep names) true false, s1) = _
      rw [hres1]
    rw [this]
    rfl
  rw [hun]
  have hone := removeEntry_one hi1 hw1 ht1 hdlt (nm := nm) true (fun _ e he => by
    rw [hal] at he; injection he with he; subst he; rw [h.obj]; rfl)
  have hd1 : (s1.heap d).isDir = true := by rw [h.added.parent]; rfl
  rcases hone with ⟨x, hx, hc⟩ | ⟨s', e, hx, h1, h2, h3⟩
  · rcases hc with ⟨_, hc⟩ | ⟨_, hc⟩ | ⟨rfl, hc⟩
    · rw [hd1] at hc; simp at hc
    · rw [hal] at hc; simp at hc
    · right
      refine ⟨fun hm => hc.2 (hmay.mpr hm), ?_⟩
      unfold M.tryCatch; rw [hx]; rfl
  · left
    refine ⟨hmay.mp h2, s', ?_, ?_⟩
    · unfold M.tryCatch; rw [hx]
    · have he : e = s.next := by have := h1.was; rw [hal] at this; injection this with this; exact this.symm
      subst he
      refine ⟨h.added.env.trans h1.env, by rw [h1.next]; exact h.added.next, ?_, ?_⟩
      · intro x hx
        by_cases e1 : x = d
        · subst e1
          rw [h1.parent, hent, aerase_snoc h.added.free, h.added.parent]
          have := h.added.dir
          rcases content_cases (s.heap x) with ⟨hf, _⟩ | ⟨_, hc⟩
          · rw [hf] at this; simp at this
          · simp only [Int.add_sub_cancel]
            rw [← hc]
        · rw [h1.others x e1 (Nat.ne_of_lt hx), h.added.others x hx e1 (Nat.ne_of_lt hx)]
      · rw [h3, h.obj]
        have : ∀ dv, charge dv (-((0 : Nat) : Int)) s1.mounts = s1.mounts := by
          intro dv; unfold charge; cases dv with
          | none => rfl
          | some i => exact changeUsed_zero i _
        have hh : (freshObj s (mkFileObj nm m none s) d).size = 0 := rfl
        rw [hh]
        split
        · rw [this, h.mounts]
        · exact h.mounts

theorem createFileTail_spec {s : FS} (hi : Inv s) (hw : Within s) (ht : s.cfg.Tree) {names : List Str} {nm : Str}
    (hn : ∀ w ∈ names, Proper s.cfg.sep w) (hnm : Proper s.cfg.sep nm) (mode : Nat) (contents : Option Bytes) (size : Option Nat) (um : Bool) :
    wp (createFileTail (absPath s.cfg.sep names) nm (absPath s.cfg.sep (names ++ [nm])) mode contents size um) (fun r s' =>
      (∃ e, r = .error e ∧ Same s s') ∨
      ∃ d ld, s.resolve (absPath s.cfg.sep names) = .ok d ∧ walk s.heap rootRef ld = some d ∧ (s.heap d).isDir = true ∧
      let o := mkFileObj nm (if um then andNot mode s.umask else mode) none s
      ((r = .error (.os .EACCES) ∧ ¬ mayRemove s d ∧ Made s s' d nm o) ∨
       (r = .ok s.next ∧ MadeFile s s' d nm o (newContents contents size).1 (newContents contents size).2))) s := by
  unfold createFileTail
  apply wp_getBind
  apply wp_seq _ (newFile_fresh hi nm (if um = true then andNot mode s.umask else mode) none)
  · intro e s1 h1; exact absurd h1.2.1 (by simp)
  intro r s1 ⟨hg1, hr, hf, hs1⟩
  injection hr with hr; subst hr
  have hname : NameOk s1 s.next := by
    intro p m
    rw [hs1]
    show Proper s.cfg.sep (upd s.heap s.next _ s.next).name
    rw [upd_same]
    exact hnm
  have hgood := addObject_fresh hg1.inv (absPath s.cfg.sep names) hf hname
  rcases addObject_new (o := mkFileObj nm (if um = true then andNot mode s.umask else mode) none s) hi hw ht rfl rfl rfl rfl hs1 (names := names)
    with ⟨e, he, _⟩ | ⟨s2, d, ld, he, h1, h2, h3, h4⟩
  · refine wp_bindErr he (Or.inl ⟨e, rfl, ?_⟩)
    rw [hs1]; exact new_same s _
  refine wp_bindOk he ?_
  unfold wp at hgood
  rw [he] at hgood
  dsimp only at hgood
  have hi2 : Inv s2 := hgood.inv
  have hcond : ∀ c : Option Bytes, (size = none → c ≠ none) → (c ≠ none ∨ size ≠ none) := by
    intro c h; cases size with
    | none => exact Or.inl (h rfl)
    | some n => right; simp
  have hgd : (if size = none ∧ contents = none then some [] else contents).getD [] = contents.getD [] := by
    cases contents <;> cases size <;> simp
  dsimp only
  apply wp_ite
  · intro _
    rw [hgd]
    apply wp_bind
    refine (show wp (catchOS (fillNew s.next contents size) (fun e => do removeObject (absPath s.cfg.sep (names ++ [nm])); M.throw e)) _ s2 from ?_)
    apply wp_tryCatch
    rcases h4.fill hi ht contents size with hfe | ⟨s3, hfe, h5⟩
    · refine wp_eq hfe ?_
      refine (show wp (removeObject (absPath s.cfg.sep (names ++ [nm])) >>= fun _ => M.throw (Err.os .ENOSPC)) _ s2 from ?_)
      rcases h4.undo hi hw hi2 ht hn hnm (resolve_weaken hi ht h1) with ⟨_, s', h6, h7⟩ | ⟨h6, h7⟩
      · exact wp_bindOk h6 (Or.inl ⟨_, rfl, h7⟩)
      · refine wp_bindErr h7 ?_; exact Or.inr ⟨d, ld, h1, h2, h3, Or.inl ⟨rfl, h6, h4⟩⟩
    · refine wp_eq hfe ?_
      exact Or.inr ⟨d, ld, h1, h2, h3, Or.inr ⟨rfl, h5⟩⟩
  · intro h
    exact absurd (hcond _ (by intro h0; simp only [h0, true_and]; split <;> simp_all)) h


theorem rd_eq {α : Type} {f : FS → Except Err α} {s : FS} {r : Except Err α} (h : f s = r) : rd f s = (r, s) := by
  show (f s, s) = _; rw [h]

theorem autoMount_posix {s : FS} (h : s.cfg.Posix) (p : Str) : autoMount p s = (.ok (), s) := by
  unfold autoMount; rw [M.bind_eq]; simp only [M.get, h.win]; rfl

/-- What creating a file (or link) does on Linux. -/
def CreatePost (s : FS) (p : Str) (mode : Nat) (c : Option Bytes) (n : Nat) (um : Bool) (r : Except Err Ref) (s' : FS) : Prop :=
  (∃ e, r = .error e ∧ Same s s') ∨
  ∃ ld nm d, Names s p ld nm d ∧
    ((r = .error (.os .EACCES) ∧ ¬ mayRemove s d ∧
        Made s s' d nm (mkFileObj nm (if um then andNot mode s.umask else mode) none s)) ∨
     (r = .ok s.next ∧
        MadeFile s s' d nm (mkFileObj nm (if um then andNot mode s.umask else mode) none s) c n))

theorem createFileI_spec {s : FS} (hi : Inv s) (hw : Within s) (ht : s.cfg.Tree) {p : Str} (mode : Nat) (contents : Option Bytes)
    (size : Option Nat) {cm : Bool} (um : Bool)
    (hcm : cm = false ∨ ∀ names nm, (∀ w ∈ names, Proper s.cfg.sep w) → Proper s.cfg.sep nm →
      s.absnorm (s.cfg.makeStringPath p) = absPath s.cfg.sep (names ++ [nm]) → s.exists_ (absPath s.cfg.sep names) = .ok true) :
    wp (createFileI p mode contents size cm um)
      (CreatePost s (s.cfg.makeStringPath p) mode (newContents contents size).1 (newContents contents size).2 um) s := by
  unfold createFileI
  apply wp_getBind
  generalize s.cfg.makeStringPath p = p at *
  apply wp_readBind
  · intro e _; exact Or.inl ⟨e, rfl, Same.refl s⟩
  intro b hb
  apply wp_ite
  · intro _; exact wp_raiseBind (Or.inl ⟨_, rfl, Same.refl s⟩)
  intro hb'
  dsimp only
  rcases absCanon_cases (hi.absnorm ht.posix p) with h0 | ⟨names, nm, hn, hnm, h0⟩
  · rw [h0, absPath_nil, existsL_root hi ht.posix] at hb
    injection hb with hb
    exact absurd hb.symm hb'
  rw [h0, splitpath_absPath ht.posix hn hnm]
  dsimp only
  rw [if_neg absPath_ne_nil]
  refine wp_bindOk (autoMount_posix ht.posix _) ?_
  have tail : wp (createFileTail (absPath s.cfg.sep names) nm (absPath s.cfg.sep (names ++ [nm])) mode contents size um)
      (CreatePost s p mode (newContents contents size).1 (newContents contents size).2 um) s := by
    apply wp_mono (createFileTail_spec hi hw ht hn hnm mode contents size um)
    rintro r s' (h | ⟨d, ld, h1, h2, h3, h4⟩)
    · exact Or.inl h
    · exact Or.inr ⟨ld, nm, d, ⟨⟨names, hn, hnm, h0, resolve_weaken hi ht h1⟩, h3, h2⟩, h4⟩
  cases hex : s.exists_ (absPath s.cfg.sep names) with
  | error e =>
    refine wp_bindErr (e := e) (s' := s) ?_ (Or.inl ⟨e, rfl, Same.refl s⟩)
    unfold fileParent
    rw [M.bind_eq, rd_eq hex]
  | ok b2 =>
    cases b2 with
    | true =>
      refine wp_bindOk (a := absPath s.cfg.sep names) (s' := s) ?_ tail
      unfold fileParent
      rw [M.bind_eq, rd_eq hex]
      show ((.ok (s.originalPath (absPath s.cfg.sep names)), s) : Except Err Str × FS) = _
      rw [originalPath_tree ht.cs]
    | false =>
      rcases hcm with rfl | hcm
      · refine wp_bindErr (e := .os .ENOENT) (s' := s) ?_ (Or.inl ⟨_, rfl, Same.refl s⟩)
        unfold fileParent
        rw [M.bind_eq, rd_eq hex]; rfl
      · rw [hcm names nm hn hnm h0] at hex; simp at hex

/-- `os.symlink(target, p)` on Linux; unless `p` is a link the name made is the last component of the resolved path. -/
theorem symlink_spec {s : FS} (hi : Inv s) (hw : Within s) (ht : s.cfg.Tree) (hm : s.cfg.isMac = false) (p target : Str) :
    wp (createSymlink p target false) (fun r s' => (∃ e, r = .error e ∧ Same s s') ∨
      ∃ q, (s.isLink (s.cfg.makeStringPath p) = .ok true ∧ q = s.cfg.makeStringPath p ∨
          s.isLink (s.cfg.makeStringPath p) = .ok false ∧ s.resolvePath (s.cfg.makeStringPath p) = .ok q) ∧
        CreatePost s (s.cfg.makeStringPath q) (S_IFLNK ||| PERM_DEF) (some (s.cfg.enc (s.cfg.makeStringPath target)))
          (s.cfg.enc (s.cfg.makeStringPath target)).length false r s') s := by
  unfold createSymlink
  apply wp_getBind
  dsimp only
  have hnc : ∀ q, s.cfg.normcase q = q := fun q => by unfold Cfg.normcase; simp [ht.posix.altsep]
  rw [hnc]
  generalize s.cfg.makeStringPath p = p
  generalize s.cfg.makeStringPath target = target
  apply wp_ite
  · intro _
    apply wp_readBind
    · intro e _; exact Or.inl ⟨e, rfl, Same.refl s⟩
    intro b _
    apply wp_ite
    · intro _; exact wp_raiseBind (Or.inl ⟨_, rfl, Same.refl s⟩)
    intro _
    apply wp_readBind
    · intro e _; exact Or.inl ⟨e, rfl, Same.refl s⟩
    intro b _
    apply wp_ite
    · intro _
      rw [if_pos (by simp [ht.posix.win])]
      exact wp_raiseBind (Or.inl ⟨_, rfl, Same.refl s⟩)
    intro _
    rw [if_neg (by simp [ht.posix.win])]
    apply wp_readBind
    · intro e _; exact Or.inl ⟨e, rfl, Same.refl s⟩
    intro b _
    apply wp_ite
    · intro _; exact wp_raiseBind (Or.inl ⟨_, rfl, Same.refl s⟩)
    intro _
    rw [if_neg (by simp [hm])]
    exact wp_raiseBind (Or.inl ⟨_, rfl, Same.refl s⟩)
  intro _
  apply wp_readBind
  · intro e _; exact Or.inl ⟨e, rfl, Same.refl s⟩
  intro b hb
  have tail : ∀ q, (s.isLink p = .ok true ∧ q = p ∨ s.isLink p = .ok false ∧ s.resolvePath p = .ok q) →
      wp (createFileI q (S_IFLNK ||| PERM_DEF) (some (s.cfg.enc target)) none false false) (fun r s' => (∃ e, r = .error e ∧ Same s s') ∨
      ∃ q, (s.isLink p = .ok true ∧ q = p ∨ s.isLink p = .ok false ∧ s.resolvePath p = .ok q) ∧
        CreatePost s (s.cfg.makeStringPath q) (S_IFLNK ||| PERM_DEF) (some (s.cfg.enc target)) (s.cfg.enc target).length false r s') s := by
    intro q hq
    apply wp_mono (createFileI_spec hi hw ht _ _ none false (Or.inl rfl))
    intro r s' h
    exact Or.inr ⟨q, hq, h⟩
  cases b with
  | true => exact tail p (Or.inl ⟨hb, rfl⟩)
  | false =>
    apply wp_readBind
    · intro e _; exact Or.inl ⟨e, rfl, Same.refl s⟩
    intro q hq
    exact tail q (Or.inr ⟨hb, hq⟩)

end Verif
