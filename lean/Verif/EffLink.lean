import Verif.EffCreate
/-!
# Hard links: exact effects
-/

namespace Verif
open Py Spec Cfg

/-- Every object found by a path is the root, the null device or an entry of a directory. -/
theorem closed_ref {s : FS} (hi : Inv s) : Closed s (fun x => x < s.next ∧
    (x = rootRef ∨ x = devNullRef ∨ ∃ d nm, d < s.next ∧ (nm, x) ∈ (s.heap d).entries)) :=
  ⟨⟨root_lt hi, Or.inl rfl⟩, ⟨devNull_lt hi, Or.inr (Or.inl rfl)⟩,
    fun d hd e he => ⟨hi.g.entLt d hd.1 e he, Or.inr (Or.inr ⟨d, e.1, hd.1, he⟩)⟩⟩

theorem resolve_ref {s : FS} (hi : Inv s) {p : Str} {f c : Bool} {x : Ref} (h : s.resolve p f c = .ok x) (h1 : x ≠ rootRef)
    (h2 : x ≠ devNullRef) : ∃ d nm, d < s.next ∧ (nm, x) ∈ (s.heap d).entries := by
  rcases ((closed_ref hi).resolve h).2 with h | h | h
  · exact absurd h h1
  · exact absurd h h2
  · exact h

/-- An existing object `r` got the additional name `nm` in the directory `d`. -/
structure Linked (s s' : FS) (d : Ref) (nm : Str) (r : Ref) : Prop where
  added : Added s s' d nm r
  lt : r < s.next
  file : (s.heap r).isDir = false
  obj : s'.heap r = { s.heap r with name := nm, parent := some d, nlink := (s.heap r).nlink + 1, dev := (s.heap d).dev }
  mounts : s'.mounts = s.mounts
  next : s'.next = s.next
  lastIno : s'.lastIno = s.lastIno

/-- the object gets another name attribute -/
def FS.named (s : FS) (r : Ref) (nm : Str) : FS := s.setObj r fun o => { o with name := nm }

theorem named_heap (s : FS) (r x : Ref) (nm : Str) : (s.named r nm).heap x = { s.heap x with name := if x = r then nm else (s.heap x).name } := by
  unfold FS.named FS.setObj
  by_cases h : x = r
  · subst h; simp [upd_apply]
  · simp [upd_apply, h]

theorem named_agree {s : FS} {r : Ref} (nm : Str) (h : r ≠ devNullRef) : Agree (fun _ => True) s (s.named r nm) := by
  refine ⟨rfl, rfl, rfl, rfl, ?_, ?_, ?_, ?_, ?_⟩
  · unfold FS.devName; rw [named_heap, if_neg (Ne.symm h)]
  · intro x _; rw [named_heap]
  · intro x _; rw [named_heap]; rfl
  · intro x _; rw [named_heap]; rfl
  · intro x _ _; rw [named_heap]; rfl

/-- `add_entry` of an object that has names already. -/
theorem addEntry_old {s : FS} (hi : Inv s) (ht : s.cfg.Tree) {d r : Ref} (hd : d < s.next) (hr : r < s.next) (hf : (s.heap r).isDir = false)
    (href : ∃ x nm, x < s.next ∧ (nm, r) ∈ (s.heap x).entries) (nm : Str) :
    (∃ e, addEntry d r (s.named r nm) = (.error e, s.named r nm)) ∨
    ∃ s', addEntry d r (s.named r nm) = (.ok (), s') ∧ Linked s s' d nm r := by
  obtain ⟨x, k, hx, hk⟩ := href
  have hpos : 0 < refs s.heap s.next r := refs_pos hx hk rfl
  have hnl : (s.heap r).nlink = refs s.heap s.next r := by
    have := (hi.t ht).nlink r hr
    rw [if_neg (by simp [hf])] at this
    simpa using this
  have hino := hi.g.entIno x hx _ hk
  have hH := attach_heap (s.named r nm) d r
  have hM := attach_misc (s.named r nm) d r
  have e1 : ((s.named r nm).heap r).ino = (s.heap r).ino := by rw [named_heap]
  have e2 : ((s.named r nm).heap r).nlink = (s.heap r).nlink := by rw [named_heap]
  have e3 : ((s.named r nm).heap r).name = nm := by rw [named_heap]; simp
  unfold addEntry
  split
  · exact Or.inl ⟨_, rfl⟩
  rename_i hdir
  have hdir : (s.heap d).isDir = true := by
    have : ((s.named r nm).heap d).isDir = (s.heap d).isDir := by rw [named_heap]; rfl
    rw [this] at hdir; simpa using hdir
  have hne : d ≠ r := fun e => by rw [e, hf] at hdir; simp at hdir
  split
  · exact Or.inl ⟨_, rfl⟩
  rename_i hperm
  split
  · exact Or.inl ⟨_, rfl⟩
  rename_i hfree
  have e4 : (s.named r nm).heap d = s.heap d := by rw [named_heap, if_neg hne]
  rw [e4] at hperm hfree
  rw [e3] at hfree
  right
  refine ⟨(s.named r nm).attach d r, ?_, ?_⟩
  · have : (((s.named r nm).attach d r).heap r).nlink ≠ 1 := by
      rw [hH r]; simp only [if_neg hne.symm, if_true, e2]; rw [hnl]; omega
    simp only [if_neg this]
  · refine ⟨⟨?_, ?_, hd, hdir, hne, ?_, by simpa using hfree, ?_, ?_⟩, hr, hf, ?_, ?_, ?_, ?_⟩
    · exact Env.trans (b := s.named r nm) rfl (attach_env _ d r)
    · rw [hM.1]; exact Nat.le_refl _
    · have hroot : (s.named r nm).isRoot = s.isRoot := rfl
      rw [hroot] at hperm
      cases hr : s.isRoot with
      | true => exact Or.inl rfl
      | false =>
        right; left
        intro h0
        exact hperm ⟨hr, h0, ht.posix.win⟩
    · rw [hH d]
      simp only [if_true, eq_false hne, false_and, if_false, e4, e3, Int.add_zero]
    · intro y hy h1 h2
      rw [hH y, named_heap]
      simp only [eq_false h1, eq_false h2, false_and, if_false, Int.add_zero]
    · rw [hH r]
      simp only [eq_false hne.symm, if_true, if_false, true_and, e1, eq_false hino, e4, Int.add_zero]
      rw [named_heap]; simp
    · rw [hM.2.2.1]; rfl
    · rw [hM.1]; rfl
    · rw [hM.2.2.2.2.2.2.2.2.2.2, e1, if_neg hino]; rfl

/-- `os.link` on POSIX filesystems: an error changes at most the name attribute of the object. -/
theorem link_spec {s : FS} (hi : Inv s) (ht : s.cfg.Tree) (old new : Str) (follow : Bool)
    (hdev : s.resolve old follow ≠ .ok devNullRef) :
    wp (link old new follow) (fun res s' =>
      (∃ e, res = .error e ∧ (s' = s ∨ ∃ r nm, s.resolve old follow = .ok r ∧ s' = s.named r nm)) ∨
      ∃ ld nm d r, res = .ok r ∧ s.resolve old follow = .ok r ∧ r ≠ devNullRef ∧ Names s new ld nm d ∧ Linked s s' d nm r ∧
        (s.heap r).mode &&& S_IFDIR = 0) s := by
  unfold link createLink
  apply wp_getBind
  apply wp_readBind
  · intro e _; exact Or.inl ⟨e, rfl, Or.inl rfl⟩
  intro b hb
  apply wp_ite
  · intro _; exact wp_raiseBind (Or.inl ⟨_, rfl, Or.inl rfl⟩)
  intro hb'
  dsimp only
  rcases absCanon_cases (hi.absnorm ht.posix new) with h0 | ⟨names, nm, hn, hnm, h0⟩
  · rw [h0, absPath_nil, existsL_root hi ht.posix] at hb
    injection hb with hb
    exact absurd hb.symm hb'
  rw [h0, splitpath_absPath ht.posix hn hnm]
  dsimp only
  rw [if_neg absPath_ne_nil]
  apply wp_seq (fun _ s' => s' = s)
  · unfold linkParent
    apply wp_readBind
    · intro e _; rfl
    intro b _
    apply wp_ite
    · intro _; rw [if_neg (by simp)]; rfl
    · intro _; rfl
  · rintro e s' rfl; exact Or.inl ⟨e, rfl, Or.inl rfl⟩
  rintro _ s' rfl
  unfold linkTail
  apply wp_getBind
  dsimp only
  apply wp_ite
  · intro _; exact wp_raiseBind (Or.inl ⟨_, rfl, Or.inl rfl⟩)
  intro _
  apply wp_ite
  · intro _; exact wp_raiseBind (Or.inl ⟨_, rfl, Or.inl rfl⟩)
  intro _
  apply wp_seq (fun r s1 => s1 = s' ∧ ∀ x, r = .ok x → s'.resolve old follow = .ok x)
  · unfold catchOS
    apply wp_tryCatch
    apply wp_read
    cases hr : s'.resolve old follow with
    | ok a => exact ⟨rfl, fun x e => e⟩
    | error e =>
      apply wp_ite
      · intro _; exact ⟨rfl, fun x e => by cases e⟩
      · intro _; exact ⟨rfl, fun x e => by cases e⟩
  · rintro e s1 ⟨rfl, _⟩; exact Or.inl ⟨e, rfl, Or.inl rfl⟩
  rintro r s1 ⟨rfl, hr⟩
  have hr := hr r rfl
  have hrd : r ≠ devNullRef := fun e => hdev (by rw [hr, e])
  have hlt := resolve_lt hi hr
  apply wp_getBind
  apply wp_ite
  · intro _; exact wp_raiseBind (Or.inl ⟨_, rfl, Or.inl rfl⟩)
  intro hmode
  have hmode : (s1.heap r).mode &&& S_IFDIR = 0 := by simpa using hmode
  have hfile : (s1.heap r).isDir = false := by
    cases hd : (s1.heap r).isDir with
    | false => rfl
    | true => exact absurd hmode (hi.g.dirMode r hlt hd)
  have hrr : r ≠ rootRef := fun e => by rw [e, hi.g.rootDir] at hfile; simp at hfile
  apply wp_modifyBind
  refine (show wp (addObject (absPath s1.cfg.sep names) r >>= fun _ => M.pure r) _ (s1.named r nm) from ?_)
  have hres : (s1.named r nm).resolve (absPath s1.cfg.sep names) = s1.resolve (absPath s1.cfg.sep names) :=
    (named_agree nm hrd).resolve (closed_true s1) _ _ _
  unfold addObject
  rw [if_neg absPath_ne_nil]
  cases hp : s1.resolve (absPath s1.cfg.sep names) with
  | error e =>
    refine wp_bindErr (e := e) (s' := s1.named r nm) ?_ (Or.inl ⟨e, rfl, Or.inr ⟨r, nm, hr, rfl⟩⟩)
    rw [M.bind_eq, rd_eq (hres.trans hp)]
  | ok d =>
    have hdlt := resolve_lt hi hp
    by_cases hdm : ((s1.named r nm).heap d).isDirMode = true
    · have hae := addEntry_old hi ht hdlt hlt hfile (resolve_ref hi hr hrr hrd) nm
      have heq : (do
          let d ← rd (·.resolve (absPath s1.cfg.sep names))
          let s ← M.get
          if !(s.heap d).isDirMode then M.raise (if s.cfg.isWin then .ENOENT else .ENOTDIR)
          addEntry d r : M Unit) (s1.named r nm) = addEntry d r (s1.named r nm) := by
        rw [M.bind_eq, rd_eq (hres.trans hp)]
        show (if (!((s1.named r nm).heap d).isDirMode) = true then _ else addEntry d r : M Unit) (s1.named r nm) = _
        rw [if_neg (by rw [hdm]; simp)]
      rcases hae with ⟨e, he⟩ | ⟨s', he, hL⟩
      · exact wp_bindErr (heq.trans he) (Or.inl ⟨e, rfl, Or.inr ⟨r, nm, hr, rfl⟩⟩)
      · refine wp_bindOk (heq.trans he) ?_
        obtain ⟨ld, hld⟩ := resolve_loc hi ht hp (isDir_ne_devNull hi hL.added.dir)
        exact Or.inr ⟨ld, nm, d, r, rfl, hr, hrd, ⟨⟨names, hn, hnm, h0, resolve_weaken hi ht hp⟩, hL.added.dir, hld⟩, hL, hmode⟩
    · refine wp_bindErr (e := .os .ENOTDIR) (s' := s1.named r nm) ?_ (Or.inl ⟨_, rfl, Or.inr ⟨r, nm, hr, rfl⟩⟩)
      rw [M.bind_eq, rd_eq (hres.trans hp)]
      show (if (!((s1.named r nm).heap d).isDirMode) = true then _ else addEntry d r : M Unit) (s1.named r nm) = _
      rw [if_pos (by simpa using hdm)]
      show ((.error (.os (if s1.cfg.isWin then .ENOENT else .ENOTDIR)), s1.named r nm) : Except Err Unit × FS) = _
      rw [ht.posix.win]; rfl

end Verif
