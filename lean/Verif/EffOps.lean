import Verif.Eff
import Verif.Props.Lookup
import Verif.Props.Attr
/-!
# Adding an object to a directory: exact effects
-/

namespace Verif
open Py Spec Cfg

namespace Spec
/-- `p` names the entry `nm` of the directory `d`, which is at the location `ld` of the tree: the normalised path is a
directory part, which resolves to `d`, and the name `nm`.  The last component is not followed. -/
structure Names (s : FS) (p : Str) (ld : List Str) (nm : Str) (d : Ref) : Prop where
  split : ∃ names, (∀ w ∈ names, Proper s.cfg.sep w) ∧ Proper s.cfg.sep nm ∧
    s.absnorm p = absPath s.cfg.sep (names ++ [nm]) ∧ s.resolve (absPath s.cfg.sep names) true false = .ok d
  dir : (s.heap d).isDir = true
  loc : walk s.heap rootRef ld = some d

/-- No device is over its limit. -/
def Within (s : FS) : Prop := ∀ m ∈ s.mounts, ∀ t, m.total = some t → m.used ≤ t
end Spec

theorem resolve_weaken {s : FS} (hi : Inv s) (ht : s.cfg.Tree) {p : Str} {x : Ref} (h : s.resolve p true true = .ok x) :
    s.resolve p true false = .ok x := by
  rw [FS.resolve, FS.resolveFG, if_pos rfl] at h ⊢
  rw [resolveG_ok hi ht] at h ⊢
  obtain ⟨h1, h2, h3⟩ := h
  refine ⟨h1, h2, ?_⟩
  rcases h3 with h3 | h3 | ⟨h3, h4, cs, h5, h6⟩
  · exact Or.inl h3
  · exact Or.inr (Or.inl h3)
  · refine Or.inr (Or.inr ⟨h3, h4, cs, h5, ?_⟩)
    rcases h6 with h6 | ⟨a, b, c, _⟩
    · exact Or.inl h6
    · exact Or.inr ⟨a, b, c, fun y _ => Or.inr (Or.inl rfl)⟩

theorem resolve_loc {s : FS} (hi : Inv s) (ht : s.cfg.Tree) {p : Str} {c : Bool} {x : Ref} (h : s.resolve p true c = .ok x)
    (hx : x ≠ devNullRef) : ∃ ld, walk s.heap rootRef ld = some x := by
  rw [FS.resolve, FS.resolveFG, if_pos rfl, resolveG_ok hi ht] at h
  obtain ⟨_, _, h3⟩ := h
  rcases h3 with ⟨_, h3⟩ | ⟨_, _, h3⟩ | ⟨_, _, cs, _, h6⟩
  · exact ⟨[], by rw [h3]; rfl⟩
  · exact absurd h3 hx
  · rcases h6 with ⟨_, _, h6⟩ | ⟨_, h6, _⟩
    · exact absurd h6 hx
    · exact ⟨cs, h6⟩

theorem changeUsed_zero (i : Nat) : ∀ ms, changeUsed i 0 ms = ms := by
  intro ms
  induction ms with
  | nil => rfl
  | cons m ms ih =>
    unfold changeUsed
    split
    · simp
    · rw [ih]

theorem changeDiskUsage_zero {s : FS} (hw : Within s) (dev : Option Nat) : changeDiskUsage 0 dev s = (.ok (), s) := by
  unfold changeDiskUsage
  split
  · rename_i i m hm
    split
    · rename_i t ht
      have hmem : m ∈ s.mounts := by
        unfold mountForDev at hm
        exact List.mem_of_find?_eq_some hm
      have := hw m hmem t ht
      rw [if_neg (by omega), changeUsed_zero]
    · rw [changeUsed_zero]
  · rfl

theorem attach_env (s : FS) (d c : Ref) : Env s (s.attach d c) := by
  unfold FS.attach
  dsimp only
  split <;> rfl

/-- The new object put into directory `d` of `s0`. -/
def freshObj (s0 : FS) (o : Obj) (d : Ref) : Obj :=
  { o with parent := some d, ino := some (s0.lastIno + 1), nlink := o.nlink + 1, dev := (s0.heap d).dev }

/-- The reasons for which `add_entry` of the name `nm` to the object `d` is refused. -/
def Spec.AddRefused (s : FS) (d : Ref) (nm : Str) (e : Err) : Prop :=
  (e = .attributeError ∧ (s.heap d).isDir = false) ∨
  (e = .os .EACCES ∧ s.isRoot = false ∧ (s.heap d).mode &&& PERM_WRITE = 0) ∨
  (e = .os .EEXIST ∧ (alookup nm (s.heap d).entries).isSome)

/-- `add_entry` of an object just made. -/
theorem addEntry_new {s0 : FS} (hi : Inv s0) (hw : Within s0) (ht : s0.cfg.Tree) {o : Obj} {d : Ref} (hd : d < s0.next)
    (hent : o.entries = []) (hnl : o.nlink = if o.isDir then 1 else 0) (hino : o.ino = none) (hsz : o.size = 0)
    {s : FS} (hs : s = { s0 with heap := upd s0.heap s0.next o, next := s0.next + 1 }) :
    (∃ e, addEntry d s0.next s = (.error e, s) ∧ AddRefused s0 d o.name e) ∨
    ∃ s', addEntry d s0.next s = (.ok (), s') ∧ Added s0 s' d o.name s0.next ∧ s'.heap s0.next = freshObj s0 o d ∧
      s'.mounts = s0.mounts ∧ s'.next = s0.next + 1 ∧ s'.lastIno = s0.lastIno + 1 := by
  have hne : d ≠ s0.next := Nat.ne_of_lt hd
  have e1 : s.heap d = s0.heap d := by rw [hs]; exact upd_ne _ _ hne
  have e2 : s.heap s0.next = o := by rw [hs]; exact upd_same _ _ _
  have er : s.isRoot = s0.isRoot := by rw [hs]; rfl
  unfold addEntry
  split
  · rename_i h; rw [e1] at h; exact Or.inl ⟨_, rfl, Or.inl ⟨rfl, h⟩⟩
  rename_i hdir
  split
  · rename_i h; rw [e1, er] at h; exact Or.inl ⟨_, rfl, Or.inr (Or.inl ⟨rfl, h.1, h.2.1⟩)⟩
  rename_i hperm
  split
  · rename_i h; rw [e1, e2] at h; exact Or.inl ⟨_, rfl, Or.inr (Or.inr ⟨rfl, h⟩)⟩
  rename_i hfree
  right
  rw [e1] at hdir hperm hfree
  rw [e2] at hfree
  have hM := attach_misc s d s0.next
  have hH := attach_heap s d s0.next
  generalize hsa : s.attach d s0.next = sa at *
  have hmn : sa.mounts = s0.mounts := by rw [hM.2.2.1, hs]
  have hsize : sa.sizeOf (sa.next + 1) s0.next = 0 := by
    have hc := hH s0.next
    unfold FS.sizeOf
    have hcont : (sa.heap s0.next).content = o.content := by
      rw [hc]; simp only [if_neg hne.symm, e2]
    rw [hcont]
    cases hco : o.content with
    | file b =>
      simp only
      have : (sa.heap s0.next).size = 0 := by rw [hc]; simp only [e2, hsz]
      unfold FS.stSize; split <;> simp [this]
    | dir es =>
      have : es = [] := by rw [← mem_entries hco]; exact hent
      rw [this]; rfl
  have hcu : ∀ b : Bool, (if b = true then changeDiskUsage (sa.sizeOf (sa.next + 1) s0.next) (sa.heap d).dev sa else (.ok (), sa)) =
      (.ok (), sa) := by
    intro b
    rw [hsize]
    have hw' : Within sa := by unfold Within; rw [hmn]; exact hw
    have := changeDiskUsage_zero hw' (sa.heap d).dev
    cases b
    · rfl
    · exact this
  refine ⟨sa, ?_, ?_, ?_, hmn, by rw [hM.1, hs], ?_⟩
  · have := hcu (decide ((sa.heap s0.next).nlink = 1))
    simp only [decide_eq_true_eq] at this
    exact this
  · have hsenv : Env s0 s := by rw [hs]; rfl
    refine ⟨?_, ?_, hd, by simpa using hdir, hne, ?_, ?_, ?_, ?_⟩
    · refine hsenv.trans ?_
      rw [← hsa]; exact attach_env s d s0.next
    · rw [hM.1, hs]; exact Nat.le_succ _
    · have hroot : s.isRoot = s0.isRoot := by rw [hs]; rfl
      rw [hroot] at hperm
      cases hr : s0.isRoot with
      | true => exact Or.inl rfl
      | false =>
        right; left
        intro h0
        exact hperm ⟨hr, h0, by rw [hs]; exact ht.posix.win⟩
    · simpa using hfree
    · rw [hH d]
      simp only [if_true, eq_false hne, false_and, if_false, e1, e2, Int.add_zero]
    · intro x hx hxd hxc
      rw [hH x]
      have : s.heap x = s0.heap x := by rw [hs]; exact upd_ne _ _ hxc
      simp only [eq_false hxd, eq_false hxc, false_and, if_false, this, Int.add_zero]
  · rw [hH]
    have hli : s.lastIno = s0.lastIno := by rw [hs]
    simp only [if_neg hne.symm, if_true, e2, e1, hino, and_self, freshObj, hli, Int.add_zero]
  · rw [hM.2.2.2.2.2.2.2.2.2.2, e2, if_pos hino, hs]

/-- The object `o` was made (as number `s.next`) and put into the directory `d`; nothing else changed. -/
structure Made (s s' : FS) (d : Ref) (nm : Str) (o : Obj) : Prop where
  added : Added s s' d nm s.next
  obj : s'.heap s.next = freshObj s o d
  mounts : s'.mounts = s.mounts
  next : s'.next = s.next + 1
  lastIno : s'.lastIno = s.lastIno + 1

theorem new_same (s : FS) (o : Obj) : Same s { s with heap := upd s.heap s.next o, next := s.next + 1 } :=
  ⟨rfl, Nat.le_succ _, fun _ hx => upd_ne _ _ (Nat.ne_of_lt hx), rfl⟩

theorem Made.newName {s s' : FS} (hi : Inv s) {d : Ref} {nm : Str} {o : Obj} (h : Made s s' d nm o) {ld : List Str}
    (hld : walk s.heap rootRef ld = some d) (ho : o.entries = []) : NewName s s' (ld ++ [nm]) s.next :=
  h.added.newName hi hld (by rw [h.obj]; exact ho) (fun h => absurd h (Nat.lt_irrefl _))

theorem isDir_ne_devNull {s : FS} (hi : Inv s) {d : Ref} (h : (s.heap d).isDir = true) : d ≠ devNullRef := by
  rintro rfl; rw [hi.n.devFile] at h; simp at h

/-- `add_object` of an object just made. -/
theorem addObject_new {s0 : FS} (hi : Inv s0) (hw : Within s0) (ht : s0.cfg.Tree) {o : Obj}
    (hent : o.entries = []) (hnl : o.nlink = if o.isDir then 1 else 0) (hino : o.ino = none) (hsz : o.size = 0) {s : FS}
    (hs : s = { s0 with heap := upd s0.heap s0.next o, next := s0.next + 1 }) {names : List Str} :
    (∃ e, addObject (absPath s0.cfg.sep names) s0.next s = (.error e, s) ∧
      (s0.resolve (absPath s0.cfg.sep names) = .error e ∨ ∃ d, s0.resolve (absPath s0.cfg.sep names) = .ok d ∧
        (e = .os .ENOTDIR ∧ (s0.heap d).isDirMode = false ∨ (s0.heap d).isDirMode = true ∧ AddRefused s0 d o.name e))) ∨
    ∃ s' d ld, addObject (absPath s0.cfg.sep names) s0.next s = (.ok (), s') ∧
      s0.resolve (absPath s0.cfg.sep names) = .ok d ∧ walk s0.heap rootRef ld = some d ∧ (s0.heap d).isDir = true ∧
      Made s0 s' d o.name o := by
  have hres : s.resolve (absPath s0.cfg.sep names) = s0.resolve (absPath s0.cfg.sep names) := by
    rw [hs]; exact ((new_same s0 o).agree hi).resolve (Closed.lt hi) _ _ _
  have key : wp (addObject (absPath s0.cfg.sep names) s0.next) (fun r s' => (∃ e, r = .error e ∧ s' = s ∧
      (s0.resolve (absPath s0.cfg.sep names) = .error e ∨ ∃ d, s0.resolve (absPath s0.cfg.sep names) = .ok d ∧
        (e = .os .ENOTDIR ∧ (s0.heap d).isDirMode = false ∨ (s0.heap d).isDirMode = true ∧ AddRefused s0 d o.name e))) ∨
      ∃ d ld, r = .ok () ∧ s0.resolve (absPath s0.cfg.sep names) = .ok d ∧ walk s0.heap rootRef ld = some d ∧
        (s0.heap d).isDir = true ∧ Made s0 s' d o.name o) s := by
    unfold addObject
    rw [if_neg absPath_ne_nil]
    refine wp_readBind ?_ ?_
    · intro e he; rw [hres] at he; exact Or.inl ⟨e, rfl, rfl, Or.inl he⟩
    intro d hd
    rw [hres] at hd
    have hlt := resolve_lt hi hd
    have eh : s.heap d = s0.heap d := by rw [hs]; exact upd_ne _ _ (Nat.ne_of_lt hlt)
    apply wp_getBind
    rw [eh]
    apply wp_ite
    · intro hdm
      have hw : s.cfg.isWin = false := by rw [hs]; exact ht.posix.win
      rw [hw]
      exact wp_raiseBind (Or.inl ⟨_, rfl, rfl, Or.inr ⟨d, hd, Or.inl ⟨rfl, by simpa using hdm⟩⟩⟩)
    intro hdm
    refine (show wp (addEntry d s0.next) _ s from ?_)
    rcases addEntry_new hi hw ht hlt hent hnl hino hsz hs with ⟨e, he, hr⟩ | ⟨s', he, h1, h2, h3, h4, h5⟩
    · unfold wp; rw [he]; exact Or.inl ⟨_, rfl, rfl, Or.inr ⟨d, hd, Or.inr ⟨by simpa using hdm, hr⟩⟩⟩
    · unfold wp; rw [he]
      obtain ⟨ld, hld⟩ := resolve_loc hi ht hd (isDir_ne_devNull hi h1.dir)
      exact Or.inr ⟨d, ld, rfl, hd, hld, h1.dir, h1, h2, h3, h4, h5⟩
  rcases key with ⟨e, h1, h2, h2'⟩ | ⟨d, ld, h1, h2, h3, h4, h5⟩
  · exact Or.inl ⟨e, Prod.ext h1 h2, h2'⟩
  · exact Or.inr ⟨_, d, ld, Prod.ext h1 rfl, h2, h3, h4, h5⟩

/-- `mkdir` on Linux: an error changes nothing; success makes one new empty directory. -/
theorem mkdir_spec {s : FS} (hi : Inv s) (hw : Within s) (ht : s.cfg.Tree) (hm : s.cfg.isMac = false) (p : Str) (mode : Nat) :
    wp (mkdir p mode) (fun r s' => (∃ e, r = .error e ∧ Same s s') ∨
      ∃ ld nm d, r = .ok () ∧ Names s (s.cfg.stripTrailing p) ld nm d ∧
        Made s s' d nm (mkDirObj nm (andNot mode s.umask) s)) s := by
  unfold mkdir
  apply wp_getBind
  apply wp_ite
  · intro _; exact wp_raiseBind (Or.inl ⟨_, rfl, Same.refl s⟩)
  intro hp
  dsimp only
  have hwin := ht.posix.win
  simp only [hwin, Bool.false_eq_true, if_false]
  apply wp_readBind
  · intro e _; exact Or.inl ⟨e, rfl, Same.refl s⟩
  intro _ _
  apply wp_readBind
  · intro e _; exact Or.inl ⟨e, rfl, Same.refl s⟩
  intro b hb
  apply wp_ite
  · intro _
    apply wp_readBind
    · intro e _; exact Or.inl ⟨e, rfl, Same.refl s⟩
    intro b2 hb2
    apply wp_ite
    · intro h2
      unfold FS.mkdirBroken at hb2
      rw [hm, Bool.and_false, if_neg (by simp)] at hb2
      injection hb2 with hb2
      exact absurd (hb2.trans h2) (by simp)
    · intro _; exact Or.inl ⟨_, rfl, Same.refl s⟩
  intro hb'
  rcases absCanon_cases (hi.absnorm ht.posix (s.cfg.stripTrailing p)) with h0 | ⟨names, nm, hn, hnm, h0⟩
  · rw [h0, absPath_nil, existsL_root hi ht.posix] at hb
    injection hb with hb
    exact absurd hb.symm hb'
  rw [h0]
  unfold mkdirTail
  apply wp_getBind
  rw [splitpath_absPath ht.posix hn hnm]
  show wp (newObj _ >>= fun d => addObject (absPath s.cfg.sep names) d) _ s
  apply wp_bind
  change wp (addObject (absPath s.cfg.sep names) s.next) (fun r s' => (∃ e, r = .error e ∧ Same s s') ∨
      ∃ ld nm d, r = .ok () ∧ Names s (s.cfg.stripTrailing p) ld nm d ∧
        Made s s' d nm (mkDirObj nm (andNot mode s.umask) s))
    { s with heap := upd s.heap s.next (mkDirObj nm (andNot mode s.umask) s), next := s.next + 1 }
  rcases addObject_new (o := mkDirObj nm (andNot mode s.umask) s) hi hw ht rfl rfl rfl rfl rfl (names := names) with
    ⟨e, he, _⟩ | ⟨s', d, ld, he, h1, h2, h3, h4⟩
  · unfold wp; rw [he]; exact Or.inl ⟨e, rfl, new_same s _⟩
  · unfold wp; rw [he]
    exact Or.inr ⟨ld, nm, d, rfl, ⟨⟨names, hn, hnm, h0, resolve_weaken hi ht h1⟩, h3, h2⟩, h4⟩

/-! ## Paths after adding -/

theorem Sub.lresolve {s s' : FS} (hs : Sub s' s) (hi' : Inv s') (hi : Inv s) (h : s.cfg.Tree) {p : Str} {x : Ref}
    (hr : s'.lresolve p = .ok x) : s.lresolve p = .ok x := by
  unfold FS.lresolve FS.lresolveG at *
  rw [hs.cfg] at hr
  split at hr
  · simp at hr
  rename_i h1
  rw [if_neg h1]
  split at hr
  · rename_i h2; rw [if_pos h2]; exact hr
  rename_i h2
  rw [if_neg h2]
  have hp : s'.lparent p = s.lparent p := by
    unfold FS.lparent
    dsimp only
    rw [originalPath_tree h.cs, originalPath_tree (s := s') (by rw [hs.cfg]; exact h.cs), hs.cfg, hs.cwd]
  rw [hp] at hr
  obtain ⟨r, h3, h4⟩ := except_bind_ok hr
  have hlt : r < s'.next := resolve_lt hi' (f := true) (c := true) h3
  have hdir : (s'.heap r).isDir = true := by
    unfold FS.lentry at h4
    unfold Obj.isDir
    split at h4
    · split at h4 <;> simp at h4
    · rename_i hc; rw [hc]
  have hne : r ≠ devNullRef := isDir_ne_devNull hi' hdir
  have h5 := hs.resolve hi' hi h (c := true) h3 hne
  have h5' : s.resolveG s.rc (s.lparent p).1 true = .ok r := h5
  rw [h5']
  show s.lentry r _ = _
  unfold FS.lentry at h4 ⊢
  rcases content_cases (s'.heap r) with ⟨hf, _⟩ | ⟨_, hc⟩
  · rw [hf] at hdir; simp at hdir
  rw [hc] at h4
  simp only at h4
  split at h4
  · simp at h4
  rename_i hm
  rw [hs.mode r hlt] at hm
  have hd : (s.heap r).isDir = true := by rw [← hs.kind r hlt]; exact hdir
  rcases content_cases (s.heap r) with ⟨hf, _⟩ | ⟨_, hc2⟩
  · rw [hf] at hd; simp at hd
  rw [hc2]
  simp only [hm, if_false]
  split at h4
  · rename_i hch; rw [if_pos hch]; exact h4
  rename_i hch
  rw [if_neg hch]
  rw [getEntry_tree (s := s') (by rw [hs.cfg]; exact h.cs)] at h4
  rw [getEntry_tree h.cs]
  cases ha : alookup (s.lparent p).2 (s'.heap r).entries with
  | none => rw [ha] at h4; simp at h4
  | some y => rw [ha] at h4; rw [hs.ent r hlt _ _ ha]; exact h4

/-- Everything there before is still found. -/
theorem Added.sub {s s' : FS} (hi : Inv s) {d c : Ref} {nm : Str} (h : Added s s' d nm c) (hc : c ≠ devNullRef)
    (hcm : c < s.next → (s'.heap c).mode = (s.heap c).mode ∧ (s'.heap c).content = (s.heap c).content) : Sub s s' where
  cfg := by rw [h.env]
  limit := by rw [h.env]
  cwd := by rw [h.env]
  uid := by rw [h.env]
  devName := by
    unfold FS.devName
    rw [h.others devNullRef (devNull_lt hi) (fun e => isDir_ne_devNull hi h.dir e.symm) (Ne.symm hc)]
  ent x hx n y hy := by
    by_cases e1 : x = d
    · subst e1; rw [h.entries, alookup_snoc, hy]
    · by_cases e2 : x = c
      · subst e2; unfold Obj.entries at *; rw [(hcm hx).2]; exact hy
      · rw [h.others x hx e1 e2]; exact hy
  mode x hx := by
    by_cases e1 : x = d
    · subst e1; rw [h.parent]
    · by_cases e2 : x = c
      · subst e2; rw [(hcm hx).1]
      · rw [h.others x hx e1 e2]
  kind x hx := by
    by_cases e1 : x = d
    · subst e1; rw [h.parent, h.dir]; rfl
    · by_cases e2 : x = c
      · subst e2; unfold Obj.isDir; rw [(hcm hx).2]
      · rw [h.others x hx e1 e2]
  target x hx hl := by
    by_cases e1 : x = d
    · subst e1
      have hd := h.dir
      have : (s'.heap x).isDir = true := by rw [h.parent]; rfl
      unfold FS.linkTarget
      unfold Obj.isDir at hd this
      revert hd this
      cases (s.heap x).content <;> cases (s'.heap x).content <;> simp
    · by_cases e2 : x = c
      · subst e2; unfold FS.linkTarget; rw [(hcm hx).2]; rw [h.env]
      · rw [h.others x hx e1 e2]; unfold FS.linkTarget; rw [h.env]

/-- Resolving a prefix and then names without links. -/
theorem resolveComps_append {s : FS} (cs : s.cfg.caseSens = true) {b : List Str} : ∀ (n : Nat) (a r : List Str),
    s.resolveComps n a = .ok r → (walk s.heap rootRef r).isSome → NoLink s.heap rootRef (r ++ b) →
    s.resolveComps n (a ++ b) = .ok (r ++ b) := by
  intro n
  induction n with
  | zero =>
    intro a r h hw hn
    rw [resolveComps_eq] at h
    rcases scan_cases cs a with ⟨h1, h2⟩ | ⟨pre, c, t, rest, h1, h2⟩
    · rw [h2] at h
      injection h with h; subst h
      exact resolveComps_noLink cs hn _
    · rw [h2] at h; simp at h
  | succ n ih =>
    intro a r h hw hn
    rw [resolveComps_eq] at h
    rcases scan_cases cs a with ⟨h1, h2⟩ | ⟨pre, c, t, rest, h1, h2⟩
    · rw [h2] at h
      injection h with h; subst h
      exact resolveComps_noLink cs hn _
    · rw [h2] at h
      simp only at h
      rw [resolveComps_eq]
      obtain ⟨e1, e2, e3, e4⟩ := h1
      have := scan_link_iff cs (a ++ b) rootRef [] pre (rest ++ b) c t (by rw [e1]; simp) e2 e3 e4
      simp only [List.reverse_nil, List.nil_append] at this
      rw [this]
      simp only
      have := ih _ r h hw hn
      rw [List.append_assoc] at this
      exact this

theorem through_append {hp : Ref → Obj} {b : List Str} : ∀ {a : List Str} {r x : Ref}, walk hp r a = some x →
    (Through hp r (a ++ b) ↔ Through hp r a ∧ Through hp x b) := by
  intro a
  induction a with
  | nil => intro r x h; simp only [walk, Option.some.injEq] at h; subst h; simp [Through]
  | cons c a ih =>
    intro r x h
    simp only [walk] at h
    cases ha : alookup c (hp r).entries with
    | none => rw [ha] at h; simp at h
    | some y =>
      rw [ha] at h
      simp only [Option.bind_some] at h
      simp only [List.cons_append, Through, ha, Option.some.injEq, forall_eq']
      rw [ih h]
      constructor
      · rintro ⟨h1, h2, h3⟩; exact ⟨⟨h1, h2⟩, h3⟩
      · rintro ⟨⟨h1, h2⟩, h3⟩; exact ⟨h1, h2, h3⟩

theorem validRel_names {s : FS} (hp : s.cfg.Posix) (k : FS.Rec) {l : List Str} (hl : ∀ w ∈ l, Plain s.cfg.sep w) :
    s.validRelG k (absPath s.cfg.sep l) = .ok true := validRel_plain hp k hl

/-- A path to an entry that is not a link leads to it if its directory part leads to the directory. -/
theorem resolve_child {s : FS} (hi : Inv s) (ht : s.cfg.Tree) {names ld : List Str} {nm : Str} {d c : Ref}
    (hn : ∀ w ∈ names ++ [nm], Plain s.cfg.sep w) (hr : s.resolve (absPath s.cfg.sep names) true false = .ok d)
    (hdm : (s.heap d).isDirMode = true) (hdir : (s.heap d).isDir = true) (hld : walk s.heap rootRef ld = some d)
    (hc : alookup nm (s.heap d).entries = some c) (hl : (s.heap c).isLnk = false)
    (hdev : absPath s.cfg.sep (names ++ [nm]) ≠ s.devName) (hdev2 : absPath s.cfg.sep (ld ++ [nm]) ≠ s.devName) :
    s.resolve (absPath s.cfg.sep (names ++ [nm])) true false = .ok c := by
  have hnp : ∀ w ∈ names, Proper s.cfg.sep w := fun w hw => (hn w (by simp [hw])).1
  have hnp' : ∀ w ∈ names ++ [nm], Proper s.cfg.sep w := plain_proper hn
  have hmn : Proper s.cfg.sep nm := (hn nm (by simp)).1
  have hne := isDir_ne_devNull hi hdir
  have hlast : walk s.heap rootRef (ld ++ [nm]) = some c := by rw [walk_append, hld]; simp [walk, hc]
  have hread : ∀ y ∈ walked s.heap rootRef (ld ++ [nm]), s.readable false y := fun y _ => Or.inr (Or.inl rfl)
  have key : ∃ cs, s.resolveComps FS.maxLinks names = .ok cs ∧ walk s.heap rootRef cs = some d ∧ NoLink s.heap rootRef cs ∧
      Through s.heap rootRef cs := by
    rw [FS.resolve, FS.resolveFG, if_pos rfl, resolveG_ok hi ht] at hr
    obtain ⟨_, _, h3⟩ := hr
    rw [absnorm_canon hi ht.posix (absCanon_names hnp)] at h3
    rcases h3 with ⟨h3, h4⟩ | ⟨_, _, h3⟩ | ⟨h3, h4, cs, h5, h6⟩
    · have : names = [] := (absPath_eq_root (fun w hw => proper_compOk (hnp w hw))).mp h3
      subst this; subst h4
      exact ⟨[], resolveComps_noLink (l := []) ht.cs trivial _, rfl, trivial, trivial⟩
    · exact absurd h3 hne
    · rw [pathComponents_absPath ht.posix hnp] at h5
      rcases h6 with ⟨_, _, h6⟩ | ⟨_, h6, h7, _⟩
      · exact absurd h6 hne
      · exact ⟨cs, h5, h6, (resolveComps_ok ht.cs ht.posix _ _ _ (fun w hw => proper_compOk (hnp w hw)) h5).2, h7⟩
  obtain ⟨cs, h1, h2, h3, h4⟩ := key
  have hcs : cs = ld := walk_dir_unique hi cs ld h2 hld hdir
  subst hcs
  have hnl : NoLink s.heap rootRef (cs ++ [nm]) := by
    rw [noLink_append]
    refine ⟨h3, fun x hx => ?_⟩
    rw [h2] at hx; injection hx with hx; subst hx
    intro y hy
    rw [hc] at hy; injection hy with hy; subst hy
    exact ⟨hl, trivial⟩
  have h5 := resolveComps_append ht.cs _ _ _ h1 (by rw [h2]; rfl) hnl
  rw [FS.resolve, FS.resolveFG, if_pos rfl, resolveG_ok hi ht]
  refine ⟨absPath_ne_nil, validRel_plain ht.posix _ hn, Or.inr (Or.inr ?_)⟩
  rw [absnorm_canon hi ht.posix (absCanon_names hnp'), pathComponents_absPath ht.posix hnp']
  refine ⟨absPath_snoc_ne_root hnp hmn, hdev, cs ++ [nm], h5, Or.inr ⟨Or.inr hdev2, hlast, ?_, hread⟩⟩
  rw [through_append h2]
  exact ⟨h4, hdm, fun x _ => trivial⟩

end Verif
