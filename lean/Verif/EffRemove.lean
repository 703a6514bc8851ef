import Verif.EffOps
/-!
# Removing an entry: exact effects
-/

namespace Verif
open Py Spec Cfg

namespace Spec
/-- the used size of the device `dev` changes by `c` -/
def charge (dev : Option Nat) (c : Int) (ms : List Mount) : List Mount :=
  match dev with
  | none => ms
  | some i => changeUsed i c ms
end Spec

theorem changeUsed_none {i : Nat} {c : Int} : ∀ {ms : List Mount}, ms.find? (fun m => m.idev == i) = none → changeUsed i c ms = ms := by
  intro ms
  induction ms with
  | nil => intro _; rfl
  | cons m ms ih =>
    intro h
    simp only [List.find?_cons] at h
    split at h
    · simp at h
    · rename_i hne
      unfold changeUsed
      rw [if_neg (by simpa using hne), ih h]

/-- `change_disk_usage`: the device is charged, or it raises ENOSPC because too little is left. -/
theorem changeDiskUsage_cases (c : Int) (dev : Option Nat) (s : FS) :
    changeDiskUsage c dev s = (.ok (), { s with mounts := charge dev c s.mounts }) ∨
    (changeDiskUsage c dev s = (.error (.os .ENOSPC), s) ∧ ∃ m ∈ s.mounts, ∃ t, m.total = some t ∧ t - m.used < c) := by
  unfold changeDiskUsage charge
  cases dev with
  | none => left; rfl
  | some i =>
    cases h : s.mounts.find? (fun m => m.idev == i) with
    | none =>
      have hm : mountForDev (some i) s.mounts = none := h
      left; simp only [hm, changeUsed_none h]
    | some m =>
      have hm : mountForDev (some i) s.mounts = some m := h
      cases ht : m.total with
      | none => left; simp only [hm, ht]
      | some t =>
        by_cases hlt : t - m.used < c
        · right
          refine ⟨?_, m, List.mem_of_find?_eq_some h, t, ht, hlt⟩
          simp only [hm, ht, if_pos hlt]
        · left
          simp only [hm, ht, if_neg hlt]

theorem changeDiskUsage_nonpos {s : FS} (hw : Within s) {c : Int} (hc : c ≤ 0) (dev : Option Nat) :
    changeDiskUsage c dev s = (.ok (), { s with mounts := charge dev c s.mounts }) := by
  rcases changeDiskUsage_cases c dev s with h | ⟨_, m, hm, t, ht, hlt⟩
  · exact h
  · have := hw m hm t ht; omega

theorem detached_env (s : FS) (d : Ref) (nm : Str) (e : Ref) : s.detached d nm e = { s with heap := (s.detached d nm e).heap } := rfl

theorem entry_ne {s : FS} (hi : Inv s) (ht : s.cfg.Tree) {d e : Ref} (hd : d < s.next) {nm : Str}
    (h : alookup nm (s.heap d).entries = some e) : d ≠ e := by
  rintro rfl
  have hm := alookup_mem h
  have hdir := isDir_of_entry hm
  exact ((hi.t ht).rooted d hd).noCycle (hi.g.dirEnt d hd _ hm hdir).1 .refl

/-- Removing an entry, for a recursive removal one without entries below it. -/
theorem removeEntry_one {s : FS} (hi : Inv s) (hw : Within s) (ht : s.cfg.Tree) {d : Ref} (hd : d < s.next) {nm : Str} (rec : Bool)
    (hone : rec = true → ∀ e, alookup nm (s.heap d).entries = some e → (s.heap e).entries = []) :
    (∃ x, removeEntry d nm rec s = (.error x, s) ∧ (x = .attributeError ∧ (s.heap d).isDir = false ∨
      x = .keyError ∧ alookup nm (s.heap d).entries = none ∨ x = .os .EACCES ∧ (∃ e, alookup nm (s.heap d).entries = some e) ∧
      ¬ (s.isRoot = true ∨ (s.heap d).mode &&& (PERM_WRITE ||| PERM_EXE) = PERM_WRITE ||| PERM_EXE))) ∨
    ∃ s' e, removeEntry d nm rec s = (.ok (), s') ∧ Removed s s' d nm e ∧
      (s.isRoot = true ∨ (s.heap d).mode &&& (PERM_WRITE ||| PERM_EXE) = PERM_WRITE ||| PERM_EXE) ∧
      s'.mounts = if (s.heap e).nlink = 1 ∧ (s.heap e).isDir = false then
        charge (s.heap e).dev (-((s.heap e).size : Int)) s.mounts else s.mounts := by
  have hwin : s.cfg.isWin = false := ht.posix.win
  unfold removeEntry removeEntryF
  split
  · rename_i hdir; exact Or.inl ⟨_, rfl, Or.inl ⟨rfl, by simpa using hdir⟩⟩
  rename_i hdir
  dsimp only
  rw [normEntry_caseSens ht, getEntry_tree ht.cs]
  cases ha : alookup nm (s.heap d).entries with
  | none => exact Or.inl ⟨_, rfl, Or.inr (Or.inl ⟨rfl, rfl⟩)⟩
  | some e =>
    dsimp only
    have hmem := alookup_mem ha
    have hlt := hi.g.entLt d hd _ hmem
    have hne := entry_ne hi ht hd ha
    have hrc : (removeCheck s d e = .error (.os .EACCES) ∧
        ¬ (s.isRoot = true ∨ (s.heap d).mode &&& (PERM_WRITE ||| PERM_EXE) = PERM_WRITE ||| PERM_EXE)) ∨ (removeCheck s d e = .ok () ∧
        (s.isRoot = true ∨ (s.heap d).mode &&& (PERM_WRITE ||| PERM_EXE) = PERM_WRITE ||| PERM_EXE)) := by
      unfold removeCheck
      rw [hwin]
      simp only [Bool.false_eq_true, if_false]
      split
      · rename_i h
        refine Or.inl ⟨rfl, ?_⟩
        rintro (h1 | h1)
        · rw [h1] at h; simp at h
        · exact h.2 h1
      · rename_i h
        refine Or.inr ⟨rfl, ?_⟩
        by_cases hr : s.isRoot = true
        · exact Or.inl hr
        · right
          by_contra h2
          exact h ⟨by simpa using hr, h2⟩
    rcases hrc with ⟨hrc, hperm⟩ | ⟨hrc, hperm⟩
    · rw [hrc]; exact Or.inl ⟨_, rfl, Or.inr (Or.inr ⟨rfl, ⟨e, rfl⟩, hperm⟩)⟩
    rw [hrc]
    dsimp only
    right
    have rem : ∀ ms, Removed s { s.detached d nm e with mounts := ms } d nm e := by
      intro ms
      refine ⟨rfl, rfl, rfl, hd, ha, hne, ?_, ?_, ?_⟩
      · show (s.detached d nm e).heap d = _
        rw [detached_heap]; simp only [if_true, if_neg hne, Int.sub_zero]
      · show (s.detached d nm e).heap e = _
        rw [detached_heap]; simp only [if_true, if_neg (Ne.symm hne), Int.sub_zero]
      · intro x h1 h2
        show (s.detached d nm e).heap x = _
        rw [detached_heap]; simp only [if_neg h1, if_neg h2, Int.sub_zero]
    have hdet := detach_ok hi ht hd hmem
    by_cases hed : (s.heap e).isDir = true
    · refine ⟨s.detached d nm e, e, ?_, rem s.mounts, hperm, ?_⟩
      · cases rec with
        | true =>
          have hloop : (s.heap e).entries.length = 0 := by rw [hone rfl e ha]; rfl
          simp only [hed, Bool.and_self, if_true, hloop]
          exact hdet
        | false =>
          simp only [Bool.false_and, Bool.false_eq_true, if_false]
          -- a directory in the tree has link count 2
          have hnl : (s.heap e).nlink ≠ 1 := by
            have h1 := (hi.t ht).nlink e hlt
            have h2 : 0 < refs s.heap s.next e := refs_pos hd hmem rfl
            rw [h1, if_pos hed]
            omega
          rw [if_neg hnl]; exact hdet
      · rw [if_neg (fun h => by rw [hed] at h; simp at h)]; rfl
    · have hed : (s.heap e).isDir = false := by simpa using hed
      simp only [hed, Bool.and_false, Bool.false_eq_true, if_false]
      by_cases hnl : (s.heap e).nlink = 1
      · simp only [hnl, if_true]
        have hsz : s.sizeOf (s.next + 1) e = (s.heap e).size := by
          unfold FS.sizeOf
          rcases content_cases (s.heap e) with ⟨_, b, hb⟩ | ⟨hb, _⟩
          · rw [hb]; simp only [FS.stSize, hwin, Bool.false_eq_true, and_false, if_false]
          · rw [hed] at hb; simp at hb
        rw [hsz]
        have hcd := changeDiskUsage_nonpos hw (c := -((s.heap e).size : Int)) (by omega) (s.heap e).dev
        refine ⟨{ s.detached d nm e with mounts := charge (s.heap e).dev (-((s.heap e).size : Int)) s.mounts }, e, ?_, rem _, hperm, ?_⟩
        · unfold M.bind
          rw [hcd]
          dsimp only
          unfold detach at hdet ⊢
          dsimp only at hdet ⊢
          by_cases h1 : (((s.setObj d fun o => { o with nlink := o.nlink - 1 }).setObj e fun o => { o with nlink := o.nlink - 1 }).heap e).nlink < 0
          · rw [if_pos h1] at hdet; simp at hdet
          rw [if_neg h1] at hdet
          by_cases h2 : (alookup nm (((s.setObj d fun o => { o with nlink := o.nlink - 1 }).setObj e fun o => { o with nlink := o.nlink - 1 }).heap d).entries).isNone = true
          · rw [if_pos h2] at hdet; simp at hdet
          refine (if_neg h1).trans ((if_neg h2).trans ?_)
          rfl
        · rw [if_pos ⟨hnl, hed⟩]
      · simp only [hnl, if_false]
        exact ⟨s.detached d nm e, e, hdet, rem s.mounts, hperm, (if_neg (fun h => hnl h.1)).symm⟩


/-- What removing an entry needs and gives back. -/
def Spec.mayRemove (s : FS) (d : Ref) : Prop :=
  s.isRoot = true ∨ (s.heap d).mode &&& (PERM_WRITE ||| PERM_EXE) = PERM_WRITE ||| PERM_EXE

instance (s : FS) (d : Ref) : Decidable (Spec.mayRemove s d) := by unfold Spec.mayRemove; infer_instance

/-- The disk usage after the name of `e` was removed: a file whose last name it was gives its size back. -/
def Spec.released (s : FS) (e : Ref) : List Mount :=
  if (s.heap e).nlink = 1 ∧ (s.heap e).isDir = false then
    charge (s.heap e).dev (-((s.heap e).size : Int)) s.mounts else s.mounts

theorem absPath_inj {k : Cfg} (h : k.Posix) {a b : List Str} (ha : ∀ w ∈ a, Proper k.sep w) (hb : ∀ w ∈ b, Proper k.sep w)
    (e : absPath k.sep a = absPath k.sep b) : a = b := by
  rw [← pathComponents_absPath h ha, e, pathComponents_absPath h hb]

theorem absnorm_idem {s : FS} (hi : Inv s) (hp : s.cfg.Posix) (p : Str) : s.absnorm (s.absnorm p) = s.absnorm p :=
  absnorm_canon hi hp (hi.absnorm hp p)

theorem names_absnorm {s : FS} (hi : Inv s) (ht : s.cfg.Tree) {p : Str} {ld : List Str} {nm : Str} {d : Ref} :
    Names s (s.absnorm p) ld nm d ↔ Names s p ld nm d := by
  constructor <;> rintro ⟨⟨names, h1, h2, h3, h4⟩, h5, h6⟩
  · exact ⟨⟨names, h1, h2, by rw [← h3, absnorm_idem hi ht.posix], h4⟩, h5, h6⟩
  · exact ⟨⟨names, h1, h2, by rw [← h3, absnorm_idem hi ht.posix], h4⟩, h5, h6⟩

/-- `remove_object` of an object without entries below it. -/
theorem removeObject_one {s : FS} (hi : Inv s) (hw : Within s) (ht : s.cfg.Tree) {p : Str}
    (hone : ∀ ld nm d e, Names s p ld nm d → alookup nm (s.heap d).entries = some e → (s.heap e).entries = []) :
    wp (removeObject p) (fun r s' => (∃ x, r = .error x ∧ s' = s) ∨
      ∃ ld nm d e, r = .ok () ∧ Names s p ld nm d ∧ Removed s s' d nm e ∧ mayRemove s d ∧ s'.mounts = released s e) s := by
  unfold removeObject
  apply wp_getBind
  rw [originalPath_tree ht.cs]
  apply wp_ite
  · intro _; exact Or.inl ⟨_, rfl, rfl⟩
  intro hr
  rcases absCanon_cases (hi.absnorm ht.posix p) with h0 | ⟨names, nm, hn, hnm, h0⟩
  · rw [h0, absPath_nil] at hr; exact absurd (by unfold Cfg.isRootPath; simp) hr
  rw [h0]
  dsimp only
  rw [splitpath_absPath ht.posix hn hnm]
  apply wp_tryCatch
  have key : wp (do
      let d ← rd (·.resolve (absPath s.cfg.sep names) true false)
      removeEntry d nm true) (fun r s' => (∃ x, r = .error x ∧ s' = s) ∨
      ∃ ld nm d e, r = .ok () ∧ Names s p ld nm d ∧ Removed s s' d nm e ∧ mayRemove s d ∧ s'.mounts = released s e) s := by
    apply wp_readBind
    · intro e _; exact Or.inl ⟨_, rfl, rfl⟩
    intro d hd
    have hlt := resolve_lt hi hd
    have hN : (s.heap d).isDir = true → ∃ ld, Names s p ld nm d := fun hdir => by
      obtain ⟨ld, hld⟩ := resolve_loc hi ht hd (isDir_ne_devNull hi hdir)
      exact ⟨ld, ⟨names, hn, hnm, h0, hd⟩, hdir, hld⟩
    rcases removeEntry_one hi hw ht hlt (nm := nm) true (fun _ e he => by
      obtain ⟨ld, hN⟩ := hN (isDir_of_entry (alookup_mem he))
      exact hone ld nm d e hN he) with ⟨x, hx, _⟩ | ⟨s', e, hx, h1, h2, h3⟩
    · unfold wp; rw [hx]; exact Or.inl ⟨_, rfl, rfl⟩
    · unfold wp; rw [hx]
      obtain ⟨ld, hN⟩ := hN (isDir_of_entry (alookup_mem h1.was))
      exact Or.inr ⟨ld, nm, d, e, rfl, hN, h1, h2, h3⟩
  apply wp_mono key
  intro r s' h
  rcases h with ⟨x, rfl, rfl⟩ | ⟨ld, nm, d, e, rfl, h⟩
  · cases x <;> exact Or.inl ⟨_, rfl, rfl⟩
  · exact Or.inr ⟨ld, nm, d, e, rfl, h⟩

/-! ## Ordinary paths -/

namespace Spec
/-- `p` normalises to a path without names starting with `..` and is not the null device. -/
def Ordinary (s : FS) (p : Str) : Prop :=
  (∃ names, (∀ w ∈ names, Plain s.cfg.sep w) ∧ s.absnorm p = absPath s.cfg.sep names) ∧ s.absnorm p ≠ s.devName

/-- Nothing in the tree is hidden behind the name of the null device. -/
def NoDev (s : FS) : Prop := ∀ l, (∀ w ∈ l, Proper s.cfg.sep w) → absPath s.cfg.sep l = s.devName → walk s.heap rootRef l = none

/-- The type bits of every directory say so, and only those. -/
def Genuine (s : FS) : Prop := ∀ x < s.next, (s.heap x).isDir = (s.heap x).isDirMode
end Spec

theorem walk_proper {s : FS} (hi : Inv s) (hp : s.cfg.Posix) (hm : s.cfg.isMac = false) : ∀ {l : List Str} {r x : Ref}, r < s.next →
    walk s.heap r l = some x → ∀ w ∈ l, Proper s.cfg.sep w := by
  intro l
  induction l with
  | nil => intro r x _ _ w hw; simp at hw
  | cons c l ih =>
    intro r x hr h w hw
    simp only [walk, Option.bind_eq_some_iff] at h
    obtain ⟨y, hy, h⟩ := h
    rcases List.mem_cons.mp hw with rfl | hw
    · exact hi.n.names hp hm r hr _ (alookup_mem hy)
    · exact ih (hi.g.entLt r hr _ (alookup_mem hy)) h w hw

theorem exists_of_resolve {s : FS} (hi : Inv s) (ht : s.cfg.Tree) {p : Str} {c : Bool} {x : Ref}
    (hs : s.cfg.endsWithSep p = false) (hd : s.absnorm p ≠ s.devName) (hx : x ≠ devNullRef)
    (h : s.resolve p true c = .ok x) : s.exists_ p = .ok true := by
  rw [FS.resolve, FS.resolveFG, if_pos rfl, resolveG_ok hi ht] at h
  obtain ⟨h1, h2, h3⟩ := h
  rw [FS.exists_, existsG_true hi ht _ hs]
  refine ⟨h1, Or.inr ⟨h2, ?_⟩⟩
  rcases h3 with ⟨h3, _⟩ | ⟨_, h3, _⟩ | ⟨h3, h4, cs, h5, h6⟩
  · exact Or.inl h3
  · exact absurd h3 hd
  · refine Or.inr (Or.inr ⟨h3, h4, cs, h5, ?_⟩)
    rcases h6 with ⟨_, _, h6⟩ | ⟨_, h6, _⟩
    · exact absurd h6 hx
    · rw [h6]; rfl

/-- A named entry that is not a link is what the path resolves to. -/
theorem names_resolve {s : FS} (hi : Inv s) (ht : s.cfg.Tree) (hg : Genuine s) (hnd : NoDev s) (hm : s.cfg.isMac = false)
    {p : Str} (ho : Ordinary s p)
    {ld : List Str} {nm : Str} {d e : Ref} (h : Names s p ld nm d) (he : alookup nm (s.heap d).entries = some e)
    (hl : (s.heap e).isLnk = false) : s.resolve (s.absnorm p) true false = .ok e := by
  obtain ⟨⟨names, h1, h2, h3, h4⟩, h5, h6⟩ := h
  obtain ⟨⟨names', h7, h8⟩, h9⟩ := ho
  have hp' : ∀ w ∈ names ++ [nm], Proper s.cfg.sep w := by
    intro w hw; rcases List.mem_append.mp hw with hw | hw
    · exact h1 w hw
    · simp at hw; subst hw; exact h2
  have e1 : names ++ [nm] = names' := absPath_inj ht.posix hp' (plain_proper h7) (by rw [← h3, h8])
  have hlt := resolve_lt hi h4
  have hlast : walk s.heap rootRef (ld ++ [nm]) = some e := by rw [walk_append, h6]; simp [walk, he]
  rw [h3]
  refine resolve_child hi ht (by rw [e1]; exact h7) h4 (by rw [← hg d hlt]; exact h5) h5 h6 he hl (by rw [← h3]; exact h9) ?_
  intro hdev
  have := hnd _ (walk_proper hi ht.posix hm (root_lt hi) hlast) hdev
  rw [hlast] at this; simp at this

theorem mem_entries_nil {o : Obj} (h : o.isDir = false) : o.entries = [] := by
  unfold Obj.entries; unfold Obj.isDir at h
  cases hc : o.content <;> simp_all

theorem isDirMode_iff (o : Obj) : o.isDirMode = true ↔ ifmt o.mode = S_IFDIR := by simp [Obj.isDirMode]

theorem lnk_not_dirMode {o : Obj} (h : o.isLnk = true) : o.isDirMode = false := by
  unfold Obj.isLnk at h; unfold Obj.isDirMode
  have h : ifmt o.mode = S_IFLNK := by simpa using h
  rw [h]; decide

/-- The entry `remove` is going to remove is not a directory. -/
theorem removeCheckPath_dir {s : FS} (hi : Inv s) (ht : s.cfg.Tree) (hg : Genuine s) (hnd : NoDev s) (hm : s.cfg.isMac = false)
    {p : Str} (ho : Ordinary s p) (hc : s.removeCheckPath p = .ok ()) {ld : List Str} {nm : Str} {d e : Ref}
    (h : Names s p ld nm d) (he : alookup nm (s.heap d).entries = some e) : (s.heap e).isDirMode = false := by
  by_contra hdm
  have hdm : (s.heap e).isDirMode = true := by simpa using hdm
  have hl : (s.heap e).isLnk = false := by
    by_contra hl
    rw [lnk_not_dirMode (by simpa using hl)] at hdm; simp at hdm
  have hres := names_resolve hi ht hg hnd hm ho h he hl
  have hdlt : d < s.next := by obtain ⟨_, _, _, _, h4⟩ := h.split; exact resolve_lt hi h4
  have helt : e < s.next := hi.g.entLt d hdlt _ (alookup_mem he)
  have hedir : (s.heap e).isDir = true := by rw [hg e helt]; exact hdm
  have hex : s.exists_ (s.absnorm p) = .ok true :=
    exists_of_resolve hi ht (absCanon_not_endsWithSep ht.posix (hi.absnorm ht.posix p))
      (by rw [absnorm_idem hi ht.posix]; exact ho.2) (isDir_ne_devNull hi hedir) hres
  unfold FS.removeCheckPath at hc
  dsimp only at hc
  have hmain : ∀ x : Except Err Unit, (do x; (do
      if (← s.exists_ (s.absnorm p)) = true then
        let r ← s.resolve (s.absnorm p) true false
        if ifmt (s.heap r).mode = S_IFDIR then
          let l ← s.lresolve (s.absnorm p)
          if ifmt (s.heap l).mode ≠ S_IFLNK then
            .error (.os (if s.cfg.isWin then .EACCES else if s.cfg.isMac then .EPERM else .EISDIR))
          if endsWithC s.cfg.sep p then
            .error (.os (if s.cfg.isWin then .EACCES else if s.cfg.isMac then .EPERM else .ENOTDIR))
        else s.raiseForSep p r true false : Except Err Unit)) = .ok () → False := by
    intro x hx
    cases x with
    | error _ => simp [bind, Except.bind] at hx
    | ok _ =>
      have hx : (do
      if (← s.exists_ (s.absnorm p)) = true then
        let r ← s.resolve (s.absnorm p) true false
        if ifmt (s.heap r).mode = S_IFDIR then
          let l ← s.lresolve (s.absnorm p)
          if ifmt (s.heap l).mode ≠ S_IFLNK then
            .error (.os (if s.cfg.isWin then .EACCES else if s.cfg.isMac then .EPERM else .EISDIR))
          if endsWithC s.cfg.sep p then
            .error (.os (if s.cfg.isWin then .EACCES else if s.cfg.isMac then .EPERM else .ENOTDIR))
        else s.raiseForSep p r true false : Except Err Unit) = .ok () := hx
      rw [hex, hres] at hx
      simp only [bind, Except.bind, if_true, (isDirMode_iff _).mp hdm] at hx
      cases hlr : s.lresolve (s.absnorm p) with
      | error e => rw [hlr] at hx; simp at hx
      | ok l =>
        have hle : l = e := by
          obtain ⟨⟨names, h1, h2, h3, h4⟩, h5, h6⟩ := h
          rw [h3] at hlr
          obtain ⟨r, a, b, _, c⟩ := (lresolve_tree ht _ h1 h2).mp hlr
          have a' := resolve_weaken hi ht (p := absPath s.cfg.sep names) a
          rw [h4] at a'; injection a' with a'; subst a'
          rw [he] at c; injection c with c; exact c.symm
        rw [hlr, hle] at hx
        have : ifmt (s.heap e).mode ≠ S_IFLNK := by rw [(isDirMode_iff _).mp hdm]; decide
        simp [this] at hx
  split at hc
  · exact hmain _ hc
  · exact hmain (.ok ()) hc

/-- `remove`/`unlink` on Linux. -/
theorem remove_spec {s : FS} (hi : Inv s) (hw : Within s) (ht : s.cfg.Tree) (hg : Genuine s) (hnd : NoDev s)
    (hm : s.cfg.isMac = false) {p : Str} (ho : Ordinary s p) :
    wp (remove p) (fun r s' => (∃ x, r = .error x ∧ s' = s) ∨
      ∃ ld nm d e, r = .ok () ∧ Names s p ld nm d ∧ Removed s s' d nm e ∧ (s.heap e).isDirMode = false ∧
        mayRemove s d ∧ s'.mounts = released s e) s := by
  unfold remove
  apply wp_readBind
  · intro e _; exact Or.inl ⟨_, rfl, rfl⟩
  intro u hc
  apply wp_getBind
  have hfile : ∀ ld nm d e, Names s p ld nm d → alookup nm (s.heap d).entries = some e → (s.heap e).isDirMode = false :=
    fun ld nm d e hN he => removeCheckPath_dir hi ht hg hnd hm ho hc hN he
  refine wp_mono (removeObject_one hi hw ht (p := s.absnorm p) ?_) ?_
  · intro ld nm d e hN he
    have hN := (names_absnorm hi ht).mp hN
    have hdlt : d < s.next := by obtain ⟨_, _, _, _, h4⟩ := hN.split; exact resolve_lt hi h4
    exact mem_entries_nil ((hg e (hi.g.entLt d hdlt _ (alookup_mem he))).trans (hfile ld nm d e hN he))
  · intro r s' h
    rcases h with ⟨x, rfl, rfl⟩ | ⟨ld, nm, d, e, rfl, h1, h2, h3⟩
    · exact Or.inl ⟨_, rfl, rfl⟩
    · have hN := (names_absnorm hi ht).mp h1
      exact Or.inr ⟨ld, nm, d, e, rfl, hN, h2, hfile _ _ _ _ hN h2.was, h3⟩


theorem hasContents_entries {o : Obj} (h : o.hasContents = false) : o.entries = [] := by
  unfold Obj.hasContents at h; unfold Obj.entries
  cases hc : o.content with
  | file b => rfl
  | dir es => rw [hc] at h; simpa using h

/-- `rmdir` on Linux (as `os.rmdir` calls it). -/
theorem rmdir_spec {s : FS} (hi : Inv s) (hw : Within s) (ht : s.cfg.Tree) (hg : Genuine s) (hnd : NoDev s)
    (hm : s.cfg.isMac = false) {p : Str} (ho : Ordinary s p) :
    wp (rmdir p) (fun r s' => (∃ x, r = .error x ∧ s' = s) ∨
      ∃ ld nm d e, r = .ok () ∧ Names s p ld nm d ∧ Removed s s' d nm e ∧ mayRemove s d ∧ s'.mounts = released s e ∧
        (((s.heap e).isLnk = true ∧ s.isLink (s.absnorm p) = .ok false) ∨
         ((s.heap e).isLnk = false ∧ (s.heap e).mode &&& S_IFDIR ≠ 0 ∧ (s.heap e).hasContents = false))) s := by
  unfold rmdir
  apply wp_readBind
  · intro e _; exact Or.inl ⟨_, rfl, rfl⟩
  intro b hb
  apply wp_getBind
  have hfacts : b = true ∧ s.isLink (s.absnorm p) = .ok false ∧ ∃ r, s.resolve (s.absnorm p) = .ok r ∧
      (s.heap r).mode &&& S_IFDIR ≠ 0 ∧ (s.heap r).hasContents = false := by
    unfold FS.rmdirCheck at hb
    split at hb
    · simp at hb
    dsimp only at hb
    obtain ⟨r, h1, hb⟩ := except_bind_ok hb
    simp only [ht.posix.win, hm, Bool.not_false, if_true, Bool.and_false, Bool.false_eq_true, if_false, Bool.or_true, Bool.and_true] at hb
    obtain ⟨l, h2, hb⟩ := except_bind_ok hb
    unfold FS.confirmdir at h1
    obtain ⟨r1, h3, h4⟩ := except_bind_ok h1
    split at h4
    · simp at h4
    rename_i h5
    injection h4 with h4; subst h4
    cases l with
    | true => simp at hb
    | false =>
      simp only [Bool.false_eq_true, if_false] at hb
      obtain ⟨r2, h6, hb⟩ := except_bind_ok hb
      rw [h3] at h6; injection h6 with h6; subst h6
      split at hb
      · simp at hb
      rename_i h7
      injection hb with hb
      exact ⟨hb.symm, h2, r1, h3, h5, by simpa using h7⟩
  obtain ⟨rfl, hlnk, r0, hr0, hmode, hcont⟩ := hfacts
  rw [if_pos rfl]
  have hcase : ∀ ld nm d e, Names s p ld nm d → alookup nm (s.heap d).entries = some e → (s.heap e).isLnk = false → e = r0 := by
    intro ld nm d e hN he hl
    have h1 := names_resolve hi ht hg hnd hm ho hN he hl
    have h2 := resolve_weaken hi ht hr0
    rw [h1] at h2; injection h2
  refine wp_mono (removeObject_one hi hw ht (p := s.absnorm p) ?_) ?_
  · intro ld nm d e hN he
    have hN := (names_absnorm hi ht).mp hN
    have hdlt : d < s.next := by obtain ⟨_, _, _, _, h4⟩ := hN.split; exact resolve_lt hi h4
    cases hl : (s.heap e).isLnk with
    | true => exact mem_entries_nil ((hg e (hi.g.entLt d hdlt _ (alookup_mem he))).trans (lnk_not_dirMode hl))
    | false => rw [hcase ld nm d e hN he hl]; exact hasContents_entries hcont
  · intro r s' h
    rcases h with ⟨x, rfl, rfl⟩ | ⟨ld, nm, d, e, rfl, h1, h2, h3, h4⟩
    · exact Or.inl ⟨_, rfl, rfl⟩
    · have hN := (names_absnorm hi ht).mp h1
      refine Or.inr ⟨ld, nm, d, e, rfl, hN, h2, h3, h4, ?_⟩
      cases hl : (s.heap e).isLnk with
      | true => exact Or.inl ⟨rfl, hlnk⟩
      | false =>
        rw [hcase ld nm d e hN h2.was hl]
        exact Or.inr ⟨rfl, hmode, hcont⟩

/-- With read permission on the way the last component is seen as a link if it is one. -/
theorem isLink_true {s : FS} (hi : Inv s) (ht : s.cfg.Tree) {p : Str} {ld : List Str} {nm : Str} {d e : Ref}
    (hread : ∀ x < s.next, (s.heap x).isDir = true → (s.heap x).mode &&& PERM_READ ≠ 0)
    (h : Names s p ld nm d) (he : alookup nm (s.heap d).entries = some e) (hl : (s.heap e).isLnk = true) :
    s.isLink (s.absnorm p) = .ok true := by
  obtain ⟨⟨names, h1, h2, h3, h4⟩, h5, h6⟩ := h
  have hdlt := resolve_lt hi h4
  have hw : ∀ (l : List Str) (r x : Ref), r < s.next → walk s.heap r l = some x → (s.heap x).isDir = true →
      ∀ y ∈ walked s.heap r l, (s.heap y).mode &&& PERM_READ ≠ 0 := by
    intro l
    induction l with
    | nil => intro r x _ _ _ y hy; simp [walked] at hy
    | cons c l ih =>
      intro r x hr hx hxd y hy
      simp only [walk, Option.bind_eq_some_iff] at hx
      obtain ⟨z, hz, hx⟩ := hx
      simp only [walked, hz, List.mem_cons] at hy
      have hzlt := hi.g.entLt r hr _ (alookup_mem hz)
      rcases hy with rfl | hy
      · refine hread y hzlt ?_
        cases l with
        | nil => simp only [walk, Option.some.injEq] at hx; subst hx; exact hxd
        | cons c' l =>
          simp only [walk, Option.bind_eq_some_iff] at hx
          obtain ⟨z', hz', _⟩ := hx
          exact isDir_of_entry (alookup_mem hz')
      · exact ih z x hzlt hx hxd y hy
  have hres : s.resolve (absPath s.cfg.sep names) true true = .ok d := by
    rw [FS.resolve, FS.resolveFG, if_pos rfl] at h4 ⊢
    rw [resolveG_ok hi ht] at h4 ⊢
    obtain ⟨a, b, c⟩ := h4
    refine ⟨a, b, ?_⟩
    rcases c with c | c | ⟨c1, c2, cs, c3, c4⟩
    · exact Or.inl c
    · exact Or.inr (Or.inl c)
    · refine Or.inr (Or.inr ⟨c1, c2, cs, c3, ?_⟩)
      rcases c4 with c4 | ⟨c4, c5, c6, _⟩
      · exact Or.inl c4
      · exact Or.inr ⟨c4, c5, c6, fun y hy => Or.inr (Or.inr (hw _ _ _ (root_lt hi) c5 h5 y hy))⟩
  have hlr : s.lresolveG s.rc (s.absnorm p) = .ok e := by
    rw [h3]; exact (lresolve_tree ht _ h1 h2).mpr ⟨d, hres, h5, hread d hdlt h5, he⟩
  unfold FS.isLink FS.isLinkG FS.isOfTypeG FS.resolveFG FS.raiseForSepG
  have hmode : ifmt (s.heap e).mode = S_IFLNK := by simpa [Obj.isLnk] using hl
  simp only [Bool.false_eq_true, if_false, hlr, bind, Except.bind, pure, Except.pure, absCanon_not_endsWithSep ht.posix (hi.absnorm ht.posix p)]
  simp [hmode]

end Verif
