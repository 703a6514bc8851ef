import Verif.EffRename
/-!
# A filesystem with a single device

`One b s`: the only mount point is that of the root directory, everything in a directory is on its device, and (if `b`)
its used size is the sum of the sizes of the files in the directories.
-/

namespace Verif
open Py Spec Cfg

/-- what an object takes on its device: the size of a file with a name -/
def weight (o : Obj) : Int := if o.isDir = false ∧ 1 ≤ o.nlink then o.size else 0

/-- the sizes of all files with a name -/
def FS.stored (s : FS) : Int := ∑ x ∈ Finset.range s.next, weight (s.heap x)

/-- One device; with `b`, its used size is that of the files. -/
structure One (b : Bool) (s : FS) : Prop where
  inv : Inv s
  tree : s.cfg.Tree
  root : (s.heap rootRef).dev = some 1
  ent : ∀ d < s.next, ∀ e ∈ (s.heap d).entries, (s.heap e.2).dev = some 1
  mount : ∃ m, s.mounts = [m] ∧ m.idev = 1 ∧ (b = true → ∀ t, m.total = some t → 0 ≤ t ∧ m.used ≤ t) ∧ (b = true → m.used = s.stored)
  null : b = true → (s.heap devNullRef).size = 0

theorem One.weaken {b : Bool} {s : FS} (h : One b s) : One false s := by
  obtain ⟨m, h1, h2, h3, _⟩ := h.mount
  exact ⟨h.inv, h.tree, h.root, h.ent, ⟨m, h1, h2, fun e => by simp at e, fun e => by simp at e⟩, fun e => by simp at e⟩

/-- A directory found by a lookup is on the device. -/
theorem One.closed {b : Bool} {s : FS} (h : One b s) : Closed s fun r => r < s.next ∧ ((s.heap r).isDir = true → (s.heap r).dev = some 1) :=
  ⟨⟨root_lt h.inv, fun _ => h.root⟩, ⟨devNull_lt h.inv, fun e => by rw [h.inv.n.devFile] at e; simp at e⟩,
    fun d hd e he => ⟨h.inv.g.entLt d hd.1 e he, fun _ => h.ent d hd.1 e he⟩⟩

/-- A file with a name is in some directory. -/
theorem refs_entry {hp : Ref → Obj} {nx r : Nat} (h : 0 < refs hp nx r) : ∃ d < nx, ∃ e ∈ (hp d).entries, e.2 = r := by
  unfold refs at h
  by_contra hn
  have : ∀ d ∈ Finset.range nx, ((hp d).entries.map Prod.snd).count r = 0 := by
    intro d hd
    rw [List.count_eq_zero]
    intro hm
    obtain ⟨e, he, e2⟩ := List.mem_map.mp hm
    exact hn ⟨d, Finset.mem_range.mp hd, e, he, e2⟩
  rw [Finset.sum_eq_zero this] at h
  exact Nat.lt_irrefl _ h

theorem nlink_file {s : FS} (hi : Inv s) (ht : s.cfg.Tree) {r : Ref} (hr : r < s.next) (hf : (s.heap r).isDir = false) :
    (s.heap r).nlink = refs s.heap s.next r := by
  have := (hi.t ht).nlink r hr
  rw [hf] at this
  simpa using this

theorem One.live {b : Bool} {s : FS} (h : One b s) {r : Ref} (hr : r < s.next) (hf : (s.heap r).isDir = false) (hl : 1 ≤ (s.heap r).nlink) :
    (s.heap r).dev = some 1 := by
  rw [nlink_file h.inv h.tree hr hf] at hl
  obtain ⟨d, hd, e, he, rfl⟩ := refs_entry (hp := s.heap) (nx := s.next) (r := r) (by omega)
  exact h.ent d hd e he

theorem live_entry {s : FS} (hi : Inv s) (ht : s.cfg.Tree) {d : Ref} (hd : d < s.next) {e : Str × Ref} (he : e ∈ (s.heap d).entries)
    (hf : (s.heap e.2).isDir = false) : 1 ≤ (s.heap e.2).nlink := by
  rw [nlink_file hi ht (hi.g.entLt d hd e he) hf]
  have := refs_pos (hp := s.heap) (nx := s.next) hd he rfl
  omega

theorem dir_nlink {s : FS} (hi : Inv s) (ht : s.cfg.Tree) {r : Ref} (hr : r < s.next) (hf : (s.heap r).isDir = true) : 1 ≤ (s.heap r).nlink := by
  have := (hi.t ht).nlink r hr
  rw [hf] at this
  rw [this]
  simp only [if_true]
  omega

theorem dir_entry_nlink {s : FS} (hi : Inv s) (ht : s.cfg.Tree) {d : Ref} (hd : d < s.next) {e : Str × Ref} (he : e ∈ (s.heap d).entries)
    (hf : (s.heap e.2).isDir = true) : (s.heap e.2).nlink ≠ 1 := by
  have := (hi.t ht).nlink _ (hi.g.entLt d hd e he)
  have hp := refs_pos (hp := s.heap) (nx := s.next) hd he rfl
  rw [hf] at this
  rw [this]
  simp only [if_true]
  omega

/-! ## Sums -/

theorem stored_congr {s s' : FS} (hn : s'.next = s.next) (h : ∀ x < s.next, weight (s'.heap x) = weight (s.heap x)) : s'.stored = s.stored := by
  unfold FS.stored
  rw [hn]
  exact Finset.sum_congr rfl fun x hx => h x (Finset.mem_range.mp hx)

theorem stored_one {s s' : FS} (hn : s'.next = s.next) {r : Ref} (hr : r < s.next) (h : ∀ x < s.next, x ≠ r → weight (s'.heap x) = weight (s.heap x)) :
    s'.stored = s.stored - weight (s.heap r) + weight (s'.heap r) := by
  unfold FS.stored
  have e1 := Finset.add_sum_erase (Finset.range s.next) (fun x => weight (s'.heap x)) (Finset.mem_range.mpr hr)
  have e2 := Finset.add_sum_erase (Finset.range s.next) (fun x => weight (s.heap x)) (Finset.mem_range.mpr hr)
  rw [hn]
  have : ∑ x ∈ (Finset.range s.next).erase r, weight (s'.heap x) = ∑ x ∈ (Finset.range s.next).erase r, weight (s.heap x) :=
    Finset.sum_congr rfl fun x hx => h x (Finset.mem_range.mp (Finset.mem_of_mem_erase hx)) (Finset.ne_of_mem_erase hx)
  rw [this] at e1
  omega

theorem stored_mono {s s' : FS} (hn : s'.next = s.next) (h : ∀ x < s.next, weight (s'.heap x) ≤ weight (s.heap x)) : s'.stored ≤ s.stored := by
  unfold FS.stored
  rw [hn]
  exact Finset.sum_le_sum fun x hx => h x (Finset.mem_range.mp hx)

theorem weight_dir {o : Obj} (h : o.isDir = true) : weight o = 0 := by simp [weight, h]
theorem weight_eq {o o' : Obj} (h1 : o'.content = o.content) (h2 : o'.nlink = o.nlink) (h3 : o'.size = o.size) : weight o' = weight o := by
  unfold weight Obj.isDir; rw [h1, h2, h3]
theorem weight_nonneg (o : Obj) : 0 ≤ weight o := by unfold weight; split <;> omega
theorem weight_live {o : Obj} (h : o.isDir = false) (hl : 1 ≤ o.nlink) : weight o = o.size := by simp [weight, h, hl]
theorem weight_dead {o : Obj} (hl : o.nlink ≤ 0) : weight o = 0 := by
  unfold weight; rw [if_neg]; rintro ⟨_, h⟩; omega

/-! ## Programs -/

/-- the program keeps `One b` -/
def KeepsOne (b : Bool) {α : Type} (m : M α) : Prop := ∀ s, One b s → wp m (fun _ s' => One b s' ∧ Ext s s') s

section
variable {b : Bool}

theorem ko_pure {α : Type} (a : α) : KeepsOne b (M.pure a) := fun s h => ⟨h, Ext.refl s⟩
theorem ko_pure' {α : Type} (a : α) : KeepsOne b (pure a : M α) := fun s h => ⟨h, Ext.refl s⟩
theorem ko_throw {α : Type} (e : Err) : KeepsOne b (M.throw e : M α) := fun s h => ⟨h, Ext.refl s⟩
theorem ko_raise {α : Type} (e : Errno) : KeepsOne b (M.raise e : M α) := fun s h => ⟨h, Ext.refl s⟩
theorem ko_get : KeepsOne b M.get := fun s h => ⟨h, Ext.refl s⟩
theorem ko_rd {α : Type} (f : FS → Except Err α) : KeepsOne b (rd f) := fun s h => ⟨h, Ext.refl s⟩
theorem ko_hget (h : Nat) : KeepsOne b (hget h) := fun s h => ⟨h, Ext.refl s⟩

theorem ko_seq {α β : Type} {m : M α} {f : α → M β} {s0 s : FS} (hs : One b s) (he : Ext s0 s) (hm : KeepsOne b m)
    (hf : ∀ a s', One b s' → Ext s s' → Ext s0 s' → wp (f a) (fun _ s' => One b s' ∧ Ext s0 s') s') :
    wp (m >>= f) (fun _ s' => One b s' ∧ Ext s0 s') s := by
  apply wp_seq _ (hm s hs)
  · intro e s' h; exact ⟨h.1, he.trans h.2⟩
  · intro a s' h; exact hf a s' h.1 h.2 (he.trans h.2)

theorem ko_bind {α β : Type} {m : M α} {f : α → M β} (hm : KeepsOne b m) (hf : ∀ a, KeepsOne b (f a)) : KeepsOne b (m >>= f) := by
  intro s hs
  apply ko_seq hs (Ext.refl s) hm
  intro a s' h he _
  apply wp_mono (hf a s' h)
  intro _ s'' h2
  exact ⟨h2.1, he.trans h2.2⟩

theorem ko_bindB {α β : Type} {m : M α} {f : α → M β} (hm : KeepsOne b m) (hf : ∀ a, KeepsOne b (f a)) : KeepsOne b (M.bind m f) := ko_bind hm hf

theorem ko_ite {α : Type} {c : Prop} [Decidable c] {m n : M α} (ha : c → KeepsOne b m) (hb : ¬ c → KeepsOne b n) : KeepsOne b (if c then m else n) := by
  split
  · exact ha ‹_›
  · exact hb ‹_›

theorem ko_tryCatch {α : Type} {m : M α} {k : Err → M α} (hm : KeepsOne b m) (hk : ∀ e, KeepsOne b (k e)) : KeepsOne b (M.tryCatch m k) := by
  intro s hs
  apply wp_tryCatch
  apply wp_mono (hm s hs)
  intro r s' h
  cases r with
  | ok a => exact h
  | error e =>
    apply wp_mono (hk e s' h.1)
    intro _ s'' h2
    exact ⟨h2.1, h.2.trans h2.2⟩

theorem ko_catchOS {α : Type} {m : M α} {k : Err → M α} (hm : KeepsOne b m) (hk : ∀ e, KeepsOne b (k e)) : KeepsOne b (catchOS m k) :=
  ko_tryCatch hm fun e => ko_ite (fun _ => hk e) fun _ => ko_throw e

theorem ko_void {α : Type} {m : M α} (h : KeepsOne b m) : KeepsOne b m.void := ko_bind h fun _ => ko_pure _

theorem wp_end1 {α : Type} {m : M α} {s0 s : FS} (hs : One b s) (he : Ext s0 s) (hm : KeepsOne b m) : wp m (fun _ s' => One b s' ∧ Ext s0 s') s := by
  apply wp_mono (hm s hs)
  intro _ s' h
  exact ⟨h.1, he.trans h.2⟩

theorem wp_endW {α : Type} {m : M α} {s0 s : FS} (he : Ext s0 s) (hm : wp m (fun _ s' => One b s' ∧ Ext s s') s) :
    wp m (fun _ s' => One b s' ∧ Ext s0 s') s := wp_mono hm fun _ _ h => ⟨h.1, he.trans h.2⟩

theorem ko_rdB {α β : Type} {f : FS → Except Err α} {g : α → M β} {s : FS} (h : One b s)
    (hg : ∀ a, f s = .ok a → wp (g a) (fun _ s' => One b s' ∧ Ext s s') s) : wp (rd f >>= g) (fun _ s' => One b s' ∧ Ext s s') s :=
  wp_readBind (fun _ _ => ⟨h, Ext.refl s⟩) hg

/-- A change that keeps entries, devices, the mounts and what is stored. -/
theorem One.same {s s' : FS} (h : One b s) (hg : Good s s') (hn : s'.next = s.next) (hm : s'.mounts = s.mounts)
    (hd : (s'.heap rootRef).dev = (s.heap rootRef).dev)
    (he : ∀ d < s.next, ∀ e ∈ (s'.heap d).entries, (s'.heap e.2).dev = some 1) (hw : ∀ x < s.next, weight (s'.heap x) = weight (s.heap x))
    (hz : (s'.heap devNullRef).size = (s.heap devNullRef).size) : One b s' := by
  obtain ⟨m, h1, h2, h3, h4⟩ := h.mount
  refine ⟨hg.inv, by rw [hg.ext.cfg]; exact h.tree, hd.trans h.root, by rw [hn]; exact he, ⟨m, hm.trans h1, h2, h3, fun e => ?_⟩,
    fun e => hz.trans (h.null e)⟩
  rw [stored_congr hn hw]; exact h4 e

/-- updates of other attributes of an object -/
structure Neutral (o o' : Obj) : Prop where
  same : SameS o o'
  dev : o'.dev = o.dev
  size : o'.size = o.size

theorem Neutral.weight {o o' : Obj} (h : Neutral o o') : weight o' = weight o := by
  unfold Verif.weight; rw [h.same.content, h.same.nlink, h.size]

theorem One.setObj {s : FS} (h : One b s) (r : Ref) (f : Obj → Obj) (hf : Neutral (s.heap r) (f (s.heap r))) : One b (s.setObj r f) := by
  have hh : ∀ x, Neutral (s.heap x) ((s.setObj r f).heap x) := by
    intro x
    show Neutral (s.heap x) (upd s.heap r (f (s.heap r)) x)
    by_cases e : x = r
    · subst e; rw [upd_same]; exact hf
    · rw [upd_ne _ _ e]; exact ⟨SameS.refl _, rfl, rfl⟩
  refine h.same (good_setObj h.inv r f hf.same) rfl rfl (hh _).dev ?_ (fun x _ => (hh x).weight) (hh _).size
  intro d hd e he
  rw [(hh d).same.entries] at he
  rw [(hh e.2).dev]
  exact h.ent d hd e he

theorem ko_setObj (r : Ref) {f : FS → Obj → Obj} (hf : ∀ s o, Neutral o (f s o)) : KeepsOne b (M.modify fun s => s.setObj r (f s)) :=
  fun s h => ⟨h.setObj r _ (hf s _), (good_setObj h.inv r _ (hf s _).same).ext⟩

/-- changing only the table of open files and the handles -/
theorem ko_io {f : FS → FS} (hf : ∀ s : FS, ∃ o fr hs hn, f s = { s with openFiles := o, freeFds := fr, handles := hs, hnext := hn }) :
    KeepsOne b (M.modify f) := by
  intro s h
  have hg : Good s (f s) := by
    obtain ⟨o, fr, hs, hn, e⟩ := hf s
    rw [e]
    exact good_misc h.inv rfl rfl rfl rfl rfl rfl rfl rfl rfl rfl rfl rfl
  refine ⟨?_, hg.ext⟩
  show One b (f s)
  obtain ⟨o, fr, hs, hn, e⟩ := hf s
  refine h.same hg (by rw [e]) (by rw [e]) (by rw [e]) ?_ (by rw [e]; exact fun _ _ => rfl) (by rw [e])
  rw [e]; exact h.ent

theorem ko_hmod (h : Nat) (f : Handle → Handle) : KeepsOne b (hmod h f) := ko_io fun _ => ⟨_, _, _, _, rfl⟩
theorem ko_setH (h : Nat) (f : FS → Handle → Handle) : KeepsOne b (M.modify fun s => s.setH h (f s)) := ko_io fun _ => ⟨_, _, _, _, rfl⟩

/-! ## Primitives -/

/-- `change_disk_usage` on the device. -/
theorem change_one {s : FS} (h : One b s) (c : Int) : ∃ m, s.mounts = [m] ∧ m.idev = 1 ∧
    (changeDiskUsage c (some 1) s = (.ok (), { s with mounts := [{ m with used := m.used + c }] }) ∧ (b = true → ∀ t, m.total = some t → 0 ≤ t ∧ m.used + c ≤ t) ∨
     changeDiskUsage c (some 1) s = (.error (.os .ENOSPC), s) ∧ ∃ t, m.total = some t ∧ t < m.used + c) := by
  obtain ⟨m, h1, h2, h3, _⟩ := h.mount
  refine ⟨m, h1, h2, ?_⟩
  unfold changeDiskUsage mountForDev
  rw [h1]
  simp only [List.find?, h2, changeUsed, beq_self_eq_true, if_true]
  cases hm : m.total with
  | none => left; simp
  | some t =>
    by_cases hc : t - m.used < c
    · right; simp [hc]; omega
    · left
      refine ⟨by simp [hc], fun e t' ht' => ?_⟩
      injection ht' with ht'
      subst ht'
      exact ⟨(h3 e t hm).1, by omega⟩

theorem change_none {s : FS} (h : One b s) (c : Int) {dev : Option Nat} (hd : dev ≠ some 1) : changeDiskUsage c dev s = (.ok (), s) := by
  obtain ⟨m, h1, h2, h3, _⟩ := h.mount
  unfold changeDiskUsage mountForDev
  rw [h1]
  cases dev with
  | none => rfl
  | some i =>
    have : (m.idev == i) = false := by
      rw [h2]; simp only [beq_eq_false_iff_ne]; rintro rfl; exact hd rfl
    simp [List.find?, this]

/-- a change of the used size, without the sums -/
theorem ko_changeF (c : Int) (dev : Option Nat) : KeepsOne false (changeDiskUsage c dev) := by
  intro s h
  have hg := changeDiskUsage_good c dev h.inv
  unfold wp at hg ⊢
  refine ⟨?_, hg.1.ext⟩
  by_cases hd : dev = some 1
  · subst hd
    obtain ⟨m, h1, h2, ⟨h3, h4⟩ | ⟨h3, _⟩⟩ := change_one h c
    · rw [h3] at hg ⊢
      exact ⟨hg.1.inv, h.tree, h.root, h.ent, ⟨_, rfl, h2, h4, fun e => by simp at e⟩, h.null⟩
    · rw [h3]; exact h
  · rw [change_none h c hd]; exact h

theorem stSize_posix {s : FS} (ht : s.cfg.Tree) (o : Obj) : s.stSize o = o.size := by
  unfold FS.stSize
  rw [if_neg]
  rintro ⟨_, h⟩
  rw [ht.posix.win] at h
  simp at h

theorem sizeOf_file {s : FS} (ht : s.cfg.Tree) (n : Nat) {r : Ref} (h : (s.heap r).isDir = false) : s.sizeOf (n + 1) r = (s.heap r).size := by
  unfold FS.sizeOf
  unfold Obj.isDir at h
  cases hc : (s.heap r).content with
  | file c => exact stSize_posix ht _
  | dir es => rw [hc] at h; simp at h

/-- a new object -/
theorem one_new {s : FS} (h : One b s) (o : Obj) (hent : o.entries = []) (hw : weight o = 0)
    (hg : Good s { s with heap := upd s.heap s.next o, next := s.next + 1 }) : One b { s with heap := upd s.heap s.next o, next := s.next + 1 } := by
  have hne : ∀ x < s.next, upd s.heap s.next o x = s.heap x := fun x hx => upd_ne _ _ (Nat.ne_of_lt hx)
  obtain ⟨m, h1, h2, h3, h4⟩ := h.mount
  refine ⟨hg.inv, h.tree, ?_, ?_, ⟨m, h1, h2, h3, fun e => ?_⟩, fun e => ?_⟩
  · show (upd s.heap s.next o rootRef).dev = _
    rw [hne _ (root_lt h.inv)]; exact h.root
  · intro d (hd : d < s.next + 1) e (he : e ∈ (upd s.heap s.next o d).entries)
    show (upd s.heap s.next o e.2).dev = _
    by_cases hx : d = s.next
    · rw [hx, upd_same, hent] at he; simp at he
    · have hl : d < s.next := by omega
      rw [hne d hl] at he
      rw [hne _ (h.inv.g.entLt d hl e he)]
      exact h.ent d hl e he
  · rw [h4 e]
    unfold FS.stored
    show _ = ∑ x ∈ Finset.range (s.next + 1), weight (upd s.heap s.next o x)
    rw [Finset.sum_range_succ, upd_same, hw, add_zero]
    exact Finset.sum_congr rfl fun x hx => by rw [hne x (Finset.mem_range.mp hx)]
  · show (upd s.heap s.next o devNullRef).size = 0
    rw [hne _ (devNull_lt h.inv)]; exact h.null e

/-- `add_entry`: what is stored afterwards must fit. -/
theorem one_addEntry {s : FS} (h : One b s) {d c : Ref} (pre : AddPre s d c) (hdev : (s.heap d).isDir = true → (s.heap d).dev = some 1)
    (hroom : b = true → ∀ m ∈ s.mounts, ∀ t, m.total = some t → (s.attach d c).stored ≤ t) :
    wp (addEntry d c) (fun _ s' => One b s' ∧ Ext s s') s := by
  have hgood := addEntry_good h.inv pre
  unfold wp addEntry at hgood ⊢
  refine ⟨?_, hgood.ext⟩
  revert hgood
  split
  · exact fun _ => h
  rename_i hdir
  have hdir : (s.heap d).isDir = true := by simpa using hdir
  split
  · exact fun _ => h
  split
  · exact fun _ => h
  rename_i hnew
  have hg := attach_good h.inv pre hdir (by simpa using hnew)
  have hdd := hdev hdir
  have hnx : (s.attach d c).next = s.next := (attach_misc s d c).1
  have hms : (s.attach d c).mounts = s.mounts := (attach_misc s d c).2.2.1
  have hcfg : (s.attach d c).cfg = s.cfg := (attach_misc s d c).2.1
  have hcd : ∀ x, (s.heap x).dev = some 1 → ((s.attach d c).heap x).dev = some 1 := by
    intro x hx
    rw [attach_heap]
    dsimp only
    split
    · exact hdd
    · exact hx
  have hent : ∀ x < s.next, ∀ e ∈ ((s.attach d c).heap x).entries, ((s.attach d c).heap e.2).dev = some 1 := by
    intro x hx e he
    by_cases hxd : x = d
    · subst hxd
      have : ((s.attach x c).heap x).entries = (s.heap x).entries ++ [((s.heap c).name, c)] := by
        rw [attach_heap]; simp [Obj.entries]
      rw [this] at he
      rcases List.mem_append.mp he with he | he
      · exact hcd _ (h.ent x hx e he)
      · simp at he; subst he
        rw [attach_heap]; simp [hdd]
    · have : ((s.attach d c).heap x).entries = (s.heap x).entries := by
        rw [attach_heap]; simp [Obj.entries, hxd]
      rw [this] at he
      exact hcd _ (h.ent x hx e he)
  have hw : ∀ x < s.next, x ≠ c → weight ((s.attach d c).heap x) = weight (s.heap x) := by
    intro x hx hxc
    by_cases hxd : x = d
    · subst hxd
      rw [weight_dir hdir, weight_dir]
      rw [hg.ext.kind x hx]; exact hdir
    · rw [attach_heap]; exact weight_eq (if_neg hxd) (by simp [hxc, hxd]) rfl
  obtain ⟨m, h1, h2, h3, h4⟩ := h.mount
  have hkc : ((s.attach d c).heap c).isDir = (s.heap c).isDir := hg.ext.kind c pre.cLt
  have hnl : ((s.attach d c).heap c).nlink = (s.heap c).nlink + (if c = d then 1 else 0) + 1 := by
    rw [attach_heap]; simp
  have hsz : ((s.attach d c).heap c).size = (s.heap c).size := by rw [attach_heap]
  have hsum := stored_one hnx pre.cLt hw
  have hbase : One false (s.attach d c) := ⟨hg.inv, by rw [hcfg]; exact h.tree, hcd _ h.root, by rw [hnx]; exact hent, ⟨m, hms.trans h1, h2, fun e => by simp at e, fun e => by simp at e⟩, fun e => by simp at e⟩
  have hnull : b = true → ((s.attach d c).heap devNullRef).size = 0 := fun e => by rw [attach_heap]; exact h.null e
  have hfull : b = true → m.used = s.stored := h4
  dsimp only
  by_cases hkind : (s.heap c).isDir = true
  · -- a directory is not charged
    have hne1 : ((s.attach d c).heap c).nlink ≠ 1 := by
      have := dir_nlink h.inv h.tree pre.cLt hkind
      rw [hnl]; split <;> omega
    rw [if_neg hne1]
    intro _
    refine ⟨hbase.inv, hbase.tree, hbase.root, hbase.ent, ⟨m, hms.trans h1, h2, h3, fun e => ?_⟩, hnull⟩
    rw [hfull e, hsum, weight_dir hkind, weight_dir (hkc.trans hkind)]; omega
  · have hkind : (s.heap c).isDir = false := by simpa using hkind
    have hcd' : c ≠ d := by rintro rfl; rw [hdir] at hkind; simp at hkind
    rw [if_neg hcd'] at hnl
    have hnn : 0 ≤ (s.heap c).nlink := by rw [nlink_file h.inv h.tree pre.cLt hkind]; omega
    have hwc : weight ((s.attach d c).heap c) = (s.heap c).size := by
      rw [weight_live (hkc.trans hkind) (by rw [hnl]; omega), hsz]
    by_cases hl : ((s.attach d c).heap c).nlink = 1
    · rw [if_pos hl]
      have h0 : (s.heap c).nlink ≤ 0 := by rw [hnl] at hl; omega
      have hdd' : ((s.attach d c).heap d).dev = some 1 := hcd _ hdd
      have hso : (s.attach d c).sizeOf ((s.attach d c).next + 1) c = (s.heap c).size := by
        rw [sizeOf_file (by rw [hcfg]; exact h.tree) _ (hkc.trans hkind), hsz]
      rw [hdd', hso]
      rw [hwc, weight_dead h0] at hsum
      obtain ⟨m', hm1, hm2, ⟨hm3, hm4⟩ | ⟨hm3, t, ht, hlt⟩⟩ := change_one hbase ((s.heap c).size : Int)
      · have : m' = m := by rw [hms, h1] at hm1; injection hm1 with e _; exact e.symm
        subst this
        rw [hm3]
        intro hgood
        refine ⟨hgood.inv, hbase.tree, hbase.root, hbase.ent, ⟨_, rfl, h2, fun e t ht => ?_, fun e => ?_⟩, hnull⟩
        · have h5 := hroom e m' (by rw [h1]; simp) t ht
          rw [hsum, ← hfull e] at h5
          exact ⟨(h3 e t ht).1, by show m'.used + _ ≤ t; omega⟩
        show m'.used + _ = (s.attach d c).stored
        rw [hsum, hfull e]; omega
      · have : m' = m := by rw [hms, h1] at hm1; injection hm1 with e _; exact e.symm
        subst this
        rw [hm3]
        intro _
        refine ⟨hbase.inv, hbase.tree, hbase.root, hbase.ent, ⟨m', hms.trans h1, h2, h3, fun e => ?_⟩, hnull⟩
        have := hroom e m' (by rw [h1]; simp) t ht
        rw [hsum, ← hfull e] at this
        omega
    · rw [if_neg hl]
      intro _
      refine ⟨hbase.inv, hbase.tree, hbase.root, hbase.ent, ⟨m, hms.trans h1, h2, h3, fun e => ?_⟩, hnull⟩
      have : 1 ≤ (s.heap c).nlink := by rw [hnl] at hl; omega
      rw [hfull e, hsum, hwc, weight_live hkind this]; omega

/-- removals keep everything but the sums -/
theorem one_shrink {s s' : FS} (h : One b s) (hg : Good s s') (hs : Shrink s s') (hb : b = true → ∀ m ∈ s'.mounts, m.used = s'.stored) : One b s' := by
  have hdev : ∀ x, (s'.heap x).dev = (s.heap x).dev := fun x => by obtain ⟨n, c, e⟩ := hs.obj x; rw [e]
  obtain ⟨m, h1, h2, h3, h4⟩ := h.mount
  have hmd := hs.mdev
  have hmt := hs.mtotal
  rw [h1] at hmd hmt
  obtain ⟨m', hm'⟩ : ∃ m', s'.mounts = [m'] := by
    cases hc : s'.mounts with
    | nil => rw [hc] at hmd; simp at hmd
    | cons a l =>
      cases l with
      | nil => exact ⟨a, rfl⟩
      | cons c l => rw [hc] at hmd; simp at hmd
  rw [hm'] at hmd hmt
  simp only [List.map_cons, List.map_nil, List.cons.injEq, and_true] at hmd hmt
  refine ⟨hg.inv, by rw [hg.ext.cfg]; exact h.tree, by rw [hdev]; exact h.root, ?_, ⟨m', hm', by rw [hmd]; exact h2, ?_, fun e => hb e m' (by rw [hm']; simp)⟩,
    fun e => by obtain ⟨n, c, e'⟩ := hs.obj devNullRef; rw [e']; exact h.null e⟩
  · intro d hd e he
    rw [hdev]
    exact h.ent d (by rw [← hs.next]; exact hd) e ((hs.entries d).subset he)
  · intro e t ht
    have h3 := h3 e
    have ht0 : m.total = some t := by rw [← hmt]; exact ht
    refine ⟨(h3 t ht0).1, ?_⟩
    rcases hs.quota m' (by rw [hm']; simp) t ht with h5 | ⟨m0, hm0, _, _, h5⟩
    · rw [max_eq_left (h3 t ht0).1] at h5; exact h5
    · rw [h1] at hm0; simp at hm0; subst hm0
      exact le_trans h5 (h3 t ht0).2

theorem detach_weight {s : FS} (hi : Inv s) (ht : s.cfg.Tree) {d e : Ref} {nm : Str} (hd : d < s.next) (hdir : (s.heap d).isDir = true)
    (hm : (nm, e) ∈ (s.heap d).entries) : ∀ x < s.next, x ≠ e → weight ((s.detached d nm e).heap x) = weight (s.heap x) := by
  intro x hx hxe
  rw [detached_heap]
  by_cases hxd : x = d
  · subst hxd
    rw [weight_dir hdir, weight_dir]
    simp [Obj.isDir]
  · exact weight_eq (if_neg hxd) (by simp [hxe, hxd]) rfl

theorem shrink_of_detach {s : FS} {d : Ref} (nm : Str) (e : Ref) (hdir : (s.heap d).isDir = true) :
    (detach d nm e s).2.mounts = s.mounts ∧ (detach d nm e s).2.next = s.next := by
  rcases detach_spec s d nm e with h | ⟨x, h, _⟩ <;> rw [h] <;> exact ⟨rfl, rfl⟩

/-- detaching a directory does not change what is stored -/
theorem detach_dir_stored {s : FS} {d : Ref} (nm : Str) {e : Ref} (hdir : (s.heap d).isDir = true) (he : (s.heap e).isDir = true) :
    (detach d nm e s).2.stored = s.stored := by
  apply stored_congr (shrink_of_detach nm e hdir).2
  intro x _
  rcases detach_spec s d nm e with h | ⟨y, h, _⟩
  · rw [h]
    show weight ((s.detached d nm e).heap x) = _
    by_cases hxd : x = d
    · subst hxd
      rw [weight_dir hdir, weight_dir]
      rw [detached_heap]; simp [Obj.isDir]
    · by_cases hxe : x = e
      · subst hxe
        rw [weight_dir he, weight_dir]
        rw [detached_heap]; simp only [Obj.isDir, if_neg hxd]; exact he
      · rw [detached_heap]; exact weight_eq (if_neg hxd) (by simp [hxe, hxd]) rfl
  · rw [h]
    show weight ((s.decLinks d e).heap x) = _
    rw [decLinks_heap]
    by_cases hxd : x = d
    · subst hxd; rw [weight_dir hdir, weight_dir]; exact hdir
    · by_cases hxe : x = e
      · subst hxe; rw [weight_dir he, weight_dir]; exact he
      · exact weight_eq rfl (by simp [hxe, hxd]) rfl

/-- The balance after an entry is removed. -/
theorem removeEntryF_one : ∀ n (s : FS) (d : Ref) (nm : Str) (rec : Bool), One true s → d < s.next →
    wp (removeEntryF n d nm rec) (fun _ s' => One true s') s := by
  intro n
  induction n with
  | zero => intro s d nm rec h _; exact h
  | succ n ih =>
    intro s d nm rec h hd
    have hpost := removeEntryF_post (n + 1) s d nm rec h.inv hd
    unfold wp at hpost ⊢
    refine one_shrink h hpost.good hpost.shrink fun _ => ?_
    obtain ⟨m, h1, h2, h3, h4⟩ := h.mount
    have h4 := h4 rfl
    have hself : ∀ m ∈ s.mounts, m.used = s.stored := by
      intro m' hm'; rw [h1] at hm'; simp at hm'; subst hm'; exact h4
    clear hpost
    unfold removeEntryF
    split
    · exact hself
    rename_i hdir
    have hdir : (s.heap d).isDir = true := by simpa using hdir
    dsimp only
    split
    · exact hself
    rename_i e he
    have hmem := getEntry_mem he
    rw [normEntry_caseSens h.tree, normEntry_caseSens h.tree] at hmem
    rw [normEntry_caseSens h.tree]
    have he' : e < s.next := h.inv.g.entLt d hd _ hmem
    split
    · exact hself
    split
    · rename_i hre
      have hed : (s.heap e).isDir = true := by simp at hre; exact hre.2
      have hloop : ∀ k s1, One true s1 → s1.next = s.next →
          wp (removeLoop (fun d' nm' => removeEntryF n d' nm' true) e k) (fun _ s' => One true s' ∧ s'.next = s.next ∧ Shrink s1 s') s1 := by
        intro k
        induction k with
        | zero => intro s1 h1 hn1; exact ⟨h1, hn1, Shrink.refl s1⟩
        | succ k ihk =>
          intro s1 h1 hn1
          unfold wp removeLoop
          simp only
          split
          · exact ⟨h1, hn1, Shrink.refl s1⟩
          · rename_i nm1 _ _ _
            show wp (removeEntryF n e nm1 true >>= fun _ => removeLoop (fun d' nm' => removeEntryF n d' nm' true) e k)
              (fun _ s' => One true s' ∧ s'.next = s.next ∧ Shrink s1 s') s1
            have k1 := ih s1 e nm1 true h1 (by rw [hn1]; exact he')
            have k2 := removeEntryF_post n s1 e nm1 true h1.inv (by rw [hn1]; exact he')
            apply wp_seq (fun _ s' => One true s' ∧ Shrink s1 s') ⟨k1, k2.shrink⟩
            · intro x s2 h2; exact ⟨h2.1, h2.2.next.trans hn1, h2.2⟩
            · intro _ s2 h2
              apply wp_mono (ihk s2 h2.1 (h2.2.next.trans hn1))
              intro _ s3 h3
              exact ⟨h3.1, h3.2.1, h2.2.trans h3.2.2⟩
      refine (show wp (removeLoop (fun d' nm' => removeEntryF n d' nm' true) e (s.heap e).entries.length >>= fun _ => detach d nm e)
        (fun _ s' => ∀ m ∈ s'.mounts, m.used = s'.stored) s from ?_)
      have fin : ∀ s1, One true s1 → ∀ m ∈ s1.mounts, m.used = s1.stored := by
        intro s1 h1 m' hm'
        obtain ⟨m1, k1, _, _, k4⟩ := h1.mount
        rw [k1] at hm'; simp at hm'; subst hm'; exact k4 rfl
      apply wp_seq _ (hloop _ s h rfl)
      · intro _ s1 h1; exact fin s1 h1.1
      · intro _ s1 ⟨h1, hn1, hsh⟩
        have k1 : (s1.heap d).isDir = true := by rw [hsh.kind]; exact hdir
        have k2 : (s1.heap e).isDir = true := by rw [hsh.kind]; exact hed
        show ∀ m ∈ (detach d nm e s1).2.mounts, m.used = (detach d nm e s1).2.stored
        rw [(shrink_of_detach nm e k1).1, detach_dir_stored nm k1 k2]
        exact fin s1 h1
    · by_cases hed : (s.heap e).isDir = true
      · rw [if_neg (dir_entry_nlink h.inv h.tree hd hmem hed), (shrink_of_detach nm e hdir).1, detach_dir_stored nm hdir hed]
        exact hself
      · have hed : (s.heap e).isDir = false := by simpa using hed
        have hlive : 1 ≤ (s.heap e).nlink := live_entry h.inv h.tree hd hmem hed
        have hne : e ≠ d := by rintro rfl; rw [hdir] at hed; simp at hed
        -- the entry goes
        have key : ∀ ms, ∃ r, detach d nm e { s with mounts := ms } = (r, { s.detached d nm e with mounts := ms }) := by
          intro ms
          have k := detach_ok h.inv h.tree hd hmem
          unfold detach at k ⊢
          dsimp only [FS.setObj] at k ⊢
          split at k
          · simp at k
          rename_i c1
          rw [if_neg c1]
          split at k
          · simp at k
          rename_i c2
          rw [if_neg c2]
          exact ⟨_, rfl⟩
        have hsum : (s.detached d nm e).stored = s.stored - (s.heap e).size + weight ((s.detached d nm e).heap e) := by
          rw [stored_one (r := e) (s := s) (s' := s.detached d nm e) rfl he' (detach_weight h.inv h.tree hd hdir hmem), weight_live hed hlive]
        have hde : ((s.detached d nm e).heap e).nlink = (s.heap e).nlink - 1 := by rw [detached_heap]; simp [hne]
        have hdk : ((s.detached d nm e).heap e).isDir = false := by rw [detached_heap]; simp only [Obj.isDir, if_neg hne]; exact hed
        have hdz : ((s.detached d nm e).heap e).size = (s.heap e).size := by rw [detached_heap]
        split
        · rename_i hl1
          rw [weight_dead (by rw [hde, hl1]; omega)] at hsum
          rw [h.ent d hd _ hmem, sizeOf_file h.tree _ hed]
          obtain ⟨m', hm1, hm2, ⟨hm3, hm4⟩ | ⟨hm3, _⟩⟩ := change_one h (-((s.heap e).size : Int))
          · have : m' = m := by rw [h1] at hm1; injection hm1 with e _; exact e.symm
            subst this
            unfold M.bind
            rw [hm3]
            obtain ⟨r, hr⟩ := key [{ m' with used := m'.used + -((s.heap e).size : Int) }]
            dsimp only
            rw [hr]
            intro m0 hm0
            simp only [List.mem_singleton] at hm0
            subst hm0
            show m'.used + _ = (s.detached d nm e).stored
            rw [hsum, h4]; omega
          · unfold M.bind
            rw [hm3]
            exact hself
        · rename_i hl1
          rw [weight_live hdk (by rw [hde]; omega), hdz] at hsum
          obtain ⟨r, hr⟩ := key s.mounts
          rw [show ({ s with mounts := s.mounts } : FS) = s from rfl] at hr
          rw [hr]
          intro m0 hm0
          show m0.used = (s.detached d nm e).stored
          rw [hsum, hself m0 hm0]; omega

theorem ko_removeEntry {d : Ref} (nm : Str) (rec : Bool) {s : FS} (h : One b s) (hd : d < s.next) :
    wp (removeEntry d nm rec) (fun _ s' => One b s' ∧ Good s s' ∧ Shrink s s') s := by
  have hp := removeEntry_post h.inv hd nm rec
  refine ⟨?_, hp.good, hp.shrink⟩
  cases b with
  | false => exact one_shrink h hp.good hp.shrink fun e => by simp at e
  | true => exact removeEntryF_one _ s d nm rec h hd

end

end Verif
