import Verif.DeviceIO
import Verif.Props.Tree
import Verif.DemoFacts
/-!
# C11: the used disk space is the size of what is stored

On one device (no `add_mount_point`).  The claim fails for histories that write into a file that already has contents, or
into a file without a name (see the counterexamples at the end), so the theorem is about histories in which contents are
written only to files that have a name and are still empty.
-/

namespace Verif
open Py Spec Cfg

namespace Spec

/-- The object has a path. -/
def Named (s : FS) (r : Ref) : Prop := ∃ names, walk s.heap rootRef names = some r

/-- The file has no contents. -/
def Blank (s : FS) (r : Ref) : Prop := ∀ o, (s.heap r).content = .file o → o.getD [] = []

/-- What the handle writes is the first contents of a file that has a path; or the handle cannot write. -/
def FirstWrite (s : FS) (h : Nat) : Prop :=
  (s.handles h).update = false ∨ Named s (s.handles h).obj ∧ Blank s (s.handles h).obj

/-- Opening the path with truncation only creates a file or keeps an empty one. -/
def NothingToTruncate (s : FS) (p : Str) : Prop := ∀ r q, s.fileArg p = .ok (some r, q) → Blank s r

end Spec

/-- The calls C11 is about. -/
def Op.counted (s : FS) : Op → Prop
  | .addMountPoint _ _ => False
  | .truncate p _ => s.resolve p ≠ .ok devNullRef
  | .setDiskUsage t _ => ∀ m ∈ s.mounts, m.used ≤ t
  | .openPath p md _ _ _ => md.canWrite = true → md.truncate = true → NothingToTruncate s p
  | .osOpen p f _ => f.modes.canWrite = true → f.trunc = true → NothingToTruncate s p
  | .openFd fd md _ _ => md.canWrite = true → md.truncate = true → ∀ h, s.getOpen fd = .ok h →
      Named s (s.handles h).obj ∧ Blank s (s.handles h).obj
  | .osClose fd => ∀ h, s.getOpen fd = .ok h → FirstWrite s h
  | .osRead fd _ => ∀ h, s.getOpen fd = .ok h → FirstWrite s h
  | .osWrite fd c => ∀ h, s.getOpen fd = .ok h → FirstWrite s h ∧ c.length ≤ (s.handles h).bufferSize
  | .ftruncate fd _ => ∀ h, s.getOpen fd = .ok h → (s.handles h).obj ≠ devNullRef ∧ Named s (s.handles h).obj
  | .hRead h _ => FirstWrite s h
  | .hWrite h _ => FirstWrite s h
  | .hSeek h _ _ => FirstWrite s h
  | .hTell h => FirstWrite s h
  | .hFlush h => FirstWrite s h
  | .hClose h => FirstWrite s h
  | .hTruncate h _ => (s.handles h).update = false
  | _ => True

/-- every call of the history is counted in the state it is made in -/
def Counted : List Op → FS → Prop
  | [], _ => True
  | o :: os, s => o.counted s ∧ Counted os (o.next s)

theorem named_live {b : Bool} {s : FS} (hs : One b s) {r : Ref} (hn : Named s r) (hf : (s.heap r).isDir = false) :
    r < s.next ∧ 1 ≤ (s.heap r).nlink := by
  obtain ⟨names, hw⟩ := hn
  refine ⟨walk_lt hs.inv names (root_lt hs.inv) hw, ?_⟩
  induction names using List.reverseRecOn with
  | nil =>
    simp [walk] at hw
    subst hw
    rw [hs.inv.g.rootDir] at hf; simp at hf
  | append_singleton l c _ =>
    obtain ⟨d, hd, hc⟩ := walk_snoc hw
    exact live_entry hs.inv hs.tree (walk_lt hs.inv l (root_lt hs.inv) hd) (alookup_mem hc) hf

theorem firstWrite_canFlush {b : Bool} {s : FS} (hs : One b s) {h : Nat} (hf : b = true → FirstWrite s h) : CanFlush b s h := by
  intro e hu _ hk
  rcases hf e with h1 | ⟨h1, h2⟩
  · rw [h1] at hu; simp at hu
  · exact ⟨(named_live hs h1 hk).1, (named_live hs h1 hk).2, h2⟩

theorem one_onFile {b : Bool} {α : Type} {h : Nat} {m : M α} {s : FS} (hs : One b s) (hm : wp m (fun _ s' => One b s' ∧ Ext s s') s) :
    wp (onFile h m) (fun _ s' => One b s' ∧ Ext s s') s := by
  unfold onFile
  apply wp_getBind
  apply wp_ite
  · intro _
    apply wp_seq _ hm
    · intro e s' k; exact k
    · intro a s' k; exact k
  · intro _; exact ⟨hs, Ext.refl s⟩

theorem one_void {b : Bool} {α : Type} {m : M α} {s : FS} (hm : wp m (fun _ s' => One b s' ∧ Ext s s') s) :
    wp m.void (fun _ s' => One b s' ∧ Ext s s') s := by
  apply wp_seq _ hm
  · intro e s' k; exact k
  · intro a s' k; exact k

theorem one_next {b : Bool} {s : FS} (hs : One b s) (o : Op) (hm : ∀ p t, o ≠ .addMountPoint p t) (hc : b = true → o.counted s) : One b (o.next s) := by
  have ok : ∀ {m : M Unit}, wp m (fun _ s' => One b s' ∧ Ext s s') s → One b (m s).2 := fun h => h.1
  have cf : ∀ {h : Nat}, (b = true → FirstWrite s h) → CanFlush b s h := fun hf => firstWrite_canFlush hs hf
  have E := Ext.refl s
  cases o with
  | mkdir p m => exact ok (ko_mkdir p m s hs)
  | makedirs p m e => exact ok (ko_makedirs p m e s hs)
  | createDir p m => exact ok (ko_void (ko_createDir p m) s hs)
  | createFile p m c z cm um => exact ok (ko_void (ko_createFileI p m c z cm um) s hs)
  | createSymlink p t cm => exact ok (ko_void (ko_createSymlink p t cm) s hs)
  | createLink o n f cm => exact ok (ko_void (ko_createLink o n f cm) s hs)
  | remove p => exact ok (ko_remove p s hs)
  | removeObject p => exact ok (ko_removeObject p s hs)
  | rmdir p => exact ok (ko_rmdir p false s hs)
  | removedirs p => exact ok (ko_removedirs p s hs)
  | rename o n f => exact ok (ko_rename o n f s hs)
  | chmod p m f => exact ok (ko_chmod p m f s hs)
  | utime p ns f => exact ok (ko_utime p ns f s hs)
  | chown p u g f => exact ok (ko_chown p u g f s hs)
  | truncate p n => exact ok (one_truncate hs p n hc)
  | mknod p m => exact ok (ko_mknod p m s hs)
  | setxattr p a v fl f => exact ok (ko_setxattr p a v fl f s hs)
  | removexattr p a f => exact ok (ko_removexattr p a f s hs)
  | addMountPoint p t => exact absurd rfl (hm p t)
  | setDiskUsage t p =>
    refine one_setDiskUsage hs t p fun e => ?_
    obtain ⟨m, k1, _, _, k4⟩ := hs.mount
    rw [← k4 e]
    exact hc e m (by rw [k1]; simp)
  | umask m => exact hs.env m s.uid s.gid s.clock
  | chdir p => exact one_chdir hs p
  | openPath p md bs r d =>
    refine ok (one_void (one_openPath hs p md bs r d ?_))
    intro e hw ht r q o hf _ ho
    exact hc e hw ht r q hf o ho
  | openFd fd md bs c =>
    refine ok (one_void (one_openFd hs fd md bs c ?_))
    intro w hw e h1 h2 _ hk
    obtain ⟨k1, k2⟩ := hc e h1 h2 w hw
    exact ⟨(named_live hs k1 hk).1, (named_live hs k1 hk).2, k2⟩
  | osOpen p f m =>
    refine ok (one_void (one_osOpen hs p f m ?_))
    intro e hw ht r q o hf _ ho
    exact hc e hw ht r q hf o ho
  | osClose fd => exact ok (one_osClose hs fd fun h hh => cf fun e => hc e h hh)
  | osRead fd n => exact ok (one_void (one_osRead hs fd n fun h hh => cf fun e => hc e h hh))
  | osWrite fd c => exact ok (one_void (one_osWrite hs fd c (fun h hh => cf fun e => (hc e h hh).1) fun e h hh => (hc e h hh).2))
  | ftruncate fd n => exact ok (one_ftruncate hs fd n fun e h hh => ⟨(hc e h hh).1, named_live hs (hc e h hh).2⟩)
  | hRead h n => exact ok (one_onFile hs (one_read hs E (cf hc) n))
  | hWrite h c => exact ok (one_onFile hs (one_write hs E (cf hc) c))
  | hSeek h o w => exact ok (one_onFile hs (one_seek hs (cf hc) o w))
  | hTell h => exact ok (one_onFile hs (one_tell hs (cf hc)))
  | hTruncate h n => exact ok (one_onFile hs (one_hTruncate hs n hc))
  | hFlush h => exact ok (one_onFile hs (one_flush hs E (cf hc)))
  | hClose h => exact ok (one_onFile hs (one_hClose hs E (cf hc)))
  | setUser u g => exact hs.env s.umask u g s.clock
  | setClock t => exact hs.env s.umask s.uid s.gid t

theorem one_init {k : Cfg} (hk : k.Tree) (limit uid gid umask : Nat) (clock : Int) {total : Option Int} (ht : ∀ t, total = some t → 0 ≤ t) :
    One true (initFS k limit uid gid umask clock total) := by
  have H := init_heap k limit uid gid umask clock total
  refine ⟨init_inv _ _ _ _ _ _ _, hk, rfl, ?_, ⟨_, rfl, rfl, ?_, ?_⟩, fun _ => rfl⟩
  · intro d _ e he; rw [(H d).1] at he; simp at he
  · intro _ t e; exact ⟨ht t e, ht t e⟩
  · intro _
    show (0 : Int) = ∑ x ∈ Finset.range 2, weight ((initFS k limit uid gid umask clock total).heap x)
    rfl

theorem one_runs {b : Bool} : ∀ (ops : List Op) {s : FS}, One b s → (∀ o ∈ ops, ∀ p t, o ≠ .addMountPoint p t) →
    (b = true → Counted ops s) → One b (runs ops s) := by
  intro ops
  induction ops with
  | nil => intro s hs _ _; exact hs
  | cons o ops ih =>
    intro s hs hm hc
    exact ih (one_next hs o (hm o (by simp)) fun e => (hc e).1) (fun o' ho' => hm o' (by simp [ho'])) fun e => (hc e).2

theorem counted_mounts : ∀ (ops : List Op) {s : FS}, Counted ops s → ∀ o ∈ ops, ∀ p t, o ≠ Op.addMountPoint p t := by
  intro ops
  induction ops with
  | nil => simp
  | cons o ops ih =>
    intro s hc o' ho' p t e
    rcases List.mem_cons.mp ho' with h | h
    · subst h; subst e; exact hc.1
    · exact ih hc.2 o' h p t e

/-- the files with at least one link -/
theorem stored_list {s : FS} : ∃ files : List Ref, files.Nodup ∧
    (∀ r, r ∈ files ↔ r < s.next ∧ (s.heap r).isDir = false ∧ 1 ≤ (s.heap r).nlink) ∧
    s.stored = (files.map fun r => ((s.heap r).size : Int)).sum := by
  refine ⟨(List.range s.next).filter fun r => decide ((s.heap r).isDir = false ∧ 1 ≤ (s.heap r).nlink), List.nodup_range.filter _, ?_, ?_⟩
  · intro r; simp [List.mem_filter]
  · unfold FS.stored
    generalize s.next = n
    induction n with
    | zero => rfl
    | succ n ih =>
      rw [Finset.sum_range_succ, List.range_succ, List.filter_append, List.map_append, List.sum_append, ih]
      congr 1
      by_cases h : (s.heap n).isDir = false ∧ 1 ≤ (s.heap n).nlink
      · simp [weight, h]
      · simp [weight, h]

/-- C11: after any history of counted calls on a fresh filesystem, failing calls included, the used size of the only device is
the sum of the sizes of the files that have at least one link, each counted once. -/
theorem usage_is_stored {k : Cfg} (hk : k.Tree) (limit uid gid umask : Nat) (clock : Int) {total : Option Int}
    (ht : ∀ t, total = some t → 0 ≤ t) {ops : List Op} (hc : Counted ops (initFS k limit uid gid umask clock total)) :
    let s := runs ops (initFS k limit uid gid umask clock total)
    ∃ (m : Mount) (files : List Ref), s.mounts = [m] ∧ files.Nodup ∧
      (∀ r, r ∈ files ↔ r < s.next ∧ (s.heap r).isDir = false ∧ 1 ≤ (s.heap r).nlink) ∧
      m.used = (files.map fun r => ((s.heap r).size : Int)).sum := by
  intro s
  have h : One true s := one_runs ops (one_init hk limit uid gid umask clock ht) (counted_mounts ops hc) fun _ => hc
  obtain ⟨m, k1, _, _, k4⟩ := h.mount
  obtain ⟨files, h1, h2, h3⟩ := stored_list (s := s)
  exact ⟨m, files, k1, h1, h2, by rw [k4 rfl, h3]⟩

/-- A file with a link that is not reachable by a path lies in a directory that is not: with no such directory, the files with a
link are exactly the files with a path. -/
theorem linked_iff_named {s : FS} (hs : Reachable s) (ht : s.cfg.Tree)
    (hlost : ∀ d < s.next, (s.heap d).entries ≠ [] → Named s d) {r : Ref} (hf : (s.heap r).isDir = false) :
    r < s.next ∧ 1 ≤ (s.heap r).nlink ↔ Named s r := by
  have hi := reachable_inv hs
  constructor
  · rintro ⟨hr, hl⟩
    rw [nlink_file hi ht hr hf] at hl
    obtain ⟨d, hd, e, he, rfl⟩ := refs_entry (by omega : 0 < refs s.heap s.next r)
    obtain ⟨names, hw⟩ := hlost d hd (List.ne_nil_of_mem he)
    refine ⟨names ++ [e.1], ?_⟩
    rw [walk_append, hw]
    simp [walk, alookup_of_mem (hi.g.keys d hd) he]
  · rintro ⟨names, hw⟩
    refine ⟨walk_lt hi names (root_lt hi) hw, ?_⟩
    induction names using List.reverseRecOn with
    | nil =>
      simp [walk] at hw
      subst hw
      rw [hi.g.rootDir] at hf; simp at hf
    | append_singleton l c _ =>
      obtain ⟨d, hd, hc⟩ := walk_snoc hw
      exact live_entry hi ht (walk_lt hi l (root_lt hi) hd) (alookup_mem hc) hf

/-- Without `add_mount_point`, everything reachable by a path is on the one device (so no rename or link crosses devices), after
any history whatsoever. -/
theorem one_device {k : Cfg} (hk : k.Tree) (limit uid gid umask : Nat) (clock : Int) {total : Option Int}
    {ops : List Op} (hm : ∀ o ∈ ops, ∀ p t, o ≠ .addMountPoint p t) (names : List Str) {r : Ref} :
    let s := runs ops (initFS k limit uid gid umask clock total)
    walk s.heap rootRef names = some r → (s.heap r).dev = some 1 := by
  intro s hw
  have H := init_heap k limit uid gid umask clock total
  have h0 : One false (initFS k limit uid gid umask clock total) := by
    refine ⟨init_inv _ _ _ _ _ _ _, hk, rfl, ?_, ⟨_, rfl, rfl, fun e => by simp at e, fun e => by simp at e⟩, fun _ => rfl⟩
    intro d _ e he; rw [(H d).1] at he; simp at he
  have h : One false s := one_runs ops h0 hm fun e => by simp at e
  induction names using List.reverseRecOn with
  | nil =>
    simp [walk] at hw
    subst hw; exact h.root
  | append_singleton l c _ =>
    obtain ⟨d, hd, hc⟩ := walk_snoc hw
    exact h.ent d (walk_lt h.inv l (root_lt h.inv) hd) _ (alookup_mem hc)

/-! ## A history the theorem applies to -/

/-- `open(p, 'wb')` -/
def modeW : OpenModes := ⟨false, false, true, true, false, false⟩
/-- `open(p, 'r+b')` -/
def modeRU : OpenModes := ⟨true, true, true, false, false, false⟩

/-- the demo calls, then writing three bytes into the new file `/n`, removing `/g` and closing `/n` -/
def usageOps : List Op :=
  demoOps ++ [.openPath ['/', 'n'] modeW none false false, .hWrite 3 [1, 2, 3], .remove ['/', 'g'], .hClose 3]

/-- the state in which `/n` is open -/
def usageOpen : FS := Op.next (.openPath ['/', 'n'] modeW none false false) demo

theorem usage_firstWrite : FirstWrite (Op.next (.remove ['/', 'g']) (Op.next (.hWrite 3 [1, 2, 3]) usageOpen)) 3 := by
  refine Or.inr ⟨⟨[['n']], by decide +kernel⟩, ?_⟩
  intro o ho
  have e : ((Op.next (.remove ['/', 'g']) (Op.next (.hWrite 3 [1, 2, 3]) usageOpen)).heap
    ((Op.next (.remove ['/', 'g']) (Op.next (.hWrite 3 [1, 2, 3]) usageOpen)).handles 3).obj).content = .file (some []) := by decide +kernel
  rw [e] at ho
  injection ho with ho
  subst ho; rfl

theorem usage_counted : Counted usageOps (initFS demoCfg 50 0 0 0o022 7 (some 1000)) := by
  refine ⟨trivial, trivial, trivial, trivial, trivial, ?_, ?_, trivial, usage_firstWrite, trivial⟩
  · intro _ _ r q hr
    have e : demo.fileArg ['/', 'n'] = .ok (none, ['/', 'n']) := by decide +kernel
    have hr' : demo.fileArg ['/', 'n'] = .ok (some r, q) := hr
    rw [e] at hr'
    simp at hr'
  · refine Or.inr ⟨⟨[['n']], by decide +kernel⟩, ?_⟩
    intro o ho
    have e : (usageOpen.heap (usageOpen.handles 3).obj).content = .file (some []) := by decide +kernel
    have ho' : (usageOpen.heap (usageOpen.handles 3).obj).content = .file o := ho
    rw [e] at ho'
    injection ho' with ho'
    subst ho'; rfl

example : (runs usageOps (initFS demoCfg 50 0 0 0o022 7 (some 1000))).mounts.map Mount.used = [8] := by decide +kernel

/-! ## What is wrong otherwise -/

/-- C11 is false when a file that has contents is written: `_set_initial_contents` charges the difference of the sizes and then
releases the old size once more (fake_filesystem.py 387-413).  Opening `/f` for update and closing it releases its size. -/
theorem usage_rewrite_counterexample :
    ∃ s, Reachable s ∧ s.mounts.map Mount.used = [0] ∧ ∃ r, s.resolve ['/', 'f'] = .ok r ∧ (s.heap r).size = 3 := by
  refine ⟨runs [.createFile ['/', 'f'] (S_IFREG ||| 0o666) (some [1, 2, 3]) none true false, .openPath ['/', 'f'] modeRU none false false, .hClose 3]
    (initFS demoCfg 50 0 0 0o022 7 (some 1000)), ⟨_, _, _, _, _, _, _, _, rfl⟩, by decide +kernel, 2, by decide +kernel, by decide +kernel⟩

/-- C11 is false when a file without a name is written: the device is charged for a file that no path leads to, and never
released. -/
theorem usage_unlinked_counterexample :
    ∃ s, Reachable s ∧ s.mounts.map Mount.used = [3] ∧ (s.heap rootRef).entries = [] := by
  refine ⟨runs [.openPath ['/', 'f'] modeW none false false, .remove ['/', 'f'], .hWrite 3 [1, 2, 3], .hClose 3]
    (initFS demoCfg 50 0 0 0o022 7 (some 1000)), ⟨_, _, _, _, _, _, _, _, rfl⟩, by decide +kernel, by decide +kernel⟩

/-- C11 is false for hard links across devices: the size is charged to one device and released on another. -/
theorem usage_devices_counterexample :
    ∃ s, Reachable s ∧ s.mounts.map Mount.used = [3, -3] := by
  refine ⟨runs [.createFile ['/', 'f'] (S_IFREG ||| 0o666) (some [1, 2, 3]) none true false, .addMountPoint ['/', 'm'] (some 10),
    .createLink ['/', 'f'] ['/', 'm', '/', 'f'] true false, .remove ['/', 'f'], .remove ['/', 'm', '/', 'f']]
    (initFS demoCfg 50 0 0 0o022 7 (some 1000)), ⟨_, _, _, _, _, _, _, _, rfl⟩, by decide +kernel⟩

end Verif
