import Verif.FdInv
/-!
# What is fixed when a file is opened stays fixed
-/

namespace Verif
open Py Spec Cfg

/-- The kind, the file, and the access rights of every existing handle are the same. -/
structure Flags (s s' : FS) : Prop where
  hnext : s.hnext ≤ s'.hnext
  kind : ∀ h < s.hnext, (s'.handles h).kind = (s.handles h).kind
  obj : ∀ h < s.hnext, (s'.handles h).obj = (s.handles h).obj
  append : ∀ h < s.hnext, (s'.handles h).append = (s.handles h).append
  read : ∀ h < s.hnext, (s'.handles h).read = (s.handles h).read
  update : ∀ h < s.hnext, (s'.handles h).update = (s.handles h).update
  del : ∀ h < s.hnext, (s'.handles h).deleteOnClose = (s.handles h).deleteOnClose
  bufSz : ∀ h < s.hnext, (s'.handles h).bufferSize = (s.handles h).bufferSize
  closefd : ∀ h < s.hnext, (s'.handles h).closefd = (s.handles h).closefd

theorem Flags.of {s s' : FS} (h1 : s.hnext ≤ s'.hnext) (h2 : ∀ h < s.hnext, s'.handles h = s.handles h) : Flags s s' :=
  ⟨h1, fun h hl => by rw [h2 h hl], fun h hl => by rw [h2 h hl], fun h hl => by rw [h2 h hl], fun h hl => by rw [h2 h hl],
    fun h hl => by rw [h2 h hl], fun h hl => by rw [h2 h hl], fun h hl => by rw [h2 h hl], fun h hl => by rw [h2 h hl]⟩

instance : TreeRel Flags where
  refl _ := Flags.of (Nat.le_refl _) fun _ _ => rfl
  trans h k := by
    have hl := h.hnext
    exact ⟨Nat.le_trans h.hnext k.hnext,
      fun i hi => (k.kind i (Nat.lt_of_lt_of_le hi hl)).trans (h.kind i hi),
      fun i hi => (k.obj i (Nat.lt_of_lt_of_le hi hl)).trans (h.obj i hi),
      fun i hi => (k.append i (Nat.lt_of_lt_of_le hi hl)).trans (h.append i hi),
      fun i hi => (k.read i (Nat.lt_of_lt_of_le hi hl)).trans (h.read i hi),
      fun i hi => (k.update i (Nat.lt_of_lt_of_le hi hl)).trans (h.update i hi),
      fun i hi => (k.del i (Nat.lt_of_lt_of_le hi hl)).trans (h.del i hi),
      fun i hi => (k.bufSz i (Nat.lt_of_lt_of_le hi hl)).trans (h.bufSz i hi),
      fun i hi => (k.closefd i (Nat.lt_of_lt_of_le hi hl)).trans (h.closefd i hi)⟩
  tree _ _ _ _ _ _ := Flags.of (Nat.le_refl _) fun _ _ => rfl

theorem Quiet.flags {s s' : FS} (q : Quiet s s') : Flags s s' :=
  ⟨Nat.le_of_eq q.hnext.symm, fun h _ => q.kind h, fun h _ => q.obj h, fun h _ => q.append h, fun h _ => q.read h,
    fun h _ => q.update h, fun h _ => q.del h, fun h _ => q.bufSz h, fun h _ => q.closefd h⟩

theorem ff_quiet {α : Type} {m : M α} (h : Fr Quiet m) : Fr Flags m := fun s => (h s).flags

theorem ff_newHandle (H : Handle) : Fr Flags (newHandle H) := fun s =>
  Flags.of (Nat.le_succ _) fun h hl => upd_ne _ _ (Nat.ne_of_lt hl)

theorem ff_addOpenFile (h : Nat) : Fr Flags (addOpenFile h) := by
  intro s
  unfold addOpenFile
  split <;> exact Flags.of (Nat.le_refl _) fun _ _ => rfl

theorem ff_closeOpenFile (fd : Nat) : Fr Flags (closeOpenFile fd) := fun _ => Flags.of (Nat.le_refl _) fun _ _ => rfl

theorem ff_hmodFd (h fd : Nat) : Fr Flags (hmod h fun H => { H with fd := fd }) := by
  intro s
  have key : ∀ {β : Type} (g : Handle → β), g { s.handles h with fd := fd } = g (s.handles h) →
      ∀ i < s.hnext, g ((s.setH h fun H => { H with fd := fd }).handles i) = g (s.handles i) := by
    intro β g hg i _
    simp only [FS.setH, upd_apply]
    split
    · rename_i e; rw [e]; exact hg
    · rfl
  exact ⟨Nat.le_refl _, key (·.kind) rfl, key (·.obj) rfl, key (·.append) rfl, key (·.read) rfl, key (·.update) rfl,
    key (·.deleteOnClose) rfl, key (·.bufferSize) rfl, key (·.closefd) rfl⟩

theorem ff_openPath (p : Str) (md : OpenModes) (bf : Option Nat) (raw del : Bool) : Fr Flags (openPath p md bf raw del) := by
  unfold openPath
  refine fr_bind (fr_rd _) fun a => ?_
  refine fr_bind (ff_quiet (fq_openObject _ _ _ _)) fun r => ?_
  refine fr_bind fr_get fun s => ?_
  dsimp only
  have tail : Fr Flags (newHandle (mkHandle s r md bf true raw del 0) >>= fun h =>
      addOpenFile h >>= fun fd => hmod h (fun H => { H with fd := fd }) >>= fun _ => M.pure h) :=
    fr_bind (ff_newHandle _) fun h => fr_bind (ff_addOpenFile h) fun fd => fr_bind (ff_hmodFd h fd) fun _ => fr_pure _
  apply fr_ite
  · intro _; exact fr_bind (fr_throw _) fun _ => tail
  · intro _; exact tail

theorem ff_openFd (fd : Nat) (md : OpenModes) (bf : Option Nat) (c : Bool) : Fr Flags (openFd fd md bf c) := by
  have tail : ∀ W : Handle, Fr Flags (do
      let s ← M.get
      let nm := (s.heap W.obj).name
      let r ← openObject (some W.obj) nm nm md
      let s ← M.get
      let h ← newHandle (mkHandle s r md bf (c || fd == 0) false W.deleteOnClose fd)
      M.modify fun s => { s with openFiles := s.openFiles.modify fd fun e => e.map fun l => l ++ [h] }
      M.pure h) := by
    intro W
    refine fr_bind fr_get fun s => ?_
    dsimp only
    refine fr_bind (ff_quiet (fq_openObject _ _ _ _)) fun r => ?_
    refine fr_bind fr_get fun s => ?_
    refine fr_bind (ff_newHandle _) fun h => ?_
    exact fr_bind (fun s => Flags.of (Nat.le_refl _) fun _ _ => rfl) fun _ => fr_pure _
  unfold openFd
  refine fr_bind (fr_rd _) fun w => ?_
  refine fr_bind (fr_hget _) fun W => ?_
  dsimp only
  apply fr_ite
  · intro _; exact fr_bind (fr_throw _) fun _ => tail W
  · intro _; exact tail W

theorem ff_osOpen (p : Str) (f : OFlags) (mode : Nat) : Fr Flags (osOpen p f mode) := by
  unfold osOpen
  dsimp only
  have tail : Fr Flags (do
      let s ← M.get
      match ← rd (·.openDirArg p) with
      | some r => do
        if (!f.modes.mustExist && !s.cfg.isMac) || f.modes.canWrite then M.raise .EISDIR
        let h ← newHandle { mkHandle s r f.modes none true true false 0 with kind := .dir, buf := [], pos := 0 }
        let fd ← addOpenFile h
        hmod h fun H => { H with fd := fd }
        M.pure fd
      | none => do
        let h ← openPath p f.modes none true false
        let H ← hget h
        if H.obj ≠ devNullRef then chmod p mode
        M.pure H.fd) := by
    refine fr_bind fr_get fun s => ?_
    refine fr_bind (fr_rd _) fun a => ?_
    split
    · rename_i r
      have t2 : Fr Flags (newHandle { mkHandle s r f.modes none true true false 0 with kind := .dir, buf := [], pos := 0 } >>= fun h =>
          addOpenFile h >>= fun fd => hmod h (fun H => { H with fd := fd }) >>= fun _ => M.pure fd) :=
        fr_bind (ff_newHandle _) fun h => fr_bind (ff_addOpenFile h) fun fd => fr_bind (ff_hmodFd h fd) fun _ => fr_pure _
      dsimp only
      apply fr_ite
      · intro _; exact fr_bind (fr_raise _) fun _ => t2
      · intro _; exact t2
    · refine fr_bind (ff_openPath _ _ _ _ _) fun h => ?_
      refine fr_bind (fr_hget _) fun H => ?_
      dsimp only
      apply fr_ite
      · intro _; exact fr_bind (fr_chmod _ _ _) fun _ => fr_pure _
      · intro _; exact fr_pure _
  apply fr_ite
  · intro _; exact fr_bind (fr_throw _) fun _ => tail
  · intro _; exact tail

theorem ff_hClose (h : Nat) : Fr Flags (hClose h) := by
  unfold hClose
  have hf := ff_quiet (fq_flush h)
  have hc := fun fd => ff_closeOpenFile fd
  have hm : ∀ fd, Fr Flags (M.modify fun s => { s with openFiles := s.openFiles.modify fd fun e => e.map fun l => l.erase h }) :=
    fun fd s => Flags.of (Nat.le_refl _) fun _ _ => rfl
  have ho : ∀ r, Fr Flags (M.modify fun s => s.setObj r fun o => { o with mtime := s.clock }) :=
    fun r s => TreeRel.tree s _ s.next s.lastIno s.mounts s.lastDev
  refine fr_bind fr_get fun s => ?_
  dsimp only
  repeat' first
    | with_reducible assumption
    | with_reducible exact hc _
    | with_reducible exact hm _
    | with_reducible exact ho _
    | with_reducible exact fr_removeObject _
    | with_reducible exact fr_pure _
    | with_reducible exact fr_pure' _
    | with_reducible exact fr_get
    | with_reducible apply fr_bind
    | with_reducible apply fr_ite
    | split
    | with_reducible intro _
    | dsimp only

theorem ff_osClose (fd : Int) : Fr Flags (osClose fd) := by
  unfold osClose; exact fr_bind (fr_rd _) fun h => ff_hClose h

theorem flags_step (o : Op) (s : FS) : Flags s (o.next s) := by
  have quiet : ∀ {α : Type} {m : M α}, Fr Quiet m → (m s).2 = o.next s → Flags s (o.next s) := by
    intro α m hm e; have q := hm s; rw [e] at q; exact q.flags
  have flags : ∀ {α : Type} {m : M α}, Fr Flags m → (m s).2 = o.next s → Flags s (o.next s) := by
    intro α m hm e; have q := hm s; rw [e] at q; exact q
  have onf : ∀ {α : Type} {R : FS → FS → Prop} [TreeRel R] {h : Nat} {m : M α}, Fr R m → Fr R (onFile h m) := by
    intro α R _ h m hm
    unfold onFile
    refine fr_bind fr_get ?_
    intro s
    apply fr_ite
    · intro _; exact fr_void hm
    · intro _; exact fr_throw _
  cases o with
  | mkdir p m => exact quiet (fr_mkdir p m) rfl
  | makedirs p m e => exact quiet (fr_makedirs p m e) rfl
  | createDir p m => exact quiet (fr_void (fr_createDir p m)) rfl
  | createFile p m c z cm um => exact quiet (fr_void (fr_createFile p m c z cm um)) rfl
  | createSymlink p t cm => exact quiet (fr_void (fr_createSymlink p t cm)) rfl
  | createLink o n f cm => exact quiet (fr_void (fr_createLink o n f cm)) rfl
  | remove p => exact quiet (fr_remove p) rfl
  | removeObject p => exact quiet (fr_removeObject p) rfl
  | rmdir p => exact quiet (fr_rmdir p _) rfl
  | removedirs p => exact quiet (fr_removedirs p) rfl
  | rename o n f => exact quiet (fr_rename o n f) rfl
  | chmod p m f => exact quiet (fr_chmod p m f) rfl
  | utime p ns f => exact quiet (fr_utime p ns f) rfl
  | chown p u g f => exact quiet (fr_chown p u g f) rfl
  | truncate p n => exact quiet (fr_truncate p n) rfl
  | mknod p m => exact quiet (fr_mknod p m) rfl
  | setxattr p a v fl f => exact quiet (fr_setxattr p a v fl f) rfl
  | removexattr p a f => exact quiet (fr_removexattr p a f) rfl
  | addMountPoint p t => exact quiet (fr_void (fr_addMountPoint p t)) rfl
  | setDiskUsage t p => exact quiet (fr_setDiskUsage t p) rfl
  | umask m => exact Flags.of (Nat.le_refl _) fun _ _ => rfl
  | chdir p =>
    refine (show wp (chdir p) (fun _ s' => Flags s s') s from ?_)
    unfold chdir
    refine wp_seq (fun _ s' => s' = s) rfl (fun _ _ e => by subst e; exact TreeRel.refl _) ?_
    intro q s1 e1
    subst e1
    refine wp_seq (fun _ s' => s' = s1) rfl (fun _ _ e => by subst e; exact TreeRel.refl _) ?_
    intro _ s2 e2
    subst e2
    refine wp_seq (fun _ s' => s' = s2) rfl (fun _ _ e => by subst e; exact TreeRel.refl _) ?_
    intro _ s3 e3
    subst e3
    exact Flags.of (Nat.le_refl _) fun _ _ => rfl
  | openPath p md b r d => exact flags (fr_void (ff_openPath p md b r d)) rfl
  | openFd fd md b c => exact flags (fr_void (ff_openFd fd md b c)) rfl
  | osOpen p f m => exact flags (fr_void (ff_osOpen p f m)) rfl
  | osClose fd => exact flags (ff_osClose fd) rfl
  | osRead fd n => exact quiet (fr_void (fq_osRead fd n)) rfl
  | osWrite fd b => exact quiet (fr_void (fq_osWrite fd b)) rfl
  | ftruncate fd n => exact quiet (fq_ftruncate fd n) rfl
  | hRead h n => exact quiet (onf (h := h) (fq_read h n)) rfl
  | hWrite h b => exact quiet (onf (h := h) (fq_write h b)) rfl
  | hSeek h o w => exact quiet (onf (h := h) (fq_seek h o w)) rfl
  | hTell h => exact quiet (onf (h := h) (fq_tell h)) rfl
  | hTruncate h n => exact quiet (onf (h := h) (fq_hTruncate h n)) rfl
  | hFlush h => exact quiet (onf (h := h) (fq_flush h)) rfl
  | hClose h => exact flags (onf (h := h) (ff_hClose h)) rfl
  | setUser u g => exact Flags.of (Nat.le_refl _) fun _ _ => rfl
  | setClock t => exact Flags.of (Nat.le_refl _) fun _ _ => rfl

/-- Along every history the rights of an open file object stay as they were when it was opened. -/
theorem flags_runs (ops : List Op) (s : FS) : Flags s (runs ops s) := by
  induction ops generalizing s with
  | nil => exact TreeRel.refl s
  | cons o ops ih => exact TreeRel.trans (flags_step o s) (ih (o.next s))

end Verif
