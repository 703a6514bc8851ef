import Verif.Frame
/-!
# The table of open files: frames of the file operations and an invariant of all histories
-/

namespace Verif
open Py Spec Cfg

/-! ## Operations that leave the table alone -/

/-- The table of open files and, of each handle, everything that is fixed when it is opened. -/
structure Quiet (s s' : FS) : Prop where
  cfg : s'.cfg = s.cfg
  openFiles : s'.openFiles = s.openFiles
  freeFds : s'.freeFds = s.freeFds
  hnext : s'.hnext = s.hnext
  fd : ∀ h, (s'.handles h).fd = (s.handles h).fd
  kind : ∀ h, (s'.handles h).kind = (s.handles h).kind
  closefd : ∀ h, (s'.handles h).closefd = (s.handles h).closefd
  obj : ∀ h, (s'.handles h).obj = (s.handles h).obj
  append : ∀ h, (s'.handles h).append = (s.handles h).append
  read : ∀ h, (s'.handles h).read = (s.handles h).read
  update : ∀ h, (s'.handles h).update = (s.handles h).update
  del : ∀ h, (s'.handles h).deleteOnClose = (s.handles h).deleteOnClose
  bufSz : ∀ h, (s'.handles h).bufferSize = (s.handles h).bufferSize

instance : TreeRel Quiet where
  refl _ := ⟨rfl, rfl, rfl, rfl, fun _ => rfl, fun _ => rfl, fun _ => rfl, fun _ => rfl, fun _ => rfl, fun _ => rfl, fun _ => rfl, fun _ => rfl, fun _ => rfl⟩
  trans h k := ⟨k.cfg.trans h.cfg, k.openFiles.trans h.openFiles, k.freeFds.trans h.freeFds, k.hnext.trans h.hnext,
    fun i => (k.fd i).trans (h.fd i), fun i => (k.kind i).trans (h.kind i), fun i => (k.closefd i).trans (h.closefd i),
    fun i => (k.obj i).trans (h.obj i), fun i => (k.append i).trans (h.append i), fun i => (k.read i).trans (h.read i),
    fun i => (k.update i).trans (h.update i), fun i => (k.del i).trans (h.del i), fun i => (k.bufSz i).trans (h.bufSz i)⟩
  tree _ _ _ _ _ _ := ⟨rfl, rfl, rfl, rfl, fun _ => rfl, fun _ => rfl, fun _ => rfl, fun _ => rfl, fun _ => rfl, fun _ => rfl, fun _ => rfl, fun _ => rfl, fun _ => rfl⟩

theorem quiet_setH (s : FS) (h : Nat) {f : Handle → Handle} (hf : (f (s.handles h)).fd = (s.handles h).fd ∧
    (f (s.handles h)).kind = (s.handles h).kind ∧ (f (s.handles h)).closefd = (s.handles h).closefd ∧
    (f (s.handles h)).obj = (s.handles h).obj ∧ (f (s.handles h)).append = (s.handles h).append ∧
    (f (s.handles h)).read = (s.handles h).read ∧ (f (s.handles h)).update = (s.handles h).update ∧
    (f (s.handles h)).deleteOnClose = (s.handles h).deleteOnClose ∧ (f (s.handles h)).bufferSize = (s.handles h).bufferSize) : Quiet s (s.setH h f) := by
  have key : ∀ {β : Type} (g : Handle → β), g (f (s.handles h)) = g (s.handles h) → ∀ i, g ((s.setH h f).handles i) = g (s.handles i) := by
    intro β g hg i
    simp only [FS.setH, upd_apply]
    split
    · rename_i e; rw [e]; exact hg
    · rfl
  exact ⟨rfl, rfl, rfl, rfl, key (·.fd) hf.1, key (·.kind) hf.2.1, key (·.closefd) hf.2.2.1, key (·.obj) hf.2.2.2.1,
    key (·.append) hf.2.2.2.2.1, key (·.read) hf.2.2.2.2.2.1, key (·.update) hf.2.2.2.2.2.2.1,
    key (·.deleteOnClose) hf.2.2.2.2.2.2.2.1, key (·.bufferSize) hf.2.2.2.2.2.2.2.2⟩

theorem fq_hmod (h : Nat) {f : Handle → Handle} (hf : ∀ H : Handle, (f H).fd = H.fd ∧ (f H).kind = H.kind ∧ (f H).closefd = H.closefd ∧
    (f H).obj = H.obj ∧ (f H).append = H.append ∧ (f H).read = H.read ∧ (f H).update = H.update ∧ (f H).deleteOnClose = H.deleteOnClose ∧ (f H).bufferSize = H.bufferSize) : Fr Quiet (hmod h f) :=
  fun s => quiet_setH s h (hf _)

theorem fq_setHs (h : Nat) {f : FS → Handle → Handle} (hf : ∀ s, ∀ H : Handle, (f s H).fd = H.fd ∧ (f s H).kind = H.kind ∧ (f s H).closefd = H.closefd ∧
    (f s H).obj = H.obj ∧ (f s H).append = H.append ∧ (f s H).read = H.read ∧ (f s H).update = H.update ∧ (f s H).deleteOnClose = H.deleteOnClose ∧ (f s H).bufferSize = H.bufferSize) :
    Fr Quiet (M.modify fun s => s.setH h (f s)) :=
  fun s => quiet_setH s h (hf _ _)

/-- Compositional steps for the file operations; the last alternatives close the side conditions of `fq_hmod`. -/
macro "fq" : tactic => `(tactic|
  repeat' first
    | with_reducible assumption
    | with_reducible exact fr_pure _
    | with_reducible exact fr_pure' _
    | with_reducible exact fr_throw _
    | with_reducible exact fr_raise _
    | with_reducible exact fr_get
    | with_reducible exact fr_rd _
    | with_reducible exact fr_hget _
    | with_reducible exact fr_setSize _ _
    | with_reducible exact fr_setContents _ _
    | with_reducible exact fq_hmod _ (fun _ => ⟨rfl, rfl, rfl, rfl, rfl, rfl, rfl, rfl, rfl⟩)
    | with_reducible exact fq_setHs _ (fun _ _ => ⟨rfl, rfl, rfl, rfl, rfl, rfl, rfl, rfl, rfl⟩)
    | with_reducible exact fr_setObj _ _
    | with_reducible apply fr_bind
    | with_reducible apply fr_ite
    | with_reducible apply fr_catchOS
    | with_reducible apply fr_tryCatch
    | split
    | with_reducible intro _
    | dsimp only)

theorem fq_checkOpen (h : Nat) : Fr Quiet (checkOpen h) := by
  intro s; unfold checkOpen; split <;> exact TreeRel.refl s

theorem fq_setStream (h : Nat) (b : Option Bytes) : Fr Quiet (setStream h b) := by unfold setStream; fq
theorem fq_syncIo (h : Nat) : Fr Quiet (syncIo h) := by
  have := fun b => fq_setStream h b
  unfold syncIo
  refine fr_bind fr_get fun s => ?_
  dsimp only
  apply fr_ite
  · intro _; exact fr_pure _
  · intro _
    exact fr_bind (this _) fun _ => fun s => quiet_setH s h (f := fun H => { H with fileEpoch := (s.heap H.obj).epoch }) ⟨rfl, rfl, rfl, rfl, rfl, rfl, rfl, rfl, rfl⟩

theorem fq_syncAll (h : Nat) (r : Ref) : ∀ l, Fr Quiet (syncAll h r l) := by
  intro l
  induction l with
  | nil => exact fr_pure _
  | cons g gs ih =>
    have := fq_syncIo g
    unfold syncAll
    refine fr_bind (fr_hget _) fun G => ?_
    dsimp only
    apply fr_ite
    · intro _; exact fr_bind this fun _ => ih
    · intro _; exact ih

theorem fq_flushRelated (h : Nat) : Fr Quiet (flushRelated h) := by
  unfold flushRelated; exact fr_bind fr_get fun s => fq_syncAll _ _ _

theorem fq_flushContents (h : Nat) : Fr Quiet (flushContents h) := by
  have h1 := fq_syncIo h
  have h2 := fun b => fq_setStream h b
  unfold flushContents
  refine fr_bind (fr_hget _) fun H => ?_
  apply fr_ite
  · intro _
    refine fr_bind h1 fun _ => ?_
    refine fr_bind fr_get fun s => ?_
    split
    · exact fr_throw _
    · exact fr_bind (h2 _) fun _ => fr_pure _
  · intro _; exact fr_pure _

theorem fq_flushStore (h : Nat) (c : Bytes) : Fr Quiet (flushStore h c) := by
  have h1 := fq_flushRelated h
  have h2 : ∀ H : Handle, Fr Quiet (M.modify fun s => s.setObj H.obj fun o => { o with ctime := s.clock, mtime := s.clock }) :=
    fun H s => TreeRel.tree s _ s.next s.lastIno s.mounts s.lastDev
  have h3 : Fr Quiet (M.modify fun s => s.setH h fun H => { H with fileEpoch := (s.heap H.obj).epoch }) :=
    fun s => quiet_setH s h (f := fun H => { H with fileEpoch := (s.heap H.obj).epoch }) ⟨rfl, rfl, rfl, rfl, rfl, rfl, rfl, rfl, rfl⟩
  unfold flushStore
  fq <;> first | exact h2 _ | exact h3

theorem fq_flush (h : Nat) : Fr Quiet (flush h) := by
  have h1 := fq_checkOpen h
  have h2 := fq_flushContents h
  unfold flush
  refine fr_bind h1 fun _ => ?_
  refine fr_bind (fr_hget _) fun H => ?_
  apply fr_ite
  · intro _; exact fr_bind h2 fun c => fq_flushStore h c
  · intro _; exact fr_pure _

theorem fq_seek (h : Nat) (o : Int) (w : Nat) : Fr Quiet (seek h o w) := by
  have h1 := fq_checkOpen h
  have h2 := fq_flush h
  unfold seek
  fq

theorem fq_tell (h : Nat) : Fr Quiet (tell h) := by
  have h1 := fq_checkOpen h
  have h2 := fq_flush h
  unfold tell
  fq

theorem fq_hRaise {α : Type} (h : Nat) : Fr Quiet (hRaise h : M α) := by unfold hRaise; fq

theorem fq_read (h : Nat) (n : Option Nat) : Fr Quiet (read h n) := by
  have h1 := fq_checkOpen h
  have h2 := fq_flush h
  have h3 := fq_syncIo h
  have h4 : Fr Quiet (hRaise h : M Bytes) := fq_hRaise h
  have h5 : ∀ H : Handle, Fr Quiet (M.modify fun s => s.setObj H.obj fun o => { o with atime := s.clock }) :=
    fun H s => TreeRel.tree s _ s.next s.lastIno s.mounts s.lastDev
  unfold read
  fq <;> exact h5 _

theorem fq_rawWrite (h : Nat) (b : Bytes) : Fr Quiet (rawWrite h b) := by unfold rawWrite; fq

theorem fq_tryFlush (h o : Nat) : Fr Quiet (tryFlush h o) := by
  have h2 := fq_flush h
  unfold tryFlush
  fq

theorem fq_writeWrapper (h : Nat) (b : Bytes) : Fr Quiet (writeWrapper h b) := by
  have h1 := fq_rawWrite h b
  have h2 := fun o => fq_tryFlush h o
  unfold writeWrapper
  fq <;> exact h2 _

theorem fq_write (h : Nat) (b : Bytes) : Fr Quiet (write h b) := by
  have h1 := fq_checkOpen h
  have h2 := fq_writeWrapper h b
  have h4 : Fr Quiet (hRaise h : M Nat) := fq_hRaise h
  unfold write
  fq

theorem fq_adaptSize (h n : Nat) : Fr Quiet (adaptSize h n) := by
  intro s0
  unfold adaptSize
  show Quiet s0 (s0.openHandles.foldl _ s0)
  have : ∀ (l : List Nat) (s : FS), Quiet s0 s → Quiet s0 (l.foldl (fun s' g =>
    if g ≠ h ∧ (s'.handles g).kind = .file ∧ (s'.handles g).obj = (s'.handles h).obj ∧ (s'.handles g).append then
      s'.setH g fun G => { G with readSeek := G.readSeek + n }
    else s') s) := by
    intro l
    induction l with
    | nil => intro s hs; exact hs
    | cons g l ih =>
      intro s hs
      rw [List.foldl_cons]
      apply ih
      split
      · exact TreeRel.trans hs (quiet_setH s g ⟨rfl, rfl, rfl, rfl, rfl, rfl, rfl, rfl, rfl⟩)
      · exact hs
  exact this _ _ (TreeRel.refl s0)

theorem fq_truncateWrapper (h : Nat) (n : Option Nat) : Fr Quiet (truncateWrapper h n) := by
  have h2 := fq_flush h
  have h3 := fun n => fq_adaptSize h n
  unfold truncateWrapper
  fq <;> exact h3 _

theorem fq_hTruncate (h : Nat) (n : Option Nat) : Fr Quiet (hTruncate h n) := by
  have h1 := fq_checkOpen h
  have h2 := fq_truncateWrapper h n
  have h4 : Fr Quiet (hRaise h : M Nat) := fq_hRaise h
  unfold hTruncate
  fq

theorem fq_ftruncate (fd : Int) (n : Nat) : Fr Quiet (ftruncate fd n) := by unfold ftruncate; fq
theorem fq_osRead (fd : Int) (n : Nat) : Fr Quiet (osRead fd n) := by
  have h2 := fun h => fq_read h (some n)
  unfold osRead
  fq <;> exact h2 _
theorem fq_osWrite (fd : Int) (b : Bytes) : Fr Quiet (osWrite fd b) := by
  have h2 := fun h => fq_write h b
  have h3 := fun h => fq_flush h
  have h4 := fun h => fq_syncIo h
  unfold osWrite
  fq <;> first | exact h2 _ | exact h3 _ | exact h4 _

theorem fq_initFileObject (o : Option Ref) (p r : Str) (md : OpenModes) : Fr Quiet (initFileObject o p r md) := by
  have h1 := fun p m c z cm um => fr_createFileI (R := Quiet) p m c z cm um
  unfold initFileObject
  split
  · fq
  · fq <;> exact h1 _ _ _ _ _ _
theorem fq_openObject (o : Option Ref) (p r : Str) (md : OpenModes) : Fr Quiet (openObject o p r md) := by
  have h1 := fq_initFileObject o p r md
  have h2 : ∀ r, Fr Quiet (M.modify fun s => s.setObj r fun o =>
      { o with mtime := s.clock, ctime := if s.cfg.isWin then o.ctime else s.clock }) :=
    fun r s => TreeRel.tree s _ s.next s.lastIno s.mounts s.lastDev
  unfold openObject
  fq <;> exact h2 _

end Verif
