import Verif.FrameO
import Verif.Hist
/-!
# Frames for open files and for histories

`FrameO` for the operations on handles and descriptors, and for a whole call of a history.
-/

namespace Verif
open Py Spec Cfg

section
variable {R : FS → FS → Prop} [OpRelD R]

theorem fo_createFileR (p : Str) (c : Option Bytes) : Fr R (createFileI p (S_IFREG ||| PERM_DEF_FILE) c none false true) :=
  fo_createFileI _ _ _ _ _ _ fun b x s => OpRel.regN b x s

theorem fo_initFileObject (o : Option Ref) (p q : Str) (md : OpenModes) : Fr R (initFileObject o p q md) := by
  have h1 := fun c => fo_createFileR (R := R) q c
  unfold initFileObject
  repeat' first
    | with_reducible exact h1 _
    | with_reducible exact fo_pure _
    | with_reducible exact fo_pure' _
    | with_reducible exact fo_throw _
    | with_reducible exact fo_raise _
    | with_reducible exact fo_get
    | with_reducible exact fo_rd _
    | with_reducible exact fo_setContents _ _
    | with_reducible apply fo_bind
    | with_reducible apply fo_ite
    | split
    | with_reducible intro _
    | dsimp only
theorem fo_openObject (o : Option Ref) (p q : Str) (md : OpenModes) : Fr R (openObject o p q md) := by
  have h1 := fo_initFileObject (R := R) o p q md
  have h2 : ∀ r, Fr R (M.modify fun s => s.setObj r fun o =>
      { o with mtime := s.clock, ctime := if s.cfg.isWin then o.ctime else s.clock }) :=
    fun r => fo_setObj r (fun s o => { o with mtime := s.clock, ctime := if s.cfg.isWin then o.ctime else s.clock }) fun _ => Keep.same rfl rfl rfl
  unfold openObject
  repeat' first
    | with_reducible exact h1
    | with_reducible exact h2 _
    | with_reducible exact fo_pure _
    | with_reducible exact fo_pure' _
    | with_reducible exact fo_raise _
    | with_reducible exact fo_get
    | with_reducible exact fo_rd _
    | with_reducible apply fo_bind
    | with_reducible apply fo_ite
    | with_reducible intro _
    | dsimp only
end

section
variable {R : FS → FS → Prop} [OpRelIO R]

theorem fo_hmod (h : Nat) (f : Handle → Handle) : Fr R (hmod h f) :=
  fun s => OpRelIO.hand s _ s.hnext s.openFiles s.freeFds
theorem fo_setH (h : Nat) (f : FS → Handle → Handle) : Fr R (M.modify fun s => s.setH h (f s)) :=
  fun s => OpRelIO.hand s _ s.hnext s.openFiles s.freeFds
theorem fo_openFiles (f : FS → List (Option (List Nat))) : Fr R (M.modify fun s => { s with openFiles := f s }) :=
  fun s => OpRelIO.hand s s.handles s.hnext _ s.freeFds
theorem fo_closeOpenFile (fd : Nat) : Fr R (closeOpenFile fd) := fun s => OpRelIO.hand s s.handles s.hnext _ _
theorem fo_newHandle (H : Handle) : Fr R (newHandle H) := fun s => OpRelIO.hand s _ _ s.openFiles s.freeFds
theorem fo_addOpenFile (h : Nat) : Fr R (addOpenFile h) := by
  intro s
  unfold addOpenFile
  split
  · exact OpRelIO.hand s s.handles s.hnext _ _
  · exact OpRelIO.hand s s.handles s.hnext _ s.freeFds
theorem fo_checkOpen (h : Nat) : Fr R (checkOpen h) := by
  intro s
  unfold checkOpen
  split <;> exact OpRel.refl s
theorem fo_hRaise {α : Type} (h : Nat) : Fr R (hRaise h : M α) := by
  unfold hRaise
  refine fo_bind (fo_hget h) fun H => fo_ite (fun _ => fo_raise _) fun _ => fo_throw _

/-- Compositional steps for handle operations. -/
macro "framesH" : tactic => `(tactic|
  repeat' first
    | with_reducible assumption
    | with_reducible exact fo_pure _
    | with_reducible exact fo_pure' _
    | with_reducible exact fo_throw _
    | with_reducible exact fo_raise _
    | with_reducible exact fo_get
    | with_reducible exact fo_rd _
    | with_reducible exact fo_hget _
    | with_reducible exact fo_hmod _ _
    | with_reducible exact fo_setH _ _
    | with_reducible exact fo_openFiles _
    | with_reducible exact fo_checkOpen _
    | with_reducible exact fo_hRaise _
    | with_reducible exact fo_closeOpenFile _
    | with_reducible exact fo_newHandle _
    | with_reducible exact fo_addOpenFile _
    | with_reducible exact fo_setSize _ _
    | with_reducible exact fo_setContents _ _
    | with_reducible exact fo_removeObject _
    | with_reducible exact fo_setObj _ _ (fun _ => Keep.same rfl rfl rfl)
    | with_reducible apply fo_bind
    | with_reducible apply fo_bindB
    | with_reducible apply fo_ite
    | with_reducible apply fo_catchOS
    | with_reducible apply fo_tryCatch
    | with_reducible apply fo_void
    | split
    | with_reducible intro _
    | dsimp only)

theorem fo_setStream (h : Nat) (b : Option Bytes) : Fr R (setStream h b) := by
  unfold setStream; framesH
theorem fo_syncIo (h : Nat) : Fr R (syncIo h) := by
  have h1 := fun b => fo_setStream (R := R) h b
  unfold syncIo
  refine fo_bind fo_get fun s => fo_ite (fun _ => fo_pure _) fun _ => fo_bind (h1 _) fun _ => ?_
  exact fo_setH h (fun s H => { H with fileEpoch := (s.heap H.obj).epoch })
theorem fo_syncAll (h : Nat) (r : Ref) : ∀ l, Fr R (syncAll h r l) := by
  intro l
  induction l with
  | nil => exact fo_pure _
  | cons g gs ih =>
    unfold syncAll
    refine fo_bind (fo_hget g) fun G => ?_
    dsimp only
    apply fo_ite
    · intro _; exact fo_bind (fo_syncIo g) fun _ => ih
    · intro _; exact ih
theorem fo_flushRelated (h : Nat) : Fr R (flushRelated h) := by
  unfold flushRelated
  exact fo_bind fo_get fun s => fo_syncAll _ _ _
theorem fo_flushContents (h : Nat) : Fr R (flushContents h) := by
  have h1 := fo_syncIo (R := R) h
  have h2 := fun b => fo_setStream (R := R) h b
  unfold flushContents
  refine fo_bind (fo_hget h) fun H => fo_ite (fun _ => fo_bind h1 fun _ => fo_bind fo_get fun s => ?_) fun _ => fo_pure _
  split
  · exact fo_throw _
  · exact fo_bind (h2 _) fun _ => fo_pure _
theorem fo_flushStore (h : Nat) (c : Bytes) : Fr R (flushStore h c) := by
  have h1 := fo_flushRelated (R := R) h
  have h2 : Fr R (M.modify fun s => s.setH h fun H => { H with fileEpoch := (s.heap H.obj).epoch }) :=
    fo_setH h (fun s H => { H with fileEpoch := (s.heap H.obj).epoch })
  have h3 : ∀ r, Fr R (M.modify fun s => s.setObj r fun o => { o with ctime := s.clock, mtime := s.clock }) :=
    fun r => fo_setObj r (fun s o => { o with ctime := s.clock, mtime := s.clock }) fun _ => Keep.same rfl rfl rfl
  unfold flushStore
  refine fo_bind (fo_hmod _ _) fun _ => fo_bind (fo_hget h) fun H => fo_bind (fo_setContents _ _) fun b => fo_bind fo_get fun s => ?_
  have key : Fr R (do
      M.modify fun s => s.setH h fun H => { H with fileEpoch := (s.heap H.obj).epoch }
      flushRelated h) := fo_bind h2 fun _ => h1
  dsimp only
  apply fo_ite
  · intro _
    apply fo_ite
    · intro _; exact fo_bind (fo_hmod _ _) fun _ => key
    · intro _; exact fo_bind (h3 _) fun _ => key
  · intro _; exact key
theorem fo_flush (h : Nat) : Fr R (flush h) := by
  unfold flush
  exact fo_bind (fo_checkOpen h) fun _ => fo_bind (fo_hget h) fun H => fo_ite
    (fun _ => fo_bind (fo_flushContents h) fun c => fo_flushStore h c) fun _ => fo_pure _
theorem fo_seek (h : Nat) (o : Int) (w : Nat) : Fr R (seek h o w) := by
  have h1 := fo_flush (R := R) h
  unfold seek
  framesH
theorem fo_tell (h : Nat) : Fr R (tell h) := by
  have h1 := fo_flush (R := R) h
  unfold tell
  framesH
theorem fo_read (h : Nat) (n : Option Nat) : Fr R (read h n) := by
  have h1 := fo_flush (R := R) h
  have h2 := fo_syncIo (R := R) h
  have h3 : ∀ r, Fr R (M.modify fun s => s.setObj r fun o => { o with atime := s.clock }) :=
    fun r => fo_setObj r (fun s o => { o with atime := s.clock }) fun _ => Keep.same rfl rfl rfl
  have h3 := fun r => h3 r
  unfold read
  repeat' first
    | with_reducible exact h1
    | with_reducible exact h2
    | with_reducible exact h3 _
    | with_reducible exact fo_pure _
    | with_reducible exact fo_pure' _
    | with_reducible exact fo_throw _
    | with_reducible exact fo_get
    | with_reducible exact fo_hget _
    | with_reducible exact fo_hmod _ _
    | with_reducible exact fo_checkOpen _
    | with_reducible exact fo_hRaise _
    | with_reducible apply fo_bind
    | with_reducible apply fo_ite
    | split
    | with_reducible intro _
    | dsimp only
theorem fo_rawWrite (h : Nat) (b : Bytes) : Fr R (rawWrite h b) := fo_hmod _ _
theorem fo_tryFlush (h : Nat) (o : Nat) : Fr R (tryFlush h o) := by
  have h1 := fo_flush (R := R) h
  unfold tryFlush
  framesH
theorem fo_writeWrapper (h : Nat) (b : Bytes) : Fr R (writeWrapper h b) := by
  have h1 := fun o => fo_tryFlush (R := R) h o
  have h2 := fun b => fo_rawWrite (R := R) h b
  unfold writeWrapper
  repeat' first
    | with_reducible exact h1 _
    | with_reducible exact h2 _
    | with_reducible exact fo_pure _
    | with_reducible exact fo_pure' _
    | with_reducible exact fo_hget _
    | with_reducible exact fo_hmod _ _
    | with_reducible apply fo_bind
    | with_reducible apply fo_ite
    | with_reducible intro _
    | dsimp only
theorem fo_write (h : Nat) (b : Bytes) : Fr R (write h b) := by
  have h1 := fo_writeWrapper (R := R) h b
  unfold write
  framesH
theorem fo_adaptSize (h n : Nat) : Fr R (adaptSize h n) := by
  unfold adaptSize
  intro s
  show R s (s.openHandles.foldl _ s)
  generalize s.openHandles = l
  induction l generalizing s with
  | nil => exact OpRel.refl s
  | cons g gs ih =>
    rw [List.foldl_cons]
    refine OpRel.trans ?_ (ih _)
    split
    · exact OpRelIO.hand s _ s.hnext s.openFiles s.freeFds
    · exact OpRel.refl s
theorem fo_truncateWrapper (h : Nat) (z : Option Nat) : Fr R (truncateWrapper h z) := by
  have h1 := fo_flush (R := R) h
  have h2 := fun n => fo_adaptSize (R := R) h n
  unfold truncateWrapper
  repeat' first
    | with_reducible exact h1
    | with_reducible exact h2 _
    | with_reducible exact fo_pure _
    | with_reducible exact fo_pure' _
    | with_reducible exact fo_throw _
    | with_reducible exact fo_hget _
    | with_reducible exact fo_hmod _ _
    | with_reducible exact fo_setSize _ _
    | with_reducible exact fo_setContents _ _
    | with_reducible apply fo_bind
    | with_reducible apply fo_ite
    | split
    | with_reducible intro _
    | dsimp only
theorem fo_hTruncate (h : Nat) (z : Option Nat) : Fr R (hTruncate h z) := by
  have h1 := fo_truncateWrapper (R := R) h z
  unfold hTruncate
  framesH
theorem fo_hClose (h : Nat) : Fr R (hClose h) := by
  have h1 := fo_flush (R := R) h
  have h3 : ∀ r, Fr R (M.modify fun s => s.setObj r fun o => { o with mtime := s.clock }) :=
    fun r => fo_setObj r (fun s o => { o with mtime := s.clock }) fun _ => Keep.same rfl rfl rfl
  have h4 : ∀ fd, Fr R (M.modify fun s => { s with openFiles := s.openFiles.modify fd fun e => e.map fun l => l.erase h }) :=
    fun fd => fo_openFiles fun s => s.openFiles.modify fd fun e => e.map fun l => l.erase h
  unfold hClose
  repeat' first
    | with_reducible exact h1
    | with_reducible exact h3 _
    | with_reducible exact h4 _
    | with_reducible exact fo_pure _
    | with_reducible exact fo_pure' _
    | with_reducible exact fo_get
    | with_reducible exact fo_closeOpenFile _
    | with_reducible exact fo_removeObject _
    | with_reducible apply fo_bind
    | with_reducible apply fo_ite
    | split
    | with_reducible intro _
    | dsimp only

theorem fo_openPath (p : Str) (md : OpenModes) (b : Option Nat) (r d : Bool) : Fr R (openPath p md b r d) := by
  have h1 := fun o q => fo_openObject (R := R) o p q md
  unfold openPath
  repeat' first
    | with_reducible exact h1 _ _
    | with_reducible exact fo_pure _
    | with_reducible exact fo_throw _
    | with_reducible exact fo_get
    | with_reducible exact fo_rd _
    | with_reducible exact fo_hmod _ _
    | with_reducible exact fo_newHandle _
    | with_reducible exact fo_addOpenFile _
    | with_reducible apply fo_bind
    | with_reducible apply fo_ite
    | with_reducible intro _
    | dsimp only
theorem fo_openFd (fd : Nat) (md : OpenModes) (b : Option Nat) (c : Bool) : Fr R (openFd fd md b c) := by
  have h1 := fun o p q => fo_openObject (R := R) o p q md
  have h4 : ∀ h, Fr R (M.modify fun s => { s with openFiles := s.openFiles.modify fd fun e => e.map fun l => l ++ [h] }) :=
    fun h => fo_openFiles fun s => s.openFiles.modify fd fun e => e.map fun l => l ++ [h]
  unfold openFd
  repeat' first
    | with_reducible exact h1 _ _ _
    | with_reducible exact h4 _
    | with_reducible exact fo_pure _
    | with_reducible exact fo_throw _
    | with_reducible exact fo_get
    | with_reducible exact fo_rd _
    | with_reducible exact fo_hget _
    | with_reducible exact fo_newHandle _
    | with_reducible apply fo_bind
    | with_reducible apply fo_ite
    | with_reducible intro _
    | dsimp only
theorem fo_osClose (fd : Int) : Fr R (osClose fd) := by
  unfold osClose; exact fo_bind (fo_rd _) fun h => fo_hClose h
theorem fo_osRead (fd : Int) (n : Nat) : Fr R (osRead fd n) := by
  have h1 := fun h => fo_read (R := R) h (some n)
  unfold osRead
  repeat' first
    | with_reducible exact h1 _
    | with_reducible exact fo_throw _
    | with_reducible exact fo_rd _
    | with_reducible exact fo_hget _
    | with_reducible exact fo_hmod _ _
    | with_reducible apply fo_bind
    | with_reducible apply fo_ite
    | with_reducible intro _
    | dsimp only
theorem fo_osWrite (fd : Int) (b : Bytes) : Fr R (osWrite fd b) := by
  have h1 := fun h => fo_write (R := R) h b
  have h2 := fun h => fo_flush (R := R) h
  have h3 := fun h => fo_syncIo (R := R) h
  unfold osWrite
  repeat' first
    | with_reducible exact h1 _
    | with_reducible exact h2 _
    | with_reducible exact h3 _
    | with_reducible exact fo_pure _
    | with_reducible exact fo_throw _
    | with_reducible exact fo_raise _
    | with_reducible exact fo_rd _
    | with_reducible exact fo_hget _
    | with_reducible exact fo_hmod _ _
    | with_reducible apply fo_bind
    | with_reducible apply fo_ite
    | with_reducible intro _
    | dsimp only
theorem fo_ftruncate (fd : Int) (n : Nat) : Fr R (ftruncate fd n) := by
  unfold ftruncate
  repeat' first
    | with_reducible exact fo_setSize _ _
    | with_reducible exact fo_throw _
    | with_reducible exact fo_rd _
    | with_reducible exact fo_hget _
    | with_reducible apply fo_bind
    | with_reducible apply fo_ite
    | with_reducible intro _
    | dsimp only
theorem fo_onFile {α : Type} {h : Nat} {m : M α} (hm : Fr R m) : Fr R (onFile h m) := by
  unfold onFile
  exact fo_bind fo_get fun s => fo_ite (fun _ => fo_void hm) fun _ => fo_throw _

/-- what the relation asks of the mode argument of a call -/
def Op.modeOk (R : FS → FS → Prop) [OpRel R] : Op → Prop
  | .mkdir _ m => ∀ x, OpRel.D R (andNot m x)
  | .makedirs _ m _ => ∀ x, OpRel.D R (andNot m x)
  | .createDir _ m => OpRel.D R m
  | .createFile _ m _ _ _ um => ∀ b x s, OpRel.N R (mkFileObj b (if um then andNot m x else m) none s)
  | .mknod _ m => ∀ b x s, OpRel.N R (mkFileObj b (andNot m x) none s)
  | .addMountPoint _ _ => ∀ s, OpRel.A R s
  | .setDiskUsage _ _ => OpRel.T R
  | _ => True

/-- the calls that change modes, the current directory, the umask, the user or the clock -/
def Op.special : Op → Bool
  | .chmod _ _ _ | .osOpen _ _ _ | .chdir _ | .umask _ | .setUser _ _ | .setClock _ => true
  | _ => false

/-- Every other call stays within `R`. -/
theorem fo_run (o : Op) (ho : o.special = false) (hm : o.modeOk R) : Fr R o.run := by
  cases o with
  | mkdir p m => exact fo_mkdir p m hm
  | makedirs p m e => exact fo_makedirs p m e hm
  | createDir p m => exact fo_void (fo_createDir p m hm)
  | createFile p m c z cm um => exact fo_void (fo_createFile p m c z cm um hm)
  | createSymlink p t cm => exact fo_void (fo_createSymlink p t cm)
  | createLink o n f cm => exact fo_void (fo_createLink o n f cm)
  | remove p => exact fo_remove p
  | removeObject p => exact fo_removeObject p
  | rmdir p => exact fo_rmdir p false
  | removedirs p => exact fo_removedirs p
  | rename o n f => exact fo_rename o n f
  | chmod p m f => simp [Op.special] at ho
  | utime p ns f => exact fo_utime p ns f
  | chown p u g f => exact fo_chown p u g f
  | truncate p n => exact fo_truncate p n
  | mknod p m => exact fo_mknod p m hm
  | setxattr p a v fl f => exact fo_setxattr p a v fl f
  | removexattr p a f => exact fo_removexattr p a f
  | addMountPoint p t => exact fo_void (fo_addMountPoint p t hm)
  | setDiskUsage t p => exact fo_setDiskUsage t p hm
  | umask m => simp [Op.special] at ho
  | chdir p => simp [Op.special] at ho
  | openPath p md b r d => exact fo_void (fo_openPath p md b r d)
  | openFd fd md b c => exact fo_void (fo_openFd fd md b c)
  | osOpen p f m => simp [Op.special] at ho
  | osClose fd => exact fo_osClose fd
  | osRead fd n => exact fo_void (fo_osRead fd n)
  | osWrite fd b => exact fo_void (fo_osWrite fd b)
  | ftruncate fd n => exact fo_ftruncate fd n
  | hRead h n => exact fo_onFile (fo_read h n)
  | hWrite h b => exact fo_onFile (fo_write h b)
  | hSeek h o w => exact fo_onFile (fo_seek h o w)
  | hTell h => exact fo_onFile (fo_tell h)
  | hTruncate h n => exact fo_onFile (fo_hTruncate h n)
  | hFlush h => exact fo_onFile (fo_flush h)
  | hClose h => exact fo_onFile (fo_hClose h)
  | setUser u g => simp [Op.special] at ho
  | setClock t => simp [Op.special] at ho

end
end Verif
