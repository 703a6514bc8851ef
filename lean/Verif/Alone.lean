import Verif.Flags
import Verif.IoFlush
import Verif.Props.Modes
/-!
# Calls through other handles leave the data of a handle in append mode alone
-/

namespace Verif
open Py Spec Cfg

/-- If `h` is in append mode, it has its data and flags; only the place where reading goes on may have moved. -/
structure Alone (h : Nat) (s s' : FS) : Prop where
  hnext : s.hnext ≤ s'.hnext
  keep : h < s.hnext → (s.handles h).append = true → s'.handles h = { s.handles h with readSeek := (s'.handles h).readSeek }

theorem Alone.of {h : Nat} {s s' : FS} (h1 : s.hnext ≤ s'.hnext) (h2 : h < s.hnext → s'.handles h = s.handles h) : Alone h s s' :=
  ⟨h1, fun hl _ => by rw [h2 hl]⟩

instance (h : Nat) : TreeRel (Alone h) where
  refl _ := Alone.of (Nat.le_refl _) fun _ => rfl
  trans a b := ⟨Nat.le_trans a.hnext b.hnext, fun hl ha => by
    have e := a.keep hl ha
    rw [b.keep (Nat.lt_of_lt_of_le hl a.hnext) (by rw [e]; exact ha), e]⟩
  tree _ _ _ _ _ _ := Alone.of (Nat.le_refl _) fun _ => rfl

section
variable {h g : Nat}

theorem fa_hmod (hg : g ≠ h) (f : Handle → Handle) : Fr (Alone h) (hmod g f) :=
  fun s => Alone.of (Nat.le_refl _) fun _ => setH_ne s f (Ne.symm hg)

theorem fa_setHs (hg : g ≠ h) (f : FS → Handle → Handle) : Fr (Alone h) (M.modify fun s => s.setH g (f s)) :=
  fun s => Alone.of (Nat.le_refl _) fun _ => setH_ne s (f s) (Ne.symm hg)

/-- Compositional steps. -/
macro "fa" hg:term : tactic => `(tactic|
  repeat' first
    | with_reducible assumption
    | with_reducible exact fr_pure _
    | with_reducible exact fr_pure' _
    | with_reducible exact fr_throw _
    | with_reducible exact fr_raise _
    | with_reducible exact fr_get
    | with_reducible exact fr_rd _
    | with_reducible exact fr_hget _
    | with_reducible exact fr_setSize _ _
    | with_reducible exact fr_setContents _ _
    | with_reducible exact fr_removeObject _
    | with_reducible exact fa_hmod $hg _
    | with_reducible exact fa_setHs $hg _
    | with_reducible exact fr_setObj _ _
    | with_reducible apply fr_bind
    | with_reducible apply fr_ite
    | with_reducible apply fr_catchOS
    | with_reducible apply fr_tryCatch
    | split
    | with_reducible intro _
    | dsimp only)

theorem fa_checkOpen (k : Nat) : Fr (Alone h) (checkOpen k) := by
  intro s
  unfold checkOpen
  split <;> exact TreeRel.refl s

theorem fa_setStream (hg : g ≠ h) (b : Option Bytes) : Fr (Alone h) (setStream g b) := by
  unfold setStream
  fa hg

theorem fa_syncIo (hg : g ≠ h) : Fr (Alone h) (syncIo g) := by
  have := fun b => fa_setStream hg b
  unfold syncIo
  fa hg
  exact this _

theorem fa_syncAll (k : Nat) (r : Ref) : ∀ l, Fr (Alone h) (syncAll k r l) := by
  intro l
  induction l with
  | nil => exact fr_pure _
  | cons g l ih =>
    intro s
    show Alone h s ((hget g >>= fun G => _) s).2
    rw [M.bind_eq]
    dsimp only [hget]
    split
    · rename_i hc
      by_cases hg : g = h
      · refine ⟨?_, fun hl ha => ?_⟩
        · subst hg
          exact ((fr_bind (ff_quiet (fq_syncIo g)) fun _ => ff_quiet (fq_syncAll k r l)) s).hnext
        · subst hg; rw [hc.2.2.2] at ha; simp at ha
      · exact fr_bind (fa_syncIo hg) (fun _ => ih) s
    · exact ih s

theorem fa_flushRelated (k : Nat) : Fr (Alone h) (flushRelated k) := by
  unfold flushRelated
  exact fr_bind fr_get fun s => fa_syncAll _ _ _

theorem fa_flushContents (hg : g ≠ h) : Fr (Alone h) (flushContents g) := by
  have h1 := fa_syncIo (h := h) hg
  have h2 := fun b => fa_setStream (h := h) hg b
  unfold flushContents
  repeat' first
    | with_reducible exact h2 _
    | fa hg

theorem fa_flushStore (hg : g ≠ h) (c : Bytes) : Fr (Alone h) (flushStore g c) := by
  have h1 := fa_flushRelated (h := h) g
  unfold flushStore
  fa hg

theorem fa_flush (hg : g ≠ h) : Fr (Alone h) (flush g) := by
  unfold flush
  refine fr_bind (fa_checkOpen _) fun _ => fr_bind (fr_hget _) fun H => ?_
  apply fr_ite
  · intro _; exact fr_bind (fa_flushContents hg) fun c => fa_flushStore hg c
  · intro _; exact fr_pure _

theorem fa_seek (hg : g ≠ h) (o : Int) (w : Nat) : Fr (Alone h) (seek g o w) := by
  have h1 := fa_flush (h := h) hg
  have h2 := fa_checkOpen (h := h) g
  unfold seek
  fa hg

theorem fa_tell (hg : g ≠ h) : Fr (Alone h) (tell g) := by
  have h1 := fa_flush (h := h) hg
  have h2 := fa_checkOpen (h := h) g
  unfold tell
  fa hg

theorem fa_hRaise {α : Type} (g : Nat) : Fr (Alone h) (hRaise g : M α) := by
  unfold hRaise
  exact fr_bind (fr_hget _) fun H => fr_ite (fun _ => fr_raise _) fun _ => fr_throw _

theorem fa_read (hg : g ≠ h) (n : Option Nat) : Fr (Alone h) (read g n) := by
  have h1 := fa_flush (h := h) hg
  have h2 := fa_checkOpen (h := h) g
  have h3 := fa_hRaise (α := Bytes) (h := h) g
  have h4 := fa_syncIo (h := h) hg
  unfold read
  fa hg

theorem fa_rawWrite (hg : g ≠ h) (b : Bytes) : Fr (Alone h) (rawWrite g b) := fa_hmod hg _

theorem fa_tryFlush (hg : g ≠ h) (o : Nat) : Fr (Alone h) (tryFlush g o) := by
  have h1 := fa_flush (h := h) hg
  unfold tryFlush
  fa hg

theorem fa_writeWrapper (hg : g ≠ h) (b : Bytes) : Fr (Alone h) (writeWrapper g b) := by
  have h1 := fun b => fa_rawWrite (h := h) hg b
  have h2 := fun o => fa_tryFlush (h := h) hg o
  unfold writeWrapper
  repeat' first
    | with_reducible exact h1 _
    | with_reducible exact h2 _
    | with_reducible exact fr_pure _
    | with_reducible exact fr_hget _
    | with_reducible exact fa_hmod hg _
    | with_reducible apply fr_bind
    | with_reducible apply fr_ite
    | with_reducible intro _
    | dsimp only

theorem fa_write (hg : g ≠ h) (b : Bytes) : Fr (Alone h) (write g b) := by
  have h1 := fa_writeWrapper (h := h) hg b
  have h2 := fa_checkOpen (h := h) g
  have h3 := fa_hRaise (α := Nat) (h := h) g
  unfold write
  fa hg

theorem fa_adaptSize (k n : Nat) : Fr (Alone h) (adaptSize k n) := by
  intro s
  show Alone h s _
  have : ∀ (l : List Nat) (s : FS), Alone h s (l.foldl (fun s' g =>
      if g ≠ k ∧ (s'.handles g).kind = .file ∧ (s'.handles g).obj = (s'.handles k).obj ∧ (s'.handles g).append then
        s'.setH g fun G => { G with readSeek := G.readSeek + n }
      else s') s) := by
    intro l
    induction l with
    | nil => intro s; exact TreeRel.refl s
    | cons g l ih =>
      intro s
      rw [List.foldl_cons]
      refine TreeRel.trans ?_ (ih _)
      split
      · refine ⟨Nat.le_refl _, fun _ _ => ?_⟩
        by_cases hg : h = g
        · subst hg; rw [setH_same]
        · rw [setH_ne _ _ hg]
      · exact TreeRel.refl s
  exact this _ s

theorem fa_truncateWrapper (hg : g ≠ h) (n : Option Nat) : Fr (Alone h) (truncateWrapper g n) := by
  have h1 := fa_flush (h := h) hg
  have h2 := fun m => fa_adaptSize (h := h) g m
  unfold truncateWrapper
  repeat' first
    | with_reducible assumption
    | with_reducible exact h2 _
    | with_reducible exact fr_pure _
    | with_reducible exact fr_throw _
    | with_reducible exact fr_hget _
    | with_reducible exact fr_setSize _ _
    | with_reducible exact fr_setContents _ _
    | with_reducible exact fa_hmod hg _
    | with_reducible apply fr_bind
    | with_reducible apply fr_ite
    | split
    | with_reducible intro _
    | dsimp only

theorem fa_hTruncate (hg : g ≠ h) (n : Option Nat) : Fr (Alone h) (hTruncate g n) := by
  have h1 := fa_truncateWrapper (h := h) hg n
  have h2 := fa_checkOpen (h := h) g
  have h3 := fa_hRaise (α := Nat) (h := h) g
  unfold hTruncate
  fa hg

theorem fa_closeOpenFile (fd : Nat) : Fr (Alone h) (closeOpenFile fd) := fun _ => Alone.of (Nat.le_refl _) fun _ => rfl

theorem fa_hClose (hg : g ≠ h) : Fr (Alone h) (hClose g) := by
  have h1 := fa_flush (h := h) hg
  have h2 := fun fd => fa_closeOpenFile (h := h) fd
  have hm : ∀ fd, Fr (Alone h) (M.modify fun s => { s with openFiles := s.openFiles.modify fd fun e => e.map fun l => l.erase g }) :=
    fun fd s => Alone.of (Nat.le_refl _) fun _ => rfl
  have ho : ∀ r, Fr (Alone h) (M.modify fun s => s.setObj r fun o => { o with mtime := s.clock }) :=
    fun r s => TreeRel.tree s _ s.next s.lastIno s.mounts s.lastDev
  unfold hClose
  refine fr_bind fr_get fun s => ?_
  dsimp only
  repeat' first
    | with_reducible assumption
    | with_reducible exact h2 _
    | with_reducible exact hm _
    | with_reducible exact ho _
    | with_reducible exact fr_removeObject _
    | with_reducible exact fr_pure _
    | with_reducible exact fr_pure' _
    | with_reducible exact fr_get
    | with_reducible apply fr_bind
    | with_reducible apply fr_ite
    | split
    | with_reducible intro _
    | dsimp only

theorem fa_quietNew {α : Type} {m : M α} (hq : Fr Flags m) (hk : ∀ s, h < s.hnext → (m s).2.handles h = s.handles h) : Fr (Alone h) m :=
  fun s => Alone.of (hq s).hnext (hk s)

theorem fa_newHandle (H : Handle) : Fr (Alone h) (newHandle H) := fun s =>
  Alone.of (Nat.le_succ _) fun hl => upd_ne _ _ (Nat.ne_of_lt hl)

/-- opening registers a new handle -/
theorem fa_register (H : Handle) {α : Type} (f : Nat → Nat → α) : Fr (Alone h) (newHandle H >>= fun k =>
    addOpenFile k >>= fun fd => hmod k (fun H => { H with fd := fd }) >>= fun _ => M.pure (f k fd)) := by
  intro s
  refine Alone.of ?_ fun hl => ?_
  · have : Fr Flags (newHandle H >>= fun k =>
        addOpenFile k >>= fun fd => hmod k (fun H => { H with fd := fd }) >>= fun _ => M.pure (f k fd)) :=
      fr_bind (ff_newHandle _) fun k => fr_bind (ff_addOpenFile k) fun fd => fr_bind (ff_hmodFd k fd) fun _ => fr_pure _
    exact (this s).hnext
  · rw [M.bind_eq]
    dsimp only [newHandle]
    rw [M.bind_eq]
    have : ∀ t : FS, ∃ fd t', addOpenFile s.hnext t = (.ok fd, t') ∧ t'.handles = t.handles := by
      intro t
      unfold addOpenFile
      split
      · exact ⟨_, _, rfl, rfl⟩
      · exact ⟨_, _, rfl, rfl⟩
    obtain ⟨fd, t', e1, e2⟩ := this { s with handles := upd s.handles s.hnext H, hnext := s.hnext + 1 }
    rw [e1]
    dsimp only
    rw [M.bind_eq]
    dsimp only [hmod, M.modify, M.pure]
    rw [setH_ne _ _ (Nat.ne_of_lt hl), e2]
    exact upd_ne _ _ (Nat.ne_of_lt hl)

theorem fa_modObj (r : Ref) (f : FS → Obj → Obj) : Fr (Alone h) (M.modify fun s => s.setObj r (f s)) :=
  fun s => TreeRel.tree s _ s.next s.lastIno s.mounts s.lastDev

theorem fa_initFileObject (o : Option Ref) (p r : Str) (md : OpenModes) : Fr (Alone h) (initFileObject o p r md) := by
  have h1 := fun p m c z cm um => fr_createFileI (R := Alone h) p m c z cm um
  unfold initFileObject
  split
  · fa (Nat.succ_ne_self 0)
  · repeat' first
    | with_reducible exact h1 _ _ _ _ _ _
    | fa (Nat.succ_ne_self 0)

theorem fa_openObject (o : Option Ref) (p r : Str) (md : OpenModes) : Fr (Alone h) (openObject o p r md) := by
  have h1 := fa_initFileObject (h := h) o p r md
  have h2 : ∀ r, Fr (Alone h) (M.modify fun s => s.setObj r fun o =>
      { o with mtime := s.clock, ctime := if s.cfg.isWin then o.ctime else s.clock }) :=
    fun r => fa_modObj r _
  unfold openObject
  repeat' first
    | with_reducible exact h2 _
    | fa (Nat.succ_ne_self 0)

theorem fa_openPath (p : Str) (md : OpenModes) (bf : Option Nat) (raw del : Bool) : Fr (Alone h) (openPath p md bf raw del) := by
  unfold openPath
  refine fr_bind (fr_rd _) fun a => ?_
  refine fr_bind (fa_openObject _ _ _ _) fun r => ?_
  refine fr_bind fr_get fun s => ?_
  dsimp only
  have tail := fa_register (h := h) (mkHandle s r md bf true raw del 0) fun k _ => k
  apply fr_ite
  · intro _; exact fr_bind (fr_throw _) fun _ => tail
  · intro _; exact tail

theorem fa_openFd (fd : Nat) (md : OpenModes) (bf : Option Nat) (c : Bool) : Fr (Alone h) (openFd fd md bf c) := by
  have tail : ∀ W : Handle, Fr (Alone h) (do
      let s ← M.get
      let nm := (s.heap W.obj).name
      let r ← openObject (some W.obj) nm nm md
      let s ← M.get
      let h ← newHandle (mkHandle s r md bf (c || fd == 0) false W.deleteOnClose fd)
      M.modify fun s => { s with openFiles := s.openFiles.modify fd fun e => e.map fun l => l ++ [h] }
      M.pure h) := by
    intro W
    refine fr_bind fr_get fun s => ?_
    dsimp only
    refine fr_bind (fa_openObject _ _ _ _) fun r => ?_
    refine fr_bind fr_get fun s => ?_
    refine fr_bind (fa_newHandle _) fun h => ?_
    exact fr_bind (fun s => Alone.of (Nat.le_refl _) fun _ => rfl) fun _ => fr_pure _
  unfold openFd
  refine fr_bind (fr_rd _) fun w => ?_
  refine fr_bind (fr_hget _) fun W => ?_
  dsimp only
  apply fr_ite
  · intro _; exact fr_bind (fr_throw _) fun _ => tail W
  · intro _; exact tail W

theorem fa_osOpen (p : Str) (f : OFlags) (mode : Nat) : Fr (Alone h) (osOpen p f mode) := by
  unfold osOpen
  dsimp only
  have tail : Fr (Alone h) (do
      let s ← M.get
      match ← rd (·.openDirArg p) with
      | some r => do
        if (!f.modes.mustExist && !s.cfg.isMac) || f.modes.canWrite then M.raise .EISDIR
        let h ← newHandle { mkHandle s r f.modes none true true false 0 with kind := .dir, buf := [], pos := 0 }
        let fd ← addOpenFile h
        hmod h fun H => { H with fd := fd }
        M.pure fd
      | none => do
        let h ← openPath p f.modes none true false
        let H ← hget h
        if H.obj ≠ devNullRef then chmod p mode
        M.pure H.fd) := by
    refine fr_bind fr_get fun s => ?_
    refine fr_bind (fr_rd _) fun a => ?_
    split
    · rename_i r
      have t2 := fa_register (h := h) { mkHandle s r f.modes none true true false 0 with kind := .dir, buf := [], pos := 0 } fun _ fd => fd
      dsimp only
      apply fr_ite
      · intro _; exact fr_bind (fr_raise _) fun _ => t2
      · intro _; exact t2
    · refine fr_bind (fa_openPath _ _ _ _ _) fun h => ?_
      refine fr_bind (fr_hget _) fun H => ?_
      dsimp only
      apply fr_ite
      · intro _; exact fr_bind (fr_chmod _ _ _) fun _ => fr_pure _
      · intro _; exact fr_pure _
  apply fr_ite
  · intro _; exact fr_bind (fr_throw _) fun _ => tail
  · intro _; exact tail

/-- a call on a descriptor that does not lead to `h` -/
theorem fa_getOpen {s : FS} {fd : Int} {α : Type} {k : Nat → M α} (hn : s.getOpen fd ≠ .ok h)
    (hk : ∀ g, g ≠ h → Fr (Alone h) (k g)) : Alone h s ((rd (·.getOpen fd) >>= k) s).2 := by
  rw [M.bind_eq]
  cases hg : s.getOpen fd with
  | error e =>
    have : rd (fun s => s.getOpen fd) s = (.error e, s) := by dsimp only [rd, M.ofRead]; rw [hg]
    rw [this]
    exact TreeRel.refl s
  | ok g =>
    rw [rd_eq (f := fun s => s.getOpen fd) hg]
    exact hk g (fun e => hn (by rw [hg, e])) s

theorem fa_osClose {s : FS} {fd : Int} (hn : s.getOpen fd ≠ .ok h) : Alone h s (osClose fd s).2 := by
  unfold osClose
  exact fa_getOpen hn fun g hg => fa_hClose hg

theorem fa_osRead {s : FS} {fd : Int} (n : Nat) (hn : s.getOpen fd ≠ .ok h) : Alone h s (osRead fd n s).2 := by
  unfold osRead
  refine fa_getOpen hn fun g hg => ?_
  have h2 := fa_read (h := h) hg (some n)
  fa hg

theorem fa_osWrite {s : FS} {fd : Int} (b : Bytes) (hn : s.getOpen fd ≠ .ok h) : Alone h s (osWrite fd b s).2 := by
  unfold osWrite
  refine fa_getOpen hn fun g hg => ?_
  have h2 := fa_write (h := h) hg b
  have h3 := fa_flush (h := h) hg
  have h4 := fa_syncIo (h := h) hg
  fa hg
end

theorem fa_ftruncate {h : Nat} (fd : Int) (n : Nat) : Fr (Alone h) (ftruncate fd n) := by
  unfold ftruncate
  fa (Nat.succ_ne_self 0)

/-- A call that does not go through `h` leaves its data alone. -/
theorem alone_step {h : Nat} {s : FS} {o : Op} (hc : ¬ CallOn h s o) : Alone h s (o.next s) := by
  have fr : ∀ {α : Type} {m : M α}, Fr (Alone h) m → (m s).2 = o.next s → Alone h s (o.next s) := by
    intro α m hm e; have q := hm s; rw [e] at q; exact q
  have onf : ∀ {α : Type} {g : Nat} {m : M α}, Fr (Alone h) m → Fr (Alone h) (onFile g m) := by
    intro α g m hm
    unfold onFile
    refine fr_bind fr_get ?_
    intro s
    apply fr_ite
    · intro _; exact fr_void hm
    · intro _; exact fr_throw _
  have vd : ∀ {α : Type} {m : M α}, (m s).2 = (m.void s).2 := by
    intro α m; unfold M.void; rw [M.bind_eq]; cases m s with | mk r t => cases r <;> rfl
  cases o with
  | mkdir p m => exact fr (fr_mkdir p m) rfl
  | makedirs p m e => exact fr (fr_makedirs p m e) rfl
  | createDir p m => exact fr (fr_void (fr_createDir p m)) rfl
  | createFile p m c z cm um => exact fr (fr_void (fr_createFile p m c z cm um)) rfl
  | createSymlink p t cm => exact fr (fr_void (fr_createSymlink p t cm)) rfl
  | createLink o n f cm => exact fr (fr_void (fr_createLink o n f cm)) rfl
  | remove p => exact fr (fr_remove p) rfl
  | removeObject p => exact fr (fr_removeObject p) rfl
  | rmdir p => exact fr (fr_rmdir p _) rfl
  | removedirs p => exact fr (fr_removedirs p) rfl
  | rename o n f => exact fr (fr_rename o n f) rfl
  | chmod p m f => exact fr (fr_chmod p m f) rfl
  | utime p ns f => exact fr (fr_utime p ns f) rfl
  | chown p u g f => exact fr (fr_chown p u g f) rfl
  | truncate p n => exact fr (fr_truncate p n) rfl
  | mknod p m => exact fr (fr_mknod p m) rfl
  | setxattr p a v fl f => exact fr (fr_setxattr p a v fl f) rfl
  | removexattr p a f => exact fr (fr_removexattr p a f) rfl
  | addMountPoint p t => exact fr (fr_void (fr_addMountPoint p t)) rfl
  | setDiskUsage t p => exact fr (fr_setDiskUsage t p) rfl
  | umask m => exact Alone.of (Nat.le_refl _) fun _ => rfl
  | chdir p =>
    refine (show wp (chdir p) (fun _ s' => Alone h s s') s from ?_)
    unfold chdir
    refine wp_seq (fun _ s' => s' = s) rfl (fun _ _ e => by subst e; exact TreeRel.refl _) ?_
    intro q s1 e1
    subst e1
    refine wp_seq (fun _ s' => s' = s1) rfl (fun _ _ e => by subst e; exact TreeRel.refl _) ?_
    intro _ s2 e2
    subst e2
    refine wp_seq (fun _ s' => s' = s2) rfl (fun _ _ e => by subst e; exact TreeRel.refl _) ?_
    intro _ s3 e3
    subst e3
    exact Alone.of (Nat.le_refl _) fun _ => rfl
  | openPath p md b r d => exact fr (fr_void (fa_openPath p md b r d)) rfl
  | openFd fd md b c => exact fr (fr_void (fa_openFd fd md b c)) rfl
  | osOpen p f m => exact fr (fr_void (fa_osOpen p f m)) rfl
  | osClose fd => exact fa_osClose fun e => hc (.osClose fd e)
  | osRead fd n => have := fa_osRead (h := h) (s := s) n fun e => hc (.osRead fd n e); rw [vd] at this; exact this
  | osWrite fd b => have := fa_osWrite (h := h) (s := s) b fun e => hc (.osWrite fd b e); rw [vd] at this; exact this
  | ftruncate fd n => exact fr (fa_ftruncate fd n) rfl
  | hRead g n => exact fr (onf (g := g) (fa_read (fun e => hc (by rw [e]; exact .read n)) n)) rfl
  | hWrite g b => exact fr (onf (g := g) (fa_write (fun e => hc (by rw [e]; exact .write b)) b)) rfl
  | hSeek g o w => exact fr (onf (g := g) (fa_seek (fun e => hc (by rw [e]; exact .seek o w)) o w)) rfl
  | hTell g => exact fr (onf (g := g) (fa_tell (fun e => hc (by rw [e]; exact .tell)))) rfl
  | hTruncate g n => exact fr (onf (g := g) (fa_hTruncate (fun e => hc (by rw [e]; exact .truncate n)) n)) rfl
  | hFlush g => exact fr (onf (g := g) (fa_flush (fun e => hc (by rw [e]; exact .flush)))) rfl
  | hClose g => exact fr (onf (g := g) (fa_hClose (fun e => hc (by rw [e]; exact .close)))) rfl
  | setUser u g => exact Alone.of (Nat.le_refl _) fun _ => rfl
  | setClock t => exact Alone.of (Nat.le_refl _) fun _ => rfl

end Verif
