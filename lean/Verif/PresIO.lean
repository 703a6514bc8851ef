import Verif.PresRename
/-!
# Descriptor and handle operations preserve the invariant
-/

namespace Verif
open Py Spec Cfg

/-- changing only the table of open files and the handles -/
theorem pres_io {f : FS → FS} (hf : ∀ s : FS, ∃ o fr hs hn, f s = { s with openFiles := o, freeFds := fr, handles := hs, hnext := hn }) :
    Pres (M.modify f) := by
  apply pres_modify
  intro s h
  obtain ⟨o, fr, hs, hn, e⟩ := hf s
  rw [e]
  exact good_misc h rfl rfl rfl rfl rfl rfl rfl rfl rfl rfl rfl rfl

theorem addOpenFile_pres (h : Nat) : Pres (addOpenFile h) := by
  intro s hi
  unfold wp addOpenFile
  split <;> exact good_misc hi rfl rfl rfl rfl rfl rfl rfl rfl rfl rfl rfl rfl

theorem newHandle_pres (H : Handle) : Pres (newHandle H) := fun _ hi =>
  good_misc hi rfl rfl rfl rfl rfl rfl rfl rfl rfl rfl rfl rfl

theorem closeOpenFile_pres (fd : Nat) : Pres (closeOpenFile fd) :=
  pres_io fun _ => ⟨_, _, _, _, rfl⟩

theorem checkOpen_pres (h : Nat) : Pres (checkOpen h) := by
  intro s hi
  unfold wp checkOpen
  split <;> exact Good.refl hi

theorem pres_setH (h : Nat) (f : FS → Handle → Handle) : Pres (M.modify fun s => s.setH h (f s)) :=
  pres_io fun _ => ⟨_, _, _, _, rfl⟩

theorem pres_objTime (r : Ref) (f : FS → Obj → Obj)
    (hf : ∀ s o, SameS o (f s o)) : Pres (M.modify fun s => s.setObj r (f s)) := pres_setObj r hf

theorem setStream_pres (h : Nat) (b : Option Bytes) : Pres (setStream h b) := by
  unfold setStream; pres

theorem syncIo_pres (h : Nat) : Pres (syncIo h) := by
  unfold syncIo
  apply pres_bind pres_get
  intro s
  apply pres_ite
  · intro _; exact pres_pure _
  · intro _
    apply pres_bind (setStream_pres _ _)
    intro _
    exact pres_setH h fun s H => { H with fileEpoch := (s.heap H.obj).epoch }

theorem syncAll_pres (h : Nat) (r : Ref) : ∀ l, Pres (syncAll h r l) := by
  intro l
  induction l with
  | nil => exact pres_pure _
  | cons g gs ih =>
    unfold syncAll
    apply pres_bind (pres_hget _)
    intro G
    apply pres_ite
    · intro _; exact pres_bind (syncIo_pres _) fun _ => ih
    · intro _; exact ih

theorem flushRelated_pres (h : Nat) : Pres (flushRelated h) := by
  unfold flushRelated
  exact pres_bind pres_get fun _ => syncAll_pres _ _ _

theorem flushContents_pres (h : Nat) : Pres (flushContents h) := by
  unfold flushContents
  apply pres_bind (pres_hget _)
  intro H
  apply pres_ite
  · intro _
    apply pres_bind (syncIo_pres _)
    intro _
    apply pres_bind pres_get
    intro s
    split
    · exact pres_throw _
    · exact pres_bind (setStream_pres _ _) fun _ => pres_pure _
  · intro _; exact pres_pure _

theorem flushStore_pres (h : Nat) (c : Bytes) : Pres (flushStore h c) := by
  unfold flushStore
  apply pres_bind (pres_hmod _ _)
  intro _
  apply pres_bind (pres_hget _)
  intro H
  apply pres_bind (setContents_pres _ _)
  intro ch
  apply pres_bind pres_get
  intro s
  have tail : Pres (do
      M.modify fun s => s.setH h fun H => { H with fileEpoch := (s.heap H.obj).epoch }
      flushRelated h) :=
    pres_bind (pres_setH h fun s H => { H with fileEpoch := (s.heap H.obj).epoch }) fun _ => flushRelated_pres _
  apply pres_ite
  · intro _
    apply pres_ite
    · intro _; exact pres_bind (pres_hmod _ _) fun _ => tail
    · intro _
      exact pres_bind (pres_setObj H.obj (f := fun s o => { o with ctime := s.clock, mtime := s.clock })
        fun _ _ => ⟨rfl, rfl, rfl, rfl, rfl, fun _ => rfl, rfl⟩) fun _ => tail
  · intro _; exact tail

theorem flush_pres (h : Nat) : Pres (flush h) := by
  unfold flush
  apply pres_bind (checkOpen_pres _)
  intro _
  apply pres_bind (pres_hget _)
  intro H
  apply pres_ite
  · intro _; exact pres_bind (flushContents_pres _) fun _ => flushStore_pres _ _
  · intro _; exact pres_pure _

theorem seek_pres (h : Nat) (off : Int) (w : Nat) : Pres (seek h off w) := by
  unfold seek
  apply pres_bind (checkOpen_pres _)
  intro _
  apply pres_bind (pres_hget _)
  intro H
  apply pres_ite
  · intro _; exact pres_bind (pres_hmod _ _) fun _ => flush_pres _
  · intro _
    split
    · exact pres_bind (pres_throw _) fun _ => flush_pres _
    · exact pres_bind (pres_hmod _ _) fun _ => flush_pres _

theorem tell_pres (h : Nat) : Pres (tell h) := by
  unfold tell
  apply pres_bind (checkOpen_pres _)
  intro _
  apply pres_bind (flush_pres _)
  intro _
  pres

theorem hRaise_pres {α : Type} (h : Nat) : Pres (hRaise h : M α) := by unfold hRaise; pres

theorem read_pres (h : Nat) (n : Option Nat) : Pres (read h n) := by
  unfold read
  apply pres_bind pres_get
  intro s
  dsimp only
  apply pres_ite
  · intro _; exact pres_throw _
  intro _
  apply pres_bind (checkOpen_pres _)
  intro _
  apply pres_ite
  · intro _
    apply pres_ite
    · intro _; exact pres_pure _
    · intro _; exact hRaise_pres _
  intro _
  apply pres_bind (syncIo_pres _)
  intro _
  apply pres_bind (flush_pres _)
  intro _
  have tail : Pres (do
      let H ← hget h
      if H.append then
        match Bio.seek H.buf H.pos H.readSeek H.readWhence with
        | none => M.throw .valueError
        | some p => do
          let r := Bio.read H.buf p n
          hmod h fun H => { H with readSeek := (p + r.length : Nat), readWhence := 0, pos := H.buf.length }
          M.pure r
      else do
        let r := Bio.read H.buf H.pos n
        hmod h fun H => { H with pos := H.pos + r.length }
        M.pure r) := by pres
  apply pres_ite
  · intro _
    exact pres_bind (pres_setObj _ (f := fun s o => { o with atime := s.clock })
        fun _ _ => ⟨rfl, rfl, rfl, rfl, rfl, fun _ => rfl, rfl⟩) fun _ => tail
  · intro _; exact tail

theorem rawWrite_pres (h : Nat) (b : Bytes) : Pres (rawWrite h b) := pres_hmod _ _

theorem tryFlush_pres (h p : Nat) : Pres (tryFlush h p) := by
  unfold tryFlush
  apply pres_bind (pres_hget _)
  intro H
  apply pres_catchOS (flush_pres _)
  intro e
  exact pres_bind (pres_hmod _ _) fun _ => pres_throw _

theorem writeWrapper_pres (h : Nat) (b : Bytes) : Pres (writeWrapper h b) := by
  unfold writeWrapper
  apply pres_bind (pres_hget _)
  intro H
  dsimp only
  apply pres_bind (rawWrite_pres _ _)
  intro _
  have tail : Pres (do
      if H.append then hmod h fun H => { H with readSeek := H.pos, readWhence := 0 }
      M.pure b.length) := by pres
  apply pres_ite
  · intro _
    have tail2 : Pres (do
        tryFlush h H.pos
        if !decide (b.length > H.bufferSize) then rawWrite h b
        if H.append then hmod h fun H => { H with readSeek := H.pos, readWhence := 0 }
        M.pure b.length) := by
      apply pres_bind (tryFlush_pres _ _)
      intro _
      apply pres_ite
      · intro _; exact pres_bind (rawWrite_pres _ _) fun _ => tail
      · intro _; exact tail
    apply pres_ite
    · intro _; exact pres_bind (pres_hmod _ _) fun _ => tail2
    · intro _; exact tail2
  · intro _; exact tail

theorem write_pres (h : Nat) (b : Bytes) : Pres (write h b) := by
  unfold write
  apply pres_bind pres_get
  intro s
  dsimp only
  apply pres_ite
  · intro _; exact pres_throw _
  intro _
  apply pres_bind (checkOpen_pres _)
  intro _
  apply pres_ite
  · intro _
    apply pres_ite
    · intro _; exact pres_pure _
    · intro _; exact hRaise_pres _
  · intro _; exact writeWrapper_pres _ _

theorem adaptSize_pres (h n : Nat) : Pres (adaptSize h n) := by
  unfold adaptSize
  apply pres_io
  intro s
  have : ∀ (l : List Nat) (s0 : FS), (∃ hs, s0 = { s with handles := hs }) →
      ∃ hs, (l.foldl (fun s' g =>
        if g ≠ h ∧ (s'.handles g).kind = .file ∧ (s'.handles g).obj = (s'.handles h).obj ∧ (s'.handles g).append then
          s'.setH g fun G => { G with readSeek := G.readSeek + n }
        else s') s0) = { s with handles := hs } := by
    intro l
    induction l with
    | nil => intro s0 h0; exact h0
    | cons g l ih =>
      intro s0 ⟨hs, h0⟩
      apply ih
      subst h0
      by_cases hc : g ≠ h ∧ (hs g).kind = .file ∧ (hs g).obj = (hs h).obj ∧ (hs g).append
      · exact ⟨_, if_pos hc⟩
      · exact ⟨_, if_neg hc⟩
  obtain ⟨hs, e⟩ := this s.openHandles s ⟨s.handles, rfl⟩
  exact ⟨_, _, _, _, e⟩

theorem truncateWrapper_pres (h : Nat) (n : Option Nat) : Pres (truncateWrapper h n) := by
  unfold truncateWrapper
  apply pres_bind (pres_hget _)
  intro H
  have tail3 : ∀ n, Pres (do flush h; M.pure n : M Nat) := fun n => pres_bind (flush_pres _) fun _ => pres_pure _
  have tail : Pres (do
      let H ← hget h
      let n := n.getD H.pos
      hmod h fun H => { H with buf := H.buf.take n }
      flush h
      setSize H.obj n
      let H ← hget h
      let len := H.buf.length
      if len < n then do
        let b := H.buf ++ List.replicate (n - len) 0
        hmod h fun H => { H with buf := b, pos := n }
        let _ ← setContents H.obj b
        hmod h fun H => { H with flushPos := n }
        adaptSize h (n - len)
      flush h
      M.pure n) := by
    apply pres_bind (pres_hget _)
    intro H
    dsimp only
    apply pres_bind (pres_hmod _ _)
    intro _
    apply pres_bind (flush_pres _)
    intro _
    apply pres_bind (setSize_pres _ _)
    intro _
    apply pres_bind (pres_hget _)
    intro H
    apply pres_ite
    · intro _
      apply pres_bind (pres_hmod _ _)
      intro _
      apply pres_bind (setContents_pres _ _)
      intro _
      apply pres_bind (pres_hmod _ _)
      intro _
      exact pres_bind (adaptSize_pres _ _) fun _ => tail3 _
    · intro _; exact tail3 _
  apply pres_ite
  · intro _
    split
    · exact pres_bind (pres_throw _) fun _ => tail
    · exact pres_bind (pres_hmod _ _) fun _ => tail
  · intro _; exact tail

theorem hTruncate_pres (h : Nat) (n : Option Nat) : Pres (hTruncate h n) := by
  unfold hTruncate
  apply pres_bind pres_get
  intro s
  dsimp only
  apply pres_ite
  · intro _; exact pres_throw _
  intro _
  apply pres_bind (checkOpen_pres _)
  intro _
  apply pres_ite
  · intro _
    apply pres_ite
    · intro _; exact pres_throw _
    · intro _; exact hRaise_pres _
  · intro _; exact truncateWrapper_pres _ _

theorem hClose_pres (h : Nat) : Pres (hClose h) := by
  unfold hClose
  apply pres_bind pres_get
  intro s
  dsimp only
  split
  · exact pres_pure _
  · exact closeOpenFile_pres _
  · apply pres_ite
    · intro _; exact pres_pure _
    intro _
    have tail2 : Pres (do
        if (s.handles h).deleteOnClose then do
          let s' ← M.get
          removeObject (s'.objPath (s.handles h).obj)
        else pure () : M Unit) := by
      apply pres_ite
      · intro _; exact pres_bind pres_get fun _ => removeObject_pres _
      · intro _; exact pres_pure' _
    have tail : Pres (do
        if (s.handles h).closefd then closeOpenFile (s.handles h).fd
        else M.modify fun s' => { s' with openFiles := s'.openFiles.modify (s.handles h).fd fun e => e.map fun l => l.erase h }
        if (s.handles h).deleteOnClose then do
          let s' ← M.get
          removeObject (s'.objPath (s.handles h).obj)
        else pure () : M Unit) := by
      apply pres_ite
      · intro _; exact pres_bind (closeOpenFile_pres _) fun _ => tail2
      · intro _; exact pres_bind (pres_io fun _ => ⟨_, _, _, _, rfl⟩) fun _ => tail2
    apply pres_ite
    · intro _
      apply pres_bind (flush_pres _)
      intro _
      apply pres_bind pres_get
      intro s2
      apply pres_ite
      · intro _
        exact pres_bind (pres_setObj _ (f := fun s o => { o with mtime := s.clock })
          fun _ _ => ⟨rfl, rfl, rfl, rfl, rfl, fun _ => rfl, rfl⟩) fun _ => tail
      · intro _; exact tail
    · intro _; exact tail

theorem initFileObject_pres (obj : Option Ref) (p real : Str) (md : OpenModes) : Pres (initFileObject obj p real md) := by
  unfold initFileObject
  split
  · apply pres_bind pres_get
    intro s
    apply pres_ite
    · intro _; exact pres_raise _
    intro _
    apply pres_ite
    · intro _; exact pres_bind (setContents_pres _ _) fun _ => pres_pure _
    · intro _; exact pres_pure _
  · apply pres_ite
    · intro _; exact pres_raise _
    intro _
    apply pres_bind (pres_rd _)
    intro b
    have tail : ∀ target : Str, Pres (do
        let s ← M.get
        if s.cfg.endsWithSep target then
          M.raise (if s.cfg.isWin then .EINVAL else if s.cfg.isMac then .ENOENT else .EISDIR)
        createFileI real (S_IFREG ||| PERM_DEF_FILE) (some []) none false true) := by
      intro target
      apply pres_bind pres_get
      intro s
      apply pres_ite
      · intro _; exact pres_raise _
      · intro _; exact createFileI_pres _ _ _ _ _ _
    apply pres_ite
    · intro _
      apply pres_bind (pres_rd _)
      intro l
      apply pres_bind pres_get
      intro s
      exact pres_bind (pres_pure _) fun _ => tail _
    · intro _; exact pres_bind (pres_pure _) fun _ => tail _

theorem openObject_pres (obj : Option Ref) (p real : Str) (md : OpenModes) : Pres (openObject obj p real md) := by
  unfold openObject
  have tail : Pres (do
      let r ← initFileObject obj p real md
      let s ← M.get
      if (s.heap r).isDirMode then M.raise (if s.cfg.isWin then .EACCES else .EISDIR)
      if md.truncate then
        M.modify fun s => s.setObj r fun o =>
          { o with mtime := s.clock, ctime := if s.cfg.isWin then o.ctime else s.clock }
      M.pure r) := by
    apply pres_bind (initFileObject_pres _ _ _ _)
    intro r
    apply pres_bind pres_get
    intro s
    apply pres_ite
    · intro _; exact pres_raise _
    intro _
    apply pres_ite
    · intro _
      exact pres_bind (pres_setObj _ (f := fun s o => { o with mtime := s.clock, ctime := if s.cfg.isWin then o.ctime else s.clock })
          fun _ _ => ⟨rfl, rfl, rfl, rfl, rfl, fun _ => rfl, rfl⟩) fun _ => pres_pure _
    · intro _; exact pres_pure _
  have tail2 : ∀ ex : Bool, Pres (do
      if ex then M.raise .EEXIST
      let r ← initFileObject obj p real md
      let s ← M.get
      if (s.heap r).isDirMode then M.raise (if s.cfg.isWin then .EACCES else .EISDIR)
      if md.truncate then
        M.modify fun s => s.setObj r fun o =>
          { o with mtime := s.clock, ctime := if s.cfg.isWin then o.ctime else s.clock }
      M.pure r) := by
    intro ex
    apply pres_ite
    · intro _; exact pres_raise _
    · intro _; exact tail
  apply pres_ite
  · intro _
    dsimp only
    apply pres_ite
    · intro _; exact pres_bind (pres_pure _) fun _ => tail2 _
    · intro _
      apply pres_bind pres_get
      intro s
      apply pres_bind (pres_rd _)
      intro l
      exact pres_bind (pres_pure _) fun _ => tail2 _
  · intro _; exact tail

theorem openPath_pres (p : Str) (md : OpenModes) (bs : Option Nat) (rawIo del : Bool) :
    Pres (openPath p md bs rawIo del) := by
  unfold openPath
  apply pres_bind (pres_rd _)
  intro a
  apply pres_bind (openObject_pres _ _ _ _)
  intro r
  apply pres_bind pres_get
  intro s
  apply pres_ite
  · intro _; exact pres_throw _
  intro _
  apply pres_bind (newHandle_pres _)
  intro h
  apply pres_bind (addOpenFile_pres _)
  intro fd
  exact pres_bind (pres_hmod _ _) fun _ => pres_pure _

theorem openFd_pres (fd : Nat) (md : OpenModes) (bs : Option Nat) (closefd : Bool) : Pres (openFd fd md bs closefd) := by
  unfold openFd
  apply pres_bind (pres_rd _)
  intro w
  apply pres_bind (pres_hget _)
  intro W
  apply pres_ite
  · intro _; exact pres_throw _
  intro _
  apply pres_bind pres_get
  intro s
  dsimp only
  apply pres_bind (openObject_pres _ _ _ _)
  intro r
  apply pres_bind pres_get
  intro s
  apply pres_bind (newHandle_pres _)
  intro h
  exact pres_bind (pres_io fun _ => ⟨_, _, _, _, rfl⟩) fun _ => pres_pure _

theorem osOpen_pres (p : Str) (f : OFlags) (mode : Nat) : Pres (osOpen p f mode) := by
  unfold osOpen
  dsimp only
  apply pres_ite
  · intro _; exact pres_throw _
  intro _
  apply pres_bind pres_get
  intro s
  apply pres_bind (pres_rd _)
  intro dir
  split
  · apply pres_ite
    · intro _; exact pres_raise _
    intro _
    apply pres_bind (newHandle_pres _)
    intro h
    apply pres_bind (addOpenFile_pres _)
    intro fd
    exact pres_bind (pres_hmod _ _) fun _ => pres_pure _
  · apply pres_bind (openPath_pres _ _ _ _ _)
    intro h
    apply pres_bind (pres_hget _)
    intro H
    apply pres_ite
    · intro _; exact pres_bind (chmod_pres _ _ _) fun _ => pres_pure _
    · intro _; exact pres_pure _

theorem osClose_pres (fd : Int) : Pres (osClose fd) := pres_bind (pres_rd _) fun _ => hClose_pres _

theorem osRead_pres (fd : Int) (n : Nat) : Pres (osRead fd n) := by
  unfold osRead
  apply pres_bind (pres_rd _)
  intro h
  apply pres_bind (pres_hget _)
  intro H
  apply pres_ite
  · intro _; exact pres_throw _
  · intro _; exact pres_bind (pres_hmod _ _) fun _ => read_pres _ _

theorem osWrite_pres (fd : Int) (b : Bytes) : Pres (osWrite fd b) := by
  unfold osWrite
  apply pres_bind (pres_rd _)
  intro h
  apply pres_bind (pres_hget _)
  intro H
  apply pres_ite
  · intro _; exact pres_raise _
  intro _
  apply pres_ite
  · intro _; exact pres_throw _
  intro _
  apply pres_bind (pres_hmod _ _)
  intro _
  apply pres_bind (syncIo_pres _)
  intro _
  apply pres_bind (pres_hmod _ _)
  intro _
  apply pres_bind (write_pres _ _)
  intro _
  exact pres_bind (flush_pres _) fun _ => pres_pure _

theorem ftruncate_pres (fd : Int) (n : Nat) : Pres (ftruncate fd n) := by
  unfold ftruncate
  apply pres_bind (pres_rd _)
  intro h
  apply pres_bind (pres_hget _)
  intro H
  apply pres_ite
  · intro _; exact pres_throw _
  · intro _; exact setSize_pres _ _

end Verif
