import Verif.Flags
import Verif.IoFlush
/-!
# Calls on a file object that was opened without write access
-/

namespace Verif
open Py Spec Cfg

namespace Spec
/-- No file or directory has changed, except for access times; nothing but open files has. -/
structure FilesKept (s s' : FS) : Prop where
  objects : ∀ x, s'.heap x = { s.heap x with atime := (s'.heap x).atime }
  rest : s' = { s with heap := s'.heap, handles := s'.handles, openFiles := s'.openFiles, freeFds := s'.freeFds }

theorem FilesKept.refl (s : FS) : FilesKept s s := ⟨fun _ => rfl, rfl⟩
theorem FilesKept.trans {a b c : FS} (h : FilesKept a b) (k : FilesKept b c) : FilesKept a c := by
  refine ⟨fun x => ?_, ?_⟩
  · rw [k.objects x, h.objects x]
  · rw [k.rest, h.rest]
end Spec

/-- if the handle `h` knows the last change of its file it has the bytes of the file in its buffer -/
def CleanC (h : Nat) (s : FS) : Prop := (s.handles h).obj ≠ devNullRef →
  (s.handles h).fileEpoch = (s.heap (s.handles h).obj).epoch → ∀ b, (s.heap (s.handles h).obj).content = .file (some b) → (s.handles h).buf = b

/-- files kept, and the rights of the handle too -/
structure KeptH (h : Nat) (s s' : FS) : Prop where
  files : FilesKept s s'
  clean : CleanC h s → CleanC h s'
  update : (s'.handles h).update = (s.handles h).update
  del : (s'.handles h).deleteOnClose = (s.handles h).deleteOnClose

theorem KeptH.refl (h : Nat) (s : FS) : KeptH h s s := ⟨FilesKept.refl s, id, rfl, rfl⟩

/-- `m` keeps all files if the handle `h` may not write -/
def Ro {α : Type} (h : Nat) (m : M α) : Prop :=
  ∀ s, (s.handles h).update = false → (s.handles h).deleteOnClose = false → KeptH h s (m s).2

section
variable {h : Nat} {α β : Type}

theorem ro_pure (a : α) : Ro h (M.pure a) := fun s _ _ => KeptH.refl h s
theorem ro_pure' (a : α) : Ro h (pure a : M α) := fun s _ _ => KeptH.refl h s
theorem ro_throw (e : Err) : Ro h (M.throw e : M α) := fun s _ _ => KeptH.refl h s
theorem ro_raise (e : Errno) : Ro h (M.raise e : M α) := fun s _ _ => KeptH.refl h s
theorem ro_rd (f : FS → Except Err α) : Ro h (rd f) := fun s _ _ => KeptH.refl h s

theorem ro_bind {m : M α} {f : α → M β} (hm : Ro h m) (hf : ∀ a, Ro h (f a)) : Ro h (m >>= f) := by
  intro s h1 h2
  show KeptH h s (M.bind m f s).2
  unfold M.bind
  have k := hm s h1 h2
  rcases hr : m s with ⟨r, s'⟩
  rw [hr] at k
  cases r with
  | error e => exact k
  | ok a =>
    have k2 := hf a s' (k.update.trans h1) (k.del.trans h2)
    exact ⟨k.files.trans k2.files, fun x => k2.clean (k.clean x), k2.update.trans k.update, k2.del.trans k.del⟩

theorem ro_hgetBind {f : Handle → M β} (hf : ∀ H : Handle, H.update = false → H.deleteOnClose = false → Ro h (f H)) : Ro h (hget h >>= f) :=
  fun s h1 h2 => hf (s.handles h) h1 h2 s h1 h2

theorem ro_getBind {f : FS → M β} (hf : ∀ s : FS, (s.handles h).update = false → (s.handles h).deleteOnClose = false → Ro h (f s)) : Ro h (M.get >>= f) :=
  fun s h1 h2 => hf s h1 h2 s h1 h2

theorem ro_ite {c : Prop} [Decidable c] {a b : M α} (ha : c → Ro h a) (hb : ¬ c → Ro h b) : Ro h (if c then a else b) := by
  split
  · exact ha ‹_›
  · exact hb ‹_›

theorem FilesKept.clean {s s' : FS} (k : FilesKept s s') (ho : (s'.handles h).obj = (s.handles h).obj) (hb : (s'.handles h).buf = (s.handles h).buf)
    (he : (s'.handles h).fileEpoch = (s.handles h).fileEpoch) : CleanC h s → CleanC h s' := by
  intro c hn e b hc
  rw [ho] at hn e hc
  rw [k.objects] at e hc
  rw [hb]
  exact c hn (he.symm.trans e) b hc

theorem kept_setH (s : FS) (g : Nat) {f : Handle → Handle} (hf : ∀ H : Handle, (f H).update = H.update ∧ (f H).deleteOnClose = H.deleteOnClose ∧
    (f H).obj = H.obj ∧ (f H).buf = H.buf ∧ (f H).fileEpoch = H.fileEpoch) : KeptH h s (s.setH g f) := by
  have k : FilesKept s (s.setH g f) := ⟨fun _ => rfl, rfl⟩
  by_cases hg : h = g
  · subst hg
    have e := setH_same s h f
    obtain ⟨h1, h2, h3, h4, h5⟩ := hf (s.handles h)
    exact ⟨k, FilesKept.clean k (by rw [e, h3]) (by rw [e, h4]) (by rw [e, h5]), by rw [e, h1], by rw [e, h2]⟩
  · have e := setH_ne s f hg
    exact ⟨k, FilesKept.clean k (by rw [e]) (by rw [e]) (by rw [e]), by rw [e], by rw [e]⟩

theorem ro_hmod (g : Nat) {f : Handle → Handle} (hf : ∀ H : Handle, (f H).update = H.update ∧ (f H).deleteOnClose = H.deleteOnClose ∧
    (f H).obj = H.obj ∧ (f H).buf = H.buf ∧ (f H).fileEpoch = H.fileEpoch) : Ro h (hmod g f) := fun s _ _ => kept_setH s g hf

theorem ro_atime (r : Ref) : Ro h (M.modify fun s => s.setObj r fun o => { o with atime := s.clock }) := by
  intro s _ _
  have k : FilesKept s (M.modify (fun s => s.setObj r fun o => { o with atime := s.clock }) s).2 := by
    refine ⟨fun x => ?_, rfl⟩
    simp only [M.modify, FS.setObj, upd_apply]
    split
    · rename_i e; subst e; rfl
    · rfl
  exact ⟨k, FilesKept.clean k rfl rfl rfl, rfl, rfl⟩

theorem ro_checkOpen (g : Nat) : Ro h (checkOpen g) := by
  intro s _ _; unfold checkOpen; split <;> exact KeptH.refl h s

theorem ro_syncIo : Ro h (syncIo h) := by
  intro s _ _
  have q := fq_syncIo h s
  have k : FilesKept s (syncIo h s).2 ∧ (CleanC h s → CleanC h (syncIo h s).2) := by
    unfold syncIo
    rw [M.bind_eq]
    dsimp only [M.get]
    split
    · exact ⟨FilesKept.refl s, id⟩
    · rename_i he
      rw [M.bind_eq]
      cases hb : s.byteContents (s.handles h).obj with
      | none =>
        have e1 : setStream h none s = (.error .typeError, s.setH h fun H => { H with buf := [], pos := 0 }) := rfl
        rw [e1]
        dsimp only
        refine ⟨⟨fun _ => rfl, rfl⟩, fun _ hn e b hc => ?_⟩
        exfalso
        simp only [FS.setH, upd_same] at e
        exact he e
      | some D =>
        dsimp only [setStream, hmod, M.modify]
        refine ⟨⟨fun _ => rfl, rfl⟩, fun _ hn e b hc => ?_⟩
        simp only [FS.setH, upd_same] at hn hc ⊢
        have := byteContents_file hn hc
        rw [hb] at this
        injection this
  exact ⟨k.1, k.2, q.update h, q.del h⟩

theorem ro_flush : Ro h (flush h) := by
  unfold flush
  refine ro_bind (ro_checkOpen _) fun _ => ?_
  refine ro_hgetBind fun H hu _ => ?_
  rw [hu]
  exact ro_pure _

theorem ro_seek (o : Int) (w : Nat) : Ro h (seek h o w) := by
  unfold seek
  refine ro_bind (ro_checkOpen _) fun _ => ?_
  refine ro_hgetBind fun H _ _ => ?_
  dsimp only
  apply ro_ite
  · intro _; exact ro_bind (ro_hmod _ fun _ => ⟨rfl, rfl, rfl, rfl, rfl⟩) fun _ => ro_flush
  · intro _
    split
    · exact ro_bind (ro_throw _) fun _ => ro_flush
    · exact ro_bind (ro_hmod _ fun _ => ⟨rfl, rfl, rfl, rfl, rfl⟩) fun _ => ro_flush

theorem ro_tell : Ro h (tell h) := by
  unfold tell
  refine ro_bind (ro_checkOpen _) fun _ => ?_
  refine ro_bind ro_flush fun _ => ?_
  refine ro_hgetBind fun H _ _ => ?_
  apply ro_ite
  · intro _; exact ro_pure _
  · intro _
    apply ro_ite
    · intro _; exact ro_pure _
    · intro _
      split
      · exact ro_throw _
      · exact ro_bind (ro_hmod _ fun _ => ⟨rfl, rfl, rfl, rfl, rfl⟩) fun _ => ro_pure _

theorem ro_hRaise : Ro h (hRaise h : M α) := by
  unfold hRaise
  refine ro_hgetBind fun H _ _ => ?_
  apply ro_ite
  · intro _; exact ro_raise _
  · intro _; exact ro_throw _

theorem ro_read (n : Option Nat) : Ro h (read h n) := by
  unfold read
  refine ro_getBind fun s _ _ => ?_
  dsimp only
  have hend : Ro h (hget h >>= fun H => if H.append = true then
      (match Bio.seek H.buf H.pos H.readSeek H.readWhence with
      | none => M.throw .valueError
      | some p => do
        let r := Bio.read H.buf p n
        hmod h fun H => { H with readSeek := (p + r.length : Nat), readWhence := 0, pos := H.buf.length }
        M.pure r : M Bytes)
    else do
      let r := Bio.read H.buf H.pos n
      hmod h fun H => { H with pos := H.pos + r.length }
      M.pure r) := by
    refine ro_hgetBind fun H _ _ => ?_
    apply ro_ite
    · intro _
      split
      · exact ro_throw _
      · exact ro_bind (ro_hmod _ fun _ => ⟨rfl, rfl, rfl, rfl, rfl⟩) fun _ => ro_pure _
    · intro _; exact ro_bind (ro_hmod _ fun _ => ⟨rfl, rfl, rfl, rfl, rfl⟩) fun _ => ro_pure _
  have hmid : Ro h (checkOpen h >>= fun _ => if (s.handles h).read = false then
      (if n = some 0 ∧ s.cfg.isWin = true ∧ (s.handles h).rawIo = true then M.pure [] else hRaise h)
    else do
      syncIo h
      flush h
      if !s.cfg.isWin then M.modify fun s' => s'.setObj (s.handles h).obj fun o => { o with atime := s'.clock }
      let H ← hget h
      if H.append then
        match Bio.seek H.buf H.pos H.readSeek H.readWhence with
        | none => M.throw .valueError
        | some p => do
          let r := Bio.read H.buf p n
          hmod h fun H => { H with readSeek := (p + r.length : Nat), readWhence := 0, pos := H.buf.length }
          M.pure r
      else do
        let r := Bio.read H.buf H.pos n
        hmod h fun H => { H with pos := H.pos + r.length }
        M.pure r) := by
    refine ro_bind (ro_checkOpen _) fun _ => ?_
    apply ro_ite
    · intro _
      apply ro_ite
      · intro _; exact ro_pure _
      · intro _; exact ro_hRaise
    · intro _
      refine ro_bind ro_syncIo fun _ => ?_
      refine ro_bind ro_flush fun _ => ?_
      dsimp only
      apply ro_ite
      · intro _; exact ro_bind (ro_atime _) fun _ => hend
      · intro _; exact hend
  apply ro_ite
  · intro _; exact ro_bind (ro_throw _) fun _ => hmid
  · intro _; exact hmid

theorem ro_write (b : Bytes) : Ro h (write h b) := by
  unfold write
  refine ro_getBind fun s hu _ => ?_
  dsimp only
  rw [hu]
  have hmid : Ro h (checkOpen h >>= fun _ => if false = false then
      (if (s.handles h).rawIo = true ∧ s.cfg.isWin = true ∧ b = [] then M.pure 0 else hRaise h) else writeWrapper h b) := by
    refine ro_bind (ro_checkOpen _) fun _ => ?_
    rw [if_pos rfl]
    apply ro_ite
    · intro _; exact ro_pure _
    · intro _; exact ro_hRaise
  apply ro_ite
  · intro _; exact ro_bind (ro_throw _) fun _ => hmid
  · intro _; exact hmid

theorem ro_hTruncate (n : Option Nat) : Ro h (hTruncate h n) := by
  unfold hTruncate
  refine ro_getBind fun s hu _ => ?_
  dsimp only
  rw [hu]
  have hmid : Ro h (checkOpen h >>= fun _ => if false = false then
      (if (s.handles h).rawIo = true ∧ s.cfg.isWin = true ∧ n.isSome = true then M.throw .typeError else hRaise h) else truncateWrapper h n) := by
    refine ro_bind (ro_checkOpen _) fun _ => ?_
    rw [if_pos rfl]
    apply ro_ite
    · intro _; exact ro_throw _
    · intro _; exact ro_hRaise
  apply ro_ite
  · intro _; exact ro_bind (ro_throw _) fun _ => hmid
  · intro _; exact hmid

theorem ro_closeOpenFile (fd : Nat) : Ro h (closeOpenFile fd) := fun _ _ _ => ⟨⟨fun _ => rfl, rfl⟩, id, rfl, rfl⟩

theorem ro_hClose : Ro h (hClose h) := by
  unfold hClose
  refine ro_getBind fun s hu hd => ?_
  dsimp only
  split
  · exact ro_pure _
  · exact ro_closeOpenFile _
  · apply ro_ite
    · intro _; exact ro_pure _
    · intro _
      rw [hd, if_neg (by simp [hu] : ¬ ((s.handles h).update = true ∧ (s.handles h).rawIo = false))]
      apply ro_ite
      · intro _; exact ro_bind (ro_closeOpenFile _) fun _ => ro_pure' _
      · intro _; exact ro_bind (fun _ _ _ => ⟨⟨fun _ => rfl, rfl⟩, id, rfl, rfl⟩) fun _ => ro_pure' _

end

end Verif
