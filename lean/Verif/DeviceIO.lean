import Verif.DeviceMore
import Verif.Hist
/-!
# Open files on one device

With `b = false` every call of the descriptor interface keeps "there is one device and everything is on it";
with `b = true` the calls that write contents also keep "what is used is what is stored", provided the file written
has a name and no contents yet.
-/

namespace Verif
open Py Spec Cfg

section
variable {b : Bool}

/-- the handle and the objects as before -/
structure Calm (h : Nat) (s s' : FS) : Prop where
  heap : s'.heap = s.heap
  next : s'.next = s.next
  update : (s'.handles h).update = (s.handles h).update
  obj : (s'.handles h).obj = (s.handles h).obj
  size : (s'.handles h).bufferSize = (s.handles h).bufferSize

theorem Calm.refl (h : Nat) (s : FS) : Calm h s s := ⟨rfl, rfl, rfl, rfl, rfl⟩
theorem Calm.trans {h : Nat} {s t u : FS} (a : Calm h s t) (c : Calm h t u) : Calm h s u :=
  ⟨c.heap.trans a.heap, c.next.trans a.next, c.update.trans a.update, c.obj.trans a.obj, c.size.trans a.size⟩

/-- a program that leaves the objects, and the file of a handle, alone -/
structure Still (h : Nat) {α : Type} (m : M α) : Prop where
  run : ∀ s, wp m (fun _ s' => Calm h s s') s

theorem st_pure {h : Nat} {α : Type} (a : α) : Still h (M.pure a) := ⟨fun s => Calm.refl h s⟩
theorem st_throw {h : Nat} {α : Type} (e : Err) : Still h (M.throw e : M α) := ⟨fun s => Calm.refl h s⟩
theorem st_get {h : Nat} : Still h M.get := ⟨fun s => Calm.refl h s⟩
theorem st_hget {h g : Nat} : Still h (hget g) := ⟨fun s => Calm.refl h s⟩
theorem st_bind {h : Nat} {α β : Type} {m : M α} {f : α → M β} (hm : Still h m) (hf : ∀ a, Still h (f a)) : Still h (m >>= f) := by
  constructor
  intro s
  apply wp_seq _ (hm.run s)
  · intro e s' c; exact c
  · intro a s' c
    exact wp_mono ((hf a).run s') fun _ _ c' => c.trans c'
theorem st_ite {h : Nat} {α : Type} {c : Prop} [Decidable c] {m n : M α} (ha : Still h m) (hb : Still h n) : Still h (if c then m else n) := by
  split <;> assumption
theorem st_setH {h : Nat} (g : Nat) (f : FS → Handle → Handle) (hf : ∀ s H, (f s H).update = H.update ∧ (f s H).obj = H.obj ∧ (f s H).bufferSize = H.bufferSize) :
    Still h (M.modify fun s => s.setH g (f s)) := by
  constructor
  intro s
  apply wp_modify
  have : ((s.setH g (f s)).handles h).update = (s.handles h).update ∧ ((s.setH g (f s)).handles h).obj = (s.handles h).obj ∧
      ((s.setH g (f s)).handles h).bufferSize = (s.handles h).bufferSize := by
    show (upd s.handles g (f s (s.handles g)) h).update = _ ∧ (upd s.handles g (f s (s.handles g)) h).obj = _ ∧ (upd s.handles g (f s (s.handles g)) h).bufferSize = _
    by_cases e : h = g
    · subst e; rw [upd_same]; exact hf _ _
    · rw [upd_ne _ _ e]; exact ⟨rfl, rfl, rfl⟩
  exact ⟨rfl, rfl, this.1, this.2.1, this.2.2⟩
theorem st_hmod {h : Nat} (g : Nat) (f : Handle → Handle) (hf : ∀ H, (f H).update = H.update ∧ (f H).obj = H.obj ∧ (f H).bufferSize = H.bufferSize) :
    Still h (hmod g f) := st_setH g (fun _ => f) fun _ => hf

theorem st_checkOpen {h : Nat} (g : Nat) : Still h (checkOpen g) := by
  constructor
  intro s
  unfold wp checkOpen
  split <;> exact Calm.refl h s

theorem st_setStream {h : Nat} (g : Nat) (c : Option Bytes) : Still h (setStream g c) := by
  unfold setStream
  split
  · exact st_bind (st_hmod g (fun H => { H with buf := [], pos := 0 }) fun _ => ⟨rfl, rfl, rfl⟩) fun _ => st_throw _
  · exact st_hmod g _ fun _ => ⟨rfl, rfl, rfl⟩

theorem st_syncIo {h : Nat} (g : Nat) : Still h (syncIo g) := by
  unfold syncIo
  refine st_bind st_get fun s => st_ite (st_pure _) (st_bind (st_setStream _ _) fun _ => ?_)
  exact st_setH g (fun s H => { H with fileEpoch := (s.heap H.obj).epoch }) fun _ _ => ⟨rfl, rfl, rfl⟩

theorem st_flushContents {h : Nat} (g : Nat) : Still h (flushContents g) := by
  unfold flushContents
  refine st_bind st_hget fun H => st_ite (st_bind (st_syncIo _) fun _ => st_bind st_get fun s => ?_) (st_pure _)
  split
  · exact st_throw _
  · exact st_bind (st_setStream _ _) fun _ => st_pure _

theorem st_rawWrite {h : Nat} (g : Nat) (c : Bytes) : Still h (rawWrite g c) := st_hmod g _ fun _ => ⟨rfl, rfl, rfl⟩

/-- Flushing the handle charges the device with exactly what is written: the handle cannot write, or its file has a
name and no contents. -/
def CanFlush (b : Bool) (s : FS) (h : Nat) : Prop :=
  b = true → (s.handles h).update = true → (s.handles h).obj ≠ devNullRef → (s.heap (s.handles h).obj).isDir = false →
    (s.handles h).obj < s.next ∧ 1 ≤ (s.heap (s.handles h).obj).nlink ∧
      ∀ o, (s.heap (s.handles h).obj).content = .file o → o.getD [] = []

theorem Calm.canFlush {h : Nat} {s s' : FS} (c : Calm h s s') (k : CanFlush b s h) : CanFlush b s' h := by
  unfold CanFlush
  rw [c.heap, c.next, c.update, c.obj]; exact k

theorem canFlush_false (s : FS) (h : Nat) : CanFlush false s h := fun e => by simp at e

theorem wp_both {α : Type} {m : M α} {P Q : Except Err α → FS → Prop} {s : FS} (hp : wp m P s) (hq : wp m Q s) :
    wp m (fun r s' => P r s' ∧ Q r s') s := ⟨hp, hq⟩

/-- a program that keeps the device and the handle -/
theorem ko_calm {α β : Type} {m : M α} {f : α → M β} {s0 s : FS} {h : Nat} (hs : One b s) (he : Ext s0 s) (hc : CanFlush b s h)
    (hm : KeepsOne b m) (hst : Still h m)
    (hf : ∀ a s', One b s' → Ext s0 s' → CanFlush b s' h → Calm h s s' → wp (f a) (fun _ s' => One b s' ∧ Ext s0 s') s') :
    wp (m >>= f) (fun _ s' => One b s' ∧ Ext s0 s') s := by
  apply wp_seq _ (wp_both (hm s hs) (hst.run s))
  · intro e s' k; exact ⟨k.1.1, he.trans k.1.2⟩
  · intro a s' k
    exact hf a s' k.1.1 (he.trans k.1.2) (k.2.canFlush hc) k.2

/-! ## Programs that write nothing -/

theorem One.io {s : FS} (h : One b s) (o fr hs hn) : One b { s with openFiles := o, freeFds := fr, handles := hs, hnext := hn } ∧
    Ext s { s with openFiles := o, freeFds := fr, handles := hs, hnext := hn } :=
  ko_io (b := b) (f := fun s => { s with openFiles := o, freeFds := fr, handles := hs, hnext := hn }) (fun _ => ⟨_, _, _, _, rfl⟩) s h

theorem ko_addOpenFile (h : Nat) : KeepsOne b (addOpenFile h) := by
  intro s hi
  unfold wp addOpenFile
  split
  · exact hi.io _ _ _ _
  · exact hi.io _ _ _ _

theorem ko_newHandle (H : Handle) : KeepsOne b (newHandle H) := fun _ hi => hi.io _ _ _ _

theorem ko_closeOpenFile (fd : Nat) : KeepsOne b (closeOpenFile fd) :=
  ko_io fun _ => ⟨_, _, _, _, rfl⟩

theorem ko_checkOpen (h : Nat) : KeepsOne b (checkOpen h) := by
  intro s hi
  unfold wp checkOpen
  split <;> exact ⟨hi, Ext.refl s⟩

theorem ko_setStream (h : Nat) (c : Option Bytes) : KeepsOne b (setStream h c) := by
  unfold setStream
  split
  · exact ko_bind (ko_hmod _ _) fun _ => ko_throw _
  · exact ko_hmod _ _

theorem ko_syncIo (h : Nat) : KeepsOne b (syncIo h) := by
  unfold syncIo
  apply ko_bind ko_get
  intro s
  apply ko_ite
  · intro _; exact ko_pure _
  · intro _
    apply ko_bind (ko_setStream _ _)
    intro _
    exact ko_setH h fun s H => { H with fileEpoch := (s.heap H.obj).epoch }

theorem ko_syncAll (h : Nat) (r : Ref) : ∀ l, KeepsOne b (syncAll h r l) := by
  intro l
  induction l with
  | nil => exact ko_pure _
  | cons g gs ih =>
    unfold syncAll
    apply ko_bind (ko_hget _)
    intro G
    apply ko_ite
    · intro _; exact ko_bind (ko_syncIo _) fun _ => ih
    · intro _; exact ih

theorem ko_flushRelated (h : Nat) : KeepsOne b (flushRelated h) := by
  unfold flushRelated
  exact ko_bind ko_get fun _ => ko_syncAll _ _ _

theorem ko_flushContents (h : Nat) : KeepsOne b (flushContents h) := by
  unfold flushContents
  apply ko_bind (ko_hget _)
  intro H
  apply ko_ite
  · intro _
    apply ko_bind (ko_syncIo _)
    intro _
    apply ko_bind ko_get
    intro s
    split
    · exact ko_throw _
    · exact ko_bind (ko_setStream _ _) fun _ => ko_pure _
  · intro _; exact ko_pure _

theorem ko_hRaise {α : Type} (h : Nat) : KeepsOne b (hRaise h : M α) := by
  unfold hRaise
  exact ko_bind (ko_hget _) fun H => ko_ite (fun _ => ko_raise _) fun _ => ko_throw _

theorem ko_rawWrite (h : Nat) (c : Bytes) : KeepsOne b (rawWrite h c) := ko_hmod _ _

theorem ko_adaptSize (h n : Nat) : KeepsOne b (adaptSize h n) := by
  unfold adaptSize
  apply ko_io
  intro s
  have : ∀ (l : List Nat) (s0 : FS), (∃ hs, s0 = { s with handles := hs }) →
      ∃ hs, (l.foldl (fun s' g =>
        if g ≠ h ∧ (s'.handles g).kind = .file ∧ (s'.handles g).obj = (s'.handles h).obj ∧ (s'.handles g).append then
          s'.setH g fun G => { G with readSeek := G.readSeek + n }
        else s') s0) = { s with handles := hs } := by
    intro l
    induction l with
    | nil => intro s0 h0; exact h0
    | cons g l ih =>
      intro s0 ⟨hs, h0⟩
      apply ih
      subst h0
      by_cases hc : g ≠ h ∧ (hs g).kind = .file ∧ (hs g).obj = (hs h).obj ∧ (hs g).append
      · exact ⟨_, if_pos hc⟩
      · exact ⟨_, if_neg hc⟩
  obtain ⟨hs, e⟩ := this s.openHandles s ⟨s.handles, rfl⟩
  exact ⟨_, _, _, _, e⟩


/-! ## Flushing -/

theorem wp_hgetB {β : Type} {h : Nat} {f : Handle → M β} {Q : Except Err β → FS → Prop} {s : FS} (k : wp (f (s.handles h)) Q s) :
    wp (hget h >>= f) Q s := k

theorem one_flushStore {s0 s : FS} (hs : One b s) (he : Ext s0 s) {h : Nat} (hc : CanFlush b s h) (hu : (s.handles h).update = true) (c : Bytes) :
    wp (flushStore h c) (fun _ s' => One b s' ∧ Ext s0 s') s := by
  unfold flushStore
  refine ko_calm hs he hc (ko_hmod _ _) (st_hmod h (fun H => { H with flushPos := H.pos }) fun _ => ⟨rfl, rfl, rfl⟩) ?_
  intro _ s1 h1 e1 c1 k1
  apply wp_hgetB
  have hset : wp (setContents (s1.handles h).obj c) (fun _ s' => One b s' ∧ Ext s1 s') s1 :=
    wp_mono (one_setContents h1 c fun e hn hk => c1 e (k1.update.trans hu) hn hk) fun _ _ k => ⟨k.1, k.2.1⟩
  apply wp_seq _ hset
  · intro e s2 k; exact ⟨k.1, e1.trans k.2⟩
  intro ch s2 k
  have tail : KeepsOne b (do
      M.modify fun s => s.setH h fun H => { H with fileEpoch := (s.heap H.obj).epoch }
      flushRelated h) :=
    ko_bind (ko_setH h fun s H => { H with fileEpoch := (s.heap H.obj).epoch }) fun _ => ko_flushRelated _
  apply wp_getBind
  apply wp_end1 k.1 (e1.trans k.2)
  apply ko_ite
  · intro _
    apply ko_ite
    · intro _; exact ko_bind (ko_hmod _ _) fun _ => tail
    · intro _
      exact ko_bind (ko_setObj (s1.handles h).obj (f := fun s o => { o with ctime := s.clock, mtime := s.clock })
        fun _ _ => ⟨⟨rfl, rfl, rfl, rfl, rfl, fun _ => rfl, rfl⟩, rfl, rfl⟩) fun _ => tail
  · intro _; exact tail

theorem one_flush {s0 s : FS} (hs : One b s) (he : Ext s0 s) {h : Nat} (hc : CanFlush b s h) :
    wp (flush h) (fun _ s' => One b s' ∧ Ext s0 s') s := by
  unfold flush
  refine ko_calm hs he hc (ko_checkOpen _) (st_checkOpen _) ?_
  intro _ s1 h1 e1 c1 k1
  apply wp_hgetB
  apply wp_ite
  · intro hu
    refine ko_calm h1 e1 c1 (ko_flushContents _) (st_flushContents _) ?_
    intro c s2 h2 e2 c2 k2
    exact one_flushStore h2 e2 c2 (k2.update.trans hu) c
  · intro _; exact ⟨h1, e1⟩

theorem one_flushB {β : Type} {f : Unit → M β} {s0 s : FS} (hs : One b s) (he : Ext s0 s) {h : Nat} (hc : CanFlush b s h)
    (hf : ∀ a, KeepsOne b (f a)) : wp (flush h >>= f) (fun _ s' => One b s' ∧ Ext s0 s') s := by
  apply wp_seq _ (one_flush hs he hc)
  · intro e s' k; exact k
  · intro a s' k; exact wp_end1 k.1 k.2 (hf a)

theorem one_seek {s : FS} (hs : One b s) {h : Nat} (hc : CanFlush b s h) (off : Int) (w : Nat) :
    wp (seek h off w) (fun _ s' => One b s' ∧ Ext s s') s := by
  unfold seek
  refine ko_calm hs (Ext.refl s) hc (ko_checkOpen _) (st_checkOpen _) ?_
  intro _ s1 h1 e1 c1 k1
  apply wp_hgetB
  apply wp_ite
  · intro _
    refine ko_calm h1 e1 c1 (ko_hmod _ _) (st_hmod h (fun H => { H with readSeek := off, readWhence := w }) fun _ => ⟨rfl, rfl, rfl⟩) ?_
    intro _ s2 h2 e2 c2 k2
    exact one_flush h2 e2 c2
  · intro _
    split
    · exact ⟨h1, e1⟩
    · refine ko_calm h1 e1 c1 (ko_hmod _ _) (st_hmod h _ fun _ => ⟨rfl, rfl, rfl⟩) ?_
      intro _ s2 h2 e2 c2 k2
      exact one_flush h2 e2 c2

theorem one_tell {s : FS} (hs : One b s) {h : Nat} (hc : CanFlush b s h) :
    wp (tell h) (fun _ s' => One b s' ∧ Ext s s') s := by
  unfold tell
  refine ko_calm hs (Ext.refl s) hc (ko_checkOpen _) (st_checkOpen _) ?_
  intro _ s1 h1 e1 c1 k1
  apply one_flushB h1 e1 c1
  intro _
  refine ko_bind (ko_hget _) fun H => ko_ite (fun _ => ko_pure _) fun _ => ko_ite (fun _ => ko_pure _) fun _ => ?_
  split
  · exact ko_throw _
  · exact ko_bind (ko_hmod _ _) fun _ => ko_pure _

theorem one_read {s0 s : FS} (hs : One b s) (he : Ext s0 s) {h : Nat} (hc : CanFlush b s h) (n : Option Nat) :
    wp (read h n) (fun _ s' => One b s' ∧ Ext s0 s') s := by
  unfold read
  apply wp_getBind
  dsimp only
  apply wp_ite
  · intro _; exact ⟨hs, he⟩
  intro _
  refine ko_calm hs he hc (ko_checkOpen _) (st_checkOpen _) ?_
  intro _ s1 h1 e1 c1 k1
  apply wp_ite
  · intro _
    apply wp_ite
    · intro _; exact ⟨h1, e1⟩
    · intro _; exact wp_end1 h1 e1 (ko_hRaise _)
  intro _
  refine ko_calm h1 e1 c1 (ko_syncIo _) (st_syncIo _) ?_
  intro _ s2 h2 e2 c2 k2
  apply one_flushB h2 e2 c2
  intro _
  have tail : KeepsOne b (do
      let H ← hget h
      if H.append then
        match Bio.seek H.buf H.pos H.readSeek H.readWhence with
        | none => M.throw .valueError
        | some p => do
          let r := Bio.read H.buf p n
          hmod h fun H => { H with readSeek := (p + r.length : Nat), readWhence := 0, pos := H.buf.length }
          M.pure r
      else do
        let r := Bio.read H.buf H.pos n
        hmod h fun H => { H with pos := H.pos + r.length }
        M.pure r) := by
    apply ko_bind (ko_hget _)
    intro H
    apply ko_ite
    · intro _
      split
      · exact ko_throw _
      · exact ko_bind (ko_hmod _ _) fun _ => ko_pure _
    · intro _; exact ko_bind (ko_hmod _ _) fun _ => ko_pure _
  apply ko_ite
  · intro _
    exact ko_bind (ko_setObj _ (f := fun s o => { o with atime := s.clock })
        fun _ _ => ⟨⟨rfl, rfl, rfl, rfl, rfl, fun _ => rfl, rfl⟩, rfl, rfl⟩) fun _ => tail
  · intro _; exact tail

theorem one_tryFlush {s0 s : FS} (hs : One b s) (he : Ext s0 s) {h : Nat} (hc : CanFlush b s h) (p : Nat) :
    wp (tryFlush h p) (fun _ s' => One b s' ∧ Ext s0 s') s := by
  unfold tryFlush
  apply wp_hgetB
  unfold catchOS
  apply wp_tryCatch
  apply wp_mono (one_flush hs he hc)
  intro r s1 k
  cases r with
  | ok a => exact k
  | error e =>
    apply wp_end1 k.1 k.2
    exact ko_ite (fun _ => ko_bind (ko_hmod _ _) fun _ => ko_throw _) fun _ => ko_throw e

theorem one_writeWrapper {s0 s : FS} (hs : One b s) (he : Ext s0 s) {h : Nat} (hc : CanFlush b s h) (c : Bytes) :
    wp (writeWrapper h c) (fun _ s' => One b s' ∧ Ext s0 s') s := by
  unfold writeWrapper
  apply wp_hgetB
  dsimp only
  refine ko_calm hs he hc (ko_rawWrite _ _) (st_rawWrite _ _) ?_
  intro _ s1 h1 e1 c1 k1
  generalize s.handles h = H
  have tail : KeepsOne b (do
      if H.append then hmod h fun H => { H with readSeek := H.pos, readWhence := 0 }
      M.pure c.length) :=
    ko_ite (fun _ => ko_bind (ko_hmod _ _) fun _ => ko_pure _) fun _ => ko_pure _
  apply wp_ite
  · intro _
    have tail2 : KeepsOne b (do
        if !decide (c.length > H.bufferSize) then rawWrite h c
        if H.append then hmod h fun H => { H with readSeek := H.pos, readWhence := 0 }
        M.pure c.length) :=
      ko_ite (fun _ => ko_bind (ko_rawWrite _ _) fun _ => tail) fun _ => tail
    have tail3 : ∀ s2, One b s2 → Ext s0 s2 → CanFlush b s2 h → wp (do
        tryFlush h H.pos
        if !decide (c.length > H.bufferSize) then rawWrite h c
        if H.append then hmod h fun H => { H with readSeek := H.pos, readWhence := 0 }
        M.pure c.length) (fun _ s' => One b s' ∧ Ext s0 s') s2 := by
      intro s2 h2 e2 c2
      apply wp_seq _ (one_tryFlush h2 e2 c2 _)
      · intro e s' k; exact k
      · intro a s' k; exact wp_end1 k.1 k.2 tail2
    apply wp_ite
    · intro _
      refine ko_calm h1 e1 c1 (ko_hmod _ _) (st_hmod h _ fun _ => ⟨rfl, rfl, rfl⟩) ?_
      intro _ s2 h2 e2 c2 k2
      exact tail3 s2 h2 e2 c2
    · intro _; exact tail3 s1 h1 e1 c1
  · intro _; exact wp_end1 h1 e1 tail

theorem one_write {s0 s : FS} (hs : One b s) (he : Ext s0 s) {h : Nat} (hc : CanFlush b s h) (c : Bytes) :
    wp (write h c) (fun _ s' => One b s' ∧ Ext s0 s') s := by
  unfold write
  apply wp_getBind
  dsimp only
  apply wp_ite
  · intro _; exact ⟨hs, he⟩
  intro _
  refine ko_calm hs he hc (ko_checkOpen _) (st_checkOpen _) ?_
  intro _ s1 h1 e1 c1 k1
  apply wp_ite
  · intro _
    apply wp_ite
    · intro _; exact ⟨h1, e1⟩
    · intro _; exact wp_end1 h1 e1 (ko_hRaise _)
  · intro _; exact one_writeWrapper h1 e1 c1 c

/-- a write that fits into the buffer -/
theorem st_writeWrapper {h : Nat} {s : FS} (c : Bytes) (hz : (s.handles h).flushPos = (s.handles h).pos) (hb : c.length ≤ (s.handles h).bufferSize) :
    wp (writeWrapper h c) (fun _ s' => Calm h s s') s := by
  unfold writeWrapper
  apply wp_hgetB
  dsimp only
  rw [if_neg (by rw [hz]; push_cast; omega)]
  refine Still.run (h := h) (st_bind (st_rawWrite _ _) fun _ => ?_) s
  exact st_ite (st_bind (st_hmod h _ fun _ => ⟨rfl, rfl, rfl⟩) fun _ => st_pure _) (st_pure _)

theorem st_hRaise {α : Type} {h : Nat} (g : Nat) : Still h (hRaise g : M α) := by
  unfold hRaise
  exact st_bind st_hget fun H => st_ite (st_throw _) (st_throw _)

theorem st_write {h : Nat} {s : FS} (c : Bytes) (hz : (s.handles h).flushPos = (s.handles h).pos) (hb : c.length ≤ (s.handles h).bufferSize) :
    wp (write h c) (fun _ s' => Calm h s s') s := by
  unfold write
  apply wp_getBind
  dsimp only
  apply wp_ite
  · intro _; exact Calm.refl h s
  intro _
  have hc : wp (checkOpen h) (fun _ s' => s' = s) s := by
    unfold wp checkOpen; split <;> rfl
  apply wp_seq _ hc
  · rintro e s' rfl; exact Calm.refl h _
  rintro _ s' rfl
  apply wp_ite
  · intro _
    apply wp_ite
    · intro _; exact Calm.refl h _
    · intro _; exact (st_hRaise h).run _
  · intro _; exact st_writeWrapper c hz hb

/-! ## Closing, truncating -/

theorem one_hClose {s0 s : FS} (hs : One b s) (he : Ext s0 s) {h : Nat} (hc : CanFlush b s h) :
    wp (hClose h) (fun _ s' => One b s' ∧ Ext s0 s') s := by
  unfold hClose
  apply wp_getBind
  dsimp only
  split
  · exact ⟨hs, he⟩
  · exact wp_end1 hs he (ko_closeOpenFile _)
  · apply wp_ite
    · intro _; exact ⟨hs, he⟩
    intro _
    have tail2 : KeepsOne b (do
        if (s.handles h).deleteOnClose then do
          let s' ← M.get
          removeObject (s'.objPath (s.handles h).obj)
        else pure () : M Unit) :=
      ko_ite (fun _ => ko_bind ko_get fun _ => ko_removeObject _) fun _ => ko_pure' _
    have tail : KeepsOne b (do
        if (s.handles h).closefd then closeOpenFile (s.handles h).fd
        else M.modify fun s' => { s' with openFiles := s'.openFiles.modify (s.handles h).fd fun e => e.map fun l => l.erase h }
        if (s.handles h).deleteOnClose then do
          let s' ← M.get
          removeObject (s'.objPath (s.handles h).obj)
        else pure () : M Unit) := by
      apply ko_ite
      · intro _; exact ko_bind (ko_closeOpenFile _) fun _ => tail2
      · intro _; exact ko_bind (ko_io fun _ => ⟨_, _, _, _, rfl⟩) fun _ => tail2
    apply wp_ite
    · intro _
      apply one_flushB hs he hc
      intro _
      apply ko_bind ko_get
      intro s2
      apply ko_ite
      · intro _
        exact ko_bind (ko_setObj _ (f := fun s o => { o with mtime := s.clock })
          fun _ _ => ⟨⟨rfl, rfl, rfl, rfl, rfl, fun _ => rfl, rfl⟩, rfl, rfl⟩) fun _ => tail
      · intro _; exact tail
    · intro _; exact wp_end1 hs he tail

theorem ko_flushF (h : Nat) : KeepsOne false (flush h) := fun s hs => one_flush hs (Ext.refl s) (canFlush_false s h)
theorem ko_setSizeF (r : Ref) (n : Nat) : KeepsOne false (setSize r n) := fun _ hs =>
  wp_mono (one_setSize hs n (fun e => by simp at e) (fun e => by simp at e)) fun _ _ k => ⟨k.1, k.2.1⟩
theorem ko_setContentsF (r : Ref) (c : Bytes) : KeepsOne false (setContents r c) := fun _ hs =>
  wp_mono (one_setContents hs c (fun e => by simp at e)) fun _ _ k => ⟨k.1, k.2.1⟩

theorem ko_truncateWrapperF (h : Nat) (n : Option Nat) : KeepsOne false (truncateWrapper h n) := by
  unfold truncateWrapper
  apply ko_bind (ko_hget _)
  intro H
  have tail3 : ∀ n, KeepsOne false (do flush h; M.pure n : M Nat) := fun n => ko_bind (ko_flushF _) fun _ => ko_pure _
  have tail : KeepsOne false (do
      let H ← hget h
      let n := n.getD H.pos
      hmod h fun H => { H with buf := H.buf.take n }
      flush h
      setSize H.obj n
      let H ← hget h
      let len := H.buf.length
      if len < n then do
        let b := H.buf ++ List.replicate (n - len) 0
        hmod h fun H => { H with buf := b, pos := n }
        let _ ← setContents H.obj b
        hmod h fun H => { H with flushPos := n }
        adaptSize h (n - len)
      flush h
      M.pure n) := by
    apply ko_bind (ko_hget _)
    intro H
    dsimp only
    apply ko_bind (ko_hmod _ _)
    intro _
    apply ko_bind (ko_flushF _)
    intro _
    apply ko_bind (ko_setSizeF _ _)
    intro _
    apply ko_bind (ko_hget _)
    intro H
    apply ko_ite
    · intro _
      apply ko_bind (ko_hmod _ _)
      intro _
      apply ko_bind (ko_setContentsF _ _)
      intro _
      apply ko_bind (ko_hmod _ _)
      intro _
      exact ko_bind (ko_adaptSize _ _) fun _ => tail3 _
    · intro _; exact tail3 _
  apply ko_ite
  · intro _
    split
    · exact ko_bind (ko_throw _) fun _ => tail
    · exact ko_bind (ko_hmod _ _) fun _ => tail
  · intro _; exact tail

/-- `truncate` of a handle: nothing is known about the sums if it can write. -/
theorem one_hTruncate {s : FS} (hs : One b s) {h : Nat} (n : Option Nat) (hc : b = true → (s.handles h).update = false) :
    wp (hTruncate h n) (fun _ s' => One b s' ∧ Ext s s') s := by
  unfold hTruncate
  apply wp_getBind
  dsimp only
  apply wp_ite
  · intro _; exact ⟨hs, Ext.refl s⟩
  intro _
  apply ko_seq hs (Ext.refl s) (ko_checkOpen _)
  intro _ s1 h1 _ e1
  apply wp_ite
  · intro _
    apply wp_ite
    · intro _; exact ⟨h1, e1⟩
    · intro _; exact wp_end1 h1 e1 (ko_hRaise _)
  · intro hu
    cases b with
    | true => exact absurd (hc rfl) hu
    | false => exact wp_end1 h1 e1 (ko_truncateWrapperF _ _)

/-! ## Opening -/

/-- Truncating when opening: the file has a name and no contents. -/
def CanTruncate (b : Bool) (s : FS) (r : Ref) (md : OpenModes) : Prop :=
  b = true → md.canWrite = true → md.truncate = true → r ≠ devNullRef → (s.heap r).isDir = false →
    r < s.next ∧ 1 ≤ (s.heap r).nlink ∧ ∀ o, (s.heap r).content = .file o → o.getD [] = []

theorem one_initFileObject {s : FS} (hs : One b s) (obj : Option Ref) (p real : Str) (md : OpenModes)
    (hc : ∀ r, obj = some r → CanTruncate b s r md) :
    wp (initFileObject obj p real md) (fun _ s' => One b s' ∧ Ext s s') s := by
  unfold initFileObject
  split
  · rename_i r
    apply wp_getBind
    apply wp_ite
    · intro _; exact ⟨hs, Ext.refl s⟩
    intro _
    apply wp_ite
    · intro ht
      have hset : wp (setContents r []) (fun _ s' => One b s' ∧ Ext s s') s :=
        wp_mono (one_setContents hs [] fun e hn hk => hc r rfl e (by simp at ht; exact ht.1) (by simp at ht; exact ht.2) hn hk) fun _ _ k => ⟨k.1, k.2.1⟩
      apply wp_seq _ hset
      · intro e s' k; exact k
      · intro a s' k; exact k
    · intro _; exact ⟨hs, Ext.refl s⟩
  · apply wp_end1 hs (Ext.refl s)
    apply ko_ite
    · intro _; exact ko_raise _
    intro _
    apply ko_bind (ko_rd _)
    intro bb
    have tail : ∀ target : Str, KeepsOne b (do
        let s ← M.get
        if s.cfg.endsWithSep target then
          M.raise (if s.cfg.isWin then .EINVAL else if s.cfg.isMac then .ENOENT else .EISDIR)
        createFileI real (S_IFREG ||| PERM_DEF_FILE) (some []) none false true) := by
      intro target
      apply ko_bind ko_get
      intro s
      apply ko_ite
      · intro _; exact ko_raise _
      · intro _; exact ko_createFileI _ _ _ _ _ _
    apply ko_ite
    · intro _
      apply ko_bind (ko_rd _)
      intro l
      apply ko_bind ko_get
      intro s
      exact ko_bind (ko_pure _) fun _ => tail _
    · intro _; exact ko_bind (ko_pure _) fun _ => tail _

theorem one_openObject {s : FS} (hs : One b s) (obj : Option Ref) (p real : Str) (md : OpenModes)
    (hc : ∀ r, obj = some r → CanTruncate b s r md) :
    wp (openObject obj p real md) (fun _ s' => One b s' ∧ Ext s s') s := by
  unfold openObject
  have tail : wp (do
      let r ← initFileObject obj p real md
      let s ← M.get
      if (s.heap r).isDirMode then M.raise (if s.cfg.isWin then .EACCES else .EISDIR)
      if md.truncate then
        M.modify fun s => s.setObj r fun o =>
          { o with mtime := s.clock, ctime := if s.cfg.isWin then o.ctime else s.clock }
      M.pure r) (fun _ s' => One b s' ∧ Ext s s') s := by
    apply wp_seq _ (one_initFileObject hs obj p real md hc)
    · intro e s' k; exact k
    intro r s1 k
    apply wp_end1 k.1 k.2
    apply ko_bind ko_get
    intro s
    apply ko_ite
    · intro _; exact ko_raise _
    intro _
    apply ko_ite
    · intro _
      exact ko_bind (ko_setObj _ (f := fun s o => { o with mtime := s.clock, ctime := if s.cfg.isWin then o.ctime else s.clock })
          fun _ _ => ⟨⟨rfl, rfl, rfl, rfl, rfl, fun _ => rfl, rfl⟩, rfl, rfl⟩) fun _ => ko_pure _
    · intro _; exact ko_pure _
  have tail2 : ∀ ex : Bool, wp (do
      if ex then M.raise .EEXIST
      let r ← initFileObject obj p real md
      let s ← M.get
      if (s.heap r).isDirMode then M.raise (if s.cfg.isWin then .EACCES else .EISDIR)
      if md.truncate then
        M.modify fun s => s.setObj r fun o =>
          { o with mtime := s.clock, ctime := if s.cfg.isWin then o.ctime else s.clock }
      M.pure r) (fun _ s' => One b s' ∧ Ext s s') s := by
    intro ex
    apply wp_ite
    · intro _; exact ⟨hs, Ext.refl s⟩
    · intro _; exact tail
  apply wp_ite
  · intro _
    dsimp only
    apply wp_ite
    · intro _
      apply wp_bind
      apply wp_pure
      exact tail2 _
    · intro _
      apply wp_getBind
      apply ko_rdB hs
      intro l _
      apply wp_bind
      apply wp_pure
      exact tail2 _
  · intro _; exact tail

theorem one_openPath {s : FS} (hs : One b s) (p : Str) (md : OpenModes) (bs : Option Nat) (rawIo del : Bool)
    (hc : b = true → md.canWrite = true → md.truncate = true → ∀ r real o, s.fileArg p = .ok (some r, real) → r ≠ devNullRef →
      (s.heap r).content = .file o → o.getD [] = []) :
    wp (openPath p md bs rawIo del) (fun _ s' => One b s' ∧ Ext s s') s := by
  unfold openPath
  apply ko_rdB hs
  intro a ha
  have hco : ∀ r, a.1 = some r → CanTruncate b s r md := by
    intro r hr e hw ht hn hk
    obtain ⟨a1, a2⟩ := a
    dsimp only at hr
    subst hr
    refine ⟨?_, ?_, fun o ho => hc e hw ht r a2 o ha hn ho⟩
    all_goals
      have hnm : r < s.next ∧ (r = devNullRef ∨ (s.heap r).isDir = true ∨ 1 ≤ (s.heap r).nlink) := by
        unfold FS.fileArg at ha
        split at ha
        · injection ha with e'; injection e' with e1 e2; injection e1 with e1; exact absurd e1.symm hn
        · obtain ⟨real, hr1, ha⟩ := except_bind_ok ha
          obtain ⟨ex, hr2, ha⟩ := except_bind_ok ha
          cases ex with
          | false => simp at ha
          | true =>
            simp only [if_true] at ha
            obtain ⟨r1, hr3, ha⟩ := except_bind_ok ha
            injection ha with e'; injection e' with e1 e2; injection e1 with e1; subst e1
            exact hs.named.getObjNormG (hs.named.recN _) hr3
    · exact hnm.1
    · rcases hnm.2 with hx | hx | hx
      · exact absurd hx hn
      · rw [hk] at hx; simp at hx
      · exact hx
  apply wp_seq _ (one_openObject hs a.1 p a.2 md hco)
  · intro e s' k; exact k
  intro r s1 k
  apply wp_end1 k.1 k.2
  apply ko_bind ko_get
  intro s
  apply ko_ite
  · intro _; exact ko_throw _
  intro _
  apply ko_bind (ko_newHandle _)
  intro h
  apply ko_bind (ko_addOpenFile _)
  intro fd
  exact ko_bind (ko_hmod _ _) fun _ => ko_pure _

theorem one_openFd {s : FS} (hs : One b s) (fd : Nat) (md : OpenModes) (bs : Option Nat) (closefd : Bool)
    (hc : ∀ w, s.getOpen fd = .ok w → CanTruncate b s (s.handles w).obj md) :
    wp (openFd fd md bs closefd) (fun _ s' => One b s' ∧ Ext s s') s := by
  unfold openFd
  apply ko_rdB hs
  intro w hw
  apply wp_hgetB
  apply wp_ite
  · intro _; exact ⟨hs, Ext.refl s⟩
  intro _
  apply wp_getBind
  dsimp only
  apply wp_seq _ (one_openObject hs _ _ _ md fun r e => by injection e with e; rw [← e]; exact hc w hw)
  · intro e s' k; exact k
  intro r s1 k
  apply wp_end1 k.1 k.2
  apply ko_bind ko_get
  intro s
  apply ko_bind (ko_newHandle _)
  intro h
  exact ko_bind (ko_io fun _ => ⟨_, _, _, _, rfl⟩) fun _ => ko_pure _

theorem one_osOpen {s : FS} (hs : One b s) (p : Str) (f : OFlags) (mode : Nat)
    (hc : b = true → f.modes.canWrite = true → f.trunc = true → ∀ r real o, s.fileArg p = .ok (some r, real) → r ≠ devNullRef →
      (s.heap r).content = .file o → o.getD [] = []) :
    wp (osOpen p f mode) (fun _ s' => One b s' ∧ Ext s s') s := by
  unfold osOpen
  dsimp only
  apply wp_ite
  · intro _; exact ⟨hs, Ext.refl s⟩
  intro _
  apply wp_getBind
  apply ko_rdB hs
  intro dir _
  split
  · apply wp_end1 hs (Ext.refl s)
    apply ko_ite
    · intro _; exact ko_raise _
    intro _
    apply ko_bind (ko_newHandle _)
    intro h
    apply ko_bind (ko_addOpenFile _)
    intro fd
    exact ko_bind (ko_hmod _ _) fun _ => ko_pure _
  · apply wp_seq _ (one_openPath hs p f.modes none true false hc)
    · intro e s' k; exact k
    intro h s1 k
    apply wp_end1 k.1 k.2
    apply ko_bind (ko_hget _)
    intro H
    apply ko_ite
    · intro _; exact ko_bind (ko_chmod _ _ _) fun _ => ko_pure _
    · intro _; exact ko_pure _

/-! ## Descriptors -/

theorem one_osClose {s : FS} (hs : One b s) (fd : Int) (hc : ∀ h, s.getOpen fd = .ok h → CanFlush b s h) :
    wp (osClose fd) (fun _ s' => One b s' ∧ Ext s s') s := by
  unfold osClose
  apply ko_rdB hs
  intro h hh
  exact one_hClose hs (Ext.refl s) (hc h hh)

theorem one_osRead {s : FS} (hs : One b s) (fd : Int) (n : Nat) (hc : ∀ h, s.getOpen fd = .ok h → CanFlush b s h) :
    wp (osRead fd n) (fun _ s' => One b s' ∧ Ext s s') s := by
  unfold osRead
  apply ko_rdB hs
  intro h hh
  apply wp_hgetB
  apply wp_ite
  · intro _; exact ⟨hs, Ext.refl s⟩
  intro _
  refine ko_calm hs (Ext.refl s) (hc h hh) (ko_hmod _ _) (st_hmod h (fun H => { H with rawIo := true }) fun _ => ⟨rfl, rfl, rfl⟩) ?_
  intro _ s1 h1 e1 c1 k1
  exact one_read h1 e1 c1 _

theorem hmod_handle (h : Nat) (f : Handle → Handle) (s : FS) : wp (hmod h f) (fun _ s' => s'.handles h = f (s.handles h)) s :=
  upd_same _ _ _

theorem one_osWrite {s : FS} (hs : One b s) (fd : Int) (c : Bytes) (hc : ∀ h, s.getOpen fd = .ok h → CanFlush b s h)
    (hb : b = true → ∀ h, s.getOpen fd = .ok h → c.length ≤ (s.handles h).bufferSize) :
    wp (osWrite fd c) (fun _ s' => One b s' ∧ Ext s s') s := by
  unfold osWrite
  apply ko_rdB hs
  intro h hh
  apply wp_hgetB
  apply wp_ite
  · intro _; exact ⟨hs, Ext.refl s⟩
  intro _
  apply wp_ite
  · intro _; exact ⟨hs, Ext.refl s⟩
  intro _
  refine ko_calm hs (Ext.refl s) (hc h hh) (ko_hmod _ _) (st_hmod h (fun H => { H with rawIo := true }) fun _ => ⟨rfl, rfl, rfl⟩) ?_
  intro _ s1 h1 e1 _ k1
  refine ko_calm h1 e1 (k1.canFlush (hc h hh)) (ko_syncIo h) (st_syncIo h) ?_
  intro _ s2 h2 e2 _ k2
  have hst : Still h (hmod h fun H => { H with flushPos := H.pos }) := st_hmod h _ fun _ => ⟨rfl, rfl, rfl⟩
  apply wp_seq _ (wp_both (ko_hmod h (fun H => { H with flushPos := H.pos }) s2 h2) (wp_both (hst.run s2) (hmod_handle h _ s2)))
  · intro e s3 k; exact ⟨k.1.1, e2.trans k.1.2⟩
  intro _ s3 ⟨⟨h3, e3⟩, c3, g3⟩
  have f3 : (s3.handles h).flushPos = (s3.handles h).pos := by rw [g3]
  have c03 : Calm h s s3 := (k1.trans k2).trans c3
  have e03 : Ext s s3 := e2.trans e3
  have fl3 := c03.canFlush (hc h hh)
  have hw : wp (write h c) (fun _ s' => (One b s' ∧ Ext s s') ∧ CanFlush b s' h) s3 := by
    cases b with
    | false => exact wp_mono (one_write h3 e03 fl3 c) fun _ s' k => ⟨k, canFlush_false s' h⟩
    | true =>
      refine wp_mono (wp_both (one_write h3 e03 fl3 c) (st_write c f3 ?_)) fun _ s' k => ⟨k.1, k.2.canFlush fl3⟩
      rw [c03.size]; exact hb rfl h hh
  apply wp_seq _ hw
  · intro e s4 k; exact k.1
  intro _ s4 k
  exact one_flushB k.1.1 k.1.2 k.2 fun _ => ko_pure _

theorem one_ftruncate {s : FS} (hs : One b s) (fd : Int) (n : Nat)
    (hc : b = true → ∀ h, s.getOpen fd = .ok h → (s.handles h).obj ≠ devNullRef ∧ ((s.heap (s.handles h).obj).isDir = false →
      (s.handles h).obj < s.next ∧ 1 ≤ (s.heap (s.handles h).obj).nlink)) :
    wp (ftruncate fd n) (fun _ s' => One b s' ∧ Ext s s') s := by
  unfold ftruncate
  apply ko_rdB hs
  intro h hh
  apply wp_hgetB
  apply wp_ite
  · intro _; exact ⟨hs, Ext.refl s⟩
  · intro _
    exact wp_mono (one_setSize hs n (fun e hk => (hc e h hh).2 hk) fun e => Or.inl (hc e h hh).1) fun _ _ k => ⟨k.1, k.2.1⟩

/-! ## The rest -/

theorem one_chdir {s : FS} (hs : One b s) (p : Str) : One b (chdir p s).2 := by
  have hstep := (chdir_step p hs.inv).1.inv
  have : wp (chdir p) (fun _ s' => s'.heap = s.heap ∧ s'.next = s.next ∧ s'.mounts = s.mounts ∧ s'.cfg = s.cfg) s := by
    unfold chdir
    apply wp_readBind
    · intro e _; exact ⟨rfl, rfl, rfl, rfl⟩
    · intro q hq
      apply wp_readBind
      · intro e _; exact ⟨rfl, rfl, rfl, rfl⟩
      · intro r _
        apply wp_readBind
        · intro e _; exact ⟨rfl, rfl, rfl, rfl⟩
        · intro r' _
          apply wp_modify
          exact ⟨rfl, rfl, rfl, rfl⟩
  obtain ⟨e1, e2, e3, e4⟩ := this
  obtain ⟨m, k1, k2, k3, k4⟩ := hs.mount
  refine ⟨hstep, by rw [e4]; exact hs.tree, by rw [e1]; exact hs.root, by rw [e1, e2]; exact hs.ent,
    ⟨m, e3.trans k1, k2, k3, fun e => ?_⟩, by rw [e1]; exact hs.null⟩
  rw [k4 e]; unfold FS.stored; rw [e1, e2]

theorem One.env {s : FS} (hs : One b s) (um uid gid : Nat) (ck : Int) : One b { s with umask := um, uid := uid, gid := gid, clock := ck } :=
  ⟨⟨hs.inv.g, hs.inv.m, ⟨hs.inv.n.rootMode, hs.inv.n.devFile, hs.inv.n.devMode, hs.inv.n.cwd, hs.inv.n.names, hs.inv.n.rootMount, hs.inv.n.rootName⟩, hs.inv.t⟩,
    hs.tree, hs.root, hs.ent, hs.mount, hs.null⟩

end

end Verif
