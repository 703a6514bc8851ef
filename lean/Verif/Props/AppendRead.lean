import Verif.Props.Append
/-!
# C68: reading and writing through one append handle
-/

namespace Verif
open Py Spec Cfg

namespace Spec

/-- The meaning of a call on a file object opened with `a` or `a+`: writing always goes to the end and moves the read
position there; everything else is as for a byte array with a cursor. -/
def Cursor.astep (c : Cursor) : Io → Out × Cursor
  | .write b => (.num b.length, ⟨c.data ++ b, c.data.length + b.length⟩)
  | i => c.step i

/-- the results of a sequence of calls and the array at the end -/
def Cursor.arun (c : Cursor) : List Io → List Out × Cursor
  | [] => ([], c)
  | i :: is => ((c.astep i).1 :: ((c.astep i).2.arun is).1, ((c.astep i).2.arun is).2)

/-- The calls covered: `read`, `write`, `tell`, `flush` and `seek` to a position that is given from the start or from the
end of the file. -/
def ASafe : Io → Prop
  | .seek off w => (w = 0 ∧ 0 ≤ off) ∨ w = 2
  | .truncate _ => False
  | _ => True

instance (i : Io) : Decidable (ASafe i) := by cases i <;> unfold ASafe <;> infer_instance

end Spec

/-- The handle `h`, opened in append mode on the file `r`, stands for the array `c`. -/
structure ApFile (s : FS) (h : Nat) (r : Ref) (c : Cursor) : Prop where
  isOpen : s.isOpen h = true
  kind : (s.handles h).kind = .file
  append : (s.handles h).append = true
  update : (s.handles h).update = true
  raw : (s.handles h).rawIo = false
  obj : (s.handles h).obj = r
  notNull : r ≠ devNullRef
  buf : (s.handles h).buf = c.data
  pos : (s.handles h).pos = c.data.length
  flushPos : (s.handles h).flushPos ≤ c.data.length
  file : (s.heap r).content = .file (some (c.data.take (s.handles h).flushPos))
  epoch : (s.handles h).fileEpoch = (s.heap r).epoch
  /-- the place where reading goes on -/
  place : Bio.seek c.data c.data.length (s.handles h).readSeek (s.handles h).readWhence = some c.pos

section
variable {s : FS} {h : Nat} {r : Ref} {c : Cursor}

/-- flushing stores the array in the file -/
theorem ap_flush (b : ApFile s h r c) :
    Okp (flush h) (fun _ s' => ApFile s' h r c ∧ (s'.heap r).content = .file (some c.data)) s := by
  constructor
  intro u s' e
  have q : Quiet s s' := by have := fq_flush h s; rw [e] at this; exact this
  have := flush_append_spec b.isOpen b.update b.append b.notNull b.obj b.file
  unfold wp at this
  rw [e] at this
  rcases this with ⟨h1, _⟩ | ⟨_, hf, h1, h2, h3, h4, h5, h6⟩
  · simp at h1
  · rw [b.buf, List.take_append_drop] at hf
    have hbf := hf.buf
    refine ⟨⟨?_, (q.kind h).trans b.kind, (q.append h).trans b.append, (q.update h).trans b.update, h6.trans b.raw,
      (q.obj h).trans b.obj, b.notNull, hbf, by rw [h1, hbf], by rw [h2, hbf], ?_, h3, ?_⟩, hf.content⟩
    · rw [hf.isOpen (q.fd h)]; exact b.isOpen
    · rw [h2, hbf, List.take_length]; exact hf.content
    · rw [h4, h5]; exact b.place

theorem ap_seek (b : ApFile s h r c) (off : Int) (w : Nat) (hs : ASafe (.seek off w)) :
    Okp (seek h off w) (fun _ s' => ApFile s' h r (c.astep (.seek off w)).2) s := by
  unfold seek
  apply okp_eqBind (checkOpen_ok b.isOpen)
  apply okp_hget
  rw [if_pos b.append]
  apply okp_hmodBind
  refine okp_mono (ap_flush (c := (c.astep (.seek off w)).2) ?_) fun _ _ h => h.1
  refine ⟨by refine (isOpen_setH _ _ _ _ ?_).trans b.isOpen; intro H; rfl, ?_, ?_, ?_, ?_, ?_, b.notNull, ?_, ?_, ?_, ?_, ?_, ?_⟩ <;>
    rw [setH_same] <;> dsimp only [Cursor.astep, Cursor.step]
  · exact b.kind
  · exact b.append
  · exact b.update
  · exact b.raw
  · exact b.obj
  · exact b.buf
  · exact b.pos
  · exact b.flushPos
  · exact b.file
  · exact b.epoch
  · rcases hs with ⟨rfl, h0⟩ | rfl
    · unfold Bio.seek; rw [if_neg (by omega)]; simp
    · unfold Bio.seek; simp

theorem ap_tell (b : ApFile s h r c) : Okp (tell h) (fun n s' => n = c.pos ∧ ApFile s' h r c) s := by
  unfold tell
  apply okp_eqBind (checkOpen_ok b.isOpen)
  apply okp_seq _ (ap_flush b)
  rintro _ s1 ⟨b1, _⟩
  apply okp_hget
  rw [if_neg (by rw [b1.append]; simp)]
  have hp := b1.place
  apply okp_ite
  · intro h0
    rw [h0] at hp
    have hp' : (if (s1.handles h).readSeek < 0 then none else some (s1.handles h).readSeek.toNat) = some c.pos := hp
    by_cases hneg : (s1.handles h).readSeek < 0
    · rw [if_pos hneg] at hp'; cases hp'
    · rw [if_neg hneg] at hp'
      injection hp' with hp'
      exact okp_pure ⟨by omega, b1⟩
  · intro _
    rw [b1.buf, b1.pos, hp]
    dsimp only
    apply okp_hmodBind
    apply okp_pure
    refine ⟨rfl, ?_⟩
    refine ⟨by refine (isOpen_setH _ _ _ _ ?_).trans b1.isOpen; intro H; rfl, ?_, ?_, ?_, ?_, ?_, b1.notNull, ?_, ?_, ?_, ?_, ?_, ?_⟩ <;>
      rw [setH_same] <;> dsimp only
    · exact b1.kind
    · exact b1.append
    · exact b1.update
    · exact b1.raw
    · exact b1.obj
    · exact b1.buf
    · exact b1.pos
    · exact b1.flushPos
    · exact b1.file
    · exact b1.epoch
    · unfold Bio.seek; rw [if_neg (by omega)]; simp

theorem ApFile.atime (b : ApFile s h r c) (r' : Ref) (t : FS → Obj → Int) :
    ApFile (s.setObj r' fun o => { o with atime := t s o }) h r c := by
  have e : ((s.setObj r' fun o => { o with atime := t s o }).heap r).content = (s.heap r).content ∧
      ((s.setObj r' fun o => { o with atime := t s o }).heap r).epoch = (s.heap r).epoch := by
    by_cases hr : r = r'
    · subst hr
      have : (s.setObj r fun o => { o with atime := t s o }).heap r = { s.heap r with atime := t s (s.heap r) } := upd_same _ _ _
      rw [this]; exact ⟨rfl, rfl⟩
    · have : (s.setObj r' fun o => { o with atime := t s o }).heap r = s.heap r := upd_ne _ _ hr
      rw [this]; exact ⟨rfl, rfl⟩
  exact { b with file := e.1.trans b.file, epoch := b.epoch.trans e.2.symm }

theorem ApFile.notLarge (b : ApFile s h r c) : s.isLarge (s.handles h).obj = false := by
  unfold FS.isLarge
  rw [b.obj, b.file]

theorem ap_read (b : ApFile s h r c) (n : Option Nat) :
    Okp (read h n) (fun a s' => .bytes a = (c.astep (.read n)).1 ∧ ApFile s' h r (c.astep (.read n)).2) s := by
  unfold read
  apply okp_get
  dsimp only
  rw [if_neg (by rw [b.notLarge]; simp)]
  apply okp_eqBind (checkOpen_ok b.isOpen)
  by_cases hrd : (s.handles h).read = false
  · rw [if_pos hrd]
    refine okp_ite (fun hh => ?_) fun _ => okp_hRaise
    rw [b.raw] at hh; simp at hh
  rw [if_neg hrd]
  have hsync : syncIo h s = (.ok (), s) := by
    rw [syncIo_eq b.obj b.notNull b.file, setH_self]
    unfold Handle.synced
    rw [if_pos b.epoch]
  apply okp_eqBind hsync
  apply okp_seq _ (ap_flush b)
  rintro _ s1 ⟨b1, _⟩
  have fin : ∀ s2, ApFile s2 h r c → Okp (do
      let H ← hget h
      if H.append then
        match Bio.seek H.buf H.pos H.readSeek H.readWhence with
        | none => M.throw .valueError
        | some p => do
          let r := Bio.read H.buf p n
          hmod h fun H => { H with readSeek := (p + r.length : Nat), readWhence := 0, pos := H.buf.length }
          M.pure r
      else do
        let r := Bio.read H.buf H.pos n
        hmod h fun H => { H with pos := H.pos + r.length }
        M.pure r)
      (fun a s' => .bytes a = (c.astep (.read n)).1 ∧ ApFile s' h r (c.astep (.read n)).2) s2 := by
    intro s2 b2
    apply okp_hget
    rw [if_pos b2.append, b2.buf, b2.pos, b2.place]
    dsimp only
    apply okp_hmodBind
    apply okp_pure
    have hd : (c.astep (.read n)).2.data = c.data := by cases n <;> rfl
    refine ⟨by cases n <;> rfl, ?_⟩
    refine ⟨by refine (isOpen_setH _ _ _ _ ?_).trans b2.isOpen; intro H; rfl, ?_, ?_, ?_, ?_, ?_, b2.notNull, ?_, ?_, ?_, ?_, ?_, ?_⟩ <;>
      rw [setH_same] <;> (try rw [hd]) <;> dsimp only
    · exact b2.kind
    · exact b2.append
    · exact b2.update
    · exact b2.raw
    · exact b2.obj
    · exact b2.buf
    · rw [b2.buf]
    · exact b2.flushPos
    · exact b2.file
    · exact b2.epoch
    · unfold Bio.seek; rw [if_neg (by omega)]
      cases n with
      | none => dsimp only [Bio.read, Cursor.astep, Cursor.step]; rw [List.length_drop]; refine congrArg some ?_; show (((c.pos + (c.data.length - c.pos) : Nat) : Int)).toNat = max c.pos c.data.length; rw [Int.toNat_natCast]; generalize c.data.length = L; generalize c.pos = P; omega
      | some n => dsimp only [Bio.read, Cursor.astep, Cursor.step]; rw [List.length_take, List.length_drop]; congr 1
  apply okp_ite
  · intro _
    apply okp_modifyBind
    apply fin
    exact b1.atime _ fun s _ => s.clock
  · intro _
    exact fin _ b1

/-- The handle after appending to the stream; where reading goes on is not yet known. -/
structure ApRaw (s : FS) (h : Nat) (r : Ref) (D : Bytes) : Prop where
  isOpen : s.isOpen h = true
  kind : (s.handles h).kind = .file
  append : (s.handles h).append = true
  update : (s.handles h).update = true
  raw : (s.handles h).rawIo = false
  obj : (s.handles h).obj = r
  notNull : r ≠ devNullRef
  buf : (s.handles h).buf = D
  pos : (s.handles h).pos = D.length
  flushPos : (s.handles h).flushPos ≤ D.length
  file : (s.heap r).content = .file (some (D.take (s.handles h).flushPos))
  epoch : (s.handles h).fileEpoch = (s.heap r).epoch

theorem ApFile.toRaw (b : ApFile s h r c) : ApRaw s h r c.data :=
  ⟨b.isOpen, b.kind, b.append, b.update, b.raw, b.obj, b.notNull, b.buf, b.pos, b.flushPos, b.file, b.epoch⟩

theorem apr_flush {D : Bytes} (b : ApRaw s h r D) : Okp (flush h) (fun _ s' => ApRaw s' h r D) s := by
  constructor
  intro u s' e
  have q : Quiet s s' := by have := fq_flush h s; rw [e] at this; exact this
  have := flush_append_spec b.isOpen b.update b.append b.notNull b.obj b.file
  unfold wp at this
  rw [e] at this
  rcases this with ⟨h1, _⟩ | ⟨_, hf, h1, h2, h3, h4, h5, h6⟩
  · simp at h1
  · rw [b.buf, List.take_append_drop] at hf
    have hbf := hf.buf
    refine ⟨?_, (q.kind h).trans b.kind, (q.append h).trans b.append, (q.update h).trans b.update, h6.trans b.raw,
      (q.obj h).trans b.obj, b.notNull, hbf, by rw [h1, hbf], by rw [h2, hbf], ?_, h3⟩
    · rw [hf.isOpen (q.fd h)]; exact b.isOpen
    · rw [h2, hbf, List.take_length]; exact hf.content

theorem ApRaw.write {D : Bytes} (b : ApRaw s h r D) (x : Bytes) :
    ApRaw (s.setH h fun H => { H with buf := Bio.write H.buf H.pos x, pos := H.pos + x.length }) h r (D ++ x) := by
  have hw : Bio.write (s.handles h).buf (s.handles h).pos x = D ++ x := by
    rw [b.buf, b.pos]
    unfold Bio.write
    by_cases hb : x = []
    · rw [if_pos hb, hb, List.append_nil]
    · rw [if_neg hb, Nat.sub_self, List.replicate_zero, List.append_nil, List.take_length, List.drop_of_length_le (by omega),
        List.append_nil]
  refine ⟨by refine (isOpen_setH _ _ _ _ ?_).trans b.isOpen; intro H; rfl, ?_, ?_, ?_, ?_, ?_, b.notNull, ?_, ?_, ?_, ?_, ?_⟩ <;>
    rw [setH_same] <;> dsimp only
  · exact b.kind
  · exact b.append
  · exact b.update
  · exact b.raw
  · exact b.obj
  · exact hw
  · rw [b.pos, List.length_append]
  · have := b.flushPos; rw [List.length_append]; omega
  · rw [List.take_append_of_le_length b.flushPos]; exact b.file
  · exact b.epoch

theorem ApRaw.unwrite {D x : Bytes} (b : ApRaw s h r (D ++ x)) (hf : (s.handles h).flushPos ≤ D.length) :
    ApRaw (s.setH h fun H => { H with buf := H.buf.take D.length, pos := D.length }) h r D := by
  refine ⟨by refine (isOpen_setH _ _ _ _ ?_).trans b.isOpen; intro H; rfl, ?_, ?_, ?_, ?_, ?_, b.notNull, ?_, ?_, ?_, ?_, ?_⟩ <;>
    rw [setH_same] <;> dsimp only
  · exact b.kind
  · exact b.append
  · exact b.update
  · exact b.raw
  · exact b.obj
  · rw [b.buf, List.take_left]
  · exact hf
  · have := b.file
    rw [List.take_append_of_le_length hf] at this
    exact this
  · exact b.epoch

theorem ap_write (b : ApFile s h r c) (x : Bytes) :
    Okp (write h x) (fun n s' => .num n = (c.astep (.write x)).1 ∧ ApFile s' h r (c.astep (.write x)).2) s := by
  unfold write
  apply okp_get
  dsimp only
  rw [if_neg (by rw [b.notLarge]; simp)]
  apply okp_eqBind (checkOpen_ok b.isOpen)
  rw [if_neg (by rw [b.update]; simp)]
  unfold writeWrapper
  apply okp_hget
  dsimp only
  have fin : ∀ s2, ApRaw s2 h r (c.data ++ x) → Okp (do
      if (s.handles h).append then hmod h fun H => { H with readSeek := H.pos, readWhence := 0 }
      M.pure x.length)
      (fun n s' => .num n = (c.astep (.write x)).1 ∧ ApFile s' h r (c.astep (.write x)).2) s2 := by
    intro s2 b2
    rw [if_pos b.append]
    apply okp_hmodBind
    apply okp_pure
    refine ⟨rfl, ?_⟩
    refine ⟨by refine (isOpen_setH _ _ _ _ ?_).trans b2.isOpen; intro H; rfl, ?_, ?_, ?_, ?_, ?_, b2.notNull, ?_, ?_, ?_, ?_, ?_, ?_⟩ <;>
      rw [setH_same] <;> dsimp only [Cursor.astep]
    · exact b2.kind
    · exact b2.append
    · exact b2.update
    · exact b2.raw
    · exact b2.obj
    · exact b2.buf
    · exact b2.pos
    · exact b2.flushPos
    · exact b2.file
    · exact b2.epoch
    · rw [b2.pos]
      unfold Bio.seek; rw [if_neg (by omega)]
      simp
      omega
  unfold rawWrite
  apply okp_hmodBind
  have b1 := b.toRaw.write x
  have hfp : ((s.setH h fun H => { H with buf := Bio.write H.buf H.pos x, pos := H.pos + x.length }).handles h).flushPos ≤ c.data.length := by
    rw [setH_same]; exact b.flushPos
  rw [b.pos]
  by_cases hbig : ((c.data.length + x.length : Nat) : Int) - (s.handles h).flushPos > (s.handles h).bufferSize
  · rw [if_pos hbig]
    by_cases hfa : x.length > (s.handles h).bufferSize
    · simp only [decide_eq_true hfa, Bool.not_true, Bool.false_eq_true, if_false]
      apply okp_bind
      refine okp_mono (okp_tryFlush (apr_flush b1)) ?_
      intro _ s2 b2
      exact fin _ b2
    · simp only [decide_eq_false hfa, Bool.not_false, if_true]
      apply okp_hmodBind
      apply okp_bind
      refine okp_mono (okp_tryFlush (apr_flush (b1.unwrite hfp))) ?_
      intro _ s2 b2
      apply okp_hmodBind
      exact fin _ (b2.write x)
  · rw [if_neg hbig]
    exact fin _ b1

theorem ap_step (b : ApFile s h r c) (i : Io) (hs : ASafe i) :
    Okp (i.run h) (fun o s' => o = (c.astep i).1 ∧ ApFile s' h r (c.astep i).2 ∧
      (s'.handles h).deleteOnClose = (s.handles h).deleteOnClose) s := by
  have q : Fr Quiet (i.run h) := by
    cases i <;> exact fr_bind (by first | exact fq_read _ _ | exact fq_write _ _ | exact fq_seek _ _ _ | exact fq_tell _ | exact fq_hTruncate _ _ | exact fq_flush _) fun _ => fr_pure _
  suffices hh : Okp (i.run h) (fun o s' => o = (c.astep i).1 ∧ ApFile s' h r (c.astep i).2) s by
    constructor
    intro a s' e
    obtain ⟨h1, h2⟩ := hh.elim a s' e
    have q' := q s
    rw [e] at q'
    exact ⟨h1, h2, q'.del h⟩
  cases i with
  | read n => exact okp_seq _ (ap_read b n) fun _ _ h => okp_pure h
  | write x => exact okp_seq _ (ap_write b x) fun _ _ h => okp_pure h
  | seek off w => exact okp_seq _ (ap_seek b off w hs) fun _ _ h => okp_pure ⟨rfl, h⟩
  | tell => exact okp_seq _ (ap_tell b) fun _ _ h => okp_pure ⟨by rw [h.1]; rfl, h.2⟩
  | truncate z => exact absurd hs id
  | flush => exact okp_seq _ (ap_flush b) fun _ _ h => okp_pure ⟨rfl, h.1⟩

theorem ap_run : ∀ (is : List Io) {s : FS} {c : Cursor}, ApFile s h r c → (∀ i ∈ is, ASafe i) →
    Okp (ioRun h is) (fun os s' => os = (c.arun is).1 ∧ ApFile s' h r (c.arun is).2 ∧
      (s'.handles h).deleteOnClose = (s.handles h).deleteOnClose) s := by
  intro is
  induction is with
  | nil => intro s c b _; exact okp_pure ⟨rfl, b, rfl⟩
  | cons i is ih =>
    intro s c b hs
    refine okp_seq _ (ap_step b i (hs i (by simp))) ?_
    rintro o s1 ⟨h1, b1, h2⟩
    refine okp_seq _ (ih b1 fun j hj => hs j (by simp [hj])) ?_
    rintro os s2 ⟨h5, b2, h6⟩
    refine okp_pure ⟨?_, b2, h6.trans h2⟩
    rw [h1, h5]; rfl

/-- closing leaves the array in the file -/
theorem ap_close (b : ApFile s h r c) (hd : (s.handles h).deleteOnClose = false) :
    Okp (hClose h) (fun _ s' => (s'.heap r).content = .file (some c.data)) s := by
  unfold hClose
  apply okp_get
  dsimp only
  rw [b.kind]
  dsimp only
  rw [if_neg (by rw [b.isOpen]; simp)]
  have tail : ∀ s1 : FS, (s1.heap r).content = .file (some c.data) →
      Okp (do
        if (s.handles h).closefd then closeOpenFile (s.handles h).fd
        else M.modify fun s1 => { s1 with openFiles := s1.openFiles.modify (s.handles h).fd fun e => e.map fun l => l.erase h }
        if (s.handles h).deleteOnClose then do
          let s1 ← M.get
          removeObject (s1.objPath (s.handles h).obj)) (fun _ s' => (s'.heap r).content = .file (some c.data)) s1 := by
    intro s1 h1
    rw [hd]
    simp only [Bool.false_eq_true, if_false]
    apply okp_ite
    · intro _
      exact okp_modifyBind (okp_pure' h1)
    · intro _
      exact okp_modifyBind (okp_pure' h1)
  rw [if_pos ⟨b.update, b.raw⟩]
  apply okp_seq _ (ap_flush b)
  rintro _ s1 ⟨_, h1⟩
  apply okp_get
  apply okp_ite
  · intro _
    apply okp_modifyBind
    apply tail
    by_cases hr : r = (s.handles h).obj
    · subst hr
      exact (congrArg Obj.content (upd_same _ _ _)).trans h1
    · exact (congrArg Obj.content (upd_ne _ _ hr)).trans h1
  · intro _
    exact tail s1 h1
end

/-- C68: after `open(p, 'ab')` or `open(p, 'ab+')`, a sequence of `read`, `write`, `tell`, `flush` and absolute `seek` calls
on the file object that all succeed returns what the byte array returns in which writing always goes to the end, starting
with the read position at the end; and closing leaves exactly that array in the file. -/
theorem append_is_byteArray {s s1 s2 s3 : FS} (hr : Reachable s) {p : Str} {md : OpenModes} {bf : Option Nat} {h : Nat}
    (ho : openPath p md bf false false s = (.ok h, s1)) (ha : md.append = true) (hw : md.canWrite = true) {C : Bytes}
    (hn : (s1.handles h).obj ≠ devNullRef) (hC : (s1.heap (s1.handles h).obj).content = .file (some C))
    (is : List Io) (hs : ∀ i ∈ is, ASafe i) {os : List Out} (hrun : ioRun h is s1 = (.ok os, s2))
    (hcl : hClose h s2 = (.ok (), s3)) :
    os = (Cursor.arun ⟨C, C.length⟩ is).1 ∧ (s3.heap (s1.handles h).obj).content = .file (some (Cursor.arun ⟨C, C.length⟩ is).2.data) := by
  obtain ⟨s0, r, fd, hh, hheap, _, hop, _⟩ := openPath_ok hr ho
  have hobj : (s1.handles h).obj = r := by rw [hh]; rfl
  rw [hobj] at hn hC ⊢
  have hbc : s0.byteContents r = some C := byteContents_file hn (by rw [← hheap]; exact hC)
  have b : ApFile s1 h r ⟨C, C.length⟩ := by
    refine ⟨hop, ?_, ?_, ?_, ?_, hobj, hn, ?_, ?_, ?_, ?_, ?_, ?_⟩ <;> rw [hh] <;> dsimp only [mkHandle] <;>
      (try rw [hbc]) <;> (try rw [ha]) <;> (try rw [hw])
    · rfl
    · rfl
    · exact Nat.le_refl _
    · rw [Option.getD_some, List.take_length]; exact hC
    · rw [hheap]
    · unfold Bio.seek; simp
  have hdel : (s1.handles h).deleteOnClose = false := by rw [hh]; rfl
  obtain ⟨h1, b2, h2⟩ := (ap_run is b hs).elim _ _ hrun
  exact ⟨h1, (ap_close b2 (h2.trans hdel)).elim _ _ hcl⟩

/-- `/a/f` of the example, opened with `a+b` -/
def apFS : FS := (openPath ['/', 'a', '/', 'f'] apMode none false false demo).2

/-- the hypotheses of `append_is_byteArray` for `f.tell(); f.seek(0); f.read(1); f.write(b'\x07\x08'); f.tell(); f.seek(-3, 2);
f.read()` -/
example : (openPath ['/', 'a', '/', 'f'] apMode none false false demo).1 = .ok 3 ∧ (apFS.handles 3).obj = 3 ∧
    (apFS.heap 3).content = .file (some [104, 105]) ∧
    (∀ i ∈ ([.tell, .seek 0 0, .read (some 1), .write [7, 8], .tell, .seek (-3) 2, .read none] : List Io), ASafe i) ∧
    (ioRun 3 [.tell, .seek 0 0, .read (some 1), .write [7, 8], .tell, .seek (-3) 2, .read none] apFS).1 =
      .ok [.num 2, .none, .bytes [104], .num 2, .num 4, .none, .bytes [105, 7, 8]] ∧
    (hClose 3 (ioRun 3 [.tell, .seek 0 0, .read (some 1), .write [7, 8], .tell, .seek (-3) 2, .read none] apFS).2).1 = .ok () := by
  refine ⟨by decide +kernel, by decide +kernel, by decide +kernel, by decide +kernel, by decide +kernel, by decide +kernel⟩

/-- C68 does not hold for `seek` relative to the current position: after `f.seek(0)`, `f.seek(1, 1)` moves to one byte
behind the end of the file and not to its second byte. -/
theorem append_seek_relative_counterexample :
    (ioRun 3 [.seek 0 0, .seek 1 1, .tell] apFS).1 = .ok [.none, .none, .num 3] ∧
    (Cursor.arun ⟨[104, 105], 2⟩ [.seek 0 0, .seek 1 1, .tell]).1 = [.none, .none, .num 1] := by
  constructor <;> decide +kernel

/-- Nor for `truncate` after a `seek` relative to the end: the position moves with the end. -/
theorem append_truncate_counterexample :
    (ioRun 3 [.seek 0 2, .truncate (some 0), .tell] apFS).1 = .ok [.none, .num 0, .num 0] ∧
    (Cursor.arun ⟨[104, 105], 2⟩ [.seek 0 2, .truncate (some 0), .tell]).1 = [.none, .num 0, .num 2] := by
  constructor <;> decide +kernel

end Verif
