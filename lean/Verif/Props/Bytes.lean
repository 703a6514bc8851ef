import Verif.Okp
import Verif.Props.Modes
/-!
# C30: a binary file object is a byte array with a cursor
-/

namespace Verif
open Py Spec Cfg

namespace Spec

/-- A byte array with a cursor. -/
structure Cursor where
  data : Bytes
  pos : Nat

/-- The array after writing `b` at position `p`: byte by byte; gaps are filled with zeros. -/
def put (A : Bytes) (p : Nat) (b : Bytes) : Bytes :=
  if b = [] then A
  else (List.range (max A.length (p + b.length))).map fun i =>
    if p ≤ i ∧ i < p + b.length then b.getD (i - p) 0 else A.getD i 0

/-- Calls on a file object. -/
inductive Io
  | read (n : Option Nat)
  | write (b : Bytes)
  | seek (off : Int) (whence : Nat)
  | tell
  | truncate (n : Option Nat)
  | flush
  deriving DecidableEq

/-- Their results. -/
inductive Out
  | bytes (b : Bytes)
  | num (n : Int)
  | none
  deriving DecidableEq

/-- The meaning of a call on a byte array with a cursor. -/
def Cursor.step (c : Cursor) : Io → Out × Cursor
  | .read .none => (.bytes (c.data.drop c.pos), { c with pos := max c.pos c.data.length })
  | .read (some n) => (.bytes ((c.data.drop c.pos).take n), { c with pos := c.pos + min n (c.data.length - c.pos) })
  | .write b => (.num b.length, ⟨put c.data c.pos b, c.pos + b.length⟩)
  | .seek off w => (.none, { c with pos := ((if w = 0 then 0 else if w = 1 then c.pos else c.data.length : Int) + off).toNat })
  | .tell => (.num c.pos, c)
  | .truncate n => (.num (n.getD c.pos), { c with data := resized c.data (n.getD c.pos) })
  | .flush => (.none, c)

/-- the results of a sequence of calls and the array at the end -/
def Cursor.run (c : Cursor) : List Io → List Out × Cursor
  | [] => ([], c)
  | i :: is => ((c.step i).1 :: ((c.step i).2.run is).1, ((c.step i).2.run is).2)

/-- The calls for which pyfakefs behaves like the array, for the buffer size `n`: a write must reach the end of the
array, or be larger than the buffer, or end within the first `n` bytes; truncating may enlarge only up to the
cursor. -/
def Cursor.Safe (n : Nat) (c : Cursor) : Io → Prop
  | .write b => c.data.length ≤ c.pos + b.length ∨ n < b.length ∨ c.pos + b.length ≤ n
  | .truncate z => z.getD c.pos ≤ c.data.length ∨ z.getD c.pos = c.pos
  | _ => True

/-- every call of the sequence is safe when it is made -/
def Cursor.AllSafe (n : Nat) (c : Cursor) : List Io → Prop
  | [] => True
  | i :: is => c.Safe n i ∧ (c.step i).2.AllSafe n is

end Spec

/-- The calls on the handle `h`. -/
def Spec.Io.run (h : Nat) : Io → M Out
  | .read n => Verif.read h n >>= fun b => M.pure (.bytes b)
  | .write b => Verif.write h b >>= fun n => M.pure (.num n)
  | .seek off w => Verif.seek h off w >>= fun _ => M.pure .none
  | .tell => Verif.tell h >>= fun n => M.pure (.num n)
  | .truncate n => Verif.hTruncate h n >>= fun n => M.pure (.num n)
  | .flush => Verif.flush h >>= fun _ => M.pure .none

/-- a sequence of calls on the handle `h` -/
def ioRun (h : Nat) : List Io → M (List Out)
  | [] => M.pure []
  | i :: is => i.run h >>= fun o => ioRun h is >>= fun os => M.pure (o :: os)

/-! ## the stream -/

theorem bioWrite_put (A : Bytes) (p : Nat) (b : Bytes) : Bio.write A p b = put A p b := by
  unfold Bio.write put
  by_cases hb : b = []
  · rw [if_pos hb, if_pos hb]
  rw [if_neg hb, if_neg hb]
  have hlt : (List.take p (A ++ List.replicate (p - A.length) 0)).length = p := by
    simp; omega
  apply List.ext_getElem
  · simp only [List.length_append, hlt, List.length_drop, List.length_map, List.length_range]; omega
  · intro i h1 h2
    simp only [List.getElem_map, List.getElem_range]
    by_cases hi : i < p
    · rw [List.getElem_append_left (by simp only [List.length_append, hlt]; omega), List.getElem_append_left (by rw [hlt]; exact hi), if_neg (by omega)]
      rw [List.getElem_take]
      by_cases hA : i < A.length
      · rw [List.getElem_append_left hA, List.getD_eq_getElem?_getD, List.getElem?_eq_getElem hA]; rfl
      · rw [List.getElem_append_right (by omega), List.getElem_replicate, List.getD_eq_getElem?_getD, List.getElem?_eq_none (by omega)]; rfl
    · by_cases hb2 : i < p + b.length
      · rw [if_pos ⟨by omega, hb2⟩]
        rw [List.getElem_append_left (by simp only [List.length_append, hlt]; exact hb2)]
        rw [List.getElem_append_right (by rw [hlt]; omega)]
        rw [List.getD_eq_getElem?_getD, List.getElem?_eq_getElem (by omega)]
        simp only [hlt, Option.getD_some]
      · rw [if_neg (by omega)]
        rw [List.getElem_append_right (by simp only [List.length_append, hlt]; omega)]
        rw [List.getElem_drop, List.getD_eq_getElem?_getD]
        have : i < A.length := by
          simp only [List.length_map, List.length_range] at h2; omega
        rw [List.getElem?_eq_getElem this]
        simp only [Option.getD_some, List.length_append, hlt]
        congr 1; omega

/-- The handle `h` on the file `r`, opened without append mode, stands for the array `c`; `e`: the last change of the
file is known to the handle. -/
structure ByteRaw ri (s : FS) (h : Nat) (r : Ref) (c : Cursor) : Prop where
  isOpen : s.isOpen h = true
  kind : (s.handles h).kind = .file
  append : (s.handles h).append = false
  /-- whether it is a raw handle (of `os.open`, or used by `os.read` and `os.write`) -/
  raw : (s.handles h).rawIo = ri
  rawOk : ri = true → s.cfg.isWin = false
  obj : (s.handles h).obj = r
  notNull : r ≠ devNullRef
  buf : (s.handles h).buf = c.data
  pos : (s.handles h).pos = c.pos
  file : ∃ C, (s.heap r).content = .file (some C) ∧ ((s.handles h).update = false → C = c.data)

structure ByteFile ri (s : FS) (h : Nat) (r : Ref) (c : Cursor) : Prop extends ByteRaw ri s h r c where
  epoch : (s.handles h).fileEpoch = (s.heap r).epoch

section
variable {ri : Bool} {s : FS} {h : Nat} {r : Ref} {c : Cursor}

theorem ByteRaw.setH (b : ByteRaw ri s h r c) {f : Handle → Handle} {c' : Cursor} (hf : (f (s.handles h)).fd = (s.handles h).fd ∧
    (f (s.handles h)).kind = (s.handles h).kind ∧ (f (s.handles h)).append = (s.handles h).append ∧
    (f (s.handles h)).rawIo = (s.handles h).rawIo ∧ (f (s.handles h)).obj = (s.handles h).obj ∧
    (f (s.handles h)).update = (s.handles h).update)
    (hb : (f (s.handles h)).buf = c'.data) (hp : (f (s.handles h)).pos = c'.pos)
    (hu : (s.handles h).update = false → c'.data = c.data) : ByteRaw ri (s.setH h f) h r c' := by
  obtain ⟨h1, h2, h3, h4, h5, h6⟩ := hf
  have e := setH_same s h f
  refine ⟨?_, ?_, ?_, ?_, b.rawOk, ?_, b.notNull, ?_, ?_, ?_⟩
  · have := b.isOpen
    unfold FS.isOpen at this ⊢
    rw [e, h1]; exact this
  · rw [e, h2]; exact b.kind
  · rw [e, h3]; exact b.append
  · rw [e, h4]; exact b.raw
  · rw [e, h5]; exact b.obj
  · rw [e, hb]
  · rw [e, hp]
  · obtain ⟨C, h7, h8⟩ := b.file
    refine ⟨C, h7, fun hh => ?_⟩
    rw [e, h6] at hh
    rw [hu hh]; exact h8 hh

/-- flushing stores the array -/
theorem okp_flush (b : ByteRaw ri s h r c) (hu : (s.handles h).update = true) :
    Okp (flush h) (fun _ s' => ByteFile ri s' h r c ∧ (s'.heap r).content = .file (some c.data) ∧
      (s'.handles h).update = true ∧ (s'.handles h).flushPos = c.pos ∧ (s'.handles h).bufferSize = (s.handles h).bufferSize) s := by
  obtain ⟨C, hC, -⟩ := b.file
  apply okp_wp
  apply wp_mono (flush_spec b.isOpen hu b.append b.notNull b.obj hC)
  rintro res s' (⟨rfl, _⟩ | ⟨rfl, hf, hh⟩) a ha
  · simp at ha
  · rw [b.buf] at hf
    have hcfg : s'.cfg = s.cfg := by rw [hf.env]
    refine ⟨⟨⟨?_, ?_, ?_, ?_, by rw [hcfg]; exact b.rawOk, ?_, b.notNull, ?_, ?_, c.data, hf.content, fun _ => rfl⟩, ?_⟩, hf.content, ?_, ?_, ?_⟩
    · rw [hf.isOpen (by rw [hh])]; exact b.isOpen
    · rw [hh]; exact b.kind
    · rw [hh]; exact b.append
    · rw [hh]; exact b.raw
    · rw [hh]; exact b.obj
    · rw [hh]; exact b.buf
    · rw [hh]; exact b.pos
    · rw [hh]
    · rw [hh]; exact hu
    · rw [hh]; exact b.pos
    · rw [hh]

theorem okp_flush' (b : ByteFile ri s h r c) : Okp (flush h) (fun _ s' => ByteFile ri s' h r c) s := by
  by_cases hu : (s.handles h).update = true
  · exact okp_mono (okp_flush b.toByteRaw hu) fun _ _ h => h.1
  · rw [Bool.not_eq_true] at hu
    constructor
    intro a s' e
    rw [flush_readonly b.isOpen hu] at e
    injection e with e1 e2; subst e2; exact b

theorem checkOpen_ok (ho : s.isOpen h = true) : checkOpen h s = (.ok (), s) := by unfold checkOpen; rw [if_pos ho]

theorem okp_seek (b : ByteFile ri s h r c) (off : Int) (w : Nat) :
    Okp (seek h off w) (fun _ s' => ByteFile ri s' h r (c.step (.seek off w)).2) s := by
  unfold seek
  apply okp_eqBind (checkOpen_ok b.isOpen)
  apply okp_hget
  rw [if_neg (by rw [b.append]; simp)]
  have step : ∀ p, ByteFile ri (s.setH h fun H => { H with pos := p }) h r { c with pos := p } := fun p =>
    ⟨b.toByteRaw.setH ⟨rfl, rfl, rfl, rfl, rfl, rfl⟩ b.buf rfl (fun _ => rfl), by rw [setH_same]; exact b.epoch⟩
  rw [b.buf, b.pos]
  have fin : ∀ p, p = ((if w = 0 then 0 else if w = 1 then c.pos else c.data.length : Int) + off).toNat →
      Okp (hmod h (fun H => { H with pos := p }) >>= fun _ => flush h) (fun _ s' => ByteFile ri s' h r (c.step (.seek off w)).2) s := by
    rintro p rfl
    apply okp_hmodBind
    exact okp_flush' (step _)
  unfold Bio.seek
  match w with
  | 0 =>
    dsimp only
    by_cases ho : off < 0
    · rw [if_pos ho]; exact okp_bind (okp_throw _)
    · rw [if_neg ho]; exact fin _ (by simp)
  | 1 => exact fin _ (by simp)
  | 2 => exact fin _ (by simp)
  | n + 3 => exact okp_bind (okp_throw _)

theorem okp_tell (b : ByteFile ri s h r c) : Okp (tell h) (fun n s' => n = c.pos ∧ ByteFile ri s' h r c) s := by
  unfold tell
  apply okp_eqBind (checkOpen_ok b.isOpen)
  apply okp_seq _ (okp_flush' b)
  intro _ s1 b1
  apply okp_hget
  rw [if_pos b1.append]
  apply okp_pure
  exact ⟨by rw [b1.pos], b1⟩

theorem ByteFile.atime (b : ByteFile ri s h r c) (r' : Ref) (t : FS → Obj → Int) :
    ByteFile ri (s.setObj r' fun o => { o with atime := t s o }) h r c := by
  have e : ((s.setObj r' fun o => { o with atime := t s o }).heap r).content = (s.heap r).content ∧
      ((s.setObj r' fun o => { o with atime := t s o }).heap r).epoch = (s.heap r).epoch := by
    by_cases hr : r = r'
    · subst hr
      have : (s.setObj r fun o => { o with atime := t s o }).heap r = { s.heap r with atime := t s (s.heap r) } := upd_same _ _ _
      rw [this]; exact ⟨rfl, rfl⟩
    · have : (s.setObj r' fun o => { o with atime := t s o }).heap r = s.heap r := upd_ne _ _ hr
      rw [this]; exact ⟨rfl, rfl⟩
  refine ⟨⟨b.isOpen, b.kind, b.append, b.raw, b.rawOk, b.obj, b.notNull, b.buf, b.pos, ?_⟩, ?_⟩
  · rw [e.1]; exact b.file
  · rw [e.2]; exact b.epoch

theorem ByteFile.notLarge (b : ByteFile ri s h r c) : s.isLarge (s.handles h).obj = false := by
  obtain ⟨C, hC, -⟩ := b.file
  unfold FS.isLarge
  rw [b.obj, hC]

theorem okp_hRaise {α : Type} {Q : α → FS → Prop} : Okp (hRaise h : M α) Q s := by
  unfold hRaise
  apply okp_hget
  exact okp_ite (fun _ => okp_raise _) (fun _ => okp_throw _)

theorem okp_read (b : ByteFile ri s h r c) (n : Option Nat) :
    Okp (read h n) (fun a s' => .bytes a = (c.step (.read n)).1 ∧ ByteFile ri s' h r (c.step (.read n)).2) s := by
  unfold read
  apply okp_get
  dsimp only
  rw [if_neg (by rw [b.notLarge]; simp)]
  apply okp_eqBind (checkOpen_ok b.isOpen)
  by_cases hrd : (s.handles h).read = false
  · rw [if_pos hrd]
    refine okp_ite (fun hh => ?_) fun _ => okp_hRaise
    rw [b.rawOk (b.raw.symm.trans hh.2.2)] at hh; simp at hh
  rw [if_neg hrd]
  obtain ⟨C, hC, -⟩ := b.file
  have hsync : syncIo h s = (.ok (), s) := by
    rw [syncIo_eq b.obj b.notNull hC, setH_self]
    unfold Handle.synced
    rw [if_pos b.epoch]
  apply okp_eqBind hsync
  apply okp_seq _ (okp_flush' b)
  intro _ s1 b1
  have fin : ∀ s2, ByteFile ri s2 h r c → Okp (do
      let H ← hget h
      if H.append then
        match Bio.seek H.buf H.pos H.readSeek H.readWhence with
        | none => M.throw .valueError
        | some p => do
          let r := Bio.read H.buf p n
          hmod h fun H => { H with readSeek := (p + r.length : Nat), readWhence := 0, pos := H.buf.length }
          M.pure r
      else do
        let r := Bio.read H.buf H.pos n
        hmod h fun H => { H with pos := H.pos + r.length }
        M.pure r)
      (fun a s' => .bytes a = (c.step (.read n)).1 ∧ ByteFile ri s' h r (c.step (.read n)).2) s2 := by
    intro s2 b2
    apply okp_hget
    rw [if_neg (by rw [b2.append]; simp)]
    dsimp only
    apply okp_hmodBind
    apply okp_pure
    rw [b2.buf, b2.pos]
    cases n with
    | none =>
      refine ⟨rfl, b2.toByteRaw.setH ⟨rfl, rfl, rfl, rfl, rfl, rfl⟩ b2.buf ?_ (fun _ => rfl), ?_⟩
      · dsimp only [Bio.read, Cursor.step]
        rw [b2.pos, List.length_drop]; omega
      · rw [setH_same]; exact b2.epoch
    | some n =>
      refine ⟨rfl, b2.toByteRaw.setH ⟨rfl, rfl, rfl, rfl, rfl, rfl⟩ b2.buf ?_ (fun _ => rfl), ?_⟩
      · dsimp only [Bio.read, Cursor.step]
        rw [b2.pos, List.length_take, List.length_drop]
      · rw [setH_same]; exact b2.epoch
  apply okp_ite
  · intro _
    apply okp_modifyBind
    apply fin
    exact b1.atime _ fun s _ => s.clock
  · intro _
    exact fin _ b1

theorem put_take {A b : Bytes} {p : Nat} (hl : A.length ≤ p + b.length) : put ((put A p b).take p) p b = put A p b := by
  by_cases hb : b = []
  · subst hb
    have : ∀ X p, put X p [] = X := fun X p => if_pos rfl
    rw [this, this]
    apply List.take_of_length_le
    simpa using hl
  · apply List.ext_getElem
    · unfold put
      rw [if_neg hb, if_neg hb]
      simp only [List.length_map, List.length_range, List.length_take]
      omega
    · intro i h1 h2
      have hlen : i < max A.length (p + b.length) := by
        unfold put at h2
        rw [if_neg hb] at h2
        simpa using h2
      unfold put at *
      simp only [if_neg hb, List.getElem_map, List.getElem_range]
      by_cases hi : p ≤ i ∧ i < p + b.length
      · rw [if_pos hi, if_pos hi]
      · rw [if_neg hi, if_neg hi]
        have hip : i < p := by omega
        rw [List.getD_eq_getElem?_getD, List.getElem?_take_of_lt hip, List.getElem?_map, List.getElem?_range (by omega)]
        simp only [Option.map_some, Option.getD_some]
        rw [if_neg hi]

theorem okp_rawWrite (b : ByteFile ri s h r c) (hu : (s.handles h).update = true) (x : Bytes) :
    Okp (rawWrite h x) (fun _ s' => ByteFile ri s' h r ⟨put c.data c.pos x, c.pos + x.length⟩ ∧ (s'.handles h).update = true ∧
      s'.handles h = { s.handles h with buf := put c.data c.pos x, pos := c.pos + x.length }) s := by
  unfold rawWrite
  apply okp_modify
  refine ⟨⟨b.toByteRaw.setH ⟨rfl, rfl, rfl, rfl, rfl, rfl⟩ ?_ ?_ ?_, ?_⟩, ?_, ?_⟩
  · rw [b.buf, b.pos, bioWrite_put]
  · rw [b.pos]
  · rw [hu]; simp
  · rw [setH_same]; exact b.epoch
  · rw [setH_same]; exact hu
  · rw [setH_same, b.buf, b.pos, bioWrite_put]

theorem okp_write (b : ByteFile ri s h r c) (x : Bytes) (hs : c.Safe (s.handles h).bufferSize (.write x) ∨ (s.handles h).flushPos = c.pos) :
    Okp (write h x) (fun n s' => .num n = (c.step (.write x)).1 ∧ ByteFile ri s' h r (c.step (.write x)).2) s := by
  unfold write
  apply okp_get
  dsimp only
  rw [if_neg (by rw [b.notLarge]; simp)]
  apply okp_eqBind (checkOpen_ok b.isOpen)
  by_cases hu : (s.handles h).update = false
  · rw [if_pos hu]
    refine okp_ite (fun hh => ?_) fun _ => okp_hRaise
    rw [b.rawOk (b.raw.symm.trans hh.1)] at hh; simp at hh
  rw [if_neg hu]
  rw [Bool.not_eq_false] at hu
  unfold writeWrapper
  apply okp_hget
  apply okp_seq _ (okp_rawWrite b hu x)
  rintro _ s1 ⟨b1, hu1, hh1⟩
  have ha : (s.handles h).append = false := b.append
  rw [ha]
  simp only [Bool.false_eq_true, if_false]
  have last : ∀ s2, ByteFile ri s2 h r ⟨put c.data c.pos x, c.pos + x.length⟩ →
      Okp (M.pure x.length) (fun n s' => Out.num n = (c.step (.write x)).1 ∧ ByteFile ri s' h r (c.step (.write x)).2) s2 :=
    fun s2 b2 => okp_pure ⟨rfl, b2⟩
  have flushIt : ∀ {s2 c'}, ByteFile ri s2 h r c' → (s2.handles h).update = true → ∀ o, Okp (tryFlush h o) (fun _ s' => ByteFile ri s' h r c' ∧ (s'.handles h).update = true) s2 := by
    intro s2 c' b2 hu2 o
    unfold tryFlush
    apply okp_hget
    apply okp_catch
    · exact okp_mono (okp_flush b2.toByteRaw hu2) fun _ _ h => ⟨h.1, h.2.2.1⟩
    · intro e s'
      exact okp_bind ⟨fun _ s'' _ => okp_throw _⟩
  apply okp_ite
  · intro hov
    rw [b.pos] at hov
    by_cases hall : x.length > (s.handles h).bufferSize
    · rw [decide_eq_true hall]
      simp only [Bool.not_true, Bool.false_eq_true, if_false]
      apply okp_seq _ (flushIt b1 hu1 _)
      rintro _ s2 ⟨b2, hu2⟩
      exact last s2 b2
    · rw [decide_eq_false hall]
      simp only [Bool.not_false, if_true]
      have hend : c.data.length ≤ c.pos + x.length := by
        rcases hs with (hs | hs | hs) | hs
        · exact hs
        · exact absurd hs hall
        · omega
        · rw [hs] at hov; omega
      apply okp_hmodBind
      have b2 : ByteFile ri (s1.setH h fun H => { H with buf := H.buf.take (s.handles h).pos, pos := (s.handles h).pos }) h r
          ⟨(put c.data c.pos x).take c.pos, c.pos⟩ := by
        refine ⟨b1.toByteRaw.setH ⟨rfl, rfl, rfl, rfl, rfl, rfl⟩ ?_ b.pos ?_, ?_⟩
        · dsimp only; rw [b1.buf, b.pos]
        · rw [hu1]; simp
        · rw [setH_same]; exact b1.epoch
      apply okp_seq _ (flushIt b2 (by rw [setH_same]; exact hu1) _)
      rintro _ s3 ⟨b3, hu3⟩
      apply okp_seq _ (okp_rawWrite b3 hu3 x)
      rintro _ s4 ⟨b4, _, _⟩
      dsimp only at b4
      rw [put_take hend] at b4
      exact last s4 b4
  · intro _
    exact last s1 b1

theorem withContents_handles (s : FS) (r : Ref) (b : Bytes) : (s.withContents r b).handles = s.handles := rfl

theorem adaptSize_own (h n : Nat) (s : FS) : ∃ hs, (adaptSize h n s) = (.ok (), { s with handles := hs }) ∧ hs h = s.handles h := by
  have key : ∀ (l : List Nat) (s : FS), ∃ hs, l.foldl (fun s' g =>
      if g ≠ h ∧ (s'.handles g).kind = .file ∧ (s'.handles g).obj = (s'.handles h).obj ∧ (s'.handles g).append then
        s'.setH g fun G => { G with readSeek := G.readSeek + n }
      else s') s = { s with handles := hs } ∧ hs h = s.handles h := by
    intro l
    induction l with
    | nil => intro s; exact ⟨s.handles, rfl, rfl⟩
    | cons g l ih =>
      intro s
      rw [List.foldl_cons]
      by_cases hg : g ≠ h ∧ (s.handles g).kind = .file ∧ (s.handles g).obj = (s.handles h).obj ∧ (s.handles g).append
      · rw [if_pos hg]
        obtain ⟨hs, e1, e2⟩ := ih (s.setH g fun G => { G with readSeek := G.readSeek + n })
        refine ⟨hs, by rw [e1]; rfl, ?_⟩
        rw [e2, setH_ne _ _ (Ne.symm hg.1)]
      · rw [if_neg hg]; exact ih s
  obtain ⟨hs, e1, e2⟩ := key s.openHandles s
  exact ⟨hs, by unfold adaptSize M.modify; dsimp only; rw [e1], e2⟩

theorem okp_truncate (b : ByteFile ri s h r c) (z : Option Nat) (hs : c.Safe (s.handles h).bufferSize (.truncate z)) :
    Okp (hTruncate h z) (fun n s' => .num n = (c.step (.truncate z)).1 ∧ ByteFile ri s' h r (c.step (.truncate z)).2) s := by
  unfold hTruncate
  apply okp_get
  dsimp only
  rw [if_neg (by rw [b.notLarge]; simp)]
  apply okp_eqBind (checkOpen_ok b.isOpen)
  by_cases hu : (s.handles h).update = false
  · rw [if_pos hu]
    exact okp_ite (fun hh => okp_throw _) fun _ => okp_hRaise
  rw [if_neg hu]
  rw [Bool.not_eq_false] at hu
  unfold truncateWrapper
  apply okp_hget
  have ha : (s.handles h).append = false := b.append
  rw [ha]
  simp only [Bool.false_eq_true, if_false]
  apply okp_hget
  rw [b.pos]
  set n := z.getD c.pos with hn
  apply okp_hmodBind
  have b1 : ByteRaw ri (s.setH h fun H => { H with buf := H.buf.take n }) h r ⟨c.data.take n, c.pos⟩ :=
    b.toByteRaw.setH ⟨rfl, rfl, rfl, rfl, rfl, rfl⟩ (by dsimp only; rw [b.buf]) b.pos (by rw [hu]; simp)
  apply okp_seq _ (okp_flush b1 (by rw [setH_same]; exact hu))
  rintro _ s2 ⟨b2, hc2, hu2, -, -⟩
  rw [b.obj]
  apply okp_bind
  constructor
  intro _ s3 e3
  rw [setSize_eq hc2] at e3
  split at e3
  swap
  · injection e3 with e3 _; exact absurd e3 (by simp)
  injection e3 with _ e3
  obtain ⟨C3, hC3⟩ : ∃ C3, (s3.heap r).content = .file (some C3) := by
    rw [← e3]
    exact ⟨_, congrArg Obj.content (upd_same _ _ _)⟩
  have hs3 : s3.handles = s2.handles ∧ s3.openFiles = s2.openFiles := by rw [← e3]; exact ⟨rfl, rfl⟩
  have hcfg3 : s3.cfg = s2.cfg := by rw [← e3]; rfl
  have raw : ∀ (s4 : FS) (c' : Cursor), s4.cfg = s2.cfg → s4.openFiles = s2.openFiles → (∃ C, (s4.heap r).content = .file (some C)) →
      (s4.handles h).fd = (s2.handles h).fd → (s4.handles h).kind = (s2.handles h).kind → (s4.handles h).append = (s2.handles h).append →
      (s4.handles h).rawIo = (s2.handles h).rawIo → (s4.handles h).obj = (s2.handles h).obj → (s4.handles h).update = (s2.handles h).update →
      (s4.handles h).buf = c'.data → (s4.handles h).pos = c'.pos → ByteRaw ri s4 h r c' := by
    intro s4 c' h0 h1 h2 h3 h4 h5 h6 h7 h8 h9 h10
    obtain ⟨C, hC⟩ := h2
    refine ⟨?_, h4.trans b2.kind, h5.trans b2.append, h6.trans b2.raw, by rw [h0]; exact b2.rawOk, h7.trans b2.obj, b2.notNull, h9, h10, C, hC, fun hh => ?_⟩
    · have := b2.isOpen
      unfold FS.isOpen at this ⊢
      rw [h1, h3]; exact this
    · rw [h8, hu2] at hh; simp at hh
  have last : ∀ (s4 : FS), ByteRaw ri s4 h r { c with data := resized c.data n } → (s4.handles h).update = true →
      Okp (flush h >>= fun _ => M.pure n) (fun m s' => Out.num m = (c.step (.truncate z)).1 ∧ ByteFile ri s' h r (c.step (.truncate z)).2) s4 := by
    intro s4 b4 hu4
    apply okp_seq _ (okp_flush b4 hu4)
    rintro _ s5 ⟨b5, -⟩
    exact okp_pure ⟨by simp only [Cursor.step]; rw [← hn], b5⟩
  apply okp_hget
  rw [hs3.1, b2.buf]
  dsimp only
  apply okp_ite
  · intro hlt
    rw [List.length_take] at hlt
    have hpos : n = c.pos := by
      rcases hs with hs | hs
      · rw [← hn] at hs; omega
      · exact hs
    have hdn : c.data.take n = c.data := List.take_of_length_le (by omega)
    rw [hdn]
    apply okp_hmodBind
    apply okp_bind
    constructor
    intro ch s5 e5
    have hC4 : ((s3.setH h fun H => { H with buf := c.data ++ List.replicate (n - c.data.length) 0, pos := n }).heap r).content = .file (some C3) := hC3
    rw [b2.obj, setContents_eq hC4 b2.notNull] at e5
    split at e5
    swap
    · injection e5 with e5 _; exact absurd e5 (by simp)
    injection e5 with _ e5
    apply okp_hmodBind
    apply okp_bind
    constructor
    intro _ s7 e7
    obtain ⟨hs7, e7', e8⟩ := adaptSize_own h (n - c.data.length) (s5.setH h fun H => { H with flushPos := n })
    rw [e7'] at e7
    injection e7 with _ e7
    have hh5 : s5.handles h = { s2.handles h with buf := c.data ++ List.replicate (n - c.data.length) 0, pos := n } := by
      rw [← e5, withContents_handles, setH_same, hs3.1]
    have hh7 : s7.handles h = { s2.handles h with buf := c.data ++ List.replicate (n - c.data.length) 0, pos := n, flushPos := n } := by
      rw [← e7]
      show hs7 h = _
      rw [e8, setH_same, hh5]
    apply last
    · apply raw s7
      · rw [← e7, ← e5]; exact hcfg3
      · rw [← e7, ← e5]; exact hs3.2
      · rw [← e7, ← e5]
        exact ⟨_, congrArg Obj.content (upd_same _ _ _)⟩
      all_goals rw [hh7]
      · unfold resized; rw [hdn]
      · exact hpos
    · rw [hh7]; exact hu2
  · intro hge
    rw [List.length_take] at hge
    apply last
    · refine raw s3 _ hcfg3 hs3.2 ⟨C3, hC3⟩ ?_ ?_ ?_ ?_ ?_ ?_ ?_ ?_ <;> rw [hs3.1]
      · rw [b2.buf]
        unfold resized
        have : n - c.data.length = 0 := by omega
        simp [this]
      · rw [b2.pos]
    · rw [hs3.1]; exact hu2
/-- C30, one call: if the call succeeds, its result is that of the byte array, and so is the state it leaves. -/
theorem io_step (b : ByteFile ri s h r c) (i : Io) (hs : c.Safe (s.handles h).bufferSize i) :
    Okp (i.run h) (fun o s' => o = (c.step i).1 ∧ ByteFile ri s' h r (c.step i).2 ∧
      (s'.handles h).bufferSize = (s.handles h).bufferSize ∧ (s'.handles h).deleteOnClose = (s.handles h).deleteOnClose ∧
      (s'.handles h).update = (s.handles h).update) s := by
  have q : Fr Quiet (i.run h) := by
    cases i <;> exact fr_bind (by first | exact fq_read _ _ | exact fq_write _ _ | exact fq_seek _ _ _ | exact fq_tell _ | exact fq_hTruncate _ _ | exact fq_flush _) fun _ => fr_pure _
  suffices hh : Okp (i.run h) (fun o s' => o = (c.step i).1 ∧ ByteFile ri s' h r (c.step i).2) s by
    constructor
    intro a s' e
    obtain ⟨h1, h2⟩ := hh.elim a s' e
    have q' := q s
    rw [e] at q'
    exact ⟨h1, h2, q'.bufSz h, q'.del h, q'.update h⟩
  cases i with
  | read n => exact okp_seq _ (okp_read b n) fun _ _ h => okp_pure h
  | write x => exact okp_seq _ (okp_write b x (Or.inl hs)) fun _ _ h => okp_pure h
  | seek off w => exact okp_seq _ (okp_seek b off w) fun _ _ h => okp_pure ⟨rfl, h⟩
  | tell => exact okp_seq _ (okp_tell b) fun _ _ h => okp_pure ⟨by rw [h.1]; rfl, h.2⟩
  | truncate z => exact okp_seq _ (okp_truncate b z hs) fun _ _ h => okp_pure h
  | flush => exact okp_seq _ (okp_flush' b) fun _ _ h => okp_pure ⟨rfl, h⟩

/-- C30: a sequence of calls that all succeed returns what the byte array returns. -/
theorem io_bytes : ∀ (is : List Io) {s : FS} {c : Cursor}, ByteFile ri s h r c → c.AllSafe (s.handles h).bufferSize is →
    Okp (ioRun h is) (fun os s' => os = (c.run is).1 ∧ ByteFile ri s' h r (c.run is).2 ∧
      (s'.handles h).deleteOnClose = (s.handles h).deleteOnClose ∧ (s'.handles h).update = (s.handles h).update) s := by
  intro is
  induction is with
  | nil => intro s c b _; exact okp_pure ⟨rfl, b, rfl, rfl⟩
  | cons i is ih =>
    intro s c b hs
    refine okp_seq _ (io_step b i hs.1) ?_
    rintro o s1 ⟨h1, b1, h2, h3, h4⟩
    have := ih b1 (by rw [h2]; exact hs.2)
    refine okp_seq _ this ?_
    rintro os s2 ⟨h5, b2, h6, h7⟩
    refine okp_pure ⟨?_, b2, h6.trans h3, h7.trans h4⟩
    rw [h1, h5]; rfl

/-- closing leaves the array in the file -/
theorem okp_close (b : ByteFile false s h r c) (hd : (s.handles h).deleteOnClose = false) :
    Okp (hClose h) (fun _ s' => (s'.heap r).content = .file (some c.data)) s := by
  obtain ⟨C, hC, hCu⟩ := b.file
  unfold hClose
  apply okp_get
  dsimp only
  rw [b.kind]
  dsimp only
  rw [if_neg (by rw [b.isOpen]; simp)]
  have tail : ∀ s1 : FS, (s1.heap r).content = .file (some c.data) →
      Okp (do
        if (s.handles h).closefd then closeOpenFile (s.handles h).fd
        else M.modify fun s1 => { s1 with openFiles := s1.openFiles.modify (s.handles h).fd fun e => e.map fun l => l.erase h }
        if (s.handles h).deleteOnClose then do
          let s1 ← M.get
          removeObject (s1.objPath (s.handles h).obj)) (fun _ s' => (s'.heap r).content = .file (some c.data)) s1 := by
    intro s1 h1
    rw [hd]
    simp only [Bool.false_eq_true, if_false]
    apply okp_ite
    · intro _
      exact okp_modifyBind (okp_pure' h1)
    · intro _
      exact okp_modifyBind (okp_pure' h1)
  apply okp_ite
  · rintro ⟨hu, _⟩
    apply okp_seq _ (okp_flush b.toByteRaw hu)
    rintro _ s1 ⟨_, h1, _⟩
    apply okp_get
    apply okp_ite
    · intro _
      apply okp_modifyBind
      apply tail
      by_cases hr : r = (s.handles h).obj
      · subst hr
        exact (congrArg Obj.content (upd_same _ _ _)).trans h1
      · exact (congrArg Obj.content (upd_ne _ _ hr)).trans h1
    · intro _
      exact tail s1 h1
  · intro hn
    apply tail
    rw [b.raw] at hn
    simp only [and_true] at hn
    rw [hC, hCu (by simpa using hn)]
end

/-- After `open` without append mode, the file object is a byte array with the cursor at the beginning. -/
theorem byteFile_opened {s s1 : FS} (hr : Reachable s) {p : Str} {md : OpenModes} {bf : Option Nat} {h : Nat}
    (ho : openPath p md bf false false s = (.ok h, s1)) (ha : md.append = false) {C : Bytes}
    (hn : (s1.handles h).obj ≠ devNullRef) (hC : (s1.heap (s1.handles h).obj).content = .file (some C)) :
    ByteFile false s1 h (s1.handles h).obj ⟨C, 0⟩ ∧ (s1.handles h).bufferSize = bf.getD 8192 ∧ (s1.handles h).deleteOnClose = false := by
  rcases hf : s.fileArg p with e | ⟨a, q⟩
  · exfalso
    unfold openPath at ho
    rw [M.bind_eq] at ho
    have : rd (fun s => s.fileArg p) s = (.error e, s) := by unfold rd; rw [← hf]; rfl
    rw [this] at ho
    injection ho with ho _; exact absurd ho (by simp)
  · rcases hoo : openObject a p q md s with ⟨res, s0⟩
    cases res with
    | error e =>
      rw [openPath_failed bf false false hf hoo] at ho
      injection ho with ho _; exact absurd ho (by simp)
    | ok r =>
      have hq : Quiet s s0 := by have := fq_openObject a p q md s; rw [hoo] at this; exact this
      by_cases hd : (s0.heap r).isDir = false
      · obtain ⟨fd, s', e, hop, _, hh, hs'⟩ := openPath_after ((reachable_fdInv hr).quiet hq) bf false false hf hoo hd
        rw [ho] at e
        injection e with e1 e2
        injection e1 with e1
        subst e1 e2
        have hobj : (s1.handles s0.hnext).obj = r := by rw [hh]; rfl
        rw [hobj] at hn hC ⊢
        have hheap : s1.heap = s0.heap := by rw [hs']
        have hbc : s0.byteContents r = some C := byteContents_file hn (by rw [← hheap]; exact hC)
        refine ⟨⟨⟨?_, ?_, ?_, ?_, by simp, hobj, hn, ?_, ?_, C, hC, fun _ => rfl⟩, ?_⟩, ?_, ?_⟩
        · rw [isOpen_iff, hop.hfd]; exact ⟨_, hop.slot.here, by simp⟩
        · rw [hh]; rfl
        · rw [hh]; exact ha
        · rw [hh]; rfl
        · rw [hh]; show (s0.byteContents r).getD [] = C; rw [hbc]; rfl
        · rw [hh]; show (if md.canWrite && md.append then _ else 0) = 0; rw [ha]; simp
        · rw [hh, hheap]; rfl
        · rw [hh]; rfl
        · rw [hh]; rfl
      · exfalso
        rw [Bool.not_eq_false] at hd
        unfold openPath at ho
        rw [M.bind_eq, rd_eq (f := fun s => s.fileArg p) hf] at ho
        dsimp only at ho
        rw [M.bind_eq, hoo] at ho
        dsimp only at ho
        rw [M.bind_eq] at ho
        dsimp only [M.get] at ho
        rw [if_pos hd] at ho
        injection ho with ho _; exact absurd ho (by simp)

/-- C30: after `open` without append mode, a sequence of calls on the file object that all succeed returns what a byte
array with a cursor returns, and closing leaves exactly that array in the file. -/
theorem file_is_byteArray {s s1 s2 s3 : FS} (hr : Reachable s) {p : Str} {md : OpenModes} {bf : Option Nat} {h : Nat}
    (ho : openPath p md bf false false s = (.ok h, s1)) (ha : md.append = false) {C : Bytes}
    (hn : (s1.handles h).obj ≠ devNullRef) (hC : (s1.heap (s1.handles h).obj).content = .file (some C))
    (is : List Io) (hs : Cursor.AllSafe (bf.getD 8192) ⟨C, 0⟩ is) {os : List Out} (hrun : ioRun h is s1 = (.ok os, s2))
    (hcl : hClose h s2 = (.ok (), s3)) :
    os = (Cursor.run ⟨C, 0⟩ is).1 ∧ (s3.heap (s1.handles h).obj).content = .file (some (Cursor.run ⟨C, 0⟩ is).2.data) := by
  obtain ⟨b, hbs, hdel⟩ := byteFile_opened hr ho ha hn hC
  obtain ⟨h1, b2, h2, _⟩ := (io_bytes is b (by rw [hbs]; exact hs)).elim _ _ hrun
  exact ⟨h1, (okp_close b2 (h2.trans hdel)).elim _ _ hcl⟩

/-- the modes of `open(p, 'r+b')` -/
def rpMode : OpenModes := ⟨true, true, true, false, false, false⟩

/-- `/a/f` of the example, opened with `r+b` -/
def rpFS : FS := (openPath ['/', 'a', '/', 'f'] rpMode none false false demo).2

/-- the hypotheses of `file_is_byteArray` for `f.read(1); f.write(b'\x07\x08'); f.seek(0); f.read(); f.truncate(2); f.tell()` -/
example : (openPath ['/', 'a', '/', 'f'] rpMode none false false demo).1 = .ok 3 ∧ (rpFS.handles 3).obj = 3 ∧
    (rpFS.heap 3).content = .file (some [104, 105]) ∧
    Cursor.AllSafe 8192 ⟨[104, 105], 0⟩ [.read (some 1), .write [7, 8], .seek 0 0, .read none, .truncate (some 2), .tell] ∧
    (ioRun 3 [.read (some 1), .write [7, 8], .seek 0 0, .read none, .truncate (some 2), .tell] rpFS).1 =
      .ok [.bytes [104], .num 2, .none, .bytes [104, 7, 8], .num 2, .num 3] ∧
    (hClose 3 (ioRun 3 [.read (some 1), .write [7, 8], .seek 0 0, .read none, .truncate (some 2), .tell] rpFS).2).1 = .ok () := by
  refine ⟨by decide +kernel, by decide +kernel, by decide +kernel, ?_, by decide +kernel, by decide +kernel⟩
  simp [Cursor.AllSafe, Cursor.Safe, Cursor.step, put, List.range, List.range.loop]

/-- C30 does not hold for writes in the middle of a file larger than the buffer: the example file holds six bytes and is
opened with `buffering=2`; `f.read(3); f.write(b'\x09'); f.close()` cuts off the last two bytes. -/
def sixFS : FS := runs [.createFile ['/', 's'] (S_IFREG ||| 0o666) (some [1, 2, 3, 4, 5, 6]) none true false] demo

theorem buffered_overwrite_counterexample :
    let s1 := (openPath ['/', 's'] rpMode (some 2) false false sixFS).2
    let c := ioRun 3 [.read (some 3), .write [9]] s1
    Reachable sixFS ∧ (openPath ['/', 's'] rpMode (some 2) false false sixFS).1 = .ok 3 ∧ (s1.handles 3).obj = 6 ∧
    (s1.heap 6).content = .file (some [1, 2, 3, 4, 5, 6]) ∧
    c.1 = .ok [.bytes [1, 2, 3], .num 1] ∧ (hClose 3 c.2).1 = .ok () ∧
    (Cursor.run ⟨[1, 2, 3, 4, 5, 6], 0⟩ [.read (some 3), .write [9]]).2.data = [1, 2, 3, 9, 5, 6] ∧
    ((hClose 3 c.2).2.heap 6).content = .file (some [1, 2, 3, 9]) := by
  refine ⟨reachable_runs demo_reachable _, ?_, ?_, ?_, ?_, ?_, ?_, ?_⟩ <;> decide +kernel

/-- C30 does not hold for enlarging by `truncate`: the cursor moves to the new end. -/
theorem truncate_cursor_counterexample :
    (ioRun 3 [.truncate (some 5), .tell] rpFS).1 = .ok [.num 5, .num 5] ∧
    (Cursor.run ⟨[104, 105], 0⟩ [.truncate (some 5), .tell]).1 = [.num 5, .num 0] := by
  constructor <;> decide +kernel

end Verif
