import Verif.Lines
import Verif.Props.AppendRead
import Verif.Props.Descr
/-!
# C70: lines
-/

namespace Verif
open Py Spec Cfg

namespace Spec

/-- `ls` are the lines of the bytes `b`: put together they are `b`; none is empty; each but the last ends with a newline, and a
newline occurs nowhere else. -/
structure LinesOf (b : Bytes) (ls : List Bytes) : Prop where
  all : ls.flatten = b
  each : ∀ l ∈ ls, l ≠ [] ∧ 10 ∉ l.dropLast
  ends : ∀ l ∈ ls.dropLast, l.getLast? = some 10

/-- `l` is the first line of `b`: the beginning of `b` up to and including its first newline, all of `b` if there is none. -/
def FirstLine (b l : Bytes) : Prop := (10 ∉ b ∧ l = b) ∨ ∃ u v, b = u ++ 10 :: v ∧ 10 ∉ u ∧ l = u ++ [10]

/-- Calls on a file object, with those that deal with lines. -/
inductive LineIo
  | io (i : Io)
  | readline (n : Option Nat)
  | readlines
  | readinto (n : Nat)
  | next
  | writelines (bs : List Bytes)

/-- Their results. -/
inductive LineOut
  | out (o : Out)
  | line (b : Bytes)
  | lines (bs : List Bytes)
  | item (b : Option Bytes)
  | none
  deriving DecidableEq

/-- What a call may return on a byte array with a cursor, and the array after it. -/
def Cursor.lstep (c : Cursor) : LineIo → LineOut → Cursor → Prop
  | .io i, o, c' => o = .out (c.step i).1 ∧ c' = (c.step i).2
  | .readline n, o, c' => ∃ l, FirstLine (c.data.drop c.pos) l ∧ o = .line (match n with | .none => l | some n => l.take n) ∧
      c' = { c with pos := c.pos + (match n with | .none => l | some n => l.take n).length }
  | .readlines, o, c' => ∃ ls, LinesOf (c.data.drop c.pos) ls ∧ o = .lines ls ∧ c' = { c with pos := max c.pos c.data.length }
  | .readinto n, o, c' => o = .line ((c.data.drop c.pos).take n) ∧ c' = { c with pos := c.pos + min n (c.data.length - c.pos) }
  | .next, o, c' => ∃ l, FirstLine (c.data.drop c.pos) l ∧ o = .item (if l = [] then .none else some l) ∧
      c' = { c with pos := c.pos + l.length }
  | .writelines bs, o, c' => o = .none ∧ c' = (c.step (.write bs.flatten)).2

/-- the safe calls (as in C30) -/
def Cursor.LSafe (n : Nat) (c : Cursor) : LineIo → Prop
  | .io i => c.Safe n i
  | .writelines bs => c.Safe n (.write bs.flatten)
  | _ => True

/-- A run of calls on a byte array that starts with `c` and ends with `c'`. -/
inductive LRun : Cursor → List LineIo → List LineOut → Cursor → Prop
  | nil (c : Cursor) : LRun c [] [] c
  | cons {c c1 c2 : Cursor} {i : LineIo} {o : LineOut} {is : List LineIo} {os : List LineOut} :
      c.lstep i o c1 → LRun c1 is os c2 → LRun c (i :: is) (o :: os) c2

/-- every call of the sequence is safe when it is made -/
def Cursor.AllLSafe (n : Nat) : Cursor → List LineIo → Prop
  | _, [] => True
  | c, i :: is => c.LSafe n i ∧ ∀ o c1, c.lstep i o c1 → c1.AllLSafe n is

end Spec

/-! ## lines of a byte string -/

theorem line_first : ∀ b : Bytes, FirstLine b (Bio.line b)
  | [] => Or.inl ⟨by simp, rfl⟩
  | c :: cs => by
    unfold Bio.line
    by_cases hc : c = 10
    · rw [if_pos hc]; exact Or.inr ⟨[], cs, by rw [hc]; rfl, by simp, by rw [hc]; rfl⟩
    · rw [if_neg hc]
      rcases line_first cs with ⟨h1, h2⟩ | ⟨u, v, h1, h2, h3⟩
      · exact Or.inl ⟨by simp [h1]; exact fun h => hc h.symm, by rw [h2]⟩
      · exact Or.inr ⟨c :: u, v, by rw [h1]; rfl, by simp [h2]; exact fun h => hc h.symm, by rw [h3]; rfl⟩

/-- There is only one first line. -/
theorem firstLine_unique {b l l' : Bytes} (h : FirstLine b l) (h' : FirstLine b l') : l = l' := by
  have key : ∀ u v u' v' : Bytes, u ++ 10 :: v = u' ++ 10 :: v' → 10 ∉ u → 10 ∉ u' → u = u' := by
    intro u
    induction u with
    | nil =>
      intro v u' v' e _ h2
      cases u' with
      | nil => rfl
      | cons a u' => injection e with e _; rw [e] at h2; simp at h2
    | cons a u ih =>
      intro v u' v' e h1 h2
      cases u' with
      | nil => injection e with e _; rw [e] at h1; simp at h1
      | cons a' u' =>
        injection e with e1 e2
        rw [e1, ih v u' v' e2 (fun h => h1 (by simp [h])) (fun h => h2 (by simp [h]))]
  rcases h with ⟨h1, h2⟩ | ⟨u, v, h1, h2, h3⟩ <;> rcases h' with ⟨h1', h2'⟩ | ⟨u', v', h1', h2', h3'⟩
  · rw [h2, h2']
  · rw [h1'] at h1; simp at h1
  · rw [h1] at h1'; simp at h1'
  · rw [h3, h3', key u v u' v' (h1.symm.trans h1') h2 h2']

theorem line_take (b : Bytes) : b = Bio.line b ++ b.drop (Bio.line b).length := by
  rcases line_first b with ⟨_, h2⟩ | ⟨u, v, h1, _, h3⟩
  · rw [h2, List.drop_length, List.append_nil]
  · have hd : b.drop (Bio.line b).length = v := by
      rw [h3]
      conv => lhs; rw [h1]
      have : u ++ 10 :: v = (u ++ [10]) ++ v := by simp
      rw [this, List.drop_left]
    rw [hd, h3, h1]; simp

theorem line_nil {b : Bytes} (h : Bio.line b = []) : b = [] := by
  cases b with
  | nil => rfl
  | cons c cs => unfold Bio.line at h; split at h <;> cases h

theorem lines_of : ∀ (k : Nat) (b : Bytes), b.length ≤ k → LinesOf b (Bio.lines k b)
  | 0, b, h => by
    have : b = [] := List.length_eq_zero_iff.mp (by omega)
    subst this
    exact ⟨rfl, by simp [Bio.lines], by simp [Bio.lines]⟩
  | k + 1, b, h => by
    unfold Bio.lines
    by_cases hb : b = []
    · rw [if_pos hb, hb]; exact ⟨rfl, by simp, by simp⟩
    rw [if_neg hb]
    have hl : Bio.line b ≠ [] := fun e => hb (line_nil e)
    have hpos : 0 < (Bio.line b).length := List.length_pos_of_ne_nil hl
    have hlen : 0 < b.length := List.length_pos_of_ne_nil hb
    have ih := lines_of k (b.drop (Bio.line b).length) (by rw [List.length_drop]; omega)
    refine ⟨?_, ?_, ?_⟩
    · rw [List.flatten_cons, ih.all, ← line_take]
    · intro l hm
      rcases List.mem_cons.mp hm with rfl | hm
      · refine ⟨hl, ?_⟩
        rcases line_first b with ⟨h1, h2⟩ | ⟨u, v, h1, h2, h3⟩
        · rw [h2]; exact fun hx => h1 (List.mem_of_mem_dropLast hx)
        · rw [h3, List.dropLast_concat]; exact h2
      · exact ih.each l hm
    · intro l hm
      cases hls : Bio.lines k (b.drop (Bio.line b).length) with
      | nil => rw [hls] at hm; simp at hm
      | cons x xs =>
        rw [hls, List.dropLast_cons_of_ne_nil (by simp)] at hm
        rcases List.mem_cons.mp hm with rfl | hm
        · rcases line_first b with ⟨h1, h2⟩ | ⟨u, v, h1, h2, h3⟩
          · exfalso
            rw [h2, List.drop_length] at hls
            have := (lines_of k ([] : Bytes) (by simp)).all
            rw [hls] at this
            have hx := (lines_of k ([] : Bytes) (by simp)).each x (by rw [hls]; simp)
            simp at this
            exact hx.1 this.1
          · rw [h3]; simp
        · exact ih.ends l (by rw [hls]; exact hm)

/-- There is only one way to divide bytes into lines. -/
theorem linesOf_unique : ∀ {ls ls' : List Bytes} {b : Bytes}, LinesOf b ls → LinesOf b ls' → ls = ls' := by
  have tail : ∀ {x : Bytes} {xs : List Bytes} {b : Bytes}, LinesOf b (x :: xs) → FirstLine b x ∧ LinesOf xs.flatten xs := by
    intro x xs b h
    obtain ⟨hx1, hx2⟩ := h.each x (by simp)
    refine ⟨?_, rfl, fun l hl => h.each l (by simp [hl]), fun l hl => ?_⟩
    · cases xs with
      | nil =>
        have hb := h.all
        simp at hb
        subst hb
        by_cases hn : (10 : UInt8) ∈ x
        · right
          refine ⟨x.dropLast, [], ?_, hx2, ?_⟩
          all_goals
            have e := List.dropLast_append_getLast hx1
            have hg : x.getLast hx1 = 10 := by
              rw [← e] at hn
              simp only [List.mem_append, List.mem_singleton] at hn
              rcases hn with hn | hn
              · exact absurd hn hx2
              · exact hn.symm
            rw [hg] at e
            exact e.symm
        · exact Or.inl ⟨hn, rfl⟩
      | cons y ys =>
        right
        have hend := h.ends x (by rw [List.dropLast_cons_of_ne_nil (by simp)]; simp)
        have e := List.dropLast_append_getLast hx1
        have hg : x.getLast hx1 = 10 := by rw [List.getLast?_eq_getLast_of_ne_nil hx1] at hend; exact Option.some.inj hend
        rw [hg] at e
        refine ⟨x.dropLast, (y :: ys).flatten, ?_, hx2, e.symm⟩
        rw [← h.all, List.flatten_cons]
        conv => lhs; rw [← e]
        simp
    · cases xs with
      | nil => simp at hl
      | cons y ys =>
        exact h.ends l (by rw [List.dropLast_cons_of_ne_nil (by simp)]; simp [hl])
  intro ls
  induction ls with
  | nil =>
    intro ls' b h h'
    cases ls' with
    | nil => rfl
    | cons y ys =>
      have e := h'.all
      rw [← h.all] at e
      simp at e
      exact absurd e.1 (h'.each y (by simp)).1
  | cons x xs ih =>
    intro ls' b h h'
    cases ls' with
    | nil =>
      have e := h.all
      rw [← h'.all] at e
      simp at e
      exact absurd e.1 (h.each x (by simp)).1
    | cons y ys =>
      obtain ⟨f1, t1⟩ := tail h
      obtain ⟨f2, t2⟩ := tail h'
      have exy := firstLine_unique f1 f2
      subst exy
      have ef : xs.flatten = ys.flatten := by
        have e := h.all.trans h'.all.symm
        rw [List.flatten_cons, List.flatten_cons] at e
        exact List.append_cancel_left e
      rw [ef] at t1
      rw [ih t1 t2]

/-! ## the calls -/

/-- The calls on the handle `h`. -/
def Spec.LineIo.run (h : Nat) : LineIo → M LineOut
  | .io i => i.run h >>= fun o => M.pure (.out o)
  | .readline n => Verif.readline h n >>= fun b => M.pure (.line b)
  | .readlines => Verif.readlines h >>= fun bs => M.pure (.lines bs)
  | .readinto n => Verif.readinto h n >>= fun b => M.pure (.line b)
  | .next => nextLine h >>= fun b => M.pure (.item b)
  | .writelines bs => Verif.writelines h bs >>= fun _ => M.pure .none

/-- a sequence of calls on the handle `h` -/
def lioRun (h : Nat) : List LineIo → M (List LineOut)
  | [] => M.pure []
  | i :: is => i.run h >>= fun o => lioRun h is >>= fun os => M.pure (o :: os)

section
variable {ri : Bool} {s : FS} {h : Nat} {r : Ref} {c : Cursor}

theorem okp_readWith {α : Type} (b : ByteFile ri s h r c) (z : Option α) (f : Bytes → Nat → α × Nat) :
    Okp (readWith h z f) (fun a s' => a = (f c.data c.pos).1 ∧ ByteFile ri s' h r { c with pos := (f c.data c.pos).2 }) s := by
  unfold readWith
  apply okp_get
  dsimp only
  rw [if_neg (by rw [b.notLarge]; simp)]
  apply okp_eqBind (checkOpen_ok b.isOpen)
  by_cases hrd : (s.handles h).read = false
  · rw [if_pos hrd]
    cases z with
    | none => exact okp_hRaise
    | some a =>
      refine okp_ite (fun hh => ?_) fun _ => okp_hRaise
      rw [b.rawOk (b.raw.symm.trans hh.2)] at hh; simp at hh
  rw [if_neg hrd]
  obtain ⟨C, hC, -⟩ := b.file
  have hsync : syncIo h s = (.ok (), s) := by
    rw [syncIo_eq b.obj b.notNull hC, setH_self]
    unfold Handle.synced
    rw [if_pos b.epoch]
  apply okp_eqBind hsync
  apply okp_seq _ (okp_flush' b)
  intro _ s1 b1
  have fin : ∀ s2, ByteFile ri s2 h r c → Okp (do
      let H ← hget h
      if H.append then
        match Bio.seek H.buf H.pos H.readSeek H.readWhence with
        | none => M.throw .valueError
        | some p => do
          let r := f H.buf p
          hmod h fun H => { H with readSeek := (r.2 : Nat), readWhence := 0, pos := H.buf.length }
          M.pure r.1
      else do
        let r := f H.buf H.pos
        hmod h fun H => { H with pos := r.2 }
        M.pure r.1)
      (fun a s' => a = (f c.data c.pos).1 ∧ ByteFile ri s' h r { c with pos := (f c.data c.pos).2 }) s2 := by
    intro s2 b2
    apply okp_hget
    rw [if_neg (by rw [b2.append]; simp)]
    dsimp only
    apply okp_hmodBind
    apply okp_pure
    rw [b2.buf, b2.pos]
    exact ⟨rfl, b2.toByteRaw.setH ⟨rfl, rfl, rfl, rfl, rfl, rfl⟩ b2.buf rfl (fun _ => rfl), by rw [setH_same]; exact b2.epoch⟩
  apply okp_ite
  · intro _
    apply okp_modifyBind
    apply fin
    exact b1.atime _ fun s _ => s.clock
  · intro _
    exact fin _ b1

theorem okp_nextLine (b : ByteFile ri s h r c) :
    Okp (nextLine h) (fun a s' => a = (if Bio.line (c.data.drop c.pos) = [] then none else some (Bio.line (c.data.drop c.pos))) ∧
      ByteFile ri s' h r { c with pos := c.pos + (Bio.line (c.data.drop c.pos)).length }) s := by
  unfold nextLine
  apply okp_hget
  apply okp_ite
  · intro _; exact okp_hRaise
  intro _
  dsimp only
  apply okp_hmodBind
  apply okp_pure
  rw [b.buf, b.pos]
  exact ⟨rfl, b.toByteRaw.setH ⟨rfl, rfl, rfl, rfl, rfl, rfl⟩ b.buf (by dsimp only; rw [b.pos]) (fun _ => rfl), by rw [setH_same]; exact b.epoch⟩

end

/-! ## `writelines` is `write` of everything -/

theorem bio_write_append (buf : Bytes) (p : Nat) (a b : Bytes) : Bio.write (Bio.write buf p a) (p + a.length) b = Bio.write buf p (a ++ b) := by
  by_cases ha : a = []
  · subst ha; simp [Bio.write]
  by_cases hb : b = []
  · subst hb; simp [Bio.write]
  have hab : a ++ b ≠ [] := by simp [ha]
  unfold Bio.write
  rw [if_neg ha, if_neg hb, if_neg hab]
  set P := (buf ++ List.replicate (p - buf.length) 0).take p with hP
  have hPl : P.length = p := by rw [hP]; simp; omega
  have h1 : (P ++ a).length = p + a.length := by rw [List.length_append, hPl]
  have h2 : p + a.length - (P ++ a ++ buf.drop (p + a.length)).length = 0 := by rw [List.length_append, h1]; omega
  rw [h2, List.replicate_zero, List.append_nil, ← h1, List.take_left, h1]
  have h3 : List.drop (p + a.length + b.length) (P ++ a ++ List.drop (p + a.length) buf) = buf.drop (p + (a ++ b).length) := by
    rw [List.drop_append, List.drop_of_length_le (by rw [h1]; omega), List.nil_append, h1, List.drop_drop, List.length_append]
    congr 1; omega
  rw [h3]
  simp only [List.append_assoc]

theorem setH_setH (s : FS) (h : Nat) (f g : Handle → Handle) : (s.setH h f).setH h g = s.setH h fun H => g (f H) := by
  unfold FS.setH
  have : upd (upd s.handles h (f (s.handles h))) h (g (upd s.handles h (f (s.handles h)) h)) = upd s.handles h (g (f (s.handles h))) := by
    funext x
    by_cases hx : x = h
    · subst hx; rw [upd_same, upd_same, upd_same]
    · rw [upd_ne _ _ hx, upd_ne _ _ hx, upd_ne _ _ hx]
  show ({ s with handles := _ } : FS) = _
  rw [this]

theorem rawWriteAll_eq (h : Nat) : ∀ (bs : List Bytes) (s : FS), rawWriteAll h bs s = rawWrite h bs.flatten s
  | [], s => by
    unfold rawWriteAll rawWrite hmod M.modify M.pure
    dsimp only
    rw [setH_self]
    simp [Bio.write]
  | b :: bs, s => by
    unfold rawWriteAll
    rw [M.bind_eq]
    show (rawWriteAll h bs (s.setH h fun H => { H with buf := Bio.write H.buf H.pos b, pos := H.pos + b.length })) = _
    rw [rawWriteAll_eq h bs]
    unfold rawWrite hmod M.modify
    dsimp only
    rw [setH_setH]
    dsimp only
    have : (fun H : Handle => { H with buf := Bio.write (Bio.write H.buf H.pos b) (H.pos + b.length) bs.flatten, pos := H.pos + b.length + bs.flatten.length }) =
        fun H : Handle => { H with buf := Bio.write H.buf H.pos (b :: bs).flatten, pos := H.pos + (b :: bs).flatten.length } := by
      funext H
      rw [bio_write_append, List.flatten_cons, List.length_append, Nat.add_assoc]
    rw [this]

/-- C70: `f.writelines(bs)` has exactly the effect of writing all of `bs` at once, and fails in the same way. (Only the raw
Windows handle differs: it accepts `[]`, and `write(b'')`.) -/
theorem writelines_write (h : Nat) (bs : List Bytes) (s : FS) (hw : s.cfg.isWin = false ∨ (s.handles h).rawIo = false) :
    writelines h bs s = (write h bs.flatten >>= fun _ => M.pure ()) s := by
  have hfun : rawWriteAll h bs = rawWrite h bs.flatten := funext (rawWriteAll_eq h bs)
  unfold writelines write
  rw [hfun, M.bindAssoc]
  rw [M.bind_eq, M.bind_eq]
  dsimp only [M.get]
  by_cases hl : s.isLarge (s.handles h).obj = true
  · rw [if_pos hl, if_pos hl]; rfl
  rw [if_neg hl, if_neg hl]
  simp only [M.bindAssoc, M.pureBind]
  rw [M.bind_eq, M.bind_eq]
  rcases hc : checkOpen h s with ⟨_ | u, s1⟩
  · rfl
  have hs1 : s1 = s := by
    unfold checkOpen at hc; split at hc <;> (injection hc with _ hc; exact hc.symm)
  subst hs1
  dsimp only
  by_cases hu : (s1.handles h).update = false
  · rw [if_pos hu, if_pos hu, if_neg (by rcases hw with hw | hw <;> rw [hw] <;> simp), if_neg (by rcases hw with hw | hw <;> rw [hw] <;> simp), M.bind_eq]
    unfold hRaise
    rw [M.bind_eq, M.bind_eq]
    dsimp only [hget]
    split <;> rfl
  rw [if_neg hu, if_neg hu]
  unfold writeWrapper
  rw [M.bindAssoc, M.bind_eq, M.bind_eq]
  dsimp only [hget]
  rw [M.bindAssoc, M.bind_eq, M.bind_eq]
  have e : rawWrite h bs.flatten s1 = (.ok (), s1.setH h fun H => { H with buf := Bio.write H.buf H.pos bs.flatten, pos := H.pos + bs.flatten.length }) := rfl
  rw [e]
  dsimp only
  rw [M.bind_eq]
  have e2 : ((s1.setH h fun H => { H with buf := Bio.write H.buf H.pos bs.flatten, pos := H.pos + bs.flatten.length }).handles h).pos =
      (s1.handles h).pos + bs.flatten.length := by rw [setH_same]
  dsimp only [hget]
  rw [e2]
  have e3 : (((s1.handles h).pos + bs.flatten.length : Nat) : Int) - ((s1.handles h).pos : Nat) > (s1.handles h).bufferSize ↔
      bs.flatten.length > (s1.handles h).bufferSize := by omega
  simp only [e3]
  by_cases hbig : (((s1.handles h).pos + bs.flatten.length : Nat) : Int) - (s1.handles h).flushPos > (s1.handles h).bufferSize
  · simp only [if_pos hbig]
    cases hd : decide (bs.flatten.length > (s1.handles h).bufferSize) <;>
    · simp only [M.bindAssoc, M.iteBind, M.pureBind]
      rfl
  · simp only [if_neg hbig, M.bindAssoc, M.iteBind, M.pureBind]
    rfl

/-! ## sequences of calls -/

section
variable {ri : Bool} {s : FS} {h : Nat} {r : Ref} {c : Cursor}

theorem fq_readWith {α : Type} (h : Nat) (z : Option α) (f : Bytes → Nat → α × Nat) : Fr Quiet (readWith h z f) := by
  have h1 := fq_checkOpen h
  have h2 := fq_flush h
  have h3 := fq_syncIo h
  have h4 : Fr Quiet (hRaise h : M α) := fq_hRaise h
  have h5 : ∀ H : Handle, Fr Quiet (M.modify fun s => s.setObj H.obj fun o => { o with atime := s.clock }) :=
    fun H s => TreeRel.tree s _ s.next s.lastIno s.mounts s.lastDev
  unfold readWith
  fq <;> exact h5 _


theorem fq_nextLine (h : Nat) : Fr Quiet (nextLine h) := by
  have h4 : Fr Quiet (hRaise h : M (Option Bytes)) := fq_hRaise h
  unfold nextLine
  fq

/-- what is kept besides the contents -/
structure Kept (s s' : FS) (h : Nat) : Prop where
  bufSz : (s'.handles h).bufferSize = (s.handles h).bufferSize
  del : (s'.handles h).deleteOnClose = (s.handles h).deleteOnClose

theorem okp_quiet (h : Nat) {α : Type} {m : M α} {Q : α → FS → Prop} (hq : Fr Quiet m) (hm : Okp m Q s) :
    Okp m (fun a s' => Q a s' ∧ Kept s s' h) s := by
  constructor
  intro a s' e
  have q' := hq s
  rw [e] at q'
  exact ⟨hm.elim a s' e, q'.bufSz h, q'.del h⟩

theorem lio_step (b : ByteFile false s h r c) (i : LineIo) (hs : c.LSafe (s.handles h).bufferSize i) :
    Okp (i.run h) (fun o s' => (∃ c', c.lstep i o c' ∧ ByteFile false s' h r c') ∧ Kept s s' h) s := by
  cases i with
  | io i =>
    refine okp_seq _ (io_step b i hs) ?_
    rintro o s1 ⟨h1, b1, h2, h3, _⟩
    exact okp_pure ⟨⟨_, ⟨by rw [h1], rfl⟩, b1⟩, h2, h3⟩
  | readline n =>
    refine okp_seq _ (okp_quiet h (fq_readWith _ _ _) (okp_readWith b _ _)) ?_
    rintro o s1 ⟨⟨h1, b1⟩, k⟩
    refine okp_pure ⟨⟨_, ⟨_, line_first _, ?_, rfl⟩, ?_⟩, k⟩
    · rw [h1]; cases n <;> rfl
    · cases n <;> exact b1
  | readlines =>
    refine okp_seq _ (okp_quiet h (fq_readWith _ _ _) (okp_readWith b _ _)) ?_
    rintro o s1 ⟨⟨h1, b1⟩, k⟩
    refine okp_pure ⟨⟨_, ⟨_, lines_of _ _ (Nat.le_refl _), by rw [h1], rfl⟩, ?_⟩, k⟩
    have : max c.pos c.data.length = c.pos + (c.data.drop c.pos).length := by rw [List.length_drop]; omega
    rw [this]; exact b1
  | readinto n =>
    refine okp_seq _ (okp_quiet h (fq_readWith _ _ _) (okp_readWith b _ _)) ?_
    rintro o s1 ⟨⟨h1, b1⟩, k⟩
    refine okp_pure ⟨⟨_, ⟨by rw [h1], rfl⟩, ?_⟩, k⟩
    have : min n (c.data.length - c.pos) = ((c.data.drop c.pos).take n).length := by rw [List.length_take, List.length_drop]
    rw [this]; exact b1
  | next =>
    refine okp_seq _ (okp_quiet h (fq_nextLine _) (okp_nextLine b)) ?_
    rintro o s1 ⟨⟨h1, b1⟩, k⟩
    exact okp_pure ⟨⟨_, ⟨_, line_first _, by rw [h1], rfl⟩, b1⟩, k⟩
  | writelines bs =>
    have hw : Okp (Verif.writelines h bs) (fun _ s' => ByteFile false s' h r (c.step (.write bs.flatten)).2 ∧ Kept s s' h) s := by
      constructor
      intro a s' e
      rw [writelines_write h bs s (Or.inr b.raw)] at e
      have hh : Okp (write h bs.flatten >>= fun _ => M.pure ()) (fun _ s' => ByteFile false s' h r (c.step (.write bs.flatten)).2 ∧ Kept s s' h) s :=
        okp_seq _ (okp_quiet h (fq_write _ _) (okp_write b bs.flatten (Or.inl hs))) fun _ _ hh => okp_pure ⟨hh.1.2, hh.2⟩
      exact hh.elim a s' e
    refine okp_seq _ hw ?_
    rintro _ s1 ⟨b1, k⟩
    exact okp_pure ⟨⟨_, ⟨rfl, rfl⟩, b1⟩, k⟩

theorem lio_run : ∀ (is : List LineIo) {s : FS} {c : Cursor}, ByteFile false s h r c → c.AllLSafe (s.handles h).bufferSize is →
    Okp (lioRun h is) (fun os s' => (∃ c', LRun c is os c' ∧ ByteFile false s' h r c') ∧ Kept s s' h) s := by
  intro is
  induction is with
  | nil => intro s c b _; exact okp_pure ⟨⟨c, .nil c, b⟩, rfl, rfl⟩
  | cons i is ih =>
    intro s c b hs
    refine okp_seq _ (lio_step b i hs.1) ?_
    rintro o s1 ⟨⟨c1, h1, b1⟩, k⟩
    refine okp_seq _ (ih b1 (by rw [k.bufSz]; exact hs.2 o c1 h1)) ?_
    rintro os s2 ⟨⟨c2, h2, b2⟩, k2⟩
    exact okp_pure ⟨⟨c2, .cons h1 h2, b2⟩, k2.bufSz.trans k.bufSz, k2.del.trans k.del⟩

end

/-- C70: after `open` without append mode, a sequence of calls on the file object that all succeed, among them `readline`,
`readlines`, `readinto`, iteration and `writelines`, returns what a byte array with a cursor and the notion of a line allow, and
closing leaves exactly that array in the file. -/
theorem file_lines {s s1 s2 s3 : FS} (hr : Reachable s) {p : Str} {md : OpenModes} {bf : Option Nat} {h : Nat}
    (ho : openPath p md bf false false s = (.ok h, s1)) (ha : md.append = false) {C : Bytes}
    (hn : (s1.handles h).obj ≠ devNullRef) (hC : (s1.heap (s1.handles h).obj).content = .file (some C))
    (is : List LineIo) (hs : Cursor.AllLSafe (bf.getD 8192) ⟨C, 0⟩ is) {os : List LineOut} (hrun : lioRun h is s1 = (.ok os, s2))
    (hcl : hClose h s2 = (.ok (), s3)) :
    ∃ c', LRun ⟨C, 0⟩ is os c' ∧ (s3.heap (s1.handles h).obj).content = .file (some c'.data) := by
  obtain ⟨b, hbs, hdel⟩ := byteFile_opened hr ho ha hn hC
  obtain ⟨⟨c', h1, b2⟩, k⟩ := (lio_run is b (by rw [hbs]; exact hs)).elim _ _ hrun
  exact ⟨c', h1, (okp_close b2 (k.del.trans hdel)).elim _ _ hcl⟩

/-- calls on the example file, which holds `hi` -/
def demoLines : List LineIo :=
  [.readline none, .writelines [[33, 10], [65, 66, 10, 67]], .io (.seek 0 0), .next, .readline (some 2), .readlines, .next,
    .io (.seek 1 0), .readlines, .io (.seek 0 0), .readinto 3, .io .tell]

/-- the hypotheses of `file_lines` -/
example : (openPath ['/', 'a', '/', 'f'] rpMode none false false demo).1 = .ok 3 ∧ (rpFS.handles 3).obj = 3 ∧
    (rpFS.heap 3).content = .file (some [104, 105]) ∧ Cursor.AllLSafe 8192 ⟨[104, 105], 0⟩ demoLines ∧
    (lioRun 3 demoLines rpFS).1 =
      .ok [.line [104, 105], .none, .out .none, .item (some [104, 105, 33, 10]), .line [65, 66], .lines [[10], [67]], .item none,
        .out .none, .lines [[105, 33, 10], [65, 66, 10], [67]], .out .none, .line [104, 105, 33], .out (.num 3)] ∧
    (hClose 3 (lioRun 3 demoLines rpFS).2).1 = .ok () := by
  refine ⟨by decide +kernel, by decide +kernel, by decide +kernel, ?_, by decide +kernel, by decide +kernel⟩
  refine ⟨trivial, fun o c1 h1 => ⟨?_, fun o2 c2 _ => ?_⟩⟩
  · obtain ⟨l, -, -, rfl⟩ := h1
    exact Or.inl (by simp)
  · simp [Cursor.AllLSafe, Cursor.LSafe, Cursor.Safe]

/-- C70 does not hold for append mode: the iterator of the file object uses the stream's own position, which is the end, so that
after `f.seek(0)` the file `hi` has no lines, while `f.readline()` finds its line. -/
theorem append_iteration_counterexample :
    (lioRun 3 [.io (.seek 0 0), .next, .readline none] apFS).1 = .ok [.out .none, .item none, .line [104, 105]] := by
  decide +kernel

/-- Iterating does not notice that the file object is closed, as `readline` does. -/
theorem closed_iteration_counterexample :
    let s := (hClose 3 rpFS).2
    (hClose 3 rpFS).1 = .ok () ∧ s.isOpen 3 = false ∧ (lioRun 3 [.next] s).1 = .ok [.item (some [104, 105])] ∧
    (lioRun 3 [.readline none] s).1 = .error .valueError := by
  refine ⟨?_, ?_, ?_, ?_⟩ <;> decide +kernel

end Verif
