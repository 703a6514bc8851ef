import Verif.Alone
import Verif.Props.Bytes
/-!
# Append mode (C31)
-/

namespace Verif
open Py Spec Cfg

namespace Spec

/-- The bytes of the file `r` (`none`: a directory or a file without contents). -/
def bytesOf (s : FS) (r : Ref) : Option Bytes := match (s.heap r).content with | .file b => b | .dir _ => none

/-- The bytes the call `o` writes through the file object `h`. -/
def written (h : Nat) : Op → Bytes
  | .hWrite g b => if g = h then b else []
  | _ => []

/-- A call of the history: it goes through another file object or through none, or it is a successful `write`, `seek`,
`tell`, `flush` or `close` of `h`. -/
def AppendCall (h : Nat) (s : FS) (o : Op) : Prop :=
  CallOn h s o → (match o with | .hWrite _ _ | .hSeek _ _ _ | .hTell _ | .hFlush _ | .hClose _ => True | _ => False) ∧ (o.run s).1 = .ok ()

/-- every call of the history is one of these -/
def AppendCalls (h : Nat) : FS → List Op → Prop
  | _, [] => True
  | s, o :: os => AppendCall h s o ∧ AppendCalls h (o.next s) os

/-- `d` is what the calls on `h` stored in the file `r`, one after the other: each of them appended a piece of `d` to
what the file contained at that moment, and did nothing else to its bytes. -/
def Stored (h : Nat) (r : Ref) : FS → List Op → Bytes → Prop
  | _, [], d => d = []
  | s, o :: os, d => ∃ x d', d = x ++ d' ∧ (¬ CallOn h s o → x = []) ∧
      (CallOn h s o → x ≠ [] → ∃ C, bytesOf s r = some C ∧ bytesOf (o.next s) r = some (C ++ x)) ∧
      (CallOn h s o → x = [] → bytesOf (o.next s) r = bytesOf s r) ∧ Stored h r (o.next s) os d'

end Spec

/-- The handle `h` appends to the file `r`. -/
structure Appends (s : FS) (h : Nat) (r : Ref) (w : Bool := false) : Prop where
  lt : h < s.hnext
  kind : (s.handles h).kind = .file
  append : (s.handles h).append = true
  update : (s.handles h).update = true
  raw : (s.handles h).rawIo = w
  del : (s.handles h).deleteOnClose = false
  obj : (s.handles h).obj = r
  notNull : r ≠ devNullRef
  pos : (s.handles h).pos = (s.handles h).buf.length
  flushPos : (s.handles h).flushPos ≤ (s.handles h).buf.length

/-- the bytes written and not yet flushed -/
def pending (s : FS) (h : Nat) : Bytes := (s.handles h).buf.drop (s.handles h).flushPos

/-- what a successful call on `h` did to the file -/
structure AppendStep (s s' : FS) (h : Nat) (r : Ref) (b x : Bytes) (w : Bool := false) : Prop where
  app : Appends s' h r w
  file : x ≠ [] → ∃ C, bytesOf s r = some C ∧ bytesOf s' r = some (C ++ x)
  same : x = [] → bytesOf s' r = bytesOf s r
  bytes : x ++ pending s' h = pending s h ++ b

section
variable {s : FS} {h : Nat} {r : Ref} {w : Bool}

theorem bytesOf_some {C : Bytes} : bytesOf s r = some C ↔ (s.heap r).content = .file (some C) := by
  unfold bytesOf
  cases (s.heap r).content <;> simp

theorem Appends.setH (a : Appends s h r w) {f : Handle → Handle} (hf : (f (s.handles h)).kind = (s.handles h).kind ∧
    (f (s.handles h)).append = (s.handles h).append ∧ (f (s.handles h)).update = (s.handles h).update ∧
    (f (s.handles h)).rawIo = (s.handles h).rawIo ∧ (f (s.handles h)).deleteOnClose = (s.handles h).deleteOnClose ∧
    (f (s.handles h)).obj = (s.handles h).obj)
    (hp : (f (s.handles h)).pos = (f (s.handles h)).buf.length) (hq : (f (s.handles h)).flushPos ≤ (f (s.handles h)).buf.length) :
    Appends (s.setH h f) h r w := by
  obtain ⟨h1, h2, h3, h4, h5, h6⟩ := hf
  have e := setH_same s h f
  exact ⟨a.lt, by rw [e, h1, a.kind], by rw [e, h2, a.append], by rw [e, h3, a.update], by rw [e, h4, a.raw],
    by rw [e, h5, a.del], by rw [e, h6, a.obj], a.notNull, by rw [e, hp], by rw [e]; exact hq⟩

theorem okp_checkOpen {β : Type} {f : Unit → M β} {Q : β → FS → Prop} (hf : s.isOpen h = true → Okp (f ()) Q s) : Okp (checkOpen h >>= f) Q s := by
  by_cases ho : s.isOpen h = true
  · exact okp_eqBind (checkOpen_ok ho) (hf ho)
  · apply okp_bind
    constructor
    intro a s' e
    unfold checkOpen at e
    rw [if_neg ho] at e
    injection e with e _; exact absurd e (by simp)

/-- flushing appends what was pending -/
theorem app_flush (a : Appends s h r w) :
    Okp (flush h) (fun _ s' => ∃ C, bytesOf s r = some C ∧ bytesOf s' r = some (C ++ pending s h) ∧ pending s' h = [] ∧
      Appends s' h r w ∧ (s'.handles h).bufferSize = (s.handles h).bufferSize ∧ s'.isOpen h = true ∧ s.isOpen h = true) s := by
  constructor
  intro u s' e
  have q : Quiet s s' := by have := fq_flush h s; rw [e] at this; exact this
  have hop : s.isOpen h = true := by
    by_contra hn
    unfold flush at e
    rw [M.bind_eq] at e
    unfold checkOpen at e
    rw [if_neg hn] at e
    injection e with e _; exact absurd e (by simp)
  cases hc : bytesOf s r with
  | none =>
    exfalso
    have hb : s.byteContents r = none := by
      unfold FS.byteContents; rw [if_neg a.notNull]; exact hc
    unfold flush at e
    rw [M.bind_eq, checkOpen_ok hop] at e
    dsimp only at e
    rw [M.bind_eq] at e
    dsimp only [hget] at e
    rw [if_pos a.update, M.bind_eq] at e
    have : ∃ er t, flushContents h s = (.error er, t) := by
      unfold flushContents
      rw [M.bind_eq]
      dsimp only [hget]
      rw [if_pos a.append, M.bind_eq]
      unfold syncIo
      rw [M.bind_eq]
      dsimp only [M.get]
      by_cases he : (s.handles h).fileEpoch = (s.heap (s.handles h).obj).epoch
      · rw [if_pos he]
        dsimp only [M.pure]
        rw [M.bind_eq]
        dsimp only [M.get]
        rw [a.obj, hb]
        exact ⟨_, _, rfl⟩
      · rw [if_neg he, M.bind_eq, a.obj, hb]
        unfold setStream
        dsimp only
        rw [M.bind_eq]
        exact ⟨_, _, rfl⟩
    obtain ⟨er, t, ht⟩ := this
    rw [ht] at e
    injection e with e _; exact absurd e (by simp)
  | some C =>
    have := flush_append_spec hop a.update a.append a.notNull a.obj (bytesOf_some.mp hc)
    unfold wp at this
    rw [e] at this
    rcases this with ⟨h1, _⟩ | ⟨_, hf, h1, h2, _, _, _, h3⟩
    · simp at h1
    · refine ⟨C, rfl, bytesOf_some.mpr hf.content, ?_, ?_, q.bufSz h, ?_, hop⟩
      · unfold pending; rw [h2, List.drop_length]
      · exact ⟨by rw [q.hnext]; exact a.lt, (q.kind h).trans a.kind, (q.append h).trans a.append, (q.update h).trans a.update,
          h3.trans a.raw, (q.del h).trans a.del, (q.obj h).trans a.obj, a.notNull, h1, Nat.le_of_eq h2⟩
      · rw [hf.isOpen (q.fd h)]; exact hop

/-- the same, as a step that writes nothing new -/
theorem app_flushStep (a : Appends s h r w) : Okp (flush h) (fun _ s' => AppendStep s s' h r [] (pending s h) w ∧ pending s' h = [] ∧
    s'.isOpen h = true) s := by
  refine okp_mono (app_flush a) ?_
  rintro _ s' ⟨C, h1, h2, h3, h4, _, h5, _⟩
  refine ⟨⟨h4, fun _ => ⟨C, h1, h2⟩, fun e => ?_, by rw [h3]⟩, h3, h5⟩
  rw [h2, h1, e, List.append_nil]

/-- Moving the place where reading goes on changes nothing else. -/
theorem Appends.readSeek (a : Appends s h r w) (o : Int) (wh : Nat) :
    Appends (s.setH h fun H => { H with readSeek := o, readWhence := wh }) h r w ∧
      pending (s.setH h fun H => { H with readSeek := o, readWhence := wh }) h = pending s h :=
  ⟨a.setH ⟨rfl, rfl, rfl, rfl, rfl, rfl⟩ a.pos a.flushPos, by unfold pending; rw [setH_same]⟩

theorem app_seek (a : Appends s h r) (off : Int) (wh : Nat) :
    Okp (seek h off wh) (fun _ s' => AppendStep s s' h r [] (pending s h) ∧ pending s' h = []) s := by
  unfold seek
  apply okp_checkOpen
  intro _
  apply okp_hget
  rw [if_pos a.append]
  apply okp_hmodBind
  obtain ⟨a1, e1⟩ := a.readSeek off wh
  refine okp_mono (app_flushStep a1) ?_
  rintro _ s' ⟨h1, h2, _⟩
  rw [e1] at h1
  exact ⟨⟨h1.app, h1.file, h1.same, by rw [h1.bytes, e1]⟩, h2⟩

theorem app_tell (a : Appends s h r) : Okp (tell h) (fun _ s' => AppendStep s s' h r [] (pending s h) ∧ pending s' h = []) s := by
  unfold tell
  apply okp_checkOpen
  intro _
  apply okp_seq _ (app_flushStep a)
  rintro _ s1 ⟨h1, h2, _⟩
  apply okp_hget
  rw [if_neg (by rw [h1.app.append]; simp)]
  apply okp_ite
  · intro _; exact okp_pure ⟨h1, h2⟩
  · intro _
    split
    · exact okp_throw _
    · rename_i p _
      apply okp_hmodBind
      apply okp_pure
      obtain ⟨a2, e2⟩ := h1.app.readSeek p 0
      exact ⟨⟨a2, h1.file, h1.same, by rw [e2]; exact h1.bytes⟩, e2.trans h2⟩

/-- writing to the stream extends what is pending -/
theorem app_rawWrite (a : Appends s h r w) (b : Bytes) :
    Okp (rawWrite h b) (fun _ s' => Appends s' h r w ∧ pending s' h = pending s h ++ b ∧ s'.heap = s.heap ∧
      (s'.handles h).bufferSize = (s.handles h).bufferSize ∧ (s'.handles h).buf = (s.handles h).buf ++ b ∧
      (s'.handles h).flushPos = (s.handles h).flushPos) s := by
  constructor
  intro u s' e
  have e' : s' = s.setH h fun H => { H with buf := Bio.write H.buf H.pos b, pos := H.pos + b.length } := by
    unfold rawWrite hmod M.modify at e
    injection e with _ e; exact e.symm
  have hw : Bio.write (s.handles h).buf (s.handles h).pos b = (s.handles h).buf ++ b := by
    unfold Bio.write
    by_cases hb : b = []
    · rw [if_pos hb, hb, List.append_nil]
    · rw [if_neg hb, a.pos, Nat.sub_self, List.replicate_zero, List.append_nil, List.take_length, List.drop_of_length_le (by omega),
        List.append_nil]
  rw [e']
  refine ⟨a.setH ⟨rfl, rfl, rfl, rfl, rfl, rfl⟩ ?_ ?_, ?_, rfl, ?_, ?_, ?_⟩
  · dsimp only; rw [hw, a.pos, List.length_append]
  · dsimp only; rw [hw, List.length_append]; have := a.flushPos; omega
  · unfold pending
    rw [setH_same]
    dsimp only
    rw [hw, List.drop_append_of_le_length a.flushPos]
  · rw [setH_same]
  · rw [setH_same]; exact hw
  · rw [setH_same]

theorem okp_tryFlush {Q : Unit → FS → Prop} {o : Nat} (hf : Okp (flush h) Q s) : Okp (tryFlush h o) Q s := by
  unfold tryFlush
  apply okp_hget
  apply okp_catch hf
  intro e s'
  exact okp_bind ⟨fun _ s'' _ => okp_throw _⟩

theorem bytesOf_heap {s s' : FS} (e : s'.heap = s.heap) (r : Ref) : bytesOf s' r = bytesOf s r := by unfold bytesOf; rw [e]

theorem app_write (a : Appends s h r w) (b : Bytes) : Okp (write h b) (fun _ s' => ∃ x, AppendStep s s' h r b x w) s := by
  unfold write
  apply okp_get
  dsimp only
  apply okp_ite
  · intro _; exact okp_bind (okp_throw _)
  intro _
  apply okp_checkOpen
  intro _
  rw [if_neg (by rw [a.update]; simp)]
  unfold writeWrapper
  apply okp_hget
  apply okp_seq _ (app_rawWrite a b)
  rintro _ s1 ⟨a1, hp1, hh1, hz1, hb1, hf1⟩
  have hap : (s.handles h).append = true := a.append
  rw [hap]
  simp only [if_true]
  have last : ∀ s2 x, AppendStep s s2 h r b x w → Okp (hmod h (fun H => { H with readSeek := H.pos, readWhence := 0 }) >>= fun _ => M.pure b.length)
      (fun _ s' => ∃ x, AppendStep s s' h r b x w) s2 := by
    intro s2 x h2
    apply okp_hmodBind
    apply okp_pure
    refine ⟨x, h2.app.setH ⟨rfl, rfl, rfl, rfl, rfl, rfl⟩ h2.app.pos h2.app.flushPos, h2.file, h2.same, ?_⟩
    rw [← h2.bytes]
    unfold pending
    rw [setH_same]
  apply okp_ite
  · intro _
    by_cases hall : b.length > (s.handles h).bufferSize
    · rw [decide_eq_true hall]
      simp only [Bool.not_true, Bool.false_eq_true, if_false]
      apply okp_seq _ (okp_tryFlush (app_flush a1))
      rintro _ s2 ⟨C, c1, c2, c3, c4, _, _⟩
      apply last s2 (pending s h ++ b)
      rw [bytesOf_heap hh1] at c1
      rw [hp1] at c2
      refine ⟨c4, fun _ => ⟨C, c1, c2⟩, fun e => ?_, by rw [c3, List.append_nil]⟩
      rw [c2, c1, e, List.append_nil]
    · rw [decide_eq_false hall]
      simp only [Bool.not_false, if_true]
      apply okp_hmodBind
      have back : ((s1.setH h fun H => { H with buf := H.buf.take (s.handles h).pos, pos := (s.handles h).pos }).handles h).buf = (s.handles h).buf := by
        rw [setH_same]; dsimp only; rw [hb1, a.pos, List.take_left]
      have a2 : Appends (s1.setH h fun H => { H with buf := H.buf.take (s.handles h).pos, pos := (s.handles h).pos }) h r w := by
        refine a1.setH ⟨rfl, rfl, rfl, rfl, rfl, rfl⟩ ?_ ?_
        · dsimp only; rw [hb1, a.pos, List.take_left]
        · dsimp only; rw [hb1, a.pos, List.take_left, hf1]; exact a.flushPos
      have hp2 : pending (s1.setH h fun H => { H with buf := H.buf.take (s.handles h).pos, pos := (s.handles h).pos }) h = pending s h := by
        unfold pending
        rw [back, setH_same]
        dsimp only
        rw [hf1]
      apply okp_seq _ (okp_tryFlush (app_flush a2))
      rintro _ s2 ⟨C, c1, c2, c3, c4, _, _⟩
      apply okp_seq _ (app_rawWrite c4 b)
      rintro _ s3 ⟨a3, hp3, hh3, _⟩
      apply last s3 (pending s h)
      rw [hp2] at c2
      have c1' : bytesOf s r = some C := by rw [← bytesOf_heap hh1]; exact c1
      refine ⟨a3, fun _ => ⟨C, c1', ?_⟩, fun e => ?_, ?_⟩
      · rw [bytesOf_heap hh3]; exact c2
      · rw [bytesOf_heap hh3, c2, c1', e, List.append_nil]
      · rw [hp3, c3, List.nil_append]
  · intro _
    apply last s1 []
    exact ⟨a1, fun e => absurd rfl e, fun _ => bytesOf_heap hh1 r, by rw [hp1]; rfl⟩

theorem Appends.of {s s' : FS} (a : Appends s h r w) (e : s'.handles h = s.handles h) (hn : h < s'.hnext) : Appends s' h r w := by
  refine ⟨hn, ?_, ?_, ?_, ?_, ?_, ?_, a.notNull, ?_, ?_⟩ <;> rw [e]
  · exact a.kind
  · exact a.append
  · exact a.update
  · exact a.raw
  · exact a.del
  · exact a.obj
  · exact a.pos
  · exact a.flushPos

theorem pending_of {s s' : FS} (e : s'.handles h = s.handles h) : pending s' h = pending s h := by unfold pending; rw [e]

theorem app_close (a : Appends s h r) :
    Okp (hClose h) (fun _ s' => ∃ x, AppendStep s s' h r [] x ∧ (s.isOpen h = true → pending s' h = [])) s := by
  unfold hClose
  apply okp_get
  dsimp only
  rw [a.kind]
  dsimp only
  apply okp_ite
  · intro ho
    apply okp_pure
    refine ⟨[], ⟨a, fun e => absurd rfl e, fun _ => rfl, by rw [List.append_nil]; rfl⟩, fun h2 => ?_⟩
    rw [h2] at ho; simp at ho
  intro ho
  rw [if_pos ⟨a.update, a.raw⟩]
  have tail : ∀ s1 : FS, (AppendStep s s1 h r [] (pending s h) ∧ pending s1 h = []) →
      Okp (do
        if (s.handles h).closefd then closeOpenFile (s.handles h).fd
        else M.modify fun s1 => { s1 with openFiles := s1.openFiles.modify (s.handles h).fd fun e => e.map fun l => l.erase h }
        if (s.handles h).deleteOnClose then do
          let s1 ← M.get
          removeObject (s1.objPath (s.handles h).obj))
        (fun _ s' => ∃ x, AppendStep s s' h r [] x ∧ (s.isOpen h = true → pending s' h = [])) s1 := by
    rintro s1 ⟨h1, h2⟩
    rw [a.del]
    simp only [Bool.false_eq_true, if_false]
    have fin : ∀ s2 : FS, s2.handles = s1.handles → s2.heap = s1.heap → s2.hnext = s1.hnext →
        ∃ x, AppendStep s s2 h r [] x ∧ (s.isOpen h = true → pending s2 h = []) := by
      intro s2 e1 e2 e3
      have e1 : s2.handles h = s1.handles h := by rw [e1]
      refine ⟨pending s h, ⟨h1.app.of e1 (by rw [e3]; exact h1.app.lt), ?_, ?_, ?_⟩, fun _ => ?_⟩
      · rw [bytesOf_heap e2]; exact h1.file
      · rw [bytesOf_heap e2]; exact h1.same
      · rw [pending_of e1]; exact h1.bytes
      · rw [pending_of e1]; exact h2
    apply okp_ite
    · intro _
      exact okp_modifyBind (okp_pure' (fin _ rfl rfl rfl))
    · intro _
      exact okp_modifyBind (okp_pure' (fin _ rfl rfl rfl))
  apply okp_seq _ (app_flushStep a)
  rintro _ s1 ⟨h1, h2, _⟩
  apply okp_get
  apply okp_ite
  · intro _
    apply okp_modifyBind
    apply tail
    have eb : ∀ x, bytesOf (s1.setObj (s.handles h).obj fun o => { o with mtime := s1.clock }) x = bytesOf s1 x := by
      intro x
      unfold bytesOf
      by_cases hr : x = (s.handles h).obj
      · subst hr
        have : (s1.setObj (s.handles h).obj fun o => { o with mtime := s1.clock }).heap (s.handles h).obj =
          { s1.heap (s.handles h).obj with mtime := s1.clock } := upd_same _ _ _
        rw [this]
      · have : (s1.setObj (s.handles h).obj fun o => { o with mtime := s1.clock }).heap x = s1.heap x := upd_ne _ _ hr
        rw [this]
    refine ⟨⟨h1.app.of rfl h1.app.lt, ?_, ?_, h1.bytes⟩, h2⟩
    · rw [eb]; exact h1.file
    · rw [eb]; exact h1.same
  · intro _
    exact tail s1 ⟨h1, h2⟩

theorem okp_onFile {α : Type} {m : M α} {Q : FS → Prop} (hm : Okp m (fun _ s' => Q s') s) : Okp (onFile h m) (fun _ s' => Q s') s := by
  unfold onFile
  apply okp_get
  refine okp_ite (fun _ => ?_) fun _ => okp_throw _
  unfold M.void
  exact okp_seq _ hm fun _ s' hq => okp_pure hq

theorem okp_run {o : Op} {Q : FS → Prop} (hm : Okp o.run (fun _ s' => Q s') s) (hr : (o.run s).1 = .ok ()) : Q (o.next s) :=
  hm.elim () _ (Prod.ext hr rfl)

/-- A call of another file object leaves the handle and what is pending as they are. -/
theorem append_other (a : Appends s h r) {o : Op} (hc : ¬ CallOn h s o) : Appends (o.next s) h r ∧ pending (o.next s) h = pending s h := by
  have al := alone_step hc
  have e := al.keep a.lt a.append
  have a' := a
  refine ⟨⟨Nat.lt_of_lt_of_le a.lt al.hnext, ?_, ?_, ?_, ?_, ?_, ?_, a.notNull, ?_, ?_⟩, ?_⟩
  · rw [e]; exact a.kind
  · rw [e]; exact a.append
  · rw [e]; exact a.update
  · rw [e]; exact a.raw
  · rw [e]; exact a.del
  · rw [e]; exact a.obj
  · rw [e]; exact a.pos
  · rw [e]; exact a.flushPos
  · unfold pending; rw [e]

/-- A successful call on the handle appends a piece of what was written to the file. -/
theorem append_call (a : Appends s h r) {o : Op} (hc : CallOn h s o) (ho : AppendCall h s o) :
    ∃ x, AppendStep s (o.next s) h r (written h o) x ∧ (o = .hFlush h ∨ o = .hTell h → pending (o.next s) h = []) ∧
      (o = .hClose h → s.isOpen h = true → pending (o.next s) h = []) := by
  obtain ⟨h1, h2⟩ := ho hc
  cases hc with
  | write b =>
    have := okp_run (o := .hWrite h b) (okp_onFile (app_write a b)) h2
    obtain ⟨x, hx⟩ := this
    have e : written h (.hWrite h b) = b := if_pos rfl
    exact ⟨x, by rw [e]; exact hx, by simp, by simp⟩
  | seek off w =>
    obtain ⟨hx, _⟩ := okp_run (o := .hSeek h off w) (okp_onFile (app_seek a off w)) h2
    exact ⟨_, hx, by simp, by simp⟩
  | tell =>
    obtain ⟨hx, h3⟩ := okp_run (o := .hTell h) (okp_onFile (app_tell a)) h2
    exact ⟨_, hx, fun _ => h3, by simp⟩
  | flush =>
    obtain ⟨hx, h3, _⟩ := okp_run (o := .hFlush h) (okp_onFile (app_flushStep a)) h2
    exact ⟨_, hx, fun _ => h3, by simp⟩
  | close =>
    obtain ⟨x, hx, h3⟩ := okp_run (o := .hClose h) (okp_onFile (app_close a)) h2
    exact ⟨x, hx, by simp, fun _ => h3⟩
  | read n => exact absurd h1 id
  | truncate n => exact absurd h1 id
  | osRead fd n _ => exact absurd h1 id
  | osWrite fd b _ => exact absurd h1 id
  | osClose fd _ => exact absurd h1 id

theorem written_other {o : Op} (hc : ¬ CallOn h s o) : written h o = [] := by
  unfold written
  split
  · rename_i g b
    rw [if_neg]
    intro e; subst e; exact hc (.write b)
  · rfl

/-- Along every history: what the calls on the handle stored, followed by what is still pending, is what was pending at the
beginning followed by everything written. -/
theorem append_history (ops : List Op) (a : Appends s h r) (ho : AppendCalls h s ops) :
    Appends (runs ops s) h r ∧ ∃ d, Stored h r s ops d ∧ d ++ pending (runs ops s) h = pending s h ++ (ops.map (written h)).flatten := by
  induction ops generalizing s with
  | nil => exact ⟨a, [], rfl, by simp [runs]⟩
  | cons o ops ih =>
    obtain ⟨h1, h2⟩ := ho
    have er : runs (o :: ops) s = runs ops (o.next s) := rfl
    rw [er]
    by_cases hc : CallOn h s o
    · obtain ⟨x, hx, _⟩ := append_call a hc h1
      obtain ⟨a2, d, h3, h4⟩ := ih hx.app h2
      refine ⟨a2, x ++ d, ⟨x, d, rfl, fun hn => absurd hc hn, fun _ => hx.file, fun _ => hx.same, h3⟩, ?_⟩
      rw [List.append_assoc, h4, ← List.append_assoc, hx.bytes]
      simp
    · obtain ⟨a1, e1⟩ := append_other a hc
      obtain ⟨a2, d, h3, h4⟩ := ih a1 h2
      refine ⟨a2, d, ⟨[], d, rfl, fun _ => rfl, fun hn => absurd hn hc, fun hn => absurd hn hc, h3⟩, ?_⟩
      rw [h4, e1, List.map_cons, List.flatten_cons, written_other hc, List.nil_append]
end

/-- What a successful `open` did: the handle it made. -/
theorem openPath_ok {s s1 : FS} (hr : Reachable s) {p : Str} {md : OpenModes} {bf : Option Nat} {raw del : Bool} {h : Nat}
    (ho : openPath p md bf raw del s = (.ok h, s1)) :
    ∃ s0 r fd, s1.handles h = { mkHandle s0 r md bf true raw del 0 with fd := fd } ∧ s1.heap = s0.heap ∧ h < s1.hnext ∧
      s1.isOpen h = true ∧ s1.getOpen (s1.handles h).fd = .ok h := by
  rcases hf : s.fileArg p with e | ⟨a, q⟩
  · exfalso
    unfold openPath at ho
    rw [M.bind_eq] at ho
    have : rd (fun s => s.fileArg p) s = (.error e, s) := by unfold rd; rw [← hf]; rfl
    rw [this] at ho
    injection ho with ho _; exact absurd ho (by simp)
  · rcases hoo : openObject a p q md s with ⟨res, s0⟩
    cases res with
    | error e =>
      rw [openPath_failed bf raw del hf hoo] at ho
      injection ho with ho _; exact absurd ho (by simp)
    | ok r =>
      have hq : Quiet s s0 := by have := fq_openObject a p q md s; rw [hoo] at this; exact this
      by_cases hd : (s0.heap r).isDir = false
      · obtain ⟨fd, s', e, hop, hi, hh, hs'⟩ := openPath_after ((reachable_fdInv hr).quiet hq) bf raw del hf hoo hd
        rw [ho] at e
        injection e with e1 e2
        injection e1 with e1
        subst e1 e2
        refine ⟨s0, r, fd, hh, by rw [hs'], ?_, ?_, ?_⟩
        · exact (hi.mem fd _ hop.slot.here _ (by simp)).1
        · rw [isOpen_iff, hop.hfd]; exact ⟨_, hop.slot.here, by simp⟩
        · rw [hop.hfd]
          rcases getOpen_spec hi fd with ⟨_, h2⟩ | ⟨g, l, h1, h2⟩
          · exact absurd ⟨_, hop.slot.here⟩ h2
          · rw [h1]
            rw [hop.slot.here] at h2
            injection h2 with h2; injection h2 with h2; injection h2 with h2 _
            rw [h2]
      · exfalso
        rw [Bool.not_eq_false] at hd
        unfold openPath at ho
        rw [M.bind_eq, rd_eq (f := fun s => s.fileArg p) hf] at ho
        dsimp only at ho
        rw [M.bind_eq, hoo] at ho
        dsimp only at ho
        rw [M.bind_eq] at ho
        dsimp only [M.get] at ho
        rw [if_pos hd] at ho
        injection ho with ho _; exact absurd ho (by simp)

/-- the handle made by opening in append mode -/
theorem open_appends {s s1 : FS} (hr : Reachable s) {p : Str} {md : OpenModes} {bf : Option Nat} {h : Nat}
    (ho : openPath p md bf false false s = (.ok h, s1)) (ha : md.append = true) (hw : md.canWrite = true)
    (hn : (s1.handles h).obj ≠ devNullRef) : Appends s1 h (s1.handles h).obj ∧ pending s1 h = [] ∧ s1.isOpen h = true := by
  obtain ⟨s0, r, fd, hh, _, hl, hop, _⟩ := openPath_ok hr ho
  refine ⟨⟨hl, ?_, ?_, ?_, ?_, ?_, rfl, hn, ?_, ?_⟩, ?_, hop⟩
  · rw [hh]; rfl
  · rw [hh]; exact ha
  · rw [hh]; exact hw
  · rw [hh]; rfl
  · rw [hh]; rfl
  · rw [hh]; show (if md.canWrite && md.append then _ else 0) = _; rw [hw, ha]; rfl
  · rw [hh]; exact Nat.le_refl _
  · unfold pending; rw [hh]; exact List.drop_length

/-- C31: a file opened in append mode. In every history in which the calls on the file object are successful `write`, `seek`,
`tell`, `flush` and `close` calls and all other calls are arbitrary (other file objects of the same file included), every
call on the file object only appends to what the file contains at that moment; the appended pieces are in order a prefix of
what was written, and after a `flush`, a `tell` or the `close` of the open file they are all of it. -/
theorem append_mode {s s1 : FS} (hr : Reachable s) {p : Str} {md : OpenModes} {bf : Option Nat} {h : Nat}
    (ho : openPath p md bf false false s = (.ok h, s1)) (ha : md.append = true) (hw : md.canWrite = true)
    (hn : (s1.handles h).obj ≠ devNullRef) (ops : List Op) (hops : AppendCalls h s1 ops) :
    ∃ d, Stored h (s1.handles h).obj s1 ops d ∧ d <+: (ops.map (written h)).flatten ∧
      ∀ init o, ops = init ++ [o] → o = .hFlush h ∨ o = .hTell h ∨ (o = .hClose h ∧ (runs init s1).isOpen h = true) →
        d = (ops.map (written h)).flatten := by
  obtain ⟨a, hp, _⟩ := open_appends hr ho ha hw hn
  obtain ⟨a2, d, h1, h2⟩ := append_history ops a hops
  rw [hp, List.nil_append] at h2
  refine ⟨d, h1, ⟨_, h2⟩, ?_⟩
  intro init o e hfin
  have split : ∀ (l : List Op) (t : FS), AppendCalls h t (l ++ [o]) → AppendCalls h t l ∧ AppendCall h (runs l t) o := by
    intro l
    induction l with
    | nil => intro t ht; exact ⟨trivial, ht.1⟩
    | cons x l ih =>
      intro t ht
      obtain ⟨h3, h4⟩ := ih (x.next t) ht.2
      exact ⟨⟨ht.1, h3⟩, h4⟩
  subst e
  obtain ⟨h3, h4⟩ := split init s1 hops
  obtain ⟨a3, _⟩ := append_history init a h3
  have er : runs (init ++ [o]) s1 = o.next (runs init s1) := by unfold runs; rw [List.foldl_append]; rfl
  have hpe : pending (runs (init ++ [o]) s1) h = [] := by
    rw [er]
    have hc : CallOn h (runs init s1) o := by
      rcases hfin with rfl | rfl | ⟨rfl, _⟩
      · exact .flush
      · exact .tell
      · exact .close
    obtain ⟨x, _, h5, h6⟩ := append_call a3 hc h4
    rcases hfin with h | h | ⟨h, hop⟩
    · exact h5 (Or.inl h)
    · exact h5 (Or.inr h)
    · exact h6 h hop
  rw [hpe, List.append_nil] at h2
  exact h2


/-! ## Descriptors -/

/-- `os.write` on a descriptor in append mode puts the data at the end of the file. -/
theorem app_osWrite {s : FS} {h : Nat} {r : Ref} {w : Bool} (a : Appends s h r w) {fd : Int} (hg : s.getOpen fd = .ok h) (b : Bytes) :
    Okp (osWrite fd b) (fun n s' => n = b.length ∧ Appends s' h r true ∧ ∃ C, bytesOf s r = some C ∧ bytesOf s' r = some (C ++ b)) s := by
  unfold osWrite
  apply okp_eqBind (rd_eq (f := fun s => s.getOpen fd) hg)
  apply okp_hget
  rw [if_neg (by rw [a.kind]; simp), if_neg (by rw [a.kind]; simp)]
  apply okp_hmodBind
  have a1 : Appends (s.setH h fun H => { H with rawIo := true }) h r true := by
    have e := setH_same s h fun H => { H with rawIo := true }
    exact ⟨a.lt, by rw [e]; exact a.kind, by rw [e]; exact a.append, by rw [e]; exact a.update, by rw [e],
      by rw [e]; exact a.del, by rw [e]; exact a.obj, a.notNull, by rw [e]; exact a.pos, by rw [e]; exact a.flushPos⟩
  set s1 := s.setH h fun H => { H with rawIo := true } with hs1
  have eb : bytesOf s1 r = bytesOf s r := rfl
  -- `_sync_io`
  have hsync : Okp (syncIo h) (fun _ s' => ((s'.handles h).pos = (s'.handles h).buf.length) ∧ s'.heap = s1.heap ∧ s'.hnext = s1.hnext ∧
      s'.handles h = { s1.handles h with buf := (s'.handles h).buf, pos := (s'.handles h).pos, fileEpoch := (s'.handles h).fileEpoch }) s1 := by
    unfold syncIo
    apply okp_get
    dsimp only
    apply okp_ite
    · intro _
      exact okp_pure ⟨a1.pos, rfl, rfl, rfl⟩
    · intro _
      cases hb : s1.byteContents (s1.handles h).obj with
      | none =>
        unfold setStream
        exact okp_bind (okp_bind ⟨fun _ _ _ => okp_throw _⟩)
      | some D =>
        unfold setStream
        apply okp_hmodBind
        apply okp_modify
        have ea : (s1.handles h).append = true := a1.append
        rw [setH_same, setH_same]
        dsimp only
        rw [ea]
        exact ⟨rfl, rfl, rfl, rfl⟩
  apply okp_seq _ hsync
  rintro _ s2 ⟨p2, hh2, hn2, e2⟩
  apply okp_hmodBind
  set s3 := s2.setH h fun H => { H with flushPos := H.pos } with hs3
  have e3 : s3.handles h = { s2.handles h with flushPos := (s2.handles h).pos } := setH_same _ _ _
  have a3 : Appends s3 h r true := by
    refine ⟨?_, ?_, ?_, ?_, ?_, ?_, ?_, a.notNull, ?_, ?_⟩
    · show h < s2.hnext; rw [hn2]; exact a1.lt
    · rw [e3, e2]; exact a1.kind
    · rw [e3, e2]; exact a1.append
    · rw [e3, e2]; exact a1.update
    · rw [e3, e2]; exact a1.raw
    · rw [e3, e2]; exact a1.del
    · rw [e3, e2]; exact a1.obj
    · rw [e3]; exact p2
    · rw [e3]; exact Nat.le_of_eq p2
  have p3 : pending s3 h = [] := by
    unfold pending
    rw [e3]
    dsimp only
    rw [p2, List.drop_length]
  have eb3 : bytesOf s3 r = bytesOf s r := (bytesOf_heap (s := s1) (s' := s3) hh2 r).trans eb
  apply okp_seq _ (app_write a3 b)
  rintro _ s4 ⟨x, hx⟩
  apply okp_seq _ (app_flush hx.app)
  rintro _ s5 ⟨C, c1, c2, _, a5, _⟩
  apply okp_pure
  refine ⟨rfl, a5, ?_⟩
  have hxp : x ++ pending s4 h = b := by rw [hx.bytes, p3, List.nil_append]
  by_cases hx0 : x = []
  · rw [hx.same hx0, eb3] at c1
    rw [hx0, List.nil_append] at hxp
    rw [hxp] at c2
    exact ⟨C, c1, c2⟩
  · obtain ⟨C', d1, d2⟩ := hx.file hx0
    rw [eb3] at d1
    rw [d2] at c1
    injection c1 with c1
    refine ⟨C', d1, ?_⟩
    rw [c2, ← c1, List.append_assoc, hxp]

namespace Spec
/-- every call of the history that goes through `h` is a successful `os.write` -/
def OsWrites (h : Nat) : FS → List Op → Prop
  | _, [] => True
  | s, o :: os => (CallOn h s o → (∃ fd b, o = .osWrite fd b) ∧ (o.run s).1 = .ok ()) ∧ OsWrites h (o.next s) os
end Spec

theorem okp_void {α : Type} {m : M α} {s : FS} {Q : FS → Prop} (hm : Okp m (fun _ s' => Q s') s) : Okp m.void (fun _ s' => Q s') s := by
  unfold M.void
  exact okp_seq _ hm fun _ s' hq => okp_pure hq

theorem appends_other {s : FS} {h : Nat} {r : Ref} {w : Bool} (a : Appends s h r w) {o : Op} (hc : ¬ CallOn h s o) : Appends (o.next s) h r w := by
  have al := alone_step hc
  have e := al.keep a.lt a.append
  refine ⟨Nat.lt_of_lt_of_le a.lt al.hnext, ?_, ?_, ?_, ?_, ?_, ?_, a.notNull, ?_, ?_⟩
  · rw [e]; exact a.kind
  · rw [e]; exact a.append
  · rw [e]; exact a.update
  · rw [e]; exact a.raw
  · rw [e]; exact a.del
  · rw [e]; exact a.obj
  · rw [e]; exact a.pos
  · rw [e]; exact a.flushPos

theorem osWrites_history {s : FS} {h : Nat} {r : Ref} (ops : List Op) (a : Appends s h r true) (ho : OsWrites h s ops) :
    Appends (runs ops s) h r true := by
  induction ops generalizing s with
  | nil => exact a
  | cons o ops ih =>
    apply ih (s := o.next s) _ ho.2
    by_cases hc : CallOn h s o
    · obtain ⟨⟨fd, b, rfl⟩, h2⟩ := ho.1 hc
      cases hc with
      | osWrite _ _ hg =>
        exact okp_run (o := .osWrite fd b) (okp_void (okp_mono (app_osWrite a hg b) fun _ _ h => h.2.1)) h2
    · exact appends_other a hc

theorem okp_osOpen {s : FS} (hr : Reachable s) {p : Str} {f : OFlags} {mode : Nat} (ha : f.append = true) (hw : f.modes.canWrite = true) :
    Okp (osOpen p f mode) (fun fd s1 => ∃ h, s1.getOpen fd = .ok h ∧ ((s1.handles h).obj ≠ devNullRef → Appends s1 h (s1.handles h).obj true)) s := by
  unfold osOpen
  dsimp only
  apply okp_ite
  · intro _; exact okp_bind (okp_throw _)
  intro _
  apply okp_get
  apply okp_bind
  constructor
  intro a s' e
  have e' : s' = s := by
    dsimp only [rd, M.ofRead] at e
    cases hd : s.openDirArg p with
    | error x => rw [hd] at e; injection e with e _; exact absurd e (by simp)
    | ok x => rw [hd] at e; injection e with _ e; exact e.symm
  subst e'
  cases a with
  | some r =>
    dsimp only
    rw [if_pos (by rw [hw]; simp)]
    exact okp_bind (okp_raise _)
  | none =>
    dsimp only
    apply okp_bind
    constructor
    intro h s1 e1
    obtain ⟨s0, r, fd, hh, _, hl, hop, hgo⟩ := openPath_ok hr e1
    apply okp_hget
    have hfd : (s1.handles h).append = true := by rw [hh]; exact ha
    have fin : ∀ s2, Alone h s1 s2 → Quiet s1 s2 → ∃ g, s2.getOpen ((s1.handles h).fd : Nat) = .ok g ∧
        ((s2.handles g).obj ≠ devNullRef → Appends s2 g (s2.handles g).obj true) := by
      intro s2 al q
      refine ⟨h, ?_, fun hn => ?_⟩
      · unfold FS.getOpen at hgo ⊢
        rw [q.openFiles]; exact hgo
      · have e := al.keep hl hfd
        refine ⟨Nat.lt_of_lt_of_le hl al.hnext, ?_, ?_, ?_, ?_, ?_, rfl, hn, ?_, ?_⟩ <;> rw [e, hh]
        · rfl
        · exact ha
        · exact hw
        · rfl
        · rfl
        · show (if f.modes.canWrite && f.modes.append then _ else 0) = _
          have : f.modes.append = true := ha
          rw [hw, this]; rfl
        · exact Nat.le_refl _
    apply okp_ite
    · intro _
      apply okp_bind
      constructor
      intro _ s2 e2
      apply okp_pure
      apply fin
      · have := fr_chmod (R := Alone h) p mode true s1; rw [e2] at this; exact this
      · have := fr_chmod (R := Quiet) p mode true s1; rw [e2] at this; exact this
    · intro _
      exact okp_pure (fin s1 (TreeRel.refl _) (TreeRel.refl _))

/-- C31 for descriptors: after `os.open` with `O_APPEND`, in every history in which the descriptor is used by successful
`os.write` calls and all other calls are arbitrary, a successful `os.write` puts exactly its bytes after what the file contains
at that moment. -/
theorem append_fd {s s1 : FS} (hr : Reachable s) {p : Str} {f : OFlags} {mode fd : Nat} (ho : osOpen p f mode s = (.ok fd, s1))
    (ha : f.append = true) (hw : f.modes.canWrite = true) {h : Nat} (hh : s1.getOpen fd = .ok h) (hn : (s1.handles h).obj ≠ devNullRef)
    (ops : List Op) (hops : OsWrites h s1 ops) {fd' : Int} (hg : (runs ops s1).getOpen fd' = .ok h) {b : Bytes} {n : Nat} {s2 : FS}
    (hwr : osWrite fd' b (runs ops s1) = (.ok n, s2)) :
    n = b.length ∧ ∃ C, bytesOf (runs ops s1) (s1.handles h).obj = some C ∧ bytesOf s2 (s1.handles h).obj = some (C ++ b) := by
  have a : Appends s1 h (s1.handles h).obj true := by
    obtain ⟨k, hk, hka⟩ := (okp_osOpen hr (p := p) (mode := mode) ha hw).elim _ _ ho
    rw [hk] at hh
    injection hh with hh
    subst hh
    exact hka hn
  obtain ⟨h1, _, h2⟩ := (app_osWrite (osWrites_history ops a hops) hg b).elim _ _ hwr
  exact ⟨h1, h2⟩


/-! ## Examples -/

/-- the modes of `open(p, 'ab')` and `open(p, 'a+b')` -/
def abMode : OpenModes := ⟨false, false, true, false, true, false⟩
def apMode : OpenModes := ⟨false, true, true, false, true, false⟩

/-- `/a/f` of the example, opened with `ab` -/
def abFS : FS := (openPath ['/', 'a', '/', 'f'] abMode none false false demo).2

/-- a history that meets the hypotheses of `append_mode`: another file object of the same file writes in between -/
def abOps : List Op := [.hWrite 3 [1], .hSeek 3 0 0, .openPath ['/', 'a', '/', 'f'] abMode none false false, .hWrite 4 [7, 7], .hFlush 4,
  .hWrite 3 [2, 3], .hFlush 3]

example : (openPath ['/', 'a', '/', 'f'] abMode none false false demo).1 = .ok 3 ∧ (abFS.handles 3).obj = 3 ∧
    bytesOf (runs abOps abFS) 3 = some [104, 105, 1, 7, 7, 2, 3] := by
  refine ⟨?_, ?_, ?_⟩ <;> decide +kernel

example : AppendCalls 3 abFS abOps := by
  have other : ∀ (s : FS) (o : Op), (match o with | .hWrite g _ | .hFlush g => g ≠ 3 | .openPath .. => True | _ => False) → ¬ CallOn 3 s o := by
    intro s o h hc; cases hc <;> first | exact h | exact h rfl
  refine ⟨fun _ => ⟨trivial, by decide +kernel⟩, fun _ => ⟨trivial, by decide +kernel⟩, fun hc => absurd hc (other _ _ trivial),
    fun hc => absurd hc (other _ _ (by decide)), fun hc => absurd hc (other _ _ (by decide)), fun _ => ⟨trivial, by decide +kernel⟩,
    fun _ => ⟨trivial, by decide +kernel⟩, trivial⟩

/-- C31 fails for handles that also read: after another file object has extended the file, a `read` through the `a+` handle
stores the new bytes a second time. -/
theorem append_read_counterexample :
    let s1 := runs [.openPath ['/', 'a', '/', 'f'] apMode none false false, .openPath ['/', 'a', '/', 'f'] abMode none false false, .hWrite 4 [7, 8], .hFlush 4] demo
    Reachable s1 ∧ bytesOf s1 3 = some [104, 105, 7, 8] ∧ (read 3 none s1).1 = .ok [7, 8, 7, 8] ∧
    bytesOf (read 3 none s1).2 3 = some [104, 105, 7, 8, 7, 8] := by
  refine ⟨reachable_runs demo_reachable _, ?_, ?_, ?_⟩ <;> decide +kernel

/-- Data that is still in the buffer is dropped when `os.write` is used on the same file object. -/
theorem append_mixed_counterexample :
    let s1 := runs [.openPath ['/', 'a', '/', 'f'] abMode none false false, .hWrite 3 [1], .osWrite 3 [2], .hFlush 3] demo
    Reachable s1 ∧ bytesOf s1 3 = some [104, 105, 2] := by
  refine ⟨reachable_runs demo_reachable _, ?_⟩; decide +kernel

end Verif
