import Verif.Isolate
import Verif.Sendfile
import Verif.Props.Append
import Verif.Props.Attr
/-!
# C66, C67: files do not interfere; descriptors as byte arrays
-/

namespace Verif
open Py Spec Cfg IsoP

/-! ## C66: I/O on one file leaves every other file alone -/

/-- the call is I/O on an open file whose object is `q` -/
def Spec.IoOn (q : Ref) (s : FS) : Op → Prop
  | .hRead h _ | .hWrite h _ | .hSeek h _ _ | .hTell h | .hTruncate h _ | .hFlush h => (s.handles h).obj = q
  | .osRead fd _ | .osWrite fd _ | .ftruncate fd _ => ∀ g, s.getOpen fd = .ok g → (s.handles g).obj = q
  | _ => False

theorem Spec.Iso.getOpen {q : Ref} {s s' : FS} (i : Iso q s s') (fd : Int) : s'.getOpen fd = s.getOpen fd := by
  unfold FS.getOpen; rw [i.files]

theorem Spec.Iso.ioOn {q q' : Ref} {s s' : FS} (i : Iso q s s') (o : Op) : IoOn q' s' o ↔ IoOn q' s o := by
  cases o <;> simp only [IoOn, i.obj, i.getOpen]

theorem iso_void {α : Type} {q : Ref} {s : FS} {m : M α} (h : E q s m s) : Iso q s (m.void s).2 := by
  unfold M.void
  exact (e_bind h fun _ _ i => e_pure _ i).out

theorem iso_onFile {α : Type} {q : Ref} {s : FS} {h : Nat} {m : M α} (hm : E q s m s) : Iso q s (onFile h m s).2 := by
  unfold onFile
  rw [M.bind_eq]
  dsimp only [M.get]
  split
  · exact iso_void hm
  · exact Iso.refl q s

/-- C66: a call that reads, writes, positions, truncates or flushes an open file of the object `q` - successful or not - changes no other
object (contents, size, time stamps, links, anything) and no handle on another object (buffer, position, anything). -/
theorem io_isolated {q : Ref} {s : FS} {o : Op} (h : IoOn q s o) : Iso q s (o.next s) := by
  have i := Iso.refl q s
  cases o <;> simp only [IoOn] at h <;> unfold Op.next Op.run
  case hRead => exact iso_onFile (e_read i h _)
  case hWrite => exact iso_onFile (e_write i h _)
  case hSeek => exact iso_onFile (e_seek i h _ _)
  case hTell => exact iso_onFile (e_tell i h)
  case hTruncate => exact iso_onFile (e_hTruncate i h _)
  case hFlush => exact iso_onFile (e_flush i h)
  case osRead => exact iso_void (e_osRead i h _)
  case osWrite => exact iso_void (e_osWrite i h _)
  case ftruncate => exact (e_ftruncate i h _).out

/-- C66 for histories: whatever is read and written, in whatever order, through handles on other objects, the object `r` and the
handles on it are exactly as before. -/
theorem io_isolated_history {r : Ref} {s : FS} (os : List Op) (h : ∀ o ∈ os, ∃ q, q ≠ r ∧ IoOn q s o) :
    (runs os s).heap r = s.heap r ∧ (∀ g, (s.handles g).obj = r → (runs os s).handles g = s.handles g) ∧
    (runs os s).openFiles = s.openFiles := by
  have key : ∀ (os : List Op) (s' : FS), (∀ o q, IoOn q s' o ↔ IoOn q s o) → s'.heap r = s.heap r →
      (∀ g, (s'.handles g).obj = (s.handles g).obj) → (∀ g, (s.handles g).obj = r → s'.handles g = s.handles g) → s'.openFiles = s.openFiles →
      (∀ o ∈ os, ∃ q, q ≠ r ∧ IoOn q s o) →
      (runs os s').heap r = s.heap r ∧ (∀ g, (s.handles g).obj = r → (runs os s').handles g = s.handles g) ∧ (runs os s').openFiles = s.openFiles := by
    intro os
    induction os with
    | nil => intro s' _ h1 _ h2 h3 _; exact ⟨h1, h2, h3⟩
    | cons o os ih =>
      intro s' h0 h1 h4 h2 h3 ho
      obtain ⟨q, hq, hio⟩ := ho o List.mem_cons_self
      have i := io_isolated ((h0 o q).mpr hio)
      refine ih (o.next s') (fun o' q' => (i.ioOn o').trans (h0 o' q')) ((i.heap r (Ne.symm hq)).trans h1) (fun g => (i.obj g).trans (h4 g))
        (fun g hg => (i.hand g (by rw [h4, hg]; exact Ne.symm hq)).trans (h2 g hg)) (i.files.trans h3) (fun o' ho' => ho o' (by simp [ho']))
  exact key os s (fun _ _ => Iff.rfl) rfl (fun _ => rfl) (fun _ _ => rfl) rfl h

/-! ## C67: a descriptor is a byte array with a cursor -/

section
variable {ri : Bool} {s s' : FS} {h : Nat} {r q : Ref} {c : Cursor}

theorem ByteFile.iso (b : ByteFile ri s h r c) (i : Iso q s s') (hq : q ≠ r) : ByteFile ri s' h r c := by
  have hh : s'.handles h = s.handles h := i.hand h (by rw [b.obj]; exact Ne.symm hq)
  have hp : s'.heap r = s.heap r := i.heap r (Ne.symm hq)
  have hcfg : s'.cfg = s.cfg := by rw [i.rest]
  refine ⟨⟨?_, ?_, ?_, ?_, ?_, ?_, b.notNull, ?_, ?_, ?_⟩, ?_⟩
  · have := b.isOpen; unfold FS.isOpen at this ⊢; rw [i.files, hh]; exact this
  · rw [hh]; exact b.kind
  · rw [hh]; exact b.append
  · rw [hh]; exact b.raw
  · rw [hcfg]; exact b.rawOk
  · rw [hh]; exact b.obj
  · rw [hh]; exact b.buf
  · rw [hh]; exact b.pos
  · rw [hh, hp]; exact b.file
  · rw [hh, hp]; exact b.epoch

/-- `os.read` and `os.write` make a handle raw -/
theorem ByteFile.toRaw (b : ByteFile ri s h r c) (hw : s.cfg.isWin = false) :
    ByteFile true (s.setH h fun H => { H with rawIo := true }) h r c := by
  have e := setH_same s h fun H => { H with rawIo := true }
  refine ⟨⟨?_, ?_, ?_, ?_, fun _ => hw, ?_, b.notNull, ?_, ?_, ?_⟩, ?_⟩
  · have := b.isOpen; unfold FS.isOpen at this ⊢; rw [e]; exact this
  · rw [e]; exact b.kind
  · rw [e]; exact b.append
  · rw [e]
  · rw [e]; exact b.obj
  · rw [e]; exact b.buf
  · rw [e]; exact b.pos
  · rw [e]; exact b.file
  · rw [e]; exact b.epoch

theorem ByteFile.synced (b : ByteFile ri s h r c) : syncIo h s = (.ok (), s) := by
  obtain ⟨C, hC, -⟩ := b.file
  rw [syncIo_eq b.obj b.notNull hC, setH_self]
  unfold Handle.synced
  rw [if_pos b.epoch]

/-- reading does not change the file -/
theorem okp_readContent (b : ByteFile ri s h r c) (hc : (s.heap r).content = .file (some c.data)) (n : Option Nat) :
    Okp (read h n) (fun _ s' => (s'.heap r).content = .file (some c.data)) s := by
  unfold read
  apply okp_get
  dsimp only
  rw [if_neg (by rw [b.notLarge]; simp)]
  apply okp_eqBind (checkOpen_ok b.isOpen)
  apply okp_ite
  · intro _
    exact okp_ite (fun _ => okp_pure hc) fun _ => okp_hRaise
  intro _
  apply okp_eqBind b.synced
  have hfl : Okp (flush h) (fun _ s' => (s'.heap r).content = .file (some c.data)) s := by
    by_cases hu : (s.handles h).update = true
    · exact okp_mono (okp_flush b.toByteRaw hu) fun _ _ h => h.2.1
    · rw [Bool.not_eq_true] at hu
      constructor
      intro a s' e
      rw [flush_readonly b.isOpen hu] at e
      injection e with e1 e2; subst e2; exact hc
  apply okp_seq _ hfl
  intro _ s1 h1
  have fin : ∀ s2 : FS, (s2.heap r).content = .file (some c.data) → Okp (do
      let H ← hget h
      if H.append then
        match Bio.seek H.buf H.pos H.readSeek H.readWhence with
        | none => M.throw .valueError
        | some p => do
          let r := Bio.read H.buf p n
          hmod h fun H => { H with readSeek := (p + r.length : Nat), readWhence := 0, pos := H.buf.length }
          M.pure r
      else do
        let r := Bio.read H.buf H.pos n
        hmod h fun H => { H with pos := H.pos + r.length }
        M.pure r)
      (fun _ s' => (s'.heap r).content = .file (some c.data)) s2 := by
    intro s2 h2
    apply okp_hget
    apply okp_ite
    · intro _
      split
      · exact okp_throw _
      · exact okp_hmodBind (okp_pure h2)
    · intro _
      exact okp_hmodBind (okp_pure h2)
  apply okp_ite
  · intro _
    apply okp_modifyBind
    apply fin
    by_cases hr : r = (s.handles h).obj
    · subst hr
      exact (congrArg Obj.content (upd_same _ _ _)).trans h1
    · exact (congrArg Obj.content (upd_ne _ _ hr)).trans h1
  · intro _
    exact fin _ h1

theorem okp_osReadContent (b : ByteFile ri s h r c) (hw : s.cfg.isWin = false) {fd : Int} (hfd : s.getOpen fd = .ok h) (n : Nat)
    (hc : (s.heap r).content = .file (some c.data)) : Okp (osRead fd n) (fun _ s' => (s'.heap r).content = .file (some c.data)) s := by
  unfold osRead
  apply okp_eqBind (rd_eq (f := fun s => s.getOpen fd) hfd)
  apply okp_hget
  rw [if_neg (by rw [b.kind]; simp)]
  apply okp_hmodBind
  exact okp_readContent (b.toRaw hw) hc _

theorem okp_osRead (b : ByteFile ri s h r c) (hw : s.cfg.isWin = false) {fd : Int} (hfd : s.getOpen fd = .ok h) (n : Nat) :
    Okp (osRead fd n) (fun a s' => .bytes a = (c.step (.read (some n))).1 ∧ ByteFile true s' h r (c.step (.read (some n))).2) s := by
  unfold osRead
  apply okp_eqBind (rd_eq (f := fun s => s.getOpen fd) hfd)
  apply okp_hget
  rw [if_neg (by rw [b.kind]; simp)]
  apply okp_hmodBind
  exact okp_read (b.toRaw hw) _

theorem okp_osWrite (b : ByteFile ri s h r c) (hw : s.cfg.isWin = false) {fd : Int} (hfd : s.getOpen fd = .ok h) (x : Bytes) :
    Okp (osWrite fd x) (fun n s' => .num n = (c.step (.write x)).1 ∧ ByteFile true s' h r (c.step (.write x)).2 ∧
      (s'.heap r).content = .file (some (c.step (.write x)).2.data)) s := by
  unfold osWrite
  apply okp_eqBind (rd_eq (f := fun s => s.getOpen fd) hfd)
  apply okp_hget
  rw [if_neg (by rw [b.kind]; simp), if_neg (by rw [b.kind]; simp)]
  apply okp_hmodBind
  have b1 := b.toRaw hw
  apply okp_eqBind b1.synced
  apply okp_hmodBind
  set s1 := s.setH h fun H => { H with rawIo := true }
  have b2 : ByteFile true (s1.setH h fun H => { H with flushPos := H.pos }) h r c :=
    ⟨b1.toByteRaw.setH ⟨rfl, rfl, rfl, rfl, rfl, rfl⟩ b1.buf b1.pos (fun _ => rfl), by rw [setH_same]; exact b1.epoch⟩
  have hfp : ((s1.setH h fun H => { H with flushPos := H.pos }).handles h).flushPos = c.pos := by rw [setH_same]; exact b1.pos
  by_cases hu : ((s1.setH h fun H => { H with flushPos := H.pos }).handles h).update = true
  · have hk := okp_write b2 x (Or.inr hfp)
    have hq := fq_write h x (s1.setH h fun H => { H with flushPos := H.pos })
    apply okp_bind
    constructor
    intro n s3 e3
    obtain ⟨h1, b3⟩ := hk.elim n s3 e3
    rw [e3] at hq
    apply okp_seq _ (okp_flush b3.toByteRaw (by rw [hq.update]; exact hu))
    rintro _ s4 ⟨b4, h4, -⟩
    exact okp_pure ⟨rfl, b4, h4⟩
  · -- writing through a handle that is not writable fails
    apply okp_bind
    constructor
    intro n s3 e3
    exfalso
    unfold write at e3
    rw [M.bind_eq] at e3
    dsimp only [M.get] at e3
    rw [if_neg (by rw [b2.notLarge]; simp), M.bind_eq, checkOpen_ok b2.isOpen] at e3
    dsimp only at e3
    rw [if_pos (by simpa using hu)] at e3
    rw [if_neg (by have : (s1.setH h fun H => { H with flushPos := H.pos }).cfg.isWin = false := hw
                   rw [this]; simp)] at e3
    exact ((okp_hRaise (Q := fun _ _ => False)).elim n s3 e3)
end

namespace Spec
/-- a call: `os.read` and `os.write` on the descriptor, or anything else -/
inductive FdCall
  | read (n : Nat)
  | write (b : Bytes)
  | other (o : Op)

/-- the byte array's answer -/
def FdCall.step (c : Cursor) : FdCall → Out × Cursor
  | .read n => c.step (.read (some n))
  | .write b => c.step (.write b)
  | .other _ => (.none, c)

def FdCall.steps (c : Cursor) : List FdCall → List Out × Cursor
  | [] => ([], c)
  | i :: is => ((i.step c).1 :: (FdCall.steps (i.step c).2 is).1, (FdCall.steps (i.step c).2 is).2)

/-- the call on the descriptor `fd` of the fake filesystem; another call may succeed or fail -/
def FdCall.run (fd : Int) : FdCall → M Out
  | .read n => osRead fd n >>= fun b => M.pure (.bytes b)
  | .write b => osWrite fd b >>= fun n => M.pure (.num n)
  | .other o => fun s => (.ok .none, o.next s)

def FdCall.runs (fd : Int) : List FdCall → M (List Out)
  | [] => M.pure []
  | i :: is => i.run fd >>= fun o => FdCall.runs fd is >>= fun os => M.pure (o :: os)
end Spec

/-- C67, from any state in which the descriptor's handle stands for the array -/
theorem fd_bytes {fd : Int} {h : Nat} {r : Ref} {s0 : FS} : ∀ (is : List FdCall) {s : FS} {c : Cursor} {ri : Bool}, ByteFile ri s h r c →
    s.cfg.isWin = false → s.getOpen fd = .ok h → (s.heap r).content = .file (some c.data) →
    (∀ o q, IoOn q s o ↔ IoOn q s0 o) → (∀ o, FdCall.other o ∈ is → ∃ q, q ≠ r ∧ IoOn q s0 o) →
    Okp (FdCall.runs fd is) (fun os s' => os = (FdCall.steps c is).1 ∧ (s'.heap r).content = .file (some (FdCall.steps c is).2.data)) s := by
  intro is
  induction is with
  | nil => intro s c ri b _ _ hc _ _; exact okp_pure ⟨rfl, hc⟩
  | cons i is ih =>
    intro s c ri b hw hfd hc h0 ho
    have one : Okp (i.run fd) (fun o s' => o = (i.step c).1 ∧ (∃ ri', ByteFile ri' s' h r (i.step c).2) ∧
        (s'.heap r).content = .file (some (i.step c).2.data) ∧ ∃ q, Iso q s s') s := by
      cases i with
      | read n =>
        apply okp_bind
        constructor
        intro a s1 e
        obtain ⟨h1, b1⟩ := (okp_osRead b hw hfd n).elim a s1 e
        have i1 := (e_osRead (Iso.refl r s) (fd := fd) (fun g hg => by rw [hfd] at hg; injection hg with hg; subst hg; exact b.obj) n).out
        rw [e] at i1
        refine okp_pure ⟨h1, ⟨_, b1⟩, ?_, r, i1⟩
        exact (okp_osReadContent b hw hfd n hc).elim a s1 e
      | write x =>
        apply okp_bind
        constructor
        intro a s1 e
        obtain ⟨h1, b1, h2⟩ := (okp_osWrite b hw hfd x).elim a s1 e
        have i1 := (e_osWrite (Iso.refl r s) (fd := fd) (fun g hg => by rw [hfd] at hg; injection hg with hg; subst hg; exact b.obj) x).out
        rw [e] at i1
        exact okp_pure ⟨h1, ⟨_, b1⟩, h2, r, i1⟩
      | other o =>
        constructor
        intro a s1 e
        injection e with e1 e2
        injection e1 with e1
        subst e1 e2
        obtain ⟨q, hq, hio⟩ := ho o List.mem_cons_self
        have i1 := io_isolated ((h0 o q).mpr hio)
        refine ⟨rfl, ⟨ri, b.iso i1 hq⟩, ?_, q, i1⟩
        rw [i1.heap r (Ne.symm hq)]; exact hc
    refine okp_seq _ one ?_
    rintro o s1 ⟨h1, ⟨ri', b1⟩, h2, q, i1⟩
    have := ih b1 (by rw [i1.rest]; exact hw) (by rw [i1.getOpen]; exact hfd) h2 (fun o q' => (i1.ioOn o).trans (h0 o q')) (fun o ho' => ho o (by simp [ho']))
    refine okp_seq _ this ?_
    rintro os s2 ⟨h3, h4⟩
    exact okp_pure ⟨by rw [h1, h3]; rfl, h4⟩

/-- what `os.open` without `O_APPEND` gives -/
theorem okp_osOpenFile {s : FS} (hr : Reachable s) {p : Str} {f : OFlags} {mode : Nat} (ha : f.append = false) (hw : s.cfg.isWin = false) :
    Okp (osOpen p f mode) (fun fd s1 => ∃ h, s1.getOpen fd = .ok h ∧ s1.cfg.isWin = false ∧ ((s1.handles h).obj ≠ devNullRef →
      ∀ C, (s1.heap (s1.handles h).obj).content = .file (some C) → ByteFile true s1 h (s1.handles h).obj ⟨C, 0⟩)) s := by
  unfold osOpen
  dsimp only
  apply okp_ite
  · intro _; exact okp_bind (okp_throw _)
  intro _
  apply okp_get
  apply okp_bind
  constructor
  intro a s' e
  have e' : s' = s := by
    dsimp only [rd, M.ofRead] at e
    cases hd : s.openDirArg p with
    | error x => rw [hd] at e; injection e with e _; exact absurd e (by simp)
    | ok x => rw [hd] at e; injection e with _ e; exact e.symm
  subst e'
  cases a with
  | some r =>
    have hdir : (s'.heap r).isDir = true := by
      dsimp only [rd, M.ofRead] at e
      cases hd : s'.openDirArg p with
      | error x => rw [hd] at e; injection e with e _; exact absurd e (by simp)
      | ok x =>
        rw [hd] at e; injection e with e _; injection e with e; subst e
        unfold FS.openDirArg at hd
        rw [if_neg (by rw [hw]; simp)] at hd
        cases hx : s'.exists_ p with
        | error x => rw [hx] at hd; exact absurd hd (by intro h; cases h)
        | ok x =>
          rw [hx] at hd
          cases x with
          | false => exact absurd hd (by intro h; cases h)
          | true =>
            cases hy : s'.resolve p with
            | error x =>
              have : (Except.error x : Except Err (Option Ref)) = .ok (some r) := by rw [← hd]; show _ = (s'.resolve p >>= _); rw [hy]; rfl
              cases this
            | ok y =>
              have : (Except.ok (if (s'.heap y).isDir then some y else none) : Except Err (Option Ref)) = .ok (some r) := by
                rw [← hd]; show _ = (s'.resolve p >>= _); rw [hy]; rfl
              injection this with this
              split at this
              · injection this with this; subst this; assumption
              · cases this
    dsimp only
    apply okp_ite
    · intro _; exact okp_bind (okp_raise _)
    intro _
    apply okp_wp
    refine register_spec (reachable_fdInv hr) _ (by simp) (by simp [mkHandle]) ?_
    intro fd s1 hop hi' hh hs1
    apply wp_pure
    intro fd' e
    injection e with e
    subst e
    refine ⟨s'.hnext, ?_, ?_, fun _ C hC => ?_⟩
    · rcases getOpen_spec hi' fd with ⟨_, h2⟩ | ⟨g, l, h1, h2⟩
      · exact absurd ⟨_, hop.slot.here⟩ h2
      · rw [h1]
        rw [hop.slot.here] at h2
        injection h2 with h2; injection h2 with h2; injection h2 with h2 _
        rw [h2]
    · rw [hs1]; exact hw
    · exfalso
      have : (s1.handles s'.hnext).obj = r := by rw [hh]; rfl
      rw [this] at hC
      have hx : s1.heap = s'.heap := by rw [hs1]
      rw [hx] at hC
      unfold Obj.isDir at hdir
      rw [hC] at hdir
      cases hdir
  | none =>
    dsimp only
    apply okp_bind
    constructor
    intro h s1 e1
    obtain ⟨s0, r, fd, hh, hheap, hl, hop, hgo⟩ := openPath_ok hr e1
    have hcfg1 : s1.cfg.isWin = false := by
      have hq := (runs_step [.openPath p f.modes none true false] (reachable_inv hr)).pers.cfg
      have : runs [.openPath p f.modes none true false] s' = s1 := by
        show (M.void (openPath p f.modes none true false) s').2 = s1
        unfold M.void
        rw [M.bind_eq, e1]; rfl
      rw [this] at hq
      rw [hq]; exact hw
    apply okp_hget
    have hobj : (s1.handles h).obj = r := by rw [hh]; rfl
    have fin : ∀ s2 : FS, s2.cfg = s1.cfg → s2.openFiles = s1.openFiles → s2.handles = s1.handles →
        ((s2.heap r).content = (s1.heap r).content ∧ (s2.heap r).epoch = (s1.heap r).epoch) →
        ∃ g, s2.getOpen ((s1.handles h).fd : Nat) = .ok g ∧ s2.cfg.isWin = false ∧ ((s2.handles g).obj ≠ devNullRef →
          ∀ C, (s2.heap (s2.handles g).obj).content = .file (some C) → ByteFile true s2 g (s2.handles g).obj ⟨C, 0⟩) := by
      intro s2 h1 h2 h3 h4
      refine ⟨h, ?_, by rw [h1]; exact hcfg1, fun hn C hC => ?_⟩
      · unfold FS.getOpen at hgo ⊢; rw [h2]; exact hgo
      · rw [h3, hobj] at hn hC ⊢
        have hbc : s0.byteContents r = some C := by
          refine byteContents_file hn ?_
          rw [← hheap, ← h4.1]; exact hC
        refine ⟨⟨?_, ?_, ?_, ?_, fun _ => by rw [h1]; exact hcfg1, by rw [h3]; exact hobj, hn, ?_, ?_, C, hC, fun _ => rfl⟩, ?_⟩
        · unfold FS.isOpen at hop ⊢; rw [h2, h3]; exact hop
        all_goals rw [h3, hh]
        · rfl
        · exact ha
        · rfl
        · show (s0.byteContents r).getD [] = C; rw [hbc]; rfl
        · show (if f.modes.canWrite && f.modes.append then _ else 0) = 0
          have : f.modes.append = false := ha
          rw [this]; simp
        · show (s0.heap r).epoch = _; rw [h4.2, hheap]
    apply okp_ite
    · intro _
      apply okp_bind
      constructor
      intro _ s2 e2
      apply okp_pure
      rcases chmod_effect p mode true s1 with ⟨x, _, hx⟩ | ⟨y, s3, _, hx, h1, h2, h3, _⟩
      · rw [hx] at e2; injection e2 with e2 _; cases e2
      · rw [hx] at e2; injection e2 with _ e2; subst e2
        refine fin s3 (by rw [h1]) (by rw [h1]) (by rw [h1]) ?_
        by_cases hry : r = y
        · subst hry; rw [h3]; exact ⟨rfl, rfl⟩
        · rw [h2 r hry]; exact ⟨rfl, rfl⟩
    · intro _
      exact okp_pure (fin s1 rfl rfl rfl ⟨rfl, rfl⟩)

/-- C67: after `os.open` of a file without `O_APPEND`, a sequence of `os.read` and `os.write` calls on the descriptor that succeed, mixed
with any I/O on other files, returns what a byte array with a cursor returns, and after every such sequence the file holds exactly that array. -/
theorem fd_is_byteArray {s s1 s2 : FS} (hr : Reachable s) (hw : s.cfg.isWin = false) {p : Str} {f : OFlags} {mode fd : Nat}
    (ho : osOpen p f mode s = (.ok fd, s1)) (ha : f.append = false) {h : Nat} (hh : s1.getOpen fd = .ok h) {r : Ref}
    (hobj : (s1.handles h).obj = r) (hn : r ≠ devNullRef) {C : Bytes}
    (hC : (s1.heap r).content = .file (some C)) (is : List FdCall) (hother : ∀ o, FdCall.other o ∈ is → ∃ q, q ≠ r ∧ IoOn q s1 o)
    {os : List Out} (hrun : FdCall.runs fd is s1 = (.ok os, s2)) :
    os = (FdCall.steps ⟨C, 0⟩ is).1 ∧ (s2.heap r).content = .file (some (FdCall.steps ⟨C, 0⟩ is).2.data) := by
  obtain ⟨g, hg, hw1, hb⟩ := (okp_osOpenFile hr (p := p) (mode := mode) ha hw).elim fd s1 ho
  rw [hh] at hg
  injection hg with hg
  subst hg
  rw [hobj] at hb
  exact (fd_bytes is (hb hn C hC) hw1 hh hC (fun _ _ => Iff.rfl) hother).elim os s2 hrun

/-! ## `os.sendfile` -/

/-- C67: `os.sendfile` between descriptors of different files copies the bytes of the source from the offset on (`None`: from its
cursor on, which then moves) to the cursor of the destination, which moves behind them; the destination file holds them at once. Apart from
these two files nothing changes. -/
theorem sendfile_copies {s s' : FS} {ri ri' : Bool} {h g : Nat} {r q : Ref} {c d : Cursor} (hw : s.cfg.isWin = false) (hm : s.cfg.isMac = false)
    (hrq : r ≠ q) (b : ByteFile ri s h r c) (b' : ByteFile ri' s g q d) {fdIn fdOut : Int} (hin : s.getOpen fdIn = .ok h)
    (hout : s.getOpen fdOut = .ok g) {offset : Option Nat} {count n : Nat}
    {x : Bytes} (hx : x = (c.data.drop (offset.getD c.pos)).take count)
    (hsafe : d.Safe (s.handles g).bufferSize (.write x) ∨ (s.handles g).flushPos = d.pos)
    (hrun : sendfile fdOut fdIn (offset.map Int.ofNat) count s = (.ok n, s')) :
    n = x.length ∧
    ByteFile ri s' h r (if offset = none then { c with pos := c.pos + x.length } else c) ∧
    ByteFile ri' s' g q ⟨put d.data d.pos x, d.pos + x.length⟩ ∧
    (x ≠ [] → (s'.heap q).content = .file (some (put d.data d.pos x))) ∧
    (∀ z, z ≠ r → z ≠ q → s'.heap z = s.heap z) ∧
    (∀ k, (s.handles k).obj ≠ r → (s.handles k).obj ≠ q → s'.handles k = s.handles k) := by
  have hread : Okp (sendRead h (offset.map Int.ofNat) count) (fun a s1 => a = x ∧ Iso r s s1 ∧
      ByteFile ri s1 h r (if offset = none then { c with pos := c.pos + x.length } else c)) s := by
    unfold sendRead
    apply okp_get
    cases offset with
    | none =>
      dsimp only [Option.map_none]
      rw [if_neg (by rw [hm]; simp), if_neg (by rw [b.kind]; simp)]
      constructor
      intro a s1 e
      obtain ⟨h1, b1⟩ := (okp_read b (some count)).elim a s1 e
      have i := (e_read (Iso.refl r s) b.obj (some count)).out
      rw [e] at i
      have h1 : a = x := by rw [hx]; injection h1
      refine ⟨h1, i, ?_⟩
      rw [if_pos rfl]
      have : (c.step (.read (some count))).2 = { c with pos := c.pos + x.length } := by
        simp only [Cursor.step, hx, List.length_take, List.length_drop, Option.getD_none]
      rw [← this]; exact b1
    | some o =>
      dsimp only [Option.map_some]
      rw [if_neg (by rw [b.kind]; simp)]
      have hmac : (if count = 0 ∧ s.cfg.isMac = true then none else some count) = some count := by rw [if_neg (by rw [hm]; simp)]
      rw [hmac]
      apply okp_bind
      constructor
      intro pos s1 e1
      obtain ⟨h1, b1⟩ := (okp_tell b).elim pos s1 e1
      have i1 := (e_tell (Iso.refl r s) b.obj).out
      rw [e1] at i1
      apply okp_bind
      constructor
      intro _ s2 e2
      have b2 := (okp_seek b1 (Int.ofNat o) 0).elim _ s2 e2
      have i2 := (e_seek (g := h) i1 b.obj (Int.ofNat o) 0).out
      rw [e2] at i2
      apply okp_bind
      constructor
      intro a s3 e3
      obtain ⟨h3, b3⟩ := (okp_read b2 (some count)).elim a s3 e3
      have i3 := (e_read (g := h) i2 b.obj (some count)).out
      rw [e3] at i3
      apply okp_bind
      constructor
      intro _ s4 e4
      have b4 := (okp_seek b3 pos 0).elim _ s4 e4
      have i4 := (e_seek (g := h) i3 b.obj pos 0).out
      rw [e4] at i4
      apply okp_pure
      have h3 : a = x := by
        simp only [Cursor.step] at h3
        injection h3 with h3
        rw [hx]; simpa using h3
      refine ⟨h3, i4, ?_⟩
      rw [if_neg (by simp)]
      have : ((((c.step (.seek (Int.ofNat o) 0)).2.step (.read (some count))).2.step (.seek pos 0)).2) = c := by
        simp only [Cursor.step, h1]
        simp
      rw [this] at b4; exact b4
  have hbig : Okp (sendfile fdOut fdIn (offset.map Int.ofNat) count) (fun n s' => n = x.length ∧
      ByteFile ri s' h r (if offset = none then { c with pos := c.pos + x.length } else c) ∧
      ByteFile ri' s' g q ⟨put d.data d.pos x, d.pos + x.length⟩ ∧
      (x ≠ [] → (s'.heap q).content = .file (some (put d.data d.pos x))) ∧
      (∀ z, z ≠ r → z ≠ q → s'.heap z = s.heap z) ∧
      (∀ k, (s.handles k).obj ≠ r → (s.handles k).obj ≠ q → s'.handles k = s.handles k)) s := by
    unfold sendfile
    apply okp_get
    rw [if_neg (by rw [hw]; simp)]
    have std : ∀ fd : Int, ∀ {β : Type} {k : Unit → M β} {Q : β → FS → Prop}, Okp (k ()) Q s → Okp (notStd fd >>= k) Q s := by
      intro fd β k Q hk
      unfold notStd
      apply okp_bind
      apply okp_ite
      · intro _; exact okp_raise _
      · intro _; exact okp_pure hk
    apply std
    apply std
    apply okp_eqBind (rd_eq (f := fun s => s.getOpen fdIn) hin)
    apply okp_eqBind (rd_eq (f := fun s => s.getOpen fdOut) hout)
    have hmac : macSocket g s = (.ok (), s) := by
      unfold macSocket
      rw [M.bind_eq]
      dsimp only [M.get]
      rw [if_neg (by rw [hm]; simp)]; rfl
    apply okp_eqBind hmac
    apply okp_seq _ hread
    rintro a s1 ⟨ha, i1, b1⟩
    rw [ha]
    have hg1 : s1.handles g = s.handles g := i1.hand g (by rw [b'.obj]; exact Ne.symm hrq)
    have b1' := b'.iso i1 hrq
    unfold sendWrite
    apply okp_get
    apply okp_ite
    · intro hx0
      apply okp_pure
      rw [hx0] at b1 ⊢
      refine ⟨rfl, b1, ?_, fun h => absurd rfl h, fun z hz _ => i1.heap z hz, fun k hk _ => i1.hand k hk⟩
      have : put d.data d.pos [] = d.data := if_pos rfl
      rw [this]; exact b1'
    · intro hx
      rw [if_neg (by rw [b1'.kind]; simp)]
      apply okp_bind
      constructor
      intro n s2 e2
      have hx' := hsafe
      rw [← hg1] at hx'
      obtain ⟨h2, b2⟩ := (okp_write b1' x hx').elim n s2 e2
      have i2 := (e_write (Iso.refl q s1) b1'.obj x).out
      rw [e2] at i2
      have h2 : n = x.length := by injection h2 with h2; exact Int.ofNat.inj h2
      have hq := fq_write g x s1
      rw [e2] at hq
      by_cases hu : (s1.handles g).update = true
      · apply okp_bind
        constructor
        intro _ s3 e3
        obtain ⟨b3, h3, -⟩ := (okp_flush b2.toByteRaw (by rw [hq.update]; exact hu)).elim _ s3 e3
        have i3 := (e_flush (g := g) i2 b1'.obj).out
        rw [e3] at i3
        apply okp_pure
        refine ⟨h2, b1.iso i3 (Ne.symm hrq), b3, fun _ => h3, fun z hz hz' => (i3.heap z hz').trans (i1.heap z hz),
          fun k hk hk' => (i3.hand k (by rw [i1.obj]; exact hk')).trans (i1.hand k hk)⟩
      · exfalso
        unfold write at e2
        rw [M.bind_eq] at e2
        dsimp only [M.get] at e2
        rw [if_neg (by rw [b1'.notLarge]; simp), M.bind_eq, checkOpen_ok b1'.isOpen] at e2
        dsimp only at e2
        rw [if_pos (by simpa using hu)] at e2
        have hw1 : s1.cfg.isWin = false := by rw [i1.rest]; exact hw
        rw [if_neg (by rw [hw1]; simp)] at e2
        exact ((okp_hRaise (Q := fun _ _ => False)).elim n s2 e2)
  exact hbig.elim n s' hrun

/-- `os.fsync` and `os.fdatasync` change nothing; on Linux they succeed exactly for the numbers of open files other than the standard streams. -/
theorem fsync_spec {s : FS} (hw : s.cfg.isWin = false) (fd : Int) :
    (fsync fd s).2 = s ∧ ((fsync fd s).1 = .ok () ↔ ¬ (0 ≤ fd ∧ fd < 3) ∧ ∃ h, s.getOpen fd = .ok h) ∧
    (s.cfg.isMac = false → fdatasync fd s = fsync fd s) := by
  have key : fsync fd s = if 0 ≤ fd ∧ fd < 3 then (.error (.os .EINVAL), s) else
      match s.getOpen fd with | .ok _ => (.ok (), s) | .error e => (.error e, s) := by
    unfold fsync notStd
    rw [M.bind_eq]
    by_cases h : 0 ≤ fd ∧ fd < 3
    · rw [if_pos h, if_pos h]; rfl
    · rw [if_neg h, if_neg h]
      dsimp only [M.pure]
      rw [M.bind_eq]
      unfold rd M.ofRead
      dsimp only
      cases s.getOpen fd with
      | error e => rfl
      | ok g =>
        dsimp only
        rw [M.bind_eq]
        dsimp only [M.get]
        rw [if_neg (by rw [hw]; simp)]; rfl
  refine ⟨?_, ?_, fun hm => ?_⟩
  · rw [key]; split
    · rfl
    · cases s.getOpen fd <;> rfl
  · rw [key]
    by_cases h : 0 ≤ fd ∧ fd < 3
    · rw [if_pos h]; simp [h]
    · rw [if_neg h]; cases s.getOpen fd <;> simp [h]
  · rw [key]
    unfold fdatasync notStd
    rw [M.bind_eq]
    dsimp only [M.get]
    rw [if_neg (by rw [hw, hm]; simp)]
    rw [M.bind_eq]
    by_cases h : 0 ≤ fd ∧ fd < 3
    · rw [if_pos h, if_pos h]; rfl
    · rw [if_neg h, if_neg h]
      dsimp only [M.pure]
      rw [M.bind_eq]
      unfold rd M.ofRead
      dsimp only
      cases s.getOpen fd <;> rfl

/-! ## Examples -/

/-- `/s` opened for reading (descriptor 3, handle 3) and `/a/f` for writing (4) with `os.open` -/
def fdFS : FS := runs [.osOpen ['/', 's'] ⟨false, false, false, false, false, false⟩ 0o666,
  .osOpen ['/', 'a', '/', 'f'] ⟨false, true, false, false, false, false⟩ 0o666] sixFS

example : Reachable fdFS ∧ fdFS.getOpen 3 = .ok 3 ∧ fdFS.getOpen 4 = .ok 4 :=
  ⟨reachable_runs (reachable_runs demo_reachable _) _, by decide +kernel, by decide +kernel⟩

theorem fdFS_src : ByteFile true fdFS 3 6 ⟨[1, 2, 3, 4, 5, 6], 0⟩ := by
  refine ⟨⟨?_, ?_, ?_, ?_, ?_, ?_, ?_, ?_, ?_, [1, 2, 3, 4, 5, 6], ?_, fun _ => rfl⟩, ?_⟩ <;> decide +kernel

theorem fdFS_dst : ByteFile true fdFS 4 3 ⟨[104, 105], 0⟩ := by
  refine ⟨⟨?_, ?_, ?_, ?_, ?_, ?_, ?_, ?_, ?_, [104, 105], ?_, fun _ => rfl⟩, ?_⟩ <;> decide +kernel

/-- the hypotheses of `sendfile_copies`, and what it says here -/
example : Cursor.Safe (fdFS.handles 4).bufferSize ⟨[104, 105], 0⟩ (.write [2, 3, 4]) ∧ (sendfile 4 3 (some 1) 3 fdFS).1 = .ok 3 ∧
    ((sendfile 4 3 (some 1) 3 fdFS).2.heap 3).content = .file (some [2, 3, 4]) := by
  refine ⟨Or.inl (by decide), ?_, ?_⟩ <;> decide +kernel

/-- the hypotheses of `io_isolated_history` and `fd_is_byteArray`: calls on `/s` do not disturb `/a/f` -/
example : IoOn 6 fdFS (.osRead 3 2) ∧ IoOn 6 fdFS (.hSeek 3 4 0) ∧ IoOn 3 fdFS (.osWrite 4 [7]) := by
  refine ⟨?_, ?_, ?_⟩
  · intro g hg
    have : fdFS.getOpen 3 = .ok 3 := by decide +kernel
    rw [this] at hg; injection hg with hg; subst hg; decide +kernel
  · show (fdFS.handles 3).obj = 6; decide +kernel
  · intro g hg
    have : fdFS.getOpen 4 = .ok 4 := by decide +kernel
    rw [this] at hg; injection hg with hg; subst hg; decide +kernel

example : (FdCall.runs 4 [.write [1], .other (.osRead 3 2), .read 5, .write [2, 3]] fdFS).1 = .ok [.num 1, .none, .bytes [105], .num 2] ∧
    ((FdCall.runs 4 [.write [1], .other (.osRead 3 2), .read 5, .write [2, 3]] fdFS).2.heap 3).content = .file (some [1, 105, 2, 3]) := by
  constructor <;> decide +kernel

end Verif
