import Verif.WholeFile
import Verif.Props.Descr
import Verif.Props.Attr
import Verif.Props.Times
/-!
# C57: reading and writing whole files
-/

namespace Verif
open Py Spec Cfg

namespace Spec
/-- `p` leads to the regular file `r` holding `C` (not the null device) -/
structure LeadsTo (s : FS) (p : Str) (r : Ref) (C : Bytes) : Prop where
  name : p ≠ s.devName
  found : s.exists_ p = .ok true
  leads : s.resolve p true false = .ok r
  data : (s.heap r).content = .file (some C)
  regular : (s.heap r).isRegMode = true
  notNull : r ≠ devNullRef

/-- `s'` differs from `s` only in that the file `r` holds `b` now (apart from its time stamps, the used sizes and the table of
open files) -/
structure Holds (s s' : FS) (r : Ref) (b : Bytes) : Prop where
  data : (s'.heap r).content = .file (some b)
  size : (s'.heap r).size = b.length
  others : ∀ x, x ≠ r → s'.heap x = s.heap x
  shape : Shape s s'
end Spec

theorem reg_notDir {o : Obj} (h : o.isRegMode = true) : o.isDirMode = false ∧ o.isLnk = false := by
  unfold Obj.isRegMode at h
  unfold Obj.isDirMode Obj.isLnk
  rw [beq_iff_eq] at h
  rw [h]
  exact ⟨rfl, rfl⟩

/-- a write handle of an empty file on which nothing has been done yet -/
structure FreshW (s : FS) (h : Nat) (r : Ref) : Prop where
  lt : h < s.hnext
  isOpen : s.isOpen h = true
  kind : (s.handles h).kind = .file
  append : (s.handles h).append = false
  raw : (s.handles h).rawIo = false
  update : (s.handles h).update = true
  closefd : (s.handles h).closefd = true
  del : (s.handles h).deleteOnClose = false
  obj : (s.handles h).obj = r
  buf : (s.handles h).buf = []
  pos : (s.handles h).pos = 0
  flushPos : (s.handles h).flushPos = 0
  notNull : r ≠ devNullRef
  data : (s.heap r).content = .file (some [])
  size : (s.heap r).size = 0
  regular : (s.heap r).isRegMode = true

theorem reg_size {s : FS} {o : Obj} (h : o.isRegMode = true) : s.stSize o = o.size := by
  unfold FS.stSize
  rw [if_neg]
  rintro ⟨h1, _⟩
  unfold Obj.isRegMode at h
  rw [beq_iff_eq] at h
  have e : S_IFMT &&& S_IFLNK = S_IFLNK := by decide
  rw [← e, ← Nat.and_assoc] at h1
  change ifmt o.mode &&& S_IFLNK = _ at h1
  rw [h] at h1
  revert h1; decide

theorem stSize_zero {s : FS} {o : Obj} (h : o.size = 0) : s.stSize o = 0 := by
  unfold FS.stSize; split
  · rfl
  · exact h

/-- Closing a write handle writes its buffer back, or there is no room. -/
theorem close_w {s : FS} {h : Nat} {r : Ref} {C : Bytes} (hop : s.isOpen h = true) (hk : (s.handles h).kind = .file)
    (ha : (s.handles h).append = false) (hraw : (s.handles h).rawIo = false) (hu : (s.handles h).update = true)
    (hdel : (s.handles h).deleteOnClose = false) (ho : (s.handles h).obj = r) (hr : r ≠ devNullRef)
    (hc : (s.heap r).content = .file (some C)) :
    wp (hClose h) (fun res s' =>
      (res = .error (.os .ENOSPC) ∧ fits (s.heap r).dev (((s.handles h).buf.length : Int) - s.stSize (s.heap r)) s.mounts = false ∧ s'.heap = s.heap) ∨
      (res = .ok () ∧ fits (s.heap r).dev (((s.handles h).buf.length : Int) - s.stSize (s.heap r)) s.mounts = true ∧
        Holds s s' r (s.handles h).buf)) s := by
  have hsh := sh_close (s := s) (h := h) hdel
  have key : wp (hClose h) (fun res s' =>
      (res = .error (.os .ENOSPC) ∧ fits (s.heap r).dev (((s.handles h).buf.length : Int) - s.stSize (s.heap r)) s.mounts = false ∧ s'.heap = s.heap) ∨
      (res = .ok () ∧ fits (s.heap r).dev (((s.handles h).buf.length : Int) - s.stSize (s.heap r)) s.mounts = true ∧
        (s'.heap r).content = .file (some (s.handles h).buf) ∧ (s'.heap r).size = (s.handles h).buf.length ∧ ∀ x, x ≠ r → s'.heap x = s.heap x)) s := by
    have e : ∀ Q, wp (closeHead (s.handles h) h >>= fun _ => closeTable (s.handles h) h >>= fun _ => closeDelete (s.handles h)) Q s → wp (hClose h) Q s := by
      intro Q hQ
      unfold wp at *
      rw [hClose_file hk hop]; exact hQ
    apply e
    refine wp_seq (fun res s' => (res = .error (.os .ENOSPC) ∧ fits (s.heap r).dev (((s.handles h).buf.length : Int) - s.stSize (s.heap r)) s.mounts = false ∧ s'.heap = s.heap) ∨
      (res = .ok () ∧ fits (s.heap r).dev (((s.handles h).buf.length : Int) - s.stSize (s.heap r)) s.mounts = true ∧
        (s'.heap r).content = .file (some (s.handles h).buf) ∧ (s'.heap r).size = (s.handles h).buf.length ∧ ∀ x, x ≠ r → s'.heap x = s.heap x)) ?_ ?_ ?_
    · unfold closeHead
      rw [if_pos ⟨hu, hraw⟩]
      refine wp_seq _ (flush_room hop hu ha hr ho hc) ?_ ?_
      · rintro e s' (⟨h1, h2, h3⟩ | ⟨h1, _⟩)
        · cases h1
          refine Or.inl ⟨rfl, h2, ?_⟩
          rw [h3]; rfl
        · cases h1
      · rintro a s' (⟨h1, _⟩ | ⟨_, h1, h2, h3⟩)
        · cases h1
        · have e1 : (s'.heap r).size = (s.handles h).buf.length := by rw [h1.obj]
          apply wp_getBind
          apply wp_ite
          · intro _
            apply wp_modify
            refine Or.inr ⟨rfl, h2, ?_, ?_, ?_⟩
            · show ((s'.setObj (s.handles h).obj fun o => { o with mtime := s'.clock }).heap r).content = _
              rw [ho]
              show (upd s'.heap r _ r).content = _
              rw [upd_same]; exact h1.content
            · show ((s'.setObj (s.handles h).obj fun o => { o with mtime := s'.clock }).heap r).size = _
              rw [ho]
              show (upd s'.heap r _ r).size = _
              rw [upd_same]; exact e1
            · intro x hx
              show (upd s'.heap (s.handles h).obj _ x) = _
              rw [upd_ne _ _ (by rw [ho]; exact hx)]; exact h1.others x hx
          · intro _
            exact Or.inr ⟨rfl, h2, h1.content, e1, h1.others⟩
    · rintro e s' (⟨h1, h2, h3⟩ | ⟨h1, _⟩)
      · cases h1; exact Or.inl ⟨rfl, h2, h3⟩
      · cases h1
    · rintro a s' (⟨h1, _⟩ | ⟨_, h1⟩)
      · cases h1
      · have e : ∀ t : FS, wp (closeDelete (s.handles h)) (fun res u => res = .ok () ∧ u = t) t := by
          intro t
          unfold closeDelete
          rw [hdel]
          exact ⟨rfl, rfl⟩
        have e2 : wp (closeTable (s.handles h) h) (fun res u => res = .ok () ∧ u.heap = s'.heap) s' := by
          unfold closeTable
          apply wp_ite
          · intro _; exact ⟨rfl, rfl⟩
          · intro _; exact ⟨rfl, rfl⟩
        refine wp_seq _ e2 ?_ ?_
        · rintro e u ⟨h2, _⟩; cases h2
        · rintro _ u ⟨_, h2⟩
          apply wp_mono (e u)
          rintro res v ⟨h3, rfl⟩
          rw [h2]
          exact Or.inr ⟨h3, h1⟩
  unfold wp at *
  rcases hr : hClose h s with ⟨res, s'⟩
  rw [hr] at key hsh
  dsimp only at key hsh ⊢
  rcases key with h1 | ⟨h1, h2, h3, h4, h5⟩
  · exact Or.inl h1
  · exact Or.inr ⟨h1, h2, h3, h4, h5, hsh⟩

theorem bio_write_fresh (b : Bytes) : Bio.write [] 0 b = b := by
  unfold Bio.write
  split
  · rename_i h; exact h.symm
  · simp

theorem fits_less {dev : Option Nat} {c k : Int} {ms : List Mount} (hk : k ≤ 0) (h : fits dev c ms = true) : fits dev c (charge dev k ms) = true := by
  unfold fits charge at *
  cases dev with
  | none => rfl
  | some i =>
    simp only [find_changeUsed] at *
    cases hf : ms.find? (fun m => m.idev == i) with
    | none => simp
    | some m =>
      rw [hf] at h
      simp only [Option.map_some] at *
      cases ht : m.total with
      | none => simp
      | some t =>
        rw [ht] at h
        simp only [decide_eq_true_eq] at *
        omega

theorem Holds.trans {a b c : FS} {r : Ref} {x y : Bytes} (h : Holds a b r x) (k : Holds b c r y) : Holds a c r y :=
  ⟨k.data, k.size, fun z hz => (k.others z hz).trans (h.others z hz), h.shape.trans k.shape⟩

/-- Writing bytes to a fresh handle and closing it. -/
theorem store_fresh {s : FS} {h : Nat} {r : Ref} (w : FreshW s h r) (b : Bytes) :
    match withFile h (write h b) s with
    | (.ok n, s') => n = b.length ∧ fits (s.heap r).dev b.length s.mounts = true ∧ Holds s s' r b
    | (.error e, s') => e = .os .ENOSPC ∧ fits (s.heap r).dev b.length s.mounts = false ∧ Holds s s' r [] := by
  have hz : s.stSize (s.heap r) = 0 := stSize_zero w.size
  have hlarge : s.isLarge (s.handles h).obj = false := by unfold FS.isLarge; rw [w.obj, w.data]
  -- after the stream has taken the bytes
  let s1 := s.setH h fun H => { H with buf := Bio.write H.buf H.pos b, pos := H.pos + b.length }
  have hh1 : s1.handles h = { s.handles h with buf := b, pos := b.length } := by
    show (s.setH h _).handles h = _
    rw [setH_same, w.buf, w.pos, bio_write_fresh, Nat.zero_add]
  have ho1 : s1.isOpen h = true := by
    have := isOpen_setH s h h (fun H => { H with buf := Bio.write H.buf H.pos b, pos := H.pos + b.length }) fun _ => rfl
    exact this.trans w.isOpen
  have hsh1 : Shape s s1 := Shape.hand s s1.handles s.hnext s.openFiles s.freeFds
  have hsame : ∀ t : FS, t.heap = s.heap → Shape s t → Holds s t r [] := fun t ht hs =>
    ⟨by rw [ht]; exact w.data, by rw [ht]; exact w.size, fun x _ => by rw [ht], hs⟩
  have hwrite : wp (write h b) (fun res t =>
      (res = .ok b.length ∧ t = s1) ∨
      (res = .ok b.length ∧ fits (s.heap r).dev b.length s.mounts = true ∧ Flushed s1 t h r b ∧
        t.handles h = { s1.handles h with flushPos := (s1.handles h).pos, fileEpoch := (t.heap r).epoch, changed := (t.handles h).changed }) ∨
      (res = .error (.os .ENOSPC) ∧ fits (s.heap r).dev b.length s.mounts = false ∧ t.heap = s.heap ∧ t.mounts = s.mounts ∧ t.isOpen h = true ∧
        t.handles h = { s.handles h with fileEpoch := (t.handles h).fileEpoch })) s := by
    unfold write
    apply wp_getBind
    dsimp only
    rw [if_neg (by rw [hlarge]; simp)]
    refine wp_bindOk (a := ()) (s' := s) (by unfold checkOpen; rw [if_pos w.isOpen]) ?_
    rw [if_neg (by rw [w.update]; simp)]
    unfold writeWrapper
    refine wp_bindOk (a := s.handles h) (s' := s) rfl ?_
    dsimp only
    refine wp_bindOk (a := ()) (s' := s1) rfl ?_
    apply wp_ite
    · intro hc
      have hc' : b.length > (s.handles h).bufferSize := by
        rw [w.pos, w.flushPos] at hc
        simp only [Nat.zero_add, Nat.cast_zero, Int.sub_zero] at hc
        omega
      rw [decide_eq_true hc']
      simp only [Bool.not_true, Bool.false_eq_true, if_false]
      have hfl := flush_room (s := s1) (h := h) (r := r) (C := []) ho1 (by rw [hh1]; exact w.update) (by rw [hh1]; exact w.append) w.notNull
        (by rw [hh1]; exact w.obj) w.data
      have hst : s1.stSize (s1.heap r) = 0 := hz
      rw [hst] at hfl
      have hbuf : (s1.handles h).buf = b := by rw [hh1]
      rw [hbuf] at hfl
      have hfit : ∀ v : Bool, fits (s1.heap r).dev ((b.length : Int) - (0 : Nat)) s1.mounts = v → fits (s.heap r).dev b.length s.mounts = v := by
        intro v hv
        have : ((b.length : Int) - (0 : Nat)) = b.length := by simp
        rw [this] at hv
        exact hv
      refine wp_seq (fun res t => (res = .ok () ∧ fits (s.heap r).dev b.length s.mounts = true ∧ Flushed s1 t h r b ∧
          t.handles h = { s1.handles h with flushPos := (s1.handles h).pos, fileEpoch := (t.heap r).epoch, changed := (t.handles h).changed }) ∨
        (res = .error (.os .ENOSPC) ∧ fits (s.heap r).dev b.length s.mounts = false ∧ t.heap = s.heap ∧ t.mounts = s.mounts ∧ t.isOpen h = true ∧
          t.handles h = { s.handles h with fileEpoch := (t.handles h).fileEpoch })) ?_ ?_ ?_
      · unfold tryFlush
        refine wp_bindOk (a := s1.handles h) (s' := s1) rfl ?_
        unfold catchOS
        apply wp_tryCatch
        apply wp_mono hfl
        rintro res t (⟨h1, h2, h3⟩ | ⟨h1, h2, h3, h4⟩)
        · subst h1
          dsimp only
          rw [if_pos (by rfl)]
          have hu : ∀ u, u = (t.setH h fun G => { G with buf := G.buf.take (s.handles h).pos, pos := (s.handles h).pos, flushPos := (s1.handles h).flushPos }) →
              u.heap = s.heap ∧ u.mounts = s.mounts ∧ u.isOpen h = true ∧ u.handles h = { s.handles h with fileEpoch := (u.handles h).fileEpoch } := by
            rintro u rfl
            refine ⟨by rw [h3]; rfl, by rw [h3]; rfl, ?_, ?_⟩
            · have i1 := isOpen_setH t h h (fun G => { G with buf := G.buf.take (s.handles h).pos, pos := (s.handles h).pos, flushPos := (s1.handles h).flushPos }) fun _ => rfl
              refine i1.trans ?_
              rw [h3]
              exact (isOpen_setH s1 h h (fun H => { H with flushPos := H.pos }) fun _ => rfl).trans ho1
            · rw [setH_same, h3, setH_same, hh1, w.pos]
              dsimp only
              rw [List.take_zero]
              have e1 := w.buf; have e2 := w.pos; have e3 := w.flushPos
              rcases hH : s.handles h with ⟨⟩
              rw [hH] at e1 e2 e3
              dsimp only at e1 e2 e3
              subst e1 e2 e3
              rfl
          refine wp_bindOk (a := ()) (s' := t.setH h fun G => { G with buf := G.buf.take (s.handles h).pos, pos := (s.handles h).pos, flushPos := (s1.handles h).flushPos }) rfl ?_
          exact Or.inr ⟨rfl, hfit _ h2, hu _ rfl⟩
        · subst h1
          exact Or.inl ⟨rfl, hfit _ h3, h2, h4⟩
      · rintro e t (⟨h1, _⟩ | ⟨h1, h2⟩)
        · cases h1
        · cases h1; exact Or.inr (Or.inr ⟨rfl, h2⟩)
      · rintro a t (⟨_, h2⟩ | ⟨h1, _⟩)
        · rw [w.append]
          exact Or.inr (Or.inl ⟨rfl, h2⟩)
        · cases h1
    · intro _
      rw [w.append]
      exact Or.inl ⟨rfl, rfl⟩
  have hshw := sh_write h b s
  unfold wp at hwrite
  unfold withFile
  rcases hw : write h b s with ⟨res, t⟩
  rw [hw] at hwrite hshw
  dsimp only at hwrite hshw ⊢
  rcases hwrite with ⟨h1, h2⟩ | ⟨h1, h2, h3, h4⟩ | ⟨h1, h2, h3, h4, h5, h6⟩
  · subst h1; subst h2
    have hcl := close_w (s := s1) (h := h) (r := r) (C := []) ho1 (by rw [hh1]; exact w.kind) (by rw [hh1]; exact w.append) (by rw [hh1]; exact w.raw)
      (by rw [hh1]; exact w.update) (by rw [hh1]; exact w.del) (by rw [hh1]; exact w.obj) w.notNull w.data
    have hbuf : (s1.handles h).buf = b := by rw [hh1]
    have hst : s1.stSize (s1.heap r) = 0 := hz
    have hshc := sh_close (s := s1) (h := h) (by rw [hh1]; exact w.del)
    rw [hbuf, hst] at hcl
    have e0 : ((b.length : Int) - (0 : Nat)) = b.length := by simp
    rw [e0] at hcl
    unfold wp at hcl
    rcases hcl' : hClose h s1 with ⟨res, t⟩
    rw [hcl'] at hcl hshc
    rcases hcl with ⟨k1, k2, k3⟩ | ⟨k1, k2, k3⟩
    · dsimp only at k1 k3; subst k1
      exact ⟨rfl, k2, hsame t k3 (hsh1.trans hshc)⟩
    · dsimp only at k1 k3; subst k1
      exact ⟨rfl, k2, k3.data, k3.size, k3.others, hsh1.trans k3.shape⟩
  · subst h1
    have hfd : (t.handles h).fd = (s1.handles h).fd := by rw [h4]
    have hop : t.isOpen h = true := (h3.isOpen hfd).trans ho1
    have hcl := close_w (s := t) (h := h) (r := r) (C := b) hop (by rw [h4, hh1]; exact w.kind) (by rw [h4, hh1]; exact w.append) (by rw [h4, hh1]; exact w.raw)
      (by rw [h4, hh1]; exact w.update) (by rw [h4, hh1]; exact w.del) (by rw [h4, hh1]; exact w.obj) w.notNull h3.content
    have hbuf : (t.handles h).buf = b := by rw [h4, hh1]
    have hst0 : Holds s t r b := ⟨h3.content, by rw [h3.obj], fun x hx => h3.others x hx, hshw⟩
    rw [hbuf] at hcl
    have hroom : fits (t.heap r).dev ((b.length : Int) - t.stSize (t.heap r)) t.mounts = true := by
      have e1 : t.mounts = charge (s.heap r).dev b.length s.mounts := by
        rw [h3.mounts]
        unfold FS.withContents
        have e : (s1.heap r).content = .file (some []) := w.data
        have hst : s1.stSize (s1.heap r) = 0 := hz
        dsimp only
        rw [e, hst]
        simp only [Bool.false_eq_true, if_false]
        have e0 : ((b.length : Int) - (0 : Nat)) = b.length := by simp
        rw [e0]; rfl
      have e2 : (t.heap r).dev = (s.heap r).dev := (hshw.objs r).dev
      rw [e1, e2]
      have hlnk : t.stSize (t.heap r) = b.length := by
        rw [reg_size]
        · exact hst0.size
        · have := (hshw.objs r).mode
          unfold Obj.isRegMode; rw [this]; exact w.regular
      rw [hlnk, Int.sub_self]
      exact fits_back h2 (Int.le_refl _)
    unfold wp at hcl
    rcases hcl' : hClose h t with ⟨res, u⟩
    rw [hcl'] at hcl
    rcases hcl with ⟨k1, k2, k3⟩ | ⟨k1, k2, k3⟩
    · rw [hroom] at k2; cases k2
    · dsimp only at k1 k3; subst k1
      exact ⟨rfl, h2, Holds.trans hst0 k3⟩
  · subst h1
    have hcl := close_w (s := t) (h := h) (r := r) (C := []) h5 (by rw [h6]; exact w.kind) (by rw [h6]; exact w.append) (by rw [h6]; exact w.raw)
      (by rw [h6]; exact w.update) (by rw [h6]; exact w.del) (by rw [h6]; exact w.obj) w.notNull (by rw [h3]; exact w.data)
    have hbuf : (t.handles h).buf = [] := by rw [h6]; exact w.buf
    rw [hbuf] at hcl
    have hshc := sh_close (s := t) (h := h) (by rw [h6]; exact w.del)
    have hst0 : Holds s t r [] := hsame t h3 hshw
    unfold wp at hcl
    rcases hcl' : hClose h t with ⟨res, u⟩
    rw [hcl'] at hcl hshc
    rcases hcl with ⟨k1, k2, k3⟩ | ⟨k1, k2, k3⟩
    · dsimp only at k1 k3; subst k1
      exact ⟨rfl, h2, hsame u (k3.trans h3) (hshw.trans hshc)⟩
    · dsimp only at k1 k3; subst k1
      exact ⟨rfl, h2, Holds.trans hst0 k3⟩

theorem fits_charge (dev : Option Nat) (c k : Int) (ms : List Mount) : fits dev c (charge dev k ms) = fits dev (c + k) ms := by
  unfold fits charge
  cases dev with
  | none => rfl
  | some i =>
    simp only [find_changeUsed]
    cases hf : ms.find? (fun m => m.idev == i) with
    | none => rfl
    | some m =>
      simp only [Option.map_some]
      cases ht : m.total with
      | none => rfl
      | some t =>
        simp only [decide_eq_decide]
        omega

theorem fits_mono {dev : Option Nat} {c d : Int} {ms : List Mount} (hd : d ≤ c) (h : fits dev c ms = true) : fits dev d ms = true := by
  unfold fits at *
  cases dev with
  | none => rfl
  | some i =>
    simp only at *
    cases hf : ms.find? (fun m => m.idev == i) with
    | none => rfl
    | some m =>
      rw [hf] at h
      simp only at *
      cases ht : m.total with
      | none => rfl
      | some t =>
        rw [ht] at h
        simp only [decide_eq_true_eq] at *
        omega

theorem shape_charge (s : FS) (d : Option Nat) (c : Int) : Shape s { s with mounts := charge d c s.mounts } := by
  cases d with
  | none => exact Shape.refl s
  | some i => exact Shape.usage s i c

theorem shape_withContents {s : FS} {r : Ref} {old : Option Bytes} (hc : (s.heap r).content = .file old) (b : Bytes) : Shape s (s.withContents r b) := by
  have hd : (s.heap r).isDir = false := by unfold Obj.isDir; rw [hc]
  have e : ∃ m e', s.withContents r b = ({ s with mounts := m } : FS).setObj r (fun _ => { s.heap r with content := .file (some b), size := b.length, epoch := e' }) ∧
      Shape s { s with mounts := m } := by
    unfold FS.withContents
    dsimp only
    split
    · exact ⟨_, _, rfl, (shape_charge s _ _).trans (shape_charge { s with mounts := _ } _ _)⟩
    · exact ⟨_, _, rfl, shape_charge s _ _⟩
  obtain ⟨m, e', e1, e2⟩ := e
  rw [e1]
  exact e2.trans (Shape.obj _ _ _ (Skel.data hd rfl rfl rfl rfl rfl rfl rfl rfl rfl rfl))

/-- opening for writing (`'wb'`) a file that exists: it is emptied -/
theorem open_wb {s : FS} (hs : Reachable s) {p : Str} {r : Ref} {C : Bytes} (hl : LeadsTo s p r C) :
    match openPath p wbMode none false false s with
    | (.error e, s') => s' = s ∧ ((e = .os .EACCES ∧ OpenDenied s r wbMode) ∨
        (e = .os .ENOSPC ∧ fits (s.heap r).dev (-(s.stSize (s.heap r) : Int)) s.mounts = false))
    | (.ok h, s') => ¬ OpenDenied s r wbMode ∧ FreshW s' h r ∧ Holds s s' r [] ∧
        ∀ c : Int, fits (s.heap r).dev (c - s.stSize (s.heap r)) s.mounts = true → fits (s'.heap r).dev c s'.mounts = true := by
  obtain ⟨q, _, ha⟩ := fileArg_existing hl.name hl.found hl.leads
  have hk := openObject_existing hl.data (reg_notDir hl.regular).1 hl.notNull p q wbMode
  have hq := fq_openObject (some r) p q wbMode s
  unfold wp at hk
  rcases ho : openObject (some r) p q wbMode s with ⟨res, s1⟩
  rw [ho] at hk hq
  rcases hk with ⟨h1, h2, h3⟩ | ⟨h1, h2, h3, h4⟩ | ⟨h1, h2, h3, h4, h5⟩ | ⟨h1, h2, h3, s0, h4, h5⟩
  · cases h2
  · dsimp only at h1 h4; subst h1; subst h4
    rw [openPath_failed none false false ha ho]
    exact ⟨rfl, Or.inl ⟨rfl, h3⟩⟩
  · dsimp only at h1 h5; subst h1; subst h5
    rw [openPath_failed none false false ha ho]
    exact ⟨rfl, Or.inr ⟨rfl, h4⟩⟩
  · dsimp only at h1 h5; subst h1
    rw [if_pos (by rfl)] at h4
    rw [if_pos (by rfl)] at h5
    subst h4
    have e0 : s1.heap r = { s.heap r with content := .file (some []), size := 0, epoch := ((s.withContents r []).heap r).epoch, mtime := s.clock, ctime := if s.cfg.isWin then (s.heap r).ctime else s.clock } := by
      rw [h5]
      simp only [FS.setObj, upd_same, FS.withContents, List.length_nil]
    have e1 : ∀ x, x ≠ r → s1.heap x = s.heap x := by
      intro x hx
      rw [h5]
      simp only [FS.setObj, upd_apply, if_neg hx, FS.withContents]
    obtain ⟨fd, s', k1, k2, k3, k4, k5⟩ := openPath_after (FdInv.quiet (reachable_fdInv hs) hq) none false false ha ho
      (by unfold Obj.isDir; rw [e0])
    rw [k1]
    have hheap : s'.heap = s1.heap := by rw [k5]
    have hmts : s'.mounts = (s.withContents r []).mounts := by rw [k5, h5]; rfl
    have hbc : s1.byteContents r = some [] := by
      unfold FS.byteContents
      rw [if_neg hl.notNull, e0]
    have hsh : Shape s s' := by
      have a1 : Shape s (s.withContents r []) := shape_withContents hl.data []
      have a2 : Shape (s.withContents r []) s1 := by
        rw [h5]
        exact Shape.obj _ _ _ (Skel.same rfl rfl rfl rfl rfl rfl rfl rfl rfl rfl)
      have a3 : Shape s1 s' := by
        rw [k5]; exact Shape.hand s1 _ _ _ _
      exact (a1.trans a2).trans a3
    refine ⟨h3, ⟨by rw [k2.hnext]; exact Nat.lt_succ_self _, ?_, by rw [k4]; rfl, by rw [k4]; rfl, by rw [k4]; rfl, by rw [k4]; rfl, by rw [k4]; rfl, by rw [k4]; rfl, by rw [k4]; rfl, ?_, ?_, ?_,
      hl.notNull, by rw [hheap, e0], by rw [hheap, e0], ?_⟩, ⟨by rw [hheap, e0], by rw [hheap, e0]; rfl, fun x hx => by rw [hheap]; exact e1 x hx, hsh⟩, ?_⟩
    · rw [isOpen_iff, k2.hfd]; exact ⟨_, k2.slot.here, by simp⟩
    · rw [k4]; show (s1.byteContents r).getD [] = _; rw [hbc]; rfl
    · rw [k4]; rfl
    · rw [k4]; show ((s1.byteContents r).getD []).length = _; rw [hbc]; rfl
    · rw [hheap, e0]; exact hl.regular
    · intro c hc
      have e2 : (s'.heap r).dev = (s.heap r).dev := (hsh.objs r).dev
      rw [e2, hmts]
      unfold FS.withContents
      dsimp only
      have hn : (0 : Int) ≤ s.stSize (s.heap r) := Int.natCast_nonneg _
      split
      · rw [if_pos rfl, fits_charge, fits_charge]
        refine fits_mono ?_ hc
        simp only [List.length_nil]
        omega
      · rw [if_neg (by simp), fits_charge]
        refine fits_mono ?_ hc
        simp only [List.length_nil]
        omega

/-- opening for reading (`'rb'`) a file that exists -/
theorem open_rb {s : FS} (hs : Reachable s) {p : Str} {r : Ref} {C : Bytes} (hl : LeadsTo s p r C) :
    match openPath p rbMode none false false s with
    | (.error e, s') => s' = s ∧ e = .os .EACCES ∧ OpenDenied s r rbMode
    | (.ok h, s') => ¬ OpenDenied s r rbMode ∧ s'.isOpen h = true ∧ h < s'.hnext ∧
        (∃ fd, s'.handles h = { mkHandle s r rbMode none true false false 0 with fd := fd }) ∧
        s' = { s with openFiles := s'.openFiles, freeFds := s'.freeFds, handles := s'.handles, hnext := s'.hnext } := by
  obtain ⟨q, _, ha⟩ := fileArg_existing hl.name hl.found hl.leads
  have hk := openObject_existing hl.data (reg_notDir hl.regular).1 hl.notNull p q rbMode
  have hq := fq_openObject (some r) p q rbMode s
  unfold wp at hk
  rcases ho : openObject (some r) p q rbMode s with ⟨res, s1⟩
  rw [ho] at hk hq
  rcases hk with ⟨h1, h2, h3⟩ | ⟨h1, h2, h3, h4⟩ | ⟨h1, h2, h3, h4, h5⟩ | ⟨h1, h2, h3, s0, h4, h5⟩
  · cases h2
  · dsimp only at h1 h4; subst h1; subst h4
    rw [openPath_failed none false false ha ho]
    exact ⟨rfl, rfl, h3⟩
  · cases h2
  · dsimp only at h1 h5; subst h1
    rw [if_neg (by decide)] at h4
    rw [if_neg (by decide)] at h5
    subst h4; subst h5
    obtain ⟨fd, s', k1, k2, k3, k4, k5⟩ := openPath_after (FdInv.quiet (reachable_fdInv hs) hq) none false false ha ho
      (by unfold Obj.isDir; rw [hl.data])
    rw [k1]
    refine ⟨h3, ?_, by rw [k2.hnext]; exact Nat.lt_succ_self _, ⟨fd, k4⟩, k5⟩
    rw [isOpen_iff, k2.hfd]; exact ⟨_, k2.slot.here, by simp⟩

/-- `s'` differs from `s` at most in the access time of `r` (and in the table of open files) -/
structure Spec.OnlyRead (s s' : FS) (r : Ref) : Prop where
  env : s' = { s with heap := s'.heap, openFiles := s'.openFiles, freeFds := s'.freeFds, handles := s'.handles, hnext := s'.hnext }
  heap : s'.heap = upd s.heap r { s.heap r with atime := if s.cfg.isWin then (s.heap r).atime else s.clock }

/-- Reading everything from a handle just opened and closing it. -/
theorem fetch_fresh {s : FS} {h : Nat} {r : Ref} {C : Bytes} (hop : s.isOpen h = true) (hk : (s.handles h).kind = .file)
    (ha : (s.handles h).append = false) (hrd : (s.handles h).read = true) (hu : (s.handles h).update = false)
    (hdel : (s.handles h).deleteOnClose = false) (ho : (s.handles h).obj = r) (hbuf : (s.handles h).buf = C) (hpos : (s.handles h).pos = 0)
    (hep : (s.handles h).fileEpoch = (s.heap r).epoch) (hr : r ≠ devNullRef) (hc : (s.heap r).content = .file (some C)) :
    ∃ s', withFile h (read h none) s = (.ok C, s') ∧ OnlyRead s s' r := by
  have hlarge : s.isLarge (s.handles h).obj = false := by unfold FS.isLarge; rw [ho, hc]
  have hsync : syncIo h s = (.ok (), s) := by
    rw [syncIo_eq ho hr hc, setH_self]
    unfold Handle.synced; rw [if_pos hep]
  let s1 := if s.cfg.isWin then s else s.setObj r fun o => { o with atime := s.clock }
  have hs1 : s1 = { s with heap := s1.heap } := by
    show (if s.cfg.isWin then s else s.setObj r fun o => { o with atime := s.clock }) = _
    show _ = { s with heap := (if s.cfg.isWin then s else s.setObj r fun o => { o with atime := s.clock }).heap }
    split <;> rfl
  have hh1 : s1.heap = upd s.heap r { s.heap r with atime := if s.cfg.isWin then (s.heap r).atime else s.clock } := by
    show (if s.cfg.isWin then s else s.setObj r fun o => { o with atime := s.clock }).heap = _
    split
    · exact (upd_self s.heap r).symm
    · rfl
  let s2 := s1.setH h fun H => { H with pos := H.pos + C.length }
  have hread : read h none s = (.ok C, s2) := by
    have : wp (read h none) (fun res t => res = .ok C ∧ t = s2) s := by
      unfold read
      apply wp_getBind
      dsimp only
      rw [if_neg (by rw [hlarge]; simp)]
      refine wp_bindOk (a := ()) (s' := s) (by unfold checkOpen; rw [if_pos hop]) ?_
      rw [if_neg (by rw [hrd]; simp)]
      refine wp_bindOk (a := ()) (s' := s) hsync ?_
      refine wp_bindOk (a := ()) (s' := s) (flush_readonly hop hu) ?_
      have fin : ∀ t : FS, t = s1 → wp (do
          let H ← hget h
          if H.append then
            match Bio.seek H.buf H.pos H.readSeek H.readWhence with
            | none => M.throw .valueError
            | some p => do
              let r := Bio.read H.buf p none
              hmod h fun H => { H with readSeek := (p + r.length : Nat), readWhence := 0, pos := H.buf.length }
              M.pure r
          else do
            let r := Bio.read H.buf H.pos none
            hmod h fun H => { H with pos := H.pos + r.length }
            M.pure r) (fun res t => res = .ok C ∧ t = s2) t := by
        rintro t rfl
        have e : s1.handles h = s.handles h := by rw [hs1]
        refine wp_bindOk (a := s.handles h) (s' := s1) (by unfold hget; rw [e]) ?_
        rw [if_neg (by rw [ha]; simp)]
        have e2 : Bio.read (s.handles h).buf (s.handles h).pos none = C := by rw [hbuf, hpos]; rfl
        rw [e2]
        refine wp_bindOk (a := ()) (s' := s2) rfl ?_
        exact ⟨rfl, rfl⟩
      apply wp_ite
      · intro hw
        refine wp_bindOk (a := ()) (s' := s1) ?_ (fin s1 rfl)
        show (_, _) = _
        have hw' : ¬ s.cfg.isWin = true := by simpa using hw
        show _ = (_, if s.cfg.isWin then s else s.setObj r fun o => { o with atime := s.clock })
        rw [if_neg hw', ho]
      · intro hw
        have hw' : s.cfg.isWin = true := by simpa using hw
        refine fin s ?_
        show _ = if s.cfg.isWin then s else s.setObj r fun o => { o with atime := s.clock }
        rw [if_pos hw']
    unfold wp at this
    exact Prod.ext this.1 this.2
  have h2 : s2.handles h = { s.handles h with pos := C.length } := by
    show (s1.setH h _).handles h = _
    rw [setH_same]
    have : s1.handles h = s.handles h := by rw [hs1]
    rw [this, hpos, Nat.zero_add]
  have hop2 : s2.isOpen h = true := by
    have := isOpen_setH s1 h h (fun H => { H with pos := H.pos + C.length }) fun _ => rfl
    refine this.trans ?_
    rw [hs1]; exact hop
  have hclose : ∃ of ff, hClose h s2 = (.ok (), { s2 with openFiles := of, freeFds := ff }) := by
    rw [hClose_file (by rw [h2]; exact hk) hop2]
    have e1 : closeHead (s2.handles h) h s2 = (.ok (), s2) := by
      unfold closeHead
      rw [if_neg (by rw [h2]; rintro ⟨h, _⟩; rw [hu] at h; cases h)]
      rfl
    have e3 : closeDelete (s2.handles h) = M.pure () := by
      unfold closeDelete
      rw [if_neg (by rw [h2]; show ¬ (s.handles h).deleteOnClose = true; rw [hdel]; simp)]
    obtain ⟨of, ff, e2⟩ : ∃ of ff, closeTable (s2.handles h) h s2 = (.ok (), { s2 with openFiles := of, freeFds := ff }) := by
      unfold closeTable
      split
      · exact ⟨_, _, rfl⟩
      · exact ⟨_, _, rfl⟩
    refine ⟨of, ff, ?_⟩
    rw [M.bind_eq, e1]
    dsimp only
    rw [M.bind_eq, e2, e3]
    rfl
  obtain ⟨of, ff, hcl⟩ := hclose
  refine ⟨{ s2 with openFiles := of, freeFds := ff }, ?_, ?_, ?_⟩
  · unfold withFile
    rw [hread]
    dsimp only
    rw [hcl]
  · have gen : ∀ u : FS, u = { s with heap := u.heap } → ∀ hs of ff, ({ u with handles := hs, openFiles := of, freeFds := ff } : FS) =
        { s with heap := u.heap, openFiles := of, freeFds := ff, handles := hs, hnext := u.hnext } := by
      intro u hu hs of ff; rw [hu]
    exact gen s1 hs1 _ _ _
  · exact hh1

theorem Spec.OnlyRead.holds {s s' : FS} {r : Ref} (k : OnlyRead s s' r) : Shape s s' := by
  have e1 : Shape s (s.setObj r fun _ => { s.heap r with atime := if s.cfg.isWin then (s.heap r).atime else s.clock }) :=
    Shape.obj _ _ _ (Skel.same rfl rfl rfl rfl rfl rfl rfl rfl rfl rfl)
  have e2 := Shape.hand (s.setObj r fun _ => { s.heap r with atime := if s.cfg.isWin then (s.heap r).atime else s.clock }) s'.handles s'.hnext s'.openFiles s'.freeFds
  have e3 : s' = { (s.setObj r fun _ => { s.heap r with atime := if s.cfg.isWin then (s.heap r).atime else s.clock }) with
      handles := s'.handles, hnext := s'.hnext, openFiles := s'.openFiles, freeFds := s'.freeFds } := by
    conv => lhs; rw [k.env, k.heap]
    rfl
  rw [e3]
  exact e1.trans e2

theorem onFile_next {α : Type} {s : FS} {h : Nat} {m : M α} {o : Op} (hlt : h < s.hnext) (hk : (s.handles h).kind = .file)
    (ho : o.run = onFile h m) : o.next s = (m s).2 := by
  unfold Op.next
  rw [ho]
  unfold onFile
  rw [M.bind_eq]
  dsimp only [M.get]
  rw [if_pos ⟨hlt, hk⟩]
  unfold M.void
  rw [M.bind_eq]
  rcases m s with ⟨_ | a, t⟩ <;> rfl

/-- the state after `with open(…) as f: f.op()` is one reached by calls -/
theorem reach_withFile {α : Type} {s : FS} {h : Nat} {m : M α} {o : Op} (hs : Reachable s) (hlt : h < s.hnext) (hk : (s.handles h).kind = .file)
    (ho : o.run = onFile h m) : Reachable (withFile h m s).2 := by
  have e1 : o.next s = (m s).2 := onFile_next hlt hk ho
  have fl := flags_step o s
  have hr := reachable_runs hs [o, .hClose h]
  have e2 : runs [o, .hClose h] s = Op.next (.hClose h) (m s).2 := by
    show Op.next (.hClose h) (o.next s) = _
    rw [e1]
  have e3 : Op.next (.hClose h) (m s).2 = (hClose h (m s).2).2 := by
    have hl2 : h < (m s).2.hnext := by rw [← e1]; exact Nat.lt_of_lt_of_le hlt fl.hnext
    have hk2 : ((m s).2.handles h).kind = .file := by rw [← e1, fl.kind h hlt]; exact hk
    exact onFile_next hl2 hk2 rfl
  rw [e2, e3] at hr
  unfold withFile
  rcases hc : hClose h (m s).2 with ⟨_ | a, t⟩
  · rw [hc] at hr; exact hr
  · rw [hc] at hr; exact hr

theorem reach_open {s : FS} (hs : Reachable s) (p : Str) (md : OpenModes) (bf : Option Nat) (raw del : Bool) :
    Reachable (openPath p md bf raw del s).2 := by
  have hr := reachable_runs hs [.openPath p md bf raw del]
  have e : runs [.openPath p md bf raw del] s = (openPath p md bf raw del s).2 := by
    show ((openPath p md bf raw del).void s).2 = _
    unfold M.void
    rw [M.bind_eq]
    rcases openPath p md bf raw del s with ⟨_ | a, t⟩ <;> rfl
  rw [e] at hr; exact hr

/-- a state with the same shape and the same symlinks looks up every path in the same way -/
theorem Spec.Shape.paths {s t : FS} (k : Shape s t) (hl : ∀ r, (s.heap r).isLnk = true → (t.heap r).content = (s.heap r).content)
    (p : Str) (f c : Bool) : t.resolve p f c = s.resolve p f c ∧ t.exists_ p = s.exists_ p := by
  have hent : ∀ x, (t.heap x).entries = (s.heap x).entries := by
    intro x
    cases hd : (s.heap x).isDir with
    | true => unfold Obj.entries; rw [(k.objs x).dir hd]
    | false => rw [mem_entries_nil hd, mem_entries_nil ((k.objs x).file hd)]
  have hcfg : t.cfg = s.cfg := by rw [k.env]
  have ag : Agree (fun _ => True) s t := by
    refine ⟨hcfg, by rw [k.env], by rw [k.env], by rw [k.env], (k.objs devNullRef).name, fun x _ => (k.objs x).mode, fun x _ => ?_, fun x _ => hent x, fun x _ hx => ?_⟩
    · cases hd : (s.heap x).isDir with
      | true => unfold Obj.isDir at hd ⊢; rw [(k.objs x).dir hd]; exact hd
      | false => exact (k.objs x).file hd
    · unfold FS.linkTarget
      rw [hl x hx, hcfg]
  exact ⟨ag.resolve (closed_true s) p f c, ag.exists_ (closed_true s) p⟩

theorem leads_holds {s t : FS} {r : Ref} {b : Bytes} (hr : (s.heap r).isRegMode = true) (k : Holds s t r b) {q : Str} {r' : Ref} {C : Bytes} (h : LeadsTo s q r' C) :
    LeadsTo t q r' (if r' = r then b else C) := by
  have hp := k.shape.paths (fun x hx => by
    by_cases e : x = r
    · subst e; rw [(reg_notDir hr).2] at hx; cases hx
    · rw [k.others x e])
  refine ⟨?_, ?_, ?_, ?_, ?_, h.notNull⟩
  · show q ≠ (t.heap devNullRef).name
    rw [(k.shape.objs devNullRef).name]; exact h.name
  · rw [(hp q false false).2]; exact h.found
  · rw [(hp q true false).1]; exact h.leads
  · split
    · rename_i e; rw [e]; exact k.data
    · rename_i e; rw [k.others r' e]; exact h.data
  · unfold Obj.isRegMode
    rw [(k.shape.objs r').mode]; exact h.regular

/-- **C57** (writing). `Path(p).write_bytes(b)` on an existing file: if it succeeds it returns the number of bytes, the file holds
exactly `b`, no other object has changed, and every path that led to this file, under any of its names, leads to a file holding
`b`, while every path to another file leads to it and its bytes as before. It fails only with EACCES, if the user may not write the file, without any
effect, or with ENOSPC, if the device has not enough room for the bytes in place of the old ones. -/
theorem writeBytes_existing {s : FS} (hs : Reachable s) {p : Str} {r : Ref} {C : Bytes} (hl : LeadsTo s p r C) (b : Bytes) :
    match writeBytes p b s with
    | (.ok n, s') => n = b.length ∧ Reachable s' ∧ Holds s s' r b ∧
        ∀ q r' C', LeadsTo s q r' C' → LeadsTo s' q r' (if r' = r then b else C')
    | (.error e, s') => (e = .os .EACCES ∧ OpenDenied s r wbMode ∧ s' = s) ∨
        (e = .os .ENOSPC ∧ fits (s.heap r).dev ((b.length : Int) - s.stSize (s.heap r)) s.mounts = false ∧ (s' = s ∨ Holds s s' r [])) := by
  have h1 := open_wb hs hl
  have h2 := reach_open hs p wbMode none false false
  have e0 : writeBytes p b s = (openPath p wbMode none false false >>= fun h => withFile h (write h b)) s := rfl
  rw [e0, M.bind_eq]
  rcases ho : openPath p wbMode none false false s with ⟨e | h, s1⟩
  · rw [ho] at h1
    obtain ⟨k1, k2⟩ := h1
    dsimp only
    rcases k2 with ⟨k2, k3⟩ | ⟨k2, k3⟩
    · exact Or.inl ⟨k2, k3, k1⟩
    · refine Or.inr ⟨k2, ?_, Or.inl k1⟩
      cases hf : fits (s.heap r).dev ((b.length : Int) - s.stSize (s.heap r)) s.mounts with
      | false => rfl
      | true =>
        rw [fits_mono (by omega) hf] at k3; cases k3
  · rw [ho] at h1 h2
    obtain ⟨k1, k2, k3, k4⟩ := h1
    dsimp only at h2 ⊢
    have h3 := store_fresh k2 b
    have h4 := reach_withFile (o := .hWrite h b) h2 k2.lt k2.kind rfl
    rcases hw : withFile h (write h b) s1 with ⟨e | n, s2⟩
    · rw [hw] at h3
      obtain ⟨m1, m2, m3⟩ := h3
      refine Or.inr ⟨m1, ?_, Or.inr (Holds.trans k3 m3)⟩
      cases hf : fits (s.heap r).dev ((b.length : Int) - s.stSize (s.heap r)) s.mounts with
      | false => rfl
      | true => rw [k4 _ hf] at m2; cases m2
    · rw [hw] at h3 h4
      obtain ⟨m1, _, m3⟩ := h3
      have hh := Holds.trans k3 m3
      exact ⟨m1, h4, hh, fun q r' C' => leads_holds hl.regular hh⟩

/-- **C57** (reading). `Path(p).read_bytes()` on an existing file returns exactly the bytes of the file, and changes nothing but
its access time; it fails only with EACCES, if the user may not read the file, without any effect. -/
theorem readBytes_existing {s : FS} (hs : Reachable s) {p : Str} {r : Ref} {C : Bytes} (hl : LeadsTo s p r C) :
    match readBytes p s with
    | (.ok c, s') => c = C ∧ ¬ OpenDenied s r rbMode ∧ Reachable s' ∧ OnlyRead s s' r
    | (.error e, s') => e = .os .EACCES ∧ OpenDenied s r rbMode ∧ s' = s := by
  have h1 := open_rb hs hl
  have h2 := reach_open hs p rbMode none false false
  have e0 : readBytes p s = (openPath p rbMode none false false >>= fun h => withFile h (read h none)) s := rfl
  rw [e0, M.bind_eq]
  rcases ho : openPath p rbMode none false false s with ⟨e | h, s1⟩
  · rw [ho] at h1
    exact ⟨h1.2.1, h1.2.2, h1.1⟩
  · rw [ho] at h1 h2
    obtain ⟨k1, k2, k3, ⟨fd, k4⟩, k5⟩ := h1
    dsimp only at h2 ⊢
    have hheap : s1.heap = s.heap := by rw [k5]
    have hbc : s.byteContents r = some C := by
      unfold FS.byteContents
      rw [if_neg hl.notNull, hl.data]
    have h4 := reach_withFile (o := .hRead h none) h2 k3 (by rw [k4]; rfl) rfl
    obtain ⟨s2, m1, m2⟩ := fetch_fresh (s := s1) (h := h) (r := r) (C := C) k2 (by rw [k4]; rfl) (by rw [k4]; rfl) (by rw [k4]; rfl) (by rw [k4]; rfl) (by rw [k4]; rfl)
      (by rw [k4]; rfl) (by rw [k4]; show (s.byteContents r).getD [] = C; rw [hbc]; rfl) (by rw [k4]; rfl) (by rw [k4, hheap]; rfl) hl.notNull (by rw [hheap]; exact hl.data)
    rw [m1] at h4 ⊢
    refine ⟨rfl, k1, h4, ?_, ?_⟩
    · have := m2.env
      rw [k5] at this
      exact this
    · have := m2.heap
      rw [k5] at this
      exact this

/-- C57: what was written is what is read, through any name of the file. -/
theorem write_read {s s' : FS} (hs : Reachable s) {p : Str} {r : Ref} {C : Bytes} (hl : LeadsTo s p r C) {b : Bytes} {n : Nat}
    (hw : writeBytes p b s = (.ok n, s')) {q : Str} {C' : Bytes} (hq : LeadsTo s q r C') (hd : ¬ OpenDenied s r rbMode) :
    ∃ s2, readBytes q s' = (.ok b, s2) := by
  have h1 := writeBytes_existing hs hl b
  rw [hw] at h1
  obtain ⟨_, h2, h3, h4⟩ := h1
  have h5 := h4 q r C' hq
  rw [if_pos rfl] at h5
  have h6 := readBytes_existing h2 h5
  rcases hr : readBytes q s' with ⟨e | c, s2⟩
  · rw [hr] at h6
    exfalso
    apply hd
    obtain ⟨_, ⟨h7, h8⟩, _⟩ := h6
    have hroot : s'.isRoot = s.isRoot := by rw [h3.shape.env]; rfl
    unfold OpenDenied
    rw [← hroot, ← (h3.shape.objs r).mode]
    exact ⟨h7, h8⟩
  · rw [hr] at h6
    rw [h6.1]
    exact ⟨s2, rfl⟩

/-! ## New files -/

theorem newFile_reg {u : Nat} (hu : u < 0o10000) : ifmt (andNot (S_IFREG ||| PERM_DEF_FILE) u) = S_IFREG := by
  have e : S_IFREG = ifmt (S_IFREG ||| PERM_DEF_FILE) := by decide
  conv => rhs; rw [e]
  unfold ifmt
  apply Nat.eq_of_testBit_eq
  intro i
  rw [Nat.testBit_and, Nat.testBit_and, testBit_andNot]
  by_cases hi : i < 12
  · have : ∀ i < 12, S_IFMT.testBit i = false := by decide
    rw [this i hi, Bool.and_false, Bool.and_false]
  · have : u.testBit i = false := Nat.testBit_lt_two_pow (Nat.lt_of_lt_of_le hu (Nat.pow_le_pow_right (n := 2) (by decide) (by omega) : 2 ^ 12 ≤ 2 ^ i))
    rw [this]; simp

/-- opening for writing a path that does not exist -/
theorem open_wb_new {s : FS} (hs : Reachable s) (ht : s.cfg.Tree) (hw : Within s) (hu : s.umask < 0o10000) {p : Str} (hp : p ≠ s.devName)
    (hex : s.exists_ p = .ok false) (hmay : ∀ q ld nm d, Names s q ld nm d → mayRemove s d) :
    match openPath p wbMode none false false s with
    | (.error _, s') => Unchanged s s'
    | (.ok h, s') => ∃ s1 q ld nm d x, s.resolvePath p = .ok q ∧ Names s (s.cfg.makeStringPath q) ld nm d ∧ NewEntry s s1 d ld nm x ∧ Inv s1 ∧
        (s1.heap x).mode = andNot (S_IFREG ||| PERM_DEF_FILE) s.umask ∧ FreshW s' h x ∧ Holds s1 s' x [] ∧ s'.mounts = s.mounts := by
  have hr := reach_open hs p wbMode none false false
  rcases open_new hs ht hw hp hex wbMode none false false hmay with ⟨e, s', h1, h2⟩ |
    ⟨h, s1, s', q, ld, nm, d, x, h1, _, h2, h3, h4, h5, h6, h7, h8, h9, h10, h11, h12, h13, h13', fd, h14, _⟩
  · rw [h1]; exact h2
  · rw [h1] at hr ⊢
    dsimp only at hr
    have hheap : s'.heap = s1.heap := by rw [h8]
    have hi := reachable_inv hs
    have hne : x ≠ devNullRef := fun e => by have := devNull_lt hi; rw [← e] at this; exact Nat.not_lt.mpr h4.fresh this
    have hbc : s1.byteContents x = some [] := by
      unfold FS.byteContents
      rw [if_neg hne, h5]
    have hi1 : Inv s1 := by
      have := reachable_inv hr
      have e : s1 = { s' with openFiles := s1.openFiles, freeFds := s1.freeFds, handles := s1.handles, hnext := s1.hnext } := by
        rw [h8]
      rw [e]
      exact (pres_io (f := fun t => { t with openFiles := s1.openFiles, freeFds := s1.freeFds, handles := s1.handles, hnext := s1.hnext }) (fun _ => ⟨_, _, _, _, rfl⟩) s' this).inv
    refine ⟨s1, q, ld, nm, d, x, h2, h3, h4, hi1, h6, ⟨h12, h11, by rw [h14]; rfl, by rw [h14]; rfl, by rw [h14]; rfl, by rw [h14]; rfl, by rw [h14]; rfl, by rw [h14]; rfl,
      h9, h10, by rw [h14]; rfl, ?_, hne, by rw [hheap]; exact h5, by rw [hheap]; exact h13, ?_⟩, ⟨by rw [hheap]; exact h5, by rw [hheap]; exact h13, fun y _ => by rw [hheap], ?_⟩, by rw [h8]; exact h13'⟩
    · rw [h14]; show ((s1.byteContents x).getD []).length = _; rw [hbc]; rfl
    · rw [hheap]
      unfold Obj.isRegMode
      rw [h6, newFile_reg hu]; rfl
    · rw [h8]; exact Shape.hand s1 _ _ _ _

/-- **C57** (new files). `Path(p).write_bytes(b)` where nothing exists: either nothing is made (the call fails), or exactly one new
name is made, of a new file, which holds `b`, or, if the device has no room for it (ENOSPC), nothing. -/
theorem writeBytes_new {s : FS} (hs : Reachable s) (ht : s.cfg.Tree) (hw : Within s) (hu : s.umask < 0o10000) {p : Str} (hp : p ≠ s.devName)
    (hex : s.exists_ p = .ok false) (hmay : ∀ q ld nm d, Names s q ld nm d → mayRemove s d) (b : Bytes) :
    (∃ e s', writeBytes p b s = (.error e, s') ∧ Unchanged s s') ∨
    ∃ res s' s1 q ld nm d x, writeBytes p b s = (res, s') ∧ Reachable s' ∧ s.resolvePath p = .ok q ∧ Names s (s.cfg.makeStringPath q) ld nm d ∧ NewEntry s s1 d ld nm x ∧
      (s1.heap x).mode = andNot (S_IFREG ||| PERM_DEF_FILE) s.umask ∧
      ((res = .ok b.length ∧ Holds s1 s' x b) ∨ (res = .error (.os .ENOSPC) ∧ fits (s1.heap x).dev b.length s.mounts = false ∧ Holds s1 s' x [])) := by
  have h1 := open_wb_new hs ht hw hu hp hex hmay
  have h2 := reach_open hs p wbMode none false false
  have e0 : writeBytes p b s = (openPath p wbMode none false false >>= fun h => withFile h (write h b)) s := rfl
  rw [e0, M.bind_eq]
  rcases ho : openPath p wbMode none false false s with ⟨e | h, s2⟩
  · rw [ho] at h1
    exact Or.inl ⟨e, s2, rfl, h1⟩
  · rw [ho] at h1 h2
    obtain ⟨s1, q, ld, nm, d, x, k1, k2, k3, _, k4, k5, k6, k7⟩ := h1
    dsimp only at h2 ⊢
    have h3 := store_fresh k5 b
    have h4 := reach_withFile (o := .hWrite h b) h2 k5.lt k5.kind rfl
    rcases hw : withFile h (write h b) s2 with ⟨res, s3⟩
    rw [hw] at h3 h4
    refine Or.inr ⟨res, s3, s1, q, ld, nm, d, x, rfl, h4, k1, k2, k3, k4, ?_⟩
    rcases res with e | n
    · dsimp only at h3
      obtain ⟨m1, m2, m3⟩ := h3
      refine Or.inr ⟨by rw [m1], ?_, Holds.trans k6 m3⟩
      rw [k7, (k6.shape.objs x).dev] at m2; exact m2
    · dsimp only at h3
      obtain ⟨m1, _, m3⟩ := h3
      exact Or.inl ⟨by rw [m1], Holds.trans k6 m3⟩

/-! ## `touch` -/

/-- C57: `touch` of a path that exists sets both times of the object to the current time and changes nothing else; with
`exist_ok=False` it raises EEXIST and changes nothing. -/
theorem touch_existing {s : FS} {p : Str} (hex : s.pathExists p = .ok true) (mode : Nat) :
    touch p mode false s = (.error (.os .EEXIST), s) ∧
    ((∃ e, s.resolve p = .error e ∧ touch p mode true s = (.error e, s)) ∨
      ∃ r, s.resolve p = .ok r ∧ touch p mode true s = (.ok (), s.setObj r fun o => { o with atime := s.clock, mtime := s.clock })) := by
  constructor
  · unfold touch
    rw [M.bind_eq, rd_eq (f := fun s => s.pathExists p) hex]
    rfl
  · have e : touch p mode true s = utime p none true s := by
      unfold touch
      rw [M.bind_eq, rd_eq (f := fun s => s.pathExists p) hex]
      rfl
    rw [e]
    exact utime_cases p none true s

/-- **C57** (`touch`). Where nothing exists, `touch` either fails without making anything, or it makes exactly one new name, of a new
empty file, and then changes its permissions with `chmod`. -/
theorem touch_new {s : FS} (hs : Reachable s) (ht : s.cfg.Tree) (hw : Within s) (hu : s.umask < 0o10000) {p : Str} (hp : p ≠ s.devName)
    (hex : s.exists_ p = .ok false) (hpx : s.pathExists p = .ok false) (hmay : ∀ q ld nm d, Names s q ld nm d → mayRemove s d) (mode : Nat) (eo : Bool) :
    (∃ e s', touch p mode eo s = (.error e, s') ∧ Unchanged s s') ∨
    ∃ s1 s2 q ld nm d x, s.resolvePath p = .ok q ∧ Names s (s.cfg.makeStringPath q) ld nm d ∧ NewEntry s s1 d ld nm x ∧ Inv s1 ∧
      (s1.heap x).isRegMode = true ∧ Reachable s2 ∧ Holds s1 s2 x [] ∧ touch p mode eo s = chmod p mode true s2 := by
  have h1 := open_wb_new hs ht hw hu hp hex hmay
  have e0 : touch p mode eo s = (openPath p wbMode none false false >>= fun h => hClose h >>= fun _ => chmod p mode true) s := by
    unfold touch
    rw [M.bind_eq, rd_eq (f := fun s => s.pathExists p) hpx]
    rfl
  rw [e0, M.bind_eq]
  rcases ho : openPath p wbMode none false false s with ⟨e | h, s2⟩
  · rw [ho] at h1
    exact Or.inl ⟨e, s2, rfl, h1⟩
  · rw [ho] at h1
    obtain ⟨s1, q, ld, nm, d, x, k1, k2, k3, k3', k4, k5, k6, k7⟩ := h1
    dsimp only
    have hcl := close_w (s := s2) (h := h) (r := x) (C := []) k5.isOpen k5.kind k5.append k5.raw k5.update k5.del k5.obj k5.notNull k5.data
    rw [k5.buf, stSize_zero k5.size] at hcl
    rw [M.bind_eq]
    unfold wp at hcl
    rcases hc : hClose h s2 with ⟨res, s3⟩
    rw [hc] at hcl
    dsimp only at hcl
    rcases hcl with ⟨m1, m2, m3⟩ | ⟨m1, m2, m3⟩
    · exfalso
      have : fits (s2.heap x).dev 0 s2.mounts = true := by
        rw [k7]
        unfold fits
        cases (s2.heap x).dev with
        | none => rfl
        | some i =>
          dsimp only
          cases hf : s.mounts.find? (fun m => m.idev == i) with
          | none => rfl
          | some m =>
            dsimp only
            cases ht : m.total with
            | none => rfl
            | some t =>
              have := hw m (List.mem_of_find?_eq_some hf) t ht
              simp only [decide_eq_true_eq]
              omega
      have e0 : (((([] : Bytes).length : Nat) : Int) - (0 : Nat)) = 0 := by simp
      rw [e0, this] at m2; cases m2
    · subst m1
      dsimp only
      have hr3 : Reachable s3 := by
        have h2 := reach_open hs p wbMode none false false
        rw [ho] at h2
        have := reachable_runs h2 [.hClose h]
        have e : runs [.hClose h] s2 = (hClose h s2).2 := onFile_next k5.lt k5.kind rfl
        rw [e, hc] at this
        exact this
      refine Or.inr ⟨s1, s3, q, ld, nm, d, x, k1, k2, k3, k3', ?_, hr3, Holds.trans k6 m3, rfl⟩
      unfold Obj.isRegMode
      rw [k4, newFile_reg hu]; rfl

/-- **C57** (`touch` of a new file). `touch("/x/y/z", mode)`, where `/x/y` is a directory reached without symlinks and `z` is not
there: if it succeeds, there is at that place of the tree a new empty regular file whose permission bits are exactly those of `mode` (the umask plays
no part), and no object that existed before has changed, except for the new entry of the directory. -/
theorem touch_plain {s s' : FS} (hs : Reachable s) (ht : s.cfg.Tree) (hw : Within s) (hu : s.umask < 0o10000) (hg : Genuine s) {l : List Str} {w : Str}
    (hl : ∀ v ∈ l ++ [w], Plain s.cfg.sep v) (hn : NoLink s.heap rootRef (l ++ [w])) {p : Str} (hp : p = absPath s.cfg.sep (l ++ [w]))
    (hdev : p ≠ s.devName) (hmp : s.cfg.makeStringPath p = p)
    (hex : s.exists_ p = .ok false) (hpx : s.pathExists p = .ok false) (hmay : ∀ q ld nm d, Names s q ld nm d → mayRemove s d)
    {mode : Nat} {eo : Bool} (hr : touch p mode eo s = (.ok (), s')) :
    ∃ x d, walk s'.heap rootRef (l ++ [w]) = some x ∧ s.next ≤ x ∧ (s'.heap x).content = .file (some []) ∧ (s'.heap x).size = 0 ∧ (s'.heap x).isRegMode = true ∧
      (s'.heap x).mode &&& 0o7777 = mode &&& 0o7777 ∧ walk s.heap rootRef l = some d ∧
      (∀ y < s.next, y ≠ d → s'.heap y = s.heap y) ∧ (s'.heap d).entries = (s.heap d).entries ++ [(w, x)] := by
  have hi := reachable_inv hs
  rcases touch_new hs ht hw hu hdev hex hpx hmay mode eo with ⟨e, s2, h1, _⟩ | ⟨s1, s2, q, ld, nm, d, x, h1, h2, h3, h4, h5, h5', h6, h7⟩
  · rw [hr] at h1; cases h1
  · have hcfg : s1.cfg = s.cfg := by rw [h3.rest]
    have hq : q = p := by
      have e : s.resolvePath p = .ok p := by rw [hp]; exact resolvePath_plain hi ht _ hl hn
      rw [e] at h1; injection h1 with h1; exact h1.symm
    rw [hq, hmp] at h2
    have habs : s.absnorm p = p := by rw [hp]; exact absnorm_canon hi ht.posix (absCanon_names (plain_proper hl))
    have hord : Ordinary s p := ⟨⟨l ++ [w], hl, by rw [habs]; exact hp⟩, by rw [habs]; exact hdev⟩
    have hsplit : walk s.heap rootRef l = some d ∧ nm = w ∧ ld = l := by
      obtain ⟨⟨names, g1, g2, g3, g4⟩, g5, g6⟩ := h2
      have hnm : ∀ v ∈ names ++ [nm], Proper s.cfg.sep v := by
        intro v hv; rcases List.mem_append.mp hv with hv | hv
        · exact g1 v hv
        · simp at hv; subst hv; exact g2
      have e := absPath_inj ht.posix hnm (plain_proper hl) (by rw [← g3, habs, hp])
      obtain ⟨e1, e2⟩ := List.append_inj' e rfl
      injection e2 with e2
      subst e1
      have hll : ∀ v ∈ names, Plain s.cfg.sep v := fun v hv => hl v (by simp [hv])
      have hwk : walk s.heap rootRef names = some d := by
        have hxx := g4
        unfold FS.resolve FS.resolveFG at hxx
        rw [if_pos rfl] at hxx
        have hab : s.absnorm (absPath s.cfg.sep names) = absPath s.cfg.sep names := absnorm_canon hi ht.posix (absCanon_names (plain_proper hll))
        rcases ((resolveG_ok hi ht _).mp hxx).2.2 with ⟨r1, r2⟩ | ⟨_, _, r2⟩ | ⟨_, r1, _⟩
        · rw [hab] at r1
          have : names = [] := absPath_inj ht.posix (plain_proper hll) (by simp) (by rw [r1]; exact (absPath_nil _).symm)
          rw [this, r2]; rfl
        · exact absurd r2 (isDir_ne_devNull hi g5)
        · rw [hab] at r1
          exact ((resolve_plain hi ht _ hll (noLink_prefix hn) r1).mp hxx).1
      exact ⟨hwk, e2, walk_dir_unique hi _ _ g6 hwk g5⟩
    obtain ⟨hwk, rfl, rfl⟩ := hsplit
    have hlk : (s1.heap x).isLnk = false := (reg_notDir h5).2
    have hfree : alookup nm (s.heap d).entries = none := by
      have := h3.name.absent
      rw [walk_append, hwk] at this
      cases ha : alookup nm (s.heap d).entries with
      | none => rfl
      | some c => simp [walk, ha] at this
    have hres := h3.reach hi h4 ht hg h2 hord hlk hfree (by rw [← hp]; exact hdev)
    rw [habs] at hres
    have hpaths := h6.shape.paths (fun y hy => by
      by_cases e : y = x
      · subst e; rw [hlk] at hy; cases hy
      · rw [h6.others y e])
    have hres2 : s2.resolve p true false = .ok x := by rw [(hpaths p true false).1]; exact hres
    have hi2 : Inv s2 := reachable_inv h5'
    have hcfg2 : s2.cfg = s.cfg := by rw [h6.shape.env]; exact hcfg
    rw [h7] at hr
    rcases chmod_effect p mode true s2 with ⟨e, _, k2⟩ | ⟨r, s3, k1, k2, k3, k4, k5, k6⟩
    · rw [hr] at k2; cases k2
    · rw [hr] at k2
      injection k2 with _ k2
      subst k2
      have := resolve_weaken hi2 (by rw [hcfg2]; exact ht) k1
      rw [hres2] at this
      injection this with this
      subst this
      have hmode : ifmt (s'.heap x).mode = ifmt (s1.heap x).mode ∧ (s'.heap x).mode &&& 0o7777 = mode &&& 0o7777 := by
        rw [show s2.cfg.isWin = false from by rw [hcfg2]; exact ht.posix.win, (h6.shape.objs x).mode] at k6
        exact ⟨chmod_type k6, chmod_perm k6⟩
      have hne : x ≠ d := fun e => by
        have := walk_lt hi _ (root_lt hi) hwk
        rw [← e] at this
        exact absurd this (Nat.not_lt.mpr h3.fresh)
      refine ⟨x, d, ?_, h3.fresh, by rw [k5]; exact h6.data, by rw [k5]; exact h6.size, ?_, hmode.2, hwk, fun y hy hyd => ?_, ?_⟩
      · rw [walk_entries (hp := s1.heap) (fun y => ?_)]
        · exact h3.name.here
        · by_cases e : y = x
          · subst e
            have e1 : (s'.heap y).content = .file (some []) := by rw [k5]; exact h6.data
            have e2 : (s1.heap y).isDir = false := by
              cases hd : (s1.heap y).isDir with
              | false => rfl
              | true =>
                have := (h6.shape.objs y).dir hd
                rw [h6.data] at this
                unfold Obj.isDir at hd; rw [← this] at hd; cases hd
            rw [mem_entries_nil e2]
            unfold Obj.entries; rw [e1]
          · rw [k4 y e, h6.others y e]
      · unfold Obj.isRegMode; rw [hmode.1]; exact h5
      · have hyx : y ≠ x := fun e => by rw [e] at hy; exact absurd hy (Nat.not_lt.mpr h3.fresh)
        rw [k4 y hyx, h6.others y hyx, h3.others y hy hyd]
      · rw [k4 d hne.symm, h6.others d hne.symm]; exact h3.listed

/-- the file `/a/f` of the example filesystem -/
theorem demo_leads : LeadsTo demo ['/', 'a', '/', 'f'] 3 [104, 105] := by
  refine ⟨by decide +kernel, by decide +kernel, by decide +kernel, by decide +kernel, by decide +kernel, by decide⟩

example : LeadsTo demo ['/', 'g'] 3 [104, 105] ∧ LeadsTo demo ['/', 'l'] 3 [104, 105] :=
  ⟨⟨by decide +kernel, by decide +kernel, by decide +kernel, by decide +kernel, by decide +kernel, by decide⟩,
    ⟨by decide +kernel, by decide +kernel, by decide +kernel, by decide +kernel, by decide +kernel, by decide⟩⟩

/-- writing through one name, reading through a symlink -/
example : (writeBytes ['/', 'g'] [1, 2, 3] demo).1 = .ok 3 ∧ (readBytes ['/', 'l'] (writeBytes ['/', 'g'] [1, 2, 3] demo).2).1 = .ok [1, 2, 3] :=
  ⟨by decide +kernel, by decide +kernel⟩

/-- `/a/x` does not exist in the example filesystem: the hypotheses of `writeBytes_new`, `touch_new` and `touch_plain` -/
example : demo.umask < 0o10000 ∧ Within demo ∧ Genuine demo ∧ ['/', 'a', '/', 'x'] ≠ demo.devName ∧ demo.exists_ ['/', 'a', '/', 'x'] = .ok false ∧
    demo.pathExists ['/', 'a', '/', 'x'] = .ok false ∧ (∀ q ld nm d, Names demo q ld nm d → mayRemove demo d) ∧
    (∀ v ∈ [['a'], ['x']], Plain demo.cfg.sep v) ∧ ['/', 'a', '/', 'x'] = absPath demo.cfg.sep [['a'], ['x']] ∧
    demo.cfg.makeStringPath ['/', 'a', '/', 'x'] = ['/', 'a', '/', 'x'] ∧
    (writeBytes ['/', 'a', '/', 'x'] [1, 2] demo).1 = .ok 2 ∧ (touch ['/', 'a', '/', 'x'] 0o777 true demo).1 = .ok () ∧
    ((touch ['/', 'a', '/', 'x'] 0o777 true demo).2.heap 6).mode = S_IFREG ||| 0o777 :=
  ⟨by decide +kernel, demo_within, demo_genuine, by decide +kernel, by decide +kernel, by decide +kernel, fun _ _ _ d _ => demo_may d, by decide +kernel, by decide +kernel,
    by decide +kernel, by decide +kernel, by decide +kernel, by decide +kernel⟩

example : demo.pathExists ['/', 'g'] = .ok true ∧ demo.resolve ['/', 'g'] = .ok 3 := ⟨by decide +kernel, by decide +kernel⟩

theorem demo_noLink_ax : NoLink demo.heap rootRef [['a'], ['x']] := by
  intro x hx
  have h : alookup ['a'] (demo.heap rootRef).entries = some 2 := by decide +kernel
  rw [h] at hx
  injection hx with hx
  subst hx
  refine ⟨by decide +kernel, ?_⟩
  intro y hy
  have h2 : alookup ['x'] (demo.heap 2).entries = none := by decide +kernel
  rw [h2] at hy; cases hy

end Verif
