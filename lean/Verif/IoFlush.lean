import Verif.EffData
import Verif.FdInv
/-!
# What flushing a file handle does
-/

namespace Verif
open Py Spec Cfg

theorem byteContents_file {s : FS} {r : Ref} {b : Option Bytes} (hr : r ≠ devNullRef) (hb : (s.heap r).content = .file b) :
    s.byteContents r = b := by
  unfold FS.byteContents
  rw [if_neg hr, hb]

theorem setH_same (s : FS) (h : Nat) (f : Handle → Handle) : (s.setH h f).handles h = f (s.handles h) := upd_same _ _ _
theorem setH_ne (s : FS) (f : Handle → Handle) {h g : Nat} (hg : g ≠ h) : (s.setH h f).handles g = s.handles g := upd_ne _ _ hg

/-- the handle after `_sync_io` -/
def Handle.synced (H : Handle) (D : Bytes) (e : Nat) : Handle :=
  if H.fileEpoch = e then H else { H with buf := D, pos := if H.append then D.length else H.pos, fileEpoch := e }

theorem upd_self {α : Type} (f : Nat → α) (r : Nat) : upd f r (f r) = f := by
  funext x
  by_cases h : x = r
  · subst h; exact upd_same _ _ _
  · exact upd_ne _ _ h

theorem setH_self (s : FS) (h : Nat) (f : Handle → Handle) (hf : f (s.handles h) = s.handles h) : s.setH h f = s := by
  unfold FS.setH
  rw [hf, upd_self]

theorem syncIo_eq {s : FS} {g : Nat} {r : Ref} {D : Bytes} (ho : (s.handles g).obj = r) (hr : r ≠ devNullRef)
    (hc : (s.heap r).content = .file (some D)) :
    syncIo g s = (.ok (), s.setH g fun H => H.synced D (s.heap r).epoch) := by
  unfold syncIo
  rw [M.bind_eq]
  dsimp only [M.get]
  rw [ho, byteContents_file hr hc]
  by_cases he : (s.handles g).fileEpoch = (s.heap r).epoch
  · rw [if_pos he, setH_self]
    · rfl
    · unfold Handle.synced; rw [if_pos he]
  · rw [if_neg he, M.bind_eq]
    unfold setStream
    dsimp only [hmod, M.modify]
    refine Prod.ext rfl ?_
    dsimp only
    have e2 : (s.setH g fun H => { H with buf := D, pos := if H.append = true then D.length else H.pos }).handles g =
      { s.handles g with buf := D, pos := if (s.handles g).append = true then D.length else (s.handles g).pos } := setH_same _ _ _
    unfold Handle.synced FS.setH
    dsimp only
    rw [upd_same, if_neg he]
    congr 1
    funext x
    by_cases hx : x = g
    · subst hx; rw [upd_same, upd_same, ← ho]
    · rw [upd_ne _ _ hx, upd_ne _ _ hx, upd_ne _ _ hx]

/-- Does flushing `h` bring the handle `G` up to date? -/
def Handle.follows (G : Handle) (r : Ref) : Prop := G.kind = .file ∧ G.obj = r ∧ G.append = false
instance (G : Handle) (r : Ref) : Decidable (G.follows r) := by unfold Handle.follows; infer_instance

theorem synced_synced (H : Handle) (D : Bytes) (e : Nat) : (H.synced D e).synced D e = H.synced D e := by
  unfold Handle.synced
  by_cases he : H.fileEpoch = e
  · rw [if_pos he, if_pos he]
  · rw [if_neg he, if_pos rfl]

theorem synced_follows (H : Handle) (D : Bytes) (e : Nat) (r : Ref) : (H.synced D e).follows r ↔ H.follows r := by
  unfold Handle.synced
  split <;> exact Iff.rfl

/-- the table of handles after `_flush_related_files` -/
def syncedAll (hs : Nat → Handle) (h : Nat) (r : Ref) (D : Bytes) (e : Nat) (l : List Nat) : Nat → Handle := fun g =>
  if g ∈ l ∧ g ≠ h ∧ (hs g).follows r then (hs g).synced D e else hs g

theorem syncAll_eq {h : Nat} {r : Ref} {D : Bytes} (hr : r ≠ devNullRef) : ∀ (l : List Nat) (s : FS),
    (s.heap r).content = .file (some D) →
    syncAll h r l s = (.ok (), { s with handles := syncedAll s.handles h r D (s.heap r).epoch l }) := by
  intro l
  induction l with
  | nil =>
    intro s hc
    have : syncedAll s.handles h r D (s.heap r).epoch [] = s.handles := by funext g; simp [syncedAll]
    rw [this]; rfl
  | cons g l ih =>
    intro s hc
    have key : syncAll h r (g :: l) s =
        (if g ≠ h ∧ (s.handles g).kind = .file ∧ (s.handles g).obj = r ∧ (s.handles g).append = false then
          (do syncIo g; syncAll h r l : M Unit) else syncAll h r l) s := by
      show (hget g >>= fun G => _) s = _
      rw [M.bind_eq]
      dsimp only [hget]
    rw [key]
    by_cases hg : g ≠ h ∧ (s.handles g).kind = .file ∧ (s.handles g).obj = r ∧ (s.handles g).append = false
    · rw [if_pos hg, M.bind_eq, syncIo_eq hg.2.2.1 hr hc]
      dsimp only
      rw [ih _ (by exact hc)]
      refine Prod.ext rfl ?_
      dsimp only [FS.setH]
      congr 1
      funext x
      unfold syncedAll
      by_cases hx : x = g
      · subst hx
        rw [upd_same, synced_synced, ite_self]
        rw [if_pos (⟨by simp, hg.1, hg.2⟩ : x ∈ x :: l ∧ x ≠ h ∧ (s.handles x).follows r)]
      · rw [upd_ne _ _ hx]
        simp [hx]
    · rw [if_neg hg, ih s hc]
      refine Prod.ext rfl ?_
      dsimp only
      congr 1
      funext x
      unfold syncedAll
      by_cases hx : x = g
      · subst hx
        rw [if_neg (fun hh => hg hh.2), if_neg (fun hh => hg hh.2)]
      · simp [hx]

/-- a time stamp after contents have been stored: now if they differ from those before (Windows delays this to `close`) -/
def flushTime (s : FS) (r : Ref) (D : Bytes) (old : Int) : Int :=
  if s.cfg.isWin = true ∨ (s.heap r).content = .file (some D) then old else s.clock

/-- What flushing the handle `h` of the file `r` leaves, if it stores the bytes `D`. -/
structure Flushed (s s' : FS) (h : Nat) (r : Ref) (D : Bytes) : Prop where
  env : s' = { s with heap := s'.heap, mounts := s'.mounts, handles := s'.handles }
  others : ∀ x, x ≠ r → s'.heap x = s.heap x
  obj : s'.heap r = { s.heap r with content := .file (some D), size := D.length, epoch := (s'.heap r).epoch,
                                    ctime := (s'.heap r).ctime, mtime := (s'.heap r).mtime }
  newer : (s.heap r).epoch < (s'.heap r).epoch
  buf : (s'.handles h).buf = D
  hand : ∀ g, g ≠ h → s'.handles g = if g ∈ s.openHandles ∧ (s.handles g).follows r then
    (s.handles g).synced D (s'.heap r).epoch else s.handles g
  times : (s'.heap r).mtime = flushTime s r D (s.heap r).mtime ∧ (s'.heap r).ctime = flushTime s r D (s.heap r).ctime
  mounts : s'.mounts = (s.withContents r D).mounts

theorem Flushed.content {s s' : FS} {h : Nat} {r : Ref} {D : Bytes} (f : Flushed s s' h r D) :
    (s'.heap r).content = .file (some D) := by rw [f.obj]

theorem withContents_epoch (s : FS) (r : Ref) (D : Bytes) : (s.heap r).epoch < ((s.withContents r D).heap r).epoch := by
  unfold FS.withContents
  dsimp only
  rw [upd_same]
  show (s.heap r).epoch < (s.heap r).epoch + _
  split <;> simp

/-- `flush` after the contents have been determined: everything is stored, or there is no space and only the
flush position has moved. -/
theorem flushStore_spec {s : FS} {h : Nat} {r : Ref} {C D : Bytes} (hr : r ≠ devNullRef)
    (ho : (s.handles h).obj = r) (hb : (s.handles h).buf = D) (hc : (s.heap r).content = .file (some C)) :
    wp (flushStore h D) (fun res s' =>
      (res = .error (.os .ENOSPC) ∧ fits (s.heap r).dev ((D.length : Int) - s.stSize (s.heap r)) s.mounts = false ∧
        s' = s.setH h fun H => { H with flushPos := H.pos }) ∨
      (res = .ok () ∧ Flushed s s' h r D ∧ fits (s.heap r).dev ((D.length : Int) - s.stSize (s.heap r)) s.mounts = true ∧
        s'.handles h = { s.handles h with flushPos := (s.handles h).pos, fileEpoch := (s'.heap r).epoch,
                                          changed := (s'.handles h).changed })) s := by
  unfold flushStore
  refine wp_bindOk (a := ()) (s' := s.setH h fun H => { H with flushPos := H.pos }) rfl ?_
  set s1 := s.setH h fun H => { H with flushPos := H.pos } with hs1
  have hh1 : s1.handles h = { s.handles h with flushPos := (s.handles h).pos } := setH_same _ _ _
  refine wp_bindOk (a := s1.handles h) (s' := s1) rfl ?_
  have ho1 : (s1.handles h).obj = r := by rw [hh1]; exact ho
  have hc1 : (s1.heap r).content = .file (some C) := hc
  rw [ho1]
  have e := setContents_eq hc1 hr D
  by_cases hf : fits (s1.heap r).dev ((D.length : Int) - s1.stSize (s1.heap r)) s1.mounts = true
  · rw [if_pos hf] at e
    refine wp_bindOk e ?_
    set s2 := s1.withContents r D with hs2
    have hd := withContents_data (s := s1) (r := r) (by unfold Obj.isDir; rw [hc1]) D
    have hc2 : (s2.heap r).content = .file (some D) := by
      rw [hs2]; unfold FS.withContents; dsimp only; rw [upd_same]
    have hsz2 : (s2.heap r).size = D.length := by
      rw [hs2]; unfold FS.withContents; dsimp only; rw [upd_same]
    have hep2 : (s1.heap r).epoch < (s2.heap r).epoch := withContents_epoch s1 r D
    have hh2 : s2.handles = s1.handles := by have := hd.env; rw [hs2, this]
    apply wp_getBind
    -- the modification times
    have fin : ∀ s3 : FS, s3 = { s2 with heap := s3.heap, handles := s3.handles } →
        (∀ x, x ≠ r → s3.heap x = s2.heap x) →
        s3.heap r = { s2.heap r with ctime := (s3.heap r).ctime, mtime := (s3.heap r).mtime } →
        (∀ g, g ≠ h → s3.handles g = s2.handles g) →
        s3.handles h = { s2.handles h with changed := (s3.handles h).changed } →
        ((s3.heap r).mtime = flushTime s r D (s.heap r).mtime ∧ (s3.heap r).ctime = flushTime s r D (s.heap r).ctime) →
        wp (M.modify (fun s => s.setH h fun H => { H with fileEpoch := (s.heap H.obj).epoch }) >>= fun _ => flushRelated h)
          (fun res s' =>
      (res = .error (.os .ENOSPC) ∧ fits (s.heap r).dev ((D.length : Int) - s.stSize (s.heap r)) s.mounts = false ∧
        s' = s1) ∨
      (res = .ok () ∧ Flushed s s' h r D ∧ fits (s.heap r).dev ((D.length : Int) - s.stSize (s.heap r)) s.mounts = true ∧
        s'.handles h = { s.handles h with flushPos := (s.handles h).pos, fileEpoch := (s'.heap r).epoch,
                                          changed := (s'.handles h).changed })) s3 := by
      intro s3 he hx hr3 hg hh ht
      apply wp_modifyBind
      have hobj3 : (s3.handles h).obj = r := by rw [hh, hh2]; exact ho1
      set s4 := s3.setH h fun H => { H with fileEpoch := (s3.heap H.obj).epoch } with hs4
      have hh4 : s4.handles h = { s3.handles h with fileEpoch := (s3.heap r).epoch } := by
        rw [hs4, setH_same]
        exact congrArg (fun x => { s3.handles h with fileEpoch := (s3.heap x).epoch }) hobj3
      have hc4 : (s4.heap r).content = .file (some D) := by
        show (s3.heap r).content = _
        rw [hr3]; exact hc2
      unfold flushRelated
      apply wp_getBind
      have hobj4 : (s4.handles h).obj = r := by rw [hh4]; exact hobj3
      rw [hobj4]
      refine wp_eq (syncAll_eq hr _ s4 hc4) (Or.inr ⟨rfl, ?_, hf, ?_⟩)
      · have hop : s4.openHandles = s.openHandles := by
          unfold FS.openHandles
          have : s4.openFiles = s.openFiles := by
            show s3.openFiles = _
            rw [he]; show s2.openFiles = _
            rw [hs2, hd.env]; rfl
          rw [this]
        have hgg : ∀ g, g ≠ h → s4.handles g = s.handles g := fun g hgh => by
          rw [hs4, setH_ne _ _ hgh, hg g hgh, hh2, hs1, setH_ne _ _ hgh]
        have hmt : s3.mounts = (s.withContents r D).mounts := by rw [he]; show s2.mounts = _; rw [hs2, hs1]; rfl
        refine ⟨?_, ?_, ?_, ?_, ?_, ?_, ht, hmt⟩
        · have e3 : s3 = { s with heap := s3.heap, mounts := s3.mounts, handles := s3.handles } := by
            rw [he]; dsimp only
            rw [hs2, hd.env, hs1]; rfl
          rw [hs4, e3]; rfl
        · intro x hxr
          show s3.heap x = s.heap x
          rw [hx x hxr, hs2, hd.others x hxr]; rfl
        · show s3.heap r = { s.heap r with content := .file (some D), size := D.length, epoch := (s3.heap r).epoch, ctime := (s3.heap r).ctime, mtime := (s3.heap r).mtime }
          have e2 : s2.heap r = { s.heap r with content := .file (some D), size := D.length, epoch := (s2.heap r).epoch } := by
            have := hd.keep
            rw [← hs2, hc2, hsz2] at this
            exact this
          rw [hr3, e2]
        · show (s.heap r).epoch < (s3.heap r).epoch
          rw [hr3]; exact hep2
        · show (syncedAll s4.handles h r D (s4.heap r).epoch s4.openHandles h).buf = D
          unfold syncedAll
          rw [if_neg (fun hh => hh.2.1 rfl), hh4, hh, hh2, hh1]
          exact hb
        · intro g hgh
          show syncedAll s4.handles h r D (s4.heap r).epoch s4.openHandles g = _
          unfold syncedAll
          rw [hgg g hgh, hop]
          have e0 : (s4.heap r).epoch = (s3.heap r).epoch := rfl
          simp only [ne_eq, hgh, not_false_eq_true, true_and]
      · show syncedAll s4.handles h r D (s4.heap r).epoch s4.openHandles h = _
        have e0 : syncedAll s4.handles h r D (s4.heap r).epoch s4.openHandles h = s4.handles h := by
          unfold syncedAll
          rw [if_neg (fun hh => hh.2.1 rfl)]
        dsimp only
        rw [e0, hh4, hh, hh2, hh1]
        rfl
    have tk : (s2.heap r).mtime = (s.heap r).mtime ∧ (s2.heap r).ctime = (s.heap r).ctime := by
      have := hd.keep
      rw [← hs2] at this
      rw [this]
      exact ⟨rfl, rfl⟩
    by_cases hch : decide (some C ≠ some D) = true
    · rw [hch]
      simp only [if_true]
      apply wp_ite
      · intro hw
        refine wp_bindOk (a := ()) (s' := s2.setH h fun H => { H with changed := true }) rfl ?_
        apply fin
        · rfl
        · intro x hx; rfl
        · rfl
        · intro g hg; exact setH_ne _ _ hg
        · rw [setH_same]
        · have hw' : s.cfg.isWin = true := hw
          rw [flushTime, flushTime, if_pos (Or.inl hw'), if_pos (Or.inl hw')]
          exact tk
      · intro hw
        apply wp_modifyBind
        apply fin
        · rfl
        · intro x hx; exact upd_ne _ _ hx
        · rw [show (s2.setObj r fun o => { o with ctime := s2.clock, mtime := s2.clock }).heap r = { s2.heap r with ctime := s2.clock, mtime := s2.clock } from upd_same _ _ _]
        · intro g hg; rfl
        · rfl
        · have hne : ¬ (s.cfg.isWin = true ∨ (s.heap r).content = .file (some D)) := by
            rintro (h1 | h1)
            · exact hw h1
            · rw [hc] at h1; injection h1 with h1; exact of_decide_eq_true hch h1
          rw [flushTime, flushTime, if_neg hne, if_neg hne]
          rw [show (s2.setObj r fun o => { o with ctime := s2.clock, mtime := s2.clock }).heap r = { s2.heap r with ctime := s2.clock, mtime := s2.clock } from upd_same _ _ _]
          exact ⟨rfl, rfl⟩
    · rw [Bool.not_eq_true] at hch
      rw [hch]
      simp only [Bool.false_eq_true, if_false]
      have hcd : (s.heap r).content = .file (some D) := by
        rw [hc]; have := of_decide_eq_false hch; rw [not_not] at this; rw [this]
      refine fin s2 rfl (fun _ _ => rfl) rfl (fun _ _ => rfl) rfl ?_
      rw [flushTime, flushTime, if_pos (Or.inr hcd), if_pos (Or.inr hcd)]
      exact tk
  · rw [if_neg hf] at e
    refine wp_bindErr e (Or.inl ⟨rfl, ?_, rfl⟩)
    rw [Bool.not_eq_true] at hf
    exact hf

theorem isOpen_setH (s : FS) (h g : Nat) (f : Handle → Handle) (hf : ∀ H : Handle, (f H).fd = H.fd) : (s.setH g f).isOpen h = s.isOpen h := by
  unfold FS.isOpen
  have : ((s.setH g f).handles h).fd = (s.handles h).fd := by
    by_cases e : h = g
    · subst e; rw [setH_same, hf]
    · rw [setH_ne _ _ e]
  rw [this]; rfl

/-- Flushing a handle that is not in append mode. -/
theorem flush_spec {s : FS} {h : Nat} {r : Ref} {C : Bytes} (hop : s.isOpen h = true) (hu : (s.handles h).update = true)
    (ha : (s.handles h).append = false) (hr : r ≠ devNullRef) (ho : (s.handles h).obj = r)
    (hc : (s.heap r).content = .file (some C)) :
    wp (flush h) (fun res s' =>
      (res = .error (.os .ENOSPC) ∧ s' = s.setH h fun H => { H with flushPos := H.pos }) ∨
      (res = .ok () ∧ Flushed s s' h r (s.handles h).buf ∧
        s'.handles h = { s.handles h with flushPos := (s.handles h).pos, fileEpoch := (s'.heap r).epoch,
                                          changed := (s'.handles h).changed })) s := by
  unfold flush
  refine wp_bindOk (a := ()) (s' := s) (by unfold checkOpen; rw [if_pos hop]) ?_
  refine wp_bindOk (a := s.handles h) (s' := s) rfl ?_
  rw [if_pos hu]
  refine wp_bindOk (a := (s.handles h).buf) (s' := s) ?_ ?_
  · unfold flushContents
    rw [M.bind_eq]
    dsimp only [hget]
    rw [ha]; rfl
  · apply wp_mono (flushStore_spec hr ho rfl hc)
    rintro res s' (⟨h1, _, h2⟩ | ⟨h1, h2, _, h3⟩)
    · exact Or.inl ⟨h1, h2⟩
    · exact Or.inr ⟨h1, h2, h3⟩

/-- … with the condition for failing. -/
theorem flush_room {s : FS} {h : Nat} {r : Ref} {C : Bytes} (hop : s.isOpen h = true) (hu : (s.handles h).update = true)
    (ha : (s.handles h).append = false) (hr : r ≠ devNullRef) (ho : (s.handles h).obj = r)
    (hc : (s.heap r).content = .file (some C)) :
    wp (flush h) (fun res s' =>
      (res = .error (.os .ENOSPC) ∧ fits (s.heap r).dev (((s.handles h).buf.length : Int) - s.stSize (s.heap r)) s.mounts = false ∧
        s' = s.setH h fun H => { H with flushPos := H.pos }) ∨
      (res = .ok () ∧ Flushed s s' h r (s.handles h).buf ∧
        fits (s.heap r).dev (((s.handles h).buf.length : Int) - s.stSize (s.heap r)) s.mounts = true ∧
        s'.handles h = { s.handles h with flushPos := (s.handles h).pos, fileEpoch := (s'.heap r).epoch,
                                          changed := (s'.handles h).changed })) s := by
  unfold flush
  refine wp_bindOk (a := ()) (s' := s) (by unfold checkOpen; rw [if_pos hop]) ?_
  refine wp_bindOk (a := s.handles h) (s' := s) rfl ?_
  rw [if_pos hu]
  refine wp_bindOk (a := (s.handles h).buf) (s' := s) ?_ ?_
  · unfold flushContents
    rw [M.bind_eq]
    dsimp only [hget]
    rw [ha]; rfl
  · exact flushStore_spec hr ho rfl hc

/-- Flushing a handle in append mode: the bytes after the flush position are put behind what is in the file now. -/
theorem flush_append_room {s : FS} {h : Nat} {r : Ref} {C : Bytes} (hop : s.isOpen h = true) (hu : (s.handles h).update = true)
    (ha : (s.handles h).append = true) (hr : r ≠ devNullRef) (ho : (s.handles h).obj = r)
    (hc : (s.heap r).content = .file (some C)) :
    wp (flush h) (fun res s' =>
      (res = .error (.os .ENOSPC) ∧
        fits (s.heap r).dev ((C ++ (s.handles h).buf.drop (s.handles h).flushPos).length - s.stSize (s.heap r) : Int) s.mounts = false ∧
        s'.heap = s.heap ∧ s' = { s with handles := s'.handles } ∧ ∀ g, g ≠ h → s'.handles g = s.handles g) ∨
      (res = .ok () ∧ Flushed s s' h r (C ++ (s.handles h).buf.drop (s.handles h).flushPos) ∧
        s'.handles h = { s.handles h with buf := C ++ (s.handles h).buf.drop (s.handles h).flushPos,
                                          pos := (C ++ (s.handles h).buf.drop (s.handles h).flushPos).length,
                                          flushPos := (C ++ (s.handles h).buf.drop (s.handles h).flushPos).length,
                                          fileEpoch := (s'.heap r).epoch, changed := (s'.handles h).changed })) s := by
  unfold flush
  refine wp_bindOk (a := ()) (s' := s) (by unfold checkOpen; rw [if_pos hop]) ?_
  refine wp_bindOk (a := s.handles h) (s' := s) rfl ?_
  rw [if_pos hu]
  set D := C ++ (s.handles h).buf.drop (s.handles h).flushPos with hD
  obtain ⟨s1, e1, hh1, hg1, hs1⟩ : ∃ s1, flushContents h s = (.ok D, s1) ∧
      s1.handles h = { s.handles h with buf := D, pos := D.length, fileEpoch := (s.heap r).epoch } ∧
      (∀ g, g ≠ h → s1.handles g = s.handles g) ∧ s1 = { s with handles := s1.handles } := by
    unfold flushContents
    rw [M.bind_eq]
    dsimp only [hget]
    rw [if_pos ha, M.bind_eq, syncIo_eq ho hr hc]
    dsimp only
    rw [M.bind_eq]
    dsimp only [M.get]
    set s1 := s.setH h fun H => H.synced C (s.heap r).epoch with hs1
    rw [ho, byteContents_file (s := s1) hr hc]
    refine ⟨_, rfl, ?_, ?_, rfl⟩
    · show (s1.setH h _).handles h = _
      rw [setH_same, hs1, setH_same]
      unfold Handle.synced
      split
      · rename_i he; simp only [ha, if_true, ho]; rw [← he]
      · simp only [ha, if_true, ho]; rfl
    · intro g hg
      show (s1.setH h _).handles g = _
      rw [setH_ne _ _ hg, hs1, setH_ne _ _ hg]
  refine wp_bindOk e1 ?_
  have ho1 : (s1.handles h).obj = r := by rw [hh1]; exact ho
  have hc1 : (s1.heap r).content = .file (some C) := by rw [hs1]; exact hc
  apply wp_mono (flushStore_spec hr ho1 (by rw [hh1]) hc1)
  rintro res s' (⟨h1, hf, h2⟩ | ⟨h1, h2, _, h3⟩)
  · refine Or.inl ⟨h1, ?_, ?_, ?_, ?_⟩
    · rw [hs1] at hf; exact hf
    · rw [h2]; show s1.heap = _; rw [hs1]
    · rw [h2, hs1]; rfl
    · intro g hg
      rw [h2, setH_ne _ _ hg, hg1 g hg]
  · refine Or.inr ⟨h1, ?_, ?_⟩
    · have eh : s1.heap = s.heap := by rw [hs1]
      have eo : s1.openHandles = s.openHandles := by unfold FS.openHandles; rw [hs1]
      have et : ∀ x, flushTime s1 r D x = flushTime s r D x := fun x => by rw [hs1]; rfl
      refine ⟨?_, ?_, ?_, ?_, h2.buf, ?_, by have := h2.times; rw [et, et, eh] at this; exact this, by rw [h2.mounts, hs1]; rfl⟩
      · rw [h2.env, hs1]
      · intro x hx; rw [h2.others x hx, eh]
      · rw [← eh]; exact h2.obj
      · rw [← eh]; exact h2.newer
      · intro g hg
        rw [h2.hand g hg, hg1 g hg, eo]
    · rw [h3, hh1]

/-- … without the condition for failing. -/
theorem flush_append_spec {s : FS} {h : Nat} {r : Ref} {C : Bytes} (hop : s.isOpen h = true) (hu : (s.handles h).update = true)
    (ha : (s.handles h).append = true) (hr : r ≠ devNullRef) (ho : (s.handles h).obj = r)
    (hc : (s.heap r).content = .file (some C)) :
    wp (flush h) (fun res s' =>
      (res = .error (.os .ENOSPC) ∧ s'.heap = s.heap ∧ s' = { s with handles := s'.handles } ∧ ∀ g, g ≠ h → s'.handles g = s.handles g) ∨
      (res = .ok () ∧ Flushed s s' h r (C ++ (s.handles h).buf.drop (s.handles h).flushPos) ∧
        (s'.handles h).pos = (s'.handles h).buf.length ∧ (s'.handles h).flushPos = (s'.handles h).buf.length ∧
        (s'.handles h).fileEpoch = (s'.heap r).epoch ∧ (s'.handles h).readSeek = (s.handles h).readSeek ∧
        (s'.handles h).readWhence = (s.handles h).readWhence ∧ (s'.handles h).rawIo = (s.handles h).rawIo)) s := by
  apply wp_mono (flush_append_room hop hu ha hr ho hc)
  rintro res s' (⟨h1, _, h2⟩ | ⟨h1, h2, h3⟩)
  · exact Or.inl ⟨h1, h2⟩
  · refine Or.inr ⟨h1, h2, ?_, ?_, ?_, ?_, ?_, ?_⟩ <;> rw [h3]

/-- Flushing a handle that may not write does nothing. -/
theorem flush_readonly {s : FS} {h : Nat} (hop : s.isOpen h = true) (hu : (s.handles h).update = false) : flush h s = (.ok (), s) := by
  unfold flush
  rw [M.bind_eq]
  unfold checkOpen
  rw [if_pos hop]
  dsimp only
  rw [M.bind_eq]
  dsimp only [hget]
  rw [hu]; rfl

theorem Flushed.isOpen {s s' : FS} {h : Nat} {r : Ref} {D : Bytes} (f : Flushed s s' h r D) (hfd : (s'.handles h).fd = (s.handles h).fd) :
    s'.isOpen h = s.isOpen h := by
  unfold FS.isOpen
  have : s'.openFiles = s.openFiles := by rw [f.env]
  rw [this, hfd]

end Verif
