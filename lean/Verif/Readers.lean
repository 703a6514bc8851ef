import Verif.Epoch
/-!
# File objects that only read see the current contents
-/

namespace Verif
open Py Spec Cfg

/-- the handle `h` knows no later state of its file than the present one -/
structure EOk (h : Nat) (s : FS) : Prop where
  lt : (s.handles h).obj < s.next
  le : (s.handles h).fileEpoch ≤ (s.heap (s.handles h).obj).epoch

/-- an up-to-date handle `h` has the bytes of the file in its buffer -/
def Clean (h : Nat) (s : FS) : Prop :=
  (s.handles h).fileEpoch = (s.heap (s.handles h).obj).epoch → ∀ b, bytesOf s (s.handles h).obj = some b → (s.handles h).buf = b

/-- the part of a handle that never changes -/
structure SameFlags (H H' : Handle) : Prop where
  kind : H'.kind = H.kind
  obj : H'.obj = H.obj
  append : H'.append = H.append
  read : H'.read = H.read
  update : H'.update = H.update

/-- What happens to the reading handle `h` between two states. -/
structure Obs (h : Nat) (s s' : FS) : Prop where
  ep : Epoch s s'
  hnext : s.hnext ≤ s'.hnext
  keep : h < s.hnext → (s.handles h).append = false → (s.handles h).obj ≠ devNullRef → EOk h s →
    EOk h s' ∧ SameFlags (s.handles h) (s'.handles h) ∧ (Clean h s → Clean h s')

/-- the handle is untouched -/
theorem Obs.of {h : Nat} {s s' : FS} (he : Epoch s s') (h1 : s.hnext ≤ s'.hnext) (h2 : h < s.hnext → s'.handles h = s.handles h) : Obs h s s' := by
  refine ⟨he, h1, fun hl _ _ hk => ?_⟩
  have e := h2 hl
  refine ⟨⟨by rw [e]; exact Nat.lt_of_lt_of_le hk.lt he.next, by rw [e]; exact Nat.le_trans hk.le (he.epoch _ hk.lt)⟩,
    by rw [e]; exact ⟨rfl, rfl, rfl, rfl, rfl⟩, fun hc => ?_⟩
  unfold Clean
  rw [e]
  intro e1 b hb
  have e2 : (s'.heap (s.handles h).obj).epoch = (s.heap (s.handles h).obj).epoch :=
    Nat.le_antisymm (e1 ▸ hk.le) (he.epoch _ hk.lt)
  rcases he.data _ hk.lt e2 with d | d
  · exact hc (e1.trans e2) b (by rw [← d]; exact hb)
  · rw [d] at hb; simp at hb

theorem Obs.refl (h : Nat) (s : FS) : Obs h s s := Obs.of (OpRel.refl s) (Nat.le_refl _) fun _ => rfl

theorem Obs.trans {h : Nat} {a b c : FS} (x : Obs h a b) (y : Obs h b c) : Obs h a c := by
  refine ⟨x.ep.trans y.ep, Nat.le_trans x.hnext y.hnext, fun hl ha hn hk => ?_⟩
  obtain ⟨k1, f1, c1⟩ := x.keep hl ha hn hk
  obtain ⟨k2, f2, c2⟩ := y.keep (Nat.lt_of_lt_of_le hl x.hnext) (f1.append.trans ha) (by rw [f1.obj]; exact hn) k1
  exact ⟨k2, ⟨f2.kind.trans f1.kind, f2.obj.trans f1.obj, f2.append.trans f1.append, f2.read.trans f1.read, f2.update.trans f1.update⟩, fun h => c2 (c1 h)⟩

/-- the handles are untouched -/
structure SameH (s s' : FS) : Prop where
  hnext : s'.hnext = s.hnext
  handles : s'.handles = s.handles

instance : TreeRel SameH where
  refl _ := ⟨rfl, rfl⟩
  trans a b := ⟨b.hnext.trans a.hnext, b.handles.trans a.handles⟩
  tree _ _ _ _ _ _ := ⟨rfl, rfl⟩

theorem fb_tree {h : Nat} {α : Type} {m : M α} (h1 : Fr Epoch m) (h2 : Fr SameH m) : Fr (Obs h) m := fun s =>
  Obs.of (h1 s) (Nat.le_of_eq (h2 s).hnext.symm) fun _ => by rw [(h2 s).handles]

theorem Epoch.heap {s s' : FS} (h : s'.heap = s.heap) (hn : s'.next = s.next) : Epoch s s' where
  next := Nat.le_of_eq hn.symm
  kind r _ := by rw [h]
  epoch r _ := by rw [h]
  data r _ _ := by unfold bytesOf; rw [h]; exact .inl rfl

section
variable {h : Nat}
theorem fb_pure {α : Type} (a : α) : Fr (Obs h) (M.pure a) := fun s => Obs.refl h s
theorem fb_pure' {α : Type} (a : α) : Fr (Obs h) (pure a : M α) := fun s => Obs.refl h s
theorem fb_throw {α : Type} (e : Err) : Fr (Obs h) (M.throw e : M α) := fun s => Obs.refl h s
theorem fb_raise {α : Type} (e : Errno) : Fr (Obs h) (M.raise e : M α) := fun s => Obs.refl h s
theorem fb_get : Fr (Obs h) M.get := fun s => Obs.refl h s
theorem fb_rd {α : Type} (f : FS → Except Err α) : Fr (Obs h) (rd f) := fun s => Obs.refl h s
theorem fb_hget (g : Nat) : Fr (Obs h) (hget g) := fun s => Obs.refl h s

theorem fb_bind {α β : Type} {m : M α} {f : α → M β} (hm : Fr (Obs h) m) (hf : ∀ a, Fr (Obs h) (f a)) : Fr (Obs h) (m >>= f) := by
  intro s
  show Obs h s (M.bind m f s).2
  unfold M.bind
  have h1 := hm s
  rcases hr : m s with ⟨r, s'⟩
  rw [hr] at h1
  cases r with
  | error e => exact h1
  | ok a => exact h1.trans (hf a s')

theorem fb_ite {α : Type} {c : Prop} [Decidable c] {a b : M α} (ha : c → Fr (Obs h) a) (hb : ¬ c → Fr (Obs h) b) : Fr (Obs h) (if c then a else b) := by
  split
  · exact ha ‹_›
  · exact hb ‹_›

theorem fb_tryCatch {α : Type} {m : M α} {k : Err → M α} (hm : Fr (Obs h) m) (hk : ∀ e, Fr (Obs h) (k e)) : Fr (Obs h) (M.tryCatch m k) := by
  intro s
  unfold M.tryCatch
  have h1 := hm s
  rcases hr : m s with ⟨r, s'⟩
  rw [hr] at h1
  cases r with
  | error e => exact h1.trans (hk e s')
  | ok a => exact h1

theorem fb_catchOS {α : Type} {m : M α} {k : Err → M α} (hm : Fr (Obs h) m) (hk : ∀ e, Fr (Obs h) (k e)) : Fr (Obs h) (catchOS m k) :=
  fb_tryCatch hm fun e => fb_ite (fun _ => hk e) fun _ => fb_throw e

theorem fb_void {α : Type} {m : M α} (hm : Fr (Obs h) m) : Fr (Obs h) m.void := fb_bind hm fun _ => fb_pure _

theorem fb_setSize (r : Ref) (n : Nat) : Fr (Obs h) (setSize r n) := fb_tree (fo_setSize r n) (fr_setSize r n)
theorem fb_setContents (r : Ref) (b : Bytes) : Fr (Obs h) (setContents r b) := fb_tree (fo_setContents r b) (fr_setContents r b)
theorem fb_removeObject (p : Str) : Fr (Obs h) (removeObject p) := fb_tree (fo_removeObject p) (fr_removeObject p)
theorem fb_chmod (p : Str) (m : Nat) (f : Bool) : Fr (Obs h) (chmod p m f) := fb_tree (epoch_chmod p m f) (fr_chmod p m f)
theorem fb_setObj (r : Ref) (f : FS → Obj → Obj) (hf : ∀ s o, (f s o).content = o.content ∧ (f s o).epoch = o.epoch) :
    Fr (Obs h) (M.modify fun s => s.setObj r (f s)) := fun s =>
  Obs.of (epoch_meta s r _ (fun o => (hf s o).1) fun o => (hf s o).2) (Nat.le_refl _) fun _ => rfl
end

section
variable {h g : Nat}

theorem fb_hmod (hg : g ≠ h) (f : Handle → Handle) : Fr (Obs h) (hmod g f) :=
  fun s => Obs.of (OpRelIO.hand _ _ _ _ _) (Nat.le_refl _) fun _ => setH_ne s f (Ne.symm hg)

theorem fb_setHs (hg : g ≠ h) (f : FS → Handle → Handle) : Fr (Obs h) (M.modify fun s => s.setH g (f s)) :=
  fun s => Obs.of (OpRelIO.hand _ _ _ _ _) (Nat.le_refl _) fun _ => setH_ne s (f s) (Ne.symm hg)

/-- Compositional steps. -/
macro "fb" hg:term : tactic => `(tactic|
  repeat' first
    | with_reducible assumption
    | with_reducible exact fb_pure _
    | with_reducible exact fb_pure' _
    | with_reducible exact fb_throw _
    | with_reducible exact fb_raise _
    | with_reducible exact fb_get
    | with_reducible exact fb_rd _
    | with_reducible exact fb_hget _
    | with_reducible exact fb_setSize _ _
    | with_reducible exact fb_setContents _ _
    | with_reducible exact fb_removeObject _
    | with_reducible exact fb_hmod $hg _
    | with_reducible exact fb_setHs $hg _
    | with_reducible exact fb_setObj _ _ (fun _ _ => ⟨rfl, rfl⟩)
    | with_reducible apply fb_bind
    | with_reducible apply fb_ite
    | with_reducible apply fb_catchOS
    | with_reducible apply fb_tryCatch
    | split
    | with_reducible intro _
    | dsimp only)

theorem fb_checkOpen (k : Nat) : Fr (Obs h) (checkOpen k) := by
  intro s
  unfold checkOpen
  split <;> exact Obs.refl h s

theorem fb_setStream (hg : g ≠ h) (b : Option Bytes) : Fr (Obs h) (setStream g b) := by
  unfold setStream
  fb hg

theorem fb_syncIo (hg : g ≠ h) : Fr (Obs h) (syncIo g) := by
  have := fun b => fb_setStream hg b
  unfold syncIo
  fb hg
  exact this _

theorem byteContents_bytesOf {s : FS} {r : Ref} (hr : r ≠ devNullRef) : s.byteContents r = bytesOf s r := by
  unfold FS.byteContents; rw [if_neg hr]; rfl

theorem syncIo_none {s : FS} (hn : (s.handles h).obj ≠ devNullRef) (hb : bytesOf s (s.handles h).obj = none)
    (he : (s.handles h).fileEpoch ≠ (s.heap (s.handles h).obj).epoch) :
    syncIo h s = (.error .typeError, s.setH h fun H => { H with buf := [], pos := 0 }) := by
  unfold syncIo
  rw [M.bind_eq]
  dsimp only [M.get]
  rw [if_neg he, M.bind_eq, byteContents_bytesOf hn, hb]
  rfl

theorem syncIo_fresh {s : FS} (he : (s.handles h).fileEpoch = (s.heap (s.handles h).obj).epoch) : syncIo h s = (.ok (), s) := by
  unfold syncIo
  rw [M.bind_eq]
  dsimp only [M.get]
  rw [if_pos he]
  rfl

/-- `_sync_io` brings the handle up to date. -/
theorem fb_syncSelf : Fr (Obs h) (syncIo h) := by
  intro s
  refine ⟨fo_syncIo h s, Nat.le_of_eq (fq_syncIo h s).hnext.symm, fun hl ha hn hk => ?_⟩
  have q := fq_syncIo h s
  refine (fun (x : EOk h (syncIo h s).2 ∧ (Clean h s → Clean h (syncIo h s).2)) =>
    ⟨x.1, ⟨q.kind h, q.obj h, q.append h, q.read h, q.update h⟩, x.2⟩) ?_
  by_cases he : (s.handles h).fileEpoch = (s.heap (s.handles h).obj).epoch
  · rw [syncIo_fresh he]; exact ⟨hk, id⟩
  cases hb : bytesOf s (s.handles h).obj with
  | none =>
    rw [syncIo_none hn hb he]
    have e := setH_same s h fun H => { H with buf := [], pos := 0 }
    refine ⟨⟨?_, ?_⟩, fun _ => ?_⟩
    · rw [e]; exact hk.lt
    · rw [e]; exact hk.le
    · unfold Clean
      rw [e]
      intro e2
      exact absurd e2 he
  | some D =>
    rw [syncIo_eq rfl hn (bytesOf_some.mp hb)]
    have e := setH_same s h fun H => H.synced D (s.heap (s.handles h).obj).epoch
    have e2 : (s.handles h).synced D (s.heap (s.handles h).obj).epoch = { s.handles h with buf := D, pos := if (s.handles h).append then D.length else (s.handles h).pos, fileEpoch := (s.heap (s.handles h).obj).epoch } := by
      unfold Handle.synced; rw [if_neg he]
    rw [e2] at e
    refine ⟨⟨?_, ?_⟩, fun _ => ?_⟩
    · rw [e]; exact hk.lt
    · rw [e]; exact Nat.le_refl _
    · unfold Clean
      rw [e]
      intro _ b hb'
      have hb3 : some D = some b := hb.symm.trans hb'
      injection hb3

theorem fb_syncAll (k : Nat) (r : Ref) : ∀ l, Fr (Obs h) (syncAll k r l) := by
  intro l
  induction l with
  | nil => exact fb_pure _
  | cons g l ih =>
    intro s
    show Obs h s ((hget g >>= fun G => _) s).2
    rw [M.bind_eq]
    dsimp only [hget]
    split
    · rename_i hc
      by_cases hg : g = h
      · subst hg; exact fb_bind fb_syncSelf (fun _ => ih) s
      · exact fb_bind (fb_syncIo hg) (fun _ => ih) s
    · exact ih s

theorem fb_flushRelated (k : Nat) : Fr (Obs h) (flushRelated k) := by
  unfold flushRelated
  exact fb_bind fb_get fun s => fb_syncAll _ _ _

theorem fb_flushContents (hg : g ≠ h) : Fr (Obs h) (flushContents g) := by
  have h1 := fb_syncIo (h := h) hg
  have h2 := fun b => fb_setStream (h := h) hg b
  unfold flushContents
  repeat' first
    | with_reducible exact h2 _
    | fb hg

theorem fb_flushStore (hg : g ≠ h) (c : Bytes) : Fr (Obs h) (flushStore g c) := by
  have h1 := fb_flushRelated (h := h) g
  unfold flushStore
  fb hg

theorem fb_flush (hg : g ≠ h) : Fr (Obs h) (flush g) := by
  unfold flush
  refine fb_bind (fb_checkOpen _) fun _ => fb_bind (fb_hget _) fun H => ?_
  apply fb_ite
  · intro _; exact fb_bind (fb_flushContents hg) fun c => fb_flushStore hg c
  · intro _; exact fb_pure _

theorem fb_seek (hg : g ≠ h) (o : Int) (w : Nat) : Fr (Obs h) (seek g o w) := by
  have h1 := fb_flush (h := h) hg
  have h2 := fb_checkOpen (h := h) g
  unfold seek
  fb hg

theorem fb_tell (hg : g ≠ h) : Fr (Obs h) (tell g) := by
  have h1 := fb_flush (h := h) hg
  have h2 := fb_checkOpen (h := h) g
  unfold tell
  fb hg

theorem fb_hRaise {α : Type} (g : Nat) : Fr (Obs h) (hRaise g : M α) := by
  unfold hRaise
  exact fb_bind (fb_hget _) fun H => fb_ite (fun _ => fb_raise _) fun _ => fb_throw _

theorem fb_read (hg : g ≠ h) (n : Option Nat) : Fr (Obs h) (read g n) := by
  have h1 := fb_flush (h := h) hg
  have h2 := fb_checkOpen (h := h) g
  have h3 := fb_hRaise (α := Bytes) (h := h) g
  have h4 := fb_syncIo (h := h) hg
  unfold read
  fb hg

theorem fb_rawWrite (hg : g ≠ h) (b : Bytes) : Fr (Obs h) (rawWrite g b) := fb_hmod hg _

theorem fb_tryFlush (hg : g ≠ h) (o : Nat) : Fr (Obs h) (tryFlush g o) := by
  have h1 := fb_flush (h := h) hg
  unfold tryFlush
  fb hg

theorem fb_writeWrapper (hg : g ≠ h) (b : Bytes) : Fr (Obs h) (writeWrapper g b) := by
  have h1 := fun b => fb_rawWrite (h := h) hg b
  have h2 := fun o => fb_tryFlush (h := h) hg o
  unfold writeWrapper
  repeat' first
    | with_reducible exact h1 _
    | with_reducible exact h2 _
    | with_reducible exact fb_pure _
    | with_reducible exact fb_hget _
    | with_reducible exact fb_hmod hg _
    | with_reducible apply fb_bind
    | with_reducible apply fb_ite
    | with_reducible intro _
    | dsimp only

theorem fb_write (hg : g ≠ h) (b : Bytes) : Fr (Obs h) (write g b) := by
  have h1 := fb_writeWrapper (h := h) hg b
  have h2 := fb_checkOpen (h := h) g
  have h3 := fb_hRaise (α := Nat) (h := h) g
  unfold write
  fb hg

theorem fb_adaptSize (k n : Nat) : Fr (Obs h) (adaptSize k n) := by
  intro s
  show Obs h s _
  have : ∀ (l : List Nat) (s : FS), Obs h s (l.foldl (fun s' g =>
      if g ≠ k ∧ (s'.handles g).kind = .file ∧ (s'.handles g).obj = (s'.handles k).obj ∧ (s'.handles g).append then
        s'.setH g fun G => { G with readSeek := G.readSeek + n }
      else s') s) := by
    intro l
    induction l with
    | nil => intro s; exact Obs.refl h s
    | cons g l ih =>
      intro s
      rw [List.foldl_cons]
      refine Obs.trans ?_ (ih _)
      split
      · rename_i hc
        by_cases hg : h = g
        · subst hg
          exact ⟨OpRelIO.hand _ _ _ _ _, Nat.le_refl _, fun _ ha => by rw [hc.2.2.2] at ha; simp at ha⟩
        · exact Obs.of (OpRelIO.hand _ _ _ _ _) (Nat.le_refl _) fun _ => setH_ne _ _ hg
      · exact Obs.refl h s
  exact this _ s

theorem fb_truncateWrapper (hg : g ≠ h) (n : Option Nat) : Fr (Obs h) (truncateWrapper g n) := by
  have h1 := fb_flush (h := h) hg
  have h2 := fun m => fb_adaptSize (h := h) g m
  unfold truncateWrapper
  repeat' first
    | with_reducible assumption
    | with_reducible exact h2 _
    | with_reducible exact fb_pure _
    | with_reducible exact fb_throw _
    | with_reducible exact fb_hget _
    | with_reducible exact fb_setSize _ _
    | with_reducible exact fb_setContents _ _
    | with_reducible exact fb_hmod hg _
    | with_reducible apply fb_bind
    | with_reducible apply fb_ite
    | split
    | with_reducible intro _
    | dsimp only

theorem fb_hTruncate (hg : g ≠ h) (n : Option Nat) : Fr (Obs h) (hTruncate g n) := by
  have h1 := fb_truncateWrapper (h := h) hg n
  have h2 := fb_checkOpen (h := h) g
  have h3 := fb_hRaise (α := Nat) (h := h) g
  unfold hTruncate
  fb hg

theorem fb_closeOpenFile (fd : Nat) : Fr (Obs h) (closeOpenFile fd) := fun _ => Obs.of (OpRelIO.hand _ _ _ _ _) (Nat.le_refl _) fun _ => rfl

theorem fb_hClose (hg : g ≠ h) : Fr (Obs h) (hClose g) := by
  have h1 := fb_flush (h := h) hg
  have h2 := fun fd => fb_closeOpenFile (h := h) fd
  have hm : ∀ fd, Fr (Obs h) (M.modify fun s => { s with openFiles := s.openFiles.modify fd fun e => e.map fun l => l.erase g }) :=
    fun fd s => Obs.of (OpRelIO.hand _ _ _ _ _) (Nat.le_refl _) fun _ => rfl
  have ho : ∀ r, Fr (Obs h) (M.modify fun s => s.setObj r fun o => { o with mtime := s.clock }) :=
    fun r => fb_setObj r (fun s o => { o with mtime := s.clock }) fun _ _ => ⟨rfl, rfl⟩
  unfold hClose
  refine fb_bind fb_get fun s => ?_
  dsimp only
  repeat' first
    | with_reducible assumption
    | with_reducible exact h2 _
    | with_reducible exact hm _
    | with_reducible exact ho _
    | with_reducible exact fb_removeObject _
    | with_reducible exact fb_pure _
    | with_reducible exact fb_pure' _
    | with_reducible exact fb_get
    | with_reducible apply fb_bind
    | with_reducible apply fb_ite
    | split
    | with_reducible intro _
    | dsimp only

theorem fb_newHandle (H : Handle) : Fr (Obs h) (newHandle H) := fun s =>
  Obs.of (OpRelIO.hand _ _ _ _ _) (Nat.le_succ _) fun hl => upd_ne _ _ (Nat.ne_of_lt hl)

/-- opening registers a new handle -/
theorem fb_register (H : Handle) {α : Type} (f : Nat → Nat → α) : Fr (Obs h) (newHandle H >>= fun k =>
    addOpenFile k >>= fun fd => hmod k (fun H => { H with fd := fd }) >>= fun _ => M.pure (f k fd)) := by
  intro s
  refine Obs.of ?_ ?_ fun hl => ?_
  · exact fo_bind (R := Epoch) (fo_newHandle _) (fun k => fo_bind (fo_addOpenFile k) fun fd => fo_bind (fo_hmod _ _) fun _ => fo_pure _) s
  · have : Fr Flags (newHandle H >>= fun k =>
        addOpenFile k >>= fun fd => hmod k (fun H => { H with fd := fd }) >>= fun _ => M.pure (f k fd)) :=
      fr_bind (ff_newHandle _) fun k => fr_bind (ff_addOpenFile k) fun fd => fr_bind (ff_hmodFd k fd) fun _ => fr_pure _
    exact (this s).hnext
  · rw [M.bind_eq]
    dsimp only [newHandle]
    rw [M.bind_eq]
    have : ∀ t : FS, ∃ fd t', addOpenFile s.hnext t = (.ok fd, t') ∧ t'.handles = t.handles := by
      intro t
      unfold addOpenFile
      split
      · exact ⟨_, _, rfl, rfl⟩
      · exact ⟨_, _, rfl, rfl⟩
    obtain ⟨fd, t', e1, e2⟩ := this { s with handles := upd s.handles s.hnext H, hnext := s.hnext + 1 }
    rw [e1]
    dsimp only
    rw [M.bind_eq]
    dsimp only [hmod, M.modify, M.pure]
    rw [setH_ne _ _ (Nat.ne_of_lt hl), e2]
    exact upd_ne _ _ (Nat.ne_of_lt hl)

theorem sh_openObject (o : Option Ref) (p r : Str) (md : OpenModes) : Fr SameH (openObject o p r md) := by
  have h1 : Fr SameH (initFileObject o p r md) := by
    unfold initFileObject
    repeat' first
      | with_reducible exact fr_createFileI _ _ _ _ _ _
      | with_reducible exact fr_pure _
      | with_reducible exact fr_pure' _
      | with_reducible exact fr_throw _
      | with_reducible exact fr_raise _
      | with_reducible exact fr_get
      | with_reducible exact fr_rd _
      | with_reducible exact fr_setContents _ _
      | with_reducible apply fr_bind
      | with_reducible apply fr_ite
      | split
      | with_reducible intro _
      | dsimp only
  have h2 : ∀ r, Fr SameH (M.modify fun s => s.setObj r fun o =>
      { o with mtime := s.clock, ctime := if s.cfg.isWin then o.ctime else s.clock }) :=
    fun r => fr_setObj r (fun s o => { o with mtime := s.clock, ctime := if s.cfg.isWin then o.ctime else s.clock })
  unfold openObject
  repeat' first
    | with_reducible exact h1
    | with_reducible exact h2 _
    | with_reducible exact fr_pure _
    | with_reducible exact fr_pure' _
    | with_reducible exact fr_raise _
    | with_reducible exact fr_get
    | with_reducible exact fr_rd _
    | with_reducible apply fr_bind
    | with_reducible apply fr_ite
    | with_reducible intro _
    | dsimp only

theorem fb_openObject (o : Option Ref) (p r : Str) (md : OpenModes) : Fr (Obs h) (openObject o p r md) :=
  fb_tree (fo_openObject o p r md) (sh_openObject o p r md)

theorem fb_openPath (p : Str) (md : OpenModes) (bf : Option Nat) (raw del : Bool) : Fr (Obs h) (openPath p md bf raw del) := by
  unfold openPath
  refine fb_bind (fb_rd _) fun a => ?_
  refine fb_bind (fb_openObject _ _ _ _) fun r => ?_
  refine fb_bind fb_get fun s => ?_
  dsimp only
  have tail := fb_register (h := h) (mkHandle s r md bf true raw del 0) fun k _ => k
  apply fb_ite
  · intro _; exact fb_bind (fb_throw _) fun _ => tail
  · intro _; exact tail

theorem fb_openFd (fd : Nat) (md : OpenModes) (bf : Option Nat) (c : Bool) : Fr (Obs h) (openFd fd md bf c) := by
  have tail : ∀ W : Handle, Fr (Obs h) (do
      let s ← M.get
      let nm := (s.heap W.obj).name
      let r ← openObject (some W.obj) nm nm md
      let s ← M.get
      let h ← newHandle (mkHandle s r md bf (c || fd == 0) false W.deleteOnClose fd)
      M.modify fun s => { s with openFiles := s.openFiles.modify fd fun e => e.map fun l => l ++ [h] }
      M.pure h) := by
    intro W
    refine fb_bind fb_get fun s => ?_
    dsimp only
    refine fb_bind (fb_openObject _ _ _ _) fun r => ?_
    refine fb_bind fb_get fun s => ?_
    refine fb_bind (fb_newHandle _) fun h => ?_
    exact fb_bind (fun s => Obs.of (OpRelIO.hand _ _ _ _ _) (Nat.le_refl _) fun _ => rfl) fun _ => fb_pure _
  unfold openFd
  refine fb_bind (fb_rd _) fun w => ?_
  refine fb_bind (fb_hget _) fun W => ?_
  dsimp only
  apply fb_ite
  · intro _; exact fb_bind (fb_throw _) fun _ => tail W
  · intro _; exact tail W

theorem fb_osOpen (p : Str) (f : OFlags) (mode : Nat) : Fr (Obs h) (osOpen p f mode) := by
  unfold osOpen
  dsimp only
  have tail : Fr (Obs h) (do
      let s ← M.get
      match ← rd (·.openDirArg p) with
      | some r => do
        if (!f.modes.mustExist && !s.cfg.isMac) || f.modes.canWrite then M.raise .EISDIR
        let h ← newHandle { mkHandle s r f.modes none true true false 0 with kind := .dir, buf := [], pos := 0 }
        let fd ← addOpenFile h
        hmod h fun H => { H with fd := fd }
        M.pure fd
      | none => do
        let h ← openPath p f.modes none true false
        let H ← hget h
        if H.obj ≠ devNullRef then chmod p mode
        M.pure H.fd) := by
    refine fb_bind fb_get fun s => ?_
    refine fb_bind (fb_rd _) fun a => ?_
    split
    · rename_i r
      have t2 := fb_register (h := h) { mkHandle s r f.modes none true true false 0 with kind := .dir, buf := [], pos := 0 } fun _ fd => fd
      dsimp only
      apply fb_ite
      · intro _; exact fb_bind (fb_raise _) fun _ => t2
      · intro _; exact t2
    · refine fb_bind (fb_openPath _ _ _ _ _) fun h => ?_
      refine fb_bind (fb_hget _) fun H => ?_
      dsimp only
      apply fb_ite
      · intro _; exact fb_bind (fb_chmod _ _ _) fun _ => fb_pure _
      · intro _; exact fb_pure _
  apply fb_ite
  · intro _; exact fb_bind (fb_throw _) fun _ => tail
  · intro _; exact tail

/-- a call on a descriptor that does not lead to `h` -/
theorem fb_getOpen {s : FS} {fd : Int} {α : Type} {k : Nat → M α} (hn : s.getOpen fd ≠ .ok h)
    (hk : ∀ g, g ≠ h → Fr (Obs h) (k g)) : Obs h s ((rd (·.getOpen fd) >>= k) s).2 := by
  rw [M.bind_eq]
  cases hg : s.getOpen fd with
  | error e =>
    have : rd (fun s => s.getOpen fd) s = (.error e, s) := by dsimp only [rd, M.ofRead]; rw [hg]
    rw [this]
    exact Obs.refl h s
  | ok g =>
    rw [rd_eq (f := fun s => s.getOpen fd) hg]
    exact hk g (fun e => hn (by rw [hg, e])) s

theorem fb_osClose {s : FS} {fd : Int} (hn : s.getOpen fd ≠ .ok h) : Obs h s (osClose fd s).2 := by
  unfold osClose
  exact fb_getOpen hn fun g hg => fb_hClose hg

theorem fb_osRead {s : FS} {fd : Int} (n : Nat) (hn : s.getOpen fd ≠ .ok h) : Obs h s (osRead fd n s).2 := by
  unfold osRead
  refine fb_getOpen hn fun g hg => ?_
  have h2 := fb_read (h := h) hg (some n)
  fb hg

theorem fb_osWrite {s : FS} {fd : Int} (b : Bytes) (hn : s.getOpen fd ≠ .ok h) : Obs h s (osWrite fd b s).2 := by
  unfold osWrite
  refine fb_getOpen hn fun g hg => ?_
  have h2 := fb_write (h := h) hg b
  have h3 := fb_flush (h := h) hg
  have h4 := fb_syncIo (h := h) hg
  fb hg
end

theorem fb_ftruncate {h : Nat} (fd : Int) (n : Nat) : Fr (Obs h) (ftruncate fd n) := by
  refine fb_tree (fo_ftruncate fd n) ?_
  unfold ftruncate
  refine fr_bind (fr_rd _) fun g => fr_bind (fr_hget _) fun G => ?_
  dsimp only
  apply fr_ite
  · intro _; exact fr_bind (fr_throw _) fun _ => fr_setSize _ _
  · intro _; exact fr_setSize _ _

/-- A call that does not go through `h` leaves its data alone. -/
theorem obs_step {h : Nat} {s : FS} {o : Op} (hc : ¬ CallOn h s o) : Obs h s (o.next s) := by
  have fr : ∀ {α : Type} {m : M α}, Fr (Obs h) m → (m s).2 = o.next s → Obs h s (o.next s) := by
    intro α m hm e; have q := hm s; rw [e] at q; exact q
  have onf : ∀ {α : Type} {g : Nat} {m : M α}, Fr (Obs h) m → Fr (Obs h) (onFile g m) := by
    intro α g m hm
    unfold onFile
    refine fb_bind fb_get ?_
    intro s
    apply fb_ite
    · intro _; exact fb_void hm
    · intro _; exact fb_throw _
  have vd : ∀ {α : Type} {m : M α}, (m s).2 = (m.void s).2 := by
    intro α m; unfold M.void; rw [M.bind_eq]; cases m s with | mk r t => cases r <;> rfl
  cases o with
  | mkdir p m => exact fr (fb_tree (fo_mkdir p m fun _ => trivial) (fr_mkdir p m)) rfl
  | makedirs p m e => exact fr (fb_tree (fo_makedirs p m e fun _ => trivial) (fr_makedirs p m e)) rfl
  | createDir p m => exact fr (fb_void (fb_tree (fo_createDir p m trivial) (fr_createDir p m))) rfl
  | createFile p m c z cm um => exact fr (fb_void (fb_tree (fo_createFile p m c z cm um (fun _ _ _ => trivial)) (fr_createFile p m c z cm um))) rfl
  | createSymlink p t cm => exact fr (fb_void (fb_tree (fo_createSymlink p t cm) (fr_createSymlink p t cm))) rfl
  | createLink o n f cm => exact fr (fb_void (fb_tree (fo_createLink o n f cm) (fr_createLink o n f cm))) rfl
  | remove p => exact fr (fb_tree (fo_remove p) (fr_remove p)) rfl
  | removeObject p => exact fr (fb_removeObject p) rfl
  | rmdir p => exact fr (fb_tree (fo_rmdir p _) (fr_rmdir p _)) rfl
  | removedirs p => exact fr (fb_tree (fo_removedirs p) (fr_removedirs p)) rfl
  | rename o n f => exact fr (fb_tree (fo_rename o n f) (fr_rename o n f)) rfl
  | chmod p m f => exact fr (fb_chmod p m f) rfl
  | utime p ns f => exact fr (fb_tree (fo_utime p ns f) (fr_utime p ns f)) rfl
  | chown p u g f => exact fr (fb_tree (fo_chown p u g f) (fr_chown p u g f)) rfl
  | truncate p n => exact fr (fb_tree (fo_truncate p n) (fr_truncate p n)) rfl
  | mknod p m => exact fr (fb_tree (fo_mknod p m (fun _ _ _ => trivial)) (fr_mknod p m)) rfl
  | setxattr p a v fl f => exact fr (fb_tree (fo_setxattr p a v fl f) (fr_setxattr p a v fl f)) rfl
  | removexattr p a f => exact fr (fb_tree (fo_removexattr p a f) (fr_removexattr p a f)) rfl
  | addMountPoint p t => exact fr (fb_void (fb_tree (fo_addMountPoint p t fun _ => trivial) (fr_addMountPoint p t))) rfl
  | setDiskUsage t p => exact fr (fb_tree (fo_setDiskUsage t p trivial) (fr_setDiskUsage t p)) rfl
  | umask m => exact Obs.of (Epoch.heap rfl rfl) (Nat.le_refl _) fun _ => rfl
  | chdir p =>
    refine (show wp (chdir p) (fun _ s' => Obs h s s') s from ?_)
    unfold chdir
    refine wp_seq (fun _ s' => s' = s) rfl (fun _ _ e => by subst e; exact Obs.refl h _) ?_
    intro q s1 e1
    subst e1
    refine wp_seq (fun _ s' => s' = s1) rfl (fun _ _ e => by subst e; exact Obs.refl h _) ?_
    intro _ s2 e2
    subst e2
    refine wp_seq (fun _ s' => s' = s2) rfl (fun _ _ e => by subst e; exact Obs.refl h _) ?_
    intro _ s3 e3
    subst e3
    exact Obs.of (Epoch.heap rfl rfl) (Nat.le_refl _) fun _ => rfl
  | openPath p md b r d => exact fr (fb_void (fb_openPath p md b r d)) rfl
  | openFd fd md b c => exact fr (fb_void (fb_openFd fd md b c)) rfl
  | osOpen p f m => exact fr (fb_void (fb_osOpen p f m)) rfl
  | osClose fd => exact fb_osClose fun e => hc (.osClose fd e)
  | osRead fd n => have := fb_osRead (h := h) (s := s) n fun e => hc (.osRead fd n e); rw [vd] at this; exact this
  | osWrite fd b => have := fb_osWrite (h := h) (s := s) b fun e => hc (.osWrite fd b e); rw [vd] at this; exact this
  | ftruncate fd n => exact fr (fb_ftruncate fd n) rfl
  | hRead g n => exact fr (onf (g := g) (fb_read (fun e => hc (by rw [e]; exact .read n)) n)) rfl
  | hWrite g b => exact fr (onf (g := g) (fb_write (fun e => hc (by rw [e]; exact .write b)) b)) rfl
  | hSeek g o w => exact fr (onf (g := g) (fb_seek (fun e => hc (by rw [e]; exact .seek o w)) o w)) rfl
  | hTell g => exact fr (onf (g := g) (fb_tell (fun e => hc (by rw [e]; exact .tell)))) rfl
  | hTruncate g n => exact fr (onf (g := g) (fb_hTruncate (fun e => hc (by rw [e]; exact .truncate n)) n)) rfl
  | hFlush g => exact fr (onf (g := g) (fb_flush (fun e => hc (by rw [e]; exact .flush)))) rfl
  | hClose g => exact fr (onf (g := g) (fb_hClose (fun e => hc (by rw [e]; exact .close)))) rfl
  | setUser u g => exact Obs.of (Epoch.heap rfl rfl) (Nat.le_refl _) fun _ => rfl
  | setClock t => exact Obs.of (Epoch.heap rfl rfl) (Nat.le_refl _) fun _ => rfl

end Verif
