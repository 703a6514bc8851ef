import Verif.IoTree
/-!
# I/O on one file leaves every other file and its handles alone

`Iso q s0 s`: between `s0` and `s` nothing changed but the object `q`, the handles open on `q` and the used sizes of the devices.
-/

namespace Verif
open Py Cfg

/-- nothing but the object `q`, the handles on `q` and the used sizes differ -/
structure Spec.Iso (q : Ref) (s0 s : FS) : Prop where
  /-- handles stay on their objects -/
  obj : ∀ h, (s.handles h).obj = (s0.handles h).obj
  /-- every other object is as it was: contents, size, time stamps, everything -/
  heap : ∀ r, r ≠ q → s.heap r = s0.heap r
  /-- every handle on another object is as it was: buffer, position, everything -/
  hand : ∀ h, (s0.handles h).obj ≠ q → s.handles h = s0.handles h
  /-- the rest of the state -/
  rest : s = { s0 with heap := s.heap, handles := s.handles, mounts := s.mounts }
open Spec

theorem Spec.Iso.refl (q : Ref) (s : FS) : Iso q s s := ⟨fun _ => rfl, fun _ _ => rfl, fun _ _ => rfl, rfl⟩

theorem Spec.Iso.trans {q : Ref} {a b c : FS} (h : Iso q a b) (k : Iso q b c) : Iso q a c where
  obj x := (k.obj x).trans (h.obj x)
  heap r hr := (k.heap r hr).trans (h.heap r hr)
  hand x hx := (k.hand x (by rw [h.obj]; exact hx)).trans (h.hand x hx)
  rest := by rw [k.rest, h.rest]

theorem Spec.Iso.files {q : Ref} {a b : FS} (h : Iso q a b) : b.openFiles = a.openFiles := by rw [h.rest]

namespace IsoP
variable {q : Ref} {s0 s : FS} {g : Nat}

/-- a run from `s` ends in a state related to `s0` -/
structure E {α : Type} (q : Ref) (s0 : FS) (m : M α) (s : FS) : Prop where
  out : Iso q s0 (m s).2

theorem e_pure {α : Type} (a : α) (i : Iso q s0 s) : E q s0 (M.pure a) s := ⟨i⟩
theorem e_pure' {α : Type} (a : α) (i : Iso q s0 s) : E q s0 (pure a : M α) s := ⟨i⟩
theorem e_throw {α : Type} (e : Err) (i : Iso q s0 s) : E q s0 (M.throw e : M α) s := ⟨i⟩
theorem e_raise {α : Type} (e : Errno) (i : Iso q s0 s) : E q s0 (M.raise e : M α) s := ⟨i⟩
theorem e_bind {α β : Type} {m : M α} {f : α → M β} (hm : E q s0 m s) (hf : ∀ a s', Iso q s0 s' → E q s0 (f a) s') : E q s0 (m >>= f) s := by
  constructor
  show Iso q s0 (M.bind m f s).2
  have h1 := hm.out
  unfold M.bind
  rcases hr : m s with ⟨r, s'⟩
  rw [hr] at h1
  cases r with
  | error e => exact h1
  | ok a => exact (hf a s' h1).out
theorem e_bindB {α β : Type} {m : M α} {f : α → M β} (hm : E q s0 m s) (hf : ∀ a s', Iso q s0 s' → E q s0 (f a) s') : E q s0 (M.bind m f) s := e_bind hm hf
theorem e_hget {β : Type} {f : Handle → M β} (h : E q s0 (f (s.handles g)) s) : E q s0 (hget g >>= f) s := ⟨h.out⟩
theorem e_get {β : Type} {f : FS → M β} (h : E q s0 (f s) s) : E q s0 (M.get >>= f) s := ⟨h.out⟩
theorem e_rd {α β : Type} {f : FS → Except Err α} {k : α → M β} (i : Iso q s0 s) (h : ∀ a, f s = .ok a → E q s0 (k a) s) : E q s0 (rd f >>= k) s := by
  constructor
  show Iso q s0 (M.bind (rd f) k s).2
  unfold M.bind rd M.ofRead
  cases hf : f s with
  | error e => exact i
  | ok a => exact (h a hf).out
theorem e_ite {α : Type} {c : Prop} [Decidable c] {a b : M α} (ha : c → E q s0 a s) (hb : ¬ c → E q s0 b s) : E q s0 (if c then a else b) s := by
  split
  · exact ha ‹_›
  · exact hb ‹_›
theorem e_tryCatch {α : Type} {m : M α} {k : Err → M α} (hm : E q s0 m s) (hk : ∀ e s', Iso q s0 s' → E q s0 (k e) s') : E q s0 (M.tryCatch m k) s := by
  constructor
  have h1 := hm.out
  unfold M.tryCatch
  rcases hr : m s with ⟨r, s'⟩
  rw [hr] at h1
  cases r with
  | ok a => exact h1
  | error e => exact (hk e s' h1).out
theorem e_catchOS {α : Type} {m : M α} {k : Err → M α} (hm : E q s0 m s) (hk : ∀ e s', Iso q s0 s' → E q s0 (k e) s') : E q s0 (catchOS m k) s := by
  unfold catchOS
  refine e_tryCatch hm fun e s' i => ?_
  split
  · exact hk _ _ i
  · exact e_throw _ i

theorem setH (i : Iso q s0 s) (hg : (s0.handles g).obj = q) (f : Handle → Handle) (hf : ∀ H, (f H).obj = H.obj) : Iso q s0 (s.setH g f) := by
  have e : ∀ x, (s.setH g f).handles x = if x = g then f (s.handles g) else s.handles x := by
    intro x
    show upd s.handles g (f (s.handles g)) x = _
    by_cases h : x = g
    · subst h; rw [upd_same, if_pos rfl]
    · rw [upd_ne _ _ h, if_neg h]
  refine ⟨fun h => ?_, i.heap, fun h hh => ?_, ?_⟩
  · rw [e]; split
    · rename_i hx; subst hx; rw [hf, i.obj]
    · exact i.obj h
  · rw [e, if_neg (fun hx => hh (by rw [hx]; exact hg))]; exact i.hand h hh
  · have := i.rest
    unfold FS.setH
    rw [this]

theorem setObj (i : Iso q s0 s) (f : Obj → Obj) : Iso q s0 (s.setObj q f) := by
  refine ⟨i.obj, fun r hr => ?_, i.hand, ?_⟩
  · show upd s.heap q (f (s.heap q)) r = _
    rw [upd_ne _ _ hr]; exact i.heap r hr
  · have := i.rest
    unfold FS.setObj
    rw [this]

theorem e_hmod (i : Iso q s0 s) (hg : (s0.handles g).obj = q) (f : Handle → Handle) (hf : ∀ H, (f H).obj = H.obj) : E q s0 (hmod g f) s := ⟨setH i hg f hf⟩
theorem e_setHs (i : Iso q s0 s) (hg : (s0.handles g).obj = q) (f : FS → Handle → Handle) (hf : ∀ s H, (f s H).obj = H.obj) :
    E q s0 (M.modify fun s => s.setH g (f s)) s := ⟨setH i hg (f s) (hf s)⟩
theorem e_setObjs (i : Iso q s0 s) {r : Ref} (hr : r = q) (f : FS → Obj → Obj) : E q s0 (M.modify fun s => s.setObj r (f s)) s := by
  subst hr; exact ⟨setObj i (f s)⟩
theorem e_checkOpen (i : Iso q s0 s) (k : Nat) : E q s0 (checkOpen k) s := by
  constructor
  unfold checkOpen
  split <;> exact i
theorem e_usage (i : Iso q s0 s) (c : Int) (dev : Option Nat) : E q s0 (changeDiskUsage c dev) s := by
  constructor
  have key : ∀ l, Iso q s0 { s with mounts := l } := fun l => ⟨i.obj, i.heap, i.hand, by rw [i.rest]⟩
  unfold changeDiskUsage
  split
  · split
    · split
      · exact i
      · exact key _
    · exact key _
  · exact i
theorem e_setSize (i : Iso q s0 s) {r : Ref} (hr : r = q) (n : Nat) : E q s0 (setSize r n) s := by
  constructor
  unfold setSize
  split
  · exact i
  · exact (e_bindB (e_usage i _ _) fun _ s' i' => e_setObjs i' hr _).out
theorem e_setContents (i : Iso q s0 s) {r : Ref} (hr : r = q) (b : Bytes) : E q s0 (setContents r b) s := by
  constructor
  unfold setContents
  split
  · exact i
  · unfold setInitialContents
    split
    · exact i
    · split
      · exact i
      · refine (e_bindB (e_usage i _ _) fun _ s' i' => e_bindB (e_ite (fun _ => e_setSize i' hr _) fun _ => e_pure _ i') fun _ s2 i2 =>
          e_bindB (e_setObjs i2 hr _) fun _ s3 i3 => e_pure _ i3).out

theorem e_setStream (i : Iso q s0 s) (hg : (s0.handles g).obj = q) (b : Option Bytes) : E q s0 (setStream g b) s := by
  unfold setStream
  split
  · exact e_bind (e_hmod i hg _ fun _ => rfl) fun _ _ i' => e_throw _ i'
  · exact e_hmod i hg _ fun _ => rfl

theorem e_syncIo (i : Iso q s0 s) (hg : (s0.handles g).obj = q) : E q s0 (syncIo g) s := by
  unfold syncIo
  refine e_get ?_
  refine e_ite (fun _ => e_pure _ i) fun _ => ?_
  exact e_bind (e_setStream i hg _) fun _ _ i' => e_setHs i' hg _ fun _ _ => rfl

theorem e_syncAll (k : Nat) {r : Ref} (hr : r = q) : ∀ (l : List Nat) {s : FS}, Iso q s0 s → E q s0 (syncAll k r l) s := by
  intro l
  induction l with
  | nil => intro s i; exact e_pure _ i
  | cons x l ih =>
    intro s i
    unfold syncAll
    refine e_hget ?_
    dsimp only
    refine e_ite (fun hx => ?_) fun _ => ih i
    refine e_bind (e_syncIo i ?_) fun _ _ i' => ih i'
    rw [← i.obj, hx.2.2.1, hr]

theorem e_flushRelated (i : Iso q s0 s) (hg : (s0.handles g).obj = q) : E q s0 (flushRelated g) s := by
  unfold flushRelated
  refine e_get ?_
  exact e_syncAll g (by rw [i.obj, hg]) _ i

theorem e_flushContents (i : Iso q s0 s) (hg : (s0.handles g).obj = q) : E q s0 (flushContents g) s := by
  unfold flushContents
  refine e_hget ?_
  refine e_ite (fun _ => ?_) fun _ => e_pure _ i
  refine e_bind (e_syncIo i hg) fun _ s1 i1 => ?_
  refine e_get ?_
  split
  · exact e_throw _ i1
  · exact e_bind (e_setStream i1 hg _) fun _ _ i2 => e_pure _ i2

theorem e_flushStore (i : Iso q s0 s) (hg : (s0.handles g).obj = q) (c : Bytes) : E q s0 (flushStore g c) s := by
  unfold flushStore
  refine e_bind (e_hmod i hg _ fun _ => rfl) fun _ s1 i1 => ?_
  refine e_hget ?_
  have ho : (s1.handles g).obj = q := by rw [i1.obj, hg]
  refine e_bind (e_setContents i1 ho _) fun ch s2 i2 => ?_
  refine e_get ?_
  have last : ∀ {s : FS}, Iso q s0 s → E q s0 ((M.modify fun s => s.setH g fun H => { H with fileEpoch := (s.heap H.obj).epoch }) >>= fun _ => flushRelated g) s :=
    fun i => e_bind (e_setHs i hg _ fun _ _ => rfl) fun _ _ i' => e_flushRelated i' hg
  refine e_ite (fun _ => ?_) fun _ => ?_
  · refine e_ite (fun _ => ?_) fun _ => ?_
    · exact e_bind (e_hmod i2 hg _ fun _ => rfl) fun _ _ i3 => last i3
    · exact e_bind (e_setObjs i2 ho _) fun _ _ i3 => last i3
  · exact last i2

theorem e_flush (i : Iso q s0 s) (hg : (s0.handles g).obj = q) : E q s0 (flush g) s := by
  unfold flush
  refine e_bind (e_checkOpen i g) fun _ s1 i1 => ?_
  refine e_hget ?_
  refine e_ite (fun _ => ?_) fun _ => e_pure _ i1
  exact e_bind (e_flushContents i1 hg) fun c _ i2 => e_flushStore i2 hg c

theorem e_seek (i : Iso q s0 s) (hg : (s0.handles g).obj = q) (o : Int) (w : Nat) : E q s0 (seek g o w) s := by
  unfold seek
  refine e_bind (e_checkOpen i g) fun _ s1 i1 => ?_
  refine e_hget ?_
  refine e_ite (fun _ => ?_) fun _ => ?_
  · exact e_bind (e_hmod i1 hg _ fun _ => rfl) fun _ _ i2 => e_flush i2 hg
  · split
    · exact e_bind (e_throw _ i1) fun _ _ i2 => e_flush i2 hg
    · exact e_bind (e_hmod i1 hg _ fun _ => rfl) fun _ _ i2 => e_flush i2 hg

theorem e_tell (i : Iso q s0 s) (hg : (s0.handles g).obj = q) : E q s0 (tell g) s := by
  unfold tell
  refine e_bind (e_checkOpen i g) fun _ s1 i1 => ?_
  refine e_bind (e_flush i1 hg) fun _ s2 i2 => ?_
  refine e_hget ?_
  refine e_ite (fun _ => e_pure _ i2) fun _ => ?_
  refine e_ite (fun _ => e_pure _ i2) fun _ => ?_
  split
  · exact e_throw _ i2
  · exact e_bind (e_hmod i2 hg _ fun _ => rfl) fun _ _ i3 => e_pure _ i3

theorem e_hRaise {α : Type} (i : Iso q s0 s) (k : Nat) : E q s0 (hRaise k : M α) s := by
  unfold hRaise
  refine e_hget ?_
  exact e_ite (fun _ => e_raise _ i) fun _ => e_throw _ i

macro "iso" hg:term : tactic => `(tactic|
  repeat' first
    | with_reducible assumption
    | with_reducible refine e_pure _ ?_
    | with_reducible refine e_pure' _ ?_
    | with_reducible refine e_throw _ ?_
    | with_reducible refine e_raise _ ?_
    | with_reducible refine e_checkOpen ?_ _
    | with_reducible refine e_hRaise ?_ _
    | with_reducible refine e_hmod ?_ $hg _ (fun _ => rfl)
    | with_reducible refine e_setHs ?_ $hg _ (fun _ _ => rfl)
    | with_reducible refine e_setStream ?_ $hg _
    | with_reducible refine e_syncIo ?_ $hg
    | with_reducible refine e_flush ?_ $hg
    | with_reducible refine e_setObjs ?_ (by assumption) _
    | with_reducible refine e_hget ?_
    | with_reducible refine e_get ?_
    | with_reducible refine e_bind ?_ ?_
    | with_reducible refine e_ite ?_ ?_
    | with_reducible refine e_catchOS ?_ ?_
    | split
    | with_reducible intro _
    | dsimp only)

theorem e_read (i : Iso q s0 s) (hg : (s0.handles g).obj = q) (n : Option Nat) : E q s0 (read g n) s := by
  have ho : (s.handles g).obj = q := by rw [i.obj, hg]
  unfold read
  refine e_get ?_
  dsimp only
  iso hg

theorem e_rawWrite (i : Iso q s0 s) (hg : (s0.handles g).obj = q) (b : Bytes) : E q s0 (rawWrite g b) s := e_hmod i hg _ fun _ => rfl

theorem e_tryFlush (i : Iso q s0 s) (hg : (s0.handles g).obj = q) (o : Nat) : E q s0 (tryFlush g o) s := by
  unfold tryFlush
  refine e_hget ?_
  iso hg

theorem e_writeWrapper (i : Iso q s0 s) (hg : (s0.handles g).obj = q) (b : Bytes) : E q s0 (writeWrapper g b) s := by
  unfold writeWrapper rawWrite
  refine e_hget ?_
  dsimp only
  refine e_bind (e_hmod i hg _ fun _ => rfl) fun _ s1 i1 => ?_
  have tf : ∀ {s : FS} (o : Nat), Iso q s0 s → E q s0 (tryFlush g o) s := fun o i => e_tryFlush i hg o
  have last : ∀ {s : FS} {c : Prop} [Decidable c], Iso q s0 s →
      E q s0 (if c then hmod g (fun H => { H with readSeek := H.pos, readWhence := 0 }) >>= fun _ => M.pure b.length else M.pure b.length) s := by
    intro s c _ i
    exact e_ite (fun _ => e_bind (e_hmod i hg _ fun _ => rfl) fun _ _ i => e_pure _ i) fun _ => e_pure _ i
  refine e_ite (fun _ => ?_) fun _ => last i1
  refine e_ite (fun _ => ?_) fun _ => ?_
  · refine e_bind (e_hmod i1 hg _ fun _ => rfl) fun _ s2 i2 => ?_
    refine e_bind (tf _ i2) fun _ s3 i3 => ?_
    refine e_ite (fun _ => ?_) fun _ => ?_
    · exact e_bind (e_hmod i3 hg _ fun _ => rfl) fun _ s4 i4 => last i4
    · exact last i3
  · refine e_bind (tf _ i1) fun _ s3 i3 => ?_
    refine e_ite (fun _ => ?_) fun _ => ?_
    · exact e_bind (e_hmod i3 hg _ fun _ => rfl) fun _ s4 i4 => last i4
    · exact last i3

theorem e_write (i : Iso q s0 s) (hg : (s0.handles g).obj = q) (b : Bytes) : E q s0 (write g b) s := by
  have w : ∀ {s : FS}, Iso q s0 s → E q s0 (writeWrapper g b) s := fun i => e_writeWrapper i hg b
  unfold write
  refine e_get ?_
  dsimp only
  refine e_ite (fun _ => e_bind (e_throw _ i) fun _ _ i1 => ?_) fun _ => ?_
  all_goals
    refine e_bind (e_checkOpen (by assumption) _) fun _ _ i2 => ?_
    refine e_ite (fun _ => ?_) fun _ => w i2
    exact e_ite (fun _ => e_pure _ i2) fun _ => e_hRaise i2 _

theorem adapt_fold (n : Nat) : ∀ (l : List Nat) {s : FS}, Iso q s0 s → (s0.handles g).obj = q →
    Iso q s0 (l.foldl (fun s' k =>
      if k ≠ g ∧ (s'.handles k).kind = .file ∧ (s'.handles k).obj = (s'.handles g).obj ∧ (s'.handles k).append then
        s'.setH k fun G => { G with readSeek := G.readSeek + n }
      else s') s) := by
  intro l
  induction l with
  | nil => intro s i _; exact i
  | cons k l ih =>
    intro s i hg
    rw [List.foldl_cons]
    refine ih ?_ hg
    split
    · rename_i h
      exact setH i (by rw [← i.obj, h.2.2.1, i.obj, hg]) _ fun _ => rfl
    · exact i

theorem e_adaptSize (i : Iso q s0 s) (hg : (s0.handles g).obj = q) (n : Nat) : E q s0 (adaptSize g n) s := ⟨adapt_fold n _ i hg⟩

theorem e_truncateWrapper (i : Iso q s0 s) (hg : (s0.handles g).obj = q) (n : Option Nat) : E q s0 (truncateWrapper g n) s := by
  have main : ∀ {s : FS}, Iso q s0 s → E q s0 (hget g >>= fun H =>
      hmod g (fun K => { K with buf := K.buf.take (n.getD H.pos) }) >>= fun _ => flush g >>= fun _ => setSize H.obj (n.getD H.pos) >>= fun _ =>
      hget g >>= fun H1 =>
      if H1.buf.length < n.getD H.pos then
        hmod g (fun K => { K with buf := H1.buf ++ List.replicate (n.getD H.pos - H1.buf.length) 0, pos := n.getD H.pos }) >>= fun _ =>
        setContents H1.obj (H1.buf ++ List.replicate (n.getD H.pos - H1.buf.length) 0) >>= fun _ =>
        hmod g (fun K => { K with flushPos := n.getD H.pos }) >>= fun _ =>
        adaptSize g (n.getD H.pos - H1.buf.length) >>= fun _ => flush g >>= fun _ => M.pure (n.getD H.pos)
      else flush g >>= fun _ => M.pure (n.getD H.pos)) s := by
    intro s i
    refine e_hget ?_
    refine e_bind (e_hmod i hg _ fun _ => rfl) fun _ s1 i1 => ?_
    refine e_bind (e_flush i1 hg) fun _ s2 i2 => ?_
    refine e_bind (e_setSize i2 (by rw [i.obj, hg]) _) fun _ s3 i3 => ?_
    refine e_hget ?_
    refine e_ite (fun _ => ?_) fun _ => ?_
    · refine e_bind (e_hmod i3 hg _ fun _ => rfl) fun _ s4 i4 => ?_
      refine e_bind (e_setContents i4 (by rw [i3.obj, hg]) _) fun _ s5 i5 => ?_
      refine e_bind (e_hmod i5 hg _ fun _ => rfl) fun _ s6 i6 => ?_
      refine e_bind (e_adaptSize i6 hg _) fun _ s7 i7 => ?_
      exact e_bind (e_flush i7 hg) fun _ _ i8 => e_pure _ i8
    · exact e_bind (e_flush i3 hg) fun _ _ i8 => e_pure _ i8
  unfold truncateWrapper
  refine e_hget ?_
  refine e_ite (fun _ => ?_) fun _ => ?_
  · split
    · exact e_bind (e_throw _ i) fun _ _ i1 => main i1
    · exact e_bind (e_hmod i hg _ fun _ => rfl) fun _ _ i1 => main i1
  · exact main i

theorem e_hTruncate (i : Iso q s0 s) (hg : (s0.handles g).obj = q) (n : Option Nat) : E q s0 (hTruncate g n) s := by
  have w : ∀ {s : FS}, Iso q s0 s → E q s0 (truncateWrapper g n) s := fun i => e_truncateWrapper i hg n
  unfold hTruncate
  refine e_get ?_
  dsimp only
  refine e_ite (fun _ => e_bind (e_throw _ i) fun _ _ i1 => ?_) fun _ => ?_
  all_goals
    refine e_bind (e_checkOpen (by assumption) _) fun _ _ i2 => ?_
    refine e_ite (fun _ => ?_) fun _ => w i2
    exact e_ite (fun _ => e_throw _ i2) fun _ => e_hRaise i2 _

theorem e_osRead (i : Iso q s0 s) {fd : Int} (hg : ∀ g, s.getOpen fd = .ok g → (s0.handles g).obj = q) (n : Nat) : E q s0 (osRead fd n) s := by
  unfold osRead
  refine e_rd i fun g hfd => ?_
  refine e_hget ?_
  have hr : ∀ {s : FS}, Iso q s0 s → E q s0 (read g (some n)) s := fun i => e_read i (hg g hfd) _
  refine e_ite (fun _ => e_bind (e_throw _ i) fun _ _ i1 => ?_) fun _ => ?_
  all_goals exact e_bind (e_hmod (by assumption) (hg g hfd) _ fun _ => rfl) fun _ _ i2 => hr i2

theorem e_osWrite (i : Iso q s0 s) {fd : Int} (hg : ∀ g, s.getOpen fd = .ok g → (s0.handles g).obj = q) (b : Bytes) : E q s0 (osWrite fd b) s := by
  unfold osWrite
  refine e_rd i fun g hfd => ?_
  refine e_hget ?_
  have hq := hg g hfd
  have rest : ∀ {s : FS}, Iso q s0 s → E q s0 (hmod g (fun H => { H with rawIo := true }) >>= fun _ => syncIo g >>= fun _ =>
      hmod g (fun H => { H with flushPos := H.pos }) >>= fun _ => write g b >>= fun _ => flush g >>= fun _ => M.pure b.length) s := by
    intro s i
    refine e_bind (e_hmod i hq _ fun _ => rfl) fun _ s1 i1 => ?_
    refine e_bind (e_syncIo i1 hq) fun _ s2 i2 => ?_
    refine e_bind (e_hmod i2 hq _ fun _ => rfl) fun _ s3 i3 => ?_
    refine e_bind (e_write i3 hq _) fun _ s4 i4 => ?_
    exact e_bind (e_flush i4 hq) fun _ _ i5 => e_pure _ i5
  refine e_ite (fun _ => e_bind (e_raise _ i) fun _ _ i1 => ?_) fun _ => ?_
  all_goals
    refine e_ite (fun _ => e_bind (e_throw _ (by assumption)) fun _ _ i2 => rest i2) fun _ => rest (by assumption)

theorem e_ftruncate (i : Iso q s0 s) {fd : Int} (hg : ∀ g, s.getOpen fd = .ok g → (s0.handles g).obj = q) (n : Nat) : E q s0 (ftruncate fd n) s := by
  unfold ftruncate
  refine e_rd i fun g hfd => ?_
  refine e_hget ?_
  have ho : (s.handles g).obj = q := by rw [i.obj, hg g hfd]
  exact e_ite (fun _ => e_bind (e_throw _ i) fun _ _ i1 => e_setSize i1 ho _) fun _ => e_setSize i ho _

end IsoP
end Verif
