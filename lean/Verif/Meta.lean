import Verif.FrameIO
/-!
# Frames for owners and time stamps

`Meta T s s'`: no object changes its owner; a time stamp is kept or (if `T` allows it) becomes the current time; objects
made in between belong to the caller and carry the current time.  Every call but `chown` and `utime` is of this kind.
-/

namespace Verif
open Py Spec Cfg

/-- which time stamps of existing objects may be set to the current time -/
structure Stamps where
  a : Bool
  m : Bool
  c : Bool

/-- an object update that keeps the owner and sets no time stamp but to `now` -/
structure MKeep (T : Stamps) (now : Int) (o o' : Obj) : Prop where
  uid : o'.uid = o.uid
  gid : o'.gid = o.gid
  atime : o'.atime = o.atime ∨ T.a = true ∧ o'.atime = now
  mtime : o'.mtime = o.mtime ∨ T.m = true ∧ o'.mtime = now
  ctime : o'.ctime = o.ctime ∨ T.c = true ∧ o'.ctime = now

theorem MKeep.same {T : Stamps} {now : Int} {o o' : Obj} (h1 : o'.uid = o.uid) (h2 : o'.gid = o.gid) (h3 : o'.atime = o.atime) (h4 : o'.mtime = o.mtime)
    (h5 : o'.ctime = o.ctime) : MKeep T now o o' := ⟨h1, h2, Or.inl h3, Or.inl h4, Or.inl h5⟩

/-- an object belonging to the caller, made now -/
structure NewOk (s : FS) (o : Obj) : Prop where
  uid : o.uid = s.uid
  gid : o.gid = s.gid
  atime : o.atime = s.clock
  mtime : o.mtime = s.clock
  ctime : o.ctime = s.clock

theorem MKeep.newOk {T : Stamps} {s : FS} {o o' : Obj} (h : MKeep T s.clock o o') (k : NewOk s o) : NewOk s o' :=
  ⟨h.uid.trans k.uid, h.gid.trans k.gid, h.atime.elim (fun e => e.trans k.atime) fun e => e.2, h.mtime.elim (fun e => e.trans k.mtime) fun e => e.2,
    h.ctime.elim (fun e => e.trans k.ctime) fun e => e.2⟩

theorem MKeep.trans {T : Stamps} {now : Int} {a b c : Obj} (h : MKeep T now a b) (k : MKeep T now b c) : MKeep T now a c :=
  ⟨k.uid.trans h.uid, k.gid.trans h.gid,
    k.atime.elim (fun e => h.atime.elim (fun e' => Or.inl (e.trans e')) fun e' => Or.inr ⟨e'.1, e.trans e'.2⟩) Or.inr,
    k.mtime.elim (fun e => h.mtime.elim (fun e' => Or.inl (e.trans e')) fun e' => Or.inr ⟨e'.1, e.trans e'.2⟩) Or.inr,
    k.ctime.elim (fun e => h.ctime.elim (fun e' => Or.inl (e.trans e')) fun e' => Or.inr ⟨e'.1, e.trans e'.2⟩) Or.inr⟩

/-- The relation of the frame. -/
structure Meta (T : Stamps) (s s' : FS) : Prop where
  cfg : s'.cfg = s.cfg
  clock : s'.clock = s.clock
  uid : s'.uid = s.uid
  gid : s'.gid = s.gid
  next : s.next ≤ s'.next
  old : ∀ r < s.next, MKeep T s.clock (s.heap r) (s'.heap r)
  new : ∀ r, s.next ≤ r → r < s'.next → NewOk s (s'.heap r)

namespace Meta
variable {T : Stamps}

theorem refl (s : FS) : Meta T s s :=
  ⟨rfl, rfl, rfl, rfl, Nat.le_refl _, fun _ _ => MKeep.same rfl rfl rfl rfl rfl, fun _ h h' => absurd h' (Nat.not_lt.mpr h)⟩

theorem trans {a b c : FS} (h : Meta T a b) (k : Meta T b c) : Meta T a c := by
  refine ⟨k.cfg.trans h.cfg, k.clock.trans h.clock, k.uid.trans h.uid, k.gid.trans h.gid, Nat.le_trans h.next k.next, ?_, ?_⟩
  · intro r hr
    have := k.old r (Nat.lt_of_lt_of_le hr h.next)
    rw [h.clock] at this
    exact (h.old r hr).trans this
  · intro r h1 h2
    by_cases hb : r < b.next
    · have := k.old r hb
      rw [h.clock] at this
      exact this.newOk (h.new r h1 hb)
    · have := k.new r (Nat.not_lt.mp hb) h2
      exact ⟨this.uid.trans (by rw [h.uid]), this.gid.trans (by rw [h.gid]), this.atime.trans h.clock, this.mtime.trans h.clock, this.ctime.trans h.clock⟩

theorem env (s : FS) (li : Nat) (ms : List Mount) (ld : Nat) : Meta T s { s with lastIno := li, mounts := ms, lastDev := ld } :=
  ⟨rfl, rfl, rfl, rfl, Nat.le_refl _, fun _ _ => MKeep.same rfl rfl rfl rfl rfl, fun _ h h' => absurd h' (Nat.not_lt.mpr h)⟩
theorem hand (s : FS) (hs : Nat → Handle) (hn : Nat) (f : List (Option (List Nat))) (ff : List Nat) :
    Meta T s { s with handles := hs, hnext := hn, openFiles := f, freeFds := ff } :=
  ⟨rfl, rfl, rfl, rfl, Nat.le_refl _, fun _ _ => MKeep.same rfl rfl rfl rfl rfl, fun _ h h' => absurd h' (Nat.not_lt.mpr h)⟩

theorem alloc (s : FS) (o : Obj) (h : NewOk s o) : Meta T s { s with heap := upd s.heap s.next o, next := s.next + 1 } := by
  refine ⟨rfl, rfl, rfl, rfl, Nat.le_succ _, ?_, ?_⟩
  · intro r hr
    show MKeep T s.clock _ (upd s.heap s.next o r)
    rw [upd_ne _ _ (Nat.ne_of_lt hr)]
    exact MKeep.same rfl rfl rfl rfl rfl
  · intro r h1 h2
    have : r = s.next := Nat.le_antisymm (Nat.lt_succ_iff.mp h2) h1
    subst this
    show NewOk s (upd s.heap s.next o s.next)
    rw [upd_same]; exact h

theorem obj (s : FS) (r : Ref) (f : Obj → Obj) (h : MKeep T s.clock (s.heap r) (f (s.heap r))) : Meta T s (s.setObj r f) := by
  refine ⟨rfl, rfl, rfl, rfl, Nat.le_refl _, ?_, fun _ h h' => absurd h' (Nat.not_lt.mpr h)⟩
  intro q _
  show MKeep T s.clock _ (upd s.heap r _ q)
  by_cases hq : q = r
  · subst hq; rw [upd_same]; exact h
  · rw [upd_ne _ _ hq]; exact MKeep.same rfl rfl rfl rfl rfl

theorem att (s : FS) (d c : Ref) : Meta T s (s.attach d c) := by
  unfold FS.attach
  dsimp only
  have k : ∀ (x : FS) (r : Ref) (f : Obj → Obj), (MKeep T x.clock (x.heap r) (f (x.heap r))) → Meta T s x → Meta T s (x.setObj r f) :=
    fun x r f h hx => hx.trans (obj x r f h)
  split
  · refine k _ _ _ (MKeep.same rfl rfl rfl rfl rfl) (k _ _ _ (MKeep.same rfl rfl rfl rfl rfl) (k _ _ _ (MKeep.same rfl rfl rfl rfl rfl)
      (k _ _ _ (MKeep.same rfl rfl rfl rfl rfl) ?_)))
    refine Meta.trans ?_ (env _ _ _ _)
    exact k _ _ _ (MKeep.same rfl rfl rfl rfl rfl) (k _ _ _ (MKeep.same rfl rfl rfl rfl rfl) (refl s))
  · exact k _ _ _ (MKeep.same rfl rfl rfl rfl rfl) (k _ _ _ (MKeep.same rfl rfl rfl rfl rfl) (k _ _ _ (MKeep.same rfl rfl rfl rfl rfl)
      (k _ _ _ (MKeep.same rfl rfl rfl rfl rfl) (k _ _ _ (MKeep.same rfl rfl rfl rfl rfl) (refl s)))))

theorem det (s : FS) (d : Ref) (nm : Str) (e : Ref) : Meta T s (detach d nm e s).2 := by
  have k : ∀ (x : FS) (r : Ref) (f : Obj → Obj), (MKeep T x.clock (x.heap r) (f (x.heap r))) → Meta T s x → Meta T s (x.setObj r f) :=
    fun x r f h hx => hx.trans (obj x r f h)
  have h2 : Meta T s ((s.setObj d fun o => { o with nlink := o.nlink - 1 }).setObj e fun o => { o with nlink := o.nlink - 1 }) :=
    k _ _ _ (MKeep.same rfl rfl rfl rfl rfl) (k _ _ _ (MKeep.same rfl rfl rfl rfl rfl) (refl s))
  unfold detach
  dsimp only
  split
  · exact h2
  split
  · exact h2
  · exact k _ d (fun o => { o with content := .dir (aerase nm o.entries) }) (MKeep.same rfl rfl rfl rfl rfl) h2

end Meta

section
variable {T : Stamps}

theorem fm_pure {α : Type} (a : α) : Fr (Meta T) (M.pure a) := fun s => Meta.refl s
theorem fm_pure' {α : Type} (a : α) : Fr (Meta T) (pure a : M α) := fun s => Meta.refl s
theorem fm_throw {α : Type} (e : Err) : Fr (Meta T) (M.throw e : M α) := fun s => Meta.refl s
theorem fm_raise {α : Type} (e : Errno) : Fr (Meta T) (M.raise e : M α) := fun s => Meta.refl s
theorem fm_get : Fr (Meta T) M.get := fun s => Meta.refl s
theorem fm_rd {α : Type} (f : FS → Except Err α) : Fr (Meta T) (rd f) := fun s => Meta.refl s
theorem fm_hget (h : Nat) : Fr (Meta T) (hget h) := fun s => Meta.refl s

theorem fm_bind {α β : Type} {m : M α} {f : α → M β} (hm : Fr (Meta T) m) (hf : ∀ a, Fr (Meta T) (f a)) : Fr (Meta T) (m >>= f) := by
  intro s
  show Meta T s (M.bind m f s).2
  unfold M.bind
  have h1 := hm s
  rcases hr : m s with ⟨r, s'⟩
  rw [hr] at h1
  cases r with
  | error e => exact h1
  | ok a => exact Meta.trans h1 (hf a s')

theorem fm_bindB {α β : Type} {m : M α} {f : α → M β} (hm : Fr (Meta T) m) (hf : ∀ a, Fr (Meta T) (f a)) : Fr (Meta T) (M.bind m f) := fm_bind hm hf

theorem fm_ite {α : Type} {c : Prop} [Decidable c] {a b : M α} (ha : c → Fr (Meta T) a) (hb : ¬ c → Fr (Meta T) b) : Fr (Meta T) (if c then a else b) := by
  split
  · exact ha ‹_›
  · exact hb ‹_›

theorem fm_tryCatch {α : Type} {m : M α} {k : Err → M α} (hm : Fr (Meta T) m) (hk : ∀ e, Fr (Meta T) (k e)) : Fr (Meta T) (M.tryCatch m k) := by
  intro s
  unfold M.tryCatch
  have h1 := hm s
  rcases hr : m s with ⟨r, s'⟩
  rw [hr] at h1
  cases r with
  | error e => exact Meta.trans h1 (hk e s')
  | ok a => exact h1

theorem fm_catchOS {α : Type} {m : M α} {k : Err → M α} (hm : Fr (Meta T) m) (hk : ∀ e, Fr (Meta T) (k e)) : Fr (Meta T) (catchOS m k) :=
  fm_tryCatch hm fun e => fm_ite (fun _ => hk e) fun _ => fm_throw e

theorem fm_void {α : Type} {m : M α} (h : Fr (Meta T) m) : Fr (Meta T) m.void := fm_bind h fun _ => fm_pure _

theorem fm_setObj (r : Ref) (f : FS → Obj → Obj) (h : ∀ s : FS, MKeep T s.clock (s.heap r) (f s (s.heap r))) : Fr (Meta T) (M.modify fun s => s.setObj r (f s)) :=
  fun s => Meta.obj s r _ (h s)

/-- Compositional steps. -/
macro "frameMt" : tactic => `(tactic|
  repeat' first
    | assumption
    | exact fm_pure _
    | exact fm_pure' _
    | exact fm_throw _
    | exact fm_raise _
    | exact fm_get
    | exact fm_rd _
    | exact fm_hget _
    | exact fm_setObj _ _ (fun _ => MKeep.same rfl rfl rfl rfl rfl)
    | apply fm_bind
    | apply fm_bindB
    | apply fm_ite
    | apply fm_catchOS
    | apply fm_tryCatch
    | apply fm_void
    | split
    | intro _)

theorem fm_changeDiskUsage (c : Int) (dev : Option Nat) : Fr (Meta T) (changeDiskUsage c dev) := by
  intro s
  rcases changeDiskUsage_spec c dev s with h
  unfold changeDiskUsage
  split
  · split
    · split
      · exact Meta.refl s
      · exact Meta.env s s.lastIno _ s.lastDev
    · exact Meta.env s s.lastIno _ s.lastDev
  · exact Meta.refl s

theorem fm_newObj (f : FS → Obj) (h : ∀ s, NewOk s (f s)) : Fr (Meta T) (newObj f) := fun s => Meta.alloc s _ (h s)

theorem fm_addEntry (d c : Ref) : Fr (Meta T) (addEntry d c) := by
  intro s
  unfold addEntry
  split
  · exact Meta.refl s
  rename_i h1
  split
  · exact Meta.refl s
  rename_i h2
  split
  · exact Meta.refl s
  dsimp only
  have ha : Meta T s (s.attach d c) := Meta.att s d c
  split
  · exact Meta.trans ha (fm_changeDiskUsage _ _ _)
  · exact ha

theorem fm_removeLoop {rm : Ref → Str → M Unit} (h : ∀ d nm, Fr (Meta T) (rm d nm)) (e : Ref) : ∀ n, Fr (Meta T) (removeLoop rm e n) := by
  intro n
  induction n with
  | zero => exact fm_pure _
  | succ n ih =>
    intro s
    unfold removeLoop
    split
    · exact Meta.refl s
    · exact fm_bindB (h _ _) (fun _ => ih) s

theorem fm_detachAfter {s : FS} {d : Ref} {nm : Str} {e : Ref} (hd : (s.heap d).isDir = true) (hc : removeCheck s d e = .ok ()) {m : M Unit} (hm : Fr (Meta T) m) :
    Meta T s (M.bind m (fun _ => detach d nm e) s).2 := by
  have h1 := hm s
  unfold M.bind
  rcases hr : m s with ⟨r, s'⟩
  rw [hr] at h1
  cases r with
  | error e => exact h1
  | ok a => exact h1.trans (Meta.det s' d nm e)

theorem fm_removeEntryF : ∀ n d nm b, Fr (Meta T) (removeEntryF n d nm b) := by
  intro n
  induction n with
  | zero => intro d nm b; exact fm_throw _
  | succ n ih =>
    intro d nm b s
    unfold removeEntryF
    split
    · exact Meta.refl s
    rename_i hd
    dsimp only
    split
    · exact Meta.refl s
    split
    · exact Meta.refl s
    rename_i hc
    have hd : (s.heap d).isDir = true := by simpa using hd
    split
    · exact fm_detachAfter hd hc (fm_removeLoop (fun d nm => ih d nm true) _ _)
    split
    · exact fm_detachAfter hd hc (fm_changeDiskUsage _ _)
    · exact Meta.det s d _ _

theorem fm_removeEntry (d : Ref) (nm : Str) (b : Bool) : Fr (Meta T) (removeEntry d nm b) := fun s => fm_removeEntryF _ d nm b s


theorem fm_setSize (r : Ref) (n : Nat) : Fr (Meta T) (setSize r n) := by
  intro s
  unfold setSize
  split
  · exact Meta.refl s
  · exact fm_bindB (fm_changeDiskUsage _ _) (fun _ => fm_setObj _ _ (fun _ => MKeep.same rfl rfl rfl rfl rfl)) s

theorem fm_setInitialContents (r : Ref) (b : Bytes) : Fr (Meta T) (setInitialContents r b) := by
  intro s
  unfold setInitialContents
  split
  · exact Meta.refl s
  split
  · exact Meta.refl s
  · exact fm_bindB (fm_changeDiskUsage _ _) (fun _ => fm_bindB (fm_ite (fun _ => fm_setSize _ _) fun _ => fm_pure _) fun _ =>
      fm_bindB (fm_setObj _ _ (fun _ => MKeep.same rfl rfl rfl rfl rfl)) fun _ => fm_pure _) s

theorem fm_setContents (r : Ref) (b : Bytes) : Fr (Meta T) (setContents r b) := by
  intro s
  unfold setContents
  split
  · exact Meta.refl s
  · exact fm_setInitialContents r b s

theorem fm_setLargeFileSize (r : Ref) (n : Nat) : Fr (Meta T) (setLargeFileSize r n) := by
  intro s
  unfold setLargeFileSize
  split
  · exact Meta.refl s
  · exact fm_bindB (fm_ite (fun _ => fm_setSize _ _) fun _ => fm_pure _) (fun _ => fm_bindB fm_get fun s1 => fm_bindB (fm_changeDiskUsage _ _) fun _ =>
      fm_setObj _ _ (fun _ => MKeep.same rfl rfl rfl rfl rfl)) s

theorem newOk_file (nm : Str) (m : Nat) (b : Option Bytes) (s : FS) : NewOk s (mkFileObj nm m b s) := ⟨rfl, rfl, rfl, rfl, rfl⟩
theorem newOk_dir (nm : Str) (m : Nat) (s : FS) : NewOk s (mkDirObj nm m s) := ⟨rfl, rfl, rfl, rfl, rfl⟩

theorem fm_createDirLoop : ∀ (l : List Str) (cur : Ref) (news : List Ref), Fr (Meta T) (createDirLoop cur l news) := by
  intro l
  induction l with
  | nil => intro cur news; exact fm_pure _
  | cons c cs ih =>
    intro cur news
    unfold createDirLoop
    refine fm_bind fm_get fun s => ?_
    split
    · exact fm_bind (fm_newObj _ (newOk_dir _ _)) fun d => fm_bind (fm_addEntry _ _) fun _ => ih _ _
    · dsimp only
      apply fm_ite
      · intro _
        exact fm_bind (fm_rd _) fun r => fm_bind fm_get fun s => fm_ite (fun _ => fm_raise _) fun _ => ih _ _
      · intro _
        exact fm_bind (fm_pure _) fun r => fm_bind fm_get fun s => fm_ite (fun _ => fm_raise _) fun _ => ih _ _

theorem fm_modes (perm : Nat) : ∀ (l : List Ref) (s : FS),
    Meta T s (l.foldl (fun s d => s.setObj d fun o => { o with mode := S_IFDIR ||| perm }) s) := by
  intro l
  induction l with
  | nil => intro s; exact Meta.refl s
  | cons d l ih =>
    intro s
    rw [List.foldl_cons]
    exact (Meta.obj s d _ (MKeep.same rfl rfl rfl rfl rfl)).trans (ih _)

theorem fm_createDirG {auto : Str → M Unit} (ha : ∀ p, Fr (Meta T) (auto p)) (p : Str) (perm : Nat) : Fr (Meta T) (createDirG auto p perm) := by
  unfold createDirG
  refine fm_bind fm_get ?_
  intro s
  dsimp only
  refine fm_bind (ha _) ?_
  intro _
  refine fm_bind (fm_rd _) ?_
  intro ex
  have key : Fr (Meta T) (do
      let x ← createDirLoop rootRef (s.cfg.pathComponents (s.absnorm (s.cfg.makeStringPath p))) []
      M.modify fun s => x.2.foldl (fun s d => s.setObj d fun o => { o with mode := S_IFDIR ||| perm }) s
      M.pure x.1) := fm_bind (fm_createDirLoop _ _ _) fun x => fm_bind (fun s => fm_modes perm x.2 s) fun _ => fm_pure _
  apply fm_ite
  · intro _
    exact fm_bind (fm_raise _) fun _ => key
  · intro _
    exact key

theorem fm_addMountG {auto : Str → M Unit} (ha : ∀ p, Fr (Meta T) (auto p)) (p : Str) (t : Option Int) : Fr (Meta T) (addMountG auto p t) := by
  have h1 : ∀ (dev : Nat) (q : Str), Fr (Meta T) (M.modify fun s => { s with
      lastDev := dev
      mounts := s.mounts ++ [{ path := q, idev := dev, total := t, used := 0 }] }) :=
    fun dev q s => Meta.env s s.lastIno _ _
  have h2 : Fr (Meta T) (M.modify fun s => { s with lastIno := s.lastIno + 1 }.setObj rootRef fun o =>
      { o with ino := some (s.lastIno + 1) }) := fun s =>
    Meta.trans (Meta.env s (s.lastIno + 1) s.mounts s.lastDev) (Meta.obj { s with lastIno := s.lastIno + 1 } rootRef (fun o => { o with ino := some (s.lastIno + 1) }) (MKeep.same rfl rfl rfl rfl rfl))
  unfold addMountG
  refine fm_bind fm_get ?_
  intro s
  dsimp only
  have h3 : ∀ p, Fr (Meta T) (createDirG auto p PERM_DEF) := fun p => fm_createDirG ha p _
  repeat' first
    | with_reducible exact h1 _ _
    | with_reducible exact h2
    | with_reducible exact h3 _
    | with_reducible exact fm_pure _
    | with_reducible exact fm_raise _
    | exact fm_setObj _ _ (fun _ => MKeep.same rfl rfl rfl rfl rfl)
    | with_reducible apply fm_bind
    | with_reducible apply fm_ite
    | with_reducible intro _

theorem fm_mountForPathF : ∀ n p, Fr (Meta T) (mountForPathF n p) := by
  intro n
  induction n with
  | zero => intro p; exact fm_throw _
  | succ n ih =>
    intro p
    unfold mountForPathF
    refine fm_bind fm_get ?_
    intro s
    dsimp only
    split
    · exact fm_pure _
    · apply fm_ite
      · intro _
        apply fm_addMountG
        intro q
        apply fm_ite
        · intro _; exact fm_bind (ih q) fun _ => fm_pure _
        · intro _; exact fm_pure _
      · intro _; exact fm_throw _

theorem fm_mountForPath (p : Str) : Fr (Meta T) (mountForPath p) := fun s => fm_mountForPathF s.limit p s

theorem fm_autoMount (p : Str) : Fr (Meta T) (autoMount p) := by
  unfold autoMount
  refine fm_bind fm_get ?_
  intro s
  apply fm_ite
  · intro _; exact fm_bind (fm_mountForPath p) fun _ => fm_pure _
  · intro _; exact fm_pure _

theorem fm_createDir (p : Str) (perm : Nat) : Fr (Meta T) (createDir p perm) := fm_createDirG fm_autoMount p perm
theorem fm_addMountPoint (p : Str) (t : Option Int) : Fr (Meta T) (addMountPoint p t) := fm_addMountG fm_autoMount p t

/-- Compositional steps including the primitives above. -/
macro "framesMt" : tactic => `(tactic|
  repeat' first
    | with_reducible assumption
    | with_reducible exact fm_pure _
    | with_reducible exact fm_pure' _
    | with_reducible exact fm_throw _
    | with_reducible exact fm_raise _
    | with_reducible exact fm_get
    | with_reducible exact fm_rd _
    | with_reducible exact fm_hget _
    | with_reducible exact fm_addEntry _ _
    | with_reducible exact fm_removeEntry _ _ _
    | with_reducible exact fm_changeDiskUsage _ _
    | with_reducible exact fm_setSize _ _
    | with_reducible exact fm_setContents _ _
    | with_reducible exact fm_setInitialContents _ _
    | with_reducible exact fm_setLargeFileSize _ _
    | with_reducible exact fm_autoMount _
    | with_reducible exact fm_mountForPath _
    | with_reducible exact fm_createDir _ _
    | with_reducible exact fm_setObj _ _ (fun _ => MKeep.same rfl rfl rfl rfl rfl)
    | with_reducible apply fm_bind
    | with_reducible apply fm_bindB
    | with_reducible apply fm_ite
    | with_reducible apply fm_catchOS
    | with_reducible apply fm_tryCatch
    | with_reducible apply fm_void
    | split
    | with_reducible intro _
    | dsimp only)

theorem fm_addObject (p : Str) (c : Ref) : Fr (Meta T) (addObject p c) := by unfold addObject; framesMt
theorem fm_removeObject (p : Str) : Fr (Meta T) (removeObject p) := by unfold removeObject; framesMt
theorem fm_createFileTail (a b c : Str) (m : Nat) (ct : Option Bytes) (z : Option Nat) (um : Bool) : Fr (Meta T) (createFileTail a b c m ct z um) := by
  unfold createFileTail
  refine fm_bind fm_get ?_
  intro s
  refine fm_bind (fm_newObj _ (newOk_file _ _ _)) ?_
  intro r
  refine fm_bind (fm_addObject _ _) ?_
  intro _
  dsimp only
  apply fm_ite
  · intro _
    apply fm_bind
    · apply fm_catchOS
      · framesMt
      · intro e; exact fm_bind (fm_removeObject _) fun _ => fm_throw _
    · intro _; exact fm_pure _
  · intro _; exact fm_pure _
theorem fm_fileParent (p : Str) (cm : Bool) : Fr (Meta T) (fileParent p cm) := by unfold fileParent; framesMt
theorem fm_createFileI (p : Str) (m : Nat) (ct : Option Bytes) (z : Option Nat) (cm um : Bool) : Fr (Meta T) (createFileI p m ct z cm um) := by
  unfold createFileI
  refine fm_bind fm_get ?_
  intro s
  dsimp only
  refine fm_bind (fm_rd _) ?_
  intro b
  have : ∀ q, Fr (Meta T) (do
      autoMount q
      let parent ← fileParent q cm
      createFileTail parent (s.cfg.splitpath (s.absnorm (s.cfg.makeStringPath p))).2 (s.absnorm (s.cfg.makeStringPath p)) m ct z um) :=
    fun q => fm_bind (fm_autoMount _) fun _ => fm_bind (fm_fileParent _ _) fun _ => fm_createFileTail _ _ _ _ _ _ _
  apply fm_ite
  · intro _; exact fm_bind (fm_raise _) fun _ => this _
  · intro _; exact this _
theorem fm_createFile (p : Str) (m : Nat) (ct : Option Bytes) (z : Option Nat) (cm um : Bool) : Fr (Meta T) (createFile p m ct z cm um) :=
  fm_createFileI p m ct z cm um
theorem fm_createSymlink (p t : Str) (cm : Bool) : Fr (Meta T) (createSymlink p t cm) := by
  have h1 : ∀ p c, Fr (Meta T) (createFileI p (S_IFLNK ||| PERM_DEF) c none cm false) :=
    fun p c => fm_createFileI (T := T) p _ c none cm false
  have h2 := fun p => fm_removeObject (T := T) p
  unfold createSymlink
  repeat' first
    | with_reducible exact h1 _ _
    | with_reducible exact h2 _
    | with_reducible exact fm_pure _
    | with_reducible exact fm_raise _
    | with_reducible exact fm_rd _
    | with_reducible exact fm_get
    | with_reducible apply fm_bind
    | with_reducible apply fm_ite
    | with_reducible intro _
    | dsimp only
theorem fm_linkTail (a b c d : Str) (f : Bool) : Fr (Meta T) (linkTail a b c d f) := by
  have h1 := fun p c => fm_addObject (T := T) p c
  unfold linkTail
  repeat' first
    | with_reducible exact h1 _ _
    | with_reducible exact fm_pure _
    | with_reducible exact fm_raise _
    | with_reducible exact fm_rd _
    | with_reducible exact fm_get
    | with_reducible exact fm_setObj _ _ (fun _ => MKeep.same rfl rfl rfl rfl rfl)
    | with_reducible apply fm_bind
    | with_reducible apply fm_ite
    | with_reducible apply fm_catchOS
    | with_reducible intro _
    | dsimp only
theorem fm_createLink (o n : Str) (f cm : Bool) : Fr (Meta T) (createLink o n f cm) := by
  have h1 := fun a b c d f => fm_linkTail (T := T) a b c d f
  have h2 : ∀ p cm, Fr (Meta T) (linkParent p cm) := fun p cm => by unfold linkParent; framesMt
  unfold createLink
  repeat' first
    | with_reducible exact h1 _ _ _ _ _
    | with_reducible exact h2 _ _
    | with_reducible exact fm_raise _
    | with_reducible exact fm_rd _
    | with_reducible exact fm_get
    | with_reducible apply fm_bind
    | with_reducible apply fm_ite
    | with_reducible intro _
    | dsimp only
theorem fm_mkdirTail (p : Str) (m : Nat) : Fr (Meta T) (mkdirTail p m) := by
  unfold mkdirTail
  refine fm_bind fm_get ?_
  intro s
  exact fm_bind (fm_newObj _ (newOk_dir _ _)) fun _ => fm_addObject _ _
theorem fm_mkdir (p : Str) (m : Nat) : Fr (Meta T) (mkdir p m) := by
  have h1 := fun p => fm_mkdirTail (T := T) p m
  have h2 := fun p => fm_removeObject (T := T) p
  unfold mkdir
  repeat' first
    | with_reducible exact h1 _
    | with_reducible exact h2 _
    | with_reducible exact fm_raise _
    | with_reducible exact fm_rd _
    | with_reducible exact fm_get
    | with_reducible apply fm_bind
    | with_reducible apply fm_ite
    | with_reducible intro _
    | dsimp only
theorem fm_makedirsTail (p : Str) (m : Nat) (e : Bool) : Fr (Meta T) (makedirsTail p m e) := by
  have h1 : ∀ p x, Fr (Meta T) (createDir p (andNot m x)) := fun p x => fm_createDir p _
  unfold makedirsTail
  repeat' first
    | with_reducible exact h1 _ _
    | with_reducible exact fm_pure _
    | with_reducible exact fm_pure' _
    | with_reducible exact fm_throw _
    | with_reducible exact fm_rd _
    | with_reducible exact fm_get
    | with_reducible apply fm_bind
    | with_reducible apply fm_ite
    | with_reducible apply fm_catchOS
    | with_reducible intro _
    | dsimp only
theorem fm_makedirs (p : Str) (m : Nat) (e : Bool) : Fr (Meta T) (makedirs p m e) := by
  have h1 := fun p e => fm_makedirsTail (T := T) p m e
  have h2 := fun p => fm_removeObject (T := T) p
  unfold makedirs
  repeat' first
    | with_reducible exact h1 _ _
    | with_reducible exact h2 _
    | with_reducible exact fm_pure _
    | with_reducible exact fm_pure' _
    | with_reducible exact fm_raise _
    | with_reducible exact fm_rd _
    | with_reducible exact fm_get
    | with_reducible apply fm_bind
    | with_reducible apply fm_ite
    | with_reducible intro _
    | dsimp only
theorem fm_remove (p : Str) : Fr (Meta T) (remove p) := by
  unfold remove
  exact fm_bind (fm_rd _) fun _ => fm_bind fm_get fun _ => fm_removeObject _
theorem fm_rmdir (p : Str) (a : Bool) : Fr (Meta T) (rmdir p a) := by
  unfold rmdir
  exact fm_bind (fm_rd _) fun _ => fm_bind fm_get fun _ => fm_ite (fun _ => fm_removeObject _) fun _ => fm_pure _
theorem fm_removedirsLoop : ∀ n a b, Fr (Meta T) (removedirsLoop n a b) := by
  intro n
  induction n with
  | zero => intro a b; exact fm_pure _
  | succ n ih =>
    intro a b
    unfold removedirsLoop
    apply fm_ite
    · intro _; exact fm_pure _
    intro _
    refine fm_bind (fm_rd _) ?_
    intro d
    refine fm_bind fm_get ?_
    intro s
    apply fm_ite
    · intro _; exact fm_pure _
    · intro _; exact fm_bind (fm_rmdir _ _) fun _ => ih _ _
theorem fm_removedirs (p : Str) : Fr (Meta T) (removedirs p) := by
  unfold removedirs
  refine fm_bind fm_get ?_
  intro s
  refine fm_bind (fm_rd _) ?_
  intro d
  refine fm_bind fm_get ?_
  intro s
  have key : ∀ q : Str, Fr (Meta T) (do
      rmdir q
      let (h, t) := s.cfg.splitpath q
      let (h, t) := if t = [] then s.cfg.splitpath h else (h, t)
      removedirsLoop q.length h t) := fun q => fm_bind (fm_rmdir _ _) fun _ => fm_removedirsLoop _ _ _
  apply fm_ite
  · intro _; exact fm_bind (fm_raise _) fun _ => key _
  · intro _; exact key _
theorem fm_renameCommit (a b : Ref) (c d : Str) : Fr (Meta T) (renameCommit a b c d) := by
  unfold renameCommit
  framesMt
theorem fm_renameTail (a b : Str) (c : Ref) : Fr (Meta T) (renameTail a b c) := by
  have h1 := fun a b c d => fm_renameCommit (T := T) a b c d
  unfold renameTail
  repeat' first
    | with_reducible exact h1 _ _ _ _
    | with_reducible exact fm_pure _
    | with_reducible exact fm_throw _
    | with_reducible exact fm_raise _
    | with_reducible exact fm_rd _
    | with_reducible exact fm_get
    | with_reducible apply fm_bind
    | with_reducible apply fm_ite
    | with_reducible intro _
    | dsimp only
theorem fm_renameToExisting (f : Bool) (a b : Str) (c : Ref) (e : Bool) : Fr (Meta T) (renameToExisting f a b c e) := by
  have h2 := fun p => fm_removeObject (T := T) p
  unfold renameToExisting
  repeat' first
    | with_reducible exact h2 _
    | with_reducible exact fm_pure _
    | with_reducible exact fm_throw _
    | with_reducible exact fm_raise _
    | with_reducible exact fm_rd _
    | with_reducible exact fm_get
    | with_reducible apply fm_bind
    | with_reducible apply fm_ite
    | with_reducible intro _
    | dsimp only
theorem fm_rename (a b : Str) (f : Bool) : Fr (Meta T) (rename a b f) := by
  have h1 := fun a b c => fm_renameTail (T := T) a b c
  have h2 := fun f a b c e => fm_renameToExisting (T := T) f a b c e
  unfold rename
  repeat' first
    | with_reducible exact h1 _ _ _
    | with_reducible exact h2 _ _ _ _ _
    | with_reducible exact fm_pure _
    | with_reducible exact fm_pure' _
    | with_reducible exact fm_throw _
    | with_reducible exact fm_raise _
    | with_reducible exact fm_rd _
    | with_reducible exact fm_get
    | with_reducible apply fm_bind
    | with_reducible apply fm_ite
    | split
    | with_reducible intro _
    | dsimp only
theorem fm_truncate (p : Str) (n : Nat) : Fr (Meta T) (truncate p n) := by
  unfold truncate; exact fm_bind (fm_rd _) fun r => fm_setSize _ _
theorem fm_mknod (p : Str) (m : Nat) : Fr (Meta T) (mknod p m) := by
  have h1 := fun p c => fm_addObject (T := T) p c
  have h2 : ∀ b x, Fr (Meta T) (newObj (mkFileObj b (andNot m x) none)) := fun b x => fm_newObj _ (newOk_file _ _ _)
  unfold mknod
  repeat' first
    | with_reducible exact h1 _ _
    | with_reducible exact h2 _ _
    | with_reducible exact fm_pure _
    | with_reducible exact fm_throw _
    | with_reducible exact fm_raise _
    | with_reducible exact fm_rd _
    | with_reducible exact fm_get
    | with_reducible apply fm_bind
    | with_reducible apply fm_ite
    | with_reducible intro _
    | dsimp only
theorem fm_setxattr (p a : Str) (v : Bytes) (fl : Nat) (f : Bool) : Fr (Meta T) (setxattr p a v fl f) := by
  unfold setxattr
  framesMt
theorem fm_removexattr (p a : Str) (f : Bool) : Fr (Meta T) (removexattr p a f) := by
  unfold removexattr
  framesMt
theorem fm_setDiskUsage (t : Int) (p : Str) : Fr (Meta T) (setDiskUsage t p) := by
  have h1 : ∀ dev, Fr (Meta T) (M.modify fun s => { s with mounts := s.mounts.map fun m =>
      if m.idev = dev then { m with total := some t } else m }) := fun dev s => Meta.env s s.lastIno _ s.lastDev
  unfold setDiskUsage
  refine fm_bind (fm_mountForPath _) ?_
  intro dev
  refine fm_bind fm_get ?_
  intro s
  split
  · exact fm_throw _
  · apply fm_ite
    · intro _; exact fm_bind (fm_raise _) fun _ => h1 _
    · intro _; exact h1 _



theorem fm_chmod (hc : T.c = true) (p : Str) (m : Nat) (f : Bool) : Fr (Meta T) (chmod p m f) := by
  unfold chmod
  refine fm_bind (fm_rd _) fun r => fm_setObj _ _ fun s => ?_
  exact ⟨rfl, rfl, Or.inl rfl, Or.inl rfl, Or.inr ⟨hc, rfl⟩⟩

end

/-- every time stamp may be set -/
def Stamps.all : Stamps := ⟨true, true, true⟩

section


theorem fm_hmod (h : Nat) (f : Handle → Handle) : Fr (Meta Stamps.all) (hmod h f) :=
  fun s => Meta.hand s _ s.hnext s.openFiles s.freeFds
theorem fm_setH (h : Nat) (f : FS → Handle → Handle) : Fr (Meta Stamps.all) (M.modify fun s => s.setH h (f s)) :=
  fun s => Meta.hand s _ s.hnext s.openFiles s.freeFds
theorem fm_openFiles (f : FS → List (Option (List Nat))) : Fr (Meta Stamps.all) (M.modify fun s => { s with openFiles := f s }) :=
  fun s => Meta.hand s s.handles s.hnext _ s.freeFds
theorem fm_closeOpenFile (fd : Nat) : Fr (Meta Stamps.all) (closeOpenFile fd) := fun s => Meta.hand s s.handles s.hnext _ _
theorem fm_newHandle (H : Handle) : Fr (Meta Stamps.all) (newHandle H) := fun s => Meta.hand s _ _ s.openFiles s.freeFds
theorem fm_addOpenFile (h : Nat) : Fr (Meta Stamps.all) (addOpenFile h) := by
  intro s
  unfold addOpenFile
  split
  · exact Meta.hand s s.handles s.hnext _ _
  · exact Meta.hand s s.handles s.hnext _ s.freeFds
theorem fm_checkOpen (h : Nat) : Fr (Meta Stamps.all) (checkOpen h) := by
  intro s
  unfold checkOpen
  split <;> exact Meta.refl s
theorem fm_hRaise {α : Type} (h : Nat) : Fr (Meta Stamps.all) (hRaise h : M α) := by
  unfold hRaise
  refine fm_bind (fm_hget h) fun H => fm_ite (fun _ => fm_raise _) fun _ => fm_throw _

/-- Compositional steps for handle operations. -/
macro "framesMh" : tactic => `(tactic|
  repeat' first
    | with_reducible assumption
    | with_reducible exact fm_pure _
    | with_reducible exact fm_pure' _
    | with_reducible exact fm_throw _
    | with_reducible exact fm_raise _
    | with_reducible exact fm_get
    | with_reducible exact fm_rd _
    | with_reducible exact fm_hget _
    | with_reducible exact fm_hmod _ _
    | with_reducible exact fm_setH _ _
    | with_reducible exact fm_openFiles _
    | with_reducible exact fm_checkOpen _
    | with_reducible exact fm_hRaise _
    | with_reducible exact fm_closeOpenFile _
    | with_reducible exact fm_newHandle _
    | with_reducible exact fm_addOpenFile _
    | with_reducible exact fm_setSize _ _
    | with_reducible exact fm_setContents _ _
    | with_reducible exact fm_removeObject _
    | with_reducible exact fm_setObj _ _ (fun _ => MKeep.same rfl rfl rfl rfl rfl)
    | with_reducible apply fm_bind
    | with_reducible apply fm_bindB
    | with_reducible apply fm_ite
    | with_reducible apply fm_catchOS
    | with_reducible apply fm_tryCatch
    | with_reducible apply fm_void
    | split
    | with_reducible intro _
    | dsimp only)

theorem fm_setStream (h : Nat) (b : Option Bytes) : Fr (Meta Stamps.all) (setStream h b) := by
  unfold setStream; framesMh
theorem fm_syncIo (h : Nat) : Fr (Meta Stamps.all) (syncIo h) := by
  have h1 := fun b => fm_setStream h b
  unfold syncIo
  refine fm_bind fm_get fun s => fm_ite (fun _ => fm_pure _) fun _ => fm_bind (h1 _) fun _ => ?_
  exact fm_setH h (fun s H => { H with fileEpoch := (s.heap H.obj).epoch })
theorem fm_syncAll (h : Nat) (r : Ref) : ∀ l, Fr (Meta Stamps.all) (syncAll h r l) := by
  intro l
  induction l with
  | nil => exact fm_pure _
  | cons g gs ih =>
    unfold syncAll
    refine fm_bind (fm_hget g) fun G => ?_
    dsimp only
    apply fm_ite
    · intro _; exact fm_bind (fm_syncIo g) fun _ => ih
    · intro _; exact ih
theorem fm_flushRelated (h : Nat) : Fr (Meta Stamps.all) (flushRelated h) := by
  unfold flushRelated
  exact fm_bind fm_get fun s => fm_syncAll _ _ _
theorem fm_flushContents (h : Nat) : Fr (Meta Stamps.all) (flushContents h) := by
  have h1 := fm_syncIo h
  have h2 := fun b => fm_setStream h b
  unfold flushContents
  refine fm_bind (fm_hget h) fun H => fm_ite (fun _ => fm_bind h1 fun _ => fm_bind fm_get fun s => ?_) fun _ => fm_pure _
  split
  · exact fm_throw _
  · exact fm_bind (h2 _) fun _ => fm_pure _
theorem fm_flushStore (h : Nat) (c : Bytes) : Fr (Meta Stamps.all) (flushStore h c) := by
  have h1 := fm_flushRelated h
  have h2 : Fr (Meta Stamps.all) (M.modify fun s => s.setH h fun H => { H with fileEpoch := (s.heap H.obj).epoch }) :=
    fm_setH h (fun s H => { H with fileEpoch := (s.heap H.obj).epoch })
  have h3 : ∀ r, Fr (Meta Stamps.all) (M.modify fun s => s.setObj r fun o => { o with ctime := s.clock, mtime := s.clock }) :=
    fun r => fm_setObj r (fun s o => { o with ctime := s.clock, mtime := s.clock }) fun _ => ⟨rfl, rfl, Or.inl rfl, Or.inr ⟨rfl, rfl⟩, Or.inr ⟨rfl, rfl⟩⟩
  unfold flushStore
  refine fm_bind (fm_hmod _ _) fun _ => fm_bind (fm_hget h) fun H => fm_bind (fm_setContents _ _) fun b => fm_bind fm_get fun s => ?_
  have key : Fr (Meta Stamps.all) (do
      M.modify fun s => s.setH h fun H => { H with fileEpoch := (s.heap H.obj).epoch }
      flushRelated h) := fm_bind h2 fun _ => h1
  dsimp only
  apply fm_ite
  · intro _
    apply fm_ite
    · intro _; exact fm_bind (fm_hmod _ _) fun _ => key
    · intro _; exact fm_bind (h3 _) fun _ => key
  · intro _; exact key
theorem fm_flush (h : Nat) : Fr (Meta Stamps.all) (flush h) := by
  unfold flush
  exact fm_bind (fm_checkOpen h) fun _ => fm_bind (fm_hget h) fun H => fm_ite
    (fun _ => fm_bind (fm_flushContents h) fun c => fm_flushStore h c) fun _ => fm_pure _
theorem fm_seek (h : Nat) (o : Int) (w : Nat) : Fr (Meta Stamps.all) (seek h o w) := by
  have h1 := fm_flush h
  unfold seek
  framesMh
theorem fm_tell (h : Nat) : Fr (Meta Stamps.all) (tell h) := by
  have h1 := fm_flush h
  unfold tell
  framesMh
theorem fm_read (h : Nat) (n : Option Nat) : Fr (Meta Stamps.all) (read h n) := by
  have h1 := fm_flush h
  have h2 := fm_syncIo h
  have h3 : ∀ r, Fr (Meta Stamps.all) (M.modify fun s => s.setObj r fun o => { o with atime := s.clock }) :=
    fun r => fm_setObj r (fun s o => { o with atime := s.clock }) fun _ => ⟨rfl, rfl, Or.inr ⟨rfl, rfl⟩, Or.inl rfl, Or.inl rfl⟩
  have h3 := fun r => h3 r
  unfold read
  repeat' first
    | with_reducible exact h1
    | with_reducible exact h2
    | with_reducible exact h3 _
    | with_reducible exact fm_pure _
    | with_reducible exact fm_pure' _
    | with_reducible exact fm_throw _
    | with_reducible exact fm_get
    | with_reducible exact fm_hget _
    | with_reducible exact fm_hmod _ _
    | with_reducible exact fm_checkOpen _
    | with_reducible exact fm_hRaise _
    | with_reducible apply fm_bind
    | with_reducible apply fm_ite
    | split
    | with_reducible intro _
    | dsimp only
theorem fm_rawWrite (h : Nat) (b : Bytes) : Fr (Meta Stamps.all) (rawWrite h b) := fm_hmod _ _
theorem fm_tryFlush (h : Nat) (o : Nat) : Fr (Meta Stamps.all) (tryFlush h o) := by
  have h1 := fm_flush h
  unfold tryFlush
  framesMh
theorem fm_writeWrapper (h : Nat) (b : Bytes) : Fr (Meta Stamps.all) (writeWrapper h b) := by
  have h1 := fun o => fm_tryFlush h o
  have h2 := fun b => fm_rawWrite h b
  unfold writeWrapper
  repeat' first
    | with_reducible exact h1 _
    | with_reducible exact h2 _
    | with_reducible exact fm_pure _
    | with_reducible exact fm_pure' _
    | with_reducible exact fm_hget _
    | with_reducible exact fm_hmod _ _
    | with_reducible apply fm_bind
    | with_reducible apply fm_ite
    | with_reducible intro _
    | dsimp only
theorem fm_write (h : Nat) (b : Bytes) : Fr (Meta Stamps.all) (write h b) := by
  have h1 := fm_writeWrapper h b
  unfold write
  framesMh
theorem fm_adaptSize (h n : Nat) : Fr (Meta Stamps.all) (adaptSize h n) := by
  unfold adaptSize
  intro s
  show Meta Stamps.all s (s.openHandles.foldl _ s)
  generalize s.openHandles = l
  induction l generalizing s with
  | nil => exact Meta.refl s
  | cons g gs ih =>
    rw [List.foldl_cons]
    refine Meta.trans ?_ (ih _)
    split
    · exact Meta.hand s _ s.hnext s.openFiles s.freeFds
    · exact Meta.refl s
theorem fm_truncateWrapper (h : Nat) (z : Option Nat) : Fr (Meta Stamps.all) (truncateWrapper h z) := by
  have h1 := fm_flush h
  have h2 := fun n => fm_adaptSize h n
  unfold truncateWrapper
  repeat' first
    | with_reducible exact h1
    | with_reducible exact h2 _
    | with_reducible exact fm_pure _
    | with_reducible exact fm_pure' _
    | with_reducible exact fm_throw _
    | with_reducible exact fm_hget _
    | with_reducible exact fm_hmod _ _
    | with_reducible exact fm_setSize _ _
    | with_reducible exact fm_setContents _ _
    | with_reducible apply fm_bind
    | with_reducible apply fm_ite
    | split
    | with_reducible intro _
    | dsimp only
theorem fm_hTruncate (h : Nat) (z : Option Nat) : Fr (Meta Stamps.all) (hTruncate h z) := by
  have h1 := fm_truncateWrapper h z
  unfold hTruncate
  framesMh
theorem fm_hClose (h : Nat) : Fr (Meta Stamps.all) (hClose h) := by
  have h1 := fm_flush h
  have h3 : ∀ r, Fr (Meta Stamps.all) (M.modify fun s => s.setObj r fun o => { o with mtime := s.clock }) :=
    fun r => fm_setObj r (fun s o => { o with mtime := s.clock }) fun _ => ⟨rfl, rfl, Or.inl rfl, Or.inr ⟨rfl, rfl⟩, Or.inl rfl⟩
  have h4 : ∀ fd, Fr (Meta Stamps.all) (M.modify fun s => { s with openFiles := s.openFiles.modify fd fun e => e.map fun l => l.erase h }) :=
    fun fd => fm_openFiles fun s => s.openFiles.modify fd fun e => e.map fun l => l.erase h
  unfold hClose
  repeat' first
    | with_reducible exact h1
    | with_reducible exact h3 _
    | with_reducible exact h4 _
    | with_reducible exact fm_pure _
    | with_reducible exact fm_pure' _
    | with_reducible exact fm_get
    | with_reducible exact fm_closeOpenFile _
    | with_reducible exact fm_removeObject _
    | with_reducible apply fm_bind
    | with_reducible apply fm_ite
    | split
    | with_reducible intro _
    | dsimp only

theorem fm_createFileR (p : Str) (c : Option Bytes) : Fr (Meta Stamps.all) (createFileI p (S_IFREG ||| PERM_DEF_FILE) c none false true) :=
  fm_createFileI _ _ _ _ _ _

theorem fm_initFileObject (o : Option Ref) (p q : Str) (md : OpenModes) : Fr (Meta Stamps.all) (initFileObject o p q md) := by
  have h1 := fun c => fm_createFileR q c
  unfold initFileObject
  repeat' first
    | with_reducible exact h1 _
    | with_reducible exact fm_pure _
    | with_reducible exact fm_pure' _
    | with_reducible exact fm_throw _
    | with_reducible exact fm_raise _
    | with_reducible exact fm_get
    | with_reducible exact fm_rd _
    | with_reducible exact fm_setContents _ _
    | with_reducible apply fm_bind
    | with_reducible apply fm_ite
    | split
    | with_reducible intro _
    | dsimp only
theorem fm_openObject (o : Option Ref) (p q : Str) (md : OpenModes) : Fr (Meta Stamps.all) (openObject o p q md) := by
  have h1 := fm_initFileObject o p q md
  have h2 : ∀ r, Fr (Meta Stamps.all) (M.modify fun s => s.setObj r fun o =>
      { o with mtime := s.clock, ctime := if s.cfg.isWin then o.ctime else s.clock }) :=
    fun r => fm_setObj r (fun s o => { o with mtime := s.clock, ctime := if s.cfg.isWin then o.ctime else s.clock }) fun s => ⟨rfl, rfl, Or.inl rfl, Or.inr ⟨rfl, rfl⟩, by
      cases s.cfg.isWin
      · exact Or.inr ⟨rfl, rfl⟩
      · exact Or.inl rfl⟩
  unfold openObject
  repeat' first
    | with_reducible exact h1
    | with_reducible exact h2 _
    | with_reducible exact fm_pure _
    | with_reducible exact fm_pure' _
    | with_reducible exact fm_raise _
    | with_reducible exact fm_get
    | with_reducible exact fm_rd _
    | with_reducible apply fm_bind
    | with_reducible apply fm_ite
    | with_reducible intro _
    | dsimp only
theorem fm_openPath (p : Str) (md : OpenModes) (b : Option Nat) (r d : Bool) : Fr (Meta Stamps.all) (openPath p md b r d) := by
  have h1 := fun o q => fm_openObject o p q md
  unfold openPath
  repeat' first
    | with_reducible exact h1 _ _
    | with_reducible exact fm_pure _
    | with_reducible exact fm_throw _
    | with_reducible exact fm_get
    | with_reducible exact fm_rd _
    | with_reducible exact fm_hmod _ _
    | with_reducible exact fm_newHandle _
    | with_reducible exact fm_addOpenFile _
    | with_reducible apply fm_bind
    | with_reducible apply fm_ite
    | with_reducible intro _
    | dsimp only
theorem fm_openFd (fd : Nat) (md : OpenModes) (b : Option Nat) (c : Bool) : Fr (Meta Stamps.all) (openFd fd md b c) := by
  have h1 := fun o p q => fm_openObject o p q md
  have h4 : ∀ h, Fr (Meta Stamps.all) (M.modify fun s => { s with openFiles := s.openFiles.modify fd fun e => e.map fun l => l ++ [h] }) :=
    fun h => fm_openFiles fun s => s.openFiles.modify fd fun e => e.map fun l => l ++ [h]
  unfold openFd
  repeat' first
    | with_reducible exact h1 _ _ _
    | with_reducible exact h4 _
    | with_reducible exact fm_pure _
    | with_reducible exact fm_throw _
    | with_reducible exact fm_get
    | with_reducible exact fm_rd _
    | with_reducible exact fm_hget _
    | with_reducible exact fm_newHandle _
    | with_reducible apply fm_bind
    | with_reducible apply fm_ite
    | with_reducible intro _
    | dsimp only
theorem fm_osClose (fd : Int) : Fr (Meta Stamps.all) (osClose fd) := by
  unfold osClose; exact fm_bind (fm_rd _) fun h => fm_hClose h
theorem fm_osRead (fd : Int) (n : Nat) : Fr (Meta Stamps.all) (osRead fd n) := by
  have h1 := fun h => fm_read h (some n)
  unfold osRead
  repeat' first
    | with_reducible exact h1 _
    | with_reducible exact fm_throw _
    | with_reducible exact fm_rd _
    | with_reducible exact fm_hget _
    | with_reducible exact fm_hmod _ _
    | with_reducible apply fm_bind
    | with_reducible apply fm_ite
    | with_reducible intro _
    | dsimp only
theorem fm_osWrite (fd : Int) (b : Bytes) : Fr (Meta Stamps.all) (osWrite fd b) := by
  have h1 := fun h => fm_write h b
  have h2 := fun h => fm_flush h
  have h3 := fun h => fm_syncIo h
  unfold osWrite
  repeat' first
    | with_reducible exact h1 _
    | with_reducible exact h2 _
    | with_reducible exact h3 _
    | with_reducible exact fm_pure _
    | with_reducible exact fm_throw _
    | with_reducible exact fm_raise _
    | with_reducible exact fm_rd _
    | with_reducible exact fm_hget _
    | with_reducible exact fm_hmod _ _
    | with_reducible apply fm_bind
    | with_reducible apply fm_ite
    | with_reducible intro _
    | dsimp only
theorem fm_ftruncate (fd : Int) (n : Nat) : Fr (Meta Stamps.all) (ftruncate fd n) := by
  unfold ftruncate
  repeat' first
    | with_reducible exact fm_setSize _ _
    | with_reducible exact fm_throw _
    | with_reducible exact fm_rd _
    | with_reducible exact fm_hget _
    | with_reducible apply fm_bind
    | with_reducible apply fm_ite
    | with_reducible intro _
    | dsimp only
theorem fm_onFile {α : Type} {h : Nat} {m : M α} (hm : Fr (Meta Stamps.all) m) : Fr (Meta Stamps.all) (onFile h m) := by
  unfold onFile
  exact fm_bind fm_get fun s => fm_ite (fun _ => fm_void hm) fun _ => fm_throw _


theorem fm_osOpen (p : Str) (f : OFlags) (m : Nat) : Fr (Meta Stamps.all) (osOpen p f m) := by
  have h1 := fun p md => fm_openPath p md none true false
  have h2 := fun p m => fm_chmod (T := Stamps.all) rfl p m true
  unfold osOpen
  repeat' first
    | with_reducible exact h1 _ _
    | with_reducible exact h2 _ _
    | with_reducible exact fm_pure _
    | with_reducible exact fm_pure' _
    | with_reducible exact fm_throw _
    | with_reducible exact fm_raise _
    | with_reducible exact fm_get
    | with_reducible exact fm_rd _
    | with_reducible exact fm_hget _
    | with_reducible exact fm_hmod _ _
    | with_reducible exact fm_newHandle _
    | with_reducible exact fm_addOpenFile _
    | with_reducible apply fm_bind
    | with_reducible apply fm_ite
    | split
    | with_reducible intro _
    | dsimp only

end
end Verif
