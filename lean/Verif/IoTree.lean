import Verif.FrameIO
/-!
# Reading and writing leave the tree alone

The relation `Shape`: nothing but contents, sizes, time stamps, the used sizes and the table of open files differs. Every call
on an open file stays within it, except closing a delete-on-close file.
-/

namespace Verif
open Py Spec Cfg

/-- the same object up to contents (of files), size and time stamps -/
structure Spec.Skel (o o' : Obj) : Prop where
  name : o'.name = o.name
  mode : o'.mode = o.mode
  nlink : o'.nlink = o.nlink
  ino : o'.ino = o.ino
  dev : o'.dev = o.dev
  uid : o'.uid = o.uid
  gid : o'.gid = o.gid
  parent : o'.parent = o.parent
  xattr : o'.xattr = o.xattr
  dir : o.isDir = true → o'.content = o.content
  file : o.isDir = false → o'.isDir = false

theorem Spec.Skel.same {o o' : Obj} (h1 : o'.name = o.name) (h2 : o'.mode = o.mode) (h3 : o'.nlink = o.nlink) (h4 : o'.ino = o.ino)
    (h5 : o'.dev = o.dev) (h6 : o'.uid = o.uid) (h7 : o'.gid = o.gid) (h8 : o'.parent = o.parent) (h9 : o'.xattr = o.xattr)
    (hc : o'.content = o.content) : Skel o o' :=
  ⟨h1, h2, h3, h4, h5, h6, h7, h8, h9, fun _ => hc, fun h => by unfold Obj.isDir at *; rw [hc]; exact h⟩

theorem Spec.Skel.data {o o' : Obj} (hf : o.isDir = false) (h1 : o'.name = o.name) (h2 : o'.mode = o.mode) (h3 : o'.nlink = o.nlink) (h4 : o'.ino = o.ino)
    (h5 : o'.dev = o.dev) (h6 : o'.uid = o.uid) (h7 : o'.gid = o.gid) (h8 : o'.parent = o.parent) (h9 : o'.xattr = o.xattr)
    (hc : o'.isDir = false) : Skel o o' :=
  ⟨h1, h2, h3, h4, h5, h6, h7, h8, h9, fun h => (by rw [hf] at h; cases h), fun _ => hc⟩

theorem Spec.Skel.trans {a b c : Obj} (h : Skel a b) (k : Skel b c) : Skel a c :=
  ⟨k.name.trans h.name, k.mode.trans h.mode, k.nlink.trans h.nlink, k.ino.trans h.ino, k.dev.trans h.dev, k.uid.trans h.uid, k.gid.trans h.gid,
    k.parent.trans h.parent, k.xattr.trans h.xattr,
    fun hd => (k.dir (by unfold Obj.isDir at hd ⊢; rw [h.dir hd]; exact hd)).trans (h.dir hd), fun hf => k.file (h.file hf)⟩

/-- only contents, sizes, time stamps, used sizes and the table of open files differ -/
structure Spec.Shape (s s' : FS) : Prop where
  env : s' = { s with heap := s'.heap, mounts := s'.mounts, handles := s'.handles, hnext := s'.hnext, openFiles := s'.openFiles, freeFds := s'.freeFds }
  objs : ∀ r, Skel (s.heap r) (s'.heap r)
  devs : s'.mounts.map (fun m => (m.path, m.idev, m.total)) = s.mounts.map (fun m => (m.path, m.idev, m.total))

namespace Spec.Shape
theorem refl (s : FS) : Shape s s := ⟨rfl, fun _ => Skel.same rfl rfl rfl rfl rfl rfl rfl rfl rfl rfl, rfl⟩
theorem trans {a b c : FS} (h : Shape a b) (k : Shape b c) : Shape a c := by
  refine ⟨?_, fun r => (h.objs r).trans (k.objs r), k.devs.trans h.devs⟩
  have e := h.env
  rw [k.env, e]
theorem hand (s : FS) (hs : Nat → Handle) (hn : Nat) (f : List (Option (List Nat))) (ff : List Nat) :
    Shape s { s with handles := hs, hnext := hn, openFiles := f, freeFds := ff } := ⟨rfl, fun _ => Skel.same rfl rfl rfl rfl rfl rfl rfl rfl rfl rfl, rfl⟩
theorem usage (s : FS) (i : Nat) (c : Int) : Shape s { s with mounts := changeUsed i c s.mounts } := by
  refine ⟨rfl, fun _ => Skel.same rfl rfl rfl rfl rfl rfl rfl rfl rfl rfl, ?_⟩
  show (changeUsed i c s.mounts).map _ = _
  induction s.mounts with
  | nil => rfl
  | cons m ms ih =>
    unfold changeUsed
    first
      | (split
         · rfl
         · simp only [List.map_cons, ih])
      | (simp only [List.map_cons] at ih ⊢
         unfold changeUsed at ih
         rw [ih]
         congr 1
         split <;> rfl)
theorem obj (s : FS) (r : Ref) (o : Obj) (h : Skel (s.heap r) o) : Shape s (s.setObj r fun _ => o) := by
  refine ⟨rfl, fun x => ?_, rfl⟩
  show Skel (s.heap x) (upd s.heap r o x)
  by_cases e : x = r
  · subst e; rw [upd_same]; exact h
  · rw [upd_ne _ _ e]; exact Skel.same rfl rfl rfl rfl rfl rfl rfl rfl rfl rfl
end Spec.Shape

theorem sh_pure {α : Type} (a : α) : Fr Shape (M.pure a) := fun s => Shape.refl s
theorem sh_pure' {α : Type} (a : α) : Fr Shape (pure a : M α) := fun s => Shape.refl s
theorem sh_throw {α : Type} (e : Err) : Fr Shape (M.throw e : M α) := fun s => Shape.refl s
theorem sh_raise {α : Type} (e : Errno) : Fr Shape (M.raise e : M α) := fun s => Shape.refl s
theorem sh_get : Fr Shape M.get := fun s => Shape.refl s
theorem sh_rd {α : Type} (f : FS → Except Err α) : Fr Shape (rd f) := fun s => Shape.refl s
theorem sh_hget (h : Nat) : Fr Shape (hget h) := fun s => Shape.refl s
theorem sh_bind {α β : Type} {m : M α} {f : α → M β} (hm : Fr Shape m) (hf : ∀ a, Fr Shape (f a)) : Fr Shape (m >>= f) := by
  intro s
  show Shape s (M.bind m f s).2
  unfold M.bind
  have h1 := hm s
  rcases hr : m s with ⟨r, s'⟩
  rw [hr] at h1
  cases r with
  | error e => exact h1
  | ok a => exact Shape.trans h1 (hf a s')
theorem sh_bindB {α β : Type} {m : M α} {f : α → M β} (hm : Fr Shape m) (hf : ∀ a, Fr Shape (f a)) : Fr Shape (M.bind m f) := sh_bind hm hf
theorem sh_ite {α : Type} {c : Prop} [Decidable c] {a b : M α} (ha : c → Fr Shape a) (hb : ¬ c → Fr Shape b) : Fr Shape (if c then a else b) := by
  split
  · exact ha ‹_›
  · exact hb ‹_›
theorem sh_tryCatch {α : Type} {m : M α} {k : Err → M α} (hm : Fr Shape m) (hk : ∀ e, Fr Shape (k e)) : Fr Shape (M.tryCatch m k) := by
  intro s
  unfold M.tryCatch
  have h1 := hm s
  rcases hr : m s with ⟨r, s'⟩
  rw [hr] at h1
  cases r with
  | ok a => exact h1
  | error e => exact Shape.trans h1 (hk e s')
theorem sh_catchOS {α : Type} {m : M α} {k : Err → M α} (hm : Fr Shape m) (hk : ∀ e, Fr Shape (k e)) : Fr Shape (catchOS m k) := by
  unfold catchOS
  refine sh_tryCatch hm fun e => ?_
  split
  · exact hk _
  · exact sh_throw _
theorem sh_void {α : Type} {m : M α} (hm : Fr Shape m) : Fr Shape m.void := sh_bind hm fun _ => sh_pure _
theorem sh_setObj (r : Ref) (f : FS → Obj → Obj) (h : ∀ s : FS, Skel (s.heap r) (f s (s.heap r))) : Fr Shape (M.modify fun s => s.setObj r (f s)) :=
  fun s => Shape.obj s r _ (h s)
theorem sh_changeDiskUsage (c : Int) (dev : Option Nat) : Fr Shape (changeDiskUsage c dev) := by
  intro s
  unfold changeDiskUsage
  split
  · split
    · split
      · exact Shape.refl s
      · exact Shape.usage s _ _
    · exact Shape.usage s _ _
  · exact Shape.refl s
theorem sh_bindFile {α : Type} {m : M Unit} {f : Unit → M α} {r : Ref} (hm : Fr Shape m) {s : FS} (h0 : (s.heap r).isDir = false)
    (hf : ∀ s, (s.heap r).isDir = false → Shape s (f () s).2) : Shape s (M.bind m f s).2 := by
  have h1 := hm s
  unfold M.bind
  rcases hr : m s with ⟨x, s'⟩
  rw [hr] at h1
  cases x with
  | error e => exact h1
  | ok a => exact Shape.trans h1 (hf s' ((h1.objs r).file h0))
theorem sh_setSize (r : Ref) (n : Nat) : Fr Shape (setSize r n) := by
  intro s
  unfold setSize
  split
  · exact Shape.refl s
  · rename_i b hb
    refine sh_bindFile (r := r) (sh_changeDiskUsage _ _) (file_isDir hb) ?_
    intro s1 h1
    exact Shape.obj s1 r _ (Skel.data h1 rfl rfl rfl rfl rfl rfl rfl rfl rfl rfl)
theorem sh_setInitialContents (r : Ref) (b : Bytes) : Fr Shape (setInitialContents r b) := by
  intro s
  unfold setInitialContents
  split
  · exact Shape.refl s
  split
  · exact Shape.refl s
  · rename_i old hb
    refine sh_bindFile (r := r) (sh_changeDiskUsage _ _) (file_isDir hb) ?_
    intro s1 h1
    refine sh_bindFile (r := r) (sh_ite (fun _ => sh_setSize _ _) fun _ => sh_pure _) h1 ?_
    intro s2 h2
    exact Shape.obj s2 r _ (Skel.data h2 rfl rfl rfl rfl rfl rfl rfl rfl rfl rfl)
theorem sh_setContents (r : Ref) (b : Bytes) : Fr Shape (setContents r b) := by
  intro s
  unfold setContents
  split
  · exact Shape.refl s
  · exact sh_setInitialContents r b s
theorem sh_truncate (p : Str) (n : Nat) : Fr Shape (truncate p n) := by
  unfold truncate; exact sh_bind (sh_rd _) fun r => sh_setSize _ _

theorem sh_hmod (h : Nat) (f : Handle → Handle) : Fr Shape (hmod h f) :=
  fun s => Shape.hand s _ s.hnext s.openFiles s.freeFds
theorem sh_setH (h : Nat) (f : FS → Handle → Handle) : Fr Shape (M.modify fun s => s.setH h (f s)) :=
  fun s => Shape.hand s _ s.hnext s.openFiles s.freeFds
theorem sh_openFiles (f : FS → List (Option (List Nat))) : Fr Shape (M.modify fun s => { s with openFiles := f s }) :=
  fun s => Shape.hand s s.handles s.hnext _ s.freeFds
theorem sh_closeOpenFile (fd : Nat) : Fr Shape (closeOpenFile fd) := fun s => Shape.hand s s.handles s.hnext _ _
theorem sh_newHandle (H : Handle) : Fr Shape (newHandle H) := fun s => Shape.hand s _ _ s.openFiles s.freeFds
theorem sh_addOpenFile (h : Nat) : Fr Shape (addOpenFile h) := by
  intro s
  unfold addOpenFile
  split
  · exact Shape.hand s s.handles s.hnext _ _
  · exact Shape.hand s s.handles s.hnext _ s.freeFds
theorem sh_checkOpen (h : Nat) : Fr Shape (checkOpen h) := by
  intro s
  unfold checkOpen
  split <;> exact Shape.refl s
theorem sh_hRaise {α : Type} (h : Nat) : Fr Shape (hRaise h : M α) := by
  unfold hRaise
  refine sh_bind (sh_hget h) fun H => sh_ite (fun _ => sh_raise _) fun _ => sh_throw _

/-- Compositional steps for handle operations. -/
macro "framesS" : tactic => `(tactic|
  repeat' first
    | with_reducible assumption
    | with_reducible exact sh_pure _
    | with_reducible exact sh_pure' _
    | with_reducible exact sh_throw _
    | with_reducible exact sh_raise _
    | with_reducible exact sh_get
    | with_reducible exact sh_rd _
    | with_reducible exact sh_hget _
    | with_reducible exact sh_hmod _ _
    | with_reducible exact sh_setH _ _
    | with_reducible exact sh_openFiles _
    | with_reducible exact sh_checkOpen _
    | with_reducible exact sh_hRaise _
    | with_reducible exact sh_closeOpenFile _
    | with_reducible exact sh_newHandle _
    | with_reducible exact sh_addOpenFile _
    | with_reducible exact sh_setSize _ _
    | with_reducible exact sh_setContents _ _
    | with_reducible exact sh_setObj _ _ (fun _ => Skel.same rfl rfl rfl rfl rfl rfl rfl rfl rfl rfl)
    | with_reducible apply sh_bind
    | with_reducible apply sh_bindB
    | with_reducible apply sh_ite
    | with_reducible apply sh_catchOS
    | with_reducible apply sh_tryCatch
    | with_reducible apply sh_void
    | split
    | with_reducible intro _
    | dsimp only)

theorem sh_setStream (h : Nat) (b : Option Bytes) : Fr Shape (setStream h b) := by
  unfold setStream; framesS
theorem sh_syncIo (h : Nat) : Fr Shape (syncIo h) := by
  have h1 := fun b => sh_setStream h b
  unfold syncIo
  refine sh_bind sh_get fun s => sh_ite (fun _ => sh_pure _) fun _ => sh_bind (h1 _) fun _ => ?_
  exact sh_setH h (fun s H => { H with fileEpoch := (s.heap H.obj).epoch })
theorem sh_syncAll (h : Nat) (r : Ref) : ∀ l, Fr Shape (syncAll h r l) := by
  intro l
  induction l with
  | nil => exact sh_pure _
  | cons g gs ih =>
    unfold syncAll
    refine sh_bind (sh_hget g) fun G => ?_
    dsimp only
    apply sh_ite
    · intro _; exact sh_bind (sh_syncIo g) fun _ => ih
    · intro _; exact ih
theorem sh_flushRelated (h : Nat) : Fr Shape (flushRelated h) := by
  unfold flushRelated
  exact sh_bind sh_get fun s => sh_syncAll _ _ _
theorem sh_flushContents (h : Nat) : Fr Shape (flushContents h) := by
  have h1 := sh_syncIo h
  have h2 := fun b => sh_setStream h b
  unfold flushContents
  refine sh_bind (sh_hget h) fun H => sh_ite (fun _ => sh_bind h1 fun _ => sh_bind sh_get fun s => ?_) fun _ => sh_pure _
  split
  · exact sh_throw _
  · exact sh_bind (h2 _) fun _ => sh_pure _
theorem sh_flushStore (h : Nat) (c : Bytes) : Fr Shape (flushStore h c) := by
  have h1 := sh_flushRelated h
  have h2 : Fr Shape (M.modify fun s => s.setH h fun H => { H with fileEpoch := (s.heap H.obj).epoch }) :=
    sh_setH h (fun s H => { H with fileEpoch := (s.heap H.obj).epoch })
  have h3 : ∀ r, Fr Shape (M.modify fun s => s.setObj r fun o => { o with ctime := s.clock, mtime := s.clock }) :=
    fun r => sh_setObj r (fun s o => { o with ctime := s.clock, mtime := s.clock }) fun _ => Skel.same rfl rfl rfl rfl rfl rfl rfl rfl rfl rfl
  unfold flushStore
  refine sh_bind (sh_hmod _ _) fun _ => sh_bind (sh_hget h) fun H => sh_bind (sh_setContents _ _) fun b => sh_bind sh_get fun s => ?_
  have key : Fr Shape (do
      M.modify fun s => s.setH h fun H => { H with fileEpoch := (s.heap H.obj).epoch }
      flushRelated h) := sh_bind h2 fun _ => h1
  dsimp only
  apply sh_ite
  · intro _
    apply sh_ite
    · intro _; exact sh_bind (sh_hmod _ _) fun _ => key
    · intro _; exact sh_bind (h3 _) fun _ => key
  · intro _; exact key
theorem sh_flush (h : Nat) : Fr Shape (flush h) := by
  unfold flush
  exact sh_bind (sh_checkOpen h) fun _ => sh_bind (sh_hget h) fun H => sh_ite
    (fun _ => sh_bind (sh_flushContents h) fun c => sh_flushStore h c) fun _ => sh_pure _
theorem sh_seek (h : Nat) (o : Int) (w : Nat) : Fr Shape (seek h o w) := by
  have h1 := sh_flush h
  unfold seek
  framesS
theorem sh_tell (h : Nat) : Fr Shape (tell h) := by
  have h1 := sh_flush h
  unfold tell
  framesS
theorem sh_read (h : Nat) (n : Option Nat) : Fr Shape (read h n) := by
  have h1 := sh_flush h
  have h2 := sh_syncIo h
  have h3 : ∀ r, Fr Shape (M.modify fun s => s.setObj r fun o => { o with atime := s.clock }) :=
    fun r => sh_setObj r (fun s o => { o with atime := s.clock }) fun _ => Skel.same rfl rfl rfl rfl rfl rfl rfl rfl rfl rfl
  have h3 := fun r => h3 r
  unfold read
  repeat' first
    | with_reducible exact h1
    | with_reducible exact h2
    | with_reducible exact h3 _
    | with_reducible exact sh_pure _
    | with_reducible exact sh_pure' _
    | with_reducible exact sh_throw _
    | with_reducible exact sh_get
    | with_reducible exact sh_hget _
    | with_reducible exact sh_hmod _ _
    | with_reducible exact sh_checkOpen _
    | with_reducible exact sh_hRaise _
    | with_reducible apply sh_bind
    | with_reducible apply sh_ite
    | split
    | with_reducible intro _
    | dsimp only
theorem sh_rawWrite (h : Nat) (b : Bytes) : Fr Shape (rawWrite h b) := sh_hmod _ _
theorem sh_tryFlush (h : Nat) (o : Nat) : Fr Shape (tryFlush h o) := by
  have h1 := sh_flush h
  unfold tryFlush
  framesS
theorem sh_writeWrapper (h : Nat) (b : Bytes) : Fr Shape (writeWrapper h b) := by
  have h1 := fun o => sh_tryFlush h o
  have h2 := fun b => sh_rawWrite h b
  unfold writeWrapper
  repeat' first
    | with_reducible exact h1 _
    | with_reducible exact h2 _
    | with_reducible exact sh_pure _
    | with_reducible exact sh_pure' _
    | with_reducible exact sh_hget _
    | with_reducible exact sh_hmod _ _
    | with_reducible apply sh_bind
    | with_reducible apply sh_ite
    | with_reducible intro _
    | dsimp only
theorem sh_write (h : Nat) (b : Bytes) : Fr Shape (write h b) := by
  have h1 := sh_writeWrapper h b
  unfold write
  framesS
theorem sh_adaptSize (h n : Nat) : Fr Shape (adaptSize h n) := by
  unfold adaptSize
  intro s
  show Shape s (s.openHandles.foldl _ s)
  generalize s.openHandles = l
  induction l generalizing s with
  | nil => exact Shape.refl s
  | cons g gs ih =>
    rw [List.foldl_cons]
    refine Shape.trans ?_ (ih _)
    split
    · exact Shape.hand s _ s.hnext s.openFiles s.freeFds
    · exact Shape.refl s
theorem sh_truncateWrapper (h : Nat) (z : Option Nat) : Fr Shape (truncateWrapper h z) := by
  have h1 := sh_flush h
  have h2 := fun n => sh_adaptSize h n
  unfold truncateWrapper
  repeat' first
    | with_reducible exact h1
    | with_reducible exact h2 _
    | with_reducible exact sh_pure _
    | with_reducible exact sh_pure' _
    | with_reducible exact sh_throw _
    | with_reducible exact sh_hget _
    | with_reducible exact sh_hmod _ _
    | with_reducible exact sh_setSize _ _
    | with_reducible exact sh_setContents _ _
    | with_reducible apply sh_bind
    | with_reducible apply sh_ite
    | split
    | with_reducible intro _
    | dsimp only
theorem sh_hTruncate (h : Nat) (z : Option Nat) : Fr Shape (hTruncate h z) := by
  have h1 := sh_truncateWrapper h z
  unfold hTruncate
  framesS
theorem sh_osRead (fd : Int) (n : Nat) : Fr Shape (osRead fd n) := by
  have h1 := fun h => sh_read h (some n)
  unfold osRead
  repeat' first
    | with_reducible exact h1 _
    | with_reducible exact sh_throw _
    | with_reducible exact sh_rd _
    | with_reducible exact sh_hget _
    | with_reducible exact sh_hmod _ _
    | with_reducible apply sh_bind
    | with_reducible apply sh_ite
    | with_reducible intro _
    | dsimp only
theorem sh_osWrite (fd : Int) (b : Bytes) : Fr Shape (osWrite fd b) := by
  have h1 := fun h => sh_write h b
  have h2 := fun h => sh_flush h
  have h3 := fun h => sh_syncIo h
  unfold osWrite
  repeat' first
    | with_reducible exact h1 _
    | with_reducible exact h2 _
    | with_reducible exact h3 _
    | with_reducible exact sh_pure _
    | with_reducible exact sh_throw _
    | with_reducible exact sh_raise _
    | with_reducible exact sh_rd _
    | with_reducible exact sh_hget _
    | with_reducible exact sh_hmod _ _
    | with_reducible apply sh_bind
    | with_reducible apply sh_ite
    | with_reducible intro _
    | dsimp only
theorem sh_ftruncate (fd : Int) (n : Nat) : Fr Shape (ftruncate fd n) := by
  unfold ftruncate
  repeat' first
    | with_reducible exact sh_setSize _ _
    | with_reducible exact sh_throw _
    | with_reducible exact sh_rd _
    | with_reducible exact sh_hget _
    | with_reducible apply sh_bind
    | with_reducible apply sh_ite
    | with_reducible intro _
    | dsimp only
theorem sh_onFile {α : Type} {h : Nat} {m : M α} (hm : Fr Shape m) : Fr Shape (onFile h m) := by
  unfold onFile
  exact sh_bind sh_get fun s => sh_ite (fun _ => sh_void hm) fun _ => sh_throw _


end Verif
