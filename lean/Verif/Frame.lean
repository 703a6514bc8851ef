import Verif.Hist
/-!
# Frames: what a call leaves alone

`Fr R m`: whatever `m` does, raising or not, the state before and after are related by `R`.  Here for relations
that do not look at the objects and mount points (`TreeRel`): every call that is not about open files satisfies
them, without any hypothesis on the state.
-/

namespace Verif
open Py Spec Cfg

/-- before and after running `m` the states are related by `R` -/
def Fr {α : Type} (R : FS → FS → Prop) (m : M α) : Prop := ∀ s, R s (m s).2

/-- relations insensitive to objects and mount points -/
class TreeRel (R : FS → FS → Prop) : Prop where
  refl : ∀ s, R s s
  trans : ∀ {a b c}, R a b → R b c → R a c
  tree : ∀ (s : FS) hp nx li ms ld, R s { s with heap := hp, next := nx, lastIno := li, mounts := ms, lastDev := ld }

section
variable {R : FS → FS → Prop} [TreeRel R]

theorem fr_pure {α : Type} (a : α) : Fr R (M.pure a) := fun s => TreeRel.refl s
theorem fr_pure' {α : Type} (a : α) : Fr R (pure a : M α) := fun s => TreeRel.refl s
theorem fr_throw {α : Type} (e : Err) : Fr R (M.throw e : M α) := fun s => TreeRel.refl s
theorem fr_raise {α : Type} (e : Errno) : Fr R (M.raise e : M α) := fun s => TreeRel.refl s
theorem fr_get : Fr R M.get := fun s => TreeRel.refl s
theorem fr_rd {α : Type} (f : FS → Except Err α) : Fr R (rd f) := fun s => TreeRel.refl s
theorem fr_hget (h : Nat) : Fr R (hget h) := fun s => TreeRel.refl s

theorem fr_bind {α β : Type} {m : M α} {f : α → M β} (hm : Fr R m) (hf : ∀ a, Fr R (f a)) : Fr R (m >>= f) := by
  intro s
  show R s (M.bind m f s).2
  unfold M.bind
  have h1 := hm s
  rcases hr : m s with ⟨r, s'⟩
  rw [hr] at h1
  cases r with
  | error e => exact h1
  | ok a => exact TreeRel.trans h1 (hf a s')

theorem fr_bindB {α β : Type} {m : M α} {f : α → M β} (hm : Fr R m) (hf : ∀ a, Fr R (f a)) : Fr R (M.bind m f) := fr_bind hm hf

theorem fr_ite {α : Type} {c : Prop} [Decidable c] {a b : M α} (ha : c → Fr R a) (hb : ¬ c → Fr R b) : Fr R (if c then a else b) := by
  split
  · exact ha ‹_›
  · exact hb ‹_›

theorem fr_tryCatch {α : Type} {m : M α} {k : Err → M α} (hm : Fr R m) (hk : ∀ e, Fr R (k e)) : Fr R (M.tryCatch m k) := by
  intro s
  unfold M.tryCatch
  have h1 := hm s
  rcases hr : m s with ⟨r, s'⟩
  rw [hr] at h1
  cases r with
  | error e => exact TreeRel.trans h1 (hk e s')
  | ok a => exact h1

theorem fr_catchOS {α : Type} {m : M α} {k : Err → M α} (hm : Fr R m) (hk : ∀ e, Fr R (k e)) : Fr R (catchOS m k) :=
  fr_tryCatch hm fun e => fr_ite (fun _ => hk e) fun _ => fr_throw e

theorem fr_void {α : Type} {m : M α} (h : Fr R m) : Fr R m.void := fr_bind h fun _ => fr_pure _

theorem fr_setObj (r : Ref) (f : FS → Obj → Obj) : Fr R (M.modify fun s => s.setObj r (f s)) :=
  fun s => TreeRel.tree s _ s.next s.lastIno s.mounts s.lastDev

/-- Compositional steps. -/
macro "frame" : tactic => `(tactic|
  repeat' first
    | assumption
    | exact fr_pure _
    | exact fr_pure' _
    | exact fr_throw _
    | exact fr_raise _
    | exact fr_get
    | exact fr_rd _
    | exact fr_hget _
    | exact fr_setObj _ _
    | apply fr_bind
    | apply fr_bindB
    | apply fr_ite
    | apply fr_catchOS
    | apply fr_tryCatch
    | apply fr_void
    | split
    | intro _)

theorem fr_changeDiskUsage (c : Int) (dev : Option Nat) : Fr R (changeDiskUsage c dev) := by
  intro s
  rcases changeDiskUsage_spec c dev s with h
  unfold changeDiskUsage
  split
  · split
    · split
      · exact TreeRel.refl s
      · exact TreeRel.tree s s.heap s.next s.lastIno _ s.lastDev
    · exact TreeRel.tree s s.heap s.next s.lastIno _ s.lastDev
  · exact TreeRel.refl s

theorem fr_newObj (f : FS → Obj) : Fr R (newObj f) := fun s => TreeRel.tree s _ _ s.lastIno s.mounts s.lastDev

theorem fr_addEntry (d c : Ref) : Fr R (addEntry d c) := by
  intro s
  have ha : R s (s.attach d c) := by
    unfold FS.attach
    dsimp only
    split
    · exact TreeRel.tree s _ s.next _ s.mounts s.lastDev
    · exact TreeRel.tree s _ s.next s.lastIno s.mounts s.lastDev
  unfold addEntry
  split
  · exact TreeRel.refl s
  split
  · exact TreeRel.refl s
  split
  · exact TreeRel.refl s
  dsimp only
  split
  · exact TreeRel.trans ha (fr_changeDiskUsage _ _ _)
  · exact ha

theorem fr_detach (d : Ref) (nm : Str) (e : Ref) : Fr R (detach d nm e) := by
  intro s
  unfold detach
  dsimp only
  split
  · exact TreeRel.tree s _ s.next s.lastIno s.mounts s.lastDev
  split
  · exact TreeRel.tree s _ s.next s.lastIno s.mounts s.lastDev
  · exact TreeRel.tree s _ s.next s.lastIno s.mounts s.lastDev

theorem fr_removeLoop {rm : Ref → Str → M Unit} (h : ∀ d nm, Fr R (rm d nm)) (e : Ref) : ∀ n, Fr R (removeLoop rm e n) := by
  intro n
  induction n with
  | zero => exact fr_pure _
  | succ n ih =>
    intro s
    unfold removeLoop
    split
    · exact TreeRel.refl s
    · exact fr_bindB (h _ _) (fun _ => ih) s

theorem fr_removeEntryF : ∀ n d nm b, Fr R (removeEntryF n d nm b) := by
  intro n
  induction n with
  | zero => intro d nm b; exact fr_throw _
  | succ n ih =>
    intro d nm b s
    unfold removeEntryF
    split
    · exact TreeRel.refl s
    dsimp only
    split
    · exact TreeRel.refl s
    split
    · exact TreeRel.refl s
    split
    · exact fr_bindB (fr_removeLoop (fun d nm => ih d nm true) _ _) (fun _ => fr_detach _ _ _) s
    split
    · exact fr_bindB (fr_changeDiskUsage _ _) (fun _ => fr_detach _ _ _) s
    · exact fr_detach _ _ _ s

theorem fr_removeEntry (d : Ref) (nm : Str) (b : Bool) : Fr R (removeEntry d nm b) := fun s => fr_removeEntryF _ d nm b s

theorem fr_setSize (r : Ref) (n : Nat) : Fr R (setSize r n) := by
  intro s
  unfold setSize
  split
  · exact TreeRel.refl s
  · exact fr_bindB (fr_changeDiskUsage _ _) (fun _ => fr_setObj _ fun _ => _) s

theorem fr_setInitialContents (r : Ref) (b : Bytes) : Fr R (setInitialContents r b) := by
  intro s
  unfold setInitialContents
  split
  · exact TreeRel.refl s
  split
  · exact TreeRel.refl s
  · exact fr_bindB (fr_changeDiskUsage _ _) (fun _ => fr_bindB (fr_ite (fun _ => fr_setSize _ _) fun _ => fr_pure _)
      fun _ => fr_bindB (fr_setObj _ fun _ => _) fun _ => fr_pure _) s

theorem fr_setContents (r : Ref) (b : Bytes) : Fr R (setContents r b) := by
  intro s
  unfold setContents
  split
  · exact TreeRel.refl s
  · exact fr_setInitialContents r b s

theorem fr_setLargeFileSize (r : Ref) (n : Nat) : Fr R (setLargeFileSize r n) := by
  intro s
  unfold setLargeFileSize
  split
  · exact TreeRel.refl s
  · exact fr_bindB (fr_ite (fun _ => fr_setSize _ _) fun _ => fr_pure _) (fun _ => fr_bindB fr_get fun _ =>
      fr_bindB (fr_changeDiskUsage _ _) fun _ => fr_setObj _ fun _ => _) s

theorem fr_createDirLoop : ∀ (l : List Str) (cur : Ref) (news : List Ref), Fr R (createDirLoop cur l news) := by
  intro l
  induction l with
  | nil => intro cur news; exact fr_pure _
  | cons c cs ih =>
    intro cur news
    unfold createDirLoop
    refine fr_bind fr_get ?_
    intro s
    split
    · exact fr_bind (fr_newObj _) fun d => fr_bind (fr_addEntry _ _) fun _ => ih _ _
    · have key : ∀ r, Fr R (do
          let s ← M.get
          if (s.heap r).mode &&& S_IFDIR ≠ S_IFDIR then M.raise .ENOTDIR else createDirLoop r cs news) := by
        intro r
        refine fr_bind fr_get ?_
        intro s
        apply fr_ite
        · intro _; exact fr_raise _
        · intro _; exact ih _ _
      dsimp only
      apply fr_ite
      · intro _; exact fr_bind (fr_rd _) key
      · intro _; exact fr_bind (fr_pure _) key

theorem foldl_setObj_heap (g : Obj → Obj) : ∀ (l : List Ref) (s : FS), ∃ hp,
    l.foldl (fun s d => s.setObj d g) s = { s with heap := hp } := by
  intro l
  induction l with
  | nil => intro s; exact ⟨s.heap, rfl⟩
  | cons d l ih =>
    intro s
    obtain ⟨hp, h⟩ := ih (s.setObj d g)
    exact ⟨hp, by rw [List.foldl_cons, h]; rfl⟩

theorem fr_createDirG {auto : Str → M Unit} (ha : ∀ p, Fr R (auto p)) (p : Str) (perm : Nat) : Fr R (createDirG auto p perm) := by
  unfold createDirG
  refine fr_bind fr_get ?_
  intro s
  dsimp only
  refine fr_bind (ha _) ?_
  intro _
  refine fr_bind (fr_rd _) ?_
  intro ex
  have key : ∀ (x : Ref × List Ref), Fr R (do
      M.modify fun s => x.2.foldl (fun s d => s.setObj d fun o => { o with mode := S_IFDIR ||| perm }) s
      M.pure x.1) := by
    intro x
    apply fr_bind
    · intro s
      obtain ⟨hp, h⟩ := foldl_setObj_heap (fun o => { o with mode := S_IFDIR ||| perm }) x.2 s
      show R s (x.2.foldl _ s)
      rw [h]
      exact TreeRel.tree s hp s.next s.lastIno s.mounts s.lastDev
    · intro _; exact fr_pure _
  apply fr_ite
  · intro _
    refine fr_bind (fr_raise _) ?_
    intro _
    exact fr_bind (fr_createDirLoop _ _ _) key
  · intro _
    exact fr_bind (fr_createDirLoop _ _ _) key

theorem fr_addMountG {auto : Str → M Unit} (ha : ∀ p, Fr R (auto p)) (p : Str) (t : Option Int) : Fr R (addMountG auto p t) := by
  have h1 : ∀ (dev : Nat) (q : Str), Fr R (M.modify fun s => { s with
      lastDev := dev
      mounts := s.mounts ++ [{ path := q, idev := dev, total := t, used := 0 }] }) :=
    fun dev q s => TreeRel.tree s s.heap s.next s.lastIno _ _
  have h2 : Fr R (M.modify fun s => { s with lastIno := s.lastIno + 1 }.setObj rootRef fun o =>
      { o with ino := some (s.lastIno + 1) }) := fun s => TreeRel.tree s _ s.next _ s.mounts s.lastDev
  unfold addMountG
  refine fr_bind fr_get ?_
  intro s
  dsimp only
  have h3 : ∀ p perm, Fr R (createDirG auto p perm) := fun p perm => fr_createDirG ha p perm
  repeat' first
    | exact h1 _ _
    | exact h2
    | exact h3 _ _
    | exact fr_pure _
    | exact fr_raise _
    | exact fr_setObj _ fun _ => _
    | apply fr_bind
    | apply fr_ite
    | intro _

theorem fr_mountForPathF : ∀ n p, Fr R (mountForPathF n p) := by
  intro n
  induction n with
  | zero => intro p; exact fr_throw _
  | succ n ih =>
    intro p
    unfold mountForPathF
    refine fr_bind fr_get ?_
    intro s
    dsimp only
    split
    · exact fr_pure _
    · apply fr_ite
      · intro _
        apply fr_addMountG
        intro q
        apply fr_ite
        · intro _; exact fr_bind (ih q) fun _ => fr_pure _
        · intro _; exact fr_pure _
      · intro _; exact fr_throw _

theorem fr_mountForPath (p : Str) : Fr R (mountForPath p) := fun s => fr_mountForPathF s.limit p s

theorem fr_autoMount (p : Str) : Fr R (autoMount p) := by
  unfold autoMount
  refine fr_bind fr_get ?_
  intro s
  apply fr_ite
  · intro _; exact fr_bind (fr_mountForPath p) fun _ => fr_pure _
  · intro _; exact fr_pure _

theorem fr_createDir (p : Str) (perm : Nat) : Fr R (createDir p perm) := fr_createDirG fr_autoMount p perm
theorem fr_addMountPoint (p : Str) (t : Option Int) : Fr R (addMountPoint p t) := fr_addMountG fr_autoMount p t

/-- Compositional steps including the primitives above. -/
macro "frames" : tactic => `(tactic|
  repeat' first
    | assumption
    | exact fr_pure _
    | exact fr_pure' _
    | exact fr_throw _
    | exact fr_raise _
    | exact fr_get
    | exact fr_rd _
    | exact fr_hget _
    | exact fr_newObj _
    | exact fr_addEntry _ _
    | exact fr_removeEntry _ _ _
    | exact fr_changeDiskUsage _ _
    | exact fr_setSize _ _
    | exact fr_setContents _ _
    | exact fr_setInitialContents _ _
    | exact fr_setLargeFileSize _ _
    | exact fr_autoMount _
    | exact fr_mountForPath _
    | exact fr_createDir _ _
    | exact fr_setObj _ fun _ => _
    | exact fr_setObj _ _
    | apply fr_bind
    | apply fr_bindB
    | apply fr_ite
    | apply fr_catchOS
    | apply fr_tryCatch
    | apply fr_void
    | split
    | intro _
    | dsimp only)

theorem fr_addObject (p : Str) (c : Ref) : Fr R (addObject p c) := by unfold addObject; frames
theorem fr_removeObject (p : Str) : Fr R (removeObject p) := by unfold removeObject; frames
theorem fr_createFileTail (a b c : Str) (m : Nat) (ct : Option Bytes) (z : Option Nat) (um : Bool) : Fr R (createFileTail a b c m ct z um) := by
  have h1 := fun p c => fr_addObject (R := R) p c
  have h2 := fun p => fr_removeObject (R := R) p
  unfold createFileTail
  refine fr_bind fr_get ?_
  intro s
  refine fr_bind (fr_newObj _) ?_
  intro r
  refine fr_bind (h1 _ _) ?_
  intro _
  dsimp only
  apply fr_ite
  · intro _
    apply fr_bind
    · apply fr_catchOS
      · frames
      · intro e; exact fr_bind (h2 _) fun _ => fr_throw _
    · intro _; exact fr_pure _
  · intro _; exact fr_pure _
theorem fr_fileParent (p : Str) (cm : Bool) : Fr R (fileParent p cm) := by unfold fileParent; frames
theorem fr_createFileI (p : Str) (m : Nat) (ct : Option Bytes) (z : Option Nat) (cm um : Bool) : Fr R (createFileI p m ct z cm um) := by
  unfold createFileI
  refine fr_bind fr_get ?_
  intro s
  dsimp only
  refine fr_bind (fr_rd _) ?_
  intro b
  have : ∀ q, Fr R (do
      autoMount q
      let parent ← fileParent q cm
      createFileTail parent (s.cfg.splitpath (s.absnorm (s.cfg.makeStringPath p))).2 (s.absnorm (s.cfg.makeStringPath p)) m ct z um) :=
    fun q => fr_bind (fr_autoMount _) fun _ => fr_bind (fr_fileParent _ _) fun _ => fr_createFileTail _ _ _ _ _ _ _
  apply fr_ite
  · intro _; exact fr_bind (fr_raise _) fun _ => this _
  · intro _; exact this _
theorem fr_createFile (p : Str) (m : Nat) (ct : Option Bytes) (z : Option Nat) (cm um : Bool) : Fr R (createFile p m ct z cm um) :=
  fr_createFileI p m ct z cm um
theorem fr_createSymlink (p t : Str) (cm : Bool) : Fr R (createSymlink p t cm) := by
  have h1 := fun p m c z cm um => fr_createFileI (R := R) p m c z cm um
  have h2 := fun p => fr_removeObject (R := R) p
  unfold createSymlink
  repeat' first
    | with_reducible exact h1 _ _ _ _ _ _
    | with_reducible exact h2 _
    | with_reducible exact fr_pure _
    | with_reducible exact fr_raise _
    | with_reducible exact fr_rd _
    | with_reducible exact fr_get
    | with_reducible apply fr_bind
    | with_reducible apply fr_ite
    | intro _
    | dsimp only
theorem fr_linkTail (a b c d : Str) (f : Bool) : Fr R (linkTail a b c d f) := by
  have h1 := fun p c => fr_addObject (R := R) p c
  unfold linkTail
  repeat' first
    | exact h1 _ _
    | exact fr_pure _
    | exact fr_raise _
    | exact fr_rd _
    | exact fr_get
    | exact fr_setObj _ fun _ => _
    | apply fr_bind
    | apply fr_ite
    | apply fr_catchOS
    | intro _
    | dsimp only
theorem fr_createLink (o n : Str) (f cm : Bool) : Fr R (createLink o n f cm) := by
  have h1 := fun a b c d f => fr_linkTail (R := R) a b c d f
  have h2 : ∀ p cm, Fr R (linkParent p cm) := fun p cm => by unfold linkParent; frames
  unfold createLink
  repeat' first
    | exact h1 _ _ _ _ _
    | exact h2 _ _
    | exact fr_raise _
    | exact fr_rd _
    | exact fr_get
    | apply fr_bind
    | apply fr_ite
    | intro _
    | dsimp only
theorem fr_mkdirTail (p : Str) (m : Nat) : Fr R (mkdirTail p m) := by
  unfold mkdirTail
  refine fr_bind fr_get ?_
  intro s
  exact fr_bind (fr_newObj _) fun _ => fr_addObject _ _
theorem fr_mkdir (p : Str) (m : Nat) : Fr R (mkdir p m) := by
  have h1 := fun p m => fr_mkdirTail (R := R) p m
  have h2 := fun p => fr_removeObject (R := R) p
  unfold mkdir
  repeat' first
    | exact h1 _ _
    | exact h2 _
    | exact fr_raise _
    | exact fr_rd _
    | exact fr_get
    | apply fr_bind
    | apply fr_ite
    | intro _
    | dsimp only
theorem fr_makedirsTail (p : Str) (m : Nat) (e : Bool) : Fr R (makedirsTail p m e) := by unfold makedirsTail; frames
theorem fr_makedirs (p : Str) (m : Nat) (e : Bool) : Fr R (makedirs p m e) := by
  have h1 := fun p m e => fr_makedirsTail (R := R) p m e
  have h2 := fun p => fr_removeObject (R := R) p
  unfold makedirs
  repeat' first
    | exact h1 _ _ _
    | exact h2 _
    | exact fr_pure _
    | exact fr_pure' _
    | exact fr_raise _
    | exact fr_rd _
    | exact fr_get
    | apply fr_bind
    | apply fr_ite
    | intro _
    | dsimp only
theorem fr_remove (p : Str) : Fr R (remove p) := by
  unfold remove
  exact fr_bind (fr_rd _) fun _ => fr_bind fr_get fun _ => fr_removeObject _
theorem fr_rmdir (p : Str) (a : Bool) : Fr R (rmdir p a) := by
  unfold rmdir
  exact fr_bind (fr_rd _) fun _ => fr_bind fr_get fun _ => fr_ite (fun _ => fr_removeObject _) fun _ => fr_pure _
theorem fr_removedirsLoop : ∀ n a b, Fr R (removedirsLoop n a b) := by
  intro n
  induction n with
  | zero => intro a b; exact fr_pure _
  | succ n ih =>
    intro a b
    unfold removedirsLoop
    apply fr_ite
    · intro _; exact fr_pure _
    intro _
    refine fr_bind (fr_rd _) ?_
    intro d
    refine fr_bind fr_get ?_
    intro s
    apply fr_ite
    · intro _; exact fr_pure _
    · intro _; exact fr_bind (fr_rmdir _ _) fun _ => ih _ _
theorem fr_removedirs (p : Str) : Fr R (removedirs p) := by
  unfold removedirs
  refine fr_bind fr_get ?_
  intro s
  refine fr_bind (fr_rd _) ?_
  intro d
  refine fr_bind fr_get ?_
  intro s
  have key : ∀ q : Str, Fr R (do
      rmdir q
      let (h, t) := s.cfg.splitpath q
      let (h, t) := if t = [] then s.cfg.splitpath h else (h, t)
      removedirsLoop q.length h t) := fun q => fr_bind (fr_rmdir _ _) fun _ => fr_removedirsLoop _ _ _
  apply fr_ite
  · intro _; exact fr_bind (fr_raise _) fun _ => key _
  · intro _; exact key _
theorem fr_renameCommit (a b : Ref) (c d : Str) : Fr R (renameCommit a b c d) := by
  unfold renameCommit
  frames
theorem fr_renameTail (a b : Str) (c : Ref) : Fr R (renameTail a b c) := by
  have h1 := fun a b c d => fr_renameCommit (R := R) a b c d
  unfold renameTail
  repeat' first
    | exact h1 _ _ _ _
    | exact fr_pure _
    | exact fr_throw _
    | exact fr_raise _
    | exact fr_rd _
    | exact fr_get
    | apply fr_bind
    | apply fr_ite
    | intro _
    | dsimp only
theorem fr_renameToExisting (f : Bool) (a b : Str) (c : Ref) (e : Bool) : Fr R (renameToExisting f a b c e) := by
  have h2 := fun p => fr_removeObject (R := R) p
  unfold renameToExisting
  repeat' first
    | exact h2 _
    | exact fr_pure _
    | exact fr_throw _
    | exact fr_raise _
    | exact fr_rd _
    | exact fr_get
    | apply fr_bind
    | apply fr_ite
    | intro _
    | dsimp only
theorem fr_rename (a b : Str) (f : Bool) : Fr R (rename a b f) := by
  have h1 := fun a b c => fr_renameTail (R := R) a b c
  have h2 := fun f a b c e => fr_renameToExisting (R := R) f a b c e
  unfold rename
  repeat' first
    | exact h1 _ _ _
    | exact h2 _ _ _ _ _
    | exact fr_pure _
    | exact fr_pure' _
    | exact fr_throw _
    | exact fr_raise _
    | exact fr_rd _
    | exact fr_get
    | apply fr_bind
    | apply fr_ite
    | split
    | intro _
    | dsimp only
theorem fr_chmod (p : Str) (m : Nat) (f : Bool) : Fr R (chmod p m f) := by
  unfold chmod; exact fr_bind (fr_rd _) fun r s => TreeRel.tree s _ s.next s.lastIno s.mounts s.lastDev
theorem fr_utime (p : Str) (ns : Option (Int × Int)) (f : Bool) : Fr R (utime p ns f) := by
  unfold utime; exact fr_bind (fr_rd _) fun r s => TreeRel.tree s _ s.next s.lastIno s.mounts s.lastDev
theorem fr_chown (p : Str) (u g : Int) (f : Bool) : Fr R (chown p u g f) := by
  unfold chown; exact fr_bind (fr_rd _) fun r s => TreeRel.tree s _ s.next s.lastIno s.mounts s.lastDev
theorem fr_truncate (p : Str) (n : Nat) : Fr R (truncate p n) := by
  unfold truncate; exact fr_bind (fr_rd _) fun r => fr_setSize _ _
theorem fr_mknod (p : Str) (m : Nat) : Fr R (mknod p m) := by
  have h1 := fun p c => fr_addObject (R := R) p c
  unfold mknod
  repeat' first
    | exact h1 _ _
    | exact fr_newObj _
    | exact fr_pure _
    | exact fr_throw _
    | exact fr_raise _
    | exact fr_rd _
    | exact fr_get
    | apply fr_bind
    | apply fr_ite
    | intro _
    | dsimp only
theorem fr_setxattr (p a : Str) (v : Bytes) (fl : Nat) (f : Bool) : Fr R (setxattr p a v fl f) := by
  unfold setxattr
  repeat' first
    | exact fr_throw _
    | exact fr_raise _
    | exact fr_rd _
    | exact fr_get
    | exact fr_setObj _ fun _ => _
    | apply fr_bind
    | apply fr_ite
    | intro _
    | dsimp only
theorem fr_removexattr (p a : Str) (f : Bool) : Fr R (removexattr p a f) := by
  unfold removexattr
  repeat' first
    | exact fr_throw _
    | exact fr_rd _
    | exact fr_get
    | exact fr_setObj _ fun _ => _
    | apply fr_bind
    | apply fr_ite
    | intro _
    | dsimp only
theorem fr_setDiskUsage (t : Int) (p : Str) : Fr R (setDiskUsage t p) := by
  have h1 : ∀ dev, Fr R (M.modify fun s => { s with mounts := s.mounts.map fun m =>
      if m.idev = dev then { m with total := some t } else m }) := fun dev s => TreeRel.tree s s.heap s.next s.lastIno _ s.lastDev
  unfold setDiskUsage
  refine fr_bind (fr_mountForPath _) ?_
  intro dev
  refine fr_bind fr_get ?_
  intro s
  split
  · exact fr_throw _
  · apply fr_ite
    · intro _; exact fr_bind (fr_raise _) fun _ => h1 _
    · intro _; exact h1 _

end

end Verif
