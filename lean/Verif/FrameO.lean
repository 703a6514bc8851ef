import Verif.Frame
import Verif.EffCreate
/-!
# Frames for relations that look at the objects

As `Frame.lean`, for relations `R` between states that may speak about the objects.  What has to be shown for `R` is
collected in `OpRel`: it must survive the handful of elementary steps every call is made of.  `N` is what the objects
put into the filesystem satisfy, `D` the permission arguments of new directories, `A` the states in which mount points may be
added (on Windows filesystems every call may do so), `T` whether total sizes may be set.
-/

namespace Verif
open Py Spec Cfg

/-- An object update that leaves alone what a directory holds and the mode; a change of the data is recorded in the
epoch. -/
structure Keep (o o' : Obj) : Prop where
  mode : o'.mode = o.mode
  dir : o.isDir = true → o'.content = o.content
  file : o.isDir = false → o'.isDir = false
  epoch : o.epoch ≤ o'.epoch
  data : o'.epoch = o.epoch → o'.content = o.content ∨ o'.content = .file none

/-- An object update that leaves alone the mode, the size and what the object holds. -/
structure KeepAll (o o' : Obj) : Prop where
  mode : o'.mode = o.mode
  content : o'.content = o.content
  epoch : o'.epoch = o.epoch
  size : o'.size = o.size

theorem Keep.same {o o' : Obj} (h1 : o'.mode = o.mode) (h2 : o'.content = o.content) (h3 : o'.epoch = o.epoch) (h4 : o'.size = o.size := by rfl) :
    KeepAll o o' := ⟨h1, h2, h3, h4⟩

theorem KeepAll.keep {o o' : Obj} (h : KeepAll o o') : Keep o o' :=
  ⟨h.mode, fun _ => h.content, fun k => by unfold Obj.isDir at *; rw [h.content]; exact k, Nat.le_of_eq h.epoch.symm, fun _ => Or.inl h.content⟩

/-- adding to the directory is refused by its permission bits -/
def FS.addDenied (s : FS) (d : Ref) : Prop := s.isRoot = false ∧ (s.heap d).mode &&& PERM_WRITE = 0 ∧ s.cfg.isWin = false

/-- What a relation must survive. -/
class OpRel (R : FS → FS → Prop) where
  N : Obj → Prop
  D : Nat → Prop
  A : FS → Prop
  T : Prop
  refl : ∀ s, R s s
  trans : ∀ {a b c}, R a b → R b c → R a c
  le : ∀ {a b}, R a b → a.next ≤ b.next
  kind : ∀ {a b}, R a b → ∀ r < a.next, (b.heap r).isDir = (a.heap r).isDir
  ino : ∀ (s : FS) li, R s { s with lastIno := li }
  used : ∀ (s : FS) i c, R s { s with mounts := changeUsed i c s.mounts }
  mount : ∀ (s : FS) p t, A s → R s { s with
    lastDev := s.lastDev + 1, mounts := s.mounts ++ [{ path := s.absnorm p, idev := s.lastDev + 1, total := t, used := 0 }] }
  total : ∀ (s : FS) dev t, T → R s { s with mounts := s.mounts.map fun m => if m.idev = dev then { m with total := some t } else m }
  winA : ∀ (s : FS), s.cfg.isWin = true → A s
  new : ∀ (s : FS) o, N o → R s { s with heap := upd s.heap s.next o, next := s.next + 1 }
  obj : ∀ (s : FS) r o, KeepAll (s.heap r) o → R s (s.setObj r fun _ => o)
  att : ∀ (s : FS) d c, (s.heap d).isDir = true → ¬ s.addDenied d → R s (s.attach d c)
  det : ∀ (s0 s : FS) d nm e, R s0 s → (s0.heap d).isDir = true → removeCheck s0 d e = .ok () →
    alookup nm (s0.heap d).entries = some e → R s0 (detach d nm e s).2
  dirMode : ∀ (s0 s : FS) d perm, R s0 s → s0.next ≤ d → (s.heap d).isDir = true → D perm →
    R s0 (s.setObj d fun o => { o with mode := S_IFDIR ||| perm })
  dirN : ∀ nm perm s, D perm → N (mkDirObj nm perm s)
  defD : D PERM_DEF
  lnkN : ∀ nm s, N (mkFileObj nm (S_IFLNK ||| PERM_DEF) none s)
  regN : ∀ nm x s, N (mkFileObj nm (andNot (S_IFREG ||| PERM_DEF_FILE) x) none s)

/-- … and, for calls that change data, changes of what an object holds. -/
class OpRelD (R : FS → FS → Prop) extends OpRel R where
  dat : ∀ (s : FS) r o, Keep (s.heap r) o → R s (s.setObj r fun _ => o)
  obj := fun s r o h => dat s r o h.keep

/-- … and, for calls on open files, changes of handles and descriptors. -/
class OpRelIO (R : FS → FS → Prop) extends OpRelD R where
  hand : ∀ (s : FS) hs hn f ff, R s { s with handles := hs, hnext := hn, openFiles := f, freeFds := ff }

section
variable {R : FS → FS → Prop} [OpRel R]

theorem fo_pure {α : Type} (a : α) : Fr R (M.pure a) := fun s => OpRel.refl s
theorem fo_pure' {α : Type} (a : α) : Fr R (pure a : M α) := fun s => OpRel.refl s
theorem fo_throw {α : Type} (e : Err) : Fr R (M.throw e : M α) := fun s => OpRel.refl s
theorem fo_raise {α : Type} (e : Errno) : Fr R (M.raise e : M α) := fun s => OpRel.refl s
theorem fo_get : Fr R M.get := fun s => OpRel.refl s
theorem fo_rd {α : Type} (f : FS → Except Err α) : Fr R (rd f) := fun s => OpRel.refl s
theorem fo_hget (h : Nat) : Fr R (hget h) := fun s => OpRel.refl s

theorem fo_bind {α β : Type} {m : M α} {f : α → M β} (hm : Fr R m) (hf : ∀ a, Fr R (f a)) : Fr R (m >>= f) := by
  intro s
  show R s (M.bind m f s).2
  unfold M.bind
  have h1 := hm s
  rcases hr : m s with ⟨r, s'⟩
  rw [hr] at h1
  cases r with
  | error e => exact h1
  | ok a => exact OpRel.trans h1 (hf a s')

theorem fo_bindB {α β : Type} {m : M α} {f : α → M β} (hm : Fr R m) (hf : ∀ a, Fr R (f a)) : Fr R (M.bind m f) := fo_bind hm hf

theorem fo_ite {α : Type} {c : Prop} [Decidable c] {a b : M α} (ha : c → Fr R a) (hb : ¬ c → Fr R b) : Fr R (if c then a else b) := by
  split
  · exact ha ‹_›
  · exact hb ‹_›

theorem fo_tryCatch {α : Type} {m : M α} {k : Err → M α} (hm : Fr R m) (hk : ∀ e, Fr R (k e)) : Fr R (M.tryCatch m k) := by
  intro s
  unfold M.tryCatch
  have h1 := hm s
  rcases hr : m s with ⟨r, s'⟩
  rw [hr] at h1
  cases r with
  | error e => exact OpRel.trans h1 (hk e s')
  | ok a => exact h1

theorem fo_catchOS {α : Type} {m : M α} {k : Err → M α} (hm : Fr R m) (hk : ∀ e, Fr R (k e)) : Fr R (catchOS m k) :=
  fo_tryCatch hm fun e => fo_ite (fun _ => hk e) fun _ => fo_throw e

theorem fo_void {α : Type} {m : M α} (h : Fr R m) : Fr R m.void := fo_bind h fun _ => fo_pure _

theorem fo_setObj (r : Ref) (f : FS → Obj → Obj) (h : ∀ s : FS, KeepAll (s.heap r) (f s (s.heap r))) : Fr R (M.modify fun s => s.setObj r (f s)) :=
  fun s => OpRel.obj s r _ (h s)

/-- Compositional steps. -/
macro "frameO" : tactic => `(tactic|
  repeat' first
    | assumption
    | exact fo_pure _
    | exact fo_pure' _
    | exact fo_throw _
    | exact fo_raise _
    | exact fo_get
    | exact fo_rd _
    | exact fo_hget _
    | exact fo_setObj _ _ (fun _ => Keep.same rfl rfl rfl)
    | apply fo_bind
    | apply fo_bindB
    | apply fo_ite
    | apply fo_catchOS
    | apply fo_tryCatch
    | apply fo_void
    | split
    | intro _)

theorem fo_changeDiskUsage (c : Int) (dev : Option Nat) : Fr R (changeDiskUsage c dev) := by
  intro s
  rcases changeDiskUsage_spec c dev s with h
  unfold changeDiskUsage
  split
  · split
    · split
      · exact OpRel.refl s
      · exact OpRel.used s _ _
    · exact OpRel.used s _ _
  · exact OpRel.refl s

theorem fo_newObj (f : FS → Obj) (h : ∀ s, OpRel.N R (f s)) : Fr R (newObj f) := fun s => OpRel.new s _ (h s)

theorem fo_addEntry (d c : Ref) : Fr R (addEntry d c) := by
  intro s
  unfold addEntry
  split
  · exact OpRel.refl s
  rename_i h1
  split
  · exact OpRel.refl s
  rename_i h2
  split
  · exact OpRel.refl s
  dsimp only
  have ha : R s (s.attach d c) := OpRel.att s d c (by simpa using h1) h2
  split
  · exact OpRel.trans ha (fo_changeDiskUsage _ _ _)
  · exact ha

theorem fo_removeLoop {rm : Ref → Str → M Unit} (h : ∀ d nm, Fr R (rm d nm)) (e : Ref) : ∀ n, Fr R (removeLoop rm e n) := by
  intro n
  induction n with
  | zero => exact fo_pure _
  | succ n ih =>
    intro s
    unfold removeLoop
    split
    · exact OpRel.refl s
    · exact fo_bindB (h _ _) (fun _ => ih) s

theorem fo_detachAfter {s : FS} {d : Ref} {nm : Str} {e : Ref} (hd : (s.heap d).isDir = true) (hc : removeCheck s d e = .ok ())
    (hk : alookup nm (s.heap d).entries = some e) {m : M Unit} (hm : Fr R m) :
    R s (M.bind m (fun _ => detach d nm e) s).2 := by
  have h1 := hm s
  unfold M.bind
  rcases hr : m s with ⟨r, s'⟩
  rw [hr] at h1
  cases r with
  | error e => exact h1
  | ok a => exact OpRel.det s s' d nm e h1 hd hc hk

theorem fo_removeEntryF : ∀ n d nm b, Fr R (removeEntryF n d nm b) := by
  intro n
  induction n with
  | zero => intro d nm b; exact fo_throw _
  | succ n ih =>
    intro d nm b s
    unfold removeEntryF
    split
    · exact OpRel.refl s
    rename_i hd
    dsimp only
    split
    · exact OpRel.refl s
    rename_i e0 hg
    split
    · exact OpRel.refl s
    rename_i hc
    have hd : (s.heap d).isDir = true := by simpa using hd
    have hk : alookup (s.normEntry (s.heap d).entries nm) (s.heap d).entries = some e0 := by
      unfold FS.getEntry at hg
      rw [normEntry_idem] at hg
      split at hg
      · rename_i r h; injection hg with hg; rw [h, hg]
      · cases hg
    split
    · exact fo_detachAfter hd hc hk (fo_removeLoop (fun d nm => ih d nm true) _ _)
    split
    · exact fo_detachAfter hd hc hk (fo_changeDiskUsage _ _)
    · exact OpRel.det s s d _ _ (OpRel.refl s) hd hc hk

theorem fo_removeEntry (d : Ref) (nm : Str) (b : Bool) : Fr R (removeEntry d nm b) := fun s => fo_removeEntryF _ d nm b s

theorem keep_file {o o' : Obj} (h0 : o.isDir = false) (h1 : o'.mode = o.mode) (h2 : o'.isDir = false)
    (h3 : o'.epoch = o.epoch + 1 ∨ o'.epoch = o.epoch ∧ o'.content = .file none) : Keep o o' :=
  ⟨h1, fun h => (by rw [h0] at h; simp at h), fun _ => h2, by rcases h3 with h | h <;> omega, fun e => by
    rcases h3 with h | h
    · omega
    · exact Or.inr h.2⟩

theorem file_isDir {o : Obj} {b : Option Bytes} (h : o.content = .file b) : o.isDir = false := by unfold Obj.isDir; rw [h]

theorem changeDiskUsage_heap (c : Int) (dev : Option Nat) (s : FS) : (changeDiskUsage c dev s).2.heap = s.heap := by
  unfold changeDiskUsage
  split
  · split
    · split <;> rfl
    · rfl
  · rfl

/-- Replacing the contents of something that is not a directory. -/
theorem fo_bindFile {α : Type} {m : M Unit} {f : Unit → M α} {r : Ref} (hm : Fr R m) {s : FS} (h0 : (s.heap r).isDir = false)
    (hk : ∀ s, (s.heap r).isDir = false → ((m s).2.heap r).isDir = false)
    (hf : ∀ s, (s.heap r).isDir = false → R s (f () s).2) : R s (M.bind m f s).2 := by
  have h1 := hm s
  have h2 := hk s h0
  unfold M.bind
  rcases hr : m s with ⟨x, s'⟩
  rw [hr] at h1 h2
  cases x with
  | error e => exact h1
  | ok a => exact OpRel.trans h1 (hf s' h2)

theorem chg_kind (c : Int) (dev : Option Nat) (r : Ref) (s : FS) (h : (s.heap r).isDir = false) : ((changeDiskUsage c dev s).2.heap r).isDir = false := by
  rw [changeDiskUsage_heap]; exact h

theorem fo_setSize {R : FS → FS → Prop} [OpRelD R] (r : Ref) (n : Nat) : Fr R (setSize r n) := by
  intro s
  unfold setSize
  split
  · exact OpRel.refl s
  · rename_i b hb
    refine fo_bindFile (r := r) (fo_changeDiskUsage _ _) (file_isDir hb) (chg_kind _ _ r) ?_
    intro s1 h1
    exact OpRelD.dat s1 r _ (keep_file h1 rfl rfl (Or.inl rfl))

theorem setSize_kind (r : Ref) (n : Nat) (s : FS) (h : (s.heap r).isDir = false) : ((setSize r n s).2.heap r).isDir = false := by
  unfold setSize
  split
  · exact h
  · dsimp only [M.bind]
    have h2 := chg_kind ((n : Int) - s.stSize (s.heap r)) (s.heap r).dev r s h
    rcases hr : changeDiskUsage ((n : Int) - s.stSize (s.heap r)) (s.heap r).dev s with ⟨x, s'⟩
    rw [hr] at h2
    cases x with
    | error e => exact h2
    | ok a =>
      show (upd s'.heap r _ r).isDir = false
      rw [upd_same]
      rfl

theorem clr_kind {c : Prop} [Decidable c] (r : Ref) (s : FS) (h : (s.heap r).isDir = false) :
    (((if c then setSize r 0 else M.pure ()) s).2.heap r).isDir = false := by
  split
  · exact setSize_kind r 0 s h
  · exact h

theorem fo_setInitialContents {R : FS → FS → Prop} [OpRelD R] (r : Ref) (b : Bytes) : Fr R (setInitialContents r b) := by
  intro s
  unfold setInitialContents
  split
  · exact OpRel.refl s
  split
  · exact OpRel.refl s
  · rename_i old hb
    refine fo_bindFile (r := r) (fo_changeDiskUsage _ _) (file_isDir hb) (chg_kind _ _ r) ?_
    intro s1 h1
    refine fo_bindFile (r := r) (fo_ite (fun _ => fo_setSize _ _) fun _ => fo_pure _) h1 (clr_kind r) ?_
    intro s2 h2
    exact OpRelD.dat s2 r _ (keep_file h2 rfl rfl (Or.inl rfl))

theorem fo_setContents {R : FS → FS → Prop} [OpRelD R] (r : Ref) (b : Bytes) : Fr R (setContents r b) := by
  intro s
  unfold setContents
  split
  · exact OpRel.refl s
  · exact fo_setInitialContents r b s

theorem fo_setLargeFileSize {R : FS → FS → Prop} [OpRelD R] (r : Ref) (n : Nat) : Fr R (setLargeFileSize r n) := by
  intro s
  unfold setLargeFileSize
  split
  · exact OpRel.refl s
  · rename_i old hb
    refine fo_bindFile (r := r) (fo_ite (fun _ => fo_setSize _ _) fun _ => fo_pure _) (file_isDir hb) (clr_kind r) ?_
    intro s1 h1
    show R s1 (M.bind (changeDiskUsage n (s1.heap r).dev) (fun _ => M.modify _) s1).2
    refine fo_bindFile (r := r) (fo_changeDiskUsage _ _) h1 (chg_kind _ _ r) ?_
    intro s2 h2
    exact OpRelD.dat s2 r _ (keep_file h2 rfl rfl (Or.inr ⟨rfl, rfl⟩))

/-- The directories made by `create_dir` are new. -/
theorem fo_createDirLoop : ∀ (l : List Str) (cur : Ref) (news : List Ref) (s0 s : FS), R s0 s → (∀ d ∈ news, s0.next ≤ d ∧ d < s.next ∧ (s.heap d).isDir = true) →
    wp (createDirLoop cur l news) (fun r s' => R s0 s' ∧ ∀ x, r = .ok x → ∀ d ∈ x.2, s0.next ≤ d ∧ d < s'.next ∧ (s'.heap d).isDir = true) s := by
  intro l
  induction l with
  | nil => intro cur news s0 s h hn; exact ⟨h, fun x e => by injection e with e; subst e; exact hn⟩
  | cons c cs ih =>
    intro cur news s0 s h hn
    have err : ∀ (e : Err) s', R s0 s' → (R s0 s' ∧ ∀ x : Ref × List Ref, Except.error e = .ok x → ∀ d ∈ x.2, s0.next ≤ d ∧ d < s'.next ∧ (s'.heap d).isDir = true) :=
      fun e s' h => ⟨h, fun x e => by simp at e⟩
    unfold createDirLoop
    apply wp_getBind
    split
    · refine wp_bindOk (a := s.next) (s' := { s with heap := upd s.heap s.next (mkDirObj c PERM_DEF s), next := s.next + 1 }) rfl ?_
      have h1 : R s { s with heap := upd s.heap s.next (mkDirObj c PERM_DEF s), next := s.next + 1 } :=
        OpRel.new s _ (OpRel.dirN (R := R) c PERM_DEF s (OpRel.defD (R := R)))
      have h2 := fo_addEntry (R := R) cur s.next { s with heap := upd s.heap s.next (mkDirObj c PERM_DEF s), next := s.next + 1 }
      refine wp_seq (fun _ s' => R { s with heap := upd s.heap s.next (mkDirObj c PERM_DEF s), next := s.next + 1 } s') h2
        (fun e s' h3 => err e s' (OpRel.trans h (OpRel.trans h1 h3))) ?_
      intro _ s' h3
      apply ih _ _ _ _ (OpRel.trans h (OpRel.trans h1 h3))
      have hle := OpRel.le h3
      intro d hd
      rcases List.mem_append.mp hd with hd | hd
      · obtain ⟨a, b, c'⟩ := hn d hd
        refine ⟨a, Nat.lt_of_lt_of_le (Nat.lt_succ_of_lt b) hle, ?_⟩
        rw [OpRel.kind (OpRel.trans h1 h3) d b]; exact c'
      · rw [List.mem_singleton] at hd
        subst hd
        refine ⟨OpRel.le h, Nat.lt_of_lt_of_le (Nat.lt_succ_self _) hle, ?_⟩
        rw [OpRel.kind h3 s.next (Nat.lt_succ_self _)]
        show (upd s.heap s.next _ s.next).isDir = true
        rw [upd_same]; rfl
    · rename_i nm r hr
      have key : ∀ r, wp (do
          let s ← M.get
          if (s.heap r).mode &&& S_IFDIR ≠ S_IFDIR then M.raise .ENOTDIR else createDirLoop r cs news)
          (fun r s' => R s0 s' ∧ ∀ x, r = .ok x → ∀ d ∈ x.2, s0.next ≤ d ∧ d < s'.next ∧ (s'.heap d).isDir = true) s := by
        intro r
        apply wp_getBind
        split
        · exact err _ _ h
        · exact ih _ _ _ _ h hn
      dsimp only
      split
      · refine wp_seq (fun _ s' => s' = s) rfl (fun e s' h' => by subst h'; exact err _ _ h) ?_
        intro r s' h'
        subst h'
        exact key r
      · exact wp_bind (key _)

theorem fo_modes {perm : Nat} (hp : OpRel.D R perm) : ∀ (l : List Ref) (s0 s : FS), R s0 s → (∀ d ∈ l, s0.next ≤ d ∧ (s.heap d).isDir = true) →
    R s0 (l.foldl (fun s d => s.setObj d fun o => { o with mode := S_IFDIR ||| perm }) s) := by
  intro l
  induction l with
  | nil => intro s0 s h _; exact h
  | cons d l ih =>
    intro s0 s h hd
    rw [List.foldl_cons]
    apply ih
    · exact OpRel.dirMode s0 s d perm h (hd d (by simp)).1 (hd d (by simp)).2 hp
    · intro e he
      obtain ⟨a, b⟩ := hd e (by simp [he])
      refine ⟨a, ?_⟩
      unfold FS.setObj
      dsimp only
      by_cases hed : e = d
      · subst hed; rw [upd_same]; exact b
      · rw [upd_ne _ _ hed]; exact b

theorem fo_createDirG {auto : Str → M Unit} (ha : ∀ p, Fr R (auto p)) (p : Str) (perm : Nat) (hp : OpRel.D R perm) : Fr R (createDirG auto p perm) := by
  unfold createDirG
  refine fo_bind fo_get ?_
  intro s
  dsimp only
  refine fo_bind (ha _) ?_
  intro _
  refine fo_bind (fo_rd _) ?_
  intro ex
  have key : Fr R (do
      let x ← createDirLoop rootRef (s.cfg.pathComponents (s.absnorm (s.cfg.makeStringPath p))) []
      M.modify fun s => x.2.foldl (fun s d => s.setObj d fun o => { o with mode := S_IFDIR ||| perm }) s
      M.pure x.1) := by
    intro s1
    refine (show wp _ (fun _ s' => R s1 s') s1 from ?_)
    refine wp_seq _ (fo_createDirLoop _ _ [] s1 s1 (OpRel.refl s1) (by simp)) (fun _ _ h => h.1) ?_
    rintro x s2 ⟨h1, h2⟩
    apply wp_modifyBind
    apply wp_pure
    exact fo_modes hp x.2 s1 s2 h1 (fun d hd => ⟨(h2 x rfl d hd).1, (h2 x rfl d hd).2.2⟩)
  apply fo_ite
  · intro _
    refine fo_bind (fo_raise _) ?_
    intro _
    exact key
  · intro _
    exact key

theorem fo_getBind {α : Type} {f : FS → M α} {s : FS} (h : R s (f s s).2) : R s ((M.get >>= f) s).2 := h

theorem fo_modBind {α : Type} {g : FS → FS} {f : Unit → M α} {s : FS} (h : R s (g s)) (hf : ∀ u, Fr R (f u)) :
    R s ((M.modify g >>= f) s).2 := OpRel.trans h (hf () (g s))

theorem fo_addMountG {auto : Str → M Unit} (ha : ∀ p, Fr R (auto p)) (p : Str) (t : Option Int) (s : FS) (hA : OpRel.A R s) :
    R s (addMountG auto p t s).2 := by
  have h2 : Fr R (M.modify fun s => { s with lastIno := s.lastIno + 1 }.setObj rootRef fun o =>
      { o with ino := some (s.lastIno + 1) }) := fun s =>
    OpRel.trans (OpRel.ino s (s.lastIno + 1)) (OpRel.obj { s with lastIno := s.lastIno + 1 } rootRef _ (Keep.same rfl rfl rfl))
  have h3 : ∀ p, Fr R (createDirG auto p PERM_DEF) := fun p => fo_createDirG ha p _ (OpRel.defD (R := R))
  unfold addMountG
  refine fo_getBind ?_
  dsimp only
  by_cases hx : (s.mounts.any fun m => m.path == s.absnorm p) = true
  · rw [if_pos hx]
    exact OpRel.refl s
  · rw [if_neg hx]
    refine fo_modBind (OpRel.mount s p t hA) fun _ => ?_
    repeat' first
      | with_reducible exact h2
      | with_reducible exact h3 _
      | with_reducible exact fo_pure _
      | with_reducible exact fo_raise _
      | exact fo_setObj _ _ (fun _ => Keep.same rfl rfl rfl)
      | with_reducible apply fo_bind
      | with_reducible apply fo_ite
      | with_reducible intro _

theorem fo_mountForPathF : ∀ n p, Fr R (mountForPathF n p) := by
  intro n
  induction n with
  | zero => intro p; exact fo_throw _
  | succ n ih =>
    intro p s
    unfold mountForPathF
    refine fo_getBind ?_
    dsimp only
    cases s.findMount (s.absnorm (s.originalPath p)) with
    | some dev => exact OpRel.refl s
    | none =>
      dsimp only
      by_cases hw : (s.cfg.isWin && decide ((s.cfg.splitdrive (s.absnorm (s.originalPath p))).1 ≠ [])) = true
      · rw [if_pos hw]
        refine fo_addMountG ?_ _ _ s (OpRel.winA s (by simp only [Bool.and_eq_true] at hw; exact hw.1))
        intro q
        apply fo_ite
        · intro _; exact fo_bind (ih q) fun _ => fo_pure _
        · intro _; exact fo_pure _
      · rw [if_neg hw]; exact OpRel.refl s

theorem fo_mountForPath (p : Str) : Fr R (mountForPath p) := fun s => fo_mountForPathF s.limit p s

theorem fo_autoMount (p : Str) : Fr R (autoMount p) := by
  unfold autoMount
  refine fo_bind fo_get ?_
  intro s
  apply fo_ite
  · intro _; exact fo_bind (fo_mountForPath p) fun _ => fo_pure _
  · intro _; exact fo_pure _

theorem fo_createDir (p : Str) (perm : Nat) (hp : OpRel.D R perm) : Fr R (createDir p perm) := fo_createDirG fo_autoMount p perm hp
theorem fo_addMountPoint (p : Str) (t : Option Int) (h : ∀ s, OpRel.A R s) : Fr R (addMountPoint p t) :=
  fun s => fo_addMountG fo_autoMount p t s (h s)

/-- Compositional steps including the primitives above. -/
macro "framesO" : tactic => `(tactic|
  repeat' first
    | with_reducible assumption
    | with_reducible exact fo_pure _
    | with_reducible exact fo_pure' _
    | with_reducible exact fo_throw _
    | with_reducible exact fo_raise _
    | with_reducible exact fo_get
    | with_reducible exact fo_rd _
    | with_reducible exact fo_hget _
    | with_reducible exact fo_addEntry _ _
    | with_reducible exact fo_removeEntry _ _ _
    | with_reducible exact fo_changeDiskUsage _ _
    | with_reducible exact fo_setSize _ _
    | with_reducible exact fo_setContents _ _
    | with_reducible exact fo_setInitialContents _ _
    | with_reducible exact fo_setLargeFileSize _ _
    | with_reducible exact fo_autoMount _
    | with_reducible exact fo_mountForPath _
    | with_reducible exact fo_createDir _ _ (OpRel.defD)
    | with_reducible exact fo_setObj _ _ (fun _ => Keep.same rfl rfl rfl)
    | with_reducible apply fo_bind
    | with_reducible apply fo_bindB
    | with_reducible apply fo_ite
    | with_reducible apply fo_catchOS
    | with_reducible apply fo_tryCatch
    | with_reducible apply fo_void
    | split
    | with_reducible intro _
    | dsimp only)

theorem fo_addObject (p : Str) (c : Ref) : Fr R (addObject p c) := by unfold addObject; framesO
theorem fo_removeObject (p : Str) : Fr R (removeObject p) := by unfold removeObject; framesO
theorem fo_createFileTail {R : FS → FS → Prop} [OpRelD R] (a b c : Str) (m : Nat) (ct : Option Bytes) (z : Option Nat) (um : Bool)
    (h : ∀ x s, OpRel.N R (mkFileObj b (if um then andNot m x else m) none s)) : Fr R (createFileTail a b c m ct z um) := by
  unfold createFileTail
  refine fo_bind fo_get ?_
  intro s
  refine fo_bind (fo_newObj _ (h _)) ?_
  intro r
  refine fo_bind (fo_addObject _ _) ?_
  intro _
  dsimp only
  apply fo_ite
  · intro _
    apply fo_bind
    · apply fo_catchOS
      · framesO
      · intro e; exact fo_bind (fo_removeObject _) fun _ => fo_throw _
    · intro _; exact fo_pure _
  · intro _; exact fo_pure _
theorem fo_fileParent (p : Str) (cm : Bool) : Fr R (fileParent p cm) := by unfold fileParent; framesO
theorem fo_createFileI {R : FS → FS → Prop} [OpRelD R] (p : Str) (m : Nat) (ct : Option Bytes) (z : Option Nat) (cm um : Bool)
    (h : ∀ b x s, OpRel.N R (mkFileObj b (if um then andNot m x else m) none s)) : Fr R (createFileI p m ct z cm um) := by
  unfold createFileI
  refine fo_bind fo_get ?_
  intro s
  dsimp only
  refine fo_bind (fo_rd _) ?_
  intro b
  have : ∀ q, Fr R (do
      autoMount q
      let parent ← fileParent q cm
      createFileTail parent (s.cfg.splitpath (s.absnorm (s.cfg.makeStringPath p))).2 (s.absnorm (s.cfg.makeStringPath p)) m ct z um) :=
    fun q => fo_bind (fo_autoMount _) fun _ => fo_bind (fo_fileParent _ _) fun _ => fo_createFileTail _ _ _ _ _ _ _ (h _)
  apply fo_ite
  · intro _; exact fo_bind (fo_raise _) fun _ => this _
  · intro _; exact this _
theorem fo_createFile {R : FS → FS → Prop} [OpRelD R] (p : Str) (m : Nat) (ct : Option Bytes) (z : Option Nat) (cm um : Bool)
    (h : ∀ b x s, OpRel.N R (mkFileObj b (if um then andNot m x else m) none s)) : Fr R (createFile p m ct z cm um) :=
  fo_createFileI p m ct z cm um h
theorem fo_createSymlink {R : FS → FS → Prop} [OpRelD R] (p t : Str) (cm : Bool) : Fr R (createSymlink p t cm) := by
  have h1 : ∀ p c, Fr R (createFileI p (S_IFLNK ||| PERM_DEF) c none cm false) :=
    fun p c => fo_createFileI (R := R) p _ c none cm false (fun b _ s => OpRel.lnkN b s)
  have h2 := fun p => fo_removeObject (R := R) p
  unfold createSymlink
  repeat' first
    | with_reducible exact h1 _ _
    | with_reducible exact h2 _
    | with_reducible exact fo_pure _
    | with_reducible exact fo_raise _
    | with_reducible exact fo_rd _
    | with_reducible exact fo_get
    | with_reducible apply fo_bind
    | with_reducible apply fo_ite
    | with_reducible intro _
    | dsimp only
theorem fo_linkTail (a b c d : Str) (f : Bool) : Fr R (linkTail a b c d f) := by
  have h1 := fun p c => fo_addObject (R := R) p c
  unfold linkTail
  repeat' first
    | with_reducible exact h1 _ _
    | with_reducible exact fo_pure _
    | with_reducible exact fo_raise _
    | with_reducible exact fo_rd _
    | with_reducible exact fo_get
    | with_reducible exact fo_setObj _ _ (fun _ => Keep.same rfl rfl rfl)
    | with_reducible apply fo_bind
    | with_reducible apply fo_ite
    | with_reducible apply fo_catchOS
    | with_reducible intro _
    | dsimp only
theorem fo_createLink (o n : Str) (f cm : Bool) : Fr R (createLink o n f cm) := by
  have h1 := fun a b c d f => fo_linkTail (R := R) a b c d f
  have h2 : ∀ p cm, Fr R (linkParent p cm) := fun p cm => by unfold linkParent; framesO
  unfold createLink
  repeat' first
    | with_reducible exact h1 _ _ _ _ _
    | with_reducible exact h2 _ _
    | with_reducible exact fo_raise _
    | with_reducible exact fo_rd _
    | with_reducible exact fo_get
    | with_reducible apply fo_bind
    | with_reducible apply fo_ite
    | with_reducible intro _
    | dsimp only
theorem fo_mkdirTail (p : Str) (m : Nat) (h : ∀ x, OpRel.D R (andNot m x)) : Fr R (mkdirTail p m) := by
  unfold mkdirTail
  refine fo_bind fo_get ?_
  intro s
  exact fo_bind (fo_newObj _ (fun _ => OpRel.dirN _ _ _ (h _))) fun _ => fo_addObject _ _
theorem fo_mkdir (p : Str) (m : Nat) (h : ∀ x, OpRel.D R (andNot m x)) : Fr R (mkdir p m) := by
  have h1 := fun p => fo_mkdirTail (R := R) p m h
  have h2 := fun p => fo_removeObject (R := R) p
  unfold mkdir
  repeat' first
    | with_reducible exact h1 _
    | with_reducible exact h2 _
    | with_reducible exact fo_raise _
    | with_reducible exact fo_rd _
    | with_reducible exact fo_get
    | with_reducible apply fo_bind
    | with_reducible apply fo_ite
    | with_reducible intro _
    | dsimp only
theorem fo_makedirsTail (p : Str) (m : Nat) (e : Bool) (h : ∀ x, OpRel.D R (andNot m x)) : Fr R (makedirsTail p m e) := by
  have h1 : ∀ p x, Fr R (createDir p (andNot m x)) := fun p x => fo_createDir p _ (h x)
  unfold makedirsTail
  repeat' first
    | with_reducible exact h1 _ _
    | with_reducible exact fo_pure _
    | with_reducible exact fo_pure' _
    | with_reducible exact fo_throw _
    | with_reducible exact fo_rd _
    | with_reducible exact fo_get
    | with_reducible apply fo_bind
    | with_reducible apply fo_ite
    | with_reducible apply fo_catchOS
    | with_reducible intro _
    | dsimp only
theorem fo_makedirs (p : Str) (m : Nat) (e : Bool) (h : ∀ x, OpRel.D R (andNot m x)) : Fr R (makedirs p m e) := by
  have h1 := fun p e => fo_makedirsTail (R := R) p m e h
  have h2 := fun p => fo_removeObject (R := R) p
  unfold makedirs
  repeat' first
    | with_reducible exact h1 _ _
    | with_reducible exact h2 _
    | with_reducible exact fo_pure _
    | with_reducible exact fo_pure' _
    | with_reducible exact fo_raise _
    | with_reducible exact fo_rd _
    | with_reducible exact fo_get
    | with_reducible apply fo_bind
    | with_reducible apply fo_ite
    | with_reducible intro _
    | dsimp only
theorem fo_remove (p : Str) : Fr R (remove p) := by
  unfold remove
  exact fo_bind (fo_rd _) fun _ => fo_bind fo_get fun _ => fo_removeObject _
theorem fo_rmdir (p : Str) (a : Bool) : Fr R (rmdir p a) := by
  unfold rmdir
  exact fo_bind (fo_rd _) fun _ => fo_bind fo_get fun _ => fo_ite (fun _ => fo_removeObject _) fun _ => fo_pure _
theorem fo_removedirsLoop : ∀ n a b, Fr R (removedirsLoop n a b) := by
  intro n
  induction n with
  | zero => intro a b; exact fo_pure _
  | succ n ih =>
    intro a b
    unfold removedirsLoop
    apply fo_ite
    · intro _; exact fo_pure _
    intro _
    refine fo_bind (fo_rd _) ?_
    intro d
    refine fo_bind fo_get ?_
    intro s
    apply fo_ite
    · intro _; exact fo_pure _
    · intro _; exact fo_bind (fo_rmdir _ _) fun _ => ih _ _
theorem fo_removedirs (p : Str) : Fr R (removedirs p) := by
  unfold removedirs
  refine fo_bind fo_get ?_
  intro s
  refine fo_bind (fo_rd _) ?_
  intro d
  refine fo_bind fo_get ?_
  intro s
  have key : ∀ q : Str, Fr R (do
      rmdir q
      let (h, t) := s.cfg.splitpath q
      let (h, t) := if t = [] then s.cfg.splitpath h else (h, t)
      removedirsLoop q.length h t) := fun q => fo_bind (fo_rmdir _ _) fun _ => fo_removedirsLoop _ _ _
  apply fo_ite
  · intro _; exact fo_bind (fo_raise _) fun _ => key _
  · intro _; exact key _
theorem fo_renameCommit (a b : Ref) (c d : Str) : Fr R (renameCommit a b c d) := by
  unfold renameCommit
  framesO
theorem fo_renameTail (a b : Str) (c : Ref) : Fr R (renameTail a b c) := by
  have h1 := fun a b c d => fo_renameCommit (R := R) a b c d
  unfold renameTail
  repeat' first
    | with_reducible exact h1 _ _ _ _
    | with_reducible exact fo_pure _
    | with_reducible exact fo_throw _
    | with_reducible exact fo_raise _
    | with_reducible exact fo_rd _
    | with_reducible exact fo_get
    | with_reducible apply fo_bind
    | with_reducible apply fo_ite
    | with_reducible intro _
    | dsimp only
theorem fo_renameToExisting (f : Bool) (a b : Str) (c : Ref) (e : Bool) : Fr R (renameToExisting f a b c e) := by
  have h2 := fun p => fo_removeObject (R := R) p
  unfold renameToExisting
  repeat' first
    | with_reducible exact h2 _
    | with_reducible exact fo_pure _
    | with_reducible exact fo_throw _
    | with_reducible exact fo_raise _
    | with_reducible exact fo_rd _
    | with_reducible exact fo_get
    | with_reducible apply fo_bind
    | with_reducible apply fo_ite
    | with_reducible intro _
    | dsimp only
theorem fo_rename (a b : Str) (f : Bool) : Fr R (rename a b f) := by
  have h1 := fun a b c => fo_renameTail (R := R) a b c
  have h2 := fun f a b c e => fo_renameToExisting (R := R) f a b c e
  unfold rename
  repeat' first
    | with_reducible exact h1 _ _ _
    | with_reducible exact h2 _ _ _ _ _
    | with_reducible exact fo_pure _
    | with_reducible exact fo_pure' _
    | with_reducible exact fo_throw _
    | with_reducible exact fo_raise _
    | with_reducible exact fo_rd _
    | with_reducible exact fo_get
    | with_reducible apply fo_bind
    | with_reducible apply fo_ite
    | split
    | with_reducible intro _
    | dsimp only
theorem fo_utime (p : Str) (ns : Option (Int × Int)) (f : Bool) : Fr R (utime p ns f) := by
  unfold utime
  refine fo_bind (fo_rd _) fun r => fo_setObj _ _ (fun s => ?_)
  cases ns <;> exact Keep.same rfl rfl rfl
theorem fo_chown (p : Str) (u g : Int) (f : Bool) : Fr R (chown p u g f) := by
  unfold chown; exact fo_bind (fo_rd _) fun r => fo_setObj _ _ (fun _ => Keep.same rfl rfl rfl)
theorem fo_truncate {R : FS → FS → Prop} [OpRelD R] (p : Str) (n : Nat) : Fr R (truncate p n) := by
  unfold truncate; exact fo_bind (fo_rd _) fun r => fo_setSize _ _
theorem fo_mknod {R : FS → FS → Prop} [OpRelD R] (p : Str) (m : Nat) (h : ∀ b x s, OpRel.N R (mkFileObj b (andNot m x) none s)) : Fr R (mknod p m) := by
  have h1 := fun p c => fo_addObject (R := R) p c
  have h2 : ∀ b x, Fr R (newObj (mkFileObj b (andNot m x) none)) := fun b x => fo_newObj _ (h b x)
  unfold mknod
  repeat' first
    | with_reducible exact h1 _ _
    | with_reducible exact h2 _ _
    | with_reducible exact fo_pure _
    | with_reducible exact fo_throw _
    | with_reducible exact fo_raise _
    | with_reducible exact fo_rd _
    | with_reducible exact fo_get
    | with_reducible apply fo_bind
    | with_reducible apply fo_ite
    | with_reducible intro _
    | dsimp only
theorem fo_setxattr (p a : Str) (v : Bytes) (fl : Nat) (f : Bool) : Fr R (setxattr p a v fl f) := by
  unfold setxattr
  framesO
theorem fo_removexattr (p a : Str) (f : Bool) : Fr R (removexattr p a f) := by
  unfold removexattr
  framesO
theorem fo_setDiskUsage (t : Int) (p : Str) (hT : OpRel.T R) : Fr R (setDiskUsage t p) := by
  have h1 : ∀ dev, Fr R (M.modify fun s => { s with mounts := s.mounts.map fun m =>
      if m.idev = dev then { m with total := some t } else m }) := fun dev s => OpRel.total s dev t hT
  unfold setDiskUsage
  refine fo_bind (fo_mountForPath _) ?_
  intro dev
  refine fo_bind fo_get ?_
  intro s
  split
  · exact fo_throw _
  · apply fo_ite
    · intro _; exact fo_bind (fo_raise _) fun _ => h1 _
    · intro _; exact h1 _

end

end Verif
