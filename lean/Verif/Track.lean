import Verif.Readers
/-!
# No file object knows a later state of its file than the present one
-/

namespace Verif
open Py Spec Cfg

/-- handles stay in step with the epochs of their files -/
structure Track (s s' : FS) : Prop where
  ep : Epoch s s'
  hnext : s.hnext ≤ s'.hnext
  all : (∀ h < s.hnext, EOk h s) → ∀ h < s'.hnext, EOk h s'

theorem EOk.keep {s s' : FS} {h : Nat} (k : EOk h s) (he : Epoch s s') (ho : (s'.handles h).obj = (s.handles h).obj)
    (hf : (s'.handles h).fileEpoch = (s.handles h).fileEpoch) : EOk h s' :=
  ⟨by rw [ho]; exact Nat.lt_of_lt_of_le k.lt he.next, by rw [ho, hf]; exact Nat.le_trans k.le (he.epoch _ k.lt)⟩

theorem Track.of {s s' : FS} (he : Epoch s s') (h1 : s'.hnext = s.hnext) (h2 : s'.handles = s.handles) : Track s s' :=
  ⟨he, Nat.le_of_eq h1.symm, fun k h hl => (k h (h1 ▸ hl)).keep he (by rw [h2]) (by rw [h2])⟩

theorem Track.refl (s : FS) : Track s s := Track.of (OpRel.refl s) rfl rfl
theorem Track.trans {a b c : FS} (x : Track a b) (y : Track b c) : Track a c :=
  ⟨x.ep.trans y.ep, Nat.le_trans x.hnext y.hnext, fun k => y.all (x.all k)⟩

theorem Track.setH (s : FS) (g : Nat) (f : Handle → Handle) (hf : ∀ H : Handle, (f H).obj = H.obj ∧
    ((f H).fileEpoch = H.fileEpoch ∨ (f H).fileEpoch = (s.heap H.obj).epoch)) : Track s (s.setH g f) := by
  refine ⟨OpRelIO.hand _ _ _ _ _, Nat.le_refl _, fun k h hl => ?_⟩
  have he : Epoch s (s.setH g f) := OpRelIO.hand _ _ _ _ _
  have kh := k h hl
  by_cases hg : h = g
  · subst hg
    have e := setH_same s h f
    rcases (hf (s.handles h)).2 with e2 | e2
    · exact kh.keep he (by rw [e]; exact (hf _).1) (by rw [e]; exact e2)
    · refine ⟨by rw [e, (hf _).1]; exact kh.lt, ?_⟩
      rw [e, (hf _).1, e2]
      exact Nat.le_refl _
  · have e := setH_ne s f hg
    exact kh.keep he (by rw [e]) (by rw [e])

theorem ft_tree {α : Type} {m : M α} (h1 : Fr Epoch m) (h2 : Fr SameH m) : Fr Track m := fun s =>
  Track.of (h1 s) (h2 s).hnext (h2 s).handles

theorem ft_pure {α : Type} (a : α) : Fr Track (M.pure a) := fun s => Track.refl s
theorem ft_pure' {α : Type} (a : α) : Fr Track (pure a : M α) := fun s => Track.refl s
theorem ft_throw {α : Type} (e : Err) : Fr Track (M.throw e : M α) := fun s => Track.refl s
theorem ft_raise {α : Type} (e : Errno) : Fr Track (M.raise e : M α) := fun s => Track.refl s
theorem ft_get : Fr Track M.get := fun s => Track.refl s
theorem ft_rd {α : Type} (f : FS → Except Err α) : Fr Track (rd f) := fun s => Track.refl s
theorem ft_hget (g : Nat) : Fr Track (hget g) := fun s => Track.refl s

theorem ft_bind {α β : Type} {m : M α} {f : α → M β} (hm : Fr Track m) (hf : ∀ a, Fr Track (f a)) : Fr Track (m >>= f) := by
  intro s
  show Track s (M.bind m f s).2
  unfold M.bind
  have h1 := hm s
  rcases hr : m s with ⟨r, s'⟩
  rw [hr] at h1
  cases r with
  | error e => exact h1
  | ok a => exact h1.trans (hf a s')

theorem ft_ite {α : Type} {c : Prop} [Decidable c] {a b : M α} (ha : c → Fr Track a) (hb : ¬ c → Fr Track b) : Fr Track (if c then a else b) := by
  split
  · exact ha ‹_›
  · exact hb ‹_›

theorem ft_tryCatch {α : Type} {m : M α} {k : Err → M α} (hm : Fr Track m) (hk : ∀ e, Fr Track (k e)) : Fr Track (M.tryCatch m k) := by
  intro s
  unfold M.tryCatch
  have h1 := hm s
  rcases hr : m s with ⟨r, s'⟩
  rw [hr] at h1
  cases r with
  | error e => exact h1.trans (hk e s')
  | ok a => exact h1

theorem ft_catchOS {α : Type} {m : M α} {k : Err → M α} (hm : Fr Track m) (hk : ∀ e, Fr Track (k e)) : Fr Track (catchOS m k) :=
  ft_tryCatch hm fun e => ft_ite (fun _ => hk e) fun _ => ft_throw e

theorem ft_void {α : Type} {m : M α} (hm : Fr Track m) : Fr Track m.void := ft_bind hm fun _ => ft_pure _

theorem ft_setSize (r : Ref) (n : Nat) : Fr Track (setSize r n) := ft_tree (fo_setSize r n) (fr_setSize r n)
theorem ft_setContents (r : Ref) (b : Bytes) : Fr Track (setContents r b) := ft_tree (fo_setContents r b) (fr_setContents r b)
theorem ft_removeObject (p : Str) : Fr Track (removeObject p) := ft_tree (fo_removeObject p) (fr_removeObject p)
theorem ft_chmod (p : Str) (m : Nat) (f : Bool) : Fr Track (chmod p m f) := ft_tree (epoch_chmod p m f) (fr_chmod p m f)
theorem ft_setObj (r : Ref) (f : FS → Obj → Obj) (hf : ∀ s o, (f s o).content = o.content ∧ (f s o).epoch = o.epoch) :
    Fr Track (M.modify fun s => s.setObj r (f s)) := fun s =>
  Track.of (epoch_meta s r _ (fun o => (hf s o).1) fun o => (hf s o).2) rfl rfl

theorem ft_hmod (g : Nat) (f : Handle → Handle) (hf : ∀ H : Handle, (f H).obj = H.obj ∧ ((f H).fileEpoch = H.fileEpoch ∨ False)) : Fr Track (hmod g f) :=
  fun s => Track.setH s g f fun H => ⟨(hf H).1, .inl ((hf H).2.resolve_right id)⟩

theorem ft_sync (g : Nat) : Fr Track (M.modify fun s => s.setH g fun H => { H with fileEpoch := (s.heap H.obj).epoch }) :=
  fun s => Track.setH s g (fun H => { H with fileEpoch := (s.heap H.obj).epoch }) fun _ => ⟨rfl, .inr rfl⟩

/-- Compositional steps. -/
macro "ft" : tactic => `(tactic|
  repeat' first
    | with_reducible assumption
    | with_reducible exact ft_pure _
    | with_reducible exact ft_pure' _
    | with_reducible exact ft_throw _
    | with_reducible exact ft_raise _
    | with_reducible exact ft_get
    | with_reducible exact ft_rd _
    | with_reducible exact ft_hget _
    | with_reducible exact ft_setSize _ _
    | with_reducible exact ft_setContents _ _
    | with_reducible exact ft_removeObject _
    | with_reducible exact ft_hmod _ _ (fun _ => ⟨rfl, Or.inl rfl⟩)
    | with_reducible exact ft_sync _
    | with_reducible exact ft_setObj _ _ (fun _ _ => ⟨rfl, rfl⟩)
    | with_reducible apply ft_bind
    | with_reducible apply ft_ite
    | with_reducible apply ft_catchOS
    | with_reducible apply ft_tryCatch
    | split
    | with_reducible intro _
    | dsimp only)

theorem ft_checkOpen (k : Nat) : Fr Track (checkOpen k) := by
  intro s
  unfold checkOpen
  split <;> exact Track.refl s

theorem ft_setStream (g : Nat) (b : Option Bytes) : Fr Track (setStream g b) := by
  unfold setStream
  ft

theorem ft_syncIo (g : Nat) : Fr Track (syncIo g) := by
  have := fun b => ft_setStream g b
  unfold syncIo
  ft
  exact this _

theorem ft_syncAll (k : Nat) (r : Ref) : ∀ l, Fr Track (syncAll k r l) := by
  intro l
  induction l with
  | nil => exact ft_pure _
  | cons g l ih =>
    unfold syncAll
    refine ft_bind (ft_hget _) fun G => ?_
    dsimp only
    apply ft_ite
    · intro _; exact ft_bind (ft_syncIo g) fun _ => ih
    · intro _; exact ih

theorem ft_flushRelated (k : Nat) : Fr Track (flushRelated k) := by
  unfold flushRelated
  exact ft_bind ft_get fun s => ft_syncAll _ _ _

theorem ft_flushContents (g : Nat) : Fr Track (flushContents g) := by
  have h1 := ft_syncIo g
  have h2 := fun b => ft_setStream g b
  unfold flushContents
  repeat' first
    | with_reducible exact h2 _
    | ft

theorem ft_flushStore (g : Nat) (c : Bytes) : Fr Track (flushStore g c) := by
  have h1 := ft_flushRelated g
  unfold flushStore
  ft

theorem ft_flush (g : Nat) : Fr Track (flush g) := by
  unfold flush
  refine ft_bind (ft_checkOpen _) fun _ => ft_bind (ft_hget _) fun H => ?_
  apply ft_ite
  · intro _; exact ft_bind (ft_flushContents g) fun c => ft_flushStore g c
  · intro _; exact ft_pure _

theorem ft_seek (g : Nat) (o : Int) (w : Nat) : Fr Track (seek g o w) := by
  have h1 := ft_flush g
  have h2 := ft_checkOpen g
  unfold seek
  ft

theorem ft_tell (g : Nat) : Fr Track (tell g) := by
  have h1 := ft_flush g
  have h2 := ft_checkOpen g
  unfold tell
  ft

theorem ft_hRaise {α : Type} (g : Nat) : Fr Track (hRaise g : M α) := by
  unfold hRaise
  exact ft_bind (ft_hget _) fun H => ft_ite (fun _ => ft_raise _) fun _ => ft_throw _

theorem ft_read (g : Nat) (n : Option Nat) : Fr Track (read g n) := by
  have h1 := ft_flush g
  have h2 := ft_checkOpen g
  have h3 := ft_hRaise (α := Bytes) g
  have h4 := ft_syncIo g
  unfold read
  ft

theorem ft_rawWrite (g : Nat) (b : Bytes) : Fr Track (rawWrite g b) := ft_hmod g _ fun _ => ⟨rfl, .inl rfl⟩

theorem ft_tryFlush (g : Nat) (o : Nat) : Fr Track (tryFlush g o) := by
  have h1 := ft_flush g
  unfold tryFlush
  ft

theorem ft_writeWrapper (g : Nat) (b : Bytes) : Fr Track (writeWrapper g b) := by
  have h1 := fun b => ft_rawWrite g b
  have h2 := fun o => ft_tryFlush g o
  unfold writeWrapper
  repeat' first
    | with_reducible exact h1 _
    | with_reducible exact h2 _
    | with_reducible exact ft_pure _
    | with_reducible exact ft_hget _
    | with_reducible exact ft_hmod _ _ (fun _ => ⟨rfl, Or.inl rfl⟩)
    | with_reducible apply ft_bind
    | with_reducible apply ft_ite
    | with_reducible intro _
    | dsimp only

theorem ft_write (g : Nat) (b : Bytes) : Fr Track (write g b) := by
  have h1 := ft_writeWrapper g b
  have h2 := ft_checkOpen g
  have h3 := ft_hRaise (α := Nat) g
  unfold write
  ft

theorem ft_adaptSize (k n : Nat) : Fr Track (adaptSize k n) := by
  intro s
  show Track s _
  have : ∀ (l : List Nat) (s : FS), Track s (l.foldl (fun s' g =>
      if g ≠ k ∧ (s'.handles g).kind = .file ∧ (s'.handles g).obj = (s'.handles k).obj ∧ (s'.handles g).append then
        s'.setH g fun G => { G with readSeek := G.readSeek + n }
      else s') s) := by
    intro l
    induction l with
    | nil => intro s; exact Track.refl s
    | cons g l ih =>
      intro s
      rw [List.foldl_cons]
      refine Track.trans ?_ (ih _)
      split
      · exact Track.setH s g _ fun _ => ⟨rfl, .inl rfl⟩
      · exact Track.refl s
  exact this _ s

theorem ft_truncateWrapper (g : Nat) (n : Option Nat) : Fr Track (truncateWrapper g n) := by
  have h1 := ft_flush g
  have h2 := fun m => ft_adaptSize g m
  unfold truncateWrapper
  repeat' first
    | with_reducible assumption
    | with_reducible exact h2 _
    | with_reducible exact ft_pure _
    | with_reducible exact ft_throw _
    | with_reducible exact ft_hget _
    | with_reducible exact ft_setSize _ _
    | with_reducible exact ft_setContents _ _
    | with_reducible exact ft_hmod _ _ (fun _ => ⟨rfl, Or.inl rfl⟩)
    | with_reducible apply ft_bind
    | with_reducible apply ft_ite
    | split
    | with_reducible intro _
    | dsimp only

theorem ft_hTruncate (g : Nat) (n : Option Nat) : Fr Track (hTruncate g n) := by
  have h1 := ft_truncateWrapper g n
  have h2 := ft_checkOpen g
  have h3 := ft_hRaise (α := Nat) g
  unfold hTruncate
  ft

theorem ft_closeOpenFile (fd : Nat) : Fr Track (closeOpenFile fd) := fun _ => Track.of (Epoch.heap rfl rfl) rfl rfl

theorem ft_hClose (g : Nat) : Fr Track (hClose g) := by
  have h1 := ft_flush g
  have h2 := fun fd => ft_closeOpenFile fd
  have hm : ∀ fd, Fr Track (M.modify fun s => { s with openFiles := s.openFiles.modify fd fun e => e.map fun l => l.erase g }) :=
    fun fd s => Track.of (Epoch.heap rfl rfl) rfl rfl
  have ho : ∀ r, Fr Track (M.modify fun s => s.setObj r fun o => { o with mtime := s.clock }) :=
    fun r => ft_setObj r (fun s o => { o with mtime := s.clock }) fun _ _ => ⟨rfl, rfl⟩
  unfold hClose
  refine ft_bind ft_get fun s => ?_
  dsimp only
  repeat' first
    | with_reducible assumption
    | with_reducible exact h2 _
    | with_reducible exact hm _
    | with_reducible exact ho _
    | with_reducible exact ft_removeObject _
    | with_reducible exact ft_pure _
    | with_reducible exact ft_pure' _
    | with_reducible exact ft_get
    | with_reducible apply ft_bind
    | with_reducible apply ft_ite
    | split
    | with_reducible intro _
    | dsimp only


/-- the result of `m` is an existing object -/
def Refs (m : M Ref) : Prop := ∀ s r s', m s = (.ok r, s') → r < s'.next

theorem refs_bind {α : Type} {m : M α} {f : α → M Ref} (hf : ∀ a, Refs (f a)) : Refs (m >>= f) := by
  intro s r s' h
  rw [M.bind_eq] at h
  rcases hm : m s with ⟨e | a, s1⟩
  · rw [hm] at h; injection h with h _; exact absurd h (by simp)
  · rw [hm] at h; exact hf a s1 r s' h

theorem refs_ite {c : Prop} [Decidable c] {a b : M Ref} (ha : Refs a) (hb : Refs b) : Refs (if c then a else b) := by
  split
  · exact ha
  · exact hb

/-- `m` only adds objects and returns `r` -/
theorem refs_new (o : FS → Obj) {k : Ref → M Ref} (hk : ∀ r, Fr Epoch (k r)) (hr : ∀ r s a s', k r s = (.ok a, s') → a = r) :
    Refs (newObj o >>= k) := by
  intro s r s' h
  rw [M.bind_eq] at h
  dsimp only [newObj] at h
  have e := hr _ _ _ _ h
  subst e
  have := (hk s.next { s with heap := upd s.heap s.next (o s), next := s.next + 1 }).next
  rw [h] at this
  exact this

theorem ret_bind {α : Type} {m : M α} {f : α → M Ref} {r : Ref} (hf : ∀ x s a s', f x s = (.ok a, s') → a = r) :
    ∀ s a s', (m >>= f) s = (.ok a, s') → a = r := by
  intro s a s' h
  rw [M.bind_eq] at h
  rcases hm : m s with ⟨e | x, s1⟩
  · rw [hm] at h; injection h with h _; exact absurd h (by simp)
  · rw [hm] at h; exact hf x s1 a s' h

theorem ret_ite {c : Prop} [Decidable c] {m n : M Ref} {r : Ref} (hm : ∀ s a s', m s = (.ok a, s') → a = r)
    (hn : ∀ s a s', n s = (.ok a, s') → a = r) : ∀ s a s', (if c then m else n) s = (.ok a, s') → a = r := by
  split
  · exact hm
  · exact hn

theorem refs_createFileI (p : Str) (m : Nat) (c : Option Bytes) (z : Option Nat) (cm um : Bool) : Refs (createFileI p m c z cm um) := by
  unfold createFileI
  refine refs_bind fun s => ?_
  dsimp only
  have tail : ∀ q, Refs (createFileTail q (s.cfg.splitpath (s.absnorm (s.cfg.makeStringPath p))).2 (s.absnorm (s.cfg.makeStringPath p)) m c z um) := by
    intro q
    unfold createFileTail
    refine refs_bind fun s => ?_
    refine refs_new _ (fun r => ?_) fun r => ?_
    · refine fo_bind (fo_addObject _ _) ?_
      intro _
      dsimp only
      apply fo_ite
      · intro _
        apply fo_bind
        · apply fo_catchOS
          · framesO
          · intro e; exact fo_bind (fo_removeObject _) fun _ => fo_throw _
        · intro _; exact fo_pure _
      · intro _; exact fo_pure _
    · refine ret_bind fun _ => ?_
      dsimp only
      have t1 : ∀ s a s', (M.pure r : M Ref) s = (.ok a, s') → a = r := by
        intro s a s' h; injection h with h _; injection h with h; exact h.symm
      apply ret_ite
      · exact ret_bind fun _ => t1
      · exact t1
  have t2 : ∀ q, Refs (do
      autoMount q
      let parent ← fileParent q cm
      createFileTail parent (s.cfg.splitpath (s.absnorm (s.cfg.makeStringPath p))).2 (s.absnorm (s.cfg.makeStringPath p)) m c z um) :=
    fun q => refs_bind fun _ => refs_bind fun _ => tail _
  refine refs_bind fun b => ?_
  exact refs_ite (refs_bind fun _ => t2 _) (t2 _)

theorem initFileObject_lt {s s' : FS} {a : Option Ref} {p q : Str} {md : OpenModes} {r : Ref} (ha : ∀ x, a = some x → x < s.next)
    (h : initFileObject a p q md s = (.ok r, s')) : r < s'.next := by
  have ep : Epoch s s' := by have := fo_initFileObject (R := Epoch) a p q md s; rw [h] at this; exact this
  cases a with
  | some x =>
    have key : ∀ s a s', initFileObject (some x) p q md s = (.ok a, s') → a = x := by
      unfold initFileObject
      refine ret_bind fun _ => ?_
      have t1 : ∀ s a s', (M.pure x : M Ref) s = (.ok a, s') → a = x := by
        intro s a s' h; injection h with h _; injection h with h; exact h.symm
      have t2 : ∀ s a s', (do
          if md.canWrite && md.truncate then
            let _ ← setContents x []
          M.pure x : M Ref) s = (.ok a, s') → a = x := by
        dsimp only
        split
        · exact ret_bind fun _ => t1
        · exact t1
      dsimp only
      split
      · exact ret_bind fun _ => t2
      · exact t2
    rw [key _ _ _ h]
    exact Nat.lt_of_lt_of_le (ha x rfl) ep.next
  | none =>
    have key : Refs (initFileObject none p q md) := by
      unfold initFileObject
      dsimp only
      have fin := refs_createFileI q (S_IFREG ||| PERM_DEF_FILE) (some []) none false true
      have f2 : ∀ target : Str, Refs (do
          let s ← M.get
          if s.cfg.endsWithSep target then
            M.raise (if s.cfg.isWin then .EINVAL else if s.cfg.isMac then .ENOENT else .EISDIR)
          createFileI q (S_IFREG ||| PERM_DEF_FILE) (some []) none false true) := by
        intro target
        refine refs_bind fun s => ?_
        dsimp only
        exact refs_ite (refs_bind fun _ => fin) fin
      have f3 : Refs (do
          let target ← if ← rd (·.isLink p) then do
              let l ← rd (·.resolve p false)
              let s ← M.get
              M.pure (s.linkTarget (s.heap l))
            else M.pure p
          let s ← M.get
          if s.cfg.endsWithSep target then
            M.raise (if s.cfg.isWin then .EINVAL else if s.cfg.isMac then .ENOENT else .EISDIR)
          createFileI q (S_IFREG ||| PERM_DEF_FILE) (some []) none false true) := by
        refine refs_bind fun b => ?_
        split
        · refine refs_bind fun l => refs_bind fun s => refs_bind fun t => f2 t
        · exact refs_bind fun t => f2 t
      exact refs_ite (refs_bind fun _ => f3) f3
    exact key s r s' h

theorem openObject_lt {s s' : FS} {a : Option Ref} {p q : Str} {md : OpenModes} {r : Ref} (ha : ∀ x, a = some x → x < s.next)
    (h : openObject a p q md s = (.ok r, s')) : r < s'.next := by
  have main : wp (do
      let r ← initFileObject a p q md
      let s ← M.get
      if (s.heap r).isDirMode then M.raise (if s.cfg.isWin then .EACCES else .EISDIR)
      if md.truncate then
        M.modify fun s => s.setObj r fun o =>
          { o with mtime := s.clock, ctime := if s.cfg.isWin then o.ctime else s.clock }
      M.pure r) (fun res s' => ∀ r, res = .ok r → r < s'.next) s := by
    refine wp_seq (fun res s' => ∀ r, res = .ok r → r < s'.next) ?_ (fun _ _ _ => by simp) ?_
    · intro r e
      exact initFileObject_lt (s' := (initFileObject a p q md s).2) ha (Prod.ext e rfl)
    · intro r s1 h1
      have h2 := h1 r rfl
      apply wp_getBind
      dsimp only
      apply wp_ite
      · intro _ r e; cases e
      · intro _
        apply wp_ite
        · intro _
          refine wp_bindOk (a := ()) rfl ?_
          apply wp_pure
          intro r' e; injection e with e; subst e; exact h2
        · intro _
          apply wp_pure
          intro r' e; injection e with e; subst e; exact h2
  have : wp (openObject a p q md) (fun res s' => ∀ r, res = .ok r → r < s'.next) s := by
    unfold openObject
    dsimp only
    apply wp_ite
    · intro _
      apply wp_ite
      · intro _
        refine wp_bindOk (a := true) (s' := s) rfl ?_
        apply wp_ite
        · intro _ r e; cases e
        · intro _; exact main
      · intro _
        apply wp_getBind
        refine wp_seq (fun _ s' => s' = s) rfl (fun _ _ _ _ e => by cases e) ?_
        intro l s1 e
        subst e
        refine wp_bindOk (s' := s1) rfl ?_
        apply wp_ite
        · intro _ r e; cases e
        · intro _; exact main
    · intro _; exact main
  unfold wp at this
  rw [h] at this
  exact this r rfl

theorem fileArg_lt {s : FS} (hi : Inv s) {p q : Str} {a : Option Ref} (h : s.fileArg p = .ok (a, q)) : ∀ x, a = some x → x < s.next := by
  intro x e
  subst e
  unfold FS.fileArg at h
  split at h
  · injection h with h; injection h with h _; injection h with h; subst h; exact devNull_lt hi
  · obtain ⟨real, h1, h2⟩ := except_bind_ok h
    obtain ⟨b, h3, h4⟩ := except_bind_ok h2
    split at h4
    · obtain ⟨r, h5, h6⟩ := except_bind_ok h4
      injection h6 with h6; injection h6 with h6 _; injection h6 with h6; subst h6
      exact (Closed.lt hi).getObjNormG ((Closed.lt hi).recN _) h5
    · injection h4 with h4; injection h4 with h4 _; cases h4

theorem Track.new {s : FS} {H : Handle} (ho : H.obj < s.next) (he : H.fileEpoch ≤ (s.heap H.obj).epoch) :
    Track s (newHandle H s).2 := by
  refine ⟨OpRelIO.hand _ _ _ _ _, Nat.le_succ _, fun k h hl => ?_⟩
  have hl' : h < s.hnext + 1 := hl
  rcases Nat.lt_succ_iff_lt_or_eq.mp hl' with hl | hl
  · have e : (newHandle H s).2.handles h = s.handles h := upd_ne _ _ (Nat.ne_of_lt hl)
    exact (k h hl).keep (OpRelIO.hand _ _ _ _ _) (by rw [e]) (by rw [e])
  · subst hl
    have e : (newHandle H s).2.handles s.hnext = H := upd_same _ _ _
    exact ⟨by rw [e]; exact ho, by rw [e]; exact he⟩

theorem ft_addOpenFile (g : Nat) : Fr Track (addOpenFile g) := by
  intro s
  unfold addOpenFile
  split <;> exact Track.of (Epoch.heap rfl rfl) rfl rfl

theorem Track.register {s : FS} {H : Handle} (ho : H.obj < s.next) (he : H.fileEpoch ≤ (s.heap H.obj).epoch) {α : Type} (f : Nat → Nat → α) :
    Track s ((newHandle H >>= fun k => addOpenFile k >>= fun fd => hmod k (fun H => { H with fd := fd }) >>= fun _ => M.pure (f k fd)) s).2 := by
  rw [M.bind_eq]
  have t := Track.new ho he
  dsimp only [newHandle] at t ⊢
  exact t.trans (ft_bind (ft_addOpenFile _) (fun fd => ft_bind (ft_hmod _ (fun H => { H with fd := fd }) fun _ => ⟨rfl, .inl rfl⟩) fun _ => ft_pure _) _)

theorem ft_openObject (o : Option Ref) (p r : Str) (md : OpenModes) : Fr Track (openObject o p r md) :=
  ft_tree (fo_openObject o p r md) (sh_openObject o p r md)

theorem track_openPath {s : FS} (hi : Inv s) (p : Str) (md : OpenModes) (bf : Option Nat) (raw del : Bool) :
    Track s (openPath p md bf raw del s).2 := by
  refine (show wp (openPath p md bf raw del) (fun _ s' => Track s s') s from ?_)
  unfold openPath
  rcases hf : s.fileArg p with e | ⟨a, q⟩
  · refine wp_seq (fun r s' => s' = s ∧ r = .error e) ⟨rfl, hf⟩ (fun _ _ e => by rw [e.1]; exact Track.refl _) ?_
    rintro a s' ⟨_, h⟩; cases h
  refine wp_bindOk (rd_eq (f := fun s => s.fileArg p) hf) ?_
  dsimp only
  refine wp_seq (fun r s' => Track s s' ∧ ∀ x, r = .ok x → x < s'.next) ⟨ft_openObject a p q md s, ?_⟩ (fun _ _ e => e.1) ?_
  · intro x e
    exact openObject_lt (s' := (openObject a p q md s).2) (fileArg_lt hi hf) (Prod.ext e rfl)
  · rintro r s1 ⟨t1, h1⟩
    apply wp_getBind
    apply wp_ite
    · intro _; exact t1
    · intro _
      exact t1.trans (Track.register (s := s1) (H := mkHandle s1 r md bf true raw del 0) (h1 r rfl) (Nat.le_refl _) fun k _ => k)

/-- every file object knows a present or past state of its file -/
def InStep (s : FS) : Prop := ∀ h < s.hnext, EOk h s

theorem getOpen_hnext {s : FS} (hi : FdInv s) {fd : Int} {h : Nat} (hg : s.getOpen fd = .ok h) : h < s.hnext := by
  have key : ∀ i : Int, (if i < 0 then (.error .indexError : Except Err Nat) else match s.openFiles[i.toNat]? with
      | some (some (h :: _)) => .ok h
      | some (some []) => .error .indexError
      | some none => .error (.os .EBADF)
      | none => .error .indexError) = .ok h → h < s.hnext := by
    intro i hg
    split at hg
    · cases hg
    split at hg
    · rename_i h' l e
      injection hg with hg
      subst hg
      exact (hi.mem _ _ e _ (by simp)).1
    all_goals cases hg
  unfold FS.getOpen at hg
  split at hg
  · cases hg
  · exact key _ hg

theorem track_openFd {s : FS} (hi : FdInv s) (hs : InStep s) (fd : Nat) (md : OpenModes) (bf : Option Nat) (c : Bool) :
    InStep (openFd fd md bf c s).2 := by
  refine (show wp (openFd fd md bf c) (fun _ s' => InStep s') s from ?_)
  unfold openFd
  rcases hf : s.getOpen fd with e | w
  · refine wp_seq (fun r s' => s' = s ∧ r = .error e) ⟨rfl, hf⟩ (fun _ _ e => by rw [e.1]; exact hs) ?_
    rintro a s' ⟨_, h⟩; cases h
  refine wp_bindOk (rd_eq (f := fun s => s.getOpen fd) hf) ?_
  refine wp_bindOk (a := s.handles w) (s' := s) rfl ?_
  apply wp_ite
  · intro _; exact hs
  intro _
  apply wp_getBind
  dsimp only
  have hw := (hs w (getOpen_hnext hi hf)).lt
  refine wp_seq (fun r s' => Track s s' ∧ ∀ x, r = .ok x → x < s'.next) ⟨ft_openObject _ _ _ md s, ?_⟩ (fun _ _ e => e.1.all hs) ?_
  · intro x e
    exact openObject_lt (s' := (openObject (some (s.handles w).obj) _ _ md s).2) (fun x e => by injection e with e; subst e; exact hw) (Prod.ext e rfl)
  · rintro r s1 ⟨t1, h1⟩
    apply wp_getBind
    have t2 := t1.trans (Track.new (s := s1) (H := mkHandle s1 r md bf (c || fd == 0) false (s.handles w).deleteOnClose fd) (h1 r rfl) (Nat.le_refl _))
    refine wp_bindOk (a := s1.hnext) rfl ?_
    refine wp_bindOk (a := ()) (s' := { (newHandle (mkHandle s1 r md bf (c || fd == 0) false (s.handles w).deleteOnClose fd) s1).2 with openFiles := s1.openFiles.modify fd fun e => e.map fun l => l ++ [s1.hnext] }) rfl ?_
    apply wp_pure
    refine Track.all (t2.trans (Track.of ?_ ?_ ?_)) hs
    · exact Epoch.heap rfl rfl
    · rfl
    · rfl

theorem track_osOpen {s : FS} (hi : Inv s) (p : Str) (f : OFlags) (mode : Nat) : Track s (osOpen p f mode s).2 := by
  refine (show wp (osOpen p f mode) (fun _ s' => Track s s') s from ?_)
  unfold osOpen
  dsimp only
  apply wp_ite
  · intro _; exact Track.refl s
  intro _
  apply wp_getBind
  rcases hf : s.openDirArg p with e | a
  · refine wp_seq (fun r s' => s' = s ∧ r = .error e) ⟨rfl, hf⟩ (fun _ _ e => by rw [e.1]; exact Track.refl _) ?_
    rintro a s' ⟨_, h⟩; cases h
  refine wp_bindOk (rd_eq (f := fun s => s.openDirArg p) hf) ?_
  cases a with
  | some r =>
    dsimp only
    have hr : r < s.next := by
      unfold FS.openDirArg at hf
      split at hf
      · cases hf
      · obtain ⟨b, _, h2⟩ := except_bind_ok hf
        split at h2
        · obtain ⟨x, h3, h4⟩ := except_bind_ok h2
          injection h4 with h4
          split at h4
          · injection h4 with h4; subst h4; exact resolve_lt hi h3
          · cases h4
        · cases h2
    apply wp_ite
    · intro _; exact Track.refl s
    · intro _
      exact Track.register (s := s) (H := { mkHandle s r f.modes none true true false 0 with kind := .dir, buf := [], pos := 0 }) hr (Nat.le_refl _) fun _ fd => fd
  | none =>
    dsimp only
    refine wp_seq (fun _ s' => Track s s') (track_openPath hi _ _ _ _ _) (fun _ _ e => e) ?_
    intro h s1 t1
    refine wp_bindOk (a := s1.handles h) (s' := s1) rfl ?_
    apply wp_ite
    · intro _
      exact t1.trans (ft_bind (ft_chmod p mode true) (fun _ => ft_pure _) s1)
    · intro _; exact t1

theorem ft_osClose (fd : Int) : Fr Track (osClose fd) := by
  unfold osClose
  exact ft_bind (ft_rd _) fun g => ft_hClose g

theorem ft_osRead (fd : Int) (n : Nat) : Fr Track (osRead fd n) := by
  have h2 := fun g => ft_read g (some n)
  unfold osRead
  repeat' first
    | with_reducible exact h2 _
    | ft

theorem ft_osWrite (fd : Int) (b : Bytes) : Fr Track (osWrite fd b) := by
  have h2 := fun g => ft_write g b
  have h3 := fun g => ft_flush g
  have h4 := fun g => ft_syncIo g
  unfold osWrite
  repeat' first
    | with_reducible exact h2 _
    | with_reducible exact h3 _
    | with_reducible exact h4 _
    | ft

theorem ft_ftruncate (fd : Int) (n : Nat) : Fr Track (ftruncate fd n) := by
  unfold ftruncate
  ft

theorem ft_onFile {α : Type} {h : Nat} {m : M α} (hm : Fr Track m) : Fr Track (onFile h m) := by
  unfold onFile
  refine ft_bind ft_get fun s => ?_
  apply ft_ite
  · intro _; exact ft_void hm
  · intro _; exact ft_throw _

theorem inStep_step {s : FS} (hi : Inv s) (hf : FdInv s) (hs : InStep s) (o : Op) : InStep (o.next s) := by
  have fr : ∀ {α : Type} {m : M α}, Fr Track m → (m s).2 = o.next s → InStep (o.next s) := by
    intro α m hm e; have q := hm s; rw [e] at q; exact q.all hs
  have vd : ∀ {α : Type} {m : M α}, (m s).2 = (m.void s).2 := by
    intro α m; unfold M.void; rw [M.bind_eq]; cases m s with | mk r t => cases r <;> rfl
  cases o with
  | mkdir p m => exact fr (ft_tree (fo_mkdir p m fun _ => trivial) (fr_mkdir p m)) rfl
  | makedirs p m e => exact fr (ft_tree (fo_makedirs p m e fun _ => trivial) (fr_makedirs p m e)) rfl
  | createDir p m => exact fr (ft_void (ft_tree (fo_createDir p m trivial) (fr_createDir p m))) rfl
  | createFile p m c z cm um => exact fr (ft_void (ft_tree (fo_createFile p m c z cm um (fun _ _ _ => trivial)) (fr_createFile p m c z cm um))) rfl
  | createSymlink p t cm => exact fr (ft_void (ft_tree (fo_createSymlink p t cm) (fr_createSymlink p t cm))) rfl
  | createLink o n f cm => exact fr (ft_void (ft_tree (fo_createLink o n f cm) (fr_createLink o n f cm))) rfl
  | remove p => exact fr (ft_tree (fo_remove p) (fr_remove p)) rfl
  | removeObject p => exact fr (ft_removeObject p) rfl
  | rmdir p => exact fr (ft_tree (fo_rmdir p _) (fr_rmdir p _)) rfl
  | removedirs p => exact fr (ft_tree (fo_removedirs p) (fr_removedirs p)) rfl
  | rename o n f => exact fr (ft_tree (fo_rename o n f) (fr_rename o n f)) rfl
  | chmod p m f => exact fr (ft_chmod p m f) rfl
  | utime p ns f => exact fr (ft_tree (fo_utime p ns f) (fr_utime p ns f)) rfl
  | chown p u g f => exact fr (ft_tree (fo_chown p u g f) (fr_chown p u g f)) rfl
  | truncate p n => exact fr (ft_tree (fo_truncate p n) (fr_truncate p n)) rfl
  | mknod p m => exact fr (ft_tree (fo_mknod p m (fun _ _ _ => trivial)) (fr_mknod p m)) rfl
  | setxattr p a v fl f => exact fr (ft_tree (fo_setxattr p a v fl f) (fr_setxattr p a v fl f)) rfl
  | removexattr p a f => exact fr (ft_tree (fo_removexattr p a f) (fr_removexattr p a f)) rfl
  | addMountPoint p t => exact fr (ft_void (ft_tree (fo_addMountPoint p t fun _ => trivial) (fr_addMountPoint p t))) rfl
  | setDiskUsage t p => exact fr (ft_tree (fo_setDiskUsage t p trivial) (fr_setDiskUsage t p)) rfl
  | umask m => exact (Track.of (s := s) (s' := (Op.umask m).next s) (Epoch.heap rfl rfl) rfl rfl).all hs
  | chdir p =>
    refine (fun x : Track s (chdir p s).2 => x.all hs) ?_
    refine (show wp (chdir p) (fun _ s' => Track s s') s from ?_)
    unfold chdir
    refine wp_seq (fun _ s' => s' = s) rfl (fun _ _ e => by subst e; exact Track.refl _) ?_
    intro q s1 e1
    subst e1
    refine wp_seq (fun _ s' => s' = s1) rfl (fun _ _ e => by subst e; exact Track.refl _) ?_
    intro _ s2 e2
    subst e2
    refine wp_seq (fun _ s' => s' = s2) rfl (fun _ _ e => by subst e; exact Track.refl _) ?_
    intro _ s3 e3
    subst e3
    exact Track.of (Epoch.heap rfl rfl) rfl rfl
  | openPath p md b r d => have := track_openPath hi p md b r d; rw [vd] at this; exact this.all hs
  | openFd fd md b c => have := track_openFd hf hs fd md b c; rw [vd] at this; exact this
  | osOpen p f m => have := track_osOpen hi p f m; rw [vd] at this; exact this.all hs
  | osClose fd => exact fr (ft_osClose fd) rfl
  | osRead fd n => exact fr (ft_void (ft_osRead fd n)) rfl
  | osWrite fd b => exact fr (ft_void (ft_osWrite fd b)) rfl
  | ftruncate fd n => exact fr (ft_ftruncate fd n) rfl
  | hRead g n => exact fr (ft_onFile (ft_read g n)) rfl
  | hWrite g b => exact fr (ft_onFile (ft_write g b)) rfl
  | hSeek g o w => exact fr (ft_onFile (ft_seek g o w)) rfl
  | hTell g => exact fr (ft_onFile (ft_tell g)) rfl
  | hTruncate g n => exact fr (ft_onFile (ft_hTruncate g n)) rfl
  | hFlush g => exact fr (ft_onFile (ft_flush g)) rfl
  | hClose g => exact fr (ft_onFile (ft_hClose g)) rfl
  | setUser u g => exact (Track.of (s := s) (s' := (Op.setUser u g).next s) (Epoch.heap rfl rfl) rfl rfl).all hs
  | setClock t => exact (Track.of (s := s) (s' := (Op.setClock t).next s) (Epoch.heap rfl rfl) rfl rfl).all hs

theorem inStep_init (k : Cfg) (limit uid gid um : Nat) (clock : Int) (total : Option Int) :
    InStep (initFS k limit uid gid um clock total) := by
  intro h hl
  have hl : h < 3 := hl
  have e : ((initFS k limit uid gid um clock total).handles h).obj = rootRef ∧ ((initFS k limit uid gid um clock total).handles h).fileEpoch = 0 := ⟨rfl, rfl⟩
  refine ⟨by rw [e.1]; exact (show rootRef < 2 by decide), by rw [e.2]; exact Nat.zero_le _⟩

theorem reachable_inStep {s : FS} (h : Reachable s) : InStep s := by
  obtain ⟨k, l, u, g, um, c, t, ops, rfl⟩ := h
  induction ops using List.reverseRecOn with
  | nil => exact inStep_init k l u g um c t
  | append_singleton ops o ih =>
    have hr : Reachable (runs ops (initFS k l u g um c t)) := ⟨k, l, u, g, um, c, t, ops, rfl⟩
    have : runs (ops ++ [o]) (initFS k l u g um c t) = o.next (runs ops (initFS k l u g um c t)) := by
      simp [runs]
    rw [this]
    exact inStep_step (reachable_inv hr) (reachable_fdInv hr) ih o

end Verif
