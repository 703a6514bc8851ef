import Verif.Props.Data
import Verif.Props.Create
import Verif.Props.Remove
import Verif.Props.Hardlink
import Verif.FileIO
/-!
# C35: out of space; C22: failed calls
-/

namespace Verif
open Py Spec Cfg

/-- Only file objects (their streams and positions) differ: tree, contents, sizes, used space, descriptors are the same. -/
def Spec.OnlyHandles (s s' : FS) : Prop := s' = { s with handles := s'.handles }

theorem onlyHandles_refl (s : FS) : OnlyHandles s s := rfl

theorem Spec.OnlyHandles.trans {a b c : FS} (h : OnlyHandles a b) (h' : OnlyHandles b c) : OnlyHandles a c := by
  unfold OnlyHandles at *
  rw [h'.trans (congrArg (fun x : FS => { x with handles := c.handles }) h)]

/-- `m` never touches anything but file objects. -/
structure HOnly {α : Type} (m : M α) : Prop where
  run : ∀ s, OnlyHandles s (m s).2

/-- When `m` runs out of space, only file objects have changed. -/
structure Atm {α : Type} (m : M α) : Prop where
  run : ∀ s, (m s).1 = .error (.os .ENOSPC) → OnlyHandles s (m s).2

/-- `m` does not run out of space. -/
structure NoSpc {α : Type} (m : M α) : Prop where
  run : ∀ s, (m s).1 ≠ .error (.os .ENOSPC)

theorem HOnly.atm {α : Type} {m : M α} (h : HOnly m) : Atm m := ⟨fun s _ => h.run s⟩
theorem NoSpc.atm {α : Type} {m : M α} (h : NoSpc m) : Atm m := ⟨fun s e => absurd e (h.run s)⟩

theorem ho_pure {α : Type} (a : α) : HOnly (M.pure a) := ⟨fun _ => rfl⟩
theorem ho_pure' {α : Type} (a : α) : HOnly (pure a : M α) := ⟨fun _ => rfl⟩
theorem ho_throw {α : Type} (e : Err) : HOnly (M.throw e : M α) := ⟨fun _ => rfl⟩
theorem ho_raise {α : Type} (e : Errno) : HOnly (M.raise e : M α) := ⟨fun _ => rfl⟩
theorem ho_get : HOnly M.get := ⟨fun _ => rfl⟩
theorem ho_hget (h : Nat) : HOnly (hget h) := ⟨fun _ => rfl⟩
theorem ho_hmod (h : Nat) (f : Handle → Handle) : HOnly (hmod h f) := ⟨fun _ => rfl⟩
theorem ho_checkOpen (h : Nat) : HOnly (checkOpen h) := ⟨fun s => by unfold checkOpen; split <;> rfl⟩
theorem ho_setH (h : Nat) (f : FS → Handle → Handle) : HOnly (M.modify fun s => s.setH h (f s)) := ⟨fun _ => rfl⟩

theorem ho_bind {α β : Type} {m : M α} {k : α → M β} (h : HOnly m) (hk : ∀ a, HOnly (k a)) : HOnly (m >>= k) := by
  refine ⟨fun s => ?_⟩
  have h1 := h.run s
  rw [M.bind_eq]
  rcases hm : m s with ⟨r, s1⟩
  rw [hm] at h1
  cases r with
  | ok a => exact h1.trans ((hk a).run s1)
  | error e => exact h1

theorem atm_bind {α β : Type} {m : M α} {k : α → M β} (h : HOnly m) (hk : ∀ a, Atm (k a)) : Atm (m >>= k) := by
  refine ⟨fun s => ?_⟩
  have h1 := h.run s
  rw [M.bind_eq]
  rcases hm : m s with ⟨r, s1⟩
  rw [hm] at h1
  cases r with
  | ok a => exact fun e => h1.trans ((hk a).run s1 e)
  | error e => exact fun _ => h1

theorem atm_then {α β : Type} {m : M α} {k : α → M β} (h : Atm m) (hk : ∀ a, NoSpc (k a)) : Atm (m >>= k) := by
  refine ⟨fun s => ?_⟩
  have h1 := h.run s
  rw [M.bind_eq]
  rcases hm : m s with ⟨r, s1⟩
  rw [hm] at h1
  cases r with
  | ok a => exact fun e => absurd e ((hk a).run s1)
  | error e => exact fun he => h1 (by simpa using he)

theorem ns_pure {α : Type} (a : α) : NoSpc (M.pure a) := ⟨fun _ h => by injection h⟩
theorem ns_pure' {α : Type} (a : α) : NoSpc (pure a : M α) := ⟨fun _ h => by injection h⟩
theorem ns_throw {α : Type} (e : Err) (he : e ≠ .os .ENOSPC) : NoSpc (M.throw e : M α) := ⟨fun _ h => by injection h with h; exact he h⟩
theorem ns_modify (f : FS → FS) : NoSpc (M.modify f) := ⟨fun _ h => by injection h⟩
theorem ns_get : NoSpc M.get := ⟨fun _ h => by injection h⟩
theorem ns_hget (h : Nat) : NoSpc (hget h) := ⟨fun _ h => by injection h⟩
theorem ns_hmod (h : Nat) (f : Handle → Handle) : NoSpc (hmod h f) := ns_modify _

theorem ns_bind {α β : Type} {m : M α} {k : α → M β} (h : NoSpc m) (hk : ∀ a, NoSpc (k a)) : NoSpc (m >>= k) := by
  refine ⟨fun s => ?_⟩
  have h1 := h.run s
  rw [M.bind_eq]
  rcases hm : m s with ⟨r, s1⟩
  rw [hm] at h1
  cases r with
  | ok a => exact (hk a).run s1
  | error e => exact fun he => h1 (by simpa using he)

theorem ho_setStream (h : Nat) (b : Option Bytes) : HOnly (setStream h b) := by
  cases b with
  | none => exact ho_bind (ho_hmod _ _) fun _ => ho_throw _
  | some b => exact ho_hmod _ _

theorem ns_setStream (h : Nat) (b : Option Bytes) : NoSpc (setStream h b) := by
  cases b with
  | none => exact ns_bind (ns_hmod _ _) fun _ => ns_throw _ (by simp)
  | some b => exact ns_hmod _ _

theorem ho_syncIo (h : Nat) : HOnly (syncIo h) := by
  unfold syncIo
  refine ho_bind ho_get fun s => ?_
  dsimp only
  split
  · exact ho_pure _
  · exact ho_bind (ho_setStream _ _) fun _ => ho_setH _ _

theorem ns_syncIo (h : Nat) : NoSpc (syncIo h) := by
  unfold syncIo
  refine ns_bind ns_get fun s => ?_
  dsimp only
  split
  · exact ns_pure _
  · exact ns_bind (ns_setStream _ _) fun _ => ns_modify _

theorem ns_syncAll (h : Nat) (r : Ref) : ∀ l, NoSpc (syncAll h r l) := by
  intro l
  induction l with
  | nil => exact ns_pure _
  | cons g gs ih =>
    unfold syncAll
    refine ns_bind (ns_hget _) fun G => ?_
    split
    · exact ns_bind (ns_syncIo _) fun _ => ih
    · exact ih

theorem ho_flushContents (h : Nat) : HOnly (flushContents h) := by
  unfold flushContents
  refine ho_bind (ho_hget _) fun H => ?_
  split
  · refine ho_bind (ho_syncIo _) fun _ => ho_bind ho_get fun s => ?_
    split
    · exact ho_throw _
    · exact ho_bind (ho_setStream _ _) fun _ => ho_pure _
  · exact ho_pure _

theorem atm_setContents (r : Ref) (b : Bytes) : Atm (setContents r b) := by
  refine ⟨fun s h => ?_⟩
  have : (setContents r b s).2 = s := setContents_atomic (e := .os .ENOSPC) (Prod.ext h rfl)
  rw [this]; rfl

theorem atm_flushStore (h : Nat) (c : Bytes) : Atm (flushStore h c) := by
  unfold flushStore
  refine atm_bind (ho_hmod _ _) fun _ => atm_bind (ho_hget _) fun H => atm_then (atm_setContents _ _) fun ch =>
    ns_bind ns_get fun s => ?_
  have tail : NoSpc (do
      M.modify fun s => s.setH h fun H => { H with fileEpoch := (s.heap H.obj).epoch }
      flushRelated h) := ns_bind (ns_modify _) fun _ => ns_bind ns_get fun s => ns_syncAll _ _ _
  split
  · split
    · exact ns_bind (ns_hmod _ _) fun _ => tail
    · exact ns_bind (ns_modify _) fun _ => tail
  · exact tail

theorem atm_flush (h : Nat) : Atm (flush h) := by
  unfold flush
  refine atm_bind (ho_checkOpen _) fun _ => atm_bind (ho_hget _) fun H => ?_
  split
  · exact atm_bind (ho_flushContents _) fun c => atm_flushStore _ _
  · exact (ho_pure _).atm

theorem atm_tryFlush (h oldPos : Nat) : Atm (tryFlush h oldPos) := by
  unfold tryFlush
  refine atm_bind (ho_hget _) fun H => ⟨fun s => ?_⟩
  have h1 := (atm_flush h).run s
  unfold catchOS M.tryCatch
  rcases hm : flush h s with ⟨r, s1⟩
  rw [hm] at h1
  cases r with
  | ok a => intro e; simp at e
  | error e =>
    dsimp only
    split
    · intro he
      have he' : e = .os .ENOSPC := by injection he
      subst he'
      exact (h1 rfl).trans rfl
    · intro he
      have he' : e = .os .ENOSPC := by injection he
      subst he'
      exact h1 rfl

/-- C35: a `flush` for which there is not enough space changes neither the tree nor contents, sizes, times and used
space of any file; only the stream of the file object differs. -/
theorem flush_atomic {s s' : FS} {h : Nat} (he : flush h s = (.error (.os .ENOSPC), s')) : OnlyHandles s s' := by
  have := (atm_flush h).run s (by rw [he])
  rwa [he] at this

/-- C35: so does a `write` which runs out of space. -/
theorem write_atomic {s s' : FS} {h : Nat} {b : Bytes} (he : write h b s = (.error (.os .ENOSPC), s')) : OnlyHandles s s' := by
  have key : Atm (write h b) := by
    unfold write
    refine atm_bind ho_get fun s => ?_
    dsimp only
    have tail : Atm (do
        checkOpen h
        if (s.handles h).update = false then
          if (s.handles h).rawIo = true ∧ s.cfg.isWin = true ∧ b = [] then M.pure 0 else hRaise h
        else writeWrapper h b) := by
      refine atm_bind (ho_checkOpen _) fun _ => ?_
      split
      · split
        · exact (ho_pure _).atm
        · unfold hRaise
          refine (ho_bind (ho_hget _) fun H => ?_).atm
          split
          · exact ho_raise _
          · exact ho_throw _
      · unfold writeWrapper
        refine atm_bind (ho_hget _) fun H => ?_
        dsimp only
        refine atm_bind (ho_hmod _ _) fun _ => ?_
        have fin : HOnly (do
            if H.append = true then hmod h fun H => { H with readSeek := H.pos, readWhence := 0 }
            M.pure b.length) ∧ NoSpc (do
            if H.append = true then hmod h fun H => { H with readSeek := H.pos, readWhence := 0 }
            M.pure b.length) := by
          constructor
          · split
            · exact ho_bind (ho_hmod _ _) fun _ => ho_pure _
            · exact ho_pure _
          · split
            · exact ns_bind (ns_hmod _ _) fun _ => ns_pure _
            · exact ns_pure _
        split
        · split
          · refine atm_bind (ho_hmod _ _) fun _ => atm_then (atm_tryFlush _ _) fun _ => ?_
            exact ns_bind (ns_hmod _ _) fun _ => fin.2
          · refine atm_then (atm_tryFlush _ _) fun _ => ?_
            exact fin.2
        · exact fin.1.atm
    split
    · exact atm_bind (ho_throw _) fun _ => tail
    · exact tail
  have := key.run s (by rw [he])
  rwa [he] at this

end Verif
