import Verif.State
/-!
# Reasoning about operations: weakest preconditions

`wp m Q s`: running `m` in `s` gives an outcome and a state satisfying `Q`.
-/

namespace Verif

def wp {α : Type} (m : M α) (Q : Except Err α → FS → Prop) (s : FS) : Prop := Q (m s).1 (m s).2

theorem wp_mono {α : Type} {m : M α} {Q Q' : Except Err α → FS → Prop} {s : FS}
    (h : wp m Q s) (hq : ∀ r s', Q r s' → Q' r s') : wp m Q' s := hq _ _ h

theorem wp_pure {α : Type} {a : α} {Q : Except Err α → FS → Prop} {s : FS} (h : Q (.ok a) s) :
    wp (M.pure a) Q s := h

theorem wp_pure' {α : Type} {a : α} {Q : Except Err α → FS → Prop} {s : FS} (h : Q (.ok a) s) :
    wp (pure a : M α) Q s := h

theorem wp_throw {α : Type} {e : Err} {Q : Except Err α → FS → Prop} {s : FS} (h : Q (.error e) s) :
    wp (M.throw e : M α) Q s := h

theorem wp_raise {α : Type} {e : Errno} {Q : Except Err α → FS → Prop} {s : FS} (h : Q (.error (.os e)) s) :
    wp (M.raise e : M α) Q s := h

theorem wp_bind {α β : Type} {m : M α} {f : α → M β} {Q : Except Err β → FS → Prop} {s : FS}
    (h : wp m (fun r s' => match r with | .ok a => wp (f a) Q s' | .error e => Q (.error e) s') s) :
    wp (m >>= f) Q s := by
  show Q ((M.bind m f) s).1 ((M.bind m f) s).2
  unfold wp at h
  unfold M.bind
  revert h
  rcases m s with ⟨r, s'⟩
  cases r <;> exact id

/-- Bind with an explicit intermediate assertion. -/
theorem wp_seq {α β : Type} {m : M α} {f : α → M β} {Q : Except Err β → FS → Prop} {s : FS}
    (R : Except Err α → FS → Prop) (h : wp m R s) (he : ∀ e s', R (.error e) s' → Q (.error e) s')
    (hf : ∀ a s', R (.ok a) s' → wp (f a) Q s') : wp (m >>= f) Q s := by
  apply wp_bind
  apply wp_mono h
  intro r s' hr
  cases r with
  | error e => exact he e s' hr
  | ok a => exact hf a s' hr

/-- `wp_seq` for the explicit bind. -/
theorem wp_seqB {α β : Type} {m : M α} {f : α → M β} {Q : Except Err β → FS → Prop} {s : FS}
    (R : Except Err α → FS → Prop) (h : wp m R s) (he : ∀ e s', R (.error e) s' → Q (.error e) s')
    (hf : ∀ a s', R (.ok a) s' → wp (f a) Q s') : wp (M.bind m f) Q s := wp_seq R h he hf

theorem wp_get {Q : Except Err FS → FS → Prop} {s : FS} (h : Q (.ok s) s) : wp M.get Q s := h

theorem wp_getBind {β : Type} {f : FS → M β} {Q : Except Err β → FS → Prop} {s : FS}
    (h : wp (f s) Q s) : wp (M.get >>= f) Q s := wp_bind h

theorem wp_modify {f : FS → FS} {Q : Except Err Unit → FS → Prop} {s : FS} (h : Q (.ok ()) (f s)) :
    wp (M.modify f) Q s := h

theorem wp_modifyBind {β : Type} {g : FS → FS} {f : Unit → M β} {Q : Except Err β → FS → Prop} {s : FS}
    (h : wp (f ()) Q (g s)) : wp (M.modify g >>= f) Q s := wp_bind h

theorem wp_read {α : Type} {f : FS → Except Err α} {Q : Except Err α → FS → Prop} {s : FS}
    (h : Q (f s) s) : wp (M.ofRead f) Q s := h

theorem wp_readBind {α β : Type} {g : FS → Except Err α} {f : α → M β} {Q : Except Err β → FS → Prop}
    {s : FS} (he : ∀ e, g s = .error e → Q (.error e) s) (hf : ∀ a, g s = .ok a → wp (f a) Q s) :
    wp (M.ofRead g >>= f) Q s := by
  apply wp_bind
  show (match g s with | .ok a => wp (f a) Q s | .error e => Q (.error e) s)
  cases h : g s with
  | ok a => exact hf a h
  | error e => exact he e h

theorem wp_ite {α : Type} {c : Prop} [Decidable c] {a b : M α} {Q : Except Err α → FS → Prop} {s : FS}
    (ht : c → wp a Q s) (hf : ¬ c → wp b Q s) : wp (if c then a else b) Q s := by
  split
  · exact ht ‹_›
  · exact hf ‹_›

theorem wp_tryCatch {α : Type} {m : M α} {h : Err → M α} {Q : Except Err α → FS → Prop} {s : FS}
    (H : wp m (fun r s' => match r with | .ok a => Q (.ok a) s' | .error e => wp (h e) Q s') s) :
    wp (M.tryCatch m h) Q s := by
  unfold wp at *
  unfold M.tryCatch
  revert H
  rcases m s with ⟨r, s'⟩
  cases r <;> exact id

end Verif
