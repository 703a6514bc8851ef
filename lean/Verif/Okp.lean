import Verif.IoFlush
/-!
# Partial correctness: what holds if a call succeeds
-/

namespace Verif

/-- whenever `m` succeeds, its result and final state satisfy `Q` -/
structure Okp {α : Type} (m : M α) (Q : α → FS → Prop) (s : FS) : Prop where
  elim : ∀ a s', m s = (.ok a, s') → Q a s'

section
variable {α β : Type} {Q : α → FS → Prop} {s : FS}

theorem okp_pure {a : α} (h : Q a s) : Okp (M.pure a) Q s := by
  constructor; intro a' s' e; injection e with e1 e2; injection e1 with e1; subst e1 e2; exact h
theorem okp_pure' {a : α} (h : Q a s) : Okp (pure a : M α) Q s := okp_pure h
theorem okp_throw (e : Err) : Okp (M.throw e : M α) Q s := by
  constructor; intro a' s' e; injection e with e1 e2; exact absurd e1 (by simp)
theorem okp_raise (e : Errno) : Okp (M.raise e : M α) Q s := okp_throw _
theorem okp_bind {m : M α} {f : α → M β} {Q : β → FS → Prop} (h : Okp m (fun a s' => Okp (f a) Q s') s) : Okp (m >>= f) Q s := by
  constructor
  intro b s' e
  rw [M.bind_eq] at e
  rcases hr : m s with ⟨r, s1⟩
  rw [hr] at e
  cases r with
  | error x => injection e with e1 e2; exact absurd e1 (by simp)
  | ok a => exact (h.elim a s1 hr).elim b s' e
theorem okp_eqBind {m : M α} {f : α → M β} {Q : β → FS → Prop} {a : α} {s1 : FS} (hm : m s = (.ok a, s1)) (h : Okp (f a) Q s1) : Okp (m >>= f) Q s := by
  apply okp_bind
  constructor
  intro a' s' e
  rw [hm] at e; injection e with e1 e2; injection e1 with e1; subst e1 e2; exact h
theorem okp_mono {Q' : α → FS → Prop} {m : M α} (h : Okp m Q s) (hq : ∀ a s', Q a s' → Q' a s') : Okp m Q' s :=
  ⟨fun a s' e => hq a s' (h.elim a s' e)⟩
theorem okp_seq {m : M α} {f : α → M β} {Q : β → FS → Prop} (R : α → FS → Prop) (h : Okp m R s) (hf : ∀ a s', R a s' → Okp (f a) Q s') :
    Okp (m >>= f) Q s := okp_bind (okp_mono h hf)
theorem okp_ite {c : Prop} [Decidable c] {a b : M α} (ht : c → Okp a Q s) (hf : ¬ c → Okp b Q s) : Okp (if c then a else b) Q s := by
  split
  · exact ht ‹_›
  · exact hf ‹_›
theorem okp_get {f : FS → M β} {Q : β → FS → Prop} (h : Okp (f s) Q s) : Okp (M.get >>= f) Q s := okp_eqBind rfl h
theorem okp_hget {g : Nat} {f : Handle → M β} {Q : β → FS → Prop} (h : Okp (f (s.handles g)) Q s) : Okp (hget g >>= f) Q s := okp_eqBind rfl h
theorem okp_modify {g : FS → FS} {Q : Unit → FS → Prop} (h : Q () (g s)) : Okp (M.modify g) Q s := by
  constructor; intro a' s' e; injection e with e1 e2; subst e2; exact h
theorem okp_modifyBind {g : FS → FS} {f : Unit → M β} {Q : β → FS → Prop} (h : Okp (f ()) Q (g s)) : Okp (M.modify g >>= f) Q s := okp_eqBind rfl h
theorem okp_hmodBind {k : Nat} {g : Handle → Handle} {f : Unit → M β} {Q : β → FS → Prop} (h : Okp (f ()) Q (s.setH k g)) : Okp (hmod k g >>= f) Q s := okp_eqBind rfl h
theorem okp_wp {m : M α} (h : wp m (fun r s' => ∀ a, r = .ok a → Q a s') s) : Okp m Q s := by
  constructor
  intro a s' e
  unfold wp at h
  rw [e] at h
  exact h a rfl
/-- an exception handler that raises again -/
theorem okp_catch {m : M α} {k : Err → M α} (h : Okp m Q s) (hk : ∀ e s', Okp (k e) (fun _ _ => False) s') : Okp (catchOS m k) Q s := by
  constructor
  intro a s' e
  unfold catchOS M.tryCatch at e
  rcases hr : m s with ⟨r, s1⟩
  rw [hr] at e
  cases r with
  | ok b => injection e with e1 e2; injection e1 with e1; subst e1 e2; exact h.elim b s1 hr
  | error x =>
    dsimp only at e
    split at e
    · exact absurd ((hk x s1).elim a s' e) not_false
    · injection e with e1 e2; exact absurd e1 (by simp)
end

end Verif
