import Verif.Props.Times
/-!
# C49: chown
-/

namespace Verif
open Py

namespace Spec
/-- what `-1` and other ids ask for -/
def newId (old given : Int) : Int := if given = -1 then old else given
end Spec

theorem chown_attrOnly {s : FS} {r : Ref} {uid gid : Int} : AttrOnly s (s.setObj r fun o =>
    { o with uid := if uid = -1 then o.uid else uid, gid := if gid = -1 then o.gid else gid }) r := by
  refine ⟨rfl, fun x hx => upd_ne _ _ hx, ?_⟩
  simp only [FS.setObj, upd_same]

/-- C49: a successful `chown(p, uid, gid)` makes `stat(p)` report the ids that were given (those given as -1 as before) and otherwise what it
reported before; every other object is unchanged, every path resolves as before; a failing one changes nothing. -/
theorem chown_effect (p : Str) (uid gid : Int) (follow : Bool) (s : FS) :
    (∃ e, s.resolve p follow = .error e ∧ chown p uid gid follow s = (.error e, s)) ∨
    ∃ r s', chown p uid gid follow s = (.ok (), s') ∧ s.resolve p follow = .ok r ∧
      s' = { s with heap := s'.heap } ∧
      (∀ q f c, s'.resolve q f c = s.resolve q f c) ∧
      (∀ x, x ≠ r → s'.heap x = s.heap x) ∧
      s'.heap r = { s.heap r with uid := Spec.newId (s.heap r).uid uid, gid := Spec.newId (s.heap r).gid gid } ∧
      (∀ st, s.stat p follow = .ok st → s.resolve p follow false = .ok r →
        s'.stat p follow = .ok { st with uid := Spec.newId st.uid uid, gid := Spec.newId st.gid gid }) := by
  have key : wp (chown p uid gid follow) (fun o s' => (∃ e, s.resolve p follow = .error e ∧ o = .error e ∧ s' = s) ∨
      ∃ r, s.resolve p follow = .ok r ∧ o = .ok () ∧ s' = s.setObj r fun o =>
        { o with uid := if uid = -1 then o.uid else uid, gid := if gid = -1 then o.gid else gid }) s := by
    unfold chown
    apply wp_readBind
    · intro e he; exact Or.inl ⟨e, he, rfl, rfl⟩
    · intro r hr; apply wp_modify; exact Or.inr ⟨r, hr, rfl, rfl⟩
  rcases key with ⟨e, h1, h2, h3⟩ | ⟨r, h1, h2, h3⟩
  · exact Or.inl ⟨e, h1, Prod.ext h2 h3⟩
  · right
    have ha : AttrOnly s _ r := chown_attrOnly (s := s) (uid := uid) (gid := gid)
    refine ⟨r, _, Prod.ext h2 h3, h1, rfl, ha.resolve, ha.others, ?_, ?_⟩
    · simp [FS.setObj, Spec.newId]
    · intro st hst hr
      obtain ⟨x, h3, h4, h5⟩ := (ha.stat p follow).2 st hst
      rw [hr] at h3; injection h3 with h3; subst h3
      refine h5.trans ?_
      rw [h4]
      simp [FS.statOf, FS.stSize, FS.setObj, Spec.newId]

/-- `chown('/l', 12, -1)` where `/l → a/f` and `/g` is a hard link of `/a/f` -/
example : ((chown ['/', 'l'] 12 (-1) true demo).2.stat ['/', 'g']).map (fun st => (st.uid, st.gid)) = .ok (12, 0) ∧
    ((chown ['/', 'l'] 12 (-1) false demo).2.stat ['/', 'g']).map (fun st => (st.uid, st.gid)) = .ok (0, 0) := by
  decide +kernel

end Verif
