import Verif.Props.Attr
/-!
# Extended attributes form a map (C38)
-/

namespace Verif
open Py Spec Cfg

theorem alookup_ainsert {α : Type} (n k : Str) (v : α) (l : List (Str × α)) :
    alookup n (ainsert k v l) = if n = k then some v else alookup n l := by
  induction l with
  | nil => simp [ainsert, alookup, eq_comm]
  | cons e l ih =>
    obtain ⟨a, x⟩ := e
    unfold ainsert
    by_cases h : a = k
    · subst h
      simp only [if_true, alookup]
      by_cases h2 : a = n
      · subst h2; simp
      · simp [h2, Ne.symm h2]
    · simp only [h, if_false, alookup, ih]
      by_cases h2 : a = n
      · subst h2; simp [h]
      · simp [h2]

theorem alookup_aerase' {α : Type} (n k : Str) (l : List (Str × α)) :
    alookup n (aerase k l) = if n = k then none else alookup n l := by
  induction l with
  | nil => simp [aerase, alookup]
  | cons e l ih =>
    obtain ⟨a, x⟩ := e
    unfold aerase at *
    simp only [List.filter_cons]
    by_cases h : a = k
    · subst h
      simp only [ne_eq, not_true_eq_false, decide_false, Bool.false_eq_true, if_false, ih, alookup]
      by_cases h2 : n = a
      · simp [h2]
      · simp [h2, Ne.symm h2]
    · simp only [ne_eq, h, not_false_eq_true, decide_true, if_true, alookup, ih]
      by_cases h2 : a = n
      · subst h2; simp [h]
      · simp [h2]

/-- Extended attributes exist on Linux filesystems only. -/
def FS.linux (s : FS) : Prop := s.cfg.isWin = false ∧ s.cfg.isMac = false

namespace Spec
/-- The attributes of all objects: a map from names to values per object. -/
abbrev XMap := Ref → Str → Option Bytes

/-- One call: setting (with flags) or removing an attribute of the object a path resolves to. -/
inductive XOp
  | set (p attr : Str) (v : Bytes) (flags : Nat) (follow : Bool)
  | remove (p attr : Str) (follow : Bool)

/-- change one value -/
def XMap.put (m : XMap) (r : Ref) (a : Str) (v : Option Bytes) : XMap := fun x b => if x = r ∧ b = a then v else m x b

/-- What a call does to the map, given which object each path means: XATTR_CREATE (1) does nothing for an existing
name, XATTR_REPLACE (2) nothing for a missing one. -/
def xstep (look : Str → Bool → Option Ref) (m : XMap) : XOp → XMap
  | .set p a v flags f =>
    match look p f with
    | none => m
    | some r => if (flags = 1 ∧ (m r a).isSome) ∨ (flags = 2 ∧ (m r a).isNone) then m else m.put r a (some v)
  | .remove p a f =>
    match look p f with
    | none => m
    | some r => m.put r a none

/-- whether a call raises -/
def xfails (look : Str → Bool → Option Ref) (m : XMap) : XOp → Prop
  | .set p a _ flags f => match look p f with
    | none => True
    | some r => (flags = 1 ∧ (m r a).isSome) ∨ (flags = 2 ∧ (m r a).isNone)
  | .remove p _ f => look p f = none
end Spec

/-- the attributes held by the objects of a state -/
def FS.xmap (s : FS) : XMap := fun r a => alookup a (s.heap r).xattr

/-- the object a path means -/
def FS.look (s : FS) (p : Str) (f : Bool) : Option Ref := (s.resolve p f).toOption

/-- the model of a call -/
def xrun : XOp → M Unit
  | .set p a v flags f => setxattr p a v flags f
  | .remove p a f => removexattr p a f

theorem xattr_attrOnly {s : FS} {r : Ref} (g : List (Str × Bytes) → List (Str × Bytes)) :
    AttrOnly s (s.setObj r fun o => { o with xattr := g o.xattr }) r :=
  ⟨rfl, fun _ hx => upd_ne _ _ hx, by simp [FS.setObj]⟩

theorem xmap_set {s : FS} {r : Ref} {a : Str} {v : Option Bytes} (g : List (Str × Bytes) → List (Str × Bytes))
    (hg : ∀ n l, alookup n (g l) = if n = a then v else alookup n l) :
    (s.setObj r fun o => { o with xattr := g o.xattr }).xmap = s.xmap.put r a v := by
  funext x b
  unfold FS.xmap XMap.put
  simp only [FS.setObj]
  by_cases hx : x = r
  · subst hx; simp only [upd_same, hg, true_and]
  · rw [upd_ne _ _ hx]; simp [hx]

/-- C38, one call: it raises exactly when specified, a raising call changes nothing, a successful one makes the
specified change of the map, keeps what every path means and everything else. -/
theorem xattr_step (o : XOp) (s : FS) (hl : s.linux) :
    ((∃ e, (xrun o s).1 = .error e) ↔ xfails s.look s.xmap o) ∧
    (∀ e, (xrun o s).1 = .error e → (xrun o s).2 = s) ∧
    (xrun o s).2.xmap = xstep s.look s.xmap o ∧
    (∀ q f c, (xrun o s).2.resolve q f c = s.resolve q f c) ∧
    ∃ r, AttrOnly s (xrun o s).2 r := by
  have hg : (s.cfg.isWin || s.cfg.isMac) = false := by rw [hl.1, hl.2]; rfl
  have refl : ∃ r, AttrOnly s s r := ⟨0, rfl, fun _ _ => rfl, rfl⟩
  have look_err : ∀ {p f e}, s.resolve p f = .error e → s.look p f = none := by
    intro p f e h; unfold FS.look; rw [h]; rfl
  have look_ok : ∀ {p f r}, s.resolve p f = .ok r → s.look p f = some r := by
    intro p f e h; unfold FS.look; rw [h]; rfl
  suffices h : wp (xrun o) (fun res s' => ((∃ e, res = .error e) ↔ xfails s.look s.xmap o) ∧
      (∀ e, res = .error e → s' = s) ∧ s'.xmap = xstep s.look s.xmap o ∧
      (∀ q f c, s'.resolve q f c = s.resolve q f c) ∧ ∃ r, AttrOnly s s' r) s from h
  cases o with
  | set p a v flags f =>
    show wp (setxattr p a v flags f) _ s
    unfold setxattr
    apply wp_getBind
    apply wp_ite
    · intro h; rw [hg] at h; simp at h
    · intro _
      apply wp_readBind
      · intro e he
        exact ⟨by simp [xfails, look_err he], fun _ _ => rfl, by simp [xstep, look_err he], fun _ _ _ => rfl, refl⟩
      · intro r hr
        dsimp only
        have hx : s.xmap r a = alookup a (s.heap r).xattr := rfl
        apply wp_ite
        · rintro ⟨h1, h2⟩
          have hs : (s.xmap r a).isSome = true := by rw [hx]; exact h1
          apply wp_raiseBind
          exact ⟨by simp [xfails, look_ok hr, h2, hs], fun _ _ => rfl, by simp [xstep, look_ok hr, h2, hs], fun _ _ _ => rfl, refl⟩
        · intro h1
          apply wp_ite
          · rintro ⟨h2, h3⟩
            have hs : (s.xmap r a).isNone = true := by
              rw [hx]; cases hv : alookup a (s.heap r).xattr <;> simp [hv] at h2 ⊢
            apply wp_raiseBind
            exact ⟨by simp [xfails, look_ok hr, h3, hs], fun _ _ => rfl, by simp [xstep, look_ok hr, h3, hs], fun _ _ _ => rfl, refl⟩
          · intro h2
            apply wp_modify
            have hno : ¬ ((flags = 1 ∧ (s.xmap r a).isSome = true) ∨ (flags = 2 ∧ (s.xmap r a).isNone = true)) := by
              rw [hx]
              rintro (⟨e1, e2⟩ | ⟨e1, e2⟩)
              · exact h1 ⟨e2, e1⟩
              · apply h2
                refine ⟨?_, e1⟩
                cases hv : alookup a (s.heap r).xattr <;> simp [hv] at e2 ⊢
            have ha := xattr_attrOnly (s := s) (r := r) (ainsert a v)
            refine ⟨?_, fun e he => by simp at he, ?_, ha.resolve, r, ha⟩
            · constructor
              · rintro ⟨e, he⟩; simp at he
              · intro h; simp only [xfails, look_ok hr] at h; exact absurd h hno
            · rw [xmap_set (a := a) (v := some v) (ainsert a v) (fun n l => alookup_ainsert n a v l)]
              simp only [xstep, look_ok hr, if_neg hno]
  | remove p a f =>
    show wp (removexattr p a f) _ s
    unfold removexattr
    apply wp_getBind
    apply wp_ite
    · intro h; rw [hg] at h; simp at h
    · intro _
      apply wp_readBind
      · intro e he
        exact ⟨by simp [xfails, look_err he], fun _ _ => rfl, by simp [xstep, look_err he], fun _ _ _ => rfl, refl⟩
      · intro r hr
        apply wp_modify
        have ha := xattr_attrOnly (s := s) (r := r) (aerase a)
        refine ⟨?_, fun e he => by simp at he, ?_, ha.resolve, r, ha⟩
        · constructor
          · rintro ⟨e, he⟩; simp at he
          · intro h; simp [xfails, look_ok hr] at h
        · rw [xmap_set (a := a) (v := none) (aerase a) (fun n l => alookup_aerase' n a l)]
          simp only [xstep, look_ok hr]

/-- C38, any sequence of calls: the attributes are those of the map; what paths mean does not change. -/
theorem xattr_map (ops : List XOp) : ∀ (s : FS), s.linux →
    (ops.foldl (fun s o => (xrun o s).2) s).xmap = ops.foldl (xstep s.look) s.xmap ∧
    (∀ q f c, (ops.foldl (fun s o => (xrun o s).2) s).resolve q f c = s.resolve q f c) := by
  induction ops with
  | nil => intro s _; exact ⟨rfl, fun _ _ _ => rfl⟩
  | cons o ops ih =>
    intro s hl
    obtain ⟨_, _, h1, h2, r, h3⟩ := xattr_step o s hl
    have hl' : (xrun o s).2.linux := by
      unfold FS.linux; rw [h3.env]; exact hl
    have hlook : (xrun o s).2.look = s.look := by
      funext q f; unfold FS.look; rw [h2]
    obtain ⟨i1, i2⟩ := ih _ hl'
    refine ⟨?_, fun q f c => (i2 q f c).trans (h2 q f c)⟩
    rw [List.foldl_cons, List.foldl_cons, i1, hlook, h1]

/-- C38: `getxattr` reads the map, `listxattr` lists exactly the names it holds for the object. -/
theorem xattr_read (s : FS) (hl : s.linux) (p : Str) (f : Bool) :
    (∀ e, s.resolve p f = .error e → (∀ a, s.getxattr p a f = .error e) ∧ s.listxattr p f = .error e) ∧
    (∀ r, s.resolve p f = .ok r → (∀ a, s.getxattr p a f = .ok (s.xmap r a)) ∧
      ∃ l, s.listxattr p f = .ok l ∧ ∀ a, a ∈ l ↔ s.xmap r a ≠ none) := by
  have hg : (s.cfg.isWin || s.cfg.isMac) = false := by rw [hl.1, hl.2]; rfl
  unfold FS.getxattr FS.listxattr
  rw [if_neg (by simp [hg])]
  constructor
  · intro e he; rw [he]; exact ⟨fun a => by rw [if_neg (by simp [hg])]; rfl, rfl⟩
  · intro r hr
    rw [hr]
    refine ⟨fun a => by rw [if_neg (by simp [hg])]; rfl, _, rfl, fun a => ?_⟩
    unfold FS.xmap
    induction (s.heap r).xattr with
    | nil => simp [alookup]
    | cons e l ih =>
      obtain ⟨b, x⟩ := e
      simp only [List.map_cons, List.mem_cons, alookup, ih]
      by_cases h : b = a
      · simp [h]
      · simp [h, Ne.symm h]

example : demo.linux := by unfold FS.linux; rw [show demo.cfg = demoCfg from runs_cfg]; exact ⟨rfl, rfl⟩
example : demo.look ['/', 'g'] true = some 3 ∧
    (xrun (.set ['/', 'l'] ['k'] [1] 1 true) demo).2.getxattr ['/', 'g'] ['k'] = .ok (some [1]) := by decide +kernel

/-- The error numbers are not those of Linux: creating an existing attribute raises ENODATA (Linux: EEXIST)
(fake_filesystem.py 3960-3965). -/
theorem setxattr_errno {s : FS} (hl : s.linux) {p a : Str} {v : Bytes} {f : Bool} {r : Ref} (hr : s.resolve p f = .ok r)
    (hx : s.xmap r a ≠ none) : setxattr p a v 1 f s = (.error (.os .ENODATA), s) := by
  have hg : (s.cfg.isWin || s.cfg.isMac) = false := by rw [hl.1, hl.2]; rfl
  suffices h : wp (setxattr p a v 1 f) (fun o s' => o = .error (.os .ENODATA) ∧ s' = s) s from Prod.ext h.1 h.2
  unfold setxattr
  apply wp_getBind
  apply wp_ite
  · intro h; rw [hg] at h; simp at h
  · intro _
    apply wp_readBind
    · intro e he; rw [hr] at he; simp at he
    · intro r' hr'
      rw [hr] at hr'; injection hr' with hr'; subst hr'
      dsimp only
      apply wp_ite
      · intro _; exact ⟨rfl, rfl⟩
      · intro h
        exact absurd ⟨by simpa [FS.xmap, Option.isSome_iff_ne_none] using hx, rfl⟩ h

end Verif
