import Verif.Plain
import Verif.Agree
import Verif.Props.Tree
/-!
# Effects on the tree: one name appears, one name disappears
-/

namespace Verif
open Py Spec Cfg

/-! ## Changing one entry of one directory -/

section
variable {hp hp' : Ref → Obj} {d : Ref} {ld : List Str} {nm : Str} {o : Option Ref}

theorem walk_off (hother : ∀ x, x ≠ d → ∀ n, alookup n (hp' x).entries = alookup n (hp x).entries) {c : Ref}
    (hsub : ∀ l, walk hp c l ≠ some d) : ∀ l, walk hp' c l = walk hp c l := by
  intro l
  induction l using List.reverseRecOn with
  | nil => rfl
  | append_singleton l w ih =>
    rw [walk_append, walk_append, ih]
    cases hx : walk hp c l with
    | none => rfl
    | some x =>
      simp only [Option.bind_some, walk]
      rw [hother x (fun e => hsub l (by rw [hx, e]))]

/-- Changing the entry `nm` of the directory `d` at location `ld` changes exactly the locations below `ld/nm`. -/
theorem walk_update (hd : walk hp rootRef ld = some d) (uniq : ∀ l, walk hp rootRef l = some d → l = ld)
    (hother : ∀ x, x ≠ d → ∀ n, alookup n (hp' x).entries = alookup n (hp x).entries)
    (hsame : ∀ n, n ≠ nm → alookup n (hp' d).entries = alookup n (hp d).entries)
    (hnew : alookup nm (hp' d).entries = o) (hsub : ∀ c, o = some c → ∀ l, walk hp c l ≠ some d) :
    ∀ l, ((∀ rest, l ≠ ld ++ nm :: rest) → walk hp' rootRef l = walk hp rootRef l) ∧
      ∀ rest, l = ld ++ nm :: rest → walk hp' rootRef l = o.bind fun c => walk hp c rest := by
  intro l
  induction l using List.reverseRecOn with
  | nil => exact ⟨fun _ => rfl, fun rest h => by simp at h⟩
  | append_singleton l w ih =>
    have step : ∀ {x : Ref}, walk hp' rootRef l = some x → walk hp' rootRef (l ++ [w]) = alookup w (hp' x).entries := by
      intro x hx; rw [walk_append, hx]; simp [walk]
    have step0 : ∀ {x : Ref}, walk hp rootRef l = some x → walk hp rootRef (l ++ [w]) = alookup w (hp x).entries := by
      intro x hx; rw [walk_append, hx]; simp [walk]
    constructor
    · intro hno
      have hl : ∀ rest, l ≠ ld ++ nm :: rest := by
        rintro rest rfl
        exact hno (rest ++ [w]) (by simp)
      have h1 := ih.1 hl
      cases hx : walk hp rootRef l with
      | none => rw [walk_append, walk_append, h1, hx]; rfl
      | some x =>
        rw [step (h1.trans hx), step0 hx]
        by_cases e : x = d
        · subst e
          have := uniq l hx
          subst this
          apply hsame
          rintro rfl
          exact hno [] rfl
        · exact hother x e w
    · intro rest hr
      rcases List.eq_nil_or_concat rest with rfl | ⟨rest, v, rfl⟩
      · have : l = ld ∧ w = nm := by
          have := List.append_inj' hr rfl
          exact ⟨this.1, by simpa using this.2⟩
        obtain ⟨rfl, rfl⟩ := this
        have h1 := ih.1 (fun rest h => by
          have := congrArg List.length h
          simp at this)
        rw [step (h1.trans hd), hnew]
        cases o <;> simp [walk]
      · rw [List.concat_eq_append] at hr ⊢
        have : l = ld ++ nm :: rest ∧ w = v := by
          rw [← List.cons_append, ← List.append_assoc] at hr
          have := List.append_inj' hr rfl
          exact ⟨this.1, by simpa using this.2⟩
        obtain ⟨rfl, rfl⟩ := this
        have h1 := ih.2 rest rfl
        rw [walk_append, h1]
        cases o with
        | none => rfl
        | some c =>
          simp only [Option.bind_some]
          rw [walk_append]
          cases hx : walk hp c rest with
          | none => rfl
          | some x =>
            simp only [Option.bind_some, walk]
            rw [hother x (fun e => hsub c rfl rest (by rw [hx, e]))]

end

/-! ## Relations between the states before and after a call -/

/-- Nothing changed but the object graph, the counters and the disk usage. -/
def Env (s s' : FS) : Prop :=
  s' = { s with heap := s'.heap, next := s'.next, lastIno := s'.lastIno, mounts := s'.mounts }

theorem Env.refl (s : FS) : Env s s := rfl
theorem Env.trans {a b c : FS} (h : Env a b) (k : Env b c) : Env a c := by
  unfold Env at *; rw [k, h]

/-- No object, no disk usage and nothing else changed (numbers not yet given out may be skipped). -/
structure Same (s s' : FS) : Prop where
  env : Env s s'
  next : s.next ≤ s'.next
  obj : ∀ x < s.next, s'.heap x = s.heap x
  mounts : s'.mounts = s.mounts

theorem Same.refl (s : FS) : Same s s := ⟨rfl, Nat.le_refl _, fun _ _ => rfl, rfl⟩
theorem Same.trans {a b c : FS} (h : Same a b) (k : Same b c) : Same a c :=
  ⟨h.env.trans k.env, Nat.le_trans h.next k.next, fun x hx => (k.obj x (Nat.lt_of_lt_of_le hx h.next)).trans (h.obj x hx),
    k.mounts.trans h.mounts⟩

theorem Same.agree {s s' : FS} (hi : Inv s) (h : Same s s') : Agree (· < s.next) s s' := by
  have e := h.env
  refine ⟨by rw [e], by rw [e], by rw [e], by rw [e], ?_, ?_, ?_, ?_, ?_⟩
  · unfold FS.devName; rw [h.obj _ (devNull_lt hi)]
  all_goals intro x hx
  · rw [h.obj x hx]
  · rw [h.obj x hx]
  · rw [h.obj x hx]
  · intro _; unfold FS.linkTarget; rw [h.obj x hx, e]

theorem walk_congr {hp hp' : Ref → Obj} {nx : Nat} (hlt : ∀ x < nx, ∀ e ∈ (hp x).entries, e.2 < nx)
    (h : ∀ x < nx, (hp' x).entries = (hp x).entries) : ∀ (l : List Str) (r : Ref), r < nx → walk hp' r l = walk hp r l := by
  intro l
  induction l with
  | nil => intro r _; rfl
  | cons c l ih =>
    intro r hr
    simp only [walk, h r hr]
    cases ha : alookup c (hp r).entries with
    | none => rfl
    | some x => exact ih x (hlt r hr _ (alookup_some ha))

theorem Same.walk {s s' : FS} (hi : Inv s) (h : Same s s') (l : List Str) : walk s'.heap rootRef l = walk s.heap rootRef l :=
  walk_congr hi.g.entLt (fun x hx => by rw [h.obj x hx]) l _ (root_lt hi)

/-- An entry `nm` referring to `c` was added to the directory `d`. -/
structure Added (s s' : FS) (d : Ref) (nm : Str) (c : Ref) : Prop where
  env : Env s s'
  next : s.next ≤ s'.next
  dLt : d < s.next
  dir : (s.heap d).isDir = true
  ne : d ≠ c
  perm : s.isRoot = true ∨ (s.heap d).mode &&& PERM_WRITE ≠ 0 ∨ s.cfg.isWin = true
  free : alookup nm (s.heap d).entries = none
  parent : s'.heap d = { s.heap d with
    content := .dir ((s.heap d).entries ++ [(nm, c)]), nlink := (s.heap d).nlink + 1 }
  others : ∀ x < s.next, x ≠ d → x ≠ c → s'.heap x = s.heap x

theorem alookup_snoc {α : Type} (n k : Str) (v : α) (l : List (Str × α)) :
    alookup n (l ++ [(k, v)]) = match alookup n l with | some x => some x | none => if k = n then some v else none := by
  induction l with
  | nil => simp [alookup]
  | cons e l ih =>
    obtain ⟨a, x⟩ := e
    simp only [List.cons_append, alookup]
    split
    · rfl
    · exact ih

namespace Spec
/-- `loc` is a new name for the object `r`; every other location leads where it led before. -/
structure NewName (s s' : FS) (loc : List Str) (r : Ref) : Prop where
  absent : walk s.heap rootRef loc = none
  here : walk s'.heap rootRef loc = some r
  elsewhere : ∀ l, l ≠ loc → walk s'.heap rootRef l = walk s.heap rootRef l

/-- The name `loc` is gone; every location not below it leads where it led before. -/
structure NameGone (s s' : FS) (loc : List Str) : Prop where
  was : (walk s.heap rootRef loc).isSome
  gone : ∀ rest, walk s'.heap rootRef (loc ++ rest) = none
  elsewhere : ∀ l, ¬ loc <+: l → walk s'.heap rootRef l = walk s.heap rootRef l
end Spec

theorem Added.entries {s s' : FS} {d c : Ref} {nm : Str} (h : Added s s' d nm c) :
    (s'.heap d).entries = (s.heap d).entries ++ [(nm, c)] := by rw [h.parent]; rfl

/-- Adding an object without entries below it makes exactly one new name. -/
theorem Added.newName {s s' : FS} (hi : Inv s) {d c : Ref} {nm : Str} (h : Added s s' d nm c) {ld : List Str}
    (hld : walk s.heap rootRef ld = some d) (hc : (s'.heap c).entries = []) (hc0 : c < s.next → (s.heap c).entries = []) :
    NewName s s' (ld ++ [nm]) c := by
  -- the state before, with the entries of later objects cleared
  let hp : Ref → Obj := fun x => if x < s.next then s.heap x else { s.heap x with content := .file none }
  have hwalk : ∀ l, walk hp rootRef l = walk s.heap rootRef l := fun l =>
    walk_congr hi.g.entLt (fun x hx => by simp [hp, hx]) l _ (root_lt hi)
  let hp' : Ref → Obj := fun x => if x < s.next ∨ x = c then s'.heap x else { s.heap x with content := .file none }
  have hent' : ∀ x < s.next, ∀ e ∈ (s'.heap x).entries, e.2 < s.next ∨ e.2 = c := by
    intro x hx e he
    by_cases e1 : x = d
    · subst e1
      rw [h.parent] at he
      simp only [Obj.entries, List.mem_append, List.mem_singleton] at he
      rcases he with he | he
      · exact Or.inl (hi.g.entLt x hx e he)
      · right; rw [he]
    · by_cases e2 : x = c
      · subst e2; rw [hc] at he; simp at he
      · rw [h.others x hx e1 e2] at he
        exact Or.inl (hi.g.entLt x hx e he)
  have hwalk' : ∀ l, walk hp' rootRef l = walk s'.heap rootRef l := by
    have : ∀ l r, r < s.next ∨ r = c → walk hp' r l = walk s'.heap r l := by
      intro l
      induction l with
      | nil => intro r _; rfl
      | cons w l ih =>
        intro r hr
        have e : hp' r = s'.heap r := by simp only [hp']; rw [if_pos hr]
        simp only [walk, e]
        cases ha : alookup w (s'.heap r).entries with
        | none => rfl
        | some x =>
          apply ih
          rcases hr with hr | rfl
          · exact hent' r hr _ (alookup_some ha)
          · rw [hc] at ha; simp [alookup] at ha
    exact fun l => this l _ (Or.inl (root_lt hi))
  have hc0' : (hp c).entries = [] := by
    simp only [hp]
    split
    · rename_i hlt; exact hc0 hlt
    · rfl
  have key := walk_update (hp := hp) (hp' := hp') (d := d) (ld := ld) (nm := nm) (o := some c)
    (by rw [hwalk]; exact hld) (fun l hl => by
      rw [hwalk] at hl; exact walk_dir_unique hi l ld hl hld h.dir)
    (by
      intro x hx n
      simp only [hp, hp']
      by_cases hlt : x < s.next
      · by_cases e : x = c
        · subst e; simp [hlt, hc, hc0 hlt]
        · simp only [hlt, true_or, if_true]; rw [h.others x hlt hx e]
      · by_cases e : x = c
        · subst e
          have e0 : (hp x).entries = [] := hc0'
          simp only [hlt, or_true, if_true, hc, if_false]
          rfl
        · simp [hlt, e])
    (by
      intro n hn
      have e1 : hp d = s.heap d := by simp [hp, h.dLt]
      have e2 : hp' d = s'.heap d := by simp [hp', h.dLt]
      rw [e1, e2, h.entries, alookup_snoc, if_neg (Ne.symm hn)]
      cases alookup n (s.heap d).entries <;> rfl)
    (by
      have e2 : hp' d = s'.heap d := by simp [hp', h.dLt]
      rw [e2, h.entries, alookup_snoc, if_pos rfl, h.free])
    (by
      intro c' hc' l
      injection hc' with e; subst e
      cases l with
      | nil => simp only [walk, ne_eq, Option.some.injEq]; exact fun e => h.ne e.symm
      | cons w l => simp [walk, hc0', alookup])
  refine ⟨?_, ?_, ?_⟩
  · rw [walk_append, hld]; simp [walk, h.free]
  · rw [← hwalk', (key _).2 [] rfl]; rfl
  · intro l hl
    rw [← hwalk', ← hwalk l]
    by_cases hx : ∃ rest, l = ld ++ nm :: rest
    · obtain ⟨rest, rfl⟩ := hx
      rw [(key _).2 rest rfl]
      cases rest with
      | nil => exact absurd rfl hl
      | cons w rest =>
        have : walk hp c (w :: rest) = none := by simp [walk, hc0', alookup]
        simp only [Option.bind_some, this]
        rw [hwalk, walk_append, hld]
        simp [walk, h.free]
    · exact (key l).1 fun rest e => hx ⟨rest, e⟩

/-- An entry was removed from the directory `d`; the object it referred to has one name less. -/
structure Removed (s s' : FS) (d : Ref) (nm : Str) (c : Ref) : Prop where
  env : Env s s'
  next : s'.next = s.next
  lastIno : s'.lastIno = s.lastIno
  dLt : d < s.next
  was : alookup nm (s.heap d).entries = some c
  ne : d ≠ c
  parent : s'.heap d = { s.heap d with
    content := .dir (aerase nm (s.heap d).entries), nlink := (s.heap d).nlink - 1 }
  child : s'.heap c = { s.heap c with nlink := (s.heap c).nlink - 1 }
  others : ∀ x, x ≠ d → x ≠ c → s'.heap x = s.heap x

theorem alookup_aerase {α : Type} (n k : Str) (l : List (Str × α)) :
    alookup n (aerase k l) = if n = k then none else alookup n l := by
  induction l with
  | nil => simp [aerase, alookup]
  | cons e l ih =>
    obtain ⟨a, x⟩ := e
    unfold aerase at *
    simp only [List.filter_cons]
    by_cases h : a = k
    · subst h
      simp only [ne_eq, not_true_eq_false, decide_false, Bool.false_eq_true, if_false, ih, alookup]
      by_cases h2 : n = a
      · simp [h2]
      · simp [h2, Ne.symm h2]
    · simp only [ne_eq, h, not_false_eq_true, decide_true, if_true, alookup, ih]
      by_cases h2 : a = n
      · subst h2; simp [h]
      · simp [h2]

theorem Removed.nameGone {s s' : FS} (hi : Inv s) {d c : Ref} {nm : Str} (h : Removed s s' d nm c) {ld : List Str}
    (hld : walk s.heap rootRef ld = some d) : NameGone s s' (ld ++ [nm]) := by
  have hdir := isDir_of_entry (alookup_mem h.was)
  have key := walk_update (hp := s.heap) (hp' := s'.heap) (d := d) (ld := ld) (nm := nm) (o := none)
    hld (fun l hl => walk_dir_unique hi l ld hl hld hdir)
    (by
      intro x hx n
      by_cases e : x = c
      · subst e; rw [h.child]; rfl
      · rw [h.others x hx e])
    (by
      intro n hn
      rw [h.parent]
      show alookup n (aerase nm (s.heap d).entries) = _
      rw [alookup_aerase, if_neg hn])
    (by rw [h.parent]; show alookup nm (aerase nm (s.heap d).entries) = _; rw [alookup_aerase, if_pos rfl])
    (by simp)
  refine ⟨?_, ?_, ?_⟩
  · rw [walk_append, hld]; simp [walk, h.was]
  · intro rest
    rw [(key _).2 rest (by simp)]; rfl
  · intro l hl
    apply (key l).1
    rintro rest rfl
    exact hl ⟨rest, by simp⟩

end Verif
