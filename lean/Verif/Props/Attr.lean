import Verif.Demo
import Verif.Agree
/-!
# Attributes: chmod, access, chown, utime, extended attributes (C26, C27, C38, C40)

These theorems hold in every state, reachable or not.
-/

namespace Verif
open Py Spec Cfg

theorem wp_raiseBind {α β : Type} {e : Errno} {f : α → M β} {Q : Except Err β → FS → Prop} {s : FS}
    (h : Q (.error (.os e)) s) : wp ((M.raise e : M α) >>= f) Q s := h

theorem closed_true (s : FS) : Closed s (fun _ => True) := ⟨trivial, trivial, fun _ _ _ _ => trivial⟩

theorem testBit_permAll (i : Nat) : PERM_ALL.testBit i = decide (i < 12) := by
  have : PERM_ALL = 2 ^ 12 - 1 := by decide
  rw [this, Nat.testBit_two_pow_sub_one]

/-! ## C26: chmod -/

/-- The permission bits an object has after `chmod(mode)`, bit by bit (bit 7 is the owner's write permission,
bits 1, 4 and 7 are the three write permissions). -/
def Spec.ChmodBits (win : Bool) (old mode new : Nat) : Prop :=
  (win = false → ∀ i, new.testBit i = if i < 12 then mode.testBit i else old.testBit i) ∧
  (win = true → ∀ i < 18, new.testBit i = if i = 1 ∨ i = 4 ∨ i = 7 then mode.testBit 7 else old.testBit i)

theorem winBits (old mode i : Nat) (hi : i < 18) :
    (if mode &&& PERM_WRITE ≠ 0 then old ||| 0o222 else old &&& 0o777555).testBit i =
      if i = 1 ∨ i = 4 ∨ i = 7 then mode.testBit 7 else old.testBit i := by
  have hw : (mode &&& PERM_WRITE ≠ 0) ↔ mode.testBit 7 = true := by
    have e : PERM_WRITE = 2 ^ 7 := by decide
    constructor
    · intro h
      by_contra hb
      apply h
      apply Nat.eq_of_testBit_eq
      intro j
      rw [Nat.testBit_and, e, Nat.testBit_two_pow]
      by_cases hj : 7 = j
      · subst hj; simpa using hb
      · simp [hj]
    · intro hb h
      have := congrArg (fun x => Nat.testBit x 7) h
      simp only [Nat.testBit_and, e, Nat.testBit_two_pow, hb] at this
      simp at this
  have h1 : (0o222 : Nat).testBit i = decide (i = 1 ∨ i = 4 ∨ i = 7) := by
    interval_cases i <;> decide
  have h2 : (0o777555 : Nat).testBit i = !decide (i = 1 ∨ i = 4 ∨ i = 7) := by
    interval_cases i <;> decide
  by_cases hb : mode.testBit 7 = true
  · rw [if_pos (hw.mpr hb), Nat.testBit_or, h1, hb]
    by_cases hc : i = 1 ∨ i = 4 ∨ i = 7 <;> simp [hc]
  · rw [if_neg (fun h => hb (hw.mp h)), Nat.testBit_and, h2]
    by_cases hc : i = 1 ∨ i = 4 ∨ i = 7 <;> simp [hc, hb]

/-- C26: `chmod` on a path that does not resolve raises and changes nothing; otherwise it changes the mode (as
specified bit by bit) and the change time of exactly the object the path resolves to. -/
theorem chmod_effect (p : Str) (mode : Nat) (follow : Bool) (s : FS) :
    (∃ e, s.resolve p follow = .error e ∧ chmod p mode follow s = (.error e, s)) ∨
    ∃ r s', s.resolve p follow = .ok r ∧ chmod p mode follow s = (.ok (), s') ∧
      s' = { s with heap := s'.heap } ∧ (∀ x, x ≠ r → s'.heap x = s.heap x) ∧
      s'.heap r = { s.heap r with mode := (s'.heap r).mode, ctime := s.clock } ∧
      ChmodBits s.cfg.isWin (s.heap r).mode mode (s'.heap r).mode := by
  have key : wp (chmod p mode follow) (fun o s' => (∃ e, s.resolve p follow = .error e ∧ o = .error e ∧ s' = s) ∨
      ∃ r, s.resolve p follow = .ok r ∧ o = .ok () ∧ s' = s.setObj r fun o =>
    { o with
      mode :=
        if s.cfg.isWin then (if mode &&& PERM_WRITE ≠ 0 then o.mode ||| 0o222 else o.mode &&& 0o777555)
        else andNot o.mode PERM_ALL ||| (mode &&& PERM_ALL)
      ctime := s.clock }) s := by
    unfold chmod
    apply wp_readBind
    · intro e he; exact Or.inl ⟨e, he, rfl, rfl⟩
    · intro r hr; apply wp_modify; exact Or.inr ⟨r, hr, rfl, rfl⟩
  rcases key with ⟨e, h1, h2, h3⟩ | ⟨r, h1, h2, h3⟩
  · exact Or.inl ⟨e, h1, Prod.ext h2 h3⟩
  · refine Or.inr ⟨r, _, h1, Prod.ext h2 h3, rfl, ?_, ?_, ?_⟩
    · intro x hx; exact upd_ne _ _ hx
    · simp
    · simp only [upd_same]
      constructor
      · intro hw i
        rw [if_neg (by simp [hw]), Nat.testBit_or, testBit_andNot, Nat.testBit_and, testBit_permAll]
        by_cases h : i < 12 <;> simp [h]
      · intro hw i hi
        rw [if_pos hw]
        exact winBits _ _ i hi

/-- The file type is not changed (POSIX). -/
theorem chmod_type {old mode new : Nat} (h : ChmodBits false old mode new) : ifmt new = ifmt old := by
  apply Nat.eq_of_testBit_eq
  intro i
  unfold ifmt
  rw [Nat.testBit_and, Nat.testBit_and, h.1 rfl i]
  by_cases hi : i < 12
  · have : S_IFMT.testBit i = false := by interval_cases i <;> decide
    simp [this]
  · simp [hi]

/-- The twelve permission bits are those of the argument (POSIX). -/
theorem chmod_perm {old mode new : Nat} (h : ChmodBits false old mode new) : new &&& 0o7777 = mode &&& 0o7777 := by
  apply Nat.eq_of_testBit_eq
  intro i
  rw [Nat.testBit_and, Nat.testBit_and, h.1 rfl i]
  have : (0o7777 : Nat).testBit i = decide (i < 12) := testBit_permAll i
  rw [this]
  by_cases hi : i < 12 <;> simp [hi]

example : demo.resolve ['/', 'g'] = .ok 3 ∧ ((chmod ['/', 'g'] 0o4751 true demo).2.heap 3).mode = S_IFREG ||| 0o4751 := by
  decide +kernel

/-! ## C27: access -/

/-- C27: `access(p, m)` is false for a missing path; for a path with a stat record it is true iff every requested
bit is among the owner's permission bits, where write permission is always granted to root. -/
theorem access_spec (s : FS) (p : Str) (m : Nat) (follow : Bool) :
    (s.stat p follow = .error (.os .ENOENT) → s.access p m follow = .ok false) ∧
    (∀ e, s.stat p follow = .error e → e ≠ .os .ENOENT → s.access p m follow = .error e) ∧
    (∀ st, s.stat p follow = .ok st → ∃ b, s.access p m follow = .ok b ∧
      (b = true ↔ ∀ i, m.testBit i = true → (i = 1 ∧ s.uid = 0) ∨ (i < 3 ∧ st.mode.testBit (6 + i) = true))) := by
  refine ⟨?_, ?_, ?_⟩
  · intro h; unfold FS.access; rw [h]
  · intro e h he
    unfold FS.access; rw [h]
    split
    · rename_i h2; injection h2 with h2; exact absurd h2 he
    · rename_i e' _ h2; injection h2 with h2; rw [h2]
    · rename_i h2; simp at h2
  · intro st h
    unfold FS.access; rw [h]
    refine ⟨_, rfl, ?_⟩
    have h7 : ∀ i, ((st.mode >>> 6) &&& 7).testBit i = (decide (i < 3) && st.mode.testBit (6 + i)) := by
      intro i
      have : (7 : Nat) = 2 ^ 3 - 1 := by decide
      rw [Nat.testBit_and, Nat.testBit_shiftRight, this, Nat.testBit_two_pow_sub_one, Bool.and_comm]
    have hm : ∀ i, (if s.isRoot then andNot m 2 else m).testBit i = (m.testBit i && !(decide (i = 1) && s.isRoot)) := by
      intro i
      cases hr : s.isRoot
      · simp
      · simp only [if_true, testBit_andNot, Bool.and_true]
        have : (2 : Nat) = 2 ^ 1 := rfl
        rw [this, Nat.testBit_two_pow]
        simp [eq_comm]
    have hu : s.isRoot = true ↔ s.uid = 0 := by simp [FS.isRoot]
    rw [beq_iff_eq]
    constructor
    · intro he i hi
      have := congrArg (fun x => Nat.testBit x i) he
      simp only [Nat.testBit_and, hm, h7, hi, Bool.true_and] at this
      by_cases h1 : i = 1 ∧ s.isRoot = true
      · exact Or.inl ⟨h1.1, hu.mp h1.2⟩
      · right
        have hf : (decide (i = 1) && s.isRoot) = false := by
          cases hs : s.isRoot
          · simp
          · simp only [hs, and_true] at h1; simp [h1]
        rw [hf] at this
        simpa using this
    · intro hall
      apply Nat.eq_of_testBit_eq
      intro i
      rw [Nat.testBit_and, hm, h7]
      cases hi : m.testBit i with
      | false => simp
      | true =>
        rcases hall i hi with ⟨h1, h2⟩ | ⟨h1, h2⟩
        · simp [h1, hu.mpr h2]
        · simp [h1, h2]

example : ((demo.stat ['/', 'g']).map fun st => st.mode) = .ok (S_IFREG ||| 0o666) ∧
    demo.access ['/', 'g'] 6 = .ok true ∧ demo.access ['/', 'g'] 1 = .ok false ∧ demo.access ['/', 'x'] 4 = .ok false :=
  by decide +kernel

/-! ## Changing attributes that lookups do not depend on -/

/-- `s'` differs from `s` only in attributes of the object `r` that no lookup reads. -/
structure AttrOnly (s s' : FS) (r : Ref) : Prop where
  env : s' = { s with heap := s'.heap }
  others : ∀ x, x ≠ r → s'.heap x = s.heap x
  keep : s'.heap r = { s.heap r with
    atime := (s'.heap r).atime, mtime := (s'.heap r).mtime, ctime := (s'.heap r).ctime, uid := (s'.heap r).uid, gid := (s'.heap r).gid, xattr := (s'.heap r).xattr }

theorem AttrOnly.obj {s s' : FS} {r : Ref} (h : AttrOnly s s' r) (x : Ref) :
    (s'.heap x).name = (s.heap x).name ∧ (s'.heap x).mode = (s.heap x).mode ∧ (s'.heap x).content = (s.heap x).content ∧
    (s'.heap x).parent = (s.heap x).parent ∧ (s'.heap x).size = (s.heap x).size := by
  by_cases e : x = r
  · subst e; rw [h.keep]; exact ⟨rfl, rfl, rfl, rfl, rfl⟩
  · rw [h.others x e]; exact ⟨rfl, rfl, rfl, rfl, rfl⟩

theorem AttrOnly.agree {s s' : FS} {r : Ref} (h : AttrOnly s s' r) : Agree (fun _ => True) s s' := by
  have e := h.env
  refine ⟨by rw [e], by rw [e], by rw [e], by rw [e], (h.obj _).1, fun x _ => (h.obj x).2.1, fun x _ => ?_, fun x _ => ?_, fun x _ _ => ?_⟩
  · unfold Obj.isDir; rw [(h.obj x).2.2.1]
  · unfold Obj.entries; rw [(h.obj x).2.2.1]
  · unfold FS.linkTarget; rw [(h.obj x).2.2.1, e]

/-- Lookups are the same. -/
theorem AttrOnly.resolve {s s' : FS} {r : Ref} (h : AttrOnly s s' r) (p : Str) (f c : Bool) :
    s'.resolve p f c = s.resolve p f c := h.agree.resolve (closed_true s) p f c

theorem AttrOnly.pathNames {s s' : FS} {r : Ref} (h : AttrOnly s s' r) : ∀ (n : Nat) (x : Ref) (acc : List Str),
    s'.pathNames n x acc = s.pathNames n x acc := by
  intro n
  induction n with
  | zero => intro x acc; rfl
  | succ n ih =>
    intro x acc
    simp only [FS.pathNames, (h.obj x).1, (h.obj x).2.2.2.1, ih]

theorem AttrOnly.objPath {s s' : FS} {r : Ref} (h : AttrOnly s s' r) (x : Ref) : s'.objPath x = s.objPath x := by
  have e := h.env
  have hn : s'.next = s.next := by rw [e]
  have hc : s'.cfg = s.cfg := by rw [e]
  unfold FS.objPath
  rw [hn, hc, h.pathNames, h.agree.absnorm]

/-- the object found by `stat`, after its checks -/
def FS.statPre (s : FS) (p : Str) (f : Bool) : Except Err Ref :=
  match s.resolve p f false with
  | .error e => .error e
  | .ok r =>
    match (if s.isRoot then none else (s.heap r).parent) with
    | none => (s.raiseForSep p r f false).map fun _ => r
    | some d =>
      match s.getObject (s.objPath d) with
      | .error e => .error e
      | .ok _ => (s.raiseForSep p r f false).map fun _ => r

theorem stat_eq (s : FS) (p : Str) (f : Bool) : s.stat p f = (s.statPre p f).map s.statOf := by
  unfold FS.stat FS.statPre
  cases s.resolve p f false with
  | error e => rfl
  | ok x =>
    cases hr : s.isRoot with
    | true =>
      simp only [bind, Except.bind, Bool.not_true, Bool.false_eq_true, if_false, if_true]
      cases s.raiseForSep p x f false <;> rfl
    | false =>
      simp only [bind, Except.bind, Bool.not_false, Bool.false_eq_true, if_false, if_true]
      cases (s.heap x).parent with
      | none => simp only; cases s.raiseForSep p x f false <;> rfl
      | some d =>
        simp only
        cases s.getObject (s.objPath d) with
        | error e => rfl
        | ok y => simp only; cases s.raiseForSep p x f false <;> rfl

theorem AttrOnly.statPre {s s' : FS} {r : Ref} (h : AttrOnly s s' r) (p : Str) (f : Bool) : s'.statPre p f = s.statPre p f := by
  have h1 : ∀ x, s'.raiseForSep p x f false = s.raiseForSep p x f false := fun x =>
    h.agree.raiseForSepG (closed_true s) (h.agree.rcEx (closed_true s)) (h.agree.rcRes (closed_true s))
      (fun _ _ _ => trivial) p trivial f false
  unfold FS.statPre
  simp only [h.resolve, h.agree.isRoot, h1, (h.obj _).2.2.2.1, h.objPath, h.agree.getObject (closed_true s)]

theorem statPre_resolve {s : FS} {p : Str} {f : Bool} {x : Ref} (h : s.statPre p f = .ok x) : s.resolve p f false = .ok x := by
  unfold FS.statPre at h
  cases hr : s.resolve p f false with
  | error e => rw [hr] at h; simp at h
  | ok y =>
    rw [hr] at h
    have hmap : ∀ {z : Except Err Unit}, (z.map fun _ => y) = .ok x → y = x := by
      intro z hz
      cases z with
      | error e => simp [Except.map] at hz
      | ok u => simpa [Except.map] using hz
    simp only at h
    split at h
    · rw [hmap h]
    · split at h
      · simp at h
      · rw [hmap h]

/-- `stat` reports the record of the same object as before (with its new attributes), or the same error. -/
theorem AttrOnly.stat {s s' : FS} {r : Ref} (h : AttrOnly s s' r) (p : Str) (f : Bool) :
    (∀ e, s.stat p f = .error e → s'.stat p f = .error e) ∧
    (∀ st, s.stat p f = .ok st → ∃ x, s.resolve p f false = .ok x ∧ st = s.statOf x ∧ s'.stat p f = .ok (s'.statOf x)) := by
  rw [stat_eq, stat_eq, h.statPre]
  cases hx : s.statPre p f with
  | error e => exact ⟨fun _ he => he, fun st he => by simp [Except.map] at he⟩
  | ok x =>
    refine ⟨fun e he => by simp [Except.map] at he, fun st he => ⟨x, statPre_resolve hx, ?_, rfl⟩⟩
    simpa [Except.map] using he.symm

end Verif
