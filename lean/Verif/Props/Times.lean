import Verif.Props.Attr
import Verif.Dbl
/-!
# Times (C40) and ownership
-/

namespace Verif
open Py Spec Cfg

/-- `utime(path, times, ns=ns)` with its argument checks (fake_filesystem.py 1237-1286). `times` are ints or floats
(rational numbers), `ns` ints; both are sequences of any length. -/
def utimeFull (R : Rounding) (p : Str) (times : Option (List ℚ)) (ns : Option (List ℤ)) (follow : Bool := true) : M Unit :=
  match times, ns with
  | some _, some _ => M.throw .valueError
  | some ts, none => match ts with
    | [a, m] => utime p (some (R.toNs a, R.toNs m)) follow
    | _ => M.throw .typeError
  | none, some l => match l with
    | [a, m] => utime p (some (a, m)) follow
    | _ => M.throw .typeError
  | none, none => utime p none follow

theorem utime_cases (p : Str) (ns : Option (Int × Int)) (follow : Bool) (s : FS) :
    (∃ e, s.resolve p follow = .error e ∧ utime p ns follow s = (.error e, s)) ∨
    ∃ r, s.resolve p follow = .ok r ∧ utime p ns follow s = (.ok (), s.setObj r fun o =>
      match ns with
      | some (a, m) => { o with atime := a, mtime := m }
      | none => { o with atime := s.clock, mtime := s.clock }) := by
  have key : wp (utime p ns follow) (fun o s' => (∃ e, s.resolve p follow = .error e ∧ o = .error e ∧ s' = s) ∨
      ∃ r, s.resolve p follow = .ok r ∧ o = .ok () ∧ s' = s.setObj r fun o =>
        match ns with
        | some (a, m) => { o with atime := a, mtime := m }
        | none => { o with atime := s.clock, mtime := s.clock }) s := by
    unfold utime
    apply wp_readBind
    · intro e he; exact Or.inl ⟨e, he, rfl, rfl⟩
    · intro r hr; apply wp_modify; exact Or.inr ⟨r, hr, rfl, rfl⟩
  rcases key with ⟨e, h1, h2, h3⟩ | ⟨r, h1, h2, h3⟩
  · exact Or.inl ⟨e, h1, Prod.ext h2 h3⟩
  · exact Or.inr ⟨r, h1, Prod.ext h2 h3⟩

theorem AttrOnly.statOf_ne {s s' : FS} {r : Ref} (h : AttrOnly s s' r) {x : Ref} (hx : x ≠ r) : s'.statOf x = s.statOf x := by
  have e : s'.cfg = s.cfg := by rw [h.env]
  unfold FS.statOf FS.stSize
  rw [h.others x hx, e]

theorem utime_attrOnly {s : FS} {r : Ref} {ns : Option (Int × Int)} : AttrOnly s (s.setObj r fun o =>
      match ns with
      | some (a, m) => { o with atime := a, mtime := m }
      | none => { o with atime := s.clock, mtime := s.clock }) r := by
  refine ⟨rfl, fun x hx => upd_ne _ _ hx, ?_⟩
  simp only [FS.setObj, upd_same]
  rcases ns with _ | ⟨a, m⟩ <;> rfl

/-- C40: a successful `utime(p, ns=(a, m))` makes `stat(p)` report exactly `a` and `m` and otherwise what it reported
before; every other object keeps its record, every path resolves as before; a failing one changes nothing. -/
theorem utime_ns (p : Str) (a m : Int) (follow : Bool) (s : FS) :
    (∃ e, utime p (some (a, m)) follow s = (.error e, s)) ∨
    ∃ r s', utime p (some (a, m)) follow s = (.ok (), s') ∧ s.resolve p follow = .ok r ∧
      (∀ q f c, s'.resolve q f c = s.resolve q f c) ∧
      (∀ x, x ≠ r → s'.heap x = s.heap x) ∧
      (∀ st, s.stat p follow = .ok st → s.resolve p follow false = .ok r →
        s'.stat p follow = .ok { st with atime := a, mtime := m }) := by
  rcases utime_cases p (some (a, m)) follow s with ⟨e, h1, h2⟩ | ⟨r, h1, h2⟩
  · exact Or.inl ⟨e, h2⟩
  · right
    have ha : AttrOnly s _ r := utime_attrOnly (s := s) (ns := some (a, m))
    refine ⟨r, _, h2, h1, ha.resolve, ha.others, ?_⟩
    intro st hst hr
    obtain ⟨x, h3, h4, h5⟩ := (ha.stat p follow).2 st hst
    rw [hr] at h3; injection h3 with h3; subst h3
    rw [h5, h4]
    simp [FS.statOf, FS.stSize, FS.setObj]

example : ((utime ['/', 'g'] (some (5, -3)) true demo).2.stat ['/', 'l']).map (fun st => (st.atime, st.mtime)) = .ok (5, -3) := by
  decide +kernel

/-- C40: `utime` with both `times` and `ns`, or with a sequence of the wrong length, raises and changes nothing. -/
theorem utime_bad_args (R : Rounding) (p : Str) (times : Option (List ℚ)) (ns : Option (List ℤ)) (follow : Bool) (s : FS)
    (h : (times.isSome ∧ ns.isSome) ∨ (∃ l, times = some l ∧ l.length ≠ 2) ∨ ∃ l, ns = some l ∧ l.length ≠ 2) :
    ∃ e, utimeFull R p times ns follow s = (.error e, s) ∧ (e = .valueError ∨ e = .typeError) := by
  unfold utimeFull
  split
  · exact ⟨_, rfl, Or.inl rfl⟩
  · split
    · simp at h
    · exact ⟨_, rfl, Or.inr rfl⟩
  · split
    · simp at h
    · exact ⟨_, rfl, Or.inr rfl⟩
  · simp at h

/-! ## Seconds and nanoseconds -/

section
variable (R : Rounding)

/-- 10^9 = 5^9 * 2^9, so whole seconds before the year 2116 are doubles also when given in nanoseconds. -/
theorem isDouble_sec {q : ℤ} (h : |q| ≤ 4611686018) : IsDouble ((q : ℚ) * 1000000000) := by
  have : ((q : ℚ) * 1000000000) = ((q * 1953125 : ℤ) : ℚ) * 2 ^ 9 := by push_cast; ring
  rw [this]
  apply isDouble_shift
  rw [abs_mul]
  have : |(1953125 : ℤ)| = 1953125 := rfl
  rw [this]
  have : (4611686018 : ℤ) * 1953125 ≤ 2 ^ 53 := by norm_num
  nlinarith

/-- A whole number of seconds given to `utime(times=…)` is stored exactly. -/
theorem toNs_int {q : ℤ} (h : |q| ≤ 4611686018) : R.toNs q = q * 1000000000 := by
  unfold Rounding.toNs
  rw [R.exact (isDouble_int (by have : (4611686018 : ℤ) ≤ 2 ^ 53 := by norm_num
                                omega)), R.exact (isDouble_sec h)]
  have e : ((q : ℚ) * 1000000000) = ((q * 1000000000 : ℤ) : ℚ) := by push_cast; ring
  rw [e]
  unfold truncQ
  split <;> simp only [Int.floor_intCast, Int.ceil_intCast]

theorem item_bounds {ns q : ℤ} (hq : 0 ≤ q) (hq2 : q < 4611686018) (h1 : q * 1000000000 ≤ ns) (h2 : ns < (q + 1) * 1000000000) :
    (q : ℚ) ≤ R.fl (R.fl ns / 1000000000) ∧ R.fl (R.fl ns / 1000000000) ≤ q + 1 := by
  have a1 : ((q : ℚ) * 1000000000) ≤ R.fl ns := R.le_of (isDouble_sec (by rw [abs_of_nonneg hq]; omega)) (by exact_mod_cast h1)
  have a2 : R.fl ns ≤ (((q + 1 : ℤ) : ℚ) * 1000000000) := R.ge_of (isDouble_sec (by rw [abs_of_nonneg (by omega)]; omega)) (by exact_mod_cast h2.le)
  have hb : ∀ z : ℤ, 0 ≤ z → z ≤ 4611686018 → IsDouble (z : ℚ) := by
    intro z hz hz2
    apply isDouble_int
    rw [abs_of_nonneg hz]
    have : (4611686018 : ℤ) ≤ 2 ^ 53 := by norm_num
    omega
  constructor
  · apply R.le_of (hb q hq (by omega))
    rw [le_div_iff₀ (by norm_num)]; exact a1
  · have := R.ge_of (x := R.fl ns / 1000000000) (hb (q + 1) (by omega) (by omega)) (by
      rw [div_le_iff₀ (by norm_num)]; exact a2)
    push_cast at this; exact this

/-- C40: for times from the epoch to the year 2116, item access gives the floor of the time in seconds or the next
second. -/
theorem item_near {ns : ℤ} (h0 : 0 ≤ ns) (h1 : ns < 4611686018 * 1000000000) :
    R.itemSec ns = ns / 1000000000 ∨ R.itemSec ns = ns / 1000000000 + 1 := by
  obtain ⟨b1, b2⟩ := item_bounds R (ns := ns) (q := ns / 1000000000) (by omega) (by omega) (by omega) (by omega)
  unfold Rounding.itemSec truncQ
  have hq : (0 : ℚ) ≤ ((ns / 1000000000 : ℤ) : ℚ) := by exact_mod_cast (by omega : 0 ≤ ns / 1000000000)
  rw [if_pos (le_trans hq b1)]
  have c1 : ns / 1000000000 ≤ ⌊R.fl (R.fl ns / 1000000000)⌋ := Int.le_floor.mpr b1
  have c2 : ⌊R.fl (R.fl ns / 1000000000)⌋ ≤ ns / 1000000000 + 1 := by
    apply Int.floor_le_iff.mpr
    push_cast
    linarith
  omega

/-- C40: for times from the epoch to the year 2038 that are not in the last 256 nanoseconds of a second, item access
gives exactly the floor of the time in seconds. -/
theorem item_floor {ns : ℤ} (h0 : 0 ≤ ns) (h1 : ns < 2147483648 * 1000000000) (h2 : ns % 1000000000 ≤ 1000000000 - 256) :
    R.itemSec ns = ns / 1000000000 := by
  obtain ⟨q, hq⟩ : ∃ q, q = ns / 1000000000 := ⟨_, rfl⟩
  have hq0 : 0 ≤ q := by omega
  have hq1 : q < 2147483648 := by omega
  have hle : ns ≤ (q + 1) * 1000000000 - 256 := by omega
  -- the double just below the next second
  have hd : IsDouble ((((q + 1) * 1000000000 - 256 : ℤ)) : ℚ) := by
    have e : ((((q + 1) * 1000000000 - 256 : ℤ)) : ℚ) = (((q + 1) * 3906250 - 1 : ℤ) : ℚ) * 2 ^ 8 := by push_cast; ring
    rw [e]
    apply isDouble_shift
    rw [abs_of_nonneg (by omega)]
    have : (2147483648 : ℤ) * 3906250 ≤ 2 ^ 53 := by norm_num
    omega
  have a2 : R.fl ns ≤ ((((q + 1) * 1000000000 - 256 : ℤ)) : ℚ) := R.ge_of hd (by exact_mod_cast hle)
  have hd2 : IsDouble ((((q + 1) * 4194304 - 1 : ℤ)) / 2 ^ 22 : ℚ) := by
    apply isDouble_neg2 22 (by norm_num)
    rw [abs_of_nonneg (by omega)]
    have : (2147483648 : ℤ) * 4194304 ≤ 2 ^ 53 := by norm_num
    omega
  have a3 : R.fl (R.fl ns / 1000000000) ≤ (((q + 1) * 4194304 - 1 : ℤ)) / 2 ^ 22 := by
    apply R.ge_of hd2
    rw [div_le_iff₀ (by norm_num)]
    refine le_trans a2 ?_
    push_cast
    linarith
  obtain ⟨b1, _⟩ := item_bounds R (ns := ns) (q := q) hq0 (by omega) (by omega) (by omega)
  unfold Rounding.itemSec truncQ
  have hqq : (0 : ℚ) ≤ (q : ℚ) := by exact_mod_cast hq0
  rw [if_pos (le_trans hqq b1), ← hq]
  apply Int.floor_eq_iff.mpr
  refine ⟨b1, ?_⟩
  refine lt_of_le_of_lt a3 ?_
  push_cast
  linarith

/-- The next second is really reported: C40's "floor" fails for 1700000000.999999999, whatever the rounding. -/
theorem item_counterexample : R.itemSec 1700000000999999999 = 1700000001 := by
  have hs : IsDouble (((1700000001 : ℤ) : ℚ) * 1000000000) := isDouble_sec (by norm_num)
  -- nothing but the next second is as near
  have hn := R.near ((1700000000999999999 : ℤ) : ℚ) _ hs
  have hone : |((1700000000999999999 : ℤ) : ℚ) - ((1700000001 : ℤ) : ℚ) * 1000000000| = 1 := by norm_num
  rw [hone, abs_le] at hn
  obtain ⟨m, k, hm, hk, he⟩ := R.dbl ((1700000000999999999 : ℤ) : ℚ)
  have hfl : R.fl ((1700000000999999999 : ℤ) : ℚ) = 1700000001000000000 := by
    have hlow : (1700000000999999998 : ℚ) ≤ m * (2 : ℚ) ^ k := by rw [he] at hn; push_cast at hn; linarith [hn.2]
    have hhigh : (m : ℚ) * (2 : ℚ) ^ k ≤ 1700000001000000000 := by rw [he] at hn; push_cast at hn; linarith [hn.1]
    have hk7 : 7 ≤ k := by
      by_contra hc
      have h2 : (2 : ℚ) ^ k ≤ 2 ^ (6 : ℤ) := zpow_le_zpow_right₀ (by norm_num) (by omega)
      have h3 : (m : ℚ) ≤ 2 ^ 53 := by
        have : m ≤ 2 ^ 53 := le_trans (le_abs_self m) hm
        exact_mod_cast this
      have h4 : (0 : ℚ) < 2 ^ k := zpow_pos (by norm_num) _
      have h5 : (m : ℚ) * (2 : ℚ) ^ k ≤ 2 ^ 53 * 2 ^ (6 : ℤ) := by
        apply mul_le_mul h3 h2 h4.le (by norm_num)
      norm_num at h5
      linarith
    obtain ⟨j, hj⟩ := Int.eq_ofNat_of_zero_le (show 0 ≤ k - 7 by omega)
    have hz : (m : ℚ) * (2 : ℚ) ^ k = ((m * 2 ^ j * 128 : ℤ) : ℚ) := by
      have : k = (j : ℤ) + 7 := by omega
      rw [this, zpow_add₀ (by norm_num)]
      push_cast
      norm_num
      ring
    rw [hz] at hlow hhigh
    have hl : (1700000000999999998 : ℤ) ≤ m * 2 ^ j * 128 := by exact_mod_cast hlow
    have hh : m * 2 ^ j * 128 ≤ 1700000001000000000 := by exact_mod_cast hhigh
    have : m * 2 ^ j * 128 = 1700000001000000000 := by omega
    rw [he, hz, this]; norm_num
  unfold Rounding.itemSec
  rw [hfl]
  have e : (1700000001000000000 : ℚ) / 1000000000 = ((1700000001 : ℤ) : ℚ) := by norm_num
  rw [e, R.exact (isDouble_int (by norm_num))]
  unfold truncQ
  rw [if_pos (by norm_num), Int.floor_intCast]

end

/-- The statements about roundings are about something. -/
example : Nonempty Rounding := ⟨someRounding⟩

end Verif
