import Mathlib.Data.Rat.Floor
import Mathlib.Algebra.Order.Round
import Mathlib.Data.Set.Finite.Lemmas
import Mathlib.Order.Interval.Finset.Defs
import Mathlib.Data.Int.Interval
import Mathlib.Tactic.Linarith
import Mathlib.Tactic.Ring
import Mathlib.Tactic.FieldSimp
import Mathlib.Tactic.NormNum
/-!
# Double precision numbers

A Python `float` is a rational number `m * 2^k` with `|m| ≤ 2^53` and `-1074 ≤ k`; the upper bound of the exponent
(overflow), infinities and NaN are not modelled.  Arithmetic rounds to a nearest such number; which one is taken in
a tie is left open.
-/

namespace Verif

/-- A rational number that is a double. -/
def IsDouble (x : ℚ) : Prop := ∃ (m : ℤ) (k : ℤ), |m| ≤ 2 ^ 53 ∧ -1074 ≤ k ∧ x = m * (2 : ℚ) ^ k

/-- Rounding to nearest. -/
structure Rounding where
  fl : ℚ → ℚ
  dbl : ∀ x, IsDouble (fl x)
  near : ∀ x z, IsDouble z → |x - fl x| ≤ |x - z|

theorem isDouble_int {m : ℤ} (h : |m| ≤ 2 ^ 53) : IsDouble m := ⟨m, 0, h, by norm_num, by simp⟩

namespace Rounding
variable (R : Rounding)

theorem exact {x : ℚ} (h : IsDouble x) : R.fl x = x := by
  have := R.near x x h
  rw [sub_self, abs_zero] at this
  have h2 := abs_nonpos_iff.mp this
  linarith [sub_eq_zero.mp h2]

theorem le_of {x z : ℚ} (hz : IsDouble z) (h : z ≤ x) : z ≤ R.fl x := by
  by_contra hc
  push Not at hc
  have := R.near x z hz
  rw [abs_of_nonneg (by linarith), abs_of_nonneg (by linarith)] at this
  linarith

theorem ge_of {x z : ℚ} (hz : IsDouble z) (h : x ≤ z) : R.fl x ≤ z := by
  by_contra hc
  push Not at hc
  have := R.near x z hz
  rw [abs_of_nonpos (by linarith), abs_of_nonpos (by linarith)] at this
  linarith

end Rounding

/-- Every rational number has a nearest double. -/
theorem exists_near (x : ℚ) : ∃ y, IsDouble y ∧ ∀ z, IsDouble z → |x - y| ≤ |x - z| := by
  -- all doubles are multiples of `2 ^ (-1074)`
  obtain ⟨D, hDe⟩ : ∃ D : ℚ, D = (2 : ℚ) ^ (1074 : ℤ) := ⟨_, rfl⟩
  have hD : (0 : ℚ) < D := by rw [hDe]; exact zpow_pos (by norm_num) _
  have hint : ∀ z, IsDouble z → ∃ n : ℤ, z = n / D := by
    rintro z ⟨m, k, _, hk, rfl⟩
    obtain ⟨j, hj⟩ := Int.eq_ofNat_of_zero_le (show 0 ≤ k + 1074 by omega)
    refine ⟨m * 2 ^ j, ?_⟩
    have : (2 : ℚ) ^ k = 2 ^ j / D := by
      rw [eq_div_iff hD.ne']
      rw [hDe, ← zpow_add₀ (by norm_num), hj]
      norm_cast
    rw [this]; push_cast; ring
  let B : ℤ := ⌈2 * |x| * D⌉ + 1
  let C : Set ℤ := { n | IsDouble (n / D) ∧ -B ≤ n ∧ n ≤ B }
  have hfin : C.Finite := (Set.finite_Icc (-B) B).subset fun n hn => ⟨hn.2.1, hn.2.2⟩
  have h0 : IsDouble (0 : ℚ) := ⟨0, 0, by norm_num, by norm_num, by simp⟩
  have hB : 0 ≤ B := by
    have : (0 : ℤ) ≤ ⌈2 * |x| * D⌉ := Int.ceil_nonneg (by positivity)
    omega
  have hmem : (0 : ℤ) ∈ C := ⟨by simpa using h0, by omega, hB⟩
  obtain ⟨n, hn, hmin⟩ := Set.exists_min_image C (fun n => |x - n / D|) hfin ⟨0, hmem⟩
  refine ⟨n / D, hn.1, fun z hz => ?_⟩
  obtain ⟨k, rfl⟩ := hint z hz
  by_cases hk : -B ≤ k ∧ k ≤ B
  · exact hmin k ⟨hz, hk.1, hk.2⟩
  · refine le_trans (hmin 0 hmem) ?_
    simp only [Int.cast_zero, zero_div, sub_zero]
    -- `k` is far away
    have hk' : (B : ℚ) < |(k : ℚ)| := by
      have : B < |k| := by
        rw [lt_abs]; omega
      exact_mod_cast this
    have hBx : 2 * |x| * D ≤ B := by
      have := Int.le_ceil (2 * |x| * D)
      have e : (B : ℚ) = ⌈2 * |x| * D⌉ + 1 := by simp [B]
      rw [e]; linarith
    have h2 : 2 * |x| < |(k : ℚ) / D| := by
      rw [abs_div, abs_of_pos hD, lt_div_iff₀ hD]; linarith
    have h3 : |(k : ℚ) / D| ≤ |x| + |x - k / D| := by
      have := abs_sub (x - k / D) x
      have e : (x - k / D) - x = -(k / D) := by ring
      rw [e, abs_neg] at this
      linarith
    linarith

/-- There is a rounding (so statements about all roundings are not empty). -/
noncomputable def someRounding : Rounding where
  fl x := (exists_near x).choose
  dbl x := (exists_near x).choose_spec.1
  near x := (exists_near x).choose_spec.2

/-- `int(x)` of a float: truncation towards zero. -/
def truncQ (x : ℚ) : ℤ := if 0 ≤ x then ⌊x⌋ else ⌈x⌉

/-- `int(self._st_atime_ns / 1e9)`: item access to a time of a stat result (helpers.py 145-160, 214-241); the
integer is converted to a double, divided and truncated. -/
def Rounding.itemSec (R : Rounding) (ns : ℤ) : ℤ := truncQ (R.fl (R.fl ns / 1000000000))

/-- `int(val * 1e9)`: setting a time in seconds (helpers.py 163-176). -/
def Rounding.toNs (R : Rounding) (val : ℚ) : ℤ := truncQ (R.fl (R.fl val * 1000000000))

theorem isDouble_shift {m : ℤ} (k : ℕ) (h : |m| ≤ 2 ^ 53) : IsDouble (m * 2 ^ k) :=
  ⟨m, k, h, by omega, by norm_num⟩

theorem isDouble_neg2 {m : ℤ} (k : ℕ) (hk : k ≤ 1074) (h : |m| ≤ 2 ^ 53) : IsDouble (m / 2 ^ k) :=
  ⟨m, -k, h, by omega, by rw [zpow_neg]; norm_num; rfl⟩

end Verif
