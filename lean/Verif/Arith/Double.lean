import Mathlib.Algebra.Order.Round
import Mathlib.Algebra.Order.Ring.Rat
import Mathlib.Algebra.Order.Field.Power
import Mathlib.Data.Int.Log
import Mathlib.Data.Rat.Floor
import Mathlib.Tactic.Linarith
import Mathlib.Tactic.NormNum
import Mathlib.Tactic.Positivity
import Mathlib.Tactic.FieldSimp
import Mathlib.Tactic.Ring
/-! # IEEE 754 binary64 rounding on rationals

Not titus code: what Python's `float(int)` and `/` do (CPython converts an int to the nearest double,
ties to even, and the processor divides with correct rounding).  Overflow to infinity is not
modelled; the theorems that use this file are about numbers far below 2^1024. -/

namespace Verif.Arith

/-- The nearest integer, ties to even. -/
def roundEven (q : Rat) : Int :=
  let f := ⌊q⌋
  if q - f < 1 / 2 then f
  else if 1 / 2 < q - f then f + 1
  else if f % 2 = 0 then f else f + 1

/-- The distance of neighbouring doubles at `q ≠ 0` (53 bits of precision, least exponent -1074). -/
def ulp (q : Rat) : Rat := 2 ^ (max (Int.log 2 |q| - 52) (-1074))

/-- The double nearest to `q`, ties to even. -/
def rnd (q : Rat) : Rat := if q = 0 then 0 else roundEven (q / ulp q) * ulp q

/-- `q` is a finite double. -/
def IsDouble (q : Rat) : Prop := ∃ (m : Int) (e : Int), q = m * 2 ^ e ∧ |m| < 2 ^ 53 ∧ -1074 ≤ e

/-- Python `int(x)` for a finite float: truncation towards zero. -/
def trunc (q : Rat) : Int := if 0 ≤ q then ⌊q⌋ else ⌈q⌉

theorem roundEven_err (q : Rat) : |(roundEven q : Rat) - q| ≤ 1 / 2 := by
  have h1 := Int.floor_le q
  have h2 := Int.lt_floor_add_one q
  simp only [roundEven]
  split_ifs with a b c <;> rw [abs_le] <;> push_cast <;> constructor <;> linarith

theorem roundEven_int (n : Int) : roundEven (n : Rat) = n := by simp [roundEven]

theorem roundEven_mono {n : Int} {q : Rat} (h : (n : Rat) ≤ q) : n ≤ roundEven q := by
  have h1 : n ≤ ⌊q⌋ := Int.le_floor.2 h
  simp only [roundEven]
  split_ifs <;> omega

theorem roundEven_le {n : Int} {q : Rat} (h : q ≤ (n : Rat)) : roundEven q ≤ n := by
  by_contra hc
  have hc : n + 1 ≤ roundEven q := by omega
  have := abs_le.1 (roundEven_err q)
  have h3 : ((n + 1 : Int) : Rat) ≤ roundEven q := by exact_mod_cast hc
  push_cast at h3
  linarith [this.2]

theorem ulp_pos (q : Rat) : 0 < ulp q := by unfold ulp; positivity

theorem rnd_zero : rnd 0 = 0 := by simp [rnd]

theorem rnd_err (q : Rat) : |rnd q - q| ≤ ulp q / 2 := by
  unfold rnd
  split_ifs with h
  · subst h; have := (ulp_pos 0).le; simp; linarith
  · have hu := ulp_pos q
    have := roundEven_err (q / ulp q)
    have e : (roundEven (q / ulp q) : Rat) * ulp q - q
        = ((roundEven (q / ulp q) : Rat) - q / ulp q) * ulp q := by
      field_simp
    rw [e, abs_mul, abs_of_pos hu]
    nlinarith

/-- Rounding does not cross a multiple of the unit. -/
theorem le_rnd {q : Rat} {n : Int} (hq : q ≠ 0) (h : (n : Rat) * ulp q ≤ q) :
    (n : Rat) * ulp q ≤ rnd q := by
  have hu := ulp_pos q
  rw [rnd, if_neg hq]
  have : n ≤ roundEven (q / ulp q) := roundEven_mono (by rwa [le_div_iff₀ hu])
  have : (n : Rat) ≤ roundEven (q / ulp q) := by exact_mod_cast this
  nlinarith

theorem rnd_le {q : Rat} {n : Int} (hq : q ≠ 0) (h : q ≤ (n : Rat) * ulp q) :
    rnd q ≤ (n : Rat) * ulp q := by
  have hu := ulp_pos q
  rw [rnd, if_neg hq]
  have : roundEven (q / ulp q) ≤ n := roundEven_le (by rwa [div_le_iff₀ hu])
  have : (roundEven (q / ulp q) : Rat) ≤ n := by exact_mod_cast this
  nlinarith

theorem zpow_abs_bounds {q : Rat} (hq : q ≠ 0) :
    (2 : Rat) ^ Int.log 2 |q| ≤ |q| ∧ |q| < 2 ^ (Int.log 2 |q| + 1) := by
  have h := abs_pos.2 hq
  exact ⟨Int.zpow_log_le_self (by norm_num) h, Int.lt_zpow_succ_log_self (by norm_num) _⟩

theorem log_lt {q : Rat} (hq : q ≠ 0) {k : Int} (h : |q| < 2 ^ k) : Int.log 2 |q| < k := by
  have := (zpow_abs_bounds hq).1
  exact (zpow_lt_zpow_iff_right₀ (by norm_num : (1 : Rat) < 2)).1 (lt_of_le_of_lt this h)

theorem le_log {q : Rat} (hq : q ≠ 0) {k : Int} (h : 2 ^ k ≤ |q|) : k ≤ Int.log 2 |q| := by
  have := (zpow_abs_bounds hq).2
  have := (zpow_lt_zpow_iff_right₀ (by norm_num : (1 : Rat) < 2)).1 (lt_of_le_of_lt h this)
  omega

/-- A double is a multiple of its own unit. -/
theorem IsDouble.multiple {q : Rat} (h : IsDouble q) : ∃ n : Int, q = n * ulp q := by
  obtain ⟨m, e, rfl, hm, he⟩ := h
  by_cases h0 : m = 0
  · exact ⟨0, by simp [h0]⟩
  set q : Rat := (m : Rat) * 2 ^ e with hqd
  have hq : q ≠ 0 := by rw [hqd]; exact mul_ne_zero (by exact_mod_cast h0) (by positivity)
  have hlog : Int.log 2 |q| < 53 + e := by
    apply log_lt hq
    rw [hqd, abs_mul, abs_of_pos (by positivity : (0 : Rat) < 2 ^ e), zpow_add₀ (by norm_num)]
    have : |(m : Rat)| < 2 ^ 53 := by exact_mod_cast hm
    have h2 : (0 : Rat) < 2 ^ e := by positivity
    have := mul_lt_mul_of_pos_right this h2
    simpa using this
  have hk : max (Int.log 2 |q| - 52) (-1074) ≤ e := by omega
  obtain ⟨d, hd⟩ := Int.le.dest hk
  refine ⟨m * 2 ^ d, ?_⟩
  have : e = (d : Int) + max (Int.log 2 |q| - 52) (-1074) := by omega
  conv_lhs => rw [hqd, this, zpow_add₀ (by norm_num)]
  unfold ulp
  push_cast
  rw [zpow_natCast]
  ring

/-- A double is not changed by rounding. -/
theorem rnd_double {q : Rat} (h : IsDouble q) : rnd q = q := by
  by_cases hq : q = 0
  · rw [hq, rnd_zero]
  · obtain ⟨n, hn⟩ := h.multiple
    exact le_antisymm ((rnd_le hq (le_of_eq hn)).trans (le_of_eq hn.symm))
      ((le_of_eq hn).trans (le_rnd hq (le_of_eq hn.symm)))

/-- Every integer of at most 53 bits is a double. -/
theorem isDouble_int {n : Int} (h : |n| ≤ 2 ^ 53) : IsDouble n := by
  rcases lt_or_eq_of_le h with h | h
  · exact ⟨n, 0, by simp, h, by norm_num⟩
  · rcases (abs_eq (by norm_num)).1 h with h | h
    · exact ⟨2 ^ 52, 1, by rw [h]; norm_num, by norm_num, by norm_num⟩
    · exact ⟨-2 ^ 52, 1, by rw [h]; norm_num, by norm_num, by norm_num⟩

end Verif.Arith
