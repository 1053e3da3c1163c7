import Verif.Arith.Theorems
/-!
# Rounding, sign functions and integer totals (C59, C60)

Models `titus/lib/pfamath.py` (`m.ceil` 113, `m.floor` 175, `m.round` 262, `m.rint` 276, `m.signum` 295,
`m.copysign` 126), `titus/lib/cast.py` (`cast.int` 92, `cast.long` 116) and `titus/lib/array.py`
(`a.sum` 665, `a.product` 685).

Finite doubles are rationals `x` with `IsDouble x`; the sums and differences of doubles are rounded
by `rnd`.  `math.floor` and `math.ceil` give exact integers.
-/

namespace Verif.Lib.Round
open Verif.Arith Verif.Avro

/-! ## Rounding facts -/

/-- The exponent of the unit. -/
def expo (q : Rat) : Int := max (Int.log 2 |q| - 52) (-1074)

theorem grid {q : Rat} {m j : Int} (hj : expo q ≤ j) : ∃ n : Int, (m : Rat) * 2 ^ j = n * ulp q := by
  obtain ⟨d, hd⟩ := Int.le.dest hj
  refine ⟨m * 2 ^ d, ?_⟩
  rw [← hd, add_comm, zpow_add₀ (by norm_num)]
  unfold ulp expo
  push_cast
  rw [zpow_natCast]
  ring

theorem le_rnd_grid {q : Rat} (hq : q ≠ 0) {m j : Int} (hj : expo q ≤ j) (h : (m : Rat) * 2 ^ j ≤ q) :
    (m : Rat) * 2 ^ j ≤ rnd q := by
  obtain ⟨n, hn⟩ := grid (m := m) hj
  rw [hn] at h ⊢; exact le_rnd hq h

theorem rnd_le_grid {q : Rat} (hq : q ≠ 0) {m j : Int} (hj : expo q ≤ j) (h : q ≤ (m : Rat) * 2 ^ j) :
    rnd q ≤ (m : Rat) * 2 ^ j := by
  obtain ⟨n, hn⟩ := grid (m := m) hj
  rw [hn] at h ⊢; exact rnd_le hq h

theorem expo_le {q : Rat} (hq : q ≠ 0) {k : Int} (h : |q| < 2 ^ (k + 53)) (hk : -1074 ≤ k) : expo q ≤ k := by
  have := log_lt hq h
  unfold expo; omega

/-- An integer below a number stays below after rounding. -/
theorem floor_le_rnd {q : Rat} (h : |q| < 2 ^ 53) (n : Int) (hn : (n : Rat) ≤ q) : (n : Rat) ≤ rnd q := by
  by_cases hq : q = 0
  · subst hq; rwa [rnd_zero]
  · have := le_rnd_grid hq (m := n) (j := 0) (expo_le hq (by simpa using h) (by norm_num)) (by simpa using hn)
    simpa using this

theorem rnd_le_int {q : Rat} (h : |q| < 2 ^ 53) (n : Int) (hn : q ≤ (n : Rat)) : rnd q ≤ (n : Rat) := by
  by_cases hq : q = 0
  · subst hq; rwa [rnd_zero]
  · have := rnd_le_grid hq (m := n) (j := 0) (expo_le hq (by simpa using h) (by norm_num)) (by simpa using hn)
    simpa using this

theorem half_le_rnd {q : Rat} (h : |q| < 2 ^ 52) (hn : 1 / 2 ≤ q) : 1 / 2 ≤ rnd q := by
  have hq : q ≠ 0 := by intro h0; rw [h0] at hn; norm_num at hn
  have := le_rnd_grid hq (m := 1) (j := -1) (expo_le hq (by norm_num; linarith) (by norm_num)) (by norm_num; linarith)
  norm_num at this; linarith

theorem rnd_le_half {q : Rat} (h : |q| < 2 ^ 52) (hn : q ≤ 1 / 2) : rnd q ≤ 1 / 2 := by
  by_cases hq : q = 0
  · rw [hq, rnd_zero]; norm_num
  · have := rnd_le_grid hq (m := 1) (j := -1) (expo_le hq (by norm_num; linarith) (by norm_num)) (by norm_num; linarith)
    norm_num at this; linarith

/-- A double is a multiple of `2^e` where `e` is its exponent, which lies below its binade. -/
theorem IsDouble.grid {x : Rat} (h : IsDouble x) : ∃ m : Int, x = m * 2 ^ expo x := h.multiple

theorem mul_zpow_sub {e j : Int} (h : e ≤ j) : ∃ c : Int, (2 : Rat) ^ j = c * 2 ^ e ∧ 0 < c := by
  obtain ⟨d, hd⟩ := Int.le.dest h
  refine ⟨2 ^ d, ?_, by positivity⟩
  rw [← hd, add_comm, zpow_add₀ (by norm_num)]
  push_cast; rw [zpow_natCast]

/-- A multiple of `2^e` of magnitude below `2^(e+53)` is a double. -/
theorem isDouble_of_grid {x : Rat} {m e : Int} (hx : x = m * 2 ^ e) (he : -1074 ≤ e) (hb : |x| < 2 ^ (e + 53)) :
    IsDouble x := by
  refine ⟨m, e, hx, ?_, he⟩
  rw [hx, abs_mul, abs_of_pos (by positivity : (0 : Rat) < 2 ^ e), add_comm, zpow_add₀ (by norm_num)] at hb
  have := lt_of_mul_lt_mul_right hb (by positivity)
  have h2 : ((|m| : Int) : Rat) < ((2 ^ 53 : Int) : Rat) := by push_cast; exact this
  exact_mod_cast h2

/-! ## Model -/

/-- `m.ceil`, `m.floor` on finite doubles; infinities and NaN are returned as they are (113-124, 175-186). -/
def mceil (x : Rat) : Int := ⌈x⌉
def mfloor (x : Rat) : Int := ⌊x⌋

/-- `math.floor(x + 0.5)`. -/
def floorHalf (x : Rat) : Int := ⌊rnd (x + 1 / 2)⌋

/-- A double: finite, infinite or not a number. -/
inductive Dbl where
  | fin (x : Rat)
  | inf (neg : Bool)
  | nan

/-- `m.round` (262-274): the overflow check comes before the conversion to int. -/
def mround (t : IType) : Dbl → Res Int
  | .fin x => checkForOverflow t (floorHalf x) 27190 27191
  | _ => .error (.rt (match t with | .int => 27190 | .long => 27191))

/-- `cast.int` (92-114) and `cast.long` (116-138) of a float; `math.floor` of an infinity raises
OverflowError, which is caught. -/
def castFloat (t : IType) : Dbl → Res Int
  | .fin x =>
    if minVal t ≤ floorHalf x ∧ floorHalf x ≤ maxVal t then .ok (floorHalf x)
    else .error (.rt (match t with | .int => 17020 | .long => 17030))
  | _ => .error (.rt (match t with | .int => 17020 | .long => 17030))

/-- `cast.int` and `cast.long` of an integer. -/
def castInt (t : IType) (x : Int) : Res Int :=
  if minVal t ≤ x ∧ x ≤ maxVal t then .ok x
  else .error (.rt (match t with | .int => 17020 | .long => 17030))

/-- `m.rint` on finite doubles (276-291); the differences are rounded. -/
def mrint (x : Rat) : Int :=
  let up := ⌈x⌉
  let down := ⌊x⌋
  if rnd (up - x) < rnd (x - down) then up
  else if rnd (up - x) > rnd (x - down) then down
  else if up % 2 = 0 then up
  else down

/-- `m.signum` (295-308). -/
def msignum : Dbl → Int
  | .nan => 0
  | .fin x => if x = 0 then 0 else if x > 0 then 1 else -1
  | .inf neg => if neg then -1 else 1

/-- `m.copysign` on integers (126-132). -/
def copysign (mag sign : Int) : Int := |mag| * (if sign < 0 then -1 else 1)

/-- `a.sum` on integers (665-683). -/
def asum (t : IType) (a : List Int) : Res Int :=
  if minVal t ≤ a.foldl (· + ·) 0 ∧ a.foldl (· + ·) 0 ≤ maxVal t then .ok (a.foldl (· + ·) 0)
  else .error (.rt (match t with | .int => 15400 | .long => 15401))

/-- `a.product` on integers (685-704). -/
def aproduct (t : IType) (a : List Int) : Res Int :=
  if minVal t ≤ a.foldl (· * ·) 1 ∧ a.foldl (· * ·) 1 ≤ maxVal t then .ok (a.foldl (· * ·) 1)
  else .error (.rt (match t with | .int => 15410 | .long => 15411))

/-! ## Theorems -/

theorem inRange_iff (t : IType) (n : Int) : InRange t n ↔ minVal t ≤ n ∧ n ≤ maxVal t := by
  cases t <;> simp only [InRange, minVal, maxVal] <;> omega

/-- The shape of the range checks in the library. -/
theorem exact_of_check (t : IType) (n c1 c2 : Int) :
    ExactOrRaises t n c1 c2 (if minVal t ≤ n ∧ n ≤ maxVal t then .ok n
      else .error (.rt (match t with | .int => c1 | .long => c2))) := by
  unfold ExactOrRaises
  rw [inRange_iff]
  by_cases h : minVal t ≤ n ∧ n ≤ maxVal t
  · left; exact ⟨h, if_pos h⟩
  · right; refine ⟨h, ?_⟩; rw [if_neg h]; cases t <;> rfl

/-- `m.ceil` is the least integer above, `m.floor` the greatest below. -/
theorem ceil_floor_spec (x : Rat) :
    x ≤ mceil x ∧ (∀ n : Int, x ≤ n → mceil x ≤ n) ∧ (mfloor x : Rat) ≤ x ∧ ∀ n : Int, (n : Rat) ≤ x → n ≤ mfloor x :=
  ⟨Int.le_ceil x, fun _ h => Int.ceil_le.2 h, Int.floor_le x, fun _ h => Int.le_floor.2 h⟩

/-- The integer nearest to `x`, the greater of two at the same distance. -/
def NearestUp (x : Rat) (n : Int) : Prop := (n : Rat) - 1 / 2 ≤ x ∧ x < n + 1 / 2

theorem nearestUp_unique {x : Rat} {n m : Int} (h : NearestUp x n) (h' : NearestUp x m) : n = m := by
  obtain ⟨h1, h2⟩ := h
  obtain ⟨h3, h4⟩ := h'
  have a : (n : Rat) < m + 1 := by linarith
  have b : (m : Rat) < n + 1 := by linarith
  have a : n < m + 1 := by exact_mod_cast a
  have b : m < n + 1 := by exact_mod_cast b
  omega

/-- `x + 0.5` rounded does not reach the next integer. -/
theorem rnd_half_lt {x : Rat} (hd : IsDouble x) (hb : |x| < 2 ^ 52) (hx : x ≠ 1 / 2 - 2 ^ (-54 : Int)) :
    rnd (x + 1 / 2) < ⌊x + 1 / 2⌋ + 1 := by
  have habs := abs_lt.1 hb
  have hqb : |x + 1 / 2| < 2 ^ 53 := by rw [abs_lt]; norm_num at habs ⊢; constructor <;> linarith [habs.1, habs.2]
  have hlt := Int.lt_floor_add_one (x + 1 / 2)
  by_cases hqd : IsDouble (x + 1 / 2)
  · rw [rnd_double hqd]; exact hlt
  · rcases lt_or_ge x (-1 / 2) with hx1 | hx1
    · -- below -1/2 the sum is a double
      exfalso; apply hqd
      obtain ⟨m, hm⟩ := IsDouble.grid hd
      have hx0 : x ≠ 0 := by intro h; rw [h] at hx1; norm_num at hx1
      have he : expo x ≤ -1 := expo_le hx0 (by norm_num at hb ⊢; exact hb) (by norm_num)
      obtain ⟨c, hc, _⟩ := mul_zpow_sub he
      have hge : -1074 ≤ expo x := by unfold expo; omega
      refine isDouble_of_grid (m := m + c) (e := expo x) ?_ hge ?_
      · push_cast; rw [add_mul, ← hm, ← hc]; norm_num
      · have h1 : |x + 1 / 2| ≤ |x| := by
          rw [abs_of_neg (by linarith : x + 1 / 2 < 0), abs_of_neg (by linarith : x < 0)]; linarith
        refine lt_of_le_of_lt h1 ?_
        have h2 := (zpow_abs_bounds hx0).2
        refine lt_of_lt_of_le h2 (zpow_le_zpow_right₀ (by norm_num) ?_)
        unfold expo; omega
    · rcases lt_or_ge x 0 with hx2 | hx2
      · have hf : ⌊x + 1 / 2⌋ = 0 := by rw [Int.floor_eq_iff]; push_cast; constructor <;> linarith
        rw [hf]
        have : rnd (x + 1 / 2) ≤ 1 / 2 := rnd_le_half (by rw [abs_lt]; norm_num; constructor <;> linarith) (by linarith)
        push_cast; linarith
      · rcases lt_or_ge x (1 / 2) with hx3 | hx3
        · have hf : ⌊x + 1 / 2⌋ = 0 := by rw [Int.floor_eq_iff]; push_cast; constructor <;> linarith
          rw [hf]
          have hq0 : x + 1 / 2 ≠ 0 := by intro h; linarith
          have hle : x + 1 / 2 ≤ ((2 ^ 53 - 1 : Int) : Rat) * 2 ^ (-53 : Int) := by
            by_contra hc
            have hc : ((2 ^ 53 - 1 : Int) : Rat) * 2 ^ (-53 : Int) < x + 1 / 2 := not_le.1 hc
            norm_num at hc
            apply hx
            have hx0 : x ≠ 0 := by intro h; rw [h] at hc; norm_num at hc
            obtain ⟨m, hm⟩ := IsDouble.grid hd
            have hlog1 : (-2 : Int) ≤ Int.log 2 |x| := le_log hx0 (by
              rw [abs_of_nonneg hx2]; norm_num; linarith)
            have hlog2 : Int.log 2 |x| < (-1 : Int) := log_lt hx0 (by rw [abs_of_nonneg hx2]; norm_num; linarith)
            have he : expo x = -54 := by unfold expo; omega
            rw [he] at hm
            have h1 : (2 ^ 53 - 2 : Rat) < m := by
              have : (2 ^ 53 - 2 : Rat) * 2 ^ (-54 : Int) < m * 2 ^ (-54 : Int) := by rw [← hm]; norm_num; linarith
              exact lt_of_mul_lt_mul_right this (by positivity)
            have h2 : (m : Rat) < 2 ^ 53 := by
              have : (m : Rat) * 2 ^ (-54 : Int) < 2 ^ 53 * 2 ^ (-54 : Int) := by rw [← hm]; norm_num; linarith
              exact lt_of_mul_lt_mul_right this (by positivity)
            have h1 : (2 ^ 53 - 2 : Int) < m := by exact_mod_cast h1
            have h2 : m < 2 ^ 53 := by exact_mod_cast h2
            have : m = 2 ^ 53 - 1 := by omega
            rw [hm, this]; norm_num
          have := rnd_le_grid hq0 (expo_le hq0 (k := -53) (by
            rw [abs_of_nonneg (by linarith)]; norm_num; linarith) (by norm_num)) hle
          norm_num at this ⊢; linarith
        · -- at least 1/2
          have hq0 : x + 1 / 2 ≠ 0 := by intro h; linarith
          have hx0 : x ≠ 0 := by intro h; linarith
          obtain ⟨hk1, hk2⟩ := zpow_abs_bounds hq0
          rw [abs_of_nonneg (by linarith : (0 : Rat) ≤ x + 1 / 2)] at hk1 hk2
          set k := Int.log 2 |x + 1 / 2| with hk
          rw [abs_of_nonneg (by linarith : (0 : Rat) ≤ x + 1 / 2)] at hk
          rw [← hk] at hk1 hk2
          have hk0 : 0 ≤ k := by
            have := le_log hq0 (k := 0) (by rw [abs_of_nonneg (by linarith)]; norm_num; linarith)
            rwa [abs_of_nonneg (by linarith : (0 : Rat) ≤ x + 1 / 2), ← hk] at this
          have hk53 : k < 53 := by
            have := log_lt hq0 (k := 53) (by exact_mod_cast hqb)
            rwa [abs_of_nonneg (by linarith : (0 : Rat) ≤ x + 1 / 2), ← hk] at this
          have hxk : x < 2 ^ k := by
            by_contra hc
            have hc : (2 : Rat) ^ k ≤ x := not_lt.1 hc
            apply hqd
            have hlog : Int.log 2 |x| = k := by
              have h1 := le_log hx0 (k := k) (by rwa [abs_of_nonneg hx2])
              have h2 := log_lt hx0 (k := k + 1) (by rw [abs_of_nonneg hx2]; linarith)
              omega
            have hk52 : k < 52 := by
              have := log_lt hx0 (k := 52) (by exact_mod_cast hb)
              omega
            obtain ⟨m, hm⟩ := IsDouble.grid hd
            have he : expo x = k - 52 := by unfold expo; rw [hlog]; omega
            rw [he] at hm
            obtain ⟨c, hcc, _⟩ := mul_zpow_sub (e := k - 52) (j := -1) (by omega)
            refine isDouble_of_grid (m := m + c) (e := k - 52) ?_ (by omega) ?_
            · push_cast; rw [add_mul, ← hm, ← hcc]; norm_num
            · rw [abs_of_nonneg (by linarith)]
              have : k - 52 + 53 = k + 1 := by ring
              rw [this]; exact hk2
          have hn : (2 ^ k.toNat : Int) ≤ ⌊x + 1 / 2⌋ := by
            rw [Int.le_floor]
            push_cast
            have : ((2 : Rat) ^ k.toNat) = 2 ^ k := by rw [← zpow_natCast, Int.toNat_of_nonneg hk0]
            rw [this]; exact hk1
          have hn' : ((2 : Rat) ^ k) ≤ ⌊x + 1 / 2⌋ := by
            have : ((2 : Rat) ^ k.toNat) = 2 ^ k := by rw [← zpow_natCast, Int.toNat_of_nonneg hk0]
            rw [← this]; exact_mod_cast hn
          have herr := (abs_le.1 (rnd_err (x + 1 / 2))).2
          have hulp : ulp (x + 1 / 2) ≤ 1 := by
            have : ulp (x + 1 / 2) ≤ (2 : Rat) ^ (0 : Int) := by
              unfold ulp
              refine zpow_le_zpow_right₀ (by norm_num) ?_
              rw [abs_of_nonneg (by linarith : (0 : Rat) ≤ x + 1 / 2), ← hk]
              omega
            simpa using this
          linarith

/-- Full statement of C59 for rounding: `m.round`, `cast.int` and `cast.long` give the nearest integer,
ties up, for every finite double.  Proved below 2^52, with one double left out; see
`round_small_violation` and `round_large_violation`. -/
theorem floorHalf_nearest_partial {x : Rat} (hd : IsDouble x) (hb : |x| < 2 ^ 52)
    (hx : x ≠ 1 / 2 - 2 ^ (-54 : Int)) : NearestUp x (floorHalf x) := by
  have h1 : floorHalf x = ⌊x + 1 / 2⌋ := by
    have habs := abs_lt.1 hb
    have hqb : |x + 1 / 2| < 2 ^ 53 := by rw [abs_lt]; norm_num at habs ⊢; constructor <;> linarith [habs.1, habs.2]
    unfold floorHalf
    rw [Int.floor_eq_iff]
    exact ⟨floor_le_rnd hqb _ (Int.floor_le _), rnd_half_lt hd hb hx⟩
  have h2 := Int.floor_le (x + 1 / 2)
  have h3 := Int.lt_floor_add_one (x + 1 / 2)
  rw [h1]
  exact ⟨by linarith, by linarith⟩

/-- `m.round` and `cast.int`/`cast.long`: nearest, or the overflow error, with the same guard. -/
theorem round_spec_partial {x : Rat} (hd : IsDouble x) (hb : |x| < 2 ^ 52)
    (hx : x ≠ 1 / 2 - 2 ^ (-54 : Int)) (t : IType) (n : Int) (hn : NearestUp x n) :
    ExactOrRaises t n 27190 27191 (mround t (.fin x)) ∧ ExactOrRaises t n 17020 17030 (castFloat t (.fin x)) := by
  have h : floorHalf x = n := nearestUp_unique (floorHalf_nearest_partial hd hb hx) hn
  refine ⟨?_, ?_⟩
  · simp only [mround, h]; exact checkForOverflow_exact t n 27190 27191
  · simp only [castFloat, h]
    exact exact_of_check t n 17020 17030

/-- Infinities and NaN raise. -/
theorem round_special (t : IType) (neg : Bool) :
    mround t (.inf neg) = mround t .nan ∧ castFloat t (.inf neg) = castFloat t .nan ∧
    mround .int .nan = .error (.rt 27190) ∧ mround .long .nan = .error (.rt 27191) ∧
    castFloat .int .nan = .error (.rt 17020) ∧ castFloat .long .nan = .error (.rt 17030) :=
  ⟨rfl, rfl, rfl, rfl, rfl, rfl⟩

/-- Casts between integer types. -/
theorem castInt_spec (t : IType) (x : Int) : ExactOrRaises t x 17020 17030 (castInt t x) :=
  exact_of_check t x 17020 17030

/-- 0.5 - 2^-54, the greatest double below one half, is rounded to 1 and not to 0. -/
theorem round_small_violation : ∃ x : Rat, IsDouble x ∧ |x| < 1 / 2 ∧ mround .int (.fin x) = .ok 1 ∧
    castFloat .int (.fin x) = .ok 1 ∧ NearestUp x 0 := by
  have hr : rnd ((1 / 2 - 2 ^ (-54 : Int)) + 1 / 2 : Rat) = 1 := by
    set q : Rat := (1 / 2 - 2 ^ (-54 : Int)) + 1 / 2 with hq
    have hqv : q = 1 - 1 / 2 ^ 54 := by rw [hq]; norm_num
    have hq0 : q ≠ 0 := by rw [hqv]; norm_num
    have hl1 := le_log hq0 (k := -1) (by rw [hqv]; norm_num)
    have hl2 := log_lt hq0 (k := 0) (by rw [hqv]; norm_num [abs_lt])
    have hl : Int.log 2 |q| = -1 := by omega
    have hu : ulp q = 2 ^ (-53 : Int) := by unfold ulp; rw [hl]; norm_num
    rw [rnd, if_neg hq0, hu]
    have hd : q / 2 ^ (-53 : Int) = 2 ^ 53 - 1 / 2 := by rw [hqv]; norm_num
    have hf : ⌊(2 ^ 53 - 1 / 2 : Rat)⌋ = 2 ^ 53 - 1 := by rw [Int.floor_eq_iff]; norm_num
    have he : roundEven (2 ^ 53 - 1 / 2 : Rat) = 2 ^ 53 := by
      unfold roundEven; rw [hf]; norm_num
    rw [hd, he]; norm_num
  have hf : floorHalf (1 / 2 - 2 ^ (-54 : Int)) = 1 := by unfold floorHalf; rw [hr]; simp
  refine ⟨1 / 2 - 2 ^ (-54 : Int), ⟨2 ^ 53 - 1, -54, by norm_num, by norm_num, by norm_num⟩,
    by rw [abs_lt]; norm_num, ?_, ?_, ?_⟩
  · simp only [mround, hf]; decide
  · simp only [castFloat, hf]; decide
  · unfold NearestUp; norm_num

/-- The integer 2^52 + 1 is rounded to 2^52 + 2. -/
theorem round_large_violation : ∃ x : Int, IsDouble x ∧ mround .long (.fin x) = .ok (x + 1) ∧
    castFloat .long (.fin x) = .ok (x + 1) := by
  have hr : rnd (((2 ^ 52 + 1 : Int) : Rat) + 1 / 2) = ((2 ^ 52 + 2 : Int) : Rat) := by
    set q : Rat := ((2 ^ 52 + 1 : Int) : Rat) + 1 / 2 with hq
    have hqv : q = 2 ^ 52 + 3 / 2 := by rw [hq]; norm_num
    have hq0 : q ≠ 0 := by rw [hqv]; norm_num
    have hl1 := le_log hq0 (k := 52) (by rw [hqv]; norm_num)
    have hl2 := log_lt hq0 (k := 53) (by rw [hqv]; norm_num [abs_lt])
    have hl : Int.log 2 |q| = 52 := by omega
    have hu : ulp q = 1 := by unfold ulp; rw [hl]; norm_num
    rw [rnd, if_neg hq0, hu, div_one, mul_one, hqv]
    have hf : ⌊(2 ^ 52 + 3 / 2 : Rat)⌋ = 2 ^ 52 + 1 := by rw [Int.floor_eq_iff]; norm_num
    unfold roundEven; rw [hf]; norm_num
  have hf : floorHalf ((2 ^ 52 + 1 : Int) : Rat) = 2 ^ 52 + 2 := by unfold floorHalf; rw [hr]; exact Int.floor_intCast _
  refine ⟨2 ^ 52 + 1, isDouble_int (by norm_num), ?_, ?_⟩
  · simp only [mround, hf]; decide
  · simp only [castFloat, hf]; decide

/-- `m.rint` is the nearest integer, ties to even, for every finite double below 2^52 in magnitude. -/
theorem rint_spec {x : Rat} (hd : IsDouble x) (hb : |x| < 2 ^ 52) : mrint x = roundEven x := by
  have h1 := Int.floor_le x
  have h2 := Int.lt_floor_add_one x
  by_cases hint : (⌊x⌋ : Rat) = x
  · have hc : ⌈x⌉ = ⌊x⌋ := by rw [← hint]; simp
    have : roundEven x = ⌊x⌋ := by unfold roundEven; simp [hint]
    rw [this]
    simp only [mrint, hc]; split_ifs <;> rfl
  · have hlt : (⌊x⌋ : Rat) < x := lt_of_le_of_ne h1 hint
    have hc : ⌈x⌉ = ⌊x⌋ + 1 := by
      rw [Int.ceil_eq_iff]; push_cast; exact ⟨by linarith, by linarith⟩
    have hx0 : x ≠ 0 := by rintro rfl; simp at hint
    obtain ⟨m, hm⟩ := IsDouble.grid hd
    have he : expo x ≤ -1 := expo_le hx0 (by norm_num at hb ⊢; exact hb) (by norm_num)
    have hge : -1074 ≤ expo x := by unfold expo; omega
    -- the smaller difference is exact
    have exact : ∀ (n : Int) (d : Rat), (d = x - n ∨ d = n - x) → |d| ≤ |x| → IsDouble d := by
      intro n d hdn hle
      obtain ⟨c, hcc, _⟩ := mul_zpow_sub (e := expo x) (j := 0) (by omega)
      have hone : (1 : Rat) = c * 2 ^ expo x := by simpa using hcc
      have hub : |d| < 2 ^ (expo x + 53) := by
        refine lt_of_le_of_lt hle (lt_of_lt_of_le (zpow_abs_bounds hx0).2 (zpow_le_zpow_right₀ (by norm_num) ?_))
        unfold expo; omega
      rcases hdn with hdn | hdn
      · refine isDouble_of_grid (m := m - n * c) ?_ hge hub
        push_cast; rw [hdn, sub_mul, ← hm, mul_assoc, ← hone, mul_one]
      · refine isDouble_of_grid (m := n * c - m) ?_ hge hub
        push_cast; rw [hdn, sub_mul, ← hm, mul_assoc, ← hone, mul_one]
    have small : ∀ q : Rat, 0 < q → q < 1 → |q| < 2 ^ 52 := by
      intro q h0 h3; rw [abs_of_pos h0]; norm_num; linarith
    have hdown : x - ⌊x⌋ < 1 / 2 → IsDouble (x - ⌊x⌋) := by
      intro h
      refine exact ⌊x⌋ _ (.inl rfl) ?_
      rw [abs_of_pos (by linarith)]
      rcases le_or_gt 0 ⌊x⌋ with hs | hs
      · have : (0 : Rat) ≤ ⌊x⌋ := by exact_mod_cast hs
        rw [abs_of_nonneg (by linarith)]; linarith
      · have : (⌊x⌋ : Rat) ≤ -1 := by exact_mod_cast (by omega : ⌊x⌋ ≤ -1)
        rw [abs_of_neg (by linarith)]; linarith
    have hup : (⌊x⌋ : Rat) + 1 - x < 1 / 2 → IsDouble ((⌊x⌋ : Rat) + 1 - x) := by
      intro h
      refine exact (⌊x⌋ + 1) _ (.inr (by push_cast; ring)) ?_
      rw [abs_of_pos (by linarith)]
      rcases le_or_gt 0 ⌊x⌋ with hs | hs
      · have : (0 : Rat) ≤ ⌊x⌋ := by exact_mod_cast hs
        rw [abs_of_nonneg (by linarith)]; linarith
      · have : (⌊x⌋ : Rat) ≤ -1 := by exact_mod_cast (by omega : ⌊x⌋ ≤ -1)
        rw [abs_of_neg (by linarith)]; linarith
    simp only [mrint, hc, roundEven]
    push_cast
    rcases lt_trichotomy (x - ⌊x⌋) (1 / 2) with h | h | h
    · have e1 : rnd (x - ⌊x⌋) = x - ⌊x⌋ := rnd_double (hdown h)
      have e2 : 1 / 2 ≤ rnd ((⌊x⌋ : Rat) + 1 - x) := half_le_rnd (small _ (by linarith) (by linarith)) (by linarith)
      rw [e1, if_neg (by linarith), if_pos (by linarith), if_pos h]
    · have e2 : (⌊x⌋ : Rat) + 1 - x = 1 / 2 := by linarith
      rw [h, e2, if_neg (lt_irrefl _), if_neg (lt_irrefl _), if_neg (lt_irrefl _), if_neg (lt_irrefl _)]
      by_cases hp : ⌊x⌋ % 2 = 0
      · rw [if_pos hp, if_neg (by omega)]
      · rw [if_neg hp, if_pos (by omega)]
    · have e1 : rnd ((⌊x⌋ : Rat) + 1 - x) = (⌊x⌋ : Rat) + 1 - x := rnd_double (hup (by linarith))
      have e2 : 1 / 2 ≤ rnd (x - ⌊x⌋) := half_le_rnd (small _ (by linarith) (by linarith)) (by linarith)
      rw [e1, if_pos (by linarith), if_neg (by linarith), if_pos h]

/-- From 2^52 on every double is an integer and `m.rint` returns it. -/
theorem rint_large {x : Rat} (hd : IsDouble x) (hb : 2 ^ 52 ≤ |x|) : mrint x = roundEven x := by
  have hx0 : x ≠ 0 := by rintro rfl; norm_num at hb
  obtain ⟨m, hm⟩ := IsDouble.grid hd
  have hl := le_log hx0 (k := 52) (by exact_mod_cast hb)
  have he : 0 ≤ expo x := by unfold expo; omega
  obtain ⟨c, hc, _⟩ := mul_zpow_sub he
  have hx : x = ((m * 2 ^ (expo x).toNat : Int) : Rat) := by
    have : ((2 : Rat) ^ (expo x).toNat) = 2 ^ expo x := by rw [← zpow_natCast, Int.toNat_of_nonneg he]
    push_cast; rw [this]; exact hm
  generalize m * 2 ^ (expo x).toNat = z at hx
  subst hx
  rw [roundEven_int]
  simp [mrint]

/-- `m.signum`. -/
theorem signum_spec (x : Rat) :
    (x < 0 → msignum (.fin x) = -1) ∧ (x = 0 → msignum (.fin x) = 0) ∧ (0 < x → msignum (.fin x) = 1) ∧
    msignum (.inf true) = -1 ∧ msignum (.inf false) = 1 ∧ msignum .nan = 0 := by
  refine ⟨fun h => ?_, fun h => ?_, fun h => ?_, rfl, rfl, rfl⟩
  · simp only [msignum]; rw [if_neg (ne_of_lt h), if_neg (not_lt.2 (le_of_lt h))]
  · simp [msignum, h]
  · simp only [msignum]; rw [if_neg (ne_of_gt h), if_pos h]

/-- `m.copysign` has the magnitude of one argument and the sign of the other, and stays in range
unless the magnitude is the least integer. -/
theorem copysign_spec_partial (t : IType) (mag sign : Int) (h : InRange t mag) (hm : mag ≠ minVal t) :
    |copysign mag sign| = |mag| ∧ (sign < 0 → copysign mag sign ≤ 0) ∧ (0 ≤ sign → 0 ≤ copysign mag sign) ∧
      InRange t (copysign mag sign) := by
  have h0 := abs_nonneg mag
  have hr : |mag| ≤ maxVal t := by
    rw [abs_le]; cases t <;> simp only [InRange, minVal, maxVal] at * <;> omega
  have hr2 : minVal t ≤ -|mag| := by cases t <;> simp only [minVal, maxVal] at * <;> omega
  have hr3 : minVal t ≤ 0 ∧ 0 ≤ maxVal t := by cases t <;> decide
  unfold copysign
  have hin : ∀ z, minVal t ≤ z → z ≤ maxVal t → InRange t z := by
    intro z h1 h2; exact (inRange_iff t z).2 ⟨h1, h2⟩
  by_cases hs : sign < 0
  · rw [if_pos hs]
    refine ⟨by simp, fun _ => by linarith, fun h => absurd h (not_le.2 hs), hin _ (by linarith) (by linarith)⟩
  · rw [if_neg hs]
    refine ⟨by simp, fun h => absurd h hs, fun _ => by linarith, hin _ (by linarith) (by linarith)⟩

/-- `m.copysign` of the least int has no overflow check: the result is not an int. -/
theorem copysign_violation : InRange .int (-2147483648) ∧ ¬ InRange .int (copysign (-2147483648) 1) := by
  constructor
  · exact ⟨by decide, by decide⟩
  · intro h; exact absurd h.2 (by decide)

theorem foldl_add (a : List Int) (z : Int) : a.foldl (· + ·) z = z + a.sum := by
  induction a generalizing z with
  | nil => simp
  | cons x a ih => simp [ih, add_assoc]

theorem foldl_mul (a : List Int) (z : Int) : a.foldl (· * ·) z = z * a.prod := by
  induction a generalizing z with
  | nil => simp
  | cons x a ih => simp [ih, mul_assoc]

/-- `a.sum` and `a.product` of integers: the exact total, or the overflow error. -/
theorem totals_exact (t : IType) (a : List Int) :
    ExactOrRaises t a.sum 15400 15401 (asum t a) ∧ ExactOrRaises t a.prod 15410 15411 (aproduct t a) := by
  have h1 := foldl_add a 0
  have h2 := foldl_mul a 1
  rw [zero_add] at h1
  rw [one_mul] at h2
  simp only [asum, aproduct, h1, h2]
  exact ⟨exact_of_check t a.sum 15400 15401, exact_of_check t a.prod 15410 15411⟩

/-! ### Non-vacuity -/

example : NearestUp (5 / 2) 3 := by unfold NearestUp; norm_num
example : IsDouble (5 / 2) ∧ |(5 / 2 : Rat)| < 2 ^ 52 ∧ (5 / 2 : Rat) ≠ 1 / 2 - 2 ^ (-54 : Int) :=
  ⟨⟨5, -1, by norm_num, by norm_num, by norm_num⟩, by rw [abs_lt]; norm_num, by norm_num⟩
example : asum .int [2147483647, 1] = .error (.rt 15400) := by decide
example : asum .int [2147483647, 1, -1] = .ok 2147483647 := by decide
example : aproduct .long [3, 4, 5] = .ok 60 := by decide

end Verif.Lib.Round
