import Verif.Arith.Model
/-! # C24, C25, C26, C27 and bitwise operators -/

namespace Verif.Arith
open Verif.Avro

/-! ## C24: integer arithmetic is exact or raises -/

/-- The values of the type. -/
def InRange : IType → Int → Prop
  | .int, n => -2 ^ 31 ≤ n ∧ n < 2 ^ 31
  | .long, n => -2 ^ 63 ≤ n ∧ n < 2 ^ 63

/-- `r` is the exact result `n` when `n` is a value of the type, and the given error otherwise. -/
def ExactOrRaises (t : IType) (n codeInt codeLong : Int) (r : Res Int) : Prop :=
  (InRange t n ∧ r = .ok n) ∨
  (¬ InRange t n ∧ r = .error (.rt (if t = .int then codeInt else codeLong)))

theorem checkForOverflow_exact (t : IType) (n c1 c2 : Int) :
    ExactOrRaises t n c1 c2 (checkForOverflow t n c1 c2) := by
  cases t <;> simp only [ExactOrRaises, checkForOverflow, InRange, minVal, maxVal] <;> split_ifs <;> simp_all <;>
    omega

theorem plus_exact (t : IType) (x y : Int) : ExactOrRaises t (x + y) 18000 18001 (plus t x y) :=
  checkForOverflow_exact ..
theorem minus_exact (t : IType) (x y : Int) : ExactOrRaises t (x - y) 18010 18011 (minus t x y) :=
  checkForOverflow_exact ..
theorem times_exact (t : IType) (x y : Int) : ExactOrRaises t (x * y) 18020 18021 (times t x y) :=
  checkForOverflow_exact ..
theorem negative_exact (t : IType) (x : Int) : ExactOrRaises t (-x) 18050 18051 (negative t x) :=
  checkForOverflow_exact ..
theorem abs_exact (t : IType) (x : Int) : ExactOrRaises t |x| 27020 27021 (mabs t x) := by
  have : |x| = if x < 0 then -x else x := by
    split
    · next h => exact abs_of_neg h
    · next h => exact abs_of_nonneg (by omega)
  rw [this]
  exact checkForOverflow_exact ..

example : plus .int 2147483647 1 = .error (.rt 18000) := by decide
example : plus .long 2147483647 1 = .ok 2147483648 := by decide
example : mabs .long (-9223372036854775808) = .error (.rt 27021) := by decide

/-- What is assumed of C's `pow`: it is exact when the exact result is a double, and overflows only
if the result is above the doubles. -/
structure PowOk (mathpow : Int → Int → Option Flt) : Prop where
  exact : ∀ x y : Int, 0 ≤ y → IsDouble ((x : Rat) ^ y.toNat) → mathpow x y = some (.fin ((x : Rat) ^ y.toNat))

theorem trunc_int (n : Int) : trunc (n : Rat) = n := by
  unfold trunc; split <;> simp

/-- C24 for `**`, as far as doubles are exact: the power is right whenever it has at most 53 bits.
Missing: larger results of type long, see `pow_long_violation`. -/
theorem pow_exact_partial {mathpow : Int → Int → Option Flt} (hp : PowOk mathpow) (t : IType)
    (x y : Int) (hy : 0 ≤ y) (hd : |x ^ y.toNat| ≤ 2 ^ 53) :
    ExactOrRaises t (x ^ y.toNat) 18080 18081 (pow mathpow t x y) := by
  have h1 : powLikeJava mathpow x y = .fin ((x ^ y.toNat : Int) : Rat) := by
    unfold powLikeJava
    rw [if_neg (by omega), hp.exact x y hy]
    · push_cast; rfl
    · have := isDouble_int hd
      push_cast at this
      exact this
  simp only [pow, h1, trunc_int, ExactOrRaises]
  have e : ∀ m n : Int, ((n : Rat) < m ↔ n < m) := fun m n => by exact_mod_cast Iff.rfl
  have e' : ∀ m n : Int, ((n : Rat) > m ↔ n > m) := fun m n => by exact_mod_cast Iff.rfl
  simp only [e, e']
  generalize x ^ y.toNat = n at *
  clear hd h1 e e'
  by_cases h : n < minVal t ∨ maxVal t < n
  · right
    constructor
    · cases t <;> simp only [InRange, minVal, maxVal] at h ⊢ <;> omega
    · simp only [gt_iff_lt, if_pos h]; cases t <;> rfl
  · left
    constructor
    · cases t <;> simp only [InRange, minVal, maxVal] at h ⊢ <;> omega
    · simp only [gt_iff_lt, if_neg h]

/-- An odd number above 2^53 is not a double. -/
theorem not_isDouble_odd {n : Int} (hn : 2 ^ 53 < |n|) (ho : n % 2 = 1) : ¬ IsDouble n := by
  rintro ⟨m, e, he, hm, -⟩
  have h2 : (0 : Rat) < 2 ^ e := by positivity
  rcases Int.le_total e 0 with h | h
  · have hle : (2 : Rat) ^ e ≤ 1 := zpow_le_one_of_nonpos₀ (by norm_num) h
    have : |(n : Rat)| ≤ |(m : Rat)| := by
      rw [he, abs_mul, abs_of_pos h2]
      exact mul_le_of_le_one_right (abs_nonneg _) hle
    have : |n| ≤ |m| := by exact_mod_cast this
    omega
  · obtain ⟨k, rfl⟩ := Int.eq_ofNat_of_zero_le h
    have : n = m * 2 ^ k := by
      have h3 : (n : Rat) = ((m * 2 ^ k : Int) : Rat) := by rw [he]; push_cast; simp
      exact_mod_cast h3
    cases k with
    | zero =>
      simp at this
      rw [this] at hn
      omega
    | succ k =>
      rw [pow_succ, ← mul_assoc] at this
      omega

/-- C24 violated by `**` on longs: 3**39 is in range, but no double equals it, so whatever double
`math.pow` returns, the result is not exact. -/
theorem pow_long_violation (mathpow : Int → Int → Option Flt)
    (hd : ∀ q, mathpow 3 39 = some (.fin q) → IsDouble q) :
    InRange .long (3 ^ 39) ∧ pow mathpow .long 3 39 ≠ .ok (3 ^ 39) := by
  refine ⟨by simp [InRange], fun h => ?_⟩
  simp only [pow, powLikeJava] at h
  rw [if_neg (by decide)] at h
  cases hm : mathpow 3 39 with
  | none => simp [hm] at h
  | some f =>
    cases f with
    | nan => simp [hm] at h
    | ninf => simp [hm] at h
    | pinf => simp [hm] at h
    | fin q =>
      simp only [hm] at h
      split at h
      · cases h
      · simp only [Except.ok.injEq] at h
        -- a double of this size is an integer
        have hq := hd q hm
        have hq' := hq
        obtain ⟨m, e, rfl, hb, -⟩ := hq
        have h2 : (0 : Rat) < 2 ^ e := by positivity
        have he : 0 ≤ e := by
          by_contra hc
          have hle : (2 : Rat) ^ e ≤ 1 := zpow_le_one_of_nonpos₀ (by norm_num) (by omega)
          have h3 : |(m : Rat) * 2 ^ e| ≤ |(m : Rat)| := by
            rw [abs_mul, abs_of_pos h2]
            exact mul_le_of_le_one_right (abs_nonneg _) hle
          have h4 : |(m : Rat)| < 2 ^ 53 := by exact_mod_cast hb
          have h5 := abs_lt.1 (lt_of_le_of_lt h3 h4)
          unfold trunc at h
          split at h
          · have := Int.floor_le ((m : Rat) * 2 ^ e)
            rw [h] at this
            norm_num at this h5
            linarith
          · next hneg =>
            have : ⌈(m : Rat) * 2 ^ e⌉ ≤ 0 := Int.ceil_le.2 (by push_cast; linarith)
            omega
        obtain ⟨k, rfl⟩ := Int.eq_ofNat_of_zero_le he
        have hi : (m : Rat) * 2 ^ (k : Int) = ((m * 2 ^ k : Int) : Rat) := by push_cast; simp
        rw [hi, trunc_int] at h
        rw [hi, h] at hq'
        exact not_isDouble_odd (by norm_num) (by norm_num) hq'

/-- The hypotheses of `pow_exact_partial` hold of exact powers. -/
example : pow (fun x y => some (.fin ((x : Rat) ^ y.toNat))) .int 3 5 = .ok 243 ∧
    pow (fun x y => some (.fin ((x : Rat) ^ y.toNat))) .int 2 31 = .error (.rt 18080) := by
  have hp : PowOk fun x y => some (.fin ((x : Rat) ^ y.toNat)) := ⟨fun _ _ _ _ => rfl⟩
  constructor
  · rcases pow_exact_partial hp .int 3 5 (by decide) (by decide) with ⟨-, h⟩ | ⟨h, -⟩
    · exact h
    · simp [InRange] at h
  · rcases pow_exact_partial hp .int 2 31 (by decide) (by decide) with ⟨h, -⟩ | ⟨-, h⟩
    · simp [InRange] at h
    · exact h

/-! ## C25: modulo and remainder -/

theorem fmod_decomp (x y : Int) : ∃ q, x = q * y + pyMod x y :=
  ⟨x.fdiv y, by have := Int.mul_fdiv_add_fmod x y; unfold pyMod; linarith [Int.mul_comm y (x.fdiv y)]⟩

theorem pyMod_pos {x y : Int} (hy : 0 < y) : 0 ≤ pyMod x y ∧ pyMod x y < y :=
  ⟨Int.fmod_nonneg_of_pos _ hy, Int.fmod_lt_of_pos _ hy⟩

theorem pyMod_neg {x y : Int} (hy : y < 0) : y < pyMod x y ∧ pyMod x y ≤ 0 := by
  have h : pyMod x y = -(pyMod (-x) (-y)) := by
    unfold pyMod
    rw [Int.neg_fmod_neg, Int.neg_neg]
  have := pyMod_pos (x := -x) (y := -y) (by omega)
  omega

/-- C25 for `%`: congruent, smaller than the divisor, with its sign. -/
theorem modulo_spec (x y : Int) (hy : y ≠ 0) :
    ∃ r, modulo x y = .ok r ∧ y ∣ x - r ∧ |r| < |y| ∧ (0 < y → 0 ≤ r) ∧ (y < 0 → r ≤ 0) := by
  refine ⟨pyMod x y, by simp [modulo, hy], ?_, ?_, ?_, ?_⟩
  · obtain ⟨q, hq⟩ := fmod_decomp x y
    exact ⟨q, by linarith [Int.mul_comm q y]⟩
  · rcases Int.lt_or_gt_of_ne hy with h | h
    · have := pyMod_neg (x := x) h
      rw [abs_of_nonpos this.2, abs_of_neg h]; omega
    · have := pyMod_pos (x := x) h
      rw [abs_of_nonneg this.1, abs_of_pos h]; omega
  · exact fun h => (pyMod_pos h).1
  · exact fun h => (pyMod_neg h).2

/-- C25 for `%%`: congruent, smaller than the divisor, with the sign of the dividend. -/
theorem remainder_spec (x y : Int) (hy : y ≠ 0) :
    ∃ r, remainder x y = .ok r ∧ y ∣ x - r ∧ |r| < |y| ∧ (0 ≤ x → 0 ≤ r) ∧ (x ≤ 0 → r ≤ 0) := by
  obtain ⟨q, hq⟩ := fmod_decomp x y
  have hx0 : x = 0 → pyMod x y = 0 := by rintro rfl; simp [pyMod]
  simp only [remainder, hy, if_false]
  rcases Int.lt_or_gt_of_ne hy with h | h
  · have hb := pyMod_neg (x := x) h
    rw [if_neg (by omega), if_pos h]
    split
    · refine ⟨_, rfl, ⟨q + 1, ?_⟩, ?_, ?_, ?_⟩
      · linarith [Int.mul_comm q y]
      · rw [abs_of_neg h, abs_lt]; omega
      · omega
      · omega
    · refine ⟨_, rfl, ⟨q, by linarith [Int.mul_comm q y]⟩, ?_, ?_, ?_⟩
      · rw [abs_of_neg h, abs_lt]; omega
      · by_cases hx : x = 0
        · rw [hx0 hx]; omega
        · omega
      · omega
  · have hb := pyMod_pos (x := x) h
    split
    · refine ⟨_, rfl, ⟨q + 1, ?_⟩, ?_, ?_, ?_⟩
      · rw [if_neg (by omega)]; linarith [Int.mul_comm q y]
      · rw [if_neg (by omega), abs_of_pos h, abs_lt]; omega
      · omega
      · rw [if_neg (by omega)]; omega
    · rw [if_neg (by omega)]
      refine ⟨_, rfl, ⟨q, by linarith [Int.mul_comm q y]⟩, ?_, ?_, ?_⟩
      · rw [abs_of_pos h, abs_lt]; omega
      · omega
      · by_cases hx : x = 0
        · rw [hx0 hx]; omega
        · omega

/-- C25: division by zero raises the documented errors. -/
theorem mod_zero (x : Int) :
    modulo x 0 = .error (.rt 18060) ∧ remainder x 0 = .error (.rt 18070) := by
  simp [modulo, remainder]

/-- `%%` is the remainder of division truncated towards zero. -/
theorem remainder_eq_tmod (x y : Int) (hy : y ≠ 0) : remainder x y = .ok (Int.tmod x y) := by
  obtain ⟨r, hr, ⟨k, hk⟩, hb, hp, hn⟩ := remainder_spec x y hy
  rw [hr]
  congr 1
  have h1 := Int.mul_tdiv_add_tmod x y
  have hb' : |x.tmod y| < |y| := by
    have h5 : (x.tmod y).natAbs < y.natAbs := by
      rw [Int.natAbs_tmod]
      exact Nat.mod_lt _ (by omega)
    rw [Int.abs_eq_natAbs, Int.abs_eq_natAbs]
    omega
  have hp' : 0 ≤ x → 0 ≤ x.tmod y := fun h => Int.tmod_nonneg y h
  have hn' : x ≤ 0 → x.tmod y ≤ 0 := by
    intro h
    have := Int.tmod_nonneg y (a := -x) (by omega)
    rw [Int.neg_tmod] at this
    omega
  have hd : y ∣ r - x.tmod y := ⟨x.tdiv y - k, by
    have e : y * (x.tdiv y - k) = y * x.tdiv y - y * k := by ring
    rw [e]; linarith⟩
  have hlt : |r - x.tmod y| < |y| := by
    have a1 := abs_lt.1 hb
    have a2 := abs_lt.1 hb'
    rw [abs_lt]
    rcases Int.le_total 0 x with h | h
    · have := hp h; have := hp' h; omega
    · have := hn h; have := hn' h; omega
  have := Int.eq_zero_of_abs_lt_dvd ((abs_dvd y _).2 hd) hlt
  omega

example : modulo (-7) 3 = .ok 2 ∧ remainder (-7) 3 = .ok (-1) ∧ modulo 7 (-3) = .ok (-2) ∧
    remainder 7 (-3) = .ok 1 := by decide

/-! ## C26: integer division -/

theorem roundEven_neg (q : Rat) : roundEven (-q) = -roundEven q := by
  by_cases hi : ∃ n : Int, q = n
  · obtain ⟨n, rfl⟩ := hi
    rw [show -(n : Rat) = ((-n : Int) : Rat) from by push_cast; ring, roundEven_int, roundEven_int]
  · have hf : ⌊-q⌋ = -⌊q⌋ - 1 := by
      rw [Int.floor_eq_iff]
      have h1 := Int.floor_le q
      have h2 := Int.lt_floor_add_one q
      have h3 : (⌊q⌋ : Rat) ≠ q := fun h => hi ⟨_, h.symm⟩
      have h4 := lt_of_le_of_ne h1 h3
      push_cast
      constructor <;> linarith
    simp only [roundEven, hf]
    push_cast
    have h1 := Int.floor_le q
    have h2 := Int.lt_floor_add_one q
    split_ifs <;> first | omega | (exfalso; linarith) | skip

theorem ulp_neg (q : Rat) : ulp (-q) = ulp q := by unfold ulp; rw [abs_neg]

theorem rnd_neg (q : Rat) : rnd (-q) = -rnd q := by
  unfold rnd
  by_cases h : q = 0
  · simp [h]
  · rw [if_neg (by simpa using h), if_neg h, ulp_neg, neg_div, roundEven_neg]
    push_cast; ring

theorem trunc_neg (q : Rat) : trunc (-q) = -trunc q := by
  unfold trunc
  by_cases h0 : q = 0
  · simp [h0]
  · split_ifs with a b b
    · exfalso; apply h0; linarith
    · rw [Int.floor_neg]
    · rw [Int.ceil_neg]
    · exfalso; linarith

/-- Division of naturals of at most 53 bits in double arithmetic. -/
theorem floor_rnd_div (a b : Nat) (ha : a ≤ 2 ^ 53) (hb : b ≤ 2 ^ 53) (hb0 : 0 < b) :
    ⌊rnd ((a : Rat) / b)⌋ = ((a / b : Nat) : Int) := by
  have hbQ : (0 : Rat) < b := by exact_mod_cast hb0
  by_cases hdvd : b ∣ a
  · obtain ⟨n, rfl⟩ := hdvd
    have hn : n ≤ 2 ^ 53 := le_trans (Nat.le_mul_of_pos_left n hb0) ha
    rw [Nat.mul_div_cancel_left n hb0]
    have e : ((b * n : Nat) : Rat) / b = ((n : Int) : Rat) := by
      push_cast; field_simp
    rw [e, rnd_double (isDouble_int (by rw [abs_of_nonneg (by omega)]; omega)), Int.floor_intCast]
  · set n := a / b with hn
    have h1 : b * n < a := by
      have := Nat.div_mul_le_self a b
      have h2 : a % b ≠ 0 := fun h => hdvd (Nat.dvd_of_mod_eq_zero h)
      have h3 := Nat.div_add_mod a b
      have : b * (a / b) = b * n := rfl
      omega
    have h2 : a + 1 ≤ b * (n + 1) := by
      have := Nat.lt_mul_div_succ a hb0
      exact this
    set q : Rat := (a : Rat) / b with hq
    have ha0 : 0 < a := by omega
    have hq0 : 0 < q := div_pos (by exact_mod_cast ha0) hbQ
    have hqn : (n : Rat) < q := by
      rw [hq, lt_div_iff₀ hbQ]; exact_mod_cast (by rw [Nat.mul_comm]; exact h1)
    have hqn1 : q ≤ (n : Rat) + 1 - 1 / b := by
      rw [hq, div_le_iff₀ hbQ]
      have : ((a : Rat) + 1) ≤ b * (n + 1) := by exact_mod_cast h2
      have e : ((n : Rat) + 1 - 1 / b) * b = b * (n + 1) - 1 := by field_simp
      rw [e]; linarith
    have hL := zpow_abs_bounds (ne_of_gt hq0)
    rw [abs_of_pos hq0] at hL
    set L := Int.log 2 q with hLd
    have hu : ulp q = 2 ^ (max (L - 52) (-1074)) := by unfold ulp; rw [abs_of_pos hq0]
    -- half a unit is less than 1/b
    have hhalf : ulp q / 2 < 1 / b := by
      rw [hu, lt_div_iff₀ hbQ]
      rcases lt_or_ge L 0 with hneg | hpos
      · have hk : max (L - 52) (-1074) ≤ -53 := by omega
        have h4 : (2 : Rat) ^ (max (L - 52) (-1074)) ≤ 2 ^ (-53 : Int) :=
          zpow_le_zpow_right₀ (by norm_num) hk
        have h5 : (b : Rat) ≤ 2 ^ 53 := by exact_mod_cast hb
        have h6 : (0 : Rat) < 2 ^ (max (L - 52) (-1074)) := by positivity
        have h7 : (2 : Rat) ^ (max (L - 52) (-1074)) * b ≤ 2 ^ (-53 : Int) * 2 ^ 53 :=
          mul_le_mul h4 h5 hbQ.le (by positivity)
        norm_num at h7 ⊢
        linarith
      · obtain ⟨l, hl⟩ := Int.eq_ofNat_of_zero_le hpos
        have hk : max (L - 52) (-1074) = L - 52 := by omega
        rw [hk]
        -- 2^L ≤ n
        have h4 : 2 ^ l ≤ n := by
          have h5 : ((2 ^ l : Nat) : Rat) < ((n + 1 : Nat) : Rat) := by
            have h6 : (0 : Rat) < 1 / b := by positivity
            have h7 : (2 : Rat) ^ l ≤ q := by
              have := hL.1; rw [hl] at this; simpa using this
            push_cast; linarith
          have : 2 ^ l < n + 1 := by exact_mod_cast h5
          omega
        have h5 : b * 2 ^ l < 2 ^ 53 := by
          calc b * 2 ^ l ≤ b * n := Nat.mul_le_mul_left _ h4
            _ < a := h1
            _ ≤ 2 ^ 53 := ha
        have h6 : (b : Rat) * 2 ^ l < 2 ^ 53 := by exact_mod_cast h5
        have e : (2 : Rat) ^ (L - 52) = 2 ^ l * (1 / 2 ^ 52) := by
          rw [hl, zpow_sub₀ (by norm_num)]
          norm_num
          ring
        rw [e]
        norm_num at h6 ⊢
        linarith
    have herr := abs_le.1 (rnd_err q)
    rw [Int.floor_eq_iff]
    constructor
    · -- n ≤ rnd q
      rcases Nat.eq_zero_or_pos n with h0 | hpos
      · have := le_rnd (n := 0) (ne_of_gt hq0) (by simpa using hq0.le)
        rw [h0]; simpa using this
      · have hL0 : 0 ≤ L := by
          have := le_log (ne_of_gt hq0) (k := 0) (by
            rw [abs_of_pos hq0]
            have : (1 : Rat) ≤ n := by exact_mod_cast hpos
            simp; linarith)
          rw [abs_of_pos hq0] at this; exact this
        have hL52 : L ≤ 52 := by
          have h4 : q < 2 ^ (53 : Int) := by
            rw [hq, div_lt_iff₀ hbQ]
            have h5 : a < 2 ^ 53 * b := by
              by_contra hc
              have : b = 1 := by
                rcases Nat.lt_or_ge b 2 with h | h
                · omega
                · have : 2 ^ 53 * 2 ≤ 2 ^ 53 * b := Nat.mul_le_mul_left _ h
                  omega
              exact hdvd (this ▸ one_dvd a)
            exact_mod_cast h5
          have := log_lt (ne_of_gt hq0) (k := 53) (by rw [abs_of_pos hq0]; exact h4)
          rw [abs_of_pos hq0] at this
          omega
        obtain ⟨l, hl⟩ := Int.eq_ofNat_of_zero_le hL0
        have hk : max (L - 52) (-1074) = L - 52 := by omega
        have hmul : (n : Rat) = ((n * 2 ^ (52 - l) : Int) : Rat) * ulp q := by
          rw [hu, hk, hl]
          have h52 : l ≤ 52 := by omega
          have e1 : (2 : Rat) ^ ((l : Int) - 52) = ((2 : Rat) ^ (52 - l))⁻¹ := by
            rw [← zpow_natCast, ← zpow_neg]
            congr 1
            omega
          have e1' : (2 : Rat) ^ (Int.ofNat l - 52) = ((2 : Rat) ^ (52 - l))⁻¹ := e1
          first
            | rw [e1]
            | rw [e1']
          push_cast
          field_simp
        have := le_rnd (n := n * 2 ^ (52 - l)) (ne_of_gt hq0) (by rw [← hmul]; exact hqn.le)
        rw [← hmul] at this
        exact_mod_cast this
    · push_cast
      linarith [herr.2]

/-- C26, for operands of at most 53 bits: the quotient truncated towards zero.  Missing: longs
beyond 2^53 (`floorDivide_violation`), and the smallest int and long divided by -1
(`floorDivide_range_violation`). -/
theorem floorDivide_exact_partial (x y : Int) (hx : |x| ≤ 2 ^ 53) (hy : |y| ≤ 2 ^ 53) (hy0 : y ≠ 0) :
    floorDivide x y = .ok (Int.tdiv x y) := by
  simp only [floorDivide, hy0, if_false]
  congr 1
  rw [rnd_double (isDouble_int hx), rnd_double (isDouble_int hy)]
  have pos : ∀ a b : Nat, a ≤ 2 ^ 53 → b ≤ 2 ^ 53 → 0 < b →
      trunc (rnd ((a : Rat) / b)) = ((a / b : Nat) : Int) := by
    intro a b ha hb hb0
    have h := floor_rnd_div a b ha hb hb0
    unfold trunc
    rw [if_pos, h]
    have h1 := Int.floor_le (rnd ((a : Rat) / b))
    rw [h] at h1
    have h2 : (0 : Rat) ≤ (((a / b : Nat) : Int) : Rat) := by exact_mod_cast Nat.zero_le _
    linarith
  have hxn : x.natAbs ≤ 2 ^ 53 := by rw [Int.abs_eq_natAbs] at hx; omega
  have hyn : y.natAbs ≤ 2 ^ 53 := by rw [Int.abs_eq_natAbs] at hy; omega
  have hyp : 0 < y.natAbs := by omega
  have main := pos _ _ hxn hyn hyp
  have h1 := Int.natAbs_eq x
  have h2 := Int.natAbs_eq y
  generalize x.natAbs = a at *
  generalize y.natAbs = b at *
  rcases h1 with rfl | rfl <;> rcases h2 with rfl | rfl
  · rw [Int.cast_natCast, Int.cast_natCast, main]; rfl
  · rw [Int.tdiv_neg]; push_cast; rw [div_neg, rnd_neg, trunc_neg, main]; rfl
  · rw [Int.neg_tdiv]; push_cast; rw [neg_div, rnd_neg, trunc_neg, main]; rfl
  · rw [Int.neg_tdiv, Int.tdiv_neg, Int.neg_neg]; push_cast
    rw [neg_div_neg_eq, main]; rfl

/-- C26, for operands of at most 53 bits: quotient and remainder belong together. -/
theorem div_rem_partial (x y : Int) (hx : |x| ≤ 2 ^ 53) (hy : |y| ≤ 2 ^ 53) (hy0 : y ≠ 0) :
    ∃ q r, floorDivide x y = .ok q ∧ remainder x y = .ok r ∧ q * y + r = x := by
  refine ⟨_, _, floorDivide_exact_partial x y hx hy hy0, remainder_eq_tmod x y hy0, ?_⟩
  have := Int.mul_tdiv_add_tmod x y
  linarith [Int.mul_comm y (x.tdiv y)]

theorem div_zero (x : Int) : floorDivide x 0 = .error (.rt 18040) := by simp [floorDivide]

/-- Every int (32 bits) is covered by `floorDivide_exact_partial`. -/
theorem floorDivide_int (x y : Int) (hx : InRange .int x) (hy : InRange .int y) (hy0 : y ≠ 0) :
    floorDivide x y = .ok (Int.tdiv x y) := by
  simp only [InRange] at hx hy
  exact floorDivide_exact_partial x y (abs_le.2 (by omega)) (abs_le.2 (by omega)) hy0

theorem rnd_two53_succ : rnd ((2 ^ 53 + 1 : Int) : Rat) = ((2 ^ 53 : Int) : Rat) := by
  have hq : ((2 ^ 53 + 1 : Int) : Rat) ≠ 0 := by norm_num
  have hlog : Int.log 2 |((2 ^ 53 + 1 : Int) : Rat)| = 53 := by
    apply le_antisymm
    · have := log_lt hq (k := 54) (by norm_num)
      omega
    · exact le_log hq (by norm_num)
  have hu : ulp ((2 ^ 53 + 1 : Int) : Rat) = 2 := by
    unfold ulp; rw [hlog]; norm_num
  rw [rnd, if_neg hq, hu]
  have hf : ⌊((2 ^ 53 + 1 : Int) : Rat) / 2⌋ = 2 ^ 52 := by
    rw [Int.floor_eq_iff]; norm_num
  have hr : roundEven (((2 ^ 53 + 1 : Int) : Rat) / 2) = 2 ^ 52 := by
    simp only [roundEven, hf]
    norm_num
  rw [hr]; norm_num

/-- C26 violated: 9007199254740993 // 1 is 9007199254740992. -/
theorem floorDivide_violation : ∃ x y : Int, InRange .long x ∧ InRange .long y ∧ y ≠ 0 ∧
    floorDivide x y = .ok 9007199254740992 ∧ Int.tdiv x y = 9007199254740993 := by
  refine ⟨2 ^ 53 + 1, 1, by simp [InRange], by simp [InRange], by decide, ?_, by decide⟩
  simp only [floorDivide, one_ne_zero, if_false]
  have h1 : rnd ((1 : Int) : Rat) = 1 := by
    rw [rnd_double (isDouble_int (by norm_num))]; norm_num
  rw [rnd_two53_succ, h1, div_one, rnd_double (isDouble_int (by norm_num)), trunc_int]
  norm_num

/-- C26 violated: the smallest int divided by -1 is not an int, and no error is raised. -/
theorem floorDivide_range_violation : ∃ x y : Int, InRange .int x ∧ InRange .int y ∧
    ∃ q, floorDivide x y = .ok q ∧ ¬ InRange .int q := by
  refine ⟨-2 ^ 31, -1, by simp [InRange], by simp [InRange], 2 ^ 31, ?_, by simp [InRange]⟩
  rw [floorDivide_exact_partial _ _ (by norm_num) (by norm_num) (by norm_num)]
  decide

example : floorDivide (-7) 2 = .ok (-3) := by
  rw [floorDivide_exact_partial _ _ (by norm_num) (by norm_num) (by norm_num)]; decide

/-! ## C27: logic -/

/-- Kleene's strong three-valued logic; `none` is unknown. -/
def kand : Option Bool → Option Bool → Option Bool
  | some false, _ => some false
  | _, some false => some false
  | some true, some true => some true
  | _, _ => none
def kor : Option Bool → Option Bool → Option Bool
  | some true, _ => some true
  | _, some true => some true
  | some false, some false => some false
  | _, _ => none
def knot : Option Bool → Option Bool
  | some b => some (!b)
  | none => none

/-- The truth value of run-time data of type union(boolean, null), tagged or not. -/
inductive Truth : Val → Option Bool → Prop
  | null : Truth .null none
  | plain (b : Bool) : Truth (.bool b) (some b)
  | tag (b : Bool) : Truth (.dict [("boolean", .bool b)]) (some b)

section
variable {S : Type} {x y : Thunk S} {s s1 s2 : S} {v w : Val} {a b : Option Bool}

theorem truth_isBool (h : Truth v a) (c : Bool) : isBool c v = decide (a = some c) := by
  cases h <;> cases c <;> simp [isBool] <;> rename_i b <;> cases b <;> simp

theorem truth_tagged (c : Bool) : Truth (tagged c) (some c) := .tag c

/-- C27: `&&&` computes Kleene's conjunction when both arguments give values; a false first argument
decides and the second is not evaluated. -/
theorem kleeneAnd_spec (hx : x s = (.ok v, s1)) (hv : Truth v a) (hy : y s1 = (.ok w, s2))
    (hw : Truth w b) :
    ∃ r, Truth r (kand a b) ∧
      kleeneAnd x y s = (.ok r, if a = some false then s1 else s2) := by
  simp only [kleeneAnd, hx, hy, truth_isBool hv, truth_isBool hw]
  clear hx hy hv hw
  rcases a with _ | _ | _ <;> rcases b with _ | _ | _ <;> simp [kand] <;>
    first | exact .null | exact .tag _

theorem kleeneOr_spec (hx : x s = (.ok v, s1)) (hv : Truth v a) (hy : y s1 = (.ok w, s2))
    (hw : Truth w b) :
    ∃ r, Truth r (kor a b) ∧
      kleeneOr x y s = (.ok r, if a = some true then s1 else s2) := by
  simp only [kleeneOr, hx, hy, truth_isBool hv, truth_isBool hw]
  clear hx hy hv hw
  rcases a with _ | _ | _ <;> rcases b with _ | _ | _ <;> simp [kor] <;>
    first | exact .null | exact .tag _

theorem kleeneNot_spec (hv : Truth v a) : Truth (kleeneNot v) (knot a) := by
  simp only [kleeneNot, truth_isBool hv]
  clear hv
  rcases a with _ | _ | _ <;> simp [knot] <;> first | exact .null | exact .tag _

/-- C27: a deciding first argument hides whatever the second argument would do (raise, or change
the state). -/
theorem kleeneAnd_lazy (hx : x s = (.ok v, s1)) (hv : Truth v (some false)) :
    ∃ r, Truth r (some false) ∧ kleeneAnd x y s = (.ok r, s1) :=
  ⟨tagged false, .tag _, by simp [kleeneAnd, hx, truth_isBool hv]⟩

theorem kleeneOr_lazy (hx : x s = (.ok v, s1)) (hv : Truth v (some true)) :
    ∃ r, Truth r (some true) ∧ kleeneOr x y s = (.ok r, s1) :=
  ⟨tagged true, .tag _, by simp [kleeneOr, hx, truth_isBool hv]⟩

/-- C27: an argument that is evaluated and raises makes the call raise. -/
theorem kleene_raises {e : Err} (hx : x s = (.error e, s1)) :
    kleeneAnd x y s = (.error e, s1) ∧ kleeneOr x y s = (.error e, s1) ∧
    logicalAnd x y s = (.error e, s1) ∧ logicalOr x y s = (.error e, s1) := by
  simp [kleeneAnd, kleeneOr, logicalAnd, logicalOr, hx]

theorem kleene_raises_second {e : Err} (hx : x s = (.ok v, s1)) (hv : Truth v a)
    (hy : y s1 = (.error e, s2)) :
    (a ≠ some false → kleeneAnd x y s = (.error e, s2)) ∧
    (a ≠ some true → kleeneOr x y s = (.error e, s2)) := by
  constructor
  · intro h; simp [kleeneAnd, hx, hy, truth_isBool hv, h]
  · intro h; simp [kleeneOr, hx, hy, truth_isBool hv, h]

/-- C27: `&&` and `||` are the boolean operations, the second argument being evaluated only when the
first does not decide. -/
theorem logicalAnd_spec {c : Bool} (hx : x s = (.ok (.bool c), s1)) :
    logicalAnd x y s = if c then y s1 else (.ok (.bool false), s1) := by
  cases c <;> simp [logicalAnd, hx]

theorem logicalOr_spec {c : Bool} (hx : x s = (.ok (.bool c), s1)) :
    logicalOr x y s = if c then (.ok (.bool true), s1) else y s1 := by
  cases c <;> simp [logicalOr, hx]

end

/-- C27: the three-valued operators agree with the two-valued ones on booleans. -/
theorem kleene_agrees (a b : Bool) :
    kand (some a) (some b) = some (a && b) ∧ kor (some a) (some b) = some (a || b) ∧
    knot (some a) = some (!a) := by
  cases a <;> cases b <;> simp [kand, kor, knot]

theorem xor_spec (a b : Bool) : logicalXor a b = true ↔ a ≠ b := by
  cases a <;> cases b <;> simp [logicalXor]

/-- C27: the laws of the three-valued operators. -/
theorem kleene_laws (a b c : Option Bool) :
    kand a b = kand b a ∧ kor a b = kor b a ∧
    kand (kand a b) c = kand a (kand b c) ∧ kor (kor a b) c = kor a (kor b c) ∧
    kand a (kor b c) = kor (kand a b) (kand a c) ∧ kor a (kand b c) = kand (kor a b) (kor a c) ∧
    knot (kand a b) = kor (knot a) (knot b) ∧ knot (kor a b) = kand (knot a) (knot b) ∧
    knot (knot a) = a := by
  rcases a with _ | _ | _ <;> rcases b with _ | _ | _ <;> rcases c with _ | _ | _ <;> decide

/-- C27: the null value is the only unknown. -/
theorem truth_total (v : Val) (a b : Option Bool) (h : Truth v a) (h' : Truth v b) : a = b := by
  cases h <;> cases h' <;> rfl

/-- A run where the second argument would raise and would change the state. -/
example : kleeneAnd (S := Nat) (fun s => (.ok (.dict [("boolean", .bool false)]), s + 1))
    (fun s => (.error (.rt 5), s + 10)) 0 = (.ok (.dict [("boolean", .bool false)]), 1) ∧
  kleeneOr (S := Nat) (fun s => (.ok .null, s + 1)) (fun s => (.ok (.bool false), s + 10)) 0
    = (.ok .null, 11) := by decide +kernel

/-! ## C57: bitwise operators -/

theorem bitwise_range {n : Nat} {x y : Int} (hx : -2 ^ n ≤ x ∧ x < 2 ^ n) (hy : -2 ^ n ≤ y ∧ y < 2 ^ n) :
    (-2 ^ n ≤ bitAnd x y ∧ bitAnd x y < 2 ^ n) ∧ (-2 ^ n ≤ bitOr x y ∧ bitOr x y < 2 ^ n) ∧
    (-2 ^ n ≤ bitXor x y ∧ bitXor x y < 2 ^ n) := by
  have pos : ∀ k : Nat, ((k : Int) < 2 ^ n) ↔ k < 2 ^ n := fun k => by exact_mod_cast Iff.rfl
  have pos' : ∀ k : Nat, k < 2 ^ n → -2 ^ n ≤ Int.ofNat k ∧ Int.ofNat k < 2 ^ n := by
    intro k hk
    have := (pos k).2 hk
    have h0 : (0 : Int) < 2 ^ n := by positivity
    constructor
    · have : (0 : Int) ≤ Int.ofNat k := Int.natCast_nonneg k
      omega
    · exact this
  have neg' : ∀ k : Nat, k < 2 ^ n → -2 ^ n ≤ Int.negSucc k ∧ Int.negSucc k < 2 ^ n := by
    intro k hk
    have := (pos k).2 hk
    have h0 : (0 : Int) < 2 ^ n := by positivity
    omega
  have px : ∀ k : Nat, (-2 ^ n ≤ Int.ofNat k ∧ Int.ofNat k < 2 ^ n) → k < 2 ^ n :=
    fun k h => (pos k).1 h.2
  have nx : ∀ k : Nat, (-2 ^ n ≤ Int.negSucc k ∧ Int.negSucc k < 2 ^ n) → k < 2 ^ n := by
    intro k h
    apply (pos k).1
    omega
  cases x with
  | ofNat a =>
    have ha := px a hx
    cases y with
    | ofNat b =>
      have hb := px b hy
      exact ⟨pos' _ (Nat.bitwise_lt_two_pow ha hb), pos' _ (Nat.bitwise_lt_two_pow ha hb),
        pos' _ (Nat.bitwise_lt_two_pow ha hb)⟩
    | negSucc b =>
      have hb := nx b hy
      exact ⟨pos' _ (Nat.bitwise_lt_two_pow ha hb), neg' _ (Nat.bitwise_lt_two_pow hb ha),
        neg' _ (Nat.bitwise_lt_two_pow ha hb)⟩
  | negSucc a =>
    have ha := nx a hx
    cases y with
    | ofNat b =>
      have hb := px b hy
      exact ⟨pos' _ (Nat.bitwise_lt_two_pow hb ha), neg' _ (Nat.bitwise_lt_two_pow ha hb),
        neg' _ (Nat.bitwise_lt_two_pow ha hb)⟩
    | negSucc b =>
      have hb := nx b hy
      exact ⟨neg' _ (Nat.bitwise_lt_two_pow ha hb), neg' _ (Nat.bitwise_lt_two_pow ha hb),
        pos' _ (Nat.bitwise_lt_two_pow ha hb)⟩

/-- C57: the results are values of the type, so no overflow check is needed. -/
theorem bitwise_inRange (t : IType) (x y : Int) (hx : InRange t x) (hy : InRange t y) :
    InRange t (bitAnd x y) ∧ InRange t (bitOr x y) ∧ InRange t (bitXor x y) ∧
      InRange t (bitNot x) := by
  cases t with
  | int =>
    obtain ⟨h1, h2, h3⟩ := bitwise_range (n := 31) hx hy
    refine ⟨h1, h2, h3, ?_⟩
    simp only [InRange, bitNot] at *
    omega
  | long =>
    obtain ⟨h1, h2, h3⟩ := bitwise_range (n := 63) hx hy
    refine ⟨h1, h2, h3, ?_⟩
    simp only [InRange, bitNot] at *
    omega

/-- C57: each bit of the result is the boolean operation on the bits of the arguments. -/
theorem bitwise_bits (x y : Int) (i : Nat) :
    (bitAnd x y).testBit i = (x.testBit i && y.testBit i) ∧
    (bitOr x y).testBit i = (x.testBit i || y.testBit i) ∧
    (bitXor x y).testBit i = Bool.xor (x.testBit i) (y.testBit i) ∧
    (bitNot x).testBit i = !(x.testBit i) := by
  refine ⟨Int.testBit_land .., Int.testBit_lor .., Int.testBit_lxor .., ?_⟩
  have : bitNot x = Int.lnot x := by
    cases x <;> simp [bitNot, Int.lnot] <;> omega
  rw [this, Int.testBit_lnot]

example : bitAnd (-6) 11 = 10 ∧ bitOr (-6) 11 = -5 ∧ bitXor (-6) 11 = -15 ∧ bitNot 5 = -6 := by
  decide +kernel

end Verif.Arith
