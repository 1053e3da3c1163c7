import Verif.Prob.Series
import Mathlib.Algebra.Order.Round
import Mathlib.Analysis.SpecificLimits.Normed
import Mathlib.Data.Nat.Choose.Sum
import Mathlib.Data.Nat.Choose.Central
import Mathlib.Data.Nat.Choose.Vandermonde
/-! # Discrete distributions (`titus/lib/prob/dist.py`): binomial, geometric, Poisson, hypergeometric, negative binomial -/

namespace Verif.Prob
open Verif.Misc (RNum)
open Verif.Score (top pyExp)
open Filter Topology Classical

/-! ## Model -/

/-- `nChooseK` (spec.py 315-337) of integers: the branches for a negative or fractional `n` are not reached. -/
noncomputable def nChooseK (n k : ℤ) : Res ℤ :=
  if n = k ∨ k = 0 then .ok 1
  else if n < k ∨ k < 0 then .error (.py "Exception")
  else do
    let b ← pyExp (lgamma (n + 1) - lgamma (k + 1) - lgamma (n - k + 1))
    .ok (round b)

/-- A loop that adds up `f 0`, `f 1`, ... while `go` holds of the sum, and returns the last number that was added (or -1): `none` when
it is still running after `fuel` rounds. -/
noncomputable def stepLoop (f : ℤ → Res ℝ) (go : ℝ → Prop) : ℕ → ℤ → ℝ → Option (Res ℤ)
  | 0, _, _ => none
  | fuel + 1, x, s =>
    if go s then
      match f x with
      | .error e => some (.error e)
      | .ok v => stepLoop f go fuel (x + 1) (s + v)
    else some (.ok (x - 1))

/-- `for i in range(0, n): val = val + f(i)`. -/
noncomputable def sumTo (f : ℤ → Res ℝ) : ℕ → Res ℝ
  | 0 => .ok 0
  | n + 1 => do
    let s ← sumTo f n
    let v ← f n
    .ok (s + v)

/-- `BinomialDistribution.PDF` (dist.py 1443-1453). A power of 0 with a negative exponent raises in Python: it is not reached, as no
caller goes above `n` when `prob` is 1. -/
noncomputable def binomialD (n : ℤ) (prob : ℝ) (x : ℤ) : Res ℝ :=
  if x < 0 then .ok 0
  else do
    let c ← if x = 0 then .ok 1 else if x < 0 ∨ x > n then .ok 0 else nChooseK n x
    .ok (c * prob ^ x * (1 - prob) ^ (n - x))

/-- `prob.dist.binomialPDF` (593-603). -/
noncomputable def binomialPDF (x size : ℤ) (prob : RNum) : Res RNum :=
  param1 13300 prob (fun p => ¬ (size ≤ 0 ∨ p < 0 ∨ p > 1)) fun prob =>
    if x < 0 then .ok (.fin 0)
    else if x ≥ size then .ok (.fin 0)
    else do
      let v ← binomialD size prob x
      .ok (.fin v)

/-- `prob.dist.binomialQF` (634-644) with `BinomialDistribution.QF` (1467-1485): `none` when the loop is still running. -/
noncomputable def binomialQF (fuel : ℕ) (p : RNum) (size : ℤ) (prob : RNum) : Option (Res RNum) :=
  match param1 13320 prob (fun q => ¬ (size ≤ 0 ∨ q < 0 ∨ q > 1)) fun q => level 13320 p fun p => .ok (q, p) with
  | .error e => some (.error e)
  | .ok (q, p) =>
    if p = 1 then some (.ok (.fin size))
    else if p = 0 then some (.ok (.fin 0))
    else (stepLoop (binomialD size q) (· < p) fuel 0 0).map fun r => r.map fun x => .fin x

/-- `prob.dist.geometricPDF` (690-696, 1534-1538). -/
noncomputable def geometricPDF (x : ℤ) (prob : RNum) : Res RNum :=
  param1 13360 prob (fun q => ¬ (q ≤ 0 ∨ q > 1)) fun q => .ok (.fin (if x < 0 then 0 else q * (1 - q) ^ x))

/-- `prob.dist.geometricCDF` (703-709, 1540-1545). -/
noncomputable def geometricCDF (x prob : RNum) : Res RNum :=
  param1 13370 prob (fun q => ¬ (q ≤ 0 ∨ q > 1)) fun q => input 13370 x fun x =>
    .ok (.fin (if x < 0 then 0 else 1 - (1 - q) ^ (⌊x⌋ + 1)))

/-- `prob.dist.geometricQF` (716-724, 1547-1560). -/
noncomputable def geometricQF (p prob : RNum) : Res RNum :=
  param1 13380 prob (fun q => ¬ (q ≤ 0 ∨ q > 1)) fun q => level 13380 p fun p =>
    if p = 1 then .ok .pinf
    else if 0 < p ∧ p < 1 then .ok (.fin (if q = 1 then 0 else ⌊Real.log (1 - p) / Real.log (1 - q)⌋))
    else .ok (.fin 0)

/-- `prob.dist.poissonPDF` (248-259, 1034-1043). -/
noncomputable def poissonPDF (x : ℤ) (lamda : RNum) : Res RNum :=
  param1 13090 lamda (fun l => ¬ l < 0) fun l =>
    if l = 0 then .ok (.fin (if x ≠ 0 then 0 else 1))
    else if x < 0 then .ok (.fin 0)
    else do
      let v ← pyExp (x * Real.log l - l - lgamma (x + 1))
      .ok (.fin v)

/-- `HypergeometricDistribution.PDF` (1574-1597). -/
noncomputable def hyperD (m n k x : ℤ) : Res ℝ := do
  let c1 ← (if x = 0 then .ok 1 else if x < 0 ∨ x ≥ m then .ok 0 else nChooseK m x)
  let c2 ← (if k - x = 0 then .ok 1 else if k - x < 0 ∨ k - x > n then .ok 0 else nChooseK n (k - x))
  let c3 ← (if k = 0 then .ok 1 else if k < 0 ∨ k > m + n then .ok 0 else nChooseK (m + n) k)
  .ok (c1 * c2 / c3)

/-- The check of the parameters of the hypergeometric distribution (733, 748, 763). -/
def hyperBad (m n k : ℤ) : Prop := m + n < k ∨ m < 0 ∨ n ≤ 0 ∨ m + n = 0 ∨ k < 0

/-- `prob.dist.hypergeometricPDF` (732-740). -/
noncomputable def hypergeometricPDF (x m n k : ℤ) : Res RNum :=
  if hyperBad m n k then .error (.rt 13390)
  else if x > m then .ok (.fin 0)
  else do
    let v ← hyperD m n k x
    .ok (.fin v)

/-- `prob.dist.hypergeometricCDF` (747-755, 1599-1606). -/
noncomputable def hypergeometricCDF (x m n k : ℤ) : Res RNum :=
  if hyperBad m n k then .error (.rt 13400)
  else if x > m then .ok (.fin 0)
  else do
    let v ← sumTo (hyperD m n k) (x + 1).toNat
    .ok (.fin v)

/-- `prob.dist.hypergeometricQF` (762-768, 1608-1623). -/
noncomputable def hypergeometricQF (fuel : ℕ) (p : RNum) (m n k : ℤ) : Option (Res RNum) :=
  if hyperBad m n k then some (.error (.rt 13410))
  else match level 13410 p .ok with
    | .error e => some (.error e)
    | .ok p =>
      if p = 1 then some (.ok (.fin k))
      else (stepLoop (hyperD m n k) (· ≤ p) fuel 0 0).map fun r => r.map fun x => .fin x

/-- `NegativeBinomialDistribution.PDF` (1684-1704). -/
noncomputable def negD (n : ℤ) (prob : ℝ) (x : ℤ) : Res ℝ :=
  if n = 0 ∧ x = 0 then .ok 1
  else if n = 0 ∧ x ≠ 0 then .ok 0
  else if prob = 1 ∧ x ≠ 0 then .ok 0
  else if prob = 1 ∧ x = 0 then .ok 1
  else if x ≥ 0 then do
    let c ← if x = 0 then .ok 1 else if x < 0 then .ok 0 else nChooseK (n + x - 1) x
    .ok (c * (1 - prob) ^ x * prob ^ n)
  else .ok 0

/-- `prob.dist.negativeBinomialPDF` (820-830). -/
noncomputable def negativeBinomialPDF (x size : ℤ) (prob : RNum) : Res RNum :=
  param1 13450 prob (fun p => ¬ (p > 1 ∨ p ≤ 0 ∨ size < 0)) fun p =>
    if x = 0 ∧ size = 0 then .ok (.fin 1)
    else if size = 0 then .ok (.fin 0)
    else do
      let v ← negD size p x
      .ok (.fin v)

/-- `prob.dist.negativeBinomialCDF` (837-849, 1706-1714). -/
noncomputable def negativeBinomialCDF (x : RNum) (size : ℤ) (prob : RNum) : Res RNum :=
  param1 13460 prob (fun p => ¬ (p > 1 ∨ p ≤ 0 ∨ size < 0)) fun p => input 13460 x fun x =>
    if x = 0 ∧ size = 0 then .ok (.fin 1)
    else if size = 0 then .ok (.fin 0)
    else if x < 0 then .ok (.fin 0)
    else do
      let v ← sumTo (negD size p) (⌊x + 1⌋).toNat
      .ok (.fin v)

/-- `prob.dist.negativeBinomialQF` (857-869) with `NegativeBinomialDistribution.QF` (1716-1757). `z` is the Gaussian quantile of the level,
which only chooses between the expansion and the loop. -/
noncomputable def negativeBinomialQF (fuel : ℕ) (z : ℝ) (p : RNum) (size : ℤ) (prob : RNum) : Option (Res RNum) :=
  match param1 13470 prob (fun q => ¬ (q ≤ 0 ∨ q > 1 ∨ size < 0)) fun q => level 13470 p fun p => .ok (q, p) with
  | .error e => some (.error e)
  | .ok (q, p) =>
    if size = 0 then some (.ok (.fin 0))
    else if p = 1 then some (.ok .pinf)
    else if p = 0 then some (.ok (.fin 0))
    else if q = 1 then some (.ok (.fin 0))
    else
      let sigma := Real.sqrt (size * ((1 - q) * (1 / q)) * (1 / q))
      let w : ℤ := ⌈size * (1 - q) / q + sigma * (z + ((1 / q + (1 - q) * (1 / q)) / sigma) * (z * z - 1) / 6)⌉
      if w > 100000 then some (.ok (.fin w))
      else (stepLoop (negD size q) (· ≤ p) fuel 0 0).map fun r => r.map fun x => .fin x

/-! ## Specification -/

/-- The probability of `x` successes in `n` trials. -/
noncomputable def binomP (n : ℕ) (p : ℝ) (x : ℕ) : ℝ := n.choose x * p ^ x * (1 - p) ^ (n - x)

/-- The probability of `x` white balls among `k` drawn from `m` white and `n` black ones. -/
noncomputable def hyperP (m n k x : ℕ) : ℝ := (m.choose x * if x ≤ k then n.choose (k - x) else 0 : ℕ) / ((m + n).choose k : ℝ)

/-- The probability of `x` failures before the success with number `n`. -/
noncomputable def negP (n : ℕ) (p : ℝ) (x : ℕ) : ℝ := (n + x - 1).choose x * (1 - p) ^ x * p ^ n

/-! ## Binomial coefficients -/

theorem lgamma_nat (n : ℕ) : Real.exp (lgamma (n + 1)) = n.factorial := by
  rw [exp_lgamma (by positivity), Real.Gamma_nat_eq_factorial]

theorem choose_exp (n k : ℕ) (h : k ≤ n) :
    Real.exp (lgamma (((n : ℤ) : ℝ) + 1) - lgamma (((k : ℤ) : ℝ) + 1) - lgamma (((n : ℤ) : ℝ) - ((k : ℤ) : ℝ) + 1)) = (n.choose k : ℝ) := by
  have e : ((n : ℤ) : ℝ) - ((k : ℤ) : ℝ) + 1 = ((n - k : ℕ) : ℝ) + 1 := by
    push_cast [h]
    ring
  rw [e, Real.exp_sub, Real.exp_sub, Int.cast_natCast, Int.cast_natCast, lgamma_nat, lgamma_nat, lgamma_nat, Nat.cast_choose ℝ h, div_div]

/-- The number of subsets, as long as it fits a double. -/
theorem nChooseK_spec (n k : ℕ) (h : k ≤ n) (ht : (n.choose k : ℝ) < top) : nChooseK n k = .ok (n.choose k) := by
  unfold nChooseK
  by_cases h1 : (n : ℤ) = k ∨ (k : ℤ) = 0
  · rw [if_pos h1]
    rcases h1 with h1 | h1
    · rw [show n = k by exact_mod_cast h1, Nat.choose_self]
      rfl
    · rw [show k = 0 by exact_mod_cast h1, Nat.choose_zero_right]
      rfl
  · rw [if_neg h1, if_neg (by omega), Score.pyExp_ok (by rwa [choose_exp n k h]), choose_exp n k h]
    simp only [Bind.bind, Except.bind]
    rw [round_natCast]

theorem nChooseK_overflow (n k : ℕ) (h : k ≤ n) (ht : top ≤ (n.choose k : ℝ)) : nChooseK n k = .error (.py "OverflowError") := by
  have h1 : (1 : ℝ) < n.choose k := lt_of_lt_of_le Score.one_lt_top ht
  unfold nChooseK
  rw [if_neg, if_neg (by omega), Score.pyExp_raises (by rwa [choose_exp n k h])]
  · rfl
  · rintro (h2 | h2)
    · rw [show n = k by exact_mod_cast h2, Nat.choose_self] at h1
      norm_num at h1
    · rw [show k = 0 by exact_mod_cast h2, Nat.choose_zero_right] at h1
      norm_num at h1

theorem nChooseK_error (n k : ℤ) (hk : k ≠ 0) (h : n < k ∨ (k < 0 ∧ n ≠ k)) : nChooseK n k = .error (.py "Exception") := by
  unfold nChooseK
  rw [if_neg (by omega), if_pos (by omega)]

/-! ## Loops -/

theorem sumTo_spec (f : ℤ → Res ℝ) (g : ℕ → ℝ) (n : ℕ) (h : ∀ x < n, f (x : ℕ) = .ok (g x)) :
    sumTo f n = .ok (∑ x ∈ Finset.range n, g x) := by
  induction n with
  | zero => simp [sumTo]
  | succ n ih =>
    rw [sumTo, ih (fun x hx => h x (by omega)), h n (by omega), Finset.sum_range_succ]
    rfl

/-- The loop returns the first number up to which the sum no longer satisfies `go`. -/
theorem stepLoop_spec (f : ℤ → Res ℝ) (g : ℕ → ℝ) (go : ℝ → Prop) (fuel x : ℕ) :
    (∀ y, x ≤ y → y < x + fuel → (∀ z : ℕ, z < y → f z = .ok (g z)) → (∀ z, x ≤ z → z < y → go (∑ i ∈ Finset.range z, g i)) → ¬ go (∑ i ∈ Finset.range y, g i) →
      stepLoop f go fuel x (∑ i ∈ Finset.range x, g i) = some (.ok ((y : ℤ) - 1))) ∧
    ((∀ z : ℕ, f z = .ok (g z)) → (∀ z, x ≤ z → z < x + fuel → go (∑ i ∈ Finset.range z, g i)) → stepLoop f go fuel x (∑ i ∈ Finset.range x, g i) = none) := by
  induction fuel generalizing x with
  | zero => exact ⟨fun y h1 h2 => by omega, fun _ _ => rfl⟩
  | succ fuel ih =>
    have hs : ∑ i ∈ Finset.range x, g i + g x = ∑ i ∈ Finset.range (x + 1), g i := (Finset.sum_range_succ _ _).symm
    have hc : ((x : ℤ) + 1) = ((x + 1 : ℕ) : ℤ) := by push_cast; rfl
    constructor
    · intro y h1 h2 h h3 h4
      rw [stepLoop]
      by_cases hx : go (∑ i ∈ Finset.range x, g i)
      · have hy : x ≠ y := fun e => h4 (e ▸ hx)
        rw [if_pos hx, h x (by omega)]
        simp only
        rw [hs, hc]
        exact (ih (x + 1)).1 y (by omega) (by omega) h (fun z hz hz' => h3 z (by omega) hz') h4
      · rw [if_neg hx]
        have hy : x = y := by
          by_contra hne
          exact hx (h3 x le_rfl (by omega))
        rw [hy]
    · intro h h3
      rw [stepLoop, if_pos (h3 x le_rfl (by omega)), h x]
      simp only
      rw [hs, hc]
      exact (ih (x + 1)).2 h fun z hz hz' => h3 z (by omega) (by omega)

/-! ## Binomial -/

theorem binomialD_spec (n x : ℕ) (p : ℝ) (ht : ∀ k ≤ n, (n.choose k : ℝ) < top) : binomialD n p x = .ok (binomP n p x) := by
  unfold binomialD binomP
  rw [if_neg (by omega)]
  by_cases h0 : x = 0
  · subst h0
    simp [Bind.bind, Except.bind]
  · rw [if_neg (by omega)]
    by_cases h1 : x > n
    · rw [if_pos (by omega), Nat.choose_eq_zero_of_lt h1]
      simp [Bind.bind, Except.bind]
    · rw [if_neg (by omega), nChooseK_spec n x (by omega) (ht x (by omega))]
      simp only [Bind.bind, Except.bind]
      congr 2
      rw [← Nat.cast_sub (by omega), zpow_natCast]

theorem binomP_sum (n : ℕ) (p : ℝ) : ∑ x ∈ Finset.range (n + 1), binomP n p x = 1 := by
  have h := add_pow p (1 - p) n
  rw [add_sub_cancel, one_pow] at h
  rw [h]
  exact Finset.sum_congr rfl fun x _ => by unfold binomP; ring

theorem binomP_nonneg (n : ℕ) (p : ℝ) (h0 : 0 ≤ p) (h1 : p ≤ 1) (x : ℕ) : 0 ≤ binomP n p x :=
  mul_nonneg (mul_nonneg (by positivity) (by positivity)) (pow_nonneg (by linarith) _)

/-- The probabilities of a binomial distribution, except that of `n` successes. -/
theorem binomialPDF_partial (n : ℕ) (x : ℤ) (p : ℝ) (hn : 0 < n) (h0 : 0 ≤ p) (h1 : p ≤ 1) (ht : ∀ k ≤ n, (n.choose k : ℝ) < top) :
    (∀ y : ℕ, x = y → y < n → binomialPDF x n (.fin p) = .ok (.fin (binomP n p y))) ∧
    (x < 0 ∨ (n : ℤ) ≤ x → binomialPDF x n (.fin p) = .ok (.fin 0)) := by
  have hok : binomialPDF x n (.fin p) = if x < 0 then .ok (.fin 0) else if x ≥ (n : ℤ) then .ok (.fin 0) else
      (binomialD n p x).bind fun v => .ok (.fin v) := by
    unfold binomialPDF
    rw [param1_ok (ok := fun p => ¬ ((n : ℤ) ≤ 0 ∨ p < 0 ∨ p > 1)) (by
      rintro (h | h | h)
      · omega
      · linarith
      · linarith)]
    rfl
  rw [hok]
  constructor
  · rintro y rfl hy
    rw [if_neg (by omega), if_neg (by omega), binomialD_spec n y p ht]
    rfl
  · rintro (h | h)
    · rw [if_pos h]
    · by_cases h' : x < 0
      · rw [if_pos h']
      · rw [if_neg h', if_pos h]

/-- The probability of `n` successes is given as 0, so that the probabilities add up to `1 - p ^ n`. -/
theorem binomialPDF_violation (n : ℕ) (p : ℝ) (hn : 0 < n) (h0 : 0 < p) (h1 : p ≤ 1) (ht : ∀ k ≤ n, (n.choose k : ℝ) < top) :
    binomialPDF n n (.fin p) = .ok (.fin 0) ∧ binomP n p n = p ^ n ∧ 0 < p ^ n ∧
    ∑ x ∈ Finset.range n, binomP n p x = 1 - p ^ n := by
  have hp : binomP n p n = p ^ n := by simp [binomP]
  refine ⟨(binomialPDF_partial n n p hn h0.le h1 ht).2 (Or.inr le_rfl), hp, by positivity, ?_⟩
  have := binomP_sum n p
  rw [Finset.sum_range_succ, hp] at this
  linarith

/-- A large number of trials raises OverflowError in the middle. -/
theorem binomialPDF_overflow_violation : binomialPDF 550 1100 (.fin (1 / 2)) = .error (.py "OverflowError") := by
  have hc : top ≤ ((1100 : ℕ).choose 550 : ℝ) := by
    have h1 : 4 ^ 550 ≤ 1100 * Nat.choose 1100 550 := by
      have := Nat.four_pow_le_two_mul_self_mul_centralBinom 550 (by norm_num)
      simpa [Nat.centralBinom] using this
    have h2 : 1100 * 2 ^ 1024 ≤ 4 ^ 550 := by decide +kernel
    have h3 : 2 ^ 1024 ≤ Nat.choose 1100 550 := Nat.le_of_mul_le_mul_left (h2.trans h1) (by norm_num)
    unfold top
    exact_mod_cast h3
  unfold binomialPDF
  rw [param1_ok (ok := fun p => ¬ ((1100 : ℤ) ≤ 0 ∨ p < 0 ∨ p > 1)) (by norm_num), if_neg (by norm_num), if_neg (by norm_num)]
  unfold binomialD
  rw [if_neg (by norm_num), if_neg (by norm_num), if_neg (by norm_num)]
  have := nChooseK_overflow 1100 550 (by norm_num) hc
  norm_cast at this
  rw [this]
  rfl

/-- The quantile is the least number whose distribution function reaches the level. -/
theorem binomialQF_spec (n : ℕ) (q p : ℝ) (hn : 0 < n) (h0 : 0 ≤ q) (h1 : q ≤ 1) (ht : ∀ k ≤ n, (n.choose k : ℝ) < top)
    (hp0 : 0 < p) (hp1 : p < 1) : ∃ x : ℕ, x ≤ n ∧ p ≤ ∑ i ∈ Finset.range (x + 1), binomP n q i ∧
      (∀ y < x, ∑ i ∈ Finset.range (y + 1), binomP n q i < p) ∧
      ∀ fuel, n + 2 ≤ fuel → binomialQF fuel (.fin p) n (.fin q) = some (.ok (.fin x)) := by
  have hex : ∃ x, p ≤ ∑ i ∈ Finset.range (x + 1), binomP n q i := ⟨n, by rw [binomP_sum]; exact hp1.le⟩
  have hle : Nat.find hex ≤ n := Nat.find_min' hex (by rw [binomP_sum]; exact hp1.le)
  refine ⟨Nat.find hex, hle, Nat.find_spec hex, fun y hy => not_le.1 (Nat.find_min hex hy), fun fuel hf => ?_⟩
  unfold binomialQF
  rw [param1_ok (ok := fun q => ¬ ((n : ℤ) ≤ 0 ∨ q < 0 ∨ q > 1)) (by
    rintro (h | h | h)
    · omega
    · linarith
    · linarith), level_ok ⟨hp0.le, hp1.le⟩]
  simp only
  rw [if_neg hp1.ne, if_neg hp0.ne']
  have h := (stepLoop_spec (binomialD n q) (binomP n q) (· < p) fuel 0).1 (Nat.find hex + 1)
    (by omega) (by omega) (fun x _ => binomialD_spec n x q ht) (fun z _ hz => by
      rcases Nat.eq_zero_or_pos z with h | h
      · rw [h]
        simpa using hp0
      · obtain ⟨y, rfl⟩ := Nat.exists_eq_add_of_lt h
        have := not_le.1 (Nat.find_min hex (m := y) (by omega))
        simpa using this) (not_lt.2 (Nat.find_spec hex))
  simp only [Finset.range_zero, Finset.sum_empty, Nat.cast_zero] at h
  rw [h]
  simp [Except.map]

/-! ## Geometric -/

theorem geometric_spec (q : ℝ) (h0 : 0 < q) (h1 : q ≤ 1) :
    (∀ x : ℕ, geometricPDF x (.fin q) = .ok (.fin (q * (1 - q) ^ x))) ∧ (∀ x : ℤ, x < 0 → geometricPDF x (.fin q) = .ok (.fin 0)) ∧
    (∀ x : ℝ, 0 ≤ x → geometricCDF (.fin x) (.fin q) = .ok (.fin (∑ i ∈ Finset.range (⌊x⌋₊ + 1), q * (1 - q) ^ i))) ∧
    (∀ x : ℝ, x < 0 → geometricCDF (.fin x) (.fin q) = .ok (.fin 0)) ∧ HasSum (fun i : ℕ => q * (1 - q) ^ i) 1 := by
  have hq : ∀ b c : Prop, ¬ (q ≤ 0 ∨ q > 1) := fun _ _ => by rintro (h | h) <;> linarith
  refine ⟨fun x => ?_, fun x hx => ?_, fun x hx => ?_, fun x hx => ?_, ?_⟩
  · unfold geometricPDF
    rw [param1_ok (ok := fun q => ¬ (q ≤ 0 ∨ q > 1)) (hq True True), if_neg (by omega), zpow_natCast]
  · unfold geometricPDF
    rw [param1_ok (ok := fun q => ¬ (q ≤ 0 ∨ q > 1)) (hq True True), if_pos hx]
  · unfold geometricCDF
    rw [param1_ok (ok := fun q => ¬ (q ≤ 0 ∨ q > 1)) (hq True True), input_ok, if_neg (not_lt.2 hx)]
    congr 2
    have e : ⌊x⌋ + 1 = ((⌊x⌋₊ + 1 : ℕ) : ℤ) := by
      push_cast
      rw [Int.natCast_floor_eq_floor hx]
    rw [e, zpow_natCast, ← Finset.mul_sum]
    have := mul_geom_sum (1 - q) (⌊x⌋₊ + 1)
    linarith
  · unfold geometricCDF
    rw [param1_ok (ok := fun q => ¬ (q ≤ 0 ∨ q > 1)) (hq True True), input_ok, if_pos hx]
  · have := (hasSum_geometric_of_lt_one (r := 1 - q) (by linarith) (by linarith)).mul_left q
    rwa [sub_sub_cancel, mul_inv_cancel₀ h0.ne'] at this

/-- The quantile is the least number whose distribution function is above the level, not only equal to it. -/
theorem geometricQF_partial (p q : ℝ) (h0 : 0 < q) (h1 : q < 1) (hp0 : 0 < p) (hp1 : p < 1) :
    ∃ x : ℕ, geometricQF (.fin p) (.fin q) = .ok (.fin x) ∧ p < 1 - (1 - q) ^ (x + 1) ∧ ∀ y < x, 1 - (1 - q) ^ (y + 1) ≤ p := by
  have hlq : Real.log (1 - q) < 0 := Real.log_neg (by linarith) (by linarith)
  have hlp : Real.log (1 - p) < 0 := Real.log_neg (by linarith) (by linarith)
  have hL : 0 < Real.log (1 - p) / Real.log (1 - q) := div_pos_of_neg_of_neg hlp hlq
  have key : ∀ n : ℕ, p < 1 - (1 - q) ^ n ↔ Real.log (1 - p) / Real.log (1 - q) < n := by
    intro n
    rw [div_lt_iff_of_neg hlq, ← Real.log_pow, Real.log_lt_log_iff (pow_pos (by linarith) _) (by linarith)]
    constructor <;> intro h <;> linarith
  refine ⟨⌊Real.log (1 - p) / Real.log (1 - q)⌋₊, ?_, ?_, fun y hy => ?_⟩
  · unfold geometricQF
    rw [param1_ok (ok := fun q => ¬ (q ≤ 0 ∨ q > 1)) (by rintro (h | h) <;> linarith), level_ok ⟨hp0.le, hp1.le⟩, if_neg hp1.ne,
      if_pos ⟨hp0, hp1⟩, if_neg h1.ne, ← Int.natCast_floor_eq_floor hL.le, Int.cast_natCast]
  · rw [key]
    exact_mod_cast Nat.lt_floor_add_one _
  · rw [← not_lt, key, not_lt]
    have : ((y + 1 : ℕ) : ℝ) ≤ (⌊Real.log (1 - p) / Real.log (1 - q)⌋₊ : ℝ) := by exact_mod_cast hy
    exact this.trans (Nat.floor_le hL.le)

/-- At the level 1/2 of a fair coin the distribution function of 0 is reached, but the quantile is 1. -/
theorem geometricQF_violation : geometricQF (.fin (1 / 2)) (.fin (1 / 2)) = .ok (.fin 1) ∧
    geometricCDF (.fin 0) (.fin (1 / 2)) = .ok (.fin (1 / 2)) := by
  constructor
  · unfold geometricQF
    rw [param1_ok (ok := fun q => ¬ (q ≤ 0 ∨ q > 1)) (by norm_num), level_ok (by norm_num), if_neg (by norm_num), if_pos (by norm_num),
      if_neg (by norm_num), div_self]
    · simp
    · exact (Real.log_neg (by norm_num) (by norm_num)).ne
  · rw [(geometric_spec (1 / 2) (by norm_num) (by norm_num)).2.2.1 0 le_rfl]
    simp

theorem geometricQF_edges (q : ℝ) (h0 : 0 < q) (h1 : q ≤ 1) : geometricQF (.fin 0) (.fin q) = .ok (.fin 0) ∧
    geometricQF (.fin 1) (.fin q) = .ok .pinf ∧ ∀ p, 0 < p → p < 1 → geometricQF (.fin p) (.fin 1) = .ok (.fin 0) := by
  refine ⟨?_, ?_, fun p hp0 hp1 => ?_⟩
  · unfold geometricQF
    rw [param1_ok (ok := fun q => ¬ (q ≤ 0 ∨ q > 1)) (by rintro (h | h) <;> linarith), level_ok (by norm_num), if_neg (by norm_num),
      if_neg (by norm_num)]
  · unfold geometricQF
    rw [param1_ok (ok := fun q => ¬ (q ≤ 0 ∨ q > 1)) (by rintro (h | h) <;> linarith), level_ok (by norm_num), if_pos rfl]
  · unfold geometricQF
    rw [param1_ok (ok := fun q => ¬ (q ≤ 0 ∨ q > 1)) (by norm_num), level_ok ⟨hp0.le, hp1.le⟩, if_neg hp1.ne, if_pos ⟨hp0, hp1⟩, if_pos rfl]

/-! ## Poisson -/

theorem poisson_le_one (l : ℝ) (hl : 0 ≤ l) (x : ℕ) : Real.exp (-l) * l ^ x / x.factorial ≤ 1 := by
  have h := Real.pow_div_factorial_le_exp l hl x
  rw [mul_div_assoc, Real.exp_neg]
  have := Real.exp_pos l
  rw [inv_mul_le_iff₀ this, mul_one]
  exact h

theorem poissonPDF_spec (l : ℝ) (hl : 0 ≤ l) :
    (∀ x : ℕ, poissonPDF x (.fin l) = .ok (.fin (Real.exp (-l) * l ^ x / x.factorial))) ∧
    (∀ x : ℤ, x < 0 → poissonPDF x (.fin l) = .ok (.fin 0)) := by
  constructor
  · intro x
    unfold poissonPDF
    rw [param1_ok (ok := fun l => ¬ l < 0) (not_lt.2 hl)]
    rcases hl.eq_or_lt with h | h
    · rw [if_pos h.symm, ← h]
      rcases Nat.eq_zero_or_pos x with h0 | h0
      · subst h0
        simp
      · rw [if_pos (by omega), zero_pow (by omega)]
        simp
    · rw [if_neg h.ne', if_neg (by omega)]
      have e : Real.exp (((x : ℤ) : ℝ) * Real.log l - l - lgamma (((x : ℤ) : ℝ) + 1)) = Real.exp (-l) * l ^ x / x.factorial := by
        rw [Int.cast_natCast, Real.exp_sub, Real.exp_sub, lgamma_nat, mul_comm, ← Real.rpow_def_of_pos h, Real.rpow_natCast, Real.exp_neg]
        field_simp
      rw [Score.pyExp_ok (by rw [e]; exact lt_of_le_of_lt (poisson_le_one l hl x) Score.one_lt_top), e]
      rfl
  · intro x hx
    unfold poissonPDF
    rw [param1_ok (ok := fun l => ¬ l < 0) (not_lt.2 hl)]
    by_cases h : l = 0
    · rw [if_pos h, if_pos hx.ne]
    · rw [if_neg h, if_pos hx]

theorem poisson_total (l : ℝ) : HasSum (fun x : ℕ => Real.exp (-l) * l ^ x / x.factorial) 1 := by
  have h := (NormedSpace.expSeries_div_hasSum_exp (𝔸 := ℝ) l).mul_left (Real.exp (-l))
  rw [← Real.exp_eq_exp_ℝ, ← Real.exp_add, neg_add_cancel, Real.exp_zero] at h
  refine h.congr_fun fun x => ?_
  ring

/-! ## Hypergeometric -/

theorem hyperP_sum (m n k : ℕ) (hk : k ≤ m + n) : ∑ x ∈ Finset.range (k + 1), hyperP m n k x = 1 := by
  unfold hyperP
  rw [← Finset.sum_div, ← Nat.cast_sum]
  have h := Nat.add_choose_eq m n k
  rw [Finset.Nat.sum_antidiagonal_eq_sum_range_succ_mk] at h
  have e : ∑ x ∈ Finset.range (k + 1), (m.choose x * if x ≤ k then n.choose (k - x) else 0) = (m + n).choose k := by
    rw [h]
    exact Finset.sum_congr rfl fun x hx => by rw [if_pos (by have := Finset.mem_range.1 hx; omega)]
  rw [e, div_self]
  exact_mod_cast (Nat.choose_pos hk).ne'

/-- The value computed by the class: the probability, except 0 at `m`. -/
theorem hyperD_spec (m n k x : ℕ) (hk : k ≤ m + n) (ht : ∀ a ≤ m + n, ((m + n).choose a : ℝ) < top) :
    hyperD m n k x = .ok (if x = m ∧ m ≠ 0 then 0 else hyperP m n k x) := by
  have mono : ∀ a b c : ℕ, a ≤ m + n → b ≤ a → c = a.choose b → (c : ℝ) < top := by
    rintro a b c h1 h2 rfl
    refine lt_of_le_of_lt ?_ (ht b (by omega))
    exact_mod_cast Nat.choose_le_choose b h1
  have c1 : (if (x : ℤ) = 0 then (.ok 1 : Res ℤ) else if (x : ℤ) < 0 ∨ (x : ℤ) ≥ m then .ok 0 else nChooseK m x) =
      .ok ((if x = m ∧ m ≠ 0 then 0 else m.choose x : ℕ) : ℤ) := by
    by_cases h0 : x = 0
    · subst h0
      rw [if_pos (by simp)]
      by_cases hm : m = 0
      · simp [hm]
      · simp [Ne.symm hm]
    · rw [if_neg (by omega)]
      by_cases h1 : x ≥ m
      · rw [if_pos (by omega)]
        by_cases h2 : x = m
        · rw [if_pos ⟨h2, by omega⟩]
          rfl
        · rw [if_neg (by omega), Nat.choose_eq_zero_of_lt (by omega)]
          rfl
      · rw [if_neg (by omega), if_neg (by omega)]
        exact nChooseK_spec m x (by omega) (mono m x _ (by omega) (by omega) rfl)
  have c2 : (if (k : ℤ) - x = 0 then (.ok 1 : Res ℤ) else if (k : ℤ) - x < 0 ∨ (k : ℤ) - x > n then .ok 0 else nChooseK n (k - x)) =
      .ok ((if x ≤ k then n.choose (k - x) else 0 : ℕ) : ℤ) := by
    by_cases h0 : x = k
    · subst h0
      simp
    · rw [if_neg (by omega)]
      by_cases h1 : k < x
      · rw [if_pos (by omega), if_neg (by omega)]
        rfl
      · rw [if_pos (by omega : x ≤ k)]
        by_cases h2 : k - x > n
        · rw [if_pos (by omega), Nat.choose_eq_zero_of_lt h2]
          rfl
        · rw [if_neg (by omega), ← Nat.cast_sub (by omega)]
          exact nChooseK_spec n (k - x) (by omega) (mono n (k - x) _ (by omega) (by omega) rfl)
  have c3 : (if (k : ℤ) = 0 then (.ok 1 : Res ℤ) else if (k : ℤ) < 0 ∨ (k : ℤ) > m + n then .ok 0 else nChooseK (m + n) k) =
      .ok (((m + n).choose k : ℕ) : ℤ) := by
    by_cases h0 : k = 0
    · subst h0
      simp
    · rw [if_neg (by omega), if_neg (by omega), ← Nat.cast_add]
      exact nChooseK_spec (m + n) k hk (ht k hk)
  unfold hyperD
  rw [c1, c2, c3]
  simp only [Bind.bind, Except.bind]
  congr 1
  by_cases h : x = m ∧ m ≠ 0
  · rw [if_pos h, if_pos h]
    simp
  · rw [if_neg h, if_neg h]
    unfold hyperP
    push_cast
    rfl

theorem hyper_good {m n k : ℕ} (hn : 0 < n) (hk : k ≤ m + n) : ¬ hyperBad m n k := by
  unfold hyperBad
  omega

/-- The probabilities and the distribution function of a hypergeometric distribution below `m`. -/
theorem hypergeometric_partial (m n k x : ℕ) (hn : 0 < n) (hk : k ≤ m + n) (ht : ∀ a ≤ m + n, ((m + n).choose a : ℝ) < top) :
    (x ≠ m ∨ m = 0 → hypergeometricPDF x m n k = .ok (.fin (hyperP m n k x))) ∧
    (x < m → hypergeometricCDF x m n k = .ok (.fin (∑ i ∈ Finset.range (x + 1), hyperP m n k i))) := by
  constructor
  · intro hx
    unfold hypergeometricPDF
    rw [if_neg (hyper_good hn hk)]
    by_cases h : x > m
    · rw [if_pos (by omega)]
      unfold hyperP
      rw [Nat.choose_eq_zero_of_lt h]
      simp
    · rw [if_neg (by omega), hyperD_spec m n k x hk ht, if_neg (by omega)]
      rfl
  · intro hx
    unfold hypergeometricCDF
    rw [if_neg (hyper_good hn hk), if_neg (by omega), show ((x : ℤ) + 1).toNat = x + 1 by omega,
      sumTo_spec _ (hyperP m n k) (x + 1) (fun y hy => by rw [hyperD_spec m n k y hk ht, if_neg (by omega)])]
    rfl

/-- The probability that all white balls are drawn is given as 0; the distribution function falls to 0 above the number of white balls;
the quantile of 1 can lie outside the support; and a quantile can run for ever. -/
theorem hypergeometric_violation :
    hypergeometricPDF 1 1 1 1 = .ok (.fin 0) ∧ hyperP 1 1 1 1 = 1 / 2 ∧
    hypergeometricCDF 2 1 1 1 = .ok (.fin 0) ∧ ∑ i ∈ Finset.range 3, hyperP 1 1 1 i = 1 ∧
    hypergeometricQF 1 (.fin 1) 1 3 2 = some (.ok (.fin 2)) ∧ hyperP 1 3 2 2 = 0 ∧
    ∀ fuel, hypergeometricQF fuel (.fin (1 / 2)) 1 1 1 = none := by
  have ht : ∀ a ≤ 1 + 1, ((1 + 1).choose a : ℝ) < top := fun a ha => by
    have h : (1 + 1).choose a ≤ 2 := by interval_cases a <;> decide
    have h2 : ((1 + 1).choose a : ℝ) ≤ 2 := by exact_mod_cast h
    refine lt_of_le_of_lt h2 ?_
    unfold top
    exact_mod_cast (by decide +kernel : 2 < 2 ^ 1024)
  have hd : ∀ x : ℕ, hyperD 1 1 1 x = .ok (if x = 1 then 0 else hyperP 1 1 1 x) := fun x => by
    have := hyperD_spec 1 1 1 x (by norm_num) ht
    simpa using this
  have hb : ¬ hyperBad 1 1 1 := by unfold hyperBad; omega
  have h0 : hyperP 1 1 1 0 = 1 / 2 := by simp [hyperP]
  have h1 : hyperP 1 1 1 1 = 1 / 2 := by simp [hyperP]
  have h2 : ∀ x : ℕ, 2 ≤ x → hyperP 1 1 1 x = 0 := fun x hx => by simp [hyperP, Nat.choose_eq_zero_of_lt (show 1 < x by omega)]
  refine ⟨?_, h1, ?_, ?_, ?_, ?_, fun fuel => ?_⟩
  · unfold hypergeometricPDF
    rw [if_neg hb, if_neg (by norm_num)]
    have := hd 1
    simp only [Nat.cast_one, if_true] at this
    rw [this]
    rfl
  · unfold hypergeometricCDF
    rw [if_neg hb, if_pos (by norm_num)]
  · simp [Finset.sum_range_succ, h0, h1, h2]
    norm_num
  · unfold hypergeometricQF
    rw [if_neg (by unfold hyperBad; omega), level_ok (by norm_num)]
    simp
  · simp [hyperP, Nat.choose_eq_zero_of_lt]
  · unfold hypergeometricQF
    rw [if_neg hb, level_ok (by norm_num)]
    simp only
    rw [if_neg (by norm_num)]
    have h := (stepLoop_spec (hyperD 1 1 1) (fun x => if x = 1 then 0 else hyperP 1 1 1 x) (· ≤ 1 / 2) fuel 0).2 hd (fun z _ _ => by
      have hz : ∀ z, ∑ i ∈ Finset.range z, (if i = 1 then 0 else hyperP 1 1 1 i) = if z = 0 then 0 else 1 / 2 := by
        intro z
        induction z with
        | zero => simp
        | succ z ih =>
          rw [Finset.sum_range_succ, ih]
          rcases z with _ | _ | z
          · simp [h0]
          · simp
          · rw [if_neg (by omega), if_neg (by omega), h2 _ (by omega), if_neg (by omega), add_zero]
      rw [hz]
      by_cases hz0 : z = 0
      · rw [if_pos hz0]
        norm_num
      · rw [if_neg hz0])
    simp only [Finset.range_zero, Finset.sum_empty, Nat.cast_zero] at h
    rw [h]
    rfl

/-- The quantile is the least number whose sum of probabilities is above the level, if the probability of `m` is not needed. -/
theorem hypergeometricQF_partial (m n k x : ℕ) (p : ℝ) (hn : 0 < n) (hk : k ≤ m + n) (ht : ∀ a ≤ m + n, ((m + n).choose a : ℝ) < top)
    (h0 : 0 ≤ p) (h1 : p < 1) (hx : x < m) (hp : p < ∑ i ∈ Finset.range (x + 1), hyperP m n k i)
    (hl : ∀ y ≤ x, ∑ i ∈ Finset.range y, hyperP m n k i ≤ p) (fuel : ℕ) (hf : x + 2 ≤ fuel) :
    hypergeometricQF fuel (.fin p) m n k = some (.ok (.fin x)) := by
  have hs : ∀ y ≤ x + 1, ∑ i ∈ Finset.range y, (if i = m ∧ m ≠ 0 then 0 else hyperP m n k i) = ∑ i ∈ Finset.range y, hyperP m n k i :=
    fun y hy => Finset.sum_congr rfl fun i hi => by rw [if_neg (by have := Finset.mem_range.1 hi; omega)]
  unfold hypergeometricQF
  rw [if_neg (hyper_good hn hk), level_ok ⟨h0, h1.le⟩]
  simp only
  rw [if_neg h1.ne]
  have h := (stepLoop_spec (hyperD m n k) (fun x => if x = m ∧ m ≠ 0 then 0 else hyperP m n k x) (· ≤ p) fuel 0).1 (x + 1)
    (by omega) (by omega) (fun x _ => hyperD_spec m n k x hk ht)
    (fun z _ hz => by rw [hs z (by omega)]; exact hl z (by omega)) (by rw [hs _ le_rfl]; exact not_le.2 hp)
  simp only [Finset.range_zero, Finset.sum_empty, Nat.cast_zero] at h
  rw [h]
  simp [Except.map]

/-! ## Negative binomial -/

theorem negD_spec (n x : ℕ) (p : ℝ) (hp : p ≠ 0) (ht : ((n + x - 1).choose x : ℝ) < top) : negD n p x = .ok (negP n p x) := by
  unfold negD negP
  by_cases hn : n = 0
  · subst hn
    by_cases hx : x = 0
    · subst hx
      simp
    · rw [if_neg (by omega), if_pos (by omega), Nat.choose_eq_zero_of_lt (by omega)]
      simp
  · rw [if_neg (by omega), if_neg (by omega)]
    by_cases h1 : p = 1 ∧ (x : ℤ) ≠ 0
    · rw [if_pos h1, h1.1, sub_self, zero_pow (by omega)]
      simp
    · rw [if_neg h1]
      by_cases h2 : p = 1 ∧ (x : ℤ) = 0
      · rw [if_pos h2, h2.1, show x = 0 by omega]
        simp
      · rw [if_neg h2, if_pos (by omega)]
        by_cases hx : x = 0
        · subst hx
          simp [Bind.bind, Except.bind]
        · rw [if_neg (by omega), if_neg (by omega), show (n : ℤ) + x - 1 = ((n + x - 1 : ℕ) : ℤ) by omega,
            nChooseK_spec _ _ (by omega) ht]
          simp only [Bind.bind, Except.bind, zpow_natCast, Int.cast_natCast]

theorem negP_nonneg (n x : ℕ) (p : ℝ) (h0 : 0 < p) (h1 : p ≤ 1) : 0 ≤ negP n p x :=
  mul_nonneg (mul_nonneg (by positivity) (pow_nonneg (by linarith) _)) (by positivity)

theorem negP_total (n : ℕ) (hn : 0 < n) (p : ℝ) (h0 : 0 < p) (h1 : p ≤ 1) : HasSum (negP n p) 1 := by
  obtain ⟨k, rfl⟩ : ∃ k, n = k + 1 := ⟨n - 1, by omega⟩
  have h := (hasSum_choose_mul_geometric_of_norm_lt_one k (r := 1 - p) (by rw [Real.norm_of_nonneg (by linarith)]; linarith)).mul_right
    (p ^ (k + 1))
  rw [sub_sub_cancel, one_div, inv_mul_cancel₀ (by positivity)] at h
  refine h.congr_fun fun x => ?_
  unfold negP
  rw [show k + 1 + x - 1 = x + k by omega, Nat.choose_symm_add]

theorem negativeBinomial_partial (n : ℕ) (p : ℝ) (h0 : 0 < p) (h1 : p ≤ 1) :
    (∀ x : ℕ, ((n + x - 1).choose x : ℝ) < top → negativeBinomialPDF x n (.fin p) = .ok (.fin (negP n p x))) ∧
    (∀ x : ℤ, x < 0 → negativeBinomialPDF x n (.fin p) = .ok (.fin 0)) ∧
    (∀ x : ℝ, 0 ≤ x → n ≠ 0 ∨ x = 0 → (∀ y ≤ ⌊x⌋₊, ((n + y - 1).choose y : ℝ) < top) →
      negativeBinomialCDF (.fin x) n (.fin p) = .ok (.fin (∑ i ∈ Finset.range (⌊x⌋₊ + 1), negP n p i))) ∧
    (∀ x : ℝ, x < 0 → negativeBinomialCDF (.fin x) n (.fin p) = .ok (.fin 0)) := by
  have hq : ¬ (p > 1 ∨ p ≤ 0 ∨ (n : ℤ) < 0) := by
    rintro (h | h | h)
    · linarith
    · linarith
    · omega
  refine ⟨fun x ht => ?_, fun x hx => ?_, fun x hx hn ht => ?_, fun x hx => ?_⟩
  · unfold negativeBinomialPDF
    rw [param1_ok (ok := fun p => ¬ (p > 1 ∨ p ≤ 0 ∨ (n : ℤ) < 0)) hq]
    by_cases hn : n = 0
    · subst hn
      by_cases hx : x = 0
      · subst hx
        simp [negP]
      · rw [if_neg (by omega), if_pos (by omega)]
        unfold negP
        rw [Nat.choose_eq_zero_of_lt (by omega)]
        simp
    · rw [if_neg (by omega), if_neg (by omega), negD_spec n x p h0.ne' ht]
      rfl
  · unfold negativeBinomialPDF
    rw [param1_ok (ok := fun p => ¬ (p > 1 ∨ p ≤ 0 ∨ (n : ℤ) < 0)) hq, if_neg (by omega)]
    by_cases hn : n = 0
    · rw [if_pos (by omega)]
    · rw [if_neg (by omega)]
      unfold negD
      rw [if_neg (by omega), if_neg (by omega)]
      by_cases h : p = 1
      · rw [if_pos ⟨h, by omega⟩]
        rfl
      · rw [if_neg (fun h' => h h'.1), if_neg (fun h' => h h'.1), if_neg (by omega)]
        rfl
  · unfold negativeBinomialCDF
    rw [param1_ok (ok := fun p => ¬ (p > 1 ∨ p ≤ 0 ∨ (n : ℤ) < 0)) hq, input_ok]
    by_cases h : x = 0 ∧ (n : ℤ) = 0
    · rw [if_pos h, h.1, show n = 0 by omega]
      simp [negP]
    · have hn0 : n ≠ 0 := by
        rcases hn with hn | hn
        · exact hn
        · exact fun h' => h ⟨hn, by omega⟩
      rw [if_neg h, if_neg (by omega), if_neg (not_lt.2 hx), show (⌊x + 1⌋).toNat = ⌊x⌋₊ + 1 by
        rw [Int.floor_add_one, ← Int.natCast_floor_eq_floor hx]; omega,
        sumTo_spec _ (negP n p) _ (fun y hy => negD_spec n y p h0.ne' (ht y (by omega)))]
      rfl
  · unfold negativeBinomialCDF
    rw [param1_ok (ok := fun p => ¬ (p > 1 ∨ p ≤ 0 ∨ (n : ℤ) < 0)) hq, input_ok, if_neg (fun h => hx.ne h.1)]
    by_cases hn : n = 0
    · rw [if_pos (by omega)]
    · rw [if_neg (by omega), if_pos hx]

/-- With no success to wait for, the distribution function is 1 at 0 and falls to 0 above. -/
theorem negativeBinomialCDF_violation : negativeBinomialCDF (.fin 0) 0 (.fin (1 / 2)) = .ok (.fin 1) ∧
    negativeBinomialCDF (.fin 1) 0 (.fin (1 / 2)) = .ok (.fin 0) ∧ ∑ i ∈ Finset.range 2, negP 0 (1 / 2) i = 1 := by
  refine ⟨?_, ?_, ?_⟩
  · unfold negativeBinomialCDF
    rw [param1_ok (ok := fun p => ¬ (p > 1 ∨ p ≤ 0 ∨ (0 : ℤ) < 0)) (by norm_num), input_ok]
    simp
  · unfold negativeBinomialCDF
    rw [param1_ok (ok := fun p => ¬ (p > 1 ∨ p ≤ 0 ∨ (0 : ℤ) < 0)) (by norm_num), input_ok]
    simp
  · simp [negP, Finset.sum_range_succ]

/-- A quantile that is found by the loop is the least number whose distribution function is above the level; there is one. -/
theorem negativeBinomialQF_partial (n : ℕ) (q p z : ℝ) (hn : 0 < n) (h0 : 0 < q) (h1 : q < 1) (hp0 : 0 < p) (hp1 : p < 1)
    (hw : n * (1 - q) / q + Real.sqrt (n * ((1 - q) * (1 / q)) * (1 / q)) *
      (z + ((1 / q + (1 - q) * (1 / q)) / Real.sqrt (n * ((1 - q) * (1 / q)) * (1 / q))) * (z * z - 1) / 6) ≤ 100000) :
    ∃ x : ℕ, p < ∑ i ∈ Finset.range (x + 1), negP n q i ∧ (∀ y < x, ∑ i ∈ Finset.range (y + 1), negP n q i ≤ p) ∧
      ((∀ y ≤ x, ((n + y - 1).choose y : ℝ) < top) →
        ∀ fuel, x + 2 ≤ fuel → negativeBinomialQF fuel z (.fin p) n (.fin q) = some (.ok (.fin x))) := by
  have hex : ∃ x, p < ∑ i ∈ Finset.range (x + 1), negP n q i := by
    have h := (negP_total n hn q h0 h1.le).tendsto_sum_nat
    obtain ⟨x, hx⟩ := ((h.comp (tendsto_add_atTop_nat 1)).eventually (lt_mem_nhds hp1)).exists
    exact ⟨x, hx⟩
  refine ⟨Nat.find hex, Nat.find_spec hex, fun y hy => not_lt.1 (Nat.find_min hex hy), fun ht fuel hf => ?_⟩
  unfold negativeBinomialQF
  rw [param1_ok (ok := fun q => ¬ (q ≤ 0 ∨ q > 1 ∨ (n : ℤ) < 0)) (by
    rintro (h | h | h)
    · linarith
    · linarith
    · omega), level_ok ⟨hp0.le, hp1.le⟩]
  simp only
  rw [if_neg (by omega), if_neg hp1.ne, if_neg hp0.ne', if_neg h1.ne, if_neg (by
    rw [not_lt, Int.ceil_le]
    exact_mod_cast hw)]
  have h := (stepLoop_spec (negD n q) (negP n q) (· ≤ p) fuel 0).1 (Nat.find hex + 1)
    (by omega) (by omega) (fun x hx => negD_spec n x q h0.ne' (ht x (by omega))) (fun z _ hz => by
      rcases Nat.eq_zero_or_pos z with h | h
      · rw [h]
        simpa using hp0.le
      · obtain ⟨y, rfl⟩ := Nat.exists_eq_add_of_lt h
        have := not_lt.1 (Nat.find_min hex (m := y) (by omega))
        simpa using this) (not_le.2 (Nat.find_spec hex))
  simp only [Finset.range_zero, Finset.sum_empty, Nat.cast_zero] at h
  rw [h]
  simp [Except.map]

/-! ## Errors and an example -/

/-- Parameters outside the domain, infinite ones and NaN raise the error of the function with suffix 0. -/
theorem discrete_parameters (x m n k size : ℤ) (a u : RNum) (fuel : ℕ) (z : ℝ) :
    ((∀ q, a = .fin q → size ≤ 0 ∨ q < 0 ∨ 1 < q) → binomialPDF x size a = .error (.rt 13300) ∧
      binomialQF fuel u size a = some (.error (.rt 13320))) ∧
    ((∀ q, a = .fin q → q ≤ 0 ∨ 1 < q) → geometricPDF x a = .error (.rt 13360) ∧ geometricCDF u a = .error (.rt 13370) ∧
      geometricQF u a = .error (.rt 13380)) ∧
    ((∀ q, a = .fin q → q < 0) → poissonPDF x a = .error (.rt 13090)) ∧
    (m + n < k ∨ m < 0 ∨ n ≤ 0 ∨ k < 0 → hypergeometricPDF x m n k = .error (.rt 13390) ∧
      hypergeometricCDF x m n k = .error (.rt 13400) ∧ hypergeometricQF fuel u m n k = some (.error (.rt 13410))) ∧
    ((∀ q, a = .fin q → q ≤ 0 ∨ 1 < q ∨ size < 0) → negativeBinomialPDF x size a = .error (.rt 13450) ∧
      negativeBinomialCDF u size a = .error (.rt 13460) ∧
      negativeBinomialQF fuel z u size a = some (.error (.rt 13470))) := by
  refine ⟨fun h => ⟨?_, ?_⟩, fun h => ⟨?_, ?_, ?_⟩, fun h => ?_, fun h => ⟨?_, ?_, ?_⟩, fun h => ⟨?_, ?_, ?_⟩⟩
  · exact param1_bad fun r hr => not_not.2 (h r hr)
  · unfold binomialQF
    rw [param1_bad fun r hr => not_not.2 (h r hr)]
  · exact param1_bad fun r hr => not_not.2 (h r hr)
  · exact param1_bad fun r hr => not_not.2 (h r hr)
  · exact param1_bad fun r hr => not_not.2 (h r hr)
  · exact param1_bad fun r hr => not_not.2 (h r hr)
  · exact if_pos (by unfold hyperBad; omega)
  · exact if_pos (by unfold hyperBad; omega)
  · exact if_pos (by unfold hyperBad; omega)
  · refine param1_bad fun r hr => not_not.2 ?_
    rcases h r hr with h | h | h
    · exact Or.inr (Or.inl h)
    · exact Or.inl h
    · exact Or.inr (Or.inr h)
  · refine param1_bad fun r hr => not_not.2 ?_
    rcases h r hr with h | h | h
    · exact Or.inr (Or.inl h)
    · exact Or.inl h
    · exact Or.inr (Or.inr h)
  · unfold negativeBinomialQF
    rw [param1_bad fun r hr => not_not.2 (h r hr)]

/-- With parameters in the domain, an input that is not finite and a level outside [0, 1] raise the error with suffix 1. -/
theorem discrete_inputs (n : ℕ) (m b k : ℕ) (q : ℝ) (u v : RNum) (fuel : ℕ) (z : ℝ) (hn : 0 < n) (h0 : 0 < q) (h1 : q ≤ 1) (hb : 0 < b)
    (hk : k ≤ m + b) (hu : ¬ Finite u) (hv : ∀ r, v = .fin r → ¬ (0 ≤ r ∧ r ≤ 1)) :
    geometricCDF u (.fin q) = .error (.rt 13371) ∧ negativeBinomialCDF u n (.fin q) = .error (.rt 13461) ∧
    binomialQF fuel v n (.fin q) = some (.error (.rt 13321)) ∧ geometricQF v (.fin q) = .error (.rt 13381) ∧
    hypergeometricQF fuel v m b k = some (.error (.rt 13411)) ∧
    negativeBinomialQF fuel z v n (.fin q) = some (.error (.rt 13471)) := by
  refine ⟨?_, ?_, ?_, ?_, ?_, ?_⟩
  · unfold geometricCDF
    rw [param1_ok (ok := fun q => ¬ (q ≤ 0 ∨ q > 1)) (by rintro (h | h) <;> linarith), input_bad hu]
    rfl
  · unfold negativeBinomialCDF
    rw [param1_ok (ok := fun p => ¬ (p > 1 ∨ p ≤ 0 ∨ (n : ℤ) < 0)) (by
      rintro (h | h | h)
      · linarith
      · linarith
      · omega), input_bad hu]
    rfl
  · unfold binomialQF
    rw [param1_ok (ok := fun q => ¬ ((n : ℤ) ≤ 0 ∨ q < 0 ∨ q > 1)) (by
      rintro (h | h | h)
      · omega
      · linarith
      · linarith), level_bad hv]
    rfl
  · unfold geometricQF
    rw [param1_ok (ok := fun q => ¬ (q ≤ 0 ∨ q > 1)) (by rintro (h | h) <;> linarith), level_bad hv]
    rfl
  · unfold hypergeometricQF
    rw [if_neg (hyper_good hb hk), level_bad hv]
    rfl
  · unfold negativeBinomialQF
    rw [param1_ok (ok := fun q => ¬ (q ≤ 0 ∨ q > 1 ∨ (n : ℤ) < 0)) (by
      rintro (h | h | h)
      · linarith
      · linarith
      · omega), level_bad hv]
    rfl

/-- Three fair coins: two heads have probability 3/8. -/
example : binomialPDF 2 3 (.fin (1 / 2)) = .ok (.fin (3 / 8)) := by
  have ht : ∀ k ≤ 3, ((3 : ℕ).choose k : ℝ) < top := fun a ha => by
    have h : Nat.choose 3 a ≤ 3 := by interval_cases a <;> decide
    have h2 : ((3 : ℕ).choose a : ℝ) ≤ 3 := by exact_mod_cast h
    refine lt_of_le_of_lt h2 ?_
    unfold top
    exact_mod_cast (by decide +kernel : 3 < 2 ^ 1024)
  have h := (binomialPDF_partial 3 2 (1 / 2) (by norm_num) (by norm_num) (by norm_num) ht).1 2 rfl (by norm_num)
  rw [show ((3 : ℕ) : ℤ) = 3 from rfl] at h
  rw [h]
  congr 2
  unfold binomP
  rw [show Nat.choose 3 2 = 3 from rfl]
  norm_num

end Verif.Prob
