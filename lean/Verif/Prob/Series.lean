import Verif.Prob.Density
import Mathlib.MeasureTheory.Integral.IntervalIntegral.IntegrationByParts
import Mathlib.Analysis.SpecialFunctions.Integrals.Basic
/-! # The incomplete gamma function as a series (`titus/lib/spec.py`) and the gamma and chi-squared distributions -/

namespace Verif.Prob
open Verif.Misc (RNum)
open Verif.Score (top pyExp)
open Filter Topology Classical MeasureTheory

/-! ## Model -/

/-- The loop of `regularizedGammaP` (spec.py 235-245) with the `fuel` that is left of `maxIter`; a sum of reals is never infinite. -/
noncomputable def gammaLoop (a x : ℝ) : ℕ → ℕ → ℝ → ℝ → ℕ × ℝ
  | 0, n, _, total => (n, total)
  | fuel + 1, n, an, total =>
    if |an / total| > 1 / 10 ^ 15 then
      let an' := an * (x / (a + (n + 1)))
      gammaLoop a x fuel (n + 1) an' (total + an')
    else (n, total)

/-- `regularizedGammaP` (232-252) for positive arguments. -/
noncomputable def gammaP (a x : ℝ) : Res ℝ :=
  if x < 0 ∨ a ≤ 0 then .error (.py "Exception")
  else
    let r := gammaLoop a x 1000 0 (1 / a) (1 / a)
    if r.1 ≥ 1000 then .error (.py "Exception")
    else do
      let e ← pyExp (-x + a * Real.log x - lgamma a)
      .ok (e * r.2)

/-- `GammaDistribution.CDF` (dist.py 1114-1123) for positive parameters. -/
noncomputable def gammaC (alpha beta x : ℝ) : Res RNum :=
  if x ≤ 0 then .ok (.fin 0) else do
    let v ← gammaP alpha (x / beta)
    .ok (.fin v)

/-- `prob.dist.gammaCDF` (331-344). -/
noncomputable def gammaCDF (x shape scale : RNum) : Res RNum :=
  param2 13130 shape scale (fun a b => ¬ (a < 0 ∨ b < 0)) fun a b => input 13130 x fun x =>
    if a = 0 ∨ b = 0 then .ok (.fin (if x ≠ 0 then 1 else 0))
    else if x < 0 then .ok (.fin 0)
    else gammaC a b x

/-- `prob.dist.chi2CDF` (210-221) with `Chi2Distribution.CDF` (1000-1010). -/
noncomputable def chi2CDF (x : RNum) (df : ℤ) : Res RNum :=
  if df < 0 then .error (.rt 13070)
  else input 13070 x fun x =>
    if df = 0 then .ok (.fin (if 0 < x then 1 else 0))
    else if x ≤ 0 then .ok (.fin 0)
    else gammaC (df / 2) 2 x

/-! ## Specification -/

/-- The regularized lower incomplete gamma function. -/
noncomputable def lowerP (a x : ℝ) : ℝ := (∫ t in (0 : ℝ)..x, t ^ (a - 1) * Real.exp (-t)) / Real.Gamma a

/-- The distribution function of the gamma distribution. -/
noncomputable def gammaF (a b x : ℝ) : ℝ := if x ≤ 0 then 0 else lowerP a (x / b)

/-! ## The integral -/

theorem kernel_integrable {a : ℝ} (ha : 0 < a) (x y : ℝ) :
    IntervalIntegrable (fun t : ℝ => t ^ (a - 1) * Real.exp (-t)) volume x y :=
  (intervalIntegral.intervalIntegrable_rpow' (by linarith)).mul_continuousOn (by fun_prop)

theorem lowerP_deriv {a x : ℝ} (ha : 0 < a) (hx : 0 < x) : HasDerivAt (lowerP a) (x ^ (a - 1) * Real.exp (-x) / Real.Gamma a) x := by
  have hc : ∀ y, 0 < y → ContinuousAt (fun t : ℝ => t ^ (a - 1) * Real.exp (-t)) y := fun y hy =>
    ((Real.continuousAt_rpow_const y (a - 1) (Or.inl hy.ne'))).mul (by fun_prop)
  have hm : StronglyMeasurableAtFilter (fun t : ℝ => t ^ (a - 1) * Real.exp (-t)) (𝓝 x) volume := by
    refine ContinuousOn.stronglyMeasurableAtFilter (s := Set.Ioi 0) isOpen_Ioi ?_ x hx
    exact fun y hy => (hc y hy).continuousWithinAt
  exact (intervalIntegral.integral_hasDerivAt_right (kernel_integrable ha 0 x) hm (hc x hx)).div_const _

theorem lowerP_cont {a : ℝ} (ha : 0 < a) : Continuous (lowerP a) :=
  (intervalIntegral.continuous_primitive (fun x y => kernel_integrable ha x y) 0).div_const _

theorem lowerP_zero (a : ℝ) : lowerP a 0 = 0 := by
  unfold lowerP
  rw [intervalIntegral.integral_same, zero_div]

theorem lowerP_top {a : ℝ} (ha : 0 < a) : Tendsto (lowerP a) atTop (𝓝 1) := by
  have hi : IntegrableOn (fun t : ℝ => t ^ (a - 1) * Real.exp (-t)) (Set.Ioi 0) := by
    refine (Real.GammaIntegral_convergent ha).congr_fun (fun t _ => ?_) measurableSet_Ioi
    exact mul_comm _ _
  have h := (intervalIntegral_tendsto_integral_Ioi 0 hi tendsto_id).div_const (Real.Gamma a)
  have e : ∫ t in Set.Ioi (0 : ℝ), t ^ (a - 1) * Real.exp (-t) = Real.Gamma a := by
    rw [Real.Gamma_eq_integral ha]
    congr 1
    funext t
    exact mul_comm _ _
  rw [e, div_self (Real.Gamma_pos_of_pos ha).ne'] at h
  exact h

/-- The gamma distribution function with the density of the gamma distribution. -/
theorem gammaF_isCdf (a b : ℝ) (ha : 0 < a) (hb : 0 < b) : IsCdf (gammaF a b) (ProbabilityTheory.gammaPDFReal a (1 / b)) := by
  refine isCdf_of_pos (G := fun x => lowerP a (x / b)) (fun x hx => if_pos hx) (fun x hx => if_neg (not_le.2 hx)) ?_ ?_ ?_ ?_ ?_
  · intro x hx
    rw [ProbabilityTheory.gammaPDFReal, if_neg (not_le.2 hx)]
  · intro x hx
    have hd : HasDerivAt (fun x => x / b) (1 / b) x := (hasDerivAt_id x).div_const _
    have h := (lowerP_deriv ha (div_pos hx hb)).comp x hd
    refine h.congr_deriv ?_
    rw [ProbabilityTheory.gammaPDFReal, if_pos hx.le, Real.div_rpow hx.le hb.le, one_div, Real.inv_rpow hb.le, Real.rpow_sub_one hb.ne']
    have h3 : 0 < b ^ a := Real.rpow_pos_of_pos hb a
    have hg := Real.Gamma_pos_of_pos ha
    have e4 : -(b⁻¹ * x) = -(x / b) := by ring
    rw [e4]
    field_simp
  · exact fun x _ => ProbabilityTheory.gammaPDFReal_nonneg ha (by positivity) x
  · have : Continuous fun x => lowerP a (x / b) := (lowerP_cont ha).comp (by fun_prop)
    have h := this.tendsto 0
    rw [zero_div, lowerP_zero] at h
    exact h.mono_left nhdsWithin_le_nhds
  · exact (lowerP_top ha).comp (tendsto_id.atTop_div_const hb)

theorem lowerP_nonneg {a x : ℝ} (ha : 0 < a) (hx : 0 ≤ x) : 0 ≤ lowerP a x :=
  div_nonneg (intervalIntegral.integral_nonneg hx fun t ht => mul_nonneg (Real.rpow_nonneg ht.1 _) (Real.exp_pos _).le)
    (Real.Gamma_pos_of_pos ha).le

theorem lowerP_le_one {a x : ℝ} (ha : 0 < a) (hx : 0 < x) : lowerP a x ≤ 1 := by
  have h := (gammaF_isCdf a 1 ha one_pos).range x
  unfold gammaF at h
  rw [if_neg (not_le.2 hx), div_one] at h
  exact h.2

/-! ## The recurrence -/

theorem power_exp_deriv {a t : ℝ} (ht : 0 < t) :
    HasDerivAt (fun t : ℝ => t ^ a * Real.exp (-t)) (a * (t ^ (a - 1) * Real.exp (-t)) - t ^ (a + 1 - 1) * Real.exp (-t)) t := by
  have h := (Real.hasDerivAt_rpow_const (p := a) (Or.inl ht.ne')).mul ((hasDerivAt_neg t).exp)
  refine h.congr_deriv ?_
  rw [add_sub_cancel_right]
  ring

theorem lowerP_succ {a x : ℝ} (ha : 0 < a) (hx : 0 ≤ x) :
    lowerP a x = x ^ a * Real.exp (-x) / Real.Gamma (a + 1) + lowerP (a + 1) x := by
  have hi := (kernel_integrable ha 0 x).const_mul a
  have hj := kernel_integrable (a := a + 1) (by linarith) 0 x
  have h := intervalIntegral.integral_eq_sub_of_hasDerivAt_of_le hx (f := fun t : ℝ => t ^ a * Real.exp (-t))
    (f' := fun t => a * (t ^ (a - 1) * Real.exp (-t)) - t ^ (a + 1 - 1) * Real.exp (-t))
    ((Real.continuous_rpow_const ha.le).mul (by fun_prop)).continuousOn
    (fun t ht => power_exp_deriv ht.1) (hi.sub hj)
  rw [intervalIntegral.integral_sub hi hj, intervalIntegral.integral_const_mul, Real.zero_rpow ha.ne', zero_mul, sub_zero] at h
  unfold lowerP
  rw [Real.Gamma_add_one ha.ne']
  have hg := Real.Gamma_pos_of_pos ha
  field_simp
  linarith

/-- A bound of the integral where the kernel increases. -/
theorem lowerP_upper {b x : ℝ} (hx : 0 ≤ x) (hb : x < b) : lowerP b x * (b - x) ≤ x ^ b * Real.exp (-x) / Real.Gamma b := by
  have hb0 : 0 < b := lt_of_le_of_lt hx hb
  have hi := kernel_integrable hb0 0 x
  have hj := kernel_integrable (a := b + 1) (by linarith) 0 x
  have h := intervalIntegral.integral_eq_sub_of_hasDerivAt_of_le hx (f := fun t : ℝ => t ^ b * Real.exp (-t))
    (f' := fun t => b * (t ^ (b - 1) * Real.exp (-t)) - t ^ (b + 1 - 1) * Real.exp (-t))
    ((Real.continuous_rpow_const hb0.le).mul (by fun_prop)).continuousOn
    (fun t ht => power_exp_deriv ht.1) ((hi.const_mul b).sub hj)
  rw [Real.zero_rpow hb0.ne', zero_mul, sub_zero] at h
  have hle : ∫ t in (0 : ℝ)..x, (b - x) * (t ^ (b - 1) * Real.exp (-t)) ≤
      ∫ t in (0 : ℝ)..x, (b * (t ^ (b - 1) * Real.exp (-t)) - t ^ (b + 1 - 1) * Real.exp (-t)) := by
    refine intervalIntegral.integral_mono_on hx (hi.const_mul _) ((hi.const_mul b).sub hj) fun t ht => ?_
    have e : t ^ (b + 1 - 1) = t * t ^ (b - 1) := by
      rcases ht.1.eq_or_lt with h0 | h0
      · rw [← h0, add_sub_cancel_right, Real.zero_rpow hb0.ne', zero_mul]
      · rw [add_sub_cancel_right, Real.rpow_sub_one h0.ne']
        field_simp
    rw [e]
    have hk : 0 ≤ t ^ (b - 1) * Real.exp (-t) := mul_nonneg (Real.rpow_nonneg ht.1 _) (Real.exp_pos _).le
    nlinarith [ht.2]
  rw [h, intervalIntegral.integral_const_mul] at hle
  unfold lowerP
  rw [div_mul_eq_mul_div, div_le_div_iff_of_pos_right (Real.Gamma_pos_of_pos hb0)]
  linarith

/-! ## The loop -/

/-- The terms of the series. -/
noncomputable def term (a x : ℝ) : ℕ → ℝ
  | 0 => 1 / a
  | n + 1 => term a x n * (x / (a + (n + 1)))

theorem term_pos {a x : ℝ} (ha : 0 < a) (hx : 0 < x) (n : ℕ) : 0 < term a x n := by
  induction n with
  | zero => exact one_div_pos.2 ha
  | succ n ih => exact mul_pos ih (div_pos hx (by positivity))

/-- The sum of the first `n + 1` terms. -/
noncomputable def partialSum (a x : ℝ) (n : ℕ) : ℝ := ∑ k ∈ Finset.range (n + 1), term a x k

theorem partialSum_pos {a x : ℝ} (ha : 0 < a) (hx : 0 < x) (n : ℕ) : 0 < partialSum a x n :=
  Finset.sum_pos (fun k _ => term_pos ha hx k) ⟨0, by simp⟩

/-- The factor in front of the sum. -/
noncomputable def front (a x : ℝ) : ℝ := x ^ a * Real.exp (-x) / Real.Gamma a

theorem front_pos {a x : ℝ} (ha : 0 < a) (hx : 0 < x) : 0 < front a x :=
  div_pos (mul_pos (Real.rpow_pos_of_pos hx a) (Real.exp_pos _)) (Real.Gamma_pos_of_pos ha)

theorem front_term {a x : ℝ} (ha : 0 < a) (hx : 0 < x) (n : ℕ) :
    front a x * term a x n = x ^ (a + n) * Real.exp (-x) / Real.Gamma (a + n + 1) := by
  induction n with
  | zero =>
    have hg := Real.Gamma_pos_of_pos ha
    rw [Nat.cast_zero, add_zero, Real.Gamma_add_one ha.ne']
    unfold front term
    field_simp
  | succ n ih =>
    have hp : 0 < a + n + 1 := by positivity
    have hg := Real.Gamma_pos_of_pos hp
    rw [term, ← mul_assoc, ih, Nat.cast_succ, ← add_assoc, Real.Gamma_add_one hp.ne', Real.rpow_add_one hx.ne']
    field_simp

/-- The partial sums fall short of the function by the same function with a larger parameter. -/
theorem partialSum_spec {a x : ℝ} (ha : 0 < a) (hx : 0 < x) (n : ℕ) :
    lowerP a x = front a x * partialSum a x n + lowerP (a + n + 1) x := by
  induction n with
  | zero =>
    have h := lowerP_succ ha hx.le
    rw [partialSum, Finset.sum_range_one, front_term ha hx]
    simpa using h
  | succ n ih =>
    have h := lowerP_succ (a := a + n + 1) (by positivity) hx.le
    rw [ih, h, partialSum, partialSum, Finset.sum_range_succ _ (n + 1), mul_add, front_term ha hx]
    push_cast
    rw [← add_assoc a]
    ring

theorem gammaLoop_spec {a x : ℝ} (fuel n : ℕ) :
    ∃ m, n ≤ m ∧ m ≤ n + fuel ∧ gammaLoop a x fuel n (term a x n) (partialSum a x n) = (m, partialSum a x m) ∧
      (m < n + fuel → |term a x m / partialSum a x m| ≤ 1 / 10 ^ 15) ∧
      ∀ k, n ≤ k → k < m → 1 / 10 ^ 15 < |term a x k / partialSum a x k| := by
  induction fuel generalizing n with
  | zero => exact ⟨n, le_rfl, by omega, rfl, by omega, by omega⟩
  | succ fuel ih =>
    by_cases h : |term a x n / partialSum a x n| > 1 / 10 ^ 15
    · obtain ⟨m, h1, h2, h3, h4, h5⟩ := ih (n + 1)
      refine ⟨m, by omega, by omega, ?_, fun hm => h4 (by omega), fun k hk hm => ?_⟩
      · rw [gammaLoop, if_pos h]
        have e : partialSum a x (n + 1) = partialSum a x n + term a x n * (x / (a + (n + 1))) := by
          rw [partialSum, Finset.sum_range_succ]
          rfl
        rw [e] at h3
        exact h3
      · rcases hk.eq_or_lt with hk | hk
        · exact hk ▸ h
        · exact h5 k hk hm
    · refine ⟨n, le_rfl, by omega, ?_, fun _ => not_lt.1 h, by omega⟩
      rw [gammaLoop, if_neg h]

theorem pyExp_front {a x : ℝ} (ha : 0 < a) (hx : 0 < x) (hat : a < top) : pyExp (-x + a * Real.log x - lgamma a) = .ok (front a x) := by
  have e : Real.exp (-x + a * Real.log x - lgamma a) = front a x := by
    unfold front
    rw [Real.exp_sub, Real.exp_add, exp_lgamma ha, mul_comm a, ← Real.rpow_def_of_pos hx]
    ring
  have hle : front a x ≤ a := by
    have h := lowerP_succ ha hx.le
    have h1 := lowerP_le_one ha hx
    have h0 := lowerP_nonneg (a := a + 1) (by linarith) hx.le
    rw [Real.Gamma_add_one ha.ne'] at h
    have hg := Real.Gamma_pos_of_pos ha
    have : front a x = a * (x ^ a * Real.exp (-x) / (a * Real.Gamma a)) := by unfold front; field_simp
    rw [this]
    nlinarith
  rw [Score.pyExp_ok (by rw [e]; exact lt_of_le_of_lt hle hat), e]

/-- Either all thousand terms are needed and a bare Exception is raised, or the sum up to the first negligible term is returned. -/
theorem gammaP_cases {a x : ℝ} (ha : 0 < a) (hx : 0 < x) (hat : a < top) :
    (gammaP a x = .error (.py "Exception") ∧ ∀ k < 1000, 1 / 10 ^ 15 < term a x k / partialSum a x k) ∨
    ∃ n < 1000, gammaP a x = .ok (front a x * partialSum a x n) ∧ term a x n ≤ partialSum a x n / 10 ^ 15 := by
  have habs : ∀ k, |term a x k / partialSum a x k| = term a x k / partialSum a x k := fun k =>
    abs_of_pos (div_pos (term_pos ha hx k) (partialSum_pos ha hx k))
  obtain ⟨m, _, h2, h3, h4, h5⟩ := gammaLoop_spec (a := a) (x := x) 1000 0
  have e0 : partialSum a x 0 = 1 / a := by rw [partialSum, Finset.sum_range_one]; rfl
  rw [e0] at h3
  change gammaLoop a x 1000 0 (1 / a) (1 / a) = (m, partialSum a x m) at h3
  unfold gammaP
  rw [if_neg (by push Not; exact ⟨hx.le, ha⟩), h3]
  simp only
  by_cases hm : m ≥ 1000
  · left
    rw [if_pos hm]
    exact ⟨rfl, fun k hk => habs k ▸ h5 k (Nat.zero_le _) (by omega)⟩
  · right
    refine ⟨m, by omega, ?_, ?_⟩
    · rw [if_neg hm]
      rw [pyExp_front ha hx hat]
      rfl
    · have := h4 (by omega)
      rw [habs, div_le_iff₀ (partialSum_pos ha hx m)] at this
      linarith

/-! ## Accuracy -/

theorem term_ratio {a x : ℝ} (ha : 0 < a) (hx : 0 < x) (n j : ℕ) (q : ℝ) (hq : 0 < q) (h : q ≤ x / (a + (n + j))) :
    term a x n * q ^ j ≤ term a x (n + j) := by
  induction j with
  | zero => simp
  | succ j ih =>
    have hmono : x / (a + (n + (j + 1 : ℕ))) ≤ x / (a + (n + j)) := by
      push_cast
      rcases Nat.eq_zero_or_pos (n + j) with h0 | h0
      · gcongr
        linarith
      · gcongr
        linarith
    have h1 := ih (h.trans hmono)
    rw [← add_assoc, term, pow_succ, ← mul_assoc]
    have e : (a + ((n + j : ℕ) + 1) : ℝ) = a + (n + (j + 1 : ℕ)) := by push_cast; ring
    rw [e]
    exact mul_le_mul h1 h hq.le (term_pos ha hx _).le

theorem stop_ratio {a x : ℝ} (ha : 0 < a) (hx : 0 < x) (n : ℕ) (hn : n < 1000) (h : term a x n ≤ partialSum a x n / 10 ^ 15) :
    x / (a + n) < 0.975 := by
  by_contra hc
  push Not at hc
  have hk : ∀ k ∈ Finset.range (n + 1), term a x k ≤ term a x n * (1 / 0.975 ^ 1000) := by
    intro k hk
    have hk' : k ≤ n := by simpa [Nat.lt_succ_iff] using hk
    have h1 := term_ratio ha hx k (n - k) 0.975 (by norm_num) (by
      have : ((k : ℝ) + ((n - k : ℕ) : ℝ)) = n := by rw [← Nat.cast_add]; congr 1; omega
      rw [this]; exact hc)
    rw [Nat.add_sub_cancel' hk'] at h1
    have h2 : (0.975 : ℝ) ^ 1000 ≤ 0.975 ^ (n - k) := pow_le_pow_of_le_one (by norm_num) (by norm_num) (by omega)
    have hp := term_pos ha hx k
    rw [mul_one_div, le_div_iff₀ (by positivity)]
    exact (mul_le_mul_of_nonneg_left h2 hp.le).trans h1
  have hs : partialSum a x n ≤ 1000 * (term a x n * (1 / 0.975 ^ 1000)) := by
    refine (Finset.sum_le_card_nsmul _ _ _ hk).trans ?_
    rw [Finset.card_range, nsmul_eq_mul]
    have hp : 0 ≤ term a x n * (1 / 0.975 ^ 1000) := mul_nonneg (term_pos ha hx n).le (by positivity)
    have : ((n + 1 : ℕ) : ℝ) ≤ 1000 := by exact_mod_cast (by omega : n + 1 ≤ 1000)
    exact mul_le_mul_of_nonneg_right this hp
  have hp := term_pos ha hx n
  have hnum : (1000 * (1 / 0.975 ^ 1000) / 10 ^ 15 : ℝ) < 1 := by
    have h1 : (1 / 12.6 : ℝ) ≤ 0.975 ^ 100 := by norm_num
    have h2 : ((1 / 12.6) ^ 10 : ℝ) ≤ (0.975 ^ 100) ^ 10 := pow_le_pow_left₀ (by norm_num) h1 10
    rw [← pow_mul] at h2
    have h3 : (1 / 0.975 ^ 1000 : ℝ) ≤ 1 / (1 / 12.6) ^ 10 := one_div_le_one_div_of_le (by positivity) h2
    refine lt_of_le_of_lt (div_le_div_of_nonneg_right (mul_le_mul_of_nonneg_left h3 (by norm_num)) (by norm_num)) ?_
    norm_num
  have : term a x n ≤ term a x n * (1000 * (1 / 0.975 ^ 1000) / 10 ^ 15) := by
    calc term a x n ≤ partialSum a x n / 10 ^ 15 := h
      _ ≤ 1000 * (term a x n * (1 / 0.975 ^ 1000)) / 10 ^ 15 := by gcongr
      _ = _ := by ring
  nlinarith

/-- When the series is returned its relative error is below 4e-14, and it is not above the true value. -/
theorem gammaP_accuracy {a x v : ℝ} (ha : 0 < a) (hx : 0 < x) (hat : a < top) (h : gammaP a x = .ok v) :
    0 < v ∧ v ≤ lowerP a x ∧ lowerP a x ≤ v * (1 + 4 / 10 ^ 14) := by
  rcases gammaP_cases ha hx hat with ⟨h1, _⟩ | ⟨n, hn, h1, h2⟩
  · rw [h1] at h
    cases h
  · rw [h1] at h
    injection h with h
    subst h
    have hf := front_pos ha hx
    have hS := partialSum_pos ha hx n
    have ht := term_pos ha hx n
    have hr := stop_ratio ha hx n hn h2
    have hb : 0 < a + n := by positivity
    have hb1 : 0 < a + n + 1 := by positivity
    rw [div_lt_iff₀ hb] at hr
    have hx1 : x < 0.975 * (a + n + 1) := by linarith
    have hu := lowerP_upper (b := a + n + 1) hx.le (by linarith)
    have hrem : x ^ (a + n + 1) * Real.exp (-x) / Real.Gamma (a + n + 1) = front a x * term a x n * x := by
      rw [front_term ha hx, Real.rpow_add_one hx.ne']
      ring
    rw [hrem] at hu
    have hP0 := lowerP_nonneg (a := a + n + 1) hb1 hx.le
    have hR : lowerP (a + n + 1) x ≤ front a x * term a x n * 39 := by
      have hfx : 0 < front a x * term a x n := mul_pos hf ht
      have h3 : 0.025 * (a + n + 1) ≤ a + n + 1 - x := by linarith
      have h4 : lowerP (a + n + 1) x * (0.025 * (a + n + 1)) ≤ front a x * term a x n * (0.975 * (a + n + 1)) :=
        (mul_le_mul_of_nonneg_left h3 hP0).trans (hu.trans (mul_le_mul_of_nonneg_left hx1.le hfx.le))
      have h5 : lowerP (a + n + 1) x * 0.025 ≤ front a x * term a x n * 0.975 := by
        refine le_of_mul_le_mul_right ?_ hb1
        linarith
      linarith
    have hs := partialSum_spec ha hx n
    refine ⟨mul_pos hf hS, by linarith, ?_⟩
    have h6 : front a x * term a x n ≤ front a x * (partialSum a x n / 10 ^ 15) := mul_le_mul_of_nonneg_left h2 hf.le
    have h7 : 0 < front a x * partialSum a x n := mul_pos hf hS
    rw [hs]
    have h8 : front a x * (partialSum a x n / 10 ^ 15) = front a x * partialSum a x n / 10 ^ 15 := by ring
    rw [h8] at h6
    generalize front a x * partialSum a x n = S at *
    norm_num at *
    linarith

/-! ## When the series is returned -/

/-- A large argument raises a bare Exception. -/
theorem gammaP_raises {a x : ℝ} (ha : 0 < a) (hat : a < top) (hx : a + 1000 ≤ x) : gammaP a x = .error (.py "Exception") := by
  have hx0 : 0 < x := by linarith
  rcases gammaP_cases ha hx0 hat with ⟨h1, _⟩ | ⟨n, hn, _, h2⟩
  · exact h1
  · have hn' : (n : ℝ) ≤ 1000 := by exact_mod_cast hn.le
    have h := stop_ratio ha hx0 n hn h2
    rw [div_lt_iff₀ (by positivity)] at h
    linarith

theorem term_upper {a x : ℝ} (ha : 0 < a) (hx : 0 < x) (n : ℕ) : term a x n ≤ 1 / a * (x ^ n / n.factorial) := by
  induction n with
  | zero => simp [term]
  | succ n ih =>
    rw [term, Nat.factorial_succ, pow_succ]
    have h1 : x / (a + (n + 1)) ≤ x / (n + 1) := div_le_div_of_nonneg_left hx.le (by positivity) (by linarith)
    refine (mul_le_mul ih h1 (by positivity) (by positivity)).trans (le_of_eq ?_)
    push_cast
    field_simp

theorem factorial_bound : 300 ^ 999 * 10 ^ 15 ≤ Nat.factorial 999 := by decide +kernel

/-- For arguments up to 300 the series is always returned. -/
theorem gammaP_returns {a x : ℝ} (ha : 0 < a) (hat : a < top) (hx : 0 < x) (h : x ≤ 300) : ∃ v, gammaP a x = .ok v := by
  rcases gammaP_cases ha hx hat with ⟨_, h2⟩ | ⟨n, _, h1, _⟩
  · exfalso
    have h3 := h2 999 (by norm_num)
    rw [lt_div_iff₀ (partialSum_pos ha hx 999)] at h3
    have h4 : 1 / a ≤ partialSum a x 999 := by
      have := Finset.single_le_sum (f := term a x) (s := Finset.range 1000) (fun k _ => (term_pos ha hx k).le) (a := 0) (by simp)
      exact this
    have h5 := term_upper ha hx 999
    have h6 : x ^ 999 / (Nat.factorial 999 : ℝ) ≤ 1 / 10 ^ 15 := by
      have hf : (300 ^ 999 * 10 ^ 15 : ℝ) ≤ (Nat.factorial 999 : ℝ) := by exact_mod_cast factorial_bound
      rw [div_le_div_iff₀ (by positivity) (by positivity), one_mul]
      exact (mul_le_mul_of_nonneg_right (pow_le_pow_left₀ hx.le h 999) (by positivity)).trans hf
    have h7 : 1 / a * (x ^ 999 / (Nat.factorial 999 : ℝ)) ≤ 1 / a * (1 / 10 ^ 15) := mul_le_mul_of_nonneg_left h6 (by positivity)
    have h8 : 1 / 10 ^ 15 * (1 / a) ≤ 1 / 10 ^ 15 * partialSum a x 999 := mul_le_mul_of_nonneg_left h4 (by positivity)
    linarith
  · exact ⟨_, h1⟩

/-! ## The distribution functions -/

/-- What the gamma distribution function returns is within a relative error of 4e-14 of the true value. -/
theorem gammaCDF_partial (x a b : ℝ) (ha : 0 < a) (hb : 0 < b) (hat : a < top) :
    (x ≤ 0 → gammaCDF (.fin x) (.fin a) (.fin b) = .ok (.fin (gammaF a b x))) ∧
    (0 < x → x / b ≤ 300 → ∃ v, gammaCDF (.fin x) (.fin a) (.fin b) = .ok (.fin v)) ∧
    (0 < x → ∀ v, gammaCDF (.fin x) (.fin a) (.fin b) = .ok v →
      ∃ r, v = .fin r ∧ 0 < r ∧ r ≤ gammaF a b x ∧ gammaF a b x ≤ r * (1 + 4 / 10 ^ 14)) ∧
    (a + 1000 ≤ x / b → gammaCDF (.fin x) (.fin a) (.fin b) = .error (.py "Exception")) := by
  have hok : gammaCDF (.fin x) (.fin a) (.fin b) = if x < 0 then .ok (.fin 0) else gammaC a b x := by
    unfold gammaCDF
    rw [param2_ok (ok := fun a b => ¬ (a < 0 ∨ b < 0)) (by rintro (h | h) <;> linarith), input_ok,
      if_neg (by rintro (h | h) <;> linarith)]
  have hpos : 0 < x → gammaCDF (.fin x) (.fin a) (.fin b) = (gammaP a (x / b)).bind fun v => .ok (.fin v) := by
    intro hx
    rw [hok, if_neg (not_lt.2 hx.le)]
    unfold gammaC
    rw [if_neg (not_le.2 hx)]
    rfl
  refine ⟨fun hx => ?_, fun hx h => ?_, fun hx v hv => ?_, fun h => ?_⟩
  · rw [hok]
    unfold gammaC gammaF
    rw [if_pos hx, if_pos hx]
    split <;> rfl
  · obtain ⟨v, hv⟩ := gammaP_returns ha hat (div_pos hx hb) h
    exact ⟨v, by rw [hpos hx, hv]; rfl⟩
  · rw [hpos hx] at hv
    cases hP : gammaP a (x / b) with
    | error e => rw [hP] at hv; cases hv
    | ok r =>
      rw [hP] at hv
      injection hv with hv
      have h := gammaP_accuracy ha (div_pos hx hb) hat hP
      refine ⟨r, hv.symm, ?_⟩
      unfold gammaF
      rw [if_neg (not_le.2 hx)]
      exact h
  · have hx : 0 < x := by
      have : 0 < x / b := by linarith
      rwa [div_pos_iff_of_pos_right hb] at this
    rw [hpos hx, gammaP_raises ha hat h]
    rfl

/-- Violations: far in the tail a bare Exception is raised, and with the scale zero the distribution function is 1 to the left of zero
and 0 at zero. -/
theorem gammaCDF_violation : gammaCDF (.fin 2000) (.fin 1) (.fin 1) = .error (.py "Exception") ∧
    gammaCDF (.fin (-1)) (.fin 1) (.fin 0) = .ok (.fin 1) ∧ gammaCDF (.fin 0) (.fin 1) (.fin 0) = .ok (.fin 0) := by
  refine ⟨(gammaCDF_partial 2000 1 1 one_pos one_pos Score.one_lt_top).2.2.2 (by norm_num), ?_, ?_⟩
  · unfold gammaCDF
    rw [param2_ok (ok := fun a b => ¬ (a < 0 ∨ b < 0)) (by norm_num), input_ok, if_pos (by norm_num), if_pos (by norm_num)]
  · unfold gammaCDF
    rw [param2_ok (ok := fun a b => ¬ (a < 0 ∨ b < 0)) (by norm_num), input_ok, if_pos (by norm_num), if_neg (by norm_num)]

/-- The chi-squared distribution function is the gamma distribution function with shape `n / 2` and scale 2. -/
theorem chi2CDF_spec (x : ℝ) (n : ℤ) (hn : 0 < n) : chi2CDF (.fin x) n = gammaCDF (.fin x) (.fin (n / 2)) (.fin 2) := by
  have hn' : (0 : ℝ) < n / 2 := by
    have : (0 : ℝ) < n := by exact_mod_cast hn
    linarith
  unfold chi2CDF gammaCDF
  rw [if_neg (by omega), input_ok, if_neg (by omega),
    param2_ok (ok := fun a b => ¬ (a < 0 ∨ b < 0)) (by rintro (h | h) <;> linarith), input_ok,
    if_neg (show ¬ ((n : ℝ) / 2 = 0 ∨ (2 : ℝ) = 0) by rintro (h | h) <;> linarith)]
  rcases lt_trichotomy x 0 with h | h | h
  · rw [if_pos h.le, if_pos h]
  · subst h
    rw [if_pos le_rfl, if_neg (lt_irrefl _)]
    unfold gammaC
    rw [if_pos le_rfl]
  · rw [if_neg (not_le.2 h), if_neg (not_lt.2 h.le)]

/-- Without degrees of freedom all the weight is at zero, but the distribution function at zero is 0. -/
theorem chi2CDF_zero_violation (x : ℝ) : chi2CDF (.fin x) 0 = .ok (.fin (if 0 < x then 1 else 0)) := by
  unfold chi2CDF
  rw [if_neg (by omega), input_ok, if_pos rfl]

theorem series_errors (x a b : RNum) (n : ℤ) :
    ((∀ r s, a = .fin r → b = .fin s → r < 0 ∨ s < 0) → gammaCDF x a b = .error (.rt 13130)) ∧
    (∀ r s, a = .fin r → b = .fin s → 0 ≤ r → 0 ≤ s → ¬ Finite x → gammaCDF x a b = .error (.rt 13131)) ∧
    (n < 0 → chi2CDF x n = .error (.rt 13070)) ∧ (0 ≤ n → ¬ Finite x → chi2CDF x n = .error (.rt 13071)) := by
  refine ⟨fun h => param2_bad fun r s hr hs => not_not.2 (h r s hr hs), fun r s hr hs h1 h2 hx => ?_, fun h => if_pos h,
    fun h hx => (if_neg (by omega)).trans (input_bad hx)⟩
  subst hr hs
  exact (param2_ok (ok := fun a b => ¬ (a < 0 ∨ b < 0)) (by rintro (h | h) <;> linarith)).trans (input_bad hx)

end Verif.Prob
