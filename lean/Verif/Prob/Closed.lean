import Verif.Prob.Basic
import Mathlib.Probability.Distributions.Exponential
import Mathlib.Probability.Distributions.Cauchy
import Mathlib.Probability.Distributions.Gaussian.Real
import Mathlib.Analysis.SpecialFunctions.Trigonometric.ArctanDeriv
import Mathlib.Analysis.Complex.ExponentialBounds
import Mathlib.Order.Monotone.Union
/-! # Distributions in closed form (`titus/lib/prob/dist.py`): Gauss, exponential, Cauchy, uniform, Weibull, lognormal -/

namespace Verif.Prob
open Verif.Misc (RNum)
open Verif.Score (top pySq)
open Filter Topology Classical

/-! ## Model -/

/-- `sigma` of a record with `mean` and `variance` (dist.py 52-57). -/
noncomputable def sigmaArg (base : Int) : RNum → Res RNum
  | .fin v => if v < 0 then .error (.rt base) else .ok (.fin √v)
  | .pinf => .ok .pinf
  | _ => .error (.rt base)

/-- The forms that take a record in place of `mu` and `sigma`. -/
noncomputable def onRecord (base : Int) (f : RNum → RNum → RNum → Res RNum) (x mean variance : RNum) : Res RNum := do
  let s ← sigmaArg base variance
  f x mean s

/-- `GaussianDistribution.LL` for a positive sigma (886-894). -/
noncomputable def gaussLL (mu sigma x : ℝ) : Res RNum := do
  let q ← pySq (x - mu)
  let v ← pySq sigma
  .ok (.fin (-q / (2 * v) - Real.log (sigma * √(2 * Real.pi))))

/-- `prob.dist.gaussianLL` (49-69). -/
noncomputable def gaussianLL (x mu sigma : RNum) : Res RNum :=
  param2 13000 mu sigma (fun _ s => 0 ≤ s) fun mu s => input 13000 x fun x =>
    if s = 0 then .ok (if x ≠ mu then .ninf else .pinf) else gaussLL mu s x

/-- `GaussianDistribution.CDF` for a positive sigma (896-902). -/
noncomputable def gaussCDF (mu sigma x : ℝ) : ℝ := 0.5 * (1 + erf ((x - mu) / (sigma * √2)))

/-- `prob.dist.gaussianCDF` (76-97). -/
noncomputable def gaussianCDF (x mu sigma : RNum) : Res RNum :=
  param2 13010 mu sigma (fun _ s => 0 ≤ s) fun mu s => input 13010 x fun x =>
    if s = 0 then .ok (.fin (if x < mu then 0 else 1)) else .ok (.fin (gaussCDF mu s x))

/-- `g` (914-930). -/
noncomputable def gaussG (p : ℝ) : ℝ :=
  let t := √(-2 * Real.log p)
  t - (2.515517 + t * (0.802853 + t * 0.010328)) / (1 + t * (1.432788 + t * (0.189269 + t * 0.001308)))

/-- `GaussianDistribution.QF` for a level strictly between 0 and 1 and a positive sigma (904-931). -/
noncomputable def gaussQF (mu sigma p : ℝ) : ℝ :=
  if 0.5 < p then mu + sigma * (1 * gaussG (1 - p)) else mu + sigma * (-1 * gaussG p)

/-- `prob.dist.gaussianQF` (104-124). -/
noncomputable def gaussianQF (p mu sigma : RNum) : Res RNum :=
  param2 13020 mu sigma (fun _ s => 0 ≤ s) fun mu s => level 13020 p fun p =>
    if p = 1 then .ok .pinf else if p = 0 then .ok .ninf else if s = 0 then .ok (.fin mu) else .ok (.fin (gaussQF mu s p))

/-- `prob.dist.exponentialPDF` (132-144) with `ExponentialDistribution.PDF` (943-951). -/
noncomputable def exponentialPDF (x rate : RNum) : Res RNum :=
  param1 13030 rate (0 ≤ ·) fun r => input 13030 x fun x =>
    .ok (.fin (if r = 0 then 0 else if x < 0 then 0 else if x = 0 then r else r * Real.exp (-r * x)))

/-- `prob.dist.exponentialCDF` (151-161, 953-959). -/
noncomputable def exponentialCDF (x rate : RNum) : Res RNum :=
  param1 13040 rate (0 ≤ ·) fun r => input 13040 x fun x =>
    .ok (.fin (if r = 0 ∨ x = 0 then 0 else if x ≤ 0 then 0 else 1 - Real.exp (-r * x)))

/-- `prob.dist.exponentialQF` (168-182, 961-973). -/
noncomputable def exponentialQF (p rate : RNum) : Res RNum :=
  param1 13050 rate (0 ≤ ·) fun r => level 13050 p fun p =>
    if r = 0 ∧ p = 0 then .ok (.fin 0)
    else if r = 0 ∧ 0 < p then .ok .pinf
    else if p = 1 then .ok .pinf
    else if p = 0 then .ok (.fin 0)
    else .ok (.fin (-Real.log (1 - p) / r))

/-- `prob.dist.cauchyPDF` (419-425) with `CauchyDistribution.PDF` (1214-1217). -/
noncomputable def cauchyPDF (x location scale : RNum) : Res RNum :=
  param2 13180 location scale (fun _ s => 0 < s) fun l s => input 13180 x fun x => do
    let q ← pySq ((x - l) / s)
    .ok (.fin (1 / (Real.pi * s) * (1 / (1 + q))))

/-- `CauchyDistribution.CDF` (1219-1220): `math.atan2(y, s)` of a positive `s`. -/
noncomputable def cauchyF (l s x : ℝ) : ℝ := 0.5 + Real.arctan ((x - l) / s) * (1 / Real.pi)

/-- `prob.dist.cauchyCDF` (432-438). -/
noncomputable def cauchyCDF (x location scale : RNum) : Res RNum :=
  param2 13190 location scale (fun _ s => 0 < s) fun l s => input 13190 x fun x => .ok (.fin (cauchyF l s x))

/-- `prob.dist.cauchyQF` (445-455, 1222-1230). -/
noncomputable def cauchyQF (p location scale : RNum) : Res RNum :=
  param2 13200 location scale (fun _ s => 0 < s) fun l s => level 13200 p fun p =>
    if p = 1 then .ok .pinf else if p = 0 then .ok .ninf else .ok (.fin (l + s * Real.tan (Real.pi * (p - 0.5))))

/-- `UniformDistribution` (1498-1522). -/
noncomputable def uniformD (mi ma x : ℝ) : ℝ := if x < mi ∨ x > ma then 0 else 1 / (ma - mi)
noncomputable def uniformF (mi ma x : ℝ) : ℝ := if x < mi then 0 else if x > ma then 1 else (x - mi) / (ma - mi)
noncomputable def uniformQ (mi ma p : ℝ) : ℝ := if 0 < p ∨ p < 1 then mi + p * (ma - mi) else 0

/-- `prob.dist.uniformPDF`, `uniformCDF` and `uniformQF` (652-682). -/
noncomputable def uniformPDF (x min max : RNum) : Res RNum :=
  param2 13330 min max (· < ·) fun a b => input 13330 x fun x => .ok (.fin (uniformD a b x))
noncomputable def uniformCDF (x min max : RNum) : Res RNum :=
  param2 13340 min max (· < ·) fun a b => input 13340 x fun x => .ok (.fin (uniformF a b x))
noncomputable def uniformQF (p min max : RNum) : Res RNum :=
  param2 13350 min max (· < ·) fun a b => level 13350 p fun p => .ok (.fin (uniformQ a b p))

/-- `prob.dist.weibullPDF` (776-784) with `WeibullDistribution.PDF` (1635-1652). -/
noncomputable def weibullPDF (x shape scale : RNum) : Res RNum :=
  param2 13420 shape scale (fun a b => 0 < a ∧ 0 < b) fun a b => input 13420 x fun x =>
    if 0 ≤ x then
      if x = 0 then .ok (if a < 1 then .nan else if a = 1 then .fin (1 / b) else .fin 0)
      else do
        let t2 ← pyPow (x / b) (a - 1)
        let t3 ← pyPow (x / b) a
        .ok (.fin (a / b * t2 * Real.exp (-t3)))
    else .ok (.fin 0)

/-- `prob.dist.weibullCDF` (791-799, 1654-1660). -/
noncomputable def weibullCDF (x shape scale : RNum) : Res RNum :=
  param2 13430 shape scale (fun a b => 0 < a ∧ 0 < b) fun a b => input 13430 x fun x =>
    if x < 0 then .ok (.fin 0)
    else do
      let t ← pyPow (x / b) a
      .ok (.fin (1 - Real.exp (-t)))

/-- `prob.dist.weibullQF` (806-812, 1662-1671): OverflowError is caught. -/
noncomputable def weibullQF (p shape scale : RNum) : Res RNum :=
  param2 13440 shape scale (fun a b => 0 < a ∧ 0 < b) fun a b => level 13440 p fun p =>
    if p = 1 then .ok .pinf
    else match pyPow (-Real.log (1 - p)) (1 / a) with
      | .ok t => .ok (.fin (b * t))
      | .error _ => .ok .pinf

/-- `prob.dist.lognormalPDF` (507-513) with `LognormalDistribution.PDF` (1306-1312). -/
noncomputable def lognormalPDF (x meanlog sdlog : RNum) : Res RNum :=
  param2 13240 meanlog sdlog (fun _ s => 0 < s) fun mu s => input 13240 x fun x =>
    if x ≤ 0 then .ok (.fin 0)
    else do
      let q ← pySq (Real.log x - mu)
      let v ← pySq s
      .ok (.fin (1 / (x * s * √(2 * Real.pi)) * Real.exp (-(q / (2 * v)))))

/-- `LognormalDistribution.CDF` (1314-1318). -/
noncomputable def lognormalF (mu s x : ℝ) : ℝ := if x ≤ 0 then 0 else gaussCDF 0 1 ((Real.log x - mu) / s)

/-- `prob.dist.lognormalCDF` (520-526). -/
noncomputable def lognormalCDF (x meanlog sdlog : RNum) : Res RNum :=
  param2 13250 meanlog sdlog (fun _ s => 0 < s) fun mu s => input 13250 x fun x => .ok (.fin (lognormalF mu s x))

/-! ## Gauss -/

theorem gaussLL_spec (mu sigma x : ℝ) (hs : 0 < sigma) (h1 : (x - mu) ^ 2 < top) (h2 : sigma ^ 2 < top) :
    gaussianLL (.fin x) (.fin mu) (.fin sigma) =
      .ok (.fin (Real.log (ProbabilityTheory.gaussianPDFReal mu (sigma ^ 2).toNNReal x))) := by
  unfold gaussianLL
  rw [param2_ok (ok := fun _ s => 0 ≤ s) hs.le, input_ok, if_neg hs.ne']
  unfold gaussLL pySq
  rw [if_neg (not_le.2 h1), if_neg (not_le.2 h2)]
  simp only [Bind.bind, Except.bind]
  congr 2
  rw [ProbabilityTheory.gaussianPDFReal]
  have hp : 0 < √(2 * Real.pi * sigma ^ 2) := Real.sqrt_pos.2 (by positivity)
  have e : sigma * √(2 * Real.pi) = √(2 * Real.pi * sigma ^ 2) := by
    rw [Real.sqrt_mul (x := 2 * Real.pi) (by positivity) (sigma ^ 2), Real.sqrt_sq hs.le, mul_comm]
  rw [Real.coe_toNNReal _ (sq_nonneg sigma), Real.log_mul (inv_ne_zero hp.ne') (Real.exp_ne_zero _), Real.log_inv, Real.log_exp, e]
  ring

theorem gaussCDF_deriv (mu sigma : ℝ) (hs : 0 < sigma) (x : ℝ) :
    HasDerivAt (gaussCDF mu sigma) (ProbabilityTheory.gaussianPDFReal mu (sigma ^ 2).toNNReal x) x := by
  have hd : HasDerivAt (fun x => (x - mu) / (sigma * √2)) (1 / (sigma * √2)) x := ((hasDerivAt_id x).sub_const mu).div_const _
  have h := (((hasDerivAt_erf ((x - mu) / (sigma * √2))).comp x hd).const_add 1).const_mul (0.5 : ℝ)
  refine h.congr_deriv ?_
  rw [ProbabilityTheory.gaussianPDFReal, Real.coe_toNNReal _ (sq_nonneg sigma)]
  have e1 : √(2 * Real.pi * sigma ^ 2) = √2 * √Real.pi * sigma := by
    rw [Real.sqrt_mul (by positivity), Real.sqrt_sq hs.le, Real.sqrt_mul (by norm_num)]
  have e2 : ((x - mu) / (sigma * √2)) ^ 2 = (x - mu) ^ 2 / (2 * sigma ^ 2) := by
    rw [div_pow, mul_pow, Real.sq_sqrt (by norm_num)]
    ring
  rw [e1, e2, neg_div]
  have : √Real.pi ≠ 0 := (Real.sqrt_pos.2 Real.pi_pos).ne'
  have h22 : √2 ≠ (0 : ℝ) := by positivity
  field_simp
  norm_num

theorem gaussCDF_isCdf (mu sigma : ℝ) (hs : 0 < sigma) :
    IsCdf (gaussCDF mu sigma) (ProbabilityTheory.gaussianPDFReal mu (sigma ^ 2).toNNReal) := by
  have h2 : 0 < sigma * √2 := by positivity
  have lim : ∀ l : Filter ℝ, ∀ c, Tendsto (fun x => erf ((x - mu) / (sigma * √2))) l (𝓝 c) →
      Tendsto (gaussCDF mu sigma) l (𝓝 (0.5 * (1 + c))) := fun l c h => (h.const_add 1).const_mul _
  refine ⟨?_, ?_, ?_, ?_, ∅, fun x _ => ?_⟩
  · intro x y hxy
    have : erf ((x - mu) / (sigma * √2)) ≤ erf ((y - mu) / (sigma * √2)) :=
      erf_strictMono.monotone (div_le_div_of_nonneg_right (by linarith) h2.le)
    unfold gaussCDF
    linarith
  · have : Continuous erf := continuous_iff_continuousAt.2 fun x => (hasDerivAt_erf x).continuousAt
    unfold gaussCDF
    fun_prop
  · have := lim atBot (-1) (tendsto_erf_atBot.comp ((tendsto_atBot_add_const_right _ (-mu) tendsto_id).atBot_div_const h2))
    norm_num at this
    exact this
  · have := lim atTop 1 (tendsto_erf_atTop.comp ((tendsto_atTop_add_const_right _ (-mu) tendsto_id).atTop_div_const h2))
    norm_num at this
    exact this
  · exact gaussCDF_deriv mu sigma hs x

theorem gaussianCDF_spec (mu sigma x : ℝ) (hs : 0 < sigma) :
    gaussianCDF (.fin x) (.fin mu) (.fin sigma) = .ok (.fin (gaussCDF mu sigma x)) := by
  unfold gaussianCDF
  rw [param2_ok (ok := fun _ s => 0 ≤ s) hs.le, input_ok, if_neg hs.ne']

/-- With sigma zero all the weight is at mu. -/
theorem gaussian_point (mu x p : ℝ) (hp : 0 < p ∧ p < 1) :
    gaussianCDF (.fin x) (.fin mu) (.fin 0) = .ok (.fin (if x < mu then 0 else 1)) ∧
    gaussianLL (.fin x) (.fin mu) (.fin 0) = .ok (if x = mu then .pinf else .ninf) ∧
    gaussianQF (.fin p) (.fin mu) (.fin 0) = .ok (.fin mu) := by
  refine ⟨?_, ?_, ?_⟩
  · unfold gaussianCDF
    rw [param2_ok (ok := fun _ s => 0 ≤ s) le_rfl, input_ok, if_pos rfl]
  · unfold gaussianLL
    rw [param2_ok (ok := fun _ s => 0 ≤ s) le_rfl, input_ok, if_pos rfl]
    by_cases h : x = mu <;> simp [h]
  · unfold gaussianQF
    rw [param2_ok (ok := fun _ s => 0 ≤ s) le_rfl, level_ok ⟨hp.1.le, hp.2.le⟩, if_neg hp.2.ne, if_neg hp.1.ne', if_pos rfl]

/-- The quantiles are symmetric about mu, scale with sigma, and are infinite at 0 and 1. -/
theorem gaussianQF_partial (mu sigma p : ℝ) (hs : 0 < sigma) (hp : 0 < p ∧ p < 1) :
    gaussianQF (.fin p) (.fin mu) (.fin sigma) = .ok (.fin (gaussQF mu sigma p)) ∧
    gaussQF mu sigma p = mu + sigma * gaussQF 0 1 p ∧
    (p ≠ 0.5 → gaussQF mu sigma (1 - p) = 2 * mu - gaussQF mu sigma p) ∧
    gaussianQF (.fin 0) (.fin mu) (.fin sigma) = .ok .ninf ∧ gaussianQF (.fin 1) (.fin mu) (.fin sigma) = .ok .pinf := by
  refine ⟨?_, ?_, ?_, ?_, ?_⟩
  · unfold gaussianQF
    rw [param2_ok (ok := fun _ s => 0 ≤ s) hs.le, level_ok ⟨hp.1.le, hp.2.le⟩, if_neg hp.2.ne, if_neg hp.1.ne', if_neg hs.ne']
  · unfold gaussQF
    split <;> ring
  · intro h
    unfold gaussQF
    rcases lt_or_gt_of_ne h with h | h
    · rw [if_pos (by norm_num at h ⊢; linarith), if_neg (by linarith), sub_sub_cancel]
      ring
    · rw [if_neg (by norm_num at h ⊢; linarith), if_pos h]
      ring
  · unfold gaussianQF
    rw [param2_ok (ok := fun _ s => 0 ≤ s) hs.le, level_ok (by norm_num), if_neg (by norm_num), if_pos rfl]
  · unfold gaussianQF
    rw [param2_ok (ok := fun _ s => 0 ≤ s) hs.le, level_ok (by norm_num), if_pos rfl]

/-- The record forms take the square root of the variance, and refuse one that is negative or nan. -/
theorem record_spec (base : Int) (f : RNum → RNum → RNum → Res RNum) (x mean : RNum) (v : ℝ) :
    (∀ s, 0 ≤ s → s ^ 2 = v → onRecord base f x mean (.fin v) = f x mean (.fin s)) ∧
    (v < 0 → onRecord base f x mean (.fin v) = .error (.rt base)) ∧ onRecord base f x mean .nan = .error (.rt base) ∧
    onRecord base f x mean .pinf = f x mean .pinf ∧ onRecord base f x mean .ninf = .error (.rt base) := by
  refine ⟨fun s hs hv => ?_, fun h => ?_, rfl, rfl, rfl⟩
  · subst hv
    unfold onRecord sigmaArg
    simp only
    rw [if_neg (not_lt.2 (sq_nonneg s)), Real.sqrt_sq hs]
    rfl
  · unfold onRecord sigmaArg
    simp only
    rw [if_pos h]
    rfl

theorem gaussG_half : gaussG 0.5 < 0 := by
  unfold gaussG
  have hl : -2 * Real.log 0.5 = 2 * Real.log 2 := by
    have : (0.5 : ℝ) = 2⁻¹ := by norm_num
    rw [this, Real.log_inv]
    ring
  rw [hl]
  have hu : √(2 * Real.log 2) < 1.17741003 := by
    rw [Real.sqrt_lt' (by norm_num)]
    have := Real.log_two_lt_d9
    norm_num at this ⊢
    linarith
  have h0 := Real.sqrt_nonneg (2 * Real.log 2)
  generalize √(2 * Real.log 2) = t at *
  have hd : 0 < 1 + t * (1.432788 + t * (0.189269 + t * 0.001308)) := by positivity
  rw [sub_neg, lt_div_iff₀ hd]
  have h2 : t ^ 2 ≤ 1.17741003 ^ 2 := by gcongr
  have h3 : t ^ 3 ≤ 1.17741003 ^ 3 := by gcongr
  have h4 : t ^ 4 ≤ 1.17741003 ^ 4 := by gcongr
  norm_num at *
  nlinarith

theorem gaussG_tendsto : Tendsto (fun p : ℝ => gaussG (1 - p)) (𝓝 0.5) (𝓝 (gaussG 0.5)) := by
  have hc : ContinuousAt gaussG 0.5 := by
    unfold gaussG
    have hl : ContinuousAt (fun p : ℝ => √(-2 * Real.log p)) 0.5 :=
      ((Real.continuousAt_log (by norm_num)).const_mul (-2)).sqrt
    refine hl.sub (ContinuousAt.div ?_ ?_ ?_)
    · exact continuousAt_const.add (hl.mul (continuousAt_const.add (hl.mul continuousAt_const)))
    · exact continuousAt_const.add (hl.mul (continuousAt_const.add (hl.mul (continuousAt_const.add (hl.mul continuousAt_const)))))
    · have := Real.sqrt_nonneg (-2 * Real.log (0.5 : ℝ))
      positivity
  have h1 : Tendsto (fun p : ℝ => 1 - p) (𝓝 0.5) (𝓝 0.5) := by
    have : Tendsto (fun p : ℝ => 1 - p) (𝓝 0.5) (𝓝 (1 - 0.5)) := tendsto_const_nhds.sub tendsto_id
    norm_num at this ⊢
    exact this
  exact hc.tendsto.comp h1

/-- The approximation of the quantiles is not the inverse of the distribution function: the median is above mu, and just above the
level 1/2 the quantiles are below it. -/
theorem gaussianQF_violation (mu sigma : ℝ) (hs : 0 < sigma) :
    mu < gaussQF mu sigma 0.5 ∧ gaussCDF mu sigma (gaussQF mu sigma 0.5) ≠ 0.5 ∧
    ∃ p, 0.5 < p ∧ p < 1 ∧ gaussQF mu sigma p < gaussQF mu sigma 0.5 := by
  have hg := gaussG_half
  have h1 : mu < gaussQF mu sigma 0.5 := by
    unfold gaussQF
    rw [if_neg (lt_irrefl _)]
    nlinarith
  refine ⟨h1, ?_, ?_⟩
  · intro h
    unfold gaussCDF at h
    have h0 : erf ((gaussQF mu sigma 0.5 - mu) / (sigma * √2)) = erf 0 := by rw [erf_zero]; linarith
    have := erf_strictMono.injective h0
    rw [div_eq_zero_iff] at this
    rcases this with h | h
    · linarith
    · have : 0 < sigma * √2 := by positivity
      linarith
  · have he : ∀ᶠ p in 𝓝 (0.5 : ℝ), gaussG (1 - p) < 0 := (gaussG_tendsto.eventually_lt_const hg)
    obtain ⟨ε, hε, hb⟩ := Metric.eventually_nhds_iff.1 he
    refine ⟨0.5 + min (ε / 2) (1 / 4), ?_, ?_, ?_⟩
    · have : 0 < min (ε / 2) (1 / 4) := lt_min (by linarith) (by norm_num)
      linarith
    · have : min (ε / 2) (1 / 4) ≤ 1 / 4 := min_le_right _ _
      have h5 : (0.5 : ℝ) = 1 / 2 := by norm_num
      rw [h5]
      linarith
    · have hm : 0 < min (ε / 2) (1 / 4) := lt_min (by linarith) (by norm_num)
      have hm2 : min (ε / 2) (1 / 4) ≤ ε / 2 := min_le_left _ _
      have := hb (y := 0.5 + min (ε / 2) (1 / 4)) (by
        rw [Real.dist_eq, add_sub_cancel_left, abs_of_pos hm]
        linarith)
      have h2 : gaussQF mu sigma (0.5 + min (ε / 2) (1 / 4)) < mu := by
        unfold gaussQF
        rw [if_pos (by linarith)]
        nlinarith
      linarith

/-! ## Distributions on the positive numbers -/

theorem isCdf_of_pos {F f G : ℝ → ℝ} (hF0 : ∀ x ≤ 0, F x = 0) (hF : ∀ x, 0 < x → F x = G x) (hf0 : ∀ x < 0, f x = 0)
    (hG : ∀ x, 0 < x → HasDerivAt G (f x) x) (hf : ∀ x, 0 < x → 0 ≤ f x) (h0 : Tendsto G (𝓝[>] 0) (𝓝 0))
    (h1 : Tendsto G atTop (𝓝 1)) : IsCdf F f := by
  have hneg : ∀ x < 0, HasDerivAt F (f x) x := fun x hx => by
    rw [hf0 x hx]
    refine (hasDerivAt_const x (0 : ℝ)).congr_of_eventuallyEq ?_
    filter_upwards [eventually_lt_nhds hx] with y hy using hF0 y hy.le
  have hpos : ∀ x, 0 < x → HasDerivAt F (f x) x := fun x hx => by
    refine (hG x hx).congr_of_eventuallyEq ?_
    filter_upwards [eventually_gt_nhds hx] with y hy using hF y hy
  have hc : Continuous F := by
    rw [continuous_iff_continuousAt]
    intro x
    rcases lt_trichotomy x 0 with hx | hx | hx
    · exact (hneg x hx).continuousAt
    · subst hx
      rw [continuousAt_iff_continuous_left_right]
      constructor
      · refine continuousWithinAt_const.congr (fun y hy => hF0 y hy) (hF0 0 le_rfl)
      · rw [← Set.Ioi_insert, continuousWithinAt_insert_self]
        unfold ContinuousWithinAt
        rw [hF0 0 le_rfl]
        refine h0.congr' ?_
        filter_upwards [self_mem_nhdsWithin] with y hy using (hF y hy).symm
    · exact (hpos x hx).continuousAt
  refine ⟨?_, hc, ?_, ?_, {0}, fun x hx => ?_⟩
  · have hR : MonotoneOn F (Set.Ici 0) := by
      refine monotoneOn_of_deriv_nonneg (convex_Ici 0) hc.continuousOn ?_ ?_ <;> rw [interior_Ici]
      · exact fun x hx => (hpos x hx).differentiableAt.differentiableWithinAt
      · exact fun x hx => by rw [(hpos x hx).deriv]; exact hf x hx
    have hL : MonotoneOn F (Set.Iic 0) := fun x hx y hy _ => by rw [hF0 x hx, hF0 y hy]
    exact MonotoneOn.Iic_union_Ici hL hR
  · refine tendsto_const_nhds.congr' ?_
    filter_upwards [eventually_le_atBot (0 : ℝ)] with y hy using (hF0 y hy).symm
  · refine h1.congr' ?_
    filter_upwards [eventually_gt_atTop (0 : ℝ)] with y hy using (hF y hy).symm
  · rw [Finset.mem_singleton] at hx
    rcases lt_or_gt_of_ne hx with h | h
    · exact hneg x h
    · exact hpos x h

/-! ## Exponential -/

theorem exponentialPDF_spec (x r : ℝ) (hr : 0 < r) :
    exponentialPDF (.fin x) (.fin r) = .ok (.fin (ProbabilityTheory.exponentialPDFReal r x)) := by
  unfold exponentialPDF
  rw [param1_ok (ok := (0 ≤ ·)) hr.le, input_ok, if_neg hr.ne', ProbabilityTheory.exponentialPDFReal, ProbabilityTheory.gammaPDFReal]
  congr 2
  rcases lt_trichotomy x 0 with h | h | h
  · rw [if_pos h, if_neg (not_le.2 h)]
  · subst h
    simp
  · rw [if_neg (not_lt.2 h.le), if_neg h.ne', if_pos h.le]
    simp

/-- The distribution function of the exponential distribution. -/
noncomputable def expF (r x : ℝ) : ℝ := if x ≤ 0 then 0 else 1 - Real.exp (-r * x)

theorem exponentialCDF_spec (x r : ℝ) (hr : 0 < r) : exponentialCDF (.fin x) (.fin r) = .ok (.fin (expF r x)) := by
  unfold exponentialCDF expF
  rw [param1_ok (ok := (0 ≤ ·)) hr.le, input_ok]
  by_cases h : x = 0
  · rw [if_pos (Or.inr h), if_pos h.le]
  · rw [if_neg (by rintro (h' | h'); exacts [hr.ne' h', h h'])]

theorem expF_isCdf (r : ℝ) (hr : 0 < r) : IsCdf (expF r) (ProbabilityTheory.exponentialPDFReal r) := by
  have hp : ∀ x, 0 < x → ProbabilityTheory.exponentialPDFReal r x = r * Real.exp (-r * x) := fun x hx => by
    rw [ProbabilityTheory.exponentialPDFReal, ProbabilityTheory.gammaPDFReal, if_pos hx.le]
    simp
  refine isCdf_of_pos (G := fun x => 1 - Real.exp (-r * x)) (fun x hx => if_pos hx) (fun x hx => if_neg (not_le.2 hx)) ?_ ?_ ?_ ?_ ?_
  · intro x hx
    rw [ProbabilityTheory.exponentialPDFReal, ProbabilityTheory.gammaPDFReal, if_neg (not_le.2 hx)]
  · intro x hx
    rw [hp x hx]
    have := ((((hasDerivAt_id x).const_mul (-r)).exp).const_sub 1)
    refine this.congr_deriv ?_
    simp
    ring
  · intro x hx
    rw [hp x hx]
    positivity
  · have : Continuous fun x : ℝ => 1 - Real.exp (-r * x) := by fun_prop
    have h := this.tendsto 0
    simp only [mul_zero, Real.exp_zero, sub_self] at h
    exact h.mono_left nhdsWithin_le_nhds
  · have : Tendsto (fun x => Real.exp (-r * x)) atTop (𝓝 0) :=
      Real.tendsto_exp_atBot.comp (tendsto_id.const_mul_atTop_of_neg (neg_lt_zero.2 hr))
    simpa using this.const_sub 1

theorem exponentialQF_spec (p r : ℝ) (hr : 0 < r) :
    (0 ≤ p → p < 1 → ∃ x, exponentialQF (.fin p) (.fin r) = .ok (.fin x) ∧ 0 ≤ x ∧ expF r x = p ∧ ∀ y, 0 ≤ y → expF r y = p → y = x) ∧
    exponentialQF (.fin 1) (.fin r) = .ok .pinf := by
  have inj : ∀ x y, 0 ≤ x → 0 ≤ y → expF r x = expF r y → x = y := by
    intro x y hx hy h
    unfold expF at h
    rcases hx.eq_or_lt with hx' | hx' <;> rcases hy.eq_or_lt with hy' | hy'
    · linarith
    · rw [if_pos hx'.ge, if_neg (not_le.2 hy')] at h
      have := Real.exp_lt_one_iff.2 (show -r * y < 0 by nlinarith)
      linarith
    · rw [if_neg (not_le.2 hx'), if_pos hy'.ge] at h
      have := Real.exp_lt_one_iff.2 (show -r * x < 0 by nlinarith)
      linarith
    · rw [if_neg (not_le.2 hx'), if_neg (not_le.2 hy')] at h
      have := Real.exp_injective (show Real.exp (-r * x) = Real.exp (-r * y) by linarith)
      exact mul_left_cancel₀ (neg_ne_zero.2 hr.ne') this
  constructor
  · intro h0 h1
    have key : ∃ x, exponentialQF (.fin p) (.fin r) = .ok (.fin x) ∧ 0 ≤ x ∧ expF r x = p := by
      unfold exponentialQF
      rw [param1_ok (ok := (0 ≤ ·)) hr.le, level_ok ⟨h0, h1.le⟩, if_neg (fun h => hr.ne' h.1), if_neg (fun h => hr.ne' h.1), if_neg h1.ne]
      rcases h0.eq_or_lt with h | h
      · exact ⟨0, if_pos h.symm, le_rfl, (if_pos le_rfl).trans h⟩
      · rw [if_neg h.ne']
        have hl : 0 < -Real.log (1 - p) / r := div_pos (neg_pos.2 (Real.log_neg (by linarith) (by linarith))) hr
        refine ⟨_, rfl, hl.le, ?_⟩
        unfold expF
        rw [if_neg (not_le.2 hl)]
        have : -r * (-Real.log (1 - p) / r) = Real.log (1 - p) := by field_simp
        rw [this, Real.exp_log (by linarith)]
        ring
    obtain ⟨x, e, hx, hF⟩ := key
    exact ⟨x, e, hx, hF, fun y hy h => inj y x hy hx (h.trans hF.symm)⟩
  · unfold exponentialQF
    rw [param1_ok (ok := (0 ≤ ·)) hr.le, level_ok (by norm_num), if_neg (fun h => hr.ne' h.1), if_neg (fun h => hr.ne' h.1), if_pos rfl]

/-- The rate zero is accepted, though there is no such distribution: its distribution function is 0 everywhere. -/
theorem exponential_zero_violation (x : ℝ) :
    exponentialCDF (.fin x) (.fin 0) = .ok (.fin 0) ∧ exponentialPDF (.fin x) (.fin 0) = .ok (.fin 0) ∧
    exponentialQF (.fin 0.5) (.fin 0) = .ok .pinf := by
  refine ⟨?_, ?_, ?_⟩
  · unfold exponentialCDF
    rw [param1_ok (ok := (0 ≤ ·)) le_rfl, input_ok, if_pos (Or.inl rfl)]
  · unfold exponentialPDF
    rw [param1_ok (ok := (0 ≤ ·)) le_rfl, input_ok, if_pos rfl]
  · unfold exponentialQF
    rw [param1_ok (ok := (0 ≤ ·)) le_rfl, level_ok (by norm_num), if_neg (by norm_num), if_pos ⟨rfl, by norm_num⟩]

/-! ## Cauchy -/

theorem cauchyPDF_spec (x l s : ℝ) (hs : 0 < s) (h : ((x - l) / s) ^ 2 < top) :
    cauchyPDF (.fin x) (.fin l) (.fin s) = .ok (.fin (ProbabilityTheory.cauchyPDFReal l s.toNNReal x)) := by
  unfold cauchyPDF pySq
  rw [param2_ok (ok := fun _ s => 0 < s) hs, input_ok, if_neg (not_le.2 h), ProbabilityTheory.cauchyPDFReal, Real.coe_toNNReal _ hs.le]
  simp only [Bind.bind, Except.bind]
  congr 2
  have : 0 < (x - l) ^ 2 + s ^ 2 := by positivity
  have h2 : 0 < 1 + ((x - l) / s) ^ 2 := by positivity
  have hpi := Real.pi_pos
  have e : 1 + ((x - l) / s) ^ 2 = ((x - l) ^ 2 + s ^ 2) / s ^ 2 := by field_simp; ring
  rw [e]
  field_simp

theorem cauchyF_isCdf (l s : ℝ) (hs : 0 < s) : IsCdf (cauchyF l s) (ProbabilityTheory.cauchyPDFReal l s.toNNReal) := by
  have hpi := Real.pi_pos
  have lim : ∀ L : Filter ℝ, ∀ c, Tendsto (fun x => Real.arctan ((x - l) / s)) L (𝓝 c) →
      Tendsto (cauchyF l s) L (𝓝 (0.5 + c * (1 / Real.pi))) := fun L c h => (h.mul_const _).const_add _
  refine ⟨?_, ?_, ?_, ?_, ∅, fun x _ => ?_⟩
  · intro x y hxy
    have : Real.arctan ((x - l) / s) ≤ Real.arctan ((y - l) / s) :=
      Real.arctan_strictMono.monotone (div_le_div_of_nonneg_right (by linarith) hs.le)
    have h2 := mul_le_mul_of_nonneg_right this (one_div_pos.2 hpi).le
    unfold cauchyF
    linarith
  · unfold cauchyF
    fun_prop
  · have := lim atBot (-(Real.pi / 2)) ((Real.tendsto_arctan_atBot.mono_right nhdsWithin_le_nhds).comp
      ((tendsto_atBot_add_const_right _ (-l) tendsto_id).atBot_div_const hs))
    have e : (0.5 : ℝ) + -(Real.pi / 2) * (1 / Real.pi) = 0 := by field_simp; norm_num
    rwa [e] at this
  · have := lim atTop (Real.pi / 2) ((Real.tendsto_arctan_atTop.mono_right nhdsWithin_le_nhds).comp
      ((tendsto_atTop_add_const_right _ (-l) tendsto_id).atTop_div_const hs))
    have e : (0.5 : ℝ) + Real.pi / 2 * (1 / Real.pi) = 1 := by field_simp; norm_num
    rwa [e] at this
  · have hd : HasDerivAt (fun x => (x - l) / s) (1 / s) x := ((hasDerivAt_id x).sub_const l).div_const _
    have h := ((hd.arctan).mul_const (1 / Real.pi)).const_add (0.5 : ℝ)
    refine h.congr_deriv ?_
    rw [ProbabilityTheory.cauchyPDFReal, Real.coe_toNNReal _ hs.le]
    have h1 : 0 < (x - l) ^ 2 + s ^ 2 := by positivity
    have e : 1 + ((x - l) / s) ^ 2 = ((x - l) ^ 2 + s ^ 2) / s ^ 2 := by field_simp; ring
    rw [e]
    field_simp

theorem cauchyCDF_spec (x l s : ℝ) (hs : 0 < s) : cauchyCDF (.fin x) (.fin l) (.fin s) = .ok (.fin (cauchyF l s x)) := by
  unfold cauchyCDF
  rw [param2_ok (ok := fun _ s => 0 < s) hs, input_ok]

theorem cauchyQF_spec (p l s : ℝ) (hs : 0 < s) :
    (0 < p → p < 1 → ∃ x, cauchyQF (.fin p) (.fin l) (.fin s) = .ok (.fin x) ∧ cauchyF l s x = p ∧ ∀ y, cauchyF l s y = p → y = x) ∧
    cauchyQF (.fin 0) (.fin l) (.fin s) = .ok .ninf ∧ cauchyQF (.fin 1) (.fin l) (.fin s) = .ok .pinf := by
  have hpi := Real.pi_pos
  refine ⟨fun h0 h1 => ?_, ?_, ?_⟩
  · unfold cauchyQF
    rw [param2_ok (ok := fun _ s => 0 < s) hs, level_ok ⟨h0.le, h1.le⟩, if_neg h1.ne, if_neg h0.ne']
    have hF : cauchyF l s (l + s * Real.tan (Real.pi * (p - 0.5))) = p := by
      unfold cauchyF
      have e : (l + s * Real.tan (Real.pi * (p - 0.5)) - l) / s = Real.tan (Real.pi * (p - 0.5)) := by field_simp; ring
      rw [e, Real.arctan_tan (by norm_num; nlinarith) (by norm_num; nlinarith)]
      field_simp
      ring
    refine ⟨_, rfl, hF, fun y hy => ?_⟩
    rw [← hF] at hy
    unfold cauchyF at hy
    have h2 := mul_right_cancel₀ (one_div_pos.2 hpi).ne' (add_left_cancel hy)
    have h3 := Real.arctan_injective h2
    field_simp at h3
    linarith
  · unfold cauchyQF
    rw [param2_ok (ok := fun _ s => 0 < s) hs, level_ok (by norm_num), if_neg (by norm_num), if_pos rfl]
  · unfold cauchyQF
    rw [param2_ok (ok := fun _ s => 0 < s) hs, level_ok (by norm_num), if_pos rfl]

/-! ## Uniform -/

theorem uniform_isCdf (a b : ℝ) (h : a < b) : IsCdf (uniformF a b) (uniformD a b) := by
  have hd : 0 < b - a := sub_pos.2 h
  have e : uniformF a b = fun x => max 0 (min 1 ((x - a) / (b - a))) := by
    funext x
    unfold uniformF
    by_cases h1 : x < a
    · rw [if_pos h1, max_eq_left]
      exact (min_le_right _ _).trans (div_nonpos_of_nonpos_of_nonneg (by linarith) hd.le)
    · rw [if_neg h1]
      by_cases h2 : b < x
      · rw [if_pos h2, min_eq_left, max_eq_right zero_le_one]
        rw [le_div_iff₀ hd]
        linarith
      · rw [if_neg h2, min_eq_right, max_eq_right]
        · exact div_nonneg (by linarith) hd.le
        · rw [div_le_one hd]
          linarith
  refine ⟨?_, ?_, ?_, ?_, {a, b}, fun x hx => ?_⟩
  · rw [e]
    intro x y hxy
    simp only
    gcongr
  · rw [e]
    fun_prop
  · refine tendsto_const_nhds.congr' ?_
    filter_upwards [eventually_lt_atBot a] with y hy using (if_pos hy).symm
  · refine tendsto_const_nhds.congr' ?_
    filter_upwards [eventually_gt_atTop b] with y hy
    unfold uniformF
    rw [if_neg (by linarith), if_pos hy]
  · simp only [Finset.mem_insert, Finset.mem_singleton, not_or] at hx
    unfold uniformD
    rcases lt_or_gt_of_ne hx.1 with h1 | h1
    · rw [if_pos (Or.inl h1)]
      refine (hasDerivAt_const x (0 : ℝ)).congr_of_eventuallyEq ?_
      filter_upwards [eventually_lt_nhds h1] with y hy using if_pos hy
    · rcases lt_or_gt_of_ne hx.2 with h2 | h2
      · rw [if_neg (by rintro (h' | h') <;> linarith)]
        have hd : HasDerivAt (fun x => (x - a) / (b - a)) (1 / (b - a)) x := ((hasDerivAt_id x).sub_const a).div_const _
        refine hd.congr_of_eventuallyEq ?_
        filter_upwards [eventually_lt_nhds h2, eventually_gt_nhds h1] with y hy hy'
        unfold uniformF
        rw [if_neg (by linarith), if_neg (by linarith)]
      · rw [if_pos (Or.inr h2)]
        refine (hasDerivAt_const x (1 : ℝ)).congr_of_eventuallyEq ?_
        filter_upwards [eventually_gt_nhds h2] with y hy
        unfold uniformF
        rw [if_neg (by linarith), if_pos hy]

theorem uniform_spec (x a b : ℝ) (h : a < b) :
    uniformPDF (.fin x) (.fin a) (.fin b) = .ok (.fin (if a ≤ x ∧ x ≤ b then 1 / (b - a) else 0)) ∧
    uniformPDF (.fin x) (.fin a) (.fin b) = .ok (.fin (uniformD a b x)) ∧
    uniformCDF (.fin x) (.fin a) (.fin b) = .ok (.fin (uniformF a b x)) := by
  have e : uniformPDF (.fin x) (.fin a) (.fin b) = .ok (.fin (uniformD a b x)) := by
    unfold uniformPDF
    rw [param2_ok h, input_ok]
  refine ⟨?_, e, ?_⟩
  · rw [e]
    unfold uniformD
    by_cases h' : a ≤ x ∧ x ≤ b
    · rw [if_pos h', if_neg (by rintro (h | h) <;> linarith [h'.1, h'.2])]
    · rw [if_neg h', if_pos]
      by_contra hc
      push Not at hc
      exact h' hc
  · unfold uniformCDF
    rw [param2_ok h, input_ok]

theorem uniformQF_spec (p a b : ℝ) (h : a < b) (h0 : 0 ≤ p) (h1 : p ≤ 1) :
    ∃ x, uniformQF (.fin p) (.fin a) (.fin b) = .ok (.fin x) ∧ a ≤ x ∧ x ≤ b ∧ uniformF a b x = p ∧
      ∀ y, a ≤ y → y ≤ b → uniformF a b y = p → y = x := by
  have hd : 0 < b - a := sub_pos.2 h
  have hF : ∀ y, a ≤ y → y ≤ b → uniformF a b y = (y - a) / (b - a) := fun y hy hy' => by
    unfold uniformF
    rw [if_neg (by linarith), if_neg (by linarith)]
  have hx : a ≤ a + p * (b - a) ∧ a + p * (b - a) ≤ b := ⟨by nlinarith, by nlinarith⟩
  refine ⟨a + p * (b - a), ?_, hx.1, hx.2, ?_, fun y hy hy' hp => ?_⟩
  · unfold uniformQF uniformQ
    rw [param2_ok h, level_ok ⟨h0, h1⟩, if_pos]
    rcases h0.eq_or_lt with h | h
    · exact Or.inr (by linarith)
    · exact Or.inl h
  · rw [hF _ hx.1 hx.2]
    field_simp
    ring
  · rw [hF y hy hy', div_eq_iff hd.ne'] at hp
    linarith

/-! ## Weibull -/

/-- The density and the distribution function of the Weibull distribution with shape `a` and scale `b`. -/
noncomputable def weibullD (a b x : ℝ) : ℝ := if x ≤ 0 then 0 else a / b * (x / b) ^ (a - 1) * Real.exp (-(x / b) ^ a)
noncomputable def weibullF (a b x : ℝ) : ℝ := if x ≤ 0 then 0 else 1 - Real.exp (-(x / b) ^ a)

theorem weibull_isCdf (a b : ℝ) (ha : 0 < a) (hb : 0 < b) : IsCdf (weibullF a b) (weibullD a b) := by
  refine isCdf_of_pos (G := fun x => 1 - Real.exp (-(x / b) ^ a)) (fun x hx => if_pos hx) (fun x hx => if_neg (not_le.2 hx))
    (fun x hx => if_pos hx.le) ?_ ?_ ?_ ?_
  · intro x hx
    have hxb : 0 < x / b := div_pos hx hb
    have hd : HasDerivAt (fun x => x / b) (1 / b) x := (hasDerivAt_id x).div_const _
    have h := (((hd.rpow_const (p := a) (Or.inl hxb.ne')).neg).exp).const_sub 1
    refine h.congr_deriv ?_
    unfold weibullD
    rw [if_neg (not_le.2 hx)]
    simp only [Pi.neg_apply]
    ring
  · intro x hx
    unfold weibullD
    rw [if_neg (not_le.2 hx)]
    positivity
  · have hc : ContinuousAt (fun x : ℝ => 1 - Real.exp (-(x / b) ^ a)) 0 := by
      refine continuousAt_const.sub (Real.continuous_exp.continuousAt.comp (ContinuousAt.neg ?_))
      exact (continuousAt_id.div_const b).rpow_const (Or.inr ha.le)
    have h := hc.tendsto
    simp only [zero_div, Real.zero_rpow ha.ne', neg_zero, Real.exp_zero, sub_self] at h
    exact h.mono_left nhdsWithin_le_nhds
  · have : Tendsto (fun x : ℝ => Real.exp (-(x / b) ^ a)) atTop (𝓝 0) :=
      Real.tendsto_exp_atBot.comp (tendsto_neg_atTop_atBot.comp ((tendsto_rpow_atTop ha).comp (tendsto_id.atTop_div_const hb)))
    simpa using this.const_sub 1

theorem weibullPDF_partial (x a b : ℝ) (ha : 0 < a) (hb : 0 < b) (hx : x ≠ 0) (h1 : (x / b) ^ (a - 1) < top) (h2 : (x / b) ^ a < top) :
    weibullPDF (.fin x) (.fin a) (.fin b) = .ok (.fin (weibullD a b x)) := by
  unfold weibullPDF weibullD
  rw [param2_ok (ok := fun a b => 0 < a ∧ 0 < b) ⟨ha, hb⟩, input_ok]
  rcases lt_or_gt_of_ne hx with h | h
  · rw [if_neg (not_le.2 h), if_pos h.le]
  · rw [if_pos h.le, if_neg hx, if_neg (not_le.2 h), pyPow_ok h1, pyPow_ok h2]
    rfl

theorem weibullCDF_partial (x a b : ℝ) (ha : 0 < a) (hb : 0 < b) (h : (x / b) ^ a < top) :
    weibullCDF (.fin x) (.fin a) (.fin b) = .ok (.fin (weibullF a b x)) := by
  unfold weibullCDF weibullF
  rw [param2_ok (ok := fun a b => 0 < a ∧ 0 < b) ⟨ha, hb⟩, input_ok]
  rcases lt_trichotomy x 0 with h' | h' | h'
  · rw [if_pos h', if_pos h'.le]
  · subst h'
    rw [if_neg (lt_irrefl _), if_pos le_rfl, pyPow_ok h, zero_div, Real.zero_rpow ha.ne']
    simp [Bind.bind, Except.bind]
  · rw [if_neg (not_lt.2 h'.le), if_neg (not_le.2 h'), pyPow_ok h]
    rfl

/-- Far from zero the distribution function raises OverflowError instead of 1, and for every shape there are such arguments; at zero the
density of a shape below 1 is nan. -/
theorem weibull_violation (a b : ℝ) (ha : 0 < a) (hb : 0 < b) :
    (∃ x, weibullCDF (.fin x) (.fin a) (.fin b) = .error (.py "OverflowError")) ∧
    (a < 1 → weibullPDF (.fin 0) (.fin a) (.fin b) = .ok .nan) := by
  constructor
  · have ht : (0 : ℝ) < top := by unfold top; positivity
    have hx : 0 < b * top ^ a⁻¹ := mul_pos hb (Real.rpow_pos_of_pos ht _)
    refine ⟨b * top ^ a⁻¹, ?_⟩
    unfold weibullCDF
    rw [param2_ok (ok := fun a b => 0 < a ∧ 0 < b) ⟨ha, hb⟩, input_ok, if_neg (not_lt.2 hx.le), pyPow_raises]
    · rfl
    · rw [mul_div_cancel_left₀ _ hb.ne', Real.rpow_inv_rpow ht.le ha.ne']
  · intro h
    unfold weibullPDF
    rw [param2_ok (ok := fun a b => 0 < a ∧ 0 < b) ⟨ha, hb⟩, input_ok, if_pos le_rfl, if_pos rfl, if_pos h]

theorem weibullQF_spec (p a b : ℝ) (ha : 0 < a) (hb : 0 < b) :
    (0 ≤ p → p < 1 → (-Real.log (1 - p)) ^ (1 / a) < top →
      ∃ x, weibullQF (.fin p) (.fin a) (.fin b) = .ok (.fin x) ∧ 0 ≤ x ∧ weibullF a b x = p ∧ ∀ y, 0 ≤ y → weibullF a b y = p → y = x) ∧
    weibullQF (.fin 1) (.fin a) (.fin b) = .ok .pinf := by
  constructor
  · intro h0 h1 hover
    have hl : 0 ≤ -Real.log (1 - p) := neg_nonneg.2 (Real.log_nonpos (by linarith) (by linarith))
    have hval : ∀ x, 0 ≤ x → weibullF a b x = 1 - Real.exp (-(x / b) ^ a) := by
      intro x hx
      unfold weibullF
      rcases hx.eq_or_lt with h | h
      · rw [if_pos h.ge, ← h, zero_div, Real.zero_rpow ha.ne']
        simp
      · rw [if_neg (not_le.2 h)]
    have hx : 0 ≤ b * (-Real.log (1 - p)) ^ (1 / a) := mul_nonneg hb.le (Real.rpow_nonneg hl _)
    have hF : weibullF a b (b * (-Real.log (1 - p)) ^ (1 / a)) = p := by
      rw [hval _ hx, mul_div_cancel_left₀ _ hb.ne', one_div, Real.rpow_inv_rpow hl ha.ne', neg_neg, Real.exp_log (by linarith)]
      ring
    refine ⟨_, ?_, hx, hF, fun y hy hp => ?_⟩
    · unfold weibullQF
      rw [param2_ok (ok := fun a b => 0 < a ∧ 0 < b) ⟨ha, hb⟩, level_ok ⟨h0, h1.le⟩, if_neg h1.ne, pyPow_ok hover]
    · rw [← hF, hval y hy, hval _ hx] at hp
      have h2 := neg_injective (Real.exp_injective (sub_right_injective hp))
      have h3 := Real.rpow_left_injOn ha.ne' (div_nonneg hy hb.le) (div_nonneg hx hb.le) h2
      exact (div_left_inj' hb.ne').1 h3
  · unfold weibullQF
    rw [param2_ok (ok := fun a b => 0 < a ∧ 0 < b) ⟨ha, hb⟩, level_ok (by norm_num), if_pos rfl]

/-! ## Lognormal -/

/-- The density of the exponential of a Gaussian number. -/
noncomputable def lognormalD (mu s x : ℝ) : ℝ :=
  if x ≤ 0 then 0 else ProbabilityTheory.gaussianPDFReal mu (s ^ 2).toNNReal (Real.log x) / x

theorem lognormalPDF_spec (x mu s : ℝ) (hs : 0 < s) (h1 : (Real.log x - mu) ^ 2 < top) (h2 : s ^ 2 < top) :
    lognormalPDF (.fin x) (.fin mu) (.fin s) = .ok (.fin (lognormalD mu s x)) := by
  unfold lognormalPDF lognormalD
  rw [param2_ok (ok := fun _ s => 0 < s) hs, input_ok]
  by_cases h : x ≤ 0
  · rw [if_pos h, if_pos h]
  · rw [if_neg h, if_neg h]
    have hx := not_le.1 h
    unfold pySq
    rw [if_neg (not_le.2 h1), if_neg (not_le.2 h2)]
    simp only [Bind.bind, Except.bind]
    congr 2
    rw [ProbabilityTheory.gaussianPDFReal, Real.coe_toNNReal _ (sq_nonneg s)]
    rw [Real.sqrt_mul (x := 2 * Real.pi) (by positivity) (s ^ 2), Real.sqrt_sq hs.le, neg_div]
    have : √(2 * Real.pi) ≠ 0 := (Real.sqrt_pos.2 (by positivity)).ne'
    field_simp

theorem gaussCDF_standard (mu s x : ℝ) : gaussCDF 0 1 ((x - mu) / s) = gaussCDF mu s x := by
  unfold gaussCDF
  rw [sub_zero, one_mul, div_div]

theorem lognormal_isCdf (mu s : ℝ) (hs : 0 < s) : IsCdf (lognormalF mu s) (lognormalD mu s) := by
  have hg := gaussCDF_isCdf mu s hs
  obtain ⟨S, hS⟩ := hg.deriv
  have hder : ∀ x, HasDerivAt (gaussCDF mu s) (ProbabilityTheory.gaussianPDFReal mu (s ^ 2).toNNReal x) x := by
    intro x
    exact gaussCDF_deriv mu s hs x
  refine isCdf_of_pos (G := fun x => gaussCDF mu s (Real.log x)) (fun x hx => if_pos hx)
    (fun x hx => (if_neg (not_le.2 hx)).trans (gaussCDF_standard _ _ _)) (fun x hx => if_pos hx.le) ?_ ?_ ?_ ?_
  · intro x hx
    have h := (hder (Real.log x)).comp x (Real.hasDerivAt_log hx.ne')
    refine h.congr_deriv ?_
    unfold lognormalD
    rw [if_neg (not_le.2 hx), div_eq_mul_inv]
  · intro x hx
    unfold lognormalD
    rw [if_neg (not_le.2 hx)]
    exact div_nonneg (ProbabilityTheory.gaussianPDFReal_nonneg _ _ _) hx.le
  · exact hg.bot.comp Real.tendsto_log_nhdsGT_zero
  · exact hg.top.comp Real.tendsto_log_atTop

theorem lognormalCDF_spec (x mu s : ℝ) (hs : 0 < s) : lognormalCDF (.fin x) (.fin mu) (.fin s) = .ok (.fin (lognormalF mu s x)) := by
  unfold lognormalCDF
  rw [param2_ok (ok := fun _ s => 0 < s) hs, input_ok]

/-! ## Refused arguments -/

/-- A parameter that is infinite, nan or out of range gives the first code of the function. -/
theorem closed_parameters (x a b : RNum) :
    ((∀ r s, a = .fin r → b = .fin s → s < 0) → gaussianLL x a b = .error (.rt 13000) ∧ gaussianCDF x a b = .error (.rt 13010) ∧
      gaussianQF x a b = .error (.rt 13020)) ∧
    ((∀ r, a = .fin r → r < 0) → exponentialPDF x a = .error (.rt 13030) ∧ exponentialCDF x a = .error (.rt 13040) ∧
      exponentialQF x a = .error (.rt 13050)) ∧
    ((∀ r s, a = .fin r → b = .fin s → s ≤ 0) → cauchyPDF x a b = .error (.rt 13180) ∧ cauchyCDF x a b = .error (.rt 13190) ∧
      cauchyQF x a b = .error (.rt 13200) ∧ lognormalPDF x a b = .error (.rt 13240) ∧ lognormalCDF x a b = .error (.rt 13250)) ∧
    ((∀ r s, a = .fin r → b = .fin s → s ≤ r) → uniformPDF x a b = .error (.rt 13330) ∧ uniformCDF x a b = .error (.rt 13340) ∧
      uniformQF x a b = .error (.rt 13350)) ∧
    ((∀ r s, a = .fin r → b = .fin s → r ≤ 0 ∨ s ≤ 0) → weibullPDF x a b = .error (.rt 13420) ∧ weibullCDF x a b = .error (.rt 13430) ∧
      weibullQF x a b = .error (.rt 13440)) := by
  refine ⟨fun h => ?_, fun h => ?_, fun h => ?_, fun h => ?_, fun h => ?_⟩
  · have h' : ∀ r s, a = .fin r → b = .fin s → ¬ (0 ≤ s) := fun r s ha hb => not_le.2 (h r s ha hb)
    exact ⟨param2_bad h', param2_bad h', param2_bad h'⟩
  · have h' : ∀ r, a = .fin r → ¬ (0 ≤ r) := fun r ha => not_le.2 (h r ha)
    exact ⟨param1_bad h', param1_bad h', param1_bad h'⟩
  · have h' : ∀ r s, a = .fin r → b = .fin s → ¬ (0 < s) := fun r s ha hb => not_lt.2 (h r s ha hb)
    exact ⟨param2_bad h', param2_bad h', param2_bad h', param2_bad h', param2_bad h'⟩
  · have h' : ∀ r s, a = .fin r → b = .fin s → ¬ (r < s) := fun r s ha hb => not_lt.2 (h r s ha hb)
    exact ⟨param2_bad h', param2_bad h', param2_bad h'⟩
  · have h' : ∀ r s, a = .fin r → b = .fin s → ¬ (0 < r ∧ 0 < s) := fun r s ha hb h'' => by
      rcases h r s ha hb with h | h <;> linarith [h''.1, h''.2]
    exact ⟨param2_bad h', param2_bad h', param2_bad h'⟩

/-- An infinite or nan argument, or a level outside the unit interval, gives the second code. -/
theorem closed_inputs (x : RNum) (a b : ℝ) (hab : a < b) (ha : 0 < a) :
    (¬ Finite x → gaussianLL x (.fin a) (.fin b) = .error (.rt 13001) ∧ gaussianCDF x (.fin a) (.fin b) = .error (.rt 13011) ∧
      exponentialPDF x (.fin a) = .error (.rt 13031) ∧ exponentialCDF x (.fin a) = .error (.rt 13041) ∧
      cauchyPDF x (.fin a) (.fin b) = .error (.rt 13181) ∧ cauchyCDF x (.fin a) (.fin b) = .error (.rt 13191) ∧
      lognormalPDF x (.fin a) (.fin b) = .error (.rt 13241) ∧ lognormalCDF x (.fin a) (.fin b) = .error (.rt 13251) ∧
      uniformPDF x (.fin a) (.fin b) = .error (.rt 13331) ∧ uniformCDF x (.fin a) (.fin b) = .error (.rt 13341) ∧
      weibullPDF x (.fin a) (.fin b) = .error (.rt 13421) ∧ weibullCDF x (.fin a) (.fin b) = .error (.rt 13431)) ∧
    ((∀ p, x = .fin p → ¬ (0 ≤ p ∧ p ≤ 1)) → gaussianQF x (.fin a) (.fin b) = .error (.rt 13021) ∧
      exponentialQF x (.fin a) = .error (.rt 13051) ∧ cauchyQF x (.fin a) (.fin b) = .error (.rt 13201) ∧
      uniformQF x (.fin a) (.fin b) = .error (.rt 13351) ∧ weibullQF x (.fin a) (.fin b) = .error (.rt 13441)) := by
  have hb : 0 < b := ha.trans hab
  constructor
  · intro h
    exact ⟨(param2_ok (ok := fun _ s => 0 ≤ s) hb.le).trans (input_bad h), (param2_ok (ok := fun _ s => 0 ≤ s) hb.le).trans (input_bad h),
      (param1_ok (ok := (0 ≤ ·)) ha.le).trans (input_bad h), (param1_ok (ok := (0 ≤ ·)) ha.le).trans (input_bad h),
      (param2_ok (ok := fun _ s => 0 < s) hb).trans (input_bad h), (param2_ok (ok := fun _ s => 0 < s) hb).trans (input_bad h),
      (param2_ok (ok := fun _ s => 0 < s) hb).trans (input_bad h), (param2_ok (ok := fun _ s => 0 < s) hb).trans (input_bad h),
      (param2_ok hab).trans (input_bad h), (param2_ok hab).trans (input_bad h),
      (param2_ok (ok := fun a b => 0 < a ∧ 0 < b) ⟨ha, hb⟩).trans (input_bad h),
      (param2_ok (ok := fun a b => 0 < a ∧ 0 < b) ⟨ha, hb⟩).trans (input_bad h)⟩
  · intro h
    exact ⟨(param2_ok (ok := fun _ s => 0 ≤ s) hb.le).trans (level_bad h), (param1_ok (ok := (0 ≤ ·)) ha.le).trans (level_bad h),
      (param2_ok (ok := fun _ s => 0 < s) hb).trans (level_bad h), (param2_ok hab).trans (level_bad h),
      (param2_ok (ok := fun a b => 0 < a ∧ 0 < b) ⟨ha, hb⟩).trans (level_bad h)⟩

/-- For instance: the median of the exponential distribution with rate 2, and the Gaussian, Cauchy and lognormal functions at their centre. -/
theorem closed_example : exponentialQF (.fin (1 / 2)) (.fin 2) = .ok (.fin (Real.log 2 / 2)) ∧
    gaussianCDF (.fin 3) (.fin 3) (.fin 2) = .ok (.fin (1 / 2)) ∧ cauchyCDF (.fin 3) (.fin 3) (.fin 2) = .ok (.fin (1 / 2)) ∧
    lognormalCDF (.fin 1) (.fin 0) (.fin 2) = .ok (.fin (1 / 2)) ∧ uniformCDF (.fin 3) (.fin 2) (.fin 6) = .ok (.fin (1 / 4)) := by
  refine ⟨?_, ?_, ?_, ?_, ?_⟩
  · unfold exponentialQF
    rw [param1_ok (ok := (0 ≤ ·)) (by norm_num), level_ok (by norm_num), if_neg (by norm_num), if_neg (by norm_num), if_neg (by norm_num),
      if_neg (by norm_num)]
    have : (1 : ℝ) - 1 / 2 = 2⁻¹ := by norm_num
    rw [this, Real.log_inv, neg_neg]
  · rw [gaussianCDF_spec _ _ _ (by norm_num)]
    unfold gaussCDF
    rw [sub_self, zero_div, erf_zero]
    norm_num
  · rw [cauchyCDF_spec _ _ _ (by norm_num)]
    unfold cauchyF
    rw [sub_self, zero_div, Real.arctan_zero]
    norm_num
  · rw [lognormalCDF_spec _ _ _ (by norm_num)]
    unfold lognormalF gaussCDF
    rw [if_neg (by norm_num), Real.log_one, sub_self, zero_div, sub_self, zero_div, erf_zero]
    norm_num
  · rw [(uniform_spec _ _ _ (by norm_num)).2.2]
    unfold uniformF
    rw [if_neg (by norm_num), if_neg (by norm_num)]
    norm_num

end Verif.Prob
