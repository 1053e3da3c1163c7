import Verif.Prob.Closed
import Mathlib.Probability.Distributions.Gamma
import Mathlib.Probability.Distributions.Beta
import Mathlib.Analysis.SpecialFunctions.Gamma.Beta
/-! # Densities with gamma and beta functions (`titus/lib/prob/dist.py`, `titus/lib/spec.py`) -/

namespace Verif.Prob
open Verif.Misc (RNum)
open Verif.Score (top pyExp)
open Filter Topology Classical

/-! ## Model -/

/-- `math.lgamma` of a positive number. -/
noncomputable def lgamma (x : ℝ) : ℝ := Real.log (Real.Gamma x)

/-- `logBetaFunction` (spec.py 133-137) of positive numbers. -/
noncomputable def logBeta (a b : ℝ) : ℝ := lgamma a + lgamma b - lgamma (a + b)

/-- `GammaDistribution.PDF` (dist.py 1094-1112) for positive parameters and argument. -/
noncomputable def gammaD (alpha beta x : ℝ) : Res RNum := do
  let v ← pyExp (Real.log (x / beta) * (alpha - 1) - Real.log beta + (-x / beta - lgamma alpha))
  .ok (.fin v)

/-- `prob.dist.gammaPDF` (304-324). -/
noncomputable def gammaPDF (x shape scale : RNum) : Res RNum :=
  param2 13120 shape scale (fun a b => ¬ (a < 0 ∨ b < 0)) fun a b => input 13120 x fun x =>
    if a = 0 ∨ b = 0 then .ok (if x ≠ 0 then .fin 0 else .pinf)
    else if x < 0 then .ok (.fin 0)
    else if x = 0 then .ok (if a < 1 then .pinf else if a = 1 then .fin (1 / b) else .fin 0)
    else gammaD a b x

/-- `prob.dist.chi2PDF` (190-203) with `Chi2Distribution.PDF` (988-998), whose special cases are not reached. -/
noncomputable def chi2PDF (x : RNum) (df : ℤ) : Res RNum :=
  if df < 0 then .error (.rt 13060)
  else input 13060 x fun x =>
    if df = 0 then .ok (if x ≠ 0 then .fin 0 else .pinf)
    else if x ≤ 0 then .ok (.fin 0)
    else gammaD (df / 2) 2 x

/-- `prob.dist.betaPDF` (369-377) with `BetaDistribution.PDF` (1169-1179). -/
noncomputable def betaPDF (x shape1 shape2 : RNum) : Res RNum :=
  param2 13150 shape1 shape2 (fun a b => ¬ (a ≤ 0 ∨ b ≤ 0)) fun a b => input 13150 x fun x =>
    if x ≤ 0 ∨ x ≥ 1 then .ok (.fin 0)
    else do
      let v ← pyExp ((a - 1) * Real.log x + (b - 1) * Real.log (1 + -x) - (lgamma a + lgamma b - lgamma (a + b)))
      .ok (.fin v)

/-- `prob.dist.fPDF` (463-471) with `FDistribution.PDF` (1246-1258). -/
noncomputable def fPDF (x : RNum) (d1 d2 : ℤ) : Res RNum :=
  if d2 ≤ 0 ∨ d1 ≤ 0 then .error (.rt 13210)
  else input 13210 x fun x =>
    if x ≤ 0 then .ok (.fin 0)
    else do
      let n1 ← pyPow (d1 / d2) (d1 / 2)
      let n2 ← pyPow x (d1 / 2 - 1)
      let e1 ← pyExp (logBeta (d1 / 2) (d2 / 2))
      let e2 ← pyPow (1 + d1 * x / d2) ((d1 + d2) / 2)
      .ok (.fin (n1 * n2 / (e1 * e2)))

/-- `prob.dist.tPDF` (549-555) with `TDistribution.PDF` (1372-1375). -/
noncomputable def tPDF (x : RNum) (df : ℤ) : Res RNum :=
  if df ≤ 0 then .error (.rt 13270)
  else input 13270 x fun x => do
    let e ← pyExp (logBeta (1 / 2) (df / 2))
    let t ← pyPow (1 + x * x / df) (-(df + 1) / 2)
    .ok (.fin (1 / (√df * e) * t))

/-! ## Specification -/

/-- The density of the F distribution: of `d2 B / (d1 (1 - B))`, where `B` has the beta distribution with `d1 / 2` and `d2 / 2`. -/
noncomputable def fD (d1 d2 x : ℝ) : ℝ :=
  if x ≤ 0 then 0 else ProbabilityTheory.betaPDFReal (d1 / 2) (d2 / 2) (d1 * x / (d1 * x + d2)) * (d1 * d2 / (d1 * x + d2) ^ 2)

/-- The density of Student's distribution. -/
noncomputable def tD (n x : ℝ) : ℝ :=
  Real.Gamma ((n + 1) / 2) / (√(n * Real.pi) * Real.Gamma (n / 2)) * (1 + x ^ 2 / n) ^ (-((n + 1) / 2))

/-! ## Gamma and chi-squared -/

theorem exp_lgamma {a : ℝ} (ha : 0 < a) : Real.exp (lgamma a) = Real.Gamma a := Real.exp_log (Real.Gamma_pos_of_pos ha)

theorem exp_logBeta {a b : ℝ} (ha : 0 < a) (hb : 0 < b) : Real.exp (logBeta a b) = ProbabilityTheory.beta a b := by
  unfold logBeta ProbabilityTheory.beta
  rw [Real.exp_sub, Real.exp_add, exp_lgamma ha, exp_lgamma hb, exp_lgamma (add_pos ha hb)]

theorem gammaD_exp (a b x : ℝ) (ha : 0 < a) (hb : 0 < b) (hx : 0 < x) :
    Real.exp (Real.log (x / b) * (a - 1) - Real.log b + (-x / b - lgamma a)) = ProbabilityTheory.gammaPDFReal a (1 / b) x := by
  have hg := Real.Gamma_pos_of_pos ha
  rw [ProbabilityTheory.gammaPDFReal, if_pos hx.le, Real.exp_add, Real.exp_sub, Real.exp_sub, exp_lgamma ha, Real.exp_log hb,
    ← Real.rpow_def_of_pos (div_pos hx hb), Real.div_rpow hx.le hb.le]
  have e1 : b ^ (a - 1) = b ^ a / b := Real.rpow_sub_one hb.ne' a
  have e2 : (1 / b) ^ a = (b ^ a)⁻¹ := by rw [one_div, Real.inv_rpow hb.le]
  have h3 : 0 < b ^ a := Real.rpow_pos_of_pos hb a
  have e4 : -(1 / b * x) = -x / b := by ring
  rw [e1, e2, e4]
  field_simp

/-- Where the density fits a double it is returned, elsewhere OverflowError is raised; at zero the limit is returned. -/
theorem gammaPDF_spec (x a b : ℝ) (ha : 0 < a) (hb : 0 < b) :
    (x ≠ 0 → ProbabilityTheory.gammaPDFReal a (1 / b) x < top →
      gammaPDF (.fin x) (.fin a) (.fin b) = .ok (.fin (ProbabilityTheory.gammaPDFReal a (1 / b) x))) ∧
    (top ≤ ProbabilityTheory.gammaPDFReal a (1 / b) x → x ≠ 0 → gammaPDF (.fin x) (.fin a) (.fin b) = .error (.py "OverflowError")) ∧
    (1 ≤ a → gammaPDF (.fin 0) (.fin a) (.fin b) = .ok (.fin (ProbabilityTheory.gammaPDFReal a (1 / b) 0))) ∧
    (a < 1 → gammaPDF (.fin 0) (.fin a) (.fin b) = .ok .pinf) := by
  have hok : ∀ y, gammaPDF (.fin y) (.fin a) (.fin b) =
      if y < 0 then .ok (.fin 0) else if y = 0 then .ok (if a < 1 then .pinf else if a = 1 then .fin (1 / b) else .fin 0) else gammaD a b y := by
    intro y
    unfold gammaPDF
    rw [param2_ok (ok := fun a b => ¬ (a < 0 ∨ b < 0)) (by rintro (h | h) <;> linarith), input_ok,
      if_neg (by rintro (h | h) <;> linarith)]
  refine ⟨fun hx ht => ?_, fun ht hx => ?_, fun h1 => ?_, fun h1 => ?_⟩
  · rw [hok]
    rcases lt_or_gt_of_ne hx with h | h
    · rw [if_pos h, ProbabilityTheory.gammaPDFReal, if_neg (not_le.2 h)]
    · rw [if_neg (not_lt.2 h.le), if_neg hx]
      unfold gammaD
      rw [Score.pyExp_ok (by rwa [gammaD_exp a b x ha hb h]), gammaD_exp a b x ha hb h]
      rfl
  · rw [hok]
    rcases lt_or_gt_of_ne hx with h | h
    · rw [ProbabilityTheory.gammaPDFReal, if_neg (not_le.2 h)] at ht
      have := Score.one_lt_top
      linarith
    · rw [if_neg (not_lt.2 h.le), if_neg hx]
      unfold gammaD
      rw [Score.pyExp_raises (by rwa [gammaD_exp a b x ha hb h])]
      rfl
  · rw [hok, if_neg (lt_irrefl _), if_pos rfl, if_neg (not_lt.2 h1), ProbabilityTheory.gammaPDFReal, if_pos le_rfl]
    rcases h1.eq_or_lt with h | h
    · rw [if_pos h.symm, ← h]
      simp
    · rw [if_neg h.ne', Real.zero_rpow (by linarith)]
      simp
  · rw [hok, if_neg (lt_irrefl _), if_pos rfl, if_pos h1]

/-- Near zero the density of a shape below 1 grows beyond every bound. -/
theorem gammaPDF_zero_limit (a b : ℝ) (ha : 0 < a) (h1 : a < 1) (hb : 0 < b) :
    Tendsto (ProbabilityTheory.gammaPDFReal a (1 / b)) (𝓝[>] 0) atTop := by
  have hc : Tendsto (fun x : ℝ => Real.exp (-(1 / b * x))) (𝓝[>] 0) (𝓝 1) := by
    have : Continuous fun x : ℝ => Real.exp (-(1 / b * x)) := by fun_prop
    have h := (this.tendsto 0).mono_left (nhdsWithin_le_nhds (s := Set.Ioi 0))
    simpa using h
  have hp : Tendsto (fun x : ℝ => x ^ (a - 1)) (𝓝[>] 0) atTop := tendsto_rpow_neg_nhdsGT_zero (by linarith)
  have hk : 0 < (1 / b) ^ a / Real.Gamma a := div_pos (Real.rpow_pos_of_pos (by positivity) _) (Real.Gamma_pos_of_pos ha)
  refine ((hp.const_mul_atTop hk).atTop_mul_pos one_pos hc).congr' ?_
  filter_upwards [self_mem_nhdsWithin] with x hx
  rw [ProbabilityTheory.gammaPDFReal, if_pos (le_of_lt hx)]

/-- The chi-squared density away from zero. -/
theorem chi2PDF_partial (x : ℝ) (n : ℤ) (hn : 0 < n) (hx : x ≠ 0) (ht : ProbabilityTheory.gammaPDFReal (n / 2) (1 / 2) x < top) :
    chi2PDF (.fin x) n = .ok (.fin (ProbabilityTheory.gammaPDFReal (n / 2) (1 / 2) x)) := by
  have hn' : (0 : ℝ) < n / 2 := by
    have : (0 : ℝ) < n := by exact_mod_cast hn
    linarith
  unfold chi2PDF
  rw [if_neg (by omega), input_ok, if_neg (by omega)]
  rcases lt_or_gt_of_ne hx with h | h
  · rw [if_pos h.le, ProbabilityTheory.gammaPDFReal, if_neg (not_le.2 h)]
  · rw [if_neg (not_le.2 h)]
    unfold gammaD
    rw [Score.pyExp_ok (by rwa [gammaD_exp _ 2 x hn' (by norm_num) h]), gammaD_exp _ 2 x hn' (by norm_num) h]
    rfl

/-- At zero the density is 0 for all degrees of freedom: it should be infinite for 1 and 1/2 for 2. -/
theorem chi2PDF_zero_violation (n : ℤ) (hn : 0 < n) :
    chi2PDF (.fin 0) n = .ok (.fin 0) ∧
    Tendsto (ProbabilityTheory.gammaPDFReal (1 / 2) (1 / 2)) (𝓝[>] 0) atTop ∧ ProbabilityTheory.gammaPDFReal (2 / 2) (1 / 2) 0 = 1 / 2 := by
  refine ⟨?_, gammaPDF_zero_limit (1 / 2) 2 (by norm_num) (by norm_num) (by norm_num), ?_⟩
  · unfold chi2PDF
    rw [if_neg (by omega), input_ok, if_neg (by omega), if_pos le_rfl]
  · rw [ProbabilityTheory.gammaPDFReal, if_pos le_rfl]
    norm_num

/-- Without degrees of freedom all mass is at zero. -/
theorem chi2PDF_none (x : ℝ) : (x ≠ 0 → chi2PDF (.fin x) 0 = .ok (.fin 0)) ∧ chi2PDF (.fin 0) 0 = .ok .pinf := by
  unfold chi2PDF
  refine ⟨fun hx => ?_, ?_⟩
  · rw [if_neg (by omega), input_ok, if_pos rfl, if_pos hx]
  · rw [if_neg (by omega), input_ok, if_pos rfl, if_neg (not_not.2 rfl)]

/-! ## Beta -/

theorem betaPDF_spec (x a b : ℝ) (ha : 0 < a) (hb : 0 < b) :
    (ProbabilityTheory.betaPDFReal a b x < top → betaPDF (.fin x) (.fin a) (.fin b) = .ok (.fin (ProbabilityTheory.betaPDFReal a b x))) ∧
    (top ≤ ProbabilityTheory.betaPDFReal a b x → betaPDF (.fin x) (.fin a) (.fin b) = .error (.py "OverflowError")) := by
  have hok : betaPDF (.fin x) (.fin a) (.fin b) = if x ≤ 0 ∨ x ≥ 1 then .ok (.fin 0) else
      (pyExp ((a - 1) * Real.log x + (b - 1) * Real.log (1 + -x) - (lgamma a + lgamma b - lgamma (a + b)))).bind fun v => .ok (.fin v) := by
    unfold betaPDF
    rw [param2_ok (ok := fun a b => ¬ (a ≤ 0 ∨ b ≤ 0)) (by rintro (h | h) <;> linarith), input_ok]
    rfl
  rw [hok]
  by_cases h : x ≤ 0 ∨ x ≥ 1
  · have e : ProbabilityTheory.betaPDFReal a b x = 0 := by
      rw [ProbabilityTheory.betaPDFReal, if_neg]
      rintro ⟨h1, h2⟩
      rcases h with h | h <;> linarith
    rw [if_pos h, e]
    refine ⟨fun _ => rfl, fun h => ?_⟩
    have := Score.one_lt_top
    linarith
  · push Not at h
    have e : Real.exp ((a - 1) * Real.log x + (b - 1) * Real.log (1 + -x) - (lgamma a + lgamma b - lgamma (a + b))) =
        ProbabilityTheory.betaPDFReal a b x := by
      have hx : 0 < 1 + -x := by linarith
      rw [ProbabilityTheory.betaPDFReal, if_pos h, Real.exp_sub, Real.exp_add, mul_comm (a - 1), mul_comm (b - 1),
        ← Real.rpow_def_of_pos h.1, ← Real.rpow_def_of_pos hx]
      have := exp_logBeta ha hb
      unfold logBeta at this
      rw [this, ← sub_eq_add_neg]
      ring
    rw [if_neg (by push Not; exact h)]
    constructor
    · intro ht
      rw [Score.pyExp_ok (by rwa [e]), e]
      rfl
    · intro ht
      rw [Score.pyExp_raises (by rwa [e])]
      rfl

/-! ## Student's distribution and F -/

theorem beta_half (n : ℝ) : ProbabilityTheory.beta (1 / 2) (n / 2) = √Real.pi * Real.Gamma (n / 2) / Real.Gamma ((n + 1) / 2) := by
  unfold ProbabilityTheory.beta
  rw [Real.Gamma_one_half_eq]
  congr 2
  ring

theorem tPDF_spec (x : ℝ) (n : ℤ) (hn : 0 < n) (h : ProbabilityTheory.beta (1 / 2) (n / 2) < top) :
    tPDF (.fin x) n = .ok (.fin (tD n x)) := by
  have hn' : (0 : ℝ) < n := by exact_mod_cast hn
  have h2 : (0 : ℝ) < n / 2 := by linarith
  have e := exp_logBeta (a := 1 / 2) (b := (n : ℝ) / 2) (by norm_num) h2
  unfold tPDF
  rw [if_neg (by omega), input_ok, Score.pyExp_ok (by rwa [e]), e]
  have hbase : 1 ≤ 1 + x * x / n := by
    have := div_nonneg (mul_self_nonneg x) hn'.le
    linarith
  have hpow : (1 + x * x / n) ^ (-((n : ℝ) + 1) / 2) < top := by
    refine lt_of_le_of_lt ?_ Score.one_lt_top
    exact Real.rpow_le_one_of_one_le_of_nonpos hbase (by linarith)
  simp only [Bind.bind, Except.bind]
  rw [pyPow_ok hpow]
  simp only
  congr 2
  unfold tD
  rw [beta_half, Real.sqrt_mul hn'.le, neg_div, pow_two]
  have hg1 := Real.Gamma_pos_of_pos h2
  have hg2 := Real.Gamma_pos_of_pos (show 0 < ((n : ℝ) + 1) / 2 by linarith)
  have h3 : 0 < √(n : ℝ) := Real.sqrt_pos.2 hn'
  have h4 : 0 < √Real.pi := Real.sqrt_pos.2 Real.pi_pos
  field_simp

theorem fD_formula (d1 d2 x : ℝ) (h1 : 0 < d1) (h2 : 0 < d2) (hx : 0 < x) :
    fD d1 d2 x = (d1 / d2) ^ (d1 / 2) * x ^ (d1 / 2 - 1) / (ProbabilityTheory.beta (d1 / 2) (d2 / 2) * (1 + d1 * x / d2) ^ ((d1 + d2) / 2)) := by
  have hd : 0 < d1 * x + d2 := by positivity
  have hb := ProbabilityTheory.beta_pos (half_pos h1) (half_pos h2)
  unfold fD
  rw [if_neg (not_le.2 hx), ProbabilityTheory.betaPDFReal, if_pos ⟨by positivity, by rw [div_lt_one hd]; linarith⟩]
  have e1 : 1 - d1 * x / (d1 * x + d2) = d2 / (d1 * x + d2) := by field_simp; ring
  have e2 : 1 + d1 * x / d2 = (d1 * x + d2) / d2 := by field_simp; ring
  rw [e1, e2, Real.div_rpow (by positivity) hd.le, Real.div_rpow h2.le hd.le, Real.div_rpow h1.le h2.le, Real.div_rpow hd.le h2.le,
    Real.mul_rpow h1.le hx.le, add_div, Real.rpow_add hd, Real.rpow_add h2, Real.rpow_sub_one h1.ne', Real.rpow_sub_one hx.ne',
    Real.rpow_sub_one hd.ne', Real.rpow_sub_one h2.ne', Real.rpow_sub_one hd.ne']
  have a1 := Real.rpow_pos_of_pos h1 (d1 / 2)
  have a2 := Real.rpow_pos_of_pos h2 (d1 / 2)
  have a3 := Real.rpow_pos_of_pos h2 (d2 / 2)
  have a4 := Real.rpow_pos_of_pos hd (d1 / 2)
  have a5 := Real.rpow_pos_of_pos hd (d2 / 2)
  have a6 := Real.rpow_pos_of_pos hx (d1 / 2)
  field_simp

theorem fPDF_partial (x : ℝ) (d1 d2 : ℤ) (h1 : 0 < d1) (h2 : 0 < d2) (t1 : ((d1 : ℝ) / d2) ^ ((d1 : ℝ) / 2) < top)
    (t2 : x ^ ((d1 : ℝ) / 2 - 1) < top) (t3 : ProbabilityTheory.beta (d1 / 2) (d2 / 2) < top)
    (t4 : (1 + d1 * x / d2) ^ (((d1 : ℝ) + d2) / 2) < top) : fPDF (.fin x) d1 d2 = .ok (.fin (fD d1 d2 x)) := by
  have h1' : (0 : ℝ) < d1 := by exact_mod_cast h1
  have h2' : (0 : ℝ) < d2 := by exact_mod_cast h2
  unfold fPDF
  rw [if_neg (by omega), input_ok]
  by_cases hx : x ≤ 0
  · rw [if_pos hx]
    unfold fD
    rw [if_pos hx]
  · have hx' := not_le.1 hx
    have e := exp_logBeta (half_pos h1') (half_pos h2')
    rw [if_neg hx, pyPow_ok t1, pyPow_ok t2, pyPow_ok t4, Score.pyExp_ok (by rwa [e]), e, fD_formula _ _ _ h1' h2' hx']
    rfl

/-- Large degrees of freedom raise OverflowError, here even at the centre. -/
theorem fPDF_violation : fPDF (.fin 1) 2000 2000 = .error (.py "OverflowError") := by
  unfold fPDF
  rw [if_neg (by norm_num), input_ok, if_neg (by norm_num)]
  have ht : (1 : ℝ) < top := Score.one_lt_top
  have e1 : (((2000 : ℤ) : ℝ) / ((2000 : ℤ) : ℝ)) ^ (((2000 : ℤ) : ℝ) / 2) = 1 := by norm_num
  rw [pyPow_ok (by rw [e1]; exact ht), pyPow_ok (by rw [Real.one_rpow]; exact ht)]
  have e2 : top ≤ ((1 : ℝ) + ((2000 : ℤ) : ℝ) * 1 / ((2000 : ℤ) : ℝ)) ^ ((((2000 : ℤ) : ℝ) + ((2000 : ℤ) : ℝ)) / 2) := by
    have : ((1 : ℝ) + ((2000 : ℤ) : ℝ) * 1 / ((2000 : ℤ) : ℝ)) ^ ((((2000 : ℤ) : ℝ) + ((2000 : ℤ) : ℝ)) / 2) = 2 ^ (2000 : ℝ) := by
      norm_num
    rw [this]
    unfold top
    rw [show (2000 : ℝ) = ((2000 : ℕ) : ℝ) by norm_num, Real.rpow_natCast]
    exact pow_le_pow_right₀ (by norm_num) (by norm_num)
  rw [pyPow_raises e2]
  simp only [Bind.bind, Except.bind]
  unfold pyExp
  by_cases h : top ≤ Real.exp (logBeta (((2000 : ℤ) : ℝ) / 2) (((2000 : ℤ) : ℝ) / 2))
  · rw [if_pos h]
  · rw [if_neg h]

/-! ## Refused arguments -/

theorem density_parameters (x : RNum) (n m : ℤ) (a b : RNum) :
    ((∀ r s, a = .fin r → b = .fin s → r < 0 ∨ s < 0) → gammaPDF x a b = .error (.rt 13120)) ∧
    ((∀ r s, a = .fin r → b = .fin s → r ≤ 0 ∨ s ≤ 0) → betaPDF x a b = .error (.rt 13150)) ∧
    (n < 0 → chi2PDF x n = .error (.rt 13060)) ∧ (n ≤ 0 → tPDF x n = .error (.rt 13270)) ∧
    (n ≤ 0 ∨ m ≤ 0 → fPDF x n m = .error (.rt 13210)) :=
  ⟨fun h => param2_bad fun r s hr hs => not_not.2 (h r s hr hs), fun h => param2_bad fun r s hr hs => not_not.2 (h r s hr hs),
    fun h => if_pos h, fun h => if_pos h, fun h => if_pos h.symm⟩

theorem density_inputs (x : RNum) (hx : ¬ Finite x) (n m : ℤ) (hn : 0 < n) (hm : 0 < m) (a b : ℝ) (ha : 0 < a) (hb : 0 < b) :
    gammaPDF x (.fin a) (.fin b) = .error (.rt 13121) ∧ betaPDF x (.fin a) (.fin b) = .error (.rt 13151) ∧
    chi2PDF x n = .error (.rt 13061) ∧ tPDF x n = .error (.rt 13271) ∧ fPDF x n m = .error (.rt 13211) := by
  refine ⟨?_, ?_, ?_, ?_, ?_⟩
  · exact (param2_ok (ok := fun a b => ¬ (a < 0 ∨ b < 0)) (by rintro (h | h) <;> linarith)).trans (input_bad hx)
  · exact (param2_ok (ok := fun a b => ¬ (a ≤ 0 ∨ b ≤ 0)) (by rintro (h | h) <;> linarith)).trans (input_bad hx)
  · exact (if_neg (by omega)).trans (input_bad hx)
  · exact (if_neg (by omega)).trans (input_bad hx)
  · exact (if_neg (by omega)).trans (input_bad hx)

/-- For instance the gamma distribution with shape 2 and scale 1. -/
theorem density_example : gammaPDF (.fin 1) (.fin 2) (.fin 1) = .ok (.fin (Real.exp (-1))) := by
  have e : ProbabilityTheory.gammaPDFReal 2 (1 / 1) 1 = Real.exp (-1) := by
    rw [ProbabilityTheory.gammaPDFReal, if_pos zero_le_one]
    norm_num [Real.Gamma_two]
  have h := (gammaPDF_spec 1 2 1 (by norm_num) (by norm_num)).1 one_ne_zero
  rw [e] at h
  refine h (lt_trans ?_ Score.one_lt_top)
  rw [Real.exp_lt_one_iff]
  norm_num

end Verif.Prob
