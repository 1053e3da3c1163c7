import Verif.Prob.Discrete
import Mathlib.Topology.MetricSpace.UniformConvergence
import Mathlib.Topology.UniformSpace.HeineCantor
/-! # Quantiles by bisection and by stepping, the Poisson distribution function and the special functions
(`titus/lib/prob/dist.py`, `titus/lib/spec.py`) -/

namespace Verif.Prob
open Verif.Misc (RNum)
open Verif.Score (top pyExp)
open Filter Topology Classical

/-! ## Model -/

/-- `while self.CDF(high) < p: high *= 2.0` (dist.py 1281-1282, 1331-1332, 1400-1401): `none` when it is still running. -/
noncomputable def growUp (F : ℝ → ℝ) (p : ℝ) : ℕ → ℝ → Option ℝ
  | 0, _ => none
  | fuel + 1, high => if F high < p then growUp F p fuel (high * 2) else some high

/-- `while self.CDF(low) > p: low *= 2.0` (1398-1399). -/
noncomputable def growDown (F : ℝ → ℝ) (p : ℝ) : ℕ → ℝ → Option ℝ
  | 0, _ => none
  | fuel + 1, low => if F low > p then growDown F p fuel (low * 2) else some low

/-- The bisection (1283-1291, 1333-1341, 1402-1410). -/
noncomputable def bisect (F : ℝ → ℝ) (p : ℝ) : ℕ → ℝ → ℝ → Option ℝ
  | 0, _, _ => none
  | fuel + 1, low, high =>
    let mid := (low + high) / 2
    let diff := F mid - p
    if |diff| > 1 / 10 ^ 8 then
      if diff > 0 then bisect F p fuel low mid else bisect F p fuel mid high
    else some mid

/-- The search from 0 and 1 (`FDistribution.QF` 1279-1291, `LognormalDistribution.QF` 1329-1341) for a distribution function `F`. -/
noncomputable def searchUp (F : ℝ → ℝ) (p : ℝ) (fuel : ℕ) : Option ℝ := do
  let high ← growUp F p fuel 1
  bisect F p fuel 0 high

/-- The search from -1 and 1 (`TDistribution.QF` 1396-1410). -/
noncomputable def searchBoth (F : ℝ → ℝ) (p : ℝ) (fuel : ℕ) : Option ℝ := do
  let low ← growDown F p fuel (-1)
  let high ← growUp F p fuel 1
  bisect F p fuel low high

/-- `prob.dist.lognormalQF` (533-541) with `LognormalDistribution.QF` (1320-1341). -/
noncomputable def lognormalQF (fuel : ℕ) (p meanlog sdlog : RNum) : Option (Res RNum) :=
  match param2 13260 meanlog sdlog (fun _ s => 0 < s) fun mu s => level 13260 p fun p => .ok (mu, s, p) with
  | .error e => some (.error e)
  | .ok (mu, s, p) =>
    if p = 1 then some (.ok .pinf)
    else if p = 0 then some (.ok (.fin 0))
    else (searchUp (lognormalF mu s) p fuel).map fun r => .ok (.fin r)

/-- The loop of `gser` (spec.py 276-284) with the rounds that are left, the number of terms, the last term and the sum. -/
noncomputable def gserLoop (a x : ℝ) : ℕ → ℕ → ℝ → ℝ → Res ℝ
  | 0, _, _, _ => .error (.py "Exception")
  | fuel + 1, n, delta, total =>
    let delta' := delta * x / (a + (n + 1))
    let total' := total + delta'
    if |delta'| < |total'| * (3 / 10 ^ 7) then .ok total' else gserLoop a x fuel (n + 1) delta' total'

/-- `gser` (266-284). -/
noncomputable def gser (a x : ℝ) : Res ℝ :=
  if x < 0 then .error (.py "Exception")
  else if x = 0 then .ok 0
  else do
    let total ← gserLoop a x 700 0 (1 / a) (1 / a)
    let e ← pyExp (-x + a * Real.log x - lgamma a)
    .ok (total * e)

/-- `regularizedGammaQ` (255-262), with the continued fraction `gcf` (288-313) as a parameter. -/
noncomputable def gammaQ (gcf : ℝ → ℝ → Res ℝ) (a x : ℝ) : Res ℝ :=
  if x < 0 ∨ a ≤ 0 then .error (.py "Exception")
  else if x < a + 1 then do
    let v ← gser a x
    .ok (1 - v)
  else gcf a x

/-- `prob.dist.poissonCDF` (262-277) with `PoissonDistribution.CDF` (1045-1056). -/
noncomputable def poissonCDF (gcf : ℝ → ℝ → Res ℝ) (x : ℤ) (lamda : RNum) : Res RNum :=
  param1 13100 lamda (fun l => ¬ l < 0) fun l =>
    if l = 0 then .ok (.fin (if x ≥ 0 then 1 else 0))
    else if x ≥ 0 then do
      let v ← gammaQ gcf (x + 1) l
      .ok (.fin v)
    else .ok (.fin 0)

/-- The loop of `PoissonDistribution.QF` (1072-1076). -/
noncomputable def poissonLoop (F : ℤ → Res ℝ) (p : ℝ) : ℕ → ℤ → ℝ → Option (Res ℤ)
  | 0, _, _ => none
  | fuel + 1, x, p0 =>
    if p0 ≤ p then
      match F x with
      | .error e => some (.error e)
      | .ok v => poissonLoop F p fuel (x + 1) v
    else some (.ok (x - 1))

/-- `prob.dist.poissonQF` (284-296, 1058-1076) for a distribution function `F` of the parameter. -/
noncomputable def poissonQF (F : ℝ → ℤ → Res ℝ) (fuel : ℕ) (p lamda : RNum) : Option (Res RNum) :=
  match param1 13110 lamda (fun l => ¬ l < 0) fun l => level 13110 p fun p => .ok (l, p) with
  | .error e => some (.error e)
  | .ok (l, p) =>
    if l = 0 then some (.ok (.fin 0))
    else if p = 1 then some (.ok .pinf)
    else if p = 0 then some (.ok (.fin 0))
    else (poissonLoop (F l) p fuel 0 0).map fun r => r.map fun x => .fin x

/-- `m.special.nChooseK` (spec.py 35-45): every exception becomes 36000. -/
noncomputable def nChooseKFcn (n k : ℤ) : Res ℤ :=
  if n = k then .error (.rt 36000)
  else match nChooseK n k with
    | .ok v => .ok v
    | .error _ => .error (.rt 36000)

/-- `m.special.lnBeta` (47-56) of finite numbers. -/
noncomputable def lnBeta (a b : ℝ) : Res ℝ := if a ≤ 0 ∨ b ≤ 0 then .error (.rt 36010) else .ok (logBeta a b)

/-- `m.special.erf` (58-67) of a finite number, an infinity or NaN. -/
noncomputable def erfFcn : RNum → Res RNum
  | .fin x => .ok (.fin (erf x))
  | .pinf => .ok (.fin 1)
  | .ninf => .ok (.fin (-1))
  | .nan => .ok .nan

/-- `m.special.erfc` (69-78): `math.erfc` is 1 less `math.erf`. -/
noncomputable def erfcFcn : RNum → Res RNum
  | .fin x => .ok (.fin (1 - erf x))
  | .pinf => .ok (.fin 0)
  | .ninf => .ok (.fin 2)
  | .nan => .ok .nan

/-- `m.special.lnGamma` (80-93). -/
noncomputable def lnGamma : RNum → Res RNum
  | .pinf => .ok .nan
  | .nan => .ok .nan
  | .ninf => .error (.rt 36050)
  | .fin x => if x ≤ 0 then .error (.rt 36050) else .ok (.fin (lgamma x))

/-! ## Bisection -/

theorem growUp_spec (F : ℝ → ℝ) (p : ℝ) (ht : Tendsto F atTop (𝓝 1)) (hp : p < 1) (x : ℝ) (hx : 0 < x) :
    ∃ N high, x ≤ high ∧ p ≤ F high ∧ ∀ fuel, N ≤ fuel → growUp F p fuel x = some high := by
  have hlim : Tendsto (fun n : ℕ => F (x * 2 ^ n)) atTop (𝓝 1) :=
    ht.comp ((tendsto_pow_atTop_atTop_of_one_lt one_lt_two).const_mul_atTop hx)
  obtain ⟨n, hn⟩ := (hlim.eventually (lt_mem_nhds hp)).exists
  induction n generalizing x with
  | zero =>
    refine ⟨1, x, le_rfl, by simpa using hn.le, fun fuel hf => ?_⟩
    obtain ⟨k, rfl⟩ : ∃ k, fuel = k + 1 := ⟨fuel - 1, by omega⟩
    rw [growUp, if_neg (not_lt.2 (by simpa using hn.le))]
  | succ n ih =>
    by_cases h : F x < p
    · obtain ⟨N, high, h1, h2, h3⟩ := ih (x * 2) (by positivity)
        (ht.comp ((tendsto_pow_atTop_atTop_of_one_lt one_lt_two).const_mul_atTop (by positivity)))
        (by rw [mul_assoc, ← pow_succ']; exact hn)
      refine ⟨N + 1, high, by linarith, h2, fun fuel hf => ?_⟩
      obtain ⟨k, rfl⟩ : ∃ k, fuel = k + 1 := ⟨fuel - 1, by omega⟩
      rw [growUp, if_pos h, h3 k (by omega)]
    · refine ⟨1, x, le_rfl, not_lt.1 h, fun fuel hf => ?_⟩
      obtain ⟨k, rfl⟩ : ∃ k, fuel = k + 1 := ⟨fuel - 1, by omega⟩
      rw [growUp, if_neg h]

theorem growDown_up (F : ℝ → ℝ) (p : ℝ) (fuel : ℕ) (x : ℝ) :
    growDown F p fuel x = (growUp (fun y => 1 - F (-y)) (1 - p) fuel (-x)).map fun y => -y := by
  induction fuel generalizing x with
  | zero => rfl
  | succ fuel ih =>
    rw [growDown, growUp, neg_neg]
    by_cases h : F x > p
    · rw [if_pos h, if_pos (by linarith), ih, neg_mul]
    · rw [if_neg h, if_neg (by linarith)]
      simp

theorem growDown_spec (F : ℝ → ℝ) (p : ℝ) (hb : Tendsto F atBot (𝓝 0)) (hp : 0 < p) (x : ℝ) (hx : x < 0) :
    ∃ N low, low ≤ x ∧ F low ≤ p ∧ ∀ fuel, N ≤ fuel → growDown F p fuel x = some low := by
  obtain ⟨N, high, h1, h2, h3⟩ := growUp_spec (fun y => 1 - F (-y)) (1 - p)
    (by simpa using (hb.comp tendsto_neg_atTop_atBot).const_sub 1) (by linarith) (-x) (by linarith)
  refine ⟨N, -high, by linarith, by linarith, fun fuel hf => ?_⟩
  rw [growDown_up, h3 fuel hf]
  rfl

/-- Bisection of a continuous increasing function ends, at a point where the function differs from the level by at most 1e-8. -/
theorem bisect_spec (F : ℝ → ℝ) (p : ℝ) (hm : Monotone F) (hc : Continuous F) (low high : ℝ) (hl : low < high) (h1 : F low ≤ p)
    (h2 : p ≤ F high) : ∃ N r, low < r ∧ r < high ∧ |F r - p| ≤ 1 / 10 ^ 8 ∧ ∀ fuel, N ≤ fuel → bisect F p fuel low high = some r := by
  have hu : UniformContinuousOn F (Set.Icc low high) := isCompact_Icc.uniformContinuousOn_of_continuous hc.continuousOn
  obtain ⟨d, hd, hF⟩ := Metric.uniformContinuousOn_iff.1 hu (1 / 10 ^ 8) (by norm_num)
  have key : ∀ n : ℕ, ∀ a b : ℝ, low ≤ a → b ≤ high → a < b → F a ≤ p → p ≤ F b → b - a < d * 2 ^ n →
      ∃ N r, a < r ∧ r < b ∧ |F r - p| ≤ 1 / 10 ^ 8 ∧ ∀ fuel, N ≤ fuel → bisect F p fuel a b = some r := by
    intro n
    induction n with
    | zero =>
      intro a b ha hb hab hFa hFb hw
      have hmid : |F ((a + b) / 2) - p| ≤ 1 / 10 ^ 8 := by
        have h3 := hF b ⟨by linarith, hb⟩ a ⟨ha, by linarith⟩ (by rw [Real.dist_eq, abs_of_pos (by linarith)]; simpa using hw)
        rw [Real.dist_eq] at h3
        have h4 : F a ≤ F ((a + b) / 2) := hm (by linarith)
        have h5 : F ((a + b) / 2) ≤ F b := hm (by linarith)
        have h6 := le_abs_self (F b - F a)
        rw [abs_le]
        constructor <;> linarith
      refine ⟨1, (a + b) / 2, by linarith, by linarith, hmid, fun fuel hf => ?_⟩
      obtain ⟨k, rfl⟩ : ∃ k, fuel = k + 1 := ⟨fuel - 1, by omega⟩
      rw [bisect]
      rw [if_neg (not_lt.2 hmid)]
    | succ n ih =>
      intro a b ha hb hab hFa hFb hw
      rw [pow_succ] at hw
      by_cases hstop : |F ((a + b) / 2) - p| > 1 / 10 ^ 8
      · by_cases hdir : F ((a + b) / 2) - p > 0
        · obtain ⟨N, r, i1, i2, i3, i4⟩ := ih a ((a + b) / 2) ha (by linarith) (by linarith) hFa (by linarith) (by linarith)
          refine ⟨N + 1, r, i1, by linarith, i3, fun fuel hf => ?_⟩
          obtain ⟨k, rfl⟩ : ∃ k, fuel = k + 1 := ⟨fuel - 1, by omega⟩
          rw [bisect]
          rw [if_pos hstop, if_pos hdir, i4 k (by omega)]
        · obtain ⟨N, r, i1, i2, i3, i4⟩ := ih ((a + b) / 2) b (by linarith) hb (by linarith) (by linarith) hFb (by linarith)
          refine ⟨N + 1, r, by linarith, i2, i3, fun fuel hf => ?_⟩
          obtain ⟨k, rfl⟩ : ∃ k, fuel = k + 1 := ⟨fuel - 1, by omega⟩
          rw [bisect]
          rw [if_pos hstop, if_neg hdir, i4 k (by omega)]
      · refine ⟨1, (a + b) / 2, by linarith, by linarith, not_lt.1 hstop, fun fuel hf => ?_⟩
        obtain ⟨k, rfl⟩ : ∃ k, fuel = k + 1 := ⟨fuel - 1, by omega⟩
        rw [bisect]
        rw [if_neg hstop]
  obtain ⟨n, hn⟩ := ((tendsto_pow_atTop_atTop_of_one_lt (one_lt_two (α := ℝ))).const_mul_atTop hd |>.eventually_gt_atTop (high - low)).exists
  exact key n low high le_rfl le_rfl hl h1 h2 hn

/-- The search of a quantile on the positive half line ends, and the result has the level as its probability within 1e-8. -/
theorem searchUp_spec (F : ℝ → ℝ) (p : ℝ) (hm : Monotone F) (hc : Continuous F) (ht : Tendsto F atTop (𝓝 1)) (h0 : F 0 ≤ p) (hp : p < 1) :
    ∃ N r, 0 < r ∧ |F r - p| ≤ 1 / 10 ^ 8 ∧ ∀ fuel, N ≤ fuel → searchUp F p fuel = some r := by
  obtain ⟨N, high, h1, h2, h3⟩ := growUp_spec F p ht hp 1 one_pos
  obtain ⟨M, r, i1, _, i3, i4⟩ := bisect_spec F p hm hc 0 high (by linarith) h0 h2
  refine ⟨N + M, r, i1, i3, fun fuel hf => ?_⟩
  unfold searchUp
  rw [h3 fuel (by omega)]
  exact i4 fuel (by omega)

/-- The same for a search on the whole line. -/
theorem searchBoth_spec (F : ℝ → ℝ) (p : ℝ) (hm : Monotone F) (hc : Continuous F) (ht : Tendsto F atTop (𝓝 1)) (hb : Tendsto F atBot (𝓝 0))
    (h0 : 0 < p) (hp : p < 1) : ∃ N r, |F r - p| ≤ 1 / 10 ^ 8 ∧ ∀ fuel, N ≤ fuel → searchBoth F p fuel = some r := by
  obtain ⟨N, high, h1, h2, h3⟩ := growUp_spec F p ht hp 1 one_pos
  obtain ⟨K, low, j1, j2, j3⟩ := growDown_spec F p hb h0 (-1) (by norm_num)
  obtain ⟨M, r, _, _, i3, i4⟩ := bisect_spec F p hm hc low high (by linarith) j2 h2
  refine ⟨N + K + M, r, i3, fun fuel hf => ?_⟩
  unfold searchBoth
  rw [j3 fuel (by omega), h3 fuel (by omega)]
  exact i4 fuel (by omega)

/-- The quantiles of the lognormal distribution. -/
theorem lognormalQF_spec (mu s p : ℝ) (hs : 0 < s) (h0 : 0 < p) (h1 : p < 1) :
    ∃ N r, 0 < r ∧ |lognormalF mu s r - p| ≤ 1 / 10 ^ 8 ∧
      ∀ fuel, N ≤ fuel → lognormalQF fuel (.fin p) (.fin mu) (.fin s) = some (.ok (.fin r)) := by
  have hF := lognormal_isCdf mu s hs
  obtain ⟨N, r, i1, i2, i3⟩ := searchUp_spec (lognormalF mu s) p hF.mono hF.cont hF.top
    (by rw [lognormalF, if_pos le_rfl]; exact h0.le) h1
  refine ⟨N, r, i1, i2, fun fuel hf => ?_⟩
  unfold lognormalQF
  rw [param2_ok (ok := fun _ s => 0 < s) hs, level_ok ⟨h0.le, h1.le⟩]
  simp only
  rw [if_neg h1.ne, if_neg h0.ne', i3 fuel hf]
  rfl

theorem lognormalQF_edges (mu s : ℝ) (hs : 0 < s) (fuel : ℕ) : lognormalQF fuel (.fin 0) (.fin mu) (.fin s) = some (.ok (.fin 0)) ∧
    lognormalQF fuel (.fin 1) (.fin mu) (.fin s) = some (.ok .pinf) := by
  constructor <;>
  · unfold lognormalQF
    rw [param2_ok (ok := fun _ s => 0 < s) hs, level_ok (by norm_num)]
    simp

/-! ## The Poisson distribution function -/

/-- The distribution function of the Poisson distribution is a regularized incomplete gamma function. -/
theorem poisson_lowerP (l : ℝ) (hl : 0 < l) (x : ℕ) :
    ∑ i ∈ Finset.range (x + 1), Real.exp (-l) * l ^ i / i.factorial = 1 - lowerP (x + 1) l := by
  induction x with
  | zero =>
    have h : lowerP 1 l = 1 - Real.exp (-l) := by
      unfold lowerP
      rw [Real.Gamma_one, div_one]
      simp only [sub_self, Real.rpow_zero, one_mul]
      rw [intervalIntegral.integral_comp_neg (f := fun t => Real.exp t), integral_exp]
      simp
    simp [h]
  | succ x ih =>
    rw [Finset.sum_range_succ, ih]
    have h := lowerP_succ (a := (x : ℝ) + 1) (by positivity) hl.le
    have e : (x : ℝ) + 1 = ((x + 1 : ℕ) : ℝ) := by push_cast; rfl
    rw [h, e, Real.Gamma_nat_eq_factorial, Real.rpow_natCast]
    ring

theorem gserLoop_spec {a x : ℝ} (ha : 0 < a) (hx : 0 < x) (fuel n : ℕ) :
    (gserLoop a x fuel n (term a x n) (partialSum a x n) = .error (.py "Exception") ∧
      ∀ k, n < k → k ≤ n + fuel → partialSum a x k * (3 / 10 ^ 7) ≤ term a x k) ∨
    ∃ m, n < m ∧ m ≤ n + fuel ∧ gserLoop a x fuel n (term a x n) (partialSum a x n) = .ok (partialSum a x m) ∧
      term a x m < partialSum a x m * (3 / 10 ^ 7) := by
  induction fuel generalizing n with
  | zero => exact Or.inl ⟨rfl, fun k h1 h2 => by omega⟩
  | succ fuel ih =>
    have ht : term a x n * x / (a + (n + 1)) = term a x (n + 1) := by rw [term, mul_div_assoc]
    have hs : partialSum a x n + term a x (n + 1) = partialSum a x (n + 1) := (Finset.sum_range_succ _ _).symm
    rw [gserLoop]
    rw [ht, hs, abs_of_pos (term_pos ha hx _), abs_of_pos (partialSum_pos ha hx _)]
    by_cases h : term a x (n + 1) < partialSum a x (n + 1) * (3 / 10 ^ 7)
    · rw [if_pos h]
      exact Or.inr ⟨n + 1, by omega, by omega, rfl, h⟩
    · rw [if_neg h]
      rcases ih (n + 1) with ⟨i1, i2⟩ | ⟨m, i1, i2, i3, i4⟩
      · refine Or.inl ⟨i1, fun k h1 h2 => ?_⟩
        by_cases hk : k = n + 1
        · exact hk ▸ not_lt.1 h
        · exact i2 k (by omega) (by omega)
      · exact Or.inr ⟨m, by omega, by omega, i3, i4⟩

theorem gser_cases {a x : ℝ} (ha : 0 < a) (hx : 0 < x) (hat : a < top) :
    (gser a x = .error (.py "Exception") ∧ ∀ k, 0 < k → k ≤ 700 → partialSum a x k * (3 / 10 ^ 7) ≤ term a x k) ∨
    ∃ m, 0 < m ∧ m ≤ 700 ∧ gser a x = .ok (front a x * partialSum a x m) ∧ term a x m < partialSum a x m * (3 / 10 ^ 7) := by
  have e0 : partialSum a x 0 = 1 / a := by rw [partialSum, Finset.sum_range_one]; rfl
  have h := gserLoop_spec ha hx 700 0
  rw [e0] at h
  change (gserLoop a x 700 0 (1 / a) (1 / a) = _ ∧ _) ∨ ∃ m, _ ∧ _ ∧ gserLoop a x 700 0 (1 / a) (1 / a) = _ ∧ _ at h
  unfold gser
  rw [if_neg (not_lt.2 hx.le), if_neg hx.ne']
  rcases h with ⟨h1, h2⟩ | ⟨m, h1, h2, h3, h4⟩
  · left
    rw [h1]
    exact ⟨rfl, fun k hk hk' => h2 k hk (by omega)⟩
  · right
    refine ⟨m, h1, by omega, ?_, h4⟩
    rw [h3, pyExp_front ha hx hat]
    simp only [Bind.bind, Except.bind]
    rw [mul_comm]

theorem gser_ratio {a x : ℝ} (ha : 0 < a) (hx : 0 < x) (n : ℕ) (hn : n ≤ 700) (h : term a x n < partialSum a x n * (3 / 10 ^ 7)) :
    x / (a + n) < 0.989 := by
  by_contra hc
  push Not at hc
  have hk : ∀ k ∈ Finset.range (n + 1), term a x k ≤ term a x n * (1 / 0.989 ^ 700) := by
    intro k hk
    have hk' : k ≤ n := by simpa [Nat.lt_succ_iff] using hk
    have h1 := term_ratio ha hx k (n - k) 0.989 (by norm_num) (by
      have : ((k : ℝ) + ((n - k : ℕ) : ℝ)) = n := by rw [← Nat.cast_add]; congr 1; omega
      rw [this]; exact hc)
    rw [Nat.add_sub_cancel' hk'] at h1
    have h2 : (0.989 : ℝ) ^ 700 ≤ 0.989 ^ (n - k) := pow_le_pow_of_le_one (by norm_num) (by norm_num) (by omega)
    have hp := term_pos ha hx k
    rw [mul_one_div, le_div_iff₀ (by positivity)]
    exact (mul_le_mul_of_nonneg_left h2 hp.le).trans h1
  have hs : partialSum a x n ≤ 701 * (term a x n * (1 / 0.989 ^ 700)) := by
    refine (Finset.sum_le_card_nsmul _ _ _ hk).trans ?_
    rw [Finset.card_range, nsmul_eq_mul]
    have hp : 0 ≤ term a x n * (1 / 0.989 ^ 700) := mul_nonneg (term_pos ha hx n).le (by positivity)
    have : ((n + 1 : ℕ) : ℝ) ≤ 701 := by exact_mod_cast (by omega : n + 1 ≤ 701)
    exact mul_le_mul_of_nonneg_right this hp
  have hp := term_pos ha hx n
  have hnum : (701 * (1 / 0.989 ^ 700) * (3 / 10 ^ 7) : ℝ) < 1 := by
    have h1 : (1 / 3.03 : ℝ) ≤ 0.989 ^ 100 := by norm_num
    have h2 : ((1 / 3.03) ^ 7 : ℝ) ≤ (0.989 ^ 100) ^ 7 := pow_le_pow_left₀ (by norm_num) h1 7
    rw [← pow_mul] at h2
    have h3 : (1 / 0.989 ^ 700 : ℝ) ≤ 1 / (1 / 3.03) ^ 7 := one_div_le_one_div_of_le (by positivity) h2
    refine lt_of_le_of_lt (mul_le_mul_of_nonneg_right (mul_le_mul_of_nonneg_left h3 (by norm_num)) (by norm_num)) ?_
    norm_num
  have : term a x n < term a x n * (701 * (1 / 0.989 ^ 700) * (3 / 10 ^ 7)) := by
    calc term a x n < partialSum a x n * (3 / 10 ^ 7) := h
      _ ≤ 701 * (term a x n * (1 / 0.989 ^ 700)) * (3 / 10 ^ 7) := by gcongr
      _ = _ := by ring
  nlinarith

/-- When the series is returned its relative error is below 2.8e-5, and it is not above the true value. -/
theorem gser_accuracy {a x v : ℝ} (ha : 0 < a) (hx : 0 < x) (hat : a < top) (h : gser a x = .ok v) :
    0 < v ∧ v ≤ lowerP a x ∧ lowerP a x ≤ v * (1 + 28 / 10 ^ 6) := by
  rcases gser_cases ha hx hat with ⟨h1, _⟩ | ⟨n, _, hn, h1, h2⟩
  · rw [h1] at h
    cases h
  · rw [h1] at h
    injection h with h
    subst h
    have hf := front_pos ha hx
    have hS := partialSum_pos ha hx n
    have ht := term_pos ha hx n
    have hr := gser_ratio ha hx n hn h2
    have hb : 0 < a + n := by positivity
    have hb1 : 0 < a + n + 1 := by positivity
    rw [div_lt_iff₀ hb] at hr
    have hx1 : x < 0.989 * (a + n + 1) := by linarith
    have hu := lowerP_upper (b := a + n + 1) hx.le (by linarith)
    have hrem : x ^ (a + n + 1) * Real.exp (-x) / Real.Gamma (a + n + 1) = front a x * term a x n * x := by
      rw [front_term ha hx, Real.rpow_add_one hx.ne']
      ring
    rw [hrem] at hu
    have hP0 := lowerP_nonneg (a := a + n + 1) hb1 hx.le
    have hR : lowerP (a + n + 1) x ≤ front a x * term a x n * 90 := by
      have hfx : 0 < front a x * term a x n := mul_pos hf ht
      have h3 : 0.011 * (a + n + 1) ≤ a + n + 1 - x := by linarith
      have h4 : lowerP (a + n + 1) x * (0.011 * (a + n + 1)) ≤ front a x * term a x n * (0.989 * (a + n + 1)) :=
        (mul_le_mul_of_nonneg_left h3 hP0).trans (hu.trans (mul_le_mul_of_nonneg_left hx1.le hfx.le))
      have h5 : lowerP (a + n + 1) x * 0.011 ≤ front a x * term a x n * 0.989 := by
        refine le_of_mul_le_mul_right ?_ hb1
        linarith
      linarith
    have hs := partialSum_spec ha hx n
    refine ⟨mul_pos hf hS, by linarith, ?_⟩
    have h6 : front a x * term a x n ≤ front a x * (partialSum a x n * (3 / 10 ^ 7)) := mul_le_mul_of_nonneg_left h2.le hf.le
    have h7 : 0 < front a x * partialSum a x n := mul_pos hf hS
    rw [hs]
    have h8 : front a x * (partialSum a x n * (3 / 10 ^ 7)) = front a x * partialSum a x n * (3 / 10 ^ 7) := by ring
    rw [h8] at h6
    generalize front a x * partialSum a x n = S at *
    norm_num at *
    linarith

/-- The distribution function of the Poisson distribution, where the series is used: within 2.8e-5 of the true value, never below it. -/
theorem poissonCDF_partial (gcf : ℝ → ℝ → Res ℝ) (l : ℝ) (hl : 0 < l) (x : ℕ) (hx : l < x + 2) (hxt : (x : ℝ) + 1 < top) (v : RNum)
    (h : poissonCDF gcf x (.fin l) = .ok v) :
    ∃ r, v = .fin r ∧ ∑ i ∈ Finset.range (x + 1), Real.exp (-l) * l ^ i / i.factorial ≤ r ∧
      r ≤ ∑ i ∈ Finset.range (x + 1), Real.exp (-l) * l ^ i / i.factorial + 28 / 10 ^ 6 := by
  have ha : (0 : ℝ) < x + 1 := by positivity
  unfold poissonCDF at h
  rw [param1_ok (ok := fun l => ¬ l < 0) (not_lt.2 hl.le), if_neg hl.ne', if_pos (by omega)] at h
  unfold gammaQ at h
  rw [Int.cast_natCast, if_neg (by rintro (h | h) <;> linarith), if_pos (by linarith)] at h
  cases hg : gser (x + 1) l with
  | error e => rw [hg] at h; cases h
  | ok g =>
    rw [hg] at h
    injection h with h
    have hac := gser_accuracy ha hl hxt hg
    have h1 := lowerP_le_one ha hl
    refine ⟨1 - g, h.symm, ?_, ?_⟩
    · rw [poisson_lowerP l hl]
      linarith
    · rw [poisson_lowerP l hl]
      nlinarith [hac.1, hac.2.1, hac.2.2]

/-- With a large parameter the series does not converge within the iterations and a bare Exception is raised. -/
theorem poissonCDF_violation (gcf : ℝ → ℝ → Res ℝ) : poissonCDF gcf 999999 (.fin 1000000) = .error (.py "Exception") := by
  unfold poissonCDF
  rw [param1_ok (ok := fun l => ¬ l < 0) (by norm_num), if_neg (by norm_num), if_pos (by norm_num)]
  unfold gammaQ
  have hat : (1000000 : ℝ) < top := by
    unfold top
    exact_mod_cast (by decide +kernel : 1000000 < 2 ^ 1024)
  rw [show ((999999 : ℤ) : ℝ) + 1 = 1000000 by norm_num, if_neg (by norm_num), if_pos (by norm_num)]
  have ha : (0 : ℝ) < 1000000 := by norm_num
  have hg : gser 1000000 1000000 = .error (.py "Exception") := by
    rcases gser_cases ha ha hat with ⟨h, _⟩ | ⟨m, hm0, hm, _, h⟩
    · exact h
    · exfalso
      have hup : ∀ k, term 1000000 1000000 k ≤ 1 / 1000000 := by
        intro k
        induction k with
        | zero => exact le_rfl
        | succ k ih =>
          rw [term]
          have : (1000000 : ℝ) / (1000000 + (k + 1)) ≤ 1 := by
            rw [div_le_one (by positivity)]
            have : (0 : ℝ) ≤ k := by positivity
            linarith
          exact (mul_le_of_le_one_right (term_pos ha ha k).le this).trans ih
      have hlow := term_ratio ha ha 0 m 0.999 (by norm_num) (by
        rw [le_div_iff₀ (by positivity)]
        have : (m : ℝ) ≤ 700 := by exact_mod_cast hm
        push_cast
        linarith)
      have hpow : (0.4 : ℝ) ≤ 0.999 ^ m := by
        have h1 : (0.999 : ℝ) ^ 700 ≤ 0.999 ^ m := pow_le_pow_of_le_one (by norm_num) (by norm_num) hm
        have h2 : (0.9 : ℝ) ≤ 0.999 ^ 100 := by norm_num
        have h3 : (0.9 ^ 7 : ℝ) ≤ (0.999 ^ 100) ^ 7 := pow_le_pow_left₀ (by norm_num) h2 7
        rw [← pow_mul] at h3
        exact (show (0.4 : ℝ) ≤ 0.9 ^ 7 by norm_num).trans (h3.trans h1)
      have hsum : partialSum 1000000 1000000 m ≤ 701 * (1 / 1000000) := by
        refine (Finset.sum_le_card_nsmul _ _ _ fun k _ => hup k).trans ?_
        rw [Finset.card_range, nsmul_eq_mul]
        have : ((m + 1 : ℕ) : ℝ) ≤ 701 := by exact_mod_cast (by omega : m + 1 ≤ 701)
        exact mul_le_mul_of_nonneg_right this (by norm_num)
      rw [zero_add] at hlow
      have h0 : term (1000000 : ℝ) 1000000 0 = 1 / 1000000 := rfl
      rw [h0] at hlow
      have : (1 / 1000000 : ℝ) * 0.4 ≤ term 1000000 1000000 m := (mul_le_mul_of_nonneg_left hpow (by norm_num)).trans hlow
      norm_num at *
      linarith
  rw [hg]
  rfl

theorem poissonCDF_edges (gcf : ℝ → ℝ → Res ℝ) (l : ℝ) (hl : 0 ≤ l) (x : ℤ) :
    (x < 0 → poissonCDF gcf x (.fin l) = .ok (.fin 0)) ∧ (0 ≤ x → poissonCDF gcf x (.fin 0) = .ok (.fin 1)) := by
  constructor
  · intro hx
    unfold poissonCDF
    rw [param1_ok (ok := fun l => ¬ l < 0) (not_lt.2 hl)]
    by_cases h : l = 0
    · rw [if_pos h, if_neg (by omega)]
    · rw [if_neg h, if_neg (by omega)]
  · intro hx
    unfold poissonCDF
    rw [param1_ok (ok := fun l => ¬ l < 0) (by norm_num), if_pos rfl, if_pos hx]

theorem poissonLoop_spec (F : ℤ → Res ℝ) (G : ℕ → ℝ) (p : ℝ) (y : ℕ) (hF : ∀ z ≤ y, F (z : ℕ) = .ok (G z)) (hl : ∀ z < y, G z ≤ p)
    (hy : p < G y) (fuel x : ℕ) (s : ℝ) (hs : s ≤ p) (hx : x ≤ y) (hf : y + 2 ≤ x + fuel) :
    poissonLoop F p fuel x s = some (.ok y) := by
  induction fuel generalizing x s with
  | zero => omega
  | succ fuel ih =>
    rw [poissonLoop, if_pos hs, hF x hx]
    simp only
    by_cases h : x = y
    · subst h
      obtain ⟨k, rfl⟩ : ∃ k, fuel = k + 1 := ⟨fuel - 1, by omega⟩
      rw [poissonLoop, if_neg (not_le.2 hy)]
      simp
    · exact ih (x + 1) (G x) (hl x (by omega)) (by omega) (by omega)

/-- The quantile is the first number at which the distribution function, as it is computed, is above the level. -/
theorem poissonQF_partial (F : ℝ → ℤ → Res ℝ) (G : ℕ → ℝ) (l p : ℝ) (hl : 0 < l) (h0 : 0 < p) (h1 : p < 1) (y : ℕ)
    (hF : ∀ z ≤ y, F l (z : ℕ) = .ok (G z)) (hle : ∀ z < y, G z ≤ p) (hy : p < G y) (fuel : ℕ) (hf : y + 2 ≤ fuel) :
    poissonQF F fuel (.fin p) (.fin l) = some (.ok (.fin y)) := by
  unfold poissonQF
  rw [param1_ok (ok := fun l => ¬ l < 0) (not_lt.2 hl.le), level_ok ⟨h0.le, h1.le⟩]
  simp only
  have h := poissonLoop_spec (F l) G p y hF hle hy fuel 0 0 h0.le (by omega) (by omega)
  rw [Nat.cast_zero] at h
  rw [if_neg hl.ne', if_neg h1.ne, if_neg h0.ne', h]
  simp [Except.map]

/-! ## Special functions -/

/-- Binomial coefficients: the value, and 36000 for everything outside the triangle. -/
theorem nChooseKFcn_partial (n k : ℤ) :
    (∀ a b : ℕ, n = a → k = b → b < a → (a.choose b : ℝ) < top → nChooseKFcn n k = .ok (a.choose b)) ∧
    (k ≠ 0 → n < k ∨ k < 0 → nChooseKFcn n k = .error (.rt 36000)) ∧ (n ≠ 0 → nChooseKFcn n 0 = .ok 1) := by
  refine ⟨?_, fun hk h => ?_, fun hn => ?_⟩
  · rintro a b rfl rfl h ht
    unfold nChooseKFcn
    rw [if_neg (by omega), nChooseK_spec a b h.le ht]
  · unfold nChooseKFcn
    by_cases hnk : n = k
    · rw [if_pos hnk]
    · rw [if_neg hnk, nChooseK_error n k hk (by omega)]
  · unfold nChooseKFcn nChooseK
    rw [if_neg hn, if_pos (Or.inr rfl)]

/-- There is one way to choose all of `n`, but it is refused. Results outside the range of an int are returned. -/
theorem nChooseKFcn_violation : (∀ n : ℤ, nChooseKFcn n n = .error (.rt 36000)) ∧ (∀ n : ℕ, n.choose n = 1) ∧
    nChooseKFcn 40 20 = .ok 137846528820 ∧ (137846528820 : ℤ) > 2 ^ 31 - 1 := by
  refine ⟨fun n => if_pos rfl, Nat.choose_self, ?_, by norm_num⟩
  have hc : Nat.choose 40 20 = 137846528820 := by decide +kernel
  have h := (nChooseKFcn_partial 40 20).1 40 20 rfl rfl (by norm_num) (by
    rw [hc]
    unfold top
    exact_mod_cast (by decide +kernel : 137846528820 < 2 ^ 1024))
  rw [h, hc]
  rfl

theorem lnBeta_spec (a b : ℝ) : (0 < a → 0 < b → lnBeta a b = .ok (Real.log (ProbabilityTheory.beta a b))) ∧
    (a ≤ 0 ∨ b ≤ 0 → lnBeta a b = .error (.rt 36010)) := by
  constructor
  · intro ha hb
    unfold lnBeta
    rw [if_neg (by rintro (h | h) <;> linarith), ← exp_logBeta ha hb, Real.log_exp]
  · exact fun h => if_pos h

/-- The error function: its range, its symmetry, its limits and its complement. -/
theorem erf_spec (x : ℝ) : (∃ r, erfFcn (.fin x) = .ok (.fin r) ∧ -1 < r ∧ r < 1 ∧ erfFcn (.fin (-x)) = .ok (.fin (-r)) ∧
      erfcFcn (.fin x) = .ok (.fin (1 - r)) ∧ erfcFcn (.fin (-x)) = .ok (.fin (1 + r)) ∧ (0 < x ↔ 0 < r)) ∧
    Tendsto erf atTop (𝓝 1) ∧ erfFcn .pinf = .ok (.fin 1) ∧ erfcFcn .pinf = .ok (.fin 0) ∧
    Tendsto erf atBot (𝓝 (-1)) ∧ erfFcn .ninf = .ok (.fin (-1)) ∧ erfcFcn .ninf = .ok (.fin 2) ∧
    HasDerivAt erf (2 / √Real.pi * Real.exp (-x ^ 2)) x := by
  refine ⟨⟨erf x, rfl, (erf_range x).1, (erf_range x).2, ?_, rfl, ?_, ?_⟩, tendsto_erf_atTop, rfl, rfl, tendsto_erf_atBot, rfl, rfl,
    hasDerivAt_erf x⟩
  · rw [erfFcn, erf_neg]
  · rw [erfcFcn, erf_neg, sub_neg_eq_add]
  · have h := erf_strictMono.lt_iff_lt (a := 0) (b := x)
    rw [erf_zero] at h
    exact h.symm

theorem lnGamma_spec (x : ℝ) : (0 < x → ∃ r, lnGamma (.fin x) = .ok (.fin r) ∧ Real.exp r = Real.Gamma x) ∧
    (x ≤ 0 → lnGamma (.fin x) = .error (.rt 36050)) ∧ lnGamma .ninf = .error (.rt 36050) := by
  refine ⟨fun hx => ⟨lgamma x, ?_, exp_lgamma hx⟩, fun hx => if_pos hx, rfl⟩
  exact if_neg (not_le.2 hx)

/-- The logarithm of the gamma function grows without bound, but at infinity the function is NaN. -/
theorem lnGamma_violation : lnGamma .pinf = .ok .nan ∧ ∀ n : ℕ, ∃ r, lnGamma (.fin (n + 1)) = .ok (.fin r) ∧ Real.log n.factorial = r := by
  refine ⟨rfl, fun n => ⟨lgamma (n + 1), if_neg (not_le.2 (by positivity)), ?_⟩⟩
  rw [lgamma, Real.Gamma_nat_eq_factorial]

/-- The median of the standard lognormal distribution is found. -/
example : ∃ N r, 0 < r ∧ |lognormalF 0 1 r - 1 / 2| ≤ 1 / 10 ^ 8 ∧
    ∀ fuel, N ≤ fuel → lognormalQF fuel (.fin (1 / 2)) (.fin 0) (.fin 1) = some (.ok (.fin r)) :=
  lognormalQF_spec 0 1 (1 / 2) (by norm_num) (by norm_num) (by norm_num)

/-- Refused parameters and levels. -/
theorem invert_errors (gcf : ℝ → ℝ → Res ℝ) (F : ℝ → ℤ → Res ℝ) (fuel : ℕ) (x : ℤ) (a b u v : RNum) (l mu s : ℝ) (hl : 0 ≤ l) (hs : 0 < s)
    (hv : ∀ r, v = .fin r → ¬ (0 ≤ r ∧ r ≤ 1)) :
    ((∀ r, a = .fin r → r < 0) → poissonCDF gcf x a = .error (.rt 13100) ∧ poissonQF F fuel u a = some (.error (.rt 13110))) ∧
    ((∀ r t, a = .fin r → b = .fin t → t ≤ 0) → lognormalQF fuel u a b = some (.error (.rt 13260))) ∧
    poissonQF F fuel v (.fin l) = some (.error (.rt 13111)) ∧ lognormalQF fuel v (.fin mu) (.fin s) = some (.error (.rt 13261)) := by
  refine ⟨fun h => ⟨param1_bad fun r hr => not_not.2 (h r hr), ?_⟩, fun h => ?_, ?_, ?_⟩
  · unfold poissonQF
    rw [param1_bad fun r hr => not_not.2 (h r hr)]
  · unfold lognormalQF
    rw [param2_bad fun r t hr ht => not_lt.2 (h r t hr ht)]
  · unfold poissonQF
    rw [param1_ok (ok := fun l => ¬ l < 0) (not_lt.2 hl), level_bad hv]
    rfl
  · unfold lognormalQF
    rw [param2_ok (ok := fun _ s => 0 < s) hs, level_bad hv]
    rfl

end Verif.Prob
