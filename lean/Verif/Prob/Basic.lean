import Verif.Misc.Small
import Verif.Score.Kernel
import Mathlib.Analysis.SpecialFunctions.Gaussian.GaussianIntegral
import Mathlib.Analysis.SpecialFunctions.Pow.Real
import Mathlib.MeasureTheory.Integral.IntegralEqImproper
/-! # Distributions: what the functions of `titus/lib/prob/dist.py` have in common

Doubles are real numbers, infinities or nan; arithmetic is exact, but `**` and `pow` raise OverflowError when their result does not
fit a double. -/

namespace Verif.Prob
open Verif.Misc (RNum)
open Verif.Score (top)
open Filter Topology

/-! ## Model -/

open Classical in
/-- The check `math.isinf(a) or math.isnan(a) or not ok(a)` of a parameter, with the code `errcodeBase + 0`. -/
noncomputable def param1 {β : Type} (base : Int) (a : RNum) (ok : ℝ → Prop) (k : ℝ → Res β) : Res β :=
  match a with
  | .fin a => if ok a then k a else .error (.rt base)
  | _ => .error (.rt base)

open Classical in
/-- The same for two parameters. -/
noncomputable def param2 {β : Type} (base : Int) (a b : RNum) (ok : ℝ → ℝ → Prop) (k : ℝ → ℝ → Res β) : Res β :=
  match a, b with
  | .fin a, .fin b => if ok a b then k a b else .error (.rt base)
  | _, _ => .error (.rt base)

/-- The check `math.isinf(x) or math.isnan(x)` of the argument, with the code `errcodeBase + 1`. -/
noncomputable def input {β : Type} (base : Int) (x : RNum) (k : ℝ → Res β) : Res β :=
  match x with
  | .fin x => k x
  | _ => .error (.rt (base + 1))

open Classical in
/-- The check `not (0.0 <= p <= 1.0)`, with the code `errcodeBase + 1`. -/
noncomputable def level {β : Type} (base : Int) (p : RNum) (k : ℝ → Res β) : Res β :=
  match p with
  | .fin p => if 0 ≤ p ∧ p ≤ 1 then k p else .error (.rt (base + 1))
  | _ => .error (.rt (base + 1))

open Classical in
/-- `pow(x, y)` of a number that is not negative. -/
noncomputable def pyPow (x y : ℝ) : Res ℝ := if top ≤ x ^ y then .error (.py "OverflowError") else .ok (x ^ y)

/-- `math.erf`. -/
noncomputable def erf (x : ℝ) : ℝ := 2 / √Real.pi * ∫ t in (0 : ℝ)..x, Real.exp (-t ^ 2)

/-! ## Specification -/

/-- `F` is a continuous distribution function with density `f`. -/
structure IsCdf (F f : ℝ → ℝ) : Prop where
  mono : Monotone F
  cont : Continuous F
  bot : Tendsto F atBot (𝓝 0)
  top : Tendsto F atTop (𝓝 1)
  deriv : ∃ s : Finset ℝ, ∀ x ∉ s, HasDerivAt F (f x) x

theorem IsCdf.range {F f : ℝ → ℝ} (h : IsCdf F f) (x : ℝ) : 0 ≤ F x ∧ F x ≤ 1 :=
  ⟨h.mono.le_of_tendsto h.bot x, h.mono.ge_of_tendsto h.top x⟩

/-- A number is neither an infinity nor nan. -/
def Finite : RNum → Prop
  | .fin _ => True
  | _ => False

theorem param1_ok {β : Type} {base : Int} {a : ℝ} {ok : ℝ → Prop} {k : ℝ → Res β} (h : ok a) : param1 base (.fin a) ok k = k a :=
  if_pos h

theorem param2_ok {β : Type} {base : Int} {a b : ℝ} {ok : ℝ → ℝ → Prop} {k : ℝ → ℝ → Res β} (h : ok a b) :
    param2 base (.fin a) (.fin b) ok k = k a b := if_pos h

theorem input_ok {β : Type} {base : Int} {x : ℝ} {k : ℝ → Res β} : input base (.fin x) k = k x := rfl

theorem level_ok {β : Type} {base : Int} {p : ℝ} {k : ℝ → Res β} (h : 0 ≤ p ∧ p ≤ 1) : level base (.fin p) k = k p := if_pos h

theorem param1_bad {β : Type} {base : Int} {a : RNum} {ok : ℝ → Prop} {k : ℝ → Res β} (h : ∀ r, a = .fin r → ¬ ok r) :
    param1 base a ok k = .error (.rt base) := by
  cases a with
  | fin r => exact if_neg (h r rfl)
  | _ => rfl

theorem param2_bad {β : Type} {base : Int} {a b : RNum} {ok : ℝ → ℝ → Prop} {k : ℝ → ℝ → Res β}
    (h : ∀ r s, a = .fin r → b = .fin s → ¬ ok r s) : param2 base a b ok k = .error (.rt base) := by
  cases a <;> cases b <;> first | rfl | exact if_neg (h _ _ rfl rfl)

theorem input_bad {β : Type} {base : Int} {x : RNum} {k : ℝ → Res β} (h : ¬ Finite x) : input base x k = .error (.rt (base + 1)) := by
  cases x with
  | fin r => exact absurd trivial h
  | _ => rfl

theorem level_bad {β : Type} {base : Int} {p : RNum} {k : ℝ → Res β} (h : ∀ r, p = .fin r → ¬ (0 ≤ r ∧ r ≤ 1)) :
    level base p k = .error (.rt (base + 1)) := by
  cases p with
  | fin r => exact if_neg (h r rfl)
  | _ => rfl

theorem pyPow_ok {x y : ℝ} (h : x ^ y < top) : pyPow x y = .ok (x ^ y) := if_neg (not_le.2 h)

theorem pyPow_raises {x y : ℝ} (h : top ≤ x ^ y) : pyPow x y = .error (.py "OverflowError") := if_pos h

/-! ## The error function -/

theorem continuous_gauss : Continuous fun t : ℝ => Real.exp (-t ^ 2) := by fun_prop

theorem hasDerivAt_erf (x : ℝ) : HasDerivAt erf (2 / √Real.pi * Real.exp (-x ^ 2)) x :=
  ((continuous_gauss.integral_hasStrictDerivAt 0 x).hasDerivAt).const_mul _

theorem erf_zero : erf 0 = 0 := by simp [erf]

theorem erf_neg (x : ℝ) : erf (-x) = -erf x := by
  unfold erf
  have : ∫ t in (0 : ℝ)..(-x), Real.exp (-t ^ 2) = -∫ t in (0 : ℝ)..x, Real.exp (-t ^ 2) := by
    have h := intervalIntegral.integral_comp_neg (a := 0) (b := x) (fun t : ℝ => Real.exp (-t ^ 2))
    simp only [neg_sq, neg_zero] at h
    rw [h, intervalIntegral.integral_symm]
  rw [this]
  ring

theorem erf_strictMono : StrictMono erf := by
  apply strictMono_of_deriv_pos
  intro x
  rw [(hasDerivAt_erf x).deriv]
  have := Real.sqrt_pos.2 Real.pi_pos
  positivity

theorem tendsto_erf_atTop : Tendsto erf atTop (𝓝 1) := by
  have hi : MeasureTheory.IntegrableOn (fun t : ℝ => Real.exp (-t ^ 2)) (Set.Ioi 0) := by
    have := (integrable_exp_neg_mul_sq (b := 1) one_pos).integrableOn (s := Set.Ioi (0 : ℝ))
    simpa using this
  have h := MeasureTheory.intervalIntegral_tendsto_integral_Ioi (0 : ℝ) hi (tendsto_id (α := ℝ) (x := atTop))
  have hv : ∫ t in Set.Ioi (0 : ℝ), Real.exp (-t ^ 2) = √Real.pi / 2 := by
    have := integral_gaussian_Ioi 1
    simpa using this
  rw [hv] at h
  have h2 := h.const_mul (2 / √Real.pi)
  have hp : √Real.pi ≠ 0 := (Real.sqrt_pos.2 Real.pi_pos).ne'
  have e : 2 / √Real.pi * (√Real.pi / 2) = 1 := by field_simp
  rw [e] at h2
  exact h2

theorem tendsto_erf_atBot : Tendsto erf atBot (𝓝 (-1)) := by
  have h := (tendsto_erf_atTop.comp tendsto_neg_atBot_atTop).neg
  refine h.congr fun x => ?_
  simp [erf_neg]

theorem erf_range (x : ℝ) : -1 < erf x ∧ erf x < 1 := by
  constructor
  · have h1 := erf_strictMono.monotone.le_of_tendsto tendsto_erf_atBot (x - 1)
    have h2 := erf_strictMono (sub_one_lt x)
    linarith
  · have h1 := erf_strictMono.monotone.ge_of_tendsto tendsto_erf_atTop (x + 1)
    have h2 := erf_strictMono (lt_add_one x)
    linarith

end Verif.Prob
