import Verif.Misc.Small
import Mathlib.Analysis.SpecialFunctions.Pow.Real
import Mathlib.Algebra.BigOperators.Group.List.Lemmas
/-!
# Means and sums through logarithms (C92)

Models `titus/lib/array.py` 706-747 (`a.lnsum`, `a.mean`, `a.geomean`) and 1220-1232 (`a.logsumexp`).

A double is a real number, an infinity or nan (`RNum`).  Arithmetic on reals is exact, and overflow is not modelled.
-/

namespace Verif.Lib.LogSum
open Verif.Misc Verif.Misc.RNum

/-! ## Arithmetic of doubles -/

/-- `x + y`. -/
noncomputable def add : RNum → RNum → RNum
  | .fin x, .fin y => .fin (x + y)
  | .nan, _ => .nan
  | _, .nan => .nan
  | .pinf, .ninf => .nan
  | .ninf, .pinf => .nan
  | .pinf, _ => .pinf
  | _, .pinf => .pinf
  | .ninf, _ => .ninf
  | _, .ninf => .ninf

/-- `-x`. -/
noncomputable def neg : RNum → RNum
  | .fin x => .fin (-x)
  | .nan => .nan
  | .pinf => .ninf
  | .ninf => .pinf

/-- `x - y`. -/
noncomputable def sub (x y : RNum) : RNum := add x (neg y)

open Classical in
/-- `x > y`. -/
noncomputable def gt : RNum → RNum → Bool
  | .fin x, .fin y => decide (x > y)
  | .pinf, .fin _ => true
  | .pinf, .ninf => true
  | .fin _, .ninf => true
  | _, _ => false

/-- `math.exp` of numbers that do not overflow. -/
noncomputable def exp : RNum → RNum
  | .fin x => .fin (Real.exp x)
  | .pinf => .pinf
  | .ninf => .fin 0
  | .nan => .nan

open Classical in
/-- `math.log`; the argument zero or less raises ValueError. -/
noncomputable def log : RNum → Res RNum
  | .fin x => if x ≤ 0 then .error (.py "ValueError") else .ok (.fin (Real.log x))
  | .pinf => .ok .pinf
  | .ninf => .error (.py "ValueError")
  | .nan => .ok .nan

/-! ## Model -/

open Classical in
/-- `Lnsum.ln` (array.py 710-716). -/
noncomputable def ln : RNum → RNum
  | .fin x => if x < 0 then .nan else if x = 0 then .ninf else .fin (Real.log x)
  | .ninf => .nan
  | .pinf => .pinf
  | .nan => .nan

/-- `a.lnsum` (706-719); `sum` starts with zero. -/
noncomputable def lnsum (a : List RNum) : RNum := (a.map ln).foldl add (.fin 0)

/-- `a.mean` of finite numbers (721-737): `sum([])` is zero, so the empty array gives nan. -/
noncomputable def mean (a : List ℝ) : RNum :=
  if a.length = 0 then .nan else .fin (a.foldl (· + ·) 0 / a.length)

/-- A power of Python: a negative base and an exponent that is not whole give a complex number. -/
inductive Pow
  | real (x : RNum)
  | complex

open Classical in
/-- `x**y` for real numbers with `y` positive. -/
noncomputable def pyPow (x y : ℝ) : Pow := if x < 0 ∧ ∀ n : ℤ, y ≠ n then .complex else .real (.fin (x ^ y))

/-- `a.geomean` of finite numbers (739-747). -/
noncomputable def geomean (a : List ℝ) : Pow :=
  if a.length = 0 then .real .nan else pyPow (a.foldl (· * ·) 1) (1 / a.length)

/-- `max(datum)`: the first is kept unless a later one is greater. -/
noncomputable def pyMax (d : RNum) (l : List RNum) : RNum := l.foldl (fun m v => if gt v m then v else m) d

/-- `a.logsumexp` (1220-1232). -/
noncomputable def logsumexp : List RNum → Res RNum
  | [] => .ok .nan
  | d :: l => do
    let dmax := pyMax d l
    let res := (d :: l).foldl (fun res v => add res (exp (sub v dmax))) (.fin 0)
    let r ← log res
    .ok (add r dmax)

/-! ## Sums -/

theorem nan_add (x : RNum) : add .nan x = .nan := by cases x <;> rfl
theorem add_nan (x : RNum) : add x .nan = .nan := by cases x <;> rfl

theorem foldl_nan (f : RNum → RNum) (l : List RNum) : l.foldl (fun r v => add r (f v)) .nan = .nan := by
  induction l with
  | nil => rfl
  | cons x l ih => rw [List.foldl_cons, nan_add]; exact ih

theorem foldl_has_nan (f : RNum → RNum) (l : List RNum) (r : RNum) (h : ∃ v ∈ l, f v = .nan) :
    l.foldl (fun r v => add r (f v)) r = .nan := by
  induction l generalizing r with
  | nil => obtain ⟨v, hv, _⟩ := h; cases hv
  | cons x l ih =>
    rw [List.foldl_cons]
    obtain ⟨v, hv, e⟩ := h
    rcases List.mem_cons.1 hv with rfl | hv
    · rw [e, add_nan]; exact foldl_nan f l
    · exact ih _ ⟨v, hv, e⟩

theorem foldl_fin (f : RNum → RNum) (g : RNum → ℝ) (l : List RNum) (r : ℝ) (h : ∀ v ∈ l, f v = .fin (g v)) :
    l.foldl (fun r v => add r (f v)) (.fin r) = .fin (r + (l.map g).sum) := by
  induction l generalizing r with
  | nil => simp
  | cons x l ih =>
    rw [List.foldl_cons, h x (by simp)]
    have e : add (.fin r) (.fin (g x)) = .fin (r + g x) := rfl
    rw [e]
    rw [ih _ (fun v hv => h v (by simp [hv])), List.map_cons, List.sum_cons, add_assoc]

theorem foldl_one_inf (f : RNum → RNum) (i : RNum) (hi : i = .pinf ∨ i = .ninf) (l : List RNum) (r : RNum)
    (hr : r = i ∨ ∃ x, r = .fin x) (h : ∀ v ∈ l, f v = i ∨ ∃ x, f v = .fin x) :
    (r = i ∨ ∃ v ∈ l, f v = i) → l.foldl (fun r v => add r (f v)) r = i := by
  induction l generalizing r with
  | nil =>
    rintro (h | ⟨v, hv, _⟩)
    · exact h
    · cases hv
  | cons x l ih =>
    intro hs
    rw [List.foldl_cons]
    have hfi : add i i = i := by rcases hi with rfl | rfl <;> rfl
    have hfx : ∀ y, add i (.fin y) = i := by intro y; rcases hi with rfl | rfl <;> rfl
    have hxf : ∀ y, add (.fin y) i = i := by intro y; rcases hi with rfl | rfl <;> rfl
    have hl : ∀ v ∈ l, f v = i ∨ ∃ x, f v = .fin x := fun v hv => h v (by simp [hv])
    rcases hr with rfl | ⟨y, rfl⟩
    · have : add r (f x) = r := by
        rcases h x (by simp) with e | ⟨z, e⟩
        · rw [e, hfi]
        · rw [e, hfx]
      rw [this]
      exact ih r (.inl rfl) hl (.inl rfl)
    · rcases h x (by simp) with e | ⟨z, e⟩
      · rw [e, hxf]
        exact ih i (.inl rfl) hl (.inl rfl)
      · rw [e]
        refine ih _ (.inr ⟨_, rfl⟩) hl ?_
        rcases hs with h' | ⟨v, hv, h'⟩
        · rcases hi with rfl | rfl <;> cases h'
        · rcases List.mem_cons.1 hv with rfl | hv
          · rw [e] at h'; rcases hi with rfl | rfl <;> cases h'
          · exact .inr ⟨v, hv, h'⟩

/-! ## Theorems -/

theorem lnsum_eq (a : List RNum) : lnsum a = a.foldl (fun r v => add r (ln v)) (.fin 0) := by
  rw [lnsum, List.foldl_map]

/-- `a.lnsum` of positive numbers is the logarithm of their product. -/
theorem lnsum_product (a : List ℝ) (h : ∀ x ∈ a, 0 < x) : lnsum (a.map .fin) = .fin (Real.log a.prod) := by
  rw [lnsum_eq, foldl_fin ln (fun v => match v with | .fin x => Real.log x | _ => 0)]
  · rw [zero_add, List.map_map]
    congr 1
    induction a with
    | nil => simp
    | cons x a ih =>
      have hx := h x (by simp)
      have hp : 0 < a.prod := List.prod_pos (fun y hy => h y (by simp [hy]))
      rw [List.map_cons, List.sum_cons, ih (fun y hy => h y (by simp [hy])), List.prod_cons, Real.log_mul hx.ne' hp.ne']
      rfl
  · intro v hv
    obtain ⟨x, hx, rfl⟩ := List.mem_map.1 hv
    have := h x hx
    simp only [ln, if_neg this.not_gt, if_neg this.ne']

/-- Where the logarithm of the product is not a number: a negative number or nan gives nan; a zero among numbers that are
not negative gives minus infinity, and plus infinity gives plus infinity, but nan if both occur. -/
theorem lnsum_special (a : List RNum) :
    ((∃ v ∈ a, v = .nan ∨ v = .ninf ∨ ∃ x < 0, v = .fin x) → lnsum a = .nan) ∧
    ((∀ v ∈ a, ∃ x, 0 ≤ x ∧ v = .fin x) → .fin 0 ∈ a → lnsum a = .ninf) ∧
    ((∀ v ∈ a, v = .pinf ∨ ∃ x, 0 < x ∧ v = .fin x) → .pinf ∈ a → lnsum a = .pinf) := by
  refine ⟨?_, ?_, ?_⟩
  · rintro ⟨v, hv, h⟩
    rw [lnsum_eq]
    refine foldl_has_nan ln a _ ⟨v, hv, ?_⟩
    rcases h with rfl | rfl | ⟨x, hx, rfl⟩
    · rfl
    · rfl
    · simp only [ln, if_pos hx]
  · intro h hz
    rw [lnsum_eq]
    refine foldl_one_inf ln .ninf (.inr rfl) a _ (.inr ⟨0, rfl⟩) ?_ (.inr ⟨_, hz, by simp [ln]⟩)
    intro v hv
    obtain ⟨x, hx, rfl⟩ := h v hv
    by_cases h0 : x = 0
    · left; simp [ln, h0]
    · right; exact ⟨Real.log x, by simp only [ln, if_neg hx.not_gt, if_neg h0]⟩
  · intro h hz
    rw [lnsum_eq]
    refine foldl_one_inf ln .pinf (.inl rfl) a _ (.inr ⟨0, rfl⟩) ?_ (.inr ⟨_, hz, rfl⟩)
    intro v hv
    rcases h v hv with rfl | ⟨x, hx, rfl⟩
    · exact .inl rfl
    · right; exact ⟨Real.log x, by simp only [ln, if_neg hx.not_gt, if_neg hx.ne']⟩

theorem foldl_sum (a : List ℝ) (z : ℝ) : a.foldl (· + ·) z = z + a.sum := by
  induction a generalizing z with
  | nil => simp
  | cons x a ih => rw [List.foldl_cons, ih, List.sum_cons, add_assoc]

theorem foldl_prod (a : List ℝ) (z : ℝ) : a.foldl (· * ·) z = z * a.prod := by
  induction a generalizing z with
  | nil => simp
  | cons x a ih => rw [List.foldl_cons, ih, List.prod_cons, mul_assoc]

theorem sum_between (a : List ℝ) (lo hi : ℝ) (h : ∀ x ∈ a, lo ≤ x ∧ x ≤ hi) :
    a.length * lo ≤ a.sum ∧ a.sum ≤ a.length * hi := by
  induction a with
  | nil => simp
  | cons x a ih =>
    obtain ⟨h1, h2⟩ := ih (fun y hy => h y (by simp [hy]))
    obtain ⟨h3, h4⟩ := h x (by simp)
    rw [List.sum_cons, List.length_cons]
    push_cast
    constructor <;> linarith

/-- `a.mean`: nan for an empty array; otherwise the number whose multiple by the length is the sum, and it is within the
bounds of the numbers. -/
theorem mean_spec (a : List ℝ) :
    (a = [] → mean a = .nan) ∧
    (a ≠ [] → ∃ m, mean a = .fin m ∧ (a.length : ℝ) * m = a.sum ∧
      ∀ lo hi, (∀ x ∈ a, lo ≤ x ∧ x ≤ hi) → lo ≤ m ∧ m ≤ hi) := by
  constructor
  · rintro rfl; rfl
  · intro ha
    have hl : a.length ≠ 0 := by simpa using ha
    have hp : (0 : ℝ) < a.length := by exact_mod_cast Nat.pos_of_ne_zero hl
    refine ⟨a.sum / a.length, ?_, by field_simp, ?_⟩
    · rw [mean, if_neg hl, foldl_sum, zero_add]
    · intro lo hi h
      obtain ⟨h1, h2⟩ := sum_between a lo hi h
      rw [le_div_iff₀ hp, div_le_iff₀ hp]
      constructor <;> linarith

/-- `a.geomean` of positive numbers: the number whose power by the length is the product, the exponential of the mean
logarithm, within the bounds of the numbers. -/
theorem geomean_spec_partial (a : List ℝ) (ha : a ≠ []) (h : ∀ x ∈ a, 0 < x) :
    ∃ g, geomean a = .real (.fin g) ∧ 0 < g ∧ g ^ a.length = a.prod ∧
      mean (a.map Real.log) = .fin (Real.log g) ∧
      ∀ lo hi, 0 < lo → (∀ x ∈ a, lo ≤ x ∧ x ≤ hi) → lo ≤ g ∧ g ≤ hi := by
  have hl : a.length ≠ 0 := by simpa using ha
  have hp : 0 < a.prod := List.prod_pos h
  have hn : (0 : ℝ) < a.length := by exact_mod_cast Nat.pos_of_ne_zero hl
  have hlog : ∀ b : List ℝ, (∀ x ∈ b, 0 < x) → (b.map Real.log).sum = Real.log b.prod := by
    intro b
    induction b with
    | nil => simp
    | cons x b ih =>
      intro hb
      have hx := hb x (by simp)
      have hp : 0 < b.prod := List.prod_pos (fun y hy => hb y (by simp [hy]))
      rw [List.map_cons, List.sum_cons, ih (fun y hy => hb y (by simp [hy])), List.prod_cons, Real.log_mul hx.ne' hp.ne']
  have hg : 0 < a.prod ^ (1 / (a.length : ℝ)) := Real.rpow_pos_of_pos hp _
  have hmean : mean (a.map Real.log) = .fin (Real.log (a.prod ^ (1 / (a.length : ℝ)))) := by
    rw [mean, List.length_map, if_neg hl, foldl_sum, zero_add, hlog a h, Real.log_rpow hp]
    congr 1; ring
  refine ⟨a.prod ^ (1 / (a.length : ℝ)), ?_, hg, ?_, hmean, ?_⟩
  · rw [geomean, if_neg hl, foldl_prod, one_mul, pyPow, if_neg (fun hc => absurd hc.1 hp.not_gt)]
  · rw [← Real.rpow_natCast, ← Real.rpow_mul hp.le]
    rw [one_div, inv_mul_cancel₀ hn.ne', Real.rpow_one]
  · intro lo hi hlo hb
    obtain ⟨x0, hx0⟩ := List.exists_mem_of_ne_nil a ha
    have hhi : 0 < hi := lt_of_lt_of_le hlo ((hb x0 hx0).1.trans (hb x0 hx0).2)
    obtain ⟨m, e, _, hbd⟩ := (mean_spec (a.map Real.log)).2 (by simpa using ha)
    rw [hmean] at e
    cases e
    obtain ⟨h1, h2⟩ := hbd (Real.log lo) (Real.log hi) (by
      intro y hy
      obtain ⟨x, hx, rfl⟩ := List.mem_map.1 hy
      exact ⟨Real.log_le_log hlo (hb x hx).1, Real.log_le_log (h x hx) (hb x hx).2⟩)
    exact ⟨(Real.log_le_log_iff hlo hg).1 h1, (Real.log_le_log_iff hg hhi).1 h2⟩

/-- A zero among the numbers. -/
theorem geomean_zero (a : List ℝ) (h : 0 ∈ a) : geomean a = .real (.fin 0) := by
  have ha : a ≠ [] := by rintro rfl; cases h
  have hl : a.length ≠ 0 := by simpa using ha
  have hn : (0 : ℝ) < a.length := by exact_mod_cast Nat.pos_of_ne_zero hl
  rw [geomean, if_neg hl, foldl_prod, one_mul, List.prod_eq_zero h, pyPow, if_neg (fun hc => absurd hc.1 (lt_irrefl _)),
    Real.zero_rpow (by positivity)]

/-- With a negative product of two or more numbers the result is a complex number, which is not of the declared type; with two
negative numbers the result is positive and so not within the bounds of the numbers. -/
theorem geomean_negative_violation :
    (∀ a : List ℝ, 2 ≤ a.length → a.prod < 0 → geomean a = .complex) ∧
    (∃ g, geomean [-2, -8] = .real (.fin g) ∧ 0 < g) := by
  constructor
  · intro a hl hp
    rw [geomean, if_neg (by omega), foldl_prod, one_mul, pyPow, if_pos]
    refine ⟨hp, ?_⟩
    intro n hn
    have h2 : (2 : ℝ) ≤ a.length := by exact_mod_cast hl
    have h0 : (0 : ℝ) < 1 / a.length := by positivity
    have h1 : (1 : ℝ) / a.length < 1 := by rw [div_lt_one (by linarith)]; linarith
    rw [hn] at h0 h1
    have : 0 < n := by exact_mod_cast h0
    have : n < 1 := by exact_mod_cast h1
    omega
  · refine ⟨(16 : ℝ) ^ (1 / (2 : ℝ)), ?_, Real.rpow_pos_of_pos (by norm_num) _⟩
    rw [geomean, if_neg (by simp), pyPow, if_neg]
    · norm_num
    · rintro ⟨h, _⟩; norm_num at h

/-! ## logsumexp -/

/-- The part of a double below plus infinity: minus infinity is the exponential zero. -/
noncomputable def expR : RNum → ℝ
  | .fin x => Real.exp x
  | _ => 0

/-- Numbers and minus infinity. -/
def Low (v : RNum) : Prop := v = .ninf ∨ ∃ x, v = .fin x

theorem pyMax_low (d : RNum) (l : List RNum) (hd : Low d) (hl : ∀ v ∈ l, Low v) :
    Low (pyMax d l) ∧ pyMax d l ∈ d :: l ∧ ∀ v ∈ d :: l, gt v (pyMax d l) = false := by
  induction l generalizing d with
  | nil =>
    refine ⟨hd, by simp [pyMax], ?_⟩
    intro v hv
    rw [List.mem_singleton] at hv
    subst hv
    rcases hd with rfl | ⟨x, rfl⟩ <;> simp [pyMax, gt]
  | cons x l ih =>
    have hx := hl x (by simp)
    have hlow : Low (if gt x d then x else d) := by split <;> assumption
    obtain ⟨h1, h2, h3⟩ := ih (if gt x d then x else d) hlow (fun v hv => hl v (by simp [hv]))
    have e : pyMax d (x :: l) = pyMax (if gt x d then x else d) l := rfl
    rw [e]
    generalize pyMax (if gt x d then x else d) l = m at *
    refine ⟨h1, ?_, ?_⟩
    · rcases List.mem_cons.1 h2 with h2 | h2
      · rw [h2]; split <;> simp
      · simp [h2]
    · have hb := h3 _ (List.mem_cons_self ..)
      have both : gt x m = false ∧ gt d m = false := by
        by_cases hg : gt x d = true
        · rw [if_pos hg] at hb
          refine ⟨hb, ?_⟩
          rcases hx with rfl | ⟨x, rfl⟩ <;> rcases hd with rfl | ⟨d, rfl⟩ <;> rcases h1 with rfl | ⟨m, rfl⟩ <;>
            simp_all [gt] <;> linarith
        · rw [if_neg hg] at hb
          refine ⟨?_, hb⟩
          rcases hx with rfl | ⟨x, rfl⟩ <;> rcases hd with rfl | ⟨d, rfl⟩ <;> rcases h1 with rfl | ⟨m, rfl⟩ <;>
            simp_all [gt] <;> linarith
      intro v hv
      rcases List.mem_cons.1 hv with rfl | hv
      · exact both.2
      · rcases List.mem_cons.1 hv with rfl | hv
        · exact both.1
        · exact h3 v (by simp [hv])

theorem sum_pos_of_mem (l : List ℝ) (h0 : ∀ x ∈ l, 0 ≤ x) (x : ℝ) (hx : x ∈ l) : x ≤ l.sum := List.single_le_sum h0 x hx

/-- `a.logsumexp` of numbers, some of them possibly minus infinity: the logarithm of the sum of the exponentials. -/
theorem logsumexp_spec_partial (a : List RNum) (h : ∀ v ∈ a, Low v) (hf : ∃ x, RNum.fin x ∈ a) :
    logsumexp a = .ok (.fin (Real.log (a.map expR).sum)) := by
  obtain ⟨x0, hx0⟩ := hf
  match a, h, hx0 with
  | d :: l, h, hx0 =>
    obtain ⟨h1, h2, h3⟩ := pyMax_low d l (h d (by simp)) (fun v hv => h v (by simp [hv]))
    have hm : ∃ m, pyMax d l = .fin m := by
      rcases h1 with e | e
      · have := h3 _ hx0
        rw [e] at this; cases this
      · exact e
    obtain ⟨m, hm⟩ := hm
    have hsum : (d :: l).foldl (fun res v => add res (exp (sub v (pyMax d l)))) (.fin 0) =
        .fin (0 + ((d :: l).map (fun v => expR v * Real.exp (-m))).sum) := by
      rw [hm]
      apply foldl_fin
      intro v hv
      rcases h v hv with rfl | ⟨x, rfl⟩
      · simp [sub, neg, add, exp, expR]
      · simp [sub, neg, add, exp, expR, ← Real.exp_add]
    have hpos : 0 < ((d :: l).map expR).sum := by
      refine lt_of_lt_of_le (Real.exp_pos x0) (sum_pos_of_mem _ ?_ _ (List.mem_map.2 ⟨_, hx0, rfl⟩))
      intro y hy
      obtain ⟨v, _, rfl⟩ := List.mem_map.1 hy
      cases v <;> simp [expR, Real.exp_nonneg]
    have hmul : ((d :: l).map (fun v => expR v * Real.exp (-m))).sum = ((d :: l).map expR).sum * Real.exp (-m) :=
      List.sum_map_mul_right ..
    rw [logsumexp]
    simp only [hsum]
    rw [hmul, zero_add, log, if_neg (not_le.2 (mul_pos hpos (Real.exp_pos _))), hm]
    show Except.ok (add (.fin _) (.fin m)) = _
    rw [Real.log_mul hpos.ne' (Real.exp_ne_zero _), Real.log_exp]
    simp [add]

/-- The result is at least every number and exceeds the greatest by at most the logarithm of the length. -/
theorem logsumexp_bounds (a : List ℝ) (ha : a ≠ []) :
    ∃ r, logsumexp (a.map .fin) = .ok (.fin r) ∧ (∀ x ∈ a, x ≤ r) ∧
      ∀ hi, (∀ x ∈ a, x ≤ hi) → r ≤ hi + Real.log a.length := by
  obtain ⟨x0, hx0⟩ := List.exists_mem_of_ne_nil a ha
  have e := logsumexp_spec_partial (a.map .fin) (by
    intro v hv; obtain ⟨x, _, rfl⟩ := List.mem_map.1 hv; exact .inr ⟨x, rfl⟩) ⟨x0, List.mem_map.2 ⟨x0, hx0, rfl⟩⟩
  rw [List.map_map] at e
  refine ⟨_, e, ?_, ?_⟩
  · intro x hx
    have : Real.exp x ≤ (a.map (expR ∘ RNum.fin)).sum := by
      apply sum_pos_of_mem
      · intro y hy; obtain ⟨z, _, rfl⟩ := List.mem_map.1 hy; exact Real.exp_nonneg z
      · exact List.mem_map.2 ⟨x, hx, rfl⟩
    have h2 := Real.log_le_log (Real.exp_pos x) this
    rwa [Real.log_exp] at h2
  · intro hi h
    have hn : (0 : ℝ) < a.length := by exact_mod_cast List.length_pos_iff.2 ha
    have hb := (sum_between (a.map (expR ∘ RNum.fin)) 0 (Real.exp hi) (by
      intro y hy; obtain ⟨z, hz, rfl⟩ := List.mem_map.1 hy
      exact ⟨Real.exp_nonneg z, Real.exp_le_exp.2 (h z hz)⟩)).2
    have hp : 0 < (a.map (expR ∘ RNum.fin)).sum := by
      refine lt_of_lt_of_le (Real.exp_pos x0) ?_
      apply sum_pos_of_mem
      · intro y hy; obtain ⟨z, _, rfl⟩ := List.mem_map.1 hy; exact Real.exp_nonneg z
      · exact List.mem_map.2 ⟨x0, hx0, rfl⟩
    have h2 := Real.log_le_log hp hb
    rw [List.length_map, Real.log_mul hn.ne' (Real.exp_ne_zero _), Real.log_exp] at h2
    linarith

theorem exp_sub_nan : exp (sub .nan x) = .nan := by simp [sub, nan_add, exp]

/-- Nan among the numbers gives nan, and so does an empty array. -/
theorem logsumexp_nan (a : List RNum) (h : a = [] ∨ .nan ∈ a) : logsumexp a = .ok .nan := by
  match a, h with
  | [], _ => rfl
  | d :: l, h =>
    have hn : RNum.nan ∈ d :: l := by simpa using h
    rw [logsumexp]
    rw [foldl_has_nan (fun v => exp (sub v (pyMax d l))) (d :: l) _ ⟨_, hn, exp_sub_nan⟩]
    show Except.ok (add .nan _) = _
    rw [nan_add]

theorem pyMax_pinf (d : RNum) (l : List RNum) (h : .pinf ∈ d :: l) (hn : RNum.nan ∉ d :: l) : pyMax d l = .pinf := by
  induction l generalizing d with
  | nil => rw [List.mem_singleton] at h; rw [← h]; rfl
  | cons x l ih =>
    have e : pyMax d (x :: l) = pyMax (if gt x d then x else d) l := rfl
    rw [e]
    apply ih
    · by_cases hl : RNum.pinf ∈ l
      · simp [hl]
      · simp only [List.mem_cons, hl, or_false] at h
        rw [List.mem_cons]; left
        rcases h with rfl | rfl
        · cases x <;> simp [gt]
        · cases d with
          | nan => simp at hn
          | fin y => simp [gt]
          | ninf => simp [gt]
          | pinf => simp [gt]
    · intro hc
      rcases List.mem_cons.1 hc with hc | hc
      · split at hc
        · exact hn (by rw [hc]; simp)
        · exact hn (by rw [hc]; simp)
      · exact hn (by simp [hc])

/-- Plus infinity among the numbers gives nan where the sum of the exponentials is infinite, and minus infinities alone give nan
where the logarithm of zero is minus infinity. -/
theorem logsumexp_infinity_violation :
    (∀ a : List RNum, .pinf ∈ a → logsumexp a = .ok .nan) ∧
    (∀ n : Nat, logsumexp (List.replicate (n + 1) .ninf) = .ok .nan) := by
  constructor
  · intro a h
    by_cases hn : RNum.nan ∈ a
    · exact logsumexp_nan a (.inr hn)
    · match a, h, hn with
      | d :: l, h, hn =>
        rw [logsumexp]
        simp only [pyMax_pinf d l h hn]
        rw [foldl_has_nan (fun v => exp (sub v .pinf)) (d :: l) _ ⟨_, h, rfl⟩]
        rfl
  · intro n
    have hm : pyMax .ninf (List.replicate n .ninf) = .ninf := by
      induction n with
      | zero => rfl
      | succ n ih => exact ih
    rw [List.replicate_succ, logsumexp]
    simp only [hm]
    rw [foldl_has_nan (fun v => exp (sub v .ninf)) (.ninf :: List.replicate n .ninf) _ ⟨.ninf, by simp, rfl⟩]
    rfl

/-- Adding a number to every element adds it to the result. -/
theorem logsumexp_shift (a : List ℝ) (ha : a ≠ []) (c r : ℝ) (h : logsumexp (a.map .fin) = .ok (.fin r)) :
    logsumexp ((a.map (· + c)).map .fin) = .ok (.fin (r + c)) := by
  obtain ⟨x0, hx0⟩ := List.exists_mem_of_ne_nil a ha
  have low : ∀ b : List ℝ, ∀ v ∈ b.map RNum.fin, Low v := by
    intro b v hv; obtain ⟨x, _, rfl⟩ := List.mem_map.1 hv; exact .inr ⟨x, rfl⟩
  rw [logsumexp_spec_partial _ (low a) ⟨x0, List.mem_map.2 ⟨x0, hx0, rfl⟩⟩] at h
  cases h
  rw [logsumexp_spec_partial _ (low _) ⟨x0 + c, List.mem_map.2 ⟨x0 + c, List.mem_map.2 ⟨x0, hx0, rfl⟩, rfl⟩⟩]
  have hp : 0 < ((a.map RNum.fin).map expR).sum := by
    refine lt_of_lt_of_le (Real.exp_pos x0) ?_
    apply sum_pos_of_mem
    · intro y hy; obtain ⟨v, hv, rfl⟩ := List.mem_map.1 hy; obtain ⟨x, _, rfl⟩ := List.mem_map.1 hv; exact Real.exp_nonneg x
    · exact List.mem_map.2 ⟨_, List.mem_map.2 ⟨x0, hx0, rfl⟩, rfl⟩
  have : (((a.map (· + c)).map RNum.fin).map expR).sum = ((a.map RNum.fin).map expR).sum * Real.exp c := by
    rw [← List.sum_map_mul_right]
    congr 1
    simp only [List.map_map]
    apply List.map_congr_left
    intro x _
    simp [expR, Real.exp_add]
  rw [this, Real.log_mul hp.ne' (Real.exp_ne_zero _), Real.log_exp]

/-- Examples of the hypotheses. -/
example : ∀ x ∈ ([1, 2, 4] : List ℝ), 0 < x := by intro x hx; simp at hx; rcases hx with rfl | rfl | rfl <;> norm_num
example : (∀ v ∈ [RNum.fin 1, .ninf], Low v) ∧ ∃ x, RNum.fin x ∈ [RNum.fin 1, .ninf] :=
  ⟨by intro v hv; simp at hv; rcases hv with rfl | rfl; exacts [.inr ⟨1, rfl⟩, .inl rfl], 1, by simp⟩
example : ([-1, 1] : List ℝ).prod < 0 := by norm_num

end Verif.Lib.LogSum
