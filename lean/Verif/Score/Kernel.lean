import Verif.Score.Link
import Verif.Lib.Eff
import Mathlib.Analysis.SpecialFunctions.Pow.Real
import Mathlib.Data.Matrix.Mul
import Mathlib.Data.List.OfFn
/-! # Kernels, support vectors and neural networks (`titus/lib/kernel.py`, `model/svm.py`, `model/neural.py`)

Doubles are real numbers, `math.exp` and `**` raise OverflowError at 2^1024 (see `Link`). -/

namespace Verif.Score
open Verif.Lib (Eff Chain)

variable {σ : Type}

/-! ## Model -/

/-- `z**2` of a double. -/
noncomputable def pySq (z : ℝ) : Res ℝ := if top ≤ z ^ 2 then .error (.py "OverflowError") else .ok (z ^ 2)

/-- `dot` (kernel.py 40-44). -/
noncomputable def dot (x y : List ℝ) (code : Int) : Res ℝ :=
  if x.length ≠ y.length then .error (.rt code) else .ok (List.zipWith (· * ·) x y).sum

/-- `m.kernel.linear` (65-66). -/
noncomputable def linear (x y : List ℝ) : Res ℝ := dot x y 23000

/-- `m.kernel.rbf` (53-57). -/
noncomputable def rbf (x y : List ℝ) (gamma : ℝ) : Res ℝ :=
  if x.length ≠ y.length then .error (.rt 23010)
  else do
    let diff ← evalAll (fun p : ℝ × ℝ => pySq |p.1 - p.2|) (x.zip y)
    pyExp (-gamma * diff.sum)

/-- A double that is not minus infinity. -/
inductive RNum
  | fin (r : ℝ)
  | inf
  | nan

open Classical in
/-- `powLikeJava` (core.py 150-190) of two real numbers; overflow of `math.pow` is not modelled. -/
noncomputable def powLike (x y : ℝ) : RNum :=
  if x = 0 ∧ y < 0 then .inf else if x < 0 ∧ ∀ n : ℤ, y ≠ n then .nan else .fin (x ^ y)

/-- `m.kernel.poly` (77-78). -/
noncomputable def poly (x y : List ℝ) (gamma intercept degree : ℝ) : Res RNum := do
  let d ← dot x y 23020
  .ok (powLike (gamma * d + intercept) degree)

/-- `m.kernel.sigmoid` (88-89). -/
noncomputable def sigmoidK (x y : List ℝ) (gamma intercept : ℝ) : Res ℝ := do
  let d ← dot x y 23030
  .ok (Real.tanh (gamma * d + intercept))

/-- A support vector (svm.py 45-46). -/
structure SV where
  supVec : List ℝ
  coeff : ℝ

/-- One of the loops of `model.svm.score` (svm.py 56-62, 63-69). -/
noncomputable def svLoop (datum : List ℝ) (kernel : List ℝ → List ℝ → Eff σ ℝ) : List SV → ℝ → Eff σ ℝ
  | [], acc => fun s => (.ok acc, s)
  | sv :: l, acc => fun s =>
    if sv.supVec.length ≠ datum.length then (.error (.rt 12001), s)
    else match kernel sv.supVec datum s with
      | (.error e, s') => (.error e, s')
      | (.ok k, s') => svLoop datum kernel l (acc + k * sv.coeff) s'

/-- `model.svm.score` (50-70). -/
noncomputable def svmScore (datum : List ℝ) (const : ℝ) (neg pos : List SV) (kernel : List ℝ → List ℝ → Eff σ ℝ) : Eff σ ℝ := fun s =>
  if neg.length = 0 ∧ pos.length = 0 then (.error (.rt 12000), s)
  else match svLoop datum kernel neg 0 s with
    | (.error e, s') => (.error e, s')
    | (.ok a, s') => match svLoop datum kernel pos 0 s' with
      | (.error e, s'') => (.error e, s'')
      | (.ok b, s'') => (.ok (a + b + const), s'')

/-- A layer (neural.py 47-48). -/
structure Layer where
  weights : List (List ℝ)
  bias : List ℝ

/-- `matrix_vector_mult` (39-40), where the rows are not longer than the vector. -/
noncomputable def matVec (a : List (List ℝ)) (b : List ℝ) : List ℝ := a.map fun row => (List.zipWith (· * ·) row b).sum

/-- The test of lines 59 and 66. -/
def misaligned (l : Layer) (datum : List ℝ) : Bool :=
  decide (l.bias.length ≠ l.weights.length) || l.weights.any fun x => decide (x.length ≠ datum.length)

/-- `[sum(y) for y in zip(matrix_vector_mult(weights, datum), bias)]` (61, 68). -/
noncomputable def affine (l : Layer) (datum : List ℝ) : List ℝ := List.zipWith (· + ·) (matVec l.weights datum) l.bias

/-- `[callfcn(state, scope, activation, [i]) for i in tmp]` (62). -/
def activate (act : ℝ → Eff σ ℝ) : List ℝ → Eff σ (List ℝ)
  | [] => fun s => (.ok [], s)
  | a :: l => fun s => match act a s with
    | (.error e, s') => (.error e, s')
    | (.ok b, s') => match activate act l s' with
      | (.error e, s'') => (.error e, s'')
      | (.ok bs, s'') => (.ok (b :: bs), s'')

/-- `model.neural.simpleLayers` (52-68): the loop over `model[:-1]` and the last layer. -/
noncomputable def simpleLayers (act : ℝ → Eff σ ℝ) : List Layer → List ℝ → Eff σ (List ℝ)
  | [], _ => fun s => (.error (.rt 11000), s)
  | [l], datum => fun s => if misaligned l datum then (.error (.rt 11001), s) else (.ok (affine l datum), s)
  | l :: l' :: rest, datum => fun s =>
    if misaligned l datum then (.error (.rt 11001), s)
    else match activate act (affine l datum) s with
      | (.error e, s') => (.error e, s')
      | (.ok out, s') => simpleLayers act (l' :: rest) out s'

/-! ## Kernels -/

theorem zipWith_ofFn {n : Nat} (f : ℝ → ℝ → ℝ) (x y : Fin n → ℝ) :
    List.zipWith f (List.ofFn x) (List.ofFn y) = List.ofFn fun i => f (x i) (y i) := by
  apply List.ext_getElem
  · simp
  · intro i h1 h2
    simp

/-- `m.kernel.linear` is the dot product. -/
theorem linear_spec {n : Nat} (x y : Fin n → ℝ) : linear (List.ofFn x) (List.ofFn y) = .ok (dotProduct x y) := by
  unfold linear dot
  rw [if_neg (by simp), zipWith_ofFn, List.sum_ofFn]
  rfl

theorem linear_symm (x y : List ℝ) : linear x y = linear y x := by
  unfold linear dot
  rw [List.zipWith_comm_of_comm mul_comm]
  by_cases h : x.length = y.length
  · rw [if_neg (by simpa using h), if_neg (by simpa using h.symm)]
  · rw [if_pos h, if_pos (Ne.symm h)]

/-- Wrong lengths, for each kernel. -/
theorem kernel_errors (x y : List ℝ) (h : x.length ≠ y.length) (gamma c d : ℝ) :
    linear x y = .error (.rt 23000) ∧ rbf x y gamma = .error (.rt 23010) ∧ poly x y gamma c d = .error (.rt 23020) ∧
      sigmoidK x y gamma c = .error (.rt 23030) := by
  refine ⟨?_, ?_, ?_, ?_⟩
  · unfold linear dot; rw [if_pos h]
  · unfold rbf; rw [if_pos h]
  · unfold poly dot; rw [if_pos h]; rfl
  · unfold sigmoidK dot; rw [if_pos h]; rfl

/-- `m.kernel.rbf` where nothing overflows. -/
theorem rbf_partial {n : Nat} (x y : Fin n → ℝ) (gamma : ℝ) (h1 : ∀ i, (x i - y i) ^ 2 < top)
    (h2 : Real.exp (-gamma * ∑ i, (x i - y i) ^ 2) < top) :
    rbf (List.ofFn x) (List.ofFn y) gamma = .ok (Real.exp (-gamma * ∑ i, (x i - y i) ^ 2)) := by
  unfold rbf
  rw [if_neg (by simp)]
  have hz : (List.ofFn x).zip (List.ofFn y) = List.ofFn fun i => (x i, y i) := by
    apply List.ext_getElem
    · simp
    · intro i _ _; simp
  rw [hz, evalAll_map _ (fun p : ℝ × ℝ => (p.1 - p.2) ^ 2)]
  · simp only [bind, Except.bind]
    rw [List.map_ofFn, List.sum_ofFn]
    exact pyExp_ok h2
  · intro p hp
    obtain ⟨i, rfl⟩ := List.mem_ofFn.1 hp
    unfold pySq
    rw [if_neg (by rw [sq_abs]; exact not_le.2 (h1 i)), sq_abs]

/-- A positive gamma cannot overflow the exponential. -/
theorem rbf_range {n : Nat} (x y : Fin n → ℝ) (gamma : ℝ) (hg : 0 < gamma) (h1 : ∀ i, (x i - y i) ^ 2 < top) :
    ∃ k, rbf (List.ofFn x) (List.ofFn y) gamma = .ok k ∧ rbf (List.ofFn y) (List.ofFn x) gamma = .ok k ∧ 0 < k ∧ k ≤ 1 ∧
      (k = 1 ↔ x = y) := by
  have hs : 0 ≤ ∑ i, (x i - y i) ^ 2 := Finset.sum_nonneg fun i _ => sq_nonneg _
  have hle : -gamma * ∑ i, (x i - y i) ^ 2 ≤ 0 := by nlinarith
  have e : ∀ i, (y i - x i) ^ 2 = (x i - y i) ^ 2 := fun i => by ring
  have h2 : Real.exp (-gamma * ∑ i, (x i - y i) ^ 2) < top := lt_of_le_of_lt (Real.exp_le_one_iff.2 hle) one_lt_top
  refine ⟨_, rbf_partial x y gamma h1 h2, ?_, Real.exp_pos _, Real.exp_le_one_iff.2 hle, ?_⟩
  · rw [rbf_partial y x gamma (fun i => by rw [e]; exact h1 i) (by simp only [e]; exact h2)]
    simp only [e]
  · rw [Real.exp_eq_one_iff]
    constructor
    · intro h
      have h0 : ∑ i, (x i - y i) ^ 2 = 0 := by
        rcases mul_eq_zero.1 h with h | h
        · linarith
        · exact h
      funext i
      have := (Finset.sum_eq_zero_iff_of_nonneg fun i _ => sq_nonneg (x i - y i)).1 h0 i (Finset.mem_univ i)
      have := pow_eq_zero_iff (two_ne_zero) |>.1 this
      linarith
    · rintro rfl
      simp

/-- A negative gamma and far coordinates raise a Python error. -/
theorem rbf_overflow_violation : rbf [0] [1] (-1024) = .error (.py "OverflowError") ∧
    rbf [0] [2 ^ 512] 1 = .error (.py "OverflowError") := by
  constructor
  · unfold rbf
    rw [if_neg (by simp)]
    have h1 : pySq |(0 : ℝ) - 1| = .ok 1 := by
      unfold pySq
      rw [if_neg]
      · norm_num
      · rw [not_le]; norm_num; exact one_lt_top
    simp only [List.zip_cons_cons, List.zip_nil_right, evalAll, bind, Except.bind]
    rw [h1]
    simp only [List.sum_cons, List.sum_nil]
    exact pyExp_raises (exp_big (by norm_num))
  · unfold rbf
    rw [if_neg (by simp)]
    have h1 : pySq |(0 : ℝ) - 2 ^ 512| = .error (.py "OverflowError") := by
      unfold pySq
      rw [if_pos]
      rw [sq_abs, zero_sub, neg_sq, ← pow_mul]
      exact le_refl _
    simp only [List.zip_cons_cons, List.zip_nil_right, evalAll, bind, Except.bind]
    rw [h1]

/-- `m.kernel.poly` for whole degrees. -/
theorem poly_spec {n : Nat} (x y : Fin n → ℝ) (gamma c : ℝ) (d : Nat) :
    poly (List.ofFn x) (List.ofFn y) gamma c d = .ok (.fin ((gamma * dotProduct x y + c) ^ d)) := by
  have h : dot (List.ofFn x) (List.ofFn y) 23020 = .ok (dotProduct x y) := by
    unfold dot
    rw [if_neg (by simp), zipWith_ofFn, List.sum_ofFn]
    rfl
  unfold poly
  rw [h]
  simp only [bind, Except.bind]
  unfold powLike
  rw [if_neg (by intro h; exact absurd h.2 (by simp)), if_neg (by intro h; exact h.2 d (by simp)), Real.rpow_natCast]

/-- Any degree: infinity, nan or the power. -/
theorem poly_cases {n : Nat} (x y : Fin n → ℝ) (gamma c d b : ℝ) (hb : gamma * dotProduct x y + c = b) :
    (b = 0 ∧ d < 0 → poly (List.ofFn x) (List.ofFn y) gamma c d = .ok .inf) ∧
    (b < 0 ∧ (∀ m : ℤ, d ≠ m) → poly (List.ofFn x) (List.ofFn y) gamma c d = .ok .nan) ∧
    (0 < b → poly (List.ofFn x) (List.ofFn y) gamma c d = .ok (.fin (b ^ d))) := by
  have h : dot (List.ofFn x) (List.ofFn y) 23020 = .ok (dotProduct x y) := by
    unfold dot
    rw [if_neg (by simp), zipWith_ofFn, List.sum_ofFn]
    rfl
  unfold poly
  rw [h]
  simp only [bind, Except.bind]
  rw [hb]
  unfold powLike
  refine ⟨?_, ?_, ?_⟩
  · intro h; rw [if_pos h]
  · intro h; rw [if_neg (by intro h'; linarith [h.1, h'.1]), if_pos h]
  · intro h; rw [if_neg (by intro h'; linarith [h'.1]), if_neg (by intro h'; linarith [h'.1])]

/-- `m.kernel.sigmoid`. -/
theorem sigmoidK_spec {n : Nat} (x y : Fin n → ℝ) (gamma c : ℝ) :
    sigmoidK (List.ofFn x) (List.ofFn y) gamma c = .ok (Real.tanh (gamma * dotProduct x y + c)) := by
  unfold sigmoidK dot
  rw [if_neg (by simp), zipWith_ofFn, List.sum_ofFn]
  rfl

/-- The linear kernel is positive semidefinite: `∑ c_i c_j k(x_i, x_j)` is not negative. -/
theorem linear_psd {n m : Nat} (x : Fin m → Fin n → ℝ) (c : Fin m → ℝ) (k : Fin m → Fin m → ℝ)
    (hk : ∀ i j, linear (List.ofFn (x i)) (List.ofFn (x j)) = .ok (k i j)) : 0 ≤ ∑ i, ∑ j, c i * c j * k i j := by
  have hk' : ∀ i j, k i j = dotProduct (x i) (x j) := by
    intro i j
    have := (hk i j).symm.trans (linear_spec (x i) (x j))
    injection this
  have e : ∑ i, ∑ j, c i * c j * k i j = ∑ l, (∑ i, c i * x i l) ^ 2 := by
    simp only [hk', dotProduct, Finset.mul_sum, sq, Finset.sum_mul]
    calc ∑ i, ∑ j, ∑ l, c i * c j * (x i l * x j l) = ∑ i, ∑ l, ∑ j, c i * c j * (x i l * x j l) :=
          Finset.sum_congr rfl fun j _ => Finset.sum_comm
      _ = ∑ l, ∑ i, ∑ j, c i * c j * (x i l * x j l) := Finset.sum_comm
      _ = _ := by
        apply Finset.sum_congr rfl
        intro l _
        apply Finset.sum_congr rfl
        intro i _
        apply Finset.sum_congr rfl
        intro j _
        ring
  rw [e]
  exact Finset.sum_nonneg fun l _ => sq_nonneg _

/-! ## Support vectors -/

theorem svLoop_chain (datum : List ℝ) (kernel : List ℝ → List ℝ → Eff σ ℝ) (l : List SV) (acc : ℝ) (s s' : σ)
    (hl : ∀ v ∈ l, v.supVec.length = datum.length) (tr : List (List ℝ × ℝ)) (h1 : tr.map Prod.fst = l.map SV.supVec)
    (h2 : Chain (fun v => kernel v datum) s tr s') :
    svLoop datum kernel l acc s = (.ok (acc + (List.zipWith (fun p v => p.2 * v.coeff) tr l).sum), s') := by
  induction l generalizing acc s tr with
  | nil =>
    simp at h1
    subst h1
    cases h2
    simp [svLoop]
  | cons v l ih =>
    cases h2 with
    | nil => simp at h1
    | cons hf hc =>
      simp only [List.map_cons, List.cons.injEq] at h1
      obtain ⟨rfl, h1⟩ := h1
      simp only [svLoop]
      rw [if_neg (by simpa using hl v (by simp)), hf]
      simp only
      rw [ih _ _ (fun w hw => hl w (by simp [hw])) _ h1 hc]
      simp [add_assoc]

/-- The score is the sum of kernel times coefficient over all support vectors, plus the constant. The kernel is called on the
negative class first, with the support vector as its first argument. -/
theorem svm_spec (datum : List ℝ) (const : ℝ) (neg pos : List SV) (kernel : List ℝ → List ℝ → Eff σ ℝ) (s s' : σ)
    (hne : neg ++ pos ≠ []) (hl : ∀ v ∈ neg ++ pos, v.supVec.length = datum.length) (tr : List (List ℝ × ℝ))
    (h1 : tr.map Prod.fst = (neg ++ pos).map SV.supVec) (h2 : Chain (fun v => kernel v datum) s tr s') :
    svmScore datum const neg pos kernel s = (.ok ((List.zipWith (fun p v => p.2 * v.coeff) tr (neg ++ pos)).sum + const), s') := by
  have split : ∀ (neg : List SV) (tr : List (List ℝ × ℝ)) (s : σ), tr.map Prod.fst = (neg ++ pos).map SV.supVec →
      Chain (fun v => kernel v datum) s tr s' → ∃ t1 t2 s1, tr = t1 ++ t2 ∧ t1.map Prod.fst = neg.map SV.supVec ∧
        t2.map Prod.fst = pos.map SV.supVec ∧ Chain (fun v => kernel v datum) s t1 s1 ∧ Chain (fun v => kernel v datum) s1 t2 s' := by
    intro neg
    induction neg with
    | nil => intro tr s h1 h2; exact ⟨[], tr, s, rfl, rfl, h1, .nil s, h2⟩
    | cons v neg ih =>
      intro tr s h1 h2
      cases h2 with
      | nil => simp at h1
      | cons hf hc =>
        simp only [List.cons_append, List.map_cons, List.cons.injEq] at h1
        obtain ⟨t1, t2, s1, e1, e2, e3, e4, e5⟩ := ih _ _ h1.2 hc
        subst e1
        exact ⟨_ :: t1, t2, s1, rfl, by simp [e2, h1.1], e3, .cons hf e4, e5⟩
  obtain ⟨t1, t2, s1, rfl, e2, e3, e4, e5⟩ := split neg tr s h1 h2
  unfold svmScore
  rw [if_neg (by
    rintro ⟨ha, hb⟩
    exact hne (by rw [List.length_eq_zero_iff.1 ha, List.length_eq_zero_iff.1 hb]; rfl))]
  rw [svLoop_chain datum kernel neg 0 s s1 (fun v hv => hl v (by simp [hv])) t1 e2 e4]
  simp only
  rw [svLoop_chain datum kernel pos 0 s1 s' (fun v hv => hl v (by simp [hv])) t2 e3 e5]
  simp only
  rw [List.zipWith_append (by simpa using congrArg List.length e2), List.sum_append]
  simp

theorem svLoop_raises (datum : List ℝ) (kernel : List ℝ → List ℝ → Eff σ ℝ) (pre : List SV) (v : SV) (post : List SV) (acc : ℝ)
    (s s1 : σ) (tr : List (List ℝ × ℝ)) (hl : ∀ v ∈ pre, v.supVec.length = datum.length) (h1 : tr.map Prod.fst = pre.map SV.supVec)
    (h2 : Chain (fun v => kernel v datum) s tr s1) :
    (v.supVec.length ≠ datum.length → svLoop datum kernel (pre ++ v :: post) acc s = (.error (.rt 12001), s1)) ∧
    (∀ e s2, v.supVec.length = datum.length → kernel v.supVec datum s1 = (.error e, s2) →
      svLoop datum kernel (pre ++ v :: post) acc s = (.error e, s2)) := by
  induction pre generalizing acc s tr with
  | nil =>
    simp at h1
    subst h1
    cases h2
    refine ⟨?_, ?_⟩
    · intro h
      simp only [List.nil_append, svLoop]
      rw [if_pos h]
    · intro e s2 h hk
      simp only [List.nil_append, svLoop]
      rw [if_neg (by simpa using h), hk]
  | cons w pre ih =>
    cases h2 with
    | nil => simp at h1
    | cons hf hc =>
      simp only [List.map_cons, List.cons.injEq] at h1
      obtain ⟨rfl, h1⟩ := h1
      simp only [List.cons_append, svLoop]
      rw [if_neg (by simpa using hl w (by simp)), hf]
      exact ih _ _ _ (fun w hw => hl w (by simp [hw])) h1 hc

/-- What is raised: no support vectors; otherwise the first support vector of the wrong length or the first call that raises. -/
theorem svm_errors (datum : List ℝ) (const : ℝ) (kernel : List ℝ → List ℝ → Eff σ ℝ) (s : σ) :
    svmScore datum const [] [] kernel s = (.error (.rt 12000), s) ∧
    ∀ (pre : List SV) (v : SV) (post rest : List SV) (s1 : σ) (tr : List (List ℝ × ℝ)),
      (∀ v ∈ pre, v.supVec.length = datum.length) → tr.map Prod.fst = pre.map SV.supVec →
      Chain (fun v => kernel v datum) s tr s1 →
      (v.supVec.length ≠ datum.length →
        svmScore datum const (pre ++ v :: post) rest kernel s = (.error (.rt 12001), s1) ∧
        svmScore datum const [] (pre ++ v :: post) kernel s = (.error (.rt 12001), s1)) ∧
      (∀ e s2, v.supVec.length = datum.length → kernel v.supVec datum s1 = (.error e, s2) →
        svmScore datum const (pre ++ v :: post) rest kernel s = (.error e, s2) ∧
        svmScore datum const [] (pre ++ v :: post) kernel s = (.error e, s2)) := by
  refine ⟨rfl, ?_⟩
  intro pre v post rest s1 tr hl h1 h2
  have hr := svLoop_raises datum kernel pre v post 0 s s1 tr hl h1 h2
  refine ⟨?_, ?_⟩
  · intro h
    constructor
    · unfold svmScore
      rw [if_neg (by simp), hr.1 h]
    · unfold svmScore
      rw [if_neg (by simp)]
      simp only [svLoop]
      rw [hr.1 h]
  · intro e s2 h hk
    constructor
    · unfold svmScore
      rw [if_neg (by simp), hr.2 e s2 h hk]
    · unfold svmScore
      rw [if_neg (by simp)]
      simp only [svLoop]
      rw [hr.2 e s2 h hk]

/-- With the linear kernel the score is an affine function of the datum. -/
theorem svm_linear {n : Nat} (x : Fin n → ℝ) (const : ℝ) (neg pos : List ((Fin n → ℝ) × ℝ)) (s : σ) (hne : neg ++ pos ≠ []) :
    svmScore (List.ofFn x) const (neg.map fun p => ⟨List.ofFn p.1, p.2⟩) (pos.map fun p => ⟨List.ofFn p.1, p.2⟩)
        (fun a b s => (linear a b, s)) s =
      (.ok (dotProduct ((neg ++ pos).map fun p => p.2 • p.1).sum x + const), s) := by
  have hch : ∀ l : List ((Fin n → ℝ) × ℝ), Chain (fun v s => (linear v (List.ofFn x), s)) s
      (l.map fun p => (List.ofFn p.1, dotProduct p.1 x)) s := by
    intro l
    induction l with
    | nil => exact .nil s
    | cons p l ih => exact .cons (by rw [linear_spec]) ih
  rw [svm_spec (List.ofFn x) const _ _ _ s s (by simpa using hne) (by
      intro v hv
      rw [← List.map_append] at hv
      obtain ⟨p, _, rfl⟩ := List.mem_map.1 hv
      simp) ((neg ++ pos).map fun p => (List.ofFn p.1, dotProduct p.1 x)) (by
      rw [← List.map_append, List.map_map, List.map_map]; rfl) (hch _)]
  congr 3
  rw [← List.map_append, List.zipWith_map, List.zipWith_self]
  clear hne
  induction neg ++ pos with
  | nil => simp
  | cons p l ih =>
    simp only [List.map_cons, List.sum_cons, add_dotProduct, smul_dotProduct, ih, smul_eq_mul]
    ring

example : [((fun _ => 1 : Fin 2 → ℝ), (1 : ℝ))] ++ [] ≠ [] := by simp

/-! ## Neural networks -/

/-- A network as matrices: the specification. -/
inductive Net : Nat → Nat → Type
  | last {n m : Nat} (W : Matrix (Fin m) (Fin n) ℝ) (b : Fin m → ℝ) : Net n m
  | layer {n m k : Nat} (W : Matrix (Fin m) (Fin n) ℝ) (b : Fin m → ℝ) (rest : Net m k) : Net n k

/-- The layers as the engine stores them. -/
noncomputable def Net.store : {n k : Nat} → Net n k → List Layer
  | _, _, .last W b => [⟨List.ofFn fun i => List.ofFn (W i), List.ofFn b⟩]
  | _, _, .layer W b rest => ⟨List.ofFn fun i => List.ofFn (W i), List.ofFn b⟩ :: rest.store

/-- What the network computes: `W x + b` in each layer, the activation between the layers, called in order. -/
inductive NetRun (act : ℝ → Eff σ ℝ) : {n k : Nat} → Net n k → (Fin n → ℝ) → σ → (Fin k → ℝ) → σ → Prop
  | last {n m : Nat} (W : Matrix (Fin m) (Fin n) ℝ) (b : Fin m → ℝ) (x : Fin n → ℝ) (s : σ) :
      NetRun act (.last W b) x s (W.mulVec x + b) s
  | layer {n m k : Nat} (W : Matrix (Fin m) (Fin n) ℝ) (b : Fin m → ℝ) (rest : Net m k) (x : Fin n → ℝ) (h : Fin m → ℝ)
      (y : Fin k → ℝ) (s s1 s2 : σ) : Chain act s (List.ofFn fun i => ((W.mulVec x + b) i, h i)) s1 →
      NetRun act rest h s1 y s2 → NetRun act (.layer W b rest) x s y s2

/-- Without effects. -/
noncomputable def Net.eval (act : ℝ → ℝ) : {n k : Nat} → Net n k → (Fin n → ℝ) → (Fin k → ℝ)
  | _, _, .last W b, x => W.mulVec x + b
  | _, _, .layer W b rest, x => rest.eval act fun i => act ((W.mulVec x + b) i)

theorem affine_spec {n m : Nat} (W : Matrix (Fin m) (Fin n) ℝ) (b : Fin m → ℝ) (x : Fin n → ℝ) :
    misaligned ⟨List.ofFn fun i => List.ofFn (W i), List.ofFn b⟩ (List.ofFn x) = false ∧
      affine ⟨List.ofFn fun i => List.ofFn (W i), List.ofFn b⟩ (List.ofFn x) = List.ofFn (W.mulVec x + b) := by
  constructor
  · simp [misaligned, List.any_eq_false, List.mem_ofFn]
  · unfold affine matVec
    rw [List.map_ofFn, zipWith_ofFn]
    congr 1
    funext i
    simp only [Function.comp_def, Pi.add_apply]
    rw [zipWith_ofFn, List.sum_ofFn]
    rfl

theorem activate_chain (act : ℝ → Eff σ ℝ) (s s' : σ) (tr : List (ℝ × ℝ)) (h : Chain act s tr s') :
    activate act (tr.map Prod.fst) s = (.ok (tr.map Prod.snd), s') := by
  induction h with
  | nil s => rfl
  | cons hf _ ih =>
    simp only [List.map_cons, activate]
    rw [hf]
    simp only
    rw [ih]

/-- A stored network computes what it should. -/
theorem neural_spec (act : ℝ → Eff σ ℝ) {n k : Nat} (net : Net n k) (x : Fin n → ℝ) (y : Fin k → ℝ) (s s' : σ)
    (h : NetRun act net x s y s') : simpleLayers act net.store (List.ofFn x) s = (.ok (List.ofFn y), s') := by
  induction h with
  | last W b x s =>
    have := affine_spec W b x
    simp only [Net.store, simpleLayers]
    rw [this.1, this.2]
    rfl
  | layer W b rest x h y s s1 s2 hc _ ih =>
    have ha := affine_spec W b x
    have hst : ∃ l ls, rest.store = l :: ls := by
      cases rest with
      | last W b => exact ⟨_, _, rfl⟩
      | layer W b r => exact ⟨_, _, rfl⟩
    obtain ⟨l, ls, hls⟩ := hst
    simp only [Net.store]
    rw [hls]
    simp only [simpleLayers]
    rw [ha.1, ha.2, if_neg (by simp)]
    have := activate_chain act s s1 _ hc
    rw [List.map_ofFn, List.map_ofFn] at this
    have e : List.ofFn (W.mulVec x + b) = List.ofFn (Prod.fst ∘ fun i => ((W.mulVec x + b) i, h i)) := rfl
    rw [e, this]
    simp only
    rw [← hls]
    exact ih

theorem neural_pure (act : ℝ → ℝ) {n k : Nat} (net : Net n k) (x : Fin n → ℝ) (s : σ) :
    simpleLayers (fun a => Lib.ret (act a)) net.store (List.ofFn x) s = (.ok (List.ofFn (net.eval act x)), s) := by
  apply neural_spec
  induction net with
  | last W b => exact .last W b x s
  | layer W b rest ih =>
    refine .layer W b rest x (fun i => act ((W.mulVec x + b) i)) _ s s s ?_ (ih _)
    have := Lib.chain_pure act (List.ofFn (W.mulVec x + b)) s
    rw [List.map_ofFn] at this
    exact this

/-- Layers that fit a datum of `n` entries. -/
def Aligned : Nat → List Layer → Prop
  | _, [] => True
  | n, l :: ls => l.bias.length = l.weights.length ∧ (∀ r ∈ l.weights, r.length = n) ∧ Aligned l.weights.length ls

theorem misaligned_iff (l : Layer) (x : List ℝ) :
    misaligned l x = false ↔ l.bias.length = l.weights.length ∧ ∀ r ∈ l.weights, r.length = x.length := by
  simp [misaligned, List.any_eq_false]

/-- With an activation that does not raise: no layers, misaligned layers, or a result as long as the last layer. -/
theorem neural_errors (act : ℝ → ℝ) (ls : List Layer) (x : List ℝ) (s : σ) :
    (ls = [] → simpleLayers (fun a => Lib.ret (act a)) ls x s = (.error (.rt 11000), s)) ∧
    (ls ≠ [] → ¬ Aligned x.length ls → simpleLayers (fun a => Lib.ret (act a)) ls x s = (.error (.rt 11001), s)) ∧
    (∀ h : ls ≠ [], Aligned x.length ls → ∃ y, simpleLayers (fun a => Lib.ret (act a)) ls x s = (.ok y, s) ∧
      y.length = (ls.getLast h).weights.length) := by
  refine ⟨by rintro rfl; rfl, ?_⟩
  have hact : ∀ l : List ℝ, activate (fun a => Lib.ret (act a)) l s = (.ok (l.map act), s) := by
    intro l
    have := activate_chain _ s s _ (Lib.chain_pure act l s)
    simpa [Function.comp_def] using this
  induction ls generalizing x with
  | nil => exact ⟨fun h => absurd rfl h, fun h => absurd rfl h⟩
  | cons l ls ih =>
    have hlen : misaligned l x = false → (affine l x).length = l.weights.length := by
      intro h
      have := (misaligned_iff l x).1 h
      simp [affine, matVec, this.1]
    by_cases hm : misaligned l x = true
    · have hna : ¬ Aligned x.length (l :: ls) := by
        intro h
        have := (misaligned_iff l x).2 ⟨h.1, h.2.1⟩
        rw [this] at hm
        exact absurd hm (by simp)
      refine ⟨fun _ _ => ?_, fun _ h => absurd h hna⟩
      cases ls with
      | nil => simp only [simpleLayers]; rw [if_pos hm]
      | cons l' ls => simp only [simpleLayers]; rw [if_pos hm]
    · have hm' : misaligned l x = false := by simpa using hm
      have hal := (misaligned_iff l x).1 hm'
      cases ls with
      | nil =>
        refine ⟨fun _ h => absurd (show Aligned x.length [l] from ⟨hal.1, hal.2, trivial⟩) h, fun _ _ => ⟨affine l x, ?_, hlen hm'⟩⟩
        simp only [simpleLayers]
        rw [if_neg hm]
      | cons l' ls =>
        have key := ih ((affine l x).map act)
        rw [List.length_map, hlen hm'] at key
        have e : simpleLayers (fun a => Lib.ret (act a)) (l :: l' :: ls) x s =
            simpleLayers (fun a => Lib.ret (act a)) (l' :: ls) ((affine l x).map act) s := by
          conv_lhs => simp only [simpleLayers]
          rw [if_neg hm, hact]
        rw [e]
        refine ⟨fun _ h => key.1 (by simp) fun h' => h ⟨hal.1, hal.2, h'⟩, ?_⟩
        intro _ h
        obtain ⟨y, h1, h2⟩ := key.2 (by simp) h.2.2
        exact ⟨y, h1, by simpa using h2⟩

/-- Two layers that fit and one that does not. -/
example : Aligned 2 [⟨[[1, 2], [3, 4], [5, 6]], [0, 0, 0]⟩, ⟨[[1, 1, 1]], [2]⟩] ∧ ¬ Aligned 1 [⟨[[1, 2]], [0]⟩] := by
  simp [Aligned]

end Verif.Score
