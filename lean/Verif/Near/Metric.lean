import Verif.Near.Pick
import Mathlib.Analysis.InnerProductSpace.PiL2
import Mathlib.Analysis.Normed.Lp.PiLp
import Mathlib.Analysis.SpecialFunctions.Pow.Real
import Mathlib.Analysis.SpecialFunctions.Log.Basic
/-! # Metrics (`titus/lib/metric.py`)

Doubles are real numbers here, with one extra value: `none` is nan. Similarities are arbitrary computations that return numbers.
The specification uses Mathlib's distances on `Fin n → ℝ`. -/

namespace Verif.Near
open Verif.Stat (Num dbl)
open Verif.Lib (Eff Chain)

variable {σ A B : Type}

/-! ## Model -/

/-- `math.sqrt`: nan remains, negative numbers raise. -/
noncomputable def pySqrt : Option ℝ → Res (Option ℝ)
  | none => .ok none
  | some x => if x < 0 then .error (.py "ValueError") else .ok (some (Real.sqrt x))

open Classical in
/-- `powLikeJava` (core.py 150-181) for a positive exponent and numbers. -/
noncomputable def powJ (x y : ℝ) : Option ℝ := if x < 0 ∧ ∀ n : ℤ, y ≠ n then none else some (x ^ y)

/-- `metric.simpleEuclidean` (metric.py 44-47). -/
noncomputable def simpleEuclidean (x y : List ℝ) : Res (Option ℝ) :=
  if x.length ≠ y.length then .error (.rt 28000)
  else pySqrt (some (List.zipWith (fun a b => (a - b) ^ 2) x y).sum)

/-- `metric.absDiff` (50-56). -/
def absDiff (x y : ℝ) : ℝ := |x - y|

/-- `math.exp(div(n, d))`; `div` as in util.py 84-105. -/
noncomputable def expDiv (n d : ℝ) : Option ℝ :=
  if d = 0 then (if 0 < n then none else if n < 0 then some 0 else none) else some (Real.exp (n / d))

/-- `metric.gaussianSimilarity` (62-63). For `sigma = 0` and different values `div` is minus infinity and `exp` is 0; a positive
numerator does not occur. -/
noncomputable def gaussianSimilarity (x y sigma : ℝ) : Option ℝ := expDiv (-Real.log 2 * (x - y) ^ 2) (sigma ^ 2)

/-- `tally`, `numer` and `denom`. -/
structure Acc where
  tally : Option ℝ
  numer : ℝ
  denom : ℝ

/-- The loop (75-85; 159-173 and 179-189 in `Minkowski`); `inc` is `increment`. The two `isinstance` branches take the value out of a
tagged union, here `some`. -/
noncomputable def metricLoop (sim : A → B → Eff σ ℝ) (inc : ℝ → ℝ → Option ℝ) : Acc → List ((Option A × Option B) × ℝ) → Eff σ Acc
  | acc, [] => fun s => (.ok acc, s)
  | acc, ((some a, some b), w) :: l => fun s =>
    match sim a b s with
    | (.error e, s') => (.error e, s')
    | (.ok z, s') => metricLoop sim inc ⟨acc.tally.bind (inc · z), acc.numer + w, acc.denom + w⟩ l s'
  | acc, (_, w) :: l => metricLoop sim inc ⟨acc.tally, acc.numer + w, acc.denom⟩ l

/-- `if denom == 0.0: ... nan ... else: ... tally * numer / denom` (86-90). -/
noncomputable def Acc.value (a : Acc) : Option ℝ := if a.denom = 0 then none else a.tally.map (· * a.numer / a.denom)

/-- `missingWeight` (68-70). -/
def weightsOr (n : Nat) (w : Option (List ℝ)) : List ℝ := w.getD (List.replicate n 1)

/-- `MetricWithMissingValues` (67-90). -/
noncomputable def withMissing (code : Int) (inc : ℝ → ℝ → Option ℝ) (fin : Option ℝ → Res (Option ℝ)) (sim : A → B → Eff σ ℝ)
    (x : List (Option A)) (y : List (Option B)) (mw : Option (List ℝ)) : Eff σ (Option ℝ) := fun s =>
  let w := weightsOr x.length mw
  if y.length ≠ x.length ∨ w.length ≠ x.length then (.error (.rt code), s)
  else match metricLoop sim inc ⟨some 0, 0, 0⟩ ((x.zip y).zip w) s with
    | (.error e, s') => (.error e, s')
    | (.ok acc, s') => (fin acc.value, s')

/-- `metric.euclidean` (92-103). -/
noncomputable def euclidean (sim : A → B → Eff σ ℝ) := withMissing 28030 (fun t z => some (t + z ^ 2)) pySqrt sim
/-- `metric.squaredEuclidean` (105-116). -/
noncomputable def squaredEuclidean (sim : A → B → Eff σ ℝ) := withMissing 28040 (fun t z => some (t + z ^ 2)) .ok sim
/-- `metric.chebyshev` (118-129). -/
noncomputable def chebyshev (sim : A → B → Eff σ ℝ) := withMissing 28050 (fun t z => some (max t z)) .ok sim
/-- `metric.taxicab` (131-142). -/
noncomputable def taxicab (sim : A → B → Eff σ ℝ) := withMissing 28060 (fun t z => some (t + z)) .ok sim

/-- The parameter of `metric.minkowski`. -/
inductive Param
  | num (p : ℝ)
  | pinf
  | ninf
  | nan

/-- `metric.minkowski` (151-195). -/
noncomputable def minkowski (sim : A → B → Eff σ ℝ) (x : List (Option A)) (y : List (Option B)) (p : Param) (mw : Option (List ℝ)) :
    Eff σ (Option ℝ) := fun s =>
  let w := weightsOr x.length mw
  if y.length ≠ x.length ∨ w.length ≠ x.length then (.error (.rt 28070), s)
  else match p with
    | .nan => (.error (.rt 28071), s)
    | .ninf => (.error (.rt 28071), s)
    | .pinf =>
      match metricLoop sim (fun t z => if z > t then some z else some t) ⟨some 0, 0, 0⟩ ((x.zip y).zip w) s with
      | (.error e, s') => (.error e, s')
      | (.ok acc, s') => (.ok acc.value, s')
    | .num p =>
      if p ≤ 0 then (.error (.rt 28071), s)
      else match metricLoop sim (fun t z => (powJ z p).map (t + ·)) ⟨some 0, 0, 0⟩ ((x.zip y).zip w) s with
        | (.error e, s') => (.error e, s')
        | (.ok acc, s') => (.ok (acc.value.bind (powJ · (1 / p))), s')

/-- `countPairs` (199-209): a00, a01, a10, a11. -/
def countPairs (x y : List Bool) : Nat × Nat × Nat × Nat :=
  (x.zip y).foldl (fun (a : Nat × Nat × Nat × Nat) p =>
    let a := if p.1 && p.2 then (a.1, a.2.1, a.2.2.1, a.2.2.2 + 1) else a
    let a := if p.1 && !p.2 then (a.1, a.2.1, a.2.2.1 + 1, a.2.2.2) else a
    let a := if !p.1 && p.2 then (a.1, a.2.1 + 1, a.2.2.1, a.2.2.2) else a
    if !p.1 && !p.2 then (a.1 + 1, a.2.1, a.2.2.1, a.2.2.2) else a) (0, 0, 0, 0)

/-- `div` of two counts. -/
def ratio (r : ℚ → Num) (n d : Nat) : Num := Num.div r (.fin n) (.fin d)

/-- `metric.simpleMatching` (215-220). -/
def simpleMatching (r : ℚ → Num) (x y : List Bool) : Res Num :=
  if y.length ≠ x.length then .error (.rt 28080)
  else let (a00, a01, a10, a11) := countPairs x y
    .ok (ratio r (a11 + a00) (a11 + a10 + a01 + a00))

/-- `metric.jaccard` (227-232). -/
def jaccard (r : ℚ → Num) (x y : List Bool) : Res Num :=
  if y.length ≠ x.length then .error (.rt 28090)
  else let (_, a01, a10, a11) := countPairs x y
    .ok (ratio r a11 (a11 + a10 + a01))

/-- `metric.tanimoto` (239-244). -/
def tanimoto (r : ℚ → Num) (x y : List Bool) : Res Num :=
  if y.length ≠ x.length then .error (.rt 28100)
  else let (a00, a01, a10, a11) := countPairs x y
    .ok (ratio r (a11 + a00) (a11 + 2 * (a10 + a01) + a00))

/-- `c11*a11 + c10*a10 + c01*a01 + c00*a00`. -/
def weigh (r : ℚ → Num) (c00 c01 c10 c11 : Num) (a : Nat × Nat × Nat × Nat) : Num :=
  Num.add r (Num.add r (Num.add r (Num.mul r c11 (.fin a.2.2.2)) (Num.mul r c10 (.fin a.2.2.1))) (Num.mul r c01 (.fin a.2.1)))
    (Num.mul r c00 (.fin a.1))

/-- `metric.binarySimilarity` (251-256). -/
def binarySimilarity (r : ℚ → Num) (x y : List Bool) (c00 c01 c10 c11 d00 d01 d10 d11 : Num) : Res Num :=
  if y.length ≠ x.length then .error (.rt 28110)
  else .ok (Num.div r (weigh r c00 c01 c10 c11 (countPairs x y)) (weigh r d00 d01 d10 d11 (countPairs x y)))

/-! ## Sums over the present entries -/

/-- The entries present on both sides. -/
def present : List ((Option A × Option B) × ℝ) → List ((A × B) × ℝ)
  | [] => []
  | ((some a, some b), w) :: l => ((a, b), w) :: present l
  | _ :: l => present l

/-- The loop calls the similarity on the present entries, in order. -/
theorem metricLoop_chain (sim : A → B → Eff σ ℝ) (inc : ℝ → ℝ → Option ℝ) (l : List ((Option A × Option B) × ℝ)) (acc : Acc)
    (s s' : σ) (tr : List ((A × B) × ℝ)) (h1 : tr.map Prod.fst = (present l).map Prod.fst)
    (h2 : Chain (fun p : A × B => sim p.1 p.2) s tr s') :
    metricLoop sim inc acc l s = (.ok ⟨tr.foldl (fun t p => t.bind (inc · p.2)) acc.tally, acc.numer + (l.map Prod.snd).sum,
      acc.denom + ((present l).map Prod.snd).sum⟩, s') := by
  induction l generalizing acc s tr with
  | nil =>
    simp [present] at h1
    subst h1
    cases h2
    simp [metricLoop, present]
  | cons a l ih =>
    obtain ⟨⟨oa, ob⟩, w⟩ := a
    have skip : present (((oa, ob), w) :: l) = present l →
        (∀ acc s, metricLoop sim inc acc (((oa, ob), w) :: l) s = metricLoop sim inc ⟨acc.tally, acc.numer + w, acc.denom⟩ l s) →
        metricLoop sim inc acc (((oa, ob), w) :: l) s = (.ok ⟨tr.foldl (fun t p => t.bind (inc · p.2)) acc.tally,
          acc.numer + ((((oa, ob), w) :: l).map Prod.snd).sum,
          acc.denom + ((present (((oa, ob), w) :: l)).map Prod.snd).sum⟩, s') := by
      intro e1 e2
      rw [e1] at h1 ⊢
      rw [e2, ih _ _ _ h1 h2]
      simp [add_assoc]
    cases oa with
    | none => exact skip rfl (fun _ _ => rfl)
    | some a =>
      cases ob with
      | none => exact skip rfl (fun _ _ => rfl)
      | some b =>
        simp only [present, List.map_cons] at h1 ⊢
        cases h2 with
        | nil => simp at h1
        | cons hf hc =>
          simp only [List.map_cons, List.cons.injEq] at h1
          obtain ⟨rfl, h1⟩ := h1
          simp only [metricLoop]
          rw [hf]
          simp only
          rw [ih _ _ _ h1 hc]
          simp [add_assoc]

/-- A similarity that raises. -/
theorem metricLoop_raises (sim : A → B → Eff σ ℝ) (inc : ℝ → ℝ → Option ℝ) (l : List ((Option A × Option B) × ℝ)) (acc : Acc)
    (s s1 s' : σ) (e : Err) (tr : List ((A × B) × ℝ)) (p : A × B) (rest : List (A × B))
    (h1 : (present l).map Prod.fst = tr.map Prod.fst ++ p :: rest)
    (h2 : Chain (fun p : A × B => sim p.1 p.2) s tr s1) (h3 : sim p.1 p.2 s1 = (.error e, s')) :
    metricLoop sim inc acc l s = (.error e, s') := by
  induction l generalizing acc s tr with
  | nil => simp [present] at h1
  | cons a l ih =>
    obtain ⟨⟨oa, ob⟩, w⟩ := a
    cases oa with
    | none => exact ih _ _ _ h1 h2
    | some a =>
      cases ob with
      | none => exact ih _ _ _ h1 h2
      | some b =>
        simp only [present, List.map_cons] at h1
        cases h2 with
        | nil =>
          simp only [List.map_nil, List.nil_append, List.cons.injEq] at h1
          obtain ⟨rfl, _⟩ := h1
          simp only [metricLoop]
          rw [h3]
        | cons hf hc =>
          simp only [List.map_cons, List.cons_append, List.cons.injEq] at h1
          obtain ⟨rfl, h1⟩ := h1
          simp only [metricLoop]
          rw [hf]
          exact ih _ _ _ h1 hc

theorem fold_add (g : ℝ → ℝ) (tr : List ((A × B) × ℝ)) (t : ℝ) :
    tr.foldl (fun (t : Option ℝ) p => t.bind fun x => some (x + g p.2)) (some t) = some (t + (tr.map fun p => g p.2).sum) := by
  induction tr generalizing t with
  | nil => simp
  | cons p tr ih => simp [ih, add_assoc]

theorem fold_max (tr : List ((A × B) × ℝ)) (t : ℝ) :
    tr.foldl (fun (t : Option ℝ) p => t.bind fun x => some (max x p.2)) (some t) = some ((tr.map Prod.snd).foldl max t) := by
  induction tr generalizing t with
  | nil => simp
  | cons p tr ih => simp [ih]

/-! ## The metrics with missing values -/

/-- The calls made on the present entries, with the weights. -/
structure Calls (sim : A → B → Eff σ ℝ) (x : List (Option A)) (y : List (Option B)) (w : List ℝ) (s : σ) (tr : List ((A × B) × ℝ))
    (s' : σ) : Prop where
  leny : y.length = x.length
  lenw : w.length = x.length
  args : tr.map Prod.fst = (present ((x.zip y).zip w)).map Prod.fst
  chain : Chain (fun p : A × B => sim p.1 p.2) s tr s'

/-- The sum of the weights of the present entries. -/
def presentWeight (x : List (Option A)) (y : List (Option B)) (w : List ℝ) : ℝ := ((present ((x.zip y).zip w)).map Prod.snd).sum

theorem withMissing_eq (code : Int) (inc : ℝ → ℝ → Option ℝ) (fin : Option ℝ → Res (Option ℝ)) (sim : A → B → Eff σ ℝ)
    (x : List (Option A)) (y : List (Option B)) (w : List ℝ) (s s' : σ) (tr : List ((A × B) × ℝ)) (h : Calls sim x y w s tr s') :
    withMissing code inc fin sim x y (some w) s =
      (fin (Acc.value ⟨tr.foldl (fun t p => t.bind (inc · p.2)) (some 0), w.sum, presentWeight x y w⟩), s') := by
  unfold withMissing weightsOr
  simp only [Option.getD_some]
  rw [if_neg (by rw [h.leny, h.lenw]; simp), metricLoop_chain sim inc _ _ s s' tr h.args h.chain]
  simp only [zero_add]
  have : ((x.zip y).zip w).map Prod.snd = w := by
    rw [List.map_snd_zip]
    rw [List.length_zip, h.leny, h.lenw]; simp
  rw [this]
  rfl

/-- Without weights, all weights are 1. -/
theorem withMissing_default (code : Int) (inc : ℝ → ℝ → Option ℝ) (fin : Option ℝ → Res (Option ℝ)) (sim : A → B → Eff σ ℝ)
    (x : List (Option A)) (y : List (Option B)) :
    withMissing code inc fin sim x y none = withMissing code inc fin sim x y (some (List.replicate x.length 1)) := rfl

/-- The value that the metrics scale: `t * (sum of weights) / (sum of present weights)`. -/
noncomputable def scaled (x : List (Option A)) (y : List (Option B)) (w : List ℝ) (t : ℝ) : ℝ := t * w.sum / presentWeight x y w

/-- The four metrics with missing values: the sum of squares, the maximum or the sum over the present entries, scaled by the
weights; nan if the present weights sum to zero. -/
theorem missing_spec (sim : A → B → Eff σ ℝ) (x : List (Option A)) (y : List (Option B)) (w : List ℝ) (s s' : σ)
    (tr : List ((A × B) × ℝ)) (h : Calls sim x y w s tr s') :
    (presentWeight x y w = 0 →
      euclidean sim x y (some w) s = (.ok none, s') ∧ squaredEuclidean sim x y (some w) s = (.ok none, s') ∧
      chebyshev sim x y (some w) s = (.ok none, s') ∧ taxicab sim x y (some w) s = (.ok none, s')) ∧
    (presentWeight x y w ≠ 0 →
      (0 ≤ scaled x y w (tr.map fun p => p.2 ^ 2).sum →
        euclidean sim x y (some w) s = (.ok (some (Real.sqrt (scaled x y w (tr.map fun p => p.2 ^ 2).sum))), s')) ∧
      squaredEuclidean sim x y (some w) s = (.ok (some (scaled x y w (tr.map fun p => p.2 ^ 2).sum)), s') ∧
      chebyshev sim x y (some w) s = (.ok (some (scaled x y w ((tr.map Prod.snd).foldl max 0))), s') ∧
      taxicab sim x y (some w) s = (.ok (some (scaled x y w (tr.map Prod.snd).sum)), s')) := by
  have e1 := fold_add (A := A) (B := B) (fun z => z ^ 2) tr 0
  have e2 := fold_max (A := A) (B := B) tr 0
  have e3 := fold_add (A := A) (B := B) id tr 0
  simp only [zero_add, id] at e1 e3
  unfold euclidean squaredEuclidean chebyshev taxicab
  constructor
  · intro h0
    refine ⟨?_, ?_, ?_, ?_⟩ <;>
    · rw [withMissing_eq _ _ _ _ _ _ _ _ _ _ h]
      simp [Acc.value, h0, pySqrt]
  · intro h0
    refine ⟨?_, ?_, ?_, ?_⟩
    · intro hpos
      rw [withMissing_eq _ _ _ _ _ _ _ _ _ _ h, e1]
      simp only [Acc.value]
      rw [if_neg h0]
      simp only [Option.map_some, pySqrt]
      unfold scaled at hpos ⊢
      rw [if_neg (not_lt.2 hpos)]
    · rw [withMissing_eq _ _ _ _ _ _ _ _ _ _ h, e1]
      simp only [Acc.value]
      rw [if_neg h0]
      rfl
    · rw [withMissing_eq _ _ _ _ _ _ _ _ _ _ h, e2]
      simp only [Acc.value]
      rw [if_neg h0]
      rfl
    · rw [withMissing_eq _ _ _ _ _ _ _ _ _ _ h, e3]
      simp only [Acc.value]
      rw [if_neg h0]
      rfl

/-- Different lengths raise the documented errors, before any call. -/
theorem missing_errors (sim : A → B → Eff σ ℝ) (x : List (Option A)) (y : List (Option B)) (w : List ℝ) (s : σ) (p : Param)
    (h : y.length ≠ x.length ∨ w.length ≠ x.length) :
    euclidean sim x y (some w) s = (.error (.rt 28030), s) ∧ squaredEuclidean sim x y (some w) s = (.error (.rt 28040), s) ∧
      chebyshev sim x y (some w) s = (.error (.rt 28050), s) ∧ taxicab sim x y (some w) s = (.error (.rt 28060), s) ∧
      minkowski sim x y p (some w) s = (.error (.rt 28070), s) := by
  refine ⟨?_, ?_, ?_, ?_, ?_⟩
  · unfold euclidean withMissing weightsOr; simp only [Option.getD_some]; rw [if_pos h]
  · unfold squaredEuclidean withMissing weightsOr; simp only [Option.getD_some]; rw [if_pos h]
  · unfold chebyshev withMissing weightsOr; simp only [Option.getD_some]; rw [if_pos h]
  · unfold taxicab withMissing weightsOr; simp only [Option.getD_some]; rw [if_pos h]
  · unfold minkowski weightsOr; simp only [Option.getD_some]; rw [if_pos h]

/-- A similarity that raises. -/
theorem missing_raises (code : Int) (inc : ℝ → ℝ → Option ℝ) (fin : Option ℝ → Res (Option ℝ)) (sim : A → B → Eff σ ℝ)
    (x : List (Option A)) (y : List (Option B)) (w : List ℝ) (s s1 s' : σ) (e : Err) (tr : List ((A × B) × ℝ)) (p : A × B)
    (rest : List (A × B)) (hy : y.length = x.length) (hw : w.length = x.length)
    (h1 : (present ((x.zip y).zip w)).map Prod.fst = tr.map Prod.fst ++ p :: rest)
    (h2 : Chain (fun p : A × B => sim p.1 p.2) s tr s1) (h3 : sim p.1 p.2 s1 = (.error e, s')) :
    withMissing code inc fin sim x y (some w) s = (.error e, s') := by
  unfold withMissing weightsOr
  simp only [Option.getD_some]
  rw [if_neg (by rw [hy, hw]; simp), metricLoop_raises sim inc _ _ s s1 s' e tr p rest h1 h2 h3]

/-- Negative weights can raise a Python error. -/
theorem euclidean_sqrt_violation :
    euclidean (σ := Unit) (fun a b => Lib.ret (a - b)) [some 1, none] [some 0, some 5] (some [-1, 2]) () =
      (.error (.py "ValueError"), ()) := by
  have h : Calls (σ := Unit) (fun a b : ℝ => Lib.ret (a - b)) [some 1, none] [some 0, some 5] [-1, 2] () [((1, 0), 1)] () :=
    ⟨rfl, rfl, rfl, .cons (by simp [Lib.ret]) (.nil _)⟩
  unfold euclidean
  rw [withMissing_eq _ _ _ _ _ _ _ _ _ _ h]
  norm_num [Acc.value, presentWeight, present, pySqrt]

/-! ## The parameter of `minkowski` -/

/-- The parameter must be a positive number. -/
theorem minkowski_param (sim : A → B → Eff σ ℝ) (x : List (Option A)) (y : List (Option B)) (w : List ℝ) (s : σ)
    (hy : y.length = x.length) (hw : w.length = x.length) :
    minkowski sim x y .nan (some w) s = (.error (.rt 28071), s) ∧ minkowski sim x y .ninf (some w) s = (.error (.rt 28071), s) ∧
      ∀ p ≤ 0, minkowski sim x y (.num p) (some w) s = (.error (.rt 28071), s) := by
  refine ⟨?_, ?_, ?_⟩
  · unfold minkowski weightsOr; simp [hy, hw]
  · unfold minkowski weightsOr; simp [hy, hw]
  · intro p hp; unfold minkowski weightsOr; simp [hy, hw, hp]

/-- `metric.minkowski` with parameter infinity is `metric.chebyshev`. -/
theorem minkowski_inf (sim : A → B → Eff σ ℝ) (x : List (Option A)) (y : List (Option B)) (w : List ℝ) (s : σ)
    (hy : y.length = x.length) (hw : w.length = x.length) :
    minkowski sim x y .pinf (some w) s = chebyshev sim x y (some w) s := by
  unfold minkowski chebyshev withMissing weightsOr
  simp only [Option.getD_some]
  rw [if_neg (by rw [hy, hw]; simp), if_neg (by rw [hy, hw]; simp)]
  have : (fun t z : ℝ => if z > t then some z else some t) = fun t z => some (max t z) := by
    funext t z
    by_cases h : z > t
    · rw [if_pos h, max_eq_right h.le]
    · rw [if_neg h, max_eq_left (not_lt.1 h)]
  rw [this]

/-! ## Points without missing values -/

/-- The arguments for a point of `n` coordinates. -/
def vec {n : Nat} (x : Fin n → ℝ) : List (Option ℝ) := List.ofFn fun i => some (x i)

/-- The calls for two points. -/
theorem calls_vec {n : Nat} (f : ℝ → ℝ → ℝ) (x y : Fin n → ℝ) (w : Fin n → ℝ) (s : σ) :
    Calls (fun a b => Lib.ret (f a b)) (vec x) (vec y) (List.ofFn w) s (List.ofFn fun i => ((x i, y i), f (x i) (y i))) s ∧
      presentWeight (vec x) (vec y) (List.ofFn w) = (List.ofFn w).sum := by
  have hz : ((vec x).zip (vec y)).zip (List.ofFn w) = List.ofFn fun i => ((some (x i), some (y i)), w i) := by
    unfold vec
    apply List.ext_getElem
    · simp
    · intro i h1 h2; simp
  have hp : present (List.ofFn fun i => ((some (x i), some (y i)), w i)) = List.ofFn fun i => ((x i, y i), w i) := by
    clear hz
    induction n with
    | zero => simp [present]
    | succ n ih =>
      rw [List.ofFn_succ, present, ih (fun i => x i.succ) (fun i => y i.succ) (fun i => w i.succ), List.ofFn_succ]
  refine ⟨⟨by simp [vec], by simp [vec], ?_, ?_⟩, ?_⟩
  · rw [hz, hp]
    simp only [List.map_ofFn]
    rfl
  · have := Lib.chain_pure (σ := σ) (fun p : ℝ × ℝ => f p.1 p.2) (List.ofFn fun i => (x i, y i)) s
    rw [List.map_ofFn] at this
    exact this
  · unfold presentWeight
    rw [hz, hp, List.map_ofFn]
    rfl

theorem scaled_vec {n : Nat} (x y w : Fin n → ℝ) (hw : (List.ofFn w).sum ≠ 0) (t : ℝ) :
    scaled (vec x) (vec y) (List.ofFn w) t = t := by
  unfold scaled
  rw [(calls_vec (σ := Unit) (fun _ _ => 0) x y w ()).2]
  field_simp

theorem ofFn_abs_sq {n : Nat} (x y : Fin n → ℝ) :
    ((List.ofFn fun i => ((x i, y i), |x i - y i|)).map fun p : (ℝ × ℝ) × ℝ => p.2 ^ 2).sum = ∑ i, (x i - y i) ^ 2 := by
  rw [List.map_ofFn, List.sum_ofFn]
  simp [Function.comp_def, sq_abs]

/-- `metric.euclidean` of the absolute difference is the Euclidean distance, whatever the weights, in dimension at least 1. -/
theorem euclidean_dist {n : Nat} (x y w : Fin n → ℝ) (hw : (List.ofFn w).sum ≠ 0) (s : σ) :
    euclidean (fun a b => Lib.ret (absDiff a b)) (vec x) (vec y) (some (List.ofFn w)) s =
      (.ok (some (dist (WithLp.toLp 2 x : EuclideanSpace ℝ (Fin n)) (WithLp.toLp 2 y))), s) := by
  obtain ⟨h1, h2⟩ := calls_vec (σ := σ) absDiff x y w s
  have := ((missing_spec _ _ _ _ _ _ _ h1).2 (by rw [h2]; exact hw)).1
  have hs : (List.map (fun p : (ℝ × ℝ) × ℝ => p.2 ^ 2) (List.ofFn fun i => ((x i, y i), absDiff (x i) (y i)))).sum =
      ∑ i, (x i - y i) ^ 2 := ofFn_abs_sq x y
  rw [scaled_vec x y w hw, hs] at this
  rw [this (Finset.sum_nonneg fun i _ => sq_nonneg _), EuclideanSpace.dist_eq]
  simp [Real.dist_eq, sq_abs]

/-- `metric.squaredEuclidean` is its square. -/
theorem squaredEuclidean_dist {n : Nat} (x y w : Fin n → ℝ) (hw : (List.ofFn w).sum ≠ 0) (s : σ) :
    squaredEuclidean (fun a b => Lib.ret (absDiff a b)) (vec x) (vec y) (some (List.ofFn w)) s =
      (.ok (some (dist (WithLp.toLp 2 x : EuclideanSpace ℝ (Fin n)) (WithLp.toLp 2 y) ^ 2)), s) := by
  obtain ⟨h1, h2⟩ := calls_vec (σ := σ) absDiff x y w s
  have := ((missing_spec _ _ _ _ _ _ _ h1).2 (by rw [h2]; exact hw)).2.1
  have hs : (List.map (fun p : (ℝ × ℝ) × ℝ => p.2 ^ 2) (List.ofFn fun i => ((x i, y i), absDiff (x i) (y i)))).sum =
      ∑ i, (x i - y i) ^ 2 := ofFn_abs_sq x y
  rw [scaled_vec x y w hw, hs] at this
  rw [this, EuclideanSpace.dist_eq, Real.sq_sqrt (Finset.sum_nonneg fun i _ => sq_nonneg _)]
  simp [Real.dist_eq, sq_abs]

/-- `metric.taxicab` is the distance of the sum norm. -/
theorem taxicab_dist {n : Nat} (x y w : Fin n → ℝ) (hw : (List.ofFn w).sum ≠ 0) (s : σ) :
    taxicab (fun a b => Lib.ret (absDiff a b)) (vec x) (vec y) (some (List.ofFn w)) s =
      (.ok (some (dist (WithLp.toLp 1 x : PiLp 1 fun _ : Fin n => ℝ) (WithLp.toLp 1 y))), s) := by
  obtain ⟨h1, h2⟩ := calls_vec (σ := σ) absDiff x y w s
  have := ((missing_spec _ _ _ _ _ _ _ h1).2 (by rw [h2]; exact hw)).2.2.2
  rw [scaled_vec x y w hw] at this
  rw [this, PiLp.dist_eq_of_L1]
  simp [List.sum_ofFn, Function.comp_def, Real.dist_eq, absDiff]

theorem foldl_max_le (l : List ℝ) (t c : ℝ) : l.foldl max t ≤ c ↔ t ≤ c ∧ ∀ z ∈ l, z ≤ c := by
  induction l generalizing t with
  | nil => simp
  | cons a l ih => simp [ih, and_assoc]

/-- `metric.chebyshev` is the distance of the maximum norm. -/
theorem chebyshev_dist {n : Nat} (x y w : Fin n → ℝ) (hw : (List.ofFn w).sum ≠ 0) (s : σ) :
    chebyshev (fun a b => Lib.ret (absDiff a b)) (vec x) (vec y) (some (List.ofFn w)) s = (.ok (some (dist x y)), s) := by
  obtain ⟨h1, h2⟩ := calls_vec (σ := σ) absDiff x y w s
  have := ((missing_spec _ _ _ _ _ _ _ h1).2 (by rw [h2]; exact hw)).2.2.1
  rw [scaled_vec x y w hw] at this
  rw [this]
  congr 3
  have key : ∀ c : ℝ, ((List.ofFn fun i => ((x i, y i), absDiff (x i) (y i))).map Prod.snd).foldl max 0 ≤ c ↔ dist x y ≤ c := by
    intro c
    rw [foldl_max_le]
    constructor
    · rintro ⟨h0, h⟩
      rw [dist_pi_le_iff h0]
      intro i
      rw [Real.dist_eq]
      exact h _ (by simp [List.mem_ofFn, absDiff])
    · intro h
      have h0 : 0 ≤ c := dist_nonneg.trans h
      refine ⟨h0, ?_⟩
      rw [dist_pi_le_iff h0] at h
      intro z hz
      simp only [List.map_ofFn, List.mem_ofFn] at hz
      obtain ⟨i, rfl⟩ := hz
      have := h i
      rw [Real.dist_eq] at this
      exact this
  exact le_antisymm ((key _).2 le_rfl) ((key _).1 le_rfl)

/-- `metric.minkowski` with a parameter at least 1 is the distance of the `p`-norm. -/
theorem minkowski_dist {n : Nat} (x y w : Fin n → ℝ) (hw : (List.ofFn w).sum ≠ 0) (p : ℝ) (hp : 1 ≤ p) (s : σ) :
    minkowski (fun a b => Lib.ret (absDiff a b)) (vec x) (vec y) (.num p) (some (List.ofFn w)) s =
      (.ok (some (dist (WithLp.toLp (ENNReal.ofReal p) x : PiLp (ENNReal.ofReal p) fun _ : Fin n => ℝ) (WithLp.toLp _ y))), s) := by
  have hp0 : 0 < p := by linarith
  obtain ⟨h1, h2⟩ := calls_vec (σ := σ) absDiff x y w s
  unfold minkowski weightsOr
  simp only [Option.getD_some]
  rw [if_neg (by rw [h1.leny, h1.lenw]; simp), if_neg (not_le.2 hp0), metricLoop_chain _ _ _ _ s s _ h1.args h1.chain]
  simp only [zero_add]
  have hpow : ∀ z : ℝ, 0 ≤ z → ∀ q, powJ z q = some (z ^ q) := by
    intro z hz q
    unfold powJ
    rw [if_neg]
    rintro ⟨h, _⟩
    exact absurd hz (not_le.2 h)
  have hf : ∀ (l : List ((ℝ × ℝ) × ℝ)) (t : ℝ), (∀ q ∈ l, 0 ≤ q.2) →
      l.foldl (fun (t : Option ℝ) q => t.bind fun x => (powJ q.2 p).map (x + ·)) (some t) = some (t + (l.map fun q => q.2 ^ p).sum) := by
    intro l
    induction l with
    | nil => simp
    | cons q l ih =>
      intro t hq
      simp only [List.foldl_cons, Option.bind_some]
      rw [hpow _ (hq q (by simp)), Option.map_some, ih _ fun a ha => hq a (by simp [ha])]
      simp [add_assoc]
  rw [hf _ 0 (by
    intro q hq
    rw [List.mem_ofFn] at hq
    obtain ⟨i, rfl⟩ := hq
    exact abs_nonneg _)]
  have hws : (List.map Prod.snd (((vec x).zip (vec y)).zip (List.ofFn w))).sum = (List.ofFn w).sum := by
    rw [List.map_snd_zip]
    simp [vec]
  unfold presentWeight at h2
  simp only [Acc.value]
  rw [h2, hws, if_neg hw]
  have hsum : (List.map (fun q : (ℝ × ℝ) × ℝ => q.2 ^ p) (List.ofFn fun i => ((x i, y i), absDiff (x i) (y i)))).sum =
      ∑ i, |x i - y i| ^ p := by
    rw [List.map_ofFn, List.sum_ofFn]; rfl
  rw [hsum]
  have hnn : 0 ≤ ∑ i, |x i - y i| ^ p := Finset.sum_nonneg fun i _ => Real.rpow_nonneg (abs_nonneg _) _
  simp only [zero_add, Option.map_some, Option.bind_some]
  rw [mul_div_assoc, div_self hw, mul_one, hpow _ hnn]
  have hto : (ENNReal.ofReal p).toReal = p := ENNReal.toReal_ofReal hp0.le
  rw [PiLp.dist_eq_sum (by rw [hto]; exact hp0), hto]
  simp [Real.dist_eq]

/-- In dimension 0 the metrics are nan, not 0. -/
theorem metric_empty_violation (w : Fin 0 → ℝ) (s : σ) :
    euclidean (fun a b => Lib.ret (absDiff a b)) [] [] (some (List.ofFn w)) s = (.ok none, s) ∧
      taxicab (fun a b => Lib.ret (absDiff a b)) [] [] (some (List.ofFn w)) s = (.ok none, s) := by
  have h := calls_vec (σ := σ) absDiff (fun i : Fin 0 => 0) (fun _ => 0) w s
  have := (missing_spec _ _ _ _ _ _ _ h.1).1 (by rw [h.2]; simp)
  exact ⟨this.1, this.2.2.2⟩

/-- `metric.simpleEuclidean` is the Euclidean distance, in every dimension. -/
theorem simpleEuclidean_dist {n : Nat} (x y : Fin n → ℝ) :
    simpleEuclidean (List.ofFn x) (List.ofFn y) =
      .ok (some (dist (WithLp.toLp 2 x : EuclideanSpace ℝ (Fin n)) (WithLp.toLp 2 y))) := by
  unfold simpleEuclidean
  rw [if_neg (by simp)]
  have hz : List.zipWith (fun a b : ℝ => (a - b) ^ 2) (List.ofFn x) (List.ofFn y) = List.ofFn fun i => (x i - y i) ^ 2 := by
    apply List.ext_getElem
    · simp
    · intro i h1 h2; simp
  rw [hz, List.sum_ofFn]
  simp only [pySqrt]
  rw [if_neg (not_lt.2 (Finset.sum_nonneg fun i _ => sq_nonneg _)), EuclideanSpace.dist_eq]
  simp [Real.dist_eq, sq_abs]

theorem simpleEuclidean_error (x y : List ℝ) (h : x.length ≠ y.length) : simpleEuclidean x y = .error (.rt 28000) := by
  unfold simpleEuclidean
  rw [if_pos h]

/-- `metric.absDiff` is the distance of real numbers. -/
theorem absDiff_dist (x y : ℝ) : absDiff x y = dist x y := (Real.dist_eq x y).symm

/-- `metric.gaussianSimilarity`: symmetric, between 0 and 1, 1 only for equal values, 1/2 at distance `sigma`, decreasing with the
distance. -/
theorem gaussian_spec (x y sigma : ℝ) (hs : sigma ≠ 0) :
    ∃ g, gaussianSimilarity x y sigma = some g ∧ gaussianSimilarity y x sigma = some g ∧ 0 < g ∧ g ≤ 1 ∧ (g = 1 ↔ x = y) ∧
      (|x - y| = |sigma| → g = 1 / 2) ∧
      ∀ x' y' g', gaussianSimilarity x' y' sigma = some g' → (g' ≤ g ↔ |x - y| ≤ |x' - y'|) := by
  have hs2 : 0 < sigma ^ 2 := by positivity
  have hl : 0 < Real.log 2 := Real.log_pos (by norm_num)
  have e : ∀ a b, gaussianSimilarity a b sigma = some (Real.exp (-Real.log 2 * (a - b) ^ 2 / sigma ^ 2)) := by
    intro a b
    unfold gaussianSimilarity expDiv
    rw [if_neg hs2.ne']
  refine ⟨_, e x y, ?_, Real.exp_pos _, ?_, ?_, ?_, ?_⟩
  · rw [e y x]; congr 3; ring
  · rw [Real.exp_le_one_iff]
    apply div_nonpos_of_nonpos_of_nonneg _ hs2.le
    nlinarith [sq_nonneg (x - y)]
  · rw [Real.exp_eq_one_iff, div_eq_zero_iff]
    constructor
    · rintro (h | h)
      · rcases mul_eq_zero.1 h with h | h
        · linarith
        · have := pow_eq_zero_iff (two_ne_zero) |>.1 h
          linarith
      · exact absurd h hs2.ne'
    · rintro rfl; left; simp
  · intro h
    have : (x - y) ^ 2 = sigma ^ 2 := by rw [← sq_abs, h, sq_abs]
    rw [this, mul_div_assoc, div_self hs2.ne', mul_one, Real.exp_neg, Real.exp_log (by norm_num)]
    norm_num
  · intro x' y' g' hg
    rw [e x' y'] at hg
    injection hg with hg
    rw [← hg, Real.exp_le_exp, div_le_div_iff_of_pos_right hs2, ← sq_le_sq]
    constructor <;> intro h <;> nlinarith

/-- With `sigma` 0 the similarity of equal values is nan. -/
theorem gaussian_zero_violation (x : ℝ) : gaussianSimilarity x x 0 = none := by
  simp [gaussianSimilarity, expDiv]

/-! ## Binary metrics -/

/-- How many positions have the two values. -/
def tallyOf (a b : Bool) (x y : List Bool) : Nat := (x.zip y).countP fun p => p.1 = a && p.2 = b

theorem countPairs_spec (x y : List Bool) :
    countPairs x y = (tallyOf false false x y, tallyOf false true x y, tallyOf true false x y, tallyOf true true x y) := by
  unfold countPairs tallyOf
  generalize x.zip y = l
  have : ∀ (l : List (Bool × Bool)) (a : Nat × Nat × Nat × Nat),
      l.foldl (fun (a : Nat × Nat × Nat × Nat) p =>
        let a := if p.1 && p.2 then (a.1, a.2.1, a.2.2.1, a.2.2.2 + 1) else a
        let a := if p.1 && !p.2 then (a.1, a.2.1, a.2.2.1 + 1, a.2.2.2) else a
        let a := if !p.1 && p.2 then (a.1, a.2.1 + 1, a.2.2.1, a.2.2.2) else a
        if !p.1 && !p.2 then (a.1 + 1, a.2.1, a.2.2.1, a.2.2.2) else a) a =
      (a.1 + l.countP (fun p => p.1 = false && p.2 = false), a.2.1 + l.countP (fun p => p.1 = false && p.2 = true),
        a.2.2.1 + l.countP (fun p => p.1 = true && p.2 = false), a.2.2.2 + l.countP fun p => p.1 = true && p.2 = true) := by
    intro l
    induction l with
    | nil => simp
    | cons p l ih =>
      intro a
      rw [List.foldl_cons, ih]
      obtain ⟨p1, p2⟩ := p
      cases p1 <;> cases p2 <;> simp [List.countP_cons] <;> omega
  rw [this]
  simp

theorem tally_total (x y : List Bool) (h : y.length = x.length) :
    tallyOf true true x y + tallyOf true false x y + tallyOf false true x y + tallyOf false false x y = x.length := by
  induction x generalizing y with
  | nil => simp [tallyOf]
  | cons a x ih =>
    cases y with
    | nil => simp at h
    | cons b y =>
      have := ih y (by simpa using h)
      unfold tallyOf at this ⊢
      cases a <;> cases b <;> simp [List.countP_cons] at this ⊢ <;> omega

theorem tally_swap (a b : Bool) (x y : List Bool) : tallyOf a b x y = tallyOf b a y x := by
  unfold tallyOf
  induction x generalizing y with
  | nil => simp
  | cons c x ih =>
    cases y with
    | nil => simp
    | cons d y => simp [List.countP_cons, ih, Bool.and_comm]

theorem tally_equal (x y : List Bool) (h : y.length = x.length) :
    (tallyOf true false x y = 0 ∧ tallyOf false true x y = 0) ↔ x = y := by
  induction x generalizing y with
  | nil => cases y <;> simp [tallyOf] at h ⊢
  | cons a x ih =>
    cases y with
    | nil => simp at h
    | cons b y =>
      have := ih y (by simpa using h)
      unfold tallyOf at this ⊢
      cases a <;> cases b <;> simp [List.countP_cons] at this ⊢ <;> exact this

theorem ratio_spec (r : ℚ → Num) (n d : Nat) (hd : d ≠ 0) : ratio r n d = r (n / d) := by
  unfold ratio
  simp only [Num.div]
  rw [if_neg (by exact_mod_cast hd)]

/-- The three coefficients, for any rounding: agreements over all positions, common truths over any truths, and agreements over
positions with disagreements counted twice. -/
theorem binary_spec (r : ℚ → Num) (x y : List Bool) (h : y.length = x.length) :
    (x ≠ [] → simpleMatching r x y = .ok (r ((tallyOf true true x y + tallyOf false false x y : Nat) / (x.length : Nat)))) ∧
    (tallyOf false false x y ≠ x.length →
      jaccard r x y = .ok (r ((tallyOf true true x y : Nat) / (x.length - tallyOf false false x y : Nat)))) ∧
    (x ≠ [] → tanimoto r x y = .ok (r ((tallyOf true true x y + tallyOf false false x y : Nat) /
      (x.length + tallyOf true false x y + tallyOf false true x y : Nat)))) := by
  have ht := tally_total x y h
  refine ⟨?_, ?_, ?_⟩
  · intro hx
    have hl : x.length ≠ 0 := by rwa [Ne, List.length_eq_zero_iff]
    unfold simpleMatching
    rw [if_neg (by simpa using h), countPairs_spec]
    simp only
    rw [ratio_spec _ _ _ (by omega), ht]
  · intro hx
    unfold jaccard
    rw [if_neg (by simpa using h), countPairs_spec]
    simp only
    rw [ratio_spec _ _ _ (by omega)]
    congr 4
    omega
  · intro hx
    have hl : x.length ≠ 0 := by rwa [Ne, List.length_eq_zero_iff]
    unfold tanimoto
    rw [if_neg (by simpa using h), countPairs_spec]
    simp only
    rw [ratio_spec _ _ _ (by omega)]
    congr 4
    omega

/-- All three are symmetric. -/
theorem binary_symm (r : ℚ → Num) (x y : List Bool) (h : y.length = x.length) :
    simpleMatching r x y = simpleMatching r y x ∧ jaccard r x y = jaccard r y x ∧ tanimoto r x y = tanimoto r y x := by
  unfold simpleMatching jaccard tanimoto
  simp only [h, ne_eq, not_true_eq_false, if_false, countPairs_spec]
  rw [tally_swap true true y x, tally_swap false false y x, tally_swap true false y x, tally_swap false true y x]
  refine ⟨?_, ?_, ?_⟩ <;> congr 2 <;> omega

/-- In exact arithmetic all three lie between 0 and 1, and are 1 exactly for equal arguments. -/
theorem binary_range (x y : List Bool) (h : y.length = x.length) (f : (ℚ → Num) → List Bool → List Bool → Res Num)
    (hf : (f = simpleMatching ∧ x ≠ []) ∨ (f = jaccard ∧ tallyOf false false x y ≠ x.length) ∨ (f = tanimoto ∧ x ≠ [])) :
    ∃ q : ℚ, f .fin x y = .ok (.fin q) ∧ 0 ≤ q ∧ q ≤ 1 ∧ (q = 1 ↔ x = y) := by
  have ht := tally_total x y h
  have he := tally_equal x y h
  have hs := binary_spec .fin x y h
  have key : ∀ n d : Nat, 0 < d → n ≤ d → (n = d ↔ x = y) →
      0 ≤ (n : ℚ) / d ∧ (n : ℚ) / d ≤ 1 ∧ ((n : ℚ) / d = 1 ↔ x = y) := by
    intro n d hd hn hiff
    have hd' : (0 : ℚ) < d := by exact_mod_cast hd
    refine ⟨by positivity, ?_, ?_⟩
    · rw [div_le_one hd']; exact_mod_cast hn
    · rw [div_eq_one_iff_eq hd'.ne', ← hiff]; exact_mod_cast Iff.rfl
  rcases hf with ⟨rfl, hx⟩ | ⟨rfl, hx⟩ | ⟨rfl, hx⟩
  · have hl : x.length ≠ 0 := by rwa [Ne, List.length_eq_zero_iff]
    exact ⟨_, hs.1 hx, key _ _ (by omega) (by omega) (by rw [← he]; omega)⟩
  · exact ⟨_, hs.2.1 hx, key _ _ (by omega) (by omega) (by rw [← he]; omega)⟩
  · have hl : x.length ≠ 0 := by rwa [Ne, List.length_eq_zero_iff]
    exact ⟨_, hs.2.2 hx, key _ _ (by omega) (by omega) (by rw [← he]; omega)⟩

/-- `metric.binarySimilarity` in exact arithmetic. -/
theorem binarySimilarity_spec (x y : List Bool) (h : y.length = x.length) (c00 c01 c10 c11 d00 d01 d10 d11 : ℚ)
    (hd : d11 * tallyOf true true x y + d10 * tallyOf true false x y + d01 * tallyOf false true x y + d00 * tallyOf false false x y ≠ 0) :
    binarySimilarity .fin x y (.fin c00) (.fin c01) (.fin c10) (.fin c11) (.fin d00) (.fin d01) (.fin d10) (.fin d11) =
      .ok (.fin ((c11 * tallyOf true true x y + c10 * tallyOf true false x y + c01 * tallyOf false true x y + c00 * tallyOf false false x y) /
        (d11 * tallyOf true true x y + d10 * tallyOf true false x y + d01 * tallyOf false true x y + d00 * tallyOf false false x y))) := by
  unfold binarySimilarity weigh
  rw [if_neg (by simpa using h), countPairs_spec]
  simp only [Num.mul_fin, Num.add_fin, Num.div]
  rw [if_neg hd]

/-- The lengths must agree. -/
theorem binary_errors (r : ℚ → Num) (x y : List Bool) (h : y.length ≠ x.length) (c00 c01 c10 c11 d00 d01 d10 d11 : Num) :
    simpleMatching r x y = .error (.rt 28080) ∧ jaccard r x y = .error (.rt 28090) ∧ tanimoto r x y = .error (.rt 28100) ∧
      binarySimilarity r x y c00 c01 c10 c11 d00 d01 d10 d11 = .error (.rt 28110) := by
  simp [simpleMatching, jaccard, tanimoto, binarySimilarity, h]

/-- Two vectors that are false everywhere are equal, but their Jaccard coefficient is nan; so are all three of empty vectors. -/
theorem binary_nan_violation : jaccard .fin [false, false] [false, false] = .ok .nan ∧ simpleMatching .fin [] [] = .ok .nan ∧
    tanimoto .fin [] [] = .ok .nan := by decide +kernel

example : simpleMatching .fin [true, false, true, false] [true, true, false, false] = .ok (.fin (1 / 2)) ∧
    jaccard .fin [true, false, true, false] [true, true, false, false] = .ok (.fin (1 / 3)) ∧
    tanimoto .fin [true, false, true, false] [true, true, false, false] = .ok (.fin (1 / 3)) := by decide +kernel

/-- Two present entries of three: the weights 1, 2, 3 scale the sum by 6 / 4. -/
example : taxicab (σ := Unit) (fun a b => Lib.ret (absDiff a b)) [some 1, none, some 7] [some 4, some 5, some 2] (some [1, 2, 3]) () =
    (.ok (some 12), ()) := by
  have h : Calls (σ := Unit) (fun a b : ℝ => Lib.ret (absDiff a b)) [some 1, none, some 7] [some 4, some 5, some 2] [1, 2, 3] ()
      [((1, 4), 3), ((7, 2), 5)] () := by
    refine ⟨rfl, rfl, rfl, .cons (s1 := ()) ?_ (.cons (s1 := ()) ?_ (.nil _))⟩ <;> norm_num [Lib.ret, absDiff, abs_of_neg]
  have hp : presentWeight [some (1 : ℝ), none, some 7] [some (4 : ℝ), some 5, some 2] [1, 2, 3] = 4 := by
    norm_num [presentWeight, present]
  rw [((missing_spec _ _ _ _ _ _ _ h).2 (by rw [hp]; norm_num)).2.2.2]
  norm_num [scaled, hp]

end Verif.Near
