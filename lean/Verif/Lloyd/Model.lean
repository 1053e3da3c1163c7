import Verif.Near.KMeans
import Mathlib.Data.Nat.Log
/-! # Optimizing clusters: `titus/producer/kmeans.py` (C88-C90)

Points are lists of rational numbers of the same length; `numpy` computes with doubles, here the arithmetic is exact, so that the mean of a
cluster is finite exactly if the cluster has points. The random generator is given: for `newCluster` as the list of the indexes it draws, for
the optimization as a function from the number of the call. -/

namespace Verif.Lloyd
open Verif.Near (coord dist2)

/-- A row of the dataset, a center, or a correction. -/
abbrev Pt := List ℚ

/-! ## Random points -/

/-- `newCluster` (325-334): draw rows of `uniques` (`randomPoint`, 316-323) until one is different from all the given centers. `none` if the
draws are used up. -/
def newCluster (uniques centers : List Pt) : List Nat → Option (Pt × List Nat)
  | [] => none
  | n :: ns =>
    match uniques[n]? with
    | none => none
    | some p => if centers.any (· == p) then newCluster uniques centers ns else some (p, ns)

/-- The loop of `__init__` (309-311). -/
def initial (uniques : List Pt) : Nat → List Pt → List Nat → Option (List Pt × List Nat)
  | 0, cs, ns => some (cs, ns)
  | k + 1, cs, ns =>
    match newCluster uniques cs ns with
    | none => none
    | some (p, ns') => initial uniques k (cs ++ [p]) ns'

/-- `self.uniques` (298-303): the different rows, or, if `numpy` cannot sort them, all rows. -/
def uniquesOf (sortable : Bool) (dataset : List Pt) : List Pt := if sortable then dataset.dedup else dataset

/-- `__init__` (289-314). -/
def construct (sortable : Bool) (k : Nat) (dataset : List Pt) (weights : Option (List ℚ)) (ns : List Nat) : Res (Option (List Pt × List Nat)) :=
  if (match weights with | none => false | some w => w.length ≠ dataset.length) then .error (.py "TypeError")
  else if (uniquesOf sortable dataset).length ≤ k then .error (.py "TypeError")
  else .ok (initial (uniquesOf sortable dataset) k [] ns)

/-- `randomSubset` (336-355); `sample` is the choice of `random.sample`, which refuses more indexes than there are. -/
def randomSubset (k : Nat) (dataset : List Pt) (weights : Option (List ℚ)) (sample : List Nat) (subsetSize : Nat) :
    Res (List Pt × Option (List ℚ)) :=
  if subsetSize ≤ k then .error (.py "TypeError")
  else if dataset.length < subsetSize then .error (.py "ValueError")
  else .ok (sample.filterMap (dataset[·]?), weights.map fun w => sample.filterMap (w[·]?))

/-! ## One iteration -/

/-- `numpy.argmin`: the position of the first smallest entry. -/
def argmin {K : Type} [LinearOrder K] : List K → Nat
  | [] => 0
  | x :: xs =>
    match xs[argmin xs]? with
    | none => 0
    | some y => if y < x then argmin xs + 1 else 0

/-- `closestCluster` (357-381) for one row; `metric` is `self.metric.calculate`. -/
def closest {K : Type} [LinearOrder K] (metric : Pt → Pt → K) (clusters : List Pt) (x : Pt) : Nat :=
  argmin (clusters.map (metric x))

/-- `(dataset - cluster)[selection]` (405). -/
def residuals (assigned : List (Pt × Nat)) (i : Nat) (cluster : Pt) : List Pt :=
  (assigned.filter (·.2 = i)).map fun p => List.zipWith (· - ·) p.1 cluster

/-- `residuals *= weights[selection]` (408-409). `numpy` matches the weights with the last axis, the columns, and the result must have the
shape of `residuals`: there is either one row, or there are as many rows as columns. -/
def weigh (dim : Nat) (rs : List Pt) (ws : List ℚ) : Res (List Pt) :=
  if rs.length = dim then .ok (rs.map fun r => List.zipWith (· * ·) r ws)
  else match rs, ws with
    | [r], [w] => .ok [r.map (· * w)]
    | _, _ => .error (.py "ValueError")

/-- `residuals.mean(axis=0)` (420): `none` stands for nan. -/
def meanRows (dim : Nat) (rs : List Pt) : Option Pt :=
  if rs.length = 0 then none else some ((List.range dim).map fun j => (rs.map (coord · j)).sum / rs.length)

/-- What an iteration reports of a cluster: `None` for a jump, else the correction and the new center. -/
abbrev Report := List (Option (Pt × Pt))

instance : DecidableEq (Option (Pt × Pt)) := inferInstance
instance : DecidableEq Report := inferInstanceAs (DecidableEq (List (Option (Pt × Pt))))
instance : DecidableEq (Report × Nat) := instDecidableEqProd
instance : DecidableEq (Report × Nat × Nat) := instDecidableEqProd
instance : DecidableEq (List Pt × Report × Nat) := instDecidableEqProd
instance : DecidableEq (List Pt × Report × Nat × Nat) := instDecidableEqProd

/-- The parameters of the optimization. -/
structure Params where
  dim : Nat
  /-- `minPointsInCluster` -/
  minPoints : Option Nat
  /-- What the `n`-th call of `newCluster` returns, given the centers it compares with. -/
  jump : Nat → List Pt → Pt

/-- `self.minPointsInCluster is not None and numpy.sum(selection) < self.minPointsInCluster` (411). -/
def Params.few (P : Params) (n : Nat) : Bool :=
  match P.minPoints with
  | none => false
  | some m => n < m

/-- The loop over the clusters (402-431): `done` are the clusters already treated. A center that has become nan is equal to no row. The
state is the number of calls of `newCluster`. -/
def move (P : Params) (assigned : List (Pt × Nat)) (weights : Option (List ℚ)) :
    List Pt → List Pt → Nat → Res (List Pt × Report × Nat)
  | done, [], n => .ok (done, [], n)
  | done, c :: rest, n =>
    let rs := residuals assigned done.length c
    let weighted : Res (List Pt) :=
      match weights with
      | none => .ok rs
      | some ws => weigh P.dim rs (((assigned.zip ws).filter (·.1.2 = done.length)).map (·.2))
    match weighted with
    | .error e => .error e
    | .ok rs' =>
      if P.few rs.length then
        match move P assigned weights (done ++ [P.jump n (done ++ c :: rest)]) rest (n + 1) with
        | .error e => .error e
        | .ok (cs, out, n') => .ok (cs, none :: out, n')
      else match meanRows P.dim rs' with
        | none =>
          match move P assigned weights (done ++ [P.jump n (done ++ rest)]) rest (n + 1) with
          | .error e => .error e
          | .ok (cs, out, n') => .ok (cs, none :: out, n')
        | some correction =>
          let c' := List.zipWith (· + ·) c correction
          match move P assigned weights (done ++ [c']) rest n with
          | .error e => .error e
          | .ok (cs, out, n') => .ok (cs, some (correction, c') :: out, n')

/-- `iterate` (383-434) without the call of the condition. -/
def iterate {K : Type} [LinearOrder K] (P : Params) (metric : Pt → Pt → K) (dataset : List Pt) (weights : Option (List ℚ)) (clusters : List Pt)
    (n : Nat) : Res (List Pt × Report × Nat) :=
  move P (dataset.map fun x => (x, closest metric clusters x)) weights [] clusters n

/-! ## Stopping conditions -/

/-- A condition, with the iteration number, the corrections and values, and the size of the dataset: `true` means continue. -/
abbrev Cond := Nat → Report → Nat → Bool

/-- `clusterJumped` (198-204). -/
def clusterJumped : Cond := fun _ rep _ => rep.all (·.isSome)

/-- `maxIterations` (206-212). -/
def maxIterations (number : Int) : Cond := fun it _ _ => decide ((it : Int) < number)

/-- `(numpy.absolute(x) < threshold).all()`. -/
def small (threshold : ℚ) (x : Pt) : Bool := x.all fun a => decide (|a| < threshold)

/-- `allChange` (214-222). -/
def allChange (threshold : ℚ) : Cond := fun _ rep _ => !(rep.filterMap id).all fun x => small threshold x.1

/-- `halfChange` (224-232): zero divided by zero is nan, which is not less than a half. -/
def halfChange (threshold : ℚ) : Cond := fun _ rep _ =>
  let moved := rep.filterMap id
  if moved.length = 0 then false
  else decide (((moved.countP fun x => small threshold x.1 : Nat) : ℚ) / (moved.length : ℚ) < 1 / 2)

/-- `printValue` and `printChange` (132-196), as conditions. -/
def printing : Cond := fun _ _ _ => true

/-- `whileall` (234-242). -/
def whileall (conds : List Cond) : Cond := fun it rep size => conds.all fun c => c it rep size

/-- `whileany` (244-252). -/
def whileany (conds : List Cond) : Cond := fun it rep size => conds.any fun c => c it rep size

/-- `moving` (254-262). -/
def moving : Cond := whileall [clusterJumped, allChange (1 / 10 ^ 15)]

/-! ## The optimization -/

/-- The loop of `optimize` (488-490) and of `stepup` (470-472). The result is the centers, the last report and the number of the last
iteration; `none` if it is not finished after `fuel` rounds. -/
def loop {K : Type} [LinearOrder K] (P : Params) (metric : Pt → Pt → K) (dataset : List Pt) (weights : Option (List ℚ)) (cond : Cond) :
    Nat → Nat → List Pt → Nat → Option (Res (List Pt × Report × Nat × Nat))
  | 0, _, _, _ => none
  | fuel + 1, it, clusters, n =>
    match iterate P metric dataset weights clusters n with
    | .error e => some (.error e)
    | .ok (cs, rep, n') =>
      if cond it rep dataset.length then loop P metric dataset weights cond fuel (it + 1) cs n'
      else some (.ok (cs, rep, it, n'))

/-- `trialSizes` of `stepup` (455-465), with the exact logarithm. -/
def trialSizes (base k rows : Nat) (minPoints maxPoints : Option Nat) : List Nat :=
  ((List.range (Nat.log base (maxPoints.getD rows) + 1)).map (base ^ ·)).filter fun s => decide (s > max k (minPoints.getD k))

/-! ## The result -/

/-- `centers(sort=False)` with the indexes, or in the order of the sorted centers (492-504, 554-556): `sorted` of pairs of a center and its
index. -/
def order (sort : Bool) (clusters : List Pt) : List (Pt × Nat) :=
  if sort then clusters.zipIdx.insertionSort (fun a b => a.1 < b.1 ∨ (a.1 = b.1 ∧ a.2 ≤ b.2)) else clusters.zipIdx

/-- A cluster as it is written. -/
structure Entry where
  center : Pt
  population : Option Nat
  id : String
  deriving DecidableEq

/-- `pfaValue` (531-561). -/
def pfaValue {K : Type} [LinearOrder K] (metric : Pt → Pt → K) (dataset clusters : List Pt) (ids : List String) (populations sort : Bool) :
    Res (List Entry) :=
  if ids.length ≠ clusters.length then .error (.py "TypeError")
  else .ok (List.zipWith (fun (i : String) (p : Pt × Nat) =>
    { center := p.1, population := if populations then some ((dataset.map (closest metric clusters)).count p.2) else none, id := i })
    ids (order sort clusters))

end Verif.Lloyd
