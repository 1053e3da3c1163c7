import Verif.Tree.Test
import Verif.Sig.Broadest
import Mathlib.Data.List.Dedup
import Mathlib.Data.List.Sort
import Mathlib.Algebra.Order.Field.Rat
/-!
# Growing decision and regression trees: model (C85, C86)

Models `titus/producer/cart.py`.

Simplifications.  Numbers are rational numbers and the sums, means and quotients of Numpy are exact; infinities, NaN and rounding are
left out.  The logarithm `numpy.log2` is a parameter: any function `lg`.  `numpy.argsort(..., kind="heapsort")` is a parameter too: any
function that gives an order of the positions (`Sorts`), because heapsort may put equal numbers in any order.  The limit of Python on the
depth of recursion is left out.
-/

namespace Verif.Cart
open Avro

/-! ## Datasets -/

/-- A `Dataset.Field` in its Numpy representation (38-56): numbers, or codes with `intToStr` as a list (`strToInt` is its inverse). -/
inductive Col
  | num (xs : List ℚ)
  | cat (xs : List Nat) (names : List String)
deriving DecidableEq

/-- `len(field.data)` -/
def Col.len : Col → Nat
  | .num xs => xs.length
  | .cat xs _ => xs.length

/-- `self.data[selection]` for an array of booleans. -/
def keep {α : Type} (sel : List Bool) (xs : List α) : List α := ((xs.zip sel).filter (·.2)).map (·.1)

/-- `Field.select` (81-99) -/
def Col.select (sel : List Bool) : Col → Col
  | .num xs => .num (keep sel xs)
  | .cat xs names => .cat (keep sel xs) names

/-- The order of texts in Python: by code points. -/
def strLe (a b : String) : Bool := decide (a.toList.map Char.toNat ≤ b.toList.map Char.toNat)

/-- `sorted(set(self.data))` (70) -/
def sortedSet (xs : List String) : List String := xs.dedup.insertionSort (fun a b => strLe a b = true)

/-- `Field.toNumpy` for strings (69-78): every text is replaced by its place among the sorted different texts. -/
def encode (xs : List String) : Col := .cat (xs.map (sortedSet xs).idxOf) (sortedSet xs)

/-- `Field.toPython` for strings (106-108) -/
def decode (codes : List Nat) (names : List String) : List String := codes.map (names.getD · "")

/-- A `Dataset` (111-113). -/
structure Data where
  fields : List Col
  names : List String
deriving DecidableEq

/-- `Dataset.__len__` (162-163); `fields[0]` raises without fields. -/
def Data.len (d : Data) : Res Nat :=
  match d.fields with
  | [] => .error (.py "IndexError")
  | f :: _ => .ok f.len

/-- Selection in every field (362-368). -/
def Data.select (sel : List Bool) (d : Data) : Data := ⟨d.fields.map (Col.select sel), d.names⟩

/-- A value in the rows given to `fromIterable`. -/
inductive Word
  | real (q : ℚ)
  | str (s : String)

/-- The columns as Python lists. -/
inductive Raw
  | real (xs : List ℚ)
  | str (xs : List String)

/-- `field.add(word)` after the `isinstance` test (154-158). -/
def Raw.add : Raw → Word → Res Raw
  | .real xs, .real q => .ok (.real (xs ++ [q]))
  | .str xs, .str s => .ok (.str (xs ++ [s]))
  | _, _ => .error (.py "ValueError")

/-- The empty field for a word of the first line (134-140). -/
def Raw.of : Word → Raw
  | .real _ => .real []
  | .str _ => .str []

/-- `toNumpy` (64-79) -/
def Raw.toNumpy : Raw → Col
  | .real xs => .num xs
  | .str xs => encode xs

/-- One line (151-158). -/
def addLine (fields : List Raw) (line : List Word) : Res (List Raw) :=
  if line.length ≠ fields.length then .error (.py "ValueError")
  else (line.zip fields).mapM fun p => p.2.add p.1

/-- The loop over the lines (132-158): `count` lines have been read. -/
def addLines (limit : Option Nat) : Nat → List Raw → List (List Word) → Res (List Raw)
  | _, fields, [] => .ok fields
  | count, fields, line :: lines =>
    match limit with
    | some l => if count ≥ l then .ok fields else
      match addLine fields line with
      | .error e => .error e
      | .ok f => addLines limit (count + 1) f lines
    | none =>
      match addLine fields line with
      | .error e => .error e
      | .ok f => addLines limit (count + 1) f lines

/-- `Dataset.fromIterable` (115-160) with given names; without names the fields are called var0, var1 and so on, which is left out. -/
def fromRows (limit : Option Nat) (names : List String) (rows : List (List Word)) : Res Data :=
  match rows with
  | [] => .ok ⟨[], names⟩
  | line :: _ =>
    if names.length ≠ line.length then .error (.py "ValueError")
    else match addLines limit 0 (line.map Raw.of) rows with
      | .error e => .error e
      | .ok fields => .ok ⟨fields.map Raw.toNumpy, names⟩

/-- `fromWholeDataset` (176-195): the predictand is taken out. -/
def fromWhole (d : Data) (predictand : String) : Res (Data × Col) :=
  if predictand ∈ d.names then
    let i := d.names.idxOf predictand
    match d.fields[i]? with
    | some y => .ok (⟨d.fields.take i ++ d.fields.drop (i + 1), d.names.take i ++ d.names.drop (i + 1)⟩, y)
    | none => .error (.py "IndexError")
  else .error (.py "ValueError")

/-! ## Arithmetic on columns -/

/-- `numpy.sum` -/
def total (xs : List ℚ) : ℚ := xs.sum

/-- `numpy.mean` -/
def mean (xs : List ℚ) : ℚ := total xs / xs.length

/-- `numpy.var` -/
def variance (xs : List ℚ) : ℚ := mean (xs.map fun x => (x - mean xs) ^ 2)

/-- `numpy.cumsum`, with what has been added before. -/
def cumsum (acc : ℚ) : List ℚ → List ℚ
  | [] => []
  | x :: xs => (acc + x) :: cumsum (acc + x) xs

/-- `numpy.argmax`: the first place of the largest number; `i` is the place of the head. -/
def argmaxFrom (best : ℚ) (place : Nat) : Nat → List ℚ → Nat
  | _, [] => place
  | i, x :: xs => if best < x then argmaxFrom x i (i + 1) xs else argmaxFrom best place (i + 1) xs

/-- `numpy.argmax`, which raises on an empty array. -/
def argmax : List ℚ → Res Nat
  | [] => .error (.py "ValueError")
  | x :: xs => .ok (argmaxFrom x 0 1 xs)

/-- `frac * numpy.log2(frac)` with NaN replaced by 0 (405-407). -/
def plogp (lg : ℚ → ℚ) (frac : ℚ) : ℚ := if frac = 0 then 0 else frac * lg frac

/-- `numpy.sum(data == category)` -/
def countEq (data : List Nat) (c : Nat) : Nat := data.countP (· == c)

/-- `predictandDistribution` (221-227) -/
def distribution (codes : List Nat) (names : List String) : List ℚ :=
  if codes.length > 0 then (List.range names.length).map fun c => (countEq codes c : ℚ) / codes.length
  else List.replicate names.length 0

/-! ## The best split of a field -/

/-- What is fixed while a tree grows: the logarithm, the sorting, and `maxSubsetSize`. -/
structure World where
  lg : ℚ → ℚ
  argsort : List ℚ → List Nat
  maxSub : Option Nat

/-- The `while` loop (431-433, 561-563): `k` places remain. -/
def nextHigher (values : List ℚ) (v : ℚ) : Nat → Nat → Nat
  | 0, j => j
  | k + 1, j => if values.getD j 0 = v then nextHigher values v k (j + 1) else j

/-- From the gains to the best gain and the cut (423-436, 553-566). -/
def pickCut (n : Nat) (values gains : List ℚ) : Res (ℚ × ℚ) :=
  match argmax gains.reverse with
  | .error e => .error e
  | .ok r =>
    let i := gains.length - 1 - r
    let j := nextHigher values (values.getD i 0) (n - 1 - i) i
    .ok (gains.getD i 0, (values.getD i 0 + values.getD j 0) / 2)

/-- One term of the gain of variance (541-551): `a`, `b`, `c` are number, sum and sum of squares up to a place, `A`, `B`, `C` of all. -/
def varGain (A B C a b c : ℚ) : ℚ := -(c - b ^ 2 / a) - ((C - c) - (B - b) ^ 2 / (A - a))

/-- `numericalNVarianceGainTerm` (519-566) -/
def numVariance (w : World) (xs ys : List ℚ) : Res (ℚ × ℚ) :=
  let idx := w.argsort xs
  let values := idx.map (xs.getD · 0)
  let ps := idx.map (ys.getD · 0)
  let sum1 := cumsum 0 (List.replicate values.length 1)
  let sumx := cumsum 0 ps
  let sumxx := cumsum 0 (ps.map (· ^ 2))
  let gains := (sum1.zip (sumx.zip sumxx)).dropLast.map fun p =>
    varGain (sum1.getLastD 0) (sumx.getLastD 0) (sumxx.getLastD 0) p.1 p.2.1 p.2.2
  pickCut ys.length values gains

/-- The two entropies at the place `i` (388-421), with the running counts `cums` of the categories; `all` is the last entry. -/
def entropyGain (lg : ℚ → ℚ) (n : Nat) (cums : List (List ℚ)) (i : Nat) : ℚ :=
  let numIn : ℚ := i + 1
  let numNot : ℚ := n - i
  let sel := cums.foldl (fun e cum => e - plogp lg (cum.getD i 0 / numIn)) 0
  let anti := cums.foldl (fun e cum => e - plogp lg ((cum.getLastD 0 - cum.getD i 0) / numNot)) 0
  0 - (numIn / n) * sel - (numNot / n) * anti

/-- `numericalEntropyGainTerm` (378-436) -/
def numEntropy (w : World) (xs : List ℚ) (codes : List Nat) (names : List String) : Res (ℚ × ℚ) :=
  let idx := w.argsort xs
  let values := idx.map (xs.getD · 0)
  let cats := idx.map (codes.getD · 0)
  let cums := (List.range names.length).map fun c => cumsum 0 (cats.map fun k => if k = c then 1 else 0)
  pickCut codes.length values ((List.range codes.length).map (entropyGain w.lg codes.length cums))

/-- `itertools.combinations` -/
def combinations {α : Type} : Nat → List α → List (List α)
  | 0, _ => [[]]
  | _ + 1, [] => []
  | k + 1, x :: xs => (combinations k xs).map (x :: ·) ++ combinations (k + 1) xs

/-- The loop over the combinations (482-515, 608-633): the first best. -/
def bestOf {α : Type} (f : α → ℚ) : Option (ℚ × α) → List α → Option (ℚ × α)
  | best, [] => best
  | none, x :: xs => bestOf f (some (f x, x)) xs
  | some (g, y), x :: xs => bestOf f (if f x > g then some (f x, x) else some (g, y)) xs

/-- `maxInformativeSubset` and `maxSubsetSize` (474-480, 600-606) -/
def largest (maxSub : Option Nat) (n : Nat) : Nat :=
  match maxSub with
  | none => (n + 1) / 2
  | some m => min m ((n + 1) / 2)

/-- All combinations that are tried (484-486, 610-612). -/
def tried {α : Type} (maxSub : Option Nat) (xs : List α) : List (List α) :=
  ((List.range (largest maxSub xs.length)).map fun k => combinations (k + 1) xs).flatten

/-- The gain of a set of categories (487-510). -/
def setEntropy (lg : ℚ → ℚ) (xs codes : List Nat) (remaining remainingY sel : List Nat) : ℚ :=
  let n : ℚ := codes.length
  let anti := remaining.filter (· ∉ sel)
  let numIn : ℚ := (sel.map fun i => (countEq xs i : ℚ)).sum
  let numAnti : ℚ := n - numIn
  let both (i j : Nat) : ℚ := ((xs.zip codes).countP (fun p => p.1 == i && p.2 == j) : ℚ)
  let selE := remainingY.foldl (fun e j => e - plogp lg ((sel.map (both · j)).sum / numIn)) 0
  let antiE := remainingY.foldl (fun e j => e - plogp lg ((anti.map (both · j)).sum / numAnti)) 0
  0 - (numIn / n) * selE - (numAnti / n) * antiE

/-- `categoricalEntropyGainTerm` (438-517) -/
def catEntropy (w : World) (xs : List Nat) (xnames : List String) (codes : List Nat) (names : List String) : Option (ℚ × List Nat) :=
  let remaining := (List.range xnames.length).filter fun i => countEq xs i > 0
  let remainingY := (List.range names.length).filter fun j => decide ((distribution codes names).getD j 0 > 0)
  bestOf (setEntropy w.lg xs codes remaining remainingY) none (tried w.maxSub remaining)

/-- The gain of a set of places in `fieldUniques` (613-628). -/
def setVariance (sums : List (ℚ × ℚ × ℚ)) (sel : List Nat) : ℚ :=
  let A := (sums.map (·.1)).sum
  let B := (sums.map (·.2.1)).sum
  let C := (sums.map (·.2.2)).sum
  let a := (sel.map fun i => (sums.getD i (0, 0, 0)).1).sum
  let b := (sel.map fun i => (sums.getD i (0, 0, 0)).2.1).sum
  let c := (sel.map fun i => (sums.getD i (0, 0, 0)).2.2).sum
  0 - (if a > 0 then c - b ^ 2 / a else 0) - (if A - a > 0 then (C - c) - (B - b) ^ 2 / (A - a) else 0)

/-- `numpy.unique(field.data)` -/
def uniqueCodes (xs : List Nat) : List Nat := xs.dedup.insertionSort (· ≤ ·)

/-- Number, sum and sum of squares of the predictand for each category (585-593). -/
def partSums (xs : List Nat) (ys : List ℚ) : List (ℚ × ℚ × ℚ) :=
  (uniqueCodes xs).map fun v =>
    let sel := keep (xs.map (· == v)) ys
    ((sel.length : ℚ), sel.sum, (sel.map (· ^ 2)).sum)

/-- `categoricalNVarianceGainTerm` (568-635).  The combination that is returned holds places in `fieldUniques`, not categories. -/
def catVariance (w : World) (xs : List Nat) (ys : List ℚ) : Option (ℚ × List Nat) :=
  bestOf (setVariance (partSums xs ys)) none (tried w.maxSub (List.range (uniqueCodes xs).length))

/-! ## Nodes -/

/-- `self.split`: a number, or a set of categories. -/
inductive Cut
  | num (c : ℚ)
  | cats (cs : List Nat)
deriving DecidableEq

/-- `self.gain`, `self.split`, `self.fieldIndex` (`self.field` is the field with this index). -/
structure Split where
  gain : ℚ
  cut : Cut
  index : Nat
deriving DecidableEq

/-- A TreeNode: the dataset, the predictand, and what `splitOnce` has added.  A leaf has been tried or not. -/
inductive Node
  | leaf (d : Data) (y : Col) (tried : Option Split)
  | node (d : Data) (y : Col) (s : Split) (pass fail : Node)

/-- The dataset of a node. -/
def Node.data : Node → Data
  | .leaf d _ _ => d
  | .node d _ _ _ _ => d

/-- The predictand of a node. -/
def Node.y : Node → Col
  | .leaf _ y _ => y
  | .node _ y _ _ _ => y

/-- `canSplit` (267-275) -/
def canSplit : Col → Bool
  | .num ys => ys.dedup.length > 1
  | .cat codes names => (distribution codes names).countP (· ≠ 0) > 0

/-- The entropy of a node (325-328). -/
def entropy (lg : ℚ → ℚ) (dist : List ℚ) : ℚ := dist.foldl (fun e frac => if frac ≠ 0 then e - frac * lg frac else e) 0

/-- `self.nTimesVariance` (299), `self.entropy` (325-328) -/
def constant (w : World) : Col → ℚ
  | .num ys => ys.length * variance ys
  | .cat codes names => entropy w.lg (distribution codes names)

/-- The gain term and the split of a field (306-312, 337-343); None makes `+=` raise. -/
def gainTerm (w : World) (y f : Col) : Res (ℚ × Cut) :=
  match y, f with
  | .num ys, .num xs => match numVariance w xs ys with | .ok (g, c) => .ok (g, .num c) | .error e => .error e
  | .num ys, .cat xs _ => match catVariance w xs ys with | some (g, c) => .ok (g, .cats c) | none => .error (.py "TypeError")
  | .cat cs ns, .num xs => match numEntropy w xs cs ns with | .ok (g, c) => .ok (g, .num c) | .error e => .error e
  | .cat cs ns, .cat xs xns => match catEntropy w xs xns cs ns with | some (g, c) => .ok (g, .cats c) | none => .error (.py "TypeError")

/-- The loop over the fields (304-321, 334-351). -/
def bestField (w : World) (y : Col) : Option Split → Nat → List Col → Res (Option Split)
  | best, _, [] => .ok best
  | best, i, f :: fs =>
    match gainTerm w y f with
    | .error e => .error e
    | .ok (g, cut) =>
      let gain := g + constant w y
      match best with
      | none => bestField w y (some ⟨gain, cut, i⟩) (i + 1) fs
      | some b => bestField w y (if gain > b.gain then some ⟨gain, cut, i⟩ else some b) (i + 1) fs

/-- `passSelection` (356-359) -/
def passSelection : Col → Cut → Res (List Bool)
  | .num xs, .num c => .ok (xs.map fun x => decide (x ≤ c))
  | .cat xs _, .cats cs => .ok (xs.map fun x => decide (x ∈ cs))
  | _, _ => .error (.py "TypeError")

/-- `splitOnce` (287-376) -/
def splitOnce (w : World) (d : Data) (y : Col) : Res Node :=
  match bestField w y none 0 d.fields with
  | .error e => .error e
  | .ok none => .error (.py "AttributeError")
  | .ok (some s) =>
    match d.fields[s.index]? with
    | none => .error (.py "AttributeError")
    | some f => match passSelection f s.cut with
      | .error e => .error e
      | .ok sel =>
        let pd := d.select sel
        let fd := d.select (sel.map not)
        match pd.len, fd.len with
        | .ok p, .ok q =>
          if p > 0 ∧ q > 0 then .ok (.node d y s (.leaf pd (y.select sel) none) (.leaf fd (y.select (sel.map not)) none))
          else .ok (.leaf d y (some s))
        | .error e, _ => .error e
        | _, .error e => .error e

/-- `splitUntil` (246-265).  `condition` sees the node after `splitOnce`.  `fuel` bounds the depth (`grow_fuel`: the size of the dataset
is enough). -/
def splitUntil (w : World) (condition : Node → Nat → Bool) : Nat → Nat → Data → Col → Res Node
  | fuel, depth, d, y =>
    if canSplit y then
      match fuel with
      | 0 => .error (.py "unfinished")
      | fuel + 1 =>
        match splitOnce w d y with
        | .error e => .error e
        | .ok (.leaf d y t) => .ok (.leaf d y t)
        | .ok (.node d y s (.leaf pd py tp) (.leaf fd fy tf)) =>
          if condition (.node d y s (.leaf pd py tp) (.leaf fd fy tf)) depth then
            match splitUntil w condition fuel (depth + 1) pd py, splitUntil w condition fuel (depth + 1) fd fy with
            | .ok p, .ok f => .ok (.node d y s p f)
            | .error e, _ => .error e
            | _, .error e => .error e
          else .ok (.node d y s (.leaf pd py tp) (.leaf fd fy tf))
        | .ok n => .ok n
    else .ok (.leaf d y none)

/-- The tree from a dataset: `splitUntil(condition)` with enough fuel. -/
def grow (w : World) (condition : Node → Nat → Bool) (d : Data) (y : Col) : Res Node := splitUntil w condition (y.len + 1) 1 d y

/-- `splitComplete` (232-235) -/
def splitComplete (w : World) (d : Data) (y : Col) : Res Node := grow w (fun _ _ => true) d y

/-- `splitMaxDepth` (237-244) -/
def splitMaxDepth (w : World) (maxDepth : Nat) (d : Data) (y : Col) : Res Node := grow w (fun _ depth => decide (depth < maxDepth)) d y

/-- `score` (277-285); the mean of nothing is NaN, which is left out (a node is not empty, `grown_nonempty`). -/
def score : Col → Res Val
  | .num ys => .ok (.flt (.fin (mean ys)))
  | .cat codes names => match argmax (distribution codes names) with
    | .error e => .error e
    | .ok i => match names[i]? with
      | some s => .ok (.str s)
      | none => .error (.py "KeyError")

/-- `walkNodes` (637-657) -/
def walkNodes (topDown : Bool) (depth : Nat) : Node → List (Node × Nat)
  | .leaf d y t => [(.leaf d y t, depth)]
  | .node d y s p f =>
    (if topDown then [(.node d y s p f, depth)] else []) ++ walkNodes topDown (depth + 1) p ++ walkNodes topDown (depth + 1) f ++
      (if topDown then [] else [(.node d y s p f, depth)])

/-- `hasattr(node, "passBranch")` -/
def Node.isLeaf : Node → Bool
  | .leaf _ _ _ => true
  | .node _ _ _ _ _ => false

/-- `walkLeaves` (659-668) -/
def walkLeaves (t : Node) : List (Node × Nat) := (walkNodes true 0 t).filter (·.1.isLeaf)

end Verif.Cart
