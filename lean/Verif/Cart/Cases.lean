import Verif.Cart.Load
/-! # Growing trees: cases and violations (C85, C86, C87) -/

namespace Verif.Cart
open Avro Lib Tree

/-- A sorting that satisfies what is asked for: insertion sort of the positions. -/
def argsort1 (xs : List ℚ) : List Nat := (List.range xs.length).insertionSort fun i j => xs.getD i 0 ≤ xs.getD j 0

theorem argsort1_sorts : Sorts argsort1 := by
  intro xs
  refine ⟨List.perm_insertionSort _ _, ?_⟩
  have tot : Std.Total (fun i j : Nat => xs.getD i 0 ≤ xs.getD j 0) := ⟨fun a b => le_total _ _⟩
  have tr : IsTrans Nat (fun i j : Nat => xs.getD i 0 ≤ xs.getD j 0) := ⟨fun a b c => le_trans⟩
  rw [List.pairwise_map]
  exact List.pairwise_insertionSort (fun i j : Nat => xs.getD i 0 ≤ xs.getD j 0) _

/-- The binary logarithm of some fractions, rounded to three digits. -/
def lg0 (q : ℚ) : ℚ :=
  if q = 1 / 2 then -1 else if q = 1 / 3 then -1585 / 1000 else if q = 2 / 3 then -585 / 1000 else if q = 1 / 4 then -2
  else if q = 3 / 4 then -415 / 1000 else 0

/-- Subsets of all sizes. -/
def w1 : World := ⟨lg0, argsort1, none⟩
/-- `maxSubsetSize = 1` -/
def w2 : World := ⟨lg0, argsort1, some 1⟩

/-- The leaves with their depths. -/
def leaves (r : Res Node) : Option (List (Col × Nat)) :=
  match r with
  | .ok t => some ((walkLeaves t).map fun p => (p.1.y, p.2))
  | .error _ => none

/-- Whether a result is this value. -/
def gives {α : Type} [DecidableEq α] (r : Res α) (x : α) : Bool := match r with | .ok y => decide (y = x) | .error _ => false

theorem gives_iff {α : Type} [DecidableEq α] {r : Res α} {x : α} : gives r x = true ↔ r = .ok x := by
  cases r <;> simp [gives]

/-! ## The theorems are not empty -/

/-- Four rows with a number and a text. -/
def d1 : Data := ⟨[.num [1, 2, 3, 4], .cat [0, 1, 0, 1] ["a", "b"]], ["x", "c"]⟩
/-- Their predictand. -/
def y1 : Col := .num [0, 10, 1, 11]
/-- Nothing optional. -/
def o0 : Opts := ⟨false, false, false, false, false, false, false⟩
/-- The fields of the data type. -/
def f1 : List (String × AType) := [("x", .double), ("c", .string)]

theorem d1_sound : Sound 4 d1 y1 where
  some_field := by decide
  names := by decide
  len := by decide
  ylen := by decide
  codes := by
    intro xs ns h
    simp only [d1, List.mem_cons, reduceCtorEq, Col.cat.injEq, List.not_mem_nil, or_false, false_or] at h
    obtain ⟨rfl, rfl⟩ := h
    decide
  ycodes := by intro xs ns h; cases h

example : fromRows none ["x", "c"] [[.real 1, .str "a"], [.real 2, .str "b"], [.real 3, .str "a"], [.real 4, .str "b"]] = .ok d1 := by
  rw [← gives_iff]; decide +kernel

/-- The tree has four leaves, at the depth 2. -/
example : leaves (splitComplete w1 d1 y1) = some [(.num [0], 2), (.num [1], 2), (.num [10], 2), (.num [11], 2)] := by decide +kernel

example : leaves (splitMaxDepth w1 1 d1 y1) = some [(.num [0, 1], 1), (.num [10, 11], 1)] := by decide +kernel

/-- The tree is split on the text first. -/
example : gives (bestField w1 y1 none 0 d1.fields) (some ⟨100, .cats [0], 1⟩) = true := by decide +kernel

/-- All hypotheses about documents hold. -/
example : gives (pfaValueType none d1 f1) (.union [.double, .array .string]) = true ∧ gives (pfaValueType (some 1) d1 f1) (.union [.double, .string]) = true ∧
    Floating .double d1 f1 ∧ o0.Fits y1 ∧ d1.names.Nodup ∧ (f1.map Prod.fst).Nodup ∧ pfaScoreType y1 ≠ "TreeNode" := by
  refine ⟨by decide +kernel, by decide +kernel, ⟨by decide, ?_⟩, ⟨rfl, rfl⟩, by decide, by decide, by decide⟩
  intro nm t h _
  simp only [f1, List.mem_cons, Prod.mk.injEq, List.not_mem_nil, or_false] at h
  rcases h with ⟨-, rfl⟩ | ⟨-, rfl⟩ <;> simp

/-- The document of a tree. -/
def written (w : World) (o : Opts) (fs : List (String × AType)) (d : Data) (y : Col) : Res Val :=
  match splitComplete w d y with
  | .ok t => pfaTree w o fs "TreeNode" t
  | .error e => .error e

/-- The document is loaded and used. -/
def scored (w : World) (o : Opts) (fs : List (String × AType)) (d : Data) (y : Col) (datum : Val) : Res Val :=
  match pfaValueType w.maxSub d fs with
  | .error e => .error e
  | .ok vt =>
    match written w o fs d y with
    | .error e => .error e
    | .ok v =>
      let env : Env := [(⟨"", "TreeNode"⟩, pfaType o y ⟨"", "DatumFields"⟩ fs vt "TreeNode")]
      match dec (fun _ => none) env 20 (.record ⟨"", "TreeNode"⟩) v with
      | .error e => .error e
      | .ok cell => predict env 5 (docTypes fs vt "TreeNode") datum cell 100

example : gives (scored w1 o0 f1 d1 y1 (.dict [("x", .flt (.fin 3)), ("c", .str "a")])) (.flt (.fin 1)) = true := by decide +kernel
example : gives (scored w2 o0 f1 d1 y1 (.dict [("x", .flt (.fin 3)), ("c", .str "a")])) (.flt (.fin 1)) = true := by decide +kernel
example : gives (scored w2 o0 f1 d1 y1 (.dict [("x", .flt (.fin 2)), ("c", .str "b")])) (.flt (.fin 10)) = true := by decide +kernel

/-- A tree for texts; the second node is split although it has one text only (`pure_violation`). -/
example : leaves (splitComplete w1 ⟨[.cat [0, 1, 2, 0] ["p", "q", "r"]], ["c"]⟩ (.cat [0, 1, 0, 0] ["no", "yes"])) =
    some [(.cat [1] ["no", "yes"], 1), (.cat [0, 0] ["no", "yes"], 2), (.cat [0] ["no", "yes"], 2)] := by decide +kernel

/-! ## Violations -/

/-- **C86 (violation).** With equal values the cut may not be the best one, and the gain that is reported is not that of the cut: the places among
equal values are taken for possible cuts. -/
theorem ties_violation : ∃ xs ys g c c', numVariance w1 xs ys = .ok (g, c) ∧ Separates (fun x => decide (x ≤ c)) xs ∧ Separates (fun x => decide (x ≤ c')) xs ∧
    g ≠ -loss (fun x => decide (x ≤ c)) xs ys ∧ loss (fun x => decide (x ≤ c')) xs ys < loss (fun x => decide (x ≤ c)) xs ys := by
  refine ⟨[1, 2, 2, 2, 3], [0, 1, 10, 10, 10], -1/2, 5/2, 3/2, ?_⟩
  rw [← gives_iff]
  refine ⟨by decide +kernel, ⟨⟨1, by decide, by decide +kernel⟩, ⟨3, by decide, by decide +kernel⟩⟩, ⟨⟨1, by decide, by decide +kernel⟩, ⟨3, by decide, by decide +kernel⟩⟩,
    by decide +kernel, by decide +kernel⟩

/-- **C86 (violation).** The cut may even leave one side without rows, so that the tree is not split although a cut with a gain exists. -/
theorem ties_leaf_violation : ∃ xs ys c', leaves (splitComplete w1 ⟨[.num xs], ["x"]⟩ (.num ys)) = some [(.num ys, 0)] ∧ canSplit (.num ys) = true ∧
    Separates (fun x => decide (x ≤ c')) xs ∧ loss (fun x => decide (x ≤ c')) xs ys < SS ys := by
  refine ⟨[1, 2, 2], [0, 5, 10], 3/2, by decide +kernel, by decide +kernel, ⟨⟨1, by decide, by decide +kernel⟩, ⟨2, by decide, by decide +kernel⟩⟩, by decide +kernel⟩

/-- **C86 (violation).** When a category has no rows (which is what happens below a split), places in the list of the categories that have rows
are taken for categories: the tree is not split although the categories tell the predictand. -/
theorem places_violation : ∃ xs ys, leaves (splitComplete w1 ⟨[.cat xs ["a", "b", "c"]], ["c"]⟩ (.num ys)) = some [(.num ys, 0)] ∧ canSplit (.num ys) = true ∧
    Separates (fun x => decide (x = 1)) xs ∧ loss (fun x => decide (x = 1)) xs ys = 0 ∧ (∀ x ∈ xs, x < 3) := by
  refine ⟨[1, 1, 2, 2], [0, 0, 1, 1], by decide +kernel, by decide +kernel, ⟨⟨1, by decide, by decide +kernel⟩, ⟨2, by decide, by decide +kernel⟩⟩, by decide +kernel, by decide⟩

/-- **C86 (violation).** For a number that tells a text the gain is not that of the cut: the rows above the cut are counted with one more. -/
theorem entropy_count_violation : ∃ xs codes g c, numEntropy w1 xs codes ["a", "b"] = .ok (g, c) ∧ Separates (fun x => decide (x ≤ c)) xs ∧
    entLoss lg0 2 (fun x => decide (x ≤ c)) xs codes = 0 ∧ g = -1/2 := by
  refine ⟨[1, 2], [0, 1], -1/2, 3/2, ?_⟩
  rw [← gives_iff]
  refine ⟨by decide +kernel, ⟨⟨1, by decide, by decide +kernel⟩, ⟨2, by decide, by decide +kernel⟩⟩, by decide +kernel, rfl⟩

/-- **C86 (violation).** The place behind the last row is taken for a cut, so that the tree is not split although a cut with a gain exists. -/
theorem entropy_leaf_violation : ∃ xs codes c', leaves (splitComplete w1 ⟨[.num xs], ["x"]⟩ (.cat codes ["a", "b"])) = some [(.cat codes ["a", "b"], 0)] ∧
    Separates (fun x => decide (x ≤ c')) xs ∧ entLoss lg0 2 (fun x => decide (x ≤ c')) xs codes < ent lg0 2 codes := by
  refine ⟨[1, 2, 3], [0, 1, 0], 3/2, by decide +kernel, ⟨⟨1, by decide, by decide +kernel⟩, ⟨2, by decide, by decide +kernel⟩⟩, by decide +kernel⟩

/-- **C85 (violation).** A node is to be split only when its predictand has more than one value; for texts one is enough. -/
theorem pure_violation : canSplit (.cat [0, 0] ["a", "b"]) = true ∧
    leaves (splitComplete w1 ⟨[.cat [0, 1] ["p", "q"]], ["c"]⟩ (.cat [0, 0] ["a", "b"])) = some [(.cat [0] ["a", "b"], 1), (.cat [0] ["a", "b"], 1)] := by
  decide +kernel

/-- **C85 (violation).** The depth 0 is not reached: the root is split anyway. -/
theorem depth_violation : leaves (splitMaxDepth w1 0 ⟨[.num [1, 2]], ["x"]⟩ (.num [0, 1])) = some [(.num [0], 1), (.num [1], 1)] := by decide +kernel

/-- **C87 (violation).** A tree of one leaf cannot be used: what is written is not a node. -/
theorem unsplit_violation : gives (written w1 o0 [("x", .double)] ⟨[.num [1, 2]], ["x"]⟩ (.num [5, 5])) (.dict [("double", .flt (.fin 5))]) = true ∧
    (match scored w1 o0 [("x", .double)] ⟨[.num [1, 2]], ["x"]⟩ (.num [5, 5]) (.dict [("x", .flt (.fin 1))]) with | .error e => decide (e = .avro) | .ok _ => false) = true := by
  decide +kernel

/-- **C87 (violation).** A field of integers has cuts that are not integers, which are truncated when the document is loaded: rows of the dataset
come to another leaf. -/
theorem integer_cut_violation : leaves (splitComplete w1 ⟨[.num [-2, -1]], ["x"]⟩ (.num [0, 1])) = some [(.num [0], 1), (.num [1], 1)] ∧
    gives (scored w1 o0 [("x", .int)] ⟨[.num [-2, -1]], ["x"]⟩ (.num [0, 1]) (.dict [("x", .int (-1))])) (.flt (.fin 0)) = true := by
  decide +kernel

/-- **C87 (violation).** With numbers of two types and texts, the tag of a number is the type of its field, which the union does not have: the
document cannot be loaded. -/
theorem tag_violation : gives (pfaValueType none ⟨[.num [1, 2], .num [1, 1], .cat [0, 0] ["a"]], ["x", "z", "c"]⟩ [("x", .float), ("z", .double), ("c", .string)])
      (.union [.double, .array .string]) = true ∧
    (match scored w1 o0 [("x", .float), ("z", .double), ("c", .string)] ⟨[.num [1, 2], .num [1, 1], .cat [0, 0] ["a"]], ["x", "z", "c"]⟩ (.num [0, 1])
      (.dict [("x", .flt (.fin 1)), ("z", .flt (.fin 1)), ("c", .str "a")]) with | .error e => decide (e = .avro) | .ok _ => false) = true := by
  decide +kernel

/-- Everything optional for texts. -/
def oDist : Opts := ⟨false, false, true, false, false, false, false⟩

/-- The distribution that is loaded. -/
def loadedDist (y : Col) : Res Val :=
  match distValue y with
  | .ok v => dec (fun _ => none) [] 5 (.map .int) v
  | .error e => .error e

/-- **C87 (violation).** The distribution has fractions, and the type has integers: what is loaded is 0. -/
theorem distribution_violation : gives (distValue (.cat [0, 1] ["a", "b"])) (.dict [("a", .flt (.fin (1/2))), ("b", .flt (.fin (1/2)))]) = true ∧
    gives (loadedDist (.cat [0, 1] ["a", "b"])) (.dict [("a", .int 0), ("b", .int 0)]) = true := by decide +kernel

end Verif.Cart
