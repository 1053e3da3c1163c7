import Verif.Py.Basic
import Mathlib.Algebra.Order.Ring.Rat
import Mathlib.Data.String.Basic
/-! # Avro types and run-time data -/

namespace Verif.Avro

/-- A Python float.  Finite values are exact rationals: rounding is not modelled, and the two
zeros are identified.  Used wherever only order, equality and the special values matter. -/
inductive Flt where
  | nan
  | ninf
  | fin (q : Rat)
  | pinf
deriving DecidableEq

/-- JSON values and the run-time values of the engine: both are the same Python objects
(None, bool, int, float, str, list, dict); `bytes` only occurs at run time
(datatype.py 1262-1266). -/
inductive Val where
  | null
  | bool (b : Bool)
  | int (i : Int)
  | flt (f : Flt)
  | str (s : String)
  | bytes (b : List Nat)
  | arr (xs : List Val)
  | dict (d : List (String × Val))

/-- Name of a named type: namespace ("" for none) and short name
(`AvroCompiled`, datatype.py 303-318). -/
structure Name where
  ns : String
  short : String
deriving DecidableEq

/-- `AvroType` and its subclasses (datatype.py 159-573).  A record type is a reference to its
definition in a table (`Env`): Python holds a pointer to the avro schema object, which may be
cyclic. -/
inductive AType where
  | null | boolean | int | long | float | double | bytes | string
  | fixed (n : Name) (size : Nat)
  | enum (n : Name) (symbols : List String)
  | array (items : AType)
  | map (values : AType)
  | record (n : Name)
  | union (types : List AType)

/-- Sort order of a record field (datatype.py 617-620). -/
inductive Order where
  | ascending | descending | ignore
deriving DecidableEq

/-- `AvroField` (datatype.py 575-628).  `default = none` stands for a field without default or
with default `null`: the property `default` returns Python None in both cases (610-616). -/
structure Field where
  name : String
  type : AType
  default : Option Val := none
  order : Order := .ascending

/-- The record definitions known to a parser (`avro.schema.Names`). -/
abbrev Env := List (Name × List Field)

/-- Fields of a named record. -/
def Env.fields? (env : Env) (n : Name) : Option (List Field) := PyDict.get? env n

/-- `AvroType.name` (datatype.py 306-308, 352-397, 434-437, 484, 503, 569). The *short* name
for named types. -/
def AType.name : AType → String
  | .null => "null" | .boolean => "boolean" | .int => "int" | .long => "long"
  | .float => "float" | .double => "double" | .bytes => "bytes" | .string => "string"
  | .fixed n _ => n.short | .enum n _ => n.short | .record n => n.short
  | .array _ => "array" | .map _ => "map" | .union _ => "union"

/-! ## Decidable equality (used only to evaluate examples) -/

mutual
def Val.beq : Val → Val → Bool
  | .null, .null => true
  | .bool a, .bool b => a == b
  | .int a, .int b => a == b
  | .flt a, .flt b => decide (a = b)
  | .str a, .str b => a == b
  | .bytes a, .bytes b => a == b
  | .arr a, .arr b => Val.beqL a b
  | .dict a, .dict b => Val.beqD a b
  | _, _ => false
def Val.beqL : List Val → List Val → Bool
  | [], [] => true
  | x :: xs, y :: ys => Val.beq x y && Val.beqL xs ys
  | _, _ => false
def Val.beqD : List (String × Val) → List (String × Val) → Bool
  | [], [] => true
  | (k, x) :: xs, (l, y) :: ys => k == l && Val.beq x y && Val.beqD xs ys
  | _, _ => false
end

mutual
theorem Val.beq_iff (a b : Val) : Val.beq a b = true ↔ a = b := by
  match a, b with
  | .arr xs, .arr ys => simp [Val.beq, Val.beqL_iff xs ys]
  | .dict xs, .dict ys => simp [Val.beq, Val.beqD_iff xs ys]
  | .null, b => cases b <;> simp [Val.beq]
  | .bool _, b => cases b <;> simp [Val.beq]
  | .int _, b => cases b <;> simp [Val.beq]
  | .flt _, b => cases b <;> simp [Val.beq]
  | .str _, b => cases b <;> simp [Val.beq]
  | .bytes _, b => cases b <;> simp [Val.beq]
  | .arr _, .null | .arr _, .bool _ | .arr _, .int _ | .arr _, .flt _ | .arr _, .str _
  | .arr _, .bytes _ | .arr _, .dict _ => simp [Val.beq]
  | .dict _, .null | .dict _, .bool _ | .dict _, .int _ | .dict _, .flt _ | .dict _, .str _
  | .dict _, .bytes _ | .dict _, .arr _ => simp [Val.beq]
theorem Val.beqL_iff (a b : List Val) : Val.beqL a b = true ↔ a = b := by
  match a, b with
  | [], [] => simp [Val.beqL]
  | [], _ :: _ => simp [Val.beqL]
  | _ :: _, [] => simp [Val.beqL]
  | x :: xs, y :: ys => simp [Val.beqL, Val.beq_iff x y, Val.beqL_iff xs ys]
theorem Val.beqD_iff (a b : List (String × Val)) : Val.beqD a b = true ↔ a = b := by
  match a, b with
  | [], [] => simp [Val.beqD]
  | [], _ :: _ => simp [Val.beqD]
  | _ :: _, [] => simp [Val.beqD]
  | (k, x) :: xs, (l, y) :: ys =>
    simp [Val.beqD, Val.beq_iff x y, Val.beqD_iff xs ys]
end

instance : DecidableEq Val := fun a b =>
  decidable_of_iff _ (Val.beq_iff a b)

mutual
def AType.beq : AType → AType → Bool
  | .null, .null | .boolean, .boolean | .int, .int | .long, .long | .float, .float
  | .double, .double | .bytes, .bytes | .string, .string => true
  | .fixed n s, .fixed m t => decide (n = m) && s == t
  | .enum n s, .enum m t => decide (n = m) && s == t
  | .record n, .record m => decide (n = m)
  | .array a, .array b => AType.beq a b
  | .map a, .map b => AType.beq a b
  | .union a, .union b => AType.beqL a b
  | _, _ => false
def AType.beqL : List AType → List AType → Bool
  | [], [] => true
  | x :: xs, y :: ys => AType.beq x y && AType.beqL xs ys
  | _, _ => false
end

mutual
theorem AType.beq_iff (a b : AType) : AType.beq a b = true ↔ a = b := by
  cases a <;> cases b <;> simp only [AType.beq, Bool.false_eq_true, reduceCtorEq, Bool.and_eq_true,
    decide_eq_true_eq, beq_iff_eq, AType.fixed.injEq, AType.enum.injEq, AType.record.injEq,
    AType.array.injEq, AType.map.injEq, AType.union.injEq]
  · exact AType.beq_iff _ _
  · exact AType.beq_iff _ _
  · exact AType.beqL_iff _ _
theorem AType.beqL_iff (a b : List AType) : AType.beqL a b = true ↔ a = b := by
  match a, b with
  | [], [] => simp [AType.beqL]
  | [], _ :: _ => simp [AType.beqL]
  | _ :: _, [] => simp [AType.beqL]
  | x :: xs, y :: ys => simp [AType.beqL, AType.beq_iff x y, AType.beqL_iff xs ys]
end

instance : DecidableEq AType := fun a b => decidable_of_iff _ (AType.beq_iff a b)

end Verif.Avro
