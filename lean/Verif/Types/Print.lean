import Verif.Avro.Basic
import Verif.Forward.Model

/-!
# Types as JSON: model (C99)

`jsonNode` of `AvroType` and its subclasses (`titus/datatype.py` 289-295, 419-430, 458-469, 487-488, 506-507, 535-549, 572-573,
621-628): the first time a named type is met it is printed with its definition, afterwards by its name; `memo` is the set of the full names
that were printed.

`readT` is `avro.schema.SchemaFromJSONData`, which belongs to the library `avro`.  Assumed of it, as in `Verif.Forward`: it goes through the
JSON from left to right with a dictionary of names, takes the namespace of a name without dots from the attribute `namespace` or from the
record around it, refuses names that are unknown, definitions of names that are known and names of Avro's own types, and adds a record to the names before its fields are
read.  What it checks of symbols, sizes, fields and members of unions is a parameter (`Checks`).

Simplified: the order `ascending` of a field and no order are not distinguished (`Avro.Field`), nor are no default and the default `null`.
-/

namespace Verif.Types
open Avro

/-- `fullName`, 313-318 -/
def full (n : Name) : String := if n.ns = "" then n.short else n.ns ++ "." ++ n.short

/-! ## Printing -/

/-- The names that were printed. -/
abbrev Memo := List String

/-- The name of a definition: 424-429, 463-468, 541-545. -/
def heading (n : Name) : List (String × Val) := if n.ns = "" then [("name", .str n.short)] else [("name", .str n.short), ("namespace", .str n.ns)]

/-- The word for an order. -/
def orderWord : Order → Option String
  | .ascending => none
  | .descending => some "descending"
  | .ignore => some "ignore"

/-- A field whose type is printed, 621-628. -/
def fieldNode (f : Field) (t : Val) : Val :=
  .dict ([("name", .str f.name), ("type", t)] ++ (match f.default with | none => [] | some v => [("default", v)]) ++
    (match orderWord f.order with | none => [] | some s => [("order", .str s)]))

section
variable (rec : Name → Memo → Val × Memo)

mutual
/-- `jsonNode`, where `rec` prints the definition of a record. -/
def nodeWith : AType → Memo → Val × Memo
  | .null, M => (.str "null", M)
  | .boolean, M => (.str "boolean", M)
  | .int, M => (.str "int", M)
  | .long, M => (.str "long", M)
  | .float, M => (.str "float", M)
  | .double, M => (.str "double", M)
  | .bytes, M => (.str "bytes", M)
  | .string, M => (.str "string", M)
  | .fixed n size, M => if full n ∈ M then (.str (full n), M) else (.dict ([("type", .str "fixed"), ("size", .int size)] ++ heading n), full n :: M)
  | .enum n symbols, M =>
    if full n ∈ M then (.str (full n), M) else (.dict ([("type", .str "enum"), ("symbols", .arr (symbols.map .str))] ++ heading n), full n :: M)
  | .array t, M => (.dict [("type", .str "array"), ("items", (nodeWith t M).1)], (nodeWith t M).2)
  | .map t, M => (.dict [("type", .str "map"), ("values", (nodeWith t M).1)], (nodeWith t M).2)
  | .record n, M => if full n ∈ M then (.str (full n), M) else rec n (full n :: M)
  | .union ts, M => (.arr (nodesWith ts M).1, (nodesWith ts M).2)
@[inherit_doc nodeWith] def nodesWith : List AType → Memo → List Val × Memo
  | [], M => ([], M)
  | t :: ts, M => ((nodeWith t M).1 :: (nodesWith ts (nodeWith t M).2).1, (nodesWith ts (nodeWith t M).2).2)
end

/-- The fields of a record, 546-548. -/
def fieldsWith : List Field → Memo → List Val × Memo
  | [], M => ([], M)
  | f :: fs, M => (fieldNode f (nodeWith rec f.type M).1 :: (fieldsWith fs (nodeWith rec f.type M).2).1, (fieldsWith fs (nodeWith rec f.type M).2).2)
end

/-- The definition of a record, 540-549.  The number bounds the records inside each other: with the number of all records it is never
used up, as no record is printed twice. -/
def printRec (env : Env) : Nat → Name → Memo → Val × Memo
  | 0, n, M => (.str (full n), M)
  | k + 1, n, M => (.dict ([("type", .str "record")] ++ heading n ++ [("fields", .arr (fieldsWith (printRec env k) ((env.fields? n).getD []) M).1)]),
      (fieldsWith (printRec env k) ((env.fields? n).getD []) M).2)

/-- `jsonNode(memo)` -/
def jsonNode (env : Env) (t : AType) (M : Memo) : Val × Memo := nodeWith (printRec env env.length) t M

/-- `toJson`, 289-291, before `json.dumps`. -/
def toJson (env : Env) (t : AType) : Val := (jsonNode env t []).1

/-- Types at several places, printed with one memo, as pfaast.py does with the types of a document. -/
def jsonNodes (env : Env) (ts : List AType) (M : Memo) : List Val × Memo := nodesWith (printRec env env.length) ts M

/-- `AvroPlaceholder.toJson`, 662-672: the default value `set()` of the parameter is made once, when the class is defined, so that all
calls without a memo share it; `M` is what it contains at the time of the call. -/
def placeholderToJson (env : Env) (t : AType) (M : Memo) : Val × Memo := jsonNode env t M

/-! ## Reading -/

/-- The name that a word stands for inside a namespace. -/
def nameIn (ns s : String) : Name :=
  if '.' ∈ s.toList then ⟨Forward.nsOf s, String.ofList (s.toList.reverse.takeWhile (· ≠ '.')).reverse⟩ else ⟨ns, s⟩

/-- Conditions on definitions and unions. -/
structure Checks where
  fixed : Name → Nat → Bool
  enum : Name → List String → Bool
  record : Name → List Field → Bool
  union : List AType → Bool

/-- Names that are known and the fields of records. -/
structure Tab where
  names : PyDict Name AType := []
  env : Env := []

/-- Avro's own types. -/
def prim? (s : String) : Option AType :=
  if s = "null" then some .null else if s = "boolean" then some .boolean else if s = "int" then some .int else if s = "long" then some .long
  else if s = "float" then some .float else if s = "double" then some .double else if s = "bytes" then some .bytes else if s = "string" then some .string else none

/-- Names that no type can be given. -/
def reserved : List String := ["null", "boolean", "int", "long", "float", "double", "bytes", "string", "fixed", "enum", "record", "error", "array", "map", "union", "request", "error_union"]

/-- A string at a key. -/
def strAt (d : List (String × Val)) (k : String) : Option String := match PyDict.get? d k with
  | some (.str s) => some s
  | _ => none

/-- The name of a definition. -/
def defName (ns : String) (d : List (String × Val)) : Option Name := (strAt d "name").map fun s => nameIn ((strAt d "namespace").getD ns) s

/-- A new name. -/
def define (T : Tab) (n : Name) (a : AType) : Option Tab :=
  if T.names.has n ∨ full n ∈ reserved then none else some { T with names := T.names.set n a }

/-- Strings. -/
def strings : List Val → Option (List String)
  | [] => some []
  | .str s :: vs => (strings vs).map (s :: ·)
  | _ :: _ => none

/-- Things in order. -/
def readL {α : Type} (f : Val → Tab → Option (α × Tab)) : List Val → Tab → Option (List α × Tab)
  | [], T => some ([], T)
  | v :: vs, T => match f v T with
    | none => none
    | some (a, T) => match readL f vs T with
      | none => none
      | some (as, T) => some (a :: as, T)

/-- The order of a field. -/
def orderOf (d : List (String × Val)) : Option Order := match PyDict.get? d "order" with
  | none => some .ascending
  | some (.str "ascending") => some .ascending
  | some (.str "descending") => some .descending
  | some (.str "ignore") => some .ignore
  | _ => none

/-- The default of a field, as `AvroField.default` gives it (610-616). -/
def defaultOf (d : List (String × Val)) : Option Val := match PyDict.get? d "default" with
  | some .null => none
  | o => o

/-- A field. -/
def readField (f : Val → Tab → Option (AType × Tab)) (v : Val) (T : Tab) : Option (Field × Tab) := match v with
  | .dict d => match strAt d "name", PyDict.get? d "type", orderOf d with
    | some n, some t, some o => (f t T).map fun r => (⟨n, r.1, defaultOf d, o⟩, r.2)
    | _, _, _ => none
  | _ => none

/-- The definition of a `fixed` type. -/
def readFixed (C : Checks) (ns : String) (d : List (String × Val)) (T : Tab) : Option (AType × Tab) := match defName ns d, PyDict.get? d "size" with
  | some n, some (.int (.ofNat k)) => if C.fixed n k then (define T n (.fixed n k)).map fun T => (.fixed n k, T) else none
  | _, _ => none

/-- The definition of an enumeration. -/
def readEnum (C : Checks) (ns : String) (d : List (String × Val)) (T : Tab) : Option (AType × Tab) := match defName ns d, PyDict.get? d "symbols" with
  | some n, some (.arr vs) => match strings vs with
    | some ss => if C.enum n ss then (define T n (.enum n ss)).map fun T => (.enum n ss, T) else none
    | none => none
  | _, _ => none

/-- The definition of a record: its name is known in its fields. -/
def readRecord (C : Checks) (f : String → Val → Tab → Option (AType × Tab)) (ns : String) (d : List (String × Val)) (T : Tab) : Option (AType × Tab) :=
  match defName ns d, PyDict.get? d "fields" with
  | some n, some (.arr vs) => match define T n (.record n) with
    | some T => match readL (readField (f n.ns)) vs T with
      | some (fs, T) => if C.record n fs then some (.record n, { T with env := T.env ++ [(n, fs)] }) else none
      | none => none
    | none => none
  | _, _ => none

/-- An array or a map. -/
def readColl (f : Val → Tab → Option (AType × Tab)) (k : String) (mk : AType → AType) (d : List (String × Val)) (T : Tab) : Option (AType × Tab) :=
  match PyDict.get? d k with
  | some v => (f v T).map fun r => (mk r.1, r.2)
  | none => none

/-- A JSON object. -/
def readDict (C : Checks) (f : String → Val → Tab → Option (AType × Tab)) (ns : String) (d : List (String × Val)) (T : Tab) : Option (AType × Tab) :=
  match strAt d "type" with
  | none => none
  | some k =>
    if k = "fixed" then readFixed C ns d T
    else if k = "enum" then readEnum C ns d T
    else if k = "record" then readRecord C f ns d T
    else if k = "array" then readColl (f ns) "items" .array d T
    else if k = "map" then readColl (f ns) "values" .map d T
    else (prim? k).map fun t => (t, T)

/-- `avro.schema.SchemaFromJSONData` and `schemaToAvroType` (98-146), with a bound on the depth. -/
def readT (C : Checks) : Nat → String → Val → Tab → Option (AType × Tab)
  | 0, _, _, _ => none
  | j + 1, ns, v, T => match v with
    | .str s => match prim? s with
      | some t => some (t, T)
      | none => (T.names.get? (nameIn ns s)).map fun t => (t, T)
    | .arr vs => match readL (readT C j ns) vs T with
      | some (ts, T) => if C.union ts then some (.union ts, T) else none
      | none => none
    | .dict d => readDict C (readT C j) ns d T
    | _ => none

end Verif.Types
