import Verif.Pretty.Words
/-! # Types as text: model (C106)

Models `avscToPretty` (`titus/util.py` 337-399), which the inspector and, with `TYPE_ERRORS_IN_PRETTYPFA`, `ts` (24-42) use.

Simplifications.  The depth of recursion is bounded by fuel.  Sizes that are no integers and symbols, parameters and fields that are no lists are not
modelled; `lstrip` removes the white space of Lean. -/

namespace Verif.Pretty
open Avro Lex

/-- `" " * indent` -/
def blanks (k : Nat) : List Char := List.replicate k ' '

/-- `sep.join(parts)` -/
def joined (sep : List Char) : List (List Char) → List Char
  | [] => []
  | [p] => p
  | p :: ps => p ++ sep ++ joined sep ps

/-- `text.lstrip()` -/
def lstrip (cs : List Char) : List Char := cs.dropWhile Char.isWhitespace

/-- `avsc[k]` -/
def item (d : List (String × Val)) (k : String) : Res Val := match PyDict.get? d k with
  | some v => .ok v
  | none => .error (.py "KeyError")

/-- A string that is put into a text with `+`. -/
def textIn : Val → Res (List Char)
  | .str s => .ok s.toList
  | _ => .error (.py "TypeError")

/-- A list that is gone through. -/
def listIn : Val → Res (List Val)
  | .arr xs => .ok xs
  | _ => .error unmodelled

/-- The name with its namespace, 369-371, 378-380 and 384-386. -/
def nameText (d : List (String × Val)) : Res (List Char) := andThen (item d "name") fun n => match PyDict.get? d "namespace" with
  | none => textIn n
  | some ns => andThen (textIn ns) fun ns => if ns.isEmpty then textIn n else andThen (textIn n) fun n => .ok (ns ++ '.' :: n)

/-- `str(avsc["size"])` -/
def sizeText : Val → Res (List Char)
  | .int i => .ok (Lib.Num.fmt 10 i)
  | _ => .error unmodelled

/-- The kinds of line 359. -/
def primWords : List String := ["null", "boolean", "int", "long", "float", "double", "bytes", "string"]

/-- A record field, line 374. -/
def fieldText (show' : Val → Nat → Res (List Char)) (indent : Nat) : Val → Res (List Char)
  | .dict f => andThen (item f "name") fun n => andThen (textIn n) fun n => andThen (item f "type") fun t =>
    andThen (show' t (indent + 7 + n.length + 2)) fun t => .ok (blanks (indent + 7) ++ n ++ [':', ' '] ++ lstrip t)
  | _ => .error (.py "TypeError")

/-- A parameter of a function, line 354. -/
def argText (show' : Val → Nat → Res (List Char)) (p : Val × Nat) : Res (List Char) :=
  andThen (show' p.1 0) fun t => .ok ("arg".toList ++ Lib.Num.fmt 10 (p.2 + 1 : Nat) ++ [':', ' '] ++ t)

/-- `avscToPretty`, 337-399. -/
def shown : Nat → Val → Nat → Res (List Char)
  | 0, _, _ => .error (.py "RecursionError")
  | fuel + 1, v, indent => match v with
    | .str s => .ok (blanks indent ++ s.toList)
    | .dict d => match PyDict.get? d "type" with
      | none => .error (.py "TypeError")
      | some (.str k) =>
        if k = "function" then andThen (item d "params") fun ps => andThen (listIn ps) fun ps =>
          andThen (seq (ps.zipIdx.map (argText (shown fuel)))) fun ps => andThen (item d "ret") fun r => andThen (shown fuel r 0) fun r =>
          .ok (blanks indent ++ "fcn(".toList ++ joined [',', ' '] ps ++ " -> ".toList ++ r ++ [')'])
        else if k = "exception" then .ok "exception".toList
        else if k ∈ primWords then .ok (blanks indent ++ k.toList)
        else if k = "array" then andThen (item d "items") fun t => andThen (shown fuel t (indent + 6)) fun t =>
          .ok (blanks indent ++ "array(".toList ++ lstrip t ++ [')'])
        else if k = "map" then andThen (item d "values") fun t => andThen (shown fuel t (indent + 4)) fun t =>
          .ok (blanks indent ++ "map(".toList ++ lstrip t ++ [')'])
        else if k = "record" then andThen (nameText d) fun n => andThen (item d "fields") fun fs => andThen (listIn fs) fun fs =>
          andThen (seq (fs.map (fieldText (shown fuel) indent))) fun fs =>
          .ok (blanks indent ++ "record(".toList ++ n ++ [',', '\n'] ++ joined [',', '\n'] fs ++ [')'])
        else if k = "fixed" then andThen (nameText d) fun n => andThen (item d "size") fun s => andThen (sizeText s) fun s =>
          .ok (blanks indent ++ "fixed(".toList ++ s ++ [',', ' '] ++ n ++ [')'])
        else if k = "enum" then andThen (nameText d) fun n => andThen (item d "symbols") fun ss => andThen (listIn ss) fun ss =>
          andThen (seq (ss.map textIn)) fun ss =>
          .ok (blanks indent ++ "enum([".toList ++ joined [',', ' '] ss ++ [']', ',', ' '] ++ n ++ [')'])
        else .error (.py "TypeError")
      | some _ => .error (.py "TypeError")
    | .arr ts => andThen (seq (ts.map fun t => shown fuel t (indent + 6))) fun ts =>
      .ok (blanks indent ++ "union(".toList ++ lstrip (joined [',', '\n'] ts) ++ [')'])
    | _ => .error (.py "TypeError")

end Verif.Pretty
