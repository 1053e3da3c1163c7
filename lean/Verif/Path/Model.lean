import Verif.Avro.Basic
/-! # Path access: genpy.get and genpy.update -/

namespace Verif.Path
open Verif.Avro

/-- One evaluated path item: an array index or a map key / record field
(`reprPath`, genpy.py 146-159). -/
inductive Elem where
  | idx (i : Int)
  | key (k : String)
deriving DecidableEq

abbrev Path := List Elem

/-- Python `xs[i]` on a list, negative `i` counting from the end; `none` is IndexError. -/
def pyIndex {α : Type _} (xs : List α) (i : Int) : Option α :=
  if 0 ≤ i then xs[i.toNat]?
  else if 0 ≤ i + xs.length then xs[(i + xs.length).toNat]? else none

/-- The body of the loop of `get` (genpy.py 644-651): `obj[head]` with KeyError and IndexError
turned into the documented run-time errors.  Subscripting null, a boolean or a number, or a
list by a string, is a TypeError, which is not caught.  A Python `bytes` object indexed by an int
gives an int. -/
def getStep (arrayErr mapErr : Int) (obj : Val) (head : Elem) : Res Val :=
  match obj, head with
  | .arr xs, .idx i => match pyIndex xs i with
    | some x => .ok x
    | none => .error (.rt arrayErr)
  | .dict d, .key k => match PyDict.get? d k with
    | some x => .ok x
    | none => .error (.rt mapErr)
  | .dict _, .idx _ => .error (.rt mapErr)
  | .str s, .idx i => match pyIndex s.toList i with
    | some c => .ok (.str (String.ofList [c]))
    | none => .error (.rt mapErr)
  | .bytes b, .idx i => match pyIndex b i with
    | some c => .ok (.int c)
    | none => .error (.rt mapErr)
  | _, _ => .error (.py "TypeError")

/-- `get` (genpy.py 624-654). -/
def get (arrayErr mapErr : Int) : Val → Path → Res Val
  | obj, [] => .ok obj
  | obj, head :: tail =>
    match getStep arrayErr mapErr obj head with
    | .ok x => get arrayErr mapErr x tail
    | .error e => .error e

/-- A computation with mutable state `σ` that may raise; the state survives the exception. -/
abbrev SM (σ : Type _) (α : Type _) := σ → Res α × σ

/-- The loop of `update` over the items of a dict (genpy.py 687-693). -/
def updDict {σ : Type _} (f : Val → SM σ Val) (head : String) :
    List (String × Val) → SM σ (List (String × Val))
  | [], s => (.ok [], s)
  | (k, v) :: d, s =>
    if k = head then
      match f v s with
      | (.ok v', s) => match updDict f head d s with
        | (.ok d', s) => (.ok ((k, v') :: d'), s)
        | (.error e, s) => (.error e, s)
      | (.error e, s) => (.error e, s)
    else match updDict f head d s with
      | (.ok d', s) => (.ok ((k, v) :: d'), s)
      | (.error e, s) => (.error e, s)

/-- The loop of `update` over the items of a list (genpy.py 698-704); `i` is the loop index. -/
def updList {σ : Type _} (f : Val → SM σ Val) (head : Int) :
    Int → List Val → SM σ (List Val)
  | _, [], s => (.ok [], s)
  | i, x :: xs, s =>
    if i = head then
      match f x s with
      | (.ok x', s) => match updList f head (i + 1) xs s with
        | (.ok xs', s) => (.ok (x' :: xs'), s)
        | (.error e, s) => (.error e, s)
      | (.error e, s) => (.error e, s)
    else match updList f head (i + 1) xs s with
      | (.ok xs', s) => (.ok (x :: xs'), s)
      | (.error e, s) => (.error e, s)

/-- `update` (genpy.py 656-715).  `repl` (Python: `to`) is the replacement: a constant or a call of the user's
function on the old value (709-715), which may change the state `σ` (cells, pools, variables)
or raise.  A string head against a list raises TypeError at `head < 0` (or at `head >= len`);
an integer head never equals a dict key. -/
def updateM {σ : Type _} (arrayErr mapErr : Int) (repl : Val → SM σ Val) :
    Path → Val → SM σ Val
  | [], obj, s => repl obj s
  | head :: tail, obj, s =>
    match obj with
    | .dict d =>
      match head with
      | .key k =>
        if tail ≠ [] ∧ PyDict.has d k = false then (.error (.rt mapErr), s)
        else match updDict (updateM arrayErr mapErr repl tail) k d s with
          | (.ok d', s) => (.ok (.dict d'), s)
          | (.error e, s) => (.error e, s)
      | .idx _ => if tail ≠ [] then (.error (.rt mapErr), s) else (.ok (.dict d), s)
    | .arr xs =>
      match head with
      | .idx i =>
        if (tail ≠ [] ∧ i ≥ xs.length) ∨ i < 0 then (.error (.rt arrayErr), s)
        else match updList (updateM arrayErr mapErr repl tail) i 0 xs s with
          | (.ok xs', s) => (.ok (.arr xs'), s)
          | (.error e, s) => (.error e, s)
      | .key _ => (.error (.py "TypeError"), s)
    | _ => (.error (.py "Exception"), s)

/-- `update` with a replacement that has no side effect. -/
def update (arrayErr mapErr : Int) (repl : Val → Res Val) (path : Path) (obj : Val) : Res Val :=
  (updateM (σ := Unit) arrayErr mapErr (fun v s => (repl v, s)) path obj ()).1

end Verif.Path
