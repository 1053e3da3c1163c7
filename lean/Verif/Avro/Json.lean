import Verif.Avro.Conf
import Verif.Arith.Double
import Verif.Lib.Num
/-!
# `jsonDecoder` and `jsonEncoder` (datatype.py 873-1028): model

Recursion is bounded by fuel; running out of fuel is Python's RecursionError.  The theorems about
termination show that fuel only runs out when the defaults of the record fields nest for ever.
-/

namespace Verif.Avro

/-- Out of fuel. -/
def recErr : Err := .py "RecursionError"

mutual
/-- Whether a Python `bytes` object occurs in the value: `json.dumps` then raises TypeError. -/
def hasBytes : Val → Bool
  | .bytes _ => true
  | .arr xs => hasBytesL xs
  | .dict d => hasBytesD d
  | _ => false
def hasBytesL : List Val → Bool
  | [] => false
  | x :: xs => hasBytes x || hasBytesL xs
def hasBytesD : List (String × Val) → Bool
  | [] => false
  | (_, x) :: xs => hasBytes x || hasBytesD xs
end

/-- The exception of line 953 (and 937, 994, 1028): AvroException, unless formatting its message
fails. -/
def mismatch (v : Val) : Err := if hasBytes v then .py "TypeError" else .avro

/-- Integers from here on round to a value above the largest double. -/
@[irreducible] def dblLimit : Nat := 2 ^ 1024 - 2 ^ 970

/-- `float(i)` for an int: OverflowError from `2^1024 - 2^970` on, where rounding to the nearest
double overflows. -/
def intToFlt (i : Int) : Res Flt :=
  if i.natAbs < dblLimit then .ok (.fin (Arith.rnd i)) else .error (.py "OverflowError")

/-- `int(value)` with ValueError and TypeError caught (lines 894-897).  Floats are truncated,
infinities raise OverflowError, bools are 0 and 1, text and bytes are parsed. -/
def toInt (v : Val) : Res Int :=
  match v with
  | .bool b => .ok (if b then 1 else 0)
  | .int i => .ok i
  | .flt (.fin q) => .ok (Arith.trunc q)
  | .flt .nan => .error (mismatch v)
  | .flt _ => .error (.py "OverflowError")
  | .str s => match Lib.Num.pyInt 10 s.toList with
    | some i => .ok i
    | none => .error (mismatch v)
  | .bytes b => match Lib.Num.pyInt 10 (b.map Char.ofNat) with
    | some i => .ok i
    | none => .error (mismatch v)
  | _ => .error (mismatch v)

/-- `float(value)` with ValueError and TypeError caught (lines 904-907).  `pf` is the parser of
`float(str)`, left arbitrary. -/
def toFlt (pf : List Char → Option Flt) (v : Val) : Res Flt :=
  match v with
  | .bool b => .ok (.fin (if b then 1 else 0))
  | .int i => intToFlt i
  | .flt f => .ok f
  | .str s => match pf s.toList with
    | some f => .ok f
    | none => .error (mismatch v)
  | .bytes b => match pf (b.map Char.ofNat) with
    | some f => .ok f
    | none => .error (mismatch v)
  | _ => .error (mismatch v)

/-- `[f(x) for x in xs]`. -/
def mapR {α β : Type} (f : α → Res β) : List α → Res (List β)
  | [] => .ok []
  | x :: xs => match f x with
    | .error e => .error e
    | .ok y => match mapR f xs with
      | .error e => .error e
      | .ok ys => .ok (y :: ys)

/-- `dict((k, f(v)) for k, v in d.items())`: the keys of `d` are distinct. -/
def mapD (f : Val → Res Val) (d : List (String × Val)) : Res (List (String × Val)) :=
  mapR (fun kv => match f kv.2 with | .ok y => .ok (kv.1, y) | .error e => .error e) d

/-- The record loop (lines 929-937); `e` is the exception of line 937. -/
def decFields (f : AType → Val → Res Val) (d : List (String × Val)) (e : Err) :
    List Field → List (String × Val) → Res (List (String × Val))
  | [], out => .ok out
  | fd :: fs, out => match PyDict.get? d fd.name with
    | some x => match f fd.type x with
      | .ok y => decFields f d e fs (PyDict.set out fd.name y)
      | .error e' => .error e'
    | none => match fd.default with
      | some x => match f fd.type x with
        | .ok y => decFields f d e fs (PyDict.set out fd.name y)
        | .error e' => .error e'
      | none => if fd.type = .null then decFields f d e fs (PyDict.set out fd.name .null) else .error e

/-- `dict((x.name, x) for x in avroType.types)` (line 943): the last type of a name wins. -/
def tagTypes (ts : List AType) : List (String × AType) :=
  ts.foldl (fun d t => PyDict.set d t.name t) []

/-- Apply a constructor to a successful result. -/
def Res.app {α β : Type} (c : α → β) : Res α → Res β
  | .ok a => .ok (c a)
  | .error e => .error e

/-- One level of `jsonDecoder` (lines 885-953). -/
def decStep (pf : List Char → Option Flt) (env : Env) (f : AType → Val → Res Val) (t : AType) (v : Val) : Res Val :=
  match t with
  | .null => match v with
    | .null => .ok .null
    | _ => .error (mismatch v)
  | .boolean => match v with
    | .bool b => .ok (.bool b)
    | _ => .error (mismatch v)
  | .int => Res.app .int (toInt v)
  | .long => Res.app .int (toInt v)
  | .float => Res.app .flt (toFlt pf v)
  | .double => Res.app .flt (toFlt pf v)
  | .bytes => match v with
    | .str s => .ok (.str s)
    | _ => .error (mismatch v)
  | .fixed _ k => match v with
    | .str s => if s.length = k then .ok (.str s) else .error (mismatch v)
    | _ => .error (mismatch v)
  | .string => match v with
    | .str s => .ok (.str s)
    | _ => .error (mismatch v)
  | .enum _ syms => match v with
    | .str s => if s ∈ syms then .ok (.str s) else .error (mismatch v)
    | _ => .error (mismatch v)
  | .array t => match v with
    | .arr xs => Res.app .arr (mapR (f t) xs)
    | _ => .error (mismatch v)
  | .map t => match v with
    | .dict d => Res.app .dict (mapD (f t) d)
    | _ => .error (mismatch v)
  | .record n => match v with
    | .dict d => match env.fields? n with
      | some fs => Res.app .dict (decFields f d (mismatch v) fs [])
      | none => .error (.py "KeyError")
    | _ => .error (mismatch v)
  | .union ts => match v with
    | .dict [(tag, x)] => match PyDict.get? (tagTypes ts) tag with
      | some t => Res.app (fun u => .dict [(tag, u)]) (f t x)
      | none => .error (mismatch v)
    | .null => if "null" ∈ ts.map AType.name then .ok .null else .error (mismatch v)
    | _ => .error (mismatch v)

/-- `jsonDecoder` (lines 873-953). -/
def dec (pf : List Char → Option Flt) (env : Env) : Nat → AType → Val → Res Val
  | 0 => fun _ _ => .error recErr
  | n + 1 => decStep pf env (dec pf env n)

/-- The record loop of the encoder (lines 987-994). -/
def encFields (f : AType → Val → Res Val) (d : List (String × Val)) (e : Err) :
    List Field → List (String × Val) → Res (List (String × Val))
  | [], out => .ok out
  | fd :: fs, out => match PyDict.get? d fd.name with
    | some x => match f fd.type x with
      | .ok y => encFields f d e fs (PyDict.set out fd.name y)
      | .error e' => .error e'
    | none => match fd.default with
      | some _ => encFields f d e fs out
      | none => .error e

/-- The loops over the types of a union (lines 1001-1011, 1012-1021): the first type that encodes the
value; only AvroException is caught. -/
def encFirst (tagged : Bool) (f : AType → Val → Res Val) (x : Val) : List AType → Res (Option Val)
  | [] => .ok none
  | t :: ts => match f t x with
    | .ok out => .ok (some (if tagged then .dict [(t.name, out)] else out))
    | .error .avro => encFirst tagged f x ts
    | .error e => .error e

/-- The first loop runs when the value is a dict with one entry (line 999). -/
def encTagged (tagged : Bool) (f : AType → Val → Res Val) (ts : List AType) (v : Val) : Res (Option Val) :=
  match v with
  | .dict [(_, x)] => encFirst tagged f x ts
  | _ => .ok none

/-- One level of `jsonEncoder` (lines 968-1028). -/
def encStep (tagged : Bool) (env : Env) (f : AType → Val → Res Val) (t : AType) (v : Val) : Res Val :=
  match t with
  | .null => match v with
    | .null => .ok .null
    | _ => .error (mismatch v)
  | .boolean => match v with
    | .bool b => .ok (.bool b)
    | _ => .error (mismatch v)
  | .int => match v with
    | .int i => .ok (.int i)
    | _ => .error (mismatch v)
  | .long => match v with
    | .int i => .ok (.int i)
    | _ => .error (mismatch v)
  | .float => match v with
    | .int i => Res.app .flt (intToFlt i)
    | .flt x => .ok (.flt x)
    | _ => .error (mismatch v)
  | .double => match v with
    | .int i => Res.app .flt (intToFlt i)
    | .flt x => .ok (.flt x)
    | _ => .error (mismatch v)
  | .bytes => match v with
    | .str s => .ok (.str s)
    | _ => .error (mismatch v)
  | .fixed _ k => match v with
    | .str s => if s.length = k then .ok (.str s) else .error (mismatch v)
    | _ => .error (mismatch v)
  | .string => match v with
    | .str s => .ok (.str s)
    | _ => .error (mismatch v)
  | .enum _ syms => match v with
    | .str s => if s ∈ syms then .ok (.str s) else .error (mismatch v)
    | _ => .error (mismatch v)
  | .array t => match v with
    | .arr xs => Res.app .arr (mapR (f t) xs)
    | _ => .error (mismatch v)
  | .map t => match v with
    | .dict d => Res.app .dict (mapD (f t) d)
    | _ => .error (mismatch v)
  | .record n => match v with
    | .dict d => match env.fields? n with
      | some fs => Res.app .dict (encFields f d (mismatch v) fs [])
      | none => .error (.py "KeyError")
    | _ => .error (mismatch v)
  | .union ts =>
    if .null ∈ ts ∧ v = .null then .ok .null
    else match encTagged tagged f ts v with
      | .error e => .error e
      | .ok (some out) => .ok out
      | .ok none => match encFirst tagged f v ts with
        | .error e => .error e
        | .ok (some out) => .ok out
        | .ok none => .error (mismatch v)

/-- `jsonEncoder` (lines 955-1028). -/
def enc (tagged : Bool) (env : Env) : Nat → AType → Val → Res Val
  | 0 => fun _ _ => .error recErr
  | n + 1 => encStep tagged env (enc tagged env n)

/-! ## Equality of Python values: dicts compare without regard to order -/

inductive PyEq : Val → Val → Prop
  | refl (v : Val) : PyEq v v
  | arr {xs ys : List Val} : xs.length = ys.length → (∀ i (h : i < xs.length) (h' : i < ys.length), PyEq xs[i] ys[i]) →
      PyEq (.arr xs) (.arr ys)
  | dict {d e : List (String × Val)} : (∀ k, (PyDict.get? d k).isSome ↔ (PyDict.get? e k).isSome) →
      (∀ k x y, PyDict.get? d k = some x → PyDict.get? e k = some y → PyEq x y) → PyEq (.dict d) (.dict e)

end Verif.Avro
