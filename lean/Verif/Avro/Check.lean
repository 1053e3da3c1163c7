import Verif.Avro.JsonWit
import Verif.Slice.Model
/-!
# `checkData` (datatype.py 1183-1334): the check of every datum given to an engine (C09)

Without numpy (`booleanTypes`, `integerTypes` and `floatTypes` empty, 1178-1181).
-/

namespace Verif.Avro

/-- TypeError. -/
def tyErr : Err := .py "TypeError"

/-- `[f(x) for x in data]` over the elements Python iterates: list items, characters of text, keys of
a dict, numbers of `bytes`; `none` when the value has no `__iter__` (line 1276). -/
def iterVals : Val → Option (List Val)
  | .arr xs => some xs
  | .str s => some (s.toList.map (fun c => .str (String.singleton c)))
  | .dict d => some (d.map (fun kv => .str kv.1))
  | .bytes b => some (b.map (fun n : Nat => .int n))
  | _ => none

/-- The loop over a dict (lines 1284-1291); keys are text. -/
def chkMap (f : Val → Res Val) : List (String × Val) → List (String × Val) → Res (List (String × Val))
  | [], out => .ok out
  | (k, x) :: d, out => match f x with
    | .ok y => chkMap f d (PyDict.set out k y)
    | .error e => .error e

/-- `data[i]` and the check of its value for a list (line 1285), then TypeError since the key is not
text (line 1291). -/
def chkAt (f : Val → Res Val) (xs : List Val) (i : Int) : Res Val :=
  if -(xs.length : Int) ≤ i then
    match xs[(if i < 0 then i + xs.length else i).toNat]? with
    | some x => match f x with
      | .ok _ => .error tyErr
      | .error e => .error e
    | none => .error (.py "IndexError")
  else .error (.py "IndexError")

/-- The same for a list whose first element is `key`. -/
def chkListAsMap (f : Val → Res Val) (xs : List Val) (key : Val) : Res Val :=
  match key with
  | .int i => chkAt f xs i
  | .bool b => chkAt f xs (if b then 1 else 0)
  | _ => .error tyErr

/-- The record loop (lines 1299-1305); `get` is `data[field.name]`, `none` for a missing key. -/
def chkFields (f : AType → Val → Res Val) (get : String → Option Val) :
    List Field → List (String × Val) → Res (List (String × Val))
  | [], out => .ok out
  | fd :: fs, out => match get fd.name with
    | none => .error tyErr
    | some x => match f fd.type x with
      | .ok y => chkFields f get fs (PyDict.set out fd.name y)
      | .error e => .error e

/-- The tag loop (lines 1314-1320). -/
def chkTag (f : AType → Val → Res Val) (tag : String) (x : Val) : List AType → Res Val
  | [] => .error tyErr
  | t :: ts => if t.name = tag then
      (if tag = "null" then f t x else Res.app (fun u => .dict [(tag, u)]) (f t x))
    else chkTag f tag x ts

/-- The loop over the types (lines 1322-1331): only TypeError is caught. -/
def chkFirst (f : AType → Val → Res Val) (v : Val) : List AType → Res Val
  | [] => .error tyErr
  | t :: ts => match f t v with
    | .ok u => .ok (if t.name = "null" then u else .dict [(t.name, u)])
    | .error e => if e = tyErr then chkFirst f v ts else .error e

/-- `str` to int (lines 1210-1213, 1224-1227). -/
def chkInt (v : Val) : Res Val :=
  match v with
  | .str s => match Lib.Num.pyInt 10 s.toList with
    | some i => .ok (.int i)
    | none => .error tyErr
  | .int i => .ok (.int i)
  | .bool b => .ok (.bool b)
  | _ => .error tyErr

/-- Floats (lines 1237-1250, 1252-1265). -/
def chkFlt (pf : List Char → Option Flt) (v : Val) : Res Val :=
  match v with
  | .str s => match pf s.toList with
    | some f => .ok (.flt f)
    | none => .error tyErr
  | .int i => Res.app .flt (intToFlt i)
  | .bool b => .ok (.flt (.fin (if b then 1 else 0)))
  | .flt f => .ok (.flt f)
  | _ => .error tyErr

/-- Bytes and fixed (lines 1267-1272): text is turned into a `bytes` object. -/
def chkBytes (v : Val) : Res Val :=
  match v with
  | .bytes b => .ok (.bytes b)
  | .str s => Res.app .bytes (Slice.stringToBytes (s.toList.map Char.toNat))
  | _ => .error tyErr

/-- One level of `checkData` (lines 1186-1334). -/
def chkStep (pf : List Char → Option Flt) (env : Env) (f : AType → Val → Res Val) (t : AType) (v : Val) : Res Val :=
  match t with
  | .null => match v with
    | .str s => if s = "null" then .ok .null else .error tyErr
    | .null => .ok .null
    | _ => .error tyErr
  | .boolean => match v with
    | .str s => if s = "true" then .ok (.bool true) else if s = "false" then .ok (.bool false) else .error tyErr
    | .bool b => .ok (.bool b)
    | _ => .error tyErr
  | .int => chkInt v
  | .long => chkInt v
  | .float => chkFlt pf v
  | .double => chkFlt pf v
  | .bytes => chkBytes v
  | .fixed _ _ => chkBytes v
  | .string => match v with
    | .str s => .ok (.str s)
    | _ => .error tyErr
  | .enum _ _ => match v with
    | .str s => .ok (.str s)
    | _ => .error tyErr
  | .array t => match iterVals v with
    | some xs => Res.app .arr (mapR (f t) xs)
    | none => .error tyErr
  | .map t => match v with
    | .dict d => Res.app .dict (chkMap (f t) d [])
    | .arr [] => .ok (.dict [])
    | .arr (x :: xs) => chkListAsMap (f t) (x :: xs) x
    | .str s => if s = "" then .ok (.dict []) else .error tyErr
    | .bytes [] => .ok (.dict [])
    | .bytes (x :: xs) => chkListAsMap (f t) ((x :: xs).map (fun n : Nat => .int n)) (.int x)
    | _ => .error tyErr
  | .record n => match env.fields? n with
    | none => .error (.py "KeyError")
    | some fs => match v with
      | .dict d => Res.app .dict (chkFields f (PyDict.get? d) fs [])
      | .arr _ | .str _ | .bytes _ => if fs = [] then .ok (.dict []) else .error tyErr
      | _ => .error tyErr
  | .union ts => match v with
    | .dict [(tag, x)] => chkTag f tag x ts
    | _ => chkFirst f v ts

/-- `checkData` (lines 1183-1334). -/
def chk (pf : List Char → Option Flt) (env : Env) : Nat → AType → Val → Res Val
  | 0 => fun _ _ => .error recErr
  | n + 1 => chkStep pf env (chk pf env n)

end Verif.Avro
