import Verif.Py.Basic
import Verif.Avro.Basic
import Verif.Arith.Double
import Mathlib.Data.Int.Bitwise
/-! # Arithmetic and logic of the core library (lib/core.py, lib/pfamath.py) -/

namespace Verif.Arith
open Verif.Avro

/-- The type `paramTypes[0]` of an integer call. -/
inductive IType where
  | int | long
deriving DecidableEq, Repr

/-- lib/core.py 37-40. -/
def minVal : IType → Int
  | .int => -2147483648
  | .long => -9223372036854775808
def maxVal : IType → Int
  | .int => 2147483647
  | .long => 9223372036854775807

/-- `checkForOverflow` for int and long (lib/core.py 46-58).  `math.isnan` of an int is False; it
raises OverflowError for an int above the largest double, which the sums and products of two longs
never are. -/
def checkForOverflow (t : IType) (out : Int) (code1 code2 : Int) : Res Int :=
  match t with
  | .int => if out < minVal .int ∨ out > maxVal .int then .error (.rt code1) else .ok out
  | .long => if out < minVal .long ∨ out > maxVal .long then .error (.rt code2) else .ok out

/-- `+`, lib/core.py 62-68. -/
def plus (t : IType) (x y : Int) : Res Int := checkForOverflow t (x + y) 18000 18001
/-- `-`, lib/core.py 70-76. -/
def minus (t : IType) (x y : Int) : Res Int := checkForOverflow t (x - y) 18010 18011
/-- `*`, lib/core.py 78-84. -/
def times (t : IType) (x y : Int) : Res Int := checkForOverflow t (x * y) 18020 18021
/-- `u-`, lib/core.py 105-111. -/
def negative (t : IType) (x : Int) : Res Int := checkForOverflow t (-x) 18050 18051
/-- `m.abs`, lib/pfamath.py 63-69. -/
def mabs (t : IType) (x : Int) : Res Int :=
  checkForOverflow t (if x < 0 then -x else x) 27020 27021

/-- Python `x % y` for ints: the result has the sign of the divisor. -/
def pyMod (x y : Int) : Int := Int.fmod x y

/-- `%` on int and long, lib/core.py 113-125. -/
def modulo (x y : Int) : Res Int := if y = 0 then .error (.rt 18060) else .ok (pyMod x y)

/-- `%%` on int and long, lib/core.py 127-148 (`math.isnan` and `math.isinf` are False on ints). -/
def remainder (x y : Int) : Res Int :=
  if y = 0 then .error (.rt 18070)
  else
    let out := pyMod x y
    if x < 0 ∧ out > 0 then .ok (out - (if y < 0 then -y else y))
    else if x > 0 ∧ out < 0 then .ok (out + (if y < 0 then -y else y))
    else .ok out

/-- `//` on int and long, lib/core.py 94-103: `int(x / float(y))` in double arithmetic.  The type
plays no role: there is no overflow check. -/
def floorDivide (x y : Int) : Res Int :=
  if y = 0 then .error (.rt 18040) else .ok (trunc (rnd (rnd x / rnd y)))

/-- `powLikeJava`, lib/core.py 150-195, for int arguments (never NaN or infinite, `round(y) == y`).
`mathpow` is C's pow through `math.pow`; `none` is OverflowError. -/
def powLikeJava (mathpow : Int → Int → Option Flt) (x y : Int) : Flt :=
  if x = 0 ∧ y < 0 then .pinf
  else match mathpow x y with
    | some f => f
    | none =>
      if y = 0 then (if x < 0 then .nan else .fin 1)
      else if (|x| > 1 ∧ y < 0) ∨ (|x| < 1 ∧ y > 0) then .fin 0 else .pinf

/-- `**` on int and long, lib/core.py 197-215. -/
def pow (mathpow : Int → Int → Option Flt) (t : IType) (x y : Int) : Res Int :=
  let err : Res Int := .error (.rt (match t with
    | .int => 18080
    | .long => 18081))
  match powLikeJava mathpow x y with
  | .fin q => if q < minVal t ∨ q > maxVal t then err else .ok (trunc q)
  | _ => err

/-! ## Bitwise operators -/

/-- `&`, lib/core.py 394-403: Python ints are two's complement of unbounded width. -/
def bitAnd (x y : Int) : Int := Int.land x y
/-- `|`, lib/core.py 405-415. -/
def bitOr (x y : Int) : Int := Int.lor x y
/-- `^`, lib/core.py 417-426. -/
def bitXor (x y : Int) : Int := Int.xor x y
/-- `~`, lib/core.py 428-437. -/
def bitNot (x : Int) : Int := -x - 1

/-! ## Two- and three-valued logic.  An argument is a computation on a state `S` that may raise. -/

section
variable {S : Type}

abbrev Thunk (S : Type) := S → Res Val × S

/-- `&&`, lib/core.py 301-309: generated as `(x and y)`. -/
def logicalAnd (x y : Thunk S) : Thunk S := fun s =>
  match x s with
  | (.ok (.bool false), s) => (.ok (.bool false), s)
  | (.ok _, s) => y s
  | (.error e, s) => (.error e, s)

/-- `||`, lib/core.py 311-319. -/
def logicalOr (x y : Thunk S) : Thunk S := fun s =>
  match x s with
  | (.ok (.bool true), s) => (.ok (.bool true), s)
  | (.ok _, s) => y s
  | (.error e, s) => (.error e, s)

/-- `^^`, lib/core.py 321-327, on Python booleans. -/
def logicalXor (x y : Bool) : Bool := (x || y) && !(x && y)

/-- `v is b or v == {"boolean": b}`. -/
def isBool (b : Bool) (v : Val) : Bool :=
  decide (v = .bool b) || decide (v = .dict [("boolean", .bool b)])

/-- `{"boolean": b}` -/
def tagged (b : Bool) : Val := .dict [("boolean", .bool b)]

/-- `&&&`, lib/core.py 341-358. -/
def kleeneAnd (x y : Thunk S) : Thunk S := fun s =>
  match x s with
  | (.error e, s) => (.error e, s)
  | (.ok xval, s) =>
    if isBool false xval then (.ok (tagged false), s)
    else match y s with
      | (.error e, s) => (.error e, s)
      | (.ok yval, s) =>
        if isBool false yval then (.ok (tagged false), s)
        else if isBool true xval && isBool true yval then (.ok (tagged true), s)
        else (.ok .null, s)

/-- `|||`, lib/core.py 360-377. -/
def kleeneOr (x y : Thunk S) : Thunk S := fun s =>
  match x s with
  | (.error e, s) => (.error e, s)
  | (.ok xval, s) =>
    if isBool true xval then (.ok (tagged true), s)
    else match y s with
      | (.error e, s) => (.error e, s)
      | (.ok yval, s) =>
        if isBool true yval then (.ok (tagged true), s)
        else if isBool false xval && isBool false yval then (.ok (tagged false), s)
        else (.ok .null, s)

/-- `!!!`, lib/core.py 379-390. -/
def kleeneNot (x : Val) : Val :=
  if isBool true x then tagged false
  else if isBool false x then tagged true
  else .null

end

end Verif.Arith
