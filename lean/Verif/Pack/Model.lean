import Verif.Avro.Compare
import Verif.Arith.Double
/-!
# Packing and unpacking bytes (C22)

Models `pack`, `unpackOne`, `unpack`, `unpackElse` of `titus/genpy.py` 1102-1264 and the declarations
of `titus/pfaast.py` 5509-5657.  The Python `struct` module is modelled on the formats used here
(`x ? b B h H i I q Q f d` with `<` or `>`), following its documentation.  Floating point formats:
decoding IEEE bit patterns is defined here; encoding is a parameter that must invert it (`FloatBits`).
-/

namespace Verif.Pack
open Verif.Avro (Flt Val numVal)

/-- The subclasses of `BinaryFormatter.Declare` (pfaast.py 5513-5657). -/
inductive Decl where
  | pad
  | boolean
  | byte (unsigned : Bool)
  | short (little unsigned : Bool)
  | int (little unsigned : Bool)
  | long (little unsigned : Bool)
  | float (little : Bool)
  | double (little : Bool)
  | raw
  | rawSize (n : Nat)
  | toNull
  | prefixed
deriving DecidableEq, Repr

/-! ## struct -/

/-- The low `w` bytes of a number, least significant first. -/
def lowBytes : Nat → Nat → List Nat
  | 0, _ => []
  | w + 1, n => n % 256 :: lowBytes w (n / 256)

/-- The number with these bytes, least significant first. -/
def leNat : List Nat → Nat
  | [] => 0
  | b :: bs => b + 256 * leNat bs

/-- Put bytes given least significant first into the order asked for, and back. -/
def order (little : Bool) (bs : List Nat) : List Nat := if little then bs else bs.reverse

/-- `struct.error` -/
def structErr : Err := .py "struct.error"

/-- `struct.pack` with an integer format of `w` bytes. -/
def packInt (w : Nat) (little unsigned : Bool) (v : Int) : Res (List Nat) :=
  if unsigned then
    if 0 ≤ v ∧ v < 2 ^ (8 * w) then .ok (order little (lowBytes w v.toNat)) else .error structErr
  else
    if -2 ^ (8 * w - 1) ≤ v ∧ v < 2 ^ (8 * w - 1) then .ok (order little (lowBytes w (v % 2 ^ (8 * w)).toNat))
    else .error structErr

/-- `struct.unpack` with an integer format of `w` bytes, given that many bytes. -/
def unpackInt (w : Nat) (little unsigned : Bool) (bs : List Nat) : Int :=
  let n : Nat := leNat (order little bs)
  if unsigned then n else if n < 2 ^ (8 * w - 1) then (n : Int) else (n : Int) - 2 ^ (8 * w)

/-- The number with sign, exponent and fraction fields as in IEEE 754; `eb` and `mb` are the widths of
the exponent and fraction fields. -/
def ieee (eb mb n : Nat) : Flt :=
  let frac := n % 2 ^ mb
  let ex := n / 2 ^ mb % 2 ^ eb
  let neg := n / 2 ^ (mb + eb) % 2 = 1
  let bias : Int := 2 ^ (eb - 1) - 1
  if ex = 2 ^ eb - 1 then
    if frac = 0 then (if neg then .ninf else .pinf) else .nan
  else
    let q : Rat := if ex = 0 then (frac : Rat) * 2 ^ (1 - bias - mb) else ((2 ^ mb + frac : Nat) : Rat) * 2 ^ ((ex : Int) - bias - mb)
    .fin (if neg then -q else q)

/-- `struct.unpack` with `f` and `d`. -/
def dec32 (little : Bool) (bs : List Nat) : Flt := ieee 8 23 (leNat (order little bs))
@[inherit_doc dec32] def dec64 (little : Bool) (bs : List Nat) : Flt := ieee 11 52 (leNat (order little bs))

/-- `struct.pack` with `f` and `d`; the bytes are given least significant first.  A number too large for
the format raises OverflowError. -/
structure FloatBits where
  enc32 : Flt → Res (List Nat)
  enc64 : Flt → Res (List Nat)

/-- Python truth value, as `struct.pack("?", value)` takes it. -/
def truthy : Val → Bool
  | .null => false
  | .bool b => b
  | .int i => i ≠ 0
  | .flt f => f ≠ .fin 0
  | .str s => s ≠ ""
  | .bytes b => b ≠ []
  | .arr a => a ≠ []
  | .dict d => d ≠ []

/-- The integer `struct.pack` sees: ints and bools only. -/
def asIndex : Val → Res Int
  | .int i => .ok i
  | .bool b => .ok (if b then 1 else 0)
  | _ => .error structErr

/-- `int(value)` (genpy.py 1151) for numbers; the type checker admits nothing else. -/
def toInt : Val → Res Int
  | .int i => .ok i
  | .bool b => .ok (if b then 1 else 0)
  | .flt (.fin q) => .ok (Arith.trunc q)
  | .flt .nan => .error (.py "ValueError")
  | .flt _ => .error (.py "OverflowError")
  | _ => .error (.py "TypeError")

/-- The number `struct.pack` sees for `f` and `d`. -/
def asFlt : Val → Res Flt
  | .int i => .ok (.fin i)
  | .bool b => .ok (.fin (if b then 1 else 0))
  | .flt f => .ok f
  | _ => .error structErr

/-! ## pack -/

/-- `bytes(map(ord, value))`, or the value itself when it already is bytes (genpy.py 1129-1132). -/
def rawOf : Val → Res (List Nat)
  | .bytes b => .ok b
  | .str s => if s.toList.all (fun c => c.toNat < 256) then .ok (s.toList.map Char.toNat) else .error (.py "ValueError")
  | _ => .error (.py "TypeError")

/-- `len(value)` -/
def lenOf : Val → Res Nat
  | .bytes b => .ok b.length
  | .str s => .ok s.toList.length
  | .arr a => .ok a.length
  | .dict d => .ok d.length
  | _ => .error (.py "TypeError")

/-- One item of `pack` (genpy.py 1121-1154).  The conversion of empty text (1122-1124) changes nothing:
the bytes of empty text are empty. -/
def packOne (F : FloatBits) : Decl → Val → Res (List Nat)
  | .raw, v => rawOf v
  | .rawSize n, v => do
    if (← lenOf v) ≠ n then .error (.rt 3000) else rawOf v
  | .toNull, v => do .ok ((← rawOf v) ++ [0])
  | .prefixed, v => do
    let n ← lenOf v
    if n > 255 then .error (.rt 3001) else .ok (n :: (← rawOf v))
  | .pad, _ => .ok [0]
  | .boolean, v => .ok [if truthy v then 1 else 0]
  | .byte u, v => do packInt 1 false u (← asIndex v)
  | .short l u, v => do packInt 2 l u (← asIndex v)
  | .int l u, v => do packInt 4 l u (← asIndex v)
  | .long l u, v => do packInt 8 l u (← toInt v)
  | .float l, v => do .ok (order l (← F.enc32 (← asFlt v)))
  | .double l, v => do .ok (order l (← F.enc64 (← asFlt v)))

/-- `pack` (genpy.py 1102-1156). -/
def pack (F : FloatBits) : List (Decl × Val) → Res (List Nat)
  | [] => .ok []
  | (d, v) :: rest => do
    let bs ← packOne F d v
    .ok (bs ++ (← pack F rest))

/-! ## unpack -/

/-- Number of bytes taken by the formats of fixed size: the third component of the declaration. -/
def Decl.size? : Decl → Option Nat
  | .pad | .boolean | .byte _ => some 1
  | .short .. => some 2
  | .int .. | .float _ => some 4
  | .long .. | .double _ => some 8
  | .rawSize n => some n
  | .raw | .toNull | .prefixed => none

/-- The value of the formats of fixed size, given that many bytes. -/
def fixedVal : Decl → List Nat → Val
  | .pad, _ => .null
  | .boolean, bs => .bool (bs ≠ [0])
  | .byte u, bs => .int (unpackInt 1 false u bs)
  | .short l u, bs => .int (unpackInt 2 l u bs)
  | .int l u, bs => .int (unpackInt 4 l u bs)
  | .long l u, bs => .int (unpackInt 8 l u bs)
  | .float l, bs => .flt (dec32 l bs)
  | .double l, bs => .flt (dec64 l bs)
  | _, bs => .bytes bs

/-- `unpackOne` on a bytes object (genpy.py 1162-1208); `none` is MisalignedPacking.  Unsized raw has
`l = None`, so its length test (1167) always fails. -/
def unpackOne (d : Decl) (bs : List Nat) : Option (Val × List Nat) :=
  match d with
  | .toNull => match bs.idxOf? 0 with
    | none => none
    | some i => some (.bytes (bs.take i), bs.drop (i + 1))
  | .prefixed => match bs with
    | [] => none
    | n :: bs => if (bs.take n).length ≠ n then none else some (.bytes (bs.take n), bs.drop n)
  | .raw => none
  | d => match d.size? with
    | none => none
    | some n => if (bs.take n).length ≠ n then none else some (fixedVal d (bs.take n), bs.drop n)

/-- `unpackOne` on text: the value of a `bytes` literal is a Python str (genpy.py 361, datatype.py
910-912).  `struct.unpack` and `str.index(bytes)` raise TypeError. -/
def unpackOneText (d : Decl) (s : List Char) : Res (Option (Val × List Char)) :=
  match d with
  | .toNull => .error (.py "TypeError")
  | .prefixed => match s with
    | [] => .ok none
    | c :: s => if (s.take c.toNat).length ≠ c.toNat then .ok none
      else .ok (some (.str (String.ofList (s.take c.toNat)), s.drop c.toNat))
  | .raw => .ok none
  | .rawSize n => if (s.take n).length ≠ n then .ok none else .ok (some (.str (String.ofList (s.take n)), s.drop n))
  | d => match d.size? with
    | none => .ok none
    | some n => if (s.take n).length ≠ n then .ok none else .error (.py "TypeError")

/-- The loop of `unpack` and `unpackElse` with the final length test (genpy.py 1228-1234, 1255-1264):
the variables bound in the then-scope, or `none` for the else branch. -/
def unpack : List (String × Decl) → List Nat → Option (List (String × Val))
  | [], bs => if bs.length ≠ 0 then none else some []
  | (s, d) :: fs, bs => match unpackOne d bs with
    | none => none
    | some (v, rest) => (unpack fs rest).map ((s, v) :: ·)

/-- `unpackElse` (1236-1264): which clause runs, with the variables of the then-scope.  `unpack`
(1210-1234) is the same with an empty else clause and result null. -/
def unpackElse {α : Type} (fs : List (String × Decl)) (bs : List Nat) (thenC : List (String × Val) → α) (elseC : α) : α :=
  match unpack fs bs with
  | some env => thenC env
  | none => elseC

end Verif.Pack
