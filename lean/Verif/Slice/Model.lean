import Verif.Py.Basic
/-! # Slices: util.startEnd, util.negativeIndex, a./s./bytes. subseq and subseqto -/

namespace Verif.Slice

/-- `util.negativeIndex` (titus/util.py 181-195). -/
def negativeIndex (length index : Int) : Int :=
  if index ≥ 0 then index else length + index

/-- `util.startEnd` (titus/util.py 197-232), statement by statement. -/
def startEnd (length start end_ : Int) : Int × Int :=
  let normStart := if start ≥ 0 then start else length + start
  let normStart := if normStart < 0 then 0 else normStart
  let normStart := if normStart > length then length else normStart
  let normEnd := if end_ ≥ 0 then end_ else length + end_
  let normEnd := if normEnd < 0 then 0 else normEnd
  let normEnd := if normEnd > length then length else normEnd
  let normEnd := if normEnd < normStart then normStart else normEnd
  (normStart, normEnd)

/-- CPython `PySlice_AdjustIndices` for step 1, one bound: the meaning of an index in
`x[start:end]`.  Not titus code; the language primitive used at lib/array.py 75,
lib/pfastring.py 56, lib/bytes.py 57/59. -/
def adjust (length i : Int) : Int :=
  if i < 0 then (if i + length < 0 then 0 else i + length)
  else if i ≥ length then length else i

/-- `x[start:end]` for lists, strings and bytes. -/
def pySlice {α : Type _} (x : List α) (start end_ : Int) : List α :=
  let s := adjust x.length start
  let e := adjust x.length end_
  (x.drop s.toNat).take (e - s).toNat

/-- `x[:end]`. -/
def pySliceTo {α : Type _} (x : List α) (end_ : Int) : List α :=
  x.take (adjust x.length end_).toNat

/-- `x[start:]`. -/
def pySliceFrom {α : Type _} (x : List α) (start : Int) : List α :=
  x.drop (adjust x.length start).toNat

/-- `a.subseq` (lib/array.py 68-76) and `s.substr` (lib/pfastring.py 51-57). -/
def subseq {α : Type _} (a : List α) (start end_ : Int) : List α := pySlice a start end_

/-- `a.subseqto` (lib/array.py 122-131) and `s.substrto` (lib/pfastring.py 59-68). -/
def subseqto {α : Type _} (a : List α) (start end_ : Int) (replacement : List α) : List α :=
  let se := startEnd a.length start end_
  let before := pySliceTo a se.1
  let after := pySliceFrom a se.2
  before ++ replacement ++ after

/-- `util.bytesToString` (titus/util.py 401-416): `''.join(map(chr, list(value)))`.
A byte sequence is a list of naturals, a string a list of code points; `chr` accepts
code points up to 0x10FFFF (`ValueError`, re-raised as TypeError, above). -/
def bytesToString (value : List Nat) : Res (List Nat) :=
  if value.all (fun b => decide (b < 0x110000)) then .ok value else .error (.py "TypeError")

/-- `util.stringToBytes` (titus/util.py 418-433): `bytes(map(ord, list(value)))`;
`bytes` rejects numbers above 255 (`ValueError`, re-raised as TypeError). -/
def stringToBytes (value : List Nat) : Res (List Nat) :=
  if value.all (fun c => decide (c < 256)) then .ok value else .error (.py "TypeError")

/-- A value of PFA type bytes at run time: a Python `str` (what the checker produces) or a
Python `bytes`. -/
inductive PBytes where
  | str (chars : List Nat)
  | bytes (bs : List Nat)
deriving DecidableEq, Repr

/-- `bytes.subseq` (lib/bytes.py 51-60). -/
def bytesSubseq (x : PBytes) (start end_ : Int) : Res (List Nat) :=
  match x with
  | .str s => .ok (pySlice s start end_)
  | .bytes b => bytesToString (pySlice b start end_)

/-- The conversion at lib/bytes.py 67-70. -/
def toRaw : PBytes → Res (List Nat)
  | .str s => stringToBytes s
  | .bytes b => .ok b

/-- `bytes.subseqto` (lib/bytes.py 62-75). -/
def bytesSubseqto (x : PBytes) (start end_ : Int) (replacement : PBytes) : Res (List Nat) := do
  let replacement ← toRaw replacement
  let x ← toRaw x
  let se := startEnd x.length start end_
  let before := pySliceTo x se.1
  let after := pySliceFrom x se.2
  bytesToString (before ++ replacement ++ after)

end Verif.Slice
