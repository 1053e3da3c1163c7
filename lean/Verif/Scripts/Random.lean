import Verif.Avro.Conf
/-! # Random data of a type: model (C105)

Models `scripts/pfarandom` 28-89: `unicodeRanges`, `typeName` and `makeData`.

Simplifications.  The random numbers are a sequence of naturals, any one of which a draw may take next; a draw from a range takes its remainder.
`random.random()` is a parameter.  The depth of recursion is bounded by fuel. -/

namespace Verif.Scripts
open Avro

/-- Lines 28-42. -/
def unicodeRanges : List (Nat × Nat) := [(0x0021, 0x0021), (0x0023, 0x0026), (0x0028, 0x007E), (0x00A1, 0x00AC), (0x00AE, 0x00FF),
  (0x0100, 0x017F), (0x0180, 0x024F), (0x2C60, 0x2C7F), (0x16A0, 0x16F0), (0x0370, 0x0377), (0x037A, 0x037E), (0x0384, 0x038A), (0x038C, 0x038C)]

/-- Line 43. -/
def unicodeAlphabet : List Char := unicodeRanges.flatMap fun r => (List.range (r.2 + 1 - r.1)).map fun i => Char.ofNat (r.1 + i)

/-- The draws, and what `random.random()` makes of one. -/
structure Rng where
  draw : Nat → Nat
  real : Nat → Flt

/-- `random.choice`; an empty list is an IndexError. -/
def choice {α : Type} (g : Rng) (xs : List α) (n : Nat) : Res (α × Nat) := match xs[g.draw n % xs.length]? with
  | some x => .ok (x, n + 1)
  | none => .error (.py "IndexError")

/-- `random.randint(lo, hi)`, both included. -/
def randint (g : Rng) (lo hi : Int) (n : Nat) : Int × Nat := (lo + (g.draw n % (hi - lo + 1).toNat : Nat), n + 1)

/-- `chr(random.randint(0, 255)) for x in range(k)`. -/
def byteChars (g : Rng) : Nat → Nat → List Char × Nat
  | 0, n => ([], n)
  | k + 1, n =>
    let (c, n) := randint g 0 255 n
    let (cs, n) := byteChars g k n
    (Char.ofNat c.toNat :: cs, n)

/-- `random.choice(unicodeAlphabet) for x in range(k)`. -/
def textChars (g : Rng) : Nat → Nat → Res (List Char × Nat)
  | 0, n => .ok ([], n)
  | k + 1, n => match choice g unicodeAlphabet n with
    | .error e => .error e
    | .ok (c, n) => match textChars g k n with
      | .error e => .error e
      | .ok (cs, n) => .ok (c :: cs, n)

/-- `AvroType.fullName`, datatype.py 316-318. -/
def fullName (n : Name) : String := if n.ns = "" then n.short else n.ns ++ "." ++ n.short

/-- `typeName`, lines 45-55, as a key of a dictionary: the objects and lists that it gives for arrays, maps and unions are a TypeError there. -/
def typeKey : AType → Res String
  | .fixed n _ => .ok (fullName n)
  | .enum n _ => .ok (fullName n)
  | .record n => .ok (fullName n)
  | .array _ => .error (.py "TypeError")
  | .map _ => .error (.py "TypeError")
  | .union _ => .error (.py "TypeError")
  | t => .ok t.name

/-- `k` values one after the other. -/
def several {α : Type} (f : Nat → Res (α × Nat)) : Nat → Nat → Res (List α × Nat)
  | 0, n => .ok ([], n)
  | k + 1, n => match f n with
    | .error e => .error e
    | .ok (x, n) => match several f k n with
      | .error e => .error e
      | .ok (xs, n) => .ok (x :: xs, n)

/-- The fields of a record, line 83. -/
def eachField (f : AType → Nat → Res (Val × Nat)) : List Field → Nat → Res (List (String × Val) × Nat)
  | [], n => .ok ([], n)
  | fd :: fs, n => match f fd.type n with
    | .error e => .error e
    | .ok (x, n) => match eachField f fs n with
      | .error e => .error e
      | .ok (xs, n) => .ok ((fd.name, x) :: xs, n)

/-- `dict(pairs)`: of a key the last one. -/
def dictOf (d : List (String × Val)) : List (String × Val) := d.foldl (fun a kv => PyDict.set a kv.1 kv.2) []

/-- A key and a value of a map, line 81. -/
def mapItem (g : Rng) (f : Nat → Res (Val × Nat)) (n : Nat) : Res ((String × Val) × Nat) := match textChars g 10 n with
  | .error e => .error e
  | .ok (k, n) => match f n with
    | .error e => .error e
    | .ok (x, n) => .ok ((String.ofList k, x), n)

/-- `makeData`, lines 57-89. -/
def makeData (g : Rng) (env : Env) : Nat → AType → Nat → Res (Val × Nat)
  | 0, _, _ => .error (.py "RecursionError")
  | m + 1, t, n => match t with
    | .null => .ok (.null, n)
    | .boolean => match choice g [true, false] n with
      | .error e => .error e
      | .ok (b, n) => .ok (.bool b, n)
    | .int => let (i, n) := randint g (-2147483648) 2147483647 n; .ok (.int i, n)
    | .long => let (i, n) := randint g (-9223372036854775808) 9223372036854775807 n; .ok (.int i, n)
    | .float => .ok (.flt (g.real (g.draw n)), n + 1)
    | .double => .ok (.flt (g.real (g.draw n)), n + 1)
    | .bytes => let (s, n) := byteChars g 10 n; .ok (.str (String.ofList s), n)
    | .fixed _ k => let (s, n) := byteChars g k n; .ok (.str (String.ofList s), n)
    | .string => match textChars g 10 n with
      | .error e => .error e
      | .ok (s, n) => .ok (.str (String.ofList s), n)
    | .enum _ syms => match choice g syms n with
      | .error e => .error e
      | .ok (s, n) => .ok (.str s, n)
    | .array t =>
      let (k, n) := randint g 0 10 n
      match several (makeData g env m t) k.toNat n with
      | .error e => .error e
      | .ok (xs, n) => .ok (.arr xs, n)
    | .map t =>
      let (k, n) := randint g 0 10 n
      match several (mapItem g (makeData g env m t)) k.toNat n with
      | .error e => .error e
      | .ok (d, n) => .ok (.dict (dictOf d), n)
    | .record nm => match env.fields? nm with
      | none => .error (.py "KeyError")
      | some fs => match eachField (makeData g env m) fs n with
        | .error e => .error e
        | .ok (d, n) => .ok (.dict (dictOf d), n)
    | .union ts => match choice g ts n with
      | .error e => .error e
      | .ok (t, n) => match t with
        | .null => .ok (.null, n)
        | t => match makeData g env m t n with
          | .error e => .error e
          | .ok (x, n) => match typeKey t with
            | .error e => .error e
            | .ok k => .ok (.dict [(k, x)], n)

end Verif.Scripts
