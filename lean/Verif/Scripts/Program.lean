import Verif.Lang.Whole
/-! # Programs that make random data of a type: model (C108)

Models `makePFA` of `scripts/pfarandom` 91-142 and the document that is written, 183-201.

Simplifications.  The document that `makePFA` writes is given as the tree that the reader makes of it (pfaast.py); types, which are written by
name (`typeName`, 45-55), are the types themselves.  The depth of recursion is bounded by fuel. -/

namespace Verif.Scripts
open Avro Sig Lang Ast

/-- `"size%d" % varcount` and the like. -/
def numbered (s : String) (v : Nat) : String := s ++ toString v

/-- The fields of a record, 133. -/
def eachExpr (f : AType → Res Ex) : List Field → Res (List (String × Ex))
  | [] => .ok []
  | fd :: fs => match f fd.type with
    | .error e => .error e
    | .ok x => match eachExpr f fs with
      | .error e => .error e
      | .ok xs => .ok ((fd.name, x) :: xs)

/-- The branches for the members of a union, 137, from the number `i` on. -/
def branches (f : AType → Res Ex) (which : String) : Nat → List AType → Res (List Ex)
  | _, [] => .ok []
  | i, t :: ts => match f t with
    | .error e => .error e
    | .ok x => match branches f which (i + 1) ts with
      | .error e => .error e
      | .ok xs => .ok (.if_ (.call "==" [.ref which, .litInt (.int i)]) [x] [] :: xs)

/-- The loop that adds to an array or a map, 111-120 and 122-131: the value to begin with, and what is assigned in each turn. -/
def loop (v : Nat) (t : AType) (empty : Val) (add : Ex) : Ex :=
  .do_ [
    .let_ [(numbered "size" v, .call "rand.int" [.litInt (.int 0), .litInt (.int 10)]), (numbered "out" v, .literal t empty)],
    .for_ [(numbered "i" v, .litInt (.int 0))] (.call "<" [.ref (numbered "i" v), .ref (numbered "size" v)])
      [(numbered "i" v, .call "+" [.ref (numbered "i" v), .litInt (.int 1)])] [.setVar [(numbered "out" v, add)]],
    .ref (numbered "out" v)]

/-- `makePFA`, 91-142. -/
def makePFA (env : Env) : Nat → AType → Nat → Res Ex
  | 0, _, _ => .error recErr
  | m + 1, t, v => match t with
    | .null => .ok .litNull
    | .boolean => .ok (.if_ (.call "==" [.call "rand.int" [.litInt (.int 0), .litInt (.int 2)], .litInt (.int 0)]) [.litBool true] [.litBool false])
    | .int => .ok (.call "rand.int" [])
    | .long => .ok (.call "rand.long" [])
    | .float => .ok (.call "rand.float" [.litFloat (.flt (.fin 0)), .litFloat (.flt (.fin 1))])
    | .double => .ok (.call "rand.double" [.litDouble (.flt (.fin 0)), .litDouble (.flt (.fin 1))])
    | .bytes => .ok (.call "rand.bytes" [.litInt (.int 10)])
    | .fixed n k => .ok (.call "fixed.fromBytes" [.literal (.fixed n k) (.str (String.ofList (List.replicate k (Char.ofNat 0)))), .call "rand.bytes" [.litInt (.int k)]])
    | .string => .ok (.call "rand.string" [.litInt (.int 10)])
    | .enum n syms => .ok (.call "rand.choice" [.literal (.array (.enum n syms)) (.arr (syms.map .str))])
    | .array i => match makePFA env m i (v + 1) with
      | .error e => .error e
      | .ok x => .ok (loop v (.array i) (.arr []) (.call "a.append" [.ref (numbered "out" v), x]))
    | .map i => match makePFA env m i (v + 1) with
      | .error e => .error e
      | .ok x => .ok (loop v (.map i) (.dict []) (.call "map.add" [.ref (numbered "out" v), .call "rand.string" [.litInt (.int 10)], x]))
    | .record n => match env.fields? n with
      | none => .error (.py "KeyError")
      | some fs => match eachExpr (fun t => makePFA env m t v) fs with
        | .error e => .error e
        | .ok xs => .ok (.newObject xs (.record n))
    | .union ts => match branches (fun t => makePFA env m t (v + 1)) (numbered "which" v) 0 ts with
      | .error e => .error e
      | .ok bs => .ok (.do_ [.let_ [(numbered "which" v, .call "rand.int" [.litInt (.int 0), .litInt (.int ts.length)])],
        .cond bs [.error "never gets here" none]])

/-- The document, 183-201: with a probability of an exception (and the message for it), there is another step before.  Name, seed, documentation,
metadata and options have no part in the check; the fields of an engine that are not written have the values of the reader (reader.py 206-247). -/
def randomDoc (env : Env) (m : Nat) (input output : AType) (version : Option Int) (exception : Option (Flt × String)) : Res Config :=
  match makePFA env m output 0 with
  | .error e => .error e
  | .ok e => .ok {
      method := .map, input, output, version, begin_ := [], end_ := [], merge := none,
      action := (match exception with
        | none => []
        | some (p, s) => [.if_ (.call "<" [.call "rand.double" [.litDouble (.flt (.fin 0)), .litDouble (.flt (.fin 1))], .litDouble (.flt p)]) [.error s none] []]) ++ [e] }

/-! ## The library -/

/-- The signatures of the functions that are called: lib/rand.py 44-45, 57-58, 70, 79, 90, 155-157, 176-178, lib/fixed.py 46, lib/array.py 285,
lib/map.py 124-125, lib/core.py 64, 229, 261. -/
def randomLib : List (String × List Sig1) :=
  let a : Pat := .wild "A" none
  [("rand.int", [⟨[], .int, ⟨none, none, none⟩⟩, ⟨[("low", .int), ("high", .int)], .int, ⟨none, none, none⟩⟩]),
   ("rand.long", [⟨[], .long, ⟨none, none, none⟩⟩, ⟨[("long", .long), ("high", .long)], .long, ⟨none, none, none⟩⟩]),
   ("rand.float", [⟨[("low", .float), ("high", .float)], .float, ⟨none, none, none⟩⟩]),
   ("rand.double", [⟨[("low", .double), ("high", .double)], .double, ⟨none, none, none⟩⟩]),
   ("rand.choice", [⟨[("population", .array a)], a, ⟨none, none, none⟩⟩]),
   ("rand.string", [⟨[("size", .int)], .string, ⟨none, none, none⟩⟩, ⟨[("size", .int), ("population", .string)], .string, ⟨none, none, none⟩⟩,
      ⟨[("size", .int), ("low", .int), ("high", .int)], .string, ⟨none, none, none⟩⟩]),
   ("rand.bytes", [⟨[("size", .int)], .bytes, ⟨none, none, none⟩⟩, ⟨[("size", .int), ("population", .bytes)], .bytes, ⟨none, none, none⟩⟩,
      ⟨[("size", .int), ("low", .int), ("high", .int)], .bytes, ⟨none, none, none⟩⟩]),
   ("fixed.fromBytes", [⟨[("original", .wildFixed "A"), ("replacement", .bytes)], a, ⟨none, none, none⟩⟩]),
   ("a.append", [⟨[("a", .array a), ("item", a)], .array a, ⟨none, none, none⟩⟩]),
   ("map.add", [⟨[("m", .map a), ("key", .string), ("value", a)], .map a, ⟨none, none, none⟩⟩, ⟨[("m", .map a), ("item", a)], .map a, ⟨none, none, none⟩⟩]),
   ("+", [⟨[("x", .wild "A" (some [.int, .long, .float, .double])), ("y", a)], a, ⟨none, none, none⟩⟩]),
   ("==", [⟨[("x", a), ("y", a)], .boolean, ⟨none, none, none⟩⟩]),
   ("<", [⟨[("x", a), ("y", a)], .boolean, ⟨none, none, none⟩⟩])]

end Verif.Scripts
