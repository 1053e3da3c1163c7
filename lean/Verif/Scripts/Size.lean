import Verif.Scripts.External
import Mathlib.Data.List.Infix
/-! # Counting what is in cells and pools: model (C104)

Models `scripts/pfasize` 26-119: `CurrentCounter`, `doValue`, `doArray`, `doMap` and the loop.

Simplifications.  As in `External.lean`.  What is written on the screen for a cell is the list of the counters written, each of which overwrites the
one before; the blanks that make lines longer are not modelled. -/

namespace Verif.Scripts
open Avro Producer

/-- `CurrentCounter`, lines 26-34. -/
structure Counter where
  strings : Int
  characters : Int
  numbers : Int
  atomics : Int
  arrayItems : Int
  objectValues : Int
  maxDepth : Int
deriving DecidableEq

/-- A new counter. -/
def Counter.zero : Counter := ⟨0, 0, 0, 0, 0, 0, 0⟩

/-- What is printed for a cell or pool: the section, the name, and the counters written. -/
abbrev Report := String × String × List Counter

/-- The reports so far, the counter if there is one, and what was written from it. -/
structure Sizing where
  reports : List Report
  cur : Option (Counter × List Counter)

/-- A change of the counter, if there is one. -/
def Sizing.count (s : Sizing) (f : Counter → Counter) : Sizing := { s with cur := s.cur.map fun c => (f c.1, c.2) }

/-- Lines 49-61. -/
def countLeaf (v : Val) (c : Counter) : Counter := match v with
  | .str s => { c with strings := c.strings + 1, characters := c.characters + s.length }
  | .null => { c with atomics := c.atomics + 1 }
  | .bool _ => { c with atomics := c.atomics + 1 }
  | _ => { c with numbers := c.numbers + 1 }

/-- Lines 66-70 and 84-88. -/
def Sizing.enter (s : Sizing) (depth : Nat) : Sizing :=
  { s with cur := s.cur.map fun c =>
      let d : Counter := { c.1 with maxDepth := if (depth : Int) > c.1.maxDepth then depth else c.1.maxDepth }
      (d, c.2 ++ [d]) }

/-- `shouldTrack`, line 95. -/
def tracked (st : List Step) (k : String) : Option (String × String) := match st with
  | [.key s, .key n] => if (s = "cells" ∨ s = "pools") ∧ k = "init" then some (s, n) else none
  | _ => none

section
variable (next : Bool)

mutual
/-- `doValue`, lines 44-63. -/
def sizeValue : Nat → Event → List Event → List Step → Sizing → Res (List Event × Sizing)
  | 0, _, _, _, _ => .error .timeout
  | n + 1, e, es, st, s => match e with
    | .startArr => sizeArray n 0 es st (s.enter st.length)
    | .startMap => sizeMap n es st (s.enter st.length)
    | .leaf v => .ok (es, s.count (countLeaf v))
    | _ => .error (.py "ValueError")
/-- The loop of `doArray`, lines 72-81. -/
def sizeArray : Nat → Nat → List Event → List Step → Sizing → Res (List Event × Sizing)
  | 0, _, _, _, _ => .error .timeout
  | _ + 1, _, [], _, s => .ok ([], s)
  | _ + 1, _, .endArr :: es, _, s => .ok (es, s)
  | n + 1, i, e :: es, st, s =>
    match sizeValue n e es (st ++ [.idx i]) (s.count fun c => { c with arrayItems := c.arrayItems + 1 }) with
    | .error e => .error e
    | .ok (es, s) => sizeArray n (i + 1) es st s
/-- The loop of `doMap`, lines 90-114. -/
def sizeMap : Nat → List Event → List Step → Sizing → Res (List Event × Sizing)
  | 0, _, _, _ => .error .timeout
  | _ + 1, [], _, s => .ok ([], s)
  | n + 1, .key k :: es, st, s =>
    match sizePair n k es st (s.count fun c => { c with objectValues := c.objectValues + 1 }) with
    | .error e => .error e
    | .ok (es, s) => sizeMap n es st s
  | _ + 1, .endMap :: es, _, s => .ok (es, s)
  | _ + 1, _ :: _, _, _ => .error (.py "ValueError")
/-- A key and its value, lines 95-109. -/
def sizePair : Nat → String → List Event → List Step → Sizing → Res (List Event × Sizing)
  | 0, _, _, _, _ => .error .timeout
  | n + 1, k, es, st, s =>
    if next then match es with
      | [] => .error (.py "StopIteration")
      | e :: es => match s.cur, tracked st k with
        | none, some (sec, name) => match sizeValue n e es (st ++ [.key k]) { s with cur := some (Counter.zero, []) } with
          | .error e => .error e
          | .ok (es, s) => .ok (es, ⟨s.reports ++ [(sec, name, (s.cur.map Prod.snd).getD [])], none⟩)
        | _, _ => sizeValue n e es (st ++ [.key k]) s
    else .error (.py "AttributeError")
end

/-- The loop of lines 118-119. -/
def sizeLoop (fuel : Nat) : Nat → List Event → Sizing → Res Sizing
  | 0, _, _ => .error .timeout
  | _ + 1, [], s => .ok s
  | n + 1, e :: es, s => match sizeValue next fuel e es [] s with
    | .error e => .error e
    | .ok (es, s) => sizeLoop fuel n es s

/-- What the program prints, with enough fuel. -/
def size (es : List Event) : Res (List Report) := match sizeLoop next (2 * es.length + 2) (es.length + 1) es ⟨[], none⟩ with
  | .error e => .error e
  | .ok s => .ok s.reports
end

/-! ## Specification -/

/-- Opening brackets. -/
def Event.opens : Event → Bool
  | .startArr => true
  | .startMap => true
  | _ => false

/-- Closing brackets. -/
def Event.closes : Event → Bool
  | .endArr => true
  | .endMap => true
  | _ => false

/-- The strings among events. -/
def strings (es : List Event) : List String := es.filterMap fun e => match e with | .leaf (.str s) => some s | _ => none

/-- Null, true and false. -/
def Event.atomic : Event → Bool
  | .leaf .null => true
  | .leaf (.bool _) => true
  | _ => false

/-- Numbers. -/
def Event.number : Event → Bool
  | .leaf (.int _) => true
  | .leaf (.flt _) => true
  | .leaf (.bytes _) => true
  | _ => false

/-- The keys of objects. -/
def Event.isKey : Event → Bool
  | .key _ => true
  | _ => false

/-- Values begin with these. -/
def Event.value : Event → Bool
  | .leaf _ => true
  | e => e.opens

/-- How many brackets are open. -/
def level (es : List Event) : Int := (es.countP Event.opens : Int) - es.countP Event.closes

/-- What a beginning of the data of a cell contains: of the values, one is the data itself, the others are items of arrays or values of keys; the
data is three levels deep in the document. -/
structure Contains (es : List Event) (c : Counter) : Prop where
  strings : c.strings = (Scripts.strings es).length
  characters : c.characters = ((Scripts.strings es).map fun s => (s.length : Int)).sum
  numbers : c.numbers = es.countP Event.number
  atomics : c.atomics = es.countP Event.atomic
  objectValues : c.objectValues = es.countP Event.isKey
  arrayItems : c.arrayItems = (es.countP Event.value : Int) - es.countP Event.isKey - 1
  bound : ∀ a e b, es = a ++ e :: b → e.opens = true → 3 + level a ≤ c.maxDepth
  depth : c.maxDepth = 0 ∨ ∃ a e b, es = a ++ e :: b ∧ e.opens = true ∧ c.maxDepth = 3 + level a

/-- The counters are of the beginnings that end with an opening bracket, all of these in order. -/
def Shown (i : Val) (cs : List Counter) : Prop :=
  List.Forall₂ Contains ((events i).inits.filter fun p => (p.getLast?.map Event.opens).getD false) cs

/-- The data of the cells and pools, in the order of the document. -/
def allInits : Val → List (String × String × Val)
  | .dict d => d.flatMap fun kv => if kv.1 = "cells" ∨ kv.1 = "pools" then
      (match kv.2 with
        | .dict s => s.flatMap fun nv => match nv.2 with
          | .dict e => e.filterMap fun x => if x.1 = "init" then some (kv.1, nv.1, x.2) else none
          | _ => []
        | _ => [])
    else []
  | _ => []

end Verif.Scripts
