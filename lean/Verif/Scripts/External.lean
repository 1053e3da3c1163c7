import Verif.Producer.Look
/-! # Moving the data of cells and pools to files: model (C103)

Models `scripts/pfaexternalize` 31-109 (`doValue`, `doArray`, `doMap`) and 207-247 (the arguments and the loop).

Simplifications.  `ijson.parse` is a list of events.  What is written through a file object is in the file at once.  Progress messages are not
modelled.  The texts of `json.dumps` for strings and of `str` for numbers are parameters.  Each step takes fuel; that there is always enough is
proved.  Whether the parser has a method `next` is a parameter: generators have one in Python 2 and none in Python 3. -/

namespace Verif.Scripts
open Avro Producer

/-- The events of ijson; `leaf` is a string, a number, a boolean or null. -/
inductive Event where
  | startArr | endArr | startMap | endMap
  | key (k : String)
  | leaf (v : Val)

/-- The output stream and the content of the files. -/
structure Out where
  main : List Char
  files : String → Option (List Char)

/-- `writer(s)`: the writer is the output stream, or that of a file. -/
def Out.write (o : Out) (w : Option String) (s : List Char) : Out := match w with
  | none => { o with main := o.main ++ s }
  | some f => { o with files := fun g => if g = f then some ((o.files f).getD [] ++ s) else o.files g }

/-- `open(fileName, "w")`: the file is empty. -/
def Out.opened (o : Out) (f : String) : Out := { o with files := fun g => if g = f then some [] else o.files g }

/-- The elements of `stack`. -/
inductive Step where
  | key (k : String)
  | idx (i : Nat)

/-- Lines 80-94: the file for the value of this key. -/
def target (cells pools : List (String × String)) (st : List Step) (k : String) : Option String := match st with
  | [.key s, .key n] =>
    if s = "cells" ∧ k = "init" ∧ (PyDict.get? cells n).isSome then PyDict.get? cells n
    else if s = "pools" ∧ k = "init" then PyDict.get? pools n
    else none
  | _ => none

/-- Lines 36-46. -/
def scalar (T : Texts) : Val → List Char
  | .null => ['n', 'u', 'l', 'l']
  | .bool true => ['t', 'r', 'u', 'e']
  | .bool false => ['f', 'a', 'l', 's', 'e']
  | .str s => T.key s
  | v => T.leaf v

/-- `', "source": "json"'`, line 85. -/
def sourceText : List Char := ", \"source\": \"json\"".toList

section
variable (T : Texts) (next : Bool) (cells pools : List (String × String))

mutual
/-- `doValue`, lines 31-48. -/
def doValue : Nat → Event → List Event → Option String → List Step → Out → Res (List Event × Out)
  | 0, _, _, _, _, _ => .error .timeout
  | n + 1, e, es, w, st, o => match e with
    | .startArr => doArray n 0 es w st (o.write w ['['])
    | .startMap => doMap n true es w st (o.write w ['{'])
    | .leaf v => .ok (es, o.write w (scalar T v))
    | _ => .error (.py "ValueError")
/-- The loop of `doArray`, lines 54-62. -/
def doArray : Nat → Nat → List Event → Option String → List Step → Out → Res (List Event × Out)
  | 0, _, _, _, _, _ => .error .timeout
  | _ + 1, _, [], w, _, o => .ok ([], o.write w [']'])
  | _ + 1, _, .endArr :: es, w, _, o => .ok (es, o.write w [']'])
  | n + 1, i, e :: es, w, st, o => match doValue n e es w (st ++ [.idx i]) (if i ≠ 0 then o.write w [',', ' '] else o) with
    | .error e => .error e
    | .ok (es, o) => doArray n (i + 1) es w st o
/-- The loop of `doMap`, lines 68-109. -/
def doMap : Nat → Bool → List Event → Option String → List Step → Out → Res (List Event × Out)
  | 0, _, _, _, _, _ => .error .timeout
  | _ + 1, _, [], w, _, o => .ok ([], o.write w ['}'])
  | n + 1, first, .key k :: es, w, st, o => match doPair n k es w st (if first then o else o.write w [',', ' ']) with
    | .error e => .error e
    | .ok (es, o) => doMap n false es w st o
  | _ + 1, _, .endMap :: es, w, _, o => .ok (es, o.write w ['}'])
  | _ + 1, _, _ :: _, _, _, _ => .error (.py "ValueError")
/-- A key and its value, lines 75-102. -/
def doPair : Nat → String → List Event → Option String → List Step → Out → Res (List Event × Out)
  | 0, _, _, _, _, _ => .error .timeout
  | n + 1, k, es, w, st, o =>
    let o := (o.write w (T.key k)).write w [':', ' ']
    let sub : Option String × Out := match target cells pools st k with
      | some f => (some f, ((o.opened f).write w (T.key f)).write w sourceText)
      | none => (w, o)
    if next then match es with
      | [] => .error (.py "StopIteration")
      | e :: es => doValue n e es sub.1 (st ++ [.key k]) sub.2
    else .error (.py "AttributeError")
end

/-- The loop of lines 243-246. -/
def runLoop (fuel : Nat) : Nat → List Event → Out → Res Out
  | 0, _, _ => .error .timeout
  | _ + 1, [], o => .ok o
  | n + 1, e :: es, o => match doValue T next cells pools fuel e es none [] o with
    | .error e => .error e
    | .ok (es, o) => runLoop fuel n es (o.write none ['\n'])

/-- The whole of lines 240-246, with enough fuel. -/
def run (es : List Event) (o : Out) : Res Out := runLoop T next cells pools (2 * es.length + 2) (es.length + 1) es o
end

/-! ## The arguments -/

/-- `re.split("\s*=\s*", arg, 1)`, line 210; none if there is no `=`. -/
def splitEq (arg : List Char) : Option (List Char × List Char) :=
  if '=' ∈ arg then
    some ((((arg.takeWhile (· ≠ '=')).reverse.dropWhile Char.isWhitespace).reverse),
      ((arg.dropWhile (· ≠ '=')).tail.dropWhile Char.isWhitespace))
  else none

/-- Lines 209-220: what has been asked for so far, and one more argument. -/
def argument (c p : List (String × String)) (arg : List Char) : Res (List (String × String) × List (String × String)) :=
  let (arg, value) := match splitEq arg with
    | some (a, v) => (a, v)
    | none => (arg, arg.drop 7 ++ ".json".toList)
  if "--cell-".toList.isPrefixOf arg then .ok (PyDict.set c (String.ofList (arg.drop 7)) (String.ofList value), p)
  else if "--pool-".toList.isPrefixOf arg then .ok (c, PyDict.set p (String.ofList (arg.drop 7)) (String.ofList value))
  else .error (.py "SystemExit")

/-- The loop of lines 209-220. -/
def arguments : List (String × String) → List (String × String) → List (List Char) → Res (List (String × String) × List (String × String))
  | c, p, [] => .ok (c, p)
  | c, p, a :: as => match argument c p a with
    | .error e => .error e
    | .ok (c, p) => arguments c p as

/-! ## Specification -/

mutual
/-- The first event of a document, and the others: a list or object is its brackets and what is between them. -/
def firstOf : Val → Event
  | .arr _ => .startArr
  | .dict _ => .startMap
  | v => .leaf v
@[inherit_doc firstOf] def restOf : Val → List Event
  | .arr xs => eventsL xs ++ [.endArr]
  | .dict d => eventsD d ++ [.endMap]
  | _ => []
@[inherit_doc firstOf] def eventsL : List Val → List Event
  | [] => []
  | v :: xs => firstOf v :: (restOf v ++ eventsL xs)
@[inherit_doc firstOf] def eventsD : List (String × Val) → List Event
  | [] => []
  | (k, v) :: d => .key k :: firstOf v :: (restOf v ++ eventsD d)
end

/-- The events of a document. -/
def events (v : Val) : List Event := firstOf v :: restOf v

/-- The scalars of `json.dumps`: the words of JSON, and strings as keys. -/
structure Std (T : Texts) : Prop where
  null : T.leaf .null = ['n', 'u', 'l', 'l']
  t : T.leaf (.bool true) = ['t', 'r', 'u', 'e']
  f : T.leaf (.bool false) = ['f', 'a', 'l', 's', 'e']
  str : ∀ s, T.leaf (.str s) = T.key s
  source : T.key "source" = "\"source\"".toList
  json : T.key "json" = "\"json\"".toList

/-- A cell or pool whose data is in the file. -/
def away (f : String) : Val → Val
  | .dict d => .dict (d.flatMap fun kv => if kv.1 = "init" then [("init", .str f), ("source", .str "json")] else [kv])
  | v => v

/-- The section of cells or of pools, some of which are in files. -/
def moved (t : List (String × String)) : Val → Val
  | .dict d => .dict (d.map fun kv => (kv.1, match PyDict.get? t kv.1 with | some f => away f kv.2 | none => kv.2))
  | v => v

/-- The document with these cells and pools in files. -/
def external (cells pools : List (String × String)) : Val → Val
  | .dict d => .dict (d.map fun kv => (kv.1, if kv.1 = "cells" then moved cells kv.2 else if kv.1 = "pools" then moved pools kv.2 else kv.2))
  | v => v

/-- The data `i` of a cell or pool that is asked for in the file `f`. -/
inductive Kept (cells pools : List (String × String)) : Val → String → Val → Prop where
  | cell {d s e : List (String × Val)} {n f : String} {i : Val} (hs : ("cells", .dict s) ∈ d) (he : (n, .dict e) ∈ s)
      (hf : PyDict.get? cells n = some f) (hi : ("init", i) ∈ e) : Kept cells pools (.dict d) f i
  | pool {d s e : List (String × Val)} {n f : String} {i : Val} (hs : ("pools", .dict s) ∈ d) (he : (n, .dict e) ∈ s)
      (hf : PyDict.get? pools n = some f) (hi : ("init", i) ∈ e) : Kept cells pools (.dict d) f i

end Verif.Scripts
