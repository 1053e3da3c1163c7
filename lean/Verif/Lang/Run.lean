import Verif.Scope.Model
import Verif.Path.Model
import Verif.Pack.Format
import Verif.Avro.Json
import Verif.Sig.Match
/-!
# The run-time helpers of generated code: model (C42, C43, C53, C54, C56)

Models the helper functions of `titus/genpy.py` 480-503 (ExecutionState), 505-600 (Cell, Pool), 610-1323
and `callfcn` of `titus/util.py` 155-179.

A piece of generated Python code is modelled by what it does: a function of the state (the chain of
variable scopes, cells, pools, clock, emitted and logged data) that returns a value or raises, and leaves a
new state.  A Python lambda `lambda state, scope: ...` is such a function; giving it `DynamicScope(scope)`
is running it with a new frame on the chain and taking the frame off afterwards (no code keeps a
reference to a scope after it has returned).

Simplifications.  Cells and pools are those of one engine without `shared`; locks are modelled in
`Verif.Lock`.  The clock is a counter with an arbitrary predicate telling when the timeout is exceeded.
Loops and calls carry fuel; `unfinished` marks a computation that has not ended yet, it is not a Python
exception and no code catches it.  Python's own recursion limit is not modelled here (for the JSON
decoder, whose recursion follows the data, it is the error `Avro.recErr`).
-/

namespace Verif.Lang
open Avro Scope Path

/-- What generated code can change outside of its scope objects. -/
structure World where
  cells : PyDict String Val
  pools : PyDict String (PyDict String Val)
  tick : Nat := 0
  /-- logged values -/
  out : List Val := []
  /-- emitted values -/
  emitted : List Val := []

/-- State of an execution: the innermost scope first. -/
structure St where
  chain : Chain Val
  world : World

/-- Generated code. -/
def M (α : Type) := St → Res α × St

instance : Monad M where
  pure a := fun s => (.ok a, s)
  bind m f := fun s => match m s with
    | (.ok a, s) => f a s
    | (.error e, s) => (.error e, s)

/-- `raise` -/
def raise {α : Type} (e : Err) : M α := fun s => (.error e, s)

/-- The computation has not ended within its fuel. -/
def unfinished : Err := .py "unfinished"

/-- A computation without effect. -/
def lift {α : Type} (r : Res α) : M α := fun s => (r, s)

/-! ## Scopes -/

/-- Run with `DynamicScope(scope)` that has the given symbols; the frame is dropped afterwards. -/
def inFrame {α : Type} (f : Frame Val) (m : M α) : M α := fun s =>
  match m { s with chain := f :: s.chain } with
  | (r, s') => (r, { s' with chain := s'.chain.tail })

/-- Run in an inner scope that is kept: the loops use one scope for all iterations (genpy.py 828-829,
852-853, 882-884, 911-912, 940-941). -/
def inKept {α : Type} (f : Frame Val) (m : M α) : M (α × Frame Val) := fun s =>
  match m { s with chain := f :: s.chain } with
  | (.ok a, s') => (.ok (a, s'.chain.headD []), { s' with chain := s'.chain.tail })
  | (.error e, s') => (.error e, { s' with chain := s'.chain.tail })

/-- Run with `DynamicScope(None)`: the caller's scopes cannot be reached. -/
def inFresh {α : Type} (m : M α) : M α := fun s =>
  match m { s with chain := [[]] } with
  | (r, s') => (r, { s' with chain := s.chain })

/-- `scope.get(name)` -/
def getVar (x : String) : M Val := fun s => (Scope.get s.chain x, s)

/-- `scope.let({...})` -/
def letM (d : List (String × Val)) : M Val := fun s => (.ok .null, { s with chain := letVars s.chain (PyDict.update [] d) })

/-- `scope.set({...})`; what was assigned before the failure stays assigned. -/
def setM (d : List (String × Val)) : M Val := fun s =>
  match setN s.chain.length (PyDict.update [] d) s.chain with
  | (c, false) => (.ok .null, { s with chain := c })
  | (c, true) => (.error (.py "RuntimeError"), { s with chain := c })

/-! ## Blocks and branches -/

/-- Argument lists are evaluated from left to right. -/
def evalL {α : Type} : List (M α) → M (List α)
  | [] => pure []
  | m :: ms => do
    let a ← m
    let as ← evalL ms
    pure (a :: as)

/-- Dictionary displays are evaluated from left to right. -/
def evalD {α : Type} : List (String × M α) → M (List (String × α))
  | [] => pure []
  | (k, m) :: ms => do
    let a ← m
    let as ← evalD ms
    pure ((k, a) :: as)

/-- `do(...)` (717-729): the expressions have been evaluated; the value of the last one. -/
def doM (ms : List (M Val)) : M Val := do
  let vs ← evalL ms
  pure (vs.getLastD .null)

/-- `if predicate(state, DynamicScope(scope))`: the truth value of a Python object. -/
def test (p : M Val) : M Bool := do
  let v ← inFrame [] p
  pure (Pack.truthy v)

/-- `ifThen` (731-748) -/
def ifThen (p c : M Val) : M Val := do
  if ← test p then
    let _ ← inFrame [] c
    pure .null
  else pure .null

/-- `ifThenElse` (750-770) -/
def ifThenElse (p c d : M Val) : M Val := do
  if ← test p then inFrame [] c else inFrame [] d

/-- `cond` (772-789) -/
def condM : List (M Val × M Val) → M Val
  | [] => pure .null
  | (p, c) :: rest => do
    if ← test p then
      let _ ← inFrame [] c
      pure .null
    else condM rest

/-- `condElse` (791-809) -/
def condElse : List (M Val × M Val) → M Val → M Val
  | [], d => inFrame [] d
  | (p, c) :: rest, d => do
    if ← test p then inFrame [] c else condElse rest d

/-! ## Loops -/

/-- `state.checkTime()` (501-503) -/
def checkTime (expired : Nat → Bool) : M Unit := fun s =>
  let s' := { s with world := { s.world with tick := s.world.tick + 1 } }
  if expired s.world.tick then (.error .timeout, s') else (.ok (), s')

/-- The loop of `doWhile` (830-832), in the body scope; `pf` is the predicate scope. -/
def whileLoop (expired : Nat → Bool) (p b : M Val) : Nat → Frame Val → M Val
  | 0, _ => raise unfinished
  | n + 1, pf => do
    let (v, pf) ← inKept pf p
    if Pack.truthy v then
      checkTime expired
      let _ ← b
      whileLoop expired p b n pf
    else pure .null

/-- `doWhile` (811-833) -/
def doWhile (expired : Nat → Bool) (n : Nat) (p b : M Val) : M Val := inFrame [] (whileLoop expired p b n [])

/-- The loop of `doUntil` (854-858), in the body scope. -/
def untilLoop (expired : Nat → Bool) (p b : M Val) : Nat → Frame Val → M Val
  | 0, _ => raise unfinished
  | n + 1, pf => do
    checkTime expired
    let _ ← b
    let (v, pf) ← inKept pf p
    if Pack.truthy v then pure .null else untilLoop expired p b n pf

/-- `doUntil` (835-859) -/
def doUntil (expired : Nat → Bool) (n : Nat) (p b : M Val) : M Val := inFrame [] (untilLoop expired p b n [])

/-- The loop of `doFor` (886-889), in the loop scope; `pf` and `bf` are the scopes of predicate and body. -/
def forLoop (expired : Nat → Bool) (p b step : M Val) : Nat → Frame Val → Frame Val → M Val
  | 0, _, _ => raise unfinished
  | n + 1, pf, bf => do
    let (v, pf) ← inKept pf p
    if Pack.truthy v then
      checkTime expired
      let (_, bf) ← inKept bf b
      let _ ← step
      forLoop expired p b step n pf bf
    else pure .null

/-- `doFor` (861-890) -/
def doFor (expired : Nat → Bool) (n : Nat) (init p step b : M Val) : M Val := inFrame [] (do
  let _ ← init
  forLoop expired p b step n [] [])

/-- The loops of `doForeach` (913-916) and `doForkeyval` (942-945), in the loop scope: the variables of
each round, then the body in its scope `bf`. -/
def eachLoop (expired : Nat → Bool) (b : M Val) : List (List (String × Val)) → Frame Val → M Val
  | [], _ => pure .null
  | d :: ds, bf => do
    checkTime expired
    let _ ← letM d
    let (_, bf) ← inKept bf b
    eachLoop expired b ds bf

/-- `doForeach` (892-917); the array is an evaluated argument.  Iterating over anything else but a list
is not modelled (TypeError, or the characters of a string). -/
def doForeach (expired : Nat → Bool) (x : String) (array : Val) (b : M Val) : M Val :=
  match array with
  | .arr vs => inFrame [] (eachLoop expired b (vs.map (fun v => [(x, v)])) [])
  | _ => raise (.py "TypeError")

/-- `doForkeyval` (919-946) -/
def doForkeyval (expired : Nat → Bool) (k v : String) (mapping : Val) (b : M Val) : M Val :=
  match mapping with
  | .dict d => inFrame [] (eachLoop expired b (d.map (fun kv => [(k, .str kv.1), (v, kv.2)])) [])
  | _ => raise (.py "AttributeError")

/-! ## Paths, cells and pools -/

/-- An index of a path as a subscript; a value of another type is not hashable or not an index. -/
def toElem : Val → Res Elem
  | .int i => .ok (.idx i)
  | .str s => .ok (.key s)
  | _ => .error (.py "TypeError")

/-- The list display of a path (`reprPath`, 146-159). -/
def evalPath (ms : List (M Val)) : M (List Elem) := do
  let vs ← evalL ms
  lift (mapR toElem vs)

/-- What `to` is at run time: a value, or a callable with or without the attribute `paramNames`
(`labeledFcn` 610-622; library functions have none). -/
inductive Arg where
  | val (v : Val)
  | fn (labeled : Bool) (f : List Val → M Val)

/-- The end of a path in `update` (709-715). -/
def replWith (repl : Arg) (obj : Val) : M Val :=
  match repl with
  | .val v => pure v
  | .fn true f => f [obj]
  | .fn false _ => raise (.py "AttributeError")

/-- `update` (656-715) -/
def updateAt (a m : Int) (repl : Arg) (path : List Elem) (obj : Val) : M Val := updateM a m (replWith repl) path obj

/-- `self.cells[c].value` -/
def readCell (c : String) : M Val := fun s =>
  match s.world.cells.get? c with
  | some v => (.ok v, s)
  | none => (.error (.py "KeyError"), s)

/-- `Cell.update` (538-548) without `shared` -/
def cellUpdate (c : String) (path : List Elem) (repl : Arg) : M Val := do
  let old ← readCell c
  let v ← updateAt 2006 2007 repl path old
  fun s => (.ok v, { s with world := { s.world with cells := s.world.cells.set c v } })

/-- `self.pools[p].value` -/
def readPool (p : String) : M (PyDict String Val) := fun s =>
  match s.world.pools.get? p with
  | some d => (.ok d, s)
  | none => (.error (.py "KeyError"), s)

/-- `self.value[head] = v` in a pool: the dictionary itself changes. -/
def writePool (p k : String) (v : Val) : M Unit := fun s =>
  match s.world.pools.get? p with
  | some d => (.ok (), { s with world := { s.world with pools := s.world.pools.set p (PyDict.set d k v) } })
  | none => (.error (.py "KeyError"), s)

/-- `Pool.update` (573-600) without `shared`: an absent item starts as `init`. -/
def poolUpdate (p : String) (path : List Elem) (repl : Arg) (init : Val) : M Val :=
  match path with
  | .key k :: tail => do
    let d ← readPool p
    match PyDict.get? d k with
    | some _ => pure ()
    | none => writePool p k init
    let v ← updateAt 2010 2011 repl tail ((PyDict.get? d k).getD init)
    writePool p k v
    pure v
  | _ => raise (.py "TypeError")

/-- `pooldel` (297-303): deleting an absent item is not an error. -/
def poolDel (p : String) (k : Val) : M Val := fun s =>
  match s.world.pools.get? p, k with
  | some d, .str k => (.ok .null, { s with world := { s.world with pools := s.world.pools.set p (PyDict.del d k) } })
  | some _, _ => (.ok .null, s)
  | none, _ => (.error (.py "KeyError"), s)

/-! ## Casts and null checks -/

/-- `getAvroType` (datatype.py 757-814) applied to the JSON form of a type, as `cast` does with the types
in the generated code: a map comes back as an array (804-805). -/
def reparse : AType → Res AType
  | .array t => Res.app .array (reparse t)
  | .map t => Res.app .array (reparse t)
  | .union ts => match reparseL ts with
    | .ok us => Sig.mkUnion us
    | .error e => .error e
  | t => .ok t
where
  @[inherit_doc reparse] reparseL : List AType → Res (List AType)
    | [] => .ok []
    | t :: ts => match reparse t with
      | .ok u => Res.app (u :: ·) (reparseL ts)
      | .error e => .error e

/-- The test on the tag (978-981). -/
def tagFits (tag name : String) : Bool :=
  tag == name || (tag == "int" && (name == "long" || name == "float" || name == "double")) ||
    (tag == "long" && (name == "float" || name == "double")) || (tag == "float" && name == "double")

/-- The value to decode for a case (974-985); `none` is `continue`. -/
def candidate (fromUnion : Bool) (name : String) (v : Val) : Option Val :=
  match fromUnion, v with
  | true, .dict [(tag, x)] => if tagFits tag name then some x else none
  | _, v => some v

/-- `isinstance(x, AvroUnion)` -/
def isUnion : AType → Bool | .union _ => true | _ => false

/-- The loop of `cast` (971-1000) up to the clause: the number of the case and the value bound in it. -/
def castPick (decode : AType → Val → Res Val) (fromUnion : Bool) (v : Val) : List AType → Res (Option (Nat × Val))
  | [] => .ok none
  | t :: ts =>
    match reparse t with
    | .error e => .error e
    | .ok t =>
      let next : Res (Option (Nat × Val)) := Res.app (Option.map (fun p => (p.1 + 1, p.2))) (castPick decode fromUnion v ts)
      match candidate fromUnion t.name v with
      | none => next
      | some x => match decode t x with
        | .ok y => .ok (some (0, y))
        | .error e => if e = .avro ∨ e = .py "TypeError" then next else .error e

/-- `cast` (948-1000) -/
def castM (decode : AType → Val → Res Val) (v : Val) (fromType : AType) (cases : List (String × AType × M Val))
    (part : Bool) : M Val :=
  match reparse fromType with
  | .error e => raise e
  | .ok ft => match castPick decode (isUnion ft) v (cases.map (fun c => c.2.1)) with
    | .error e => raise e
    | .ok none => pure .null
    | .ok (some (i, y)) => match cases[i]? with
      | none => raise (.py "IndexError")
      | some (x, _, clause) => do
        let out ← inFrame [(x, y)] clause
        pure (if part then .null else out)

/-- `wrapAsUnion` (1002-1016) -/
def wrapAsUnion (v : Val) (name : String) : Val :=
  match v with
  | .null => .null
  | v => .dict [(name, v)]

/-- The tag that `untagUnions` expects (1035-1043): with the namespace, if there is one.  For a union the
JSON form is a list, which equals no tag. -/
def expectedTag : AType → Option String
  | .union _ => none
  | .fixed n _ => some (if n.ns = "" then n.short else n.ns ++ "." ++ n.short)
  | .enum n _ => some (if n.ns = "" then n.short else n.ns ++ "." ++ n.short)
  | .record n => some (if n.ns = "" then n.short else n.ns ++ "." ++ n.short)
  | t => some t.name

/-- One value of `untagUnions` (1018-1052) -/
def untag (t : AType) (v : Val) : Val :=
  match v with
  | .dict [(tag, x)] => if some tag = expectedTag t then x else v
  | v => v

/-- `x is not None` -/
def notNull : Val → Bool | .null => false | _ => true

/-- `ifNotNullElse` (1076-1100); `ifNotNull` (1054-1074) is the same with an else clause that does nothing,
and the value null. -/
def ifNotNullElse (vs : List (String × AType × Val)) (c d : M Val) : M Val :=
  if vs.all (fun x => notNull x.2.2) then inFrame (PyDict.update [] (vs.map (fun x => (x.1, untag x.2.1 x.2.2)))) c else d

/-! ## pack, unpack, error, try, log -/

/-- `unpackElse` (1236-1264) and `unpack` (1210-1234).  The loop over text stops with an exception. -/
def unpackM (fs : List (String × Pack.Decl)) (v : Val) (c d : M Val) : M Val :=
  match v with
  | .bytes bs => match Pack.unpack fs bs with
    | some e => inFrame (PyDict.update [] e) c
    | none => d
  | _ => raise (.py "TypeError")

/-- `x in filter` for a text and for a number -/
def hasMsg (fs : List (String ⊕ Int)) (m : String) : Bool := fs.any (fun f => match f with | .inl x => x == m | .inr _ => false)
@[inherit_doc hasMsg] def hasCode (fs : List (String ⊕ Int)) (c : Int) : Bool := fs.any (fun f => match f with | .inl _ => false | .inr x => x == c)

/-- `err.message in filter or err.code in filter` (1297).  Only PFARuntimeException and
PFAUserException have these attributes; the message of a run-time error is not modelled, `msg` gives it. -/
def caught (msg : Int → String) (filter : Option (List (String ⊕ Int))) (e : Err) : Res Bool :=
  match filter with
  | none => .ok true
  | some fs => match e with
    | .rt code => .ok (hasMsg fs (msg code) || hasCode fs code)
    | .user m code => .ok (hasMsg fs m || (match code with | some c => hasCode fs c | none => false))
    | _ => .error (.py "AttributeError")

/-- `tryCatch` (1280-1300) -/
def tryCatch (msg : Int → String) (m : M Val) (filter : Option (List (String ⊕ Int))) : M Val := fun s =>
  match m s with
  | (.ok v, s') => (.ok v, s')
  | (.error e, s') =>
    if e = unfinished then (.error e, s')
    else match caught msg filter e with
      | .ok true => (.ok .null, s')
      | .ok false => (.error e, s')
      | .error e => (.error e, s')

/-- `genericLog` (1302-1311): `json.dumps` raises TypeError on bytes. -/
def logM (vs : List Val) : M Val := fun s =>
  if vs.any hasBytes then (.error (.py "TypeError"), s)
  else (.ok .null, { s with world := { s.world with out := s.world.out ++ vs } })

end Verif.Lang
