import Verif.Chain.Example
import Verif.Chain.Types
/-!
# Chaining of engines: what goes wrong (C84)

Engines that pass the check on their own and that `ast` puts together wrongly.
-/

namespace Verif.Chain
open Avro Scope Path Sig Ast Lang

/-- The engine passes the check on its own. -/
def aloneOk (s : Step) : Bool := passes (compile (stepProg base s) Guard.all (walk (stepProg base s) Guard.all 7) (stepCfg s))

/-- The function for the first action of the chain passes the check. -/
def chainOk (p : Part) (rest : List Part) : Bool :=
  match PyDict.get? (document base (p :: rest)).funs (actionName 0 p.1) with
  | some (.user ps r b) => passes (walk (document base (p :: rest)) Guard.all 12 (.fcnDef ps r b) (topTab.new true false))
  | _ => false

example : aloneOk count = true ∧ chainOk (count, []) [(stamp, [])] = true ∧ aloneOk twice = true ∧ chainOk (twice, []) [(stamp, [])] = true := by decide +kernel

/-! ## Pools -/

/-- Removes an item of a pool. -/
def delete : Step where
  name := "Delete"
  method := .map
  input := .string
  output := .string
  action := [.poolDel "p" (.ref "input"), .ref "input"]
  pools := [("p", .int)]

/-- C84: the pool of PoolDel does not get a prefix, so that an engine with PoolDel cannot be chained. -/
theorem chain_poolDel_violation : aloneOk delete = true ∧ chainOk (delete, []) [] = false := by decide +kernel

/-! ## Functions -/

/-- The name of the engine for each item. -/
def label : Step where
  name := "Label"
  method := .map
  input := .array .int
  output := .array .string
  action := [.call "a.map" [.ref "input", .fcnDef [("x", .int)] .string [.ref "name"]]]

/-- C84: an inline function may read `name`; in the chain it cannot. -/
theorem chain_inline_violation : aloneOk label = true ∧ chainOk (label, []) [] = false := by decide +kernel

/-- Emits all items, with a reference to `emit`. -/
def spread : Step where
  name := "Spread"
  method := .emit
  input := .array .int
  output := .int
  action := [.call "a.map" [.ref "input", .fcnRef "emit"]]

/-- Adds ten. -/
def ten : Step where
  name := "Ten"
  method := .map
  input := .int
  output := .int
  action := [.call "+" [.ref "input", .litInt (.int 10)]]

/-- The values that an engine or a chain has emitted. -/
def emitted {α β : Type} : Res (α × β × List Val) → List Val
  | .ok (_, _, l) => l
  | .error _ => []

/-- Emits all items, with calls of `emit`. -/
def spread' : Step := { spread with action := [.call "a.map" [.ref "input", .fcnDef [("x", .int)] .null [.call "emit" [.ref "x"]]]] }

/-- C84: a reference to `emit` goes past the other engines. -/
theorem chain_emit_violation :
    emitted (chainRun (spread', []) [(ten, [])] 12 8 (newState []) [.arr [.int 1, .int 2]]) = [.int 11, .int 12] ∧
    emitted (chainRun (spread, []) [(ten, [])] 12 8 (newState []) [.arr [.int 1, .int 2]]) = [.int 1, .int 2] := by decide +kernel

/-! ## Variables -/

/-- Gives the string, or none. -/
def unwrap : Step where
  name := "Unwrap"
  method := .map
  input := .union [.string, .null]
  output := .string
  action := [.castBlock (.ref "input") [.castCase .string "name" [.ref "name"], .castCase .null "x" [.litString "none"]] false]

/-- The first result of a run. -/
def firstOf {β γ : Type} : Res (List (Res Val) × β × γ) → Option (Res Val)
  | .ok (r :: _, _, _) => some r
  | _ => none

/-- C84: a variable of a cast that is called `name` hides the name of the engine, in the engine but not in the chain. -/
theorem chain_hidden_violation :
    Res.app (fun o => o.1) (alone unwrap { cells := [], pools := [], tick := 0, out := [] } [.dict [("string", .str "abc")]]) = .ok [.ok (.str "abc")] ∧
    firstOf (chainRun (unwrap, []) [] 9 8 (newState []) [.dict [("string", .str "abc")]]) = some (.ok (.str "Chain_Count_Stamp")) := by decide +kernel

/-! ## Types -/

/-- C83: the type of NewArray is the only one that does not get new names. -/
theorem chain_newArray_violation (R : Ren) (vars : List String) (t : AType) :
    chainE R vars (.newArray [] t) = .newArray [] t ∧ chainE R vars (.newObject [] t) = .newObject [] (R.type t) ∧
    chainE R vars (.literal t .null) = .literal (R.type t) .null := ⟨rfl, rfl, rfl⟩

/-- Has a function with a record as parameter and as result. -/
def keep : Step where
  name := "Keep"
  method := .map
  input := .int
  output := .int
  action := [.ref "input"]
  fcns := [("id", ⟨[("r", .record ⟨"", "Rec"⟩)], .record ⟨"", "Rec"⟩, [.ref "r"]⟩)]
  names := [⟨"", "Rec"⟩]
  env := [(⟨"", "Rec"⟩, [{ name := "x", type := .int }])]

/-- C83: the parameters of user-defined functions keep the old types, the results do not. -/
theorem chain_params_violation : ∃ m b, assign 9 [keep] = .ok [(keep, m)] ∧
    PyDict.get? (document base [(keep, m)]).funs "u.step1_Keep_fcn_id" = some (.user [("r", .record ⟨"", "Rec"⟩)] (.record ⟨"", "Step1_Keep_Rec"⟩) b) :=
  ⟨_, _, rfl, rfl⟩

end Verif.Chain
