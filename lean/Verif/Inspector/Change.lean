import Verif.Inspector.Means
/-! # The command `json change` of the inspector: model (C101)

Models `titus/inspector/jsongadget.py` 28-47 (`depthGreaterThan`) and 475-594 (`ChangeCommand.action` for documents that are in memory), and
`extaction` of `titus/inspector/defs.py` 260-287.

Simplifications.  What the user answers is a list; when it is used up, `input` raises EOFError.  Answers are given without spaces and capitals, and what
is printed is left out.  Values are not shared: a group that is used twice in a replacement is copied, in the code it is the same object twice.

The generator `search` (tools.py 391-405) goes on while the document is changed.  It looks at the parts of an object or list before the object or list
itself, so that each part is replaced before what contains it is compared; the keys and the elements to go through are those at the start, and a
replacement does not change the number of them. -/

namespace Verif.Inspector
open Avro Producer

/-! ## Depth -/

mutual
/-- `depthGreaterThan`, jsongadget.py 27-47. -/
def depthGreaterThan : Val → Int → Bool
  | .dict d, t => anyD d (t - 1) || (d.isEmpty && decide (t ≤ 0))
  | .arr xs, t => anyL xs (t - 1) || (xs.isEmpty && decide (t ≤ 0))
  | _, t => decide (t < 0)
/-- `any` over the values (line 41). -/
def anyD : List (String × Val) → Int → Bool
  | [], _ => false
  | (_, v) :: d, t => depthGreaterThan v t || anyD d t
/-- `any` over the elements (line 44). -/
def anyL : List Val → Int → Bool
  | [], _ => false
  | v :: xs, t => depthGreaterThan v t || anyL xs t
end

/-! ## Replacement -/

mutual
/-- `replace`, jsongadget.py 523-537. -/
def replace (g : PyDict String Val) : Rep → Res Val
  | .leaf v => .ok v
  | .ref n => match PyDict.get? g n with
    | some v => .ok v
    | none => .error (.py "InspectorError")
  | .obj ps => match replaceD g ps with
    | .error e => .error e
    | .ok d => .ok (.dict d)
  | .arr rs => match replaceL g rs with
    | .error e => .error e
    | .ok xs => .ok (.arr xs)
/-- The values of an object (line 531). -/
def replaceD (g : PyDict String Val) : List (String × Rep) → Res (List (String × Val))
  | [] => .ok []
  | (k, r) :: ps => match replace g r with
    | .error e => .error e
    | .ok v => match replaceD g ps with
      | .error e => .error e
      | .ok d => .ok ((k, v) :: d)
/-- The elements of a list (line 534). -/
def replaceL (g : PyDict String Val) : List Rep → Res (List Val)
  | [] => .ok []
  | r :: rs => match replace g r with
    | .error e => .error e
    | .ok v => match replaceL g rs with
      | .error e => .error e
      | .ok xs => .ok (v :: xs)
end

/-! ## The loop -/

/-- What is answered (lines 559-570); `other` is anything else, which is asked again. -/
inductive Answer where
  | yes | no | all | stop | revert | other
deriving DecidableEq

/-- The answers to come, and `ask`. -/
structure Talk where
  answers : List Answer
  ask : Bool

/-- The answer, and the ones after it (lines 557-570). -/
def next : List Answer → Option (Answer × List Answer)
  | [] => none
  | .other :: as => next as
  | a :: as => some (a, as)

/-- How a part of the loop ends: it goes on, it is stopped, it is to be reverted, or there is an exception. -/
inductive Out (α : Type) where
  | going (a : α) (t : Talk)
  | stopped (a : α)
  | reverted
  | failed (e : Err)

/-- `t.assign(node, index, …)`; the index of the whole is empty (tools.py 49-56). -/
def assigned (whole : Bool) (x : Val) (t : Talk) : Out Val := if whole then .failed indexErr else .going x t

/-- What is done for a match, lines 553-585; `w` is there now and `x` is to be put in its place. -/
def respond (whole : Bool) (w x : Val) (t : Talk) : Out Val :=
  if t.ask then
    match next t.answers with
    | none => .failed (.py "EOFError")
    | some (.yes, as) => assigned whole x ⟨as, true⟩
    | some (.all, as) => assigned whole x ⟨as, false⟩
    | some (.no, as) => .going w ⟨as, true⟩
    | some (.stop, _) => .stopped w
    | some (.revert, _) => .reverted
    | some (.other, as) => .going w ⟨as, true⟩
  else assigned whole x t

/-- The end of a search at one place (tools.py 403-405), with the loop (jsongadget.py 550-585). -/
def meet (p : Pat) (r : Rep) (whole : Bool) (w : Val) (t : Talk) : Out Val := match getmatch p w with
  | .error e => .failed e
  | .ok none => .going w t
  | .ok (some m) => match replace m.groups r with
    | .error e => .failed e
    | .ok x => respond whole w x t

/-- The parts of an object in turn: what is left of it when they are changed. -/
def eachKey : List (String × (Talk → Out Val)) → List (String × Val) → Talk → Out (List (String × Val))
  | [], d, t => .going d t
  | (k, f) :: fs, d, t => match f t with
    | .failed e => .failed e
    | .reverted => .reverted
    | .stopped v => .stopped (PyDict.set d k v)
    | .going v t' => eachKey fs (PyDict.set d k v) t'

mutual
/-- The loop over `search(regex, node)`: tools.py 391-405 and jsongadget.py 550-585. -/
def walk (p : Pat) (r : Rep) : Bool → Val → Talk → Out Val
  | whole, .dict d, t => match eachKey (byKey (walkD p r d)) d t with
    | .failed e => .failed e
    | .reverted => .reverted
    | .stopped d' => .stopped (.dict d')
    | .going d' t' => meet p r whole (.dict d') t'
  | whole, .arr xs, t => match walkL p r xs t with
    | .failed e => .failed e
    | .reverted => .reverted
    | .stopped xs' => .stopped (.arr xs')
    | .going xs' t' => meet p r whole (.arr xs') t'
  | whole, v, t => meet p r whole v t
/-- The searches below the keys (tools.py 393-396). -/
def walkD (p : Pat) (r : Rep) : List (String × Val) → List (String × (Talk → Out Val))
  | [] => []
  | (k, v) :: d => (k, walk p r false v) :: walkD p r d
/-- The searches in the elements (tools.py 398-401). -/
def walkL (p : Pat) (r : Rep) : List Val → Talk → Out (List Val)
  | [], t => .going [] t
  | x :: xs, t => match walk p r false x t with
    | .failed e => .failed e
    | .reverted => .reverted
    | .stopped x' => .stopped (x' :: xs)
    | .going x' t' => match walkL p r xs t' with
      | .failed e => .failed e
      | .reverted => .reverted
      | .stopped xs' => .stopped (x' :: xs')
      | .going xs' t'' => .going (x' :: xs') t''
end

/-- The document after the command, and the exception that it ends with: lines 547-594. -/
def finish (doc : Val) : Out Val → Val × Option Err
  | .going v _ => (v, none)
  | .stopped v => (v, none)
  | .reverted => (doc, none)
  | .failed e => (doc, some e)

/-- `change <name> <pattern> to <replacement>`, lines 487-496 and 547-594. -/
def change (pat rep : Src) (doc : Val) (answers : List Answer) : Val × Option Err := match regex (parse pat) with
  | .error e => (doc, some e)
  | .ok p => match replacement (parse rep) with
    | .error e => (doc, some e)
    | .ok r => finish doc (walk p r true doc ⟨answers, true⟩)

/-- Which exceptions are turned into an InspectorError: defs.py 277 for keys, 282 for numbers. -/
def caught : Ix → Err → Err
  | .key _, e => if e = keyErr ∨ e = typeErr then .py "InspectorError" else e
  | .pos _, e => if e = indexErr ∨ e = typeErr then .py "InspectorError" else e

/-- The part of a document that is named in square brackets: `extaction`, defs.py 260-287. -/
def extaction : Val → List Ix → Res Val
  | v, [] => .ok v
  | v, i :: is => match step v i with
    | .error e => .error (caught i e)
    | .ok w => extaction w is

/-- The part is changed in its place. -/
def within (doc : Val) (items : List Ix) : Out Val → Out Val
  | .going v t => match items with
    | [] => .going v t
    | _ => match assign doc items v with
      | .ok doc' => .going doc' t
      | .error e => .failed e
  | .stopped v => match items with
    | [] => .stopped v
    | _ => match assign doc items v with
      | .ok doc' => .stopped doc'
      | .error e => .failed e
  | o => o

/-- `change <name>[…] <pattern> to <replacement>`, lines 498-509 and 547-594. -/
def changeIn (items : List Ix) (pat rep : Src) (doc : Val) (answers : List Answer) : Val × Option Err := match extaction doc items with
  | .error e => (doc, some e)
  | .ok node => match regex (parse pat) with
    | .error e => (doc, some e)
    | .ok p => match replacement (parse rep) with
      | .error e => (doc, some e)
      | .ok r => finish doc (within doc items (walk p r true node ⟨answers, true⟩))

end Verif.Inspector
