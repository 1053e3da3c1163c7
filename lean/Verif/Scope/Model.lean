import Verif.Py.Basic
/-! # Run-time variable scopes: util.DynamicScope

A chain of `DynamicScope` objects is the list of their `symbols` dicts, innermost first (the
`parent` link is the tail).  Python mutates the dicts in place; a method of the innermost
object that mutates itself or its ancestors becomes a function returning the new chain.  That
is faithful as long as a chain is used by one thread at a time, which is how the generated
code uses it (each action builds its own scope, genpy.py 211, 234, 258, 285). -/

namespace Verif.Scope

abbrev Frame (V : Type _) := PyDict String V
abbrev Chain (V : Type _) := List (Frame V)

variable {V : Type _}

/-- `DynamicScope.__init__` (titus/util.py 110-115): a fresh empty scope with this parent. -/
def push (s : Chain V) : Chain V := [] :: s

/-- `DynamicScope.get` (titus/util.py 117-130). -/
def get : Chain V → String → Res V
  | [], _ => .error (.py "RuntimeError")
  | f :: parent, symbol =>
    match PyDict.get? f symbol with
    | some v => .ok v
    | none => get parent symbol

/-- `DynamicScope.let` (titus/util.py 132-139): assigns in this scope only.  The chain of an
existing scope object is never empty. -/
def letVars : Chain V → PyDict String V → Chain V
  | [], _ => []
  | f :: parent, nameExpr => PyDict.update f nameExpr :: parent

/-- One pass of the `for` loop of `DynamicScope.set` (titus/util.py 147-153).  `recur` is
`self.parent.set(nameExpr)`, always called with the whole dict.  The Bool is true when the
loop ended by raising RuntimeError; the mutations made before are kept. -/
def setLoop (recur : Chain V → Chain V × Bool) :
    PyDict String V → Frame V → Chain V → (Frame V × Chain V) × Bool
  | [], f, parent => ((f, parent), false)
  | (symbol, value) :: rest, f, parent =>
    if PyDict.has f symbol then setLoop recur rest (PyDict.set f symbol value) parent
    else
      match parent with
      | [] => ((f, parent), true)
      | p :: ps =>
        match recur (p :: ps) with
        | (parent', true) => ((f, parent'), true)
        | (parent', false) => setLoop recur rest f parent'

/-- `DynamicScope.set` on a chain of `n` scopes (titus/util.py 141-153). -/
def setN : Nat → PyDict String V → Chain V → Chain V × Bool
  | 0, _, s => (s, true)
  | _ + 1, _, [] => ([], true)
  | n + 1, nameExpr, f :: parent =>
    match setLoop (setN n nameExpr) nameExpr f parent with
    | ((f', parent'), b) => (f' :: parent', b)

/-- `DynamicScope.set` (titus/util.py 141-153): the new chain, or RuntimeError. -/
def setVars (s : Chain V) (nameExpr : PyDict String V) : Res (Chain V) :=
  match setN s.length nameExpr s with
  | (s', false) => .ok s'
  | (_, true) => .error (.py "RuntimeError")

end Verif.Scope
