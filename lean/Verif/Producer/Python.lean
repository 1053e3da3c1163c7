import Verif.Reader.Node

/-!
# Python code as PFA: model (C100)

`titus/producer/expression.py`: `pfa` parses Python code with the library `ast` and converts the tree to the JSON of PFA.  The model begins with the
tree of `ast` in Python 3.4 to 3.9 (setup.py 66), where the class `ast.Print` of line 148 does not exist.

Simplified: complex numbers and `**` among the keywords of a call are left out; a message is the class of its exception; the key of `**` in a dictionary
(`None`) is `other`, as are all kinds of expressions that the code does not look for (the constants `True`, `False` and `None`, lambdas, sets, starred arguments, …).
-/

namespace Verif.PyCode
open Avro Reader

/-- `ast.operator` -/
inductive BinOp where
  | add | sub | mult | div | mod | pow | lshift | rshift | bitOr | bitXor | bitAnd | floorDiv | matMult
deriving DecidableEq

/-- `ast.unaryop` -/
inductive UnOp where
  | invert | not_ | uadd | usub
deriving DecidableEq

/-- `ast.cmpop`; `other` is one of `is`, `is not`, `in`, `not in`. -/
inductive CmpOp where
  | eq | notEq | lt | ltE | gt | gtE | other
deriving DecidableEq

/-- `ast.expr`, with the number of the line. -/
inductive PyE where
  | boolOp (l : Nat) (and : Bool) (vs : List PyE)
  | binOp (l : Nat) (op : BinOp) (a b : PyE)
  | unaryOp (l : Nat) (op : UnOp) (a : PyE)
  | ifExp (l : Nat) (test body orelse : PyE)
  | dict (l : Nat) (keys values : List PyE)
  | compare (l : Nat) (left : PyE) (ops : List CmpOp) (cs : List PyE)
  | call (l : Nat) (f : PyE) (args : List PyE) (kws : List String) (kvs : List PyE)
  | num (l : Nat) (v : Val)
  | str (l : Nat) (s : String)
  | attribute (l : Nat) (x : PyE) (attr : String)
  /-- The index is absent if the slice is no `ast.Index`, as for `x[1:2]`, and for every index in Python 3.9. -/
  | subscript (l : Nat) (x : PyE) (index : Option PyE)
  | name (l : Nat) (id : String)
  | list (l : Nat) (es : List PyE)
  | tuple (l : Nat) (es : List PyE)
  | other (l : Nat)

/-- `lineno` -/
def PyE.line : PyE → Nat
  | .boolOp l .. | .binOp l .. | .unaryOp l .. | .ifExp l .. | .dict l .. | .compare l .. | .call l .. | .num l _ | .str l _ | .attribute l .. | .subscript l .. | .name l _ | .list l _
  | .tuple l _ | .other l => l

/-- `state`, 73 -/
structure State where
  subs : List (String × Val) := []
  symbols : List String := []
  cells : List String := []
  pools : List String := []
  lineNumbers : Bool := true

/-- `PythonToPfaException` -/
def refuse : Err := .py "PythonToPfaException"

/-- `_form`, 106-110 -/
def form (st : State) (l : Nat) (d : List (String × Val)) : Val :=
  if st.lineNumbers then .dict (("@", .str ("Python line " ++ toString l)) :: d) else .dict d

/-- Lines 231-254; a matrix product assigns no name. -/
def binName : BinOp → Res String
  | .add => .ok "+"
  | .sub => .ok "-"
  | .mult => .ok "*"
  | .div => .ok "/"
  | .mod => .ok "%"
  | .pow => .ok "**"
  | .lshift | .rshift => .error refuse
  | .bitOr => .ok "|"
  | .bitXor => .ok "^"
  | .bitAnd => .ok "&"
  | .floorDiv => .ok "//"
  | .matMult => .error unbound

/-- 258-265 -/
def unName : UnOp → Res String
  | .invert => .ok "~"
  | .not_ => .ok "!"
  | .uadd => .error refuse
  | .usub => .ok "u-"

/-- `opname`, 278-286: the message needs `x.lineno`, which operators do not have. -/
def cmpName : CmpOp → Res String
  | .eq => .ok "=="
  | .notEq => .ok "!="
  | .lt => .ok "<"
  | .ltE => .ok "<="
  | .gt => .ok ">"
  | .gtE => .ok ">="
  | .other => .error (.py "AttributeError")

/-- `unfold`, 303-309 -/
def dotted : PyE → Res String
  | .name _ id => .ok id
  | .attribute _ x a => match dotted x with
    | .ok s => .ok (s ++ "." ++ a)
    | .error e => .error e
  | _ => .error refuse

/-- 311 -/
def specialForms : List String :=
  ["Int", "Long", "Float", "Double", "String", "Base64", "Type", "Value", "New", "Do", "Let", "Set", "Attr", "Path", "To", "Cell", "Pool", "Init", "If", "Then", "Else", "Cond", "While",
   "Until", "For", "Step", "Foreach", "In", "Forkey", "Forval", "Cast", "Cases", "Partial", "Upcast", "As", "Ifnotnull", "Doc", "Error", "Log", "Namespace", "Params", "Ret", "Fcn"]

/-- 312 -/
def coreLibrary : List (String × String) :=
  [("Plus", "+"), ("Minus", "-"), ("Times", "*"), ("Divide", "/"), ("FloorDivide", "//"), ("Negative", "U-"), ("Modulo", "%"), ("Remainder", "%%"), ("Pow", "**"),
   ("Comparison", "cmp"), ("Equal", "=="), ("GreaterOrEqual", ">="), ("GreaterThan", ">"), ("NotEqual", "!="), ("LessThan", "<"), ("LessOrEqual", "<="), ("Max", "max"), ("Min", "min"),
   ("And", "&&"), ("Or", "||"), ("XOr", "^^"), ("Not", "!"), ("BitwiseAnd", "&"), ("BitwiseOr", "|"), ("BitwiseXOr", "^"), ("BitwiseNot", "~")]

/-- `name.lower()` of a special form; the letters of all of them are ASCII. -/
def lower (s : String) : String := if s ∈ specialForms then String.ofList (s.toList.map Char.toLower) else s

/-- 314-317 -/
def callName (s : String) : String := (PyDict.get? coreLibrary (lower s)).getD (lower s)

/-- 323 -/
def wantsString : List String := ["string", "base64", "value", "attr", "cell", "pool", "foreach", "forkey", "forval", "doc", "error", "fcn"]

/-- 319-324: the arguments of a call. -/
def callArgs (name : String) (args : List Val) : Val := match args with
  | [.dict [(k, v)]] => if name ∈ wantsString ∧ k = "string" then v else .dict [(k, v)]
  | [v] => v
  | vs => .arr vs

/-- The first error, or all values. -/
def seqR {α : Type} : List (Res α) → Res (List α)
  | [] => .ok []
  | r :: rs => match r with
    | .error e => .error e
    | .ok a => match seqR rs with
      | .error e => .error e
      | .ok as => .ok (a :: as)

/-- 218-228: from the left. -/
def boolForm (st : State) (l : Nat) (sign : String) : List Val → Res Val
  | a :: b :: vs => .ok (vs.foldl (fun out v => form st l [(sign, .arr [out, v])]) (form st l [(sign, .arr [a, b])]))
  | _ => .error (.py "IndexError")

/-- 293-297: the rest of a chain. -/
def chain (st : State) (l : Nat) : Val → Val → List CmpOp → List (Res Val) → Res Val
  | out, last, op :: ops, c :: cs => match c with
    | .error e => .error e
    | .ok new => match cmpName op with
      | .error e => .error e
      | .ok s => chain st l (form st l [("&&", .arr [out, form st l [(s, .arr [last, new])]])]) new ops cs
  | out, _, _, _ => .ok out

/-- 287-299 -/
def compareForm (st : State) (l : Nat) (left : Res Val) : List CmpOp → List (Res Val) → Res Val
  | op :: ops, c :: cs => match c with
    | .error e => .error e
    | .ok last => match cmpName op with
      | .error e => .error e
      | .ok s => match left with
        | .error e => .error e
        | .ok a => chain st l (form st l [(s, .arr [a, last])]) last ops cs
  | _, _ => .error (.py "IndexError")

/-- 328-332: keywords. -/
def keywords : List (String × Val) → List String → List (Res Val) → Res (List (String × Val))
  | out, k :: ks, v :: vs => match v with
    | .error e => .error e
    | .ok v => keywords (PyDict.set out (lower k) v) ks vs
  | out, _, _ => .ok out

/-- An identifier: 347-355, 401-408; `absent` is what happens to any other. -/
def ident (st : State) (id : String) (absent : Res Val) : Res Val := match PyDict.get? st.subs id with
  | some v => .ok v
  | none => if id = "None" then .ok .null else if id = "True" then .ok (.bool true) else if id = "False" then .ok (.bool false) else absent

/-- The key of a literal dictionary, 385-386. -/
def literalKey (st : State) : PyE → Res String
  | .str _ s => .ok s
  | .name _ id => match PyDict.get? st.subs id with
    | some (.str s) => .ok s
    | _ => .error refuse
  | _ => .error refuse

mutual
/-- `_literal`, 381-419 -/
def literal (st : State) : PyE → Res Val
  | .dict _ ks vs => match literalD st [] ks vs with
    | .ok d => .ok (.dict d)
    | .error e => .error e
  | .num _ v => .ok v
  | .str _ s => .ok (.str s)
  | .name _ id => ident st id (.error refuse)
  | .list _ es => match literals st es with
    | .ok vs => .ok (.arr vs)
    | .error e => .error e
  | _ => .error refuse
@[inherit_doc literal] def literals (st : State) : List PyE → Res (List Val)
  | [] => .ok []
  | e :: es => match literal st e with
    | .error e => .error e
    | .ok v => match literals st es with
      | .error e => .error e
      | .ok vs => .ok (v :: vs)
@[inherit_doc literal] def literalD (st : State) : List (String × Val) → List PyE → List PyE → Res (List (String × Val))
  | out, k :: ks, v :: vs => match literalKey st k with
    | .error e => .error e
    | .ok k => match literal st v with
      | .error e => .error e
      | .ok v => literalD st (PyDict.set out k v) ks vs
  | out, _, _ => .ok out
end

/-- 372-377: the end of `_unfold`, at the base `x`. -/
def base (st : State) (x : PyE) (self : Res Val) (path : List Val) : Res Val := match x with
  | .name l id =>
    if id ∈ st.cells then .ok (form st l [("cell", .str id), ("path", .arr path)])
    else if id ∈ st.pools then .ok (form st l [("pool", .str id), ("path", .arr path)])
    else match self with
      | .ok v => .ok (form st l [("attr", v), ("path", .arr path)])
      | .error e => .error e
  | x => match self with
    | .ok v => .ok (form st x.line [("attr", v), ("path", .arr path)])
    | .error e => .error e

mutual
/-- `_expression`, 216-360 -/
def expr (st : State) : PyE → Res Val
  | .boolOp l and vs => match seqR (exprs st vs) with
    | .ok vs => boolForm st l (if and then "&&" else "||") vs
    | .error e => .error e
  | .binOp l op a b => match binName op with
    | .error e => .error e
    | .ok s => match expr st a with
      | .error e => .error e
      | .ok a => match expr st b with
        | .error e => .error e
        | .ok b => .ok (form st l [(s, .arr [a, b])])
  | .unaryOp l op a => match unName op with
    | .error e => .error e
    | .ok s => match expr st a with
      | .error e => .error e
      | .ok a => .ok (form st l [(s, a)])
  | .ifExp l t b o => match expr st t with
    | .error e => .error e
    | .ok t => match expr st b with
      | .error e => .error e
      | .ok b => match expr st o with
        | .error e => .error e
        | .ok o => .ok (form st l [("if", t), ("then", b), ("else", o)])
  | .dict l ks vs => literal st (.dict l ks vs)
  | .compare l left ops cs => compareForm st l (expr st left) ops (exprs st cs)
  | .call l f args kws kvs => match dotted f with
    | .error e => .error e
    | .ok name => match seqR (exprs st args) with
      | .error e => .error e
      | .ok args => match keywords [(callName name, callArgs (callName name) args)] kws (exprs st kvs) with
        | .error e => .error e
        | .ok d => .ok (form st l d)
  | .num _ v => .ok v
  | .str _ s => .ok (.dict [("string", .str s)])
  | .attribute _ x a => unfold st x [.dict [("string", .str a)]]
  | .subscript _ x (some i) => match expr st i with
    | .error e => .error e
    | .ok i => unfold st x [i]
  | .subscript _ _ none => .error (.py "RecursionError")
  | .name _ id => ident st id (.ok (.str id))
  | .list l es => literal st (.list l es)
  | .tuple _ es => match seqR (exprs st es) with
    | .ok vs => .ok (.arr vs)
    | .error e => .error e
  | .other _ => .error refuse
@[inherit_doc expr] def exprs (st : State) : List PyE → List (Res Val)
  | [] => []
  | e :: es => expr st e :: exprs st es
/-- `_unfold`, 362-377.  Without an `ast.Index` line 377 and line 341 call each other for ever. -/
def unfold (st : State) : PyE → List Val → Res Val
  | .attribute _ x a, path => unfold st x (.dict [("string", .str a)] :: path)
  | .subscript _ x (some i), path => match expr st i with
    | .error e => .error e
    | .ok i => unfold st x (i :: path)
  | x, path => base st x (expr st x) path
end

/-- `ast.stmt`: every statement that is no assignment meets `ast.Print`. -/
inductive Stmt where
  | assign (l : Nat) (targets : List PyE) (value : PyE)
  | other

/-- `isinstance(x, ast.Name)` for all elements. -/
def idents : List PyE → Option (List String)
  | [] => some []
  | .name _ id :: es => (idents es).map (id :: ·)
  | _ :: _ => none

/-- 130-138: `out`, `lets`, `sets`, `state["symbols"]`. -/
def several (st : State) : List (String × Val) → Nat → Nat → List String → List PyE → Res (List (String × Val) × Nat × Nat × State)
  | out, lets, sets, n :: ns, v :: vs =>
    if n ∈ st.symbols then match expr st v with
      | .error e => .error e
      | .ok v => several st (PyDict.set out n v) lets (sets + 1) ns vs
    else match expr { st with symbols := n :: st.symbols } v with
      | .error e => .error e
      | .ok v => several { st with symbols := n :: st.symbols } (PyDict.set out n v) (lets + 1) sets ns vs
  | out, lets, sets, _, _ => .ok (out, lets, sets, st)

/-- 139-145 -/
def letSet (lets sets : Nat) : Res String :=
  if lets > 0 ∧ sets = 0 then .ok "let" else if lets = 0 ∧ sets > 0 then .ok "set" else .error refuse

/-- `_statement`, 123-198, and what becomes of the symbols. -/
def statement (st : State) : Stmt → Res (Val × State)
  | .assign l [.name _ id] value => match expr st value with
    | .error e => .error e
    | .ok v => .ok (form st l [(if id ∈ st.symbols then "set" else "let", .dict [(id, v)])], { st with symbols := id :: st.symbols })
  | .assign l [.tuple _ es] (.tuple _ vs) => match idents es with
    | none => .error refuse
    | some ns => match several st [] 0 0 ns vs with
      | .error e => .error e
      | .ok (out, lets, sets, st') => match letSet lets sets with
        | .error e => .error e
        | .ok s => .ok (form st l [(s, .dict out)], st')
  | .assign .. => .error refuse
  | .other => .error (.py "AttributeError")

/-- `_statements`, 120-121 -/
def statements (st : State) : List Stmt → Res (List Val)
  | [] => .ok []
  | s :: ss => match statement st s with
    | .error e => .error e
    | .ok (v, st) => match statements st ss with
      | .error e => .error e
      | .ok vs => .ok (v :: vs)

/-- `pfa`, 73-77 -/
def pfa (st : State) (wantArray : Bool) (ss : List Stmt) : Res Val := match statements st ss with
  | .error e => .error e
  | .ok [v] => .ok (if wantArray then .arr [v] else v)
  | .ok vs => .ok (.arr vs)

/-- `fcn`, 101-104: the state has no symbols. -/
def fcn (params ret : Val) (st : State) (wantArray : Bool) (ss : List Stmt) : Res Val := match pfa { st with symbols := [] } wantArray ss with
  | .error e => .error e
  | .ok v => .ok (.dict [("params", params), ("ret", ret), ("do", v)])

end Verif.PyCode
