import Verif.Reader.Model

/-!
# PrettyPFA: from the parser's tree to the PFA syntax tree (prettypfa.py 298-1185)

The parser of PrettyPFA makes a tree of `Mini…` objects, and their methods `asJson`, `asType` and `asExpr` make JSON, types and
PFA expressions of them.  All three methods of every class that can occur inside an expression are modelled here.

Simplifications:
* Line numbers (`low`, `high`, `pos`) only occur in messages and are left out.
* A type (AvroPlaceholder, made from JSON text by `json.dumps`) is the JSON value of that text; resolving the placeholders at the
  end is not part of the model.
* The names that `fixed`, `enum` and `record` types get when the text gives none come from a counter of the process
  (util.py 50-68); `unnamed` stands for that case, which is not modelled.
* A substitution `<<name>>` that was not given a value (pfaast.Subs) is left out.
* `elseClause=None` and an empty else clause are the same value of `Ast.E`, as in `Verif/Ast/Basic.lean`.
* A parameter `key: type` where an expression is expected gives a dict, which every constructor refuses: here this is the
  constructors' exception.
-/

namespace Verif.Pretty
open Avro Ast Reader

/-- PrettyPfaException. -/
def pretty : Err := .py "PrettyPfaException"
def noAttr : Err := .py "AttributeError"
/-- Not an error of the code: the case is not modelled. -/
def unnamed : Err := .py "unnamed type: not modelled"

/-- The value of a resolved substitution: a PFA syntax tree or Python data. -/
inductive Sub where
  | ast (e : X)
  | data (v : Val)

/-- The classes of prettypfa.py 298-1185.  An optional part is an `Option`. -/
inductive Mini where
  /-- ResolvedSubs, 323-343 -/
  | subs (v : Sub)
  /-- MiniGenGet, 345-354 -/
  | genGet (expr : Mini) (args : List Mini)
  /-- MiniGet, 356-377 -/
  | get (name : String) (args : List Mini)
  /-- MiniTo, 379-425 -/
  | to_ (name : String) (args : List Mini) (direct : Bool) (repl : Mini) (init : Option Mini)
  /-- MiniEnumSymbol, 427-436 -/
  | enumSymbol (enumType enumValue : String)
  /-- MiniDotName, 438-487 -/
  | dotName (name : String)
  /-- MiniNumber, 489-502: the value is an int or a float -/
  | number (value : Val)
  /-- MiniString, 504-514 -/
  | string (value : String)
  /-- MiniCall, 516-791 -/
  | call (name : String) (args : List Mini)
  /-- MiniBlock, 793-806 -/
  | block (exprs : List Mini)
  /-- MiniBracketedArgs, 808-816 -/
  | bracketed (args : List Mini)
  /-- MiniParam, 818-827 -/
  | param (name : String) (typeExpr : Mini)
  /-- MiniFcnDef, 829-841 -/
  | fcnDef (params : List (String × Mini)) (ret : Mini) (definition : List Mini)
  /-- MiniIf, 888-920 -/
  | if_ (pairs : List (Mini × Mini)) (elseC : Option Mini)
  /-- MiniAsBlock, 922-939 -/
  | asBlock (astype : Mini) (named : String) (body : Mini)
  /-- MiniCast, 941-951 -/
  | cast (expr : Mini) (asblocks : List Mini) (part : Bool)
  /-- MiniIfNotNull, 953-981 -/
  | ifNotNull (params : List (String × Mini)) (thenC : Mini) (elseC : Option Mini)
  /-- MiniUnpack, 983-1020 -/
  | unpack (bytes : Mini) (params : List (String × Mini)) (thenC : Mini) (elseC : Option Mini)
  /-- MiniWhile, 1022-1041 -/
  | while_ (pred body : Mini) (pretest : Bool)
  /-- MiniFor, 1043-1064; `init` and `step` are the pairs of the MiniAssignments -/
  | for_ (init : List (String × Mini)) (pred : Mini) (step : List (String × Mini)) (body : Mini)
  /-- MiniForeach with one name, 1066-1088 -/
  | foreach (name : String) (array body : Mini) (seq : Bool)
  /-- MiniForeach with two names -/
  | forkeyval (forkey forval : String) (map body : Mini)
  /-- MiniTry, 1090-1113 -/
  | try_ (body : Mini) (filters : Option (List Mini))
  /-- MiniGenAssignment, 1115-1125 -/
  | genAssign (expr : Mini) (args : List Mini) (rhs : Mini)
  /-- MiniAssignment, 1127-1185; `var` when the qualifier is "var" -/
  | assign (pairs : List (String × Mini)) (var : Bool)

/-- InterpretationState, 106-114, with the parsers that a substitution calls (`ppfa` 337, `pfa` 339) and `float(str)`. -/
structure St where
  functionNames : List String
  cellNames : List String
  poolNames : List String
  aliases : List (String × Val)
  ppfa : String → Res X
  pfa : Val → Res X
  toFloat : String → Res Flt

def Mini.isParam : Mini → Bool
  | .param .. => true
  | _ => false

/-! ## Sequencing -/

/-- `[f(x) for x in xs]` when the calls have the given outcomes: the first exception wins. -/
def seq {α : Type} : List (Res α) → Res (List α)
  | [] => .ok []
  | .error e :: _ => .error e
  | .ok a :: rs => match seq rs with
    | .ok as => .ok (a :: as)
    | .error e => .error e

/-- The same for the pairs of a dictionary. -/
def seqN {α : Type} : List (String × Res α) → Res (List (String × α))
  | [] => .ok []
  | (_, .error e) :: _ => .error e
  | (k, .ok a) :: rs => match seqN rs with
    | .ok as => .ok ((k, a) :: as)
    | .error e => .error e

/-- `dict(pairs)`: a later pair replaces the value of an earlier one with the same key. -/
def asDict {α : Type} (l : List (String × α)) : List (String × α) := PyDict.update [] l

/-- `if r raises: raise; else f(r)` -/
def andThen {α β : Type} (r : Res α) (f : α → Res β) : Res β := match r with
  | .ok a => f a
  | .error e => .error e

/-! ## asJson -/

mutual
/-- `asJson`: 342 (ResolvedSubs), 479 (MiniDotName), 501 (MiniNumber), 513 (MiniString), 800 (MiniBlock), 815
(MiniBracketedArgs), 312 (all others).  A substitution that is a syntax tree cannot be written as JSON. -/
def asJson : Mini → Res Val
  | .subs (.data v) => .ok v
  | .subs (.ast _) => .error (.py "TypeError")
  | .dotName n => .ok (if n = "null" then .null else if n = "true" then .bool true else if n = "false" then .bool false else .str n)
  | .number v => .ok v
  | .string s => .ok (.str s)
  | .block es => andThen (jsonB es) fun d => .ok (.dict (asDict d))
  | .bracketed as => andThen (jsonL as) fun l => .ok (.arr l)
  | _ => .error pretty
@[inherit_doc asJson] def jsonL : List Mini → Res (List Val)
  | [] => .ok []
  | m :: ms => andThen (asJson m) fun v => andThen (jsonL ms) fun vs => .ok (v :: vs)
@[inherit_doc asJson] def jsonB : List Mini → Res (List (String × Val))
  | [] => .ok []
  | .param n m :: ms => andThen (asJson m) fun v => andThen (jsonB ms) fun vs => .ok ((n, v) :: vs)
  | _ :: _ => .error pretty
end

/-! ## asType -/

/-- The pieces of a name between its dots, `name.split(".")`. -/
def pieces (s : String) : List String := (words s.toList).map String.ofList

/-- `".".join(pieces)` -/
def join : List String → String
  | [] => ""
  | [p] => p
  | p :: ps => p ++ "." ++ join ps

/-- `split`, 685-690: namespace and name. -/
def split (s : String) : Option String × String :=
  if '.' ∈ s.toList then (some (join (pieces s).dropLast), (pieces s).getLastD "") else (none, s)

/-- 725-728: the name goes into the type, and the namespace if there is one. -/
def withName (before after : List (String × Val)) (n : Option String × String) : Val :=
  .dict (before ++ [("name", .str n.2)] ++ after ++ (match n.1 with | some ns => [("namespace", .str ns)] | none => []))

/-- 707-728.  A substitution as second argument is refused: 718 tests for MiniDotName again. -/
def fixedType : List Mini → Res Val
  | [.number (.int size)] => if size ≤ 0 then .error pretty else .error unnamed
  | [.number (.int size), .dotName n] =>
    if size ≤ 0 then .error pretty else .ok (withName [("type", .str "fixed"), ("size", .int size)] [] (split n))
  | _ => .error pretty

/-- The names of a list of MiniDotNames; `none` when another object is among them. -/
def dotNames : List Mini → Option (List String)
  | [] => some []
  | .dotName n :: ms => (dotNames ms).map (n :: ·)
  | _ :: _ => none

/-- `split(self.args[1].value)` for a substitution: 744 and 768. -/
def splitSub : Sub → Res (Option String × String)
  | .data (.str s) => .ok (split s)
  | _ => .error (.py "TypeError")

/-- 730-753 -/
def enumType : List Mini → Res Val
  | .bracketed ss :: rest => match dotNames ss with
    | none => .error pretty
    | some names => match rest with
      | [] => .error unnamed
      | [.dotName n] => .ok (withName [("type", .str "enum"), ("symbols", .arr (names.map .str))] [] (split n))
      | [.subs s] => andThen (splitSub s) fun n => .ok (withName [("type", .str "enum"), ("symbols", .arr (names.map .str))] [] n)
      | _ => .error pretty
  | _ => .error pretty

/-- `others[0].name`: the attribute exists in MiniDotName, but also in MiniGet, MiniTo, MiniCall and MiniForeach. -/
def nameOf : Mini → Res (Option String × String)
  | .subs s => splitSub s
  | .dotName n | .get n _ | .to_ n _ _ _ _ | .call n _ | .foreach n _ _ _ => .ok (split n)
  | _ => .error noAttr

/-- A field of a record type. -/
def field (kv : String × Val) : Val := .dict [("name", .str kv.1), ("type", kv.2)]

/-- 755-777, given the types of the fields. -/
def recordType (args : List Mini) (fields : Res (List (String × Val))) : Res Val :=
  andThen fields fun fs => match args.filter (fun m => !m.isParam) with
    | [] => .error unnamed
    | [m] => andThen (nameOf m) fun n => .ok (withName [("type", .str "record")] [("fields", .arr (fs.map field))] n)
    | _ => .error pretty

/-- MiniCall.asType, 684-780, given the types of the arguments and of the fields among them. -/
def callType (name : String) (args : List Mini) (types : List (Res Val)) (fields : Res (List (String × Val))) : Res Val :=
  if name = "array" then match types with
    | [t] => andThen t fun t => .ok (.dict [("type", .str "array"), ("items", t)])
    | _ => .error pretty
  else if name = "map" then match types with
    | [t] => andThen t fun t => .ok (.dict [("type", .str "map"), ("values", t)])
    | _ => .error pretty
  else if name = "union" then (if types.length < 2 then .error pretty else andThen (seq types) fun ts => .ok (.arr ts))
  else if name = "fixed" then fixedType args
  else if name = "enum" then enumType args
  else if name = "record" then recordType args fields
  else .error pretty

section
variable (st : St)

mutual
/-- `asType`: 340 (ResolvedSubs), 474 (MiniDotName), 684 (MiniCall), 310 (all others). -/
def asType : Mini → Res Val
  | .subs (.data v) => .ok v
  | .subs (.ast _) => .error (.py "TypeError")
  | .dotName n => .ok ((PyDict.get? st.aliases n).getD (.str n))
  | .call name args => callType name args (typeL args) (fieldL args)
  | _ => .error pretty
@[inherit_doc asType] def typeL : List Mini → List (Res Val)
  | [] => []
  | m :: ms => asType m :: typeL ms
/-- The fields of a record: 756-762. -/
def fieldL : List Mini → Res (List (String × Val))
  | [] => .ok []
  | .param n m :: ms => andThen (asType m) fun t => andThen (fieldL ms) fun fs => .ok ((n, t) :: fs)
  | _ :: ms => fieldL ms
end

/-! ## asExpr -/

/-- What is needed of a part: its expression; for a parameter `key: value`, the expression of the value; the expressions it gives
as the body of a special form, which are those of its arguments when it is a call of `do` (899-904 and in eight more classes). -/
structure View where
  expr : Res X
  inner : Res X
  body : Res (List X)

/-- A part that is no parameter and no call of `do`. -/
def View.of (r : Res X) : View := ⟨r, .error noAttr, andThen r fun e => .ok [e]⟩

/-- A name and the path after its first dot: 365-371, 391-397, 457-460, 1136-1139. -/
def base (name : String) : String := (pieces name).headD ""
@[inherit_doc base] def path (name : String) : List X := (pieces name).tail.map .litString

/-- Reading of a name with a path: 372-377 and 461-466. -/
def getAt (b : String) (p : List X) : Res X :=
  if b ∈ st.cellNames then mk (.cellGet b p)
  else if b ∈ st.poolNames then mk (.poolGet b p)
  else mk (.attrGet (.ref b) p)

/-- MiniDotName.asExpr, 447-473 -/
def nameExpr (name : String) : Res X :=
  if name = "null" then .ok .litNull
  else if name = "true" then .ok (.litBool true)
  else if name = "false" then .ok (.litBool false)
  else if name ∈ st.functionNames then mk (.fcnRef name)
  else if '.' ∈ name.toList then getAt st (base name) (path name)
  else if name ∈ st.cellNames then mk (.cellGet name [])
  else if name ∈ st.poolNames then mk (.poolGet name [])
  else mk (.ref name)

/-- FcnRef, FcnDef or FcnRefFill. -/
def isFcn : X → Bool
  | .fcnRef .. | .fcnDef .. | .fcnRefFill .. => true
  | _ => false

/-- Assignment to a name with a path: 416-425 and 1147-1152. -/
def putAt (b : String) (p : List X) (repl : X) (init : Res X) : Res X :=
  if b ∈ st.cellNames then mk (.cellTo b p repl)
  else if b ∈ st.poolNames then andThen init fun i => mk (.poolTo b p repl i)
  else mk (.attrTo (.ref b) p repl)

/-- MiniTo.asExpr, 390-425 -/
def toExpr (name : String) (args : Res (List X)) (direct : Bool) (repl : Res X) (init : Option (Res X)) : Res X :=
  andThen args fun as => andThen repl fun t =>
    if direct && isFcn t then .error pretty
    else if !direct && !isFcn t then .error pretty
    else if !direct && decide (base name ∈ st.poolNames) && init.isNone then .error pretty
    else if decide (base name ∉ st.poolNames) && init.isSome then .error pretty
    else putAt st (base name) (path name ++ as) t (init.getD repl)

/-- MiniAssignment.asExpr, 1135-1176.  FcnRefFill is not among the classes tested for (1144, 1160). -/
def assignExpr (pairs : List (String × Res X)) (var : Bool) : Res X :=
  match var, pairs with
  | false, [(name, r)] => andThen r fun t => match t with
    | .fcnRef _ | .fcnDef .. => .error pretty
    | t =>
      if '.' ∈ name.toList then putAt st (base name) (path name) t r
      else if name ∈ st.cellNames then mk (.cellTo name [] t)
      else if name ∈ st.poolNames then mk (.poolTo name [] t t)
      else mk (.setVar [(name, t)])
  | _, _ => if pairs.any (fun kv => decide ('.' ∈ kv.1.toList)) then .error pretty
    else andThen (seqN pairs) fun vs => if var then mk (.let_ vs) else mk (.setVar vs)

/-- A value that must be a string for the constructor (pfaast.py 2429). -/
def litStr : Val → Res X
  | .str s => mk (.litString s)
  | _ => .error syn

/-- `base64.b64decode(v)` and the literal: 553 and 585-586. -/
def litBytes : Val → Res X
  | .str s => andThen (b64decode s) fun bs => mk (.litBase64 bs)
  | _ => .error (.py "TypeError")

/-- `json(type, value)`, 535-555 -/
def jsonExpr (td v : Val) : Res X := match td with
  | .str "null" => .ok .litNull
  | .str "int" => mk (.litInt v)
  | .str "long" => mk (.litLong v)
  | .str "float" => mk (.litFloat v)
  | .str "double" => mk (.litDouble v)
  | .str "string" => litStr v
  | .str "bytes" => litBytes v
  | td => mk (.literal td v)

/-- `int(v)` of Python data. -/
def pyIntOf : Val → Res Int
  | .int i => .ok i
  | .bool b => .ok (if b then 1 else 0)
  | .flt (.fin q) => .ok (Arith.trunc q)
  | .flt .nan => .error (.py "ValueError")
  | .flt _ => .error (.py "OverflowError")
  | .str s => match Lib.Num.pyInt 10 s.toList with
    | some i => .ok i
    | none => .error (.py "ValueError")
  | _ => .error (.py "TypeError")

/-- `float(v)` of Python data. -/
def pyFloatOf : Val → Res Flt
  | .int i => intToFlt i
  | .bool b => .ok (.fin (if b then 1 else 0))
  | .flt f => .ok f
  | .str s => st.toFloat s
  | _ => .error (.py "TypeError")

/-- Is the type an array type?  `isinstance(td, dict) and td.get("type") == "array"`, 608 -/
def isArrayType : Val → Bool
  | .dict d => match PyDict.get? d "type" with
    | some (.str s) => s == "array"
    | _ => false
  | _ => false

/-- The pairs `(x.name, x.typeExpr.asExpr(state))` of the parameters among the arguments. -/
def fills : List Mini → List View → List (String × Res X)
  | .param n _ :: ms, v :: vs => (n, v.inner) :: fills ms vs
  | _ :: ms, _ :: vs => fills ms vs
  | _, _ => []

/-- The expressions of the arguments that are not parameters. -/
def plains : List Mini → List View → List (Res X)
  | .param _ _ :: ms, _ :: vs => plains ms vs
  | _ :: ms, v :: vs => v.expr :: plains ms vs
  | _, _ => []

/-- `new`, 604-615 -/
def newExpr (args : List Mini) (vs : List View) : Res X := match args, vs with
  | t :: a :: as, _ :: ws => andThen (asType st t) fun td =>
    if isArrayType td then
      (if (a :: as).any Mini.isParam then .error pretty
      else andThen (seq (ws.map View.expr)) fun is => mk (.newArray is td))
    else
      (if !(a :: as).all Mini.isParam then .error pretty
      else andThen (seqN (fills (a :: as) ws)) fun fs => mk (.newObject (asDict fs) td))
  | _, _ => .error pretty

/-- `x.name` of a MiniDotName or `x.value` of a MiniString. -/
def text : Mini → Option String
  | .dotName n => some n
  | .string s => some s
  | _ => none

/-- The parameters among the arguments. -/
def params : List Mini → List (String × Mini)
  | [] => []
  | .param n m :: ms => (n, m) :: params ms
  | _ :: ms => params ms

/-- The code of `error`, 637-647.  The test joins two conditions with `and`, so a value without the attribute `value` is an
AttributeError and a float passes; the constructor refuses it later (pfaast.py 6043). -/
def codeOf : List (String × Mini) → Res (Option Val)
  | [] => .ok none
  | [(k, m)] => if k ≠ "code" then .error pretty else match m with
    | .number v => .ok (some v)
    | .subs (.data v) => if pyInt? v then .ok (some v) else .error pretty
    | .subs (.ast _) | .string _ => .error pretty
    | _ => .error noAttr
  | _ => .error pretty

/-- `error`, 636-658: `Error(message, code)`. -/
def errorExpr (args : List Mini) : Res X :=
  andThen (codeOf (params args)) fun code => match args.filter (fun m => !m.isParam) with
    | [m] => match text m with
      | some s => match code with
        | none => mk (.error s none)
        | some (.int c) => mk (.error s (some c))
        | some _ => .error syn
      | none => .error pretty
    | _ => .error pretty

/-- The namespace of `log`, 661-674. -/
def spaceOf : List (String × Mini) → Res (Option String)
  | [] => .ok none
  | [(k, m)] => if k ≠ "namespace" then .error pretty else match text m with
    | some s => .ok (some s)
    | none => .error pretty
  | _ => .error pretty

/-- The names that do not make a Call. -/
def formNames : List String :=
  ["json", "int", "long", "float", "double", "string", "bytes", "do", "apply", "update", "new", "upcast", "pack", "doc", "error", "log"]

/-- MiniCall.asExpr, 534-682, given the views of the arguments. -/
def callExpr (name : String) (args : List Mini) (vs : List View) : Res X :=
  if name = "json" then match args with
    | [t, v] => andThen (asType st t) fun td => andThen (asJson v) fun v => jsonExpr td v
    | _ => .error pretty
  else if name = "int" then match args with
    | [v] => andThen (asJson v) fun v => andThen (pyIntOf v) fun i => mk (.litInt (.int i))
    | _ => .error pretty
  else if name = "long" then match args with
    | [v] => andThen (asJson v) fun v => andThen (pyIntOf v) fun i => mk (.litLong (.int i))
    | _ => .error pretty
  else if name = "float" then match args with
    | [v] => andThen (asJson v) fun v => andThen (pyFloatOf st v) fun f => mk (.litFloat (.flt f))
    | _ => .error pretty
  else if name = "double" then match args with
    | [v] => andThen (asJson v) fun v => andThen (pyFloatOf st v) fun f => mk (.litDouble (.flt f))
    | _ => .error pretty
  else if name = "string" then match args with
    | [v] => andThen (asJson v) litStr
    | _ => .error pretty
  else if name = "bytes" then match args with
    | [v] => andThen (asJson v) litBytes
    | _ => .error pretty
  else if name = "do" then andThen (seq (vs.map View.expr)) fun b => mk (.do_ b)
  else if name = "apply" then match vs with
    | f :: as => andThen f.expr fun f => andThen (seq (as.map View.expr)) fun as => mk (.callUser f as)
    | [] => .error pretty
  else if name = "update" then match args, vs with
    | [_, .param k _], [a, b] => andThen a.expr fun r => andThen b.inner fun t => mk (.attrTo r [.litString k] t)
    | [_, _], [a, _] => andThen a.expr fun _ => .error pretty
    | _, _ => .error pretty
  else if name = "new" then newExpr st args vs
  else if name = "upcast" then match args, vs with
    | [t, _], [_, b] => andThen (asType st t) fun td => andThen b.expr fun x => mk (.upcast x td)
    | _, _ => .error pretty
  else if name = "pack" then
    (if args.isEmpty || !args.all Mini.isParam then .error pretty
    else andThen (seqN (fills args vs)) fun xs => mk (.pack xs))
  else if name = "doc" then match args with
    | [.string s] => mk (.doc s)
    | _ => .error pretty
  else if name = "error" then errorExpr args
  else if name = "log" then
    andThen (spaceOf (params args)) fun ns => andThen (seq (plains args vs)) fun xs => mk (.log xs ns)
  else if args.any Mini.isParam then andThen (seqN (fills args vs)) fun fs => mk (.fcnRefFill name (asDict fs))
  else andThen (seq (vs.map View.expr)) fun as => mk (.call name as)

/-- ResolvedSubs.asExpr, 333-339 -/
def subsExpr : Sub → Res X
  | .ast e => .ok e
  | .data (.str s) => st.ppfa s
  | .data v => st.pfa v

/-- The types of the parameters of a function: 826-827 in 839. -/
def paramTypes : List (String × Mini) → Res (List (String × Val))
  | [] => .ok []
  | (n, m) :: ms => andThen (asType st m) fun t => andThen (paramTypes ms) fun ts => .ok ((n, t) :: ts)

/-- The formats of `unpack`, 995-1002. -/
def formats : List (String × Mini) → Res (List (String × String))
  | [] => .ok []
  | (n, m) :: ms => match text m with
    | some s => andThen (formats ms) fun fs => .ok ((n, s) :: fs)
    | none => .error pretty

/-- An optional else clause. -/
def elseBody : Option View → Res (List X)
  | none => .ok []
  | some v => v.body

/-- MiniIf.asExpr, 896-920.  The else clause of a single `if` is assigned to the finished node, past the constructor's checks
(917). -/
def ifExpr (pairs : List (View × View)) (elseC : Option View) : Res X :=
  andThen (seq (pairs.map fun pv => andThen pv.2.body fun t => andThen pv.1.expr fun p => mk (.if_ p t []))) fun ifs =>
    andThen (elseBody elseC) fun e => match ifs with
      | [.if_ p t _] => .ok (.if_ p t e)
      | ifs => if elseC.isSome && e.isEmpty then .error syn else mk (.cond ifs e)

/-- A filter of `try`: 1102-1104. -/
def filterOf : Mini → Option Val
  | .dotName n => some (.str n)
  | .string s => some (.str s)
  | .number (.int i) => some (.int i)
  | _ => none

/-- The filters, `none` when one of them is neither a string nor a whole number. -/
def filtersOf : List Mini → Option (List Val)
  | [] => some []
  | m :: ms => match filterOf m, filtersOf ms with
    | some v, some vs => some (v :: vs)
    | _, _ => none

/-- MiniTry.asExpr, 1098-1113, given the body. -/
def tryExpr (body : Res (List X)) : Option (List Mini) → Res X
  | none => andThen body fun b => mk (.try_ b none)
  | some fs => match filtersOf fs with
    | none => .error pretty
    | some f => andThen body fun b => mk (.try_ b (some f))

mutual
/-- `asExpr` of every class (see `Mini` for the lines). -/
def view : Mini → View
  | .subs s => .of (subsExpr st s)
  | .genGet e as => .of (andThen (view e).expr fun x => andThen (seq ((views as).map View.expr)) fun p => mk (.attrGet x p))
  | .get n as => .of (andThen (seq ((views as).map View.expr)) fun p => getAt st (base n) (path n ++ p))
  | .to_ n as d r i => .of (toExpr st n (seq ((views as).map View.expr)) d (view r).expr ((viewO i).map View.expr))
  | .enumSymbol t v => .of (mk (.literal (.str t) (.str v)))
  | .dotName n => .of (nameExpr st n)
  | .number (.int i) => .of (mk (.litInt (.int i)))
  | .number v => .of (mk (.litDouble v))
  | .string s => .of (mk (.litString s))
  | .call n as => ⟨callExpr st n as (views as), .error noAttr,
      if n = "do" then seq ((views as).map View.expr) else andThen (callExpr st n as (views as)) fun e => .ok [e]⟩
  | .block _ => .of (.error pretty)
  | .bracketed _ => .of (.error pretty)
  | .param _ m => ⟨andThen (asType st m) fun _ => .error syn, (view m).expr, andThen (asType st m) fun _ => .error syn⟩
  | .fcnDef ps r d => .of (andThen (paramTypes st ps) fun ps => andThen (asType st r) fun r =>
      andThen (seq ((views d).map View.expr)) fun b => mk (.fcnDef ps r b))
  | .if_ ps e => .of (ifExpr (viewP ps) (viewO e))
  | .asBlock t n b => .of (andThen (asType st t) fun t => andThen (view b).body fun b => mk (.castCase t n b))
  | .cast e as p => .of (andThen (view e).expr fun x => andThen (seq ((views as).map View.expr)) fun cs => mk (.castBlock x cs p))
  | .ifNotNull ps t e => .of (andThen (seqN (viewN ps)) fun xs => andThen (view t).body fun t =>
      andThen (elseBody (viewO e)) fun el => if e.isSome && el.isEmpty then .error syn else mk (.ifNotNull (asDict xs) t el))
  | .unpack b ps t e => .of (andThen (view b).expr fun x => andThen (formats ps) fun fs => andThen (view t).body fun t =>
      andThen (elseBody (viewO e)) fun el => if e.isSome && el.isEmpty then .error syn else mk (.unpack x fs t el))
  | .while_ p b pre => .of (andThen (view b).body fun b => andThen (view p).expr fun p =>
      if pre then mk (.while_ p b) else mk (.doUntil b p))
  | .for_ i p s b => .of (andThen (view b).body fun b => andThen (seqN (viewN i)) fun i => andThen (view p).expr fun p =>
      andThen (seqN (viewN s)) fun s => mk (.for_ i p s b))
  | .foreach n a b q => .of (andThen (view b).body fun b => andThen (view a).expr fun a => mk (.foreach n a b q))
  | .forkeyval k v m b => .of (andThen (view b).body fun b => andThen (view m).expr fun m => mk (.forkeyval k v m b))
  | .try_ b fs => .of (tryExpr (view b).body fs)
  | .genAssign e as r => .of (andThen (view e).expr fun x => andThen (seq ((views as).map View.expr)) fun p =>
      andThen (view r).expr fun t => mk (.attrTo x p t))
  | .assign ps var => .of (assignExpr st (viewN ps) var)
@[inherit_doc view] def views : List Mini → List View
  | [] => []
  | m :: ms => view m :: views ms
@[inherit_doc view] def viewO : Option Mini → Option View
  | none => none
  | some m => some (view m)
@[inherit_doc view] def viewN : List (String × Mini) → List (String × Res X)
  | [] => []
  | (k, m) :: ms => (k, (view m).expr) :: viewN ms
@[inherit_doc view] def viewP : List (Mini × Mini) → List (View × View)
  | [] => []
  | (a, b) :: ms => (view a, view b) :: viewP ms
end

/-- `asExpr`. -/
def asExpr (m : Mini) : Res X := (view st m).expr
end

end Verif.Pretty
