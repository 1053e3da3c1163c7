import Verif.Lang.Run
import Verif.Ast.Basic
/-!
# Semantic check and code generation: model (C42, C43)

Models the `walk` methods of `titus/pfaast.py` (function by function, cited below), SymbolTable (115-302),
and `GeneratePython` of `titus/genpy.py` 308-470.  As in the code, one traversal computes the type of an
expression and its generated code; the code is represented by what it does (`Verif.Lang.Run`).

* A symbol table is the list of its scopes, innermost first.  A method that puts symbols into a scope
  returns the new table; the scopes around a new scope cannot be changed by walking inside it, only the
  scope given to `walk` itself can (Let 3049-3050), so the table of a new scope is dropped after use.
* The type of an expression is `none` when `broadestType` returned its ValueError object (signature.py
  207, 209); such an object accepts nothing and is accepted by nothing.
* `Guard` marks the places where the check accepts programs that do go wrong.  Every field is a
  condition that the code does not have; with `Guard.all`, where every condition holds, the function is the
  check of the code.  The theorems name the conditions under which nothing goes wrong.
-/

namespace Verif.Lang
open Avro Scope Path Sig Ast

abbrev Ex := E AType

/-- Type of an argument. -/
abbrev Ty := Option CType

/-- One SymbolTable object (pfaast.py 115-170); cells and pools stand in the outermost one only (904-905). -/
structure Scope1 where
  symbols : PyDict String Ty
  sealedAbove : Bool
  sealedWithin : Bool

/-- A SymbolTable with its parents. -/
abbrev SymTab := List Scope1

/-- `get`, `getAbove` (172-194) -/
def SymTab.find : SymTab → String → Option Ty
  | [], _ => none
  | s :: up, x => match s.symbols.get? x with
    | some t => some t
    | none => SymTab.find up x

/-- `writable` (196-215); called for known symbols only (the outermost table raises ValueError otherwise). -/
def SymTab.writable : SymTab → String → Bool
  | [], _ => false
  | s :: up, x =>
    if s.sealedWithin then false
    else match s.symbols.get? x with
      | some _ => true
      | none => if s.sealedAbove then false else SymTab.writable up x

/-- `newScope` (259-269) -/
def SymTab.new (Γ : SymTab) (above within : Bool) : SymTab := ⟨[], above, within⟩ :: Γ

/-- `put` (217-227) -/
def SymTab.put (Γ : SymTab) (x : String) (t : Ty) : SymTab :=
  match Γ with
  | [] => []
  | s :: up => { s with symbols := s.symbols.set x t } :: up

/-- `sealedWithin` of the table itself. -/
def SymTab.within : SymTab → Bool
  | [] => false
  | s :: _ => s.sealedWithin

/-- An entry of the function table (358-409): user-defined functions (316-343) and library functions. -/
inductive Fun where
  | user (params : List (String × AType)) (ret : AType) (body : List Ex)
  | lib (sigs : List Sig1)

/-- What `walk` is given besides the symbol table, and what the generated code refers to. -/
structure Prog where
  env : Env
  cells : PyDict String AType
  pools : PyDict String AType
  funs : PyDict String Fun
  version : Ver
  /-- `jsonDecoder` (modelled in `Avro.dec`) -/
  decode : AType → Val → Res Val
  /-- messages of run-time errors -/
  msg : Int → String
  floats : Pack.FloatBits

/-- The engine object as the generated code sees it: functions by name, the clock, fuel. -/
structure Rt where
  fuel : Nat
  /-- `callfcn` of `self.f["u.name"]` on a list of arguments, in the scope it is called in -/
  user : String → Option (List Val → M Val)
  /-- `self.f["name"](state, scope, pos, paramTypes, *args)` -/
  lib : String → Option (List CType) → List Arg → M Val
  expired : Nat → Bool

/-- Generated code of an argument: of an expression, or of a callable (with or without `paramNames`). -/
inductive Code where
  | expr (m : Rt → M Val)
  | fn (labeled : Bool) (f : Rt → List Val → M Val)

/-- Conditions at the places where the check is too generous; see the file comment. -/
structure Guard where
  /-- a value of the second type is used where the first is declared -/
  acc : AType → AType → Bool
  lit : AType → Val → Bool
  cast : AType → List AType → Bool → Bool
  notNull : AType → AType → Bool
  try_ : AType → Bool
  filter : Bool
  upcast : AType → AType → Bool
  call : String → List CType → List CType → CType → Bool
  ref : String → List CType → CType → Bool
  fill : CType → Ty → Bool
  dollar : SymTab → Bool
  libTo : Bool
  sets : Nat → Bool
  pack : List (Pack.Decl × AType) → Bool
  unpack : List Pack.Decl → Bool
  log : AType → Bool

/-- The check of the code. -/
def Guard.all : Guard where
  acc _ _ := true
  lit _ _ := true
  cast _ _ _ := true
  notNull _ _ := true
  try_ _ := true
  filter := true
  upcast _ _ := true
  call _ _ _ _ := true
  ref _ _ _ := true
  fill _ _ := true
  dollar _ := true
  libTo := true
  sets _ := true
  pack _ := true
  unpack _ := true
  log _ := true

/-- `PFASemanticException` -/
def sem : Err := .py "PFASemanticException"

/-- `if not b: raise PFASemanticException` -/
def req (b : Bool) : Res Unit := if b then .ok () else .error sem

/-- A call of `walk` on a part: type, code, and the table afterwards. -/
abbrev Walk := Ex → SymTab → Res (Ty × Code × SymTab)

/-- Names: `re.match("^[A-Za-z_][A-Za-z0-9_]*$", name)` (306); `$` also matches before a final newline. -/
def validSymbolName (s : String) : Bool :=
  let letter (c : Char) : Bool := c.isAlpha || c == '_'
  let rest (cs : List Char) : Bool := cs.all (fun c => letter c || c.isDigit) ||
    (cs.getLast? == some '\n' && cs.dropLast.all (fun c => letter c || c.isDigit))
  match s.toList with
  | [] => false
  | c :: cs => letter c && rest cs

section
variable (P : Prog) (g : Guard) (w : Walk)

/-- `t.accepts(ty)` where the value is then used as a `t`. -/
def accTy (t : AType) : Ty → Bool
  | some (.avro u) => accepts P.env P.env t u && g.acc t u
  | _ => false

/-- `walk` of an expression. -/
def walkE (e : Ex) (Γ : SymTab) : Res (Ty × (Rt → M Val) × SymTab) :=
  match w e Γ with
  | .ok (t, .expr m, Γ) => .ok (t, m, Γ)
  | .ok _ => .error (.py "AttributeError")
  | .error e => .error e

/-- `[x.walk(task, scope, ...) for x in body]`: one scope for all. -/
def walkL : List Ex → SymTab → Res (List Ty × List (Rt → M Val) × SymTab)
  | [], Γ => .ok ([], [], Γ)
  | e :: es, Γ => do
    let (t, m, Γ) ← walkE w e Γ
    let (ts, ms, Γ) ← walkL es Γ
    .ok (t :: ts, m :: ms, Γ)

/-- The same for arguments of functions. -/
def walkA : List Ex → SymTab → Res (List Ty × List Code × SymTab)
  | [], Γ => .ok ([], [], Γ)
  | e :: es, Γ => do
    let (t, c, Γ) ← w e Γ
    let (ts, cs, Γ) ← walkA es Γ
    .ok (t :: ts, c :: cs, Γ)

/-- The same for a dictionary of expressions. -/
def walkD : List (String × Ex) → SymTab → Res (List (String × Ty) × List (String × (Rt → M Val)) × SymTab)
  | [], Γ => .ok ([], [], Γ)
  | (k, e) :: es, Γ => do
    let (t, m, Γ) ← walkE w e Γ
    let (ts, ms, Γ) ← walkD es Γ
    .ok ((k, t) :: ts, (k, m) :: ms, Γ)

/-- The same for a dictionary of arguments (FcnRefFill 1702-1712). -/
def walkDA : List (String × Ex) → SymTab → Res (List (String × Ty × Code) × SymTab)
  | [], Γ => .ok ([], Γ)
  | (k, e) :: es, Γ => do
    let (t, c, Γ) ← w e Γ
    let (ts, Γ) ← walkDA es Γ
    .ok ((k, t, c) :: ts, Γ)

/-- `results[-1][0].retType` -/
def lastTy : List Ty → Res Ty
  | [] => .error (.py "IndexError")
  | [t] => .ok t
  | _ :: ts => lastTy ts

/-- A body: the expressions in one scope; the type of the last, and `do(...)`. -/
def block (es : List Ex) (Γ : SymTab) : Res (Ty × (Rt → M Val) × SymTab) := do
  let (ts, ms, Γ) ← walkL w es Γ
  let t ← lastTy ts
  .ok (t, fun rt => doM (ms.map (· rt)), Γ)

/-- The argument types, as `accepts` of signatures takes them.  A ValueError object as argument type makes
`Sig.accepts` fail or raise. -/
def ctypes : List Ty → Res (List CType)
  | [] => .ok []
  | some t :: ts => Res.app (t :: ·) (ctypes ts)
  | none :: _ => .error (.py "AttributeError")

/-- `LabelData.broadestType` of the types of the branches; a ValueError object among them makes it raise. -/
def join (ts : List Ty) : Res Ty := do
  let cs ← ctypes ts
  let o ← match broadest P.env cs with
    | .ok o => .ok o
    | .error e => if e = incompatible then .error sem else .error e
  match o with
  | some (.avro u) => do
    req ((avros cs).all (fun t => g.acc u t))
    .ok o
  | some _ => .error (.py "unreachable")
  | none => .ok o

/-- Is the type an exception? -/
def isExcTy : Ty → Bool
  | some .exc => true
  | _ => false

/-- A value for an argument. -/
def Code.toArg : Code → Rt → M Arg
  | .expr m, rt => do
    let v ← m rt
    pure (.val v)
  | .fn l f, rt => pure (.fn l (f rt))

/-- The values among evaluated arguments; user functions take values only. -/
def vals : List Arg → Res (List Val)
  | [] => .ok []
  | .val v :: as => Res.app (v :: ·) (vals as)
  | .fn _ _ :: _ => .error (.py "TypeError")

/-- `self.f["u.name"]` -/
def callUserFn (rt : Rt) (name : String) (vs : List Val) : M Val :=
  match rt.user name with
  | some f => f vs
  | none => raise (.py "KeyError")

/-- `P.toType` (P.py 312-363) on the patterns of a signature. -/
def toTy : Pat → Res CType
  | .fcn ps r => do
    let ps ← mapR (assignRet []) ps
    let r ← assignRet [] r
    .ok (.fcn ps r)
  | p => assignRet [] p

/-- The signature of a function that can be referred to (FcnRef.walk 1583-1596, FcnRefFill.walk 1714-1734): the
only one in force. -/
def refSig (f : Fun) : Res Sig1 :=
  match f with
  | .user ps r _ => .ok (userSig ps r)
  | .lib sigs => match sigs.filter (fun s => s.life.current P.version || s.life.deprecated P.version) with
    | [s] => .ok s
    | _ => .error sem

/-- A path item (walkPath 1367-1404): the type it leads to and the code of the index. -/
def pathItem (t : AType) (e : Ex) (ty : Ty) (m : Rt → M Val) : Res (AType × (Rt → M Val)) :=
  match t, ty with
  | .array i, some (.avro .int) => .ok (i, m)
  | .array i, some (.avro .long) => .ok (i, m)
  | .map i, some (.avro .string) => .ok (i, m)
  | .record n, some (.avro .string) =>
    let name : Option String := match e with
      | .litString s => some s
      | .literal .string (.str s) => some s
      | _ => none
    match name with
    | none => .error sem
    | some s => match ((P.env.fields? n).getD []).find? (fun f => f.name = s) with
      | some f => .ok (f.type, fun _ => pure (.str s))
      | none => .error sem
  | _, _ => .error sem

/-- An entry of the filter of Try; `True` is found in a list of codes where 1 is. -/
def filterItem : Val → Option (String ⊕ Int)
  | .str s => some (.inl s)
  | .int i => some (.inr i)
  | .bool b => some (.inr (if b then 1 else 0))
  | _ => none

/-- `walkPath` (1343-1406), in the scope of the path. -/
def walkPath : AType → List Ex → SymTab → Res (AType × List (Rt → M Val) × SymTab)
  | t, [], Γ => .ok (t, [], Γ)
  | t, e :: es, Γ => do
    let (ty, m, Γ) ← walkE w e Γ
    let (t, m) ← pathItem P t e ty m
    let (t, ms, Γ) ← walkPath t es Γ
    .ok (t, m :: ms, Γ)

/-- Is the type an array, map or record? -/
def indexable : AType → Bool
  | .array _ => true
  | .map _ => true
  | .record _ => true
  | _ => false

/-- The check of `to` (3379-3397 and the like): a value of the type, or a function from the type to itself.
`FcnType.accepts` (datatype.py 52-58) is contravariant in the parameter. -/
def walkTo (t : AType) (e : Ex) (Γ : SymTab) : Res ((Rt → M Arg) × SymTab) := do
  let (ty, c, Γ) ← w e Γ
  match c with
  | .expr m => do
    req (accTy P g t ty)
    .ok (fun rt => (Code.expr m).toArg rt, Γ)
  | .fn l f => match ty with
    | some (.fcn [.avro p] (.avro r)) => do
      req (accepts P.env P.env p t && g.acc p t && accepts P.env P.env t r && g.acc t r && (l || g.libTo))
      .ok (fun rt => (Code.fn l f).toArg rt, Γ)
    | _ => .error sem

/-- `ty.accepts(boolean)` of a predicate, walked in a sealed scope. -/
def predicate (e : Ex) (Γ : SymTab) : Res (Rt → M Val) := do
  let (t, m, _) ← walkE w e (Γ.new true true)
  req (accTy P g .boolean t)
  .ok m

/-- The names of new variables (Let.walk 3031-3047, For.walk 4617-4630): unknown so far, valid, with their
expressions in sealed scopes of their own. -/
def newVars (Γ : SymTab) (mayRaise : Bool) : List (String × Ex) → Res (List (String × Ty) × List (String × (Rt → M Val)))
  | [] => .ok ([], [])
  | (x, e) :: es => do
    req (Γ.find x).isNone
    req (validSymbolName x)
    let (t, m, _) ← walkE w e (Γ.new true true)
    req (mayRaise || !isExcTy t)
    let (ts, ms) ← newVars Γ mayRaise es
    .ok ((x, t) :: ts, (x, m) :: ms)

/-- Assignments (SetVar.walk 3145-3158, For.walk 4642-4655). -/
def assigns (Γ : SymTab) : List (String × Ex) → Res (List (String × (Rt → M Val)))
  | [] => .ok []
  | (x, e) :: es => do
    match Γ.find x with
    | none => .error sem
    | some t => do
      req (Γ.writable x)
      let (u, m, _) ← walkE w e (Γ.new true true)
      match t with
      | some (.avro t) => req (accTy P g t u)
      | _ => .error sem
      let ms ← assigns Γ es
      .ok ((x, m) :: ms)

/-- `symbolTable.put` for each new symbol. -/
def putAll (Γ : SymTab) (ts : List (String × Ty)) : SymTab := ts.foldl (fun Γ p => Γ.put p.1 p.2) Γ

/-- The parts of a cond node (4233-4249): each an If node without else. -/
def walkIfs : List Ex → SymTab → Res (List Ty × List ((Rt → M Val) × (Rt → M Val)))
  | [], _ => .ok ([], [])
  | .if_ p c [] :: es, Γ => do
    let p ← predicate P g w p Γ
    let (t, c, _) ← block w c (Γ.new false false)
    let (ts, ms) ← walkIfs es Γ
    .ok (t :: ts, (p, c) :: ms)
  | _ :: _, _ => .error (.py "AttributeError")

/-- The types of the cases (5163). -/
def castTypes (cases : List Ex) : List AType := cases.filterMap (fun c => match c with | .castCase u _ _ => some u | _ => none)

/-- `CastCase.walk` (5034-5057) for each case. -/
def walkCases : List Ex → SymTab → Res (List Ty × List (String × AType × (Rt → M Val)))
  | [], _ => .ok ([], [])
  | .castCase t x body :: es, Γ => do
    let (u, c, _) ← block w body ((Γ.new false false).put x (some (.avro t)))
    let (us, cs) ← walkCases es Γ
    .ok (u :: us, (x, t, c) :: cs)
  | _ :: _, _ => .error (.py "AttributeError")

/-- The type without null (5421-5429). -/
def withoutNull : AType → Res AType
  | .union ts =>
    if ts.any isNull then
      if ts.length > 2 then mkUnion (ts.filter (fun t => !isNull t))
      else if ts.length > 1 then match ts.filter (fun t => !isNull t) with
        | t :: _ => .ok t
        | [] => .error (.py "IndexError")
      else .error sem
    else .error sem
  | _ => .error sem

/-- The bindings of ifnotnull (5415-5435). -/
def walkNotNull : List (String × Ex) → SymTab → Res (List (String × AType × (Rt → M Val)) × SymTab)
  | [], Γ => .ok ([], Γ)
  | (x, e) :: es, Γ => do
    req (validSymbolName x)
    let (t, m, Γ) ← walkE w e Γ
    match t with
    | some (.avro t) => do
      let u ← withoutNull t
      req (g.notNull t u)
      let (ms, Γ) ← walkNotNull es Γ
      .ok ((x, u, m) :: ms, Γ)
    | _ => .error sem

/-- `declare.avroType` (5513-5657) -/
def declType : Pack.Decl → AType
  | .pad => .null
  | .boolean => .boolean
  | .byte _ => .int
  | .short _ _ => .int
  | .int _ u => if u then .long else .int
  | .long _ u => if u then .double else .long
  | .float _ => .float
  | .double _ => .double
  | .raw => .bytes
  | .rawSize _ => .bytes
  | .toNull => .bytes
  | .prefixed => .bytes

/-- The parts of pack (5763-5772). -/
def walkPack : List (String × Ex) → SymTab → Res (List (Pack.Decl × AType × (Rt → M Val)))
  | [], _ => .ok []
  | (f, e) :: es, Γ => do
    let (t, m, _) ← walkE w e (Γ.new true true)
    let d ← Pack.Format.formatToDeclare true f.toList
    match t with
    | some (.avro t) => do
      req (accepts P.env P.env (declType d) t)
      let ms ← walkPack es Γ
      .ok ((d, t, m) :: ms)
    | _ => .error sem

/-- The bindings of unpack (5903-5911). -/
def walkFormat : List (String × String) → SymTab → Res (List (String × Pack.Decl) × SymTab)
  | [], Γ => .ok ([], Γ)
  | (s, f) :: fs, Γ => do
    req (Γ.find s).isNone
    req (validSymbolName s)
    let d ← Pack.Format.formatToDeclare false f.toList
    let (ds, Γ) ← walkFormat fs (Γ.put s (some (.avro (declType d))))
    .ok ((s, d) :: ds, Γ)

/-- The type of a branch without else, or the common type of both branches (5442-5458, 5918-5934). -/
def elseJoin (t : Ty) (elseC : List Ex) (Γ : SymTab) : Res (Ty × Option (Rt → M Val)) :=
  match elseC with
  | [] => .ok (some (.avro .null), none)
  | es => do
    let (u, d, _) ← block w es (Γ.new false false)
    let r ← join P g [t, u]
    .ok (r, some d)

/-- The code of a branch without else returns null. -/
def withElse (d : Option (Rt → M Val)) (rt : Rt) (f : M Val → M Val) : M Val :=
  match d with
  | some d => f (d rt)
  | none => do
    let _ ← f (pure .null)
    pure .null

/-- The functions of a call by name (CallUserFcn.walk 1855-1871). -/
def callTargets (tys : List CType) : List String → Res (List Ty)
  | [] => .ok []
  | n :: ns =>
    match P.funs.get? ("u." ++ n) with
    | some (.user ps r _) => do
      let o ← sigsAccept P.env [userSig ps r] tys P.version
      match o with
      | none => .error sem
      | some (_, _, ret) => do
        req ((ps.zip tys).all (fun pa => accTy P g pa.1.2 (some pa.2)))
        let ts ← callTargets tys ns
        .ok (some ret :: ts)
    | _ => .error sem

/-- The arguments of a partially filled function (genpy.py 318-323): the given ones, and `scope.get("$j")`. -/
def fillArgs (fill : List (String × Ty × Code)) : List String → Nat → List (Rt → M Arg)
  | [], _ => []
  | p :: ps, j =>
    match fill.find? (fun f => f.1 = p) with
    | some (_, _, c) => c.toArg :: fillArgs fill ps j
    | none => (fun _ => do
        let v ← getVar ("$" ++ toString j)
        pure (.val v)) :: fillArgs fill ps (j + 1)

/-- The function that a partially filled reference calls: `call(state, DynamicScope(scope), self.f[name], [...])`
(genpy.py 325). -/
def callTarget (name : String) (f : Fun) (rt : Rt) (args : List Arg) : M Val :=
  inFrame [] (match f with
    | .user _ _ _ => do
      let vs ← lift (vals args)
      callUserFn rt name vs
    | .lib _ => rt.lib name none args)

/-- An expression of a known type. -/
def isAvro (t : AType) : Ty → Bool
  | some (.avro u) => decide (u = t)
  | _ => false

/-- A constant (genpy.py 336-361). -/
def lit (t : AType) (v : Val) (Γ : SymTab) : Res (Ty × Code × SymTab) := do
  req (g.lit t v)
  .ok (some (.avro t), .expr (fun _ => pure v), Γ)

/-- What an upcast does (genpy.py 432-439): wrap a value that is not of a union type, when the type
is a union. -/
def upcastFn (t u : AType) : Option (Val → Val) :=
  match t, isUnion u with
  | .union ts, false => match ts.find? (fun x => accepts P.env P.env x u) with
    | some x => some (fun v => wrapAsUnion v x.name)
    | none => none
  | _, _ => some id

/-- The type of a try (6159-6172): null is added to it. -/
def tryType : AType → Res AType
  | .union ts => if ts.any isNull then .ok (.union ts) else mkUnion (ts ++ [.null])
  | t => mkUnion [t, .null]

/-- One level of `walk` with code generation. -/
def walkStep : Walk := fun e Γ =>
  match e with
  -- FcnDef.walk 1488-1522, genpy.py 309
  | .fcnDef ps ret body => do
    req (ps.length ≤ 22)
    req (ps.all (fun p => validSymbolName p.1))
    let Γ' := putAll (Γ.new true false) (ps.map (fun p => (p.1, some (.avro p.2))))
    let (t, m, _) ← block w body Γ'
    req (isExcTy t || accTy P g ret t)
    .ok (some (.fcn (ps.map (fun p => .avro p.2)) (.avro ret)),
      .fn true (fun rt vs => inFrame (PyDict.update [] ((ps.map Prod.fst).zip vs)) (m rt)), Γ)
  -- FcnRef.walk 1561-1601, genpy.py 312
  | .fcnRef name => match P.funs.get? name with
    | none => .error sem
    | some f => do
      let sig ← refSig P f
      let ps ← mapR toTy (sig.params.map Prod.snd)
      let r ← assignRet [] sig.ret
      match f with
      | .user _ _ _ => .ok (some (.fcn ps r), .fn true (fun rt vs => callUserFn rt name vs), Γ)
      | .lib _ => do
        req (g.ref name ps r)
        .ok (some (.fcn ps r), .fn false (fun rt vs => rt.lib name none (vs.map .val)), Γ)
  -- FcnRefFill.walk 1676-1739, genpy.py 314-325
  | .fcnRefFill name fill => match P.funs.get? name with
    | none => .error sem
    | some f => do
      let (fs, _) ← walkDA w fill (Γ.new true true)
      let sig ← refSig P f
      req (fs.all (fun f => decide (f.1 ∈ sig.params.map Prod.fst)))
      let ps ← mapR (fun p => Res.app (fun t => (p.1, t)) (toTy p.2)) sig.params
      let r ← assignRet [] sig.ret
      req (fs.all (fun f => ps.all (fun p => !decide (p.1 = f.1) || g.fill p.2 f.2.1)))
      req (g.dollar Γ)
      match f with
      | .user _ _ _ => .ok ()
      | .lib _ => req (g.ref name (ps.map Prod.snd) r)
      let open_ := (ps.filter (fun p => !decide (p.1 ∈ fs.map Prod.fst))).map Prod.snd
      let args := fillArgs fs (sig.params.map Prod.fst) 0
      .ok (some (.fcn open_ r),
        .fn true (fun rt vs => inFrame (PyDict.update [] (((List.range open_.length).map (fun j => "$" ++ toString j)).zip vs)) (do
          let as ← evalL (args.map (· rt))
          callTarget name f rt as)), Γ)
  -- CallUserFcn.walk 1813-1879, genpy.py 328
  | .callUser name args => do
    let (nt, nm, _) ← walkE w name (Γ.new true true)
    match nt with
    | some (.avro (.enum _ symbols)) => do
      let (ts, ms, _) ← walkL w args (Γ.new true true)
      let tys ← ctypes ts
      let rs ← callTargets P g tys symbols
      let r ← join P g rs
      .ok (r, .expr (fun rt => do
        let n ← nm rt
        match n with
        | .str s => match rt.user ("u." ++ s) with
          | none => raise (.py "KeyError")
          | some f => do
            let vs ← evalL (ms.map (· rt))
            inFresh (f vs)
        | _ => raise (.py "TypeError")), Γ)
    | _ => .error sem
  -- Call.walk 1952-2011, genpy.py 331, UserFcn.genpy 327-330, LibFcn.genpy (fcn.py 34)
  | .call name args => match P.funs.get? name with
    | none => .error sem
    | some f => do
      let (ts, cs, _) ← walkA w args (Γ.new true true)
      let tys ← ctypes ts
      match f with
      | .user ps r _ => do
        let o ← sigsAccept P.env [userSig ps r] tys P.version
        match o with
        | none => .error sem
        | some (_, _, ret) => do
          req ((ps.zip tys).all (fun pa => accTy P g pa.1.2 (some pa.2)))
          .ok (some ret, .expr (fun rt => do
            let as ← evalL (cs.map (fun c => c.toArg rt))
            let vs ← lift (vals as)
            inFresh (callUserFn rt name vs)), Γ)
      | .lib sigs => do
        let o ← sigsAccept P.env sigs tys P.version
        match o with
        | none => .error sem
        | some (_, ps, r) => do
          req (g.call name tys ps r)
          .ok (some r, .expr (fun rt => do
            let as ← evalL (cs.map (fun c => c.toArg rt))
            rt.lib name (some (ps ++ [r])) as), Γ)
  -- Ref.walk 2048-2069, genpy.py 334
  | .ref x => match Γ.find x with
    | none => .error sem
    | some t => .ok (t, .expr (fun _ => getVar x), Γ)
  -- literals 2088-2604, genpy.py 336-361
  | .litNull => lit g .null .null Γ
  | .litBool b => lit g .boolean (.bool b) Γ
  | .litInt n => lit g .int n Γ
  | .litLong n => lit g .long n Γ
  | .litFloat x => lit g .float x Γ
  | .litDouble x => lit g .double x Γ
  | .litString s => lit g .string (.str s) Γ
  | .litBase64 bs => lit g .bytes (.str (String.ofList (bs.map Char.ofNat))) Γ
  | .literal t j => do
    let v ← P.decode t j
    lit g t v Γ
  -- NewObject.walk 2667-2714, genpy.py 364
  | .newObject fs t => do
    let (ts, ms, _) ← walkD w fs (Γ.new true true)
    match t with
    | .record n => match P.env.fields? n with
      | none => .error (.py "KeyError")
      | some fields => do
      req (ts.all (fun kt => match fields.find? (fun f => f.name = kt.1) with
        | some f => accTy P g f.type kt.2
        | none => false))
      req (fields.all (fun f => decide (f.name ∈ ts.map Prod.fst)))
    | .map i => req (ts.all (fun kt => accTy P g i kt.2))
    | _ => .error sem
    .ok (some (.avro t), .expr (fun rt => do
      let d ← evalD (ms.map (fun km => (km.1, km.2 rt)))
      pure (.dict (PyDict.update [] d))), Γ)
  -- NewArray.walk 2800-2836, genpy.py 367
  | .newArray is t => do
    let (ts, ms, _) ← walkL w is (Γ.new true true)
    match t with
    | .array i => req (ts.all (accTy P g i))
    | _ => .error sem
    .ok (some (.avro t), .expr (fun rt => do
      let vs ← evalL (ms.map (· rt))
      pure (.arr vs)), Γ)
  -- Do.walk 2908-2934, genpy.py 370
  | .do_ body => do
    let (t, m, _) ← block w body (Γ.new false false)
    .ok (if isExcTy t then some (.avro .null) else t, .expr m, Γ)
  -- Let.walk 3005-3053, genpy.py 373
  | .let_ vs => do
    req (!Γ.within)
    let (ts, ms) ← newVars w Γ false vs
    .ok (some (.avro .null), .expr (fun rt => do
      let d ← evalD (ms.map (fun km => (km.1, km.2 rt)))
      letM d), putAll Γ ts)
  -- SetVar.walk 3124-3161, genpy.py 376
  | .setVar vs => do
    let ms ← assigns P g w Γ vs
    req (g.sets ms.length)
    .ok (some (.avro .null), .expr (fun rt => do
      let d ← evalD (ms.map (fun km => (km.1, km.2 rt)))
      setM d), Γ)
  -- AttrGet.walk 3239-3265, genpy.py 379
  | .attrGet e path => do
    let (t, m, _) ← walkE w e (Γ.new true true)
    match t with
    | some (.avro t) => do
      req (indexable t)
      let (r, ps, _) ← walkPath P w t path (Γ.new true true)
      .ok (some (.avro r), .expr (fun rt => do
        let v ← m rt
        let p ← evalPath (ps.map (· rt))
        lift (Path.get 2000 2001 v p)), Γ)
    | _ => .error sem
  -- AttrTo.walk 3351-3399, genpy.py 382
  | .attrTo e path repl => do
    let (t, m, _) ← walkE w e (Γ.new true true)
    match t with
    | some (.avro t) => do
      req (indexable t)
      let (r, ps, _) ← walkPath P w t path (Γ.new true true)
      let (a, Γ') ← walkTo P g w r repl Γ
      .ok (some (.avro t), .expr (fun rt => do
        let v ← m rt
        let p ← evalPath (ps.map (· rt))
        let b ← a rt
        updateAt 2002 2003 b p v), Γ')
    | _ => .error sem
  -- CellGet.walk 3474-3499, genpy.py 385: the value is read before the path is evaluated
  | .cellGet c path => match P.cells.get? c with
    | none => .error sem
    | some t => do
      let (r, ps, _) ← walkPath P w t path (Γ.new true true)
      .ok (some (.avro r), .expr (fun rt => do
        let v ← readCell c
        let p ← evalPath (ps.map (· rt))
        lift (Path.get 2004 2005 v p)), Γ)
  -- CellTo.walk 3582-3629, genpy.py 388
  | .cellTo c path repl => match P.cells.get? c with
    | none => .error sem
    | some t => do
      let (r, ps, _) ← walkPath P w t path (Γ.new true true)
      let (a, Γ') ← walkTo P g w r repl Γ
      .ok (some (.avro t), .expr (fun rt => do
        let p ← evalPath (ps.map (· rt))
        let b ← a rt
        cellUpdate c p b), Γ')
  -- PoolGet.walk 3708-3733, genpy.py 391: the dictionary is the same object after the path is evaluated
  | .poolGet p path => match P.pools.get? p with
    | none => .error sem
    | some t => do
      let (r, ps, _) ← walkPath P w (.map t) path (Γ.new true true)
      .ok (some (.avro r), .expr (fun rt => do
        let q ← evalPath (ps.map (· rt))
        let d ← readPool p
        lift (Path.get 2008 2009 (.dict d) q)), Γ)
  -- PoolTo.walk 3825-3877, genpy.py 394; the path is not empty (constructor, 3783)
  | .poolTo p path repl init => match P.pools.get? p with
    | none => .error sem
    | some t => do
      req (!path.isEmpty)
      let (r, ps, _) ← walkPath P w (.map t) path (Γ.new true true)
      let (a, Γ1) ← walkTo P g w r repl Γ
      let (it, im, Γ2) ← walkE w init Γ1
      req (accTy P g t it)
      .ok (some (.avro t), .expr (fun rt => do
        let q ← evalPath (ps.map (· rt))
        let b ← a rt
        let i ← im rt
        poolUpdate p q b i), Γ2)
  -- PoolDel.walk 3953-3983, genpy.py 397
  | .poolDel p e => match P.pools.get? p with
    | none => .error sem
    | some _ => do
      let (t, m, Γ') ← walkE w e Γ
      req (accTy P g .string t)
      .ok (some (.avro .null), .expr (fun rt => do
        let k ← m rt
        poolDel p k), Γ')
  -- If.walk 4072-4125, genpy.py 399-403
  | .if_ p c d => do
    let pm ← predicate P g w p Γ
    let (t, cm, _) ← block w c (Γ.new false false)
    match d with
    | [] => .ok (some (.avro .null), .expr (fun rt => ifThen (pm rt) (cm rt)), Γ)
    | d => do
      let (u, dm, _) ← block w d (Γ.new false false)
      let r ← if isExcTy t && isExcTy u then .ok (some (.avro .null)) else join P g [t, u]
      .ok (r, .expr (fun rt => ifThenElse (pm rt) (cm rt) (dm rt)), Γ)
  -- Cond.walk 4212-4273, genpy.py 405-409
  | .cond ifs d => do
    let (ts, ms) ← walkIfs P g w ifs Γ
    match d with
    | [] => .ok (some (.avro .null), .expr (fun rt => condM (ms.map (fun pc => (pc.1 rt, pc.2 rt)))), Γ)
    | d => do
      let (u, dm, _) ← block w d (Γ.new false false)
      let us := ts ++ [u]
      let r ← if us.all isExcTy then .ok (some (.avro .null)) else join P g us
      .ok (r, .expr (fun rt => condElse (ms.map (fun pc => (pc.1 rt, pc.2 rt))) (dm rt)), Γ)
  -- While.walk 4354-4386, genpy.py 412
  | .while_ p b => do
    let Γl := Γ.new false false
    let pm ← predicate P g w p Γl
    let (_, bm, _) ← block w b Γl
    .ok (some (.avro .null), .expr (fun rt => doWhile rt.expired rt.fuel (pm rt) (bm rt)), Γ)
  -- DoUntil.walk 4462-4494, genpy.py 415
  | .doUntil b p => do
    let (_, bm, Γl) ← block w b (Γ.new false false)
    let pm ← predicate P g w p Γl
    .ok (some (.avro .null), .expr (fun rt => doUntil rt.expired rt.fuel (pm rt) (bm rt)), Γ)
  -- For.walk 4593-4663, genpy.py 418
  | .for_ init p step b => do
    let Γ0 := Γ.new false false
    let (ts, ims) ← newVars w Γ0 true init
    let Γl := putAll Γ0 ts
    let pm ← predicate P g w p Γl
    let sms ← assigns P g w Γl step
    req (g.sets sms.length)
    let (_, bm, _) ← block w b (Γl.new false false)
    .ok (some (.avro .null), .expr (fun rt => doFor rt.expired rt.fuel
      (do
        let d ← evalD (ims.map (fun km => (km.1, km.2 rt)))
        letM d)
      (pm rt)
      (do
        let d ← evalD (sms.map (fun km => (km.1, km.2 rt)))
        setM d)
      (bm rt)), Γ)
  -- Foreach.walk 4756-4799, genpy.py 421
  | .foreach x a b seq => do
    let Γ0 := Γ.new (!seq) false
    req (Γ.find x).isNone
    req (validSymbolName x)
    let (t, am, _) ← walkE w a (Γ0.new true true)
    match t with
    | some (.avro (.array i)) => do
      let (_, bm, _) ← block w b ((Γ0.put x (some (.avro i))).new false false)
      .ok (some (.avro .null), .expr (fun rt => do
        let v ← am rt
        doForeach rt.expired x v (bm rt)), Γ)
    | _ => .error sem
  -- Forkeyval.walk 4892-4940, genpy.py 424
  | .forkeyval k v m b => do
    let Γ0 := Γ.new false false
    req (Γ.find k).isNone
    req (Γ.find v).isNone
    req (validSymbolName k)
    req (validSymbolName v)
    let (t, am, _) ← walkE w m (Γ0.new true true)
    match t with
    | some (.avro (.map i)) => do
      let (_, bm, _) ← block w b ((putAll Γ0 [(k, some (.avro .string)), (v, some (.avro i))]).new false false)
      .ok (some (.avro .null), .expr (fun rt => do
        let x ← am rt
        doForkeyval rt.expired k v x (bm rt)), Γ)
    | _ => .error sem
  | .castCase _ _ _ => .error (.py "AttributeError")
  -- CastBlock.walk 5138-5193, genpy.py 427-430
  | .castBlock e cases part => do
    let (t, m, _) ← walkE w e (Γ.new true true)
    match t with
    | some (.avro t) => do
      let types := castTypes cases
      req (types.all (fun u => accepts P.env P.env t u))
      let (us, cs) ← walkCases w cases Γ
      let r ← if part then .ok (some (.avro .null)) else do
        let members := match t with | .union ts => ts | t => [t]
        req (members.all (fun f => types.any (fun u => accepts P.env P.env u f && accepts P.env P.env f u)))
        join P g us
      req (g.cast t types part)
      .ok (r, .expr (fun rt => do
        let v ← m rt
        castM P.decode v t (cs.map (fun c => (c.1, c.2.1, c.2.2 rt))) part), Γ)
    | _ => .error sem
  -- Upcast.walk 5274-5299, genpy.py 432-439
  | .upcast e t => do
    let (u, m, _) ← walkE w e (Γ.new true true)
    match u with
    | some (.avro u) => do
      req (accepts P.env P.env t u && g.upcast t u)
      match upcastFn P t u with
      | some f => .ok (some (.avro t), .expr (fun rt => do
          let v ← m rt
          pure (f v)), Γ)
      | none => .error (.py "Exception")
    | _ => .error sem
  -- IfNotNull.walk 5391-5461, genpy.py 441-445
  | .ifNotNull es c d => do
    let (bs, _) ← walkNotNull g w es (Γ.new true true)
    let Γa := putAll (Γ.new false false) (bs.map (fun b => (b.1, some (.avro b.2.1))))
    let (t, cm, _) ← block w c (Γa.new false false)
    let (r, dm) ← elseJoin P g w t d Γ
    .ok (r, .expr (fun rt => do
      let vs ← evalL (bs.map (fun b => do
        let v ← b.2.2 rt
        pure (b.1, b.2.1, v)))
      withElse dm rt (fun d => ifNotNullElse vs (cm rt) d)), Γ)
  -- Pack.walk 5742-5775, genpy.py 448
  | .pack es => do
    let ms ← walkPack P w es Γ
    req (g.pack (ms.map (fun x => (x.1, x.2.1))))
    .ok (some (.avro .bytes), .expr (fun rt => do
      let vs ← evalL (ms.map (fun x => do
        let v ← x.2.2 rt
        pure (x.1, v)))
      lift (Res.app .bytes (Pack.pack P.floats vs))), Γ)
  -- Unpack.walk 5874-5937, genpy.py 450-454
  | .unpack b fmt c d => do
    let (t, m, _) ← walkE w b (Γ.new true true)
    req (isAvro .bytes t)
    let (ds, Γa) ← walkFormat fmt (Γ.new false false)
    req (g.unpack (ds.map Prod.snd))
    let (u, cm, _) ← block w c (Γa.new false false)
    let (r, dm) ← elseJoin P g w u d Γ
    .ok (r, .expr (fun rt => do
      let v ← m rt
      withElse dm rt (fun d => unpackM ds v (cm rt) d)), Γ)
  -- Doc.walk 5984-6001, genpy.py 457
  | .doc _ => .ok (some (.avro .null), .expr (fun _ => pure .null), Γ)
  -- Error.walk 6046-6065, genpy.py 460
  | .error m code => .ok (some .exc, .expr (fun _ => raise (.user m code)), Γ)
  -- Try.walk 6141-6175, genpy.py 463
  | .try_ es filter => do
    let (t, m, _) ← block w es (Γ.new true true)
    req (filter.isNone || g.filter)
    let r ← match t with
      | some .exc => .ok .null
      | some (.avro t) => do
        req (g.try_ t)
        tryType t
      | _ => .error (.py "AttributeError")
    .ok (some (.avro r), .expr (fun rt => tryCatch P.msg (m rt) (filter.map (·.filterMap filterItem))), Γ)
  -- Log.walk 6251-6272, genpy.py 466
  | .log es _ => do
    let (ts, ms, _) ← walkL w es (Γ.new true true)
    req (ts.all (fun t => match t with | some (.avro t) => g.log t | _ => true))
    .ok (some (.avro .null), .expr (fun rt => do
      let vs ← evalL (ms.map (· rt))
      logM vs), Γ)

end

/-- `walk` (pfaast.py), to the depth `n` of the syntax tree. -/
def walk (P : Prog) (g : Guard) : Nat → Walk
  | 0 => fun _ _ => .error recErr
  | n + 1 => walkStep P g (walk P g n)

end Verif.Lang
