import Verif.Ast.Spec
import Verif.Avro.Json
import Verif.Reader.Base64
/-! # Reading and printing expressions: model (C45, C64)

Models `titus/reader.py` 287-293 and 371-875 (everything that reads an expression) and the methods `jsonNode` of
`titus/pfaast.py` 1524-6294.

Simplifications.
* JSON text is the value it stands for: `json.loads(json.dumps(v)) = v` is assumed of Python's library.  So a type
  (AvroPlaceholder, made from JSON text) is the JSON value of that text, and so is the value of a Literal.
* Python goes through the keys of an object in the order of a `set`; here it is the order in which they
  are written.  This can only change which of several errors is raised.
* Nesting deeper than the fuel is RecursionError.
* Positions (`dot`, `at`) only occur in messages and in `pos`, which is not part of the comparison of nodes; they are left out when
  reading.
* An object is a list of entries whose keys are distinct. -/

namespace Verif.Reader

open Avro Ast

/-- PFASyntaxException. -/
def syn : Err := .py "PFASyntaxException"
/-- A local variable that was not assigned. -/
def unbound : Err := .py "UnboundLocalError"

/-- Expressions as the reader makes them: types are JSON. -/
abbrev X := E Val

mutual
/-- `_stripAtSigns`, reader.py 286-292. -/
def strip : Val → Val
  | .dict d => .dict (stripD d)
  | .arr xs => .arr (stripL xs)
  | v => v
@[inherit_doc strip] def stripL : List Val → List Val
  | [] => []
  | x :: xs => strip x :: stripL xs
@[inherit_doc strip] def stripD : List (String × Val) → List (String × Val)
  | [] => []
  | (k, v) :: d => if k = "@" then stripD d else (k, strip v) :: stripD d
end

/-! ## Names -/

def letter (c : Char) : Bool := (65 ≤ c.toNat && c.toNat ≤ 90) || (97 ≤ c.toNat && c.toNat ≤ 122)
def symStart (c : Char) : Bool := letter c || c == '_'
def symChar (c : Char) : Bool := symStart c || (48 ≤ c.toNat && c.toNat ≤ 57)

/-- The rest of `^[A-Za-z_][A-Za-z0-9_]*$`; `$` also matches before a newline at the end. -/
def symTail : List Char → Bool
  | [] => true
  | ['\n'] => true
  | c :: cs => symChar c && symTail cs

/-- `validSymbolName`, pfaast.py 107-115. -/
def validSymbol (s : String) : Bool := match s.toList with
  | [] => false
  | c :: cs => symStart c && symTail cs

/-- The rest of `^[A-Za-z_]([A-Za-z0-9_]|\.[A-Za-z][A-Za-z0-9_]*)*$`. -/
def fcnTail : List Char → Bool
  | [] => true
  | ['\n'] => true
  | '.' :: c :: cs => letter c && fcnTail cs
  | c :: cs => symChar c && fcnTail cs

/-- `validFunctionName`, pfaast.py 306-314. -/
def validFunction (s : String) : Bool := match s.toList with
  | [] => false
  | c :: cs => symStart c && fcnTail cs

/-! ## Constructors -/

variable {T : Type}

/-- Subclass of Expression (pfaast.py 1313); FcnDef, FcnRef and FcnRefFill are only Arguments, CastCase is neither. -/
def isExpr : E T → Bool
  | .fcnDef .. | .fcnRef .. | .fcnRefFill .. | .castCase .. => false
  | _ => true

/-- Subclass of Argument (pfaast.py 1309). -/
def isArg : E T → Bool
  | .castCase .. => false
  | _ => true

def isIf : E T → Bool | .if_ .. => true | _ => false
def isCase : E T → Bool | .castCase .. => true | _ => false

/-- `isinstance(x, int)` -/
def pyInt? : Val → Bool | .int _ | .bool _ => true | _ => false
/-- `isinstance(x, (int, float))` -/
def pyNum? : Val → Bool | .int _ | .bool _ | .flt _ => true | _ => false

/-- Every value of a dictionary. -/
def allN (p : E T → Bool) (m : List (String × E T)) : Bool := m.all (fun kv => p kv.2)

/-- A string or a whole number, the values of a filter: pfaast.py 6108-6109. -/
def strInt? : Val → Bool
  | .str _ => true
  | v => pyInt? v

/-- What the constructors of pfaast.py check (same lines as in `Ast.E`). -/
def made : E T → Bool
  | .fcnDef _ _ b => b.all isExpr && !b.isEmpty
  | .fcnRefFill _ f => allN isArg f && !f.isEmpty
  | .callUser n as => isExpr n && as.all isExpr
  | .call _ as => as.all isArg
  | .litInt v => pyInt? v
  | .litLong v => pyInt? v
  | .litFloat v => pyNum? v
  | .litDouble v => pyNum? v
  | .newObject fs _ => allN isExpr fs
  | .newArray is _ => is.all isExpr
  | .do_ b => b.all isExpr && !b.isEmpty
  | .let_ vs => allN isExpr vs && !vs.isEmpty
  | .setVar vs => allN isExpr vs && !vs.isEmpty
  | .attrGet x p => isExpr x && p.all isExpr && !p.isEmpty
  | .attrTo x p r => isExpr x && p.all isExpr && isArg r && !p.isEmpty
  | .cellGet _ p => p.all isExpr
  | .cellTo _ p r => p.all isExpr && isArg r
  | .poolGet _ p => p.all isExpr && !p.isEmpty
  | .poolTo _ p r i => p.all isExpr && isArg r && isExpr i && !p.isEmpty
  | .poolDel _ d => isExpr d
  | .if_ p t e => isExpr p && t.all isExpr && e.all isExpr && !t.isEmpty
  | .cond its e => its.all isIf && e.all isExpr && !its.isEmpty
  | .while_ p b => isExpr p && b.all isExpr
  | .doUntil b p => b.all isExpr && isExpr p
  | .for_ i p s b => allN isExpr i && isExpr p && allN isExpr s && b.all isExpr && !i.isEmpty && !s.isEmpty && !b.isEmpty
  | .foreach _ a b _ => isExpr a && b.all isExpr && !b.isEmpty
  | .forkeyval _ _ m b => isExpr m && b.all isExpr && !b.isEmpty
  | .castCase _ _ b => b.all isExpr && !b.isEmpty
  | .castBlock x cs _ => isExpr x && cs.all isCase
  | .upcast x _ => isExpr x
  | .ifNotNull xs t e => allN isExpr xs && t.all isExpr && e.all isExpr && !xs.isEmpty && !t.isEmpty
  | .pack xs => allN isExpr xs && !xs.isEmpty
  | .unpack b f t e => isExpr b && t.all isExpr && e.all isExpr && !f.isEmpty && !t.isEmpty
  | .error _ c => c.all (fun c => decide (c < 0))
  | .try_ xs f => xs.all isExpr && f.all (fun l => l.all strInt?)
  | .log xs _ => xs.all isExpr
  | .fcnRef _ | .ref _ | .litNull | .litBool _ | .litString _ | .litBase64 _ | .literal _ _ | .doc _ => true

/-- A call of a constructor. -/
def mk (e : X) : Res X := if made e then .ok e else .error syn

/-- A clause `else`, which is None when absent: an empty list is an error in the constructor. -/
def mkElse (l : List X) (e : X) : Res X := if l.isEmpty then .error syn else mk e

/-! ## Reading the values of keys -/

/-- `_readInt` and `_readLong`, reader.py 400-416, with the bound of the type; `bool` is an `int` and stays as it is. -/
def readInt (bound : Int) : Val → Res Val
  | .int i => if -bound ≤ i ∧ i ≤ bound - 1 then .ok (.int i) else .error syn
  | .bool b => .ok (.bool b)
  | _ => .error syn

/-- `_readFloat` and `_readDouble`, reader.py 418-428. -/
def readFloat : Val → Res Val
  | .int i => Res.app .flt (intToFlt i)
  | .bool b => .ok (.flt (.fin (if b then 1 else 0)))
  | .flt f => .ok (.flt f)
  | _ => .error syn

/-- `_readString`, reader.py 485-489. -/
def readString : Val → Res String
  | .str s => .ok s
  | _ => .error syn

/-- `_readBoolean`, reader.py 394-398. -/
def readBool : Val → Res Bool
  | .bool b => .ok b
  | _ => .error syn

/-- `_readStringOrInt`, reader.py 491-495. -/
def readStrInt : Val → Res Val
  | .str s => .ok (.str s)
  | .int i => .ok (.int i)
  | .bool b => .ok (.bool b)
  | _ => .error syn

/-- `_readBase64`, reader.py 497-501. -/
def readBase64 : Val → Res (List Nat)
  | .str s => b64decode s
  | _ => .error syn

/-- The entries of an object other than the position mark. -/
def entries (d : List (String × Val)) : List (String × Val) := d.filter (fun kv => kv.1 ≠ "@")

/-- `[f(x) for x in data]`, when `data` is a list. -/
def readList {α : Type} (f : Val → Res α) : Val → Res (List α)
  | .arr xs => mapR f xs
  | _ => .error syn

/-- `dict((k, f(v)) for k, v in data.items() if k != "@")`, when `data` is an object. -/
def readMap {α : Type} (f : Val → Res α) : Val → Res (List (String × α))
  | .dict d => mapR (fun kv => Res.app (kv.1, ·) (f kv.2)) (entries d)
  | _ => .error syn

/-- An object with one key (reader.py 433-439, 449-458). -/
def readPair {α : Type} (f : Val → Res α) (v : Val) : Res (String × α) := match readMap f v with
  | .error e => .error e
  | .ok [kv] => .ok kv
  | .ok _ => .error syn

/-- `_readStringPairs`, reader.py 445-462, and `_readStringExpressionPairs`, 429-443: an array of such objects.
(Line 443 returns the exception instead of raising it; the constructor of Pack then raises another.) -/
def readPairs {α : Type} (f : Val → Res α) : Val → Res (List (String × α)) := readList (readPair f)

section
variable (rec : Val → Res X)

/-- `_readExpression`, reader.py 551-556; `rec` is `_readArgument`. -/
def readExpr (v : Val) : Res X := match rec v with
  | .ok e => if isExpr e then .ok e else .error syn
  | .error e => .error e

/-- A list of expressions or a single one (as for `do`, reader.py 631-635). -/
def readBody (v : Val) : Res (List X) := match v with
  | .arr xs => mapR (readExpr rec) xs
  | v => Res.app (fun e => [e]) (readExpr rec v)

/-- The check of lines 669-670: `x.elseClause` exists in If, Cond, IfNotNull and Unpack only. -/
def elseLess : List X → Res Unit
  | [] => .ok ()
  | .if_ _ _ e :: xs => if e.isEmpty then elseLess xs else .error syn
  | .cond _ e :: xs => if e.isEmpty then elseLess xs else .error syn
  | .ifNotNull _ _ e :: xs => if e.isEmpty then elseLess xs else .error syn
  | .unpack _ _ _ e :: xs => if e.isEmpty then elseLess xs else .error syn
  | _ :: _ => .error (.py "AttributeError")

/-- `_readParam`, reader.py 859-875: a bad name is a TypeError, because `pos` is missing in line 868; a value that is
not an object is an UnboundLocalError (`at`, line 873). -/
def readParam : Val → Res (String × Val)
  | .dict d => match entries d with
    | [(n, t)] => if validSymbol n then .ok (n, strip t) else .error (.py "TypeError")
    | _ => .error syn
  | _ => .error unbound

/-- `_readCastCase`, reader.py 523-549: a value that is not an object is an UnboundLocalError (`keys`). -/
def readCase : Val → Res X
  | .dict d =>
    let d := entries d
    if d.all (fun kv => kv.1 ∈ ["as", "named", "do"]) then
      match (PyDict.get? d "as").map strip, (PyDict.get? d "named").map readString, (PyDict.get? d "do").map (readBody rec) with
      | _, some (.error e), _ => .error e
      | _, _, some (.error e) => .error e
      | t, n, b =>
        if (match n with | some (.ok n) => !validSymbol n | _ => false) then .error syn
        else match t, n, b with
        | some t, some (.ok n), some (.ok b) => mk (.castCase t n b)
        | _, _, _ => .error syn
    else .error syn
  | _ => .error unbound

/-- How the value of a key is read. -/
inductive Kind where
  | int | long | float | string | base64 | type | json | emap | body | elist | expr | cond | cases | bool | new
  | params | arg | amap | filter | format | pack | args
deriving DecidableEq

/-- The value of a key. -/
inductive Slot where
  | val (v : Val) | str (s : String) | bool (b : Bool) | bytes (b : List Nat) | ty (t : Val)
  | emap (m : List (String × X)) | elist (l : List X) | expr (e : X)
  | newObj (m : List (String × X)) | newArr (l : List X)
  | params (ps : List (String × Val)) | filter (l : List Val) | format (l : List (String × String))

/-- The keys of reader.py 611-709. -/
def kinds : List (String × Kind) :=
  [("int", .int), ("long", .long), ("float", .float), ("double", .float), ("string", .string), ("base64", .base64),
   ("type", .type), ("value", .json),
   ("let", .emap), ("set", .emap), ("for", .emap), ("step", .emap), ("ifnotnull", .emap),
   ("do", .body), ("then", .body), ("else", .body), ("log", .body), ("path", .elist), ("args", .elist), ("try", .body),
   ("attr", .expr), ("if", .expr), ("while", .expr), ("until", .expr), ("unpack", .expr), ("del", .expr),
   ("cond", .cond), ("cases", .cases),
   ("foreach", .string), ("forkey", .string), ("forval", .string), ("fcn", .string), ("cell", .string), ("pool", .string),
   ("in", .expr), ("cast", .expr), ("upcast", .expr), ("init", .expr), ("call", .expr),
   ("seq", .bool), ("partial", .bool), ("doc", .string), ("error", .string), ("code", .int), ("namespace", .string),
   ("new", .new), ("params", .params), ("ret", .type), ("as", .type), ("to", .arg), ("fill", .amap), ("filter", .filter),
   ("format", .format), ("pack", .pack)]

/-- Any other key is the name of a function (710-715). -/
def kindOf (k : String) : Kind := (PyDict.get? kinds k).getD .args

/-- The value of a key (reader.py 610-715). -/
def readKind : Kind → Val → Res Slot
  | .int, v => Res.app .val (readInt (2 ^ 31) v)
  | .long, v => Res.app .val (readInt (2 ^ 63) v)
  | .float, v => Res.app .val (readFloat v)
  | .string, v => Res.app .str (readString v)
  | .base64, v => Res.app .bytes (readBase64 v)
  | .type, v => .ok (.ty (strip v))
  | .json, v => .ok (.val (strip v))
  | .emap, v => Res.app .emap (readMap (readExpr rec) v)
  | .body, v => Res.app .elist (readBody rec v)
  | .elist, v => Res.app .elist (readList (readExpr rec) v)
  | .expr, v => Res.app .expr (readExpr rec v)
  | .cond, v => match readList (readExpr rec) v with
    | .error e => .error e
    | .ok l => Res.app (fun _ => .elist l) (elseLess l)
  | .cases, v => Res.app .elist (readList (readCase rec) v)
  | .bool, v => Res.app .bool (readBool v)
  | .new, .dict d => Res.app .newObj (readMap (readExpr rec) (.dict d))
  | .new, .arr xs => Res.app .newArr (readList (readExpr rec) (.arr xs))
  | .new, _ => .error syn
  | .params, v => Res.app .params (readList readParam v)
  | .arg, v => Res.app .expr (rec v)
  | .amap, v => Res.app .emap (readMap rec v)
  | .filter, v => Res.app .filter (readList readStrInt v)
  | .format, v => Res.app .format (readPairs readString v)
  | .pack, v => Res.app .emap (readPairs (readExpr rec) v)
  | .args, .arr xs => Res.app .elist (mapR rec xs)
  | .args, v => Res.app (fun e => .elist [e]) (rec v)

/-- The loop over the keys. -/
def readSlots (d : List (String × Val)) : Res (List (String × Slot)) :=
  mapR (fun kv => Res.app (kv.1, ·) (readKind rec (kindOf kv.1) kv.2)) d
end

/-! ## Assembling -/

/-- The special forms of reader.py 726-793. -/
inductive Form where
  | int | long | float | double | string | base64 | literal | new | do_ | let_ | set | attr | attrTo | cell | cellPath | cellTo
  | cellPathTo | pool | poolTo | poolDel | if_ | ifElse | cond | condElse | while_ | until | for_ | foreach | foreachSeq | forkeyval
  | cast | castPartial | upcast | ifnotnull | ifnotnullElse | pack | unpack | unpackElse | doc | error | errorCode | try_ | tryFilter
  | log | logNs | fcnDef | fcn | fcnFill | call
deriving DecidableEq

/-- Their sets of keys. -/
def forms : List (List String × Form) :=
  [(["int"], .int), (["long"], .long), (["float"], .float), (["double"], .double), (["string"], .string),
   (["base64"], .base64), (["type", "value"], .literal), (["new", "type"], .new), (["do"], .do_), (["let"], .let_), (["set"], .set),
   (["attr", "path"], .attr), (["attr", "path", "to"], .attrTo), (["cell"], .cell), (["cell", "path"], .cellPath),
   (["cell", "to"], .cellTo), (["cell", "path", "to"], .cellPathTo), (["pool", "path"], .pool),
   (["pool", "path", "to", "init"], .poolTo), (["pool", "del"], .poolDel), (["if", "then"], .if_), (["if", "then", "else"], .ifElse),
   (["cond"], .cond), (["cond", "else"], .condElse), (["while", "do"], .while_), (["do", "until"], .until),
   (["for", "while", "step", "do"], .for_), (["foreach", "in", "do"], .foreach), (["foreach", "in", "do", "seq"], .foreachSeq),
   (["forkey", "forval", "in", "do"], .forkeyval), (["cast", "cases"], .cast), (["cast", "cases", "partial"], .castPartial),
   (["upcast", "as"], .upcast), (["ifnotnull", "then"], .ifnotnull), (["ifnotnull", "then", "else"], .ifnotnullElse),
   (["pack"], .pack), (["unpack", "format", "then"], .unpack), (["unpack", "format", "then", "else"], .unpackElse), (["doc"], .doc),
   (["error"], .error), (["error", "code"], .errorCode), (["try"], .try_), (["try", "filter"], .tryFilter), (["log"], .log),
   (["log", "namespace"], .logNs), (["params", "ret", "do"], .fcnDef), (["fcn"], .fcn), (["fcn", "fill"], .fcnFill),
   (["call", "args"], .call)]

/-- `keys == set([...])` -/
def sameKeys (ks want : List String) : Bool := ks.all (· ∈ want) && want.all (· ∈ ks)

/-- The special form with these keys. -/
def formOf (ks : List String) : Option Form := (forms.find? (fun f => sameKeys ks f.1)).map Prod.snd

/-- reader.py 795-800: keys that are not names of functions.  "del" is missing. -/
def reserved : List String :=
  ["args", "as", "attr", "base64", "call", "cases", "cast", "cell", "code", "cond", "do", "doc", "double", "else",
   "error", "fcn", "fill", "filter", "float", "for", "foreach", "forkey", "format", "forval", "if", "ifnotnull", "in", "init",
   "int", "let", "log", "long", "namespace", "new", "pack", "params", "partial", "path", "pool", "ret", "seq",
   "set", "step", "string", "then", "to", "try", "type", "unpack", "until", "upcast", "value", "while"]

section
variable (ss : List (String × Slot))

/-- The local variables.  A variable that was not assigned is an UnboundLocalError. -/
def slot {α : Type} (get : Slot → Option α) (k : String) (f : α → Res X) : Res X :=
  match (PyDict.get? ss k).bind get with
  | some a => f a
  | none => .error unbound

def Slot.val? : Slot → Option Val | .val v => some v | _ => none
def Slot.str? : Slot → Option String | .str s => some s | _ => none
def Slot.bool? : Slot → Option Bool | .bool b => some b | _ => none
def Slot.bytes? : Slot → Option (List Nat) | .bytes b => some b | _ => none
def Slot.ty? : Slot → Option Val | .ty t => some t | _ => none
def Slot.emap? : Slot → Option (List (String × X)) | .emap m => some m | _ => none
def Slot.elist? : Slot → Option (List X) | .elist l => some l | _ => none
def Slot.expr? : Slot → Option X | .expr e => some e | _ => none
def Slot.params? : Slot → Option (List (String × Val)) | .params p => some p | _ => none
def Slot.filter? : Slot → Option (List Val) | .filter l => some l | _ => none
def Slot.format? : Slot → Option (List (String × String)) | .format l => some l | _ => none
def Slot.new? : Slot → Option (List (String × X) ⊕ List X) | .newObj m => some (.inl m) | .newArr l => some (.inr l) | _ => none
/-- A number that Error accepts as a code; `true` and `false` are not negative. -/
def Slot.code? : Slot → Option (Option Int) | .val (.int i) => some (some i) | .val (.bool _) => some none | _ => none

/-- reader.py 726-793: the node of each special form. -/
def build : Form → Res X
  | .int => slot ss Slot.val? "int" fun v => mk (.litInt v)
  | .long => slot ss Slot.val? "long" fun v => mk (.litLong v)
  | .float => slot ss Slot.val? "float" fun v => mk (.litFloat v)
  | .double => slot ss Slot.val? "double" fun v => mk (.litDouble v)
  | .string => slot ss Slot.str? "string" fun s => mk (.litString s)
  | .base64 => slot ss Slot.bytes? "base64" fun b => mk (.litBase64 b)
  | .literal => slot ss Slot.ty? "type" fun t => slot ss Slot.val? "value" fun v => mk (.literal t v)
  | .new => slot ss Slot.ty? "type" fun t => slot ss Slot.new? "new" fun n => match n with
    | .inl m => mk (.newObject m t)
    | .inr l => mk (.newArray l t)
  | .do_ => slot ss Slot.elist? "do" fun b => mk (.do_ b)
  | .let_ => slot ss Slot.emap? "let" fun m => mk (.let_ m)
  | .set => slot ss Slot.emap? "set" fun m => mk (.setVar m)
  | .attr => slot ss Slot.expr? "attr" fun e => slot ss Slot.elist? "path" fun p => mk (.attrGet e p)
  | .attrTo => slot ss Slot.expr? "attr" fun e => slot ss Slot.elist? "path" fun p => slot ss Slot.expr? "to" fun r => mk (.attrTo e p r)
  | .cell => slot ss Slot.str? "cell" fun c => mk (.cellGet c [])
  | .cellPath => slot ss Slot.str? "cell" fun c => slot ss Slot.elist? "path" fun p => mk (.cellGet c p)
  | .cellTo => slot ss Slot.str? "cell" fun c => slot ss Slot.expr? "to" fun r => mk (.cellTo c [] r)
  | .cellPathTo => slot ss Slot.str? "cell" fun c => slot ss Slot.elist? "path" fun p => slot ss Slot.expr? "to" fun r => mk (.cellTo c p r)
  | .pool => slot ss Slot.str? "pool" fun c => slot ss Slot.elist? "path" fun p => mk (.poolGet c p)
  | .poolTo => slot ss Slot.str? "pool" fun c => slot ss Slot.elist? "path" fun p => slot ss Slot.expr? "to" fun r =>
      slot ss Slot.expr? "init" fun i => mk (.poolTo c p r i)
  | .poolDel => slot ss Slot.str? "pool" fun c => slot ss Slot.expr? "del" fun d => mk (.poolDel c d)
  | .if_ => slot ss Slot.expr? "if" fun p => slot ss Slot.elist? "then" fun t => mk (.if_ p t [])
  | .ifElse => slot ss Slot.expr? "if" fun p => slot ss Slot.elist? "then" fun t => slot ss Slot.elist? "else" fun e => mkElse e (.if_ p t e)
  | .cond => slot ss Slot.elist? "cond" fun l => mk (.cond l [])
  | .condElse => slot ss Slot.elist? "cond" fun l => slot ss Slot.elist? "else" fun e => mkElse e (.cond l e)
  | .while_ => slot ss Slot.expr? "while" fun p => slot ss Slot.elist? "do" fun b => mk (.while_ p b)
  | .until => slot ss Slot.elist? "do" fun b => slot ss Slot.expr? "until" fun p => mk (.doUntil b p)
  | .for_ => slot ss Slot.emap? "for" fun i => slot ss Slot.expr? "while" fun p => slot ss Slot.emap? "step" fun s =>
      slot ss Slot.elist? "do" fun b => mk (.for_ i p s b)
  | .foreach => slot ss Slot.str? "foreach" fun n => slot ss Slot.expr? "in" fun a => slot ss Slot.elist? "do" fun b =>
      mk (.foreach n a b true)
  | .foreachSeq => slot ss Slot.str? "foreach" fun n => slot ss Slot.expr? "in" fun a => slot ss Slot.elist? "do" fun b =>
      slot ss Slot.bool? "seq" fun q => mk (.foreach n a b q)
  | .forkeyval => slot ss Slot.str? "forkey" fun k => slot ss Slot.str? "forval" fun v => slot ss Slot.expr? "in" fun m =>
      slot ss Slot.elist? "do" fun b => mk (.forkeyval k v m b)
  | .cast => slot ss Slot.expr? "cast" fun e => slot ss Slot.elist? "cases" fun cs => mk (.castBlock e cs false)
  | .castPartial => slot ss Slot.expr? "cast" fun e => slot ss Slot.elist? "cases" fun cs => slot ss Slot.bool? "partial" fun p =>
      mk (.castBlock e cs p)
  | .upcast => slot ss Slot.expr? "upcast" fun e => slot ss Slot.ty? "as" fun t => mk (.upcast e t)
  | .ifnotnull => slot ss Slot.emap? "ifnotnull" fun m => slot ss Slot.elist? "then" fun t => mk (.ifNotNull m t [])
  | .ifnotnullElse => slot ss Slot.emap? "ifnotnull" fun m => slot ss Slot.elist? "then" fun t => slot ss Slot.elist? "else" fun e =>
      mkElse e (.ifNotNull m t e)
  | .pack => slot ss Slot.emap? "pack" fun m => mk (.pack m)
  | .unpack => slot ss Slot.expr? "unpack" fun b => slot ss Slot.format? "format" fun f => slot ss Slot.elist? "then" fun t =>
      mk (.unpack b f t [])
  | .unpackElse => slot ss Slot.expr? "unpack" fun b => slot ss Slot.format? "format" fun f => slot ss Slot.elist? "then" fun t =>
      slot ss Slot.elist? "else" fun e => mkElse e (.unpack b f t e)
  | .doc => slot ss Slot.str? "doc" fun s => mk (.doc s)
  | .error => slot ss Slot.str? "error" fun s => mk (.error s none)
  | .errorCode => slot ss Slot.str? "error" fun s => slot ss Slot.code? "code" fun c => match c with
    | some c => mk (.error s (some c))
    | none => .error syn
  | .try_ => slot ss Slot.elist? "try" fun l => mk (.try_ l none)
  | .tryFilter => slot ss Slot.elist? "try" fun l => slot ss Slot.filter? "filter" fun f => mk (.try_ l (some f))
  | .log => slot ss Slot.elist? "log" fun l => mk (.log l none)
  | .logNs => slot ss Slot.elist? "log" fun l => slot ss Slot.str? "namespace" fun s => mk (.log l (some s))
  | .fcnDef => slot ss Slot.params? "params" fun p => slot ss Slot.ty? "ret" fun t => slot ss Slot.elist? "do" fun b => mk (.fcnDef p t b)
  | .fcn => slot ss Slot.str? "fcn" fun s => mk (.fcnRef s)
  | .fcnFill => slot ss Slot.str? "fcn" fun s => slot ss Slot.emap? "fill" fun m => mk (.fcnRefFill s m)
  | .call => slot ss Slot.expr? "call" fun e => slot ss Slot.elist? "args" fun l => mk (.callUser e l)

/-- reader.py 717-724: is the name under this key wrong? -/
def wrongName (ok : String → Bool) (k : String) : Bool := match (PyDict.get? ss k).bind Slot.str? with
  | some s => !ok s
  | none => false

/-- reader.py 717-804: checks of names, special forms, calls.  The messages of 717-724 contain `data[keys]`, where `keys` is
a set: a TypeError. -/
def assemble (ks : List String) : Res X :=
  if wrongName ss validSymbol "foreach" || wrongName ss validSymbol "forkey" || wrongName ss validSymbol "forval"
    || wrongName ss validFunction "fcn" then .error (.py "TypeError")
  else match formOf ks with
    | some f => build ss f
    | none => match ks with
      | [k] => if k ∈ reserved then .error syn
        else if k ∈ PyDict.keys kinds then .error unbound
        else slot ss Slot.elist? k fun l => mk (.call k l)
      | _ => .error syn
end

/-! ## Arguments -/

/-- `data.split(".")` -/
def words : List Char → List (List Char)
  | [] => [[]]
  | c :: cs => if c = '.' then [] :: words cs else match words cs with
    | w :: ws => (c :: w) :: ws
    | [] => [[c]]

/-- An element of a dotted name (reader.py 580-586). -/
def readWord (w : List Char) : X := match Lib.Num.pyInt 10 w with
  | some i => .litInt (.int i)
  | none => .litString (String.ofList w)

/-- A string (reader.py 572-592). -/
def readRef (s : String) : Res X :=
  if '.' ∈ s.toList then match words s.toList with
    | ref :: rest => if validSymbol (String.ofList ref) then mk (.attrGet (.ref (String.ofList ref)) (rest.map readWord)) else .error syn
    | [] => .error syn
  else if validSymbol s then mk (.ref s) else .error syn

/-- `_readArgument`, reader.py 558-811, with `rec` for the calls of itself. -/
def readStep (rec : Val → Res X) : Val → Res X
  | .null => mk .litNull
  | .bool b => mk (.litBool b)
  | .int i =>
    if -2 ^ 31 ≤ i ∧ i ≤ 2 ^ 31 - 1 then mk (.litInt (.int i))
    else if -2 ^ 63 ≤ i ∧ i ≤ 2 ^ 63 - 1 then mk (.litLong (.int i))
    else .error syn
  | .flt f => mk (.litDouble (.flt f))
  | .str s => readRef s
  | .arr [.str s] => mk (.litString s)
  | .arr _ => .error syn
  | .dict d => match readSlots rec (entries d) with
    | .error e => .error e
    | .ok ss => assemble ss (PyDict.keys (entries d))
  | .bytes _ => .error syn

/-- `_readArgument` with a limit on the depth of nesting. -/
def readArg : Nat → Val → Res X
  | 0, _ => .error recErr
  | n + 1, v => readStep (readArg n) v

/-! ## Printing -/

/-- `startDict`, pfaast.py 596-608: the position mark, if the node has a position and positions are printed. -/
def start (p : Option String) : List (String × Val) := match p with
  | some s => [("@", .str s)]
  | none => []

/-- Positions of the parts of a node: the positions of the nodes inside are given by the path to them. -/
abbrev Pos := List Nat → Option String

def Pos.sub (pos : Pos) (i : Nat) : Pos := fun p => pos (i :: p)

/-- The positions of the rest of a list. -/
def Pos.next (pos : Pos) : Pos := fun p => match p with
  | i :: p => pos ((i + 1) :: p)
  | [] => none

/-- An `OrderedDict` with an entry that may be missing. -/
def opt (b : Bool) (k : String) (v : Val) : List (String × Val) := if b then [(k, v)] else []

mutual
/-- The methods `jsonNode`, for expressions whose types are already JSON: pfaast.py 1524, 1603, 1741, 1881, 2013, 2071, 2119,
2174, 2229, 2284, 2341, 2398, 2453, 2510, 2583, 2716, 2838, 2936, 3055, 3163, 3267, 3401, 3501, 3631, 3735, 3879, 3985, 4127, 4275,
4388, 4496, 4665, 4801, 4942, 5059, 5195, 5301, 5463, 5777, 5939, 6003, 6067, 6177, 6274. -/
def node (pos : Pos) : X → Val
  | .fcnDef ps r b => .dict (start (pos []) ++ [("params", .arr (ps.map (fun p => .dict [p]))), ("ret", r), ("do", .arr (nodes (pos.sub 0) b))])
  | .fcnRef n => .dict (start (pos []) ++ [("fcn", .str n)])
  | .fcnRefFill n f => .dict (start (pos []) ++ [("fcn", .str n), ("fill", .dict (nodesN (pos.sub 0) f))])
  | .callUser n as => .dict (start (pos []) ++ [("call", node (pos.sub 0) n), ("args", .arr (nodes (pos.sub 1) as))])
  | .call n as => .dict (start (pos []) ++ [(n, .arr (nodes (pos.sub 0) as))])
  | .ref n => .str n
  | .litNull => .null
  | .litBool b => .bool b
  | .litInt v => v
  | .litLong v => .dict (start (pos []) ++ [("long", v)])
  | .litFloat v => .dict (start (pos []) ++ [("float", v)])
  | .litDouble v => v
  | .litString s => .dict (start (pos []) ++ [("string", .str s)])
  | .litBase64 bs => .dict (start (pos []) ++ [("base64", .str (String.ofList (b64encode bs)))])
  | .literal t v => .dict (start (pos []) ++ [("type", t), ("value", v)])
  | .newObject fs t => .dict (start (pos []) ++ [("type", t), ("new", .dict (nodesN (pos.sub 0) fs))])
  | .newArray is t => .dict (start (pos []) ++ [("type", t), ("new", .arr (nodes (pos.sub 0) is))])
  | .do_ b => .dict (start (pos []) ++ [("do", .arr (nodes (pos.sub 0) b))])
  | .let_ vs => .dict (start (pos []) ++ [("let", .dict (nodesN (pos.sub 0) vs))])
  | .setVar vs => .dict (start (pos []) ++ [("set", .dict (nodesN (pos.sub 0) vs))])
  | .attrGet x p => .dict (start (pos []) ++ [("attr", node (pos.sub 0) x), ("path", .arr (nodes (pos.sub 1) p))])
  | .attrTo x p r => .dict (start (pos []) ++ [("attr", node (pos.sub 0) x), ("path", .arr (nodes (pos.sub 1) p)), ("to", node (pos.sub 2) r)])
  | .cellGet c p => .dict (start (pos []) ++ ("cell", .str c) :: opt (!p.isEmpty) "path" (.arr (nodes (pos.sub 0) p)))
  | .cellTo c p r => .dict (start (pos []) ++ ("cell", .str c) :: (opt (!p.isEmpty) "path" (.arr (nodes (pos.sub 0) p)) ++ [("to", node (pos.sub 1) r)]))
  | .poolGet c p => .dict (start (pos []) ++ [("pool", .str c), ("path", .arr (nodes (pos.sub 0) p))])
  | .poolTo c p r i => .dict (start (pos []) ++ [("pool", .str c), ("path", .arr (nodes (pos.sub 0) p)), ("init", node (pos.sub 1) i), ("to", node (pos.sub 2) r)])
  | .poolDel c d => .dict (start (pos []) ++ [("pool", .str c), ("del", node (pos.sub 0) d)])
  | .if_ p t e => .dict (start (pos []) ++ ("if", node (pos.sub 0) p) :: ("then", .arr (nodes (pos.sub 1) t)) :: opt (!e.isEmpty) "else" (.arr (nodes (pos.sub 2) e)))
  | .cond its e => .dict (start (pos []) ++ ("cond", .arr (nodes (pos.sub 0) its)) :: opt (!e.isEmpty) "else" (.arr (nodes (pos.sub 1) e)))
  | .while_ p b => .dict (start (pos []) ++ [("while", node (pos.sub 0) p), ("do", .arr (nodes (pos.sub 1) b))])
  | .doUntil b p => .dict (start (pos []) ++ [("do", .arr (nodes (pos.sub 0) b)), ("until", node (pos.sub 1) p)])
  | .for_ i p s b => .dict (start (pos []) ++ [("for", .dict (nodesN (pos.sub 0) i)), ("while", node (pos.sub 1) p),
      ("step", .dict (nodesN (pos.sub 2) s)), ("do", .arr (nodes (pos.sub 3) b))])
  | .foreach n a b q => .dict (start (pos []) ++ [("foreach", .str n), ("in", node (pos.sub 0) a), ("do", .arr (nodes (pos.sub 1) b)), ("seq", .bool q)])
  | .forkeyval k v m b => .dict (start (pos []) ++ [("forkey", .str k), ("forval", .str v), ("in", node (pos.sub 0) m), ("do", .arr (nodes (pos.sub 1) b))])
  | .castCase t n b => .dict (start (pos []) ++ [("as", t), ("named", .str n), ("do", .arr (nodes (pos.sub 0) b))])
  | .castBlock x cs p => .dict (start (pos []) ++ [("cast", node (pos.sub 0) x), ("cases", .arr (nodes (pos.sub 1) cs)), ("partial", .bool p)])
  | .upcast x t => .dict (start (pos []) ++ [("upcast", node (pos.sub 0) x), ("as", t)])
  | .ifNotNull xs t e => .dict (start (pos []) ++ ("ifnotnull", .dict (nodesN (pos.sub 0) xs)) :: ("then", .arr (nodes (pos.sub 1) t)) ::
      opt (!e.isEmpty) "else" (.arr (nodes (pos.sub 2) e)))
  | .pack xs => .dict (start (pos []) ++ [("pack", .arr (nodesP (pos.sub 0) xs))])
  | .unpack b f t e => .dict (start (pos []) ++ ("unpack", node (pos.sub 0) b) :: ("format", .arr (f.map (fun p => .dict [(p.1, .str p.2)]))) ::
      ("then", .arr (nodes (pos.sub 1) t)) :: opt (!e.isEmpty) "else" (.arr (nodes (pos.sub 2) e)))
  | .doc c => .dict (start (pos []) ++ [("doc", .str c)])
  | .error m c => .dict (start (pos []) ++ ("error", .str m) :: (match c with | some c => [("code", .int c)] | none => []))
  | .try_ xs f => .dict (start (pos []) ++ ("try", .arr (nodes (pos.sub 0) xs)) :: (match f with | some f => [("filter", .arr f)] | none => []))
  | .log xs n => .dict (start (pos []) ++ ("log", .arr (nodes (pos.sub 0) xs)) :: (match n with | some n => [("namespace", .str n)] | none => []))
/-- `[x.jsonNode(lineNumbers, memo) for x in ...]` -/
def nodes (pos : Pos) : List X → List Val
  | [] => []
  | x :: xs => node (pos.sub 0) x :: nodes pos.next xs
/-- `OrderedDict((k, v.jsonNode(lineNumbers, memo)) for k, v in ...)` -/
def nodesN (pos : Pos) : List (String × X) → List (String × Val)
  | [] => []
  | (k, x) :: xs => (k, node (pos.sub 0) x) :: nodesN pos.next xs
/-- The loop of Pack.jsonNode (5788-5790). -/
def nodesP (pos : Pos) : List (String × X) → List Val
  | [] => []
  | (k, x) :: xs => .dict [(k, node (pos.sub 0) x)] :: nodesP pos.next xs
end

end Verif.Reader
