import Verif.Avro.Basic
/-! # The PFA abstract syntax tree (pfaast.py 1309-6294): nodes, collect, replace, call sets

`E T` has one constructor per class of pfaast.py that can occur inside an engine's program
(Argument 1309, Expression 1313, FcnDef, FcnRef, FcnRefFill and CastCase), with the constructor's
fields in the same order.  Simplifications: the source position `pos` is left out; types are a
parameter `T` (in the code an AvroPlaceholder or AvroType); a dictionary of expressions is an
association list; `elseClause=None` is the empty list, which is unambiguous because the
constructors reject an empty else clause (pfaast.py 4036, 4179, 5355, 5837).  The numbers of literals and
the filter of `try` are Python objects: `bool` is a subclass of `int`, and LiteralDouble accepts an int.  The
JSON text of a Literal is kept as the value that `json.loads` gives for it, which is what Literal compares
(2553). -/

namespace Verif.Ast

inductive E (T : Type) where
  /-- FcnDef, pfaast.py 1409-1437 -/
  | fcnDef (params : List (String × T)) (ret : T) (body : List (E T))
  /-- FcnRef, pfaast.py 1545-1560 -/
  | fcnRef (name : String)
  /-- FcnRefFill, pfaast.py 1622-1645 -/
  | fcnRefFill (name : String) (fill : List (String × E T))
  /-- CallUserFcn, pfaast.py 1761-1781 -/
  | callUser (name : E T) (args : List (E T))
  /-- Call, pfaast.py 1901-1921 -/
  | call (name : String) (args : List (E T))
  /-- Ref, pfaast.py 2032-2047 -/
  | ref (name : String)
  /-- LiteralNull, pfaast.py 2088-2097 -/
  | litNull
  /-- LiteralBoolean, pfaast.py 2138-2152 -/
  | litBool (b : Bool)
  /-- LiteralInt, pfaast.py 2193-2207 -/
  | litInt (n : Avro.Val)
  /-- LiteralLong, pfaast.py 2248-2262 -/
  | litLong (n : Avro.Val)
  /-- LiteralFloat, pfaast.py 2305-2319 -/
  | litFloat (x : Avro.Val)
  /-- LiteralDouble, pfaast.py 2362-2376 -/
  | litDouble (x : Avro.Val)
  /-- LiteralString, pfaast.py 2417-2431 -/
  | litString (s : String)
  /-- LiteralBase64, pfaast.py 2474-2488 -/
  | litBase64 (bs : List Nat)
  /-- Literal, pfaast.py 2531-2550 -/
  | literal (t : T) (value : Avro.Val)
  /-- NewObject, pfaast.py 2605-2636 -/
  | newObject (fields : List (String × E T)) (t : T)
  /-- NewArray, pfaast.py 2738-2769 -/
  | newArray (items : List (E T)) (t : T)
  /-- Do, pfaast.py 2860-2878 -/
  | do_ (body : List (E T))
  /-- Let, pfaast.py 2957-2975 -/
  | let_ (values : List (String × E T))
  /-- SetVar, pfaast.py 3076-3094 -/
  | setVar (values : List (String × E T))
  /-- AttrGet, pfaast.py 3184-3207 -/
  | attrGet (expr : E T) (path : List (E T))
  /-- AttrTo, pfaast.py 3289-3317 -/
  | attrTo (expr : E T) (path : List (E T)) (repl : E T)
  /-- CellGet, pfaast.py 3424-3443 -/
  | cellGet (cell : String) (path : List (E T))
  /-- CellTo, pfaast.py 3524-3549 -/
  | cellTo (cell : String) (path : List (E T)) (repl : E T)
  /-- PoolGet, pfaast.py 3655-3677 -/
  | poolGet (pool : String) (path : List (E T))
  /-- PoolTo, pfaast.py 3757-3790 -/
  | poolTo (pool : String) (path : List (E T)) (repl : E T) (init : E T)
  /-- PoolDel, pfaast.py 3904-3924 -/
  | poolDel (pool : String) (dell : E T)
  /-- If, pfaast.py 4007-4038 -/
  | if_ (pred : E T) (thenC elseC : List (E T))
  /-- Cond, pfaast.py 4151-4180 (`ifthens` are If nodes without else) -/
  | cond (ifthens elseC : List (E T))
  /-- While, pfaast.py 4302-4322 -/
  | while_ (pred : E T) (body : List (E T))
  /-- DoUntil, pfaast.py 4410-4430 -/
  | doUntil (body : List (E T)) (pred : E T)
  /-- For, pfaast.py 4518-4557 -/
  | for_ (init : List (String × E T)) (pred : E T) (step : List (String × E T)) (body : List (E T))
  /-- Foreach, pfaast.py 4689-4722 -/
  | foreach (name : String) (array : E T) (body : List (E T)) (seq : Bool)
  /-- Forkeyval, pfaast.py 4825-4858 -/
  | forkeyval (forkey forval : String) (map : E T) (body : List (E T))
  /-- CastCase, pfaast.py 4966-5002 -/
  | castCase (t : T) (named : String) (body : List (E T))
  /-- CastBlock, pfaast.py 5080-5105 -/
  | castBlock (expr : E T) (cases : List (E T)) (part : Bool)
  /-- Upcast, pfaast.py 5218-5243 -/
  | upcast (expr : E T) (t : T)
  /-- IfNotNull, pfaast.py 5323-5357 -/
  | ifNotNull (exprs : List (String × E T)) (thenC elseC : List (E T))
  /-- Pack, pfaast.py 5695-5713 -/
  | pack (exprs : List (String × E T))
  /-- Unpack, pfaast.py 5800-5839 -/
  | unpack (bytes : E T) (format : List (String × String)) (thenC elseC : List (E T))
  /-- Doc, pfaast.py 5966-5985 -/
  | doc (comment : String)
  /-- Error, pfaast.py 6024-6047 -/
  | error (message : String) (code : Option Int)
  /-- Try, pfaast.py 6090-6110 -/
  | try_ (exprs : List (E T)) (filter : Option (List Avro.Val))
  /-- Log, pfaast.py 6200-6220 -/
  | log (exprs : List (E T)) (ns : Option String)

variable {T : Type}

/-! ## collect -/

section
variable {β : Type} (pf : E T → Option β)

/-- `Ast.collect`, pfaast.py 513-526: the node itself, if the partial function is defined there. -/
def here (e : E T) : List β := (pf e).toList

mutual
/-- `collect`: pfaast.py 1467 (FcnDef), 513 (FcnRef, Ref, literals, Doc, Error), 1656 (FcnRefFill),
1792 (CallUserFcn), 1932 (Call), 2647 (NewObject), 2780 (NewArray), 2889 (Do), 2986 (Let),
3105 (SetVar), 3218 (AttrGet), 3328 (AttrTo), 3454 (CellGet), 3560 (CellTo), 3688 (PoolGet),
3801 (PoolTo), 3935 (PoolDel), 4049 (If), 4191 (Cond), 4333 (While), 4441 (DoUntil), 4568 (For),
4733 (Foreach), 4869 (Forkeyval), 5013 (CastCase), 5116 (CastBlock), 5254 (Upcast),
5368 (IfNotNull), 5724 (Pack), 5850 (Unpack), 6121 (Try), 6231 (Log). -/
def collect : E T → List β
  | .fcnDef ps r body => here pf (.fcnDef ps r body) ++ collectL body
  | .fcnRef n => here pf (.fcnRef n)
  | .fcnRefFill n fill => here pf (.fcnRefFill n fill) ++ collectN fill
  | .callUser n args => here pf (.callUser n args) ++ collect n ++ collectL args
  | .call n args => here pf (.call n args) ++ collectL args
  | .ref n => here pf (.ref n)
  | .litNull => here pf .litNull
  | .litBool b => here pf (.litBool b)
  | .litInt n => here pf (.litInt n)
  | .litLong n => here pf (.litLong n)
  | .litFloat x => here pf (.litFloat x)
  | .litDouble x => here pf (.litDouble x)
  | .litString s => here pf (.litString s)
  | .litBase64 bs => here pf (.litBase64 bs)
  | .literal t v => here pf (.literal t v)
  | .newObject fs t => here pf (.newObject fs t) ++ collectN fs
  | .newArray is t => here pf (.newArray is t) ++ collectL is
  | .do_ body => here pf (.do_ body) ++ collectL body
  | .let_ vs => here pf (.let_ vs) ++ collectN vs
  | .setVar vs => here pf (.setVar vs) ++ collectN vs
  | .attrGet x p => here pf (.attrGet x p) ++ collect x ++ collectL p
  | .attrTo x p r => here pf (.attrTo x p r) ++ collect x ++ collectL p ++ collect r
  | .cellGet c p => here pf (.cellGet c p) ++ collectL p
  | .cellTo c p r => here pf (.cellTo c p r) ++ collectL p ++ collect r
  | .poolGet c p => here pf (.poolGet c p) ++ collectL p
  | .poolTo c p r i => here pf (.poolTo c p r i) ++ collectL p ++ collect r ++ collect i
  | .poolDel c d => here pf (.poolDel c d) ++ collect d
  | .if_ p t e => here pf (.if_ p t e) ++ collect p ++ collectL t ++ collectL e
  | .cond its e => here pf (.cond its e) ++ collectL its ++ collectL e
  | .while_ p b => here pf (.while_ p b) ++ collect p ++ collectL b
  | .doUntil b p => here pf (.doUntil b p) ++ collectL b ++ collect p
  | .for_ i p s b => here pf (.for_ i p s b) ++ collectN i ++ collect p ++ collectN s ++ collectL b
  | .foreach n a b q => here pf (.foreach n a b q) ++ collect a ++ collectL b
  | .forkeyval k v m b => here pf (.forkeyval k v m b) ++ collect m ++ collectL b
  | .castCase t n b => here pf (.castCase t n b) ++ collectL b
  | .castBlock x cs p => here pf (.castBlock x cs p) ++ collect x ++ collectL cs
  | .upcast x t => here pf (.upcast x t) ++ collect x
  | .ifNotNull xs t e => here pf (.ifNotNull xs t e) ++ collectN xs ++ collectL t ++ collectL e
  | .pack xs => here pf (.pack xs) ++ collectN xs
  | .unpack b f t e => here pf (.unpack b f t e) ++ collect b ++ collectL t ++ collectL e
  | .doc c => here pf (.doc c)
  | .error m c => here pf (.error m c)
  | .try_ xs f => here pf (.try_ xs f) ++ collectL xs
  | .log xs n => here pf (.log xs n) ++ collectL xs
/-- `titus.util.flatten(x.collect(pf) for x in ...)` (util.py 74-82) over a list. -/
def collectL : List (E T) → List β
  | [] => []
  | e :: es => collect e ++ collectL es
/-- The same over the values of a dictionary. -/
def collectN : List (String × E T) → List β
  | [] => []
  | (_, e) :: es => collect e ++ collectN es
end

end

/-! ## replace -/

section
variable (pf : E T → Option (E T))

mutual
/-- `replace`: pfaast.py 1480 (FcnDef), 528 (FcnRef, Ref, literals, Doc, Error), 1669, 1806, 1945,
2660, 2793, 2902, 2999, 3118, 3232, 3343, 3467, 3574, 3701, 3816, 3948, 4064, 4205, 4347, 4455,
4584, 4747, 4883, 5026, 5130, 5267, 5383, 5737, 5865, 6134, 6244.  Not modelled: the checks of the
constructors called on the rebuilt parts (a replacement of the wrong kind raises). -/
def replace (e : E T) : E T :=
  match pf e with
  | some e' => e'
  | none => match e with
    | .fcnDef ps r body => .fcnDef ps r (replaceL body)
    | .fcnRef n => .fcnRef n
    | .fcnRefFill n fill => .fcnRefFill n (replaceN fill)
    | .callUser n args => .callUser (replace n) (replaceL args)
    | .call n args => .call n (replaceL args)
    | .ref n => .ref n
    | .litNull => .litNull
    | .litBool b => .litBool b
    | .litInt n => .litInt n
    | .litLong n => .litLong n
    | .litFloat x => .litFloat x
    | .litDouble x => .litDouble x
    | .litString s => .litString s
    | .litBase64 bs => .litBase64 bs
    | .literal t v => .literal t v
    | .newObject fs t => .newObject (replaceN fs) t
    | .newArray is t => .newArray (replaceL is) t
    | .do_ body => .do_ (replaceL body)
    | .let_ vs => .let_ (replaceN vs)
    | .setVar vs => .setVar (replaceN vs)
    | .attrGet x p => .attrGet (replace x) (replaceL p)
    | .attrTo x p r => .attrTo (replace x) (replaceL p) (replace r)
    | .cellGet c p => .cellGet c (replaceL p)
    | .cellTo c p r => .cellTo c (replaceL p) (replace r)
    | .poolGet c p => .poolGet c (replaceL p)
    | .poolTo c p r i => .poolTo c (replaceL p) (replace r) (replace i)
    | .poolDel c d => .poolDel c (replace d)
    | .if_ p t e => .if_ (replace p) (replaceL t) (replaceL e)
    | .cond its e => .cond (replaceL its) (replaceL e)
    | .while_ p b => .while_ (replace p) (replaceL b)
    | .doUntil b p => .doUntil (replaceL b) (replace p)
    | .for_ i p s b => .for_ (replaceN i) (replace p) (replaceN s) (replaceL b)
    | .foreach n a b q => .foreach n (replace a) (replaceL b) q
    | .forkeyval k v m b => .forkeyval k v (replace m) (replaceL b)
    | .castCase t n b => .castCase t n (replaceL b)
    | .castBlock x cs p => .castBlock (replace x) (replaceL cs) p
    | .upcast x t => .upcast (replace x) t
    | .ifNotNull xs t e => .ifNotNull (replaceN xs) (replaceL t) (replaceL e)
    | .pack xs => .pack (replaceN xs)
    | .unpack b f t e => .unpack (replace b) f (replaceL t) (replaceL e)
    | .doc c => .doc c
    | .error m c => .error m c
    | .try_ xs f => .try_ (replaceL xs) f
    | .log xs n => .log (replaceL xs) n
/-- `[x.replace(pf) for x in ...]` -/
def replaceL : List (E T) → List (E T)
  | [] => []
  | e :: es => replace e :: replaceL es
/-- `dict((k, v.replace(pf)) for k, v in ...)` -/
def replaceN : List (String × E T) → List (String × E T)
  | [] => []
  | (k, e) :: es => (k, replace e) :: replaceN es
end

end

/-! ## Call sets -/

section
/- `syms`: the symbols of the enum type that `walk` infers for the name of a CallUserFcn
(pfaast.py 1832-1836); type inference itself is not modelled here. -/
variable (syms : E T → List String)

mutual
/-- `context.calls` as `walk` computes it: pfaast.py 1521 (FcnDef), 1600 (FcnRef), 1694-1705
(FcnRefFill), 1842-1846 (CallUserFcn: the calls of the name expression are not in it), 1977-1991
(Call), 2068 (Ref), the literals' `set([self.desc])`, 2685-2713 (NewObject), 2818-2835 (NewArray),
2933 (Do), 3026-3052 (Let), 3142-3160 (SetVar), 3263-3264 (AttrGet: the calls of `expr` are not in
it), 3375-3397 (AttrTo: same), 3497-3498 (CellGet), 3605-3627 (CellTo), 3731-3732 (PoolGet),
3848-3875 (PoolTo: the calls of `init` are not in it), 3980 (PoolDel), 4090-4124 (If), 4230-4272
(Cond), 4372-4385 (While), 4480-4493 (DoUntil), 4611-4662 (For), 4774-4798 (Foreach), 4910-4939
(Forkeyval), 5056 (CastCase), 5156-5192 (CastBlock), 5298 (Upcast), 5409-5460 (IfNotNull),
5760-5774 (Pack), 5892-5936 (Unpack), 6000 (Doc), 6064 (Error), 6174 (Try), 6271 (Log). -/
def calls : E T → List String
  | .fcnDef _ _ body => callsL body
  | .fcnRef n => [n]
  | .fcnRefFill n fill => n :: callsN fill
  | .callUser n args => (syms n).map ("u." ++ ·) ++ callsL args
  | .call n args => n :: callsL args
  | .ref _ => []
  | .litNull => ["(null)"]
  | .litBool _ => ["(boolean)"]
  | .litInt _ => ["(int)"]
  | .litLong _ => ["(long)"]
  | .litFloat _ => ["(float)"]
  | .litDouble _ => ["(double)"]
  | .litString _ => ["(string)"]
  | .litBase64 _ => ["(bytes)"]
  | .literal _ _ => ["(literal)"]
  | .newObject fs _ => callsN fs ++ ["new (object)"]
  | .newArray is _ => callsL is ++ ["new (array)"]
  | .do_ body => callsL body ++ ["do"]
  | .let_ vs => callsN vs ++ ["let"]
  | .setVar vs => callsN vs ++ ["set"]
  | .attrGet _ p => callsL p ++ ["attr"]
  | .attrTo _ p r => callsL p ++ calls r ++ ["attr-to"]
  | .cellGet _ p => callsL p ++ ["cell"]
  | .cellTo _ p r => callsL p ++ calls r ++ ["cell-to"]
  | .poolGet _ p => callsL p ++ ["pool"]
  | .poolTo _ p r _ => callsL p ++ calls r ++ ["pool-to"]
  | .poolDel _ d => calls d ++ ["pool-del"]
  | .if_ p t e => calls p ++ callsL t ++ callsL e ++ ["if"]
  | .cond its e => callsIfs its ++ callsL e ++ ["cond"]
  | .while_ p b => calls p ++ callsL b ++ ["while"]
  | .doUntil b p => callsL b ++ calls p ++ ["do-until"]
  | .for_ i p s b => callsN i ++ calls p ++ callsN s ++ callsL b ++ ["for"]
  | .foreach _ a b _ => calls a ++ callsL b ++ ["foreach"]
  | .forkeyval _ _ m b => calls m ++ callsL b ++ ["forkey-forval"]
  | .castCase _ _ b => callsL b
  | .castBlock x cs _ => calls x ++ callsL cs ++ ["cast-cases"]
  | .upcast x _ => calls x ++ ["upcast"]
  | .ifNotNull xs t e => callsN xs ++ callsL t ++ callsL e ++ ["ifnotnull"]
  | .pack xs => callsN xs ++ ["pack"]
  | .unpack b _ t e => calls b ++ callsL t ++ callsL e ++ ["unpack"]
  | .doc _ => ["doc"]
  | .error _ _ => ["error"]
  | .try_ xs _ => callsL xs ++ ["try"]
  | .log xs _ => callsL xs ++ ["log"]
/-- The union over a list. -/
def callsL : List (E T) → List String
  | [] => []
  | e :: es => calls e ++ callsL es
/-- The union over the values of a dictionary. -/
def callsN : List (String × E T) → List String
  | [] => []
  | (_, e) :: es => calls e ++ callsN es
/-- The `ifthens` of a Cond (pfaast.py 4233-4249). -/
def callsIfs : List (E T) → List String
  | [] => []
  | .if_ p t _ :: es => calls p ++ callsL t ++ callsIfs es
  | _ :: es => callsIfs es
end

end

/-! ## Engine documents -/

/-- The parts of `EngineConfig` (pfaast.py 663-786) that hold program text. -/
structure Engine (T : Type) where
  begin_ : List (E T)
  action : List (E T)
  end_ : List (E T)
  fcns : List (String × E T)
  merge : Option (List (E T))

/-- `EngineConfig.collect`, pfaast.py 843-849, on expression nodes (the engine, cell and pool nodes
are not modelled; `merge` is not visited). -/
def Engine.collect {β : Type} (pf : E T → Option β) (c : Engine T) : List β :=
  collectL pf c.begin_ ++ collectL pf c.action ++ collectL pf c.end_ ++ collectN pf c.fcns

/-- `EngineConfig.replace`, pfaast.py 861-881 (`merge` is kept as it is). -/
def Engine.replace (pf : E T → Option (E T)) (c : Engine T) : Engine T :=
  { begin_ := replaceL pf c.begin_, action := replaceL pf c.action, end_ := replaceL pf c.end_,
    fcns := replaceN pf c.fcns, merge := c.merge }

end Verif.Ast
