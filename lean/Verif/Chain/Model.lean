import Verif.Lang.Whole
import Verif.Producer.Search
/-!
# Chaining of engines: model (C83, C84)

Models `ast` of `titus/producer/chain.py` (171-664), which writes one engine document that does what a list of
engines does one after the other.

Simplifications.  Engines are given as syntax trees.  A type is an `AType` with a table of records, as in
`Verif.Avro`: `rename` (346-384) changes the names in it; the JSON text that it writes for the parser, and the
parser (`AvroTypeBuilder`, `Verif.Forward`), are left out, so a type keeps its structure.  Of cells and pools only
name and type are modelled; the contents are taken to be the same (600-604, 629-630 decode and encode them).  Positions, random seeds, documentation,
metadata, options and messages are left out.
-/

namespace Verif.Chain
open Avro Scope Path Sig Ast Lang

/-! ## Names -/

/-- `prefixType` (231-233) with `split` and `join` (219-229): the namespace stays. -/
def prefixType (i : Nat) (engine : String) (t : Name) : Name := ⟨t.ns, "Step" ++ toString (i + 1) ++ "_" ++ engine ++ "_" ++ t.short⟩

/-- `prefixAction` (235-236) -/
def prefixAction (i : Nat) (engine : String) : String := "step" ++ toString (i + 1) ++ "_" ++ engine ++ "_action"

/-- `x.startswith("u.")` and `x[2:]` -/
def userName (x : String) : Option String :=
  match x.toList with
  | 'u' :: '.' :: rest => some (String.ofList rest)
  | _ => none

/-- `prefixFcnDef` (244-245) -/
def prefixFcnDef (i : Nat) (engine x : String) : String := "step" ++ toString (i + 1) ++ "_" ++ engine ++ "_fcn_" ++ x

/-- `prefixFcnRef` (238-242) -/
def prefixFcnRef (i : Nat) (engine x : String) : String :=
  match userName x with
  | some f => "u." ++ prefixFcnDef i engine f
  | none => x

/-- `prefixCell`, `prefixPool` (247-251) -/
def prefixCell (i : Nat) (engine x : String) : String := "step" ++ toString (i + 1) ++ "_" ++ engine ++ "_" ++ x

/-! ## Engines -/

/-- A user-defined function: parameters, result, body. -/
structure FDef where
  params : List (String × AType)
  ret : AType
  body : List Ex

/-- The parts of an EngineConfig (pfaast.py 741-800) that `ast` uses. -/
structure Step where
  name : String
  method : Method
  input : AType
  output : AType
  begin_ : List Ex := []
  action : List Ex
  end_ : List Ex := []
  fcns : List (String × FDef) := []
  cells : List (String × AType) := []
  pools : List (String × AType) := []
  /-- `inputPlaceholder.parser.names.names`: the names of the types of the document -/
  names : List Name := []
  /-- what the names of records mean -/
  env : Env := []

/-! ## Names of types -/

/-- `originalNameToNewName[i]` -/
abbrev NameMap := PyDict Name Name

/-- Lines 255-262: all names get a prefix. -/
def initialMap (i : Nat) (s : Step) : NameMap := PyDict.update [] (s.names.map (fun t => (t, prefixType i s.name t)))

/-- `trivialName` (265-282), to a depth of nested types: the names in the type keep their meaning. -/
def trivialName (env : Env) : Nat → AType → List Name × NameMap → List Name × NameMap
  | 0, _, st => st
  | n + 1, t, st => match t with
    | .array u => trivialName env n u st
    | .map u => trivialName env n u st
    | .union ts => ts.foldl (fun st u => trivialName env n u st) st
    | .fixed x _ => (st.1, PyDict.set st.2 x x)
    | .enum x _ => (st.1, PyDict.set st.2 x x)
    | .record x =>
      if x ∈ st.1 then st
      else
        let st' := ((env.fields? x).getD []).foldl (fun st f => trivialName env n f.type st) (x :: st.1, st.2)
        (st'.1, PyDict.set st'.2 x x)
    | _ => st

/-- `chainPair` (288-338), to a depth of nested types: what it returns (`None` counts as false), the set `memo` and
the names of the second engine.  `new` is `originalNameToNewName[i]`. -/
def chainPair (e1 e2 : Env) (new : NameMap) : Nat → AType → AType → List Name × NameMap → Res (Bool × (List Name × NameMap))
  | 0, _, _, _ => .error recErr
  | n + 1, a, b, st => match a, b with
    | .null, .null => .ok (true, st)
    | .boolean, .boolean => .ok (true, st)
    | .int, .int => .ok (true, st)
    | .long, .long => .ok (true, st)
    | .float, .float => .ok (true, st)
    | .double, .double => .ok (true, st)
    | .bytes, .bytes => .ok (true, st)
    | .fixed x k, .fixed y l =>
      if k = l then match new.get? x with
        | some z => .ok (true, st.1, PyDict.set st.2 y z)
        | none => .error (.py "KeyError")
      else .ok (false, st)
    | .string, .string => .ok (true, st)
    | .enum x k, .enum y l =>
      if k = l then match new.get? x with
        | some z => .ok (true, st.1, PyDict.set st.2 y z)
        | none => .error (.py "KeyError")
      else .ok (false, st)
    | .array a, .array b => chainPair e1 e2 new n a b st
    | .map a, .map b => chainPair e1 e2 new n a b st
    | .record x, .record y =>
      if x ∈ st.1 then .ok (false, st)
      else
        let xs := (e1.fields? x).getD []
        let ys := (e2.fields? y).getD []
        if xs.length ≠ ys.length then .ok (false, x :: st.1, st.2)
        else match fields (chainPair e1 e2 new n) (xs.zip ys) (x :: st.1, st.2) with
          | .error e => .error e
          | .ok (false, st) => .ok (false, st)
          | .ok (true, st) => match new.get? x with
            | some z => .ok (true, st.1, PyDict.set st.2 y z)
            | none => .error (.py "KeyError")
    | .union xs, .union ys => every (chainPair e1 e2 new n) xs ys st
    | _, _ => .ok (false, st)
where
  /-- the loop over the fields (324-328) -/
  fields (rec : AType → AType → List Name × NameMap → Res (Bool × (List Name × NameMap))) :
      List (Field × Field) → List Name × NameMap → Res (Bool × (List Name × NameMap))
    | [], st => .ok (true, st)
    | (f, h) :: fs, st =>
      if f.name ≠ h.name then .ok (false, st)
      else match rec f.type h.type st with
        | .error e => .error e
        | .ok (false, st) => .ok (false, st)
        | .ok (true, st) => fields rec fs st
  /-- `any(chainPair(i, xt, yt, memo) for xt in first.types)` (333) -/
  some_ (rec : AType → AType → List Name × NameMap → Res (Bool × (List Name × NameMap))) (y : AType) :
      List AType → List Name × NameMap → Res (Bool × (List Name × NameMap))
    | [], st => .ok (false, st)
    | x :: xs, st => match rec x y st with
      | .error e => .error e
      | .ok (true, st) => .ok (true, st)
      | .ok (false, st) => some_ rec y xs st
  /-- the loop over the types of the second union (332-334) -/
  every (rec : AType → AType → List Name × NameMap → Res (Bool × (List Name × NameMap))) (xs : List AType) :
      List AType → List Name × NameMap → Res (Bool × (List Name × NameMap))
    | [], st => .ok (true, st)
    | y :: ys, st => match some_ rec y xs st with
      | .error e => .error e
      | .ok (false, st) => .ok (false, st)
      | .ok (true, st) => every rec xs ys st

/-- `rename` (346-384) as a change of names in a type. -/
def rename (new : NameMap) : AType → AType
  | .array t => .array (rename new t)
  | .map t => .map (rename new t)
  | .union ts => .union (renameL ts)
  | .fixed x k => .fixed ((PyDict.get? new x).getD x) k
  | .enum x k => .enum ((PyDict.get? new x).getD x) k
  | .record x => .record ((PyDict.get? new x).getD x)
  | t => t
where
  @[inherit_doc rename] renameL : List AType → List AType
    | [] => []
    | t :: ts => rename new t :: renameL ts

/-! ## Programs -/

/-- What `genericReplacer` (451-515) changes in the program of one engine. -/
structure Ren where
  cell : String → String
  pool : String → String
  fcn : String → String
  type : AType → AType
  /-- the function to call in place of `emit`: `pfa.method == Method.EMIT and i + 1 < len(pfas)` (468-471) -/
  emit : Option String

mutual
/-- `x.replace(fcnReplacer)` (`vars` empty), `x.replace(beginReplacer)`, `endReplacer`, `actionReplacer` (`vars` the
names that become cells): lines 451-557 with the `replace` methods of pfaast.py for the nodes where the replacer
is not defined.  `isDefinedAt` (516) lists neither NewArray nor PoolDel. -/
def chainE (R : Ren) (vars : List String) : Ex → Ex
  | .fcnDef ps r body => .fcnDef (ps.map (fun p => (p.1, R.type p.2))) (R.type r) (chainL R [] body)
  | .fcnRef n => .fcnRef (R.fcn n)
  | .fcnRefFill n fill => .fcnRefFill (R.fcn n) (chainN R vars fill)
  | .callUser n args => .callUser (chainE R vars n) (chainL R vars args)
  | .call n args => .call (match R.emit with
      | some next => if n = "emit" then next else R.fcn n
      | none => R.fcn n) (chainL R vars args)
  | .ref x => if x ∈ vars then .cellGet x [] else .ref x
  | .litNull => .litNull
  | .litBool b => .litBool b
  | .litInt n => .litInt n
  | .litLong n => .litLong n
  | .litFloat x => .litFloat x
  | .litDouble x => .litDouble x
  | .litString s => .litString s
  | .litBase64 bs => .litBase64 bs
  | .literal t v => .literal (R.type t) v
  | .newObject fs t => .newObject (chainN R vars fs) (R.type t)
  | .newArray is t => .newArray (chainL R vars is) t
  | .do_ body => .do_ (chainL R vars body)
  | .let_ vs => .let_ (chainN R vars vs)
  | .setVar vs => .setVar (chainN R vars vs)
  | .attrGet x p => .attrGet (chainE R vars x) (chainL R vars p)
  | .attrTo x p r => .attrTo (chainE R vars x) (chainL R vars p) (chainE R vars r)
  | .cellGet c p => .cellGet (R.cell c) (chainL R vars p)
  | .cellTo c p r => .cellTo (R.cell c) (chainL R vars p) (chainE R vars r)
  | .poolGet c p => .poolGet (R.pool c) (chainL R vars p)
  | .poolTo c p r i => .poolTo (R.pool c) (chainL R vars p) (chainE R vars r) (chainE R vars i)
  | .poolDel c d => .poolDel c (chainE R vars d)
  | .if_ p t e => .if_ (chainE R vars p) (chainL R vars t) (chainL R vars e)
  | .cond its e => .cond (chainL R vars its) (chainL R vars e)
  | .while_ p b => .while_ (chainE R vars p) (chainL R vars b)
  | .doUntil b p => .doUntil (chainL R vars b) (chainE R vars p)
  | .for_ i p s b => .for_ (chainN R vars i) (chainE R vars p) (chainN R vars s) (chainL R vars b)
  | .foreach n a b q => .foreach n (chainE R vars a) (chainL R vars b) q
  | .forkeyval k v m b => .forkeyval k v (chainE R vars m) (chainL R vars b)
  | .castCase t n b => .castCase (R.type t) n (chainL R vars b)
  | .castBlock x cs p => .castBlock (chainE R vars x) (chainL R vars cs) p
  | .upcast x t => .upcast (chainE R vars x) (R.type t)
  | .ifNotNull xs t e => .ifNotNull (chainN R vars xs) (chainL R vars t) (chainL R vars e)
  | .pack xs => .pack (chainN R vars xs)
  | .unpack b f t e => .unpack (chainE R vars b) f (chainL R vars t) (chainL R vars e)
  | .doc c => .doc c
  | .error m c => .error m c
  | .try_ xs f => .try_ (chainL R vars xs) f
  | .log xs n => .log (chainL R vars xs) n
/-- `[x.replace(self) for x in ...]` -/
def chainL (R : Ren) (vars : List String) : List Ex → List Ex
  | [] => []
  | e :: es => chainE R vars e :: chainL R vars es
/-- `dict((k, v.replace(self)) for k, v in ...)` -/
def chainN (R : Ren) (vars : List String) : List (String × Ex) → List (String × Ex)
  | [] => []
  | (k, e) :: es => (k, chainE R vars e) :: chainN R vars es
end

/-- Nodes where `genericReplacer` is defined (516). -/
def generic : Ex → Bool
  | .fcnDef .. | .fcnRef .. | .fcnRefFill .. | .callUser .. | .call .. | .literal .. | .newObject .. | .cellGet .. | .cellTo ..
  | .poolGet .. | .poolTo .. | .castCase .. | .upcast .. => true
  | _ => false

/-- `actionReplacer` and the like as a partial function (`isDefinedAt`, 533, 545, 557); `fcnReplacer` (518-520) is not
defined at references. -/
def replacer (R : Ren) (vars : List String) (isFcn : Bool) (e : Ex) : Option Ex :=
  match e with
  | .ref x => if isFcn then none else some (if x ∈ vars then .cellGet x [] else .ref x)
  | e => if generic e then some (chainE R vars e) else none

end Verif.Chain
