import Verif.Pretty.Grammar
import Verif.Reader.Config

/-!
# PrettyPFA documents: from sections to an engine configuration (prettypfa.py 115-296, 782-791, 843-886, 1178-1185, 1456-1560 and 1753-1871)

The parser of whole documents makes a dictionary of sections, and `p_document` makes an EngineConfig of it.

Simplifications, besides those of `Mini.lean`:
* `state.avroTypeBuilder.resolveTypes()` at the end (1538) is not modelled: types are their JSON.
* `titus.util.uniqueEngineName()` is the parameter `fresh`.
* `content.name` of a substitution is the name of the substitution, which the model does not have.
* The tuple that is the `name` of a `foreach` with two names is `none`; the constructor of EngineConfig refuses it.
-/

namespace Verif.Pretty
open Avro Ast Reader

/-- TypeError. -/
def badType : Err := .py "TypeError"

/-- What a section may list. -/
inductive Obj where
  /-- an object of an expression -/
  | mini (m : Mini)
  /-- MiniNamedFcnDef, 843-856 -/
  | fcn (name : String) (params : List (String × Mini)) (ret : Mini) (body : List Mini)
  /-- MiniCellPool, 858-886 -/
  | cell (name : String) (type init : Mini) (shared rollback : Bool) (source : String)

/-- The content of a section: an object or a list. -/
inductive Content where
  | one (m : Mini)
  | list (l : List Obj)

/-- `asType` of what is in a list; 311 for functions and cells. -/
def Obj.asType (st : St) : Obj → Res Val
  | .mini m => Pretty.asType st m
  | _ => .error pretty

/-- `asJson`; 313 for functions and cells. -/
def Obj.asJson : Obj → Res Val
  | .mini m => Pretty.asJson m
  | _ => .error pretty

/-- `asExpr`; 309 for functions and cells. -/
def Obj.asExpr (st : St) : Obj → Res X
  | .mini m => Pretty.asExpr st m
  | _ => .error pretty

/-- `asFcn`, 853-856; the method of the other classes (314) has no parameter for the state. -/
def Obj.asFcn (st : St) : Obj → Res (String × X)
  | .fcn n ps r b => andThen (Pretty.asExpr st (.fcnDef ps r b)) fun x => .ok (n, x)
  | _ => .error badType

/-- `asCell`, 870-876 and 316 -/
def Obj.asCell (st : St) : Obj → Res (String × CellDef)
  | .cell n t i sh ro so => andThen (Pretty.asType st t) fun t => andThen (Pretty.asJson i) fun v =>
      andThen (mkCell ⟨t, .text v, sh, ro, so⟩) fun c => .ok (n, c)
  | _ => .error pretty

/-- `asPool`, 877-886 and 318 -/
def Obj.asPool (st : St) : Obj → Res (String × PoolDef)
  | .cell n t i sh ro so => andThen (Pretty.asJson i) fun v => match v with
      | .dict d => andThen (Pretty.asType st t) fun t => andThen (mkPool ⟨t, d, sh, ro, so⟩) fun c => .ok (n, c)
      | _ => .error pretty
  | _ => .error pretty

/-- The alias of a type, 785-787. -/
def aliasOf : Val → Res String
  | .dict d => match PyDict.get? d "name", PyDict.get? d "namespace" with
    | some (.str n), none => .ok n
    | some (.str n), some (.str ns) => .ok (ns ++ "." ++ n)
    | _, _ => .error badType
  | _ => .error badType

/-- A state with one more alias (788, 1182). -/
def withAlias (st : St) (a : String) (t : Val) : St := { st with aliases := PyDict.set st.aliases a t }

/-- `defType`, 782-791 (MiniCall), 1178-1185 (MiniAssignment), 320 (all others). -/
def Obj.defType (st : St) : Obj → Res St
  | .mini (.call n as) =>
    if n = "record" ∨ n = "enum" ∨ n = "fixed" then andThen (Pretty.asType st (.call n as)) fun t => andThen (aliasOf t) fun a => .ok (withAlias st a t)
    else .error pretty
  | .mini (.assign [(a, m)] false) => andThen (Pretty.asType st m) fun t => .ok (withAlias st a t)
  | _ => .error pretty

/-! ## Sections -/

/-- The names of sections, 121-173. -/
def headings : List String := ["name", "method", "input", "output", "types", "begin", "action", "end", "fcns", "zero", "merge", "cells", "pools", "randseed", "doc",
  "version", "metadata", "options"]

/-- Sections whose content is always a list. -/
def listed : List String := ["types", "begin", "action", "end", "merge"]

/-- Lines 130-133: a block is its expressions, and one expression is a list of one. -/
def unwrap : Content → Content
  | .one (.call n as) => if n = "do" then .list (as.map .mini) else .list [.mini (.call n as)]
  | .one m => .list [.mini m]
  | .list l => .list l

/-- The constructor of Section, 115-176. -/
def mkSection (n : String) (c : Content) : Res (String × Content) :=
  if n ∈ headings then .ok (n, if n ∈ listed then unwrap c else c) else .error pretty

/-- Lines 181-186 and others: one object. -/
def single : Content → Res Obj
  | .one m => .ok (.mini m)
  | .list [o] => .ok o
  | .list _ => .error pretty

/-- Iterating over the content. -/
def items : Content → Res (List Obj)
  | .one _ => .error badType
  | .list l => .ok l

/-- `content.name`, 1483 -/
def nameAttr : Content → Res (Option String)
  | .one (.get n _) => .ok (some n)
  | .one (.to_ n _ _ _ _) => .ok (some n)
  | .one (.dotName n) => .ok (some n)
  | .one (.call n _) => .ok (some n)
  | .one (.param n _) => .ok (some n)
  | .one (.foreach n _ _ _) => .ok (some n)
  | .one (.forkeyval _ _ _ _) => .ok none
  | .one (.subs _) => .error (.py "not modelled")
  | _ => .error noAttr

/-- `input` and `output`, 181-195 -/
def typeSec (st : St) (c : Content) : Res Val := andThen (single c) (Obj.asType st)

/-- A text, 210-215 and 266-272. -/
def textSec (c : Content) : Res String := andThen (single c) fun o => match o with
  | .mini m => match text m with
    | some s => .ok s
    | none => .error pretty
  | _ => .error pretty

/-- `method`, 203-223 -/
def methodSec (c : Content) : Res String := andThen (textSec c) fun s => if s = "map" ∨ s = "emit" ∨ s = "fold" then .ok s else .error pretty

/-- `types`, 225-227 -/
def typesSec (st : St) : List Obj → Res St
  | [] => .ok st
  | o :: os => andThen (o.defType st) fun st => typesSec st os

/-- `begin`, `action`, `end`, `merge`: 229-236 and 249-250 -/
def exprsSec (st : St) (c : Content) : Res (List X) := andThen (items c) fun l => seq (l.map (Obj.asExpr st))

/-- `cells`, 197-198 -/
def cellsSec (st : St) (c : Content) : Res (List (String × CellDef)) := andThen (items c) fun l => andThen (seq (l.map (Obj.asCell st))) fun d => .ok (asDict d)

/-- `pools`, 200-201 -/
def poolsSec (st : St) (c : Content) : Res (List (String × PoolDef)) := andThen (items c) fun l => andThen (seq (l.map (Obj.asPool st))) fun d => .ok (asDict d)

/-- `fcns`, 238-239 -/
def fcnsSec (st : St) (c : Content) : Res (List (String × X)) := andThen (items c) fun l => andThen (seq (l.map (Obj.asFcn st))) fun d => .ok (asDict d)

/-- `zero`, `metadata` and `options`: 241-247 and 284-296 -/
def jsonSec (c : Content) : Res Val := andThen (single c) Obj.asJson

/-- `randseed` and `version`: 252-259 and 275-282 -/
def intSec (c : Content) : Res Val := andThen (single c) fun o => match o with
  | .mini (.number (.int i)) => .ok (.int i)
  | _ => .error pretty

/-- A section that may be missing. -/
def given {α : Type} (d : List (String × Content)) (k : String) (f : Content → Res α) : Res (Option α) := match PyDict.get? d k with
  | none => .ok none
  | some c => andThen (f c) fun a => .ok (some a)

/-- Lines 1504-1506: the names of the functions that the document defines. -/
def fcnNames (c : Content) : Res (List String) := andThen (items c) fun l => .ok (l.filterMap fun o => match o with
  | .fcn n _ _ _ => some ("u." ++ n)
  | _ => none)

/-- The state while expressions are read, 1503-1508. -/
def inside (st : St) (fs : Option (List String)) (cs : Option (List (String × CellDef))) (ps : Option (List (String × PoolDef))) : St :=
  { st with functionNames := st.functionNames ++ fs.getD [], cellNames := PyDict.keys (cs.getD []), poolNames := PyDict.keys (ps.getD []) }

/-- A dictionary of strings. -/
def strDict : Val → Option (List (String × String))
  | .dict d => d.mapM fun kv => match kv.2 with
    | .str s => some (kv.1, s)
    | _ => none
  | _ => none

/-- A dictionary. -/
def anyDict : Val → Option (List (String × Val))
  | .dict d => some d
  | _ => none

/-- The constructor of EngineConfig, pfaast.py 720-773. -/
def mkConfig (c : Config) : Res Config := if c.made then .ok c else .error syn

/-- What the sections gave. -/
structure Parts where
  name : Option String
  method : String
  input : Option Val
  output : Option Val
  begin_ : List X
  action : Option (List X)
  end_ : List X
  fcns : List (String × X)
  zero : Option Val
  merge : Option (List X)
  cells : List (String × CellDef)
  pools : List (String × PoolDef)
  randseed : Option Val
  doc : Option String
  version : Option Val
  metadata : Val
  options : Val

/-- Lines 1533-1538. -/
def assemble (p : Parts) : Res Config := match p.name, p.input, p.output, p.action, strDict p.metadata, anyDict p.options with
  | some n, some i, some o, some a, some m, some op =>
    mkConfig ⟨n, p.method, i, o, p.begin_, a, p.end_, p.fcns, p.zero, p.merge, p.cells, p.pools, p.randseed, p.doc, p.version, m, op⟩
  | _, _, _, _, _, _ => .error syn

/-- Lines 1510-1531, once types, cells and pools are known. -/
def bodies (st : St) (d : List (String × Content)) (name : Option String) (method : String) (inp out : Option Val) (cs : List (String × CellDef))
    (ps : List (String × PoolDef)) : Res Config :=
  andThen (given d "begin" (exprsSec st)) fun b => andThen (given d "action" (exprsSec st)) fun a => andThen (given d "end" (exprsSec st)) fun e =>
  andThen (given d "fcns" (fcnsSec st)) fun f => andThen (given d "zero" jsonSec) fun z => andThen (given d "merge" (exprsSec st)) fun m =>
  andThen (given d "randseed" intSec) fun r => andThen (given d "doc" textSec) fun t => andThen (given d "version" intSec) fun v =>
  andThen (given d "metadata" jsonSec) fun md => andThen (given d "options" jsonSec) fun op =>
  assemble ⟨name, method, inp, out, b.getD [], a, e.getD [], f.getD [], z, m, cs, ps, r, t, v, md.getD (.dict []), op.getD (.dict [])⟩

/-- `p_document`, 1456-1538, on the dictionary of sections. -/
def document (st : St) (fresh : String) (d : List (String × Content)) : Res Config :=
  andThen (given d "name" nameAttr) fun n => andThen (given d "method" methodSec) fun me =>
  andThen (given d "types" fun c => andThen (items c) (typesSec st)) fun s => andThen (given d "input" (typeSec (s.getD st))) fun i =>
  andThen (given d "output" (typeSec (s.getD st))) fun o => andThen (given d "cells" (cellsSec (s.getD st))) fun cs =>
  andThen (given d "pools" (poolsSec (s.getD st))) fun ps => andThen (given d "fcns" fcnNames) fun fs =>
  bodies (inside (s.getD st) fs cs ps) d (n.getD (some fresh)) (me.getD "map") i o (cs.getD []) (ps.getD [])

/-! ## Cells and pools -/

/-- What the arguments say so far. -/
structure Args where
  shared : Bool := false
  rollback : Bool := false
  source : String := "embedded"
  type : Option Mini := none
  others : List Mini := []

/-- One argument, 1821-1848. -/
def argStep (a : Args) : Mini → Res Args
  | .param n m =>
    if n = "shared" then andThen (flag m) fun b => .ok { a with shared := b }
    else if n = "rollback" then andThen (flag m) fun b => .ok { a with rollback := b }
    else if n = "source" then match text m with
      | some s => .ok { a with source := s }
      | none => .error pretty
    else if n = "type" then .ok { a with type := some m }
    else .error pretty
  | m => .ok { a with others := a.others ++ [m] }

/-- All arguments. -/
def argSteps (a : Args) : List Mini → Res Args
  | [] => .ok a
  | m :: ms => andThen (argStep a m) fun a => argSteps a ms

/-- Lines 1814-1857. -/
def cellOf (n : String) (as : List Mini) (init : Mini) : Res Obj := andThen (argSteps {} as) fun a => match a.type, a.others with
  | none, [t] => .ok (.cell n t init a.shared a.rollback a.source)
  | some t, [] => .ok (.cell n t init a.shared a.rollback a.source)
  | _, _ => .error pretty

/-! ## Trees -/

/-- What a `p_…` function of the grammar of documents gives. -/
inductive DV where
  | v (v : V)
  | content (c : Content)
  | obj (o : Obj)
  | objs (l : List Obj)
  | sec (n : String) (c : Content)
  | secs (d : List (String × Content))
  | config (c : Config)

/-- The productions of documents only. -/
def dsem (st : St) (fresh : String) (p : Pr) (vs : List DV) : Res DV := match p, vs with
  -- 1456-1538
  | .document, [.secs d] => andThen (document st fresh d) fun c => .ok (.config c)
  -- 1540-1551
  | .sectionStart, [.v (.tok t), .content c] => andThen (mkSection t.str c) fun s => .ok (.sec s.1 s.2)
  | .section, [.v (.tok t), .content c] => andThen (mkSection t.str c) fun s => .ok (.sec s.1 s.2)
  | .sections1, [.sec n c] => .ok (.secs [(n, c)])
  | .sectionsMore, [.secs d, .sec n c] => .ok (.secs (PyDict.update d [(n, c)]))
  -- 1553-1560
  | .anyExpr, [.v (.mini m)] => .ok (.content (.one m))
  | .anyExprs, [.v (.minis ms)] => .ok (.content (.list (ms.map .mini)))
  | .anyBracketed, [.v (.mini m)] => .ok (.content (.one m))
  | .anyFcns, [.objs l] => .ok (.content (.list l))
  | .anyCells, [.objs l] => .ok (.content (.list l))
  -- 1753-1787
  | .namedE, [.v (.tok t), _, _, _, .v (.minis ps), .v (.mini r), _, .v (.mini b)] => .ok (.obj (.fcn t.str (params ps) r (bodyOf b)))
  | .namedB, [.v (.tok t), _, _, _, .v (.minis ps), .v (.mini r), _, .v (.mini b)] => .ok (.obj (.fcn t.str (params ps) r (bodyOf b)))
  | .named0, [_] => .ok (.objs [])
  | .named1, [.obj o] => .ok (.objs [o])
  | .namedMore, [.objs l, _, .obj o] => .ok (.objs (l ++ [o]))
  | .namedSemi, [.objs l, _] => .ok (.objs l)
  -- 1789-1857
  | .cellBlock, [.v (.tok t), _, .v (.minis as), _, _, .v (.mini m)] => andThen (cellOf t.str as m) fun o => .ok (.obj o)
  | .cellBracketed, [.v (.tok t), _, .v (.minis as), _, _, .v (.mini m)] => andThen (cellOf t.str as m) fun o => .ok (.obj o)
  | .cellNumber, [.v (.tok t), _, .v (.minis as), _, _, .v (.tok u)] => andThen (cellOf t.str as (.number u.num)) fun o => .ok (.obj o)
  | .cellStr, [.v (.tok t), _, .v (.minis as), _, _, .v (.tok u)] => andThen (cellOf t.str as (.string u.str)) fun o => .ok (.obj o)
  | .cellRaw, [.v (.tok t), _, .v (.minis as), _, _, .v (.tok u)] => andThen (cellOf t.str as (.string u.str)) fun o => .ok (.obj o)
  | .cellName, [.v (.tok t), _, .v (.minis as), _, _, .v (.tok u)] => andThen (cellOf t.str as (.dotName u.str)) fun o => .ok (.obj o)
  | .cellRepl, [.v (.tok t), _, .v (.minis as), _, _, .v (.tok u)] => andThen (cellOf t.str as (.subs u.sub)) fun o => .ok (.obj o)
  -- 1859-1871
  | .cells1, [.obj o] => .ok (.objs [o])
  | .cellsMore, [.objs l, _, .obj o] => .ok (.objs (l ++ [o]))
  | .cellsSemi, [.objs l, _] => .ok (.objs l)
  | _, _ => .error unreachable

/-- The production is one of documents only. -/
def isDoc : Pr → Bool
  | .document | .sectionStart | .section | .sections1 | .sectionsMore | .anyExpr | .anyExprs | .anyBracketed | .anyFcns | .anyCells | .namedE | .namedB
  | .named0 | .named1 | .namedMore | .namedSemi | .cellBlock | .cellBracketed | .cellNumber | .cellStr | .cellRaw | .cellName | .cellRepl
  | .cells1 | .cellsMore | .cellsSemi => true
  | _ => false

mutual
/-- The value of a tree of the grammar of documents. -/
def dvalue (st : St) (fresh : String) : T → Res DV
  | .leaf t => .ok (.v (.tok t))
  | .node p ks => if isDoc p then andThen (dvalues st fresh ks) (dsem st fresh p) else andThen (value (.node p ks)) fun v => .ok (.v v)
@[inherit_doc dvalue] def dvalues (st : St) (fresh : String) : List T → Res (List DV)
  | [] => .ok []
  | k :: ks => andThen (dvalue st fresh k) fun v => andThen (dvalues st fresh ks) fun vs => .ok (v :: vs)
end

end Verif.Pretty
