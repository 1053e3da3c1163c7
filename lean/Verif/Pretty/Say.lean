import Verif.Pretty.Mini
import Verif.Ast.Spec

/-!
# What PrettyPFA can say

`mini e` is a way to write the PFA expression `e` in PrettyPFA, as a tree of the parser.  `Say st e` lists, node by node, the
conditions under which this way of writing is understood; each condition is there because the language has no way, or another
meaning, for what it excludes.
-/

namespace Verif.Pretty
open Avro Ast Reader

/-! ## Types -/

mutual
/-- A type of JSON, written as PrettyPFA writes it. -/
def typeMini : Val → Mini
  | .str s => .dotName s
  | .arr ts => .call "union" (typeMinis ts)
  | .dict [(_, .str k), (_, .int n), (_, .str name)] => .call k [.number (.int n), .dotName name]
  | .dict [(_, .str k), (_, .int n), (_, .str name), (_, .str ns)] => .call k [.number (.int n), .dotName (ns ++ "." ++ name)]
  | .dict [(_, .str k), (_, .arr ss), (_, .str name)] => .call k [.bracketed (symMinis ss), .dotName name]
  | .dict [(_, .str k), (_, .arr ss), (_, .str name), (_, .str ns)] => .call k [.bracketed (symMinis ss), .dotName (ns ++ "." ++ name)]
  | .dict [(_, .str k), (_, .str name), (_, .arr fs)] => .call k (.dotName name :: fieldMinis fs)
  | .dict [(_, .str k), (_, .str name), (_, .arr fs), (_, .str ns)] => .call k (.dotName (ns ++ "." ++ name) :: fieldMinis fs)
  | .dict [(_, .str k), (_, t)] => .call k [typeMini t]
  | _ => .dotName ""
def typeMinis : List Val → List Mini
  | [] => []
  | t :: ts => typeMini t :: typeMinis ts
def symMinis : List Val → List Mini
  | [] => []
  | .str s :: ts => .dotName s :: symMinis ts
  | _ :: ts => symMinis ts
def fieldMinis : List Val → List Mini
  | [] => []
  | .dict [(_, .str n), (_, t)] :: fs => .param n (typeMini t) :: fieldMinis fs
  | _ :: fs => fieldMinis fs
end

/-- A name without dots. -/
def NoDot (s : String) : Prop := '.' ∉ s.toList

/-- Types that can be written: no name is an alias, unions have two members or more, sizes are positive, and the types `fixed`, `enum` and
`record` have their name, without dots, and perhaps a namespace. -/
inductive GoodT (st : St) : Val → Prop where
  | name {s} (h : s ∉ PyDict.keys st.aliases) : GoodT st (.str s)
  | array {t} (h : GoodT st t) : GoodT st (.dict [("type", .str "array"), ("items", t)])
  | map {t} (h : GoodT st t) : GoodT st (.dict [("type", .str "map"), ("values", t)])
  | union {ts} (h2 : 2 ≤ ts.length) (h : ∀ t ∈ ts, GoodT st t) : GoodT st (.arr ts)
  | fixed {n : Int} {name} (hn : 0 < n) (hd : NoDot name) :
      GoodT st (.dict [("type", .str "fixed"), ("size", .int n), ("name", .str name)])
  | fixedNs {n : Int} {name ns} (hn : 0 < n) (hd : NoDot name) :
      GoodT st (.dict [("type", .str "fixed"), ("size", .int n), ("name", .str name), ("namespace", .str ns)])
  | enum {syms : List String} {name} (hd : NoDot name) :
      GoodT st (.dict [("type", .str "enum"), ("symbols", .arr (syms.map .str)), ("name", .str name)])
  | enumNs {syms : List String} {name ns} (hd : NoDot name) :
      GoodT st (.dict [("type", .str "enum"), ("symbols", .arr (syms.map .str)), ("name", .str name), ("namespace", .str ns)])
  | record {fs : List (String × Val)} {name} (hd : NoDot name) (h : ∀ f ∈ fs, GoodT st f.2) :
      GoodT st (.dict [("type", .str "record"), ("name", .str name), ("fields", .arr (fs.map fun f => .dict [("name", .str f.1), ("type", f.2)]))])
  | recordNs {fs : List (String × Val)} {name ns} (hd : NoDot name) (h : ∀ f ∈ fs, GoodT st f.2) :
      GoodT st (.dict [("type", .str "record"), ("name", .str name), ("fields", .arr (fs.map fun f => .dict [("name", .str f.1), ("type", f.2)])),
        ("namespace", .str ns)])

/-! ## JSON -/

mutual
/-- JSON as PrettyPFA writes it. -/
def jsonMini : Val → Mini
  | .null => .dotName "null"
  | .bool b => .dotName (if b then "true" else "false")
  | .int i => .number (.int i)
  | .flt f => .number (.flt f)
  | .str s => .string s
  | .arr xs => .bracketed (jsonMinis xs)
  | .dict d => .block (pairMinis d)
  | .bytes _ => .dotName ""
def jsonMinis : List Val → List Mini
  | [] => []
  | x :: xs => jsonMini x :: jsonMinis xs
def pairMinis : List (String × Val) → List Mini
  | [] => []
  | (k, v) :: d => .param k (jsonMini v) :: pairMinis d
end

/-- JSON values whose objects have distinct keys. -/
inductive GoodJ : Val → Prop where
  | null : GoodJ .null
  | bool (b) : GoodJ (.bool b)
  | int (i) : GoodJ (.int i)
  | flt (f) : GoodJ (.flt f)
  | str (s) : GoodJ (.str s)
  | arr {xs} (h : ∀ x ∈ xs, GoodJ x) : GoodJ (.arr xs)
  | dict {d : List (String × Val)} (hd : PyDict.WF d) (h : ∀ kv ∈ d, GoodJ kv.2) : GoodJ (.dict d)

/-! ## Expressions -/

/-- The value of a literal number, through `json(type, value)` when there is no other way. -/
def litMini (type : String) (v : Val) : Mini := .call "json" [.dotName type, jsonMini v]

/-- The optional parameter of `error` and `log`. -/
def optMini (k : String) : Option Mini → List Mini
  | none => []
  | some m => [.param k m]

/-- A filter of `try`. -/
def filterMini : Val → Mini
  | .str s => .string s
  | .int i => .number (.int i)
  | _ => .dotName ""

mutual
/-- A PFA expression, written in PrettyPFA. -/
def mini : X → Mini
  | .fcnDef ps r b => .fcnDef (ps.map fun p => (p.1, typeMini p.2)) (typeMini r) (minis b)
  | .fcnRef n => .dotName n
  | .fcnRefFill n f => .call n (fillMinis f)
  | .callUser f as => .call "apply" (mini f :: minis as)
  | .call n as => .call n (minis as)
  | .ref n => .dotName n
  | .litNull => .dotName "null"
  | .litBool b => .dotName (if b then "true" else "false")
  | .litInt (.int i) => .number (.int i)
  | .litInt v => litMini "int" v
  | .litLong (.int i) => .call "long" [.number (.int i)]
  | .litLong v => litMini "long" v
  | .litFloat (.flt f) => .call "float" [.number (.flt f)]
  | .litFloat v => litMini "float" v
  | .litDouble (.flt f) => .number (.flt f)
  | .litDouble v => litMini "double" v
  | .litString s => .string s
  | .litBase64 bs => .call "bytes" [.string (String.ofList (b64encode bs))]
  | .literal t v => .call "json" [typeMini t, jsonMini v]
  | .newObject fs t => .call "new" (typeMini t :: fillMinis fs)
  | .newArray is t => .call "new" (typeMini t :: minis is)
  | .do_ b => .call "do" (minis b)
  | .let_ vs => .assign (miniN vs) true
  | .setVar vs => .assign (miniN vs) false
  | .attrGet (.ref n) p => .get n (minis p)
  | .attrGet x p => .genGet (mini x) (minis p)
  | .attrTo (.ref n) p r => .to_ n (minis p) (!isFcn r) (mini r) none
  | .attrTo x p r => .genAssign (mini x) (minis p) (mini r)
  | .cellGet c [] => .dotName c
  | .cellGet c p => .get c (minis p)
  | .cellTo c [] r => if isFcn r then .to_ c [] false (mini r) none else .assign [(c, mini r)] false
  | .cellTo c p r => .to_ c (minis p) (!isFcn r) (mini r) none
  | .poolGet c p => .get c (minis p)
  | .poolTo c p r i => if isFcn r then .to_ c (minis p) false (mini r) (some (mini i)) else .to_ c (minis p) true (mini r) none
  | .poolDel _ _ => .dotName ""
  | .if_ p t e => .if_ [(mini p, .call "do" (minis t))] (if e.isEmpty then none else some (.call "do" (minis e)))
  | .cond its e => .if_ (condMinis its) (if e.isEmpty then none else some (.call "do" (minis e)))
  | .while_ p b => .while_ (mini p) (.call "do" (minis b)) true
  | .doUntil b p => .while_ (mini p) (.call "do" (minis b)) false
  | .for_ i p s b => .for_ (miniN i) (mini p) (miniN s) (.call "do" (minis b))
  | .foreach n a b q => .foreach n (mini a) (.call "do" (minis b)) q
  | .forkeyval k v m b => .forkeyval k v (mini m) (.call "do" (minis b))
  | .castCase t n b => .asBlock (typeMini t) n (.call "do" (minis b))
  | .castBlock x cs p => .cast (mini x) (minis cs) p
  | .upcast x t => .call "upcast" [typeMini t, mini x]
  | .ifNotNull xs t e => .ifNotNull (miniN xs) (.call "do" (minis t)) (if e.isEmpty then none else some (.call "do" (minis e)))
  | .pack xs => .call "pack" (fillMinis xs)
  | .unpack b f t e => .unpack (mini b) (f.map fun kv => (kv.1, .string kv.2)) (.call "do" (minis t))
      (if e.isEmpty then none else some (.call "do" (minis e)))
  | .doc c => .call "doc" [.string c]
  | .error m c => .call "error" (.string m :: optMini "code" (c.map fun i => .number (.int i)))
  | .try_ xs f => .try_ (.call "do" (minis xs)) (f.map fun l => l.map filterMini)
  | .log xs ns => .call "log" (minis xs ++ optMini "namespace" (ns.map .string))
@[inherit_doc mini] def minis : List X → List Mini
  | [] => []
  | e :: es => mini e :: minis es
@[inherit_doc mini] def miniN : List (String × X) → List (String × Mini)
  | [] => []
  | (k, e) :: es => (k, mini e) :: miniN es
@[inherit_doc mini] def fillMinis : List (String × X) → List Mini
  | [] => []
  | (k, e) :: es => .param k (mini e) :: fillMinis es
@[inherit_doc mini] def condMinis : List X → List (Mini × Mini)
  | [] => []
  | .if_ p t _ :: es => (mini p, .call "do" (minis t)) :: condMinis es
  | _ :: es => condMinis es
end

/-- The three names that are values. -/
def valueNames : List String := ["null", "true", "false"]

/-- The types that `json` treats apart from `Literal`. -/
def plainTypes : List String := ["null", "int", "long", "float", "double", "string", "bytes"]

/-- The conditions of a node, apart from its parts. -/
def say (st : St) : X → Prop
  | .fcnDef ps r _ => (∀ p ∈ ps, GoodT st p.2) ∧ GoodT st r
  | .fcnRef n => n ∈ st.functionNames ∧ n ∉ valueNames
  | .fcnRefFill n f => n ∉ formNames ∧ PyDict.WF f
  | .call n _ => n ∉ formNames
  | .ref n => n ∉ valueNames ∧ n ∉ st.functionNames ∧ NoDot n ∧ n ∉ st.cellNames ∧ n ∉ st.poolNames
  | .litInt v => (∀ i, v ≠ .int i) → "int" ∉ PyDict.keys st.aliases
  | .litLong v => (∀ i, v ≠ .int i) → "long" ∉ PyDict.keys st.aliases
  | .litFloat v => (∀ f, v ≠ .flt f) → "float" ∉ PyDict.keys st.aliases
  | .litDouble v => (∀ f, v ≠ .flt f) → "double" ∉ PyDict.keys st.aliases
  | .litBase64 bs => ∀ b ∈ bs, b < 256
  | .literal t v => GoodT st t ∧ GoodJ v ∧ ∀ s ∈ plainTypes, t ≠ .str s
  | .newObject fs t => GoodT st t ∧ isArrayType t = false ∧ fs ≠ [] ∧ PyDict.WF fs
  | .newArray is t => GoodT st t ∧ isArrayType t = true ∧ is ≠ []
  | .let_ vs => ∀ kv ∈ vs, NoDot kv.1
  | .setVar vs => (∀ kv ∈ vs, NoDot kv.1) ∧ (vs.length = 1 → ∀ kv ∈ vs, kv.1 ∉ st.cellNames ∧ kv.1 ∉ st.poolNames)
  | .cellGet c p => c ∈ st.cellNames ∧ NoDot c ∧ (p = [] → c ∉ valueNames ∧ c ∉ st.functionNames)
  | .cellTo c _ _ => c ∈ st.cellNames ∧ c ∉ st.poolNames ∧ NoDot c
  | .poolGet c _ => c ∈ st.poolNames ∧ c ∉ st.cellNames ∧ NoDot c
  | .poolTo c _ r i => c ∈ st.poolNames ∧ c ∉ st.cellNames ∧ NoDot c ∧ (isFcn r = false → i = r)
  | .poolDel _ _ => False
  | .cond its _ => 2 ≤ its.length ∧ ∀ x ∈ its, ∃ p t, x = .if_ p t []
  | .castCase t _ _ => GoodT st t
  | .upcast _ t => GoodT st t
  | .ifNotNull xs _ _ => PyDict.WF xs
  | .try_ _ f => ∀ l, f = some l → ∀ v ∈ l, (∃ s, v = .str s) ∨ ∃ i, v = .int i
  | _ => True

/-- Every node of the expression can be constructed and satisfies its conditions. -/
def Say (st : St) (e : X) : Prop := ∀ x, Part x e → made x = true ∧ say st x

end Verif.Pretty
