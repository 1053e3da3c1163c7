import Verif.Reader.Node
import Verif.Reader.Wrong
import Verif.Reader.Errors
/-! # Reading and printing engine configurations (C81)

Models `titus/reader.py` 294-369 (`_readEngineConfig`), 371-392, 477-483, 812-845 and 865-995 (functions, cells and pools), the checks of the
constructors EngineConfig, Cell and Pool of `titus/pfaast.py` (720-773, 1121-1141, 1222-1241) and their methods `jsonNode` (1023-1073, 1186-1204,
1286-1304).

Simplifications, besides those of `Reader/Model.lean`: Python goes through the keys in the order of a `set`, so which of several errors is raised is
not determined; here keys are looked at in a fixed order.  `titus.util.uniqueEngineName()` is a parameter.  Loading the content of a file or a URL when
a cell is printed is a parameter, and is assumed to succeed. -/

namespace Verif.Reader
open Avro Ast

/-! ## Model -/

/-- The attribute `init` of Cell: JSON text, or a function that loads it (reader.py 898-918). -/
inductive Init where
  | text (v : Val)
  | load (source url : String)
deriving DecidableEq

/-- Cell, pfaast.py 1104. -/
structure CellDef where
  type : Val
  init : Init
  shared : Bool
  rollback : Bool
  source : String
deriving DecidableEq

/-- Pool, pfaast.py 1207: the constructor only admits a dictionary of strings. -/
structure PoolDef where
  type : Val
  init : List (String × Val)
  shared : Bool
  rollback : Bool
  source : String
deriving DecidableEq

/-- EngineConfig, pfaast.py 662; text of JSON is the value. -/
structure Config where
  name : String
  method : String
  input : Val
  output : Val
  begin_ : List X
  action : List X
  end_ : List X
  fcns : List (String × X)
  zero : Option Val
  merge : Option (List X)
  cells : List (String × CellDef)
  pools : List (String × PoolDef)
  randseed : Option Val
  doc : Option String
  version : Option Val
  metadata : List (String × String)
  options : List (String × Val)

/-- Instance of FcnDef. -/
def isFcn : X → Bool | .fcnDef .. => true | _ => false

/-- The checks of the constructor EngineConfig that do not only concern Python's types: pfaast.py 723-773. -/
def Config.made (c : Config) : Bool :=
  decide (c.method = "map" ∨ c.method = "emit" ∨ c.method = "fold") &&
  c.begin_.all isExpr && c.action.all isExpr && c.end_.all isExpr && c.fcns.all (fun kv => isFcn kv.2) &&
  c.merge.all (fun m => m.all isExpr) &&
  !c.action.isEmpty &&
  !(decide (c.method = "fold") && (c.zero.isNone || c.merge.isNone)) &&
  !(!decide (c.method = "fold") && (c.zero.isSome || c.merge.isSome)) &&
  c.merge.all (fun m => !m.isEmpty)

/-- The value of a key that may be missing. -/
def want {α : Type} (d : List (String × Val)) (k : String) (f : Val → Res α) : Res (Option α) := match PyDict.get? d k with
  | none => .ok none
  | some v => Res.app some (f v)

/-- The type or the JSON of a key (`_readAvroPlaceholder`, `_readJsonToString`, reader.py 371-378). -/
def readJson (v : Val) : Res Val := .ok (strip v)

section
variable (rec : Val → Res X)

/-- `_readFcnDef`, reader.py 822-845; a value that is not an object is an UnboundLocalError (`at`, line 845). -/
def readFcnDef : Val → Res X
  | .dict d =>
    if (entries d).all (fun kv => kv.1 ∈ ["params", "ret", "do"]) then
      match want (entries d) "params" (readList readParam) with
      | .error e => .error e
      | .ok p => match want (entries d) "do" (readBody rec) with
        | .error e => .error e
        | .ok b => match p, PyDict.get? (entries d) "ret", b with
          | some p, some r, some b => mk (.fcnDef p (strip r) b)
          | _, _, _ => .error syn
    else .error syn
  | _ => .error unbound

/-- `_readFcnDefMap`, reader.py 812-820; the same error when the value is not an object (line 820). -/
def readFcns : Val → Res (List (String × X))
  | .dict d =>
    if (entries d).all (fun kv => validFunction kv.1) then mapR (fun kv => Res.app (kv.1, ·) (readFcnDef rec kv.2)) (entries d)
    else .error syn
  | _ => .error unbound
end

/-- The call of the constructor Cell, pfaast.py 1121-1141. -/
def mkCell (c : CellDef) : Res CellDef := if c.shared && c.rollback then .error syn else .ok c

/-- The call of the constructor Pool, pfaast.py 1222-1241. -/
def mkPool (c : PoolDef) : Res PoolDef := if c.shared && c.rollback then .error syn else .ok c

/-- Lines 897-923: what becomes of `init`. -/
def readSource (source : String) (init : Val) : Res Init :=
  if source = "avro" ∨ source = "json" then
    match init with
    | .str url => .ok (.load source url)
    | _ => .error syn
  else if source = "embedded" then .ok (.text init)
  else .error syn

/-- `_readCell`, reader.py 878-928. -/
def readCell : Val → Res CellDef
  | .dict d =>
    if (entries d).all (fun kv => kv.1 ∈ ["type", "init", "shared", "rollback", "source"]) then
      match want (entries d) "shared" readBool with
      | .error e => .error e
      | .ok sh => match want (entries d) "rollback" readBool with
        | .error e => .error e
        | .ok ro => match want (entries d) "source" readString with
          | .error e => .error e
          | .ok so => match PyDict.get? (entries d) "type", PyDict.get? (entries d) "init" with
            | some t, some i => match readSource (so.getD "embedded") (strip i) with
              | .error e => .error e
              | .ok i => mkCell ⟨strip t, i, sh.getD false, ro.getD false, so.getD "embedded"⟩
            | _, _ => .error syn
    else .error syn
  | _ => .error syn

/-- `_readCells`, reader.py 865-876; a value that is not an object is an UnboundLocalError (`at`, line 876). -/
def readCells : Val → Res (List (String × CellDef))
  | .dict d =>
    if (entries d).all (fun kv => validSymbol kv.1) then mapR (fun kv => Res.app (kv.1, ·) (readCell kv.2)) (entries d)
    else .error syn
  | _ => .error unbound

/-- `_readPool`, reader.py 940-995: `json.loads(_init)` in lines 962 and 971 is applied to a dictionary, a TypeError; a value that is not
an object is an UnboundLocalError (`at`, line 995). -/
def readPool : Val → Res PoolDef
  | .dict d =>
    match want (entries d) "init" (readMap readJson) with
    | .error e => .error e
    | .ok i => match want (entries d) "shared" readBool with
      | .error e => .error e
      | .ok sh => match want (entries d) "rollback" readBool with
        | .error e => .error e
        | .ok ro => match want (entries d) "source" readString with
          | .error e => .error e
          | .ok so =>
            if (entries d).all (fun kv => kv.1 ∈ ["type", "init", "shared", "rollback", "source"]) then
              match PyDict.get? (entries d) "type" with
              | some t =>
                if so.getD "embedded" = "avro" ∨ so.getD "embedded" = "json" then .error (.py "TypeError")
                else if so.getD "embedded" = "embedded" then mkPool ⟨strip t, i.getD [], sh.getD false, ro.getD false, so.getD "embedded"⟩
                else .error syn
              | none => .error syn
            else .error syn
  | _ => .error unbound

/-- `_readPools`, reader.py 930-938. -/
def readPools : Val → Res (List (String × PoolDef))
  | .dict d =>
    if (entries d).all (fun kv => validSymbol kv.1) then mapR (fun kv => Res.app (kv.1, ·) (readPool kv.2)) (entries d)
    else .error syn
  | _ => .error syn

/-- Reading `method`, lines 320-329. -/
def readMethod (v : Val) : Res String := match readString v with
  | .error e => .error e
  | .ok s => if s = "map" ∨ s = "emit" ∨ s = "fold" then .ok s else .error syn

/-- `_readJsonNodeMap`, reader.py 380-384. -/
def readOptions : Val → Res (List (String × Val))
  | .dict d => .ok (stripD d)
  | _ => .error syn

/-- The keys of lines 318-360. -/
def configKeys : List String := ["name", "method", "input", "output", "begin", "action", "end", "fcns", "zero", "merge", "cells", "pools",
  "randseed", "doc", "version", "metadata", "options"]

/-- The position passed to the constructor must be a string or None: pfaast.py 723-724. -/
def atOk (d : List (String × Val)) : Bool := match PyDict.get? d "@" with
  | none | some (.str _) | some .null => true
  | _ => false

/-- `_readEngineConfig`, reader.py 294-369; `rec` is `_readArgument`, `fresh` is the name made by `uniqueEngineName`.  Line 295 calls `data.get`
before the type of `data` is examined. -/
def readConfig (rec : Val → Res X) (fresh : String) : Val → Res Config
  | .dict d => do
    let es := entries d
    let name ← want es "name" readString
    let method ← want es "method" readMethod
    let begin_ ← want es "begin" (readBody rec)
    let action ← want es "action" (readBody rec)
    let end_ ← want es "end" (readBody rec)
    let fcns ← want es "fcns" (readFcns rec)
    let merge ← want es "merge" (readBody rec)
    let cells ← want es "cells" readCells
    let pools ← want es "pools" readPools
    let randseed ← want es "randseed" (readInt (2 ^ 63))
    let doc ← want es "doc" readString
    let version ← want es "version" (readInt (2 ^ 31))
    let metadata ← want es "metadata" (readMap readString)
    let options ← want es "options" readOptions
    if es.all (fun kv => kv.1 ∈ configKeys) then
      match PyDict.get? es "input", PyDict.get? es "output", action with
      | some i, some o, some a =>
        let c : Config := ⟨name.getD fresh, method.getD "map", strip i, strip o, begin_.getD [], a, end_.getD [], fcns.getD [],
          (PyDict.get? es "zero").map strip, merge, cells.getD [], pools.getD [], randseed, doc, version, metadata.getD [], options.getD []⟩
        if atOk d && c.made then .ok c else .error syn
      | _, _, _ => .error syn
    else .error syn
  | _ => .error (.py "AttributeError")

/-! ## Printing -/

/-- The entries of a dictionary, each printed with its positions. -/
def printN {α : Type} (f : Pos → α → Val) (pos : Pos) : List (String × α) → List (String × Val)
  | [] => []
  | (k, x) :: xs => (k, f (pos.sub 0) x) :: printN f pos.next xs

/-- `initJsonNode`, pfaast.py 1180-1184. -/
def Init.json (load : String → String → Val) : Init → Val
  | .text v => v
  | .load s u => load s u

/-- `Cell.jsonNode`, pfaast.py 1186-1204. -/
def CellDef.node (load : String → String → Val) (pos : Pos) (c : CellDef) : Val :=
  .dict (start (pos []) ++ ([("type", c.type), ("init", c.init.json load), ("shared", .bool c.shared), ("rollback", .bool c.rollback)] ++
    opt (c.source != "embedded") "source" (.str c.source)))

/-- `Pool.jsonNode`, pfaast.py 1286-1304. -/
def PoolDef.node (pos : Pos) (c : PoolDef) : Val :=
  .dict (start (pos []) ++ ([("type", c.type), ("init", .dict c.init), ("shared", .bool c.shared), ("rollback", .bool c.rollback)] ++
    opt (c.source != "embedded") "source" (.str c.source)))

/-- An attribute that may be None. -/
def optN {α : Type} (k : String) (f : α → Val) : Option α → List (String × Val)
  | none => []
  | some a => [(k, f a)]

/-- The entries printed by `EngineConfig.jsonNode`, pfaast.py 1035-1071. -/
def Config.fields (load : String → String → Val) (pos : Pos) (c : Config) : List (String × Val) :=
  [("name", .str c.name), ("input", c.input), ("output", c.output), ("method", .str c.method)] ++
  (opt (!c.begin_.isEmpty) "begin" (.arr (nodes (pos.sub 0) c.begin_)) ++
  ([("action", .arr (nodes (pos.sub 1) c.action))] ++
  (opt (!c.end_.isEmpty) "end" (.arr (nodes (pos.sub 2) c.end_)) ++
  (opt (!c.fcns.isEmpty) "fcns" (.dict (printN node (pos.sub 3) c.fcns)) ++
  (opt (!c.cells.isEmpty) "cells" (.dict (printN (CellDef.node load) (pos.sub 4) c.cells)) ++
  (opt (!c.pools.isEmpty) "pools" (.dict (printN PoolDef.node (pos.sub 5) c.pools)) ++
  (optN "zero" id c.zero ++
  (optN "merge" (fun m => .arr (nodes (pos.sub 6) m)) c.merge ++
  (optN "randseed" id c.randseed ++
  (optN "doc" .str c.doc ++
  (optN "version" id c.version ++
  (opt (!c.metadata.isEmpty) "metadata" (.dict (c.metadata.map (fun kv => (kv.1, .str kv.2)))) ++
   opt (!c.options.isEmpty) "options" (.dict c.options)))))))))))))

/-- `EngineConfig.jsonNode`, pfaast.py 1023-1073. -/
def Config.node (load : String → String → Val) (pos : Pos) (c : Config) : Val := .dict (start (pos []) ++ c.fields load pos)

/-! ## What is needed to be printed and read -/

/-- A whole number of the given size, or a truth value. -/
def intVal (b : Int) (v : Val) : Prop := (∃ i, v = .int i ∧ -b ≤ i ∧ i ≤ b - 1) ∨ ∃ c, v = .bool c

/-- A cell, embedded or not, as the reader makes it. -/
structure CellDef.Fine (c : CellDef) : Prop where
  type : strip c.type = c.type
  flags : ¬ (c.shared = true ∧ c.rollback = true)
  init : (c.source = "embedded" ∧ ∃ v, strip v = v ∧ c.init = .text v) ∨
    ((c.source = "avro" ∨ c.source = "json") ∧ ∃ u, c.init = .load c.source u)

structure PoolDef.Fine (c : PoolDef) : Prop where
  type : strip c.type = c.type
  flags : ¬ (c.shared = true ∧ c.rollback = true)
  init : ∀ kv ∈ c.init, kv.1 ≠ "@" ∧ strip kv.2 = kv.2
  source : c.source = "embedded"

/-- All expressions of a configuration outside of functions. -/
def Config.exprs (c : Config) : List X := c.begin_ ++ c.action ++ c.end_ ++ c.merge.getD []

/-- A configuration that could be constructed, with names that the reader accepts, numbers of the right size, no position marks in types and data,
and expressions and functions that satisfy `P`. -/
structure Config.Fine (P : X → Prop) (c : Config) : Prop where
  made : c.made = true
  exprs : ∀ x ∈ c.exprs, P x
  fcns : ∀ kv ∈ c.fcns, validFunction kv.1 = true ∧ P kv.2
  input : strip c.input = c.input
  output : strip c.output = c.output
  zero : ∀ v, c.zero = some v → strip v = v
  cells : ∀ kv ∈ c.cells, validSymbol kv.1 = true ∧ kv.2.Fine
  pools : ∀ kv ∈ c.pools, validSymbol kv.1 = true ∧ kv.2.Fine
  randseed : ∀ v, c.randseed = some v → intVal (2 ^ 63) v
  version : ∀ v, c.version = some v → intVal (2 ^ 31) v
  metadata : ∀ kv ∈ c.metadata, kv.1 ≠ "@"
  options : stripD c.options = c.options

/-- No cell is loaded from elsewhere. -/
def Config.Embedded (c : Config) : Prop := ∀ kv ∈ c.cells, kv.2.source = "embedded"

/-! ## Lemmas -/

theorem get?_append' {α : Type} (a b : List (String × α)) (k : String) : PyDict.get? (a ++ b) k = (PyDict.get? a k).or (PyDict.get? b k) := by
  induction a with
  | nil => simp [PyDict.get?]
  | cons x a ih =>
    obtain ⟨k', v⟩ := x
    by_cases h : k' = k
    · simp [PyDict.get?, h]
    · simp [PyDict.get?, h, ih]

theorem get?_opt (b : Bool) (k k' : String) (v : Val) : PyDict.get? (opt b k v) k' = if k = k' ∧ b = true then some v else none := by
  cases b <;> by_cases h : k = k' <;> simp [opt, PyDict.get?, h]

theorem get?_optN {α : Type} (k k' : String) (f : α → Val) (o : Option α) : PyDict.get? (optN k f o) k' = if k = k' then o.map f else none := by
  cases o <;> by_cases h : k = k' <;> simp [optN, PyDict.get?, h]

theorem keys_append' {α : Type} (a b : List (String × α)) : PyDict.keys (a ++ b) = PyDict.keys a ++ PyDict.keys b := by simp [PyDict.keys]

theorem mem_opt {b : Bool} {k : String} {v : Val} {kv : String × Val} (h : kv ∈ opt b k v) : kv.1 = k := by
  cases b <;> simp [opt] at h
  rw [h]

theorem mem_optN {α : Type} {k : String} {f : α → Val} {o : Option α} {kv : String × Val} (h : kv ∈ optN k f o) : kv.1 = k := by
  cases o <;> simp [optN] at h
  rw [h]

theorem ne_at_of_symbol {s : String} (h : validSymbol s = true) : s ≠ "@" := by
  rintro rfl; exact absurd h (by decide +kernel)

theorem ne_at_of_function {s : String} (h : validFunction s = true) : s ≠ "@" := by
  rintro rfl; exact absurd h (by decide +kernel)

theorem keys_printN {α : Type} (f : Pos → α → Val) : ∀ (xs : List (String × α)) (pos : Pos), PyDict.keys (printN f pos xs) = PyDict.keys xs
  | [], _ => rfl
  | (k, x) :: xs, pos => by
    have := keys_printN f xs pos.next
    simp only [PyDict.keys] at this ⊢
    simp [printN, this]

theorem mapR_printN {α β : Type} {f : Pos → α → Val} {g : Val → Res β} {h : α → β} : ∀ (xs : List (String × α)) (pos : Pos),
    (∀ kv ∈ xs, ∀ pos, g (f pos kv.2) = .ok (h kv.2)) →
    mapR (fun kv => Res.app (kv.1, ·) (g kv.2)) (printN f pos xs) = .ok (xs.map (fun kv => (kv.1, h kv.2)))
  | [], _, _ => rfl
  | (k, x) :: xs, pos, hg => by
    simp [printN, mapR, hg (k, x) (by simp), mapR_printN xs pos.next (fun y hy => hg y (by simp [hy]))]

/-- Keys of a printed dictionary satisfy what the keys of the dictionary satisfy. -/
theorem printN_all {α : Type} {f : Pos → α → Val} {p : String → Bool} : ∀ (xs : List (String × α)) (pos : Pos), (∀ kv ∈ xs, p kv.1 = true) →
    (printN f pos xs).all (fun kv => p kv.1) = true
  | [], _, _ => rfl
  | (k, x) :: xs, pos, h => by
    simp only [printN, List.all_cons, Bool.and_eq_true]
    exact ⟨h (k, x) (by simp), printN_all xs _ (fun y hy => h y (by simp [hy]))⟩

theorem entries_printN {α : Type} {f : Pos → α → Val} {xs : List (String × α)} {pos : Pos} (h : ∀ kv ∈ xs, kv.1 ≠ "@") :
    entries (printN f pos xs) = printN f pos xs := entries_eq (by rw [keys_printN]; exact keys_ne h)

/-! ## Printing and reading -/

theorem readExpr_node {n : Nat} {x : X} (hd : Deep n x) (hx : isExpr x = true) (hp : Plain x) (pos : Pos) :
    readExpr (readArg n) (node pos x) = .ok x := by
  simp [readExpr, read_node n x hd (isArg_of_isExpr hx) hp pos, hx]

theorem readBody_nodes {n : Nat} {xs : List X} (hd : ∀ x ∈ xs, Deep n x) (hx : xs.all isExpr = true) (hp : ∀ x ∈ xs, Plain x) (pos : Pos) :
    readBody (readArg n) (.arr (nodes pos xs)) = .ok xs := by
  rw [readBody]
  exact mapR_nodes xs pos (fun x h _ => readExpr_node (hd x h) (List.all_eq_true.1 hx x h) (hp x h) _)

theorem readFcnDef_node {n : Nat} {x : X} (hd : Deep (n + 1) x) (hf : isFcn x = true) (hp : Plain x) (pos : Pos) :
    readFcnDef (readArg n) (node pos x) = .ok x := by
  cases x <;> simp only [isFcn, Bool.false_eq_true] at hf
  rename_i ps r b
  have hm := (hp _ (.refl _)).1; have hq := (hp _ (.refl _)).2
  simp only [made, plain, Bool.and_eq_true, decide_eq_true_eq] at hm hq
  have h0 := readParams_print ps (fun p hp => by simpa using List.all_eq_true.1 hq.1 p hp)
  have h2 : readBody (readArg n) (.arr (nodes (pos.sub 0) b)) = .ok b := by
    cases hd with
    | node hd => exact readBody_nodes (fun x h => hd x (.fcnDef h)) hm.1 (fun x h => hp.child (.fcnDef h)) _
  rw [Reader.node, readFcnDef, entries_start, entries_eq (by simp [PyDict.keys])]
  simp [want, PyDict.get?, readList, h0, h2, mk_plain hp, hq.2]

theorem readCell_node {c : CellDef} (h : c.Fine) (he : c.source = "embedded") (load : String → String → Val) (pos : Pos) :
    readCell (c.node load pos) = .ok c := by
  obtain ⟨t, i, sh, ro, so⟩ := c
  obtain ⟨h1, h2, h3⟩ := h
  simp only at h1 h2 h3 he
  subst he
  obtain ⟨_, v, hv, rfl⟩ | ⟨h, _⟩ := h3
  · rw [CellDef.node, readCell, entries_start, entries_eq (by simp [PyDict.keys, opt])]
    simp [want, PyDict.get?, opt, readBool, Init.json, readSource, mkCell, h1, hv]
    cases sh <;> simp_all
  · simp at h

theorem readPool_node {c : PoolDef} (h : c.Fine) (pos : Pos) : readPool (c.node pos) = .ok c := by
  obtain ⟨t, i, sh, ro, so⟩ := c
  obtain ⟨h1, h2, h3, h4⟩ := h
  simp only at h1 h2 h3 h4
  subst h4
  have hi : readMap readJson (.dict i) = .ok i := by
    rw [readMap, entries_eq (keys_ne fun kv hk => (h3 kv hk).1)]
    have := mapR_map (f := fun kv : String × Val => Res.app (kv.1, ·) (readJson kv.2)) (g := id) (h := id) i (fun kv hk => by
      simp [readJson, (h3 kv hk).2])
    simpa using this
  rw [PoolDef.node, readPool, entries_start, entries_eq (by simp [PyDict.keys, opt])]
  simp [want, PyDict.get?, opt, readBool, hi, mkPool, h1]
  cases sh <;> simp_all

theorem readInt_val {b : Int} {v : Val} (h : intVal b v) : readInt b v = .ok v := by
  obtain ⟨i, rfl, h1, h2⟩ | ⟨c, rfl⟩ := h
  · simp [readInt, h1, h2]
  · rfl

theorem fields_keys {load : String → String → Val} {pos : Pos} {c : Config} : ∀ kv ∈ c.fields load pos, kv.1 ∈ configKeys := by
  intro kv h
  simp only [Config.fields, List.mem_append] at h
  rcases h with h | h | h | h | h | h | h | h | h | h | h | h | h | h <;>
    first
    | (rw [mem_opt h]; decide)
    | (rw [mem_optN h]; decide)
    | (simp only [List.mem_cons, List.not_mem_nil, or_false] at h
       rcases h with rfl | rfl | rfl | rfl <;> simp [configKeys])
    | (simp only [List.mem_cons, List.not_mem_nil, or_false] at h
       subst h; simp [configKeys])

/-- **C81.** Printing a configuration and reading it gives the configuration, if all its cells are embedded. -/
theorem config_print_read {n : Nat} {c : Config} (h : c.Fine Plain) (he : c.Embedded) (hd : ∀ x ∈ c.exprs, Deep n x)
    (hf : ∀ kv ∈ c.fcns, Deep (n + 1) kv.2) (load : String → String → Val) (pos : Pos) (fresh : String) :
    readConfig (readArg n) fresh (c.node load pos) = .ok c := by
  have hm := h.made
  simp only [Config.made, Bool.and_eq_true] at hm
  obtain ⟨⟨⟨⟨⟨⟨⟨⟨⟨hm1, hm2⟩, hm3⟩, hm4⟩, hm5⟩, hm6⟩, hm7⟩, hm8⟩, hm9⟩, hm10⟩ := hm
  have hkeys : "@" ∉ PyDict.keys (c.fields load pos) := keys_ne fun kv hk he => by
    have := fields_keys kv hk; rw [he] at this; exact absurd this (by decide)
  have e1 : want (c.fields load pos) "name" readString = .ok (some c.name) := by
    simp [want, Config.fields, get?_append', PyDict.get?, readString]
  have e2 : want (c.fields load pos) "method" readMethod = .ok (some c.method) := by
    simp only [decide_eq_true_eq] at hm1
    simp [want, Config.fields, get?_append', PyDict.get?, readMethod, readString, hm1]
  have b : ∀ xs, xs.all isExpr = true → (∀ x ∈ xs, x ∈ c.exprs) → ∀ pos, readBody (readArg n) (.arr (nodes pos xs)) = .ok xs :=
    fun xs hx hs pos => readBody_nodes (fun x hx => hd x (hs x hx)) hx (fun x hx => h.exprs x (hs x hx)) pos
  have e3 : want (c.fields load pos) "begin" (readBody (readArg n)) = .ok (if c.begin_ = [] then none else some c.begin_) := by
    have := b c.begin_ hm2 (fun x hx => by simp [Config.exprs, hx]) (pos.sub 0)
    by_cases hb : c.begin_ = [] <;> simp [want, Config.fields, get?_append', get?_opt, get?_optN, PyDict.get?, hb, this]
  have e4 : want (c.fields load pos) "action" (readBody (readArg n)) = .ok (some c.action) := by
    have := b c.action hm3 (fun x hx => by simp [Config.exprs, hx]) (pos.sub 1)
    simp [want, Config.fields, get?_append', get?_opt, get?_optN, PyDict.get?, this]
  have e5 : want (c.fields load pos) "end" (readBody (readArg n)) = .ok (if c.end_ = [] then none else some c.end_) := by
    have := b c.end_ hm4 (fun x hx => by simp [Config.exprs, hx]) (pos.sub 2)
    by_cases hb : c.end_ = [] <;> simp [want, Config.fields, get?_append', get?_opt, get?_optN, PyDict.get?, hb, this]
  have e6 : want (c.fields load pos) "fcns" (readFcns (readArg n)) = .ok (if c.fcns = [] then none else some c.fcns) := by
    have : readFcns (readArg n) (.dict (printN node (pos.sub 3) c.fcns)) = .ok c.fcns := by
      rw [readFcns, entries_printN (fun kv hk => ne_at_of_function (h.fcns kv hk).1), if_pos (printN_all _ _ fun kv hk => (h.fcns kv hk).1)]
      have := mapR_printN (f := node) (g := readFcnDef (readArg n)) (h := id) c.fcns (pos.sub 3) (fun kv hk pos =>
        readFcnDef_node (hf kv hk) (List.all_eq_true.1 hm5 kv hk) (h.fcns kv hk).2 pos)
      simpa using this
    by_cases hb : c.fcns = [] <;> simp [want, Config.fields, get?_append', get?_opt, get?_optN, PyDict.get?, hb, this]
  have e7 : want (c.fields load pos) "merge" (readBody (readArg n)) = .ok c.merge := by
    cases hme : c.merge with
    | none => simp [want, Config.fields, get?_append', get?_opt, get?_optN, PyDict.get?, hme]
    | some m =>
      have := b m (by simpa [hme] using hm6) (fun x hx => by simp [Config.exprs, hme, hx]) (pos.sub 6)
      simp [want, Config.fields, get?_append', get?_opt, get?_optN, PyDict.get?, hme, this]
  have e8 : want (c.fields load pos) "cells" readCells = .ok (if c.cells = [] then none else some c.cells) := by
    have : readCells (.dict (printN (CellDef.node load) (pos.sub 4) c.cells)) = .ok c.cells := by
      rw [readCells, entries_printN (fun kv hk => ne_at_of_symbol (h.cells kv hk).1), if_pos (printN_all _ _ fun kv hk => (h.cells kv hk).1)]
      have := mapR_printN (f := CellDef.node load) (g := readCell) (h := id) c.cells (pos.sub 4) (fun kv hk pos =>
        readCell_node (h.cells kv hk).2 (he kv hk) load pos)
      simpa using this
    by_cases hb : c.cells = [] <;> simp [want, Config.fields, get?_append', get?_opt, get?_optN, PyDict.get?, hb, this]
  have e9 : want (c.fields load pos) "pools" readPools = .ok (if c.pools = [] then none else some c.pools) := by
    have : readPools (.dict (printN PoolDef.node (pos.sub 5) c.pools)) = .ok c.pools := by
      rw [readPools, entries_printN (fun kv hk => ne_at_of_symbol (h.pools kv hk).1), if_pos (printN_all _ _ fun kv hk => (h.pools kv hk).1)]
      have := mapR_printN (f := PoolDef.node) (g := readPool) (h := id) c.pools (pos.sub 5) (fun kv hk pos =>
        readPool_node (h.pools kv hk).2 pos)
      simpa using this
    by_cases hb : c.pools = [] <;> simp [want, Config.fields, get?_append', get?_opt, get?_optN, PyDict.get?, hb, this]
  have e10 : want (c.fields load pos) "randseed" (readInt (2 ^ 63)) = .ok c.randseed := by
    cases hr : c.randseed with
    | none => simp [want, Config.fields, get?_append', get?_opt, get?_optN, PyDict.get?, hr]
    | some v => simp [want, Config.fields, get?_append', get?_opt, get?_optN, PyDict.get?, hr, readInt_val (h.randseed v hr), -Int.reducePow]
  have e11 : want (c.fields load pos) "doc" readString = .ok c.doc := by
    cases hr : c.doc <;> simp [want, Config.fields, get?_append', get?_opt, get?_optN, PyDict.get?, hr, readString]
  have e12 : want (c.fields load pos) "version" (readInt (2 ^ 31)) = .ok c.version := by
    cases hr : c.version with
    | none => simp [want, Config.fields, get?_append', get?_opt, get?_optN, PyDict.get?, hr]
    | some v => simp [want, Config.fields, get?_append', get?_opt, get?_optN, PyDict.get?, hr, readInt_val (h.version v hr), -Int.reducePow]
  have e13 : want (c.fields load pos) "metadata" (readMap readString) = .ok (if c.metadata = [] then none else some c.metadata) := by
    have : readMap readString (.dict (c.metadata.map (fun kv => (kv.1, .str kv.2)))) = .ok c.metadata := by
      rw [readMap, entries_eq (keys_ne fun kv hk => by obtain ⟨a, ha, rfl⟩ := List.mem_map.1 hk; exact h.metadata a ha)]
      have := mapR_map (f := fun kv : String × Val => Res.app (kv.1, ·) (readString kv.2)) (g := fun kv : String × String => (kv.1, Val.str kv.2))
        (h := id) c.metadata (fun kv hk => by simp [readString])
      simpa using this
    by_cases hb : c.metadata = [] <;> simp [want, Config.fields, get?_append', get?_opt, get?_optN, PyDict.get?, hb, this]
  have e14 : want (c.fields load pos) "options" readOptions = .ok (if c.options = [] then none else some c.options) := by
    by_cases hb : c.options = [] <;> simp [want, Config.fields, get?_append', get?_opt, get?_optN, PyDict.get?, hb, readOptions, h.options]
  have e15 : PyDict.get? (c.fields load pos) "input" = some c.input := by simp [Config.fields, get?_append', PyDict.get?]
  have e16 : PyDict.get? (c.fields load pos) "output" = some c.output := by simp [Config.fields, get?_append', PyDict.get?]
  have e17 : PyDict.get? (c.fields load pos) "zero" = c.zero := by
    cases hr : c.zero <;> simp [Config.fields, get?_append', get?_opt, get?_optN, PyDict.get?, hr]
  have e18 : c.zero.map strip = c.zero := by
    cases hr : c.zero with
    | none => rfl
    | some v => simp [h.zero v hr]
  have e19 : (c.fields load pos).all (fun kv => decide (kv.1 ∈ configKeys)) = true :=
    List.all_eq_true.2 fun kv hk => by simpa using fields_keys kv hk
  have e20 : atOk (start (pos []) ++ c.fields load pos) = true := by
    have : PyDict.get? (c.fields load pos) "@" = none := by
      cases hg : PyDict.get? (c.fields load pos) "@" with
      | none => rfl
      | some v => exact absurd (fields_keys _ (get?_mem hg)) (by simp only; decide)
    cases hp : pos [] <;> simp [atOk, start, PyDict.get?, this]
  have gd : ∀ {α : Type} (l : List α) [Decidable (l = [])], (if l = [] then none else some l : Option (List α)).getD [] = l := by
    intro α l _; by_cases hl : l = [] <;> simp [hl]
  rw [Config.node, readConfig, entries_start, entries_eq hkeys]
  simp only [e1, e2, e3, e4, e5, e6, e7, e8, e9, e10, e11, e12, e13, e14, e15, e16, e17, e18, e19, e20, bind, Except.bind, gd, Option.getD_some, h.input, h.output,
    if_true, Bool.true_and]
  rw [if_pos h.made]

/-! ## What the reader returns -/

theorem want_ok {α : Type} {d : List (String × Val)} {k : String} {f : Val → Res α} {o : Option α} (h : want d k f = .ok o) {P : α → Prop}
    (hP : ∀ v a, f v = .ok a → P a) : ∀ a, o = some a → P a := by
  intro a ha
  unfold want at h
  cases hg : PyDict.get? d k with
  | none => rw [hg] at h; injection h with h; rw [← h] at ha; cases ha
  | some v =>
    rw [hg] at h
    obtain ⟨b, hb, rfl⟩ := app_ok_iff h
    injection ha with ha
    exact ha ▸ hP v b hb

theorem getD_ok {α : Type} {o : Option (List α)} {P : α → Prop} (h : ∀ l, o = some l → ∀ x ∈ l, P x) : ∀ x ∈ o.getD [], P x := by
  cases o with
  | none => simp
  | some l => exact h l rfl

theorem readFcnDef_ok {rec : Val → Res X} (ih : ∀ v e, rec v = .ok e → isArg e = true ∧ Back e) {v : Val} {x : X}
    (h : readFcnDef rec v = .ok x) : isFcn x = true ∧ Back x := by
  cases v <;> first | (cases h; done) | skip
  rename_i d
  simp only [readFcnDef] at h
  by_cases hk : (entries d).all (fun kv => decide (kv.1 ∈ ["params", "ret", "do"])) = true
  · rw [if_pos hk] at h
    cases hp : want (entries d) "params" (readList readParam) with
    | error e => rw [hp] at h; cases h
    | ok p =>
      rw [hp] at h
      cases hb : want (entries d) "do" (readBody rec) with
      | error e => rw [hb] at h; cases h
      | ok b =>
        rw [hb] at h
        match p, PyDict.get? (entries d) "ret", b, hp, hb, h with
        | some p, some r, some b, hp, hb, h =>
          obtain ⟨hm, rfl⟩ := mk_ok h
          refine ⟨rfl, Back.intro hm ?_ ?_⟩
          · have := want_ok hp (P := fun ps => ∀ q ∈ ps, validSymbol q.1 = true ∧ strip q.2 = q.2)
              (fun v a hv => readList_ok hv (fun _ _ => readParam_ok)) p rfl
            simp only [back, plain, Bool.and_eq_true, decide_eq_true_eq, List.all_eq_true, strip_strip, and_true]
            exact this
          · have := want_ok hb (P := fun l => ∀ x ∈ l, Back x) (fun v a hv => readBody_ok ih hv) b rfl
            intro c hc
            cases hc with
            | fcnDef hc => exact this c hc
  · rw [if_neg hk] at h; cases h

/-- The entries of an object whose names are checked. -/
theorem named_ok {α : Type} {p : String → Bool} {f : Val → Res α} {P : α → Prop} {d : List (String × Val)} {m : List (String × α)}
    (h : (if (entries d).all (fun kv => p kv.1) then mapR (fun kv => Res.app (kv.1, ·) (f kv.2)) (entries d) else .error syn) = Except.ok m)
    (hP : ∀ v a, f v = .ok a → P a) : ∀ kv ∈ m, p kv.1 = true ∧ P kv.2 := by
  by_cases hk : (entries d).all (fun kv => p kv.1) = true
  · rw [if_pos hk] at h
    refine mapR_ok h (fun kv hkv y hy => ?_)
    obtain ⟨a, ha, rfl⟩ := app_ok_iff hy
    exact ⟨List.all_eq_true.1 hk kv hkv, hP _ _ ha⟩
  · rw [if_neg hk] at h; cases h

theorem readSource_ok {s : String} {v : Val} {i : Init} (hv : strip v = v) (h : readSource s v = .ok i) :
    (s = "embedded" ∧ ∃ v, strip v = v ∧ i = .text v) ∨ ((s = "avro" ∨ s = "json") ∧ ∃ u, i = .load s u) := by
  unfold readSource at h
  by_cases h1 : s = "avro" ∨ s = "json"
  · rw [if_pos h1] at h
    cases v <;> first | (cases h; done) | skip
    injection h with h
    exact .inr ⟨h1, _, h.symm⟩
  · rw [if_neg h1] at h
    by_cases h2 : s = "embedded"
    · rw [if_pos h2] at h; injection h with h; exact .inl ⟨h2, v, hv, h.symm⟩
    · rw [if_neg h2] at h; cases h

theorem readCell_ok {v : Val} {c : CellDef} (h : readCell v = .ok c) : c.Fine := by
  cases v <;> first | (cases h; done) | skip
  rename_i d
  simp only [readCell] at h
  by_cases hk : (entries d).all (fun kv => decide (kv.1 ∈ ["type", "init", "shared", "rollback", "source"])) = true
  · rw [if_pos hk] at h
    cases h1 : want (entries d) "shared" readBool with
    | error e => rw [h1] at h; cases h
    | ok sh =>
      rw [h1] at h
      cases h2 : want (entries d) "rollback" readBool with
      | error e => rw [h2] at h; cases h
      | ok ro =>
        rw [h2] at h
        cases h3 : want (entries d) "source" readString with
        | error e => rw [h3] at h; cases h
        | ok so =>
          rw [h3] at h
          cases h4 : PyDict.get? (entries d) "type" with
          | none => rw [h4] at h; cases h
          | some t =>
            rw [h4] at h
            cases h5 : PyDict.get? (entries d) "init" with
            | none => rw [h5] at h; cases h
            | some i =>
              rw [h5] at h
              simp only at h
              cases h6 : readSource (so.getD "embedded") (strip i) with
              | error e => rw [h6] at h; cases h
              | ok i' =>
                rw [h6] at h
                simp only [mkCell] at h
                by_cases h7 : (sh.getD false && ro.getD false) = true
                · rw [if_pos h7] at h; cases h
                · rw [if_neg h7] at h
                  injection h with h
                  subst h
                  exact ⟨strip_strip _, by simpa using h7, readSource_ok (strip_strip _) h6⟩
  · rw [if_neg hk] at h; cases h

theorem readPool_ok {v : Val} {c : PoolDef} (h : readPool v = .ok c) : c.Fine := by
  cases v <;> first | (cases h; done) | skip
  rename_i d
  simp only [readPool] at h
  cases h0 : want (entries d) "init" (readMap readJson) with
  | error e => rw [h0] at h; cases h
  | ok i =>
    rw [h0] at h
    cases h1 : want (entries d) "shared" readBool with
    | error e => rw [h1] at h; cases h
    | ok sh =>
      rw [h1] at h
      cases h2 : want (entries d) "rollback" readBool with
      | error e => rw [h2] at h; cases h
      | ok ro =>
        rw [h2] at h
        cases h3 : want (entries d) "source" readString with
        | error e => rw [h3] at h; cases h
        | ok so =>
          rw [h3] at h
          simp only at h
          by_cases hk : (entries d).all (fun kv => decide (kv.1 ∈ ["type", "init", "shared", "rollback", "source"])) = true
          · rw [if_pos hk] at h
            cases h4 : PyDict.get? (entries d) "type" with
            | none => rw [h4] at h; cases h
            | some t =>
              rw [h4] at h
              simp only at h
              by_cases h5 : so.getD "embedded" = "avro" ∨ so.getD "embedded" = "json"
              · rw [if_pos h5] at h; cases h
              · rw [if_neg h5] at h
                by_cases h6 : so.getD "embedded" = "embedded"
                · rw [if_pos h6] at h
                  simp only [mkPool] at h
                  by_cases h7 : (sh.getD false && ro.getD false) = true
                  · rw [if_pos h7] at h; cases h
                  · rw [if_neg h7] at h
                    injection h with h
                    subst h
                    refine ⟨strip_strip _, by simpa using h7, ?_, h6⟩
                    exact getD_ok (want_ok h0 (fun v a hv => readMap_ok (P := fun w => strip w = w) hv (fun u b hu => by
                      injection hu with hu; rw [← hu]; exact strip_strip u)))
                · rw [if_neg h6] at h; cases h
          · rw [if_neg hk] at h; cases h

theorem bind_ok {α β : Type} {r : Res α} {f : α → Res β} {b : β} (h : (r >>= f) = .ok b) : ∃ a, r = .ok a ∧ f a = .ok b := by
  cases r with
  | error e => cases h
  | ok a => exact ⟨a, rfl, h⟩

theorem if_ok {α : Type} {b : Bool} {x y : α} {e : Err} (h : (if b = true then Except.ok x else .error e : Res α) = .ok y) : b = true ∧ x = y := by
  cases b with
  | false => cases h
  | true => injection h with h; exact ⟨rfl, h⟩

/-- What is read could be constructed and can be printed, apart from the values of LiteralInt and the sources of cells. -/
theorem config_fine {rec : Val → Res X} (ih : ∀ v e, rec v = .ok e → isArg e = true ∧ Back e) {fresh : String} {v : Val} {c : Config}
    (h : readConfig rec fresh v = .ok c) : c.Fine Back := by
  cases v <;> first | (cases h; done) | skip
  rename_i d
  simp only [readConfig] at h
  obtain ⟨name, h1, h⟩ := bind_ok h
  obtain ⟨method, h2, h⟩ := bind_ok h
  obtain ⟨begin_, h3, h⟩ := bind_ok h
  obtain ⟨action, h4, h⟩ := bind_ok h
  obtain ⟨end_, h5, h⟩ := bind_ok h
  obtain ⟨fcns, h6, h⟩ := bind_ok h
  obtain ⟨merge, h7, h⟩ := bind_ok h
  obtain ⟨cells, h8, h⟩ := bind_ok h
  obtain ⟨pools, h9, h⟩ := bind_ok h
  obtain ⟨randseed, h10, h⟩ := bind_ok h
  obtain ⟨doc, h11, h⟩ := bind_ok h
  obtain ⟨version, h12, h⟩ := bind_ok h
  obtain ⟨metadata, h13, h⟩ := bind_ok h
  obtain ⟨options, h14, h⟩ := bind_ok h
  by_cases hk : (entries d).all (fun kv => decide (kv.1 ∈ configKeys)) = true
  · rw [if_pos hk] at h
    cases hi : PyDict.get? (entries d) "input" with
    | none => rw [hi] at h; cases h
    | some i =>
    rw [hi] at h
    cases ho : PyDict.get? (entries d) "output" with
    | none => rw [ho] at h; cases h
    | some o =>
    rw [ho] at h
    cases action with
    | none => cases h
    | some a =>
      simp only at h
      · obtain ⟨hm, h⟩ := if_ok h
        have hb := fun v l (hv : readBody rec v = .ok l) => readBody_ok ih hv
        subst h
        simp only [Bool.and_eq_true] at hm
        constructor
        · exact hm.2
        · intro x hx
          simp only [Config.exprs, List.mem_append] at hx
          obtain ((hx | hx) | hx) | hx := hx
          · exact getD_ok (want_ok h3 hb) x hx
          · exact want_ok h4 hb a rfl x hx
          · exact getD_ok (want_ok h5 hb) x hx
          · exact getD_ok (want_ok h7 hb) x hx
        · exact getD_ok (want_ok h6 (P := fun l => ∀ kv ∈ l, validFunction kv.1 = true ∧ Back kv.2) fun v l hv => by
            cases v <;> first | (cases hv; done) | skip
            exact named_ok hv (fun v a hv => (readFcnDef_ok ih hv).2))
        · exact strip_strip _
        · exact strip_strip _
        · intro v hv
          obtain ⟨w, _, rfl⟩ := Option.map_eq_some_iff.1 hv
          exact strip_strip w
        · exact getD_ok (want_ok h8 (P := fun l => ∀ kv ∈ l, validSymbol kv.1 = true ∧ kv.2.Fine) fun v l hv => by
            cases v <;> first | (cases hv; done) | skip
            exact named_ok hv (fun v a hv => readCell_ok hv))
        · exact getD_ok (want_ok h9 (P := fun l => ∀ kv ∈ l, validSymbol kv.1 = true ∧ kv.2.Fine) fun v l hv => by
            cases v <;> first | (cases hv; done) | skip
            exact named_ok hv (fun v a hv => readPool_ok hv))
        · exact want_ok h10 (fun v w hv => readInt_ok hv)
        · exact want_ok h12 (fun v w hv => readInt_ok hv)
        · exact getD_ok (want_ok h13 (fun v m hv kv hkv => (readMap_ok (P := fun _ => True) hv (fun _ _ _ => trivial) kv hkv).1))
        · have := want_ok h14 (P := fun l => stripD l = l) fun v l hv => by
            cases v <;> first | (cases hv; done) | skip
            injection hv with hv; rw [← hv]; exact stripD_stripD _
          cases options with
          | none => rfl
          | some l => exact this l rfl
  · rw [if_neg hk] at h; cases h

theorem Plain.of_back {e : X} (hb : Back e) (hi : ∀ w, Part (.litInt w) e → ∃ i : Int, w = .int i ∧ -2 ^ 31 ≤ i ∧ i ≤ 2 ^ 31 - 1) : Plain e := by
  refine fun x hx => ⟨(hb x hx).1, ?_⟩
  have h2 := (hb x hx).2
  cases x <;> try exact h2
  obtain ⟨i, rfl, h⟩ := hi _ hx
  simpa [plain] using h

theorem Config.Fine.mono {P Q : X → Prop} {c : Config} (h : c.Fine P) (h1 : ∀ x ∈ c.exprs, P x → Q x) (h2 : ∀ kv ∈ c.fcns, P kv.2 → Q kv.2) :
    c.Fine Q :=
  { h with
    exprs := fun x hx => h1 x hx (h.exprs x hx)
    fcns := fun kv hk => ⟨(h.fcns kv hk).1, h2 kv hk (h.fcns kv hk).2⟩ }

/-- Nodes that occur in the configuration. -/
def Config.Has (c : Config) (x : X) : Prop := (∃ e ∈ c.exprs, Part x e) ∨ ∃ kv ∈ c.fcns, Part x kv.2

/-- **C81, for what was read.** Printing a configuration that was read and reading it again gives the same configuration, if every LiteralInt holds a
number of 32 bits and all cells are embedded.  The name stays the same, whatever name the second reading would have made up. -/
theorem config_read_print_read_partial {n m : Nat} {v : Val} {c : Config} {fresh fresh' : String} (h : readConfig (readArg n) fresh v = .ok c)
    (hi : ∀ w, c.Has (.litInt w) → ∃ i : Int, w = .int i ∧ -2 ^ 31 ≤ i ∧ i ≤ 2 ^ 31 - 1) (he : c.Embedded)
    (hd : ∀ x ∈ c.exprs, Deep m x) (hf : ∀ kv ∈ c.fcns, Deep (m + 1) kv.2) (load : String → String → Val) (pos : Pos) :
    readConfig (readArg m) fresh' (c.node load pos) = .ok c := by
  have hb := config_fine (read_back n) h
  refine config_print_read (hb.mono (fun x hx hx' => Plain.of_back hx' fun w hw => hi w (.inl ⟨x, hx, hw⟩))
    (fun kv hk hx' => Plain.of_back hx' fun w hw => hi w (.inr ⟨kv, hk, hw⟩))) he hd hf load pos fresh'

/-- A limit on the nesting that is large enough exists. -/
theorem config_depth (c : Config) : ∃ m, (∀ x ∈ c.exprs, Deep m x) ∧ ∀ kv ∈ c.fcns, Deep (m + 1) kv.2 := by
  have up : ∀ {k m : Nat} {x : X}, Deep k x → k ≤ m → Deep m x := by
    intro k m x h hk
    induction hk with
    | refl => exact h
    | step _ ih => exact ih.succ
  have ex : ∀ xs : List X, ∃ m, ∀ x ∈ xs, Deep m x := by
    intro xs
    induction xs with
    | nil => exact ⟨0, by simp⟩
    | cons x xs ih =>
      obtain ⟨m, hm⟩ := ih
      refine ⟨max (sizeOf x + 1) m, ?_⟩
      intro y hy
      rcases List.mem_cons.1 hy with rfl | hy
      · exact up (deep_size (sizeOf y + 1) y (Nat.lt_succ_self _)) (le_max_left _ _)
      · exact up (hm y hy) (le_max_right _ _)
  obtain ⟨m, hm⟩ := ex (c.exprs ++ c.fcns.map (·.2))
  exact ⟨m, fun x hx => hm x (by simp [hx]), fun kv hk => (hm kv.2 (by simp only [List.mem_append, List.mem_map]; exact .inr ⟨kv, hk, rfl⟩)).succ⟩

/-- What is accepted: `zero` and `merge` occur in fold engines and only there, some action is given, and no cell or pool is both shared and rolled back. -/
theorem config_consistent {rec : Val → Res X} (ih : ∀ v e, rec v = .ok e → isArg e = true ∧ Back e) {fresh : String} {v : Val} {c : Config}
    (h : readConfig rec fresh v = .ok c) : c.action ≠ [] ∧ (c.zero.isSome ↔ c.method = "fold") ∧ (c.merge.isSome ↔ c.method = "fold") ∧
      (∀ m, c.merge = some m → m ≠ []) ∧ (∀ kv ∈ c.cells, ¬ (kv.2.shared = true ∧ kv.2.rollback = true)) ∧
      ∀ kv ∈ c.pools, ¬ (kv.2.shared = true ∧ kv.2.rollback = true) := by
  have hf := config_fine ih h
  have hm := hf.made
  simp only [Config.made, Bool.and_eq_true] at hm
  obtain ⟨⟨⟨⟨⟨⟨⟨⟨⟨hm1, hm2⟩, hm3⟩, hm4⟩, hm5⟩, hm6⟩, hm7⟩, hm8⟩, hm9⟩, hm10⟩ := hm
  refine ⟨by simpa using hm7, ?_, ?_, fun m e => by simpa [e] using hm10, fun kv hk => (hf.cells kv hk).2.flags, fun kv hk => (hf.pools kv hk).2.flags⟩
  · by_cases hfo : c.method = "fold"
    · simp only [hfo, decide_true, Bool.true_and] at hm8
      cases hz : c.zero <;> simp_all
    · simp only [hfo, decide_false, Bool.not_false, Bool.true_and] at hm9
      cases hz : c.zero <;> simp_all
  · by_cases hfo : c.method = "fold"
    · simp only [hfo, decide_true, Bool.true_and] at hm8
      cases hz : c.merge <;> simp_all
    · simp only [hfo, decide_false, Bool.not_false, Bool.true_and] at hm9
      cases hz : c.merge <;> simp_all

/-- A key that is not one of the seventeen is refused. -/
theorem config_unknown_key {rec : Val → Res X} {fresh : String} {d : List (String × Val)} {k : String} {w : Val} (h : (k, w) ∈ d) (h1 : k ≠ "@")
    (h2 : k ∉ configKeys) (c : Config) : readConfig rec fresh (.dict d) ≠ .ok c := by
  have hm := h
  clear h
  intro h
  simp only [readConfig] at h
  iterate 14 obtain ⟨_, _, h⟩ := bind_ok h
  have hk : ¬ (entries d).all (fun kv => decide (kv.1 ∈ configKeys)) = true := fun ha => by
    have := List.all_eq_true.1 ha (k, w) (List.mem_filter.2 ⟨hm, by simpa using h1⟩)
    exact h2 (by simpa using this)
  rw [if_neg hk] at h; cases h

/-! ## Errors -/

/-- A function definition whose parameters are objects with valid names and whose body is tame. -/
def tameFcn : Val → Bool
  | .dict d => (entries d).all (fun kv => if kv.1 = "params" then tameKind .params kv.2 else if kv.1 = "do" then tame kv.2 else true)
  | _ => false

/-- A pool that is an object and is not loaded from elsewhere. -/
def tamePool : Val → Bool
  | .dict d => decide (PyDict.get? (entries d) "source" ≠ some (.str "avro")) && decide (PyDict.get? (entries d) "source" ≠ some (.str "json"))
  | _ => false

/-- An object all of whose values satisfy `p`. -/
def objectOf (p : Val → Bool) : Val → Bool
  | .dict d => (entries d).all (fun kv => p kv.2)
  | _ => false

/-- The condition for one key of a configuration. -/
def tameField (k : String) (v : Val) : Bool :=
  if k ∈ ["begin", "action", "end", "merge"] then tame v
  else if k = "fcns" then objectOf tameFcn v
  else if k = "cells" then isDict v
  else if k = "pools" then !isDict v || objectOf tamePool v
  else true

/-- The condition for a configuration. -/
def tameConfig : Val → Bool
  | .dict d => (entries d).all (fun kv => tameField kv.1 kv.2)
  | _ => false

theorem want_err {α : Type} {d : List (String × Val)} {k : String} {f : Val → Res α} {e : Err} (h : want d k f = .error e)
    (hP : ∀ v, (k, v) ∈ d → ∀ e, f v = .error e → Syn e) : Syn e := by
  unfold want at h
  cases hg : PyDict.get? d k with
  | none => rw [hg] at h; cases h
  | some v => rw [hg] at h; exact hP v (get?_mem hg) e (app_err h)

theorem bind_err {α β : Type} {r : Res α} {f : α → Res β} {e : Err} (h : (r >>= f) = .error e) (h1 : ∀ e, r = .error e → Syn e)
    (h2 : ∀ a, r = .ok a → f a = .error e → Syn e) : Syn e := by
  cases r with
  | error e' => injection h with h; exact h ▸ h1 e' rfl
  | ok a => exact h2 a rfl h

theorem syn_err {α : Type} {e : Err} (h : (Except.error syn : Res α) = .error e) : Syn e := by injection h with h; exact .inl h.symm

theorem readString_err {v : Val} {e : Err} (h : readString v = .error e) : Syn e := by
  cases v <;> first | (exact syn_err h) | (cases h; done)

theorem readBool_err {v : Val} {e : Err} (h : readBool v = .error e) : Syn e := by
  cases v <;> first | (exact syn_err h) | (cases h; done)

theorem named_err {α : Type} {p : String → Bool} {f : Val → Res α} {d : List (String × Val)} {e : Err}
    (h : (if (entries d).all (fun kv => p kv.1) then mapR (fun kv => Res.app (kv.1, ·) (f kv.2)) (entries d) else .error syn) = Except.error e)
    (hP : ∀ kv ∈ entries d, ∀ e, f kv.2 = .error e → Syn e) : Syn e := by
  by_cases hk : (entries d).all (fun kv => p kv.1) = true
  · rw [if_pos hk] at h
    exact mapR_err h (fun kv hkv e he => hP kv hkv e (app_err he))
  · rw [if_neg hk] at h; exact syn_err h

section
variable {rec : Val → Res X} (ih : ∀ v, tame v = true → ∀ e, rec v = .error e → Syn e)
include ih

theorem readFcnDef_err {v : Val} (ht : tameFcn v = true) {e : Err} (h : readFcnDef rec v = .error e) : Syn e := by
  cases v <;> first | (cases ht; done) | skip
  rename_i d
  simp only [tameFcn, List.all_eq_true] at ht
  simp only [readFcnDef] at h
  by_cases hk : (entries d).all (fun kv => decide (kv.1 ∈ ["params", "ret", "do"])) = true
  · rw [if_pos hk] at h
    cases hp : want (entries d) "params" (readList readParam) with
    | error e' =>
      rw [hp] at h
      injection h with h; subst h
      refine want_err hp (fun v hv e he => readList_err he (fun xs hx x hxs e2 he2 => ?_))
      have := ht _ hv
      subst hx
      simp only [if_true, tameKind, List.all_eq_true] at this
      exact readParam_err (this x hxs) he2
    | ok p =>
      rw [hp] at h
      cases hb : want (entries d) "do" (readBody rec) with
      | error e' =>
        rw [hb] at h
        injection h with h; subst h
        exact want_err hb (fun v hv e he => readBody_err ih (by simpa using ht _ hv) he)
      | ok b =>
        rw [hb] at h
        simp only at h
        cases p with
        | none => exact syn_err h
        | some p =>
          cases hr : PyDict.get? (entries d) "ret" with
          | none => rw [hr] at h; exact syn_err h
          | some r =>
            rw [hr] at h
            cases b with
            | none => exact syn_err h
            | some b => exact mk_err h
  · rw [if_neg hk] at h; exact syn_err h
end

theorem readCell_err {v : Val} {e : Err} (h : readCell v = .error e) : Syn e := by
  cases v <;> first | (exact syn_err h) | skip
  rename_i d
  simp only [readCell] at h
  by_cases hk : (entries d).all (fun kv => decide (kv.1 ∈ ["type", "init", "shared", "rollback", "source"])) = true
  · rw [if_pos hk] at h
    cases h1 : want (entries d) "shared" readBool with
    | error e' => rw [h1] at h; injection h with h; exact h ▸ want_err h1 (fun _ _ _ => readBool_err)
    | ok sh =>
      rw [h1] at h
      cases h2 : want (entries d) "rollback" readBool with
      | error e' => rw [h2] at h; injection h with h; exact h ▸ want_err h2 (fun _ _ _ => readBool_err)
      | ok ro =>
        rw [h2] at h
        cases h3 : want (entries d) "source" readString with
        | error e' => rw [h3] at h; injection h with h; exact h ▸ want_err h3 (fun _ _ _ => readString_err)
        | ok so =>
          rw [h3] at h
          cases h4 : PyDict.get? (entries d) "type" with
          | none => rw [h4] at h; exact syn_err h
          | some t =>
            rw [h4] at h
            cases h5 : PyDict.get? (entries d) "init" with
            | none => rw [h5] at h; exact syn_err h
            | some i =>
              rw [h5] at h
              simp only at h
              cases h6 : readSource (so.getD "embedded") (strip i) with
              | error e' =>
                rw [h6] at h; injection h with h; subst h
                unfold readSource at h6
                by_cases h7 : so.getD "embedded" = "avro" ∨ so.getD "embedded" = "json"
                · rw [if_pos h7] at h6
                  cases hs : strip i <;> rw [hs] at h6 <;> first | (exact syn_err h6) | (cases h6; done)
                · rw [if_neg h7] at h6
                  by_cases h8 : so.getD "embedded" = "embedded"
                  · rw [if_pos h8] at h6; cases h6
                  · rw [if_neg h8] at h6; exact syn_err h6
              | ok i' =>
                rw [h6] at h
                simp only [mkCell] at h
                by_cases h7 : (sh.getD false && ro.getD false) = true
                · rw [if_pos h7] at h; exact syn_err h
                · rw [if_neg h7] at h; cases h
  · rw [if_neg hk] at h; exact syn_err h

theorem readPool_err {v : Val} (ht : tamePool v = true) {e : Err} (h : readPool v = .error e) : Syn e := by
  cases v <;> first | (cases ht; done) | skip
  rename_i d
  simp only [tamePool, Bool.and_eq_true, decide_eq_true_eq] at ht
  simp only [readPool] at h
  cases h0 : want (entries d) "init" (readMap readJson) with
  | error e' =>
    rw [h0] at h; injection h with h; subst h
    refine want_err h0 (fun v _ e he => ?_)
    cases v <;> first | (exact syn_err he) | skip
    exact mapR_err he (fun kv _ e he => by cases app_err he)
  | ok i =>
    rw [h0] at h
    cases h1 : want (entries d) "shared" readBool with
    | error e' => rw [h1] at h; injection h with h; exact h ▸ want_err h1 (fun _ _ _ => readBool_err)
    | ok sh =>
      rw [h1] at h
      cases h2 : want (entries d) "rollback" readBool with
      | error e' => rw [h2] at h; injection h with h; exact h ▸ want_err h2 (fun _ _ _ => readBool_err)
      | ok ro =>
        rw [h2] at h
        cases h3 : want (entries d) "source" readString with
        | error e' => rw [h3] at h; injection h with h; exact h ▸ want_err h3 (fun _ _ _ => readString_err)
        | ok so =>
          rw [h3] at h
          simp only at h
          by_cases hk : (entries d).all (fun kv => decide (kv.1 ∈ ["type", "init", "shared", "rollback", "source"])) = true
          · rw [if_pos hk] at h
            cases h4 : PyDict.get? (entries d) "type" with
            | none => rw [h4] at h; exact syn_err h
            | some t =>
              rw [h4] at h
              simp only at h
              have h5 : ¬ (so.getD "embedded" = "avro" ∨ so.getD "embedded" = "json") := by
                unfold want at h3
                cases hg : PyDict.get? (entries d) "source" with
                | none => rw [hg] at h3; injection h3 with h3; subst h3; decide
                | some w =>
                  rw [hg] at h3 ht
                  cases w <;> first | (cases h3; done) | skip
                  injection h3 with h3; subst h3
                  rename_i s
                  rintro (hs | hs)
                  · exact ht.1 (by rw [show s = "avro" from hs])
                  · exact ht.2 (by rw [show s = "json" from hs])
              rw [if_neg h5] at h
              by_cases h6 : so.getD "embedded" = "embedded"
              · rw [if_pos h6] at h
                simp only [mkPool] at h
                by_cases h7 : (sh.getD false && ro.getD false) = true
                · rw [if_pos h7] at h; exact syn_err h
                · rw [if_neg h7] at h; cases h
              · rw [if_neg h6] at h; exact syn_err h
          · rw [if_neg hk] at h; exact syn_err h

/-- **C81, errors.** A configuration that satisfies the condition is read, or refused with PFASyntaxException (or nested too deeply). -/
theorem config_errors_partial {n : Nat} {fresh : String} {v : Val} (ht : tameConfig v = true) {e : Err}
    (h : readConfig (readArg n) fresh v = .error e) : e = syn ∨ e = recErr := by
  cases v <;> first | (cases ht; done) | skip
  rename_i d
  simp only [tameConfig, List.all_eq_true] at ht
  have ih : ∀ v, tame v = true → ∀ e, readArg n v = .error e → Syn e := read_errors_partial n
  have body : ∀ k, k ∈ ["begin", "action", "end", "merge"] → ∀ e, want (entries d) k (readBody (readArg n)) = .error e → Syn e := by
    intro k hk e he
    refine want_err he (fun v hv e he => readBody_err ih ?_ he)
    have := ht _ hv
    simpa only [tameField, if_pos hk] using this
  show Syn e
  simp only [readConfig] at h
  refine bind_err h (fun e he => want_err he (fun _ _ _ => readString_err)) fun name _ h => ?_
  refine bind_err h (fun e he => want_err he (fun v _ e he => ?_)) fun method _ h => ?_
  · unfold readMethod at he
    cases hs : readString v with
    | error e' => rw [hs] at he; injection he with he; exact he ▸ readString_err hs
    | ok s =>
      rw [hs] at he
      simp only at he
      by_cases h1 : s = "map" ∨ s = "emit" ∨ s = "fold"
      · rw [if_pos h1] at he; cases he
      · rw [if_neg h1] at he; exact syn_err he
  refine bind_err h (body "begin" (by decide)) fun begin_ _ h => ?_
  refine bind_err h (body "action" (by decide)) fun action _ h => ?_
  refine bind_err h (body "end" (by decide)) fun end_ _ h => ?_
  refine bind_err h (fun e he => want_err he (fun v hv e he => ?_)) fun fcns _ h => ?_
  · have := ht _ hv
    simp only [tameField, if_neg (show "fcns" ∉ ["begin", "action", "end", "merge"] by decide), if_true] at this
    cases v <;> first | (cases this; done) | skip
    exact named_err he (fun kv hkv e he => readFcnDef_err ih (List.all_eq_true.1 this kv hkv) he)
  refine bind_err h (body "merge" (by decide)) fun merge _ h => ?_
  refine bind_err h (fun e he => want_err he (fun v hv e he => ?_)) fun cells _ h => ?_
  · have := ht _ hv
    simp only [tameField, if_neg (show "cells" ∉ ["begin", "action", "end", "merge"] by decide), if_neg (show "cells" ≠ "fcns" by decide), if_true] at this
    cases v <;> first | (cases this; done) | skip
    exact named_err he (fun kv hkv e he => readCell_err he)
  refine bind_err h (fun e he => want_err he (fun v hv e he => ?_)) fun pools _ h => ?_
  · have := ht _ hv
    simp only [tameField, if_neg (show "pools" ∉ ["begin", "action", "end", "merge"] by decide), if_neg (show "pools" ≠ "fcns" by decide),
      if_neg (show "pools" ≠ "cells" by decide), if_true] at this
    cases v <;> first | (exact syn_err he) | skip
    exact named_err he (fun kv hkv e he => readPool_err (List.all_eq_true.1 (show (entries _).all (fun kv => tamePool kv.2) = true from by simpa [isDict, objectOf] using this) kv hkv) he)
  refine bind_err h (fun e he => want_err he (fun _ _ _ => readInt_err)) fun randseed _ h => ?_
  refine bind_err h (fun e he => want_err he (fun _ _ _ => readString_err)) fun doc _ h => ?_
  refine bind_err h (fun e he => want_err he (fun _ _ _ => readInt_err)) fun version _ h => ?_
  refine bind_err h (fun e he => want_err he (fun v _ e he => ?_)) fun metadata _ h => ?_
  · cases v <;> first | (exact syn_err he) | skip
    exact mapR_err he (fun kv _ e he => readString_err (app_err he))
  refine bind_err h (fun e he => want_err he (fun v _ e he => ?_)) fun options _ h => ?_
  · cases v <;> first | (exact syn_err he) | (cases he; done)
  by_cases hk : (entries d).all (fun kv => decide (kv.1 ∈ configKeys)) = true
  · rw [if_pos hk] at h
    cases hi : PyDict.get? (entries d) "input" with
    | none => rw [hi] at h; exact syn_err h
    | some i =>
    rw [hi] at h
    cases ho : PyDict.get? (entries d) "output" with
    | none => rw [ho] at h; exact syn_err h
    | some o =>
    rw [ho] at h
    cases action with
    | none => exact syn_err h
    | some a =>
      simp only at h
      split at h
      · cases h
      · exact syn_err h
  · rw [if_neg hk] at h; exact syn_err h

/-! ## Where it fails -/

/-- Anything but an object is an AttributeError instead of the intended PFASyntaxException. -/
theorem config_not_object_violation (rec : Val → Res X) (fresh : String) {v : Val} (h : isDict v = false) :
    readConfig rec fresh v = .error (.py "AttributeError") := by cases v <;> first | rfl | cases h

/-- So are functions and cells that are not objects, and pools with a value that is not: UnboundLocalError. -/
theorem config_parts_violation (rec : Val → Res X) {v : Val} (h : isDict v = false) :
    readFcns rec v = .error unbound ∧ readFcnDef rec v = .error unbound ∧ readCells v = .error unbound ∧ readPool v = .error unbound := by
  cases v <;> first | exact ⟨rfl, rfl, rfl, rfl⟩ | cases h

/-- No pool can be loaded from elsewhere, although the reader has code for it: whatever the file, a TypeError. -/
theorem pool_source_violation (t : Val) (s : String) (hs : s = "avro" ∨ s = "json") (m : List (String × Val)) :
    readPool (.dict [("type", t), ("init", .dict m), ("source", .str s)]) = .error (.py "TypeError") := by
  have hm : ∀ l : List (String × Val), mapR (fun kv => Res.app (kv.1, ·) (readJson kv.2)) l = .ok (l.map fun kv => (kv.1, strip kv.2)) := by
    intro l
    have := mapR_map (f := fun kv : String × Val => Res.app (kv.1, ·) (readJson kv.2)) (g := id) (h := fun kv => (kv.1, strip kv.2)) l
      (fun kv _ => by simp [readJson])
    simpa using this
  rw [readPool, entries_eq (by simp [PyDict.keys])]
  simp [want, PyDict.get?, readString, readMap, hm, hs]

/-- A cell that is loaded from elsewhere is printed with its content under `init` and its source under `source`; so reading what was printed fails,
unless the content happens to be a string, which is then taken for a URL. -/
theorem cell_source_violation {s u : String} (hs : s = "avro" ∨ s = "json") (t : Val) (load : String → String → Val) (pos : Pos)
    (hl : ∀ w, strip (load s u) ≠ .str w) :
    readCell (.dict [("type", t), ("init", .str u), ("source", .str s)]) = .ok ⟨strip t, .load s u, false, false, s⟩ ∧
    readCell (CellDef.node load pos ⟨strip t, .load s u, false, false, s⟩) = .error syn := by
  have hne : s ≠ "embedded" := by rcases hs with rfl | rfl <;> decide
  constructor
  · rw [readCell, entries_eq (by simp [PyDict.keys])]
    simp [want, PyDict.get?, readString, strip, readSource, hs, mkCell]
  · have hr : readSource s (strip (load s u)) = .error syn := by
      unfold readSource
      rw [if_pos hs]
      cases hv : strip (load s u) <;> first | rfl | exact absurd hv (hl _)
    rw [CellDef.node, readCell, entries_start, entries_eq (by simp [PyDict.keys, opt, hne])]
    simp [want, PyDict.get?, opt, hne, readBool, readString, Init.json, hr]

/-! ## Example -/

/-- A folding engine with a function, a cell, a pool, metadata and options; positions inside types and data are removed. -/
def exampleJson : Val := .dict
  [("@", .str "line 1"), ("method", .str "fold"), ("input", .str "int"), ("output", .dict [("@", .str "line 2"), ("type", .str "int")]),
   ("action", .str "input"), ("zero", .int 0), ("merge", .arr [.str "tallyOne"]),
   ("fcns", .dict [("f", .dict [("params", .arr [.dict [("x", .str "int")]]), ("ret", .str "int"), ("do", .str "x")])]),
   ("cells", .dict [("c", .dict [("type", .str "int"), ("init", .int 12), ("shared", .bool true)])]),
   ("pools", .dict [("p", .dict [("type", .str "int")])]),
   ("randseed", .int 12345), ("version", .int 3), ("metadata", .dict [("author", .str "me")]), ("options", .dict [("timeout", .int 1000)])]

def exampleConfig : Config :=
  { name := "Engine_1", method := "fold", input := .str "int", output := .dict [("type", .str "int")], begin_ := [], action := [.ref "input"], end_ := [],
    fcns := [("f", .fcnDef [("x", .str "int")] (.str "int") [.ref "x"])], zero := some (.int 0), merge := some [.ref "tallyOne"],
    cells := [("c", ⟨.str "int", .text (.int 12), true, false, "embedded"⟩)], pools := [("p", ⟨.str "int", [], false, false, "embedded"⟩)],
    randseed := some (.int 12345), doc := none, version := some (.int 3), metadata := [("author", "me")], options := [("timeout", .int 1000)] }

theorem read_example : readConfig (readArg 2) "Engine_1" exampleJson = .ok exampleConfig := by
  have h1 : ∀ s ∈ ["input", "tallyOne", "x"], readArg 2 (.str s) = .ok (.ref s) := by
    intro s hs
    have : '.' ∉ s.toList ∧ validSymbol s = true := by
      simp only [List.mem_cons, List.not_mem_nil, or_false] at hs
      rcases hs with rfl | rfl | rfl <;> decide +kernel
    simp [readArg, readStep, readRef, this.1, this.2, mk, made]
  have h2 : validFunction "f" = true := by decide +kernel
  have h3 : validSymbol "c" = true := by decide +kernel
  have h4 : validSymbol "p" = true := by decide +kernel
  have h5 : validSymbol "x" = true := by decide +kernel
  simp [exampleJson, exampleConfig, readConfig, entries, want, PyDict.get?, readString, readMethod, readBody, readExpr, h1, h2, h3, h4, h5, isExpr, mapR,
    readFcns, readFcnDef, readList, readParam, strip, stripD, mk, made, readCells, readCell, readBool, readSource, mkCell, readPools, readPool, mkPool,
    readInt, readMap, readOptions, configKeys, atOk, Config.made, isFcn, bind, Except.bind]

/-- The hypotheses of the theorems hold for the example. -/
theorem example_ok : exampleConfig.Fine Back ∧ exampleConfig.Embedded ∧ tameConfig exampleJson = true := by
  refine ⟨config_fine (read_back 2) read_example, ?_, ?_⟩
  · simp [Config.Embedded, exampleConfig]
  · simp [tameConfig, exampleJson, entries, tameField, tame, objectOf, tameFcn, paramObject, isDict, tamePool, PyDict.get?, tameL]
    decide +kernel

/-- The written pool names its source exactly if that is not the document itself. -/
theorem pool_node_source (pos : Pos) (c : PoolDef) : ∃ fields, c.node pos = .dict fields ∧
    PyDict.get? fields "source" = if c.source = "embedded" then none else some (.str c.source) := by
  refine ⟨_, rfl, ?_⟩
  by_cases h : c.source = "embedded" <;> cases hp : pos [] <;> simp [h, opt, start, PyDict.get?]

end Verif.Reader
