import Verif.Pretty.Doc
import Verif.Pretty.Limits

/-!
# Engine configurations that PrettyPFA documents can say

`sections c` are sections that say the configuration `c`, and `document_sections_partial` that they are understood as `c`.
-/

namespace Verif.Pretty
open Avro Ast Reader

/-! ## The sections of a configuration -/

/-- A section for an optional part. -/
def optSec {α : Type} (k : String) (f : α → Content) : Option α → List (String × Content)
  | none => []
  | some a => [(k, f a)]

/-- Expressions. -/
def exprList (es : List X) : Content := .list ((minis es).map .mini)

/-- A function. -/
def fcnObj (kv : String × X) : Obj := match kv.2 with
  | .fcnDef ps r b => .fcn kv.1 (ps.map fun p => (p.1, typeMini p.2)) (typeMini r) (minis b)
  | x => .mini (mini x)

/-- A cell. -/
def cellObj (kv : String × CellDef) : Obj := .cell kv.1 (typeMini kv.2.type) (match kv.2.init with | .text v => jsonMini v | .load _ _ => .dotName "") kv.2.shared kv.2.rollback kv.2.source

/-- A pool. -/
def poolObj (kv : String × PoolDef) : Obj := .cell kv.1 (typeMini kv.2.type) (jsonMini (.dict kv.2.init)) kv.2.shared kv.2.rollback kv.2.source

/-- Strings as JSON. -/
def strVals (d : List (String × String)) : Val := .dict (d.map fun kv => (kv.1, .str kv.2))

/-- Sections that are always there. -/
def fixedSecs (c : Config) : List (String × Content) :=
  [("name", .one (.dotName c.name)), ("method", .one (.dotName c.method)), ("input", .one (typeMini c.input)), ("output", .one (typeMini c.output)),
   ("begin", exprList c.begin_), ("action", exprList c.action), ("end", exprList c.end_), ("fcns", .list (c.fcns.map fcnObj)),
   ("cells", .list (c.cells.map cellObj)), ("pools", .list (c.pools.map poolObj)), ("metadata", .one (jsonMini (strVals c.metadata))),
   ("options", .one (jsonMini (.dict c.options)))]

/-- The sections of a configuration. -/
def sections (c : Config) : List (String × Content) :=
  fixedSecs c ++ (optSec "zero" (fun v => .one (jsonMini v)) c.zero ++ (optSec "merge" exprList c.merge ++ (optSec "randseed" (fun v => .one (.number v)) c.randseed ++
    (optSec "doc" (fun s => .one (.string s)) c.doc ++ optSec "version" (fun v => .one (.number v)) c.version))))

/-- The state in which the expressions of a configuration are read. -/
def stOf (st : St) (c : Config) : St :=
  { st with functionNames := st.functionNames ++ c.fcns.map fun kv => "u." ++ kv.1, cellNames := PyDict.keys c.cells, poolNames := PyDict.keys c.pools }

/-- Configurations that can be said: the constructor of EngineConfig accepts them, types and expressions can be written, initial values are given as JSON, and numbers
are integers. -/
structure SayDoc (st : St) (c : Config) : Prop where
  made : c.made = true
  input : GoodT st c.input
  output : GoodT st c.output
  exprs : ∀ e, e ∈ c.begin_ ∨ e ∈ c.action ∨ e ∈ c.end_ ∨ (∃ m, c.merge = some m ∧ e ∈ m) → Say (stOf st c) e
  fcns : PyDict.WF c.fcns ∧ ∀ kv ∈ c.fcns, Say (stOf st c) kv.2
  cells : PyDict.WF c.cells ∧ ∀ kv ∈ c.cells, GoodT st kv.2.type ∧ (∃ v, kv.2.init = .text v ∧ GoodJ v) ∧ (kv.2.shared && kv.2.rollback) = false
  pools : PyDict.WF c.pools ∧ ∀ kv ∈ c.pools, GoodT st kv.2.type ∧ GoodJ (.dict kv.2.init) ∧ (kv.2.shared && kv.2.rollback) = false
  zero : ∀ v, c.zero = some v → GoodJ v
  randseed : ∀ v, c.randseed = some v → ∃ i, v = .int i
  version : ∀ v, c.version = some v → ∃ i, v = .int i
  metadata : PyDict.WF c.metadata
  options : GoodJ (.dict c.options)

/-! ## Finding sections -/

theorem get?_opt_other {α : Type} {k k' : String} {f : α → Content} {o : Option α} {d : List (String × Content)} (h : k ≠ k') :
    PyDict.get? (optSec k f o ++ d) k' = PyDict.get? d k' := by
  cases o with
  | none => rfl
  | some a => simp [optSec, PyDict.get?, h]

theorem get?_opt_same {α : Type} {k : String} {f : α → Content} {o : Option α} {d : List (String × Content)} (h : PyDict.get? d k = none) :
    PyDict.get? (optSec k f o ++ d) k = o.map f := by
  cases o with
  | none => exact h
  | some a => simp [optSec, PyDict.get?]

theorem get?_opt_last {α : Type} {k k' : String} {f : α → Content} {o : Option α} : PyDict.get? (optSec k f o) k' = if k = k' then o.map f else none := by
  cases o with
  | none => simp [optSec, PyDict.get?]
  | some a => simp [optSec, PyDict.get?]

theorem then_ok {α β : Type} (a : α) (f : α → Res β) : andThen (.ok a) f = f a := rfl

theorem given_none {α : Type} {d : List (String × Content)} {k : String} {f : Content → Res α} (h : PyDict.get? d k = none) : given d k f = .ok none := by
  simp [given, h]

theorem given_some {α : Type} {d : List (String × Content)} {k : String} {f : Content → Res α} {c : Content} {a : α} (h : PyDict.get? d k = some c) (ha : f c = .ok a) :
    given d k f = .ok (some a) := by
  simp [given, h, ha, andThen]

theorem given_opt {α β : Type} {d : List (String × Content)} {k : String} {f : Content → Res α} {g : β → Content} {o : Option β} {w : β → α} (h : PyDict.get? d k = o.map g)
    (ha : ∀ b, o = some b → f (g b) = .ok (w b)) : given d k f = .ok (o.map w) := by
  cases o with
  | none => exact given_none h
  | some b => exact given_some h (ha b rfl)

/-! ## What the sections mean -/

theorem exprs_back {st : St} {es : List X} (h : ∀ e ∈ es, Say st e) : exprsSec st (exprList es) = .ok es := by
  show seq (((minis es).map Obj.mini).map (Obj.asExpr st)) = .ok es
  rw [List.map_map, minis_eq, List.map_map]
  have := seq_ok (f := (Obj.asExpr st ∘ Obj.mini) ∘ mini) (g := id) (l := es) fun e he => asExpr_mini_partial (h e he)
  simpa using this

theorem asDict_of {α : Type} {l : List (String × α)} {r : Res (List (String × α))} (h : PyDict.WF l) (hr : r = .ok l) : (andThen r fun d => .ok (asDict d)) = .ok l := by
  rw [hr]; simp [andThen, asDict_wf h]

theorem fcns_back {st : St} {l : List (String × X)} (hw : PyDict.WF l) (hf : ∀ kv ∈ l, Reader.isFcn kv.2 = true) (h : ∀ kv ∈ l, Say st kv.2) :
    fcnsSec st (.list (l.map fcnObj)) = .ok l := by
  refine asDict_of hw ?_
  rw [List.map_map]
  have := seq_ok (f := Obj.asFcn st ∘ fcnObj) (g := id) (l := l) fun kv hkv => by
    obtain ⟨k, x⟩ := kv
    have h1 := hf _ hkv
    have h2 := asExpr_mini_partial (h _ hkv)
    cases x <;> first | cases h1 | skip
    simp only [Function.comp, fcnObj, Obj.asFcn, id]
    simp only [mini] at h2
    rw [h2]; rfl
  simpa using this

theorem names_back {l : List (String × X)} (hf : ∀ kv ∈ l, Reader.isFcn kv.2 = true) : fcnNames (.list (l.map fcnObj)) = .ok (l.map fun kv => "u." ++ kv.1) := by
  show Except.ok _ = _
  congr 1
  induction l with
  | nil => rfl
  | cons kv l ih =>
    obtain ⟨k, x⟩ := kv
    have h1 := hf (k, x) (by simp)
    cases x <;> first | cases h1 | skip
    simpa [fcnObj] using ih fun kv h => hf kv (by simp [h])

theorem cells_back {st : St} {l : List (String × CellDef)} (hw : PyDict.WF l)
    (h : ∀ kv ∈ l, GoodT st kv.2.type ∧ (∃ v, kv.2.init = .text v ∧ GoodJ v) ∧ (kv.2.shared && kv.2.rollback) = false) : cellsSec st (.list (l.map cellObj)) = .ok l := by
  refine asDict_of hw ?_
  rw [List.map_map]
  have := seq_ok (f := Obj.asCell st ∘ cellObj) (g := id) (l := l) fun kv hkv => by
    obtain ⟨k, t, i, sh, ro, so⟩ := kv
    obtain ⟨h1, ⟨v, rfl, h2⟩, h3⟩ := h _ hkv
    simp only at h1 h3
    simp [cellObj, Obj.asCell, type_back h1, json_back h2, andThen, mkCell, h3]
  simpa using this

theorem pools_back {st : St} {l : List (String × PoolDef)} (hw : PyDict.WF l)
    (h : ∀ kv ∈ l, GoodT st kv.2.type ∧ GoodJ (.dict kv.2.init) ∧ (kv.2.shared && kv.2.rollback) = false) : poolsSec st (.list (l.map poolObj)) = .ok l := by
  refine asDict_of hw ?_
  rw [List.map_map]
  have := seq_ok (f := Obj.asPool st ∘ poolObj) (g := id) (l := l) fun kv hkv => by
    obtain ⟨k, t, i, sh, ro, so⟩ := kv
    obtain ⟨h1, h2, h3⟩ := h _ hkv
    simp only at h1 h3
    simp [poolObj, Obj.asPool, type_back h1, json_back h2, andThen, mkPool, h3]
  simpa using this

theorem strDict_back (d : List (String × String)) : strDict (strVals d) = some d := by
  unfold strVals strDict
  simp only
  induction d with
  | nil => rfl
  | cons kv d ih =>
    rw [List.map_cons, List.mapM_cons, ih]
    rfl

theorem strVals_good {d : List (String × String)} (h : PyDict.WF d) : GoodJ (strVals d) := by
  refine .dict ?_ ?_
  · unfold PyDict.WF PyDict.keys at h ⊢
    rw [List.map_map]
    exact h
  · intro kv hkv
    obtain ⟨kv', _, rfl⟩ := List.mem_map.1 hkv
    exact .str _

section
variable {st : St} {c : Config}

theorem json_one {v : Val} (h : GoodJ v) : jsonSec (.one (jsonMini v)) = .ok v := json_back h
theorem type_one {t : Val} (h : GoodT st t) : typeSec st (.one (typeMini t)) = .ok t := type_back h

theorem made_parts (h : c.made = true) : (c.method = "map" ∨ c.method = "emit" ∨ c.method = "fold") ∧ ∀ kv ∈ c.fcns, Reader.isFcn kv.2 = true := by
  simp only [Config.made, Bool.and_eq_true, decide_eq_true_eq, List.all_eq_true] at h
  tauto

/-- **What a configuration's sections say is the configuration.** -/
theorem document_sections_partial (fresh : String) (h : SayDoc st c) : document st fresh (sections c) = .ok c := by
  obtain ⟨hm, hf⟩ := made_parts h.made
  have hst : inside st (some (c.fcns.map fun kv => "u." ++ kv.1)) (some c.cells) (some c.pools) = stOf st c := rfl
  have e1 : given (sections c) "name" nameAttr = .ok (some (some c.name)) := given_some (c := .one (.dotName c.name)) (by simp [sections, fixedSecs, PyDict.get?]) rfl
  have e2 : given (sections c) "method" methodSec = .ok (some c.method) := by
    refine given_some (c := .one (.dotName c.method)) (by simp [sections, fixedSecs, PyDict.get?]) ?_
    show (if c.method = "map" ∨ c.method = "emit" ∨ c.method = "fold" then Except.ok c.method else .error pretty) = _
    rw [if_pos hm]
  have e3 : given (sections c) "types" (fun c => andThen (items c) (typesSec st)) = .ok none := given_none (by
    simp only [sections]
    rw [show ∀ d, PyDict.get? (fixedSecs c ++ d) "types" = PyDict.get? d "types" from fun d => by simp [fixedSecs, PyDict.get?],
      get?_opt_other (by decide), get?_opt_other (by decide), get?_opt_other (by decide), get?_opt_other (by decide), get?_opt_last, if_neg (by decide)])
  have e4 : given (sections c) "input" (typeSec st) = .ok (some c.input) := given_some (c := .one (typeMini c.input)) (by simp [sections, fixedSecs, PyDict.get?]) (type_one h.input)
  have e5 : given (sections c) "output" (typeSec st) = .ok (some c.output) := given_some (c := .one (typeMini c.output)) (by simp [sections, fixedSecs, PyDict.get?]) (type_one h.output)
  have e6 : given (sections c) "cells" (cellsSec st) = .ok (some c.cells) := given_some (c := .list (c.cells.map cellObj)) (by simp [sections, fixedSecs, PyDict.get?]) (cells_back h.cells.1 h.cells.2)
  have e7 : given (sections c) "pools" (poolsSec st) = .ok (some c.pools) := given_some (c := .list (c.pools.map poolObj)) (by simp [sections, fixedSecs, PyDict.get?]) (pools_back h.pools.1 h.pools.2)
  have e8 : given (sections c) "fcns" fcnNames = .ok (some (c.fcns.map fun kv => "u." ++ kv.1)) := given_some (c := .list (c.fcns.map fcnObj)) (by simp [sections, fixedSecs, PyDict.get?]) (names_back hf)
  have b1 : given (sections c) "begin" (exprsSec (stOf st c)) = .ok (some c.begin_) := given_some (c := exprList c.begin_) (by simp [sections, fixedSecs, PyDict.get?]) (exprs_back fun e he => h.exprs e (.inl he))
  have b2 : given (sections c) "action" (exprsSec (stOf st c)) = .ok (some c.action) := given_some (c := exprList c.action) (by simp [sections, fixedSecs, PyDict.get?]) (exprs_back fun e he => h.exprs e (.inr (.inl he)))
  have b3 : given (sections c) "end" (exprsSec (stOf st c)) = .ok (some c.end_) := given_some (c := exprList c.end_) (by simp [sections, fixedSecs, PyDict.get?]) (exprs_back fun e he => h.exprs e (.inr (.inr (.inl he))))
  have b4 : given (sections c) "fcns" (fcnsSec (stOf st c)) = .ok (some c.fcns) := given_some (c := .list (c.fcns.map fcnObj)) (by simp [sections, fixedSecs, PyDict.get?]) (fcns_back h.fcns.1 hf h.fcns.2)
  have b5 : given (sections c) "zero" jsonSec = .ok (c.zero.map id) := by
    refine given_opt (g := fun v => .one (jsonMini v)) ?_ fun v hv => json_one (h.zero v hv)
    simp only [sections]
    rw [show ∀ d, PyDict.get? (fixedSecs c ++ d) "zero" = PyDict.get? d "zero" from fun d => by simp [fixedSecs, PyDict.get?]]
    refine get?_opt_same ?_
    rw [get?_opt_other (by decide), get?_opt_other (by decide), get?_opt_other (by decide), get?_opt_last, if_neg (by decide)]
  have b6 : given (sections c) "merge" (exprsSec (stOf st c)) = .ok (c.merge.map id) := by
    refine given_opt (g := exprList) ?_ fun m hm => exprs_back fun e he => h.exprs e (.inr (.inr (.inr ⟨m, hm, he⟩)))
    simp only [sections]
    rw [show ∀ d, PyDict.get? (fixedSecs c ++ d) "merge" = PyDict.get? d "merge" from fun d => by simp [fixedSecs, PyDict.get?], get?_opt_other (by decide)]
    refine get?_opt_same ?_
    rw [get?_opt_other (by decide), get?_opt_other (by decide), get?_opt_last, if_neg (by decide)]
  have b7 : given (sections c) "randseed" intSec = .ok (c.randseed.map id) := by
    refine given_opt (g := fun v => .one (.number v)) ?_ fun v hv => ?_
    · simp only [sections]
      rw [show ∀ d, PyDict.get? (fixedSecs c ++ d) "randseed" = PyDict.get? d "randseed" from fun d => by simp [fixedSecs, PyDict.get?], get?_opt_other (by decide), get?_opt_other (by decide)]
      refine get?_opt_same ?_
      rw [get?_opt_other (by decide), get?_opt_last, if_neg (by decide)]
    · obtain ⟨i, rfl⟩ := h.randseed v hv; rfl
  have b8 : given (sections c) "doc" textSec = .ok (c.doc.map id) := by
    refine given_opt (g := fun s => .one (.string s)) ?_ fun s _ => rfl
    simp only [sections]
    rw [show ∀ d, PyDict.get? (fixedSecs c ++ d) "doc" = PyDict.get? d "doc" from fun d => by simp [fixedSecs, PyDict.get?], get?_opt_other (by decide), get?_opt_other (by decide), get?_opt_other (by decide)]
    refine get?_opt_same ?_
    rw [get?_opt_last, if_neg (by decide)]
  have b9 : given (sections c) "version" intSec = .ok (c.version.map id) := by
    refine given_opt (g := fun v => .one (.number v)) ?_ fun v hv => ?_
    · simp only [sections]
      rw [show ∀ d, PyDict.get? (fixedSecs c ++ d) "version" = PyDict.get? d "version" from fun d => by simp [fixedSecs, PyDict.get?], get?_opt_other (by decide), get?_opt_other (by decide), get?_opt_other (by decide),
        get?_opt_other (by decide), get?_opt_last, if_pos rfl]
    · obtain ⟨i, rfl⟩ := h.version v hv; rfl
  have b10 : given (sections c) "metadata" jsonSec = .ok (some (strVals c.metadata)) := given_some (c := .one (jsonMini (strVals c.metadata))) (by simp [sections, fixedSecs, PyDict.get?]) (json_one (strVals_good h.metadata))
  have b11 : given (sections c) "options" jsonSec = .ok (some (.dict c.options)) := given_some (c := .one (jsonMini (.dict c.options))) (by simp [sections, fixedSecs, PyDict.get?]) (json_one h.options)
  unfold document
  simp only [e1, e2, e3, then_ok, Option.getD_none, e4, e5, e6, e7, e8, hst, Option.getD_some]
  unfold bodies
  simp only [b1, b2, b3, b4, b5, b6, b7, b8, b9, b10, b11, then_ok, Option.getD_some, Option.map_id, id]
  unfold assemble
  simp only [strDict_back, anyDict, mkConfig]
  rw [if_pos]
  exact h.made

end

end Verif.Pretty
