import Verif.Chain.Check
import Verif.Chain.Names
/-!
# Chaining of engines: the document (C83, C84)

`document` puts the parts of the engines together as `ast` does.  Engines have no `begin` and no `end` here, and the
chain has no version.
-/

namespace Verif.Chain
open Avro Scope Path Sig Ast Lang

/-! ## One engine -/

/-- The function table of an engine (pfaast.py 358-409, 897-903): library functions, `emit`, user-defined functions. -/
def stepFuns (s : Step) : List (String × Fun) :=
  (if s.method = .emit then [("emit", .lib [emitSig s.output])] else []) ++ s.fcns.map (fun f => ("u." ++ f.1, .user f.2.params f.2.ret f.2.body))

/-- The engine on its own.  `base` has the library functions and the types. -/
def stepProg (base : Prog) (s : Step) : Prog :=
  { base with cells := PyDict.update [] s.cells, pools := PyDict.update [] s.pools, funs := PyDict.update base.funs (stepFuns s) }

/-- The configuration of the engine on its own. -/
def stepCfg (s : Step) : Config :=
  { method := s.method, input := s.input, output := s.output, version := none, begin_ := s.begin_, action := s.action, end_ := s.end_, merge := none }

/-! ## The chain -/

/-- What happens to the names of engine `i` (451-515); `next` is the name of the next action (441-445). -/
def renOf (i : Nat) (s : Step) (new : NameMap) (next : Option String) : Ren where
  cell := prefixCell i s.name
  pool := prefixCell i s.name
  fcn := prefixFcnRef i s.name
  type := rename new
  emit := if s.method = .emit then next else none

/-- `"u." + prefixAction(i, pfa)` -/
def actionName (i : Nat) (s : Step) : String := "u." ++ prefixAction i s.name

/-- An engine with the new names of its types. -/
abbrev Part := Step × NameMap

/-- `nextActionFcnName` (441-445) -/
def nextName (i : Nat) : List Part → Option String
  | [] => none
  | p :: _ => some (actionName (i + 1) p.1)

/-- The body of the function for the action in a chain with the method `method` (559-580). -/
def body (method : Method) (s : Step) (R : Ren) (next : Option String) : List Ex :=
  match method with
  | .emit => match s.method with
    | .emit => chainL R spNames s.action ++ [.litNull]
    | _ => match next with
      | some nx => [.call nx [.do_ (chainL R spNames s.action)], .litNull]
      | none => [.call "emit" [.do_ (chainL R spNames s.action)]]
  | _ => chainL R spNames s.action

/-- The functions of the engine in the chain (563-590).  The parameters of the functions of the engine are placeholders
(`fcnDef.paramsPlaceholder`, 587), which `rename` prints as they are (384). -/
def partFuns (method : Method) (i : Nat) (p : Part) (next : Option String) : List (String × Fun) :=
  let R := renOf i p.1 p.2 next
  (actionName i p.1, .user [("input", R.type p.1.input)] (match method with | .emit => .null | _ => R.type p.1.output) (body method p.1 R next)) ::
    p.1.fcns.map (fun f => ("u." ++ prefixFcnDef i p.1.name f.1, .user f.2.params (R.type f.2.ret) (chainL R [] f.2.body)))

/-- All functions, from engine `i` on. -/
def funsFrom (method : Method) : Nat → List Part → List (String × Fun)
  | _, [] => []
  | i, p :: rest => partFuns method i p (nextName i rest) ++ funsFrom method (i + 1) rest

/-- All cells, from engine `i` on (592-604). -/
def cellsFrom (get : Step → List (String × AType)) : Nat → List Part → List (String × AType)
  | _, [] => []
  | i, p :: rest => (get p.1).map (fun c => (prefixCell i p.1.name c.1, rename p.2 c.2)) ++ cellsFrom get (i + 1) rest

/-- The cells that `ast` adds (414-418). -/
def spCells : List (String × AType) := spNames.map (fun x => (x, spType x))

/-- The method of the chain (396-401): `fold` engines are refused before. -/
def chainMethod (ps : List Part) : Method := if ps.any (fun p => decide (p.1.method = .emit)) then .emit else .map

/-- The output of the last engine. -/
def lastOut : AType → List Part → AType
  | t, [] => t
  | _, p :: rest => lastOut p.1.output rest

/-- The function `emit` of the chain. -/
def hostFuns (ps : List Part) : List (String × Fun) :=
  match chainMethod ps with
  | .emit => [("emit", .lib [emitSig (lastOut .null ps)])]
  | _ => []

/-- The document: cells, pools and functions (392-618, 638-655). -/
def document (base : Prog) (ps : List Part) : Prog :=
  { base with
    cells := PyDict.update [] (spCells ++ cellsFrom Step.cells 0 ps)
    pools := PyDict.update [] (cellsFrom Step.pools 0 ps)
    funs := PyDict.update base.funs (hostFuns ps ++ funsFrom (chainMethod ps) 0 ps) }

/-- The calls in the action of a map chain (565-568). -/
def nestFrom : Nat → List Part → Ex → Ex
  | _, [], e => e
  | i, p :: rest, e => nestFrom (i + 1) rest (.call (actionName i p.1) [e])

/-- The configuration of the document. -/
def docCfg (p : Part) (rest : List Part) : Config :=
  chainCfg (chainMethod (p :: rest)) p.1.input (lastOut .null (p :: rest))
    (match chainMethod (p :: rest) with
      | .emit => .call (actionName 0 p.1) [.ref "input"]
      | _ => nestFrom 0 (p :: rest) (.ref "input"))

/-! ## Dictionaries -/

section
variable {V : Type}

theorem upd_mem {d l : PyDict String V} {k : String} {v : V} (h : PyDict.get? (PyDict.update d l) k = some v) :
    (k, v) ∈ l ∨ (PyDict.get? d k = some v ∧ k ∉ l.map Prod.fst) := by
  rw [Scope.get?_update] at h
  cases hr : PyDict.get? l.reverse k with
  | some u =>
    rw [hr] at h
    cases h
    exact .inl (List.mem_reverse.1 (PyDict.mem_of_get? hr))
  | none =>
    rw [hr] at h
    refine .inr ⟨h, fun hk => ?_⟩
    have : k ∈ l.reverse.map Prod.fst := by rw [List.map_reverse]; exact List.mem_reverse.2 hk
    exact (PyDict.get?_eq_none_iff _ _).1 hr this

theorem upd_of_mem {d l : PyDict String V} (hn : (l.map Prod.fst).Nodup) {k : String} {v : V} (h : (k, v) ∈ l) : PyDict.get? (PyDict.update d l) k = some v := by
  rw [Scope.get?_update, Scope.get?_reverse hn, PyDict.get?_of_mem hn h]

theorem upd_not {d l : PyDict String V} {k : String} (h : k ∉ l.map Prod.fst) : PyDict.get? (PyDict.update d l) k = PyDict.get? d k := by
  rw [Scope.get?_update]
  have : PyDict.get? l.reverse k = none := (PyDict.get?_eq_none_iff _ _).2 (by rw [PyDict.keys, List.map_reverse]; exact fun hk => h (List.mem_reverse.1 hk))
  rw [this]

end


/-! ## Names in the document -/

theorem cells_key {get : Step → List (String × AType)} : ∀ {ps : List Part} {i : Nat} {k : String}, k ∈ (cellsFrom get i ps).map Prod.fst → ∃ j e x, i ≤ j ∧ k = prefixCell j e x
  | [], _, _, h => by cases h
  | p :: ps, i, k, h => by
    rw [cellsFrom, List.map_append, List.mem_append] at h
    rcases h with h | h
    · rw [List.map_map] at h
      obtain ⟨c, -, rfl⟩ := List.mem_map.1 h
      exact ⟨i, p.1.name, c.1, Nat.le_refl _, rfl⟩
    · obtain ⟨j, e, x, h1, h2⟩ := cells_key h
      exact ⟨j, e, x, by omega, h2⟩

theorem cells_nodup {get : Step → List (String × AType)} : ∀ {ps : List Part} {i : Nat}, (∀ p ∈ ps, ((get p.1).map Prod.fst).Nodup) → ((cellsFrom get i ps).map Prod.fst).Nodup
  | [], _, _ => List.nodup_nil
  | p :: ps, i, h => by
    rw [cellsFrom, List.map_append, List.nodup_append]
    refine ⟨?_, cells_nodup (fun q hq => h q (List.mem_cons_of_mem _ hq)), ?_⟩
    · have h1 := h p (List.mem_cons_self ..)
      rw [List.map_map]
      have h2 : (Prod.fst ∘ fun c : String × AType => (prefixCell i p.1.name c.1, rename p.2 c.2)) = prefixCell i p.1.name ∘ Prod.fst := rfl
      rw [h2, ← List.map_map]
      exact List.Nodup.map (fun x y hxy => (prefixCell_inj hxy).2 rfl) h1
    · intro a ha b hb hab
      subst hab
      rw [List.map_map] at ha
      obtain ⟨c, -, rfl⟩ := List.mem_map.1 ha
      obtain ⟨j, e, x, h1, h2⟩ := cells_key hb
      have := (prefixCell_inj h2).1
      omega

theorem spCells_keys : spCells.map Prod.fst = spNames := rfl

theorem cell_not_special (i : Nat) (e x : String) : prefixCell i e x ∉ spNames := by
  intro h
  refine prefixCell_special i e x ?_
  simp only [spNames, List.mem_cons, List.not_mem_nil, or_false] at h ⊢
  rcases h with h | h | h | h | h <;> simp [h]

theorem docCells_nodup {ps : List Part} (h : ∀ p ∈ ps, (p.1.cells.map Prod.fst).Nodup) : ((spCells ++ cellsFrom Step.cells 0 ps).map Prod.fst).Nodup := by
  rw [List.map_append, List.nodup_append, spCells_keys]
  refine ⟨by decide +kernel, cells_nodup h, ?_⟩
  intro a ha b hb hab
  subst hab
  obtain ⟨j, e, x, -, rfl⟩ := cells_key hb
  exact cell_not_special j e x ha

theorem u_inj {a b : String} (h : "u." ++ a = "u." ++ b) : a = b := by
  have := congrArg String.toList h
  rw [String.toList_append, String.toList_append] at this
  exact String.ext (List.append_cancel_left this)

/-- The names of the functions of engine `i`. -/
def Named (i : Nat) (k : String) : Prop := ∃ e, k = "u." ++ prefixAction i e ∨ ∃ x, k = "u." ++ prefixFcnDef i e x

theorem part_named {method : Method} {i : Nat} {p : Part} {nx : Option String} {k : String} (h : k ∈ (partFuns method i p nx).map Prod.fst) : Named i k := by
  unfold partFuns at h
  simp only [List.map_cons, List.mem_cons, List.map_map] at h
  rcases h with rfl | h
  · exact ⟨_, .inl rfl⟩
  · obtain ⟨f, -, rfl⟩ := List.mem_map.1 h
    exact ⟨_, .inr ⟨_, rfl⟩⟩

theorem named_ne {i j : Nat} (hij : i ≠ j) {k : String} (h1 : Named i k) (h2 : Named j k) : False := by
  obtain ⟨e, h1⟩ := h1
  obtain ⟨e', h2⟩ := h2
  rcases h1 with rfl | ⟨x, rfl⟩
  · rcases h2 with h2 | ⟨y, h2⟩
    · exact hij (prefixAction_inj (u_inj h2))
    · exact action_ne_fcn (fun h => absurd h hij) (u_inj h2)
  · rcases h2 with h2 | ⟨y, h2⟩
    · exact action_ne_fcn (fun h => absurd h.symm hij) (u_inj h2).symm
    · exact hij (prefixFcnDef_inj (u_inj h2)).1

theorem funs_named {method : Method} : ∀ {ps : List Part} {i : Nat} {k : String}, k ∈ (funsFrom method i ps).map Prod.fst → ∃ j, i ≤ j ∧ Named j k
  | [], _, _, h => by cases h
  | p :: ps, i, k, h => by
    rw [funsFrom, List.map_append, List.mem_append] at h
    rcases h with h | h
    · exact ⟨i, Nat.le_refl _, part_named h⟩
    · obtain ⟨j, h1, h2⟩ := funs_named h
      exact ⟨j, by omega, h2⟩

theorem part_nodup {method : Method} {i : Nat} {p : Part} {nx : Option String} (h : (p.1.fcns.map Prod.fst).Nodup) : ((partFuns method i p nx).map Prod.fst).Nodup := by
  unfold partFuns
  simp only [List.map_cons, List.map_map, List.nodup_cons]
  constructor
  · intro hm
    obtain ⟨f, -, hf⟩ := List.mem_map.1 hm
    exact action_ne_fcn (fun _ => rfl) (u_inj hf).symm
  · have h2 : (Prod.fst ∘ fun f : String × FDef => ("u." ++ prefixFcnDef i p.1.name f.1,
        Fun.user f.2.params ((renOf i p.1 p.2 nx).type f.2.ret) (chainL (renOf i p.1 p.2 nx) [] f.2.body))) =
        (fun x => "u." ++ prefixFcnDef i p.1.name x) ∘ Prod.fst := rfl
    rw [h2, ← List.map_map]
    exact List.Nodup.map (fun x y hxy => (prefixFcnDef_inj (u_inj hxy)).2 rfl) h

theorem funs_nodup {method : Method} : ∀ {ps : List Part} {i : Nat}, (∀ p ∈ ps, (p.1.fcns.map Prod.fst).Nodup) → ((funsFrom method i ps).map Prod.fst).Nodup
  | [], _, _ => List.nodup_nil
  | p :: ps, i, h => by
    rw [funsFrom, List.map_append, List.nodup_append]
    refine ⟨part_nodup (h p (List.mem_cons_self ..)), funs_nodup (fun q hq => h q (List.mem_cons_of_mem _ hq)), ?_⟩
    intro a ha b hb hab
    subst hab
    obtain ⟨j, h1, h2⟩ := funs_named hb
    exact named_ne (by omega) (part_named ha) h2

theorem named_user {i : Nat} {k : String} (h : Named i k) : (userName k).isSome ∧ k ≠ "emit" := by
  have h1 : ∃ f, k = "u." ++ f := by
    obtain ⟨e, rfl | ⟨x, rfl⟩⟩ := h
    · exact ⟨_, rfl⟩
    · exact ⟨_, rfl⟩
  obtain ⟨f, rfl⟩ := h1
  refine ⟨by rw [userName_u]; rfl, fun h2 => ?_⟩
  have h3 := userName_u f
  rw [h2] at h3
  exact absurd h3 (by rw [show userName "emit" = none by decide +kernel]; simp)

theorem host_key {ps : List Part} {k : String} (h : k ∈ (hostFuns ps).map Prod.fst) : k = "emit" := by
  unfold hostFuns at h
  split at h
  · simpa using h
  · cases h

theorem docFuns_nodup {ps : List Part} (h : ∀ p ∈ ps, (p.1.fcns.map Prod.fst).Nodup) :
    ((hostFuns ps ++ funsFrom (chainMethod ps) 0 ps).map Prod.fst).Nodup := by
  rw [List.map_append, List.nodup_append]
  refine ⟨?_, funs_nodup h, ?_⟩
  · unfold hostFuns
    split
    · simp
    · exact List.nodup_nil
  · intro a ha b hb hab
    subst hab
    rw [host_key ha] at hb
    obtain ⟨j, -, h2⟩ := funs_named hb
    exact (named_user h2).2 rfl

end Verif.Chain
