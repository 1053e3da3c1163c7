import Verif.Chain.Doc
/-!
# Chaining of engines: the document does what the engines do (C84)
-/

namespace Verif.Chain
open Avro Scope Path Sig Ast Lang

/-- The table of library functions: no name starts with `u.`, and `emit` is not among them (pfaast.py 345-409). -/
def BaseOk (base : Prog) : Prop := ∀ n f, base.funs.get? n = some f → (∃ sigs, f = .lib sigs) ∧ userName n = none ∧ n ≠ "emit"

/-- The engines from number `i` on, as nodes. -/
def nodesFrom (base : Prog) (code : Step → Compiled) (d n : Nat) : Nat → List Part → List Node
  | _, [] => []
  | i, p :: rest => { P := stepProg base p.1, cfg := stepCfg p.1, code := code p.1, d, n, R := renOf i p.1 p.2 (nextName i rest), fcn := actionName i p.1 } ::
      nodesFrom base code d n (i + 1) rest

/-- What is asked of one engine: it passes the check on its own, its type names do not change, and it is free of what
`genericReplacer` does not treat (`CleanE`). -/
structure StepOk (base : Prog) (code : Step → Compiled) (d : Nat) (p : Part) (emits : Bool) : Prop where
  method : p.1.method ≠ .fold
  compiled : compile (stepProg base p.1) Guard.all (walk (stepProg base p.1) Guard.all d) (stepCfg p.1) = .ok (code p.1)
  funs : FunsOk (stepProg base p.1) (walk (stepProg base p.1) Guard.all d)
  clean : ∀ R : Ren, R.type = rename p.2 → (R.emit.isSome → emits = true) → CleanL R spNames true p.1.action
  cleanF : ∀ R : Ren, R.type = rename p.2 → (R.emit.isSome → emits = true) → ∀ f ∈ p.1.fcns, CleanE R spNames false (.fcnDef f.2.params f.2.ret f.2.body)
  input : rename p.2 p.1.input = p.1.input
  output : rename p.2 p.1.output = p.1.output
  cells : ∀ c ∈ p.1.cells, rename p.2 c.2 = c.2
  pools : ∀ c ∈ p.1.pools, rename p.2 c.2 = c.2
  cellNames : (p.1.cells.map Prod.fst).Nodup
  poolNames : (p.1.pools.map Prod.fst).Nodup
  fcnNames : (p.1.fcns.map Prod.fst).Nodup

/-- The document has the parts of these engines. -/
structure Has (P' : Prog) (base : Prog) (method : Method) (i : Nat) (ps : List Part) : Prop where
  same : P' = { base with cells := P'.cells, pools := P'.pools, funs := P'.funs }
  special : ∀ x ∈ spNames, P'.cells.get? x = some (spType x)
  lib : ∀ n f, base.funs.get? n = some f → P'.funs.get? n = some f
  cells : ∀ kv ∈ cellsFrom Step.cells i ps, P'.cells.get? kv.1 = some kv.2
  pools : ∀ kv ∈ cellsFrom Step.pools i ps, P'.pools.get? kv.1 = some kv.2
  funs : ∀ kv ∈ funsFrom method i ps, P'.funs.get? kv.1 = some kv.2

variable {P' base : Prog} {code : Step → Compiled} {d n : Nat} {method : Method} {i : Nat} {p : Part} {ps : List Part}

theorem Has.tail (h : Has P' base method i (p :: ps)) : Has P' base method (i + 1) ps :=
  ⟨h.same, h.special, h.lib, fun kv hk => h.cells kv (by rw [cellsFrom]; exact List.mem_append_right _ hk),
    fun kv hk => h.pools kv (by rw [cellsFrom]; exact List.mem_append_right _ hk), fun kv hk => h.funs kv (by rw [funsFrom]; exact List.mem_append_right _ hk)⟩

theorem stepFuns_nodup {s : Step} (h : (s.fcns.map Prod.fst).Nodup) : ((stepFuns s).map Prod.fst).Nodup := by
  unfold stepFuns
  rw [List.map_append, List.nodup_append]
  refine ⟨by split <;> simp, ?_, ?_⟩
  · rw [List.map_map]
    have h2 : (Prod.fst ∘ fun f : String × FDef => ("u." ++ f.1, Fun.user f.2.params f.2.ret f.2.body)) = (fun x => "u." ++ x) ∘ Prod.fst := rfl
    rw [h2, ← List.map_map]
    exact List.Nodup.map (fun x y hxy => u_inj hxy) h
  · intro a ha b hb hab
    subst hab
    rw [List.map_map] at hb
    obtain ⟨f, -, rfl⟩ := List.mem_map.1 hb
    split at ha
    · simp only [List.map_cons, List.map_nil, List.mem_singleton, Function.comp] at ha
      have h3 := userName_u f.1
      rw [ha] at h3
      exact absurd h3 (by rw [show userName "emit" = none by decide +kernel]; simp)
    · cases ha

/-- The user-defined functions of an engine. -/
theorem step_user (hb : BaseOk base) {k : String} {qs r b} (h : (stepProg base p.1).funs.get? k = some (.user qs r b)) :
    ∃ f ∈ p.1.fcns, k = "u." ++ f.1 ∧ qs = f.2.params ∧ r = f.2.ret ∧ b = f.2.body := by
  rcases upd_mem (show PyDict.get? (PyDict.update base.funs (stepFuns p.1)) k = _ from h) with h1 | ⟨h1, -⟩
  · unfold stepFuns at h1
    rw [List.mem_append] at h1
    rcases h1 with h1 | h1
    · split at h1
      · simp only [List.mem_singleton, Prod.mk.injEq] at h1
        exact absurd h1.2 (by simp)
      · cases h1
    · obtain ⟨f, hf, h2⟩ := List.mem_map.1 h1
      cases h2
      exact ⟨f, hf, rfl, rfl, rfl, rfl⟩
  · obtain ⟨⟨sigs, h2⟩, -⟩ := hb _ _ h1
    cases h2

theorem node_ok {emits : Bool} (hb : BaseOk base) (hH : Has P' base method i (p :: ps)) (hs : StepOk base code d p emits)
    (hem : p.1.method = .emit → (nextName i ps).isSome → emits = true) :
    NodeOk P' { P := stepProg base p.1, cfg := stepCfg p.1, code := code p.1, d, n, R := renOf i p.1 p.2 (nextName i ps), fcn := actionName i p.1 } where
  version := rfl
  method := hs.method
  compiled := hs.compiled
  funs := hs.funs
  clean := hs.clean _ rfl (fun h => by
    unfold renOf at h
    simp only at h
    split at h
    · next hm => exact hem hm h
    · cases h)
  same := hH.same
  cells := by
    intro c t h
    rcases upd_mem (show PyDict.get? (PyDict.update [] p.1.cells) c = _ from h) with h1 | ⟨h1, -⟩
    · have := hH.cells (prefixCell i p.1.name c, rename p.2 t) (by rw [cellsFrom]; exact List.mem_append_left _ (List.mem_map.2 ⟨(c, t), h1, rfl⟩))
      rw [hs.cells _ h1] at this
      exact this
    · cases h1
  special := hH.special
  pools := by
    intro c t h
    rcases upd_mem (show PyDict.get? (PyDict.update [] p.1.pools) c = _ from h) with h1 | ⟨h1, -⟩
    · have := hH.pools (prefixCell i p.1.name c, rename p.2 t) (by rw [cellsFrom]; exact List.mem_append_left _ (List.mem_map.2 ⟨(c, t), h1, rfl⟩))
      rw [hs.pools _ h1] at this
      exact this
    · cases h1
  user := by
    intro k qs r b h
    obtain ⟨f, hf, rfl, rfl, rfl, rfl⟩ := step_user hb h
    have hc := hs.cleanF (renOf i p.1 p.2 (nextName i ps)) rfl (fun h => by
      unfold renOf at h
      simp only at h
      split at h
      · next hm => exact hem hm h
      · cases h) f hf
    refine ⟨fun h1 => ?_, hc, ?_⟩
    · have h3 := userName_u f.1
      rw [h1] at h3
      exact absurd h3 (by rw [show userName "emit" = none by decide +kernel]; simp)
    · have h1 := hH.funs ("u." ++ prefixFcnDef i p.1.name f.1, .user f.2.params (rename p.2 f.2.ret) (chainL (renOf i p.1 p.2 (nextName i ps)) [] f.2.body))
        (by
          rw [funsFrom]
          exact List.mem_append_left _ (List.mem_cons_of_mem _ (List.mem_map.2 ⟨f, hf, rfl⟩)))
      rw [CleanE] at hc
      have hr : rename p.2 f.2.ret = f.2.ret := hc.2.1
      rw [hr] at h1
      show P'.funs.get? (prefixFcnRef i p.1.name ("u." ++ f.1)) = _
      rw [prefixFcnRef_u]
      exact h1
  lib := by
    intro k sigs h hk
    rcases upd_mem (show PyDict.get? (PyDict.update base.funs (stepFuns p.1)) k = _ from h) with h1 | ⟨h1, -⟩
    · unfold stepFuns at h1
      rw [List.mem_append] at h1
      rcases h1 with h1 | h1
      · split at h1
        · simp only [List.mem_singleton, Prod.mk.injEq] at h1
          exact absurd h1.1 hk
        · cases h1
      · obtain ⟨f, hf, h2⟩ := List.mem_map.1 h1
        cases h2
    · obtain ⟨-, h2, -⟩ := hb _ _ h1
      exact ⟨prefixFcnRef_lib h2, hH.lib _ _ h1⟩
  emit := by
    show PyDict.get? (PyDict.update base.funs (stepFuns p.1)) "emit" = if p.1.method = .emit then _ else _
    by_cases hm : p.1.method = .emit
    · rw [if_pos hm]
      refine upd_of_mem (stepFuns_nodup hs.fcnNames) ?_
      unfold stepFuns
      rw [if_pos hm]
      exact List.mem_append_left _ (List.mem_singleton.2 rfl)
    · rw [if_neg hm, upd_not, (PyDict.get?_eq_none_iff _ _).2]
      · intro h
        rw [← PyDict.get?_isSome_iff] at h
        obtain ⟨f, hf⟩ := Option.isSome_iff_exists.1 h
        exact (hb _ _ hf).2.2 rfl
      · unfold stepFuns
        rw [if_neg hm, List.nil_append, List.map_map]
        intro h
        obtain ⟨f, -, h2⟩ := List.mem_map.1 h
        have h3 := userName_u f.1
        rw [show "u." ++ f.1 = "emit" from h2] at h3
        exact absurd h3 (by rw [show userName "emit" = none by decide +kernel]; simp)

/-- Each engine takes what the one before gives. -/
def Fits : List Part → Prop
  | [] => True
  | [_] => True
  | p :: q :: rest => q.1.input = p.1.output ∧ Fits (q :: rest)

theorem node_mem {nd : Node} : ∀ {ps : List Part} {i : Nat}, nd ∈ nodesFrom base code d n i ps →
    ∃ (j : Nat) (p : Part) (rest : List Part), i ≤ j ∧ nd = { P := stepProg base p.1, cfg := stepCfg p.1, code := code p.1, d, n, R := renOf j p.1 p.2 (nextName j rest), fcn := actionName j p.1 }
  | [], _, h => by cases h
  | p :: ps, i, h => by
    rw [nodesFrom] at h
    rcases List.mem_cons.1 h with rfl | h
    · exact ⟨i, p, ps, Nat.le_refl _, rfl⟩
    · obtain ⟨j, q, rest, h1, h2⟩ := node_mem h
      exact ⟨j, q, rest, by omega, h2⟩

theorem nodes_apart : ∀ (ps : List Part) (i : Nat), Apart (nodesFrom base code d n i ps)
  | ps, i => by
    refine ⟨?_, ?_, ?_, nodes_pair ps i⟩
    · intro nd hn c c' h
      obtain ⟨j, p, rest, -, rfl⟩ := node_mem hn
      exact (prefixCell_inj h).2 rfl
    · intro nd hn c c' h
      obtain ⟨j, p, rest, -, rfl⟩ := node_mem hn
      exact (prefixCell_inj h).2 rfl
    · intro nd hn c
      obtain ⟨j, p, rest, -, rfl⟩ := node_mem hn
      exact cell_not_special j p.1.name c
where
  nodes_pair : ∀ (ps : List Part) (i : Nat), (nodesFrom base code d n i ps).Pairwise Other
    | [], _ => .nil
    | p :: ps, i => by
      rw [nodesFrom]
      refine .cons (fun nd hn => ?_) (nodes_pair ps (i + 1))
      obtain ⟨j, q, rest, h1, rfl⟩ := node_mem hn
      exact ⟨fun c c' h => by have := (prefixCell_inj h).1; omega, fun c c' h => by have := (prefixCell_inj h).1; omega⟩

theorem head_next : (nodesFrom base code d n (i + 1) ps).head?.map Node.fcn = nextName i ps := by
  cases ps <;> rfl

theorem body_emit {R : Ren} {nx : Option String} {nd : Node} {rest : List Node} (hcfg : nd.cfg = stepCfg p.1) (hR : nd.R = R) (hnx : rest.head?.map Node.fcn = nx) :
    emitBody nd rest = body .emit p.1 R nx := by
  subst hR hnx
  unfold emitBody body
  rw [hcfg]
  show (match p.1.method with | .emit => _ | _ => _) = _
  cases p.1.method <;> cases rest <;> rfl

/-- A function with the type of the output as parameter takes what the engine gives, and nothing else than the type. -/
def Outs (base : Prog) (code : Step → Compiled) (d : Nat) (s : Step) : Prop := ∀ n R fcn, Takes ⟨stepProg base s, stepCfg s, code s, d, n, R, fcn⟩

/-- The engines in a chain with the method `emit`. -/
theorem chained_of (hb : BaseOk base) : ∀ (ps : List Part) (i : Nat), Has P' base .emit i ps → Fits ps → (∀ p ∈ ps, StepOk base code d p true ∧ Outs base code d p.1) →
    (∀ p ∈ ps.getLast?, P'.funs.get? "emit" = some (.lib [emitSig p.1.output])) → Chained P' (nodesFrom base code d n i ps)
  | [], _, _, _, _, _ => trivial
  | p :: ps, i, hH, hF, hs, hl => by
    obtain ⟨hs1, hs2⟩ := hs p (List.mem_cons_self ..)
    refine ⟨node_ok hb hH hs1 (fun _ _ => rfl), ⟨?_, ?_, ?_, ?_, hs2 _ _ _⟩, chained_of hb ps (i + 1) hH.tail ?_ (fun q hq => hs q (List.mem_cons_of_mem _ hq)) ?_⟩
    · rw [head_next]; rfl
    · have h1 := hH.funs (actionName i p.1, .user [("input", rename p.2 p.1.input)] .null (body .emit p.1 (renOf i p.1 p.2 (nextName i ps)) (nextName i ps)))
        (by rw [funsFrom]; exact List.mem_append_left _ (List.mem_cons_self ..))
      rw [hs1.input] at h1
      rw [body_emit (p := p) rfl rfl head_next]
      exact h1
    · intro nx l h
      cases ps with
      | nil => cases h
      | cons q ps => cases h; exact hF.1
    · intro h
      cases ps with
      | nil => exact ⟨show prefixFcnRef i p.1.name "emit" = "emit" from prefixFcnRef_lib (by decide +kernel), hl p rfl⟩
      | cons q ps => cases h
    · cases ps with
      | nil => trivial
      | cons q ps => exact hF.2
    · cases ps with
      | nil => intro q h; cases h
      | cons q ps => exact hl

/-- A function takes a value of its parameter type (`accepts` is reflexive, C02; signatures are but for defects). -/
def Self (P : Prog) (t r : AType) : Prop :=
  (∃ o, sigsAccept P.env [userSig [("input", t)] r] [.avro t] P.version = .ok (some o)) ∧ accTy P Guard.all t (some (.avro t)) = true

/-- The engines in a chain with the method `map`. -/
theorem mapOk_of (hb : BaseOk base) : ∀ (ps : List Part) (i : Nat), Has P' base .map i ps →
    (∀ p ∈ ps, StepOk base code d p false ∧ p.1.method = .map ∧ Self (stepProg base p.1) p.1.input p.1.output) → ∀ nd ∈ nodesFrom base code d n i ps, MapOk P' nd
  | [], _, _, _, nd, h => by cases h
  | p :: ps, i, hH, hs, nd, h => by
    rw [nodesFrom] at h
    rcases List.mem_cons.1 h with rfl | h
    · obtain ⟨hs1, hm, hs2⟩ := hs p (List.mem_cons_self ..)
      refine ⟨node_ok hb hH hs1 (fun h => by rw [hm] at h; cases h), hm, ?_, ?_, hs2.1, hs2.2⟩
      · show (if p.1.method = .emit then _ else none) = none
        rw [hm, if_neg (by decide)]
      · have h1 := hH.funs (actionName i p.1, .user [("input", rename p.2 p.1.input)] (rename p.2 p.1.output) (chainL (renOf i p.1 p.2 (nextName i ps)) spNames p.1.action))
          (by rw [funsFrom]; exact List.mem_append_left _ (List.mem_cons_self ..))
        rw [hs1.input, hs1.output] at h1
        exact h1
    · exact mapOk_of hb ps (i + 1) hH.tail (fun q hq => hs q (List.mem_cons_of_mem _ hq)) nd h

theorem typed_of : ∀ (ps : List Part) (p : Part) (i : Nat), Fits (p :: ps) → Typed (nodesFrom base code d n i (p :: ps)) p.1.input (lastOut .null (p :: ps))
  | [], p, i, _ => ⟨rfl, rfl⟩
  | q :: ps, p, i, h => by
    refine ⟨rfl, ?_⟩
    have := typed_of ps q (i + 1) h.2
    rw [h.1] at this
    exact this

theorem nest_of : ∀ (ps : List Part) (i : Nat) (e : Ex), nestFrom i ps e = nest (nodesFrom base code d n i ps) e
  | [], _, _ => rfl
  | p :: ps, i, e => nest_of ps (i + 1) _

/-- The document has all parts. -/
theorem document_has (hb : BaseOk base) (hs : ∀ p ∈ ps, (p.1.cells.map Prod.fst).Nodup ∧ (p.1.pools.map Prod.fst).Nodup ∧ (p.1.fcns.map Prod.fst).Nodup) :
    Has (document base ps) base (chainMethod ps) 0 ps where
  same := rfl
  special := by
    intro x hx
    refine upd_of_mem (docCells_nodup (fun p hp => (hs p hp).1)) (List.mem_append_left _ (List.mem_map.2 ⟨x, hx, rfl⟩))
  lib := by
    intro k f h
    obtain ⟨-, h1, h2⟩ := hb _ _ h
    rw [← h]
    refine upd_not ?_
    rw [List.map_append, List.mem_append]
    rintro (h3 | h3)
    · exact h2 (host_key h3)
    · obtain ⟨j, -, h4⟩ := funs_named h3
      have := (named_user h4).1
      rw [h1] at this
      cases this
  cells := fun kv hk => upd_of_mem (docCells_nodup (fun p hp => (hs p hp).1)) (List.mem_append_right _ hk)
  pools := fun kv hk => upd_of_mem (cells_nodup (fun p hp => (hs p hp).2.1)) hk
  funs := fun kv hk => upd_of_mem (docFuns_nodup (fun p hp => (hs p hp).2.2)) (List.mem_append_right _ hk)

theorem stepFuns_user {s : Step} {f : String × FDef} (hf : f ∈ s.fcns) (hn : (s.fcns.map Prod.fst).Nodup) :
    (stepProg base s).funs.get? ("u." ++ f.1) = some (.user f.2.params f.2.ret f.2.body) :=
  upd_of_mem (stepFuns_nodup hn) (List.mem_append_right _ (List.mem_map.2 ⟨f, hf, rfl⟩))

theorem funs_closed {k : String} : ∀ {ps : List Part} {i : Nat} {f : Fun}, (∀ p ∈ ps, (p.1.fcns.map Prod.fst).Nodup) → (k, f) ∈ funsFrom method i ps →
    ∃ nd ∈ nodesFrom base code d n i ps, k = nd.fcn ∨ ∃ x ps' r' b', nd.P.funs.get? x = some (.user ps' r' b') ∧ k = nd.R.fcn x
  | [], _, _, _, h => by cases h
  | p :: ps, i, f, hn, h => by
    rw [funsFrom, List.mem_append] at h
    rcases h with h | h
    · refine ⟨_, List.mem_cons_self .., ?_⟩
      unfold partFuns at h
      rcases List.mem_cons.1 h with h | h
      · cases h; exact .inl rfl
      · obtain ⟨g, hg, h1⟩ := List.mem_map.1 h
        cases h1
        refine .inr ⟨"u." ++ g.1, _, _, _, stepFuns_user hg (hn p (List.mem_cons_self ..)), ?_⟩
        show _ = prefixFcnRef i p.1.name _
        rw [prefixFcnRef_u]
    · obtain ⟨nd, h1, h2⟩ := funs_closed (fun q hq => hn q (List.mem_cons_of_mem _ hq)) h
      exact ⟨nd, List.mem_cons_of_mem _ h1, h2⟩

theorem document_closed (hb : BaseOk base) (hn : ∀ p ∈ ps, (p.1.fcns.map Prod.fst).Nodup) : Closed (document base ps) (nodesFrom base code d n 0 ps) := by
  intro name qs r b h
  rcases upd_mem (show PyDict.get? (PyDict.update base.funs (hostFuns ps ++ funsFrom (chainMethod ps) 0 ps)) name = _ from h) with h1 | ⟨h1, -⟩
  · rw [List.mem_append] at h1
    rcases h1 with h1 | h1
    · unfold hostFuns at h1
      split at h1
      · simp only [List.mem_singleton, Prod.mk.injEq] at h1
        exact absurd h1.2 (by simp)
      · cases h1
    · exact funs_closed hn h1
  · obtain ⟨⟨sigs, h2⟩, -⟩ := hb _ _ h1
    cases h2

theorem nodes_d : ∀ {ps : List Part} {i : Nat} {nd : Node}, nd ∈ nodesFrom base code d n i ps → nd.d = d ∧ nd.n = n := by
  intro ps i nd h
  obtain ⟨j, q, rest, -, rfl⟩ := node_mem h
  exact ⟨rfl, rfl⟩

theorem nodes_length : ∀ (ps : List Part) (i : Nat), (nodesFrom base code d n i ps).length = ps.length
  | [], _ => rfl
  | p :: ps, i => by rw [nodesFrom, List.length_cons, List.length_cons, nodes_length]

theorem nodes_depth : ∀ (ps : List Part) (i : Nat), depth (nodesFrom base code d n i ps) = (n + 1) * ps.length
  | [], _ => rfl
  | p :: ps, i => by
    rw [nodesFrom, depth, nodes_depth ps, List.length_cons]
    show n + (n + 1) * ps.length + 1 = (n + 1) * (ps.length + 1)
    rw [Nat.mul_add]
    omega

/-- C84: the document of a chain of map engines.  If each engine passes the check on its own, and takes the type that
the one before gives, then the document passes the check, and for any sequence of inputs the chain gives the results
that the engines give one after the other, and the same contents of cells and pools.  (`unfinished` is a run that the
model does not follow to its end.) -/
theorem map_document {rest : List Part} (hb : BaseOk base) (hm : ∀ q ∈ p :: rest, q.1.method = .map) (hF : Fits (p :: rest))
    (hs : ∀ q ∈ p :: rest, StepOk base code d q false ∧ Self (stepProg base q.1) q.1.input q.1.output)
    (hout : accTy base Guard.all (lastOut .null (p :: rest)) (some (.avro (lastOut .null (p :: rest)))) = true)
    {d' D : Nat} (hd : d + 1 ≤ d') (hd2 : rest.length + 2 ≤ d') (hD : n + 1 ≤ D) :
    let P' := document base (p :: rest)
    let nodes := nodesFrom base code d n 0 (p :: rest)
    FunsOk P' (walk P' Guard.all d') ∧ ∃ c, compile P' Guard.all (walk P' Guard.all d') (docCfg p rest) = .ok c ∧
      ∀ (S : Setup) (st : EngineState) vs ws, LibFits S.lib → (∀ x ∈ spNames, (st.world.cells.get? x).isSome) → Agree nodes (ws, st.world.emitted) st.world →
        let one := fun a b (f : Flow) v => ((mapFlow { S with started := a, finished := b } nodes f.1 v).1, ((mapFlow { S with started := a, finished := b } nodes f.1 v).2, f.2))
        let st1 := (beginRun (docCfg p rest) c (chainRt S P' d' D) S.info st).2
        .error unfinished ∈ (byHand one vs (ws, st.world.emitted) st.started st.finished).1 ∨
        ((feed (docCfg p rest) c (chainRt S P' d' D) S.info vs st1).1 = (byHand one vs (ws, st.world.emitted) st.started st.finished).1 ∧
          Agree nodes (byHand one vs (ws, st.world.emitted) st.started st.finished).2 (feed (docCfg p rest) c (chainRt S P' d' D) S.info vs st1).2.world) := by
  intro P' nodes
  have hcm : chainMethod (p :: rest) = .map := by
    unfold chainMethod
    rw [if_neg]
    intro h
    obtain ⟨q, hq, h1⟩ := List.any_eq_true.1 h
    rw [decide_eq_true_eq, hm q hq] at h1
    cases h1
  have hH := document_has (ps := p :: rest) hb (fun q hq => ⟨(hs q hq).1.cellNames, (hs q hq).1.poolNames, (hs q hq).1.fcnNames⟩)
  rw [hcm] at hH
  have hM := mapOk_of (n := n) hb (p :: rest) 0 hH (fun q hq => ⟨(hs q hq).1, hm q hq, (hs q hq).2⟩)
  have hA : Apart nodes := nodes_apart _ _
  have hcfg : docCfg p rest = chainCfg .map p.1.input (lastOut .null (p :: rest)) (nest nodes (.ref "input")) := by
    unfold docCfg
    rw [hcm, ← nest_of]
  refine ⟨map_funs_ok (fun nd hn => ⟨hM nd hn, by rw [(nodes_d hn).1]; omega⟩) hA (document_closed hb (fun q hq => (hs q hq).1.fcnNames)), ?_⟩
  have hMd : ∀ nd ∈ nodes, MapOk P' nd ∧ nd.d + 1 ≤ d' ∧ nd.n + 1 ≤ D := fun nd hn => ⟨hM nd hn, by rw [(nodes_d hn).1]; omega, by rw [(nodes_d hn).2]; omega⟩
  rw [hcfg]
  exact map_chain_run (P' := P') (d' := d') (D := D) hMd hA (typed_of rest p 0 hF) hout
    (by rw [nodes_length]; omega)

theorem lastOut_last {q : Part} : ∀ (l : List Part) (a : Part) (t : AType), q ∈ (a :: l).getLast? → lastOut t (a :: l) = q.1.output
  | [], a, t, h => by cases h; rfl
  | b :: l, a, t, h => lastOut_last l b a.1.output (by rw [List.getLast?_cons_cons] at h; exact h)

/-- C84: the document of a chain with an emit engine. -/
theorem emit_document {rest : List Part} (hb : BaseOk base) (hm : ∃ q ∈ p :: rest, q.1.method = .emit) (hF : Fits (p :: rest))
    (hs : ∀ q ∈ p :: rest, StepOk base code d q true ∧ Outs base code d q.1) (hin : Self base p.1.input .null)
    {d' D : Nat} (hd : d + 3 ≤ d') (hD : (n + 1) * (rest.length + 1) ≤ D) :
    let P' := document base (p :: rest)
    let nodes := nodesFrom base code d n 0 (p :: rest)
    FunsOk P' (walk P' Guard.all d') ∧ ∃ c, compile P' Guard.all (walk P' Guard.all d') (docCfg p rest) = .ok c ∧
      ∀ (S : Setup) (st : EngineState) vs ws, LibFits S.lib → (∀ x ∈ spNames, (st.world.cells.get? x).isSome) → Agree nodes (ws, st.world.emitted) st.world →
        let one := fun a b (f : Flow) v => flow { S with started := a, finished := b } nodes f v
        let st1 := (beginRun (docCfg p rest) c (chainRt S P' d' D) S.info st).2
        .error unfinished ∈ (byHand one vs (ws, st.world.emitted) st.started st.finished).1 ∨
        ((feed (docCfg p rest) c (chainRt S P' d' D) S.info vs st1).1 = (byHand one vs (ws, st.world.emitted) st.started st.finished).1 ∧
          Agree nodes (byHand one vs (ws, st.world.emitted) st.started st.finished).2 (feed (docCfg p rest) c (chainRt S P' d' D) S.info vs st1).2.world) := by
  intro P' nodes
  have hcm : chainMethod (p :: rest) = .emit := by
    unfold chainMethod
    obtain ⟨q, hq, h1⟩ := hm
    rw [if_pos (List.any_eq_true.2 ⟨q, hq, by rw [decide_eq_true_eq]; exact h1⟩)]
  have hH := document_has (ps := p :: rest) hb (fun q hq => ⟨(hs q hq).1.cellNames, (hs q hq).1.poolNames, (hs q hq).1.fcnNames⟩)
  rw [hcm] at hH
  have hl : ∀ q ∈ (p :: rest).getLast?, P'.funs.get? "emit" = some (.lib [emitSig q.1.output]) := by
    intro q hq
    have h1 : lastOut .null (p :: rest) = q.1.output := lastOut_last rest p _ hq
    refine upd_of_mem (docFuns_nodup (fun q hq => (hs q hq).1.fcnNames)) (List.mem_append_left _ ?_)
    unfold hostFuns
    rw [hcm, h1]
    exact List.mem_singleton.2 rfl
  have hC : Chained P' nodes := chained_of (n := n) hb (p :: rest) 0 hH hF hs hl
  have hA : Apart nodes := nodes_apart _ _
  have hcfg : docCfg p rest = chainCfg .emit p.1.input (lastOut .null (p :: rest)) (.call (actionName 0 p.1) [.ref "input"]) := by
    unfold docCfg
    rw [hcm]
  have hdd : ∀ nd ∈ nodes, nd.d + 3 ≤ d' := fun nd hn => by rw [(nodes_d hn).1]; omega
  refine ⟨emit_funs_ok hC hA hdd (document_closed hb (fun q hq => (hs q hq).1.fcnNames)), ?_⟩
  rw [hcfg]
  have hself : accTy P' Guard.all p.1.input (some (.avro p.1.input)) = true := hin.2
  have hdep : depth nodes ≤ D := by rw [show depth _ = _ from nodes_depth (p :: rest) 0]; exact hD
  obtain ⟨nd0, tl, hn, h1, h2, h3, h4⟩ : ∃ nd0 tl, nodes = nd0 :: tl ∧ nd0.cfg.input = p.1.input ∧ nd0.fcn = actionName 0 p.1 ∧ nd0.P.env = base.env ∧
      nd0.P.version = base.version := ⟨_, _, rfl, rfl, rfl, rfl, rfl⟩
  clear_value nodes P'
  subst hn
  have hin1 := hin.1
  rw [← h1, ← h3, ← h4] at hin1
  rw [← h1] at hself ⊢
  rw [← h2]
  exact emit_chain_run (P' := P') (d' := d') (D := D) hC hA hdd hdep hin1 hself

end Verif.Chain
