import Verif.Chain.Assemble
import Verif.Lang.Example
/-!
# Chaining of engines: two chains (C84)
-/

namespace Verif.Chain
open Avro Scope Path Sig Ast Lang

/-! ## A library -/

theorem mapCalls_sim {X : Ctx} {k : Bool} {f f' : List Val → M Val} (h : ∀ vs, Sim X k Same (f vs) (f' vs)) : ∀ vs, Sim X k Same (mapCalls f vs) (mapCalls f' vs)
  | [] => Sim.pure rfl
  | x :: xs => Sim.bindS (h [x]) (fun _ => Sim.bindS (mapCalls_sim h xs) (fun _ => Sim.pure rfl))

theorem small_val {n : String} {pt : Option (List CType)} {as : List Arg} (h : ∀ a ∈ as, ∃ v, a = .val v) {X : Ctx} {k : Bool} :
    Sim X k Same (smallLib n pt as) (smallLib n pt as) := by
  unfold smallLib
  split
  · split
    · exact Sim.lift_same _
    · exact Sim.raise _
  · exact Sim.pure rfl
  · obtain ⟨v, hv⟩ := h _ (List.mem_cons_of_mem _ (List.mem_cons_self ..))
    cases hv
  · exact Sim.raise _

theorem small_other {n : String} {pt : Option (List CType)} {as : List Arg} (h : ∃ b f, Arg.fn b f ∈ as)
    (h' : ¬ (n = "a.map" ∧ ∃ vs b f, as = [.val (.arr vs), .fn b f])) : smallLib n pt as = raise (.py "not modelled") := by
  obtain ⟨b, f, hf⟩ := h
  unfold smallLib
  split
  · simp at hf
  · simp at hf
  · exact absurd ⟨rfl, _, _, _, rfl⟩ h'
  · rfl

/-- The small library does nothing but compute and call. -/
theorem small_fits : LibFits smallLib := by
  intro X _ k n pt as as' _ h
  by_cases hv : ∀ a ∈ as, ∃ v, a = .val v
  · have : as' = as := by
      clear pt
      induction h with
      | nil => rfl
      | cons h1 _ ih =>
        rw [ih (fun a ha => hv a (List.mem_cons_of_mem _ ha))]
        obtain ⟨v, rfl⟩ := hv _ (List.mem_cons_self ..)
        cases h1
        rfl
    rw [this]
    exact small_val hv
  · have hf : ∃ b f, Arg.fn b f ∈ as := by
      by_contra hn
      refine hv (fun a ha => ?_)
      cases a with
      | val v => exact ⟨v, rfl⟩
      | fn b f => exact absurd ⟨b, f, ha⟩ hn
    have hf' : ∃ b f, Arg.fn b f ∈ as' := by
      obtain ⟨b, f, hf⟩ := hf
      clear hv
      induction h with
      | nil => cases hf
      | cons h1 _ ih =>
        rcases List.mem_cons.1 hf with rfl | hf
        · cases h1
          exact ⟨_, _, List.mem_cons_self ..⟩
        · obtain ⟨b, f, h2⟩ := ih hf
          exact ⟨b, f, List.mem_cons_of_mem _ h2⟩
    by_cases hm : n = "a.map" ∧ ∃ vs b f, as = [.val (.arr vs), .fn b f]
    · obtain ⟨rfl, vs, b, f, rfl⟩ := hm
      cases h with
      | cons h1 h2 =>
        cases h1
        cases h2 with
        | cons h2 h3 =>
          cases h3
          cases h2 with
          | fn _ h2 => exact Sim.bindS (mapCalls_sim h2 vs) (fun _ => Sim.pure rfl)
    · rw [small_other hf hm, small_other hf' ?_]
      · exact Sim.raise _
      · rintro ⟨rfl, vs, b, f, rfl⟩
        refine hm ⟨rfl, ?_⟩
        cases h with
        | cons h1 h2 =>
          cases h1
          cases h2 with
          | cons h2 h3 =>
            cases h3
            cases h2
            exact ⟨_, _, _, rfl⟩

/-! ## Engines -/

/-- The library functions. -/
def base : Prog where
  env := []
  cells := []
  pools := []
  funs := [
    ("+", .lib [⟨[("x", anyNum), ("y", .wild "A" none)], .wild "A" none, ⟨none, none, none⟩⟩]),
    ("<", .lib [⟨[("x", .wild "A" none), ("y", .wild "A" none)], .boolean, ⟨none, none, none⟩⟩]),
    ("a.map", .lib [⟨[("a", .array (.wild "A" none)), ("fcn", .fcn [.wild "A" none] (.wild "B" none))], .array (.wild "B" none), ⟨none, none, none⟩⟩])]
  version := ⟨0, 8, 1⟩
  decode := dec (fun _ => none) [] 1
  msg _ := ""
  floats := ⟨fun _ => .ok [], fun _ => .ok []⟩

theorem base_ok : BaseOk base := by
  intro n f h
  have hm := PyDict.mem_of_get? h
  simp only [base, List.mem_cons, Prod.mk.injEq, List.not_mem_nil, or_false] at hm
  rcases hm with ⟨rfl, rfl⟩ | ⟨rfl, rfl⟩ | ⟨rfl, rfl⟩
  all_goals exact ⟨⟨_, rfl⟩, by decide +kernel, by decide +kernel⟩

/-- What the check makes of an engine. -/
def codeOf (d : Nat) (s : Step) : Compiled :=
  match compile (stepProg base s) Guard.all (walk (stepProg base s) Guard.all d) (stepCfg s) with
  | .ok c => c
  | .error _ => ⟨fun _ => raise (.py ""), fun _ => raise (.py ""), fun _ => raise (.py ""), none⟩

/-- Counts in a cell, and adds the count to its input; the function `u.inc` adds one. -/
def count : Step where
  name := "Count"
  method := .map
  input := .int
  output := .int
  action := [.cellTo "n" [] (.fcnRef "u.inc"), .call "+" [.ref "input", .cellGet "n" []]]
  fcns := [("inc", ⟨[("x", .int)], .int, [.call "+" [.ref "x", .litInt (.int 1)]]⟩)]
  cells := [("n", .int)]

/-- Adds the number of actions to its input; it has a cell and a function with the same names as the other. -/
def stamp : Step where
  name := "Stamp"
  method := .map
  input := .int
  output := .long
  action := [.cellTo "n" [] (.call "u.inc" [.ref "input"]), .call "+" [.ref "input", .ref "actionsStarted"]]
  fcns := [("inc", ⟨[("x", .int)], .int, [.call "+" [.ref "x", .litInt (.int 10)]]⟩)]
  cells := [("n", .int)]

/-- Emits its input twice, if it is small. -/
def twice : Step where
  name := "Twice"
  method := .emit
  input := .int
  output := .int
  action := [.if_ (.call "<" [.ref "input", .litInt (.int 100)]) [.call "emit" [.ref "input"], .call "u.again" [.ref "input"]] []]
  fcns := [("again", ⟨[("x", .int)], .null, [.call "emit" [.call "+" [.ref "x", .litInt (.int 1)]]]⟩)]

theorem count_ok (b : Bool) (m : NameMap) : StepOk base (codeOf 6) 6 (count, m) b where
  method := fun h => by cases h
  compiled := rfl
  funs := by
    intro name ps ret body h
    obtain ⟨f, hf, rfl, rfl, rfl, rfl⟩ := step_user (p := (count, m)) base_ok h
    simp only [count, List.mem_singleton] at hf
    subst hf
    exact ⟨_, rfl⟩
  clean := fun R hR _ => by simp [count, CleanL, CleanE, spNames, hR]
  cleanF := fun R hR _ f hf => by
    simp only [count, List.mem_singleton] at hf
    subst hf
    simp [CleanL, CleanE, spNames, hR, rename]
  input := rfl
  output := rfl
  cells := fun c hc => by simp only [count, List.mem_singleton] at hc; subst hc; rfl
  pools := fun c hc => by cases hc
  cellNames := by simp [count]
  poolNames := by simp [count]
  fcnNames := by simp [count]

theorem stamp_ok (b : Bool) (m : NameMap) : StepOk base (codeOf 6) 6 (stamp, m) b where
  method := fun h => by cases h
  compiled := rfl
  funs := by
    intro name ps ret body h
    obtain ⟨f, hf, rfl, rfl, rfl, rfl⟩ := step_user (p := (stamp, m)) base_ok h
    simp only [stamp, List.mem_singleton] at hf
    subst hf
    exact ⟨_, rfl⟩
  clean := fun R hR _ => by simp [stamp, CleanL, CleanE, hR]
  cleanF := fun R hR _ f hf => by
    simp only [stamp, List.mem_singleton] at hf
    subst hf
    simp [CleanL, CleanE, spNames, hR, rename]
  input := rfl
  output := rfl
  cells := fun c hc => by simp only [stamp, List.mem_singleton] at hc; subst hc; rfl
  pools := fun c hc => by cases hc
  cellNames := by simp [stamp]
  poolNames := by simp [stamp]
  fcnNames := by simp [stamp]

theorem twice_ok (m : NameMap) : StepOk base (codeOf 6) 6 (twice, m) true where
  method := fun h => by cases h
  compiled := rfl
  funs := by
    intro name ps ret body h
    obtain ⟨f, hf, rfl, rfl, rfl, rfl⟩ := step_user (p := (twice, m)) base_ok h
    simp only [twice, List.mem_singleton] at hf
    subst hf
    exact ⟨_, rfl⟩
  clean := fun R hR _ => by simp [twice, CleanL, CleanE]
  cleanF := fun R hR _ f hf => by
    simp only [twice, List.mem_singleton] at hf
    subst hf
    simp [CleanL, CleanE, spNames, hR, rename]
  input := rfl
  output := rfl
  cells := fun c hc => by cases hc
  pools := fun c hc => by cases hc
  cellNames := by simp [twice]
  poolNames := by simp [twice]
  fcnNames := by simp [twice]

/-! ## A chain of map engines -/

def mapParts : List Part := [(count, []), (stamp, [])]

/-- The theorem applies. -/
example := map_document (base := base) (code := codeOf 6) (d := 6) (n := 3) (p := (count, [])) (rest := [(stamp, [])]) base_ok
  (fun q hq => by
    simp only [List.mem_cons, List.not_mem_nil, or_false] at hq
    rcases hq with rfl | rfl <;> rfl) ⟨rfl, trivial⟩
  (fun q hq => by
    simp only [List.mem_cons, List.not_mem_nil, or_false] at hq
    rcases hq with rfl | rfl
    · exact ⟨count_ok _ _, ⟨_, rfl⟩, by decide +kernel⟩
    · exact ⟨stamp_ok _ _, ⟨_, rfl⟩, by decide +kernel⟩) (by decide +kernel) (d' := 8) (D := 4) (by decide) (by decide) (by decide)

/-- The state of a new chain. -/
def newState (cells : List (String × Val)) : EngineState :=
  ⟨{ cells := [("name", .str ""), ("instance", .int 0), ("metadata", .dict []), ("actionsStarted", .int 0), ("actionsFinished", .int 0)] ++ cells, pools := [], tick := 0, out := [] }, .null, 0, 0⟩

def info : Info := ⟨"Chain_Count_Stamp", 0, .dict []⟩

def setup : Setup := ⟨100, smallLib, info, 0, 0⟩

/-- The results of a chain, its cells and what it emits. -/
def chainRun (p : Part) (rest : List Part) (d' D : Nat) (st : EngineState) (vs : List Val) : Res (List (Res Val) × PyDict String Val × List Val) :=
  let P' := document base (p :: rest)
  Res.app (fun c =>
    let out := feed (docCfg p rest) c (chainRt setup P' d' D) info vs (beginRun (docCfg p rest) c (chainRt setup P' d' D) info st).2
    (out.1, out.2.world.cells, out.2.world.emitted)) (compile P' Guard.all (walk P' Guard.all d') (docCfg p rest))

example : chainRun (count, []) [(stamp, [])] 8 4 (newState [("step1_Count_n", .int 0), ("step2_Stamp_n", .int 0)]) [.int 5, .int 7] =
    .ok ([.ok (.int 7), .ok (.int 11)], [("name", .str "Chain_Count_Stamp"), ("instance", .int 0), ("metadata", .dict []), ("actionsStarted", .int 2), ("actionsFinished", .int 1),
      ("step1_Count_n", .int 2), ("step2_Stamp_n", .int 19)], []) := by decide +kernel

/-! ## A chain with an emit engine -/

theorem twice_outs : Outs base (codeOf 6) 6 twice := by
  intro n R fcn
  refine ⟨fun _ u o h => ?_, fun h => by cases h⟩
  cases u with
  | avro t => cases t <;> first | rfl | cases h
  | _ => cases h

theorem stamp_outs : Outs base (codeOf 6) 6 stamp := by
  intro n R fcn
  refine ⟨fun h => (by cases h), fun _ t h => ?_⟩
  obtain ⟨Γ, h⟩ := h
  have : t = .long := by cases h; rfl
  subst this
  exact ⟨_, rfl⟩

/-- The theorem applies. -/
example := emit_document (base := base) (code := codeOf 6) (d := 6) (n := 3) (p := (twice, [])) (rest := [(stamp, [])]) base_ok
  ⟨_, List.mem_cons_self .., rfl⟩ ⟨rfl, trivial⟩
  (fun q hq => by
    simp only [List.mem_cons, List.not_mem_nil, or_false] at hq
    rcases hq with rfl | rfl
    · exact ⟨twice_ok _, twice_outs⟩
    · exact ⟨stamp_ok _ _, stamp_outs⟩) ⟨⟨_, rfl⟩, by decide +kernel⟩ (d' := 9) (D := 8) (by decide) (by decide)

example : chainRun (twice, []) [(stamp, [])] 9 8 (newState [("step2_Stamp_n", .int 0)]) [.int 5, .int 700] =
    .ok ([.ok .null, .ok .null], [("name", .str "Chain_Count_Stamp"), ("instance", .int 0), ("metadata", .dict []), ("actionsStarted", .int 2), ("actionsFinished", .int 1),
      ("step2_Stamp_n", .int 16)], [.int 6, .int 7]) := by decide +kernel

/-! ## Not as two engines -/

/-- An engine on its own: the results of `action` for several inputs. -/
def alone (s : Step) (w : World) (vs : List Val) : Res (List (Res Val) × List Val) :=
  Res.app (fun c =>
    let out := feed (stepCfg s) c (rtN (stepProg base s) (walk (stepProg base s) Guard.all 6) 100 noLimit (withEmit smallLib hostEmit) 3) info vs ⟨w, .null, 0, 0⟩
    (out.1, out.2.world.emitted)) (compile (stepProg base s) Guard.all (walk (stepProg base s) Guard.all 6) (stepCfg s))

/-- C84, in the negative: two engines with the emitted values of the first given to the second are not the chain.  In the
chain the second engine sees the counters of the chain, which count the inputs of the first. -/
theorem chain_counters_violation :
    alone twice { cells := [], pools := [], tick := 0, out := [] } [.int 5] = .ok ([.ok .null], [.int 5, .int 6]) ∧
    alone stamp { cells := [("n", .int 0)], pools := [], tick := 0, out := [] } [.int 5, .int 6] = .ok ([.ok (.int 6), .ok (.int 8)], []) ∧
    chainRun (twice, []) [(stamp, [])] 9 8 (newState [("step2_Stamp_n", .int 0)]) [.int 5] =
      .ok ([.ok .null], [("name", .str "Chain_Count_Stamp"), ("instance", .int 0), ("metadata", .dict []), ("actionsStarted", .int 1), ("actionsFinished", .int 0),
        ("step2_Stamp_n", .int 16)], [.int 6, .int 7]) := by decide +kernel

/-- Gives its input or null, from a branch: the type of the action is a union of int and null. -/
def mixed : Step where
  name := "Mixed"
  method := .map
  input := .int
  output := .union [.double, .null]
  action := [.if_ (.litBool true) [.ref "input"] [.litNull]]

/-- Emits what it gets. -/
def pass : Step where
  name := "Pass"
  method := .emit
  input := .union [.double, .null]
  output := .union [.double, .null]
  action := [.call "emit" [.ref "input"]]

def passes {α : Type} : Res α → Bool
  | .ok _ => true
  | .error _ => false

/-- C84, in the negative: both engines pass the check, and the types fit, but the chain does not pass: a function with a
union of double and null as parameter does not take a union of int and null, although the type accepts it. -/
theorem chain_union_result_violation :
    passes (alone mixed { cells := [], pools := [], tick := 0, out := [] } []) = true ∧ passes (alone pass { cells := [], pools := [], tick := 0, out := [] } []) = true ∧
    mixed.output = pass.input ∧
    ¬ FunsOk (document base [(mixed, []), (pass, [])]) (walk (document base [(mixed, []), (pass, [])]) Guard.all 9) := by
  refine ⟨by decide +kernel, by decide +kernel, rfl, fun h => ?_⟩
  obtain ⟨r, hr⟩ := h "u.step1_Mixed_action" _ _ _ rfl
  have : passes (walk (document base [(mixed, []), (pass, [])]) Guard.all 9 (.fcnDef [("input", .int)] .null (body .emit mixed (renOf 0 mixed [] (some "u.step2_Pass_action"))
    (some "u.step2_Pass_action"))) (topTab.new true false)) = false := by decide +kernel
  have h2 := congrArg passes hr
  exact absurd (this.symm.trans h2) (by simp [passes])

/-- Takes small numbers only. -/
def picky : Step where
  name := "Picky"
  method := .map
  input := .int
  output := .int
  action := [.if_ (.call "<" [.ref "input", .litInt (.int 10)]) [.ref "input"] [.error "too large" none]]

/-- One action of an engine whose cells have `rollback`: the result and the cells. -/
def oneRb (P : Prog) (cfg : Config) (d n : Nat) (st : EngineState) (v : Val) : Res (Res Val × PyDict String Val) :=
  Res.app (fun c =>
    let out := actionRun cfg c (fun _ => true) (fun _ => true) (rtN P (walk P Guard.all d) 100 noLimit (withEmit smallLib hostEmit) n) info st v
    (out.1, out.2.world.cells)) (compile P Guard.all (walk P Guard.all d) cfg)

/-- C84, in the negative: an exception in the second engine takes the first one back too, if its cells have `rollback`. -/
theorem chain_rollback_violation :
    oneRb (stepProg base count) (stepCfg count) 6 3 ⟨{ cells := [("n", .int 0)], pools := [], tick := 0, out := [] }, .null, 0, 0⟩ (.int 20) =
      .ok (.ok (.int 21), [("n", .int 1)]) ∧
    oneRb (stepProg base picky) (stepCfg picky) 6 3 ⟨{ cells := [], pools := [], tick := 0, out := [] }, .null, 0, 0⟩ (.int 21) = .ok (.error (.user "too large" none), []) ∧
    Res.app (fun o => (o.1, PyDict.get? o.2 "step1_Count_n")) (oneRb (document base [(count, []), (picky, [])]) (docCfg (count, []) [(picky, [])]) 8 4
      (newState [("step1_Count_n", .int 0)]) (.int 20)) = .ok (.error (.user "too large" none), some (.int 0)) := by decide +kernel

end Verif.Chain
