import Verif.Chain.Step
/-!
# Chaining of engines: engines one after the other (C84)

`flow` says what a list of engines does if the output of each is given to the next by hand.  `flow_sim`: that is what
the functions of the chain do.
-/

namespace Verif.Chain
open Avro Scope Path Sig Ast Lang

/-! ## By hand -/

/-- An engine of the chain. -/
structure Node where
  P : Prog
  cfg : Config
  /-- what the check made of it -/
  code : Compiled
  /-- how deep its syntax tree is, and its calls -/
  d : Nat
  n : Nat
  /-- what happens to its names in the chain -/
  R : Ren
  /-- the name of its action in the chain -/
  fcn : String

/-- A library. -/
abbrev Lib := String → Option (List CType) → List Arg → M Val

/-- The library with the function `emit` (genpy.py 206, 327: `self.f["emit"]`). -/
def withEmit (lib : Lib) (em : Val → M Val) : Lib := fun n pt as =>
  if n = "emit" then lift (vals as) >>= fun vs => match vs with
    | [v] => em v
    | _ => raise (.py "TypeError")
  else lib n pt as

/-- The value becomes one of the emitted values. -/
def push (v : Val) (s : St) : St := { s with world := { s.world with emitted := s.world.emitted ++ [v] } }

/-- `engine.emit` of the chain: the host gets the value. -/
def hostEmit (v : Val) : M Val := fun s => (.ok .null, push v s)

/-- `name`, `instance`, `metadata`, `actionsStarted`, `actionsFinished` in the scope of an action (genpy.py 229-252). -/
def spVars (i : Info) (started finished : Int) : List (String × Val) :=
  [("name", .str i.name), ("instance", .int i.inst), ("metadata", i.metadata), ("actionsStarted", .int started), ("actionsFinished", .int finished)]

def spNames : List String := ["name", "instance", "metadata", "actionsStarted", "actionsFinished"]

/-- Their types (pfaast.py 929-934, 978-979). -/
def spType (x : String) : AType :=
  if x = "name" then .string else if x = "instance" then .int else if x = "metadata" then .map .string else .long

/-- What is the same for all engines of a chain. -/
structure Setup where
  fuel : Nat
  lib : Lib
  info : Info
  started : Int
  finished : Int

def Setup.sp (S : Setup) : List (String × Val) := spVars S.info S.started S.finished

/-- `action(input)` of an engine on its own. -/
def runAction (S : Setup) (nd : Node) (lib : Lib) (v : Val) (w : World) : Res Val × World :=
  runCode (nd.code.action (rtN nd.P (walk nd.P Guard.all nd.d) S.fuel noLimit lib nd.n)) (("input", v) :: S.sp) w

/-- The states of the engines, and the values that have come out of the last. -/
abbrev Flow := List World × List Val

/-- A value given to a list of engines.  Of a map engine the next one gets the result.  An emit engine gives each value
to the next while it is running, `engine.emit = next.action`: if that fails, the exception comes out of `emit`.  The
engines after it are in the state that follows from the values they have been given so far, `replay`. -/
def flow (S : Setup) : List Node → Flow → Val → Res Val × Flow
  | [], (ws, out), v => (.ok .null, (ws, out ++ [v]))
  | _ :: _, ([], out), _ => (.error (.py "unreachable"), ([], out))
  | nd :: rest, (w :: ws, out), v =>
    let replay (h : List Val) : Flow := h.foldl (fun st x => (flow S rest st x).2) (ws, out)
    match nd.cfg.method with
    | .emit =>
      let em (x : Val) : M Val := fun s => ((flow S rest (replay s.world.emitted) x).1, push x s)
      match runAction S nd (withEmit S.lib em) v { w with emitted := [] } with
      | (.ok _, w1) => (.ok .null, (w1 :: (replay w1.emitted).1, (replay w1.emitted).2))
      | (.error e, w1) => (.error e, (w1 :: (replay w1.emitted).1, (replay w1.emitted).2))
    | _ =>
      match runAction S nd S.lib v w with
      | (.ok y, w1) => ((flow S rest (ws, out) y).1, (w1 :: (flow S rest (ws, out) y).2.1, (flow S rest (ws, out) y).2.2))
      | (.error e, w1) => (.error e, (w1 :: ws, out))

/-! ## States -/

/-- The cells and pools of the engine have the same contents in the chain. -/
def Own (nd : Node) (w w' : World) : Prop :=
  (∀ c t, nd.P.cells.get? c = some t → w'.cells.get? (nd.R.cell c) = w.cells.get? c) ∧
  ∀ c t, nd.P.pools.get? c = some t → w'.pools.get? (nd.R.pool c) = w.pools.get? c

/-- Nothing but cells and pools of these engines has changed. -/
def Untouched (nodes : List Node) (b w : World) : Prop :=
  (∀ c, (∀ nd ∈ nodes, ∀ x, c ≠ nd.R.cell x) → w.cells.get? c = b.cells.get? c) ∧
  ∀ c, (∀ nd ∈ nodes, ∀ x, c ≠ nd.R.pool x) → w.pools.get? c = b.pools.get? c

/-- The state of the chain is that of the engines. -/
def Agree (nodes : List Node) (st : Flow) (w' : World) : Prop := List.Forall₂ (fun nd w => Own nd w w') nodes st.1 ∧ w'.emitted = st.2

/-- The cells that stand for variables. -/
def SpOk (sp : List (String × Val)) (w : World) : Prop := ∀ x v, (x, v) ∈ sp → w.cells.get? x = some v

/-- Different engines have different cells and pools. -/
def Other (a b : Node) : Prop := (∀ c c', a.R.cell c ≠ b.R.cell c') ∧ ∀ c c', a.R.pool c ≠ b.R.pool c'

/-- The names in the chain. -/
structure Apart (nodes : List Node) : Prop where
  cell : ∀ nd ∈ nodes, ∀ c c', nd.R.cell c = nd.R.cell c' → c = c'
  pool : ∀ nd ∈ nodes, ∀ c c', nd.R.pool c = nd.R.pool c' → c = c'
  special : ∀ nd ∈ nodes, ∀ c, nd.R.cell c ∉ spNames
  pair : nodes.Pairwise Other

theorem Apart.tail {nd : Node} {rest : List Node} (h : Apart (nd :: rest)) : Apart rest :=
  ⟨fun x hx => h.cell x (List.mem_cons_of_mem _ hx), fun x hx => h.pool x (List.mem_cons_of_mem _ hx),
    fun x hx => h.special x (List.mem_cons_of_mem _ hx), (List.pairwise_cons.1 h.pair).2⟩

theorem Untouched.refl (nodes : List Node) (w : World) : Untouched nodes w w := ⟨fun _ _ => rfl, fun _ _ => rfl⟩

theorem Untouched.trans {nodes : List Node} {a b c : World} (h1 : Untouched nodes a b) (h2 : Untouched nodes b c) : Untouched nodes a c :=
  ⟨fun x hx => (h2.1 x hx).trans (h1.1 x hx), fun x hx => (h2.2 x hx).trans (h1.2 x hx)⟩

theorem Untouched.cons {nd : Node} {nodes : List Node} {a b : World} (h : Untouched nodes a b) : Untouched (nd :: nodes) a b :=
  ⟨fun x hx => h.1 x (fun m hm => hx m (List.mem_cons_of_mem _ hm)), fun x hx => h.2 x (fun m hm => hx m (List.mem_cons_of_mem _ hm))⟩

theorem Untouched.own {nd : Node} {nodes : List Node} {a b w : World} (h : Untouched nodes a b) (hd : ∀ m ∈ nodes, Other nd m) (ho : Own nd w a) : Own nd w b :=
  ⟨fun c t hc => (h.1 _ (fun m hm x => (hd m hm).1 c x)).trans (ho.1 c t hc), fun c t hc => (h.2 _ (fun m hm x => (hd m hm).2 c x)).trans (ho.2 c t hc)⟩

theorem spVars_names (i : Info) (a b : Int) : (spVars i a b).map Prod.fst = spNames := rfl

theorem Untouched.sp {nodes : List Node} {S : Setup} {a b : World} (h : Untouched nodes a b) (hA : Apart nodes) (hs : SpOk S.sp a) : SpOk S.sp b := by
  intro x v hx
  rw [h.1 x ?_, hs x v hx]
  intro m hm c hc
  refine hA.special m hm c ?_
  rw [← hc, ← spVars_names S.info S.started S.finished]
  exact List.mem_map.2 ⟨(x, v), hx, rfl⟩

/-- The relation between an engine, with others after it, and the chain. -/
def ctxOf (S : Setup) (nd : Node) (rest : List Node) (after : List Val → Flow) (b : World) : Ctx where
  sp := S.sp
  cell := fun c c' => (∃ t, nd.P.cells.get? c = some t) ∧ c' = nd.R.cell c
  pool := fun c c' => (∃ t, nd.P.pools.get? c = some t) ∧ c' = nd.R.pool c
  W := fun w w' => Own nd w w' ∧ Agree rest (after w.emitted) w' ∧ SpOk S.sp w' ∧ Untouched (nd :: rest) b w'

theorem own_cells {nd : Node} {w a b : World} (hc : a.cells = b.cells) (hp : a.pools = b.pools) (h : Own nd w a) : Own nd w b :=
  ⟨fun c t h1 => by rw [← hc]; exact h.1 c t h1, fun c t h1 => by rw [← hp]; exact h.2 c t h1⟩

theorem ctx_fits {S : Setup} {nd : Node} {rest : List Node} (hA : Apart (nd :: rest)) (after : List Val → Flow) (b : World) :
    (ctxOf S nd rest after b).Fits := by
  have hpair := (List.pairwise_cons.1 hA.pair).1
  have hmem := List.mem_cons_self (a := nd) (l := rest)
  refine ⟨?_, ?_, ?_, ?_, ?_, ?_, ?_⟩
  · rintro w w' c c' hW ⟨⟨t, ht⟩, rfl⟩
    exact hW.1.1 c t ht
  · rintro w w' c c' v ⟨h1, h2, h3, h4⟩ ⟨⟨t, ht⟩, rfl⟩
    refine ⟨⟨fun c' t' hc' => ?_, h1.2⟩, ⟨?_, h2.2⟩, ?_, ⟨fun x hx => ?_, h4.2⟩⟩
    · by_cases hcc : c = c'
      · subst hcc
        show PyDict.get? (PyDict.set _ _ _) _ = PyDict.get? (PyDict.set _ _ _) _
        rw [PyDict.get?_set_self, PyDict.get?_set_self]
      · show PyDict.get? (PyDict.set _ _ _) _ = PyDict.get? (PyDict.set _ _ _) _
        rw [PyDict.get?_set_ne _ _ hcc, PyDict.get?_set_ne _ _ (fun h => hcc (hA.cell nd hmem _ _ h))]
        exact h1.1 c' t' hc'
    · refine forall₂_mem_imp h2.1 (fun m hm u ho => ⟨fun c' t' hc' => ?_, ho.2⟩)
      show PyDict.get? (PyDict.set _ _ _) _ = _
      rw [PyDict.get?_set_ne _ _ ((hpair m hm).1 c c')]
      exact ho.1 c' t' hc'
    · intro x u hx
      show PyDict.get? (PyDict.set _ _ _) _ = _
      rw [PyDict.get?_set_ne]
      · exact h3 x u hx
      · intro he
        refine hA.special nd hmem c ?_
        rw [he, ← spVars_names S.info S.started S.finished]
        exact List.mem_map.2 ⟨(x, u), hx, rfl⟩
    · show PyDict.get? (PyDict.set _ _ _) _ = _
      rw [PyDict.get?_set_ne _ _ (fun h => hx nd hmem c h.symm)]
      exact h4.1 x hx
  · rintro w w' c c' hW ⟨⟨t, ht⟩, rfl⟩
    exact hW.1.2 c t ht
  · rintro w w' c c' v ⟨h1, h2, h3, h4⟩ ⟨⟨t, ht⟩, rfl⟩ -
    refine ⟨⟨h1.1, fun c' t' hc' => ?_⟩, ⟨?_, h2.2⟩, h3, ⟨h4.1, fun x hx => ?_⟩⟩
    · by_cases hcc : c = c'
      · subst hcc
        show PyDict.get? (PyDict.set _ _ _) _ = PyDict.get? (PyDict.set _ _ _) _
        rw [PyDict.get?_set_self, PyDict.get?_set_self]
      · show PyDict.get? (PyDict.set _ _ _) _ = PyDict.get? (PyDict.set _ _ _) _
        rw [PyDict.get?_set_ne _ _ hcc, PyDict.get?_set_ne _ _ (fun h => hcc (hA.pool nd hmem _ _ h))]
        exact h1.2 c' t' hc'
    · refine forall₂_mem_imp h2.1 (fun m hm u ho => ⟨ho.1, fun c' t' hc' => ?_⟩)
      show PyDict.get? (PyDict.set _ _ _) _ = _
      rw [PyDict.get?_set_ne _ _ ((hpair m hm).2 c c')]
      exact ho.2 c' t' hc'
    · show PyDict.get? (PyDict.set _ _ _) _ = _
      rw [PyDict.get?_set_ne _ _ (fun h => hx nd hmem c h.symm)]
      exact h4.2 x hx
  · rintro w w' x v hW hx
    exact hW.2.2.1 x v hx
  · rintro w w' ⟨h1, h2, h3, h4⟩
    exact ⟨h1, h2, h3, h4⟩
  · rintro w w' vs ⟨h1, h2, h3, h4⟩
    exact ⟨h1, h2, h3, h4⟩
where
  forall₂_mem_imp {α β : Type} {r s : α → β → Prop} {as : List α} {bs : List β} (h : List.Forall₂ r as bs) (hi : ∀ a ∈ as, ∀ b, r a b → s a b) :
      List.Forall₂ s as bs := by
    induction h with
    | nil => exact .nil
    | cons h1 _ ih => exact .cons (hi _ (List.mem_cons_self ..) _ h1) (ih (fun a ha => hi a (List.mem_cons_of_mem _ ha)))

end Verif.Chain
