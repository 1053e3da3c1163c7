import Verif.Lang.Nodes
/-!
# Whole engines (C42, C43)

Models EngineConfig.walk (`titus/pfaast.py` 883-1021) and the generated class (`titus/genpy.py` 112-139,
165-304), and proves that an engine that passes the check goes on without going wrong, whatever data come.

Left out: the call graph (`Verif.CallGraph`), the order of `checkData` and the scope (input is assumed to
conform, `Verif.Avro.Check`), snapshots, shared cells.  User-defined functions call each other through
`rtN`, to a given depth.
-/

namespace Verif.Lang
open Avro Scope Path Sig Ast

inductive Method where | map | emit | fold
  deriving DecidableEq

/-- The parts of EngineConfig (pfaast.py 741-800) that the check looks at; cells, pools and functions are in `Prog`. -/
structure Config where
  method : Method
  input : AType
  output : AType
  version : Option Int
  begin_ : List Ex
  action : List Ex
  end_ : List Ex
  merge : Option (List Ex)

/-! ## The check -/

/-- `SymbolTable.blank()` (296-302) and `topWrapper` (902). -/
def topTab : SymTab := [⟨[], true, false⟩, ⟨[], true, false⟩]

/-- `topWrapper.put("tally", self.output)` for fold engines (969-970). -/
def tallyTab (cfg : Config) : SymTab :=
  match cfg.method with
  | .fold => topTab.put "tally" (some (.avro cfg.output))
  | _ => topTab

/-- `name`, `instance`, `version`, `metadata` (929-934) -/
def stdSyms (cfg : Config) : List (String × Ty) :=
  ("name", some (.avro .string)) :: ("instance", some (.avro .int)) ::
    ((match cfg.version with | some _ => [("version", some (.avro .int))] | none => []) ++ [("metadata", some (.avro (.map .string)))])

/-- `actionsStarted`, `actionsFinished` (978-979) -/
def countSyms : List (String × Ty) := [("actionsStarted", some (.avro .long)), ("actionsFinished", some (.avro .long))]

/-- The wrapper scope with its symbols and the scope of the expressions (928-935). -/
def sect (top : SymTab) (syms : List (String × Ty)) : SymTab := (putAll (top.new true false) syms).new true false

/-- The code of an engine. -/
structure Compiled where
  begin_ : Rt → M Val
  action : Rt → M Val
  end_ : Rt → M Val
  merge : Option (Rt → M Val)

/-- EngineConfig.walk (883-1021) without the functions. -/
def compile (P : Prog) (g : Guard) (w : Walk) (cfg : Config) : Res Compiled := do
  let (_, bs, _) ← walkL w cfg.begin_ (sect topTab (stdSyms cfg))
  let merge ← match cfg.merge with
    | none => .ok none
    | some es => do
      let (t, m, _) ← block w es (sect topTab (("tallyOne", some (.avro cfg.output)) :: ("tallyTwo", some (.avro cfg.output)) :: stdSyms cfg))
      req (accTy P g cfg.output t)
      .ok (some m)
  let (_, es, _) ← walkL w cfg.end_ (sect (tallyTab cfg) (stdSyms cfg ++ countSyms))
  let (t, a, _) ← block w cfg.action (sect (tallyTab cfg) (("input", some (.avro cfg.input)) :: (stdSyms cfg ++ countSyms)))
  match cfg.method with
  | .emit => .ok ()
  | _ => req (accTy P g cfg.output t)
  .ok ⟨fun rt => doM (bs.map (· rt)), a, fun rt => doM (es.map (· rt)), merge⟩

/-- The user-defined functions pass (916-925); they are checked in a scope of their own. -/
def FunsOk (P : Prog) (w : Walk) : Prop := ∀ name ps ret body, P.funs.get? name = some (.user ps ret body) →
  ∃ r, w (.fcnDef ps ret body) (topTab.new true false) = .ok r

/-! ## The generated class -/

/-- The functions of the engine (204-205), up to `n` calls inside each other. -/
def rtN (P : Prog) (w : Walk) (fuel : Nat) (expired : Nat → Bool) (lib : String → Option (List CType) → List Arg → M Val) : Nat → Rt
  | 0 => { fuel, expired, lib, user := fun name => match P.funs.get? name with
      | some (.user _ _ _) => some (fun _ => raise unfinished)
      | _ => none }
  | n + 1 => { fuel, expired, lib, user := fun name => match P.funs.get? name with
      | some (.user ps ret body) => match w (.fcnDef ps ret body) (topTab.new true false) with
        | .ok (_, .fn _ f, _) => some (f (rtN P w fuel expired lib n))
        | _ => none
      | _ => none }

/-- What an engine knows about itself. -/
structure Info where
  name : String
  inst : Int
  metadata : Val

/-- An engine between calls. -/
structure EngineState where
  world : World
  tally : Val
  started : Int
  finished : Int

/-- `scope = DynamicScope(None)`, `scope.let({...})`, and the commands. -/
def runCode (m : M Val) (vars : List (String × Val)) (w : World) : Res Val × World :=
  match m ⟨[PyDict.update [] vars], w⟩ with
  | (r, s) => (r, s.world)

/-- `if self.config.version is not None: scope.let({'version': ...})` -/
def versionVar (cfg : Config) : List (String × Val) := match cfg.version with | some v => [("version", .int v)] | none => []

/-- `scope.let({'tally': self.tally})` in fold engines (commandsFold 127, 281) -/
def tallyVar (cfg : Config) (st : EngineState) : List (String × Val) := match cfg.method with | .fold => [("tally", st.tally)] | _ => []

/-- `cell.maybeRestoreBackup()` for each cell and pool (246-250, 550-556, 602-608): those with `rollback` get their
old value. -/
def restore (rbCell rbPool : String → Bool) (old new : World) : World :=
  { new with
    cells := new.cells.map (fun cv => (cv.1, if rbCell cv.1 then (old.cells.get? cv.1).getD cv.2 else cv.2))
    pools := new.pools.map (fun pv => (pv.1, if rbPool pv.1 then (old.pools.get? pv.1).getD pv.2 else pv.2)) }

/-- `begin()` (208-215) -/
def beginRun (cfg : Config) (c : Compiled) (rt : Rt) (i : Info) (st : EngineState) : Res Val × EngineState :=
  match runCode (c.begin_ rt) ([("name", .str i.name), ("instance", .int i.inst), ("metadata", i.metadata)] ++ versionVar cfg) st.world with
  | (r, w) => (r, { st with world := w })

/-- `action(input)` (229-252) with `commandsMap`, `commandsEmit`, `commandsFold` (112-132). -/
def actionRun (cfg : Config) (c : Compiled) (rbCell rbPool : String → Bool) (rt : Rt) (i : Info) (st : EngineState) (input : Val) :
    Res Val × EngineState :=
  match runCode (c.action rt) ([("input", input), ("name", .str i.name), ("instance", .int i.inst), ("metadata", i.metadata),
      ("actionsStarted", .int (st.started + 1)), ("actionsFinished", .int st.finished)] ++ versionVar cfg ++ tallyVar cfg st) st.world with
  | (.ok v, w) => match cfg.method with
    | .map => (.ok v, { st with world := w, started := st.started + 1, finished := st.finished + 1 })
    | .emit => (.ok .null, { st with world := w, started := st.started + 1, finished := st.finished + 1 })
    | .fold => (.ok v, { st with world := w, started := st.started + 1, finished := st.finished + 1, tally := v })
  | (.error e, w) => (.error e, { st with world := restore rbCell rbPool st.world w, started := st.started + 1 })

/-- `merge(tallyOne, tallyTwo)` (254-275) with `commandsFoldMerge` -/
def mergeRun (cfg : Config) (m : Rt → M Val) (rbCell rbPool : String → Bool) (rt : Rt) (i : Info) (st : EngineState) (one two : Val) :
    Res Val × EngineState :=
  match runCode (m rt) ([("tallyOne", one), ("tallyTwo", two), ("name", .str i.name), ("instance", .int i.inst), ("metadata", i.metadata)] ++
      versionVar cfg) st.world with
  | (.ok v, w) => (.ok v, { st with world := w, tally := v })
  | (.error e, w) => (.error e, { st with world := restore rbCell rbPool st.world w })

/-- `end()` (277-292) -/
def endRun (cfg : Config) (c : Compiled) (rt : Rt) (i : Info) (st : EngineState) : Res Val × EngineState :=
  match runCode (c.end_ rt) ([("name", .str i.name), ("instance", .int i.inst), ("metadata", i.metadata),
      ("actionsStarted", .int st.started), ("actionsFinished", .int st.finished)] ++ versionVar cfg ++ tallyVar cfg st) st.world with
  | (r, w) => (r, { st with world := w })

/-- The calls a host makes. -/
inductive Step where
  | begin_
  | action (input : Val)
  | merge (one two : Val)
  | end_

/-- One call; after an exception the host may go on. -/
def step (cfg : Config) (c : Compiled) (rbCell rbPool : String → Bool) (rt : Rt) (i : Info) (st : EngineState) : Step → Res Val × EngineState
  | .begin_ => beginRun cfg c rt i st
  | .action x => actionRun cfg c rbCell rbPool rt i st x
  | .merge x y => match c.merge with
    | some m => mergeRun cfg m rbCell rbPool rt i st x y
    | none => (.ok .null, st)
  | .end_ => endRun cfg c rt i st

/-- Any number of calls: the results, and the state at the end. -/
def steps (cfg : Config) (c : Compiled) (rbCell rbPool : String → Bool) (rt : Rt) (i : Info) : EngineState → List Step → List (Res Val) × EngineState
  | st, [] => ([], st)
  | st, x :: xs =>
    let r := step cfg c rbCell rbPool rt i st x
    let rs := steps cfg c rbCell rbPool rt i r.2 xs
    (r.1 :: rs.1, rs.2)

/-! ## Functions -/

section
variable {P : Prog} {g : Guard} {V : AType → Val → Prop} {w : Walk}

variable (g V) in
/-- What is assumed of library functions (see `RtOk`). -/
structure LibOk (lib : String → Option (List CType) → List Arg → M Val) : Prop where
  call : ∀ name tys ps r, g.call name tys ps r = true → ∀ I, Stable I → ∀ args, List.Forall₂ (ArgOk V I) tys args →
    Pres I (VT V (some r)) (lib name (some (ps ++ [r])) args)
  ref : ∀ name ps r, g.ref name ps r = true → ∀ I, Stable I → ∀ vs, List.Forall₂ (fun p v => VT V (some p) v) ps vs →
    Pres I (VT V (some r)) (lib name none (vs.map .val))

theorem find_topTab (a b : Bool) (x : String) : (topTab.new a b).find x = none := rfl

theorem fcnDef_type {n : Nat} {Γ Γ' : SymTab} {ps ret body t c} (h : walk P g n (.fcnDef ps ret body) Γ = .ok (t, c, Γ')) :
    t = some (.fcn (ps.map (fun p => .avro p.2)) (.avro ret)) := by
  cases n with
  | zero => cases h
  | succ n =>
    simp only [walk, walkStep, ebind, req_iff] at h
    obtain ⟨_, -, _, -, ⟨u, m, Γ1⟩, -, _, -, h3⟩ := h
    cases h3; rfl

/-- The functions of a checked engine do what their types say. -/
theorem rt_ok (F : Fit P g V) {d : Nat} (hf : FunsOk P (walk P g d)) {lib} (hl : LibOk g V lib) (fuel : Nat) (ex : Nat → Bool) (n : Nat) :
    RtOk P g V (rtN P (walk P g d) fuel ex lib n) := by
  induction n with
  | zero =>
    refine ⟨fun name ps ret body h => ⟨fun _ => raise unfinished, by simp only [rtN, h], fun vs hv c0 hne => Pres.raise (.inr rfl)⟩, hl.call, hl.ref⟩
  | succ n ih =>
    refine ⟨fun name ps ret body h => ?_, hl.call, hl.ref⟩
    obtain ⟨⟨t, c, Γ'⟩, h1⟩ := hf name ps ret body h
    have ht := fcnDef_type h1
    subst ht
    have h2 := ((walk_sound F d).1 _ _ _ _ _ h1).2
    cases c with
    | expr m =>
      exfalso
      cases d with
      | zero => cases h1
      | succ d =>
        simp only [walk, walkStep, ebind, req_iff] at h1
        obtain ⟨_, -, _, -, ⟨u, m, Γ1⟩, -, _, -, h3⟩ := h1
        cases h3
    | fn l f =>
      obtain ⟨-, qs, r, hq, h3⟩ := h2
      cases hq
      refine ⟨f (rtN P (walk P g d) fuel ex lib n), by simp only [rtN, h, h1], fun vs hv c0 hne => ?_⟩
      refine h3 _ ih vs ?_ c0 (fun x t hx => by rw [find_topTab] at hx; cases hx) hne
      rw [List.forall₂_map_left_iff]; exact hv

/-! ## Sections -/

theorem get?_vars {vars : List (String × Val)} (hn : (vars.map Prod.fst).Nodup) {x : String} {v : Val} (h : (x, v) ∈ vars) :
    PyDict.get? (PyDict.update ([] : PyDict String Val) vars) x = some v := by
  rw [Scope.get?_update, Scope.get?_reverse hn, PyDict.get?_of_mem hn h]

/-- The variables that a section starts with fit the table that it was checked in. -/
theorem agree_vars {Γ : SymTab} {vars : List (String × Val)} (hn : (vars.map Prod.fst).Nodup)
    (h : ∀ x t, Γ.find x = some t → ∃ v, (x, v) ∈ vars ∧ VT V t v) : Agree V Γ [PyDict.update [] vars] := by
  intro x t hx
  obtain ⟨v, h1, h2⟩ := h x t hx
  exact ⟨v, by simp [Scope.get, get?_vars hn h1], h2⟩

theorem run_ok {Γ Γ' : SymTab} {vars : List (String × Val)} {m : M Val} {Q : Val → Prop} (h : Ok P V Γ Γ' Q m) (hn : (vars.map Prod.fst).Nodup)
    (hv : ∀ x t, Γ.find x = some t → ∃ v, (x, v) ∈ vars ∧ VT V t v) {wd : World} (hw : WorldOk P V wd) :
    match runCode m vars wd with
    | (.ok v, wd') => Q v ∧ WorldOk P V wd'
    | (.error e, wd') => Allowed e ∧ WorldOk P V wd' := by
  have h1 := h ⟨[PyDict.update [] vars], wd⟩ ⟨agree_vars hn hv, hw, by simp⟩
  unfold runCode
  revert h1
  rcases m ⟨[PyDict.update [] vars], wd⟩ with ⟨e | v, s⟩
  · exact fun h1 => ⟨h1.1, h1.2.1.world⟩
  · exact fun h1 => ⟨h1.1, h1.2.1.world⟩

theorem get?_mapSnd {ν : Type} (f : String × ν → ν) (d : PyDict String ν) (k : String) :
    PyDict.get? (d.map (fun kv => (kv.1, f kv)) : PyDict String ν) k = (PyDict.get? d k).map (fun v => f (k, v)) := by
  induction d with
  | nil => rfl
  | cons kv d ih =>
    obtain ⟨k', v⟩ := kv
    rw [List.map_cons, PyDict.get?_cons, PyDict.get?_cons, ih]
    by_cases hk : k' = k
    · subst hk; simp
    · simp [hk]

/-- Data restored after an exception fit as well. -/
theorem restore_ok {rbC rbP : String → Bool} {old new : World} (ho : WorldOk P V old) (hn : WorldOk P V new) : WorldOk P V (restore rbC rbP old new) := by
  refine ⟨fun c t hc => ?_, fun p t hp => ?_⟩
  · obtain ⟨v, h1, h2⟩ := ho.cells c t hc
    obtain ⟨v', h3, h4⟩ := hn.cells c t hc
    refine ⟨_, by simp only [restore]; rw [get?_mapSnd (fun cv => if rbC cv.1 then (old.cells.get? cv.1).getD cv.2 else cv.2), h3]; rfl, ?_⟩
    dsimp only
    rw [h1]
    split
    · exact h2
    · exact h4
  · obtain ⟨v, h1, h2⟩ := ho.pools p t hp
    obtain ⟨v', h3, h4⟩ := hn.pools p t hp
    refine ⟨_, by simp only [restore]; rw [get?_mapSnd (fun cv => if rbP cv.1 then (old.pools.get? cv.1).getD cv.2 else cv.2), h3]; rfl, ?_⟩
    dsimp only
    rw [h1]
    split
    · exact h2
    · exact h4

/-- What stands in the table of a section. -/
theorem find_sect {top : SymTab} {syms : List (String × Ty)} {x : String} {t : Ty} (h : (sect top syms).find x = some t) :
    (x, t) ∈ syms ∨ top.find x = some t := by
  unfold sect at h
  rw [find_new, putAll_new] at h
  simp only [SymTab.find] at h
  split at h
  · next hs => cases h; exact .inl (mem_of_update hs)
  · exact .inr h

theorem find_tallyTab {cfg : Config} {x : String} {t : Ty} (h : (tallyTab cfg).find x = some t) :
    cfg.method = .fold ∧ x = "tally" ∧ t = some (.avro cfg.output) := by
  unfold tallyTab at h
  split at h
  · next hm =>
    refine ⟨hm, ?_⟩
    simp only [topTab, SymTab.put, PyDict.set, SymTab.find, PyDict.get?_cons, PyDict.get?_nil] at h
    split at h
    · next hs =>
      split at hs
      · next hx => cases hs; cases h; exact ⟨hx.symm, rfl⟩
      · cases hs
    · cases h
  · cases h

/-- The variables that every section has. -/
theorem std_vars (F : Fit P g V) {cfg : Config} {i : Info} (hm : V (.map .string) i.metadata) {x : String} {t : Ty} (h : (x, t) ∈ stdSyms cfg)
    (hi : V .int (.int i.inst)) (hver : ∀ n, cfg.version = some n → V .int (.int n)) {vars : List (String × Val)} (h1 : ("name", Val.str i.name) ∈ vars) (h2 : ("instance", Val.int i.inst) ∈ vars)
    (h3 : ("metadata", i.metadata) ∈ vars) (h4 : ∀ p ∈ versionVar cfg, p ∈ vars) : ∃ v, (x, v) ∈ vars ∧ VT V t v := by
  unfold stdSyms at h
  simp only [List.mem_cons, List.mem_append, List.not_mem_nil, or_false, Prod.mk.injEq] at h
  rcases h with ⟨rfl, rfl⟩ | ⟨rfl, rfl⟩ | h | ⟨rfl, rfl⟩
  · exact ⟨_, h1, (F.string _).2 ⟨_, rfl⟩⟩
  · exact ⟨_, h2, hi⟩
  · unfold versionVar at h4
    cases hv : cfg.version with
    | none => rw [hv] at h; cases h
    | some n =>
      rw [hv] at h h4
      simp only [List.mem_singleton, Prod.mk.injEq] at h
      obtain ⟨rfl, rfl⟩ := h
      exact ⟨_, h4 _ (List.mem_singleton.2 rfl), hver _ hv⟩
  · exact ⟨_, h3, hm⟩

theorem count_vars {x : String} {t : Ty} (h : (x, t) ∈ countSyms) {vars : List (String × Val)} {a b : Int}
    (ha : V .long (.int a)) (hb : V .long (.int b))
    (h1 : ("actionsStarted", Val.int a) ∈ vars) (h2 : ("actionsFinished", Val.int b) ∈ vars) : ∃ v, (x, v) ∈ vars ∧ VT V t v := by
  unfold countSyms at h
  simp only [List.mem_cons, List.not_mem_nil, or_false, Prod.mk.injEq] at h
  rcases h with ⟨rfl, rfl⟩ | ⟨rfl, rfl⟩
  · exact ⟨_, h1, ha⟩
  · exact ⟨_, h2, hb⟩

/-! ## Engines -/

variable (P V) in
/-- Cells, pools and tally hold data of their types. -/
structure EngineOk (cfg : Config) (st : EngineState) : Prop where
  world : WorldOk P V st.world
  tally : cfg.method = .fold → V cfg.output st.tally
  /-- the counters -/
  finished : 0 ≤ st.finished ∧ st.finished ≤ st.started

variable (V) in
/-- The host gives data of the input type; tallies to merge are of the output type. -/
def StepOk (cfg : Config) : Step → Prop
  | .action x => V cfg.input x
  | .merge x y => cfg.method = .fold ∧ V cfg.output x ∧ V cfg.output y
  | _ => True

variable (V) in
/-- A call has not gone wrong: data of the declared type, or a declared error. -/
def ResultOk (cfg : Config) (c : Compiled) (s : Step) : Res Val → Prop
  | .error e => Allowed e
  | .ok v => match s with
    | .action _ => cfg.method ≠ .emit → V cfg.output v
    | .merge _ _ => c.merge ≠ none → V cfg.output v
    | _ => True

variable {cfg : Config} {c : Compiled} {d : Nat}

theorem step_ok (F : Fit P g V) {N : Int} (hlong : ∀ n : Int, 0 ≤ n → n ≤ N → V .long (.int n)) (hver : ∀ n, cfg.version = some n → V .int (.int n)) (hc : compile P g (walk P g d) cfg = .ok c)
    {rt : Rt} (hr : RtOk P g V rt) {i : Info} (hint : V .int (.int i.inst)) (hm : V (.map .string) i.metadata) (rbC rbP : String → Bool) {st : EngineState}
    (hs : EngineOk P V cfg st) (hN : st.started < N) {x : Step} (hx : StepOk V cfg x) :
    ResultOk V cfg c x (step cfg c rbC rbP rt i st x).1 ∧ EngineOk P V cfg (step cfg c rbC rbP rt i st x).2 := by
  have hw := (walk_sound F d).1
  simp only [compile, ebind] at hc
  obtain ⟨⟨bts, bs, Γb⟩, h1, h2⟩ := hc
  -- the code of the sections
  have key : ∃ mg ets es Γe t a Γa, (match cfg.merge with
        | none => mg = none
        | some es => ∃ t m Γm, block (walk P g d) es (sect topTab (("tallyOne", some (.avro cfg.output)) :: ("tallyTwo", some (.avro cfg.output)) :: stdSyms cfg)) = .ok (t, m, Γm) ∧
          accTy P g cfg.output t = true ∧ mg = some m) ∧
      walkL (walk P g d) cfg.end_ (sect (tallyTab cfg) (stdSyms cfg ++ countSyms)) = .ok (ets, es, Γe) ∧
      block (walk P g d) cfg.action (sect (tallyTab cfg) (("input", some (.avro cfg.input)) :: (stdSyms cfg ++ countSyms))) = .ok (t, a, Γa) ∧
      (cfg.method ≠ .emit → accTy P g cfg.output t = true) ∧
      c = ⟨fun rt => doM (bs.map (· rt)), a, fun rt => doM (es.map (· rt)), mg⟩ := by
    cases hmg : cfg.merge with
    | none =>
      rw [hmg] at h2
      simp only [ebind] at h2
      obtain ⟨mg, rfl', ⟨ets, es, Γe⟩, h3, ⟨t, a, Γa⟩, h4, h5⟩ := h2
      cases rfl'
      refine ⟨none, ets, es, Γe, t, a, Γa, rfl, h3, h4, ?_⟩
      cases hmt : cfg.method with
      | map => rw [hmt] at h5; simp only [ebind, req_iff] at h5; obtain ⟨_, h6, h7⟩ := h5; cases h7; exact ⟨fun _ => h6, rfl⟩
      | fold => rw [hmt] at h5; simp only [ebind, req_iff] at h5; obtain ⟨_, h6, h7⟩ := h5; cases h7; exact ⟨fun _ => h6, rfl⟩
      | emit => rw [hmt] at h5; cases h5; exact ⟨fun h => absurd rfl h, rfl⟩
    | some mes =>
      rw [hmg] at h2
      simp only [ebind, req_iff] at h2
      obtain ⟨⟨tm, mm, Γm⟩, h8, _, h9, mg, h10, ⟨ets, es, Γe⟩, h3, ⟨t, a, Γa⟩, h4, h5⟩ := h2
      cases h10
      refine ⟨some mm, ets, es, Γe, t, a, Γa, ⟨tm, mm, Γm, h8, h9, rfl⟩, h3, h4, ?_⟩
      cases hmt : cfg.method with
      | map => rw [hmt] at h5; simp only [ebind, req_iff] at h5; obtain ⟨_, h6, h7⟩ := h5; cases h7; exact ⟨fun _ => h6, rfl⟩
      | fold => rw [hmt] at h5; simp only [ebind, req_iff] at h5; obtain ⟨_, h6, h7⟩ := h5; cases h7; exact ⟨fun _ => h6, rfl⟩
      | emit => rw [hmt] at h5; cases h5; exact ⟨fun h => absurd rfl h, rfl⟩
  obtain ⟨mg, ets, es, Γe, t, a, Γa, h3, h4, h5, h6, rfl⟩ := key
  cases x with
  | begin_ =>
    obtain ⟨e1, o1⟩ := walkL_ok hw h1
    have hrun := run_ok (Q := fun _ => True) (wd := st.world)
      (vars := [("name", .str i.name), ("instance", .int i.inst), ("metadata", i.metadata)] ++ versionVar cfg)
      (Ok.bind e1 (o1 rt hr) (fun vs _ => Ok.pure (a := vs.getLastD .null) trivial)) (by cases hv : cfg.version <;> simp [versionVar, hv]) (fun x t hx => by
        rcases find_sect hx with hx | hx
        · exact std_vars F hm hx hint hver (by simp) (by simp) (by simp) (fun p hp => by simp [hp])
        · cases hx) hs.world
    simp only [step, beginRun]
    change match runCode (doM (bs.map (· rt))) _ _ with | (.ok v, wd') => _ | (.error e, wd') => _ at hrun
    revert hrun
    rcases runCode (doM (bs.map (· rt))) ([("name", .str i.name), ("instance", .int i.inst), ("metadata", i.metadata)] ++ versionVar cfg) st.world with ⟨e | v, wd⟩
    · exact fun h => ⟨h.1, h.2, hs.tally, by have := hs.finished; constructor <;> dsimp only <;> omega⟩
    · exact fun h => ⟨trivial, h.2, hs.tally, by have := hs.finished; constructor <;> dsimp only <;> omega⟩
  | end_ =>
    obtain ⟨e1, o1⟩ := walkL_ok hw h4
    have hrun := run_ok (Q := fun _ => True) (wd := st.world)
      (vars := [("name", .str i.name), ("instance", .int i.inst), ("metadata", i.metadata),
      ("actionsStarted", .int st.started), ("actionsFinished", .int st.finished)] ++ versionVar cfg ++ tallyVar cfg st)
      (Ok.bind e1 (o1 rt hr) (fun vs _ => Ok.pure (a := vs.getLastD .null) trivial))
      (by cases hv : cfg.version <;> cases hmt : cfg.method <;> simp [versionVar, tallyVar, hv, hmt]) (fun x t hx => by
        rcases find_sect hx with hx | hx
        · rcases List.mem_append.1 hx with hx | hx
          · exact std_vars F hm hx hint hver (by simp) (by simp) (by simp) (fun p hp => by simp [hp])
          · exact count_vars hx (a := st.started) (b := st.finished) (hlong _ (hs.finished.1.trans hs.finished.2) hN.le) (hlong _ hs.finished.1 (hs.finished.2.trans hN.le)) (by simp) (by simp)
        · obtain ⟨h7, rfl, rfl⟩ := find_tallyTab hx
          exact ⟨st.tally, by simp [tallyVar, h7], hs.tally h7⟩) hs.world
    simp only [step, endRun]
    change match runCode (doM (es.map (· rt))) _ _ with | (.ok v, wd') => _ | (.error e, wd') => _ at hrun
    revert hrun
    rcases runCode (doM (es.map (· rt))) ([("name", .str i.name), ("instance", .int i.inst), ("metadata", i.metadata),
      ("actionsStarted", .int st.started), ("actionsFinished", .int st.finished)] ++ versionVar cfg ++ tallyVar cfg st) st.world with ⟨e | v, wd⟩
    · exact fun h => ⟨h.1, h.2, hs.tally, by have := hs.finished; constructor <;> dsimp only <;> omega⟩
    · exact fun h => ⟨trivial, h.2, hs.tally, by have := hs.finished; constructor <;> dsimp only <;> omega⟩
  | action x =>
    obtain ⟨e1, o1⟩ := block_ok hw h5
    have hrun := run_ok (wd := st.world)
      (vars := [("input", x), ("name", .str i.name), ("instance", .int i.inst), ("metadata", i.metadata),
      ("actionsStarted", .int (st.started + 1)), ("actionsFinished", .int st.finished)] ++ versionVar cfg ++ tallyVar cfg st)
      (o1 rt hr) (by cases hv : cfg.version <;> cases hmt : cfg.method <;> simp [versionVar, tallyVar, hv, hmt]) (fun y t hy => by
        rcases find_sect hy with hy | hy
        · rcases List.mem_cons.1 hy with hy | hy
          · cases hy; exact ⟨x, by simp, hx⟩
          · rcases List.mem_append.1 hy with hy | hy
            · exact std_vars F hm hy hint hver (by simp) (by simp) (by simp) (fun p hp => by simp [hp])
            · exact count_vars hy (a := st.started + 1) (b := st.finished) (hlong _ (by have := hs.finished; omega) hN) (hlong _ hs.finished.1 (hs.finished.2.trans hN.le)) (by simp) (by simp)
        · obtain ⟨h7, rfl, rfl⟩ := find_tallyTab hy
          exact ⟨st.tally, by simp [tallyVar, h7], hs.tally h7⟩) hs.world
    simp only [step, actionRun]
    revert hrun
    rcases runCode (a rt) ([("input", x), ("name", .str i.name), ("instance", .int i.inst), ("metadata", i.metadata),
      ("actionsStarted", .int (st.started + 1)), ("actionsFinished", .int st.finished)] ++ versionVar cfg ++ tallyVar cfg st) st.world with ⟨e | v, wd⟩
    · exact fun h => ⟨h.1, restore_ok hs.world h.2, hs.tally, by have := hs.finished; constructor <;> dsimp only <;> omega⟩
    · intro h
      cases hmt : cfg.method with
      | map => exact ⟨fun hne => accTy_ok F (h6 hne) h.1, h.2, hs.tally, by have := hs.finished; constructor <;> dsimp only <;> omega⟩
      | emit => exact ⟨fun hne => absurd hmt hne, h.2, hs.tally, by have := hs.finished; constructor <;> dsimp only <;> omega⟩
      | fold => exact ⟨fun hne => accTy_ok F (h6 hne) h.1, h.2, fun hf => accTy_ok F (h6 (by rw [hf]; simp)) h.1, by have := hs.finished; constructor <;> dsimp only <;> omega⟩
  | merge x y =>
    simp only [step]
    cases hmg : cfg.merge with
    | none =>
      rw [hmg] at h3
      subst h3
      exact ⟨fun hne => absurd rfl hne, hs⟩
    | some mes =>
      rw [hmg] at h3
      obtain ⟨tm, m, Γm, h8, h9, rfl⟩ := h3
      obtain ⟨e1, o1⟩ := block_ok hw h8
      have hrun := run_ok (wd := st.world)
        (vars := [("tallyOne", x), ("tallyTwo", y), ("name", .str i.name), ("instance", .int i.inst), ("metadata", i.metadata)] ++ versionVar cfg)
        (o1 rt hr) (by cases hv : cfg.version <;> simp [versionVar, hv]) (fun z t hz => by
          rcases find_sect hz with hz | hz
          · rcases List.mem_cons.1 hz with hz | hz
            · cases hz; exact ⟨x, by simp, hx.2.1⟩
            · rcases List.mem_cons.1 hz with hz | hz
              · cases hz; exact ⟨y, by simp, hx.2.2⟩
              · exact std_vars F hm hz hint hver (by simp) (by simp) (by simp) (fun p hp => by simp [hp])
          · cases hz) hs.world
      simp only [mergeRun]
      revert hrun
      rcases runCode (m rt) ([("tallyOne", x), ("tallyTwo", y), ("name", .str i.name), ("instance", .int i.inst), ("metadata", i.metadata)] ++ versionVar cfg) st.world with ⟨e | v, wd⟩
      · exact fun h => ⟨h.1, restore_ok hs.world h.2, hs.tally, by have := hs.finished; constructor <;> dsimp only <;> omega⟩
      · exact fun h => ⟨fun _ => accTy_ok F h9 h.1, h.2, fun _ => accTy_ok F h9 h.1, hs.finished⟩

/-- The counter goes up by one at most. -/
theorem step_started (cfg : Config) (c : Compiled) (rbC rbP : String → Bool) (rt : Rt) (i : Info) (st : EngineState) (x : Step) :
    (step cfg c rbC rbP rt i st x).2.started ≤ st.started + 1 := by
  cases x with
  | begin_ => simp only [step, beginRun]; omega
  | end_ => simp only [step, endRun]; omega
  | action x =>
    simp only [step, actionRun]
    split
    · cases cfg.method <;> exact le_refl _
    · exact le_refl _
  | merge x y =>
    simp only [step]
    split
    · simp only [mergeRun]
      split <;> dsimp only <;> omega
    · dsimp only; omega

/-- Calls of `action` among the steps. -/
def isAction : Step → Bool
  | .action _ => true
  | _ => false

/-- Calls of `action` that returned, given the steps and their results. -/
def returned : List Step → List (Res Val) → Nat
  | .action _ :: xs, .ok _ :: rs => returned xs rs + 1
  | _ :: xs, _ :: rs => returned xs rs
  | _, _ => 0

/-- The counters count: `actionsStarted` the calls of `action`, `actionsFinished` those that returned. -/
theorem steps_counters (cfg : Config) (c : Compiled) (rbC rbP : String → Bool) (rt : Rt) (i : Info) (xs : List Step) (st : EngineState) :
    (steps cfg c rbC rbP rt i st xs).2.started = st.started + (xs.countP isAction : Nat) ∧
    (steps cfg c rbC rbP rt i st xs).2.finished = st.finished + (returned xs (steps cfg c rbC rbP rt i st xs).1 : Nat) := by
  induction xs generalizing st with
  | nil => simp [steps, returned]
  | cons x xs ih =>
    simp only [steps]
    obtain ⟨h1, h2⟩ := ih (step cfg c rbC rbP rt i st x).2
    rw [h1, h2]
    cases x with
    | begin_ => exact ⟨by simp [step, beginRun, isAction], by simp [step, beginRun, returned]⟩
    | end_ => exact ⟨by simp [step, endRun, isAction], by simp [step, endRun, returned]⟩
    | action x =>
      have hcnt : List.countP isAction (.action x :: xs) = List.countP isAction xs + 1 := List.countP_cons_of_pos rfl
      rw [hcnt]
      simp only [step, actionRun]
      split
      · cases cfg.method <;> simp [returned] <;> omega
      · simp [returned]; omega
    | merge x y =>
      simp only [step]
      split
      · simp only [mergeRun]
        split <;> simp [isAction, returned]
      · simp [isAction, returned]

/-- **C42.**  An engine that passes the check does not go wrong, however long it runs and whatever data it gets: every
call returns data of the declared type or raises a declared error, and cells, pools and tally keep their types. -/
theorem engine_sound_partial (F : Fit P g V) {N : Int} (hlong : ∀ n : Int, 0 ≤ n → n ≤ N → V .long (.int n))
    (hf : FunsOk P (walk P g d)) (hc : compile P g (walk P g d) cfg = .ok c) {lib} (hl : LibOk g V lib) (fuel n : Nat) (ex : Nat → Bool)
    {i : Info} (hint : V .int (.int i.inst)) (hver : ∀ n, cfg.version = some n → V .int (.int n)) (hm : V (.map .string) i.metadata) (rbC rbP : String → Bool) (xs : List Step) (hx : ∀ x ∈ xs, StepOk V cfg x) (st : EngineState)
    (hs : EngineOk P V cfg st) (hN : st.started + xs.length ≤ N) :
    List.Forall₂ (ResultOk V cfg c) xs (steps cfg c rbC rbP (rtN P (walk P g d) fuel ex lib n) i st xs).1 ∧
    EngineOk P V cfg (steps cfg c rbC rbP (rtN P (walk P g d) fuel ex lib n) i st xs).2 := by
  induction xs generalizing st with
  | nil => exact ⟨.nil, hs⟩
  | cons x xs ih =>
    simp only [List.length_cons, Nat.cast_add, Nat.cast_one] at hN
    have h1 := step_ok F hlong hver hc (rt_ok F hf hl fuel ex n) hint hm rbC rbP hs (by omega) (hx x (List.mem_cons_self ..))
    have h4 := step_started cfg c rbC rbP (rtN P (walk P g d) fuel ex lib n) i st x
    obtain ⟨h2, h3⟩ := ih (fun y hy => hx y (List.mem_cons_of_mem _ hy)) _ h1.2 (by omega)
    exact ⟨.cons h1.1 h2, h3⟩

end

end Verif.Lang
