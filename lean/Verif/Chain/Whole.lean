import Verif.Chain.Emit
/-!
# Chaining of engines: the actions of the chain (C84)
-/

namespace Verif.Chain
open Avro Scope Path Sig Ast Lang

variable {S : Setup} {nd : Node} {rest : List Node} {P' : Prog}

/-! ## Map engines -/

/-- A value given to a list of map engines: each gets the result of the one before. -/
def mapFlow (S : Setup) : List Node → List World → Val → Res Val × List World
  | [], ws, v => (.ok v, ws)
  | _ :: _, [], _ => (.error (.py "unreachable"), [])
  | nd :: rest, w :: ws, v =>
    match runAction S nd S.lib v w with
    | (.ok y, w1) => ((mapFlow S rest ws y).1, w1 :: (mapFlow S rest ws y).2)
    | (.error e, w1) => (.error e, w1 :: ws)

/-- `action.append(Call(..., [Ref("input")]))` and `action[-1] = Call(..., [action[-1]])` (565-568) -/
def nest : List Node → Ex → Ex
  | [], e => e
  | nd :: rest, e => nest rest (.call nd.fcn [e])

/-- The engine in a chain with the method `map`. -/
structure MapOk (P' : Prog) (nd : Node) : Prop where
  ok : NodeOk P' nd
  map : nd.cfg.method = .map
  emit : nd.R.emit = none
  body : P'.funs.get? nd.fcn = some (.user [("input", nd.cfg.input)] nd.cfg.output (chainL nd.R spNames nd.cfg.action))
  takes : ∃ o, sigsAccept nd.P.env [userSig [("input", nd.cfg.input)] nd.cfg.output] [.avro nd.cfg.input] nd.P.version = .ok (some o)
  self : accTy nd.P Guard.all nd.cfg.input (some (.avro nd.cfg.input)) = true

/-- The types of the engines fit: what goes in, what comes out. -/
def Typed : List Node → AType → AType → Prop
  | [], a, b => a = b
  | nd :: rest, a, b => nd.cfg.input = a ∧ Typed rest nd.cfg.output b

/-- The functions called one after the other. -/
def callAll (rt : Rt) : List Node → Val → M Val
  | [], v => pure v
  | nd :: rest, v => inFresh (callUserFn rt nd.fcn [v]) >>= callAll rt rest

theorem mapStep {d' D : Nat} (hlib : LibFits S.lib) (hM : MapOk P' nd) (hA : Apart (nd :: rest)) (hd : nd.d + 1 ≤ d') (hD : nd.n + 1 ≤ D)
    {w w' : World} {st : Flow} (hown : Own nd w w') (hst : Agree rest st w') (hsp : SpOk S.sp w') (v : Val) :
    (runAction S nd S.lib v w).1 = .error unfinished ∨ ∃ s1, callUserFn (chainRt S P' d' D) nd.fcn [v] ⟨[[]], w'⟩ = ((runAction S nd S.lib v w).1, s1) ∧
      Own nd (runAction S nd S.lib v w).2 s1.world ∧ Agree rest st s1.world ∧ SpOk S.sp s1.world ∧ Untouched (nd :: rest) w' s1.world := by
  obtain ⟨D, rfl⟩ : ∃ k, D = k + 1 := ⟨D - 1, by omega⟩
  obtain ⟨d', rfl⟩ : ∃ k, d' = k + 1 := ⟨d' - 1, by omega⟩
  have hN := hM.ok
  have hme : nd.cfg.method ≠ .emit := by rw [hM.map]; decide
  have hS : Setting nd.R (ctxOf S nd rest (fun _ => st) w') spType nd.P P' := by
    refine setting_of hA hN ?_ (fun _ _ h => absurd h hme) (fun h => absurd h hme) (fun h => absurd h hme) _ w'
    rw [hM.emit, if_neg hme]
  obtain ⟨t, m', Γ1, h1, h2, h3⟩ := action_code rfl hS hN (m := d') (by omega)
    (Γ' := Lang.putAll ((topTab.new true false).new true false) [("input", some (.avro nd.cfg.input))])
    (by simp [Lang.putAll, SymTab.new, SymTab.put]) rfl (fun x _ => find_input x)
  have hacc := (h3.resolve_left hme).1
  have haccP : accTy P' Guard.all nd.cfg.output t = true := by rw [hN.same]; exact hacc
  have hrt : RtRel nd.R (ctxOf S nd rest (fun _ => st) w') nd.P (rtN nd.P (walk nd.P Guard.all nd.d) S.fuel noLimit S.lib nd.n) (chainRt S P' (d' + 1) D) := by
    refine rt_chain hS (by omega) hN.funs (fun n ps r b h => (hN.user n ps r b h).2) (k := 0) ?_ ?_ _ _ (by omega)
    · intro n sigs h4 _ k pt as as' has
      have hn : n ≠ "emit" := by
        rintro rfl
        rw [hN.emit, if_neg hme] at h4
        cases h4
      unfold withEmit
      rw [if_neg hn]
      exact hlib _ hS.fits k n pt as as' hn has
    · intro n' _ next h4
      rw [hM.emit] at h4
      cases h4
  have hW : (ctxOf S nd rest (fun _ => st) w').W w w' := ⟨hown, hst, hsp, Untouched.refl _ _⟩
  have hrun := h2 _ _ hrt true (fun _ => rfl) _ _ (start_rel (S := S) rfl hW v)
  have hra : runAction S nd S.lib v w = ((nd.code.action (rtN nd.P (walk nd.P Guard.all nd.d) S.fuel noLimit S.lib nd.n)
      ⟨[PyDict.update [] (("input", v) :: S.sp)], w⟩).1, (nd.code.action (rtN nd.P (walk nd.P Guard.all nd.d) S.fuel noLimit S.lib nd.n)
      ⟨[PyDict.update [] (("input", v) :: S.sp)], w⟩).2.world) := rfl
  have hcall := call_action (S := S) (D := D) hM.body h1 haccP v w'
  rw [inFrame_run] at hcall
  rw [hra, hcall]
  clear hcall hra
  revert hrun
  rcases nd.code.action _ _ with ⟨r, s⟩
  rcases m' _ _ with ⟨r', s'⟩
  intro hrun
  rcases hrun with hrun | ⟨-, h5, h6⟩
  · exact .inl hrun
  · obtain ⟨h7, h8, h9, h10⟩ := h5.world
    have : r' = r := by cases r <;> cases r' <;> first | exact h6.elim | (cases h6; rfl)
    subst this
    exact .inr ⟨_, rfl, h7, h8, h9, h10⟩

/-- C84: the functions of map engines one after the other. -/
theorem mapFlow_sim {d' D : Nat} (hlib : LibFits S.lib) : ∀ nodes, (∀ nd ∈ nodes, MapOk P' nd ∧ nd.d + 1 ≤ d' ∧ nd.n + 1 ≤ D) → Apart nodes →
    ∀ ws s v, Agree nodes (ws, s.world.emitted) s.world → SpOk S.sp s.world →
    (mapFlow S nodes ws v).1 = .error unfinished ∨ ∃ w1, callAll (chainRt S P' d' D) nodes v s = ((mapFlow S nodes ws v).1, { s with world := w1 }) ∧
      Agree nodes ((mapFlow S nodes ws v).2, s.world.emitted) w1 ∧ Untouched nodes s.world w1
  | [], _, _, ws, s, v, hAg, _ => .inr ⟨s.world, rfl, hAg, Untouched.refl _ _⟩
  | nd :: rest, hC, hA, ws0, s, v, hAg, hsp => by
    obtain ⟨hM, hd, hD⟩ := hC nd (List.mem_cons_self ..)
    obtain ⟨hAg1, hAg2⟩ := hAg
    cases hAg1 with
    | @cons _ w _ ws hown hown' =>
    have hf : mapFlow S (nd :: rest) (w :: ws) v = (match runAction S nd S.lib v w with
        | (.ok y, w1) => ((mapFlow S rest ws y).1, w1 :: (mapFlow S rest ws y).2)
        | (.error e, w1) => (.error e, w1 :: ws)) := by rw [mapFlow]
    have hc : callAll (chainRt S P' d' D) (nd :: rest) v s = (match inFresh (callUserFn (chainRt S P' d' D) nd.fcn [v]) s with
        | (.ok y, s1) => callAll (chainRt S P' d' D) rest y s1
        | (.error e, s1) => (.error e, s1)) := by
      rw [callAll, bind_run]
      rcases inFresh _ s with ⟨_ | _, _⟩ <;> rfl
    have h1 := mapStep (P' := P') (st := (ws, s.world.emitted)) hlib hM hA hd hD hown ⟨hown', rfl⟩ hsp v
    rw [hf, hc]
    rcases h1 with h1 | ⟨s1, h1, h2, h3, h4, h5⟩
    · revert h1
      rcases runAction S nd S.lib v w with ⟨r, w1⟩
      intro h1
      cases h1
      exact .inl rfl
    · have hfr : inFresh (callUserFn (chainRt S P' d' D) nd.fcn [v]) s = ((runAction S nd S.lib v w).1, { s1 with chain := s.chain }) := by
        unfold inFresh
        rw [h1]
      rw [hfr]
      revert h2
      rcases runAction S nd S.lib v w with ⟨_ | y, w1⟩
      · intro h2
        exact .inr ⟨s1.world, rfl, ⟨.cons h2 h3.1, h3.2⟩, h5⟩
      · intro h2
        have he : s1.world.emitted = s.world.emitted := h3.2
        rcases mapFlow_sim hlib rest (fun m hm => hC m (List.mem_cons_of_mem _ hm)) hA.tail ws { s1 with chain := s.chain } y
          (by show Agree rest (ws, s1.world.emitted) s1.world; rw [he]; exact h3) h4 with h6 | ⟨w2, h6, h7, h8⟩
        · exact .inl h6
        · refine .inr ⟨w2, h6, ⟨.cons (h8.own (List.pairwise_cons.1 hA.pair).1 h2) h7.1, ?_⟩, h5.trans h8.cons⟩
          exact h7.2.trans he

/-- The check of the nested calls, and what they do. -/
theorem nest_walk {P' : Prog} {x : String} {i : AType} : ∀ (nodes : List Node) (k : Nat) (e : Ex) (a b : AType) (m : Rt → M Val), (∀ nd ∈ nodes, MapOk P' nd) → Typed nodes a b →
    (∀ Γ : SymTab, Γ.find x = some (some (.avro i)) → walk P' Guard.all k e Γ = .ok (some (.avro a), .expr m, Γ)) →
    ∃ m', (∀ Γ : SymTab, Γ.find x = some (some (.avro i)) → walk P' Guard.all (k + nodes.length) (nest nodes e) Γ = .ok (some (.avro b), .expr m', Γ)) ∧
      ∀ rt s, m' rt s = (m rt >>= callAll rt nodes) s
  | [], k, e, a, b, m, _, hT, h => by
    cases hT
    refine ⟨m, h, fun rt s => ?_⟩
    rw [bind_run]
    rcases m rt s with ⟨_ | y, s1⟩ <;> rfl
  | nd :: rest, k, e, a, b, m, hM, hT, h => by
    obtain ⟨hT1, hT2⟩ := hT
    subst hT1
    have hN := hM nd (List.mem_cons_self ..)
    obtain ⟨⟨sg, ps, r⟩, ho⟩ := hN.takes
    have hr := (userSig_ok ho).1
    subst hr
    have hEV : P'.env = nd.P.env ∧ P'.version = nd.P.version := by rw [hN.ok.same]; exact ⟨rfl, rfl⟩
    have ho' : sigsAccept P'.env [userSig [("input", nd.cfg.input)] nd.cfg.output] [.avro nd.cfg.input] P'.version = .ok (some (sg, ps, .avro nd.cfg.output)) := by
      rw [hEV.1, hEV.2]; exact ho
    have hacc : accTy P' Guard.all nd.cfg.input (some (.avro nd.cfg.input)) = true := by rw [hN.ok.same]; exact hN.self
    have hcall : ∀ Γ : SymTab, Γ.find x = some (some (.avro i)) → walk P' Guard.all (k + 1) (.call nd.fcn [e]) Γ = .ok (some (.avro nd.cfg.output), .expr (fun rt => do
        let as ← evalL ([Code.expr m].map (fun c => c.toArg rt))
        let vs ← lift (vals as)
        inFresh (callUserFn rt nd.fcn vs)), Γ) := by
      intro Γ hΓ
      show walkStep P' Guard.all (walk P' Guard.all k) _ _ = _
      have h1 := h (Γ.new true true) hΓ
      simp only [walkStep, hN.body, walkA, h1]
      refine ebind.2 ⟨_, rfl, ebind.2 ⟨_, rfl, ebind.2 ⟨_, ho', ebind.2 ⟨(), ?_, rfl⟩⟩⟩⟩
      rw [req_iff, List.zip_cons_cons, List.zip_nil_right, List.all_cons, List.all_nil, Bool.and_true]
      exact hacc
    obtain ⟨m', h1, h2⟩ := nest_walk rest (k + 1) (.call nd.fcn [e]) nd.cfg.output b _ (fun n hn => hM n (List.mem_cons_of_mem _ hn)) hT2 hcall
    refine ⟨m', fun Γ hΓ => ?_, fun rt s => ?_⟩
    · have := h1 Γ hΓ
      rw [List.length_cons, show k + (rest.length + 1) = k + 1 + rest.length by omega]
      exact this
    · rw [h2, bind_run, args_run (m := m) (rt := rt) (g := fun as => do
        let vs ← lift (vals as)
        inFresh (callUserFn rt nd.fcn vs)) s, bind_run]
      rcases m rt s with ⟨_ | y, s1⟩
      · rfl
      · show _ = callAll rt (nd :: rest) y s1
        rw [callAll, bind_run]
        rfl

/-! ## The actions -/

/-- The world after an assignment to a cell. -/
def put (c : String) (v : Val) (w : World) : World := { w with cells := w.cells.set c v }

theorem set_walk {k : Nat} {c x : String} {t : AType} (hc : P'.cells.get? c = some t) (ht : accTy P' Guard.all t (some (.avro t)) = true) :
    ∃ m : Rt → M Val, (∀ Γ : SymTab, Γ.find x = some (some (.avro t)) → walk P' Guard.all (k + 2) (.cellTo c [] (.ref x)) Γ = .ok (some (.avro t), .expr m, Γ)) ∧
      ∀ rt (s : St) v, Scope.get s.chain x = .ok v → (s.world.cells.get? c).isSome →
        m rt s = (.ok v, ⟨s.chain, put c v s.world⟩) := by
  refine ⟨fun rt => do
      let p ← evalPath []
      let b ← (Code.expr (fun _ => getVar x)).toArg rt
      cellUpdate c p b, fun Γ hΓ => ?_, fun rt s v hv hs => ?_⟩
  · have h1 : walk P' Guard.all (k + 1) (.ref x) Γ = .ok (some (.avro t), .expr (fun _ => getVar x), Γ) := by
      show walkStep P' Guard.all (walk P' Guard.all k) _ _ = _
      simp only [walkStep, hΓ]
    show walkStep P' Guard.all (walk P' Guard.all (k + 1)) _ _ = _
    simp only [walkStep, hc, walkPath]
    have h2 : walkTo P' Guard.all (walk P' Guard.all (k + 1)) t (.ref x) Γ = .ok (fun rt => (Code.expr (fun _ => getVar x)).toArg rt, Γ) := by
      unfold walkTo
      refine ebind.2 ⟨_, h1, ebind.2 ⟨(), ?_, rfl⟩⟩
      rw [req_iff]
      exact ht
    exact ebind.2 ⟨_, rfl, ebind.2 ⟨_, h2, rfl⟩⟩
  · obtain ⟨old, ho⟩ := Option.isSome_iff_exists.1 hs
    have h1 : evalPath [] s = (.ok [], s) := rfl
    have h2 : (Code.expr (fun _ => getVar x)).toArg rt s = (.ok (.val v), s) := by
      show (getVar x >>= fun v => pure (Arg.val v)) s = _
      rw [bind_run, getVar, hv]
      rfl
    show (evalPath [] >>= _) s = _
    rw [bind_run, h1]
    show ((Code.expr (fun _ => getVar x)).toArg rt >>= _) s = _
    rw [bind_run, h2]
    show cellUpdate c [] (.val v) s = _
    unfold cellUpdate
    rw [bind_run]
    unfold readCell
    rw [ho]
    rfl


/-- `CellTo(x, [], Ref(x))` (428-438) -/
def setCell (x : String) : Ex := .cellTo x [] (.ref x)

/-- The configuration of a chain of engines without `begin` and `end` and without a version (425-438, 638-661). -/
def chainCfg (method : Method) (input output : AType) (last : Ex) : Config where
  method
  input
  output
  version := none
  begin_ := [setCell "name", setCell "instance", setCell "metadata"]
  action := [setCell "actionsStarted", setCell "actionsFinished", last]
  end_ := [setCell "actionsStarted", setCell "actionsFinished"]
  merge := none

theorem walkL_cons {w : Walk} {e : Ex} {es : List Ex} {Γ Γ2 : SymTab} {a : AType} {m : Rt → M Val} {ts ms} (h : w e Γ = .ok (some (.avro a), .expr m, Γ))
    (h2 : walkL w es Γ = .ok (ts, ms, Γ2)) : walkL w (e :: es) Γ = .ok (some (.avro a) :: ts, m :: ms, Γ2) := by
  rw [walkL]
  unfold walkE
  rw [h]
  show (walkL w es Γ >>= _) = _
  rw [h2]
  rfl

theorem spType_self (x : String) : accTy P' Guard.all (spType x) (some (.avro (spType x))) = true := by
  unfold spType
  split
  · rfl
  split
  · rfl
  split
  · rfl
  · rfl

theorem evalL_ok {m : M Val} {ms : List (M Val)} {s s1 : St} {v : Val} (h : m s = (.ok v, s1)) : evalL (m :: ms) s = (match evalL ms s1 with
    | (.ok as, s2) => (.ok (v :: as), s2)
    | (.error e, s2) => (.error e, s2)) := by
  rw [evalL, bind_run, h]
  show (evalL ms >>= _) s1 = _
  rw [bind_run]
  rcases evalL ms s1 with ⟨_ | y, s3⟩ <;> rfl

theorem doM_three {m1 m2 m3 : M Val} {s s1 s2 : St} {v1 v2 : Val} (h1 : m1 s = (.ok v1, s1)) (h2 : m2 s1 = (.ok v2, s2)) : doM [m1, m2, m3] s = m3 s2 := by
  unfold doM
  rw [bind_run, evalL_ok h1, evalL_ok h2, evalL, bind_run]
  rcases m3 s2 with ⟨_ | y, s3⟩ <;> rfl

/-- What holds of the cells of a chain after `begin`. -/
structure Ready (i : Info) (w : World) : Prop where
  name : w.cells.get? "name" = some (.str i.name)
  inst : w.cells.get? "instance" = some (.int i.inst)
  metadata : w.cells.get? "metadata" = some i.metadata
  started : (w.cells.get? "actionsStarted").isSome
  finished : (w.cells.get? "actionsFinished").isSome

theorem get_set {d : PyDict String Val} {x y : String} {v : Val} : PyDict.get? (PyDict.set d x v) y = if x = y then some v else PyDict.get? d y := by
  by_cases h : x = y
  · subst h; rw [if_pos rfl, PyDict.get?_set_self]
  · rw [if_neg h, PyDict.get?_set_ne _ _ h]

/-- The configuration of the chain passes the check; what its action and its `begin` do. -/
theorem chain_compile {d' : Nat} (hd : 2 ≤ d') {method : Method} (hmeth : method ≠ .fold) {i o t : AType} {last : Ex} {m : Rt → M Val}
    (hsp : ∀ x ∈ spNames, P'.cells.get? x = some (spType x))
    (hlast : ∀ Γ : SymTab, Γ.find "input" = some (some (.avro i)) → walk P' Guard.all d' last Γ = .ok (some (.avro t), .expr m, Γ))
    (hout : method ≠ .emit → accTy P' Guard.all o (some (.avro t)) = true) :
    ∃ c, compile P' Guard.all (walk P' Guard.all d') (chainCfg method i o last) = .ok c ∧
      (∀ rt (s : St) a b, Scope.get s.chain "actionsStarted" = .ok a → Scope.get s.chain "actionsFinished" = .ok b →
        (s.world.cells.get? "actionsStarted").isSome → (s.world.cells.get? "actionsFinished").isSome →
        c.action rt s = m rt { s with world := put "actionsFinished" b (put "actionsStarted" a s.world) }) ∧
      (∀ rt (s : St) a b v, Scope.get s.chain "name" = .ok a → Scope.get s.chain "instance" = .ok b → Scope.get s.chain "metadata" = .ok v →
        (∀ x ∈ spNames, (s.world.cells.get? x).isSome) →
        c.begin_ rt s = (.ok v, { s with world := put "metadata" v (put "instance" b (put "name" a s.world)) })) := by
  obtain ⟨k, rfl⟩ : ∃ k, d' = k + 2 := ⟨d' - 2, by omega⟩
  obtain ⟨m1, w1, r1⟩ := set_walk (k := k) (x := "actionsStarted") (hsp "actionsStarted" (by decide)) (spType_self _)
  obtain ⟨m2, w2, r2⟩ := set_walk (k := k) (x := "actionsFinished") (hsp "actionsFinished" (by decide)) (spType_self _)
  obtain ⟨m3, w3, r3⟩ := set_walk (k := k) (x := "name") (hsp "name" (by decide)) (spType_self _)
  obtain ⟨m4, w4, r4⟩ := set_walk (k := k) (x := "instance") (hsp "instance" (by decide)) (spType_self _)
  obtain ⟨m5, w5, r5⟩ := set_walk (k := k) (x := "metadata") (hsp "metadata" (by decide)) (spType_self _)
  have htab : tallyTab (chainCfg method i o last) = topTab := by
    unfold tallyTab
    split
    · next h => exact absurd h hmeth
    · rfl
  have hb : walkL (walk P' Guard.all (k + 2)) (chainCfg method i o last).begin_ (sect topTab (stdSyms (chainCfg method i o last))) = .ok (_, [m3, m4, m5], _) :=
    walkL_cons (w3 _ rfl) (walkL_cons (w4 _ rfl) (walkL_cons (w5 _ rfl) rfl))
  have he : walkL (walk P' Guard.all (k + 2)) (chainCfg method i o last).end_ (sect topTab (stdSyms (chainCfg method i o last) ++ countSyms)) = .ok (_, [m1, m2], _) :=
    walkL_cons (w1 _ rfl) (walkL_cons (w2 _ rfl) rfl)
  have ha : walkL (walk P' Guard.all (k + 2)) (chainCfg method i o last).action (sect topTab (("input", some (.avro (chainCfg method i o last).input)) :: (stdSyms (chainCfg method i o last) ++ countSyms))) =
      .ok ([some (.avro (spType "actionsStarted")), some (.avro (spType "actionsFinished")), some (.avro t)], [m1, m2, m], _) :=
    walkL_cons (w1 _ rfl) (walkL_cons (w2 _ rfl) (walkL_cons (hlast _ rfl) rfl))
  refine ⟨⟨fun rt => doM [m3 rt, m4 rt, m5 rt], fun rt => doM [m1 rt, m2 rt, m rt], fun rt => doM [m1 rt, m2 rt], none⟩, ?_, ?_, ?_⟩
  · simp only [compile, htab]
    refine ebind.2 ⟨_, hb, ?_⟩
    show ((.ok none : Res (Option (Rt → M Val))) >>= _) = _
    show (walkL _ _ _ >>= _) = _
    rw [he]
    show (block _ _ _ >>= _) = _
    unfold block
    rw [ha]
    cases hm : method with
    | emit => rfl
    | fold => exact absurd hm hmeth
    | map =>
      have hr : req (accTy P' Guard.all o (some (.avro t))) = .ok () := req_iff.2 (hout (by rw [hm]; decide))
      show (req (accTy P' Guard.all o (some (.avro t))) >>= _) = _
      rw [hr]
      rfl
  · intro rt s a b h1 h2 h3 h4
    show doM [m1 rt, m2 rt, m rt] s = _
    refine doM_three (r1 rt s a h1 h3) (r2 rt _ b h2 ?_)
    show (PyDict.get? (PyDict.set s.world.cells "actionsStarted" a) "actionsFinished").isSome
    rw [get_set, if_neg (by decide)]
    exact h4
  · intro rt s a b v h1 h2 h3 h4
    show doM [m3 rt, m4 rt, m5 rt] s = _
    rw [doM_three (r3 rt s a h1 (h4 "name" (by decide))) (r4 rt _ b h2 ?_)]
    · refine r5 rt ⟨s.chain, put "instance" b (put "name" a s.world)⟩ v h3 ?_
      show (PyDict.get? (PyDict.set (PyDict.set s.world.cells "name" a) "instance" b) "metadata").isSome
      rw [get_set, if_neg (by decide), get_set, if_neg (by decide)]
      exact h4 _ (by decide)
    · show (PyDict.get? (PyDict.set s.world.cells "name" a) "instance").isSome
      rw [get_set, if_neg (by decide)]
      exact h4 _ (by decide)


theorem restore_none (old new : World) : restore (fun _ => false) (fun _ => false) old new = new := by
  unfold restore
  have h : ∀ {α : Type} (l : List (String × α)), l.map (fun cv => (cv.1, cv.2)) = l := fun l => by simp
  obtain ⟨cells, pools, tick, out, emitted⟩ := new
  simp

theorem Ready.sp {i : Info} {w : World} (h : Ready i w) (a b : Int) : SpOk (spVars i a b) (put "actionsFinished" (.int b) (put "actionsStarted" (.int a) w)) := by
  intro x v hx
  show PyDict.get? (PyDict.set (PyDict.set w.cells _ _) _ _) x = _
  rw [get_set, get_set]
  simp only [spVars, List.mem_cons, List.not_mem_nil, or_false, Prod.mk.injEq] at hx
  rcases hx with ⟨rfl, rfl⟩ | ⟨rfl, rfl⟩ | ⟨rfl, rfl⟩ | ⟨rfl, rfl⟩ | ⟨rfl, rfl⟩
  · exact h.name
  · exact h.inst
  · exact h.metadata
  · rfl
  · rfl

theorem Ready.of_sp {i : Info} {w : World} {a b : Int} (h : SpOk (spVars i a b) w) : Ready i w :=
  ⟨h _ _ (by simp [spVars]), h _ _ (by simp [spVars]), h _ _ (by simp [spVars]),
    by rw [h "actionsStarted" (.int a) (by simp [spVars])]; rfl, by rw [h "actionsFinished" (.int b) (by simp [spVars])]; rfl⟩

theorem Apart.put {nodes : List Node} (hA : Apart nodes) {st : Flow} {w : World} {x : String} (hx : x ∈ spNames) {v : Val} (h : Agree nodes st w) :
    Agree nodes st (put x v w) := by
  refine ⟨ctx_fits.forall₂_mem_imp h.1 (fun nd hn u ho => ⟨fun c t hc => ?_, ho.2⟩), h.2⟩
  show PyDict.get? (PyDict.set _ _ _) _ = _
  rw [PyDict.get?_set_ne _ _ (fun he => hA.special nd hn c (by rw [← he]; exact hx))]
  exact ho.1 c t hc

/-- The engine of a chain between two actions: its cells are those of the engines, and what `begin` has put there. -/
structure Steady (nodes : List Node) (i : Info) (st : Flow) (w : World) : Prop where
  ready : Ready i w
  agree : Agree nodes st w

/-- The variables of an action. -/
theorem action_vars {st : EngineState} {i : Info} {v : Val} {x : String} {u : Val} (h : (x, u) ∈ ("input", v) :: spVars i (st.started + 1) st.finished) :
    Scope.get [PyDict.update [] (("input", v) :: spVars i (st.started + 1) st.finished)] x = .ok u := by
  have hn : ((("input", v) :: spVars i (st.started + 1) st.finished).map Prod.fst).Nodup := by
    show ("input" :: spNames).Nodup
    decide +kernel
  unfold Scope.get
  rw [get?_vars hn h]

/-- What comes out of an action, and the counters after it (genpy.py 112-132, 229-252). -/
def ended (method : Method) (st : EngineState) (w : World) : Res Val → Res Val × EngineState
  | .ok y => (.ok (if method = .emit then .null else y), { st with world := w, started := st.started + 1, finished := st.finished + 1 })
  | .error e => (.error e, { st with world := w, started := st.started + 1 })

theorem action_run {method : Method} {i o : AType} {last : Ex} {c : Compiled} {rt : Rt} {info : Info} {st : EngineState} {v : Val} {m : Rt → M Val}
    (hmeth : method ≠ .fold)
    (hc : ∀ rt (s : St) a b, Scope.get s.chain "actionsStarted" = .ok a → Scope.get s.chain "actionsFinished" = .ok b →
        (s.world.cells.get? "actionsStarted").isSome → (s.world.cells.get? "actionsFinished").isSome →
        c.action rt s = m rt { s with world := put "actionsFinished" b (put "actionsStarted" a s.world) })
    (hr : Ready info st.world) {r : Res Val} {s1 : St}
    (hm : m rt ⟨[PyDict.update [] (("input", v) :: spVars info (st.started + 1) st.finished)],
      put "actionsFinished" (.int st.finished) (put "actionsStarted" (.int (st.started + 1)) st.world)⟩ = (r, s1)) :
    actionRun (chainCfg method i o last) c (fun _ => false) (fun _ => false) rt info st v = ended method st s1.world r := by
  have h1 := hc rt ⟨[PyDict.update [] (("input", v) :: spVars info (st.started + 1) st.finished)], st.world⟩ (.int (st.started + 1)) (.int st.finished)
    (action_vars (by simp [spVars])) (action_vars (by simp [spVars])) hr.started hr.finished
  rw [hm] at h1
  have h2 : ([("input", v), ("name", .str info.name), ("instance", .int info.inst), ("metadata", info.metadata), ("actionsStarted", .int (st.started + 1)), ("actionsFinished", .int st.finished)] ++
      versionVar (chainCfg method i o last) ++ tallyVar (chainCfg method i o last) st : List (String × Val)) = ("input", v) :: spVars info (st.started + 1) st.finished := by
    unfold tallyVar
    split
    · next h => exact absurd h hmeth
    · rfl
  unfold actionRun runCode
  rw [h2, h1]
  cases r with
  | error e => simp only [restore_none, ended]
  | ok y => cases method with
    | map => rfl
    | emit => rfl
    | fold => exact absurd rfl hmeth

/-- The state of the chain after `begin` (425-430). -/
def begun (i : Info) (w : World) : World := put "metadata" i.metadata (put "instance" (.int i.inst) (put "name" (.str i.name) w))

theorem begin_run {method : Method} {i o : AType} {last : Ex} {c : Compiled} {rt : Rt} {info : Info} {st : EngineState}
    (hc : ∀ rt (s : St) a b v, Scope.get s.chain "name" = .ok a → Scope.get s.chain "instance" = .ok b → Scope.get s.chain "metadata" = .ok v →
        (∀ x ∈ spNames, (s.world.cells.get? x).isSome) →
        c.begin_ rt s = (.ok v, { s with world := put "metadata" v (put "instance" b (put "name" a s.world)) }))
    (hs : ∀ x ∈ spNames, (st.world.cells.get? x).isSome) :
    beginRun (chainCfg method i o last) c rt info st = (.ok info.metadata, { st with world := begun info st.world }) := by
  have h1 := hc rt ⟨[PyDict.update [] [("name", .str info.name), ("instance", .int info.inst), ("metadata", info.metadata)]], st.world⟩ (.str info.name) (.int info.inst) info.metadata
    rfl rfl rfl hs
  unfold beginRun runCode
  have h2 : ([("name", .str info.name), ("instance", .int info.inst), ("metadata", info.metadata)] ++ versionVar (chainCfg method i o last) : List (String × Val)) =
    [("name", .str info.name), ("instance", .int info.inst), ("metadata", info.metadata)] := rfl
  rw [h2, h1]
  rfl

theorem begun_steady {nodes : List Node} (hA : Apart nodes) {info : Info} {st : Flow} {w : World} (hs : ∀ x ∈ spNames, (w.cells.get? x).isSome) (h : Agree nodes st w) :
    Steady nodes info st (begun info w) := by
  refine ⟨⟨?_, ?_, ?_, ?_, ?_⟩, hA.put (by decide) (hA.put (by decide) (hA.put (by decide) h))⟩ <;>
    (unfold begun; simp only [put, get_set]; first | rfl | exact hs _ (by decide))

/-- The engines and the counters as the action of the chain sees them. -/
def setupOf (fuel : Nat) (lib : Lib) (info : Info) (st : EngineState) : Setup := ⟨fuel, lib, info, st.started + 1, st.finished⟩

/-- C84: a chain of map engines passes the check, and its action gives what the actions of the engines give one after
the other, and leaves the same contents in all cells and pools. -/
theorem map_chain {d' D : Nat} {first : Node} {rest : List Node} {o : AType} (hC : ∀ nd ∈ first :: rest, MapOk P' nd ∧ nd.d + 1 ≤ d' ∧ nd.n + 1 ≤ D)
    (hA : Apart (first :: rest)) (hT : Typed (first :: rest) first.cfg.input o) (hself : accTy P' Guard.all o (some (.avro o)) = true)
    (hd : rest.length + 2 ≤ d') :
    ∃ c, compile P' Guard.all (walk P' Guard.all d') (chainCfg .map first.cfg.input o (nest (first :: rest) (.ref "input"))) = .ok c ∧
      (∀ rt info st, (∀ x ∈ spNames, (st.world.cells.get? x).isSome) → beginRun (chainCfg .map first.cfg.input o (nest (first :: rest) (.ref "input"))) c rt info st = (.ok info.metadata, { st with world := begun info st.world })) ∧
      ∀ fuel lib info st v ws, LibFits lib → Steady (first :: rest) info (ws, st.world.emitted) st.world →
        (mapFlow (setupOf fuel lib info st) (first :: rest) ws v).1 = .error unfinished ∨ ∃ w1,
          actionRun (chainCfg .map first.cfg.input o (nest (first :: rest) (.ref "input"))) c (fun _ => false) (fun _ => false)
            (chainRt (setupOf fuel lib info st) P' d' D) info st v =
            ended .map st w1 (mapFlow (setupOf fuel lib info st) (first :: rest) ws v).1 ∧
          Steady (first :: rest) info ((mapFlow (setupOf fuel lib info st) (first :: rest) ws v).2, st.world.emitted) w1 := by
  obtain ⟨k, rfl⟩ : ∃ k, d' = k + 1 + (first :: rest).length := ⟨d' - rest.length - 2, by simp only [List.length_cons]; omega⟩
  obtain ⟨m', h1, h2⟩ := nest_walk (x := "input") (i := first.cfg.input) (first :: rest) (k + 1) (.ref "input") first.cfg.input o (fun _ => getVar "input")
    (fun nd hn => (hC nd hn).1) hT (fun Γ hΓ => by
      show walkStep P' Guard.all (walk P' Guard.all k) _ _ = _
      simp only [walkStep, hΓ])
  obtain ⟨c, h3, h4, hbeg⟩ := chain_compile (method := .map) (by simp only [List.length_cons]; omega) (by decide) (hC first (List.mem_cons_self ..)).1.ok.special h1 (fun _ => hself)
  refine ⟨c, h3, fun rt info st hs => begin_run hbeg hs, fun fuel lib info st v ws hlib hSt => ?_⟩
  have hsp := hSt.ready.sp (st.started + 1) st.finished
  rcases mapFlow_sim (S := setupOf fuel lib info st) hlib (first :: rest) hC hA ws
    ⟨[PyDict.update [] (("input", v) :: spVars info (st.started + 1) st.finished)], put "actionsFinished" (.int st.finished) (put "actionsStarted" (.int (st.started + 1)) st.world)⟩ v
    (hA.put (by decide) (hA.put (by decide) hSt.agree)) hsp with h5 | ⟨w1, h5, h6, h7⟩
  · exact .inl h5
  · refine .inr ⟨w1, ?_, ?_⟩
    · have hrun := action_run (i := first.cfg.input) (o := o) (last := nest (first :: rest) (.ref "input")) (method := .map) (by decide) h4 hSt.ready
        (rt := chainRt (setupOf fuel lib info st) P' (k + 1 + (first :: rest).length) D) (v := v)
        (r := (mapFlow (setupOf fuel lib info st) (first :: rest) ws v).1) (s1 := ⟨_, w1⟩) (by
          rw [h2, bind_run]
          unfold getVar
          rw [action_vars (List.mem_cons_self ..)]
          exact h5)
      exact hrun
    · exact ⟨Ready.of_sp (h7.sp (S := setupOf fuel lib info st) hA hsp), h6⟩

/-- C84: a chain of engines of which one at least is an emit engine. -/
theorem emit_chain {d' D : Nat} {first : Node} {rest : List Node} {o : AType} (hC : Chained P' (first :: rest))
    (hA : Apart (first :: rest)) (hdn : ∀ nd ∈ first :: rest, nd.d + 3 ≤ d') (hD : depth (first :: rest) ≤ D)
    (hin : ∃ o, sigsAccept first.P.env [userSig [("input", first.cfg.input)] .null] [.avro first.cfg.input] first.P.version = .ok (some o))
    (hself : accTy P' Guard.all first.cfg.input (some (.avro first.cfg.input)) = true) :
    ∃ c, compile P' Guard.all (walk P' Guard.all d') (chainCfg .emit first.cfg.input o (.call first.fcn [.ref "input"])) = .ok c ∧
      (∀ rt info st, (∀ x ∈ spNames, (st.world.cells.get? x).isSome) → beginRun (chainCfg .emit first.cfg.input o (.call first.fcn [.ref "input"])) c rt info st = (.ok info.metadata, { st with world := begun info st.world })) ∧
      ∀ fuel lib info st v ws, LibFits lib → Steady (first :: rest) info (ws, st.world.emitted) st.world →
        (flow (setupOf fuel lib info st) (first :: rest) (ws, st.world.emitted) v).1 = .error unfinished ∨ ∃ w1,
          actionRun (chainCfg .emit first.cfg.input o (.call first.fcn [.ref "input"])) c (fun _ => false) (fun _ => false)
            (chainRt (setupOf fuel lib info st) P' d' D) info st v =
            ended .emit st w1 (flow (setupOf fuel lib info st) (first :: rest) (ws, st.world.emitted) v).1 ∧
          Steady (first :: rest) info (flow (setupOf fuel lib info st) (first :: rest) (ws, st.world.emitted) v).2 w1 := by
  have hd3 : 3 ≤ d' := by have := hdn first (List.mem_cons_self ..); omega
  obtain ⟨k, rfl⟩ : ∃ k, d' = k + 2 := ⟨d' - 2, by omega⟩
  obtain ⟨hN, hL, hC'⟩ := hC
  obtain ⟨⟨sg, ps, r⟩, ho⟩ := hin
  have hr := (userSig_ok ho).1
  subst hr
  have ho' : sigsAccept P'.env [userSig [("input", first.cfg.input)] .null] [.avro first.cfg.input] P'.version = .ok (some (sg, ps, .avro .null)) := by
    rw [hN.same]; exact ho
  have hcall : ∀ Γ : SymTab, Γ.find "input" = some (some (.avro first.cfg.input)) → walk P' Guard.all (k + 2) (.call first.fcn [.ref "input"]) Γ =
      .ok (some (.avro .null), .expr (fun rt => do
        let as ← evalL ([Code.expr (fun _ => getVar "input")].map (fun c => c.toArg rt))
        let vs ← lift (vals as)
        inFresh (callUserFn rt first.fcn vs)), Γ) := by
    intro Γ hΓ
    show walkStep P' Guard.all (walk P' Guard.all (k + 1)) _ _ = _
    have h1 : walk P' Guard.all (k + 1) (.ref "input") (Γ.new true true) = .ok (some (.avro first.cfg.input), .expr (fun _ => getVar "input"), Γ.new true true) := by
      show walkStep P' Guard.all (walk P' Guard.all k) _ _ = _
      have : (Γ.new true true).find "input" = some (some (.avro first.cfg.input)) := hΓ
      simp only [walkStep, this]
    simp only [walkStep, hL.body, walkA, h1]
    refine ebind.2 ⟨_, rfl, ebind.2 ⟨_, rfl, ebind.2 ⟨_, ho', ebind.2 ⟨(), ?_, rfl⟩⟩⟩⟩
    rw [req_iff, List.zip_cons_cons, List.zip_nil_right, List.all_cons, List.all_nil, Bool.and_true]
    exact hself
  obtain ⟨c, h3, h4, hbeg⟩ := chain_compile (method := .emit) (o := o) (by omega) (by decide) hN.special hcall (fun h => absurd rfl h)
  refine ⟨c, h3, fun rt info st hs => begin_run hbeg hs, fun fuel lib info st v ws hlib hSt => ?_⟩
  have hsp := hSt.ready.sp (st.started + 1) st.finished
  rcases flow_sim (S := setupOf fuel lib info st) hlib (first :: rest) ⟨hN, hL, hC'⟩ hA hdn D hD (ws, st.world.emitted)
    (put "actionsFinished" (.int st.finished) (put "actionsStarted" (.int (st.started + 1)) st.world)) v
    (hA.put (by decide) (hA.put (by decide) hSt.agree)) hsp with h5 | ⟨s1, h5, h6, h7⟩
  · exact .inl h5
  · refine .inr ⟨s1.world, ?_, ?_⟩
    · have hrun := action_run (i := first.cfg.input) (o := o) (last := .call first.fcn [.ref "input"]) (method := .emit) (by decide) h4 hSt.ready
        (rt := chainRt (setupOf fuel lib info st) P' (k + 2) D) (v := v)
        (r := (flow (setupOf fuel lib info st) (first :: rest) (ws, st.world.emitted) v).1)
        (s1 := ⟨[PyDict.update [] (("input", v) :: spVars info (st.started + 1) st.finished)], s1.world⟩) (by
          rw [args_run (m := fun _ => getVar "input") (rt := chainRt (setupOf fuel lib info st) P' (k + 2) D) (g := fun as => do
            let vs ← lift (vals as)
            inFresh (callUserFn (chainRt (setupOf fuel lib info st) P' (k + 2) D) first.fcn vs))]
          unfold getVar
          rw [action_vars (List.mem_cons_self ..)]
          show inFresh (callUserFn (chainRt (setupOf fuel lib info st) P' (k + 2) D) first.fcn [v]) _ = _
          unfold inFresh
          have h8 : callUserFn (chainRt (setupOf fuel lib info st) P' (k + 2) D) first.fcn [v] ⟨[[]], put "actionsFinished" (.int st.finished) (put "actionsStarted" (.int (st.started + 1)) st.world)⟩ =
            ((flow (setupOf fuel lib info st) (first :: rest) (ws, st.world.emitted) v).1, s1) := h5
          rw [h8])
      exact hrun
    · exact ⟨Ready.of_sp (h7.sp (S := setupOf fuel lib info st) hA hsp), h6⟩


/-! ## Many values -/

/-- The calls of a host: the results, and the engine afterwards.  An exception does not stop it. -/
def feed (cfg : Config) (c : Compiled) (rt : Rt) (info : Info) : List Val → EngineState → List (Res Val) × EngineState
  | [], st => ([], st)
  | v :: vs, st =>
    let r := actionRun cfg c (fun _ => false) (fun _ => false) rt info st v
    let t := feed cfg c rt info vs r.2
    (r.1 :: t.1, t.2)

/-- The same by hand, for engines with the states `st`, with the counters of the chain. -/
def byHand (one : Int → Int → Flow → Val → Res Val × Flow) : List Val → Flow → Int → Int → List (Res Val) × Flow
  | [], st, _, _ => ([], st)
  | v :: vs, st, a, b =>
    let r := one (a + 1) b st v
    let t := byHand one vs r.2 (a + 1) (match r.1 with | .ok _ => b + 1 | .error _ => b)
    (r.1 :: t.1, t.2)

theorem feed_sim {nodes : List Node} {method : Method} {cfg : Config} {c : Compiled} {rt : Rt} {info : Info} {one : Int → Int → Flow → Val → Res Val × Flow}
    (hnull : method = .emit → ∀ a b st v y, (one a b st v).1 = .ok y → y = .null)
    (h : ∀ (st : EngineState) v ws, Steady nodes info (ws, st.world.emitted) st.world → (one (st.started + 1) st.finished (ws, st.world.emitted) v).1 = .error unfinished ∨ ∃ w1,
      actionRun cfg c (fun _ => false) (fun _ => false) rt info st v = ended method st w1 (one (st.started + 1) st.finished (ws, st.world.emitted) v).1 ∧
      Steady nodes info (one (st.started + 1) st.finished (ws, st.world.emitted) v).2 w1) :
    ∀ (vs : List Val) (st : EngineState) ws, Steady nodes info (ws, st.world.emitted) st.world →
      .error unfinished ∈ (byHand one vs (ws, st.world.emitted) st.started st.finished).1 ∨
      ((feed cfg c rt info vs st).1 = (byHand one vs (ws, st.world.emitted) st.started st.finished).1 ∧
        Steady nodes info (byHand one vs (ws, st.world.emitted) st.started st.finished).2 (feed cfg c rt info vs st).2.world)
  | [], st, ws, hS => .inr ⟨rfl, hS⟩
  | v :: vs, st, ws, hS => by
    rcases h st v ws hS with h1 | ⟨w1, h1, h2⟩
    · exact .inl (List.mem_cons.2 (.inl h1.symm))
    · have hem : w1.emitted = (one (st.started + 1) st.finished (ws, st.world.emitted) v).2.2 := h2.agree.2
      simp only [feed, byHand, h1]
      revert h2 hem
      have hn : method = .emit → ∀ y, (one (st.started + 1) st.finished (ws, st.world.emitted) v).1 = .ok y → y = .null := fun he y hy => hnull he _ _ _ _ y hy
      revert hn
      rcases one (st.started + 1) st.finished (ws, st.world.emitted) v with ⟨r, ws1, out1⟩
      intro hn h2 hem
      simp only at hem hn
      subst hem
      cases r with
      | error e =>
        rcases feed_sim hnull h vs { st with world := w1, started := st.started + 1 } ws1 h2 with h3 | ⟨h3, h4⟩
        · exact .inl (List.mem_cons_of_mem _ h3)
        · exact .inr ⟨by rw [ended, h3], h4⟩
      | ok y =>
        rcases feed_sim hnull h vs { st with world := w1, started := st.started + 1, finished := st.finished + 1 } ws1 h2 with h3 | ⟨h3, h4⟩
        · exact .inl (List.mem_cons_of_mem _ h3)
        · refine .inr ⟨?_, h4⟩
          rw [ended, h3]
          by_cases he : method = .emit
          · rw [if_pos he, hn he y rfl]
          · rw [if_neg he]

/-- C84: any number of values given to a chain of map engines. -/
theorem map_chain_run {d' D : Nat} {first : Node} {rest : List Node} {o : AType} (hC : ∀ nd ∈ first :: rest, MapOk P' nd ∧ nd.d + 1 ≤ d' ∧ nd.n + 1 ≤ D)
    (hA : Apart (first :: rest)) (hT : Typed (first :: rest) first.cfg.input o) (hself : accTy P' Guard.all o (some (.avro o)) = true)
    (hd : rest.length + 2 ≤ d') :
    ∃ c, compile P' Guard.all (walk P' Guard.all d') (chainCfg .map first.cfg.input o (nest (first :: rest) (.ref "input"))) = .ok c ∧
      ∀ (S : Setup) (st : EngineState) vs ws, LibFits S.lib → (∀ x ∈ spNames, (st.world.cells.get? x).isSome) → Agree (first :: rest) (ws, st.world.emitted) st.world →
        let one := fun a b (f : Flow) v => ((mapFlow { S with started := a, finished := b } (first :: rest) f.1 v).1,
          ((mapFlow { S with started := a, finished := b } (first :: rest) f.1 v).2, f.2))
        let cfg := chainCfg .map first.cfg.input o (nest (first :: rest) (.ref "input"))
        let st1 := (beginRun cfg c (chainRt S P' d' D) S.info st).2
        .error unfinished ∈ (byHand one vs (ws, st.world.emitted) st.started st.finished).1 ∨
        ((feed cfg c (chainRt S P' d' D) S.info vs st1).1 = (byHand one vs (ws, st.world.emitted) st.started st.finished).1 ∧
          Agree (first :: rest) (byHand one vs (ws, st.world.emitted) st.started st.finished).2 (feed cfg c (chainRt S P' d' D) S.info vs st1).2.world) := by
  obtain ⟨c, h1, h2, h3⟩ := map_chain (P' := P') hC hA hT hself hd
  refine ⟨c, h1, ?_⟩
  intro S st vs ws hlib hs hAg one cfg st1
  have hst1 : st1 = { st with world := begun S.info st.world } := by
    show (beginRun _ _ _ _ _).2 = _
    rw [h2 _ _ _ hs]
  have key := feed_sim (nodes := first :: rest) (method := .map) (cfg := cfg) (c := c) (rt := chainRt S P' d' D) (info := S.info) (one := one) (fun h => by cases h)
    (fun st v ws hS => h3 S.fuel S.lib S.info st v ws hlib hS) vs st1 ws (by rw [hst1]; exact begun_steady hA hs hAg)
  have he : st1.world.emitted = st.world.emitted ∧ st1.started = st.started ∧ st1.finished = st.finished := by rw [hst1]; exact ⟨rfl, rfl, rfl⟩
  rw [he.1, he.2.1, he.2.2] at key
  exact key.imp_right (fun h => ⟨h.1, h.2.agree⟩)

/-- C84: any number of values given to a chain with an emit engine. -/
theorem emit_chain_run {d' D : Nat} {first : Node} {rest : List Node} {o : AType} (hC : Chained P' (first :: rest))
    (hA : Apart (first :: rest)) (hdn : ∀ nd ∈ first :: rest, nd.d + 3 ≤ d') (hD : depth (first :: rest) ≤ D)
    (hin : ∃ o, sigsAccept first.P.env [userSig [("input", first.cfg.input)] .null] [.avro first.cfg.input] first.P.version = .ok (some o))
    (hself : accTy P' Guard.all first.cfg.input (some (.avro first.cfg.input)) = true) :
    ∃ c, compile P' Guard.all (walk P' Guard.all d') (chainCfg .emit first.cfg.input o (.call first.fcn [.ref "input"])) = .ok c ∧
      ∀ (S : Setup) (st : EngineState) vs ws, LibFits S.lib → (∀ x ∈ spNames, (st.world.cells.get? x).isSome) → Agree (first :: rest) (ws, st.world.emitted) st.world →
        let one := fun a b (f : Flow) v => flow { S with started := a, finished := b } (first :: rest) f v
        let cfg := chainCfg .emit first.cfg.input o (.call first.fcn [.ref "input"])
        let st1 := (beginRun cfg c (chainRt S P' d' D) S.info st).2
        .error unfinished ∈ (byHand one vs (ws, st.world.emitted) st.started st.finished).1 ∨
        ((feed cfg c (chainRt S P' d' D) S.info vs st1).1 = (byHand one vs (ws, st.world.emitted) st.started st.finished).1 ∧
          Agree (first :: rest) (byHand one vs (ws, st.world.emitted) st.started st.finished).2 (feed cfg c (chainRt S P' d' D) S.info vs st1).2.world) := by
  obtain ⟨c, h1, h2, h3⟩ := emit_chain (P' := P') (o := o) hC hA hdn hD hin hself
  refine ⟨c, h1, ?_⟩
  intro S st vs ws hlib hs hAg one cfg st1
  have hst1 : st1 = { st with world := begun S.info st.world } := by
    show (beginRun _ _ _ _ _).2 = _
    rw [h2 _ _ _ hs]
  have key := feed_sim (nodes := first :: rest) (method := .emit) (cfg := cfg) (c := c) (rt := chainRt S P' d' D) (info := S.info) (one := one)
    (fun _ a b st v y hy => flow_null _ _ _ _ hy)
    (fun st v ws hS => h3 S.fuel S.lib S.info st v ws hlib hS) vs st1 ws (by rw [hst1]; exact begun_steady hA hs hAg)
  have he : st1.world.emitted = st.world.emitted ∧ st1.started = st.started ∧ st1.finished = st.finished := by rw [hst1]; exact ⟨rfl, rfl, rfl⟩
  rw [he.1, he.2.1, he.2.2] at key
  exact key.imp_right (fun h => ⟨h.1, h.2.agree⟩)

end Verif.Chain
