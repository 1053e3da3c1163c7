import Verif.Chain.Flow
/-!
# Chaining of engines: what the chain does (C84)
-/

namespace Verif.Chain
open Avro Scope Path Sig Ast Lang

/-! ## The engines in the document -/

/-- The engine passes the check on its own, and the document of the chain has its parts under new names. -/
structure NodeOk (P' : Prog) (nd : Node) : Prop where
  version : nd.cfg.version = none
  method : nd.cfg.method ≠ .fold
  compiled : compile nd.P Guard.all (walk nd.P Guard.all nd.d) nd.cfg = .ok nd.code
  funs : FunsOk nd.P (walk nd.P Guard.all nd.d)
  clean : CleanL nd.R spNames true nd.cfg.action
  same : P' = { nd.P with cells := P'.cells, pools := P'.pools, funs := P'.funs }
  cells : ∀ c t, nd.P.cells.get? c = some t → P'.cells.get? (nd.R.cell c) = some t
  special : ∀ x ∈ spNames, P'.cells.get? x = some (spType x)
  pools : ∀ c t, nd.P.pools.get? c = some t → P'.pools.get? (nd.R.pool c) = some t
  user : ∀ n ps r b, nd.P.funs.get? n = some (.user ps r b) → n ≠ "emit" ∧ CleanE nd.R spNames false (.fcnDef ps r b) ∧
    P'.funs.get? (nd.R.fcn n) = some (.user ps r (chainL nd.R [] b))
  lib : ∀ n sigs, nd.P.funs.get? n = some (.lib sigs) → n ≠ "emit" → nd.R.fcn n = n ∧ P'.funs.get? n = some (.lib sigs)
  emit : nd.P.funs.get? "emit" = if nd.cfg.method = .emit then some (.lib [emitSig nd.cfg.output]) else none

/-- The type of the result of the action. -/
def Gives (nd : Node) (t : Ty) : Prop := ∃ Γ, block (walk nd.P Guard.all nd.d) nd.cfg.action (sect topTab (("input", some (.avro nd.cfg.input)) :: (stdSyms nd.cfg ++ countSyms))) =
  .ok (t, nd.code.action, Γ)

/-- A function with the type of the output as parameter: the call takes nothing else (`Verif.Sig`, C38: so it is but for
defects of the signatures), and it takes the result of a map engine.  There are unions that the call does not take
although the type accepts them (`user_call_incomplete`). -/
structure Takes (nd : Node) : Prop where
  sound : nd.cfg.method = .emit → ∀ u o, sigsAccept nd.P.env [userSig [("input", nd.cfg.output)] .null] [u] nd.P.version = .ok (some o) →
    accTy nd.P Guard.all nd.cfg.output (some u) = true
  gives : nd.cfg.method = .map → ∀ t, Gives nd (some (.avro t)) → ∃ o, sigsAccept nd.P.env [userSig [("input", nd.cfg.output)] .null] [.avro t] nd.P.version = .ok (some o)

/-- The body of the function for the action (573-580). -/
def emitBody (nd : Node) (rest : List Node) : List Ex :=
  match nd.cfg.method with
  | .emit => chainL nd.R spNames nd.cfg.action ++ [.litNull]
  | _ => match rest with
    | nx :: _ => [.call nx.fcn [.do_ (chainL nd.R spNames nd.cfg.action)], .litNull]
    | [] => [.call "emit" [.do_ (chainL nd.R spNames nd.cfg.action)]]

/-- The engine and the next one in a chain with the method `emit`. -/
structure Link (P' : Prog) (nd : Node) (rest : List Node) : Prop where
  emit : nd.R.emit = if nd.cfg.method = .emit then rest.head?.map Node.fcn else none
  body : P'.funs.get? nd.fcn = some (.user [("input", nd.cfg.input)] .null (emitBody nd rest))
  next : ∀ nx l, rest = nx :: l → nx.cfg.input = nd.cfg.output
  last : rest = [] → nd.R.fcn "emit" = "emit" ∧ P'.funs.get? "emit" = some (.lib [emitSig nd.cfg.output])
  takes : Takes nd

/-- All engines of the chain. -/
def Chained (P' : Prog) : List Node → Prop
  | [] => True
  | nd :: rest => NodeOk P' nd ∧ Link P' nd rest ∧ Chained P' rest

/-- What is assumed of library functions: they do nothing but compute and call the functions that they are given. -/
def LibFits (lib : Lib) : Prop := ∀ X : Ctx, X.Fits → ∀ k n pt as as', n ≠ "emit" → List.Forall₂ (ARel X k) as as' →
  Sim X k Same (lib n pt as) (lib n pt as')

/-! ## Parts -/

theorem emit_same (t : AType) (x : String) (env : Env) (tys : List CType) (v : Ver) :
    (userSig [(x, t)] .null).accepts env tys v = (emitSig t).accepts env tys v := by
  unfold Sig1.accepts
  rfl

theorem sigs_one {env : Env} {s : Sig1} {tys : List CType} {v : Ver} {o : Sig1 × List CType × CType} :
    sigsAccept env [s] tys v = .ok (some o) ↔ o.1 = s ∧ s.accepts env tys v = .ok (some o.2) := by
  obtain ⟨a, b⟩ := o
  unfold sigsAccept
  cases h : s.accepts env tys v with
  | error e => simp
  | ok r => cases r with
    | none => simp [sigsAccept]
    | some r => simp [eq_comm]

theorem emit_takes {P : Prog} {t : AType} {u : CType} :
    (∃ o, sigsAccept P.env [userSig [("input", t)] .null] [u] P.version = .ok (some o)) ↔ ∃ o, sigsAccept P.env [emitSig t] [u] P.version = .ok (some o) := by
  simp only [sigs_one, emit_same]
  constructor
  · rintro ⟨⟨s, o⟩, -, h⟩; exact ⟨⟨_, o⟩, rfl, h⟩
  · rintro ⟨⟨s, o⟩, -, h⟩; exact ⟨⟨_, o⟩, rfl, h⟩

variable {S : Setup} {nd : Node} {rest : List Node} {P' : Prog}

theorem setting_of (hA : Apart (nd :: rest)) (hN : NodeOk P' nd) (hR : nd.R.emit = if nd.cfg.method = .emit then rest.head?.map Node.fcn else none)
    (hnx : ∀ nx l, nd.cfg.method = .emit → rest = nx :: l → ∃ b, P'.funs.get? nx.fcn = some (.user [("input", nd.cfg.output)] .null b))
    (hlast : nd.cfg.method = .emit → rest = [] → nd.R.fcn "emit" = "emit" ∧ P'.funs.get? "emit" = some (.lib [emitSig nd.cfg.output]))
    (ht : nd.cfg.method = .emit → ∀ u o, sigsAccept nd.P.env [userSig [("input", nd.cfg.output)] .null] [u] nd.P.version = .ok (some o) →
      accTy nd.P Guard.all nd.cfg.output (some u) = true)
    (after : List Val → Flow) (b : World) : Setting nd.R (ctxOf S nd rest after b) spType nd.P P' := by
  refine ⟨ctx_fits hA after b, ⟨hN.same, ?_, hN.special, ?_, ?_, ?_, ?_⟩, ?_, ?_⟩
  · exact fun c t h => ⟨hN.cells c t h, ⟨t, h⟩, rfl⟩
  · exact fun c t h => ⟨hN.pools c t h, ⟨t, h⟩, rfl⟩
  · exact fun n ps r b h => ⟨fun _ => (hN.user n ps r b h).1, _, (hN.user n ps r b h).2.2⟩
  · intro n sigs h1 h2
    by_cases hn : n = "emit"
    · subst hn
      rw [hN.emit] at h1
      by_cases hm : nd.cfg.method = .emit
      · rw [if_pos hm] at h1 hR
        cases h1
        cases rest with
        | nil => exact hlast hm rfl
        | cons nx l => rw [hR] at h2; exact absurd rfl (h2 rfl)
      · rw [if_neg hm] at h1; cases h1
    · exact hN.lib n sigs h1 hn
  · intro next h1
    rw [hR] at h1
    by_cases hm : nd.cfg.method = .emit
    · rw [if_pos hm] at h1
      cases rest with
      | nil => cases h1
      | cons nx l =>
        cases h1
        obtain ⟨b, hb⟩ := hnx nx l hm rfl
        refine ⟨nd.cfg.output, "input", b, ?_, hb, fun u o ho => by
          obtain ⟨o', ho'⟩ := emit_takes.2 ⟨o, ho⟩
          exact ht hm u o' ho'⟩
        rw [hN.emit, if_pos hm]
    · rw [if_neg hm] at h1; cases h1
  · intro x hx
    obtain ⟨⟨y, v⟩, h1, rfl⟩ := List.mem_map.1 hx
    exact ⟨v, h1⟩
  · intro j hj
    have : ("$" ++ toString j).toList.head? = some '$' := by rw [String.toList_append]; rfl
    have h2 : ∀ x ∈ spNames, x.toList.head? ≠ some '$' := by decide +kernel
    exact h2 _ hj this

theorem compile_action {P : Prog} {g : Guard} {w : Walk} {cfg : Config} {c : Compiled} (h : compile P g w cfg = .ok c) (hm : cfg.method ≠ .fold) :
    ∃ t Γ, block w cfg.action (sect topTab (("input", some (.avro cfg.input)) :: (stdSyms cfg ++ countSyms))) = .ok (t, c.action, Γ) ∧
      (cfg.method = .emit ∨ accTy P g cfg.output t = true) := by
  have htab : tallyTab cfg = topTab := by unfold tallyTab; split <;> first | contradiction | rfl
  simp only [compile, ebind] at h
  obtain ⟨⟨_, bs, _⟩, -, h⟩ := h
  have key : ∀ t a Γ (me : Option (Rt → M Val)) (es : List (Rt → M Val)), (match cfg.method with
      | .emit => (.ok ⟨fun rt => doM (bs.map (fun (f : Rt → M Val) => f rt)), a, fun rt => doM (es.map (fun (f : Rt → M Val) => f rt)), me⟩ : Res Compiled)
      | _ => req (accTy P g cfg.output t) >>= fun _ => .ok ⟨fun rt => doM (bs.map (fun (f : Rt → M Val) => f rt)), a, fun rt => doM (es.map (fun (f : Rt → M Val) => f rt)), me⟩) = .ok c →
      block w cfg.action (sect (tallyTab cfg) (("input", some (.avro cfg.input)) :: (stdSyms cfg ++ countSyms))) = .ok (t, a, Γ) →
    ∃ t Γ, block w cfg.action (sect topTab (("input", some (.avro cfg.input)) :: (stdSyms cfg ++ countSyms))) = .ok (t, c.action, Γ) ∧
      (cfg.method = .emit ∨ accTy P g cfg.output t = true) := by
    intro t a Γ me es h h1
    rw [htab] at h1
    split at h
    · next he => cases h; exact ⟨t, Γ, h1, .inl he⟩
    · obtain ⟨_, h2, h3⟩ := ebind.1 h
      cases h3
      exact ⟨t, Γ, h1, .inr (req_iff.1 h2)⟩
  cases hmg : cfg.merge with
  | none =>
    rw [hmg] at h
    simp only [ebind] at h
    obtain ⟨mg, -, ⟨ets, es, Γe⟩, -, ⟨t, a, Γa⟩, h4, h5⟩ := h
    exact key t a Γa mg es h5 h4
  | some mes =>
    rw [hmg] at h
    simp only [ebind] at h
    obtain ⟨⟨tm, mm, Γm⟩, -, _, -, mg, -, ⟨ets, es, Γe⟩, -, ⟨t, a, Γa⟩, h4, h5⟩ := h
    exact key t a Γa mg es h5 h4

/-- The table for the body of the function of the action. -/
theorem grel_action {i : AType} {cfg : Config} (hv : cfg.version = none) {Γ' : SymTab} (hne : Γ' ≠ []) (hw : Γ'.within = false)
    (hf : ∀ x, x ∉ spNames → Γ'.find x = if x = "input" then some (some (.avro i)) else none) :
    GRel spNames spType true (sect topTab (("input", some (.avro i)) :: (stdSyms cfg ++ countSyms))) Γ' := by
  have hfind : ∀ x, (sect topTab (("input", some (.avro i)) :: (stdSyms cfg ++ countSyms))).find x =
      if x = "actionsFinished" then some (some (.avro .long)) else if x = "actionsStarted" then some (some (.avro .long))
      else if x = "metadata" then some (some (.avro (.map .string))) else if x = "instance" then some (some (.avro .int))
      else if x = "name" then some (some (.avro .string)) else if x = "input" then some (some (.avro i)) else none := by
    intro x
    unfold stdSyms
    rw [hv]
    show SymTab.find (Lang.putAll (topTab.new true false) _) x = _
    have hput : ∀ (Γ : SymTab) y t, Γ ≠ [] → Γ.put y t ≠ [] := by
      intro Γ y t h
      cases Γ with
      | nil => exact (h rfl).elim
      | cons s up => simp [SymTab.put]
    have h0 : (topTab.new true false) ≠ [] := by simp [SymTab.new]
    simp only [countSyms, List.nil_append, List.cons_append, Lang.putAll, List.foldl_cons, List.foldl_nil]
    rw [find_put (hput _ _ _ (hput _ _ _ (hput _ _ _ (hput _ _ _ (hput _ _ _ h0))))), find_put (hput _ _ _ (hput _ _ _ (hput _ _ _ (hput _ _ _ h0)))),
      find_put (hput _ _ _ (hput _ _ _ (hput _ _ _ h0))), find_put (hput _ _ _ (hput _ _ _ h0)), find_put (hput _ _ _ h0), find_put h0]
    rfl
  refine ⟨by simp [sect, SymTab.new], hne, ?_, ?_, ?_, ?_⟩
  · intro x hx
    rw [hf x hx, hfind x]
    simp only [spNames, List.mem_cons, List.not_mem_nil, or_false, not_or] at hx
    obtain ⟨h1, h2, h3, h4, h5⟩ := hx
    rw [if_neg h5, if_neg h4, if_neg h3, if_neg h2, if_neg h1]
  · intro x _ h
    unfold sect at h
    simp only [SymTab.new, SymTab.writable, PyDict.get?_nil] at h
    cases h
  · rw [hw]; rfl
  · intro _ x hx
    rw [hfind x]
    simp only [spNames, List.mem_cons, List.not_mem_nil, or_false] at hx
    rcases hx with rfl | rfl | rfl | rfl | rfl <;> rfl

/-- The action of an engine passes the check in the chain and does the same. -/
theorem action_code {X : Ctx} (hX : X.names = spNames) (hS : Setting nd.R X spType nd.P P') (hN : NodeOk P' nd) {m : Nat} (hm : nd.d ≤ m) {Γ' : SymTab}
    (hne : Γ' ≠ []) (hw : Γ'.within = false) (hf : ∀ x, x ∉ spNames → Γ'.find x = if x = "input" then some (some (.avro nd.cfg.input)) else none) :
    ∃ t m' Γ1, block (walk P' Guard.all m) (chainL nd.R spNames nd.cfg.action) Γ' = .ok (t, m', Γ1) ∧ CSim nd.R X nd.P true nd.code.action m' ∧
      (nd.cfg.method = .emit ∨ accTy nd.P Guard.all nd.cfg.output t = true ∧ Gives nd t) := by
  obtain ⟨t, Γ, h1, h2⟩ := compile_action hN.compiled hN.method
  have hG := grel_action (i := nd.cfg.input) hN.version hne hw hf
  have hc := hN.clean
  rw [← hX] at hG hc
  obtain ⟨⟨t', m', Γ1⟩, h3, h4, h5, h6⟩ := block_sim (walk_chain hS nd.d m hm true) hc hG _ h1
  cases h4
  refine ⟨t, m', Γ1, ?_, h5, h2.imp id (fun h => ⟨h, Γ, h1⟩)⟩
  unfold vars at h3
  rw [if_pos rfl, hX] at h3
  exact h3

/-- The scopes at the start. -/
theorem start_rel {X : Ctx} {S : Setup} (hsp : X.sp = S.sp) {w w' : World} (hW : X.W w w') (v : Val) :
    Rel X true ⟨[PyDict.update [] (("input", v) :: S.sp)], w⟩ ⟨[[("input", v)], []], w'⟩ := by
  refine ⟨⟨by simp, ⟨[[]], by simp, ?_⟩, fun _ => ?_⟩, hW⟩
  · unfold Ctx.names
    rw [hsp]
    simp [Setup.sp, spVars, PyDict.update, PyDict.set, strip]
  · rw [hsp]
    intro x u hx
    refine get?_vars ?_ (List.mem_cons_of_mem _ hx)
    show ("input" :: spNames).Nodup
    decide +kernel

theorem walkL_append {w : Walk} {es fs : List Ex} : ∀ {Γ : SymTab} {ts ms Γ1}, walkL w es Γ = .ok (ts, ms, Γ1) → ∀ {us ns Γ2}, walkL w fs Γ1 = .ok (us, ns, Γ2) →
    walkL w (es ++ fs) Γ = .ok (ts ++ us, ms ++ ns, Γ2) := by
  induction es with
  | nil => intro Γ ts ms Γ1 h us ns Γ2 h2; cases h; exact h2
  | cons e es ih =>
    intro Γ ts ms Γ1 h us ns Γ2 h2
    rw [walkL] at h
    obtain ⟨⟨t, m, Γ3⟩, h3, h4⟩ := ebind.1 h
    obtain ⟨⟨ts', ms', Γ4⟩, h5, h6⟩ := ebind.1 h4
    cases h6
    rw [List.cons_append, walkL]
    exact ebind.2 ⟨_, h3, ebind.2 ⟨_, ih h5 h2, rfl⟩⟩

theorem lastTy_append (ts : List Ty) (t : Ty) : lastTy (ts ++ [t]) = .ok t := by
  induction ts with
  | nil => rfl
  | cons u ts ih => cases ts with
    | nil => rfl
    | cons u' ts => exact ih

theorem evalL_append {ms ns : List (M Val)} (s : St) : evalL (ms ++ ns) s = (match evalL ms s with
    | (.ok as, s) => (match evalL ns s with
      | (.ok bs, s) => (.ok (as ++ bs), s)
      | (.error e, s) => (.error e, s))
    | (.error e, s) => (.error e, s)) := by
  induction ms generalizing s with
  | nil => show evalL ns s = (match evalL ns s with
      | (.ok bs, s) => (.ok ([] ++ bs), s)
      | (.error e, s) => (.error e, s))
           rcases evalL ns s with ⟨_ | b, s1⟩ <;> rfl
  | cons m ms ih =>
    rw [List.cons_append, evalL, evalL, bind_run, bind_run]
    rcases m s with ⟨_ | a, s1⟩
    · rfl
    · simp only [bind_run, ih]
      rcases evalL ms s1 with ⟨_ | as, s2⟩
      · rfl
      · have hp : ∀ (x : List Val) (s : St), (pure x : M (List Val)) s = (.ok x, s) := fun _ _ => rfl
        simp only [hp]
        rcases hn : evalL ns s2 with ⟨_ | bs, s3⟩ <;> rfl

theorem doM_null {ms : List (M Val)} (s : St) : doM (ms ++ [pure .null]) s = (match doM ms s with
    | (.ok _, s) => (.ok .null, s)
    | (.error e, s) => (.error e, s)) := by
  unfold doM
  rw [bind_run, bind_run, evalL_append]
  rcases evalL ms s with ⟨_ | as, s1⟩
  · rfl
  · show (Except.ok ((as ++ [Val.null]).getLastD .null), s1) = _
    rw [List.getLastD_eq_getLast?, List.getLast?_append]
    rfl

theorem litNull_walk {m : Nat} (hm : 1 ≤ m) (Γ : SymTab) : walk P' Guard.all m .litNull Γ = .ok (some (.avro .null), .expr (fun _ => pure .null), Γ) := by
  obtain ⟨k, rfl⟩ : ∃ k, m = k + 1 := ⟨m - 1, by omega⟩
  rfl

theorem block_null {m : Nat} (hm : 1 ≤ m) {es : List Ex} {Γ Γ1 : SymTab} {t : Ty} {c : Rt → M Val} (h : block (walk P' Guard.all m) es Γ = .ok (t, c, Γ1)) :
    ∃ c', block (walk P' Guard.all m) (es ++ [.litNull]) Γ = .ok (some (.avro .null), c', Γ1) ∧ ∀ rt s, c' rt s = (match c rt s with
      | (.ok _, s) => (.ok .null, s)
      | (.error e, s) => (.error e, s)) := by
  unfold block at h
  obtain ⟨⟨ts, ms, Γ2⟩, h1, h2⟩ := ebind.1 h
  obtain ⟨u, h3, h4⟩ := ebind.1 h2
  cases h4
  have h5 : walkL (walk P' Guard.all m) [.litNull] Γ1 = .ok ([some (.avro .null)], [fun _ => pure .null], Γ1) := by
    rw [walkL]
    unfold walkE
    rw [litNull_walk hm]
    rfl
  refine ⟨fun rt => doM ((ms ++ [fun _ => pure Val.null]).map (fun (f : Rt → M Val) => f rt)), ?_, fun rt s => ?_⟩
  · unfold block
    rw [walkL_append h1 h5]
    show (lastTy (ts ++ [some (.avro .null)]) >>= _) = _
    rw [lastTy_append]
    rfl
  · have h6 := doM_null (ms := ms.map (fun (f : Rt → M Val) => f rt)) s
    have h7 : (ms ++ [fun _ => pure Val.null]).map (fun (f : Rt → M Val) => f rt) = ms.map (fun (f : Rt → M Val) => f rt) ++ [pure .null] := List.map_append
    show doM ((ms ++ [fun _ => pure Val.null]).map (fun (f : Rt → M Val) => f rt)) s = _
    rw [h7]
    exact h6

/-- The function of an action. -/
theorem fcn_check {m : Nat} {i r : AType} {body : List Ex} {t : Ty} {c : Rt → M Val} {Γ1 : SymTab}
    (h : block (walk P' Guard.all m) body (Lang.putAll ((topTab.new true false).new true false) [("input", some (.avro i))]) = .ok (t, c, Γ1))
    (ht : accTy P' Guard.all r t = true) :
    walk P' Guard.all (m + 1) (.fcnDef [("input", i)] r body) (topTab.new true false) =
      .ok (some (.fcn [.avro i] (.avro r)), .fn true (fun rt vs => inFrame (PyDict.update [] (["input"].zip vs)) (c rt)), topTab.new true false) := by
  show walkStep P' Guard.all (walk P' Guard.all m) _ _ = _
  simp only [walkStep]
  have h1 : req (decide ([("input", i)].length ≤ 22)) = .ok () := rfl
  have h2 : req ([("input", i)].all (fun p => validSymbolName p.1)) = .ok () := by
    rw [req_iff, List.all_cons, List.all_nil, Bool.and_true]
    show validSymbolName "input" = true
    decide +kernel
  refine ebind.2 ⟨(), h1, ebind.2 ⟨(), h2, ebind.2 ⟨_, h, ebind.2 ⟨(), ?_, rfl⟩⟩⟩⟩
  rw [req_iff, ht, Bool.or_true]

theorem find_input {i : AType} (x : String) : (Lang.putAll ((topTab.new true false).new true false) [("input", some (.avro i))]).find x =
    if x = "input" then some (some (.avro i)) else none := by
  simp only [Lang.putAll, List.foldl_cons, List.foldl_nil]
  rw [find_put (by simp [SymTab.new])]
  rfl

/-! ## A value given to the chain -/

/-- The engine object of the chain, for calls up to a depth. -/
def chainRt (S : Setup) (P' : Prog) (d' D : Nat) : Rt := rtN P' (walk P' Guard.all d') S.fuel noLimit (withEmit S.lib hostEmit) D

/-- The value goes to the first engine of the list; if there is none, to the host. -/
def enter (S : Setup) (P' : Prog) (d' D : Nat) : List Node → Val → M Val
  | [], v => hostEmit v
  | nd :: _, v => callUserFn (chainRt S P' d' D) nd.fcn [v]

/-- How deep the calls are in all engines together. -/
def depth : List Node → Nat
  | [] => 0
  | nd :: rest => nd.n + depth rest + 1

/-- The function of the first engine does what the engines do by hand. -/
def Does (S : Setup) (P' : Prog) (d' D : Nat) (nodes : List Node) : Prop := ∀ st w' v, Agree nodes st w' → SpOk S.sp w' →
  (flow S nodes st v).1 = .error unfinished ∨ ∃ s1, enter S P' d' D nodes v ⟨[[]], w'⟩ = ((flow S nodes st v).1, s1) ∧
    Agree nodes (flow S nodes st v).2 s1.world ∧ Untouched nodes w' s1.world

theorem em_sim {d' D : Nat} (hA : Apart (nd :: rest)) (hD : Does S P' d' D rest) {after : List Val → Flow}
    (hafter : ∀ h x, after (h ++ [x]) = (flow S rest (after h) x).2) {b : World} (k : Bool) (x : Val) :
    Sim (ctxOf S nd rest after b) k Same (fun s => ((flow S rest (after s.world.emitted) x).1, push x s)) (inFresh (enter S P' d' D rest x)) := by
  intro s s' hr
  obtain ⟨h1, h2, h3, h4⟩ := hr.world
  rcases hD _ _ x h2 h3 with h5 | ⟨s1, h5, h6, h7⟩
  · exact .inl h5
  · refine .inr ⟨rfl, ?_, ?_⟩
    · refine ⟨?_, ?_⟩
      · unfold inFresh
        rw [h5]
        exact hr.chain
      · unfold inFresh
        rw [h5]
        refine ⟨?_, ?_, h7.sp hA.tail h3, h4.trans h7.cons⟩
        · exact h7.own (List.pairwise_cons.1 hA.pair).1 h1
        · show Agree rest (after (s.world.emitted ++ [x])) _
          rw [hafter]
          exact h6
    · unfold inFresh
      rw [h5]
      exact RRel.refl

theorem rt_of {d' D k : Nat} {X : Ctx} (hX : X.names = spNames) (hS : Setting nd.R X spType nd.P P') (hN : NodeOk P' nd) (hlib : LibFits S.lib) (hd : nd.d ≤ d') (hD : nd.n + k ≤ D)
    {em : Val → M Val} (hhost : nd.R.emit = none → nd.cfg.method = .emit → ∀ k x, Sim X k Same (em x) (hostEmit x))
    (hnext : ∀ n', k ≤ n' → ∀ next, nd.R.emit = some next → ∀ k x, Sim X k Same (em x) (inFresh (callUserFn (chainRt S P' d' n') next [x]))) :
    RtRel nd.R X nd.P (rtN nd.P (walk nd.P Guard.all nd.d) S.fuel noLimit (withEmit S.lib em) nd.n) (chainRt S P' d' D) := by
  refine rt_chain hS hd hN.funs ?_ (k := k) ?_ ?_ _ _ hD
  · intro n ps r b h
    rw [hX]
    exact (hN.user n ps r b h).2
  · intro n sigs h1 h2 k pt as as' has
    unfold withEmit
    by_cases hn : n = "emit"
    · rw [if_pos hn, if_pos hn, vals_sim has]
      subst hn
      have hm : nd.cfg.method = .emit := by
        by_contra hm
        rw [hN.emit, if_neg hm] at h1
        cases h1
      have he : nd.R.emit = none := by
        cases he : nd.R.emit with
        | none => rfl
        | some x => exact absurd rfl (h2 (by rw [he]; rfl))
      refine Sim.bindS (Sim.lift_same _) (fun vs => ?_)
      rcases vs with _ | ⟨v, _ | ⟨u, vs⟩⟩
      · exact Sim.raise _
      · exact hhost he hm k v
      · exact Sim.raise _
    · rw [if_neg hn, if_neg hn]
      exact hlib X hS.fits k n pt as as' hn has
  · intro n' hn' next h1 b pt a a' haa
    unfold withEmit
    rw [if_pos rfl]
    have : vals [a'] = vals [a] := vals_sim (.cons haa .nil)
    rw [this]
    cases haa with
    | val v => exact hnext n' hn' next h1 b v
    | fn c h => exact Sim.raise (.py "TypeError")

theorem hostEmit_fresh (x : Val) : inFresh (hostEmit x) = hostEmit x := rfl

/-- The function of an action runs its body with the input in a scope of its own. -/
theorem call_action {d' D : Nat} {f : String} {i r : AType} {body : List Ex} {c : Rt → M Val} {t : Ty} {Γ1 : SymTab}
    (hf : P'.funs.get? f = some (.user [("input", i)] r body))
    (h : block (walk P' Guard.all d') body (Lang.putAll ((topTab.new true false).new true false) [("input", some (.avro i))]) = .ok (t, c, Γ1))
    (ht : accTy P' Guard.all r t = true) (v : Val) (w' : World) :
    callUserFn (chainRt S P' (d' + 1) (D + 1)) f [v] ⟨[[]], w'⟩ = inFrame [("input", v)] (c (chainRt S P' (d' + 1) D)) ⟨[[]], w'⟩ := by
  unfold callUserFn chainRt
  simp only [rtN, hf, fcn_check h ht]
  rfl

theorem inFrame_run {m : M Val} {f : Frame Val} {w : World} : inFrame f m ⟨[[]], w⟩ = ((m ⟨[f, []], w⟩).1, { (m ⟨[f, []], w⟩).2 with chain := (m ⟨[f, []], w⟩).2.chain.tail }) := rfl

theorem flow_null : ∀ (nodes : List Node) (st : Flow) (v y : Val), (flow S nodes st v).1 = .ok y → y = .null
  | [], (ws, out), v, y, h => by cases h; rfl
  | _ :: _, ([], out), v, y, h => by cases h
  | nd :: rest, (w :: ws, out), v, y, h => by
    rw [flow] at h
    simp only at h
    split at h
    · split at h
      · cases h; rfl
      · cases h
    · split at h
      · exact flow_null rest _ _ _ h
      · cases h

theorem accTy_avro {P : Prog} {t : AType} {u : Ty} (h : accTy P Guard.all t u = true) : ∃ a, u = some (.avro a) := by
  unfold accTy at h
  split at h
  · exact ⟨_, rfl⟩
  · cases h

theorem do_walk {k : Nat} {body : List Ex} {Γ Γ1 : SymTab} {a : AType} {m : Rt → M Val}
    (h : block (walk P' Guard.all k) body (Γ.new false false) = .ok (some (.avro a), m, Γ1)) : walk P' Guard.all (k + 1) (.do_ body) Γ = .ok (some (.avro a), .expr m, Γ) := by
  show walkStep P' Guard.all (walk P' Guard.all k) _ _ = _
  simp only [walkStep, h]
  rfl

theorem call_walk {k : Nat} {body : List Ex} {Γ Γ1 : SymTab} {a t : AType} {m : Rt → M Val} {f x : String} {b : List Ex} {o : Sig1 × List CType × CType}
    (h : block (walk P' Guard.all k) body ((Γ.new true true).new false false) = .ok (some (.avro a), m, Γ1))
    (hf : P'.funs.get? f = some (.user [(x, t)] .null b)) (ho : sigsAccept P'.env [userSig [(x, t)] .null] [.avro a] P'.version = .ok (some o))
    (ht : accTy P' Guard.all t (some (.avro a)) = true) :
    walk P' Guard.all (k + 2) (.call f [.do_ body]) Γ = .ok (some (.avro .null), .expr (fun rt => do
      let as ← evalL ([Code.expr m].map (fun c => c.toArg rt))
      let vs ← lift (vals as)
      inFresh (callUserFn rt f vs)), Γ) := by
  obtain ⟨s, ps, r⟩ := o
  have hr := (userSig_ok ho).1
  subst hr
  show walkStep P' Guard.all (walk P' Guard.all (k + 1)) _ _ = _
  simp only [walkStep, hf, walkA, do_walk h]
  refine ebind.2 ⟨_, rfl, ebind.2 ⟨_, rfl, ebind.2 ⟨_, ho, ebind.2 ⟨(), ?_, rfl⟩⟩⟩⟩
  rw [req_iff, List.zip_cons_cons, List.zip_nil_right, List.all_cons, List.all_nil, Bool.and_true]
  exact ht

theorem emit_walk {k : Nat} {body : List Ex} {Γ Γ1 : SymTab} {a t : AType} {m : Rt → M Val} {o : Sig1 × List CType × CType}
    (h : block (walk P' Guard.all k) body ((Γ.new true true).new false false) = .ok (some (.avro a), m, Γ1))
    (hf : P'.funs.get? "emit" = some (.lib [emitSig t])) (ho : sigsAccept P'.env [emitSig t] [.avro a] P'.version = .ok (some o)) :
    ∃ pt, walk P' Guard.all (k + 2) (.call "emit" [.do_ body]) Γ = .ok (some (.avro .null), .expr (fun rt => do
      let as ← evalL ([Code.expr m].map (fun c => c.toArg rt))
      rt.lib "emit" pt as), Γ) := by
  obtain ⟨s, ps, r⟩ := o
  have ho' : sigsAccept P'.env [userSig [("output", t)] .null] [.avro a] P'.version = .ok (some (userSig [("output", t)] .null, ps, r)) :=
    sigs_one.2 ⟨rfl, (emit_same ..).trans (sigs_one.1 ho).2⟩
  have hr := (userSig_ok ho').1
  subst hr
  refine ⟨some (ps ++ [.avro .null]), ?_⟩
  show walkStep P' Guard.all (walk P' Guard.all (k + 1)) _ _ = _
  simp only [walkStep, hf, walkA, do_walk h]
  exact ebind.2 ⟨_, rfl, ebind.2 ⟨_, rfl, ebind.2 ⟨_, ho, ebind.2 ⟨(), rfl, rfl⟩⟩⟩⟩

theorem block_one {w : Walk} {e : Ex} {Γ Γ1 : SymTab} {t : Ty} {m : Rt → M Val} (h : w e Γ = .ok (t, .expr m, Γ1)) :
    ∃ c, block w [e] Γ = .ok (t, c, Γ1) ∧ ∀ rt s, c rt s = m rt s := by
  refine ⟨fun rt => doM [m rt], ?_, fun rt s => ?_⟩
  · unfold block
    rw [walkL]
    unfold walkE
    rw [h]
    rfl
  · show doM [m rt] s = m rt s
    unfold doM
    rw [bind_run, evalL, bind_run]
    rcases m rt s with ⟨_ | a, s1⟩ <;> rfl

theorem args_run {m : Rt → M Val} {rt : Rt} {g : List Arg → M Val} (s : St) : (evalL ([Code.expr m].map (fun c => c.toArg rt)) >>= g) s = (match m rt s with
    | (.ok y, s1) => g [.val y] s1
    | (.error e, s1) => (.error e, s1)) := by
  rw [bind_run]
  have h : [Code.expr m].map (fun c => c.toArg rt) = [(m rt >>= fun v => pure (Arg.val v))] := rfl
  rw [h, evalL, bind_run, bind_run]
  rcases m rt s with ⟨_ | a, s1⟩ <;> rfl

/-- C84: a value given to a chain with the method `emit`. -/
theorem flow_sim (hlib : LibFits S.lib) {d' : Nat} : ∀ nodes, Chained P' nodes → Apart nodes → (∀ nd ∈ nodes, nd.d + 3 ≤ d') →
    ∀ D, depth nodes ≤ D → Does S P' d' D nodes
  | [], _, _, _, D, _ => by
    intro st w' v hA _
    obtain ⟨h1, h2⟩ := hA
    obtain ⟨ws, out⟩ := st
    cases h1
    refine .inr ⟨_, rfl, ⟨.nil, ?_⟩, fun _ _ => rfl, fun _ _ => rfl⟩
    show w'.emitted ++ [v] = out ++ [v]
    rw [h2]
  | nd :: rest, hC, hA, hd, D, hD => by
    have hrest := flow_sim hlib rest hC.2.2 hA.tail (fun m hm => hd m (List.mem_cons_of_mem _ hm))
    obtain ⟨hN, hL, hC'⟩ := hC
    obtain ⟨D, rfl⟩ : ∃ k, D = k + 1 := ⟨D - 1, by unfold depth at hD; omega⟩
    have hdn := hd nd (List.mem_cons_self ..)
    obtain ⟨d', rfl⟩ : ∃ k, d' = k + 3 := ⟨d' - 3, by omega⟩
    have hdep : nd.n + depth rest ≤ D := by unfold depth at hD; omega
    intro st w' v hAg hsp
    obtain ⟨ws0, out⟩ := st
    obtain ⟨hAg1, hAg2⟩ := hAg
    cases hAg1 with
    | @cons _ w _ ws hown hown' =>
    have hst0 : Agree rest (ws, out) w' := ⟨hown', hAg2⟩
    have hset : ∀ after, Setting nd.R (ctxOf S nd rest after w') spType nd.P P' := by
      intro after
      refine setting_of hA hN hL.emit ?_ (fun _ hr => hL.last hr) hL.takes.sound after w'
      rintro nx l _ rfl
      rw [← hL.next nx l rfl]
      exact ⟨_, hC'.2.1.body⟩
    have haccP : ∀ t u, accTy P' Guard.all t u = accTy nd.P Guard.all t u := by
      intro t u; rw [hN.same]; rfl
    by_cases hm : nd.cfg.method = .emit
    · -- emit
      let after : List Val → Flow := fun h => h.foldl (fun st x => (flow S rest st x).2) (ws, out)
      have hafter : ∀ h x, after (h ++ [x]) = (flow S rest (after h) x).2 := fun h x => List.foldl_append ..
      let em : Val → M Val := fun x s => ((flow S rest (after s.world.emitted) x).1, push x s)
      have hS := hset after
      obtain ⟨t, m', Γ1, h1, h2, -⟩ := action_code rfl hS hN (m := d' + 2) (by omega)
        (Γ' := Lang.putAll ((topTab.new true false).new true false) [("input", some (.avro nd.cfg.input))])
        (by simp [Lang.putAll, SymTab.new, SymTab.put]) rfl (fun x _ => find_input x)
      obtain ⟨c', h3, h4⟩ := block_null (by omega) h1
      have hbody := hL.body
      unfold emitBody at hbody
      rw [hm] at hbody
      have hrt := rt_of (X := ctxOf S nd rest after w') (em := em) rfl hS hN hlib (d' := d' + 3) (by omega) hdep ?_ ?_
      · have hW : (ctxOf S nd rest after w').W { w with emitted := [] } w' :=
          ⟨own_cells rfl rfl hown, hst0, hsp, Untouched.refl _ _⟩
        have hrun := h2 _ _ hrt true (fun _ => rfl) _ _ (start_rel (S := S) rfl hW v)
        have hcall := call_action (S := S) (D := D) hbody h3 rfl v w'
        rw [inFrame_run, h4] at hcall
        have hflow : flow S (nd :: rest) (w :: ws, out) v = (match runAction S nd (withEmit S.lib em) v { w with emitted := [] } with
            | (.ok _, w1) => (.ok .null, (w1 :: (after w1.emitted).1, (after w1.emitted).2))
            | (.error e, w1) => (.error e, (w1 :: (after w1.emitted).1, (after w1.emitted).2))) := by
          rw [flow, hm]
          rfl
        have hra : runAction S nd (withEmit S.lib em) v { w with emitted := [] } = ((nd.code.action (rtN nd.P (walk nd.P Guard.all nd.d) S.fuel noLimit (withEmit S.lib em) nd.n)
            ⟨[PyDict.update [] (("input", v) :: S.sp)], { w with emitted := [] }⟩).1, (nd.code.action (rtN nd.P (walk nd.P Guard.all nd.d) S.fuel noLimit (withEmit S.lib em) nd.n)
            ⟨[PyDict.update [] (("input", v) :: S.sp)], { w with emitted := [] }⟩).2.world) := rfl
        rw [hflow, hra]
        show _ ∨ ∃ s1, callUserFn _ _ _ _ = _ ∧ _
        rw [hcall]
        clear hcall hflow hra
        revert hrun
        rcases nd.code.action _ _ with ⟨r, s⟩
        rcases m' _ _ with ⟨r', s'⟩
        intro hrun
        rcases hrun with hrun | ⟨-, h5, h6⟩
        · simp only at hrun
          subst hrun
          exact .inl rfl
        · obtain ⟨h7, h8, h9, h10⟩ := h5.world
          cases r with
          | error e => cases r' with
            | error e' =>
              cases h6
              exact .inr ⟨_, rfl, ⟨.cons h7 h8.1, h8.2⟩, h10⟩
            | ok y' => exact h6.elim
          | ok y => cases r' with
            | error e' => exact h6.elim
            | ok y' => exact .inr ⟨_, rfl, ⟨.cons h7 h8.1, h8.2⟩, h10⟩
      · intro he _ k x
        have : rest = [] := by
          have := hL.emit
          rw [he, if_pos hm] at this
          cases rest with
          | nil => rfl
          | cons a l => cases this
        subst this
        have := em_sim hA (hrest 0 (Nat.le_refl _)) hafter (b := w') k x
        exact this
      · intro n' hn' next he k x
        have hL' := hL.emit
        rw [he, if_pos hm] at hL'
        cases rest with
        | nil => cases hL'
        | cons a l =>
          cases hL'
          exact em_sim hA (hrest n' hn') hafter (b := w') k x
    · -- map
      have hmm : nd.cfg.method = .map := by
        have := hN.method
        cases h : nd.cfg.method with
        | map => rfl
        | emit => exact absurd h hm
        | fold => exact absurd h this
      have hS := hset (fun _ => (ws, out))
      have hRe : nd.R.emit = none := by rw [hL.emit, if_neg hm]
      obtain ⟨t, m', Γ1, h1, h2, h3⟩ := action_code rfl hS hN (m := d') (by omega)
        (Γ' := ((Lang.putAll ((topTab.new true false).new true false) [("input", some (.avro nd.cfg.input))]).new true true).new false false)
        (by simp [SymTab.new]) rfl (fun x _ => find_input x)
      obtain ⟨hacc, hgiv⟩ := h3.resolve_left hm
      obtain ⟨a, rfl⟩ := accTy_avro hacc
      have hrt : RtRel nd.R (ctxOf S nd rest (fun _ => (ws, out)) w') nd.P (rtN nd.P (walk nd.P Guard.all nd.d) S.fuel noLimit S.lib nd.n) (chainRt S P' (d' + 3) D) := by
        refine rt_chain hS (by omega) hN.funs (fun n ps r b h => (hN.user n ps r b h).2) (k := depth rest) ?_ ?_ _ _ hdep
        · intro n sigs h4 _ k pt as as' has
          have hn : n ≠ "emit" := by
            rintro rfl
            rw [hN.emit, if_neg hm] at h4
            cases h4
          unfold withEmit
          rw [if_neg hn]
          exact hlib _ hS.fits k n pt as as' hn has
        · intro n' _ next h4
          rw [hRe] at h4
          cases h4
      have hW : (ctxOf S nd rest (fun _ => (ws, out)) w').W w w' := ⟨hown, hst0, hsp, Untouched.refl _ _⟩
      have hrun := h2 _ _ hrt true (fun _ => rfl) _ _ (start_rel (S := S) rfl hW v)
      have hra : runAction S nd S.lib v w = ((nd.code.action (rtN nd.P (walk nd.P Guard.all nd.d) S.fuel noLimit S.lib nd.n)
          ⟨[PyDict.update [] (("input", v) :: S.sp)], w⟩).1, (nd.code.action (rtN nd.P (walk nd.P Guard.all nd.d) S.fuel noLimit S.lib nd.n)
          ⟨[PyDict.update [] (("input", v) :: S.sp)], w⟩).2.world) := rfl
      have hflow : flow S (nd :: rest) (w :: ws, out) v = (match runAction S nd S.lib v w with
          | (.ok y, w1) => ((flow S rest (ws, out) y).1, (w1 :: (flow S rest (ws, out) y).2.1, (flow S rest (ws, out) y).2.2))
          | (.error e, w1) => (.error e, (w1 :: ws, out))) := by
        rw [flow, hmm]
        rfl
      -- what the body does in the chain
      have hcode : ∃ c Γ2, block (walk P' Guard.all (d' + 2)) (emitBody nd rest) (Lang.putAll ((topTab.new true false).new true false) [("input", some (.avro nd.cfg.input))]) =
          .ok (some (.avro .null), c, Γ2) ∧ ∀ s, c (chainRt S P' (d' + 3) D) s = (match m' (chainRt S P' (d' + 3) D) s with
            | (.ok y, s1) => (match inFresh (enter S P' (d' + 3) D rest y) s1 with
              | (.ok _, s2) => (.ok .null, s2)
              | (.error e, s2) => (.error e, s2))
            | (.error e, s1) => (.error e, s1)) := by
        have hEV : P'.env = nd.P.env ∧ P'.version = nd.P.version := by rw [hN.same]; exact ⟨rfl, rfl⟩
        cases rest with
        | nil =>
          have hbody : emitBody nd [] = [.call "emit" [.do_ (chainL nd.R spNames nd.cfg.action)]] := by unfold emitBody; rw [hmm]
          rw [hbody]
          obtain ⟨o, ho⟩ := emit_takes.1 (hL.takes.gives hmm _ hgiv)
          rw [← hEV.1, ← hEV.2] at ho
          obtain ⟨pt, h4⟩ := emit_walk h1 (hL.last rfl).2 ho
          obtain ⟨c, h5, h6⟩ := block_one h4
          refine ⟨c, _, h5, fun s => ?_⟩
          rw [h6]
          refine (args_run s).trans ?_
          rcases m' (chainRt S P' (d' + 3) D) s with ⟨_ | y, s1⟩
          · rfl
          · have : (chainRt S P' (d' + 3) D).lib = withEmit S.lib hostEmit := by unfold chainRt; cases D <;> rfl
            rw [this]
            rfl
        | cons nx l =>
          have hbody : emitBody nd (nx :: l) = [.call nx.fcn [.do_ (chainL nd.R spNames nd.cfg.action)], .litNull] := by unfold emitBody; rw [hmm]
          rw [hbody]
          obtain ⟨o, ho⟩ := hL.takes.gives hmm _ hgiv
          rw [← hEV.1, ← hEV.2, ← hL.next nx l rfl] at ho
          rw [← haccP, ← hL.next nx l rfl] at hacc
          have h4 := call_walk h1 hC'.2.1.body ho hacc
          obtain ⟨c, h5, h6⟩ := block_one h4
          obtain ⟨c', h7, h8⟩ := block_null (by omega) h5
          refine ⟨c', _, h7, fun s => ?_⟩
          rw [h8, h6]
          have h9 := args_run (m := m') (rt := chainRt S P' (d' + 3) D) (g := fun as => do
            let vs ← lift (vals as)
            inFresh (callUserFn (chainRt S P' (d' + 3) D) nx.fcn vs)) s
          rw [h9]
          rcases m' (chainRt S P' (d' + 3) D) s with ⟨_ | y, s1⟩ <;> rfl
      obtain ⟨c, Γ2, h4, h5⟩ := hcode
      have hcall := call_action (S := S) (D := D) hL.body h4 rfl v w'
      rw [inFrame_run, h5] at hcall
      rw [hflow, hra]
      show _ ∨ ∃ s1, callUserFn _ _ _ _ = _ ∧ _
      rw [hcall]
      clear hcall hflow hra h5 h4
      revert hrun
      rcases nd.code.action _ _ with ⟨r, s⟩
      rcases m' _ _ with ⟨r', s'⟩
      intro hrun
      rcases hrun with hrun | ⟨-, h5, h6⟩
      · simp only at hrun
        subst hrun
        exact .inl rfl
      · obtain ⟨h7, h8, h9, h10⟩ := h5.world
        cases r with
        | error e => cases r' with
          | error e' =>
            cases h6
            exact .inr ⟨_, rfl, ⟨.cons h7 h8.1, h8.2⟩, h10⟩
          | ok y' => exact h6.elim
        | ok y => cases r' with
          | error e' => exact h6.elim
          | ok y' =>
            cases h6
            rcases hrest D (by omega) _ _ y h8 h9 with h11 | ⟨s1, h11, h12, h13⟩
            · exact .inl h11
            · have h14 : inFresh (enter S P' (d' + 3) D rest y) s' = ((flow S rest (ws, out) y).1, { s1 with chain := s'.chain }) := by
                unfold inFresh
                rw [h11]
              simp only [h14]
              have hn := flow_null (S := S) rest (ws, out) y
              refine .inr ?_
              revert hn h12
              rcases flow S rest (ws, out) y with ⟨_ | z, st⟩
              · intro h12 _
                exact ⟨_, rfl, ⟨.cons (h13.own (List.pairwise_cons.1 hA.pair).1 h7) h12.1, h12.2⟩, h10.trans h13.cons⟩
              · intro h12 hn
                cases hn _ rfl
                exact ⟨_, rfl, ⟨.cons (h13.own (List.pairwise_cons.1 hA.pair).1 h7) h12.1, h12.2⟩, h10.trans h13.cons⟩

end Verif.Chain
