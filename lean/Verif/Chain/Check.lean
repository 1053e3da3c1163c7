import Verif.Chain.Whole
/-!
# Chaining of engines: the functions of the chain pass the check (C84)
-/

namespace Verif.Chain
open Avro Scope Path Sig Ast Lang

variable {nd : Node} {rest : List Node} {P' : Prog}

/-- Some setup, for statements that have none. -/
def noSetup : Setup := ⟨0, fun _ _ _ => raise unfinished, ⟨"", 0, .null⟩, 0, 0⟩

theorem user_check {X : Ctx} (hX : X.names = spNames) (hS : Setting nd.R X spType nd.P P') (hN : NodeOk P' nd) {d' : Nat} (hd : nd.d ≤ d') {n : String} {ps r b}
    (h : nd.P.funs.get? n = some (.user ps r b)) : ∃ q, walk P' Guard.all d' (.fcnDef ps r (chainL nd.R [] b)) (topTab.new true false) = .ok q := by
  obtain ⟨-, h1, -⟩ := hN.user n ps r b h
  obtain ⟨⟨t, c, Γ⟩, h3⟩ := hN.funs n ps r b h
  have h4 := h1
  rw [CleanE] at h4
  have hps : ps.map (fun p => (p.1, nd.R.type p.2)) = ps := by
    conv_rhs => rw [← List.map_id ps]
    exact List.map_congr_left (fun p hp => by rw [(h4.1 p hp).2]; rfl)
  have hG : GRel X.names spType false (topTab.new true false) (topTab.new true false) :=
    ⟨by simp [SymTab.new], by simp [SymTab.new], fun _ _ => rfl, fun _ _ => id, rfl, fun h => by cases h⟩
  rw [← hX] at h1
  obtain ⟨q, h5, -⟩ := walk_chain hS nd.d d' hd false (.fcnDef ps r b) _ _ h1 hG _ h3
  rw [chainE, hps, h4.2.1] at h5
  exact ⟨q, h5⟩

theorem emit_check (hN : NodeOk P' nd) (hL : Link P' nd rest) (hC : Chained P' rest) {X : Ctx} (hX : X.names = spNames) (hS : Setting nd.R X spType nd.P P')
    {d' : Nat} (hd : nd.d + 3 ≤ d') :
    ∃ q, walk P' Guard.all d' (.fcnDef [("input", nd.cfg.input)] .null (emitBody nd rest)) (topTab.new true false) = .ok q := by
  obtain ⟨d', rfl⟩ : ∃ k, d' = k + 3 := ⟨d' - 3, by omega⟩
  have haccP : ∀ t u, accTy P' Guard.all t u = accTy nd.P Guard.all t u := by
    intro t u; rw [hN.same]; rfl
  by_cases hm : nd.cfg.method = .emit
  · obtain ⟨t, m', Γ1, h1, -, -⟩ := action_code hX hS hN (m := d' + 2) (by omega)
      (Γ' := Lang.putAll ((topTab.new true false).new true false) [("input", some (.avro nd.cfg.input))])
      (by simp [Lang.putAll, SymTab.new, SymTab.put]) rfl (fun x _ => find_input x)
    obtain ⟨c', h3, -⟩ := block_null (by omega) h1
    have hbody : emitBody nd rest = chainL nd.R spNames nd.cfg.action ++ [.litNull] := by unfold emitBody; rw [hm]
    rw [hbody]
    exact ⟨_, fcn_check h3 rfl⟩
  · have hmm : nd.cfg.method = .map := by
      have := hN.method
      cases h : nd.cfg.method with
      | map => rfl
      | emit => exact absurd h hm
      | fold => exact absurd h this
    obtain ⟨t, m', Γ1, h1, -, h3⟩ := action_code hX hS hN (m := d') (by omega)
      (Γ' := ((Lang.putAll ((topTab.new true false).new true false) [("input", some (.avro nd.cfg.input))]).new true true).new false false)
      (by simp [SymTab.new]) rfl (fun x _ => find_input x)
    obtain ⟨hacc, hgiv⟩ := h3.resolve_left hm
    obtain ⟨a, rfl⟩ := accTy_avro hacc
    have hEV : P'.env = nd.P.env ∧ P'.version = nd.P.version := by rw [hN.same]; exact ⟨rfl, rfl⟩
    cases rest with
    | nil =>
      have hbody : emitBody nd [] = [.call "emit" [.do_ (chainL nd.R spNames nd.cfg.action)]] := by unfold emitBody; rw [hmm]
      rw [hbody]
      obtain ⟨o, ho⟩ := emit_takes.1 (hL.takes.gives hmm _ hgiv)
      rw [← hEV.1, ← hEV.2] at ho
      obtain ⟨pt, h4⟩ := emit_walk h1 (hL.last rfl).2 ho
      obtain ⟨c, h5, -⟩ := block_one h4
      exact ⟨_, fcn_check h5 rfl⟩
    | cons nx l =>
      have hbody : emitBody nd (nx :: l) = [.call nx.fcn [.do_ (chainL nd.R spNames nd.cfg.action)], .litNull] := by unfold emitBody; rw [hmm]
      rw [hbody]
      obtain ⟨o, ho⟩ := hL.takes.gives hmm _ hgiv
      rw [← hEV.1, ← hEV.2, ← hL.next nx l rfl] at ho
      rw [← haccP, ← hL.next nx l rfl] at hacc
      have h4 := call_walk h1 hC.2.1.body ho hacc
      obtain ⟨c, h5, -⟩ := block_one h4
      obtain ⟨c', h7, -⟩ := block_null (by omega) h5
      exact ⟨_, fcn_check h7 rfl⟩

/-- The user-defined functions of the document are those of the engines, and the actions. -/
def Closed (P' : Prog) (nodes : List Node) : Prop := ∀ name ps r b, P'.funs.get? name = some (.user ps r b) →
  ∃ nd ∈ nodes, name = nd.fcn ∨ ∃ n ps' r' b', nd.P.funs.get? n = some (.user ps' r' b') ∧ name = nd.R.fcn n

/-- C84: all functions of a chain with the method `emit` pass the check. -/
theorem emit_funs_ok {nodes : List Node} (hC : Chained P' nodes) (hA : Apart nodes) {d' : Nat} (hd : ∀ nd ∈ nodes, nd.d + 3 ≤ d') (hcl : Closed P' nodes) :
    FunsOk P' (walk P' Guard.all d') := by
  have key : ∀ l : List Node, Chained P' l → Apart l → (∀ nd ∈ l, nd.d + 3 ≤ d') → ∀ nd ∈ l, ∀ name ps r b, P'.funs.get? name = some (.user ps r b) →
      (name = nd.fcn ∨ ∃ n ps' r' b', nd.P.funs.get? n = some (.user ps' r' b') ∧ name = nd.R.fcn n) →
      ∃ q, walk P' Guard.all d' (.fcnDef ps r b) (topTab.new true false) = .ok q := by
    intro l
    induction l with
    | nil => intro _ _ _ nd h; cases h
    | cons x l ih =>
      intro hC hA hd nd hn name ps r b hf hor
      rcases List.mem_cons.1 hn with rfl | hn
      · obtain ⟨hN, hL, hC'⟩ := hC
        have hS : Setting nd.R (ctxOf noSetup nd l (fun _ => ([], [])) { cells := [], pools := [], tick := 0, out := [] }) spType nd.P P' := by
          refine setting_of hA hN hL.emit ?_ (fun _ hr => hL.last hr) hL.takes.sound _ _
          rintro nx l _ rfl
          rw [← hL.next nx l rfl]
          exact ⟨_, hC'.2.1.body⟩
        rcases hor with rfl | ⟨n, ps', r', b', h1, rfl⟩
        · rw [hL.body] at hf
          cases hf
          exact emit_check hN hL hC' rfl hS (hd _ (List.mem_cons_self ..))
        · have h2 := (hN.user n ps' r' b' h1).2.2
          rw [h2] at hf
          cases hf
          exact user_check rfl hS hN (by have := hd nd (List.mem_cons_self ..); omega) h1
      · exact ih hC.2.2 hA.tail (fun m hm => hd m (List.mem_cons_of_mem _ hm)) nd hn name ps r b hf hor
  intro name ps r b hf
  obtain ⟨nd, hn, hor⟩ := hcl name ps r b hf
  exact key nodes hC hA hd nd hn name ps r b hf hor

/-- C84: all functions of a chain with the method `map` pass the check. -/
theorem map_funs_ok {nodes : List Node} {d' : Nat} (hC : ∀ nd ∈ nodes, MapOk P' nd ∧ nd.d + 1 ≤ d') (hA : Apart nodes) (hcl : Closed P' nodes) :
    FunsOk P' (walk P' Guard.all d') := by
  intro name ps r b hf
  obtain ⟨nd, hn, hor⟩ := hcl name ps r b hf
  obtain ⟨hM, hd⟩ := hC nd hn
  have hN := hM.ok
  have hA1 : Apart [nd] := ⟨fun x hx => hA.cell x (by simp at hx; rw [hx]; exact hn), fun x hx => hA.pool x (by simp at hx; rw [hx]; exact hn),
    fun x hx => hA.special x (by simp at hx; rw [hx]; exact hn), by simp⟩
  have hme : nd.cfg.method ≠ .emit := by rw [hM.map]; decide
  have hS : Setting nd.R (ctxOf noSetup nd [] (fun _ => ([], [])) { cells := [], pools := [], tick := 0, out := [] }) spType nd.P P' := by
    refine setting_of hA1 hN ?_ (fun _ _ h => absurd h hme) (fun h => absurd h hme) (fun h => absurd h hme) _ _
    rw [hM.emit, if_neg hme]
  rcases hor with rfl | ⟨n, ps', r', b', h1, rfl⟩
  · rw [hM.body] at hf
    cases hf
    obtain ⟨d', rfl⟩ : ∃ k, d' = k + 1 := ⟨d' - 1, by omega⟩
    obtain ⟨t, m', Γ1, h1, h2, h3⟩ := action_code rfl hS hN (m := d') (by omega)
      (Γ' := Lang.putAll ((topTab.new true false).new true false) [("input", some (.avro nd.cfg.input))])
      (by simp [Lang.putAll, SymTab.new, SymTab.put]) rfl (fun x _ => find_input x)
    have hacc := (h3.resolve_left hme).1
    have haccP : accTy P' Guard.all nd.cfg.output t = true := by rw [hN.same]; exact hacc
    exact ⟨_, fcn_check h1 haccP⟩
  · have h2 := (hN.user n ps' r' b' h1).2.2
    rw [h2] at hf
    cases hf
    exact user_check rfl hS hN (by omega) h1

end Verif.Chain
