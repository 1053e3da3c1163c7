import Verif.Chain.Walk
/-!
# Chaining of engines: one level of the check (C84)
-/

namespace Verif.Chain
open Avro Scope Path Sig Ast Lang

section
variable {R : Ren} {X : Ctx} {T : String → AType} {P P' : Prog} {act : Bool} {w w' : Walk}

theorem OutRel.expr {t : Ty} {m m' : Rt → M Val} {Γ Γ' : SymTab} (hm : CSim R X P act m m') (hΓ : GRel X.names T act Γ Γ') :
    RSim (OutRel R X T P act) (.ok (t, .expr m, Γ)) (.ok (t, .expr m', Γ')) := RSim.ok ⟨rfl, .expr hm, hΓ⟩

theorem RSim.ite {α β : Type} {S : α → β → Prop} {c : Prop} [Decidable c] {a b : Res α} {a' b' : Res β} (h1 : RSim S a a') (h2 : RSim S b b') :
    RSim S (if c then a else b) (if c then a' else b') := by
  by_cases h : c
  · rw [if_pos h, if_pos h]; exact h1
  · rw [if_neg h, if_neg h]; exact h2

theorem ctypes_len : ∀ {ts : List Ty} {tys : List CType}, ctypes ts = .ok tys → tys.length = ts.length
  | [], _, h => by cases h; rfl
  | none :: ts, _, h => by cases h
  | some t :: ts, tys, h => by
    rw [ctypes] at h
    cases h1 : ctypes ts with
    | error e => rw [h1] at h; cases h
    | ok us => rw [h1] at h; cases h; rw [List.length_cons, List.length_cons, ctypes_len h1]

theorem lit_sim (t : AType) (v : Val) {Γ Γ' : SymTab} (hΓ : GRel X.names T act Γ Γ') :
    RSim (OutRel R X T P act) (lit Guard.all t v Γ) (lit Guard.all t v Γ') :=
  RSim.bindS (RSim.req id) (fun _ => OutRel.expr (fun _ _ _ _ _ => Sim.pure rfl) hΓ)

theorem args_code {cs cs' : List Code} (h : List.Forall₂ (CodeRel R X P act) cs cs') {rt rt' : Rt} (hrt : RtRel R X P rt rt') {k : Bool} (hk : act = true → k = true) :
    Sim X k (List.Forall₂ (ARel X k)) (evalL (cs.map (fun c => c.toArg rt))) (evalL (cs'.map (fun c => c.toArg rt'))) := by
  refine Sim.evalL_rel ?_
  rw [List.forall₂_map_left_iff, List.forall₂_map_right_iff]
  exact h.imp (fun _ _ h => h.toArg rt rt' hrt k hk)

theorem emit_args {c c' : Code} (h : CodeRel R X P act c c') {rt rt' : Rt} (hrt : RtRel R X P rt rt') {k : Bool} (hk : act = true → k = true) :
    Sim X k (fun as as' => ∃ a a', ARel X k a a' ∧ as = [a] ∧ as' = [a']) (evalL ([c].map (fun c => c.toArg rt))) (evalL ([c'].map (fun c => c.toArg rt'))) :=
  Sim.bind (h.toArg rt rt' hrt k hk) (fun a a' haa => Sim.pure ⟨a, a', haa, rfl, rfl⟩)

theorem readCell_whole (c : String) : (do
    let v ← readCell c
    let q ← evalPath []
    lift (Path.get 2004 2005 v q)) = readCell c := by
  funext s
  show andThen (readCell c s) _ = _
  rcases readCell c s with ⟨_ | v, s2⟩ <;> rfl

theorem vals_sim {k : Bool} {as as' : List Arg} (h : List.Forall₂ (ARel X k) as as') : vals as' = vals as := by
  induction h with
  | nil => rfl
  | cons h1 _ ih => cases h1 with
    | val v => rw [vals, vals, ih]
    | fn b _ => rfl

theorem zip_free {xs : List String} {vs : List Val} (h : ∀ x ∈ xs, x ∉ X.names) : Free X ((xs.zip vs).map Prod.fst) := by
  intro x hx
  obtain ⟨⟨y, v⟩, h1, rfl⟩ := List.mem_map.1 hx
  exact h _ (List.of_mem_zip h1).1

theorem emit_accepts {env : Env} {t : AType} {x : String} {tys : List CType} {v : Ver} {s : Sig1} {ps : List CType} {r : CType}
    (h : sigsAccept env [emitSig t] tys v = .ok (some (s, ps, r))) :
    sigsAccept env [userSig [(x, t)] .null] tys v = .ok (some (userSig [(x, t)] .null, ps, r)) ∧ tys.length = 1 := by
  unfold sigsAccept at h ⊢
  have key : (userSig [(x, t)] .null).accepts env tys v = (emitSig t).accepts env tys v := by
    unfold Sig1.accepts
    rfl
  rw [key]
  cases h1 : (emitSig t).accepts env tys v with
  | error e => rw [h1] at h; cases h
  | ok o => cases o with
    | none => rw [h1] at h; cases h
    | some o =>
      rw [h1] at h
      cases h
      refine ⟨rfl, ?_⟩
      unfold Sig1.accepts at h1
      split at h1
      · split at h1
        · next hl => exact hl.symm
        · cases h1
      · cases h1

/-- C84: one level of the check. -/
theorem walkStep_sim (S : Setting R X T P P') (hw : ∀ act, WSim R X T P act w w') : WSim R X T P act (walkStep P Guard.all w) (walkStep P' Guard.all w') := by
  obtain ⟨env', cells', pools', funs', version', decode', msg', floats'⟩ := P'
  have hP := S.prog
  have hX := S.fits
  have hsame := hP.same
  simp only [Prog.mk.injEq, true_and] at hsame
  obtain ⟨rfl, rfl, rfl, rfl, rfl⟩ := hsame
  intro e Γ Γ' he hΓ
  have hs := hΓ.new true true
  have ho := hΓ.new false false
  have W := hw act
  cases e with
  | fcnDef ps r body =>
    rw [CleanE] at he
    obtain ⟨h1, h2, h3⟩ := he
    have hps : ps.map (fun p => (p.1, R.type p.2)) = ps := by
      conv_rhs => rw [← List.map_id ps]
      exact List.map_congr_left (fun p hp => by rw [(h1 p hp).2]; rfl)
    simp only [chainE, walkStep, h2, hps]
    refine RSim.bindS (RSim.req id) (fun _ => RSim.bindS (RSim.req id) (fun _ => ?_))
    refine RSim.bind (block_sim (hw false) h3 (GRel.putAll ?_ (hΓ.dead.new true false))) ?_
    · intro x hx
      rw [List.map_map] at hx
      obtain ⟨p, hp, rfl⟩ := List.mem_map.1 hx
      exact (h1 p hp).1
    · rintro ⟨t, m, Γ1⟩ ⟨t', m', Γ1'⟩ ⟨h4, h5, h6⟩
      cases h4
      refine RSim.bindS (RSim.req id) (fun _ => RSim.ok ⟨rfl, .fn true (fun rt rt' hrt k hk vs => ?_), hΓ⟩)
      refine Sim.frame (FRel.fresh (zip_free ?_)) (h5 rt rt' hrt k (fun h => by cases h))
      intro x hx
      obtain ⟨p, hp, rfl⟩ := List.mem_map.1 hx
      exact (h1 p hp).1
  | fcnRef n =>
    rw [CleanE] at he
    simp only [chainE, walkStep]
    cases hn : P.funs.get? n with
    | none => exact RSim.error
    | some f => cases f with
      | user ps r b =>
        obtain ⟨-, b', h2⟩ := hP.user n ps r b hn
        simp only at h2
        rw [h2]
        refine RSim.bindS (RSim.same _) (fun sig => RSim.bindS (RSim.same _) (fun qs => RSim.bindS (RSim.same _) (fun u => ?_)))
        exact RSim.ok ⟨rfl, .fn true (fun rt rt' hrt k hk vs => hrt.user n ps r b hn k vs), hΓ⟩
      | lib sigs =>
        obtain ⟨h1, h2⟩ := hP.lib n sigs hn he
        simp only at h2
        rw [h1, h2]
        refine RSim.bindS (RSim.same _) (fun sig => RSim.bindS (RSim.same _) (fun qs => RSim.bindS (RSim.same _) (fun u => RSim.bindS (RSim.req id) (fun _ => ?_))))
        refine RSim.ok ⟨rfl, .fn false (fun rt rt' hrt k hk vs => hrt.lib n sigs hn he k none _ _ ?_), hΓ⟩
        rw [List.forall₂_map_left_iff, List.forall₂_map_right_iff]
        exact List.forall₂_same.2 (fun v _ => .val v)
  | fcnRefFill n fill =>
    rw [CleanE] at he
    simp only [chainE, walkStep]
    have hkeys : ∀ {fs fs' : List (String × Ty × Code)}, List.Forall₂ (FillRel R X P act) fs fs' → fs'.map Prod.fst = fs.map Prod.fst ∧
        fs'.map (fun f => (f.1, f.2.1)) = fs.map (fun f => (f.1, f.2.1)) := by
      intro fs fs' h
      induction h with
      | nil => exact ⟨rfl, rfl⟩
      | cons h1 _ ih => exact ⟨by rw [List.map_cons, List.map_cons, ih.1, h1.1], by rw [List.map_cons, List.map_cons, ih.2, h1.1, h1.2.1]⟩
    have hall1 : ∀ {fs fs' : List (String × Ty × Code)} (p : String → Bool), List.Forall₂ (FillRel R X P act) fs fs' →
        fs.all (fun f => p f.1) = true → fs'.all (fun f => p f.1) = true := by
      intro fs fs' p h hb
      rw [List.all_eq_true] at hb ⊢
      intro f hf
      have : f.1 ∈ fs'.map Prod.fst := List.mem_map_of_mem hf
      rw [(hkeys h).1] at this
      obtain ⟨g, hg, hgf⟩ := List.mem_map.1 this
      have := hb g hg
      rw [hgf] at this
      exact this
    cases hn : P.funs.get? n with
    | none => exact RSim.error
    | some f =>
      have hcall : ∃ f', funs'.get? (R.fcn n) = some f' ∧ (∀ v, refSig ⟨P.env, cells', pools', funs', P.version, P.decode, P.msg, P.floats⟩ f' = .ok v ↔ refSig P f = .ok v) ∧
          ((∃ ps r b b', f = .user ps r b ∧ f' = .user ps r b') ∨ (∃ sigs, f = .lib sigs ∧ f' = .lib sigs)) ∧
          ∀ rt rt', RtRel R X P rt rt' → ∀ k as as', List.Forall₂ (ARel X k) as as' → Sim X k Same (callTarget n f rt as) (callTarget (R.fcn n) f' rt' as') := by
        cases f with
        | user ps r b =>
          obtain ⟨-, b', h2⟩ := hP.user n ps r b hn
          refine ⟨_, h2, fun v => Iff.rfl, .inl ⟨_, _, _, _, rfl, rfl⟩, fun rt rt' hrt k as as' has => Sim.inner ?_⟩
          simp only
          rw [vals_sim has]
          exact Sim.bindS (Sim.lift_same _) (fun vs => hrt.user n ps r b hn k vs)
        | lib sigs =>
          obtain ⟨h1, h2⟩ := hP.lib n sigs hn he.1
          rw [h1]
          exact ⟨_, h2, fun v => Iff.rfl, .inr ⟨_, rfl, rfl⟩, fun rt rt' hrt k as as' has => Sim.inner (hrt.lib n sigs hn he.1 k none as as' has)⟩
      obtain ⟨f', h1, h2, h2', h3⟩ := hcall
      rw [h1]
      refine RSim.bind (walkDA_sim W he.2 hs) ?_
      rintro ⟨fs, Γ1⟩ ⟨fs', Γ1'⟩ h4
      simp only at h4
      refine RSim.bind (Q := Same) (fun a ha => ⟨a, (h2 a).2 ha, rfl⟩) ?_
      intro sig _ hsig
      cases hsig
      refine RSim.bindS (RSim.req (hall1 (fun x => decide (x ∈ sig.params.map Prod.fst)) h4)) (fun _ => RSim.bindS (RSim.same _) (fun qs => RSim.bindS (RSim.same _) (fun u => ?_)))
      refine RSim.bindS (RSim.req ?_) (fun _ => RSim.bindS (RSim.req id) (fun _ => ?_))
      · intro hb
        rw [List.all_eq_true] at hb ⊢
        intro f hf
        rw [List.all_eq_true]
        intro p _
        exact Bool.or_true _
      · dsimp only
        rw [(hkeys h4).1]
        have key : ∀ N, ∀ rt rt', RtRel R X P rt rt' → ∀ k, (act = true → k = true) → ∀ vs, Sim X k Same
            (inFrame (PyDict.update [] (((List.range N).map (fun j => "$" ++ toString j)).zip vs)) (do
              let as ← evalL ((fillArgs fs (sig.params.map Prod.fst) 0).map (fun x => x rt))
              callTarget n f rt as))
            (inFrame (PyDict.update [] (((List.range N).map (fun j => "$" ++ toString j)).zip vs)) (do
              let as ← evalL ((fillArgs fs' (sig.params.map Prod.fst) 0).map (fun x => x rt'))
              callTarget (R.fcn n) f' rt' as)) := by
          intro N rt rt' hrt k hk vs
          refine Sim.frame (FRel.fresh (zip_free ?_)) ?_
          · intro x hx
            obtain ⟨j, -, rfl⟩ := List.mem_map.1 hx
            exact S.dollar j
          · refine Sim.bind (Sim.evalL_rel (Q := ARel X k) ?_) (fun as as' has => h3 rt rt' hrt k as as' has)
            rw [List.forall₂_map_left_iff, List.forall₂_map_right_iff]
            exact (fillArgs_sim S.dollar h4 _ 0).imp (fun _ _ h => h rt rt' hrt k hk)
        rcases h2' with ⟨ps, r, b, b', rfl, rfl⟩ | ⟨sigs, rfl, rfl⟩
        · exact RSim.ok ⟨rfl, .fn true (key _), hΓ⟩
        · exact RSim.bindS (RSim.req id) (fun _ => RSim.ok ⟨rfl, .fn true (key _), hΓ⟩)
  | callUser n args => rw [CleanE] at he; exact he.elim
  | call n args =>
    rw [CleanE] at he
    cases hn : P.funs.get? n with
    | none => simp only [walkStep, hn]; exact RSim.error
    | some f =>
      by_cases hemit : R.emit.isSome ∧ n = "emit"
      · obtain ⟨h1, rfl⟩ := hemit
        obtain ⟨next, hnext⟩ := Option.isSome_iff_exists.1 h1
        obtain ⟨t, x, b, h2, h3, h4⟩ := hP.emit next hnext
        rw [h2] at hn
        cases hn
        simp only at h3
        simp only [chainE, walkStep, hnext, if_true, h2, h3]
        refine RSim.bind (walkA_sim W he hs) ?_
        rintro ⟨ts, cs, Γ1⟩ ⟨ts', cs', Γ1'⟩ ⟨h5, h6, h7, h8⟩
        cases h5
        intro a ha
        obtain ⟨tys, h9, h10⟩ := ebind.1 ha
        obtain ⟨o, h11, h12⟩ := ebind.1 h10
        cases o with
        | none => cases h12
        | some o =>
          obtain ⟨s, ps, r⟩ := o
          cases h12
          obtain ⟨h13, h14⟩ := emit_accepts (x := x) h11
          have hlen : cs.length = 1 := by
            simp only at h7
            rw [← h7]
            rw [← ctypes_len h9, h14]
          obtain ⟨u, rfl⟩ := List.length_eq_one_iff.1 h14
          obtain ⟨c, hc⟩ := List.length_eq_one_iff.1 hlen
          subst hc
          cases h6 with
          | cons h6 h6' =>
            cases h6'
            next c' =>
            refine ⟨(some r, .expr (fun rt => do
                let as ← evalL ([c'].map (fun c => c.toArg rt))
                let vs ← lift (vals as)
                inFresh (callUserFn rt next vs)), Γ'), ?_, rfl, .expr ?_, hΓ⟩
            · refine ebind.2 ⟨_, h9, ebind.2 ⟨_, h13, ebind.2 ⟨(), ?_, rfl⟩⟩⟩
              rw [req_iff]
              simp only [List.zip_cons_cons, List.zip_nil_right, List.all_cons, List.all_nil, Bool.and_true]
              exact h4 u _ h11
            · intro rt rt' hrt k hk
              refine Sim.bind (emit_args h6 hrt hk) ?_
              rintro _ _ ⟨a, a', h15, rfl, rfl⟩
              exact hrt.emit next hnext k _ _ _ h15
      · have hne : R.emit.isSome → n ≠ "emit" := fun h1 h2 => hemit ⟨h1, h2⟩
        have hname : chainE R (vars X act) (.call n args) = .call (R.fcn n) (chainL R (vars X act) args) := by
          rw [chainE]
          cases hR : R.emit with
          | none => rfl
          | some next => simp only [if_neg (hne (by rw [hR]; rfl))]
        simp only [hname, walkStep, hn]
        cases f with
        | user ps r b =>
          obtain ⟨-, b', h2⟩ := hP.user n ps r b hn
          simp only at h2
          rw [h2]
          refine RSim.bind (walkA_sim W he hs) ?_
          rintro ⟨ts, cs, Γ1⟩ ⟨ts', cs', Γ1'⟩ ⟨h5, h6, h7, h8⟩
          cases h5
          refine RSim.bindS (RSim.same _) (fun tys => RSim.bindS (RSim.same _) (fun o => ?_))
          rcases o with _ | ⟨s, qs, u⟩
          · exact RSim.error
          · refine RSim.bindS (RSim.req id) (fun _ => OutRel.expr (fun rt rt' hrt k hk => ?_) hΓ)
            refine Sim.bind (args_code h6 hrt hk) ?_
            intro as as' has
            rw [vals_sim has]
            exact Sim.bindS (Sim.lift_same _) (fun vs => Sim.fresh (hrt.user n ps r b hn false vs))
        | lib sigs =>
          obtain ⟨h1, h2⟩ := hP.lib n sigs hn hne
          simp only at h2
          rw [h1, h2]
          refine RSim.bind (walkA_sim W he hs) ?_
          rintro ⟨ts, cs, Γ1⟩ ⟨ts', cs', Γ1'⟩ ⟨h5, h6, h7, h8⟩
          cases h5
          refine RSim.bindS (RSim.same _) (fun tys => RSim.bindS (RSim.same _) (fun o => ?_))
          rcases o with _ | ⟨s, qs, u⟩
          · exact RSim.error
          · refine RSim.bindS (RSim.req id) (fun _ => OutRel.expr (fun rt rt' hrt k hk => ?_) hΓ)
            exact Sim.bind (args_code h6 hrt hk) (fun as as' has => hrt.lib n sigs hn hne k _ as as' has)
  | ref x =>
    rw [CleanE] at he
    by_cases hx : x ∈ X.names
    · have ha : act = true := he.resolve_right (fun h => h hx)
      subst ha
      obtain ⟨v, hv⟩ := S.sp x hx
      have hc := hP.special x hx
      simp only at hc
      simp only [chainE, vars, if_pos hx, if_true, walkStep, hΓ.cells rfl x hx, hc, chainL, walkPath]
      refine OutRel.expr (fun rt rt' hrt k hk => ?_) hΓ
      have hk' := hk rfl
      subst hk'
      have := Sim.special hX hv
      rw [← readCell_whole] at this
      exact this
    · have hv : x ∉ vars X act := by
        unfold vars
        cases act
        · simp
        · exact hx
      simp only [chainE, if_neg hv, walkStep]
      rw [hΓ.find x hx]
      cases Γ.find x with
      | none => exact RSim.error
      | some t => exact OutRel.expr (fun _ _ _ _ _ => Sim.getVar hx) hΓ
  | litNull => simp only [chainE, walkStep]; exact lit_sim _ _ hΓ
  | litBool b => simp only [chainE, walkStep]; exact lit_sim _ _ hΓ
  | litInt n => simp only [chainE, walkStep]; exact lit_sim _ _ hΓ
  | litLong n => simp only [chainE, walkStep]; exact lit_sim _ _ hΓ
  | litFloat n => simp only [chainE, walkStep]; exact lit_sim _ _ hΓ
  | litDouble n => simp only [chainE, walkStep]; exact lit_sim _ _ hΓ
  | litString n => simp only [chainE, walkStep]; exact lit_sim _ _ hΓ
  | litBase64 n => simp only [chainE, walkStep]; exact lit_sim _ _ hΓ
  | literal t v =>
    rw [CleanE] at he
    simp only [chainE, he, walkStep]
    exact RSim.bindS (RSim.same _) (fun v => lit_sim _ _ hΓ)
  | newObject fs t =>
    rw [CleanE] at he
    simp only [chainE, he.2, walkStep]
    refine RSim.bind (walkD_sim W he.1 hs) ?_
    rintro ⟨ts, ms, Γ1⟩ ⟨ts', ms', Γ1'⟩ ⟨h1, h2, h3⟩
    cases h1
    have hc : CSim R X P act (fun rt => do
        let d ← evalD (ms.map (fun km => (km.1, km.2 rt)))
        pure (.dict (PyDict.update [] d))) (fun rt => do
        let d ← evalD (ms'.map (fun km => (km.1, km.2 rt)))
        pure (.dict (PyDict.update [] d))) := fun rt rt' hrt k hk =>
      Sim.bind (Sim.evalD (runsD h2 hrt hk)) (fun a b hab => by cases hab.1; exact Sim.pure rfl)
    cases t with
    | record n =>
      simp only
      cases P.env.fields? n with
      | none => exact RSim.error
      | some fields => exact RSim.bindS (RSim.req id) (fun _ => RSim.bindS (RSim.req id) (fun _ => OutRel.expr hc hΓ))
    | map i => exact RSim.bindS (RSim.req id) (fun _ => OutRel.expr hc hΓ)
    | _ => exact RSim.error
  | newArray is t =>
    rw [CleanE] at he
    simp only [chainE, walkStep]
    refine RSim.bind (walkL_sim W he hs) ?_
    rintro ⟨ts, ms, Γ1⟩ ⟨ts', ms', Γ1'⟩ ⟨h1, h2, h3⟩
    cases h1
    cases t with
    | array i => exact RSim.bindS (RSim.req id) (fun _ => OutRel.expr (fun rt rt' hrt k hk => Sim.bindS (Sim.evalL (runs h2 hrt hk)) (fun _ => Sim.pure rfl)) hΓ)
    | _ => exact RSim.error
  | do_ body =>
    rw [CleanE] at he
    simp only [chainE, walkStep]
    refine RSim.bind (block_sim W he ho) ?_
    rintro ⟨t, m, Γ1⟩ ⟨t', m', Γ1'⟩ ⟨h1, h2, h3⟩
    cases h1
    exact OutRel.expr h2 hΓ
  | let_ vs =>
    rw [CleanE] at he
    simp only [chainE, walkStep]
    refine RSim.bindS (RSim.req (by rw [hΓ.within]; exact id)) (fun _ => RSim.bind (newVars_sim W hΓ false he.2 he.1) ?_)
    rintro ⟨ts, ms⟩ ⟨ts', ms'⟩ ⟨h1, h2, h3, h4⟩
    cases h1
    refine OutRel.expr (fun rt rt' hrt k hk => Sim.bind (Sim.evalD (runsD h2 hrt hk)) ?_) (GRel.putAll h3 hΓ)
    rintro a b ⟨hab, hkeys⟩
    cases hab
    refine Sim.letM ?_
    rw [hkeys, List.map_map]
    exact h4
  | setVar vs =>
    rw [CleanE] at he
    simp only [chainE, walkStep]
    refine RSim.bind (assigns_sim hP W hΓ he.2 he.1) ?_
    rintro ms ms' ⟨h2, h4⟩
    refine RSim.bindS (RSim.req id) (fun _ => OutRel.expr (fun rt rt' hrt k hk => Sim.bind (Sim.evalD (runsD h2 hrt hk)) ?_) hΓ)
    rintro a b ⟨hab, hkeys⟩
    cases hab
    refine Sim.setM ?_
    rw [hkeys, List.map_map]
    exact h4
  | attrGet x p =>
    rw [CleanE] at he
    simp only [chainE, walkStep]
    refine RSim.bind (walkE_sim W he.1 hs) ?_
    rintro ⟨t, m, Γ1⟩ ⟨t', m', Γ1'⟩ ⟨h1, h2, h3⟩
    cases h1
    rcases t with _ | (t | _ | _)
    · exact RSim.error
    · refine RSim.bindS (RSim.req id) (fun _ => RSim.bind (walkPath_sim hP W he.2 hs) ?_)
      rintro ⟨r, ps, Γ2⟩ ⟨r', ps', Γ2'⟩ ⟨h4, h5, h6⟩
      cases h4
      exact OutRel.expr (fun rt rt' hrt k hk => Sim.bindS (h2 rt rt' hrt k hk) (fun v => Sim.bindS (Sim.evalPath (runs h5 hrt hk)) (fun q => Sim.lift_same _))) hΓ
    · exact RSim.error
    · exact RSim.error
  | attrTo x p r =>
    rw [CleanE] at he
    simp only [chainE, walkStep]
    refine RSim.bind (walkE_sim W he.1 hs) ?_
    rintro ⟨t, m, Γ1⟩ ⟨t', m', Γ1'⟩ ⟨h1, h2, h3⟩
    cases h1
    rcases t with _ | (t | _ | _)
    · exact RSim.error
    · refine RSim.bindS (RSim.req id) (fun _ => RSim.bind (walkPath_sim hP W he.2.1 hs) ?_)
      rintro ⟨r, ps, Γ2⟩ ⟨r', ps', Γ2'⟩ ⟨h4, h5, h6⟩
      cases h4
      refine RSim.bind (walkTo_sim hP W he.2.2 hΓ) ?_
      rintro ⟨a, Γ3⟩ ⟨a', Γ3'⟩ ⟨h7, h8⟩
      exact OutRel.expr (fun rt rt' hrt k hk => Sim.bindS (h2 rt rt' hrt k hk) (fun v => Sim.bindS (Sim.evalPath (runs h5 hrt hk)) (fun q =>
        Sim.bind (h7 rt rt' hrt k hk) (fun b b' hb => Sim.updateAt hb _ _ q v)))) h8
    · exact RSim.error
    · exact RSim.error
  | cellGet c p =>
    rw [CleanE] at he
    simp only [chainE, walkStep]
    cases hc : P.cells.get? c with
    | none => exact RSim.error
    | some t =>
      obtain ⟨h1, h2⟩ := hP.cells c t hc
      simp only at h1
      rw [h1]
      refine RSim.bind (walkPath_sim hP W he hs) ?_
      rintro ⟨r, ps, Γ2⟩ ⟨r', ps', Γ2'⟩ ⟨h4, h5, h6⟩
      cases h4
      exact OutRel.expr (fun rt rt' hrt k hk => Sim.bindS (Sim.readCell hX h2) (fun v => Sim.bindS (Sim.evalPath (runs h5 hrt hk)) (fun q => Sim.lift_same _))) hΓ
  | cellTo c p r =>
    rw [CleanE] at he
    simp only [chainE, walkStep]
    cases hc : P.cells.get? c with
    | none => exact RSim.error
    | some t =>
      obtain ⟨h1, h2⟩ := hP.cells c t hc
      simp only at h1
      rw [h1]
      refine RSim.bind (walkPath_sim hP W he.1 hs) ?_
      rintro ⟨r, ps, Γ2⟩ ⟨r', ps', Γ2'⟩ ⟨h4, h5, h6⟩
      cases h4
      refine RSim.bind (walkTo_sim hP W he.2 hΓ) ?_
      rintro ⟨a, Γ3⟩ ⟨a', Γ3'⟩ ⟨h7, h8⟩
      exact OutRel.expr (fun rt rt' hrt k hk => Sim.bindS (Sim.evalPath (runs h5 hrt hk)) (fun q =>
        Sim.bind (h7 rt rt' hrt k hk) (fun b b' hb => Sim.cellUpdate hX h2 q hb))) h8
  | poolGet c p =>
    rw [CleanE] at he
    simp only [chainE, walkStep]
    cases hc : P.pools.get? c with
    | none => exact RSim.error
    | some t =>
      obtain ⟨h1, h2⟩ := hP.pools c t hc
      simp only at h1
      rw [h1]
      refine RSim.bind (walkPath_sim hP W he hs) ?_
      rintro ⟨r, ps, Γ2⟩ ⟨r', ps', Γ2'⟩ ⟨h4, h5, h6⟩
      cases h4
      exact OutRel.expr (fun rt rt' hrt k hk => Sim.bindS (Sim.evalPath (runs h5 hrt hk)) (fun q => Sim.bindS (Sim.readPool hX h2) (fun v => Sim.lift_same _))) hΓ
  | poolTo c p r i =>
    rw [CleanE] at he
    simp only [chainE, walkStep]
    cases hc : P.pools.get? c with
    | none => exact RSim.error
    | some t =>
      obtain ⟨h1, h2⟩ := hP.pools c t hc
      simp only at h1
      rw [h1]
      refine RSim.bindS (RSim.req ?_) (fun _ => ?_)
      · cases p with
        | nil => exact id
        | cons e es => rw [chainL]; exact id
      refine RSim.bind (walkPath_sim hP W he.1 hs) ?_
      rintro ⟨r, ps, Γ2⟩ ⟨r', ps', Γ2'⟩ ⟨h4, h5, h6⟩
      cases h4
      refine RSim.bind (walkTo_sim hP W he.2.1 hΓ) ?_
      rintro ⟨a, Γ3⟩ ⟨a', Γ3'⟩ ⟨h7, h8⟩
      refine RSim.bind (walkE_sim W he.2.2 h8) ?_
      rintro ⟨it, im, Γ4⟩ ⟨it', im', Γ4'⟩ ⟨h9, h10, h11⟩
      cases h9
      exact RSim.bindS (RSim.req id) (fun _ => OutRel.expr (fun rt rt' hrt k hk => Sim.bindS (Sim.evalPath (runs h5 hrt hk)) (fun q =>
        Sim.bind (h7 rt rt' hrt k hk) (fun b b' hb => Sim.bindS (h10 rt rt' hrt k hk) (fun i => Sim.poolUpdate hX h2 q hb i)))) h11)
  | poolDel c d => rw [CleanE] at he; exact he.elim
  | if_ p c d =>
    rw [CleanE] at he
    simp only [chainE, walkStep]
    refine RSim.bind (predicate_sim hP W he.1 hΓ) ?_
    intro pm pm' h1
    refine RSim.bind (block_sim W he.2.1 ho) ?_
    rintro ⟨t, cm, Γ1⟩ ⟨t', cm', Γ1'⟩ ⟨h2, h3, h4⟩
    cases h2
    cases d with
    | nil => exact OutRel.expr (fun rt rt' hrt k hk => Sim.ifThen (h1 rt rt' hrt k hk) (h3 rt rt' hrt k hk)) hΓ
    | cons e es =>
      have h5 := block_sim W he.2.2 ho
      rw [chainL] at h5 ⊢
      refine RSim.bind h5 ?_
      rintro ⟨u, dm, Γ2⟩ ⟨u', dm', Γ2'⟩ ⟨h6, h7, h8⟩
      cases h6
      refine RSim.ite (RSim.bindS (RSim.same _) (fun r => ?_)) (RSim.bindS (RSim.same _) (fun r => ?_)) <;>
      exact OutRel.expr (fun rt rt' hrt k hk => Sim.ifThenElse (h1 rt rt' hrt k hk) (h3 rt rt' hrt k hk) (h7 rt rt' hrt k hk)) hΓ
  | cond ifs d =>
    rw [CleanE] at he
    simp only [chainE, walkStep]
    refine RSim.bind (walkIfs_sim hP W hΓ he.1) ?_
    rintro ⟨ts, ms⟩ ⟨ts', ms'⟩ ⟨h1, h2⟩
    cases h1
    have hms : ∀ rt rt', RtRel R X P rt rt' → ∀ k, (act = true → k = true) →
        List.Forall₂ (BRel X k) (ms.map (fun pc => (pc.1 rt, pc.2 rt))) (ms'.map (fun pc => (pc.1 rt', pc.2 rt'))) := by
      intro rt rt' hrt k hk
      rw [List.forall₂_map_left_iff, List.forall₂_map_right_iff]
      exact h2.imp (fun _ _ h => ⟨h.1 rt rt' hrt k hk, h.2 rt rt' hrt k hk⟩)
    cases d with
    | nil => exact OutRel.expr (fun rt rt' hrt k hk => Sim.condM (hms rt rt' hrt k hk)) hΓ
    | cons e es =>
      have h5 := block_sim W he.2 ho
      rw [chainL] at h5 ⊢
      refine RSim.bind h5 ?_
      rintro ⟨u, dm, Γ2⟩ ⟨u', dm', Γ2'⟩ ⟨h6, h7, h8⟩
      cases h6
      refine RSim.ite (RSim.bindS (RSim.same _) (fun r => ?_)) (RSim.bindS (RSim.same _) (fun r => ?_)) <;>
      exact OutRel.expr (fun rt rt' hrt k hk => Sim.condElse (hms rt rt' hrt k hk) (h7 rt rt' hrt k hk)) hΓ
  | while_ p b =>
    rw [CleanE] at he
    simp only [chainE, walkStep]
    refine RSim.bind (predicate_sim hP W he.1 ho) ?_
    intro pm pm' h1
    refine RSim.bind (block_sim W he.2 ho) ?_
    rintro ⟨t, cm, Γ1⟩ ⟨t', cm', Γ1'⟩ ⟨h2, h3, h4⟩
    refine OutRel.expr (fun rt rt' hrt k hk => ?_) hΓ
    rw [hrt.limit, hrt.limit', hrt.fuel]
    exact Sim.doWhile hX (h1 rt rt' hrt k hk) (h3 rt rt' hrt k hk) _
  | doUntil b p =>
    rw [CleanE] at he
    simp only [chainE, walkStep]
    refine RSim.bind (block_sim W he.1 ho) ?_
    rintro ⟨t, cm, Γ1⟩ ⟨t', cm', Γ1'⟩ ⟨h2, h3, h4⟩
    refine RSim.bind (predicate_sim hP W he.2 h4) ?_
    intro pm pm' h1
    refine OutRel.expr (fun rt rt' hrt k hk => ?_) hΓ
    rw [hrt.limit, hrt.limit', hrt.fuel]
    exact Sim.doUntil hX (h1 rt rt' hrt k hk) (h3 rt rt' hrt k hk) _
  | for_ i p s b =>
    rw [CleanE] at he
    obtain ⟨hi, hst, he1, he2, he3, he4⟩ := he
    simp only [chainE, walkStep]
    refine RSim.bind (newVars_sim W ho true he1 hi) ?_
    rintro ⟨ts, ims⟩ ⟨ts', ims'⟩ ⟨h1, h2, h3, h4⟩
    cases h1
    have hl := GRel.putAll h3 ho
    refine RSim.bind (predicate_sim hP W he2 hl) ?_
    intro pm pm' h5
    refine RSim.bind (assigns_sim hP W hl he3 hst) ?_
    rintro sms sms' ⟨h6, h7⟩
    refine RSim.bindS (RSim.req id) (fun _ => RSim.bind (block_sim W he4 (hl.new false false)) ?_)
    rintro ⟨t, cm, Γ1⟩ ⟨t', cm', Γ1'⟩ ⟨h8, h9, h10⟩
    refine OutRel.expr (fun rt rt' hrt k hk => ?_) hΓ
    rw [hrt.limit, hrt.limit', hrt.fuel]
    refine Sim.doFor hX (Sim.bind (Sim.evalD (runsD h2 hrt hk)) ?_) (h5 rt rt' hrt k hk) (Sim.bind (Sim.evalD (runsD h6 hrt hk)) ?_) (h9 rt rt' hrt k hk) _
    · rintro a b ⟨hab, hkeys⟩
      cases hab
      refine Sim.letM ?_
      rw [hkeys, List.map_map]
      exact h4
    · rintro a b ⟨hab, hkeys⟩
      cases hab
      refine Sim.setM ?_
      rw [hkeys, List.map_map]
      exact h7
  | foreach x a b seq =>
    rw [CleanE] at he
    simp only [chainE, walkStep]
    have h0 := hΓ.new (!seq) false
    refine RSim.bindS (RSim.req (by rw [hΓ.find x he.1]; exact id)) (fun _ => RSim.bindS (RSim.req id) (fun _ => RSim.bind (walkE_sim W he.2.1 (h0.new true true)) ?_))
    rintro ⟨t, am, Γ1⟩ ⟨t', am', Γ1'⟩ ⟨h1, h2, h3⟩
    cases h1
    dsimp only
    split
    · next i =>
      refine RSim.bind (block_sim W he.2.2 ((h0.put he.1 _).new false false)) ?_
      rintro ⟨u, bm, Γ2⟩ ⟨u', bm', Γ2'⟩ ⟨h4, h5, h6⟩
      refine OutRel.expr (fun rt rt' hrt k hk => ?_) hΓ
      rw [hrt.limit, hrt.limit']
      exact Sim.bindS (h2 rt rt' hrt k hk) (fun v => Sim.doForeach hX he.1 v (h5 rt rt' hrt k hk))
    · exact RSim.error
  | forkeyval x y a b =>
    rw [CleanE] at he
    obtain ⟨hx, hy, he1, he2⟩ := he
    simp only [chainE, walkStep]
    refine RSim.bindS (RSim.req (by rw [hΓ.find x hx]; exact id)) (fun _ => RSim.bindS (RSim.req (by rw [hΓ.find y hy]; exact id)) (fun _ =>
      RSim.bindS (RSim.req id) (fun _ => RSim.bindS (RSim.req id) (fun _ => RSim.bind (walkE_sim W he1 (ho.new true true)) ?_))))
    rintro ⟨t, am, Γ1⟩ ⟨t', am', Γ1'⟩ ⟨h1, h2, h3⟩
    cases h1
    dsimp only
    split
    · next i =>
      refine RSim.bind (block_sim W he2 ((GRel.putAll ?_ ho).new false false)) ?_
      · intro z hz
        simp only [List.map_cons, List.map_nil, List.mem_cons, List.not_mem_nil, or_false] at hz
        rcases hz with rfl | rfl
        · exact hx
        · exact hy
      rintro ⟨u, bm, Γ2⟩ ⟨u', bm', Γ2'⟩ ⟨h4, h5, h6⟩
      refine OutRel.expr (fun rt rt' hrt k hk => ?_) hΓ
      rw [hrt.limit, hrt.limit']
      exact Sim.bindS (h2 rt rt' hrt k hk) (fun v => Sim.doForkeyval hX hx hy v (h5 rt rt' hrt k hk))
    · exact RSim.error
  | castCase t n b => exact RSim.error
  | castBlock x cs part =>
    rw [CleanE] at he
    simp only [chainE, walkStep]
    refine RSim.bind (walkE_sim W he.1 hs) ?_
    rintro ⟨t, m, Γ1⟩ ⟨t', m', Γ1'⟩ ⟨h1, h2, h3⟩
    cases h1
    rcases t with _ | (t | _ | _)
    · exact RSim.error
    · dsimp only
      rw [castTypes_chain he.2]
      refine RSim.bindS (RSim.req id) (fun _ => RSim.bind (walkCases_sim W hΓ he.2) ?_)
      rintro ⟨us, ks⟩ ⟨us', ks'⟩ ⟨h4, h5⟩
      cases h4
      refine RSim.ite (RSim.bindS (RSim.same _) (fun r => RSim.bindS (RSim.req id) (fun _ => OutRel.expr (fun rt rt' hrt k hk => ?_) hΓ)))
        (RSim.bindS (RSim.req id) (fun _ => RSim.bindS (RSim.same _) (fun r => RSim.bindS (RSim.req id) (fun _ => OutRel.expr (fun rt rt' hrt k hk => ?_) hΓ)))) <;>
      refine Sim.bindS (h2 rt rt' hrt k hk) (fun v => Sim.castM _ v t ?_ part) <;>
      rw [List.forall₂_map_left_iff, List.forall₂_map_right_iff] <;>
      exact h5.imp (fun _ _ h => ⟨h.1, h.2.1, h.2.2.1, h.2.2.2 rt rt' hrt k hk⟩)
    · exact RSim.error
    · exact RSim.error
  | upcast x t =>
    rw [CleanE] at he
    simp only [chainE, he.2, walkStep]
    refine RSim.bind (walkE_sim W he.1 hs) ?_
    rintro ⟨u, m, Γ1⟩ ⟨u', m', Γ1'⟩ ⟨h1, h2, h3⟩
    cases h1
    rcases u with _ | (u | _ | _)
    · exact RSim.error
    · refine RSim.bindS (RSim.req id) (fun _ => ?_)
      show RSim _ (match upcastFn P t u with
        | some f => _
        | none => _) (match upcastFn P t u with
        | some f => _
        | none => _)
      cases upcastFn P t u with
      | none => exact RSim.error
      | some f => exact OutRel.expr (fun rt rt' hrt k hk => Sim.bindS (h2 rt rt' hrt k hk) (fun _ => Sim.pure rfl)) hΓ
    · exact RSim.error
    · exact RSim.error
  | ifNotNull es c d =>
    rw [CleanE] at he
    obtain ⟨hx, he1, he2, he3⟩ := he
    simp only [chainE, walkStep]
    refine RSim.bind (walkNotNull_sim W he1 hs hx) ?_
    rintro ⟨bs, Γ1⟩ ⟨bs', Γ1'⟩ h1
    simp only at h1
    have hb : bs'.map (fun b => (b.1, some (CType.avro b.2.1))) = bs.map (fun b => (b.1, some (CType.avro b.2.1))) := by
      clear hx he1 he2 he3
      induction h1 with
      | nil => rfl
      | cons h1 _ ih => rw [List.map_cons, List.map_cons, ih, h1.1, h1.2.1]
    have hfree : ∀ x ∈ bs.map Prod.fst, x ∉ X.names := by
      clear hx he1 he2 he3 hb
      induction h1 with
      | nil => intro x hx; cases hx
      | cons h1 _ ih =>
        intro x hx
        rcases List.mem_cons.1 hx with rfl | hx
        · exact h1.2.2.1
        · exact ih x hx
    dsimp only
    rw [hb]
    refine RSim.bind (block_sim W he2 ((GRel.putAll ?_ ho).new false false)) ?_
    · rw [List.map_map]; exact hfree
    rintro ⟨t, cm, Γ2⟩ ⟨t', cm', Γ2'⟩ ⟨h2, h3, h4⟩
    cases h2
    refine RSim.bind (elseJoin_sim hP W hΓ t he3) ?_
    rintro ⟨r, dm⟩ ⟨r', dm'⟩ ⟨h5, h6⟩
    cases h5
    refine OutRel.expr (fun rt rt' hrt k hk => ?_) hΓ
    have h7 : Sim X k (fun a b => b = a ∧ Free X (a.map Prod.fst)) (evalL (bs.map (fun b => do
        let v ← b.2.2 rt
        pure (b.1, b.2.1, v)))) (evalL (bs'.map (fun b => do
        let v ← b.2.2 rt'
        pure (b.1, b.2.1, v)))) := by
      clear hx he1 he2 he3 hb hfree
      induction h1 with
      | nil => exact Sim.pure ⟨rfl, fun x hx => by cases hx⟩
      | @cons a b _ _ h1 _ ih =>
        obtain ⟨x, u, m⟩ := a
        obtain ⟨x', u', m'⟩ := b
        obtain ⟨rfl, rfl, h8, h9⟩ := h1
        refine Sim.bind (Q := fun a b => b = a ∧ a.1 ∉ X.names) (Sim.bindS (h9 rt rt' hrt k hk) (fun v => Sim.pure ⟨rfl, h8⟩)) ?_
        rintro a b ⟨rfl, h10⟩
        refine Sim.bind ih ?_
        rintro as bs ⟨rfl, h11⟩
        refine Sim.pure ⟨rfl, ?_⟩
        intro y hy
        rcases List.mem_cons.1 hy with rfl | hy
        · exact h10
        · exact h11 y hy
    refine Sim.bind h7 ?_
    rintro vs vs' ⟨rfl, h8⟩
    exact withElse_sim h6 hrt hk (fun m m' hm => Sim.ifNotNullElse h8 (h3 rt rt' hrt k hk) hm)
  | pack es =>
    rw [CleanE] at he
    simp only [chainE, walkStep]
    refine RSim.bind (walkPack_sim hP W hΓ he) ?_
    intro ms ms' h1
    refine RSim.bindS (RSim.req id) (fun _ => OutRel.expr (fun rt rt' hrt k hk => Sim.bindS (Sim.evalL ?_) (fun vs => Sim.lift_same _)) hΓ)
    rw [List.forall₂_map_left_iff, List.forall₂_map_right_iff]
    refine h1.imp ?_
    rintro ⟨d, t, m⟩ ⟨d', t', m'⟩ ⟨h2, h3, h4⟩
    cases h2
    exact Sim.bindS (h4 rt rt' hrt k hk) (fun v => Sim.pure rfl)
  | unpack b f c d =>
    rw [CleanE] at he
    obtain ⟨hx, he1, he2, he3⟩ := he
    simp only [chainE, walkStep]
    refine RSim.bind (walkE_sim W he1 hs) ?_
    rintro ⟨t, m, Γ1⟩ ⟨t', m', Γ1'⟩ ⟨h1, h2, h3⟩
    cases h1
    refine RSim.bindS (RSim.req id) (fun _ => RSim.bind (walkFormat_sim ho hx) ?_)
    rintro ⟨ds, Γ2⟩ ⟨ds', Γ2'⟩ ⟨h4, h5, h6⟩
    cases h4
    refine RSim.bindS (RSim.req id) (fun _ => RSim.bind (block_sim W he2 (h6.new false false)) ?_)
    rintro ⟨u, cm, Γ3⟩ ⟨u', cm', Γ3'⟩ ⟨h7, h8, h9⟩
    cases h7
    refine RSim.bind (elseJoin_sim hP W hΓ u he3) ?_
    rintro ⟨r, dm⟩ ⟨r', dm'⟩ ⟨h10, h11⟩
    cases h10
    exact OutRel.expr (fun rt rt' hrt k hk => Sim.bindS (h2 rt rt' hrt k hk) (fun v =>
      withElse_sim h11 hrt hk (fun m m' hm => Sim.unpackM h5 v (h8 rt rt' hrt k hk) hm))) hΓ
  | doc c => simp only [chainE, walkStep]; exact OutRel.expr (fun _ _ _ _ _ => Sim.pure rfl) hΓ
  | error m c => simp only [chainE, walkStep]; exact OutRel.expr (fun _ _ _ _ _ => Sim.raise _) hΓ
  | try_ es f =>
    rw [CleanE] at he
    simp only [chainE, walkStep]
    refine RSim.bind (block_sim W he hs) ?_
    rintro ⟨t, m, Γ1⟩ ⟨t', m', Γ1'⟩ ⟨h1, h2, h3⟩
    cases h1
    refine RSim.bindS (RSim.req id) (fun _ => ?_)
    dsimp only
    split
    · exact RSim.bindS (RSim.same _) (fun r => OutRel.expr (fun rt rt' hrt k hk => Sim.tryCatch _ (h2 rt rt' hrt k hk) _) hΓ)
    · exact RSim.bindS (RSim.req id) (fun _ => RSim.bindS (RSim.same _) (fun r => OutRel.expr (fun rt rt' hrt k hk => Sim.tryCatch _ (h2 rt rt' hrt k hk) _) hΓ))
    · exact RSim.error
  | log es n =>
    rw [CleanE] at he
    simp only [chainE, walkStep]
    refine RSim.bind (walkL_sim W he hs) ?_
    rintro ⟨ts, ms, Γ1⟩ ⟨ts', ms', Γ1'⟩ ⟨h1, h2, h3⟩
    cases h1
    exact RSim.bindS (RSim.req id) (fun _ => OutRel.expr (fun rt rt' hrt k hk => Sim.bindS (Sim.evalL (runs h2 hrt hk)) (fun vs => Sim.logM hX vs)) hΓ)

/-- C84: an engine that passes the check also passes it inside the chain, with the same types, and its code does the same. -/
theorem walk_chain (S : Setting R X T P P') (n m : Nat) (hnm : n ≤ m) : ∀ act, WSim R X T P act (walk P Guard.all n) (walk P' Guard.all m) := by
  induction n generalizing m with
  | zero => intro act e Γ Γ' _ _; exact RSim.error
  | succ n ih =>
    obtain ⟨m, rfl⟩ : ∃ k, m = k + 1 := ⟨m - 1, by omega⟩
    intro act
    exact walkStep_sim S (ih m (by omega))

/-! ## Functions -/

/-- C84: the functions of the engine do the same in the chain, to any depth of calls. -/
theorem rt_chain (S : Setting R X T P P') {d d' : Nat} (hd : d ≤ d') (hf : FunsOk P (walk P Guard.all d))
    (hfun : ∀ n ps r b, P.funs.get? n = some (.user ps r b) → CleanE R X.names false (.fcnDef ps r b) ∧
      P'.funs.get? (R.fcn n) = some (.user ps r (chainL R [] b)))
    {fuel k : Nat} {lib lib' : String → Option (List CType) → List Arg → M Val}
    (hlib : ∀ n sigs, P.funs.get? n = some (.lib sigs) → (R.emit.isSome → n ≠ "emit") → ∀ k pt as as', List.Forall₂ (ARel X k) as as' →
      Sim X k Same (lib n pt as) (lib' n pt as'))
    (hemit : ∀ n', k ≤ n' → ∀ next, R.emit = some next → ∀ b pt a a', ARel X b a a' →
      Sim X b Same (lib "emit" pt [a]) (lift (vals [a']) >>= fun vs => inFresh (callUserFn (rtN P' (walk P' Guard.all d') fuel noLimit lib' n') next vs)))
    (n : Nat) : ∀ n', n + k ≤ n' → RtRel R X P (rtN P (walk P Guard.all d) fuel noLimit lib n) (rtN P' (walk P' Guard.all d') fuel noLimit lib' n') := by
  have hx : ∀ n, (rtN P' (walk P' Guard.all d') fuel noLimit lib' n).fuel = fuel ∧ (rtN P' (walk P' Guard.all d') fuel noLimit lib' n).expired = noLimit ∧
      (rtN P' (walk P' Guard.all d') fuel noLimit lib' n).lib = lib' := by
    intro n; cases n <;> exact ⟨rfl, rfl, rfl⟩
  induction n with
  | zero =>
    intro n' hn
    refine ⟨(hx n').1, rfl, (hx n').2.1, ?_, ?_, ?_⟩
    · intro n ps r b hn k vs s s' _
      refine .inl ?_
      unfold callUserFn
      simp only [rtN, hn]
      rfl
    · intro n sigs h1 h2 k pt as as' has
      rw [(hx n').2.2]
      exact hlib n sigs h1 h2 k pt as as' has
    · intro next h1 b pt a a' haa
      exact hemit n' (by omega) next h1 b pt a a' haa
  | succ n ih =>
    intro n' hn
    obtain ⟨m, rfl⟩ : ∃ j, n' = j + 1 := ⟨n' - 1, by omega⟩
    refine ⟨(hx _).1, rfl, (hx _).2.1, ?_, ?_, ?_⟩
    · intro x ps r b hx' k vs
      obtain ⟨h1, h2⟩ := hfun x ps r b hx'
      obtain ⟨⟨t, c, Γ⟩, h3⟩ := hf x ps r b hx'
      have h4 := h1
      rw [CleanE] at h4
      have hps : ps.map (fun p => (p.1, R.type p.2)) = ps := by
        conv_rhs => rw [← List.map_id ps]
        exact List.map_congr_left (fun p hp => by rw [(h4.1 p hp).2]; rfl)
      have hG : GRel X.names T false (topTab.new true false) (topTab.new true false) :=
        ⟨by simp [SymTab.new], by simp [SymTab.new], fun _ _ => rfl, fun _ _ => id, rfl, fun h => by cases h⟩
      obtain ⟨⟨t', c', Γ'⟩, h5, h6, h7, h8⟩ := walk_chain S d d' hd false (.fcnDef ps r b) _ _ h1 hG _ h3
      rw [chainE, hps, h4.2.1] at h5
      unfold callUserFn
      simp only [rtN, hx', h2, h3, h5]
      cases h7 with
      | expr h => intro s s' hr; exact .inr ⟨rfl, hr, rfl⟩
      | fn b h => exact h _ _ (ih m (by omega)) k (fun h => by cases h) vs
    · intro n sigs h1 h2 k pt as as' has
      exact hlib n sigs h1 h2 k pt as as' has
    · intro next h1 b pt a a' haa
      exact hemit _ (by omega) next h1 b pt a a' haa

end

end Verif.Chain
