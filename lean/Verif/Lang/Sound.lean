import Verif.Lang.Parts
/-!
# Checked programs do not go wrong (C42)

Each kind of expression: if the semantic check (with the conditions of a `Guard`) accepts it, then the code
generated for it does what its type says.
-/

namespace Verif.Lang
open Avro Scope Path Sig Ast

/-! ## User-defined functions and their signatures -/

mutual
theorem assignRet_fromType (σ : PyDict String (Option CType)) : ∀ (t : AType) (c : CType), assignRet σ (fromType t) = .ok c → c = .avro t
  | .null, c, h => by simp [fromType, assignRet] at h; exact h.symm
  | .boolean, c, h => by simp [fromType, assignRet] at h; exact h.symm
  | .int, c, h => by simp [fromType, assignRet] at h; exact h.symm
  | .long, c, h => by simp [fromType, assignRet] at h; exact h.symm
  | .float, c, h => by simp [fromType, assignRet] at h; exact h.symm
  | .double, c, h => by simp [fromType, assignRet] at h; exact h.symm
  | .bytes, c, h => by simp [fromType, assignRet] at h; exact h.symm
  | .string, c, h => by simp [fromType, assignRet] at h; exact h.symm
  | .fixed _ _, c, h => by simp [fromType, assignRet] at h; exact h.symm
  | .enum _ _, c, h => by simp [fromType, assignRet] at h; exact h.symm
  | .record _, c, h => by simp [fromType, assignRet] at h; exact h.symm
  | .array t, c, h => by
    rw [fromType, assignRet] at h
    obtain ⟨i, h1, rfl⟩ := wrapAvro_inv h
    have := assignRet_fromType σ t _ h1
    cases this; rfl
  | .map t, c, h => by
    rw [fromType, assignRet] at h
    obtain ⟨i, h1, rfl⟩ := wrapAvro_inv h
    have := assignRet_fromType σ t _ h1
    cases this; rfl
  | .union ts, c, h => by
    rw [fromType, assignRet] at h
    cases h1 : assignRetL σ (fromTypeL ts) with
    | error e => rw [h1] at h; cases h
    | ok us =>
      have := assignRetL_fromTypeL σ ts us h1
      subst this
      rw [h1] at h
      dsimp only at h
      cases h2 : mkUnion us with
      | error e => rw [h2] at h; cases h
      | ok u => rw [h2] at h; cases h; rw [(mkUnion_ok h2).1]
theorem assignRetL_fromTypeL (σ : PyDict String (Option CType)) : ∀ (ts us : List AType), assignRetL σ (fromTypeL ts) = .ok us → us = ts
  | [], us, h => by simp [fromTypeL, assignRetL] at h; exact h
  | t :: ts, us, h => by
    rw [fromTypeL, assignRetL] at h
    cases h1 : assignRet σ (fromType t) with
    | error e => rw [h1] at h; cases h
    | ok c =>
      have := assignRet_fromType σ t c h1
      subst this
      rw [h1] at h
      dsimp only at h
      cases h2 : assignRetL σ (fromTypeL ts) with
      | error e => rw [h2] at h; cases h
      | ok us' => rw [h2] at h; cases h; rw [assignRetL_fromTypeL σ ts us' h2]
end

theorem toTy_fromType {t : AType} {c : CType} (h : toTy (fromType t) = .ok c) : c = .avro t := by
  cases t <;> exact assignRet_fromType [] _ c h

/-- A call of a user-defined function that passes the check. -/
theorem userSig_ok {env : Env} {ps : List (String × AType)} {r : AType} {tys : List CType} {v : Ver} {s : Sig1} {qs : List CType} {ret : CType}
    (h : sigsAccept env [userSig ps r] tys v = .ok (some (s, qs, ret))) : ret = .avro r ∧ ps.length = tys.length := by
  unfold sigsAccept at h
  cases h1 : (userSig ps r).accepts env tys v with
  | error e => rw [h1] at h; cases h
  | ok o =>
    rw [h1] at h
    cases o with
    | none => cases h
    | some o =>
      obtain ⟨qs', r'⟩ := o
      cases h
      unfold Sig1.accepts at h1
      split at h1
      · split at h1
        · next hl =>
          refine ⟨?_, by simpa [userSig] using hl⟩
          split at h1
          · cases h1
          · cases h1
          · next d h _ =>
            unfold orNone finish at h1
            cases h2 : determineAll env h d with
            | error e => rw [h2] at h1; dsimp only at h1; split at h1 <;> cases h1
            | ok σ =>
              rw [h2] at h1; dsimp only at h1
              cases h3 : assignAll σ ((userSig ps r).params.map Prod.snd) tys with
              | error e => rw [h3] at h1; dsimp only at h1; split at h1 <;> cases h1
              | ok ts =>
                rw [h3] at h1; dsimp only at h1
                cases h4 : assignRet σ (userSig ps r).ret with
                | error e => rw [h4] at h1; dsimp only at h1; split at h1 <;> cases h1
                | ok r'' =>
                  rw [h4] at h1; cases h1
                  exact assignRet_fromType σ r _ h4
        · cases h1
      · cases h1

theorem userParams {ps : List (String × AType)} {qs : List CType} (h : mapR toTy ((ps.map (fun p => (p.1, fromType p.2))).map Prod.snd) = .ok qs) :
    qs = ps.map (fun p => .avro p.2) := by
  rw [mapR_ok] at h
  simp only [List.map_map, List.forall₂_map_left_iff] at h
  induction h with
  | nil => rfl
  | cons h1 _ ih => rw [ih, toTy_fromType h1]; rfl

section
variable {P : Prog} {g : Guard} {V : AType → Val → Prop} {w : Walk}

/-- Results of nodes that add no symbol. -/
theorem plain {Γ : SymTab} {t : Ty} {m : Rt → M Val} (h : ∀ rt, RtOk P g V rt → Ok P V Γ Γ (VT V t) (m rt)) :
    Γ = Γ ∧ CodeOk P g V Γ Γ t (.expr m) := ⟨rfl, h⟩

theorem Ok.null {Γ Γ' : SymTab} (F : Fit P g V) {m : M Val} (h : Ok P V Γ Γ' (fun v => v = .null) m) : Ok P V Γ Γ' (VT V (some (.avro .null))) m :=
  h.mono (fun _ hv => by rw [hv]; exact F.null)

/-- `callUserFn` -/
theorem callUser_pres {rt : Rt} (hr : RtOk P g V rt) {name : String} {ps : List (String × AType)} {ret : AType} {body : List Ex}
    (h : P.funs.get? name = some (.user ps ret body)) {vs : List Val} (hv : List.Forall₂ (fun p v => V p.2 v) ps vs) {c0 : Chain Val} (hne : c0 ≠ []) :
    Pres (Base P V c0) (V ret) (callUserFn rt name vs) := by
  obtain ⟨f, h1, h2⟩ := hr.user name ps ret body h
  unfold callUserFn
  rw [h1]
  exact h2 vs hv c0 hne

/-- A call in a scope without parent. -/
theorem fresh_pres {m : M Val} {Q : Val → Prop} (h : Pres (Base P V [[]]) Q m) (c0 : Chain Val) : Pres (Base P V c0) Q (inFresh m) := by
  intro s hs
  have h1 := h { s with chain := [[]] } ⟨hs.1, Same.refl _⟩
  unfold inFresh
  revert h1
  rcases m { s with chain := [[]] } with ⟨r | a, s'⟩
  · exact fun h1 => ⟨h1.1, h1.2.1, hs.2⟩
  · exact fun h1 => ⟨h1.1, h1.2.1, hs.2⟩

/-! ## Functions -/

theorem sound_fcnDef (F : Fit P g V) (hw : SoundW P g V w) {Γ Γ' : SymTab} {ps ret body t c}
    (h : walkStep P g w (.fcnDef ps ret body) Γ = .ok (t, c, Γ')) : Γ' = Γ ∧ CodeOk P g V Γ Γ t c := by
  simp only [walkStep, ebind, req_iff] at h
  obtain ⟨_, -, _, -, ⟨u, m, Γ1⟩, h1, _, h2, h3⟩ := h
  cases h3
  refine ⟨rfl, rfl, _, _, rfl, fun rt hr vs hv c0 ha hne => ?_⟩
  rw [putAll_new] at h1
  obtain ⟨e1, o1⟩ := block_ok hw h1
  have hv' : List.Forall₂ (fun (p : String × Ty) (x : String × Val) => p.1 = x.1 ∧ VT V p.2 x.2)
      (ps.map (fun p => (p.1, some (.avro p.2)))) ((ps.map Prod.fst).zip vs) := by
    clear h1 e1 o1 h2
    induction ps generalizing vs with
    | nil => cases hv; exact .nil
    | cons p ps ih =>
      cases hv with
      | cons h1 h2 => exact .cons ⟨rfl, h1⟩ (ih _ h2)
  refine Pres.frame (Child.mk' Γ _ true false) (fun x hx => ?_) e1 ((corr_zip hv').frameOk Γ) ((o1 rt hr).mono (fun v hv => ?_)) ha hne
  · unfold SymTab.writable at hx
    simp only [Bool.false_eq_true, if_false, if_true] at hx
    intro hn
    rw [hn] at hx; cases hx
  · rw [Bool.or_eq_true] at h2
    rcases h2 with h2 | h2
    · rcases u with _ | (_ | _ | _) <;> first | exact hv.elim | cases h2
    · exact accTy_ok F h2 hv

theorem sound_fcnRef {Γ Γ' : SymTab} {name t c}
    (h : walkStep P g w (.fcnRef name) Γ = .ok (t, c, Γ')) : Γ' = Γ ∧ CodeOk P g V Γ Γ t c := by
  simp only [walkStep] at h
  split at h
  · cases h
  · next f hf =>
    simp only [ebind] at h
    obtain ⟨sig, h1, qs, h2, r, h3, h4⟩ := h
    cases f with
    | user ps ret body =>
      cases h1
      dsimp only at h4
      cases h4
      refine ⟨rfl, rfl, _, _, rfl, fun rt hr vs hv c0 ha hne => ?_⟩
      obtain rfl := userParams h2
      obtain rfl := assignRet_fromType [] _ _ h3
      rw [List.forall₂_map_left_iff] at hv
      exact callUser_pres hr hf hv hne
    | lib sigs =>
      simp only [ebind, req_iff] at h4
      obtain ⟨_, h5, h6⟩ := h4
      cases h6
      exact ⟨rfl, rfl, _, _, rfl, fun rt hr vs hv c0 ha hne => hr.ref _ _ _ h5 _ (stable_base c0) vs hv⟩

theorem sound_call (F : Fit P g V) (hw : SoundW P g V w) {Γ Γ' : SymTab} {name args t c}
    (h : walkStep P g w (.call name args) Γ = .ok (t, c, Γ')) : Γ' = Γ ∧ CodeOk P g V Γ Γ t c := by
  simp only [walkStep] at h
  split at h
  · cases h
  · next f hf =>
    simp only [ebind] at h
    obtain ⟨⟨ts, cs, Γ1⟩, h1, tys, h2, h3⟩ := h
    obtain ⟨e1, o1⟩ := walkA_ok hw h1
    rw [ctypes_iff] at h2
    subst h2
    cases f with
    | user ps ret body =>
      simp only [ebind] at h3
      obtain ⟨o, h3, h4⟩ := h3
      rcases o with _ | ⟨s, qs, r⟩
      · cases h4
      · simp only [ebind, req_iff] at h4
        obtain ⟨_, h5, h6⟩ := h4
        cases h6
        obtain ⟨rfl, hl⟩ := userSig_ok h3
        refine plain (fun rt hr => Ok.new e1 (Ok.bind e1 (o1 rt hr) (fun as has => ?_)))
        obtain ⟨vs, h7, h8⟩ := args_user F hl h5 has
        refine Ok.seq (Q := fun x => x = vs) (Ok.lift (by rw [h7])) (fun x hx => ?_)
        subst hx
        exact Ok.of_pres (fun c0 _ _ => fresh_pres (callUser_pres hr hf h8 (by simp)) c0)
    | lib sigs =>
      simp only [ebind] at h3
      obtain ⟨o, h3, h4⟩ := h3
      rcases o with _ | ⟨s, qs, r⟩
      · cases h4
      · simp only [ebind, req_iff] at h4
        obtain ⟨_, h5, h6⟩ := h4
        cases h6
        refine plain (fun rt hr => Ok.new e1 (Ok.bind e1 (o1 rt hr) (fun as has => ?_)))
        exact Ok.of_pres (fun c0 ha hne => hr.lib _ _ _ _ h5 _ (stable_base c0) as (args_lib ha hne has))

theorem callTargets_ok {tys : List CType} {ns : List String} : ∀ {rs : List Ty}, callTargets P g tys ns = .ok rs →
    ∀ n ∈ ns, ∃ ps ret body, P.funs.get? ("u." ++ n) = some (.user ps ret body) ∧ ps.length = tys.length ∧
      (ps.zip tys).all (fun pa => accTy P g pa.1.2 (some pa.2)) = true ∧ some (.avro ret) ∈ rs := by
  induction ns with
  | nil => intro rs _ n hn; cases hn
  | cons n ns ih =>
    intro rs h n' hn'
    simp only [callTargets] at h
    split at h
    · next ps r body hf =>
      simp only [ebind] at h
      obtain ⟨o, h1, h2⟩ := h
      rcases o with _ | ⟨s, qs, ret⟩
      · cases h2
      · simp only [ebind, req_iff] at h2
        obtain ⟨_, h3, ts, h4, h5⟩ := h2
        cases h5
        obtain ⟨rfl, hl⟩ := userSig_ok h1
        rcases List.mem_cons.1 hn' with rfl | hn'
        · exact ⟨ps, r, body, hf, hl, h3, List.mem_cons_self ..⟩
        · obtain ⟨ps', r', b', h6, h7, h8, h9⟩ := ih h4 n' hn'
          exact ⟨ps', r', b', h6, h7, h8, List.mem_cons_of_mem _ h9⟩
    · cases h

/-- Evaluated expressions as arguments. -/
theorem args_vals {Γ : SymTab} {ts : List Ty} {vs : List Val} (h : List.Forall₂ (VT V) ts vs) : List.Forall₂ (ArgT P V Γ) ts (vs.map .val) := by
  rw [List.forall₂_map_right_iff]
  exact h.imp (fun t v hv => by cases t <;> exact hv)

theorem vals_map (vs : List Val) : vals (vs.map .val) = .ok vs := by
  induction vs with
  | nil => rfl
  | cons v vs ih => simp [vals, ih, Res.app]

theorem sound_callUser (F : Fit P g V) (hw : SoundW P g V w) {Γ Γ' : SymTab} {name args t c}
    (h : walkStep P g w (.callUser name args) Γ = .ok (t, c, Γ')) : Γ' = Γ ∧ CodeOk P g V Γ Γ t c := by
  simp only [walkStep, ebind] at h
  obtain ⟨⟨nt, nm, Γ1⟩, h1, h2⟩ := h
  dsimp only at h2
  split at h2
  · next en symbols =>
    simp only [ebind] at h2
    obtain ⟨⟨ts, ms, Γ2⟩, h3, tys, h4, rs, h5, r, h6, h7⟩ := h2
    cases h7
    rw [ctypes_iff] at h4
    subst h4
    obtain ⟨e2, o2⟩ := walkL_ok hw h3
    refine plain (fun rt hr => Ok.seq (walkE_new hw h1 rt hr) (fun n hn => ?_))
    obtain ⟨s, hs, rfl⟩ := F.enum _ _ _ hn
    obtain ⟨ps, ret, body, h8, h9, h10, h11⟩ := callTargets_ok h5 s hs
    obtain ⟨f, hf1, hf2⟩ := hr.user _ _ _ _ h8
    dsimp only
    rw [hf1]
    refine Ok.seq (Ok.new e2 (o2 rt hr)) (fun vs hvs => ?_)
    obtain ⟨vs', hv1, hv2⟩ := args_user F h9 h10 (args_vals (P := P) (Γ := Γ) hvs)
    rw [vals_map] at hv1
    cases hv1
    exact Ok.of_pres (fun c0 _ _ => fresh_pres ((hf2 vs hv2 [[]] (by simp)).mono (fun v hv => join_ok F h6 h11 hv)) c0)
  · cases h2

/-! ## Partially filled functions -/

theorem walkDA_ok (hw : SoundW P g V w) (hs : SealedW w) {es : List (String × Ex)} : ∀ {Γ fs Γ'}, Γ.within = true →
    walkDA w es Γ = .ok (fs, Γ') → ∀ f ∈ fs, CodeOk P g V Γ Γ f.2.1 f.2.2 := by
  induction es with
  | nil => intro Γ fs Γ' _ h f hf; cases h; cases hf
  | cons ke es ih =>
    obtain ⟨k, e⟩ := ke
    intro Γ fs Γ' hin h f hf
    simp only [walkDA, ebind] at h
    obtain ⟨⟨t, c, Γ1⟩, h1, ⟨fs', Γ2⟩, h2, h3⟩ := h
    cases h3
    obtain rfl := hs _ _ _ _ _ h1 hin
    rcases List.mem_cons.1 hf with rfl | hf
    · exact (hw _ _ _ _ _ h1).2
    · exact ih hin h2 f hf

/-- Symbols that are not valid names and not visible are out of reach of the code. -/
theorem Ok.hide {α : Type} {Γ Δ : SymTab} {Q : α → Prop} {m : M α} (hf : ∀ x t, Γ.find x = some t → Δ.find x = some t)
    (hn : ∀ x, Γ.find x = none → Δ.find x ≠ none → validSymbolName x = false)
    (hw : ∀ x, Γ.find x ≠ none → Γ.writable x = true → Δ.writable x = true) (h : Ok P V Γ Γ Q m) : Ok P V Δ Δ Q m := by
  have hk : ∀ c c', Keep Γ c c' → Keep Δ c c' := fun c c' hk => ⟨hk.len, hk.mono, fun i x hx => by
    rcases hk.diff i x hx with ⟨h1, h2, h3⟩ | ⟨h1, h2, h3⟩
    · refine .inl ⟨⟨?_, hw x h1.1 h1.2⟩, h2, h3⟩
      cases hx : Γ.find x with
      | none => exact absurd hx h1.1
      | some t => rw [hf x t hx]; simp
    · refine .inr ⟨h1, ?_, h3⟩
      by_contra hx
      rw [hn x h2 hx] at h3; cases h3⟩
  have ha : ∀ c c', Agree V Δ c → Agree V Γ c' → Keep Γ c c' → Agree V Δ c' := fun c c' h1 h2 hk x t hx => by
    cases hg : Γ.find x with
    | some u =>
      rw [hf x u hg] at hx
      obtain rfl := Option.some.inj hx
      exact h2 x _ hg
    | none =>
      obtain ⟨v, h3, h4⟩ := h1 x t hx
      refine ⟨v, ?_, h4⟩
      rw [← h3]; symm
      refine get_congr hk.len (fun i => ?_)
      by_contra hd
      rcases hk.diff i x hd with ⟨h5, -⟩ | ⟨-, -, h5⟩
      · exact h5.1 hg
      · rw [hn x hg (by rw [hx]; simp)] at h5; cases h5
  intro s hs
  have h1 := h s ⟨fun x t hx => hs.agree x t (hf x t hx), hs.world, hs.ne⟩
  revert h1
  rcases m s with ⟨r | a, s'⟩
  · exact fun ⟨h1, h2, h3⟩ => ⟨h1, ⟨ha _ _ hs.agree h2.agree h3, h2.world, h2.ne⟩, hk _ _ h3⟩
  · exact fun ⟨h1, h2, h3, _⟩ => ⟨h1, ⟨ha _ _ hs.agree h2.agree h3, h2.world, h2.ne⟩, hk _ _ h3, New.refl _ _⟩

theorem dollar_invalid (j : Nat) : validSymbolName ("$" ++ toString j) = false := by
  have : ("$" ++ toString j).toList = '$' :: (toString j).toList := by simp
  unfold validSymbolName
  rw [this]
  simp [Char.isAlpha, Char.isUpper, Char.isLower]

theorem dollar_inj {i j : Nat} (h : "$" ++ toString i = "$" ++ toString j) : i = j := by
  have h1 : (toString i).toList = (toString j).toList := by
    have := congrArg String.toList h
    simpa using this
  have h2 : Nat.toDigits 10 i = Nat.toDigits 10 j := by
    have hi : (toString i).toList = Nat.toDigits 10 i := by
      show (Nat.repr i).toList = _
      simp [Nat.repr]
    have hj : (toString j).toList = Nat.toDigits 10 j := by
      show (Nat.repr j).toList = _
      simp [Nat.repr]
    rw [← hi, ← hj, h1]
  have := congrArg (fun l => Nat.ofDigitChars 10 l 0) h2
  simpa [Nat.ofDigitChars_ten_toDigits] using this

theorem get?_zip {ν : Type} {names : List String} (hn : names.Nodup) : ∀ {ts : List ν}, names.length = ts.length → ∀ (i : Nat) (x : String) (t : ν), names[i]? = some x → ts[i]? = some t →
    (PyDict.update ([] : PyDict String ν) (names.zip ts)).get? x = some t := by
  intro ts hl i x t hx ht
  have hwf : PyDict.WF (names.zip ts) := by
    unfold PyDict.WF PyDict.keys
    rw [List.map_fst_zip (by omega)]; exact hn
  rw [Scope.get?_update, Scope.get?_reverse hwf]
  have hm : (x, t) ∈ names.zip ts := by
    apply List.mem_of_getElem? (i := i)
    rw [List.getElem?_zip_eq_some]; exact ⟨hx, ht⟩
  rw [PyDict.get?_of_mem hwf hm]

theorem fillArgs_ok {Γ Δ : SymTab} {fs : List (String × Ty × Code)} {rt : Rt} (hr : RtOk P g V rt)
    (hhide : ∀ (Q : Arg → Prop) (m : M Arg), Ok P V Γ Γ Q m → Ok P V Δ Δ Q m)
    (hfs : ∀ f ∈ fs, CodeOk P g V Γ Γ f.2.1 f.2.2) : ∀ (ps : List (String × CType)) (j : Nat),
    (∀ p ∈ ps, ∀ f ∈ fs, p.1 = f.1 → ∃ t u, p.2 = .avro t ∧ f.2.1 = some (.avro u) ∧ ∀ v, V u v → V t v) →
    (∀ i t, ((ps.filter (fun p => !decide (p.1 ∈ fs.map Prod.fst))).map Prod.snd)[i]? = some t → Δ.find ("$" ++ toString (j + i)) = some (some t)) →
    Ok P V Δ Δ (fun as => ∃ vs, as = vs.map .val ∧ List.Forall₂ (fun p v => VT V (some p) v) (ps.map Prod.snd) vs)
      (evalL ((fillArgs fs (ps.map Prod.fst) j).map (· rt)))
  | [], j, _, _ => evalL_nil ⟨[], rfl, .nil⟩
  | p :: ps, j, hfill, hopen => by
    simp only [List.map_cons, fillArgs]
    cases hfind : fs.find? (fun f => decide (f.1 = p.1)) with
    | some f =>
      obtain ⟨k, ty, c⟩ := f
      have hm := List.mem_of_find?_eq_some hfind
      have hk : k = p.1 := by simpa using List.find?_some hfind
      obtain ⟨t, u, h1, h2, h3⟩ := hfill p (List.mem_cons_self ..) _ hm hk.symm
      dsimp only at h2
      subst h2
      have hp : p.1 ∈ fs.map Prod.fst := List.mem_map.2 ⟨_, hm, hk⟩
      have ih := fillArgs_ok hr hhide hfs ps j (fun q hq => hfill q (List.mem_cons_of_mem _ hq)) (fun i t ht => hopen i t (by
        rw [List.filter_cons_of_neg (by simpa using hp)]; exact ht))
      have hc := hfs _ hm
      cases c with
      | fn l f => obtain ⟨-, _, _, hh, -⟩ := hc; cases hh
      | expr m =>
        refine evalL_cons (Ext.refl _) (A := fun a => ∃ v, a = .val v ∧ V t v) ?_ (Ext.refl _) ih ?_
        · refine hhide _ _ ?_
          exact Ok.seq (hc rt hr) (fun v hv => Ok.pure ⟨v, rfl, h3 v hv⟩)
        · rintro a as ⟨v, rfl, hv⟩ ⟨vs, rfl, hvs⟩
          exact ⟨v :: vs, rfl, .cons (by rw [h1]; exact hv) hvs⟩
    | none =>
      have hp : p.1 ∉ fs.map Prod.fst := by
        intro hp
        obtain ⟨f, h1, h2⟩ := List.mem_map.1 hp
        have := List.find?_eq_none.1 hfind f h1
        simp [h2] at this
      have hfl : (p :: ps).filter (fun p => !decide (p.1 ∈ fs.map Prod.fst)) = p :: ps.filter (fun p => !decide (p.1 ∈ fs.map Prod.fst)) :=
        List.filter_cons_of_pos (by simpa using hp)
      have ih := fillArgs_ok hr hhide hfs ps (j + 1) (fun q hq => hfill q (List.mem_cons_of_mem _ hq)) (fun i t ht => by
        have := hopen (i + 1) t (by rw [hfl]; simpa using ht)
        rw [show j + 1 + i = j + (i + 1) by omega]; exact this)
      have h0 := hopen 0 p.2 (by rw [hfl]; rfl)
      refine evalL_cons (Ext.refl _) (A := fun a => ∃ v, a = .val v ∧ VT V (some p.2) v) ?_ (Ext.refl _) ih ?_
      · exact Ok.seq (getVar_ok h0) (fun v hv => Ok.pure ⟨v, rfl, hv⟩)
      · rintro a as ⟨v, rfl, hv⟩ ⟨vs, rfl, hvs⟩
        exact ⟨v :: vs, rfl, .cons hv hvs⟩

end

end Verif.Lang
