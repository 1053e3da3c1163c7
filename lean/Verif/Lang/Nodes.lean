import Verif.Lang.Sound
/-!
# Checked programs do not go wrong: the other kinds of expression (C42)
-/

namespace Verif.Lang
open Avro Scope Path Sig Ast

section
variable {P : Prog} {g : Guard} {V : AType → Val → Prop} {w : Walk}

/-! ## Partially filled functions -/

theorem zip_rel {names : List String} {ts : List CType} {vs : List Val} (h : List.Forall₂ (fun p v => VT V (some p) v) ts vs) :
    List.Forall₂ (fun (p : String × Ty) (x : String × Val) => p.1 = x.1 ∧ VT V p.2 x.2) (names.zip (ts.map some)) (names.zip vs) := by
  induction h generalizing names with
  | nil => simp
  | cons h1 _ ih =>
    cases names with
    | nil => simp
    | cons n names => simp only [List.map_cons, List.zip_cons_cons]; exact .cons ⟨rfl, h1⟩ ih

theorem dollar_nodup (n : Nat) : ((List.range n).map (fun j => "$" ++ toString j)).Nodup :=
  List.Nodup.map (fun _ _ h => dollar_inj h) List.nodup_range

theorem fillParams {ps : List (String × Pat)} {qs : List (String × CType)}
    (h : mapR (fun p => Res.app (fun t => (p.1, t)) (toTy p.2)) ps = .ok qs) :
    ps.map Prod.fst = qs.map Prod.fst ∧ mapR toTy (ps.map Prod.snd) = .ok (qs.map Prod.snd) := by
  rw [mapR_ok] at h ⊢
  induction h with
  | nil => exact ⟨rfl, .nil⟩
  | cons h1 _ ih =>
    obtain ⟨t, h2, rfl⟩ := app_iff.1 h1
    exact ⟨by simp [ih.1], .cons h2 ih.2⟩

theorem vals_user {ps : List (String × AType)} {vs : List Val} (h : List.Forall₂ (fun p v => VT V (some p) v) (ps.map (fun p => .avro p.2)) vs) :
    List.Forall₂ (fun p v => V p.2 v) ps vs := by
  rw [List.forall₂_map_left_iff] at h; exact h

theorem sound_fcnRefFill (F : Fit P g V) (hw : SoundW P g V w) (hs : SealedW w) {Γ Γ' : SymTab} {name fill t c}
    (h : walkStep P g w (.fcnRefFill name fill) Γ = .ok (t, c, Γ')) : Γ' = Γ ∧ CodeOk P g V Γ Γ t c := by
  simp only [walkStep] at h
  split at h
  · cases h
  · next f hf =>
    simp only [ebind, req_iff] at h
    obtain ⟨⟨fs, Γ1⟩, h1, sig, h2, _, h3, ps, h4, r, h5, _, h6, _, h7, h8⟩ := h
    obtain ⟨hn, hp⟩ := fillParams h4
    -- the call at the end
    have hcall : ∀ rt, RtOk P g V rt → ∀ (Δ : SymTab) vs, List.Forall₂ (fun p v => VT V (some p) v) (ps.map Prod.snd) vs →
        Ok P V Δ Δ (VT V (some r)) (callTarget name f rt (vs.map .val)) ∧ Γ' = Γ ∧
        c = .fn true (fun rt vs => inFrame (PyDict.update [] (((List.range ((ps.filter (fun p => !decide (p.1 ∈ fs.map Prod.fst))).map Prod.snd).length).map (fun j => "$" ++ toString j)).zip vs)) (do
          let as ← evalL ((fillArgs fs (sig.params.map Prod.fst) 0).map (· rt))
          callTarget name f rt as)) := by
      intro rt hr Δ vs hv
      cases f with
      | user ups ret body =>
        cases h2
        dsimp only at h8
        cases h8
        refine ⟨?_, rfl, rfl⟩
        obtain rfl := assignRet_fromType [] _ _ h5
        have hq := userParams hp
        rw [hq] at hv
        refine Ok.frame (Child.base Δ true true) (Ext.refl _) (FrameOk.nil Δ) ?_
        refine Ok.seq (Q := fun x => x = vs) (Ok.lift (by rw [vals_map])) (fun x hx => ?_)
        subst hx
        exact Ok.of_pres (fun c0 _ hne => callUser_pres hr hf (vals_user hv) hne)
      | lib sigs =>
        simp only [ebind, req_iff] at h8
        obtain ⟨_, h9, h10⟩ := h8
        cases h10
        refine ⟨?_, rfl, rfl⟩
        refine Ok.frame (Child.base Δ true true) (Ext.refl _) (FrameOk.nil Δ) ?_
        exact Ok.of_pres (fun c0 _ hne => hr.ref _ _ _ h9 _ (stable_base c0) vs hv)
    have hty : t = some (.fcn ((ps.filter (fun p => !decide (p.1 ∈ fs.map Prod.fst))).map Prod.snd) r) ∧ Γ' = Γ ∧
        c = .fn true (fun rt vs => inFrame (PyDict.update [] (((List.range ((ps.filter (fun p => !decide (p.1 ∈ fs.map Prod.fst))).map Prod.snd).length).map (fun j => "$" ++ toString j)).zip vs)) (do
          let as ← evalL ((fillArgs fs (sig.params.map Prod.fst) 0).map (· rt))
          callTarget name f rt as)) := by
      cases f with
      | user ups ret body => dsimp only at h8; cases h8; exact ⟨rfl, rfl, rfl⟩
      | lib sigs =>
        simp only [ebind, req_iff] at h8
        obtain ⟨_, h9, h10⟩ := h8
        cases h10; exact ⟨rfl, rfl, rfl⟩
    obtain ⟨rfl, rfl, rfl⟩ := hty
    refine ⟨rfl, rfl, _, _, rfl, fun rt hr vs hv c0 ha hne => ?_⟩
    generalize hop : (ps.filter (fun p => !decide (p.1 ∈ fs.map Prod.fst))).map Prod.snd = op at hv ⊢
    generalize hnm : (List.range op.length).map (fun j => "$" ++ toString j) = names
    have hnl : names.length = (op.map some).length := by rw [← hnm]; simp
    generalize hS : PyDict.update ([] : PyDict String Ty) (names.zip (op.map some)) = S
    have hSx : ∀ x, S.get? x ≠ none → ∃ j : Nat, x = "$" ++ toString j := by
      intro x hx
      cases hg : S.get? x with
      | none => exact absurd hg hx
      | some u =>
        rw [← hS] at hg
        have := (get?_update_mem hg rfl).1
        rw [List.map_fst_zip (by omega), ← hnm, List.mem_map] at this
        obtain ⟨j, -, rfl⟩ := this
        exact ⟨j, rfl⟩
    have hSΓ : ∀ x u, Γ'.find x = some u → S.get? x = none := by
      intro x u hx
      by_contra hc
      obtain ⟨j, rfl⟩ := hSx x hc
      rw [F.dollar _ j h7] at hx; cases hx
    have hfr : FrameOk V Γ' S (PyDict.update [] (names.zip vs)) := by
      rw [← hS]; exact (corr_zip (zip_rel hv)).frameOk Γ'
    refine Pres.frame (Child.mk' Γ' S true true) (fun x hx => by simp [SymTab.writable] at hx) (Ext.refl _) hfr ?_ ha hne
    have hfs := walkDA_ok hw hs rfl h1
    rw [hn]
    refine Ok.seq (fillArgs_ok hr (Γ := Γ'.new true true) (fun Q m hm => ?_) hfs ps 0 (fun p hp f hf he => ?_) (fun i t ht => ?_)) (fun as has => ?_)
    · refine Ok.hide (fun x u hx => ?_) (fun x hx hx' => ?_) (fun x hx hx' => ?_) hm
      · rw [find_new] at hx
        simp only [SymTab.find, hSΓ x u hx]; exact hx
      · rw [find_new] at hx
        have hc : S.get? x ≠ none := by
          intro hc
          simp only [SymTab.find, hc] at hx'
          exact hx' hx
        obtain ⟨j, rfl⟩ := hSx x hc
        exact dollar_invalid j
      · simp [SymTab.new, SymTab.writable] at hx'
    · rw [List.all_eq_true] at h6
      have := h6 f hf
      rw [List.all_eq_true] at this
      have := this p hp
      rw [he] at this
      simp only [decide_true, Bool.not_true, Bool.false_or] at this
      exact F.fill _ _ this
    · rw [hop] at ht
      simp only [SymTab.find, Nat.zero_add]
      have hlt : i < op.length := (List.getElem?_eq_some_iff.1 ht).1
      have : S.get? ("$" ++ toString i) = some (some t) := by
        rw [← hS]
        refine get?_zip (by rw [← hnm]; exact dollar_nodup _) hnl i _ _ ?_ (by simp [ht])
        rw [← hnm]; simp [hlt]
      rw [this]
    · obtain ⟨us, rfl, hus⟩ := has
      exact (hcall rt hr _ us hus).1

/-! ## References, constants, constructors -/

theorem sound_ref {Γ Γ' : SymTab} {x t c} (h : walkStep P g w (.ref x) Γ = .ok (t, c, Γ')) : Γ' = Γ ∧ CodeOk P g V Γ Γ t c := by
  simp only [walkStep] at h
  split at h
  · cases h
  · next u hu => cases h; exact plain (fun rt hr => getVar_ok hu)

theorem sound_lit (F : Fit P g V) {Γ Γ' : SymTab} {u v t c} (h : lit g u v Γ = .ok (t, c, Γ')) : Γ' = Γ ∧ CodeOk P g V Γ Γ t c := by
  simp only [lit, ebind, req_iff] at h
  obtain ⟨_, h1, h2⟩ := h
  cases h2
  exact plain (fun rt hr => Ok.pure (F.lit _ _ h1))

theorem sound_literal (F : Fit P g V) {Γ Γ' : SymTab} {u s t c} (h : walkStep P g w (.literal u s) Γ = .ok (t, c, Γ')) :
    Γ' = Γ ∧ CodeOk P g V Γ Γ t c := by
  simp only [walkStep, ebind] at h
  obtain ⟨v, -, h2⟩ := h
  exact sound_lit F h2

theorem mem_of_update {ν : Type} {A : List (String × ν)} {x : String} {v : ν} (h : (PyDict.update ([] : PyDict String ν) A).get? x = some v) :
    (x, v) ∈ A := by
  rw [Scope.get?_update] at h
  cases hr : PyDict.get? A.reverse x with
  | none => rw [hr] at h; simp at h
  | some u =>
    rw [hr] at h
    cases h
    have := PyDict.mem_of_get? hr
    rwa [List.mem_reverse] at this

theorem update_ne {ν : Type} {A : List (String × ν)} {x : String} (h : x ∈ A.map Prod.fst) : (PyDict.update ([] : PyDict String ν) A).get? x ≠ none := by
  rw [Scope.get?_update]
  cases hr : PyDict.get? A.reverse x with
  | none =>
    exfalso
    have := (PyDict.get?_eq_none_iff _ _).1 hr
    apply this
    simpa [PyDict.keys, List.map_reverse] using h
  | some u => simp

theorem sound_newObject (F : Fit P g V) (hw : SoundW P g V w) {Γ Γ' : SymTab} {fs u t c}
    (h : walkStep P g w (.newObject fs u) Γ = .ok (t, c, Γ')) : Γ' = Γ ∧ CodeOk P g V Γ Γ t c := by
  simp only [walkStep, ebind] at h
  obtain ⟨⟨ts, ms, Γ1⟩, h1, h2⟩ := h
  obtain ⟨e1, o1⟩ := walkD_ok hw h1
  have wf : ∀ d : List (String × Val), PyDict.WF (PyDict.update ([] : PyDict String Val) d) := fun d => Sig.update_wf _ _ (by simp [PyDict.WF, PyDict.keys])
  cases u with
  | record n =>
    dsimp only at h2
    split at h2
    · simp [ebind] at h2
    · next fields hfl =>
      simp only [ebind, req_iff] at h2
      obtain ⟨_, h3, _, h4, h5⟩ := h2
      cases h5
      refine plain (fun rt hr => Ok.seq (Ok.new e1 (o1 rt hr)) (fun d hd => Ok.pure ?_))
      have hc := corr_zip hd
      refine (F.record n fields _ hfl).2 ⟨_, rfl, wf d, fun k hk => ?_, fun k f hf => ?_⟩
      · rcases hc k with ⟨t, v', h6, h7, h8⟩ | ⟨-, h6⟩
        · have := List.all_eq_true.1 h3 _ (mem_of_update h6)
          dsimp only at this
          cases hfd : fields.find? (fun f => decide (f.name = k)) with
          | none => simp only [hfd] at this; cases this
          | some f => exact ⟨f, rfl⟩
        · exact absurd hk ((PyDict.get?_eq_none_iff _ _).1 h6)
      · have hk := List.find?_some hf
        have hm := List.mem_of_find?_eq_some hf
        simp only [decide_eq_true_eq] at hk
        have h6 := List.all_eq_true.1 h4 f hm
        rw [hk] at h6
        rcases hc k with ⟨t, v', h7, h8, h9⟩ | ⟨h7, -⟩
        · refine ⟨v', h8, ?_⟩
          have := List.all_eq_true.1 h3 _ (mem_of_update h7)
          simp only [hf] at this
          exact accTy_ok F this h9
        · exact absurd h7 (update_ne (by simpa using h6))
  | map i =>
    simp only [ebind, req_iff] at h2
    obtain ⟨_, h3, h5⟩ := h2
    cases h5
    refine plain (fun rt hr => Ok.seq (Ok.new e1 (o1 rt hr)) (fun d hd => Ok.pure ?_))
    have hc := corr_zip hd
    refine (F.map i _).2 ⟨_, rfl, wf d, fun k x hx => ?_⟩
    rcases hc k with ⟨t, v', h7, h8, h9⟩ | ⟨-, h7⟩
    · rw [h8] at hx
      obtain rfl := Option.some.inj hx
      exact accTy_ok F (List.all_eq_true.1 h3 _ (mem_of_update h7)) h9
    · rw [h7] at hx; cases hx
  | _ => simp [bind, Except.bind] at h2

theorem sound_newArray (F : Fit P g V) (hw : SoundW P g V w) {Γ Γ' : SymTab} {is u t c}
    (h : walkStep P g w (.newArray is u) Γ = .ok (t, c, Γ')) : Γ' = Γ ∧ CodeOk P g V Γ Γ t c := by
  simp only [walkStep, ebind] at h
  obtain ⟨⟨ts, ms, Γ1⟩, h1, h2⟩ := h
  obtain ⟨e1, o1⟩ := walkL_ok hw h1
  cases u with
  | array i =>
    simp only [ebind, req_iff] at h2
    obtain ⟨_, h3, h5⟩ := h2
    cases h5
    refine plain (fun rt hr => Ok.seq (Ok.new e1 (o1 rt hr)) (fun vs hvs => Ok.pure ?_))
    refine (F.array i _).2 ⟨_, rfl, ?_⟩
    clear h1 e1 o1
    induction hvs with
    | nil => simp
    | cons h6 _ ih =>
      simp only [List.all_cons, Bool.and_eq_true] at h3
      intro x hx
      rcases List.mem_cons.1 hx with rfl | hx
      · exact accTy_ok F h3.1 h6
      · exact ih h3.2 x hx
  | _ => simp [bind, Except.bind] at h2

theorem sound_do (F : Fit P g V) (hw : SoundW P g V w) {Γ Γ' : SymTab} {body t c}
    (h : walkStep P g w (.do_ body) Γ = .ok (t, c, Γ')) : Γ' = Γ ∧ CodeOk P g V Γ Γ t c := by
  simp only [walkStep, ebind] at h
  obtain ⟨⟨u, m, Γ1⟩, h1, h2⟩ := h
  cases h2
  obtain ⟨e1, o1⟩ := block_ok hw h1
  refine plain (fun rt hr => (Ok.new e1 (o1 rt hr)).mono (fun v hv => ?_))
  rcases u with _ | (_ | _ | _)
  · exact hv.elim
  · exact hv
  · exact hv.elim
  · exact hv.elim

/-! ## Variables -/

theorem sound_let (F : Fit P g V) (hw : SoundW P g V w) {Γ Γ' : SymTab} {vs t c}
    (h : walkStep P g w (.let_ vs) Γ = .ok (t, c, Γ')) : Ext Γ Γ' ∧ CodeOk P g V Γ Γ' t c ∧ (Γ.within = true → Γ' = Γ) := by
  simp only [walkStep, ebind, req_iff] at h
  obtain ⟨_, h0, ⟨ts, ms⟩, h1, h2⟩ := h
  cases h2
  obtain ⟨h3, h4⟩ := newVars_ok hw h1
  refine ⟨putAll_ext h3, fun rt hr => Ok.null F (Ok.seq (h4 rt hr) (fun d hd => let_ok h3 hd)), fun hin => ?_⟩
  rw [hin] at h0; cases h0

theorem sound_setVar (F : Fit P g V) (hw : SoundW P g V w) {Γ Γ' : SymTab} {vs t c}
    (h : walkStep P g w (.setVar vs) Γ = .ok (t, c, Γ')) : Γ' = Γ ∧ CodeOk P g V Γ Γ t c := by
  simp only [walkStep, ebind, req_iff] at h
  obtain ⟨ms, h1, _, h2, h3⟩ := h
  cases h3
  exact plain (fun rt hr => Ok.null F (set_ok hw F h1 h2 rt hr))

/-! ## Paths, cells, pools -/

theorem path_lift (F : Fit P g V) {Γ : SymTab} {t r : AType} {p : List Elem} (h : PT P t p r) {v : Val} (hv : V t v) (a m : Int) :
    Ok P V Γ Γ (VT V (some (.avro r))) (lift (Path.get a m v p)) := by
  have := path_get F h hv a m
  refine Ok.lift ?_
  cases hg : Path.get a m v p <;> rw [hg] at this <;> exact this

theorem sound_attrGet (F : Fit P g V) (hw : SoundW P g V w) (hs : SealedW w) {Γ Γ' : SymTab} {e path t c}
    (h : walkStep P g w (.attrGet e path) Γ = .ok (t, c, Γ')) : Γ' = Γ ∧ CodeOk P g V Γ Γ t c := by
  simp only [walkStep, ebind] at h
  obtain ⟨⟨u, m, Γ1⟩, h1, h2⟩ := h
  dsimp only at h2
  split at h2
  · simp only [ebind, req_iff] at h2
    obtain ⟨_, -, ⟨r, ps, Γ2⟩, h3, h4⟩ := h2
    cases h4
    refine plain (fun rt hr => Ok.seq (walkE_new hw h1 rt hr) (fun v hv => Ok.seq (path_ok hw hs F h3 rt hr) (fun p hp => ?_)))
    exact path_lift F hp.1 hv _ _
  · cases h2

theorem sound_attrTo (F : Fit P g V) (hw : SoundW P g V w) (hs : SealedW w) {Γ Γ' : SymTab} {e path repl t c}
    (h : walkStep P g w (.attrTo e path repl) Γ = .ok (t, c, Γ')) : Ext Γ Γ' ∧ CodeOk P g V Γ Γ' t c ∧ (Γ.within = true → Γ' = Γ) := by
  simp only [walkStep, ebind] at h
  obtain ⟨⟨u, m, Γ1⟩, h1, h2⟩ := h
  dsimp only at h2
  split at h2
  · simp only [ebind, req_iff] at h2
    obtain ⟨_, -, ⟨r, ps, Γ2⟩, h3, ⟨a, Γ3⟩, h4, h5⟩ := h2
    cases h5
    obtain ⟨e4, o4⟩ := walkTo_ok hw F h4
    refine ⟨e4, fun rt hr => ?_, fun hin => ?_⟩
    · refine Ok.seq (walkE_new hw h1 rt hr) (fun v hv => Ok.seq (path_ok hw hs F h3 rt hr) (fun p hp => ?_))
      refine Ok.bind e4 (o4 rt hr) (fun b hb => ?_)
      exact Ok.of_pres (fun c0 ha hne => update_pres F _ _ hp.1 (hb c0 ha hne) hv)
    · simp only [walkTo, ebind] at h4
      obtain ⟨⟨ty, c, Γ4⟩, h6, h7⟩ := h4
      have := hs _ _ _ _ _ h6 hin
      subst this
      cases c with
      | expr m => simp only [ebind, req_iff] at h7; obtain ⟨_, _, h8⟩ := h7; cases h8; rfl
      | fn l f =>
        dsimp only at h7
        split at h7
        · simp only [ebind, req_iff] at h7; obtain ⟨_, _, h8⟩ := h7; cases h8; rfl
        · cases h7
  · cases h2

theorem walkTo_sealed (hs : SealedW w) {t : AType} {e Γ a Γ'} (h : walkTo P g w t e Γ = .ok (a, Γ')) (hin : Γ.within = true) : Γ' = Γ := by
  simp only [walkTo, ebind] at h
  obtain ⟨⟨ty, c, Γ4⟩, h6, h7⟩ := h
  have := hs _ _ _ _ _ h6 hin
  subst this
  cases c with
  | expr m => simp only [ebind, req_iff] at h7; obtain ⟨_, _, h8⟩ := h7; cases h8; rfl
  | fn l f =>
    dsimp only at h7
    split at h7
    · simp only [ebind, req_iff] at h7; obtain ⟨_, _, h8⟩ := h7; cases h8; rfl
    · cases h7

theorem sound_cellGet (F : Fit P g V) (hw : SoundW P g V w) (hs : SealedW w) {Γ Γ' : SymTab} {n path t c}
    (h : walkStep P g w (.cellGet n path) Γ = .ok (t, c, Γ')) : Γ' = Γ ∧ CodeOk P g V Γ Γ t c := by
  simp only [walkStep] at h
  split at h
  · cases h
  · next u hu =>
    simp only [ebind] at h
    obtain ⟨⟨r, ps, Γ2⟩, h3, h4⟩ := h
    cases h4
    refine plain (fun rt hr => Ok.seq (Ok.of_pres (fun c0 _ _ => readCell_pres hu c0)) (fun v hv => Ok.seq (path_ok hw hs F h3 rt hr) (fun p hp => ?_)))
    exact path_lift F hp.1 hv _ _

theorem sound_cellTo (F : Fit P g V) (hw : SoundW P g V w) (hs : SealedW w) {Γ Γ' : SymTab} {n path repl t c}
    (h : walkStep P g w (.cellTo n path repl) Γ = .ok (t, c, Γ')) : Ext Γ Γ' ∧ CodeOk P g V Γ Γ' t c ∧ (Γ.within = true → Γ' = Γ) := by
  simp only [walkStep] at h
  split at h
  · cases h
  · next u hu =>
    simp only [ebind] at h
    obtain ⟨⟨r, ps, Γ2⟩, h3, ⟨a, Γ3⟩, h4, h5⟩ := h
    cases h5
    obtain ⟨e4, o4⟩ := walkTo_ok hw F h4
    refine ⟨e4, fun rt hr => ?_, walkTo_sealed hs h4⟩
    refine Ok.seq (path_ok hw hs F h3 rt hr) (fun p hp => Ok.bind e4 (o4 rt hr) (fun b hb => ?_))
    exact Ok.of_pres (fun c0 ha hne => cellUpdate_pres F hu hp.1 (hb c0 ha hne))

theorem sound_poolGet (F : Fit P g V) (hw : SoundW P g V w) (hs : SealedW w) {Γ Γ' : SymTab} {n path t c}
    (h : walkStep P g w (.poolGet n path) Γ = .ok (t, c, Γ')) : Γ' = Γ ∧ CodeOk P g V Γ Γ t c := by
  simp only [walkStep] at h
  split at h
  · cases h
  · next u hu =>
    simp only [ebind] at h
    obtain ⟨⟨r, ps, Γ2⟩, h3, h4⟩ := h
    cases h4
    refine plain (fun rt hr => Ok.seq (path_ok hw hs F h3 rt hr) (fun p hp => Ok.seq (Ok.of_pres (fun c0 _ _ => readPool_pres hu c0)) (fun v hv => ?_)))
    exact path_lift F hp.1 hv _ _

theorem sound_poolTo (F : Fit P g V) (hw : SoundW P g V w) (hs : SealedW w) {Γ Γ' : SymTab} {n path repl init t c}
    (h : walkStep P g w (.poolTo n path repl init) Γ = .ok (t, c, Γ')) : Ext Γ Γ' ∧ CodeOk P g V Γ Γ' t c ∧ (Γ.within = true → Γ' = Γ) := by
  simp only [walkStep] at h
  split at h
  · cases h
  · next u hu =>
    simp only [ebind, req_iff] at h
    obtain ⟨_, h0, ⟨r, ps, Γ2⟩, h3, ⟨a, Γ3⟩, h4, ⟨it, im, Γ4⟩, h5, _, h6, h7⟩ := h
    cases h7
    obtain ⟨e4, o4⟩ := walkTo_ok hw F h4
    obtain ⟨e5, o5⟩ := walkE_ok hw h5
    refine ⟨e4.trans e5, fun rt hr => ?_, fun hin => ?_⟩
    · refine Ok.seq (path_ok hw hs F h3 rt hr) (fun p hp => Ok.bind e4 (o4 rt hr) (fun b hb => Ok.bind e5 (o5 rt hr) (fun i hi => ?_)))
      refine Ok.of_pres (fun c0 ha hne => poolUpdate_pres F hu hp.1 (fun hnil => ?_) (hb.ext e5 c0 ha hne) (accTy_ok F h6 hi))
      have := hp.2
      rw [hnil] at this
      cases path with
      | nil => cases h0
      | cons _ _ => simp at this
    · have h8 := walkTo_sealed hs h4 hin
      subst h8
      exact walkE_sealed hs h5 hin

theorem sound_poolDel (F : Fit P g V) (hw : SoundW P g V w) (hs : SealedW w) {Γ Γ' : SymTab} {n e t c}
    (h : walkStep P g w (.poolDel n e) Γ = .ok (t, c, Γ')) : Ext Γ Γ' ∧ CodeOk P g V Γ Γ' t c ∧ (Γ.within = true → Γ' = Γ) := by
  simp only [walkStep] at h
  split at h
  · cases h
  · next u hu =>
    simp only [ebind, req_iff] at h
    obtain ⟨⟨it, im, Γ4⟩, h5, _, h6, h7⟩ := h
    cases h7
    obtain ⟨e5, o5⟩ := walkE_ok hw h5
    exact ⟨e5, fun rt hr => Ok.null F (Ok.bind e5 (o5 rt hr) (fun k hk => Ok.of_pres (fun c0 _ _ => poolDel_pres F hu k c0))), walkE_sealed hs h5⟩

/-! ## Branches and loops -/

theorem sound_if (F : Fit P g V) (hw : SoundW P g V w) {Γ Γ' : SymTab} {p a b t c}
    (h : walkStep P g w (.if_ p a b) Γ = .ok (t, c, Γ')) : Γ' = Γ ∧ CodeOk P g V Γ Γ t c := by
  simp only [walkStep, ebind] at h
  obtain ⟨pm, h1, ⟨u, cm, Γ1⟩, h2, h3⟩ := h
  dsimp only at h3
  split at h3
  · cases h3
    exact plain (fun rt hr => Ok.null F (ifThen_ok (test_ok' hw h1 rt hr) (block_frame hw h2 rt hr)))
  · simp only [ebind] at h3
    obtain ⟨⟨u2, dm, Γ2⟩, h4, h5⟩ := h3
    have key : ∀ r, (∀ v, VT V u v → VT V r v) → (∀ v, VT V u2 v → VT V r v) → ∀ rt, RtOk P g V rt →
        Ok P V Γ Γ (VT V r) (ifThenElse (pm rt) (cm rt) (dm rt)) := fun r hu hu2 rt hr =>
      ifThenElse_ok (test_ok' hw h1 rt hr) ((block_frame hw h2 rt hr).mono hu) ((block_frame hw h4 rt hr).mono hu2)
    dsimp only at h5
    split at h5
    · next hx =>
      simp only [ebind, Except.ok.injEq, Prod.mk.injEq] at h5
      obtain ⟨r, rfl, rfl, rfl, rfl⟩ := h5
      rw [Bool.and_eq_true] at hx
      refine plain (key _ (fun v hv => ?_) (fun v hv => ?_))
      · rcases u with _ | (_ | _ | _) <;> first | exact hv.elim | (cases hx.1; done)
      · rcases u2 with _ | (_ | _ | _) <;> first | exact hv.elim | (cases hx.2; done)
    · simp only [ebind, Except.ok.injEq, Prod.mk.injEq] at h5
      obtain ⟨r, h6, rfl, rfl, rfl⟩ := h5
      exact plain (key _ (fun v hv => join_ok F h6 (by simp) hv) (fun v hv => join_ok F h6 (by simp) hv))

theorem walkIfs_ok (hw : SoundW P g V w) {es : List Ex} {Γ : SymTab} : ∀ {ts ms}, walkIfs P g w es Γ = .ok (ts, ms) →
    ∀ m ∈ ms, ∃ t ∈ ts, ∀ rt, RtOk P g V rt → Ok P V Γ Γ (fun _ => True) (test (m.1 rt)) ∧ Ok P V Γ Γ (VT V t) (inFrame [] (m.2 rt)) := by
  induction es with
  | nil => intro ts ms h m hm; simp only [walkIfs, Except.ok.injEq, Prod.mk.injEq] at h; rw [← h.2] at hm; cases hm
  | cons e es ih =>
    intro ts ms h m hm
    unfold walkIfs at h
    split at h
    · next heq => cases heq
    · next heq =>
      cases heq
      simp only [ebind] at h
      obtain ⟨p, h1, ⟨t, c, Γ1⟩, h2, ⟨ts', ms'⟩, h3, h4⟩ := h
      cases h4
      rcases List.mem_cons.1 hm with rfl | hm
      · exact ⟨t, List.mem_cons_self .., fun rt hr => ⟨test_ok' hw h1 rt hr, block_frame hw h2 rt hr⟩⟩
      · obtain ⟨t', h5, h6⟩ := ih h3 m hm
        exact ⟨t', List.mem_cons_of_mem _ h5, h6⟩
    · cases h

theorem sound_cond (F : Fit P g V) (hw : SoundW P g V w) {Γ Γ' : SymTab} {ifs d t c}
    (h : walkStep P g w (.cond ifs d) Γ = .ok (t, c, Γ')) : Γ' = Γ ∧ CodeOk P g V Γ Γ t c := by
  simp only [walkStep, ebind] at h
  obtain ⟨⟨ts, ms⟩, h1, h3⟩ := h
  have h2 := walkIfs_ok hw h1
  dsimp only at h3
  split at h3
  · cases h3
    refine plain (fun rt hr => Ok.null F (condM_ok (fun m hm => ?_)))
    obtain ⟨m', h4, rfl⟩ := List.mem_map.1 hm
    obtain ⟨t, -, h5⟩ := h2 m' h4
    exact ⟨(h5 rt hr).1, _, (h5 rt hr).2⟩
  · simp only [ebind] at h3
    obtain ⟨⟨u2, dm, Γ2⟩, h4, h5⟩ := h3
    have key : ∀ r, (∀ u ∈ ts ++ [u2], ∀ v, VT V u v → VT V r v) → ∀ rt, RtOk P g V rt →
        Ok P V Γ Γ (VT V r) (condElse (ms.map (fun pc => (pc.1 rt, pc.2 rt))) (dm rt)) := by
      intro r key rt hr
      refine condElse_ok ((block_frame hw h4 rt hr).mono (key u2 (by simp))) (fun m hm => ?_)
      obtain ⟨m', h7, rfl⟩ := List.mem_map.1 hm
      obtain ⟨t, h8, h9⟩ := h2 m' h7
      exact ⟨(h9 rt hr).1, (h9 rt hr).2.mono (key t (by simp [h8]))⟩
    dsimp only at h5
    split at h5
    · next hx =>
      simp only [ebind, Except.ok.injEq, Prod.mk.injEq] at h5
      obtain ⟨r, rfl, rfl, rfl, rfl⟩ := h5
      refine plain (key _ (fun u hu v hv => ?_))
      have := List.all_eq_true.1 hx u hu
      rcases u with _ | (_ | _ | _) <;> first | exact hv.elim | (cases this; done)
    · simp only [ebind, Except.ok.injEq, Prod.mk.injEq] at h5
      obtain ⟨r, h6, rfl, rfl, rfl⟩ := h5
      exact plain (key _ (fun u hu v hv => join_ok F h6 hu hv))

theorem sound_while (F : Fit P g V) (hw : SoundW P g V w) {Γ Γ' : SymTab} {p b t c}
    (h : walkStep P g w (.while_ p b) Γ = .ok (t, c, Γ')) : Γ' = Γ ∧ CodeOk P g V Γ Γ t c := by
  simp only [walkStep, ebind] at h
  obtain ⟨pm, h1, ⟨u, bm, Γ1⟩, h2, h3⟩ := h
  cases h3
  obtain ⟨Γp, e1, o1⟩ := predicate_ok hw h1
  obtain ⟨e2, o2⟩ := block_ok hw h2
  refine plain (fun rt hr => Ok.null F (Ok.frame (Child.base Γ false false) (Ext.refl _) (FrameOk.nil Γ) ?_))
  exact whileLoop_ok _ (Child.base _ true true) e1 (o1 rt hr) (Ok.drop e2 (o2 rt hr)) _ _ (FrameOk.nil _)

theorem sound_doUntil (F : Fit P g V) (hw : SoundW P g V w) {Γ Γ' : SymTab} {p b t c}
    (h : walkStep P g w (.doUntil b p) Γ = .ok (t, c, Γ')) : Γ' = Γ ∧ CodeOk P g V Γ Γ t c := by
  simp only [walkStep, ebind] at h
  obtain ⟨⟨u, bm, Γ1⟩, h2, pm, h1, h3⟩ := h
  cases h3
  obtain ⟨Γp, e1, o1⟩ := predicate_ok hw h1
  obtain ⟨e2, o2⟩ := block_ok hw h2
  refine plain (fun rt hr => Ok.null F (Ok.frame (Child.base Γ false false) (Ext.refl _) (FrameOk.nil Γ) ?_))
  exact untilLoop_ok _ e2 (Child.base _ true true) e1 (o1 rt hr) (o2 rt hr) _ _ (FrameOk.nil _)

theorem sound_for (F : Fit P g V) (hw : SoundW P g V w) {Γ Γ' : SymTab} {init p step b t c}
    (h : walkStep P g w (.for_ init p step b) Γ = .ok (t, c, Γ')) : Γ' = Γ ∧ CodeOk P g V Γ Γ t c := by
  simp only [walkStep, ebind, req_iff] at h
  obtain ⟨⟨ts, ims⟩, h1, pm, h2, sms, h3, _, h4, ⟨u, bm, Γ1⟩, h5, h6⟩ := h
  cases h6
  obtain ⟨h7, h8⟩ := newVars_ok hw h1
  obtain ⟨Γp, e1, o1⟩ := predicate_ok hw h2
  obtain ⟨e2, o2⟩ := block_ok hw h5
  refine plain (fun rt hr => Ok.null F (Ok.frame (Child.base Γ false false) (putAll_ext h7) (FrameOk.nil Γ) ?_))
  refine Ok.bind (putAll_ext h7) (Ok.seq (h8 rt hr) (fun d hd => let_ok h7 hd)) (fun _ _ => ?_)
  exact forLoop_ok _ (Child.base _ true true) e1 (Child.base _ false false) e2 (o1 rt hr) (o2 rt hr) (set_ok hw F h3 h4 rt hr) _ _ _ (FrameOk.nil _) (FrameOk.nil _)

theorem sound_foreach (F : Fit P g V) (hw : SoundW P g V w) {Γ Γ' : SymTab} {x a b seq t c}
    (h : walkStep P g w (.foreach x a b seq) Γ = .ok (t, c, Γ')) : Γ' = Γ ∧ CodeOk P g V Γ Γ t c := by
  simp only [walkStep, ebind, req_iff] at h
  obtain ⟨_, h1, _, h2, ⟨u, am, Γ1⟩, h3, h4⟩ := h
  dsimp only at h4
  split at h4
  · next i =>
    simp only [ebind] at h4
    obtain ⟨⟨u2, bm, Γ2⟩, h5, h6⟩ := h4
    cases h6
    obtain ⟨e2, o2⟩ := block_ok hw h5
    have hx : ∀ y ∈ ([(x, some (.avro i))] : List (String × Ty)).map Prod.fst, (Γ.new (!seq) false).find y = none ∧ validSymbolName y = true := by
      intro y hy
      simp only [List.map_cons, List.map_nil, List.mem_singleton] at hy
      subst hy
      exact ⟨by rw [find_new]; simpa using h1, h2⟩
    refine plain (fun rt hr => Ok.null F (Ok.seq (Ok.new (Ext.refl _) (walkE_new hw h3 rt hr)) (fun v hv => ?_)))
    obtain ⟨vs, rfl, hvs⟩ := (F.array i v).1 hv
    refine Ok.frame (Child.base Γ (!seq) false) (Ext.refl _) (FrameOk.nil Γ) ?_
    refine eachLoop_ok (R := fun v => v = .null) _ (putAll_ext hx) (Child.base _ false false) e2 (o2 rt hr) _ _ (fun d hd => ?_) (FrameOk.nil _)
    obtain ⟨v, hm, rfl⟩ := List.mem_map.1 hd
    exact let_ok hx (.cons ⟨rfl, hvs v hm⟩ .nil)
  · cases h4

theorem sound_forkeyval (F : Fit P g V) (hw : SoundW P g V w) {Γ Γ' : SymTab} {k v a b t c}
    (h : walkStep P g w (.forkeyval k v a b) Γ = .ok (t, c, Γ')) : Γ' = Γ ∧ CodeOk P g V Γ Γ t c := by
  simp only [walkStep, ebind, req_iff] at h
  obtain ⟨_, h1, _, h1', _, h2, _, h2', ⟨u, am, Γ1⟩, h3, h4⟩ := h
  dsimp only at h4
  split at h4
  · next i =>
    simp only [ebind] at h4
    obtain ⟨⟨u2, bm, Γ2⟩, h5, h6⟩ := h4
    cases h6
    obtain ⟨e2, o2⟩ := block_ok hw h5
    have hx : ∀ y ∈ ([(k, some (.avro .string)), (v, some (.avro i))] : List (String × Ty)).map Prod.fst,
        (Γ.new false false).find y = none ∧ validSymbolName y = true := by
      intro y hy
      simp only [List.map_cons, List.map_nil, List.mem_cons, List.not_mem_nil, or_false] at hy
      rcases hy with rfl | rfl
      · exact ⟨by rw [find_new]; simpa using h1, h2⟩
      · exact ⟨by rw [find_new]; simpa using h1', h2'⟩
    refine plain (fun rt hr => Ok.null F (Ok.seq (Ok.new (Ext.refl _) (walkE_new hw h3 rt hr)) (fun x hxv => ?_)))
    obtain ⟨d, rfl, hwf, hd⟩ := (F.map i x).1 hxv
    refine Ok.frame (Child.base Γ false false) (Ext.refl _) (FrameOk.nil Γ) ?_
    refine eachLoop_ok (R := fun v => v = .null) _ (putAll_ext hx) (Child.base _ false false) e2 (o2 rt hr) _ _ (fun d' hd' => ?_) (FrameOk.nil _)
    obtain ⟨⟨k', v'⟩, hm, rfl⟩ := List.mem_map.1 hd'
    exact let_ok hx (.cons ⟨rfl, (F.string _).2 ⟨_, rfl⟩⟩ (.cons ⟨rfl, hd k' v' (PyDict.get?_of_mem hwf hm)⟩ .nil))
  · cases h4

/-! ## Casts and null checks -/

theorem walkCases_ok (hw : SoundW P g V w) {es : List Ex} {Γ : SymTab} : ∀ {us cs}, walkCases w es Γ = .ok (us, cs) →
    castTypes es = cs.map (fun c => c.2.1) ∧
    ∀ c ∈ cs, ∃ u ∈ us, ∀ rt, RtOk P g V rt → ∀ y, V c.2.1 y → Ok P V Γ Γ (VT V u) (inFrame [(c.1, y)] (c.2.2 rt)) := by
  induction es with
  | nil =>
    intro us cs h
    simp only [walkCases, Except.ok.injEq, Prod.mk.injEq] at h
    rw [← h.2]
    exact ⟨rfl, by simp⟩
  | cons e es ih =>
    intro us cs h
    cases e with
    | castCase t x body =>
      simp only [walkCases, ebind] at h
      obtain ⟨⟨u, c, Γ1⟩, h1, ⟨us', cs'⟩, h2, h3⟩ := h
      cases h3
      obtain ⟨h4, h5⟩ := ih h2
      refine ⟨by rw [List.map_cons, ← h4]; rfl, fun c' hc' => ?_⟩
      rcases List.mem_cons.1 hc' with rfl | hc'
      · refine ⟨u, List.mem_cons_self .., fun rt hr y hy => ?_⟩
        obtain ⟨e1, o1⟩ := block_ok hw h1
        have hc : Corr V (PyDict.update [] [(x, some (.avro t))]) (PyDict.update [] [(x, y)]) := corr_zip (.cons ⟨rfl, hy⟩ .nil)
        exact Ok.frame (Child.mk' Γ _ false false) e1 (hc.frameOk Γ) (o1 rt hr)
      · obtain ⟨u', h6, h7⟩ := h5 c' hc'
        exact ⟨u', List.mem_cons_of_mem _ h6, h7⟩
    | _ => simp [walkCases] at h

theorem castM_ok (F : Fit P g V) {Γ : SymTab} {t : AType} {v : Val} {cs : List (String × AType × M Val)} {part : Bool} {Q : Val → Prop}
    (hg : g.cast t (cs.map (fun c => c.2.1)) part = true) (hv : V t v)
    (hc : ∀ c ∈ cs, ∀ y, V c.2.1 y → Ok P V Γ Γ Q (inFrame [(c.1, y)] c.2.2)) :
    Ok P V Γ Γ (fun out => if part then out = .null else Q out) (castM P.decode v t cs part) := by
  obtain ⟨ft, h1, h2⟩ := F.cast t _ part v hg hv
  unfold castM
  rw [h1]
  dsimp only
  generalize castPick P.decode (isUnion ft) v (cs.map (fun c => c.2.1)) = o at h2 ⊢
  rcases o with e | _ | ⟨i, y⟩
  · exact Ok.raise h2
  · dsimp only at h2
    refine Ok.pure ?_
    rw [if_pos h2]
  · obtain ⟨u, h3, h4⟩ := h2
    rw [List.getElem?_map, Option.map_eq_some_iff] at h3
    obtain ⟨c, h5, rfl⟩ := h3
    dsimp only
    rw [h5]
    dsimp only
    refine Ok.seq (hc c (List.mem_of_getElem? h5) y h4) (fun out ho => Ok.pure ?_)
    cases part
    · simpa using ho
    · simp

theorem sound_castBlock (F : Fit P g V) (hw : SoundW P g V w) {Γ Γ' : SymTab} {e cases part t c}
    (h : walkStep P g w (.castBlock e cases part) Γ = .ok (t, c, Γ')) : Γ' = Γ ∧ CodeOk P g V Γ Γ t c := by
  simp only [walkStep, ebind] at h
  obtain ⟨⟨u, m, Γ1⟩, h1, h2⟩ := h
  dsimp only at h2
  split at h2
  · next u =>
    simp only [ebind, req_iff] at h2
    obtain ⟨_, -, ⟨us, cs⟩, h3, h4⟩ := h2
    obtain ⟨h7, h8⟩ := walkCases_ok hw h3
    have key : ∀ rt, RtOk P g V rt → g.cast u (castTypes cases) part = true →
        ∀ v, V u v → Ok P V Γ Γ (fun out => if part then out = .null else ∃ u ∈ us, VT V u out)
          (castM P.decode v u (cs.map (fun c => (c.1, c.2.1, c.2.2 rt))) part) := by
      intro rt hr h5 v hv
      refine castM_ok F ?_ hv (fun c hc y hy => ?_)
      · rw [h7] at h5
        rw [List.map_map]; exact h5
      · obtain ⟨c', h9, rfl⟩ := List.mem_map.1 hc
        obtain ⟨u', h10, h11⟩ := h8 c' h9
        exact (h11 rt hr y hy).mono (fun out ho => ⟨u', h10, ho⟩)
    cases part with
    | true =>
      simp only [if_true, ebind, req_iff, Except.ok.injEq, Prod.mk.injEq] at h4
      obtain ⟨r, rfl, _, h5, rfl, rfl, rfl⟩ := h4
      refine plain (fun rt hr => Ok.seq (walkE_new hw h1 rt hr) (fun v hv => (key rt hr h5 v hv).mono (fun out ho => ?_)))
      simp only [if_true] at ho
      rw [ho]; exact F.null
    | false =>
      simp only [Bool.false_eq_true, if_false, ebind, req_iff, Except.ok.injEq, Prod.mk.injEq] at h4
      obtain ⟨_, -, r, h6, _, h5, rfl, rfl, rfl⟩ := h4
      refine plain (fun rt hr => Ok.seq (walkE_new hw h1 rt hr) (fun v hv => (key rt hr h5 v hv).mono (fun out ho => ?_)))
      simp only [Bool.false_eq_true, if_false] at ho
      obtain ⟨u', h13, h14⟩ := ho
      exact join_ok F h6 h13 h14
  · cases h2

theorem sound_upcast (F : Fit P g V) (hw : SoundW P g V w) {Γ Γ' : SymTab} {e u t c}
    (h : walkStep P g w (.upcast e u) Γ = .ok (t, c, Γ')) : Γ' = Γ ∧ CodeOk P g V Γ Γ t c := by
  simp only [walkStep, ebind] at h
  obtain ⟨⟨s, m, Γ1⟩, h1, h2⟩ := h
  dsimp only at h2
  split at h2
  · simp only [ebind, req_iff, Bool.and_eq_true] at h2
    obtain ⟨_, h3, h4⟩ := h2
    split at h4
    · next f hf =>
      cases h4
      exact plain (fun rt hr => Ok.seq (walkE_new hw h1 rt hr) (fun v hv => Ok.pure (F.upcast _ _ _ _ h3.2 hf hv)))
    · cases h4
  · cases h2

theorem walkNotNull_ok (F : Fit P g V) (hw : SoundW P g V w) {es : List (String × Ex)} : ∀ {Γ bs Γ'}, walkNotNull g w es Γ = .ok (bs, Γ') →
    Ext Γ Γ' ∧ ∀ rt, RtOk P g V rt → Ok P V Γ Γ' (fun (vs : List (String × AType × Val)) => List.Forall₂ (fun (b : String × AType × (Rt → M Val)) x =>
        b.1 = x.1 ∧ b.2.1 = x.2.1 ∧ (notNull x.2.2 = true → V x.2.1 (untag x.2.1 x.2.2))) bs vs)
      (evalL (bs.map (fun b => do
        let v ← b.2.2 rt
        pure (b.1, b.2.1, v)))) := by
  induction es with
  | nil =>
    intro Γ bs Γ' h
    simp only [walkNotNull, Except.ok.injEq, Prod.mk.injEq] at h
    obtain ⟨rfl, rfl⟩ := h
    exact ⟨Ext.refl _, fun _ _ => evalL_nil .nil⟩
  | cons xe es ih =>
    obtain ⟨x, e⟩ := xe
    intro Γ bs Γ' h
    simp only [walkNotNull, ebind, req_iff] at h
    obtain ⟨_, -, ⟨t, m, Γ1⟩, h1, h2⟩ := h
    dsimp only at h2
    split at h2
    · next t =>
      simp only [ebind, req_iff] at h2
      obtain ⟨u, h3, _, h4, ⟨ms, Γ2⟩, h5, h6⟩ := h2
      cases h6
      obtain ⟨e1, o1⟩ := walkE_ok hw h1
      obtain ⟨e2, o2⟩ := ih h5
      refine ⟨e1.trans e2, fun rt hr => evalL_cons e1 (A := fun (y : String × AType × Val) => y.1 = x ∧ y.2.1 = u ∧ (notNull y.2.2 = true → V u (untag u y.2.2)))
        (Ok.bind e1 (o1 rt hr) (fun v hv => Ok.pure ⟨rfl, rfl, fun hn => F.notNull _ _ _ h4 h3 hv hn⟩)) e2 (o2 rt hr) ?_⟩
      rintro ⟨x', u', v⟩ as ⟨rfl, rfl, hv⟩ has
      exact .cons ⟨rfl, rfl, hv⟩ has
    · cases h2

/-- A clause with or without an else clause. -/
theorem withElse_ok (F : Fit P g V) (hw : SoundW P g V w) {Γ : SymTab} {t r : Ty} {d : List Ex} {dm} (h : elseJoin P g w t d Γ = .ok (r, dm))
    {f : M Val → M Val} (rt : Rt) (hr : RtOk P g V rt)
    (hf : ∀ (A : Val → Prop) m, Ok P V Γ Γ A m → Ok P V Γ Γ (fun v => VT V t v ∨ A v) (f m)) : Ok P V Γ Γ (VT V r) (withElse dm rt f) := by
  unfold elseJoin at h
  split at h
  · cases h
    exact Ok.seq (hf (fun _ => True) _ (Ok.pure trivial)) (fun _ _ => Ok.pure F.null)
  · simp only [ebind] at h
    obtain ⟨⟨u, m, Γ1⟩, h1, r', h2, h3⟩ := h
    cases h3
    obtain ⟨e1, o1⟩ := block_ok hw h1
    refine (hf _ _ (Ok.new e1 (o1 rt hr))).mono (fun v hv => ?_)
    rcases hv with hv | hv
    · exact join_ok F h2 (by simp) hv
    · exact join_ok F h2 (by simp) hv

theorem sound_ifNotNull (F : Fit P g V) (hw : SoundW P g V w) {Γ Γ' : SymTab} {es a b t c}
    (h : walkStep P g w (.ifNotNull es a b) Γ = .ok (t, c, Γ')) : Γ' = Γ ∧ CodeOk P g V Γ Γ t c := by
  simp only [walkStep, ebind] at h
  obtain ⟨⟨bs, Γ1⟩, h1, ⟨u, cm, Γ2⟩, h2, ⟨r, dm⟩, h3, h4⟩ := h
  cases h4
  obtain ⟨e1, o1⟩ := walkNotNull_ok F hw h1
  rw [putAll_new] at h2
  obtain ⟨e2, o2⟩ := block_ok hw h2
  refine plain (fun rt hr => Ok.seq (Ok.new e1 (o1 rt hr)) (fun vs hvs => withElse_ok F hw h3 rt hr (fun A m hm => ?_)))
  unfold ifNotNullElse
  split
  · next hall =>
    have hc : Corr V (PyDict.update [] (bs.map (fun b => (b.1, some (.avro b.2.1))))) (PyDict.update [] (vs.map (fun x => (x.1, untag x.2.1 x.2.2)))) := by
      refine corr_zip ?_
      clear h1 e1 o1 h2 e2 o2
      induction hvs with
      | nil => exact .nil
      | cons h5 _ ih =>
        simp only [List.all_cons, Bool.and_eq_true] at hall
        refine .cons ⟨h5.1, ?_⟩ (ih hall.2)
        show V _ _
        rw [h5.2.1]; exact h5.2.2 hall.1
    exact (Ok.frame ((Child.mk' Γ _ false false).new false false) e2 (hc.frameOk Γ) (o2 rt hr)).mono (fun v hv => .inl hv)
  · exact hm.mono (fun v hv => .inr hv)

/-! ## Binary data -/

theorem walkPack_ok (hw : SoundW P g V w) {es : List (String × Ex)} {Γ : SymTab} : ∀ {ms}, walkPack P w es Γ = .ok ms →
    ∀ rt, RtOk P g V rt → Ok P V Γ Γ (fun (vs : List (Pack.Decl × Val)) => List.Forall₂ (fun (d : Pack.Decl × AType) x => d.1 = x.1 ∧ V d.2 x.2) (ms.map (fun x => (x.1, x.2.1))) vs)
      (evalL (ms.map (fun x => do
        let v ← x.2.2 rt
        pure (x.1, v)))) := by
  induction es with
  | nil =>
    intro ms h rt hr
    simp only [walkPack, Except.ok.injEq] at h
    subst h
    exact evalL_nil .nil
  | cons fe es ih =>
    obtain ⟨f, e⟩ := fe
    intro ms h rt hr
    simp only [walkPack, ebind] at h
    obtain ⟨⟨t, m, Γ1⟩, h1, d, h2, h3⟩ := h
    dsimp only at h3
    split at h3
    · next t =>
      simp only [ebind, req_iff] at h3
      obtain ⟨_, -, ms', h4, h5⟩ := h3
      cases h5
      refine evalL_cons (Ext.refl _) (A := fun (y : Pack.Decl × Val) => d = y.1 ∧ V t y.2) (Ok.seq (walkE_new hw h1 rt hr) (fun v hv => Ok.pure ⟨rfl, hv⟩)) (Ext.refl _) (ih h4 rt hr) ?_
      exact fun a as ha has => .cons ha has
    · cases h3

theorem sound_pack (F : Fit P g V) (hw : SoundW P g V w) {Γ Γ' : SymTab} {es t c}
    (h : walkStep P g w (.pack es) Γ = .ok (t, c, Γ')) : Γ' = Γ ∧ CodeOk P g V Γ Γ t c := by
  simp only [walkStep, ebind, req_iff] at h
  obtain ⟨ms, h1, _, h2, h3⟩ := h
  cases h3
  refine plain (fun rt hr => Ok.seq (walkPack_ok hw h1 rt hr) (fun vs hvs => Ok.lift ?_))
  have := F.pack _ _ h2 hvs
  cases hp : Pack.pack P.floats vs with
  | ok out => rw [hp] at this; exact this
  | error e => rw [hp] at this; exact this

theorem walkFormat_ok {fs : List (String × String)} : ∀ {Γ : SymTab} {ds Γ'}, walkFormat fs Γ = .ok (ds, Γ') →
    Γ' = putAll Γ (ds.map (fun d => (d.1, some (.avro (declType d.2))))) := by
  induction fs with
  | nil => intro Γ ds Γ' h; cases h; rfl
  | cons sf fs ih =>
    obtain ⟨s, f⟩ := sf
    intro Γ ds Γ' h
    simp only [walkFormat, ebind, req_iff] at h
    obtain ⟨_, -, _, -, d, -, ⟨ds', Γ1⟩, h1, h2⟩ := h
    cases h2
    rw [ih h1]; rfl

theorem sound_unpack (F : Fit P g V) (hw : SoundW P g V w) {Γ Γ' : SymTab} {e fmt a b t c}
    (h : walkStep P g w (.unpack e fmt a b) Γ = .ok (t, c, Γ')) : Γ' = Γ ∧ CodeOk P g V Γ Γ t c := by
  simp only [walkStep, ebind, req_iff] at h
  obtain ⟨⟨u, m, Γ1⟩, h1, _, h2, ⟨ds, Γa⟩, h3, _, h4, ⟨u2, cm, Γ2⟩, h5, ⟨r, dm⟩, h6, h7⟩ := h
  cases h7
  obtain rfl := walkFormat_ok h3
  rw [putAll_new] at h5
  obtain ⟨e2, o2⟩ := block_ok hw h5
  refine plain (fun rt hr => Ok.seq (walkE_new hw h1 rt hr) (fun v hv => ?_))
  have hb : V .bytes v := by
    rcases u with _ | (u | _ | _)
    · cases h2
    · simp only [isAvro, decide_eq_true_eq] at h2; subst h2; exact hv
    · cases h2
    · cases h2
  obtain ⟨bs, rfl, h8⟩ := F.unpack ds v h4 hb
  refine withElse_ok F hw h6 rt hr (fun A d hd => ?_)
  unfold unpackM
  dsimp only
  split
  · next ev he =>
    have h9 := h8 ev he
    have hc : Corr V (PyDict.update [] (ds.map (fun d => (d.1, some (.avro (declType d.2)))))) (PyDict.update [] ev) := by
      refine corr_zip ?_
      rw [List.forall₂_map_left_iff]
      exact h9
    exact (Ok.frame ((Child.mk' Γ _ false false).new false false) e2 (hc.frameOk Γ) (o2 rt hr)).mono (fun v hv => .inl hv)
  · exact hd.mono (fun v hv => .inr hv)

/-! ## Errors and logs -/

theorem tryCatch_none {Γ : SymTab} {Q : Val → Prop} {m : M Val} (msg : Int → String) (h : Ok P V Γ Γ Q m) :
    Ok P V Γ Γ (fun v => Q v ∨ v = .null) (tryCatch msg m none) := by
  intro s hs
  have h1 := h s hs
  unfold tryCatch
  revert h1
  rcases m s with ⟨e | v, s'⟩
  · rintro ⟨h1, h2, h3⟩
    dsimp only
    by_cases he : e = unfinished
    · rw [if_pos he]; exact ⟨h1, h2, h3⟩
    · rw [if_neg he]
      exact ⟨.inr rfl, h2, h3, New.refl _ _⟩
  · rintro ⟨h1, h2, h3, h4⟩
    exact ⟨.inl h1, h2, h3, h4⟩

theorem sound_try (F : Fit P g V) (hw : SoundW P g V w) {Γ Γ' : SymTab} {es filter t c}
    (h : walkStep P g w (.try_ es filter) Γ = .ok (t, c, Γ')) : Γ' = Γ ∧ CodeOk P g V Γ Γ t c := by
  simp only [walkStep, ebind, req_iff, F.filter, Bool.or_false] at h
  obtain ⟨⟨u, m, Γ1⟩, h1, _, h2, h3⟩ := h
  rw [Option.isNone_iff_eq_none] at h2
  subst h2
  obtain ⟨e1, o1⟩ := block_ok hw h1
  dsimp only at h3
  split at h3
  · simp only [ebind] at h3
    obtain ⟨r, h4, h5⟩ := h3
    cases h4
    cases h5
    refine plain (fun rt hr => (tryCatch_none P.msg (Ok.new e1 (o1 rt hr))).mono (fun v hv => ?_))
    rcases hv with hv | rfl
    · exact hv.elim
    · exact F.null
  · simp only [ebind, req_iff] at h3
    obtain ⟨_, h4, r, h5, h6⟩ := h3
    cases h6
    obtain ⟨h7, h8⟩ := F.try_ _ _ h4 h5
    refine plain (fun rt hr => (tryCatch_none P.msg (Ok.new e1 (o1 rt hr))).mono (fun v hv => ?_))
    rcases hv with hv | rfl
    · exact h7 v hv
    · exact h8
  · simp [ebind] at h3

theorem sound_log (F : Fit P g V) (hw : SoundW P g V w) {Γ Γ' : SymTab} {es ns t c}
    (h : walkStep P g w (.log es ns) Γ = .ok (t, c, Γ')) : Γ' = Γ ∧ CodeOk P g V Γ Γ t c := by
  simp only [walkStep, ebind, req_iff] at h
  obtain ⟨⟨ts, ms, Γ1⟩, h1, _, h2, h3⟩ := h
  cases h3
  obtain ⟨e1, o1⟩ := walkL_ok hw h1
  refine plain (fun rt hr => Ok.null F (Ok.seq (Ok.new e1 (o1 rt hr)) (fun vs hvs => ?_)))
  have hb : vs.any hasBytes = false := by
    clear h1 e1 o1
    induction hvs with
    | nil => rfl
    | @cons t v ts vs h4 _ ih =>
      simp only [List.all_cons, Bool.and_eq_true] at h2
      rw [List.any_cons, ih h2.2, Bool.or_false]
      rcases t with _ | (t | _ | _)
      · exact h4.elim
      · exact F.log t v h2.1 h4
      · exact h4.elim
      · exact h4.elim
  intro s hs
  unfold logM
  simp only [hb, Bool.false_eq_true, if_false]
  exact ⟨trivial, ⟨hs.agree, ⟨hs.world.cells, hs.world.pools⟩, hs.ne⟩, Keep.refl _ _, New.refl _ _⟩

/-! ## All of them -/

/-- One level of the syntax tree. -/
theorem walkStep_sound (F : Fit P g V) (hw : SoundW P g V w) (hs : SealedW w) :
    SoundW P g V (walkStep P g w) ∧ SealedW (walkStep P g w) := by
  have key : ∀ e Γ t c Γ', walkStep P g w e Γ = .ok (t, c, Γ') → Ext Γ Γ' ∧ CodeOk P g V Γ Γ' t c ∧ (Γ.within = true → Γ' = Γ) := by
    intro e Γ t c Γ' h
    have fin : (Γ' = Γ ∧ CodeOk P g V Γ Γ t c) → Ext Γ Γ' ∧ CodeOk P g V Γ Γ' t c ∧ (Γ.within = true → Γ' = Γ) := by
      rintro ⟨rfl, h1⟩
      exact ⟨Ext.refl _, h1, fun _ => rfl⟩
    cases e with
    | fcnDef => exact fin (sound_fcnDef F hw h)
    | fcnRef => exact fin (sound_fcnRef h)
    | fcnRefFill => exact fin (sound_fcnRefFill F hw hs h)
    | callUser => exact fin (sound_callUser F hw h)
    | call => exact fin (sound_call F hw h)
    | ref => exact fin (sound_ref h)
    | litNull => exact fin (sound_lit F h)
    | litBool => exact fin (sound_lit F h)
    | litInt => exact fin (sound_lit F h)
    | litLong => exact fin (sound_lit F h)
    | litFloat => exact fin (sound_lit F h)
    | litDouble => exact fin (sound_lit F h)
    | litString => exact fin (sound_lit F h)
    | litBase64 => exact fin (sound_lit F h)
    | literal => exact fin (sound_literal F h)
    | newObject => exact fin (sound_newObject F hw h)
    | newArray => exact fin (sound_newArray F hw h)
    | do_ => exact fin (sound_do F hw h)
    | let_ => exact sound_let F hw h
    | setVar => exact fin (sound_setVar F hw h)
    | attrGet => exact fin (sound_attrGet F hw hs h)
    | attrTo => exact sound_attrTo F hw hs h
    | cellGet => exact fin (sound_cellGet F hw hs h)
    | cellTo => exact sound_cellTo F hw hs h
    | poolGet => exact fin (sound_poolGet F hw hs h)
    | poolTo => exact sound_poolTo F hw hs h
    | poolDel => exact sound_poolDel F hw hs h
    | if_ => exact fin (sound_if F hw h)
    | cond => exact fin (sound_cond F hw h)
    | while_ => exact fin (sound_while F hw h)
    | doUntil => exact fin (sound_doUntil F hw h)
    | for_ => exact fin (sound_for F hw h)
    | foreach => exact fin (sound_foreach F hw h)
    | forkeyval => exact fin (sound_forkeyval F hw h)
    | castCase => simp [walkStep] at h
    | castBlock => exact fin (sound_castBlock F hw h)
    | upcast => exact fin (sound_upcast F hw h)
    | ifNotNull => exact fin (sound_ifNotNull F hw h)
    | pack => exact fin (sound_pack F hw h)
    | unpack => exact fin (sound_unpack F hw h)
    | doc => simp only [walkStep, Except.ok.injEq, Prod.mk.injEq] at h; obtain ⟨rfl, rfl, rfl⟩ := h; exact fin (plain (fun _ _ => Ok.pure F.null))
    | error => simp only [walkStep, Except.ok.injEq, Prod.mk.injEq] at h; obtain ⟨rfl, rfl, rfl⟩ := h; exact fin (plain (fun _ _ => Ok.raise trivial))
    | try_ => exact fin (sound_try F hw h)
    | log => exact fin (sound_log F hw h)
  exact ⟨fun e Γ t c Γ' h => ⟨(key e Γ t c Γ' h).1, (key e Γ t c Γ' h).2.1⟩, fun e Γ t c Γ' h => (key e Γ t c Γ' h).2.2⟩

/-- The whole check. -/
theorem walk_sound (F : Fit P g V) (n : Nat) : SoundW P g V (walk P g n) ∧ SealedW (walk P g n) := by
  induction n with
  | zero => constructor <;> (intro e Γ t c Γ' h; cases h)
  | succ n ih => exact walkStep_sound F ih.1 ih.2

end

end Verif.Lang
