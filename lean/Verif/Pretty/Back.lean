import Verif.Pretty.Types
import Verif.Reader.Node

/-! # Expressions written in PrettyPFA are read back -/

namespace Verif.Pretty
open Avro Ast Reader

variable {st : St}

theorem Say.child {x e : X} (h : Say st e) (hc : Child x e) : Say st x := fun y hy => h y (.step hy hc)

theorem Say.mk {e : X} (h : Say st e) : mk e = .ok e := by simp [Reader.mk, (h e (.refl e)).1]

theorem views_eq (ms : List Mini) : views st ms = ms.map (view st) := by
  induction ms with
  | nil => rfl
  | cons m ms ih => simp [views, ih]

theorem minis_eq (es : List X) : minis es = es.map mini := by
  induction es with
  | nil => rfl
  | cons m ms ih => simp [minis, ih]

/-- A list of expressions. -/
theorem list_back {es : List X} (h : ∀ e ∈ es, asExpr st (mini e) = .ok e) : seq ((views st (minis es)).map View.expr) = .ok es := by
  rw [views_eq, minis_eq, List.map_map, List.map_map]
  have := seq_ok (f := (View.expr ∘ view st) ∘ mini) (g := id) (l := es) (fun e he => h e he)
  simpa using this

/-- A dictionary of expressions. -/
theorem dict_back {es : List (String × X)} (h : ∀ k e, (k, e) ∈ es → asExpr st (mini e) = .ok e) : seqN (viewN st (miniN es)) = .ok es := by
  induction es with
  | nil => rfl
  | cons kv es ih =>
    obtain ⟨k, e⟩ := kv
    have h1 : (view st (mini e)).expr = .ok e := h k e (by simp)
    simp only [miniN, viewN, h1, seqN, ih (fun k e he => h k e (by simp [he]))]

/-- Parameters `key: expression`. -/
theorem fills_back {es : List (String × X)} (h : ∀ k e, (k, e) ∈ es → asExpr st (mini e) = .ok e) :
    seqN (fills (fillMinis es) (views st (fillMinis es))) = .ok es := by
  induction es with
  | nil => rfl
  | cons kv es ih =>
    obtain ⟨k, e⟩ := kv
    have h1 : (view st (mini e)).expr = .ok e := h k e (by simp)
    simp only [fillMinis, views, fills, view, h1, seqN, ih (fun k e he => h k e (by simp [he]))]

theorem fills_all (es : List (String × X)) : (fillMinis es).all Mini.isParam = true := by
  induction es with
  | nil => rfl
  | cons kv es ih => simp [fillMinis, Mini.isParam] at ih ⊢; exact ih

theorem fills_empty (es : List (String × X)) : (fillMinis es).isEmpty = es.isEmpty := by
  cases es <;> rfl

theorem litMini_not (t : String) (v : Val) : (litMini t v).isParam = false := rfl

/-- No expression is written as a parameter. -/
theorem mini_not (e : X) : (mini e).isParam = false := by
  unfold mini
  split <;> first | rfl | (split <;> rfl)

theorem minis_none (es : List X) : (minis es).any Mini.isParam = false := by
  rw [minis_eq]; simp [mini_not]

/-- The body of a special form. -/
theorem body_back {es : List X} (h : ∀ e ∈ es, asExpr st (mini e) = .ok e) : (view st (.call "do" (minis es))).body = .ok es := by
  simp only [view, if_true, list_back h]

theorem else_back {es : List X} (h : ∀ e ∈ es, asExpr st (mini e) = .ok e) :
    elseBody (viewO st (if es.isEmpty then none else some (.call "do" (minis es)))) = .ok es := by
  cases es with
  | nil => rfl
  | cons e es => simp only [List.isEmpty_cons, Bool.false_eq_true, if_false, viewO, elseBody, body_back h]

theorem else_some (es : List X) (m : Mini) : ((if es.isEmpty then none else some m).isSome && es.isEmpty) = false := by
  cases es <;> rfl

theorem plains_back {es : List X} (o : Option Mini) (k : String) (h : ∀ e ∈ es, asExpr st (mini e) = .ok e) :
    seq (plains (minis es ++ optMini k o) (views st (minis es ++ optMini k o))) = .ok es := by
  induction es with
  | nil => cases o <;> rfl
  | cons e es ih =>
    have h1 : (view st (mini e)).expr = .ok e := h e (by simp)
    have h2 := ih (fun x hx => h x (by simp [hx]))
    simp only [minis, List.cons_append, views]
    obtain ⟨m, hm⟩ : ∃ m, m = mini e := ⟨_, rfl⟩
    have h3 : m.isParam = false := hm ▸ mini_not e
    rw [← hm] at h1 ⊢
    cases m <;> first | (simp [Mini.isParam] at h3; done) | simp only [plains, h1, seq, h2]

theorem params_minis (es : List X) (o : List Mini) : params (minis es ++ o) = params o := by
  induction es with
  | nil => rfl
  | cons e es ih =>
    simp only [minis, List.cons_append]
    obtain ⟨m, hm⟩ : ∃ m, m = mini e := ⟨_, rfl⟩
    have h3 : m.isParam = false := hm ▸ mini_not e
    rw [← hm]
    cases m <;> first | (simp [Mini.isParam] at h3; done) | simp only [params, ih]

/-- A call of a function. -/
theorem callExpr_other {n : String} (h : n ∉ formNames) (args : List Mini) (vs : List View) :
    callExpr st n args vs = if args.any Mini.isParam then andThen (seqN (fills args vs)) fun fs => mk (.fcnRefFill n (asDict fs))
      else andThen (seq (vs.map View.expr)) fun as => mk (.call n as) := by
  simp only [formNames, List.mem_cons, List.not_mem_nil, or_false, not_or] at h
  simp only [callExpr, h, if_false]

theorem nameExpr_value {n : String} (h : n ∉ valueNames) : nameExpr st n = if n ∈ st.functionNames then mk (.fcnRef n)
    else if '.' ∈ n.toList then getAt st (base n) (path n)
    else if n ∈ st.cellNames then mk (.cellGet n [])
    else if n ∈ st.poolNames then mk (.poolGet n [])
    else mk (.ref n) := by
  simp only [valueNames, List.mem_cons, List.not_mem_nil, or_false, not_or] at h
  simp only [nameExpr, h, if_false]

theorem jsonExpr_other {t : Val} (v : Val) (h : ∀ s ∈ plainTypes, t ≠ .str s) : jsonExpr t v = mk (.literal t v) := by
  simp only [plainTypes, List.forall_mem_cons] at h
  unfold jsonExpr
  split <;> simp_all

theorem asExpr_of {m : Mini} {r : Res X} (h : view st m = .of r) : asExpr st m = r := by rw [asExpr, h]; rfl

theorem lit_back (ty : String) (v : Val) (hg : GoodJ v) (hn : ty ∉ PyDict.keys st.aliases) :
    asExpr st (litMini ty v) = jsonExpr (.str ty) v := by
  simp only [litMini, asExpr, view, callExpr, if_true, asType, get?_none hn, Option.getD_none, json_back hg, andThen]

theorem getAt_attr {n : String} {p : List X} (h : say st (.ref n)) : getAt st n p = mk (.attrGet (.ref n) p) := by
  simp only [say] at h
  simp only [getAt, h.2.2.2.1, h.2.2.2.2, if_false]

theorem filters_back {l : List Val} (h : ∀ v ∈ l, (∃ s, v = .str s) ∨ ∃ i, v = .int i) : filtersOf (l.map filterMini) = some l := by
  induction l with
  | nil => rfl
  | cons v l ih =>
    have := ih (fun x hx => h x (by simp [hx]))
    rcases h v (by simp) with ⟨s, rfl⟩ | ⟨i, rfl⟩ <;> simp [filterMini, filtersOf, filterOf, this]

theorem formats_back (f : List (String × String)) : formats (f.map fun kv => (kv.1, .string kv.2)) = .ok f := by
  induction f with
  | nil => rfl
  | cons kv f ih => simp [formats, text, ih, andThen]

theorem paramTypes_back {ps : List (String × Val)} (h : ∀ p ∈ ps, GoodT st p.2) : paramTypes st (ps.map fun p => (p.1, typeMini p.2)) = .ok ps := by
  induction ps with
  | nil => rfl
  | cons p ps ih => simp [paramTypes, type_back (h p (by simp)), andThen, ih (fun q hq => h q (by simp [hq]))]

theorem typeMini_not (t : Val) : (typeMini t).isParam = false := by
  unfold typeMini
  split <;> rfl

/-- An assignment to a name with a path. -/
theorem to_back {n : String} (hd : NoDot n) {p : List X} {r : X} {i : Option (Res X)} {d : Bool} (hf : d = !isFcn r)
    (hi : i.isSome = (!d && decide (n ∈ st.poolNames))) :
    toExpr st n (.ok p) d (.ok r) i = putAt st n p r (i.getD (.ok r)) := by
  simp only [toExpr, andThen, base_nodot hd, path_nodot hd, List.nil_append]
  subst hf
  cases hr : isFcn r <;> simp only [hr] at hi
  · simp at hi
    simp [hi]
  · by_cases hn : n ∈ st.poolNames
    · simp only [hn] at hi
      cases i <;> simp at hi
      simp [hn]
    · simp only [hn] at hi
      cases i <;> simp at hi
      simp [hn]

/-- Several assignments, or declarations. -/
theorem assign_many {vs : List (String × X)} {var : Bool} (hd : ∀ kv ∈ vs, NoDot kv.1) (h : var = true ∨ 2 ≤ vs.length) :
    assignExpr st (viewN st (miniN vs)) var =
      andThen (seqN (viewN st (miniN vs))) fun vs => if var then mk (.let_ vs) else mk (.setVar vs) := by
  have ha : (viewN st (miniN vs)).any (fun kv => decide ('.' ∈ kv.1.toList)) = false := by
    clear h
    induction vs with
    | nil => rfl
    | cons kv vs ih =>
      obtain ⟨k, x⟩ := kv
      have h1 : '.' ∉ k.toList := hd (k, x) (by simp)
      simp only [miniN, viewN, List.any_cons, h1, decide_false, Bool.false_or]
      exact ih (fun kv hkv => hd kv (by simp [hkv]))
  cases var with
  | true => simp only [assignExpr, ha]; rfl
  | false =>
    match vs, h with
    | a :: b :: l, _ =>
      simp only [miniN, viewN] at ha ⊢
      simp only [assignExpr, ha]
      rfl
    | [], h => simp at h
    | [_], h => simp at h

/-- One assignment of an expression. -/
theorem assign_one {k : String} {x : X} (hx : isExpr x = true) : assignExpr st [(k, .ok x)] false =
    if '.' ∈ k.toList then putAt st (base k) (path k) x (.ok x)
    else if k ∈ st.cellNames then mk (.cellTo k [] x)
    else if k ∈ st.poolNames then mk (.poolTo k [] x x)
    else mk (.setVar [(k, x)]) := by
  cases x <;> first | (simp [isExpr] at hx; done) | rfl

theorem new_obj {t : Val} {ms : List Mini} (hne : ms ≠ []) (ha : ms.all Mini.isParam = true) (ht : asType st (typeMini t) = .ok t)
    (hat : isArrayType t = false) : newExpr st (typeMini t :: ms) (views st (typeMini t :: ms)) =
      andThen (seqN (fills ms (views st ms))) fun fs => mk (.newObject (asDict fs) t) := by
  cases ms with
  | nil => exact absurd rfl hne
  | cons m ms =>
    simp only [newExpr, views, ht]
    show (if isArrayType t = true then _ else _) = _
    rw [hat, if_neg (by simp), ha]
    rfl

theorem cond_back {its : List X} (h : ∀ x ∈ its, ∃ p t, x = .if_ p t [] ∧ asExpr st (mini p) = .ok p ∧ (∀ y ∈ t, asExpr st (mini y) = .ok y) ∧
    mk x = .ok x) :
    seq ((viewP st (condMinis its)).map fun pv => andThen pv.2.body fun t => andThen pv.1.expr fun p => mk (.if_ p t [])) = .ok its := by
  induction its with
  | nil => rfl
  | cons x its ih =>
    obtain ⟨p, t, rfl, hp, ht, hm⟩ := h x (by simp)
    have h1 : (view st (mini p)).expr = .ok p := hp
    have h2 := body_back (st := st) ht
    have h3 := ih (fun y hy => h y (by simp [hy]))
    simp only [condMinis, viewP, List.map_cons, h2, h1, andThen, hm, seq] at h3 ⊢
    rw [h3]

theorem mini_back : ∀ (n : Nat) (e : X), sizeOf e < n → Say st e → asExpr st (mini e) = .ok e
  | 0, _, h, _ => absurd h (Nat.not_lt_zero _)
  | n + 1, e, hs, h => by
    have ih : ∀ x, Child x e → asExpr st (mini x) = .ok x := fun x hx =>
      mini_back n x (Nat.lt_of_lt_of_le (Child.size hx) (Nat.lt_succ_iff.1 hs)) (h.child hx)
    have hk := h.mk
    obtain ⟨hmade, hsay⟩ := h e (.refl e)
    cases e with
    | fcnDef ps r b =>
      have hb := list_back (st := st) (es := b) (fun x hx => ih x (.fcnDef hx))
      simp only [say] at hsay
      exact asExpr_of (by simp only [mini, view, paramTypes_back hsay.1, type_back hsay.2, hb, andThen, hk])
    | fcnRef m =>
      simp only [say] at hsay
      exact asExpr_of (by simp only [mini, view, nameExpr_value hsay.2, hsay.1, if_true, hk])
    | fcnRefFill m f =>
      simp only [say] at hsay
      have hf := fills_back (st := st) (es := f) (fun k x hx => ih x (.fcnRefFill hx))
      have ha : (fillMinis f).any Mini.isParam = true := by
        cases f with
        | nil => simp [made] at hmade
        | cons kv f => simp [fillMinis, Mini.isParam]
      simp only [mini, asExpr, view, callExpr_other hsay.1, ha, if_true, hf, andThen, asDict_wf hsay.2, hk]
    | callUser f as =>
      have h1 : (view st (mini f)).expr = .ok f := ih f .callUser_name
      have h2 := list_back (st := st) (es := as) (fun x hx => ih x (.callUser_arg hx))
      simp only [mini, asExpr, view, callExpr, views, h1, h2, andThen, hk]
      rfl
    | call m as =>
      simp only [say] at hsay
      have h2 := list_back (st := st) (es := as) (fun x hx => ih x (.call hx))
      simp only [mini, asExpr, view, callExpr_other hsay, minis_none, h2, andThen, hk]
      rfl
    | ref m =>
      simp only [say] at hsay
      have hd : '.' ∉ m.toList := hsay.2.2.1
      exact asExpr_of (by simp only [mini, view, nameExpr_value hsay.1, hsay.2.1, hd, hsay.2.2.2.1, hsay.2.2.2.2, if_false, hk])
    | litNull => rfl
    | litBool b => cases b <;> rfl
    | litInt v =>
      simp only [say] at hsay
      cases v with
      | int i => exact asExpr_of (by simp only [mini, view, hk])
      | bool b => exact (lit_back "int" _ (.bool b) (hsay (by simp))).trans hk
      | _ => simp [made, pyInt?] at hmade
    | litLong v =>
      simp only [say] at hsay
      cases v with
      | int i => simp [mini, asExpr, view, callExpr, asJson, pyIntOf, andThen, hk]
      | bool b => exact (lit_back "long" _ (.bool b) (hsay (by simp))).trans hk
      | _ => simp [made, pyInt?] at hmade
    | litFloat v =>
      simp only [say] at hsay
      cases v with
      | flt f => simp [mini, asExpr, view, callExpr, asJson, pyFloatOf, andThen, hk]
      | int i => exact (lit_back "float" _ (.int i) (hsay (by simp))).trans hk
      | bool b => exact (lit_back "float" _ (.bool b) (hsay (by simp))).trans hk
      | _ => simp [made, pyNum?] at hmade
    | litDouble v =>
      simp only [say] at hsay
      cases v with
      | flt f => exact asExpr_of (by simp only [mini, view, hk])
      | int i => exact (lit_back "double" _ (.int i) (hsay (by simp))).trans hk
      | bool b => exact (lit_back "double" _ (.bool b) (hsay (by simp))).trans hk
      | _ => simp [made, pyNum?] at hmade
    | litString t => exact asExpr_of (by simp only [mini, view, hk])
    | litBase64 bs =>
      simp only [say] at hsay
      simp [mini, asExpr, view, callExpr, asJson, litBytes, andThen, b64decode_encode bs hsay, hk]
    | literal t v =>
      simp only [say] at hsay
      simp only [mini, asExpr, view, callExpr, if_true, type_back hsay.1, json_back hsay.2.1, andThen, jsonExpr_other v hsay.2.2, hk]
    | newObject fs t =>
      simp only [say] at hsay
      have hf := fills_back (st := st) (es := fs) (fun k x hx => ih x (.newObject hx))
      have ha := fills_all fs
      have hne : fillMinis fs ≠ [] := by
        cases fs with
        | nil => exact absurd rfl hsay.2.2.1
        | cons kv fs => simp [fillMinis]
      rw [mini, asExpr, view]
      show callExpr st "new" _ _ = _
      simp only [callExpr]
      refine (new_obj hne ha (type_back hsay.1) hsay.2.1).trans ?_
      rw [hf]
      simp only [andThen, asDict_wf hsay.2.2.2, hk]
    | newArray is t =>
      simp only [say] at hsay
      have hf := list_back (st := st) (es := is) (fun x hx => ih x (.newArray hx))
      have ha := minis_none is
      cases is with
      | nil => exact absurd rfl hsay.2.2
      | cons i is =>
        simp only [minis, views] at hf ha
        simp only [mini, asExpr, view, callExpr, newExpr, minis, views, type_back hsay.1, andThen, hsay.2.1, ha, hf, hk]
        rfl
    | do_ b =>
      have hf := list_back (st := st) (es := b) (fun x hx => ih x (.do_ hx))
      simp [mini, asExpr, view, callExpr, hf, andThen, hk]
    | let_ vs =>
      have hf := dict_back (st := st) (es := vs) (fun k x hx => ih x (.let_ hx))
      simp only [say] at hsay
      exact asExpr_of (by simp only [mini, view, assign_many hsay (.inl rfl), hf, andThen, hk, if_true])
    | setVar vs =>
      have hf := dict_back (st := st) (es := vs) (fun k x hx => ih x (.setVar hx))
      simp only [say] at hsay
      refine asExpr_of ?_
      match vs, hf, hk, hsay, hmade, ih with
      | [], _, _, _, hm, _ => simp [made] at hm
      | [(k, x)], _, hk, hsay, hm, ih =>
        have h1 : (view st (mini x)).expr = .ok x := ih x (.setVar (k := k) (by simp))
        have hx : isExpr x = true := by simpa [made, allN] using hm
        have hc := hsay.2 rfl (k, x) (by simp)
        have hd : '.' ∉ k.toList := hsay.1 (k, x) (by simp)
        simp only [mini, view, miniN, viewN, h1, assign_one hx, hd, hc.1, hc.2, if_false, hk]
      | a :: b :: l, hf, hk, hsay, hm, _ =>
        simp only [mini, view, assign_many hsay.1 (.inr (by simp)), hf, andThen, hk]
        rfl
    | attrGet x p =>
      have hp := list_back (st := st) (es := p) (fun x hx => ih x (.attrGet_path hx))
      have hx := ih x .attrGet_expr
      refine asExpr_of ?_
      by_cases hr : ∃ m, x = .ref m
      · obtain ⟨m, rfl⟩ := hr
        have hm : say st (.ref m) := (h _ (.step (.refl _) .attrGet_expr)).2
        have hd : NoDot m := by simp only [say] at hm; exact hm.2.2.1
        simp only [mini, view, hp, andThen, base_nodot hd, path_nodot hd, List.nil_append, getAt_attr hm, hk]
      · rw [mini]
        · simp only [view, hp, andThen, show (view st (mini x)).expr = .ok x from hx, hk]
        · intro m hm; exact hr ⟨m, hm⟩
    | attrTo x p r =>
      have hp := list_back (st := st) (es := p) (fun x hx => ih x (.attrTo_path hx))
      have hx := ih x .attrTo_expr
      have h1 : (view st (mini r)).expr = .ok r := ih r .attrTo_to
      refine asExpr_of ?_
      by_cases hr : ∃ m, x = .ref m
      · obtain ⟨m, rfl⟩ := hr
        have hm : say st (.ref m) := (h _ (.step (.refl _) .attrTo_expr)).2
        simp only [say] at hm
        simp only [mini, view, hp, h1, viewO, Option.map_none]
        rw [to_back hm.2.2.1 rfl (by simp [hm.2.2.2.2])]
        simp only [putAt, hm.2.2.2.1, hm.2.2.2.2, if_false, hk]
      · rw [mini]
        · simp only [view, hp, andThen, show (view st (mini x)).expr = .ok x from hx, h1, hk]
        · intro m hm; exact hr ⟨m, hm⟩
    | cellGet c p =>
      have hp := list_back (st := st) (es := p) (fun x hx => ih x (.cellGet hx))
      simp only [say] at hsay
      have hd : '.' ∉ c.toList := hsay.2.1
      refine asExpr_of ?_
      cases p with
      | nil =>
        have hn := hsay.2.2 rfl
        simp only [mini, view, nameExpr_value hn.1, hn.2, hd, hsay.1, if_true, if_false, hk]
      | cons x p => simp only [mini, view, hp, andThen, base_nodot hd, path_nodot hd, List.nil_append, getAt, hsay.1, if_true, hk]
    | cellTo c p r =>
      have hp := list_back (st := st) (es := p) (fun x hx => ih x (.cellTo_path hx))
      have h1 : (view st (mini r)).expr = .ok r := ih r .cellTo_to
      simp only [say] at hsay
      have hd : '.' ∉ c.toList := hsay.2.2
      refine asExpr_of ?_
      have key : ∀ d, d = !isFcn r → toExpr st c (.ok p) d (.ok r) none = .ok (.cellTo c p r) := by
        intro d hdr
        rw [to_back hd hdr (by simp [hsay.2.1])]
        simp only [putAt, hsay.1, if_true, hk]
      cases p with
      | nil =>
        cases hf : isFcn r with
        | true =>
          simp only [mini, view, hf, if_true, views, List.map_nil, seq, h1, viewO, Option.map_none, key false (by simp [hf])]
        | false =>
          have hx : isExpr r = true := by
            cases r <;> simp_all [made, isFcn, isArg, isExpr]
          simp only [mini, view, hf, Bool.false_eq_true, if_false, viewN, h1, assign_one hx, hd, hsay.1, if_true, hk]
      | cons x p => simp only [mini, view, hp, h1, viewO, Option.map_none, key _ rfl]
    | poolGet c p =>
      have hp := list_back (st := st) (es := p) (fun x hx => ih x (.poolGet hx))
      simp only [say] at hsay
      have hd := hsay.2.2
      exact asExpr_of (by simp only [mini, view, hp, andThen, base_nodot hd, path_nodot hd, List.nil_append, getAt, hsay.1, hsay.2.1, if_true, if_false, hk])
    | poolTo c p r i =>
      have hp := list_back (st := st) (es := p) (fun x hx => ih x (.poolTo_path hx))
      have h1 : (view st (mini r)).expr = .ok r := ih r .poolTo_to
      have h2 : (view st (mini i)).expr = .ok i := ih i .poolTo_init
      simp only [say] at hsay
      refine asExpr_of ?_
      cases hf : isFcn r with
      | true =>
        simp only [mini, view, hf, if_true, hp, h1, h2, viewO, Option.map_some]
        rw [to_back hsay.2.2.1 (by simp [hf]) (by simp [hsay.1])]
        simp only [putAt, hsay.1, hsay.2.1, if_true, if_false, Option.getD_some, andThen, hk]
      | false =>
        have := hsay.2.2.2 hf
        subst this
        simp only [mini, view, hf, Bool.false_eq_true, if_false, hp, h1, viewO, Option.map_none]
        rw [to_back hsay.2.2.1 (by simp [hf]) (by simp)]
        simp only [putAt, hsay.1, hsay.2.1, if_true, if_false, Option.getD_none, andThen, hk]
    | poolDel c d => exact hsay.elim
    | if_ p t e =>
      have h1 : (view st (mini p)).expr = .ok p := ih p .if_pred
      have ht := body_back (st := st) (es := t) (fun x hx => ih x (.if_then hx))
      have he := else_back (st := st) (es := e) (fun x hx => ih x (.if_else hx))
      have hm : mk (.if_ p t []) = .ok (.if_ p t []) := by
        simp only [made, Bool.and_eq_true] at hmade
        simp [Reader.mk, made, hmade]
      refine asExpr_of ?_
      rw [mini, view]
      simp only [viewP, ifExpr, List.map_cons, List.map_nil, ht, h1, andThen, hm, seq, he]
    | cond its e =>
      have he := else_back (st := st) (es := e) (fun x hx => ih x (.cond_else hx))
      simp only [say] at hsay
      have hi := cond_back (st := st) (its := its) (fun x hx => by
        obtain ⟨p, t, rfl⟩ := hsay.2 x hx
        have hs' : Say st (.if_ p t []) := h.child (.cond_if hx)
        have hz : ∀ y, Child y (.if_ p t []) → asExpr st (mini y) = .ok y := fun y hy =>
          mini_back n y (by have := Child.size hy; have := Child.size (Child.cond_if (e := e) hx); omega) (hs'.child hy)
        exact ⟨p, t, rfl, hz p .if_pred, fun y hy => hz y (.if_then hy), hs'.mk⟩)
      refine asExpr_of ?_
      rw [mini, view]
      rw [ifExpr, hi]
      simp only [andThen, he]
      match its, hsay.1, hk with
      | a :: b :: l, _, hk =>
        cases e with
        | nil => simp [viewO, hk]
        | cons x e => simp [hk]
    | while_ p b =>
      have h1 : (view st (mini p)).expr = .ok p := ih p .while_pred
      have hb := body_back (st := st) (es := b) (fun x hx => ih x (.while_body hx))
      exact asExpr_of (by rw [mini, view]; simp only [h1, hb, andThen, hk, if_true])
    | doUntil b p =>
      have h1 : (view st (mini p)).expr = .ok p := ih p .doUntil_pred
      have hb := body_back (st := st) (es := b) (fun x hx => ih x (.doUntil_body hx))
      exact asExpr_of (by rw [mini, view]; simp only [h1, hb, andThen, hk]; rfl)
    | for_ i p s b =>
      have h1 : (view st (mini p)).expr = .ok p := ih p .for_pred
      have hb := body_back (st := st) (es := b) (fun x hx => ih x (.for_body hx))
      have hi := dict_back (st := st) (es := i) (fun k x hx => ih x (.for_init hx))
      have hss := dict_back (st := st) (es := s) (fun k x hx => ih x (.for_step hx))
      exact asExpr_of (by rw [mini, view]; simp only [h1, hb, hi, hss, andThen, hk])
    | foreach m a b q =>
      have h1 : (view st (mini a)).expr = .ok a := ih a .foreach_array
      have hb := body_back (st := st) (es := b) (fun x hx => ih x (.foreach_body hx))
      exact asExpr_of (by rw [mini, view]; simp only [h1, hb, andThen, hk])
    | forkeyval k v m b =>
      have h1 : (view st (mini m)).expr = .ok m := ih m .forkeyval_map
      have hb := body_back (st := st) (es := b) (fun x hx => ih x (.forkeyval_body hx))
      exact asExpr_of (by rw [mini, view]; simp only [h1, hb, andThen, hk])
    | castCase t m b =>
      have hb := body_back (st := st) (es := b) (fun x hx => ih x (.castCase hx))
      exact asExpr_of (by rw [mini, view]; simp only [type_back hsay, hb, andThen, hk])
    | castBlock x cs q =>
      have h1 : (view st (mini x)).expr = .ok x := ih x .castBlock_expr
      have hb := list_back (st := st) (es := cs) (fun x hx => ih x (.castBlock_case hx))
      exact asExpr_of (by rw [mini, view]; simp only [h1, hb, andThen, hk])
    | upcast x t =>
      have h1 : (view st (mini x)).expr = .ok x := ih x .upcast
      simp only [say] at hsay
      simp only [mini, asExpr, view, callExpr, views, type_back hsay, andThen, h1, hk]
      rfl
    | ifNotNull xs t e =>
      have ht := body_back (st := st) (es := t) (fun x hx => ih x (.ifNotNull_then hx))
      have he := else_back (st := st) (es := e) (fun x hx => ih x (.ifNotNull_else hx))
      have hx := dict_back (st := st) (es := xs) (fun k x hx => ih x (.ifNotNull_expr hx))
      simp only [say] at hsay
      exact asExpr_of (by rw [mini, view]; simp only [hx, ht, he, andThen, else_some, asDict_wf hsay, hk]; rfl)
    | pack xs =>
      have hf := fills_back (st := st) (es := xs) (fun k x hx => ih x (.pack hx))
      have ha := fills_all xs
      have hn : xs.isEmpty = false := by simp only [made, Bool.and_eq_true, Bool.not_eq_true'] at hmade; exact hmade.2
      simp only [mini, asExpr, view, callExpr, fills_empty, ha, hn, hf, andThen, hk]
      rfl
    | unpack b f t e =>
      have h1 : (view st (mini b)).expr = .ok b := ih b .unpack_bytes
      have ht := body_back (st := st) (es := t) (fun x hx => ih x (.unpack_then hx))
      have he := else_back (st := st) (es := e) (fun x hx => ih x (.unpack_else hx))
      exact asExpr_of (by rw [mini, view]; simp only [h1, formats_back, ht, he, andThen, else_some, hk]; rfl)
    | doc c => exact hk
    | error m c => cases c <;> simp [mini, asExpr, view, callExpr, errorExpr, optMini, params, codeOf, Mini.isParam, text, andThen, hk]
    | try_ xs f =>
      have hb := body_back (st := st) (es := xs) (fun x hx => ih x (.try_ hx))
      simp only [say] at hsay
      refine asExpr_of ?_
      rw [mini, view, hb]
      cases f with
      | none => simp only [Option.map_none, tryExpr, andThen, hk]
      | some l => simp only [Option.map_some, tryExpr, filters_back (hsay l rfl), andThen, hk]
    | log xs ns =>
      have hb := plains_back (st := st) (es := xs) (ns.map .string) "namespace" (fun x hx => ih x (.log hx))
      have hp : spaceOf (params (minis xs ++ optMini "namespace" (ns.map .string))) = .ok ns := by
        rw [params_minis]
        cases ns <;> simp [optMini, params, spaceOf, text]
      simp only [mini, asExpr, view, callExpr, hp, hb, andThen, hk]
      rfl

/-- **Writing an expression in PrettyPFA and reading it gives the expression**, for every expression that satisfies the conditions of
`Say`. -/
theorem asExpr_mini_partial {e : X} (h : Say st e) : asExpr st (mini e) = .ok e := mini_back _ e (Nat.lt_succ_self _) h

end Verif.Pretty
