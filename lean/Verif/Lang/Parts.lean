import Verif.Lang.Triple
/-!
# Parts of checked programs do not go wrong (C42)

The conditions under which the types of the check mean something at run time (`Fit`, `RtOk`), and the
lemmas about lists of expressions, blocks, arguments, paths and frames.
-/

namespace Verif.Lang
open Avro Scope Path Sig Ast

/-! ## Reading the check -/

theorem ebind {α β : Type} {x : Res α} {f : α → Res β} {b : β} : (x >>= f) = .ok b ↔ ∃ a, x = .ok a ∧ f a = .ok b := by
  cases x with
  | error e => simp [bind, Except.bind]
  | ok a => simp [bind, Except.bind]

theorem req_iff {b : Bool} {u : Unit} : req b = .ok u ↔ b = true := by
  cases b <;> simp [req]

theorem app_iff {α β : Type} {f : α → β} {x : Res α} {b : β} : Res.app f x = .ok b ↔ ∃ a, x = .ok a ∧ b = f a := by
  cases x with
  | error e => simp [Res.app]
  | ok a => simp [Res.app, eq_comm]

/-! ## Types and values -/

section
variable (P : Prog) (g : Guard) (V : AType → Val → Prop)

/-- What is assumed of the relation between types and data, and of the conditions in the guard.  The
first lines say what data of simple and compound types look like; the others, named like the fields of
`Guard`, what each condition has to ensure. -/
structure Fit : Prop where
  null : V .null .null
  int : ∀ v, V .int v → ∃ i, v = .int i
  long : ∀ v, V .long v → ∃ i, v = .int i
  string : ∀ v, V .string v ↔ ∃ s, v = .str s
  enum : ∀ n symbols v, V (.enum n symbols) v → ∃ s ∈ symbols, v = .str s
  array : ∀ t v, V (.array t) v ↔ ∃ vs, v = .arr vs ∧ ∀ x ∈ vs, V t x
  map : ∀ t v, V (.map t) v ↔ ∃ d, v = .dict d ∧ PyDict.WF d ∧ ∀ k x, PyDict.get? d k = some x → V t x
  record : ∀ n fs v, P.env.fields? n = some fs → (V (.record n) v ↔ ∃ d, v = .dict d ∧ PyDict.WF d ∧
    (∀ k ∈ PyDict.keys d, ∃ f, fs.find? (fun f => f.name = k) = some f) ∧
    ∀ k f, fs.find? (fun f => f.name = k) = some f → ∃ x, PyDict.get? d k = some x ∧ V f.type x)
  acc : ∀ r w v, g.acc r w = true → V w v → V r v
  lit : ∀ t v, g.lit t v = true → V t v
  cast : ∀ t cases part v, g.cast t cases part = true → V t v → ∃ ft, reparse t = .ok ft ∧
    match castPick P.decode (isUnion ft) v cases with
    | .ok none => part = true
    | .ok (some (i, y)) => ∃ u, cases[i]? = some u ∧ V u y
    | .error e => Allowed e
  notNull : ∀ t u v, g.notNull t u = true → withoutNull t = .ok u → V t v → notNull v = true → V u (untag u v)
  try_ : ∀ t r, g.try_ t = true → tryType t = .ok r → (∀ v, V t v → V r v) ∧ V r .null
  filter : g.filter = false
  upcast : ∀ t u f v, g.upcast t u = true → upcastFn P t u = some f → V u v → V t (f v)
  fill : ∀ p a, g.fill p a = true → ∃ t u, p = .avro t ∧ a = some (.avro u) ∧ ∀ v, V u v → V t v
  dollar : ∀ Γ j, g.dollar Γ = true → Γ.find ("$" ++ toString (j : Nat)) = none
  libTo : g.libTo = false
  sets : ∀ n, g.sets n = true → n ≤ 1
  pack : ∀ ds vs, g.pack ds = true → List.Forall₂ (fun d x => d.1 = x.1 ∧ V d.2 x.2) ds vs →
    match Pack.pack P.floats vs with
    | .ok out => V .bytes (.bytes out)
    | .error e => Allowed e
  unpack : ∀ fs v, g.unpack (fs.map Prod.snd) = true → V .bytes v → ∃ bs, v = .bytes bs ∧
    ∀ e, Pack.unpack fs bs = some e → List.Forall₂ (fun f x => f.1 = x.1 ∧ V (declType f.2) x.2) fs e
  log : ∀ t v, g.log t = true → V t v → hasBytes v = false

/-- An argument of a library function: data of its type, or code that keeps `I` and returns data of its
type. -/
def ArgOk (I : St → Prop) : CType → Arg → Prop
  | .avro t, .val v => V t v
  | .fcn ps r, .fn _ f => ∀ vs, List.Forall₂ (fun p v => VT V (some p) v) ps vs → Pres I (VT V (some r)) (f vs)
  | _, _ => False

/-- Only cells, pools and scopes matter. -/
def Stable (I : St → Prop) : Prop := ∀ s (w : World), I s → w.cells = s.world.cells → w.pools = s.world.pools → I { s with world := w }

/-- The functions that the generated code calls do what their signatures say: user-defined functions return
data of their type in any scope, library functions called with fitting arguments return data of the type
of the call and do nothing but call their arguments (emit adds to the output). -/
structure RtOk (rt : Rt) : Prop where
  user : ∀ name ps ret body, P.funs.get? name = some (.user ps ret body) → ∃ f, rt.user name = some f ∧
    ∀ vs, List.Forall₂ (fun p v => V p.2 v) ps vs → ∀ c0, c0 ≠ [] → Pres (Base P V c0) (V ret) (f vs)
  lib : ∀ name tys ps r, g.call name tys ps r = true → ∀ I, Stable I → ∀ args, List.Forall₂ (ArgOk V I) tys args →
    Pres I (VT V (some r)) (rt.lib name (some (ps ++ [r])) args)
  ref : ∀ name ps r, g.ref name ps r = true → ∀ I, Stable I → ∀ vs, List.Forall₂ (fun p v => VT V (some p) v) ps vs →
    Pres I (VT V (some r)) (rt.lib name none (vs.map .val))

/-- A callable of the given parameters and result. -/
def FnOk (Γ : SymTab) (ps : List CType) (r : CType) (f : List Val → M Val) : Prop :=
  ∀ vs, List.Forall₂ (fun p v => VT V (some p) v) ps vs → ∀ c0, Agree V Γ c0 → c0 ≠ [] → Pres (Base P V c0) (VT V (some r)) (f vs)

/-- Generated code does what the type says. -/
def CodeOk (Γ Γ' : SymTab) (t : Ty) : Code → Prop
  | .expr m => ∀ rt, RtOk P g V rt → Ok P V Γ Γ' (VT V t) (m rt)
  | .fn _ f => Γ' = Γ ∧ ∃ ps r, t = some (.fcn ps r) ∧ ∀ rt, RtOk P g V rt → FnOk P V Γ ps r (f rt)

/-- Whatever `w` accepts does what its type says. -/
def SoundW (w : Walk) : Prop := ∀ e Γ t c Γ', w e Γ = .ok (t, c, Γ') → Ext Γ Γ' ∧ CodeOk P g V Γ Γ' t c

variable {P g V}

theorem stable_base (c0 : Chain Val) : Stable (Base P V c0) := fun s w h hc hp =>
  ⟨⟨fun c t ht => by rw [hc]; exact h.1.cells c t ht, fun p t ht => by rw [hp]; exact h.1.pools p t ht⟩, h.2⟩

theorem FnOk.ext {Γ Γ' : SymTab} {ps r f} (h : FnOk P V Γ ps r f) (he : Ext Γ Γ') : FnOk P V Γ' ps r f :=
  fun vs hv c0 ha hne => h vs hv c0 (ha.ext he) hne

/-! ## Lists of expressions -/

theorem evalL_nil {α : Type} {Γ : SymTab} {Q : List α → Prop} (h : Q []) : Ok P V Γ Γ Q (evalL []) := Ok.pure h

theorem evalL_cons {α : Type} {Γ Γ1 Γ2 : SymTab} {A : α → Prop} {B C : List α → Prop} {m : M α} {ms : List (M α)}
    (he : Ext Γ Γ1) (hm : Ok P V Γ Γ1 A m) (he' : Ext Γ1 Γ2) (hms : Ok P V Γ1 Γ2 B (evalL ms)) (h : ∀ a as, A a → B as → C (a :: as)) :
    Ok P V Γ Γ2 C (evalL (m :: ms)) :=
  Ok.bind he hm (fun a ha => Ok.bind he' hms (fun as has => Ok.pure (h a as ha has)))

theorem evalD_cons {α : Type} {Γ Γ1 Γ2 : SymTab} {A : α → Prop} {B C : List (String × α) → Prop} {k : String} {m : M α}
    {ms : List (String × M α)} (he : Ext Γ Γ1) (hm : Ok P V Γ Γ1 A m) (he' : Ext Γ1 Γ2) (hms : Ok P V Γ1 Γ2 B (evalD ms))
    (h : ∀ a as, A a → B as → C ((k, a) :: as)) : Ok P V Γ Γ2 C (evalD ((k, m) :: ms)) :=
  Ok.bind he hm (fun a ha => Ok.bind he' hms (fun as has => Ok.pure (h a as ha has)))

variable {w : Walk}

theorem walkE_ok (hw : SoundW P g V w) {e Γ t m Γ'} (h : walkE w e Γ = .ok (t, m, Γ')) :
    Ext Γ Γ' ∧ ∀ rt, RtOk P g V rt → Ok P V Γ Γ' (VT V t) (m rt) := by
  unfold walkE at h
  split at h
  · next t' m' Γ'' h1 =>
    cases h
    exact hw _ _ _ _ _ h1
  · cases h
  · cases h

/-- An expression in a sealed scope, or any scope without a run-time scope. -/
theorem walkE_new (hw : SoundW P g V w) {e Γ a b t m Γ'} (h : walkE w e (Γ.new a b) = .ok (t, m, Γ')) (rt : Rt)
    (hr : RtOk P g V rt) : Ok P V Γ Γ (VT V t) (m rt) := by
  obtain ⟨h1, h2⟩ := walkE_ok hw h
  exact Ok.new h1 (h2 rt hr)

theorem walkL_ok (hw : SoundW P g V w) {es : List Ex} : ∀ {Γ ts ms Γ'}, walkL w es Γ = .ok (ts, ms, Γ') →
    Ext Γ Γ' ∧ ∀ rt, RtOk P g V rt → Ok P V Γ Γ' (fun vs => List.Forall₂ (VT V) ts vs) (evalL (ms.map (· rt))) := by
  induction es with
  | nil =>
    intro Γ ts ms Γ' h
    cases h
    exact ⟨Ext.refl _, fun _ _ => evalL_nil .nil⟩
  | cons e es ih =>
    intro Γ ts ms Γ' h
    simp only [walkL, ebind] at h
    obtain ⟨⟨t, m, Γ1⟩, h1, ⟨ts', ms', Γ2⟩, h2, h3⟩ := h
    cases h3
    obtain ⟨e1, o1⟩ := walkE_ok hw h1
    obtain ⟨e2, o2⟩ := ih h2
    exact ⟨e1.trans e2, fun rt hr => evalL_cons e1 (o1 rt hr) e2 (o2 rt hr) (fun a as ha has => .cons ha has)⟩

theorem walkD_ok (hw : SoundW P g V w) {es : List (String × Ex)} : ∀ {Γ ts ms Γ'}, walkD w es Γ = .ok (ts, ms, Γ') →
    Ext Γ Γ' ∧ ∀ rt, RtOk P g V rt → Ok P V Γ Γ' (fun vs => List.Forall₂ (fun (p : String × Ty) (x : String × Val) => p.1 = x.1 ∧ VT V p.2 x.2) ts vs)
      (evalD (ms.map (fun km => (km.1, km.2 rt)))) := by
  induction es with
  | nil =>
    intro Γ ts ms Γ' h
    cases h
    exact ⟨Ext.refl _, fun _ _ => Ok.pure .nil⟩
  | cons ke es ih =>
    obtain ⟨k, e⟩ := ke
    intro Γ ts ms Γ' h
    simp only [walkD, ebind] at h
    obtain ⟨⟨t, m, Γ1⟩, h1, ⟨ts', ms', Γ2⟩, h2, h3⟩ := h
    cases h3
    obtain ⟨e1, o1⟩ := walkE_ok hw h1
    obtain ⟨e2, o2⟩ := ih h2
    exact ⟨e1.trans e2, fun rt hr => evalD_cons e1 (o1 rt hr) e2 (o2 rt hr) (fun a as ha has => .cons ⟨rfl, ha⟩ has)⟩

/-- The last value has the last type. -/
theorem last_ok {ts : List Ty} {t : Ty} {vs : List Val} (h : lastTy ts = .ok t) (hv : List.Forall₂ (VT V) ts vs) :
    VT V t (vs.getLastD .null) := by
  induction hv with
  | nil => cases h
  | cons h1 h2 ih =>
    cases h2 with
    | nil => simp [lastTy] at h; subst h; exact h1
    | cons h3 h4 => rw [lastTy] at h; exact ih h; simp

theorem block_ok (hw : SoundW P g V w) {es : List Ex} {Γ t m Γ'} (h : block w es Γ = .ok (t, m, Γ')) :
    Ext Γ Γ' ∧ ∀ rt, RtOk P g V rt → Ok P V Γ Γ' (VT V t) (m rt) := by
  simp only [block, ebind] at h
  obtain ⟨⟨ts, ms, Γ1⟩, h1, t', h2, h3⟩ := h
  cases h3
  obtain ⟨e1, o1⟩ := walkL_ok hw h1
  exact ⟨e1, fun rt hr => Ok.bind e1 (o1 rt hr) (fun vs hv => Ok.pure (last_ok h2 hv))⟩

/-- A block that has a scope of its own at run time. -/
theorem block_frame (hw : SoundW P g V w) {es : List Ex} {Γ a b t m Γ'} (h : block w es (Γ.new a b) = .ok (t, m, Γ')) (rt : Rt)
    (hr : RtOk P g V rt) : Ok P V Γ Γ (VT V t) (inFrame [] (m rt)) := by
  obtain ⟨e1, o1⟩ := block_ok hw h
  exact Ok.frame (Child.base Γ a b) e1 (FrameOk.nil Γ) (o1 rt hr)

/-! ## Arguments -/

variable (P V) in
/-- An evaluated argument of the given type. -/
def ArgT (Γ : SymTab) : Ty → Arg → Prop
  | t, .val v => VT V t v
  | some (.fcn ps r), .fn _ f => FnOk P V Γ ps r f
  | _, .fn _ _ => False

theorem ArgT.ext {Γ Γ' : SymTab} {t : Ty} {a : Arg} (h : ArgT P V Γ t a) (he : Ext Γ Γ') : ArgT P V Γ' t a := by
  cases a with
  | val v => cases t <;> exact h
  | fn l f =>
    rcases t with _ | (_ | _ | _)
    · exact h
    · exact h
    · exact h
    · exact FnOk.ext h he

theorem toArg_ok {Γ Γ' t c} (he : Ext Γ Γ') (h : CodeOk P g V Γ Γ' t c) (rt : Rt) (hr : RtOk P g V rt) :
    Ok P V Γ Γ' (ArgT P V Γ' t) (c.toArg rt) := by
  cases c with
  | expr m =>
    refine Ok.bind he (h rt hr) (fun v hv => Ok.pure ?_)
    cases t <;> exact hv
  | fn l f =>
    obtain ⟨rfl, ps, r, rfl, h2⟩ := h
    exact Ok.pure (h2 rt hr)

theorem walkA_ok (hw : SoundW P g V w) {es : List Ex} : ∀ {Γ ts cs Γ'}, walkA w es Γ = .ok (ts, cs, Γ') →
    Ext Γ Γ' ∧ ∀ rt, RtOk P g V rt → Ok P V Γ Γ' (fun as => List.Forall₂ (ArgT P V Γ') ts as) (evalL (cs.map (fun c => c.toArg rt))) := by
  induction es with
  | nil =>
    intro Γ ts ms Γ' h
    cases h
    exact ⟨Ext.refl _, fun _ _ => evalL_nil .nil⟩
  | cons e es ih =>
    intro Γ ts ms Γ' h
    simp only [walkA, ebind] at h
    obtain ⟨⟨t, m, Γ1⟩, h1, ⟨ts', ms', Γ2⟩, h2, h3⟩ := h
    cases h3
    obtain ⟨e1, o1⟩ := hw _ _ _ _ _ h1
    obtain ⟨e2, o2⟩ := ih h2
    exact ⟨e1.trans e2, fun rt hr => evalL_cons e1 (toArg_ok e1 o1 rt hr) e2 (o2 rt hr) (fun a as ha has => .cons (ha.ext e2) has)⟩

theorem ctypes_iff {ts : List Ty} {cs : List CType} : ctypes ts = .ok cs ↔ ts = cs.map some := by
  induction ts generalizing cs with
  | nil => cases cs <;> simp [ctypes]
  | cons t ts ih =>
    cases t with
    | none => cases cs <;> simp [ctypes]
    | some t =>
      simp only [ctypes, app_iff]
      constructor
      · rintro ⟨a, h1, rfl⟩
        rw [ih.1 h1]; rfl
      · intro h
        cases cs with
        | nil => simp at h
        | cons c cs =>
          simp only [List.map_cons, List.cons.injEq, Option.some.injEq] at h
          exact ⟨cs, ih.2 h.2, by rw [h.1]⟩

/-- What a library function gets. -/
theorem args_lib {Γ : SymTab} {c0 : Chain Val} (ha : Agree V Γ c0) (hne : c0 ≠ []) {tys : List CType} {as : List Arg}
    (h : List.Forall₂ (ArgT P V Γ) (tys.map some) as) : List.Forall₂ (ArgOk V (Base P V c0)) tys as := by
  rw [List.forall₂_map_left_iff] at h
  refine h.imp (fun t a hta => ?_)
  cases a with
  | val v =>
    cases t with
    | avro t => exact hta
    | exc => exact hta
    | fcn ps r => exact hta
  | fn l f =>
    cases t with
    | avro t => exact hta
    | exc => exact hta
    | fcn ps r => exact fun vs hv => hta vs hv c0 ha hne

/-- The arguments of a user-defined function are values. -/
theorem args_user (F : Fit P g V) {Γ : SymTab} {ps : List (String × AType)} {tys : List CType} {as : List Arg} (hl : ps.length = tys.length)
    (hacc : (ps.zip tys).all (fun pa => accTy P g pa.1.2 (some pa.2)) = true) (h : List.Forall₂ (ArgT P V Γ) (tys.map some) as) :
    ∃ vs, vals as = .ok vs ∧ List.Forall₂ (fun p v => V p.2 v) ps vs := by
  induction ps generalizing tys as with
  | nil =>
    cases tys with
    | nil => cases h; exact ⟨[], rfl, .nil⟩
    | cons _ _ => simp at hl
  | cons p ps ih =>
    cases tys with
    | nil => simp at hl
    | cons t tys =>
      cases h with
      | @cons _ a _ as h1 h2 =>
        simp only [List.zip_cons_cons, List.all_cons, Bool.and_eq_true] at hacc
        obtain ⟨vs, h3, h4⟩ := ih (by simpa using hl) hacc.2 h2
        cases t with
        | exc => simp [accTy] at hacc
        | fcn _ _ => simp [accTy] at hacc
        | avro u =>
          cases a with
          | fn l f => exact h1.elim
          | val v =>
            simp only [accTy, Bool.and_eq_true] at hacc
            exact ⟨v :: vs, by simp [vals, h3, Res.app], .cons (F.acc _ _ _ hacc.1.2 h1) h4⟩

/-- A value accepted for a declared type. -/
theorem accTy_ok (F : Fit P g V) {t : AType} {ty : Ty} (h : accTy P g t ty = true) {v : Val} (hv : VT V ty v) : V t v := by
  rcases ty with _ | (u | _ | _)
  · simp [accTy] at h
  · simp only [accTy, Bool.and_eq_true] at h
    exact F.acc _ _ _ h.2 hv
  · simp [accTy] at h
  · simp [accTy] at h

theorem mem_avros {t : AType} {cs : List CType} (h : .avro t ∈ cs) : t ∈ avros cs := by
  induction cs with
  | nil => cases h
  | cons c cs ih =>
    rcases List.mem_cons.1 h with rfl | h1
    · simp [avros]
    · cases c <;> simp [avros, ih h1]

/-- The common type of branches. -/
theorem join_ok (F : Fit P g V) {ts : List Ty} {r : Ty} (h : join P g ts = .ok r) {t : Ty} (ht : t ∈ ts) {v : Val} (hv : VT V t v) :
    VT V r v := by
  simp only [join, ebind] at h
  obtain ⟨cs, h1, h⟩ := h
  rw [ctypes_iff] at h1
  subst h1
  obtain ⟨c, hc, rfl⟩ := List.mem_map.1 ht
  cases c with
  | exc => exact hv.elim
  | fcn _ _ => exact hv.elim
  | avro t =>
    split at h
    · next o hb =>
      simp only [ebind] at h
      obtain ⟨o', h2, h3⟩ := h
      cases h2
      rcases o with _ | (u | _ | _)
      · exfalso
        unfold broadest at hb
        have hm : CType.avro t ∈ cs.filter (fun x => !isExc x) := by
          rw [List.mem_filter]; exact ⟨hc, rfl⟩
        split at hb
        · next he => rw [he] at hm; cases hm
        · split at hb
          · split at hb <;> cases hb
          · cases hb
        · split at hb
          · cases hb
          · split at hb <;> cases hb
        · next he =>
          have : CType.exc ∈ cs.filter (fun x => !isExc x) := by rw [he]; exact List.mem_cons_self ..
          rw [List.mem_filter] at this
          simp [isExc] at this
      · simp only [ebind] at h3
        obtain ⟨_, h4, h5⟩ := h3
        cases h5
        rw [req_iff, List.all_eq_true] at h4
        exact F.acc _ _ _ (h4 t (mem_avros hc)) hv
      · cases h3
      · cases h3
    · split at h <;> simp [ebind] at h

/-! ## Predicates -/

theorem predicate_ok (hw : SoundW P g V w) {e Γ m} (h : predicate P g w e Γ = .ok m) :
    ∃ Γ', Ext (Γ.new true true) Γ' ∧ ∀ rt, RtOk P g V rt → Ok P V (Γ.new true true) Γ' (fun _ => True) (m rt) := by
  simp only [predicate, ebind] at h
  obtain ⟨⟨t, m', Γ'⟩, h1, _, _, h3⟩ := h
  cases h3
  obtain ⟨e1, o1⟩ := walkE_ok hw h1
  exact ⟨Γ', e1, fun rt hr => (o1 rt hr).mono (fun _ _ => trivial)⟩

theorem test_ok' (hw : SoundW P g V w) {e Γ m} (h : predicate P g w e Γ = .ok m) (rt : Rt) (hr : RtOk P g V rt) :
    Ok P V Γ Γ (fun _ => True) (test (m rt)) := by
  obtain ⟨Γ', h1, h2⟩ := predicate_ok hw h
  exact Ok.seq (Ok.frame (Child.base Γ true true) h1 (FrameOk.nil Γ) (h2 rt hr)) (fun _ _ => Ok.pure trivial)

theorem checkTime_ok' {Γ : SymTab} (ex : Nat → Bool) : Ok P V Γ Γ (fun _ => True) (checkTime ex) := by
  intro s hs
  have hi : Inv P V Γ { s with world := { s.world with tick := s.world.tick + 1 } } :=
    ⟨hs.agree, ⟨hs.world.cells, hs.world.pools⟩, hs.ne⟩
  unfold checkTime
  by_cases hx : ex s.world.tick = true
  · simp only [hx, if_true]
    exact ⟨trivial, hi, Keep.refl _ _⟩
  · simp only [hx, if_false, Bool.false_eq_true]
    exact ⟨trivial, hi, Keep.refl _ _, New.refl _ _⟩

/-! ## Frames and tables -/

theorem putAll_cons (s : Scope1) (Γ : SymTab) (ts : List (String × Ty)) :
    putAll (s :: Γ) ts = { s with symbols := PyDict.update s.symbols ts } :: Γ := by
  unfold putAll PyDict.update
  induction ts generalizing s with
  | nil => rfl
  | cons t ts ih => rw [List.foldl_cons, List.foldl_cons]; exact ih _

theorem putAll_new (Γ : SymTab) (a b : Bool) (ts : List (String × Ty)) : putAll (Γ.new a b) ts = ⟨PyDict.update [] ts, a, b⟩ :: Γ :=
  putAll_cons _ _ _

theorem putAll_nil (ts : List (String × Ty)) : putAll [] ts = [] := by
  unfold putAll
  induction ts with
  | nil => rfl
  | cons t ts ih => exact ih

variable (V) in
/-- Symbols and values of one scope correspond. -/
def Corr (S : PyDict String Ty) (f : Frame Val) : Prop := ∀ x,
  (∃ t v, S.get? x = some t ∧ PyDict.get? f x = some v ∧ VT V t v) ∨ (S.get? x = none ∧ PyDict.get? f x = none)

theorem corr_update {A : List (String × Ty)} {B : List (String × Val)}
    (h : List.Forall₂ (fun (p : String × Ty) (x : String × Val) => p.1 = x.1 ∧ VT V p.2 x.2) A B) {S : PyDict String Ty} {f : Frame Val}
    (hc : Corr V S f) : Corr V (PyDict.update S A) (PyDict.update f B) := by
  unfold PyDict.update
  induction h generalizing S f with
  | nil => exact hc
  | @cons a b A B hab _ ih =>
    rw [List.foldl_cons, List.foldl_cons]
    refine ih (fun x => ?_)
    rw [PyDict.get?_set, PyDict.get?_set, ← hab.1]
    by_cases hx : a.1 = x
    · rw [if_pos hx, if_pos hx]; exact .inl ⟨_, _, rfl, rfl, hab.2⟩
    · rw [if_neg hx, if_neg hx]; exact hc x

theorem corr_zip {A : List (String × Ty)} {B : List (String × Val)}
    (h : List.Forall₂ (fun (p : String × Ty) (x : String × Val) => p.1 = x.1 ∧ VT V p.2 x.2) A B) :
    Corr V (PyDict.update [] A) (PyDict.update [] B) := corr_update h (fun _ => .inr ⟨rfl, rfl⟩)

theorem Corr.frameOk {S : PyDict String Ty} {f : Frame Val} (h : Corr V S f) (Γ : SymTab) : FrameOk V Γ S f where
  own x t hx := by
    rcases h x with ⟨u, v, h1, h2, h3⟩ | ⟨h1, _⟩
    · rw [h1] at hx; obtain rfl := Option.some.inj hx; exact ⟨v, h2, h3⟩
    · rw [h1] at hx; cases hx
  rest x hx hx' := by
    rcases h x with ⟨u, v, h1, -⟩ | ⟨-, h1⟩
    · rw [h1] at hx; cases hx
    · exact absurd h1 hx'

theorem get?_update_mem {ν : Type} {A : List (String × ν)} {S : PyDict String ν} {x : String} {v : ν} (h : (PyDict.update S A).get? x = some v)
    (hS : S.get? x = none) : x ∈ A.map Prod.fst ∧ (PyDict.update ([] : PyDict String ν) A).get? x = some v := by
  rw [Scope.get?_update] at h ⊢
  cases hr : PyDict.get? A.reverse x with
  | none => rw [hr] at h; simp only [hS] at h; cases h
  | some u =>
    rw [hr] at h
    have := PyDict.mem_keys_of_get? hr
    simp only [PyDict.keys, List.map_reverse, List.mem_reverse] at this
    exact ⟨this, h⟩

theorem get?_update_not {ν : Type} {A : List (String × ν)} {S : PyDict String ν} {x : String} (h : x ∉ A.map Prod.fst) :
    (PyDict.update S A).get? x = S.get? x := by
  rw [Scope.get?_update]
  cases hr : PyDict.get? A.reverse x with
  | none => rfl
  | some u =>
    have := PyDict.mem_keys_of_get? hr
    simp only [PyDict.keys, List.map_reverse, List.mem_reverse] at this
    exact absurd this h

/-- New symbols in the innermost table. -/
theorem putAll_ext {Γ : SymTab} {ts : List (String × Ty)} (h : ∀ x ∈ ts.map Prod.fst, Γ.find x = none ∧ validSymbolName x = true) :
    Ext Γ (putAll Γ ts) := by
  cases Γ with
  | nil => rw [putAll_nil]; exact Ext.refl _
  | cons s Γ =>
    rw [putAll_cons]
    have hold : ∀ x, SymTab.find (s :: Γ) x ≠ none → (PyDict.update s.symbols ts).get? x = s.symbols.get? x := fun x hx =>
      get?_update_not (fun hm => hx (h x hm).1)
    refine ⟨fun x t hx => ?_, fun x hx hx' => ?_, fun x hx hx' => ?_⟩
    · have := hold x (by rw [hx]; simp)
      unfold SymTab.find at hx ⊢
      simp only [this]; exact hx
    · have := hold x hx
      unfold SymTab.writable at hx' ⊢
      simp only [this] at hx'; exact hx'
    · by_contra hv
      have hn : x ∉ ts.map Prod.fst := fun hm => hv (h x hm).2
      apply hx'
      unfold SymTab.find at hx ⊢
      simp only [get?_update_not hn]; exact hx

/-- Declarations. -/
theorem let_ok {Γ : SymTab} {ts : List (String × Ty)} {d : List (String × Val)}
    (h : ∀ x ∈ ts.map Prod.fst, Γ.find x = none ∧ validSymbolName x = true)
    (hv : List.Forall₂ (fun (p : String × Ty) (x : String × Val) => p.1 = x.1 ∧ VT V p.2 x.2) ts d) :
    Ok P V Γ (putAll Γ ts) (fun v => v = .null) (letM d) := by
  have hk : d.map Prod.fst = ts.map Prod.fst := by
    induction hv with
    | nil => rfl
    | cons h1 _ ih => simp only [List.map_cons, h1.1]; rw [ih (fun x hx => h x (by simp only [List.map_cons]; exact List.mem_cons_of_mem _ hx))]
  refine letM_ok (by rw [hk]; exact h) (fun x t hx hx' => ?_) (fun x hx => ?_)
  · cases Γ with
    | nil => rw [putAll_nil] at hx'; cases hx'
    | cons s Γ =>
      rw [putAll_cons] at hx'
      have hs : s.symbols.get? x = none := by
        unfold SymTab.find at hx
        cases hs : s.symbols.get? x with
        | none => rfl
        | some u => rw [hs] at hx; cases hx
      have hu : SymTab.find Γ x = none := by
        unfold SymTab.find at hx
        rw [hs] at hx; exact hx
      unfold SymTab.find at hx'
      cases hg : (PyDict.update s.symbols ts).get? x with
      | none => simp only [hg, hu] at hx'; cases hx'
      | some u =>
        simp only [hg] at hx'
        obtain rfl := Option.some.inj hx'
        obtain ⟨-, h2⟩ := get?_update_mem hg hs
        rcases corr_zip hv x with ⟨u', v, h3, h4, h5⟩ | ⟨h3, -⟩
        · rw [h2] at h3; obtain rfl := Option.some.inj h3; exact ⟨v, h4, h5⟩
        · rw [h2] at h3; cases h3
  · have := (putAll_ext h).find x
    cases hf : Γ.find x with
    | none => exact absurd hf hx
    | some t => exact this t hf

theorem newVars_ok (hw : SoundW P g V w) {Γ : SymTab} {b : Bool} {es : List (String × Ex)} : ∀ {ts ms}, newVars w Γ b es = .ok (ts, ms) →
    (∀ x ∈ ts.map Prod.fst, Γ.find x = none ∧ validSymbolName x = true) ∧ ∀ rt, RtOk P g V rt →
      Ok P V Γ Γ (fun vs => List.Forall₂ (fun (p : String × Ty) (x : String × Val) => p.1 = x.1 ∧ VT V p.2 x.2) ts vs)
        (evalD (ms.map (fun km => (km.1, km.2 rt)))) := by
  induction es with
  | nil =>
    intro ts ms h
    cases h
    exact ⟨by simp, fun _ _ => Ok.pure .nil⟩
  | cons ke es ih =>
    obtain ⟨k, e⟩ := ke
    intro ts ms h
    simp only [newVars, ebind, req_iff] at h
    obtain ⟨_, h1, _, h2, ⟨t, m, Γ1⟩, h3, _, -, ⟨ts', ms'⟩, h4, h5⟩ := h
    cases h5
    obtain ⟨n1, o1⟩ := ih h4
    refine ⟨fun x hx => ?_, fun rt hr => evalD_cons (Ext.refl _) (walkE_new hw h3 rt hr) (Ext.refl _) (o1 rt hr) (fun a as ha has => .cons ⟨rfl, ha⟩ has)⟩
    rcases List.mem_cons.1 hx with rfl | hx
    · exact ⟨Option.isNone_iff_eq_none.1 h1, h2⟩
    · exact n1 x hx

theorem assigns_ok (hw : SoundW P g V w) (F : Fit P g V) {Γ : SymTab} {es : List (String × Ex)} : ∀ {ms}, assigns P g w Γ es = .ok ms →
    ∀ rt, RtOk P g V rt → Ok P V Γ Γ (fun vs => vs.length = ms.length ∧ ∀ x ∈ vs, ∃ t, Γ.find x.1 = some (some (.avro t)) ∧
      Γ.writable x.1 = true ∧ V t x.2) (evalD (ms.map (fun km => (km.1, km.2 rt)))) := by
  induction es with
  | nil =>
    intro ms h
    cases h
    exact fun _ _ => Ok.pure ⟨rfl, by simp⟩
  | cons ke es ih =>
    obtain ⟨k, e⟩ := ke
    intro ms h
    simp only [assigns] at h
    split at h
    · cases h
    · next t hf =>
      simp only [ebind, req_iff] at h
      obtain ⟨_, h1, ⟨u, m, Γ1⟩, h2, h⟩ := h
      rcases t with _ | (t | _ | _)
      · simp [bind, Except.bind] at h
      · simp only [ebind, req_iff] at h
        obtain ⟨_, h3, ms', h4, h5⟩ := h
        cases h5
        intro rt hr
        refine evalD_cons (Ext.refl _) (walkE_new hw h2 rt hr) (Ext.refl _) (ih h4 rt hr) (fun a as ha has => ⟨by simp [has.1], fun x hx => ?_⟩)
        rcases List.mem_cons.1 hx with rfl | hx
        · exact ⟨t, hf, h1, accTy_ok F h3 ha⟩
        · exact has.2 x hx
      · simp [bind, Except.bind] at h
      · simp [bind, Except.bind] at h

theorem set_ok (hw : SoundW P g V w) (F : Fit P g V) {Γ : SymTab} {es : List (String × Ex)} {ms} (h : assigns P g w Γ es = .ok ms)
    (hs : g.sets ms.length = true) (rt : Rt) (hr : RtOk P g V rt) :
    Ok P V Γ Γ (fun v => v = .null) (do
      let d ← evalD (ms.map (fun km => (km.1, km.2 rt)))
      setM d) := by
  refine Ok.seq (assigns_ok hw F h rt hr) (fun d hd => ?_)
  have hl := F.sets _ hs
  rw [← hd.1] at hl
  match d, hl, hd with
  | [], _, _ => exact setM_nil
  | [(x, v)], _, hd =>
    obtain ⟨t, h1, h2, h3⟩ := hd.2 (x, v) (by simp)
    exact setM_ok h1 h2 h3
  | _ :: _ :: _, hl, _ => simp at hl

/-! ## Paths -/

variable (P) in
/-- A path that leads from data of one type to data of another. -/
inductive PT : AType → List Elem → AType → Prop
  | nil (t : AType) : PT t [] t
  | idx {t r : AType} {p : List Elem} (i : Int) : PT t p r → PT (.array t) (.idx i :: p) r
  | key {t r : AType} {p : List Elem} (k : String) : PT t p r → PT (.map t) (.key k :: p) r
  | field {n : Name} {fs : List Field} {f : Field} {k : String} {r : AType} {p : List Elem} : P.env.fields? n = some fs →
      fs.find? (fun f => f.name = k) = some f → PT f.type p r → PT (.record n) (.key k :: p) r

theorem mem_of_pyIndex {α : Type} {xs : List α} {i : Int} {x : α} (h : pyIndex xs i = some x) : x ∈ xs := by
  unfold pyIndex at h
  split at h
  · exact List.mem_of_getElem? h
  · split at h
    · exact List.mem_of_getElem? h
    · cases h

theorem path_get (F : Fit P g V) {t r : AType} {p : List Elem} (h : PT P t p r) {v : Val} (hv : V t v) (a m : Int) :
    match Path.get a m v p with | .ok x => V r x | .error e => Allowed e := by
  induction h generalizing v with
  | nil t => exact hv
  | idx i h ih =>
    obtain ⟨vs, rfl, h1⟩ := (F.array _ _).1 hv
    unfold Path.get getStep
    cases hi : pyIndex vs i with
    | none => simp only [hi]; trivial
    | some x => simp only [hi]; exact ih (h1 x (mem_of_pyIndex hi))
  | key k h ih =>
    obtain ⟨d, rfl, -, h1⟩ := (F.map _ _).1 hv
    unfold Path.get getStep
    cases hi : PyDict.get? d k with
    | none => simp only [hi]; trivial
    | some x => simp only [hi]; exact ih (h1 k x hi)
  | field hn hf h ih =>
    obtain ⟨d, rfl, -, -, h1⟩ := (F.record _ _ _ hn).1 hv
    obtain ⟨x, h2, h3⟩ := h1 _ _ hf
    unfold Path.get getStep
    simp only [h2]; exact ih h3

theorem updDict_pres {I : St → Prop} {A B : Val → Prop} {f : Val → M Val} {k : String} (hf : ∀ x, A x → Pres I B (f x)) :
    ∀ d : List (String × Val), (∀ x, (k, x) ∈ d → A x) →
      Pres I (fun d' => List.Forall₂ (fun (p q : String × Val) => p.1 = q.1 ∧ (p.1 ≠ k → p.2 = q.2) ∧ (p.1 = k → B q.2)) d d') (updDict f k d : M _)
  | [], _ => fun s hs => ⟨.nil, hs⟩
  | (k', x) :: d, hd => fun s hs => by
    have ih := updDict_pres hf d (fun x hx => hd x (List.mem_cons_of_mem _ hx))
    simp only [updDict]
    by_cases hk : k' = k
    · simp only [hk, if_true]
      have h1 := hf x (hd x (by rw [hk]; exact List.mem_cons_self ..)) s hs
      revert h1
      rcases f x s with ⟨r | y, s1⟩
      · exact id
      · rintro ⟨h1, h2⟩
        have h3 := ih s1 h2
        dsimp only
        revert h3
        rcases updDict f k d s1 with ⟨r | d', s2⟩
        · exact id
        · exact fun h3 => ⟨.cons ⟨rfl, fun hn => absurd rfl hn, fun _ => h1⟩ h3.1, h3.2⟩
    · simp only [hk, if_false]
      have h3 := ih s hs
      revert h3
      rcases updDict f k d s with ⟨r | d', s2⟩
      · exact id
      · exact fun h3 => ⟨.cons ⟨rfl, fun _ => rfl, fun hh => absurd hh hk⟩ h3.1, h3.2⟩

theorem updList_pres {I : St → Prop} {A : Val → Prop} {f : Val → M Val} {n : Int} (hf : ∀ x, A x → Pres I A (f x)) :
    ∀ (xs : List Val) (i : Int), (∀ x ∈ xs, A x) → Pres I (fun ys => ∀ y ∈ ys, A y) (updList f n i xs : M _)
  | [], _, _ => fun s hs => ⟨by simp, hs⟩
  | x :: xs, i, hd => fun s hs => by
    have ih := updList_pres (n := n) hf xs (i + 1) (fun x hx => hd x (List.mem_cons_of_mem _ hx))
    simp only [updList]
    by_cases hk : i = n
    · simp only [hk, if_true]
      have h1 := hf x (hd x (List.mem_cons_self ..)) s hs
      revert h1
      rcases f x s with ⟨r | y, s1⟩
      · exact id
      · rintro ⟨h1, h2⟩
        have h3 := ih s1 h2
        rw [hk] at h3
        dsimp only
        revert h3
        rcases updList f n (n + 1) xs s1 with ⟨r | d', s2⟩
        · exact id
        · exact fun h3 => ⟨fun y hy => (List.mem_cons.1 hy).elim (fun h => h ▸ h1) (h3.1 y), h3.2⟩
    · simp only [hk, if_false]
      have h3 := ih s hs
      revert h3
      rcases updList f n (i + 1) xs s with ⟨r | d', s2⟩
      · exact id
      · exact fun h3 => ⟨fun y hy => (List.mem_cons.1 hy).elim (fun h => h ▸ hd x (List.mem_cons_self ..)) (h3.1 y), h3.2⟩

theorem rel_keys {R : String × Val → String × Val → Prop} {d d' : List (String × Val)} (h : List.Forall₂ R d d') (hR : ∀ p q, R p q → p.1 = q.1) :
    PyDict.keys d' = PyDict.keys d := by
  induction h with
  | nil => rfl
  | cons h1 _ ih => simp only [PyDict.keys, List.map_cons] at ih ⊢; rw [ih, hR _ _ h1]

theorem update_pres (F : Fit P g V) {I : St → Prop} {repl : Val → M Val} (a m : Int) {t r : AType} {p : List Elem} (h : PT P t p r)
    (hr : ∀ x, V r x → Pres I (V r) (repl x)) {v : Val} (hv : V t v) : Pres I (V t) (updateM a m repl p v : M Val) := by
  induction h generalizing v with
  | nil t =>
    intro s hs
    exact hr v hv s hs
  | @idx t r p i h ih =>
    obtain ⟨vs, rfl, h1⟩ := (F.array _ _).1 hv
    intro s hs
    simp only [updateM]
    by_cases hc : (p ≠ [] ∧ i ≥ vs.length) ∨ i < 0
    · rw [if_pos hc]; exact ⟨trivial, hs⟩
    · rw [if_neg hc]
      have h2 := updList_pres (n := i) (fun x hx => ih hr hx) vs 0 h1 s hs
      revert h2
      rcases updList (updateM a m repl p) i 0 vs s with ⟨e | ys, s'⟩
      · exact id
      · exact fun h2 => ⟨(F.array _ _).2 ⟨ys, rfl, h2.1⟩, h2.2⟩
  | @key t r p k h ih =>
    obtain ⟨d, rfl, hwf, h1⟩ := (F.map _ _).1 hv
    intro s hs
    simp only [updateM]
    by_cases hc : p ≠ [] ∧ PyDict.has d k = false
    · rw [if_pos hc]; exact ⟨trivial, hs⟩
    · rw [if_neg hc]
      have h2 := updDict_pres (k := k) (fun x hx => ih hr hx) d (fun x hx => h1 k x (PyDict.get?_of_mem hwf hx)) s hs
      revert h2
      rcases updDict (updateM a m repl p) k d s with ⟨e | d', s'⟩
      · exact id
      · rintro ⟨h2, h3⟩
        have hwf' : PyDict.WF d' := by
          unfold PyDict.WF; rw [rel_keys h2 (fun _ _ h => h.1)]; exact hwf
        refine ⟨(F.map _ _).2 ⟨d', rfl, hwf', fun k' x hx => ?_⟩, h3⟩
        obtain ⟨p, hp, hpq⟩ := forall₂_right h2 (PyDict.mem_of_get? hx)
        by_cases hk : p.1 = k
        · exact hpq.2.2 hk
        · have hx' : p.2 = x := hpq.2.1 hk
          rw [← hx']
          exact h1 p.1 p.2 (PyDict.get?_of_mem hwf hp)
  | @field n fs f k r p hn hf h ih =>
    obtain ⟨d, rfl, hwf, hk, h1⟩ := (F.record _ _ _ hn).1 hv
    intro s hs
    simp only [updateM]
    by_cases hc : p ≠ [] ∧ PyDict.has d k = false
    · rw [if_pos hc]; exact ⟨trivial, hs⟩
    · rw [if_neg hc]
      have h2 := updDict_pres (k := k) (fun x hx => ih hr hx) d (fun x hx => by
        obtain ⟨y, h2, h3⟩ := h1 k f hf
        rw [PyDict.get?_of_mem hwf hx] at h2
        cases h2; exact h3) s hs
      revert h2
      rcases updDict (updateM a m repl p) k d s with ⟨e | d', s'⟩
      · exact id
      · rintro ⟨h2, h3⟩
        have hkeys := rel_keys h2 (fun _ _ h => h.1)
        have hwf' : PyDict.WF d' := by
          unfold PyDict.WF; rw [hkeys]; exact hwf
        refine ⟨(F.record _ _ _ hn).2 ⟨d', rfl, hwf', by rw [hkeys]; exact hk, fun k' f' hf' => ?_⟩, h3⟩
        obtain ⟨x, h4, h5⟩ := h1 k' f' hf'
        obtain ⟨q, hq, hpq⟩ := forall₂_left h2 (PyDict.mem_of_get? h4)
        refine ⟨q.2, ?_, ?_⟩
        · apply PyDict.get?_of_mem hwf'
          have : q.1 = k' := hpq.1.symm
          rw [← this]; exact hq
        · by_cases hkk : k' = k
          · rw [hkk, hf] at hf'
            obtain rfl := Option.some.inj hf'
            exact hpq.2.2 hkk
          · rw [← hpq.2.1 hkk]; exact h5
where
  forall₂_right {α β : Type} {R : α → β → Prop} {xs : List α} {ys : List β} (h : List.Forall₂ R xs ys) {y : β} (hy : y ∈ ys) : ∃ x ∈ xs, R x y := by
    induction h with
    | nil => cases hy
    | cons h1 _ ih =>
      rcases List.mem_cons.1 hy with rfl | hy
      · exact ⟨_, List.mem_cons_self .., h1⟩
      · obtain ⟨x, h2, h3⟩ := ih hy
        exact ⟨x, List.mem_cons_of_mem _ h2, h3⟩
  forall₂_left {α β : Type} {R : α → β → Prop} {xs : List α} {ys : List β} (h : List.Forall₂ R xs ys) {x : α} (hx : x ∈ xs) : ∃ y ∈ ys, R x y := by
    induction h with
    | nil => cases hx
    | cons h1 _ ih =>
      rcases List.mem_cons.1 hx with rfl | hx
      · exact ⟨_, List.mem_cons_self .., h1⟩
      · obtain ⟨y, h2, h3⟩ := ih hx
        exact ⟨y, List.mem_cons_of_mem _ h2, h3⟩

/-- A scope that is sealed within gets no new symbols (Let.walk 3009). -/
def SealedW (w : Walk) : Prop := ∀ e Γ t c Γ', w e Γ = .ok (t, c, Γ') → Γ.within = true → Γ' = Γ

theorem walkE_sealed (hs : SealedW w) {e Γ t m Γ'} (h : walkE w e Γ = .ok (t, m, Γ')) (hw : Γ.within = true) : Γ' = Γ := by
  unfold walkE at h
  split at h
  · next h1 => cases h; exact hs _ _ _ _ _ h1 hw
  · cases h
  · cases h

/-- One index of a path. -/
theorem pathItem_ok (F : Fit P g V) {t t' : AType} {e : Ex} {ty : Ty} {m m' : Rt → M Val} (h : pathItem P t e ty m = .ok (t', m')) {Γ : SymTab}
    (hm : ∀ rt, RtOk P g V rt → Ok P V Γ Γ (VT V ty) (m rt)) (rt : Rt) (hr : RtOk P g V rt) :
    Ok P V Γ Γ (fun v => ∃ el, toElem v = .ok el ∧ ∀ p r, PT P t' p r → PT P t (el :: p) r) (m' rt) := by
  unfold pathItem at h
  split at h
  · cases h
    refine (hm rt hr).mono (fun v hv => ?_)
    obtain ⟨i, rfl⟩ := F.int v hv
    exact ⟨_, rfl, fun _ _ h => .idx i h⟩
  · cases h
    refine (hm rt hr).mono (fun v hv => ?_)
    obtain ⟨i, rfl⟩ := F.long v hv
    exact ⟨_, rfl, fun _ _ h => .idx i h⟩
  · cases h
    refine (hm rt hr).mono (fun v hv => ?_)
    obtain ⟨i, rfl⟩ := (F.string v).1 hv
    exact ⟨_, rfl, fun _ _ h => .key i h⟩
  · next n =>
    dsimp only at h
    split at h
    · cases h
    · next s hs =>
      split at h
      · next f hf =>
        cases h
        refine Ok.pure ⟨_, rfl, fun p r hp => ?_⟩
        cases hn : P.env.fields? n with
        | none => rw [hn] at hf; simp at hf
        | some fs => rw [hn] at hf; exact .field hn hf hp
      · cases h
  · cases h

theorem walkPath_ok (hw : SoundW P g V w) (hs : SealedW w) (F : Fit P g V) {es : List Ex} : ∀ {t Γ r ms Γ'}, Γ.within = true →
    walkPath P w t es Γ = .ok (r, ms, Γ') →
    Γ' = Γ ∧ ∀ rt, RtOk P g V rt → Ok P V Γ Γ (fun vs => ∃ p, mapR toElem vs = .ok p ∧ PT P t p r ∧ p.length = es.length)
      (evalL (ms.map (· rt))) := by
  induction es with
  | nil =>
    intro t Γ r ms Γ' _ h
    cases h
    exact ⟨rfl, fun _ _ => evalL_nil ⟨[], rfl, .nil _, rfl⟩⟩
  | cons e es ih =>
    intro t Γ r ms Γ' hin h
    simp only [walkPath, ebind] at h
    obtain ⟨⟨ty, m, Γ1⟩, h1, ⟨t', m'⟩, h2, ⟨r', ms', Γ2⟩, h3, h4⟩ := h
    cases h4
    obtain ⟨e1, o1⟩ := walkE_ok hw h1
    obtain rfl := walkE_sealed hs h1 hin
    obtain ⟨rfl, o2⟩ := ih hin h3
    refine ⟨rfl, fun rt hr => evalL_cons (Ext.refl _) (pathItem_ok F h2 o1 rt hr) (Ext.refl _) (o2 rt hr) ?_⟩
    rintro a as ⟨el, ha1, ha2⟩ ⟨p, hp1, hp2, hp3⟩
    exact ⟨el :: p, by simp only [mapR, ha1, hp1], ha2 _ _ hp2, by simp [hp3]⟩

/-- The path of an expression in the block `Γ`. -/
theorem path_ok (hw : SoundW P g V w) (hs : SealedW w) (F : Fit P g V) {es : List Ex} {t : AType} {Γ : SymTab} {r ms Γ'}
    (h : walkPath P w t es (Γ.new true true) = .ok (r, ms, Γ')) (rt : Rt) (hr : RtOk P g V rt) :
    Ok P V Γ Γ (fun p => PT P t p r ∧ p.length = es.length) (evalPath (ms.map (· rt))) := by
  obtain ⟨-, h2⟩ := walkPath_ok hw hs F rfl h
  refine Ok.seq (Ok.new (Ext.refl _) (h2 rt hr)) (fun vs hv => ?_)
  obtain ⟨p, h3, h4⟩ := hv
  exact Ok.lift (by rw [h3]; exact h4)

variable (P V) in
/-- A replacement for data of the type `t`. -/
def ReplOk (Γ : SymTab) (t : AType) (a : Arg) : Prop :=
  ∀ c0, Agree V Γ c0 → c0 ≠ [] → ∀ x, V t x → Pres (Base P V c0) (V t) (replWith a x)

theorem ReplOk.ext {Γ Γ' : SymTab} {t : AType} {a : Arg} (h : ReplOk P V Γ t a) (he : Ext Γ Γ') : ReplOk P V Γ' t a :=
  fun c0 ha hne => h c0 (ha.ext he) hne

theorem walkTo_ok (hw : SoundW P g V w) (F : Fit P g V) {t : AType} {e Γ a Γ'} (h : walkTo P g w t e Γ = .ok (a, Γ')) :
    Ext Γ Γ' ∧ ∀ rt, RtOk P g V rt → Ok P V Γ Γ' (ReplOk P V Γ' t) (a rt) := by
  simp only [walkTo, ebind] at h
  obtain ⟨⟨ty, c, Γ1⟩, h1, h2⟩ := h
  obtain ⟨e1, o1⟩ := hw _ _ _ _ _ h1
  cases c with
  | expr m =>
    simp only [ebind, req_iff] at h2
    obtain ⟨_, h3, h4⟩ := h2
    cases h4
    refine ⟨e1, fun rt hr => Ok.bind e1 (o1 rt hr) (fun v hv => Ok.pure ?_)⟩
    exact fun c0 _ _ x _ => Pres.pure (accTy_ok F h3 hv)
  | fn l f =>
    dsimp only at h2
    split at h2
    · next p r =>
      simp only [ebind, req_iff, Bool.and_eq_true, Bool.or_eq_true] at h2
      obtain ⟨_, ⟨⟨⟨⟨-, h3⟩, -⟩, h4⟩, h5⟩, h6⟩ := h2
      cases h6
      rw [F.libTo] at h5
      have hl : l = true := by rcases h5 with h | h; exact h; cases h
      subst hl
      refine ⟨e1, fun rt hr => ?_⟩
      obtain ⟨rfl, ps, r', hps, o2⟩ := o1
      simp only [Option.some.injEq, CType.fcn.injEq] at hps
      obtain ⟨rfl, rfl⟩ := hps
      refine Ok.pure (fun c0 ha hne x hx => ?_)
      exact (o2 rt hr [x] (.cons (F.acc _ _ _ h3 hx) .nil) c0 ha hne).mono (fun v hv => F.acc _ _ _ h4 hv)
    · cases h2

/-! ## Cells and pools -/

theorem readCell_pres {c : String} {t : AType} (h : P.cells.get? c = some t) (c0 : Chain Val) : Pres (Base P V c0) (V t) (readCell c) := by
  intro s hs
  obtain ⟨v, h1, h2⟩ := hs.1.cells c t h
  unfold readCell
  simp only [h1]
  exact ⟨h2, hs⟩

theorem cellUpdate_pres (F : Fit P g V) {c : String} {t r : AType} {p : List Elem} (h : P.cells.get? c = some t) (hp : PT P t p r) {a : Arg}
    {c0 : Chain Val} (ha : ∀ x, V r x → Pres (Base P V c0) (V r) (replWith a x)) : Pres (Base P V c0) (V t) (cellUpdate c p a) := by
  refine Pres.bind (readCell_pres h c0) (fun old hold => Pres.bind (update_pres F _ _ hp ha hold) (fun v hv => ?_))
  intro s hs
  refine ⟨hv, ⟨fun c' t' h' => ?_, hs.1.pools⟩, hs.2⟩
  by_cases hc : c = c'
  · subst hc
    rw [h] at h'; obtain rfl := Option.some.inj h'
    exact ⟨v, by simp, hv⟩
  · obtain ⟨u, h1, h2⟩ := hs.1.cells c' t' h'
    exact ⟨u, by simp only [PyDict.get?_set_ne _ _ hc]; exact h1, h2⟩

theorem readPool_pres {p : String} {t : AType} (h : P.pools.get? p = some t) (c0 : Chain Val) :
    Pres (Base P V c0) (fun d => V (.map t) (.dict d)) (readPool p) := by
  intro s hs
  obtain ⟨v, h1, h2⟩ := hs.1.pools p t h
  unfold readPool
  simp only [h1]
  exact ⟨h2, hs⟩

theorem writePool_pres (F : Fit P g V) {p k : String} {t : AType} {v : Val} (h : P.pools.get? p = some t) (hv : V t v) (c0 : Chain Val) :
    Pres (Base P V c0) (fun _ => True) (writePool p k v) := by
  intro s hs
  obtain ⟨d, h1, h2⟩ := hs.1.pools p t h
  obtain ⟨d', hd, hwf, h3⟩ := (F.map _ _).1 h2
  cases hd
  unfold writePool
  simp only [h1]
  refine ⟨trivial, ⟨hs.1.cells, fun p' t' h' => ?_⟩, hs.2⟩
  by_cases hc : p = p'
  · subst hc
    rw [h] at h'; obtain rfl := Option.some.inj h'
    refine ⟨PyDict.set d k v, by simp only [PyDict.get?_set_self], (F.map _ _).2 ⟨_, rfl, PyDict.set_nodup hwf _ _, fun k' x hx => ?_⟩⟩
    rw [PyDict.get?_set] at hx
    split at hx
    · cases hx; exact hv
    · exact h3 k' x hx
  · obtain ⟨u, h4, h5⟩ := hs.1.pools p' t' h'
    exact ⟨u, by simp only [PyDict.get?_set_ne _ _ hc]; exact h4, h5⟩

theorem poolUpdate_pres (F : Fit P g V) {p : String} {t r : AType} {q : List Elem} (h : P.pools.get? p = some t) (hq : PT P (.map t) q r)
    (hne : q ≠ []) {a : Arg} {c0 : Chain Val} (ha : ∀ x, V r x → Pres (Base P V c0) (V r) (replWith a x)) {i : Val} (hi : V t i) :
    Pres (Base P V c0) (V t) (poolUpdate p q a i) := by
  cases hq with
  | nil => exact absurd rfl hne
  | @key _ _ tail k hq =>
    unfold poolUpdate
    refine Pres.bind (readPool_pres h c0) (fun d hd => ?_)
    obtain ⟨d', hd', hwf, h3⟩ := (F.map _ _).1 hd
    cases hd'
    have hv : V t ((PyDict.get? d k).getD i) := by
      cases hg : PyDict.get? d k with
      | none => exact hi
      | some x => exact h3 k x hg
    have hrest : Pres (Base P V c0) (V t) (do
        let v ← updateAt 2010 2011 a tail ((PyDict.get? d k).getD i)
        writePool p k v
        pure v) :=
      Pres.bind (update_pres F _ _ hq ha hv) (fun v hv => Pres.bind (writePool_pres F h hv c0) (fun _ _ => Pres.pure hv))
    cases hg : PyDict.get? d k with
    | some x => rw [hg] at hrest; exact hrest
    | none => rw [hg] at hrest; exact Pres.bind (writePool_pres F h hi c0) (fun _ _ => hrest)

theorem poolDel_pres (F : Fit P g V) {p : String} {t : AType} (h : P.pools.get? p = some t) (k : Val) (c0 : Chain Val) :
    Pres (Base P V c0) (fun v => v = .null) (poolDel p k) := by
  intro s hs
  obtain ⟨d, h1, h2⟩ := hs.1.pools p t h
  obtain ⟨d', hd, hwf, h3⟩ := (F.map _ _).1 h2
  cases hd
  unfold poolDel
  simp only [h1]
  cases k with
  | str k =>
    refine ⟨rfl, ⟨hs.1.cells, fun p' t' h' => ?_⟩, hs.2⟩
    by_cases hc : p = p'
    · subst hc
      rw [h] at h'; obtain rfl := Option.some.inj h'
      refine ⟨PyDict.del d k, by simp only [PyDict.get?_set_self], (F.map _ _).2 ⟨_, rfl, PyDict.del_nodup hwf _, fun k' x hx => ?_⟩⟩
      rw [PyDict.get?_del hwf] at hx
      split at hx
      · cases hx
      · exact h3 k' x hx
    · obtain ⟨u, h4, h5⟩ := hs.1.pools p' t' h'
      exact ⟨u, by simp only [PyDict.get?_set_ne _ _ hc]; exact h4, h5⟩
  | _ => exact ⟨rfl, hs⟩

/-! ## Branches and loops -/

theorem bind_assoc' {α β γ : Type} (m : M α) (f : α → M β) (k : β → M γ) : (m >>= fun a => f a >>= k) = ((m >>= f) >>= k) := by
  funext s
  simp only [run_bind]
  rcases m s with ⟨_ | _, _⟩ <;> rfl

theorem ifThenElse_ok {Γ : SymTab} {p c d : M Val} {Q : Val → Prop} (hp : Ok P V Γ Γ (fun _ => True) (test p))
    (hc : Ok P V Γ Γ Q (inFrame [] c)) (hd : Ok P V Γ Γ Q (inFrame [] d)) : Ok P V Γ Γ Q (ifThenElse p c d) := by
  refine Ok.seq hp (fun b _ => ?_)
  cases b
  · exact hd
  · exact hc

theorem ifThen_ok {Γ : SymTab} {p c : M Val} {Q : Val → Prop} (hp : Ok P V Γ Γ (fun _ => True) (test p))
    (hc : Ok P V Γ Γ Q (inFrame [] c)) : Ok P V Γ Γ (fun v => v = .null) (ifThen p c) := by
  refine Ok.seq hp (fun b _ => ?_)
  cases b
  · exact Ok.pure rfl
  · exact Ok.seq hc (fun _ _ => Ok.pure rfl)

theorem condElse_ok {Γ : SymTab} {Q : Val → Prop} {d : M Val} (hd : Ok P V Γ Γ Q (inFrame [] d)) :
    ∀ {ms : List (M Val × M Val)}, (∀ m ∈ ms, Ok P V Γ Γ (fun _ => True) (test m.1) ∧ Ok P V Γ Γ Q (inFrame [] m.2)) → Ok P V Γ Γ Q (condElse ms d)
  | [], _ => hd
  | (p, c) :: ms, h => by
    have h0 := h (p, c) (List.mem_cons_self ..)
    refine Ok.seq h0.1 (fun b _ => ?_)
    cases b
    · exact condElse_ok hd (fun m hm => h m (List.mem_cons_of_mem _ hm))
    · exact h0.2

theorem condM_ok {Γ : SymTab} : ∀ {ms : List (M Val × M Val)},
    (∀ m ∈ ms, Ok P V Γ Γ (fun _ => True) (test m.1) ∧ ∃ Q, Ok P V Γ Γ Q (inFrame [] m.2)) → Ok P V Γ Γ (fun v => v = .null) (condM ms)
  | [], _ => Ok.pure rfl
  | (p, c) :: ms, h => by
    have h0 := h (p, c) (List.mem_cons_self ..)
    refine Ok.seq h0.1 (fun b _ => ?_)
    cases b
    · exact condM_ok (fun m hm => h m (List.mem_cons_of_mem _ hm))
    · obtain ⟨Q, hQ⟩ := h0.2
      exact Ok.seq hQ (fun _ _ => Ok.pure rfl)

theorem whileLoop_ok {Γ Δ Δ' : SymTab} {Q : Val → Prop} {p b : M Val} (ex : Nat → Bool) (hc : Child Γ [] Δ) (he : Ext Δ Δ')
    (hp : Ok P V Δ Δ' (fun _ => True) p) (hb : Ok P V Γ Γ Q b) : ∀ n pf, FrameOk V Γ [] pf → Ok P V Γ Γ (fun v => v = .null) (whileLoop ex p b n pf)
  | 0, _, _ => Ok.raise (.inr rfl)
  | n + 1, pf, hf => by
    refine Ok.seq (Ok.kept hc he hf hp) (fun x hx => ?_)
    obtain ⟨v, pf'⟩ := x
    dsimp only
    split
    · exact Ok.seq (checkTime_ok' ex) (fun _ _ => Ok.seq hb (fun _ _ => whileLoop_ok ex hc he hp hb n pf' hx.2))
    · exact Ok.pure rfl

theorem untilLoop_ok {Γ Γ1 Δ Δ' : SymTab} {Q : Val → Prop} {p b : M Val} (ex : Nat → Bool) (h1 : Ext Γ Γ1) (hc : Child Γ1 [] Δ) (he : Ext Δ Δ')
    (hp : Ok P V Δ Δ' (fun _ => True) p) (hb : Ok P V Γ Γ1 Q b) : ∀ n pf, FrameOk V Γ1 [] pf → Ok P V Γ Γ (fun v => v = .null) (untilLoop ex p b n pf)
  | 0, _, _ => Ok.raise (.inr rfl)
  | n + 1, pf, hf => by
    refine Ok.seq (checkTime_ok' ex) (fun _ _ => ?_)
    rw [bind_assoc']
    refine Ok.seq (Ok.drop h1 (Ok.bind h1 hb (fun _ _ => Ok.kept hc he hf hp))) (fun x hx => ?_)
    obtain ⟨v, pf'⟩ := x
    dsimp only
    split
    · exact Ok.pure rfl
    · exact untilLoop_ok ex h1 hc he hp hb n pf' hx.2

theorem forLoop_ok {Γ Δ Δ' E E' : SymTab} {Q R : Val → Prop} {p b st : M Val} (ex : Nat → Bool) (hc : Child Γ [] Δ) (he : Ext Δ Δ')
    (hc2 : Child Γ [] E) (he2 : Ext E E')
    (hp : Ok P V Δ Δ' (fun _ => True) p) (hb : Ok P V E E' Q b) (hst : Ok P V Γ Γ R st) :
    ∀ n pf bf, FrameOk V Γ [] pf → FrameOk V Γ [] bf → Ok P V Γ Γ (fun v => v = .null) (forLoop ex p b st n pf bf)
  | 0, _, _, _, _ => Ok.raise (.inr rfl)
  | n + 1, pf, bf, hf, hf2 => by
    refine Ok.seq (Ok.kept hc he hf hp) (fun x hx => ?_)
    obtain ⟨v, pf'⟩ := x
    dsimp only
    split
    · refine Ok.seq (checkTime_ok' ex) (fun _ _ => Ok.seq (Ok.kept hc2 he2 hf2 hb) (fun y hy => ?_))
      obtain ⟨u, bf'⟩ := y
      exact Ok.seq hst (fun _ _ => forLoop_ok ex hc he hc2 he2 hp hb hst n pf' bf' hx.2 hy.2)
    · exact Ok.pure rfl

theorem eachLoop_ok {Γ Γ1 E E' : SymTab} {Q R : Val → Prop} {b : M Val} (ex : Nat → Bool) (h1 : Ext Γ Γ1) (hc : Child Γ1 [] E) (he : Ext E E')
    (hb : Ok P V E E' Q b) : ∀ ds bf, (∀ d ∈ ds, Ok P V Γ Γ1 R (letM d)) → FrameOk V Γ1 [] bf →
      Ok P V Γ Γ (fun v => v = .null) (eachLoop ex b ds bf)
  | [], _, _, _ => Ok.pure rfl
  | d :: ds, bf, hd, hf => by
    refine Ok.seq (checkTime_ok' ex) (fun _ _ => ?_)
    rw [bind_assoc']
    refine Ok.seq (Ok.drop h1 (Ok.bind h1 (hd d (List.mem_cons_self ..)) (fun _ _ => Ok.kept hc he hf hb))) (fun x hx => ?_)
    obtain ⟨v, bf'⟩ := x
    exact eachLoop_ok ex h1 hc he hb ds bf' (fun d hm => hd d (List.mem_cons_of_mem _ hm)) hx.2

end

end Verif.Lang
