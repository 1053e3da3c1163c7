import Verif.Scripts.Programs
import Verif.Lang.Whole
import Std.Data.String.ToNat
/-! # Programs that make random data pass the check: the walk (C108) -/

namespace Verif.Scripts
open Avro Sig Lang Ast
open Filter (atTop Eventually eventually_atTop)

/-! ## Steps of the check -/

/-- From some depth on, the expression passes with this type, and the table is this one afterwards. -/
def Steps (P : Prog) (e : Ex) (Γ : SymTab) (t : Ty) (Γ' : SymTab) : Prop := ∀ᶠ n in Filter.atTop, ∃ m, walk P Guard.all n e Γ = .ok (t, .expr m, Γ')

/-- The same for a body. -/
def Body (P : Prog) (es : List Ex) (Γ : SymTab) (t : Ty) : Prop := ∀ᶠ n in Filter.atTop, ∃ m Γ', block (walk P Guard.all n) es Γ = .ok (t, m, Γ')

variable {P : Prog} {Γ Γ' : SymTab}

theorem ev_succ {p : Nat → Prop} (h : ∀ᶠ n in Filter.atTop, p (n + 1)) : ∀ᶠ n in atTop, p n := by
  obtain ⟨k, h⟩ := eventually_atTop.1 h
  refine eventually_atTop.2 ⟨k + 1, fun n hn => ?_⟩
  obtain ⟨m, rfl⟩ : ∃ m, n = m + 1 := ⟨n - 1, by omega⟩
  exact h m (by omega)

theorem steps_of {e : Ex} {t : Ty} (h : ∀ᶠ n in Filter.atTop, ∃ m, walkStep P Guard.all (walk P Guard.all n) e Γ = .ok (t, .expr m, Γ')) : Steps P e Γ t Γ' :=
  ev_succ h

theorem walkE_of {w : Walk} {e : Ex} {t : Ty} {m} (h : w e Γ = .ok (t, .expr m, Γ')) : walkE w e Γ = .ok (t, m, Γ') := by
  rw [walkE, h]

theorem body_one {e : Ex} {t : Ty} (h : Steps P e Γ t Γ') : Body P [e] Γ t := by
  filter_upwards [h] with n ⟨m, hm⟩
  exact ⟨_, _, by simp only [block, walkL, walkE_of hm]; rfl⟩

theorem body_cons {e : Ex} {es : List Ex} {t u : Ty} (h : Steps P e Γ t Γ') (hs : Body P es Γ' u) : Body P (e :: es) Γ u := by
  filter_upwards [h, hs] with n ⟨m, hm⟩ ⟨ms, Γ2, hb⟩
  simp only [block] at hb ⊢
  simp only [walkL, walkE_of hm]
  cases hw : walkL (walk P Guard.all n) es Γ' with
  | error e => rw [hw] at hb; cases hb
  | ok r =>
    obtain ⟨ts, ms', Γ3⟩ := r
    rw [hw] at hb
    cases ts with
    | nil => cases hb
    | cons t' ts =>
      cases hl : lastTy (t' :: ts) with
      | error e =>
        have : (Except.error e : Res Ty) = .error e := rfl
        simp only [bind, Except.bind, hl] at hb
        cases hb
      | ok v =>
        simp only [bind, Except.bind, hl] at hb
        cases hb
        simp only [bind, Except.bind, hw]
        rw [show lastTy (t :: t' :: ts) = lastTy (t' :: ts) from rfl, hl]
        exact ⟨_, _, rfl⟩

/-! ## Expressions -/

theorem lit_int (x : Val) : Steps P (.litInt x) Γ (some (.avro .int)) Γ := steps_of (Eventually.of_forall fun _ => ⟨_, rfl⟩)
theorem lit_float (x : Val) : Steps P (.litFloat x) Γ (some (.avro .float)) Γ := steps_of (Eventually.of_forall fun _ => ⟨_, rfl⟩)
theorem lit_double (x : Val) : Steps P (.litDouble x) Γ (some (.avro .double)) Γ := steps_of (Eventually.of_forall fun _ => ⟨_, rfl⟩)
theorem lit_bool (x : Bool) : Steps P (.litBool x) Γ (some (.avro .boolean)) Γ := steps_of (Eventually.of_forall fun _ => ⟨_, rfl⟩)
theorem lit_null : Steps P .litNull Γ (some (.avro .null)) Γ := steps_of (Eventually.of_forall fun _ => ⟨_, rfl⟩)
theorem an_error (s : String) : Steps P (.error s none) Γ (some .exc) Γ := steps_of (Eventually.of_forall fun _ => ⟨_, rfl⟩)

theorem a_literal {t : AType} {j v : Val} (h : P.decode t j = .ok v) : Steps P (.literal t j) Γ (some (.avro t)) Γ := by
  refine steps_of (Eventually.of_forall fun _ => ⟨fun _ => pure v, ?_⟩)
  simp only [walkStep, h]
  rfl

theorem a_ref {x : String} {t : Ty} (h : Γ.find x = some t) : Steps P (.ref x) Γ t Γ := by
  refine steps_of (Eventually.of_forall fun _ => ⟨fun _ => getVar x, ?_⟩)
  simp only [walkStep, h]

theorem ctypes_avro (us : List AType) : ctypes (us.map fun u => some (.avro u)) = .ok (us.map .avro) := by
  induction us with
  | nil => rfl
  | cons u us ih => simp only [List.map_cons, ctypes, ih]; rfl

theorem walkA_of {args : List Ex} {us : List AType} (h : List.Forall₂ (fun e u => Steps P e Γ (some (.avro u)) Γ) args us) :
    ∀ᶠ n in Filter.atTop, ∃ cs, walkA (walk P Guard.all n) args Γ = .ok (us.map (fun u => some (.avro u)), cs, Γ) := by
  induction h with
  | nil => exact Eventually.of_forall fun _ => ⟨_, rfl⟩
  | cons h1 _ ih =>
    filter_upwards [h1, ih] with n ⟨m, hm⟩ ⟨cs, hc⟩
    exact ⟨_, by simp only [walkA, hm, hc, bind, Except.bind]; rfl⟩

theorem a_call {f : String} {sigs : List Sig1} (hf : P.funs.get? f = some (.lib sigs)) {args : List Ex} {us : List AType}
    (h : List.Forall₂ (fun e u => Steps P e (Γ.new true true) (some (.avro u)) (Γ.new true true)) args us) {r : CType}
    (hs : ∃ s ps, sigsAccept P.env sigs (us.map .avro) P.version = .ok (some (s, ps, r))) : Steps P (.call f args) Γ (some r) Γ := by
  obtain ⟨s, ps, hs⟩ := hs
  refine steps_of ?_
  filter_upwards [walkA_of h] with n ⟨cs, hc⟩
  simp only [walkStep, hf, hc, bind, Except.bind, ctypes_avro, hs]
  exact ⟨_, rfl⟩

theorem acc_refl_ty (he : P.env.Ok) {t : AType} (h : AType.known P.env t = true) : accTy P Guard.all t (some (.avro t)) = true := by
  simp [accTy, accepts_refl he t h, Guard.all]

theorem acc_ty {t u : AType} (h : accepts P.env P.env t u = true) : accTy P Guard.all t (some (.avro u)) = true := by
  simp [accTy, h, Guard.all]

theorem a_predicate (he : P.env.Ok) {e : Ex} (h : Steps P e (Γ.new true true) (some (.avro .boolean)) Γ') :
    ∀ᶠ n in Filter.atTop, ∃ m, predicate P Guard.all (walk P Guard.all n) e Γ = .ok m := by
  filter_upwards [h] with n ⟨m, hm⟩
  refine ⟨m, ?_⟩
  simp only [predicate, walkE_of hm, bind, Except.bind, acc_refl_ty he (t := .boolean) rfl, req, if_true]

theorem a_do {es : List Ex} {t : AType} (h : Body P es (Γ.new false false) (some (.avro t))) : Steps P (.do_ es) Γ (some (.avro t)) Γ := by
  refine steps_of ?_
  filter_upwards [h] with n ⟨m, Γ', hm⟩
  simp only [walkStep, hm, bind, Except.bind]
  exact ⟨_, rfl⟩

/-- New variables. -/
theorem newVars_of {b : Bool} : ∀ {vs : List (String × Ex)} {us : List (String × AType)},
    List.Forall₂ (fun v u => v.1 = u.1 ∧ Γ.find v.1 = none ∧ validSymbolName v.1 = true ∧ ∃ Γ', Steps P v.2 (Γ.new true true) (some (.avro u.2)) Γ') vs us →
    ∀ᶠ n in Filter.atTop, ∃ ms, newVars (walk P Guard.all n) Γ b vs = .ok (us.map (fun u => (u.1, some (.avro u.2))), ms) := by
  intro vs us h
  induction h with
  | nil => exact Eventually.of_forall fun _ => ⟨_, rfl⟩
  | @cons v u vs us h1 _ ih =>
    obtain ⟨x, e⟩ := v
    obtain ⟨e1, hf, hv, Γ', hs⟩ := h1
    filter_upwards [hs, ih] with n ⟨m, hm⟩ ⟨ms, hms⟩
    refine ⟨(x, m) :: ms, ?_⟩
    obtain ⟨y, t⟩ := u
    simp only at hf hv e1 hm
    subst e1
    simp only [newVars, hf, hv, walkE_of hm, hms, bind, Except.bind, req, isExcTy, Option.isNone_none, if_true, Bool.not_false, Bool.or_true, List.map_cons]

theorem a_let {vs : List (String × Ex)} {us : List (String × AType)} (hw : Γ.within = false)
    (h : List.Forall₂ (fun v u => v.1 = u.1 ∧ Γ.find v.1 = none ∧ validSymbolName v.1 = true ∧ ∃ Γ', Steps P v.2 (Γ.new true true) (some (.avro u.2)) Γ') vs us) :
    Steps P (.let_ vs) Γ (some (.avro .null)) (putAll Γ (us.map (fun u => (u.1, some (.avro u.2))))) := by
  refine steps_of ?_
  filter_upwards [newVars_of (b := false) h] with n ⟨ms, hms⟩
  simp only [walkStep, hw, hms, bind, Except.bind, req, Bool.not_false, if_true]
  exact ⟨_, rfl⟩

/-- One assignment. -/
theorem assigns_of {x : String} {e : Ex} {t u : AType} (hf : Γ.find x = some (some (.avro t))) (hw : Γ.writable x = true)
    (hs : Steps P e (Γ.new true true) (some (.avro u)) Γ') (ha : accepts P.env P.env t u = true) :
    ∀ᶠ n in Filter.atTop, ∃ ms, assigns P Guard.all (walk P Guard.all n) Γ [(x, e)] = .ok ms := by
  filter_upwards [hs] with n ⟨m, hm⟩
  simp only [assigns, hf, hw, walkE_of hm, bind, Except.bind, req, acc_ty ha, if_true]
  exact ⟨_, rfl⟩

theorem all_sets (n : Nat) : Guard.all.sets n = true := rfl

theorem a_set {x : String} {e : Ex} {t u : AType} (hf : Γ.find x = some (some (.avro t))) (hw : Γ.writable x = true)
    (hs : Steps P e (Γ.new true true) (some (.avro u)) Γ') (ha : accepts P.env P.env t u = true) : Steps P (.setVar [(x, e)]) Γ (some (.avro .null)) Γ := by
  refine steps_of ?_
  filter_upwards [assigns_of hf hw hs ha] with n ⟨ms, hms⟩
  simp only [walkStep, hms, bind, Except.bind, req, all_sets, if_true]
  exact ⟨_, rfl⟩

theorem a_for (he : P.env.Ok) {i : String} {e p st : Ex} {body : List Ex} {Γ1 Γ2 Γ3 : SymTab} {u : AType} {t : Ty} (hi : (Γ.new false false).find i = none) (hv : validSymbolName i = true)
    (h1 : Steps P e ((Γ.new false false).new true true) (some (.avro .int)) Γ1)
    (h2 : Steps P p (((Γ.new false false).put i (some (.avro .int))).new true true) (some (.avro .boolean)) Γ2)
    (h3 : Steps P st (((Γ.new false false).put i (some (.avro .int))).new true true) (some (.avro u)) Γ3) (ha : accepts P.env P.env .int u = true)
    (h4 : Body P body (((Γ.new false false).put i (some (.avro .int))).new false false) t) : Steps P (.for_ [(i, e)] p [(i, st)] body) Γ (some (.avro .null)) Γ := by
  refine steps_of ?_
  have hn := newVars_of (P := P) (Γ := Γ.new false false) (b := true) (vs := [(i, e)]) (us := [(i, .int)]) (.cons ⟨rfl, hi, hv, _, h1⟩ .nil)
  have hf : ((Γ.new false false).put i (some (.avro .int))).find i = some (some (.avro .int)) := by
    simp [SymTab.new, SymTab.put, SymTab.find]
  have hw : ((Γ.new false false).put i (some (.avro .int))).writable i = true := by
    simp [SymTab.new, SymTab.put, SymTab.writable]
  filter_upwards [hn, a_predicate he h2, assigns_of hf hw h3 ha, h4] with n ⟨ms, hms⟩ ⟨pm, hpm⟩ ⟨as, has⟩ ⟨bm, Γb, hbm⟩
  simp only [walkStep, hms, bind, Except.bind, List.map_cons, List.map_nil, putAll, List.foldl_cons, List.foldl_nil, hpm, has, hbm, req, all_sets, if_true]
  exact ⟨_, rfl⟩

/-! ## Names -/

theorem numbered_inj {s s' : String} {v v' : Nat} (hs : s ∈ ["size", "out", "i", "which"]) (hs' : s' ∈ ["size", "out", "i", "which"]) (h : numbered s v = numbered s' v') :
    s = s' ∧ v = v' := by
  have hd : ∀ (n : Nat), ∀ c ∈ (toString n).toList, c.isDigit = true := by
    intro n c hc
    have : (toString n).toList = Nat.toDigits 10 n := by
      show (Nat.repr n).toList = _
      simp [Nat.repr]
    rw [this] at hc
    exact Nat.isDigit_of_mem_toDigits (by decide) (by decide) hc
  have hl : (numbered s v).toList = (numbered s' v').toList := by rw [h]
  simp only [numbered, String.toList_append] at hl
  have ht : ∀ (s : String), s ∈ ["size", "out", "i", "which"] → ∀ c ∈ s.toList, c.isDigit = false := by decide +kernel
  have key : ∀ (a b x y : List Char), (∀ c ∈ a, c.isDigit = false) → (∀ c ∈ b, c.isDigit = false) → (∀ c ∈ x, c.isDigit = true) → (∀ c ∈ y, c.isDigit = true) →
      a ++ x = b ++ y → a = b ∧ x = y := by
    intro a
    induction a with
    | nil =>
      intro b x y _ hb hx _ e
      cases b with
      | nil => exact ⟨rfl, e⟩
      | cons c b =>
        exfalso
        have h1 := hb c (by simp)
        have h2 := hx c (by rw [show x = c :: b ++ y from e]; simp)
        rw [h1] at h2; cases h2
    | cons c a ih =>
      intro b x y ha hb hx hy e
      cases b with
      | nil =>
        exfalso
        have h1 := ha c (by simp)
        have h2 := hy c (by rw [show y = c :: a ++ x from e.symm]; simp)
        rw [h1] at h2; cases h2
      | cons d b =>
        rw [List.cons_append, List.cons_append, List.cons.injEq] at e
        obtain ⟨e1, e2⟩ := ih b x y (fun c hc => ha c (by simp [hc])) (fun c hc => hb c (by simp [hc])) hx hy e.2
        exact ⟨by rw [e.1, e1], e2⟩
  obtain ⟨e1, e2⟩ := key _ _ _ _ (ht s hs) (ht s' hs') (hd v) (hd v') hl
  exact ⟨String.toList_inj.1 e1, Nat.repr_injective (String.toList_inj.1 e2)⟩

theorem numbered_valid {s : String} {v : Nat} (hs : s ∈ ["size", "out", "i", "which"]) : validSymbolName (numbered s v) = true := by
  have hd : ∀ c ∈ (toString v).toList, c.isDigit = true := by
    intro c hc
    have : (toString v).toList = Nat.toDigits 10 v := by
      show (Nat.repr v).toList = _
      simp [Nat.repr]
    rw [this] at hc
    exact Nat.isDigit_of_mem_toDigits (by decide) (by decide) hc
  have ht : ∀ (s : String), s ∈ ["size", "out", "i", "which"] → ∃ c cs, s.toList = c :: cs ∧ c.isAlpha = true ∧ ∀ x ∈ cs, x.isAlpha = true := by
    intro s hs
    simp only [List.mem_cons, List.not_mem_nil, or_false] at hs
    rcases hs with rfl | rfl | rfl | rfl
    · exact ⟨'s', ['i', 'z', 'e'], by decide +kernel, by decide +kernel, by decide +kernel⟩
    · exact ⟨'o', ['u', 't'], by decide +kernel, by decide +kernel, by decide +kernel⟩
    · exact ⟨'i', [], by decide +kernel, by decide +kernel, by decide +kernel⟩
    · exact ⟨'w', ['h', 'i', 'c', 'h'], by decide +kernel, by decide +kernel, by decide +kernel⟩
  obtain ⟨c, cs, e, hc, hcs⟩ := ht s hs
  have : (cs ++ (toString v).toList).all (fun c => (c.isAlpha || c == '_') || c.isDigit) = true := by
    rw [List.all_eq_true]
    intro x hx
    rcases List.mem_append.1 hx with hx | hx
    · simp [hcs x hx]
    · simp [hd x hx]
  simp only [validSymbolName, numbered, String.toList_append, e, List.cons_append, hc, this, Bool.true_or, Bool.and_self]

/-- The names from this number on are new. -/
def Fresh (Γ : SymTab) (v : Nat) : Prop := ∀ k, v ≤ k → ∀ s ∈ ["size", "out", "i", "which"], Γ.find (numbered s k) = none

theorem Fresh.new {v : Nat} (h : Fresh Γ v) (a b : Bool) : Fresh (Γ.new a b) v := fun k hk s hs => by
  simpa [SymTab.new, SymTab.find] using h k hk s hs

theorem Fresh.mono {v w : Nat} (h : Fresh Γ v) (hw : v ≤ w) : Fresh Γ w := fun k hk => h k (by omega)

theorem find_put {c : Scope1} {up : SymTab} {x y : String} {t : Ty} : (SymTab.put (c :: up) x t).find y = if x = y then some t else SymTab.find (c :: up) y := by
  simp only [SymTab.put, SymTab.find, PyDict.get?_set]
  split
  · next h => split at h <;> simp_all
  · next h => split at h <;> simp_all

theorem Fresh.put {c : Scope1} {up : SymTab} {v : Nat} (h : Fresh (c :: up) (v + 1)) {s : String} (hs : s ∈ ["size", "out", "i", "which"]) (t : Ty) :
    Fresh (SymTab.put (c :: up) (numbered s v) t) (v + 1) := fun k hk s' hs' => by
  rw [find_put, if_neg]
  · exact h k hk s' hs'
  · intro e
    have := (numbered_inj hs hs' e).2
    omega

/-! ## The functions that are called -/

/-- The functions that the programs call are those of the library. -/
def Library (P : Prog) : Prop := ∀ f ∈ randomLib, P.funs.get? f.1 = some (.lib f.2)

theorem Library.get (h : Library P) (k : Nat) {f : String} {sigs : List Sig1} (hf : randomLib[k]? = some (f, sigs)) : P.funs.get? f = some (.lib sigs) :=
  h _ (List.mem_of_getElem? hf)

theorem call_int (h : Library P) (x y : Val) : Steps P (.call "rand.int" [.litInt x, .litInt y]) Γ (some (.avro .int)) Γ :=
  a_call (us := [.int, .int]) (h.get 0 rfl) (.cons (lit_int _) (.cons (lit_int _) .nil)) ⟨_, _, rfl⟩

theorem call_string (h : Library P) (x : Val) : Steps P (.call "rand.string" [.litInt x]) Γ (some (.avro .string)) Γ :=
  a_call (us := [.int]) (h.get 5 rfl) (.cons (lit_int _) .nil) ⟨_, _, rfl⟩

theorem call_bytes (h : Library P) (x : Val) : Steps P (.call "rand.bytes" [.litInt x]) Γ (some (.avro .bytes)) Γ :=
  a_call (us := [.int]) (h.get 6 rfl) (.cons (lit_int _) .nil) ⟨_, _, rfl⟩

theorem call_eq (h : Library P) {x y : Ex} (hx : Steps P x (Γ.new true true) (some (.avro .int)) (Γ.new true true))
    (hy : Steps P y (Γ.new true true) (some (.avro .int)) (Γ.new true true)) : Steps P (.call "==" [x, y]) Γ (some (.avro .boolean)) Γ :=
  a_call (us := [.int, .int]) (h.get 11 rfl) (.cons hx (.cons hy .nil)) ⟨_, _, rfl⟩

theorem call_lt (h : Library P) {x y : Ex} (hx : Steps P x (Γ.new true true) (some (.avro .int)) (Γ.new true true))
    (hy : Steps P y (Γ.new true true) (some (.avro .int)) (Γ.new true true)) : Steps P (.call "<" [x, y]) Γ (some (.avro .boolean)) Γ :=
  a_call (us := [.int, .int]) (h.get 12 rfl) (.cons hx (.cons hy .nil)) ⟨_, _, rfl⟩

theorem call_plus (h : Library P) {x y : Ex} (hx : Steps P x (Γ.new true true) (some (.avro .int)) (Γ.new true true))
    (hy : Steps P y (Γ.new true true) (some (.avro .int)) (Γ.new true true)) : Steps P (.call "+" [x, y]) Γ (some (.avro .int)) Γ :=
  a_call (us := [.int, .int]) (h.get 10 rfl) (.cons hx (.cons hy .nil)) ⟨_, _, rfl⟩

theorem call_append (h : Library P) {x y : Ex} {i u A : AType} (hx : Steps P x (Γ.new true true) (some (.avro (.array i))) (Γ.new true true))
    (hy : Steps P y (Γ.new true true) (some (.avro u)) (Γ.new true true)) (hb : broadest P.env [.avro i, .avro u] = .ok (some (.avro A))) :
    Steps P (.call "a.append" [x, y]) Γ (some (.avro (.array A))) Γ := by
  refine a_call (us := [.array i, u]) (h.get 8 rfl) (.cons hx (.cons hy .nil)) ?_
  simp [sigsAccept, Sig1.accepts, Lifespan.current, Lifespan.deprecated, checkL, check, allC, allowed, addMember, finish, determineAll, determine, hb, PyDict.get?, PyDict.set,
    assignAll, assign, assignRet, label, wrapAvro, orNone, List.modify]

theorem call_add (h : Library P) {x y z : Ex} {i u A : AType} (hx : Steps P x (Γ.new true true) (some (.avro (.map i))) (Γ.new true true))
    (hy : Steps P y (Γ.new true true) (some (.avro .string)) (Γ.new true true))
    (hz : Steps P z (Γ.new true true) (some (.avro u)) (Γ.new true true)) (hb : broadest P.env [.avro i, .avro u] = .ok (some (.avro A))) :
    Steps P (.call "map.add" [x, y, z]) Γ (some (.avro (.map A))) Γ := by
  refine a_call (us := [.map i, .string, u]) (h.get 9 rfl) (.cons hx (.cons hy (.cons hz .nil))) ?_
  simp [sigsAccept, Sig1.accepts, Lifespan.current, Lifespan.deprecated, checkL, check, pureC, allC, allowed, addMember, finish, determineAll, determine, hb, PyDict.get?, PyDict.set,
    assignAll, assign, assignRet, label, wrapAvro, orNone, List.modify]

theorem call_choice (h : Library P) {x : Ex} {n : Name} {syms : List String} (hx : Steps P x (Γ.new true true) (some (.avro (.array (.enum n syms)))) (Γ.new true true)) :
    Steps P (.call "rand.choice" [x]) Γ (some (.avro (.enum n syms))) Γ := by
  refine a_call (us := [.array (.enum n syms)]) (h.get 4 rfl) (.cons hx .nil) ?_
  have hb : broadest P.env [.avro (.enum n syms)] = .ok (some (.avro (.enum n syms))) := by
    rfl
  simp [sigsAccept, Sig1.accepts, Lifespan.current, Lifespan.deprecated, checkL, check, pureC, allC, allowed, addMember, finish, determineAll, determine, hb, PyDict.get?, PyDict.set,
    assignAll, assign, assignRet, label, wrapAvro, orNone, List.modify]

theorem call_fixed (h : Library P) {x y : Ex} {n : Name} {k : Nat} (hx : Steps P x (Γ.new true true) (some (.avro (.fixed n k))) (Γ.new true true))
    (hy : Steps P y (Γ.new true true) (some (.avro .bytes)) (Γ.new true true)) : Steps P (.call "fixed.fromBytes" [x, y]) Γ (some (.avro (.fixed n k))) Γ := by
  refine a_call (us := [.fixed n k, .bytes]) (h.get 7 rfl) (.cons hx (.cons hy .nil)) ?_
  have hb : broadest P.env [.avro (.fixed n k)] = .ok (some (.avro (.fixed n k))) := by
    rfl
  simp [sigsAccept, Sig1.accepts, Lifespan.current, Lifespan.deprecated, checkL, check, pureC, allC, allowed, addMember, finish, determineAll, determine, hb, PyDict.get?, PyDict.set,
    assignAll, assign, assignRet, label, wrapAvro, orNone, List.modify]

/-! ## The values that are written -/

/-- Values are read with `jsonDecoder`. -/
def Decodes (P : Prog) : Prop := ∃ pf n, P.decode = dec pf P.env (n + 2)

theorem dec_array (h : Decodes P) (i : AType) : P.decode (.array i) (.arr []) = .ok (.arr []) := by
  obtain ⟨pf, n, h⟩ := h
  rw [h]; rfl

theorem dec_map (h : Decodes P) (i : AType) : P.decode (.map i) (.dict []) = .ok (.dict []) := by
  obtain ⟨pf, n, h⟩ := h
  rw [h]; rfl

theorem dec_fixed (h : Decodes P) (n : Name) (k : Nat) : ∃ v, P.decode (.fixed n k) (.str (String.ofList (List.replicate k (Char.ofNat 0)))) = .ok v := by
  obtain ⟨pf, m, h⟩ := h
  rw [h]
  refine ⟨.str (String.ofList (List.replicate k (Char.ofNat 0))), ?_⟩
  simp only [dec, decStep]
  rw [if_pos (by simp)]

theorem dec_enum (h : Decodes P) (n : Name) (syms : List String) : ∃ v, P.decode (.array (.enum n syms)) (.arr (syms.map .str)) = .ok v := by
  obtain ⟨pf, m, h⟩ := h
  rw [h]
  have : ∀ l : List String, (∀ s ∈ l, s ∈ syms) → mapR (dec pf P.env (m + 1) (.enum n syms)) (l.map .str) = .ok (l.map .str) := by
    intro l
    induction l with
    | nil => intro _; rfl
    | cons s l ih =>
      intro hl
      have h1 : dec pf P.env (m + 1) (.enum n syms) (.str s) = .ok (.str s) := by
        simp only [dec, decStep]
        rw [if_pos (hl s (by simp))]
      simp only [List.map_cons, mapR, h1, ih (fun x hx => hl x (by simp [hx]))]
  refine ⟨.arr (syms.map .str), ?_⟩
  rw [dec, decStep]
  simp only [this syms (fun _ h => h), Res.app]

/-! ## Branches -/

theorem join_of {ts : List AType} {A : AType} (h : broadest P.env (ts.map .avro) = .ok (some (.avro A))) : join P Guard.all (ts.map (fun t => some (.avro t))) = .ok (some (.avro A)) := by
  have : ∀ cs : List AType, cs.all (fun t => Guard.all.acc A t) = true := fun cs => by simp [Guard.all]
  simp only [join, ctypes_avro, h, bind, Except.bind, this, req, if_true]

theorem ctypes_append : ∀ (ts : List Ty) (cs : List CType) (c : CType), ctypes ts = .ok cs → ctypes (ts ++ [some c]) = .ok (cs ++ [c])
  | [], cs, c, h => by cases h; rfl
  | none :: ts, cs, c, h => by cases h
  | some t :: ts, cs, c, h => by
    simp only [ctypes] at h
    cases h1 : ctypes ts with
    | error e => rw [h1] at h; cases h
    | ok ds =>
      rw [h1] at h
      cases h
      simp only [List.cons_append, ctypes, ctypes_append ts ds c h1]
      rfl

theorem join_exc {t : AType} {ts : List AType} {A : AType} (h : bt P.env t ts = .ok A) :
    join P Guard.all (((t :: ts).map (fun t => some (.avro t))) ++ [some .exc]) = .ok (some (.avro A)) := by
  have h1 := ctypes_append _ _ .exc (ctypes_avro (t :: ts))
  have h2 : broadest P.env ((t :: ts).map .avro ++ [.exc]) = .ok (some (.avro A)) := by
    have : ((t :: ts).map CType.avro ++ [CType.exc]).filter (fun x => !isExc x) = (t :: ts).map CType.avro := by
      rw [List.filter_append]
      rw [show ([CType.exc].filter fun x => !isExc x) = [] from rfl, List.append_nil, List.filter_eq_self]
      intro c hc
      obtain ⟨x, _, rfl⟩ := List.mem_map.1 hc
      rfl
    have h3 : (CType.avro t :: ts.map CType.avro).any isFcn = false := by
      rw [List.any_eq_false]
      intro c hc
      rw [← List.map_cons] at hc
      obtain ⟨x, _, rfl⟩ := List.mem_map.1 hc
      simp [isFcn]
    have h4 : avros (ts.map CType.avro) = ts := by
      clear h h1 h3 this
      induction ts with
      | nil => rfl
      | cons t ts ih => exact congrArg (t :: ·) ih
    rw [broadest, this]
    simp only [List.map_cons, h3, h4, h, Bool.false_eq_true, if_false]
  have h5 : ∀ cs : List AType, cs.all (fun t => Guard.all.acc A t) = true := fun cs => by simp [Guard.all]
  simp only [join, h1, h2, bind, Except.bind, h5, req, if_true]

theorem a_if (he : P.env.Ok) {p c d : Ex} {t A : AType} {Γ1 Γ2 Γ3 : SymTab} (hp : Steps P p (Γ.new true true) (some (.avro .boolean)) Γ1)
    (hc : Steps P c (Γ.new false false) (some (.avro t)) Γ2) (hd : Steps P d (Γ.new false false) (some (.avro t)) Γ3)
    (hb : broadest P.env [.avro t, .avro t] = .ok (some (.avro A))) : Steps P (.if_ p [c] [d]) Γ (some (.avro A)) Γ := by
  refine steps_of ?_
  filter_upwards [a_predicate he hp, body_one hc, body_one hd] with n ⟨pm, hpm⟩ ⟨cm, Γc, hcm⟩ ⟨dm, Γd, hdm⟩
  have := join_of (P := P) (ts := [t, t]) hb
  simp only [List.map_cons, List.map_nil] at this
  simp only [walkStep, hpm, hcm, hdm, bind, Except.bind, isExcTy, Bool.and_self, Bool.false_eq_true, if_false, this]
  exact ⟨_, rfl⟩

theorem walkIfs_of (he : P.env.Ok) {which : String} {f : AType → Res Ex} : ∀ {ts : List AType} {i : Nat} {bs : List Ex}, branches f which i ts = .ok bs → Library P → Γ.find which = some (some (.avro .int)) →
    (∀ t ∈ ts, ∀ e, f t = .ok e → ∃ Γ', Steps P e (Γ.new false false) (some (.avro t)) Γ') →
    ∀ᶠ n in Filter.atTop, ∃ ms, walkIfs P Guard.all (walk P Guard.all n) bs Γ = .ok (ts.map (fun t => some (.avro t)), ms) := by
  intro ts
  induction ts with
  | nil => intro i bs h _ _ _; cases h; exact Eventually.of_forall fun _ => ⟨_, rfl⟩
  | cons t ts ih =>
    intro i bs h hL hw hs
    simp only [branches] at h
    cases hx : f t with
    | error e => rw [hx] at h; cases h
    | ok x =>
      cases hr : branches f which (i + 1) ts with
      | error e => rw [hx, hr] at h; cases h
      | ok xs =>
        rw [hx, hr] at h
        cases h
        obtain ⟨Γ', h1⟩ := hs t (by simp) x hx
        have h2 : Steps P (.call "==" [.ref which, .litInt (.int i)]) (Γ.new true true) (some (.avro .boolean)) (Γ.new true true) :=
          call_eq hL (a_ref (by simpa [SymTab.new, SymTab.find, PyDict.get?] using hw)) (lit_int _)
        filter_upwards [a_predicate he h2, body_one h1, ih hr hL hw (fun t ht => hs t (by simp [ht]))] with n ⟨pm, hpm⟩ ⟨cm, Γc, hcm⟩ ⟨ms, hms⟩
        exact ⟨_, by simp only [walkIfs, hpm, hcm, hms, bind, Except.bind]; rfl⟩

/-! ## Records -/

theorem walkD_of {f : AType → Res Ex} : ∀ {fs : List Field} {xs : List (String × Ex)}, eachExpr f fs = .ok xs →
    (∀ fd ∈ fs, ∀ e, f fd.type = .ok e → ∃ u, Steps P e Γ (some (.avro u)) Γ ∧ accepts P.env P.env fd.type u = true) →
    ∃ ts : List (String × Ty), List.Forall₂ (fun fd t => t.1 = fd.name ∧ accTy P Guard.all fd.type t.2 = true) fs ts ∧
      ∀ᶠ n in Filter.atTop, ∃ ms, walkD (walk P Guard.all n) xs Γ = .ok (ts, ms, Γ) := by
  intro fs
  induction fs with
  | nil => intro xs h _; cases h; exact ⟨[], .nil, Eventually.of_forall fun _ => ⟨_, rfl⟩⟩
  | cons fd fs ih =>
    intro xs h hs
    simp only [eachExpr] at h
    cases hx : f fd.type with
    | error e => rw [hx] at h; cases h
    | ok x =>
      cases hr : eachExpr f fs with
      | error e => rw [hx, hr] at h; cases h
      | ok xs =>
        rw [hx, hr] at h
        cases h
        obtain ⟨u, h1, h2⟩ := hs fd (by simp) x hx
        obtain ⟨ts, h3, h4⟩ := ih hr (fun fd h => hs fd (by simp [h]))
        refine ⟨(fd.name, some (.avro u)) :: ts, .cons ⟨rfl, acc_ty h2⟩ h3, ?_⟩
        filter_upwards [h1, h4] with n ⟨m, hm⟩ ⟨ms, hms⟩
        exact ⟨_, by simp only [walkD, walkE_of hm, hms, bind, Except.bind]; rfl⟩

theorem find_field : ∀ {fs : List Field}, (fs.map Field.name).Nodup → ∀ fd ∈ fs, fs.find? (fun f => f.name = fd.name) = some fd
  | f :: fs, hn, fd, h => by
    simp only [List.map_cons, List.nodup_cons] at hn
    rcases List.mem_cons.1 h with rfl | h
    · simp
    · have : f.name ≠ fd.name := fun e => hn.1 (e ▸ List.mem_map_of_mem h)
      rw [List.find?_cons_of_neg (by simpa using this)]
      exact find_field hn.2 fd h

theorem a_record (he : P.env.Ok) {f : AType → Res Ex} {n : Name} {fs : List Field} (hn : P.env.fields? n = some fs) {xs : List (String × Ex)} (h : eachExpr f fs = .ok xs)
    (hs : ∀ fd ∈ fs, ∀ e, f fd.type = .ok e → ∃ u, Steps P e (Γ.new true true) (some (.avro u)) (Γ.new true true) ∧ accepts P.env P.env fd.type u = true) :
    Steps P (.newObject xs (.record n)) Γ (some (.avro (.record n))) Γ := by
  obtain ⟨ts, h1, h2⟩ := walkD_of h hs
  have h3 : (ts.all (fun kt => match fs.find? (fun f => f.name = kt.1) with
        | some f => accTy P Guard.all f.type kt.2
        | none => false)) = true := by
    rw [List.all_eq_true]
    intro kt hk
    obtain ⟨fd, hfd, e, ha⟩ : ∃ fd ∈ fs, kt.1 = fd.name ∧ accTy P Guard.all fd.type kt.2 = true := by
      clear h2 hs h hn
      induction h1 with
      | nil => cases hk
      | cons h1 _ ih =>
        rcases List.mem_cons.1 hk with rfl | hk
        · exact ⟨_, by simp, h1⟩
        · obtain ⟨fd, h2, h3⟩ := ih hk
          exact ⟨fd, by simp [h2], h3⟩
    rw [e, find_field (he.names n fs hn) fd hfd]
    exact ha
  have h4 : (fs.all (fun f => decide (f.name ∈ ts.map Prod.fst))) = true := by
    have : ts.map Prod.fst = fs.map Field.name := by
      clear h2 hs h hn h3
      induction h1 with
      | nil => rfl
      | cons h1 _ ih => simp [h1.1, ih]
    rw [List.all_eq_true, this]
    intro f hf
    simpa using ⟨f, hf, rfl⟩
  refine steps_of ?_
  filter_upwards [h2] with k ⟨ms, hms⟩
  simp only [walkStep, hms, hn, bind, Except.bind, req]
  split
  · next hq => exact absurd (hq.symm.trans (if_pos h3)) (by simp)
  · split
    · next hq => exact absurd (hq.symm.trans (if_pos h4)) (by simp)
    · exact ⟨_, rfl⟩

/-! ## Loops -/

theorem find_new (a b : Bool) (x : String) : (Γ.new a b).find x = Γ.find x := rfl

theorem a_loop (hL : Library P) (he : P.env.Ok) {v : Nat} {t : AType} {empty w : Val} {add : Ex} (hdec : P.decode t empty = .ok w) (hF : Fresh Γ v)
    (hadd : ∀ Δ : SymTab, Fresh Δ (v + 1) → Δ.find (numbered "out" v) = some (some (.avro t)) → ∃ u, Steps P add Δ (some (.avro u)) Δ ∧ accepts P.env P.env t u = true) :
    Steps P (loop v t empty add) Γ (some (.avro t)) Γ := by
  have hs : "size" ∈ ["size", "out", "i", "which"] := by simp
  have ho : "out" ∈ ["size", "out", "i", "which"] := by simp
  have hi : "i" ∈ ["size", "out", "i", "which"] := by simp
  have n1 : numbered "size" v ≠ numbered "out" v := fun e => absurd (numbered_inj hs ho e).1 (by decide)
  have n2 : numbered "size" v ≠ numbered "i" v := fun e => absurd (numbered_inj hs hi e).1 (by decide)
  have n3 : numbered "out" v ≠ numbered "i" v := fun e => absurd (numbered_inj ho hi e).1 (by decide)
  -- the scope with the variables
  obtain ⟨Γ2, e2⟩ : ∃ Γ2, Γ2 = putAll (Γ.new false false) [(numbered "size" v, some (.avro .int)), (numbered "out" v, some (.avro t))] := ⟨_, rfl⟩
  have e2' : Γ2 = ((Γ.new false false).put (numbered "size" v) (some (.avro .int))).put (numbered "out" v) (some (.avro t)) := e2
  have F2 : Fresh Γ2 (v + 1) := by
    rw [e2']
    exact Fresh.put (Fresh.put ((hF.mono (Nat.le_succ v)).new false false) hs _) ho _
  have fs : Γ2.find (numbered "size" v) = some (some (.avro .int)) := by
    rw [e2']
    refine (find_put (c := ⟨PyDict.set [] (numbered "size" v) (some (.avro .int)), false, false⟩)).trans ?_
    rw [if_neg (Ne.symm n1)]
    simp [SymTab.find]
  have fo : Γ2.find (numbered "out" v) = some (some (.avro t)) := by
    rw [e2']
    simp [SymTab.new, SymTab.put, SymTab.find]
  have fi : Γ2.find (numbered "i" v) = none := by
    rw [e2']
    refine (find_put (c := ⟨PyDict.set [] (numbered "size" v) (some (.avro .int)), false, false⟩)).trans ?_
    rw [if_neg n3]
    refine (find_put (c := ⟨[], false, false⟩)).trans ?_
    rw [if_neg n2]
    exact hF v (Nat.le_refl v) "i" hi
  have wo : Γ2.writable (numbered "out" v) = true := by
    rw [e2']
    simp [SymTab.new, SymTab.put, SymTab.writable]
  -- the scope of the loop
  obtain ⟨Γ3, e3⟩ : ∃ Γ3, Γ3 = (Γ2.new false false).put (numbered "i" v) (some (.avro .int)) := ⟨_, rfl⟩
  have g3 : ∀ x, Γ3.find x = if numbered "i" v = x then some (some (.avro .int)) else Γ2.find x := by
    intro x
    rw [e3]
    exact find_put (c := ⟨[], false, false⟩)
  have F3 : Fresh Γ3 (v + 1) := by
    rw [e3]
    exact Fresh.put (F2.new false false) hi _
  have fs3 : Γ3.find (numbered "size" v) = some (some (.avro .int)) := by rw [g3, if_neg (Ne.symm n2), fs]
  have fo3 : Γ3.find (numbered "out" v) = some (some (.avro t)) := by rw [g3, if_neg (Ne.symm n3), fo]
  have fi3 : Γ3.find (numbered "i" v) = some (some (.avro .int)) := by rw [g3, if_pos rfl]
  have wo3 : (Γ3.new false false).writable (numbered "out" v) = true := by
    rw [e3]
    have : PyDict.get? (PyDict.set ([] : PyDict String Ty) (numbered "i" v) (some (.avro .int))) (numbered "out" v) = none := by
      rw [PyDict.get?_set, if_neg (Ne.symm n3)]; rfl
    simp only [SymTab.new, SymTab.put, SymTab.writable, this, Bool.false_eq_true, if_false]
    simpa [PyDict.get?] using wo
  have hbody : Body P [.setVar [(numbered "out" v, add)]] (Γ3.new false false) (some (.avro .null)) := by
    obtain ⟨u, hu, ha⟩ := hadd ((Γ3.new false false).new true true) ((F3.new false false).new true true) (by rw [find_new, find_new]; exact fo3)
    exact body_one (a_set (t := t) (by rw [find_new]; exact fo3) wo3 hu ha)
  have hfor : Steps P (.for_ [(numbered "i" v, .litInt (.int 0))] (.call "<" [.ref (numbered "i" v), .ref (numbered "size" v)])
      [(numbered "i" v, .call "+" [.ref (numbered "i" v), .litInt (.int 1)])] [.setVar [(numbered "out" v, add)]]) Γ2 (some (.avro .null)) Γ2 := by
    refine a_for he (by rw [find_new]; exact fi) (numbered_valid hi) (lit_int _) (call_lt hL (a_ref ?_) (a_ref ?_)) (call_plus hL (a_ref ?_) (lit_int _))
      (accepts_refl he .int rfl) (by rw [← e3]; exact hbody)
    · rw [← e3, find_new, find_new]; exact fi3
    · rw [← e3, find_new, find_new]; exact fs3
    · rw [← e3, find_new, find_new]; exact fi3
  have hlet : Steps P (.let_ [(numbered "size" v, .call "rand.int" [.litInt (.int 0), .litInt (.int 10)]), (numbered "out" v, .literal t empty)]) (Γ.new false false) (some (.avro .null)) Γ2 := by
    rw [e2]
    exact a_let (us := [(numbered "size" v, .int), (numbered "out" v, t)]) rfl
      (.cons ⟨rfl, hF v (Nat.le_refl v) _ hs, numbered_valid hs, _, call_int hL _ _⟩ (.cons ⟨rfl, hF v (Nat.le_refl v) _ ho, numbered_valid ho, _, a_literal hdec⟩ .nil))
  exact a_do (body_cons hlet (body_cons hfor (body_one (a_ref fo))))

/-! ## All programs -/

variable {D : Name → Option AType}

/-- The program for a type passes with a type that it accepts: the type itself unless it is a union. -/
theorem makePFA_passes (hL : Library P) (hD : Decodes P) (he : P.env.Ok)
    (hE : ∀ n fs, P.env.fields? n = some fs → ∀ f ∈ fs, Good P.env D f.type ∧ Mild f.type) :
    ∀ (m : Nat) (t : AType) (v : Nat) (e : Ex) (Γ : SymTab), makePFA P.env m t v = .ok e → Good P.env D t → Mild t → Fresh Γ v →
      ∃ u, Steps P e Γ (some (.avro u)) Γ ∧ accepts P.env P.env t u = true ∧ Good P.env D u ∧ (t.flat = true → u = t) := by
  intro m
  induction m with
  | zero => intro t v e Γ h; cases h
  | succ m ih =>
    intro t v e Γ h hg hm hF
    have same : Steps P e Γ (some (.avro t)) Γ → ∃ u, Steps P e Γ (some (.avro u)) Γ ∧ accepts P.env P.env t u = true ∧ Good P.env D u ∧ (t.flat = true → u = t) :=
      fun h => ⟨t, h, accepts_refl he t hg.known, hg, fun _ => rfl⟩
    cases t with
    | null => cases h; exact same lit_null
    | boolean =>
      cases h
      exact same (a_if he (t := .boolean) (call_eq hL (call_int hL _ _) (lit_int _)) (lit_bool _) (lit_bool _) rfl)
    | int => cases h; exact same (a_call (us := []) (hL.get 0 rfl) .nil ⟨_, _, rfl⟩)
    | long => cases h; exact same (a_call (us := []) (hL.get 1 rfl) .nil ⟨_, _, rfl⟩)
    | float => cases h; exact same (a_call (us := [.float, .float]) (hL.get 2 rfl) (.cons (lit_float _) (.cons (lit_float _) .nil)) ⟨_, _, rfl⟩)
    | double => cases h; exact same (a_call (us := [.double, .double]) (hL.get 3 rfl) (.cons (lit_double _) (.cons (lit_double _) .nil)) ⟨_, _, rfl⟩)
    | bytes => cases h; exact same (call_bytes hL _)
    | string => cases h; exact same (call_string hL _)
    | fixed n k =>
      cases h
      obtain ⟨w, hw⟩ := dec_fixed hD n k
      exact same (call_fixed hL (a_literal hw) (call_bytes hL _))
    | enum n syms =>
      cases h
      obtain ⟨w, hw⟩ := dec_enum hD n syms
      exact same (call_choice hL (a_literal hw))
    | array i =>
      simp only [makePFA] at h
      cases hx : makePFA P.env m i (v + 1) with
      | error e => rw [hx] at h; cases h
      | ok x =>
        rw [hx] at h
        cases h
        refine same (a_loop hL he (dec_array hD i) hF fun Δ hΔ ho => ?_)
        obtain ⟨u, h1, h2, h3, h4⟩ := ih i (v + 1) x (Δ.new true true) hx hg.array hm (hΔ.new true true)
        obtain ⟨A, hA, ha, _⟩ := pair_common he hg.array hm h3 h2 h4
        exact ⟨_, call_append hL (a_ref (by rw [find_new]; exact ho)) h1 hA, by simpa [accepts, acc, overUnion] using ha⟩
    | map i =>
      simp only [makePFA] at h
      cases hx : makePFA P.env m i (v + 1) with
      | error e => rw [hx] at h; cases h
      | ok x =>
        rw [hx] at h
        cases h
        refine same (a_loop hL he (dec_map hD i) hF fun Δ hΔ ho => ?_)
        obtain ⟨u, h1, h2, h3, h4⟩ := ih i (v + 1) x (Δ.new true true) hx hg.map hm (hΔ.new true true)
        obtain ⟨A, hA, ha, _⟩ := pair_common he hg.map hm h3 h2 h4
        exact ⟨_, call_add hL (a_ref (by rw [find_new]; exact ho)) (call_string hL _) h1 hA, by simpa [accepts, acc, overUnion] using ha⟩
    | record n =>
      simp only [makePFA] at h
      cases hn : P.env.fields? n with
      | none => rw [hn] at h; cases h
      | some fs =>
        rw [hn] at h
        simp only at h
        cases hx : eachExpr (fun t => makePFA P.env m t v) fs with
        | error e => rw [hx] at h; cases h
        | ok xs =>
          rw [hx] at h
          cases h
          refine same (a_record he hn hx fun fd hfd e he' => ?_)
          obtain ⟨u, h1, h2, _, _⟩ := ih fd.type v e (Γ.new true true) he' (hE n fs hn fd hfd).1 (hE n fs hn fd hfd).2 (hF.new true true)
          exact ⟨u, h1, h2⟩
    | union ts =>
      simp only [makePFA] at h
      cases hx : branches (fun t => makePFA P.env m t (v + 1)) (numbered "which" v) 0 ts with
      | error e => rw [hx] at h; cases h
      | ok bs =>
        rw [hx] at h
        cases h
        have hw : "which" ∈ ["size", "out", "i", "which"] := by simp
        cases ts with
        | nil => exact absurd rfl hm.1
        | cons t ts =>
          obtain ⟨A, hA⟩ := bt_members he hg hm
          obtain ⟨hA1, hA2, hA3⟩ := bt_ok he (D := D) _ t ts A (Nat.le_refl _) (fun x hx => (hg.union.2 x hx).2) hA
          obtain ⟨Γ2, e2⟩ : ∃ Γ2, Γ2 = (Γ.new false false).put (numbered "which" v) (some (.avro .int)) := ⟨_, rfl⟩
          have F2 : Fresh Γ2 (v + 1) := by
            rw [e2]
            exact Fresh.put ((hF.mono (Nat.le_succ v)).new false false) hw _
          have fw : Γ2.find (numbered "which" v) = some (some (.avro .int)) := by
            rw [e2]
            simp [SymTab.new, SymTab.put, SymTab.find]
          have hms : ∀ x ∈ t :: ts, Mild x := (mildL_iff _).1 hm.2.2.2.2.2
          have hifs := walkIfs_of (Γ := Γ2) he hx hL fw (fun x hx e he' => by
            obtain ⟨u, h1, _, _, h4⟩ := ih x (v + 1) e (Γ2.new false false) he' (hg.union.2 x hx).2 (hms x hx) (F2.new false false)
            rw [h4 (hg.union.2 x hx).1] at h1
            exact ⟨_, h1⟩)
          have hcond : Steps P (.cond bs [.error "never gets here" none]) Γ2 (some (.avro A)) Γ2 := by
            refine steps_of ?_
            filter_upwards [hifs, body_one (an_error (P := P) (Γ := Γ2.new false false) "never gets here")] with n ⟨ms, h1⟩ ⟨dm, Γd, h2⟩
            have h3 : ((t :: ts).map (fun t => (some (.avro t) : Ty)) ++ [some CType.exc]).all isExcTy = false := by
              simp [isExcTy]
            simp only [walkStep, h1, h2, bind, Except.bind, h3, join_exc hA, Bool.false_eq_true, if_false]
            exact ⟨_, rfl⟩
          have hlet : Steps P (.let_ [(numbered "which" v, .call "rand.int" [.litInt (.int 0), .litInt (.int (t :: ts).length)])]) (Γ.new false false) (some (.avro .null)) Γ2 := by
            rw [e2]
            exact a_let (us := [(numbered "which" v, .int)]) rfl (.cons ⟨rfl, hF v (Nat.le_refl v) _ hw, numbered_valid hw, _, call_int hL _ _⟩ .nil)
          refine ⟨A, a_do (body_cons hlet (body_one hcond)), hA3 _ hg.wf (fun x hx => ?_), hA2, fun hf => by cases hf⟩
          rw [accepts, acc_union_flat _ _ _ (hg.union.2 x hx).1]
          exact ⟨x, hx, accepts_refl he x (hg.union.2 x hx).2.known⟩

/-! ## Documents -/

theorem call_lt_double (h : Library P) {x y : Ex} (hx : Steps P x (Γ.new true true) (some (.avro .double)) (Γ.new true true))
    (hy : Steps P y (Γ.new true true) (some (.avro .double)) (Γ.new true true)) : Steps P (.call "<" [x, y]) Γ (some (.avro .boolean)) Γ :=
  a_call (us := [.double, .double]) (h.get 12 rfl) (.cons hx (.cons hy .nil)) ⟨_, _, rfl⟩

theorem a_when (he : P.env.Ok) {p c : Ex} {t : Ty} {Γ1 Γ2 : SymTab} (hp : Steps P p (Γ.new true true) (some (.avro .boolean)) Γ1)
    (hc : Steps P c (Γ.new false false) t Γ2) : Steps P (.if_ p [c] []) Γ (some (.avro .null)) Γ := by
  refine steps_of ?_
  filter_upwards [a_predicate he hp, body_one hc] with n ⟨pm, hpm⟩ ⟨cm, Γc, hcm⟩
  simp only [walkStep, hpm, hcm, bind, Except.bind]
  exact ⟨_, rfl⟩

/-- Names that are given are not names of the program. -/
theorem fresh_top (input : AType) (version : Option Int) (cfg : Config) (hc : cfg.version = version) (v : Nat) :
    Fresh (sect topTab (("input", some (.avro input)) :: (stdSyms cfg ++ countSyms))) v := by
  intro k _ s hs
  have key : ∀ x : String, (∀ c ∈ x.toList, c.isDigit = false) → x ≠ numbered s k := by
    intro x hx e
    have hd : ∀ c ∈ (toString k).toList, c.isDigit = true := by
      intro c hc
      have : (toString k).toList = Nat.toDigits 10 k := by
        show (Nat.repr k).toList = _
        simp [Nat.repr]
      rw [this] at hc
      exact Nat.isDigit_of_mem_toDigits (by decide) (by decide) hc
    have hne : (toString k).toList ≠ [] := by
      have : (toString k).toList = Nat.toDigits 10 k := by
        show (Nat.repr k).toList = _
        simp [Nat.repr]
      rw [this]
      exact List.ne_nil_of_length_pos Nat.length_toDigits_pos
    obtain ⟨c, hc⟩ := List.exists_mem_of_ne_nil _ hne
    have h1 := hx c (by rw [e, numbered, String.toList_append]; exact List.mem_append_right _ hc)
    rw [hd c hc] at h1
    cases h1
  have k1 := key "input" (by decide +kernel)
  have k2 := key "name" (by decide +kernel)
  have k3 := key "instance" (by decide +kernel)
  have k4 := key "version" (by decide +kernel)
  have k5 := key "metadata" (by decide +kernel)
  have k6 := key "actionsStarted" (by decide +kernel)
  have k7 := key "actionsFinished" (by decide +kernel)
  generalize numbered s k = y at *
  have hp : ∀ (l : List (String × Ty)) (c : Scope1) (up : SymTab), (∀ x ∈ l, x.1 ≠ y) → (putAll (c :: up) l).find y = SymTab.find (c :: up) y := by
    intro l
    induction l with
    | nil => intro c up _; rfl
    | cons x l ih =>
      intro c up hl
      have h1 := ih { c with symbols := c.symbols.set x.1 x.2 } up (fun z hz => hl z (by simp [hz]))
      refine Eq.trans h1 ?_
      refine (find_put (c := c) (up := up) (x := x.1) (t := x.2)).trans ?_
      rw [if_neg (hl x (by simp))]
  rw [sect, find_new]
  refine (hp _ ⟨[], true, false⟩ topTab ?_).trans rfl
  intro x hx
  simp only [stdSyms, countSyms, List.mem_cons, List.mem_append, List.not_mem_nil, or_false] at hx
  rcases hx with rfl | (rfl | rfl | hx | rfl) | rfl | rfl
  · exact k1
  · exact k2
  · exact k3
  · cases hv : cfg.version with
    | none => rw [hv] at hx; cases hx
    | some w =>
      rw [hv] at hx
      simp only [List.mem_singleton] at hx
      rw [hx]
      exact k4
  · exact k5
  · exact k6
  · exact k7

/-- C108.  The documents that are written pass the check, at every depth from some on. -/
theorem random_passes_partial (hL : Library P) (hD : Decodes P) (he : P.env.Ok)
    (hE : ∀ n fs, P.env.fields? n = some fs → ∀ f ∈ fs, Good P.env D f.type ∧ Mild f.type) {m : Nat} {input output : AType} (hg : Good P.env D output) (hm : Mild output)
    {version : Option Int} {exception : Option (Flt × String)} {cfg : Config} (h : randomDoc P.env m input output version exception = .ok cfg) :
    ∃ N, ∀ n, N ≤ n → ∃ c, compile P Guard.all (walk P Guard.all n) cfg = .ok c := by
  unfold randomDoc at h
  cases hx : makePFA P.env m output 0 with
  | error e => rw [hx] at h; cases h
  | ok e =>
    rw [hx] at h
    cases h
    have hF := fresh_top input version { method := .map, input, output, version, begin_ := [], end_ := [], merge := none, action := [] } rfl 0
    obtain ⟨u, h1, h2, -, -⟩ := makePFA_passes hL hD he hE m output 0 e _ hx hg hm hF
    have hb : Body P ((match exception with
        | none => []
        | some (p, s) => [.if_ (.call "<" [.call "rand.double" [.litDouble (.flt (.fin 0)), .litDouble (.flt (.fin 1))], .litDouble (.flt p)]) [.error s none] []]) ++ [e])
        (sect topTab (("input", some (.avro input)) :: (stdSyms { method := .map, input, output, version, begin_ := [], end_ := [], merge := none, action := [] } ++ countSyms)))
        (some (.avro u)) := by
      cases exception with
      | none => exact body_one h1
      | some ps =>
        refine body_cons (a_when he (call_lt_double hL ?_ (lit_double _)) (an_error _)) (body_one h1)
        exact a_call (us := [.double, .double]) (hL.get 3 rfl) (.cons (lit_double _) (.cons (lit_double _) .nil)) ⟨_, _, rfl⟩
    obtain ⟨N, hN⟩ := eventually_atTop.1 hb
    refine ⟨N, fun n hn => ?_⟩
    obtain ⟨cm, Γ', hcm⟩ := hN n hn
    have ha := acc_ty h2
    simp only [compile, tallyTab, walkL, bind, Except.bind]
    split
    · next hq => exact absurd (hq.symm.trans hcm) (by simp)
    · next v hq =>
      have e1 := Except.ok.inj (hq.symm.trans hcm)
      subst e1
      simp only [req, ha, if_true]
      exact ⟨_, rfl⟩

/-! ## Which types have programs -/

/-- Types that do not contain themselves. -/
inductive Ends (env : Env) : AType → Prop
  | plain {t : AType} : (match t with | .array _ | .map _ | .union _ | .record _ => False | _ => True) → Ends env t
  | array {i : AType} : Ends env i → Ends env (.array i)
  | map {i : AType} : Ends env i → Ends env (.map i)
  | union {ts : List AType} : (∀ t ∈ ts, Ends env t) → Ends env (.union ts)
  | record {n : Name} {fs : List Field} : env.fields? n = some fs → (∀ f ∈ fs, Ends env f.type) → Ends env (.record n)

theorem eachExpr_ok {f : AType → Res Ex} : ∀ {fs : List Field}, (∃ xs, eachExpr f fs = .ok xs) ↔ ∀ fd ∈ fs, ∃ x, f fd.type = .ok x
  | [] => by simp [eachExpr]
  | fd :: fs => by
    have ih := eachExpr_ok (f := f) (fs := fs)
    simp only [eachExpr, List.forall_mem_cons, ← ih]
    cases f fd.type with
    | error e => simp
    | ok x =>
      cases eachExpr f fs with
      | error e => simp
      | ok xs => simp

theorem branches_ok {f : AType → Res Ex} {w : String} : ∀ {ts : List AType} {i : Nat}, (∃ xs, branches f w i ts = .ok xs) ↔ ∀ t ∈ ts, ∃ x, f t = .ok x
  | [], i => by simp [branches]
  | t :: ts, i => by
    have ih := branches_ok (f := f) (w := w) (ts := ts) (i := i + 1)
    simp only [branches, List.forall_mem_cons, ← ih]
    cases f t with
    | error e => simp
    | ok x =>
      cases branches f w (i + 1) ts with
      | error e => simp
      | ok xs => simp

theorem common {α : Type} {p : α → Nat → Prop} : ∀ {l : List α}, (∀ a ∈ l, ∃ N, ∀ m, N ≤ m → p a m) → ∃ N, ∀ m, N ≤ m → ∀ a ∈ l, p a m
  | [], _ => ⟨0, by simp⟩
  | a :: l, h => by
    obtain ⟨N1, h1⟩ := h a (by simp)
    obtain ⟨N2, h2⟩ := common (l := l) (fun a ha => h a (by simp [ha]))
    refine ⟨max N1 N2, fun m hm b hb => ?_⟩
    rcases List.mem_cons.1 hb with rfl | hb
    · exact h1 m (by omega)
    · exact h2 m (by omega) b hb

/-- A program is made for exactly the types that do not contain themselves: for them from some depth on. -/
theorem makePFA_made {env : Env} {t : AType} (h : Ends env t) : ∃ N, ∀ m, N ≤ m → ∀ v, ∃ e, makePFA env m t v = .ok e := by
  have up : ∀ {p : Nat → Prop}, (∃ N, ∀ m, N ≤ m → p (m + 1)) → ∃ N, ∀ m, N ≤ m → p m := by
    rintro p ⟨N, h⟩
    refine ⟨N + 1, fun m hm => ?_⟩
    obtain ⟨k, rfl⟩ : ∃ k, m = k + 1 := ⟨m - 1, by omega⟩
    exact h k (by omega)
  induction h with
  | @plain t h =>
    refine up ⟨0, fun m _ v => ?_⟩
    cases t <;> first | exact ⟨_, rfl⟩ | exact h.elim
  | array _ ih =>
    obtain ⟨N, ih⟩ := ih
    refine up ⟨N, fun m hm v => ?_⟩
    obtain ⟨x, hx⟩ := ih m hm (v + 1)
    exact ⟨_, by simp only [makePFA, hx]; rfl⟩
  | map _ ih =>
    obtain ⟨N, ih⟩ := ih
    refine up ⟨N, fun m hm v => ?_⟩
    obtain ⟨x, hx⟩ := ih m hm (v + 1)
    exact ⟨_, by simp only [makePFA, hx]; rfl⟩
  | union _ ih =>
    obtain ⟨N, ih⟩ := common ih
    refine up ⟨N, fun m hm v => ?_⟩
    obtain ⟨xs, hx⟩ := branches_ok (w := numbered "which" v) (i := 0).2 (fun t ht => ih m hm t ht (v + 1))
    exact ⟨_, by simp only [makePFA, hx]; rfl⟩
  | record hn _ ih =>
    obtain ⟨N, ih⟩ := common (p := fun (f : Field) m => ∀ v, ∃ e, makePFA env m f.type v = .ok e) ih
    refine up ⟨N, fun m hm v => ?_⟩
    obtain ⟨xs, hx⟩ := eachExpr_ok (f := fun t => makePFA env m t v).2 (fun f hf => ih m hm f hf v)
    exact ⟨_, by simp only [makePFA, hn, hx]; rfl⟩

@[inherit_doc makePFA_made] theorem makePFA_only {env : Env} : ∀ {m : Nat} {t : AType} {v : Nat} {e : Ex}, makePFA env m t v = .ok e → Ends env t
  | m + 1, t, v, e, h => by
    cases t with
    | array i =>
      simp only [makePFA] at h
      cases hx : makePFA env m i (v + 1) with
      | error e => rw [hx] at h; cases h
      | ok x => exact .array (makePFA_only hx)
    | map i =>
      simp only [makePFA] at h
      cases hx : makePFA env m i (v + 1) with
      | error e => rw [hx] at h; cases h
      | ok x => exact .map (makePFA_only hx)
    | union ts =>
      simp only [makePFA] at h
      cases hx : branches (fun t => makePFA env m t (v + 1)) (numbered "which" v) 0 ts with
      | error e => rw [hx] at h; cases h
      | ok bs =>
        refine .union fun t ht => ?_
        obtain ⟨x, hx⟩ := branches_ok.1 ⟨bs, hx⟩ t ht
        exact makePFA_only hx
    | record n =>
      simp only [makePFA] at h
      cases hn : env.fields? n with
      | none => rw [hn] at h; cases h
      | some fs =>
        rw [hn] at h
        simp only at h
        cases hx : eachExpr (fun t => makePFA env m t v) fs with
        | error e => rw [hx] at h; cases h
        | ok xs =>
          refine .record hn fun f hf => ?_
          obtain ⟨x, hx⟩ := eachExpr_ok.1 ⟨xs, hx⟩ f hf
          exact makePFA_only hx
    | _ => exact .plain trivial

/-! ## Cases -/

/-- Names of the examples. -/
def exName (s : String) : Name := ⟨"", s⟩

/-- Two records, and one that contains itself. -/
def exEnv : Env := [(exName "Point", [{ name := "x", type := .double }, { name := "tags", type := .array (.union [.null, .string, .enum (exName "Kind") ["a", "b"]]) }]),
  (exName "Other", [{ name := "y", type := .map (.fixed (exName "Id") 4) }]), (exName "Tree", [{ name := "next", type := .union [.null, .record (exName "Tree")] }])]

/-- The declared names. -/
def exDecl : Name → Option AType := fun n =>
  if n = exName "Kind" then some (.enum (exName "Kind") ["a", "b"]) else if n = exName "Id" then some (.fixed (exName "Id") 4)
  else if n = exName "Kind2" then some (.enum (exName "Kind2") ["c"]) else none

/-- A program with the library and no other functions. -/
def exProg : Prog where
  env := exEnv
  cells := []
  pools := []
  funs := randomLib.map (fun f => (f.1, .lib f.2))
  version := ⟨0, 8, 1⟩
  decode := dec (fun _ => none) exEnv 100
  msg := fun _ => ""
  floats := ⟨fun _ => .ok [], fun _ => .ok []⟩

/-- A union with a record and much else. -/
def exType : AType := .map (.union [.null, .record (exName "Point"), .array (.record (exName "Other")), .string])

theorem ex_fields {n : Name} {fs : List Field} (h : exEnv.fields? n = some fs) : (n, fs) ∈ exEnv := by
  simp only [exEnv, Env.fields?, PyDict.get?] at h ⊢
  split_ifs at h with h1 h2 h3
  · cases h; subst h1; simp
  · cases h; subst h2; simp
  · cases h; subst h3; simp

theorem ex_library : Library exProg := by
  intro f hf
  simp only [randomLib, List.mem_cons, List.not_mem_nil, or_false] at hf
  rcases hf with rfl | rfl | rfl | rfl | rfl | rfl | rfl | rfl | rfl | rfl | rfl | rfl | rfl <;> rfl

theorem ex_env : exEnv.Ok := by
  constructor
  · intro n fs h f hf
    have := ex_fields h
    simp only [exEnv, List.mem_cons, List.not_mem_nil, or_false, Prod.mk.injEq] at this
    rcases this with ⟨_, rfl⟩ | ⟨_, rfl⟩ | ⟨_, rfl⟩ <;> (simp only [List.mem_cons, List.not_mem_nil, or_false] at hf)
    · rcases hf with rfl | rfl <;> decide +kernel
    · subst hf; decide +kernel
    · subst hf; decide +kernel
  · intro n fs h
    have := ex_fields h
    simp only [exEnv, List.mem_cons, List.not_mem_nil, or_false, Prod.mk.injEq] at this
    rcases this with ⟨_, rfl⟩ | ⟨_, rfl⟩ | ⟨_, rfl⟩ <;> decide +kernel

theorem ex_types : ∀ n fs, exEnv.fields? n = some fs → ∀ f ∈ fs, Good exEnv exDecl f.type ∧ Mild f.type := by
  intro n fs h f hf
  have := ex_fields h
  simp only [exEnv, List.mem_cons, List.not_mem_nil, or_false, Prod.mk.injEq] at this
  rcases this with ⟨_, rfl⟩ | ⟨_, rfl⟩ | ⟨_, rfl⟩ <;> (simp only [List.mem_cons, List.not_mem_nil, or_false] at hf)
  · rcases hf with rfl | rfl
    · exact ⟨⟨by decide +kernel, by decide +kernel, trivial⟩, trivial⟩
    · exact ⟨⟨by decide +kernel, by decide +kernel, by simp [Declared, DeclaredL, exDecl]⟩, by simp [Mild, MildL, isFixed, isEnum, isRecord, AType.name, exName]⟩
  · subst hf
    exact ⟨⟨by decide +kernel, by decide +kernel, by simp [Declared, exDecl, exName]⟩, trivial⟩
  · subst hf
    exact ⟨⟨by decide +kernel, by decide +kernel, by simp [Declared, DeclaredL]⟩, by simp [Mild, MildL, isFixed, isEnum, isRecord, AType.name, exName]⟩

theorem ex_type : Good exEnv exDecl exType ∧ Mild exType :=
  ⟨⟨by decide +kernel, by decide +kernel, by simp [exType, Declared, DeclaredL]⟩, by simp [exType, Mild, MildL, isFixed, isEnum, isRecord, AType.name, exName]⟩

theorem ex_ends : Ends exEnv exType := by
  refine .map (.union fun t ht => ?_)
  simp only [List.mem_cons, List.not_mem_nil, or_false] at ht
  rcases ht with rfl | rfl | rfl | rfl
  · exact .plain trivial
  · refine .record rfl fun f hf => ?_
    simp only [List.mem_cons, List.not_mem_nil, or_false] at hf
    rcases hf with rfl | rfl
    · exact .plain trivial
    · refine .array (.union fun t ht => ?_)
      simp only [List.mem_cons, List.not_mem_nil, or_false] at ht
      rcases ht with rfl | rfl | rfl <;> exact .plain trivial
  · refine .array (.record rfl fun f hf => ?_)
    simp only [List.mem_cons, List.not_mem_nil, or_false] at hf
    subst hf
    exact .map (.plain trivial)
  · exact .plain trivial

/-- The conditions of `random_passes_partial` are met. -/
example : ∃ m cfg, randomDoc exEnv m .null exType (some 3) (some (.fin (1/10), "thrown with probability 0.1")) = .ok cfg ∧
    ∃ N, ∀ n, N ≤ n → ∃ c, compile exProg Guard.all (walk exProg Guard.all n) cfg = .ok c := by
  obtain ⟨m, hm⟩ := makePFA_made ex_ends
  obtain ⟨e, he⟩ := hm m (Nat.le_refl m) 0
  have : ∃ cfg, randomDoc exEnv m .null exType (some 3) (some (.fin (1/10), "thrown with probability 0.1")) = .ok cfg := by
    unfold randomDoc
    rw [he]
    exact ⟨_, rfl⟩
  obtain ⟨cfg, hc⟩ := this
  exact ⟨m, cfg, hc, random_passes_partial (P := exProg) (D := exDecl) ex_library ⟨_, 98, rfl⟩ ex_env ex_types ex_type.1 ex_type.2 hc⟩

/-- There is no program for a type that contains itself: `makePFA` does not end. -/
theorem makePFA_recursive_violation (m v : Nat) : makePFA exEnv m (.record (exName "Tree")) v = .error recErr := by
  have : ∀ m v, makePFA exEnv m (.record (exName "Tree")) v = .error recErr ∧ makePFA exEnv m (.union [.null, .record (exName "Tree")]) v = .error recErr := by
    intro m
    induction m with
    | zero => intro v; exact ⟨rfl, rfl⟩
    | succ m ih =>
      intro v
      have hf : exEnv.fields? (exName "Tree") = some [{ name := "next", type := .union [.null, .record (exName "Tree")] }] := by rfl
      constructor
      · simp only [makePFA, hf, eachExpr, (ih v).2]
      · simp only [makePFA, branches, (ih (v + 1)).1]
        cases m with
        | zero => rfl
        | succ m => rfl
  exact (this m v).1

/-- Is the document refused? -/
def refused (t : AType) : Bool :=
  match randomDoc exEnv 10 .null t none none with
  | .error _ => false
  | .ok cfg => match compile exProg Guard.all (walk exProg Guard.all 30) cfg with
    | .error e => decide (e = sem)
    | .ok _ => false

/-- A union of two records, or of two enumerations and null, is written as a program that does not pass. -/
theorem random_union_violation : refused (.union [.record (exName "Point"), .record (exName "Other")]) = true ∧
    refused (.union [.null, .enum (exName "Kind") ["a", "b"], .enum (exName "Kind2") ["c"]]) = true ∧ refused exType = false := by
  decide +kernel

end Verif.Scripts
