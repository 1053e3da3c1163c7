import Verif.Avro.Compare
import Verif.Avro.JsonWit
/-!
# Order of data (C10) and the comparison operators (C28)
-/

namespace Verif.Avro

/-! ## Leaves -/

theorem strCmp_order : TotalOrder (fun _ : String => True) strCmp := by
  have h : TotalOrder (fun _ : Char => True) (fun x y : Char => .ok (sgn x.toNat y.toNat)) :=
    TotalOrder.ofKey (fun c : Char => c.toNat) (fun _ _ _ _ => rfl)
  have h' := h.lex
  exact ⟨fun x y _ _ => h'.total x.toList y.toList (by simp) (by simp),
    fun x y z a b _ _ _ => h'.trans x.toList y.toList z.toList a b (by simp) (by simp) (by simp)⟩

/-- Position of a float in the order: NaN is the greatest. -/
def fltKey : Flt → ℕ ×ₗ ℚ
  | .ninf => toLex (0, 0)
  | .fin q => toLex (1, q)
  | .pinf => toLex (2, 0)
  | .nan => toLex (3, 0)

theorem fltSgn_key {a b : Flt} (ha : a ≠ .nan) (hb : b ≠ .nan) : fltSgn a b = sgn (fltKey a) (fltKey b) := by
  cases a <;> cases b <;>
    simp [fltSgn, fltLt, sgn, fltKey, Prod.Lex.toLex_lt_toLex] at ha hb ⊢
  rename_i p q
  rcases lt_trichotomy p q with h | h | h
  · simp [h, not_lt.2 h.le]
  · simp [h]
  · simp [h, not_lt.2 h.le]

/-! ## Data that have an order -/

/-- One level of the data below. -/
def fitStep (env : Env) (f : AType → Val → Prop) (t : AType) (v : Val) : Prop :=
  match t with
  | .null => v = .null
  | .boolean => ∃ b, v = .bool b
  | .int => ∃ i, v = .int i
  | .long => ∃ i, v = .int i
  | .float => ∃ q, numVal v = some q ∧ q ≠ .nan
  | .double => ∃ q, numVal v = some q ∧ ∃ b, isNan v = .ok b
  | .bytes => ∃ s, v = .str s
  | .fixed _ _ => ∃ s, v = .str s
  | .string => ∃ s, v = .str s
  | .enum _ syms => ∃ s ∈ syms, v = .str s
  | .array t => ∃ xs, v = .arr xs ∧ ∀ x ∈ xs, f t x
  | .map _ => False
  | .record n => ∃ d fs, v = .dict d ∧ env.fields? n = some fs ∧ ∀ fd ∈ fs, ∃ x, PyDict.get? d fd.name = some x ∧ f fd.type x
  | .union ts => (v = .null ∧ .null ∈ ts ∧ f .null .null) ∨ ∃ t ∈ ts, t ≠ .null ∧ ∃ x, v = .dict [(t.name, x)] ∧ f t x

/-- Data of map-free types of nesting depth at most `n`; ints are allowed for float and double, but
not NaN for float. -/
def Fit (env : Env) : Nat → AType → Val → Prop
  | 0 => fun _ _ => False
  | n + 1 => fitStep env (Fit env n)

/-- Types without maps whose unions have distinct names and no union inside. -/
structure Ordered (env : Env) (U : AType → Prop) : Prop extends Tags env U where
  noMap : ∀ t, ¬ U (.map t)
  flat : ∀ ts us, U (.union ts) → ¬ .union us ∈ ts

theorem findTag_spec {tag : String} {t : AType} {ts : List AType} (h : t ∈ ts) (hn : t.name = tag)
    (hd : ∀ t' ∈ ts, t'.name = tag → t' = t) (i : Nat) : ∃ j, findTag tag i ts = some (i + j, t) ∧ ts[j]? = some t := by
  induction ts generalizing i with
  | nil => cases h
  | cons u us ih =>
    by_cases hu : u.name = tag
    · have := hd u (by simp) hu
      subst this
      exact ⟨0, by simp [findTag, hu], rfl⟩
    · have hm : t ∈ us := by
        rcases List.mem_cons.1 h with rfl | h
        · exact absurd hn hu
        · exact h
      obtain ⟨j, h1, h2⟩ := ih hm (fun t' ht' => hd t' (by simp [ht'])) (i + 1)
      refine ⟨j + 1, ?_, by simpa using h2⟩
      simp only [findTag, if_neg hu, h1]
      congr 2; omega

theorem lastEnc_spec {g : AType → Val → Res Val} {v u : Val} {t : AType} {ts : List AType} (hg : g t v = .ok u)
    (ho : ∀ t' ∈ ts, t' ≠ t → g t' v = .error .avro) (i : Nat) (acc : Option (Nat × AType))
    (h : t ∈ ts ∨ ∃ k, acc = some (k, t)) :
    ∃ j, lastEnc g v i ts acc = .ok (some (j, t)) ∧ ((i ≤ j ∧ ts[j - i]? = some t) ∨ acc = some (j, t)) := by
  induction ts generalizing i acc with
  | nil =>
    rcases h with h | ⟨k, rfl⟩
    · cases h
    · exact ⟨k, rfl, .inr rfl⟩
  | cons t' ts ih =>
    have ho' : ∀ t' ∈ ts, t' ≠ t → g t' v = .error .avro := fun t' ht' => ho t' (by simp [ht'])
    by_cases he : t' = t
    · subst he
      obtain ⟨j, h1, h2⟩ := ih ho' (i + 1) (some (i, t')) (.inr ⟨i, rfl⟩)
      refine ⟨j, by simp only [lastEnc, hg, h1], .inl ?_⟩
      rcases h2 with ⟨h2, h3⟩ | h2
      · refine ⟨by omega, ?_⟩
        obtain ⟨k, rfl⟩ : ∃ k, j = i + 1 + k := ⟨j - (i + 1), by omega⟩
        have e1 : i + 1 + k - (i + 1) = k := by omega
        have e2 : i + 1 + k - i = k + 1 := by omega
        rw [e1] at h3
        rw [e2]; simpa using h3
      · cases h2; simp
    · have hm : t ∈ ts ∨ ∃ k, acc = some (k, t) := by
        rcases h with h | h
        · rcases List.mem_cons.1 h with rfl | h
          · exact absurd rfl he
          · exact .inl h
        · exact .inr h
      obtain ⟨j, h1, h2⟩ := ih ho' (i + 1) acc hm
      refine ⟨j, by simp only [lastEnc, ho t' (by simp) he, h1], ?_⟩
      rcases h2 with ⟨h2, h3⟩ | h2
      · left
        refine ⟨by omega, ?_⟩
        obtain ⟨k, rfl⟩ : ∃ k, j = i + 1 + k := ⟨j - (i + 1), by omega⟩
        have e1 : i + 1 + k - (i + 1) = k := by omega
        have e2 : i + 1 + k - i = k + 1 := by omega
        rw [e1] at h3
        rw [e2]; simpa using h3
      · exact .inr h2

/-- Order of union data: by member, then inside the member. -/
theorem union_order {g : AType → Val → Res Val} {c : AType → Val → Val → Res Int} {Q : AType → Val → Prop}
    {P : Val → Prop} {ts : List AType} (hc : ∀ t ∈ ts, TotalOrder (Q t) (c t))
    (hr : ∀ v, P v → ∃ i t x, resolve g ts v = .ok (i, t, x) ∧ ts[i]? = some t ∧ Q t x) :
    TotalOrder P (fun x y => match resolve g ts x with
      | .error e => .error e
      | .ok (i, t, x) => match resolve g ts y with
        | .error e => .error e
        | .ok (j, _, y) => if i = j then c t x y else .ok (sgn i j)) := by
  have sg : ∀ i j : Nat, i ≠ j → (sgn i j = -1 ∧ sgn j i = 1 ∧ i < j) ∨ (sgn i j = 1 ∧ sgn j i = -1 ∧ j < i) := by
    intro i j h
    unfold sgn
    rcases Nat.lt_or_gt_of_ne h with h | h
    · left; rw [if_pos h, if_neg (by omega), if_pos h]; simp [h]
    · right; rw [if_neg (by omega), if_pos h, if_pos h]; simp [h]
  constructor
  · intro x y hx hy
    obtain ⟨i, t, x', h1, h2, h3⟩ := hr x hx
    obtain ⟨j, s, y', k1, k2, k3⟩ := hr y hy
    simp only [h1, k1]
    by_cases h : i = j
    · subst h
      rw [h2] at k2; cases k2
      simp only [if_true]
      exact (hc t (List.mem_of_getElem? h2)).total x' y' h3 k3
    · rw [if_neg h, if_neg (Ne.symm h)]
      rcases sg i j h with ⟨e1, e2, _⟩ | ⟨e1, e2, _⟩
      · exact ⟨_, rfl, by simp [e1], by rw [e1, e2]; rfl⟩
      · exact ⟨_, rfl, by simp [e1], by rw [e1, e2]⟩
  · intro x y z a b hx hy hz h1 h2 ha hb
    obtain ⟨i, t, x', g1, g2, g3⟩ := hr x hx
    obtain ⟨j, s, y', k1, k2, k3⟩ := hr y hy
    obtain ⟨l, r, z', m1, m2, m3⟩ := hr z hz
    simp only [g1, k1] at h1
    simp only [k1, m1] at h2
    simp only [g1, m1]
    by_cases hij : i = j
    · subst hij
      rw [g2] at k2; cases k2
      by_cases hil : i = l
      · subst hil
        rw [g2] at m2; cases m2
        simp only [if_true] at h1 h2 ⊢
        exact (hc t (List.mem_of_getElem? g2)).trans x' y' z' a b g3 k3 m3 h1 h2 ha hb
      · rw [if_neg hil] at h2 ⊢
        cases h2
        exact ⟨_, rfl, hb⟩
    · rw [if_neg hij] at h1; cases h1
      have hlt : i < j := by rcases sg i j hij with ⟨e, _, h⟩ | ⟨e, _, h⟩ <;> omega
      by_cases hjl : j = l
      · subst hjl
        rw [if_neg hij]
        exact ⟨_, rfl, ha⟩
      · rw [if_neg hjl] at h2; cases h2
        have hlt' : j < l := by rcases sg j l hjl with ⟨e, _, h⟩ | ⟨e, _, h⟩ <;> omega
        rw [if_neg (by omega)]
        refine ⟨_, rfl, ?_⟩
        rcases sg i l (by omega) with ⟨e, _, h⟩ | ⟨e, _, h⟩ <;> omega

theorem enc_null {tagged : Bool} {env : Env} {n : Nat} {t : AType} (ht : t ≠ .null) (hu : ∀ us, t ≠ .union us) :
    enc tagged env (n + 1) t .null = .error .avro := by
  cases t <;> first | rfl | exact absurd rfl ht | exact absurd rfl (hu _)

/-- C10 for data of bounded depth. -/
theorem cmp_order {env : Env} {U : AType → Prop} (hU : Ordered env U) (n : Nat) {t : AType} (ht : U t) :
    TotalOrder (Fit env n t) (cmp env n t) := by
  induction n generalizing t with
  | zero => exact ⟨fun _ _ h => h.elim, fun _ _ _ _ _ h => h.elim⟩
  | succ n ih =>
    have strs : ∀ {P : Val → Prop} {c : Val → Val → Res Int}, (∀ v, P v → ∃ s, v = .str s) →
        (∀ a b, c (.str a) (.str b) = strCmp a b) → TotalOrder P c := by
      intro P c hP hc
      constructor
      · intro x y hx hy
        obtain ⟨a, rfl⟩ := hP x hx
        obtain ⟨b, rfl⟩ := hP y hy
        rw [hc, hc]; exact strCmp_order.total a b trivial trivial
      · intro x y z a b hx hy hz
        obtain ⟨p, rfl⟩ := hP x hx
        obtain ⟨q, rfl⟩ := hP y hy
        obtain ⟨r, rfl⟩ := hP z hz
        rw [hc, hc, hc]; exact strCmp_order.trans p q r a b trivial trivial trivial
    cases t with
    | null =>
      refine TotalOrder.ofKey (fun _ => (0 : Nat)) ?_
      rintro x y rfl rfl; rfl
    | boolean =>
      refine TotalOrder.ofKey (fun v => match v with | .bool b => b.toNat | _ => 0) ?_
      rintro x y ⟨a, rfl⟩ ⟨b, rfl⟩; rfl
    | int =>
      refine TotalOrder.ofKey (fun v => match v with | .int b => b | _ => 0) ?_
      rintro x y ⟨a, rfl⟩ ⟨b, rfl⟩; rfl
    | long =>
      refine TotalOrder.ofKey (fun v => match v with | .int b => b | _ => 0) ?_
      rintro x y ⟨a, rfl⟩ ⟨b, rfl⟩; rfl
    | float =>
      refine TotalOrder.ofKey (fun v => fltKey ((numVal v).getD .nan)) ?_
      rintro x y ⟨a, hx, ha⟩ ⟨b, hy, hb⟩
      simp only [cmp, cmpStep, hx, hy, Option.getD_some, fltSgn_key ha hb]
    | double =>
      refine TotalOrder.ofKey (fun v => fltKey ((numVal v).getD .nan)) ?_
      rintro x y ⟨a, hx, p, hp⟩ ⟨b, hy, q, hq⟩
      have key : ∀ {v : Val} {f : Flt} {p : Bool}, numVal v = some f → isNan v = .ok p → (p = true ↔ f = .nan) := by
        intro v f p h1 h2
        cases v <;> simp [numVal] at h1
        · subst h1
          simp only [isNan] at h2
          split at h2 <;> cases h2; simp
        · subst h1
          simp only [isNan] at h2
          cases h2; simp
      simp only [cmp, cmpStep, hx, hy, dblCmp, hp, hq, Option.getD_some]
      congr 1
      have k1 := key hx hp
      have k2 := key hy hq
      by_cases ha : a = .nan
      · rw [if_pos (k1.2 ha)]
        by_cases hb : b = .nan
        · rw [if_pos (k2.2 hb), ha, hb]; simp [sgn]
        · rw [if_neg (fun h => hb (k2.1 h)), ha]
          cases b <;> first | exact absurd rfl hb | simp [sgn, fltKey, Prod.Lex.toLex_lt_toLex]
      · rw [if_neg (fun h => ha (k1.1 h))]
        by_cases hb : b = .nan
        · rw [if_pos (k2.2 hb), hb]
          cases a <;> first | exact absurd rfl ha | simp [sgn, fltKey, Prod.Lex.toLex_lt_toLex]
        · rw [if_neg (fun h => hb (k2.1 h)), fltSgn_key ha hb]
    | bytes => exact strs (fun v h => h) (fun a b => rfl)
    | fixed => exact strs (fun v h => h) (fun a b => rfl)
    | string => exact strs (fun v h => h) (fun a b => rfl)
    | enum m syms =>
      refine TotalOrder.ofKey (fun v => match v with | .str s => syms.idxOf s | _ => 0) ?_
      rintro x y ⟨a, ha, rfl⟩ ⟨b, hb, rfl⟩
      simp only [cmp, cmpStep, if_pos (And.intro ha hb)]
    | array t =>
      have h := (ih (hU.array t ht)).lex
      constructor
      · rintro x y ⟨a, rfl, ha⟩ ⟨b, rfl, hb⟩
        exact h.total a b ha hb
      · rintro x y z p q ⟨a, rfl, ha⟩ ⟨b, rfl, hb⟩ ⟨c, rfl, hc⟩
        exact h.trans a b c p q ha hb hc
    | map t => exact absurd ht (hU.noMap t)
    | record m =>
      cases hf : env.fields? m with
      | none =>
        constructor
        · rintro x y ⟨d, fs, _, h, _⟩; rw [hf] at h; cases h
        · rintro x y z p q ⟨d, fs, _, h, _⟩; rw [hf] at h; cases h
      | some fs =>
        have h := fields_order (c := cmp env n) (Q := Fit env n) (fs := fs)
          (fun fd hfd => ih (hU.record m fs fd ht hf hfd))
        constructor
        · rintro x y ⟨d, fs', rfl, h1, h2⟩ ⟨e, fs'', rfl, h3, h4⟩
          rw [hf] at h1 h3; cases h1; cases h3
          simp only [cmp, cmpStep, hf]
          exact h.total d e h2 h4
        · rintro x y z p q ⟨d, fs', rfl, h1, h2⟩ ⟨e, fs'', rfl, h3, h4⟩ ⟨f, _, rfl, h5, h6⟩
          rw [hf] at h1 h3 h5; cases h1; cases h3; cases h5
          simp only [cmp, cmpStep, hf]
          exact h.trans d e f p q h2 h4 h6
    | union ts =>
      refine union_order (g := enc true env n) (c := cmp env n) (Q := Fit env n) (fun t hm => ih (hU.union ts ht t hm)) ?_
      rintro v (⟨rfl, hm, hf⟩ | ⟨t, hm, hne, x, rfl, hf⟩)
      · cases n with
        | zero => exact hf.elim
        | succ n =>
          obtain ⟨j, h1, h2⟩ := lastEnc_spec (g := enc true env (n + 1)) (v := .null) (u := .null) (t := .null) (ts := ts) rfl
            (fun t' ht' hne => enc_null hne (fun us he => hU.flat ts us ht (he ▸ ht'))) 0 none (.inl hm)
          refine ⟨j, .null, .null, by simp only [resolve, h1], ?_, hf⟩
          rcases h2 with ⟨_, h2⟩ | h2
          · simpa using h2
          · cases h2
      · obtain ⟨j, h1, h2⟩ := findTag_spec hm rfl (fun t' ht' he => hU.tags ts t t' ht hm ht' he) 0
        refine ⟨j, t, x, by simp only [resolve, h1]; simp, h2, hf⟩

/-! ## Conforming data -/

/-- Data whose floats are numbers, if the type has floats. -/
def NoNan (U : AType → Prop) (v : Val) : Prop := U .float → Every (· ≠ .flt .nan) v

theorem every_get {P : Val → Prop} {d : List (String × Val)} {k : String} {x : Val} (h : Every P (.dict d))
    (hx : PyDict.get? d k = some x) : Every P x := h.dict_inv.2 _ _ (PyDict.mem_of_get? hx)

/-- Conforming data have an order. -/
theorem conf_fit {L : Lim} {env : Env} {U : AType → Prop} (hL : Plain L) (hU : Ordered env U) {t : AType} {v : Val}
    (ht : U t) (hn : NoNan U v) (h : Conf L env t v) : ∃ N, ∀ n ≥ N, Fit env n t v := by
  have one : ∀ {t : AType} {v : Val}, (∀ f, fitStep env f t v) → ∃ N, ∀ n ≥ N, Fit env n t v := by
    intro t v h
    refine ⟨1, fun n hn => ?_⟩
    obtain ⟨m, rfl⟩ : ∃ m, n = m + 1 := ⟨n - 1, by omega⟩
    exact h _
  induction h with
  | null => exact one (fun _ => rfl)
  | boolean b => exact one (fun _ => ⟨b, rfl⟩)
  | int hi => exact one (fun _ => ⟨_, rfl⟩)
  | long hi => exact one (fun _ => ⟨_, rfl⟩)
  | float f => exact one (fun _ => ⟨f, rfl, fun h => (hn ht).self (by rw [h])⟩)
  | double f => exact one (fun _ => ⟨f, rfl, _, rfl⟩)
  | intBool b h => exact absurd h hL.boolInt
  | longBool b h => exact absurd h hL.boolInt
  | bytes hb => exact one (fun _ => hL.bytes _ hb)
  | string s => exact one (fun _ => ⟨s, rfl⟩)
  | fixed hb => exact one (fun _ => by obtain ⟨s, h, _⟩ := hL.fixed _ _ hb; exact ⟨s, h⟩)
  | enum he => exact one (fun _ => ⟨_, hL.enum _ _ he, rfl⟩)
  | @array t xs h ih =>
    obtain ⟨N, hN⟩ := ev_list (P := fun n x => Fit env n t x)
      (fun x hx => ih x hx (hU.array t ht) (fun hf => (hn hf).arr_inv x hx))
    refine ⟨N + 1, fun n hn => ?_⟩
    obtain ⟨m, rfl⟩ : ∃ m, n = m + 1 := ⟨n - 1, by omega⟩
    exact ⟨xs, rfl, hN m (by omega)⟩
  | map => exact absurd ht (hU.noMap _)
  | @record n fs d x hf hw hk hx hc ih =>
    obtain ⟨N, hN⟩ := ev_list (P := fun n (fd : Field) => Fit env n fd.type (x fd.name)) (xs := fs)
      (fun fd hfd => ih fd hfd (hU.record n fs fd ht hf hfd) (fun h => every_get (hn h) (hx fd hfd)))
    refine ⟨N + 1, fun n hn => ?_⟩
    obtain ⟨m, rfl⟩ : ∃ m, n = m + 1 := ⟨n - 1, by omega⟩
    exact ⟨d, fs, rfl, hf, fun fd hfd => ⟨_, hx fd hfd, hN m (by omega) fd hfd⟩⟩
  | @unionNull ts hm =>
    refine ⟨2, fun n hn => ?_⟩
    obtain ⟨m, rfl⟩ : ∃ m, n = m + 2 := ⟨n - 2, by omega⟩
    exact .inl ⟨rfl, hm, rfl⟩
  | unionNullTag h => exact absurd h hL.nullTag
  | @union ts t v hm hne hc ih =>
    obtain ⟨N, hN⟩ := ih (hU.union ts ht t hm) (fun h => (hn h).dict_inv.2 t.name _ (by simp))
    refine ⟨N + 1, fun n hn => ?_⟩
    obtain ⟨m, rfl⟩ : ∃ m, n = m + 1 := ⟨n - 1, by omega⟩
    exact .inr ⟨t, hm, hne, v, rfl, hN m (by omega)⟩

/-- `compare` returns `r`. -/
def Cmp (env : Env) (t : AType) (x y : Val) (r : Int) : Prop := ∃ N, ∀ n ≥ N, cmp env n t x y = .ok r

theorem Cmp.det {env : Env} {t : AType} {x y : Val} {r s : Int} (h : Cmp env t x y r) (h' : Cmp env t x y s) : r = s := by
  obtain ⟨N, hN⟩ := h
  obtain ⟨M, hM⟩ := h'
  have := hN (max N M) (by omega)
  rw [hM _ (by omega)] at this
  injection this with this
  exact this.symm

theorem lexR_congr {α : Type} {c c' : α → α → Res Int} {xs ys : List α} (h : ∀ x ∈ xs, ∀ y ∈ ys, c x y = c' x y) :
    lexR c xs ys = lexR c' xs ys := by
  induction xs generalizing ys with
  | nil => cases ys <;> rfl
  | cons x xs ih =>
    cases ys with
    | nil => rfl
    | cons y ys =>
      simp only [lexR, h x (by simp) y (by simp), ih (ys := ys) (fun a ha b hb => h a (by simp [ha]) b (by simp [hb]))]

theorem cmpFields_congr {c c' : AType → Val → Val → Res Int} {x y : List (String × Val)} {fs : List Field}
    (h : ∀ fd ∈ fs, ∀ a b, PyDict.get? x fd.name = some a → PyDict.get? y fd.name = some b → c fd.type a b = c' fd.type a b) :
    cmpFields c x y fs = cmpFields c' x y fs := by
  induction fs with
  | nil => rfl
  | cons fd fs ih =>
    have ih := ih (fun f hf => h f (by simp [hf]))
    unfold cmpFields
    by_cases hi : fd.order = .ignore
    · rw [if_pos hi, if_pos hi, ih]
    · rw [if_neg hi, if_neg hi]
      cases ha : PyDict.get? x fd.name with
      | none => rfl
      | some a =>
        cases hb : PyDict.get? y fd.name with
        | none => rfl
        | some b => simp only [h fd (by simp) a b ha hb, ih]

/-- The member of a union datum does not depend on the fuel. -/
theorem resolve_fit {env : Env} {U : AType → Prop} (hU : Ordered env U) {n : Nat} {ts : List AType} (ht : U (.union ts))
    {v : Val} (h : Fit env (n + 1) (.union ts) v) :
    ∃ i t x, resolve (enc true env n) ts v = .ok (i, t, x) ∧ resolve (enc true env (n + 1)) ts v = .ok (i, t, x) ∧
      ts[i]? = some t ∧ Fit env n t x := by
  rcases h with ⟨rfl, hm, hf⟩ | ⟨t, hm, hne, x, rfl, hf⟩
  · cases n with
    | zero => exact hf.elim
    | succ n =>
      have no : ∀ (m : Nat) t', t' ∈ ts → t' ≠ .null → enc true env (m + 1) t' .null = .error .avro :=
        fun m t' ht' hne => enc_null hne (fun us he => hU.flat ts us ht (he ▸ ht'))
      have same : ∀ us : List AType, (∀ t ∈ us, t ∈ ts) → ∀ i acc,
          lastEnc (enc true env (n + 1)) .null i us acc = lastEnc (enc true env (n + 2)) .null i us acc := by
        intro us
        induction us with
        | nil => intros; rfl
        | cons u us ih =>
          intro hu i acc
          by_cases he : u = .null
          · subst he
            have e1 : enc true env (n + 1) .null .null = .ok .null := rfl
            have e2 : enc true env (n + 2) .null .null = .ok .null := rfl
            simp only [lastEnc, e1, e2]
            exact ih (fun t ht => hu t (by simp [ht])) _ _
          · simp only [lastEnc, no n u (hu u (by simp)) he, no (n + 1) u (hu u (by simp)) he]
            exact ih (fun t ht => hu t (by simp [ht])) _ _
      obtain ⟨j, h1, h2⟩ := lastEnc_spec (g := enc true env (n + 1)) (v := .null) (u := .null) (t := .null) (ts := ts) rfl
        (no n) 0 none (.inl hm)
      refine ⟨j, .null, .null, by simp only [resolve, h1], by simp only [resolve, ← same ts (fun _ h => h), h1], ?_, hf⟩
      rcases h2 with ⟨_, h2⟩ | h2
      · simpa using h2
      · cases h2
  · obtain ⟨j, h1, h2⟩ := findTag_spec hm rfl (fun t' ht' he => hU.tags ts t t' ht hm ht' he) 0
    exact ⟨j, t, x, by simp only [resolve, h1]; simp, by simp only [resolve, h1]; simp, h2, hf⟩

/-- More fuel does not change the result. -/
theorem cmp_stable {env : Env} {U : AType → Prop} (hU : Ordered env U) (n : Nat) {t : AType} (ht : U t) {x y : Val}
    (hx : Fit env n t x) (hy : Fit env n t y) : cmp env (n + 1) t x y = cmp env n t x y := by
  induction n generalizing t x y with
  | zero => exact hx.elim
  | succ n ih =>
    show cmpStep env (cmp env (n + 1)) (enc true env (n + 1)) t x y = cmpStep env (cmp env n) (enc true env n) t x y
    cases t with
    | array t =>
      obtain ⟨a, rfl, ha⟩ := hx
      obtain ⟨b, rfl, hb⟩ := hy
      exact lexR_congr (fun u hu v hv => ih (hU.array t ht) (ha u hu) (hb v hv))
    | record m =>
      obtain ⟨a, fs, rfl, hf, ha⟩ := hx
      obtain ⟨b, fs', rfl, hf', hb⟩ := hy
      rw [hf] at hf'; cases hf'
      simp only [cmpStep, hf]
      refine cmpFields_congr (fun fd hfd u v hu hv => ?_)
      obtain ⟨u', h1, h2⟩ := ha fd hfd
      obtain ⟨v', h3, h4⟩ := hb fd hfd
      rw [h1] at hu; cases hu
      rw [h3] at hv; cases hv
      exact ih (hU.record m fs fd ht hf hfd) h2 h4
    | union ts =>
      obtain ⟨i, t, u, h1, h2, h3, h4⟩ := resolve_fit hU ht hx
      obtain ⟨j, s, v, k1, k2, k3, k4⟩ := resolve_fit hU ht hy
      simp only [cmpStep, h1, h2, k1, k2]
      by_cases h : i = j
      · subst h
        rw [h3] at k3; cases k3
        rw [if_pos rfl, if_pos rfl]
        exact ih (hU.union ts ht t (List.mem_of_getElem? h3)) h4 k4
      · rw [if_neg h, if_neg h]
    | map t => exact absurd ht (hU.noMap t)
    | _ => rfl

/-- The result of `compare` for data in order, for all large fuel. -/
theorem cmp_ends {env : Env} {U : AType → Prop} (hU : Ordered env U) {t : AType} (ht : U t) {x y : Val}
    {N : Nat} (hx : ∀ n ≥ N, Fit env n t x) (hy : ∀ n ≥ N, Fit env n t y) {r : Int} {n : Nat} (hn : N ≤ n)
    (h : cmp env n t x y = .ok r) : Cmp env t x y r := by
  refine ⟨n, fun m hm => ?_⟩
  induction m, hm using Nat.le_induction with
  | base => exact h
  | succ m hm ih => rw [cmp_stable hU m ht (hx m (by omega)) (hy m (by omega)), ih]

/-- Data with an order in a type. -/
def Good (L : Lim) (env : Env) (U : AType → Prop) (t : AType) (v : Val) : Prop := Conf L env t v ∧ NoNan U v

section
variable {L : Lim} {env : Env} {U : AType → Prop} (hL : Plain L) (hU : Ordered env U) {t : AType} (ht : U t)
include hL hU ht

/-- C10, totality: on conforming data of a type without maps (and without NaN in a `float`), `compare`
raises nothing, returns -1, 0 or 1, and swapping the arguments negates the result.  The full claim has
no restriction on NaN (see `cmp_nan_violation`). -/
theorem compare_total_partial {x y : Val} (hx : Good L env U t x) (hy : Good L env U t y) :
    ∃ r, (r = -1 ∨ r = 0 ∨ r = 1) ∧ Cmp env t x y r ∧ Cmp env t y x (-r) := by
  obtain ⟨N, hN⟩ := conf_fit hL hU ht hx.2 hx.1
  obtain ⟨M, hM⟩ := conf_fit hL hU ht hy.2 hy.1
  obtain ⟨r, h1, h2, h3⟩ := (cmp_order hU (max N M) ht).total x y (hN _ (by omega)) (hM _ (by omega))
  exact ⟨r, h2, cmp_ends hU ht (N := max N M) (fun n hn => hN n (by omega)) (fun n hn => hM n (by omega)) (le_refl _) h1,
    cmp_ends hU ht (N := max N M) (fun n hn => hM n (by omega)) (fun n hn => hN n (by omega)) (le_refl _) h3⟩

/-- C10, transitivity. -/
theorem compare_trans_partial {x y z : Val} (hx : Good L env U t x) (hy : Good L env U t y) (hz : Good L env U t z)
    {a b : Int} (h1 : Cmp env t x y a) (h2 : Cmp env t y z b) (ha : a ≤ 0) (hb : b ≤ 0) :
    ∃ r, Cmp env t x z r ∧ r ≤ 0 := by
  obtain ⟨N, hN⟩ := conf_fit hL hU ht hx.2 hx.1
  obtain ⟨M, hM⟩ := conf_fit hL hU ht hy.2 hy.1
  obtain ⟨K, hK⟩ := conf_fit hL hU ht hz.2 hz.1
  obtain ⟨A, hA⟩ := h1
  obtain ⟨B, hB⟩ := h2
  let n := max (max N M) (max K (max A B))
  obtain ⟨r, h1, h2⟩ := (cmp_order hU n ht).trans x y z a b (hN _ (by omega)) (hM _ (by omega)) (hK _ (by omega))
    (hA _ (by omega)) (hB _ (by omega)) ha hb
  exact ⟨r, cmp_ends hU ht (N := max N K) (fun n hn => hN n (by omega)) (fun n hn => hK n (by omega)) (by omega) h1, h2⟩

/-- C10: a datum compares equal to itself. -/
theorem compare_refl_partial {x : Val} (hx : Good L env U t x) : Cmp env t x x 0 := by
  obtain ⟨r, _, h1, h2⟩ := compare_total_partial hL hU ht hx hx
  have := h1.det h2
  have h0 : r = 0 := by omega
  rwa [h0] at h1

/-- C10: comparing equal is an equivalence. -/
theorem compare_eqv_partial {x y z : Val} (hx : Good L env U t x) (hy : Good L env U t y) (hz : Good L env U t z)
    (h1 : Cmp env t x y 0) (h2 : Cmp env t y z 0) : Cmp env t y x 0 ∧ Cmp env t x z 0 := by
  obtain ⟨r, _, k1, k2⟩ := compare_total_partial hL hU ht hx hy
  have := h1.det k1; subst this
  obtain ⟨s, _, k3, k4⟩ := compare_total_partial hL hU ht hy hz
  have := h2.det k3; subst this
  obtain ⟨p, k5, k6⟩ := compare_trans_partial hL hU ht hx hy hz h1 h2 (by omega) (by omega)
  obtain ⟨q, k7, k8⟩ := compare_trans_partial hL hU ht hz hy hx k4 k2 (by omega) (by omega)
  obtain ⟨w, _, k9, k10⟩ := compare_total_partial hL hU ht hx hz
  have e1 := k5.det k9
  have e2 := k7.det k10
  have e3 : w = 0 := by omega
  rw [e3] at k9
  exact ⟨k2, k9⟩

end

/-! ## Zero means equality -/

theorem lexR_zero {α : Type} {c : α → α → Res Int} {xs ys : List α} :
    lexR c xs ys = .ok 0 ↔ xs.length = ys.length ∧ ∀ (i : Nat) (h : i < xs.length) (h' : i < ys.length), c xs[i] ys[i] = .ok 0 := by
  induction xs generalizing ys with
  | nil => cases ys with
    | nil => simp [lexR]
    | cons => simp [lexR]
  | cons x xs ih =>
    cases ys with
    | nil => simp [lexR]
    | cons y ys =>
      simp only [lexR]
      constructor
      · intro h
        cases hc : c x y with
        | error e => rw [hc] at h; cases h
        | ok r =>
          rw [hc] at h
          by_cases h0 : r = 0
          · subst h0
            simp only [if_true] at h
            obtain ⟨h1, h2⟩ := ih.1 h
            refine ⟨by simp [h1], fun i hi hi' => ?_⟩
            cases i with
            | zero => exact hc
            | succ i => exact h2 i (by simpa using hi) (by simpa using hi')
          · simp only [if_neg h0] at h
            exact absurd (by injection h) h0
      · rintro ⟨h1, h2⟩
        have h0 : c x y = .ok 0 := h2 0 (by simp) (by simp)
        rw [h0]
        simp only [if_true]
        exact ih.2 ⟨by simpa using h1, fun i hi hi' => h2 (i + 1) (by simpa using hi) (by simpa using hi')⟩

theorem sgn_zero {β : Type} [LinearOrder β] {a b : β} : sgn a b = 0 ↔ a = b := by
  unfold sgn
  rcases lt_trichotomy a b with h | h | h
  · simp [h, h.ne]
  · simp [h]
  · simp [h, h.ne', not_lt.2 h.le]

theorem ok_inj {α : Type} {a b : α} : (Except.ok a : Res α) = .ok b ↔ a = b := ⟨fun h => by injection h, fun h => by rw [h]⟩

theorem toNat_inj {a b : Char} : a.toNat = b.toNat ↔ a = b :=
  ⟨fun h => by rw [← Char.ofNat_toNat a, h, Char.ofNat_toNat], fun h => by rw [h]⟩

theorem strCmp_zero {a b : String} : strCmp a b = .ok 0 ↔ a = b := by
  unfold strCmp
  rw [lexR_zero]
  simp only [ok_inj, sgn_zero, toNat_inj]
  constructor
  · rintro ⟨h1, h2⟩
    exact String.toList_inj.1 (List.ext_getElem h1 h2)
  · rintro rfl; simp

theorem cmpFields_zero {c : AType → Val → Val → Res Int} {x y : List (String × Val)} {g h : String → Val} {fs : List Field}
    (ho : ∀ fd ∈ fs, fd.order ≠ .ignore) (hx : ∀ fd ∈ fs, PyDict.get? x fd.name = some (g fd.name))
    (hy : ∀ fd ∈ fs, PyDict.get? y fd.name = some (h fd.name)) :
    cmpFields c x y fs = .ok 0 ↔ ∀ fd ∈ fs, c fd.type (g fd.name) (h fd.name) = .ok 0 := by
  induction fs with
  | nil => simp [cmpFields]
  | cons fd fs ih =>
    have ih := ih (fun f hf => ho f (by simp [hf])) (fun f hf => hx f (by simp [hf])) (fun f hf => hy f (by simp [hf]))
    simp only [cmpFields, if_neg (ho fd (by simp)), hx fd (by simp), hy fd (by simp), List.forall_mem_cons]
    cases hc : c fd.type (g fd.name) (h fd.name) with
    | error e => simp
    | ok r =>
      by_cases h0 : r = 0
      · subst h0
        simp only [if_true, ih, true_and]
      · simp only [if_neg h0, ok_inj]
        refine ⟨fun h => ?_, fun h => absurd h.1 h0⟩
        split at h
        · exact absurd (by omega) h0
        · exact absurd h h0

theorem pyEq_leaf {a b : Val} (h : PyEq a b) (ha : ∀ xs, a ≠ .arr xs) (ha' : ∀ d, a ≠ .dict d) : a = b := by
  cases h with
  | refl => rfl
  | arr => exact absurd rfl (ha _)
  | dict => exact absurd rfl (ha' _)

theorem fltKey_inj {a b : Flt} : fltKey a = fltKey b ↔ a = b := by
  cases a <;> cases b <;> simp [fltKey]

/-- C10: when no field is ignored, only equal data compare equal. -/
theorem cmp_zero {L : Lim} {env : Env} {U : AType → Prop} (hL : Plain L) (hU : Ordered env U)
    (ho : ∀ m fs fd, U (.record m) → env.fields? m = some fs → fd ∈ fs → fd.order ≠ .ignore) (n : Nat) {t : AType}
    (ht : U t) {x y : Val} (hx : Conf L env t x) (hy : Conf L env t y) (fx : Fit env n t x) (fy : Fit env n t y) :
    cmp env n t x y = .ok 0 ↔ PyEq x y := by
  have leaf : ∀ {a b : Val}, (∀ xs, a ≠ .arr xs) → (∀ d, a ≠ .dict d) → (PyEq a b ↔ a = b) :=
    fun h1 h2 => ⟨fun h => pyEq_leaf h h1 h2, fun h => h ▸ .refl _⟩
  induction n generalizing t x y with
  | zero => exact fx.elim
  | succ n ih =>
    cases hx with
    | null => cases hy; exact ⟨fun _ => .refl _, fun _ => rfl⟩
    | boolean a =>
      cases hy with
      | boolean b => rw [leaf (by simp) (by simp)]; cases a <;> cases b <;> simp [cmp, cmpStep, sgn]
    | int h => cases hy with
      | int h' =>
        rw [leaf (by simp) (by simp)]
        simp only [cmp, cmpStep, ok_inj, sgn_zero, Val.int.injEq]
      | intBool _ h => exact absurd h hL.boolInt
    | long h => cases hy with
      | long h' =>
        rw [leaf (by simp) (by simp)]
        simp only [cmp, cmpStep, ok_inj, sgn_zero, Val.int.injEq]
      | longBool _ h => exact absurd h hL.boolInt
    | float a => cases hy with
      | float b =>
        rw [leaf (by simp) (by simp)]
        obtain ⟨q, h1, h2⟩ := fx; cases h1
        obtain ⟨q, h3, h4⟩ := fy; cases h3
        simp only [cmp, cmpStep, numVal, ok_inj, fltSgn_key h2 h4, sgn_zero, fltKey_inj, Val.flt.injEq]
    | double a => cases hy with
      | double b =>
        rw [leaf (by simp) (by simp)]
        simp only [cmp, cmpStep, numVal, dblCmp, isNan, ok_inj, Val.flt.injEq, decide_eq_true_eq]
        by_cases ha : a = .nan
        · by_cases hb : b = .nan
          · simp [ha, hb]
          · simp [ha, hb, Ne.symm hb]
        · by_cases hb : b = .nan
          · simp [ha, hb]
          · simp only [if_neg ha, if_neg hb, fltSgn_key ha hb, sgn_zero, fltKey_inj]
    | intBool _ h => exact absurd h hL.boolInt
    | longBool _ h => exact absurd h hL.boolInt
    | bytes h => cases hy with
      | bytes h' =>
        obtain ⟨a, rfl⟩ := hL.bytes _ h
        obtain ⟨b, rfl⟩ := hL.bytes _ h'
        rw [leaf (by simp) (by simp), Val.str.injEq, ← strCmp_zero]; rfl
    | string a => cases hy with
      | string b => rw [leaf (by simp) (by simp), Val.str.injEq, ← strCmp_zero]; rfl
    | fixed h => cases hy with
      | fixed h' =>
        obtain ⟨a, rfl, _⟩ := hL.fixed _ _ h
        obtain ⟨b, rfl, _⟩ := hL.fixed _ _ h'
        rw [leaf (by simp) (by simp), Val.str.injEq, ← strCmp_zero]; rfl
    | enum h => cases hy with
      | enum h' =>
        have h1 := hL.enum _ _ h
        have h2 := hL.enum _ _ h'
        rw [leaf (by simp) (by simp), Val.str.injEq]
        simp only [cmp, cmpStep, if_pos (And.intro h1 h2), ok_inj, sgn_zero]
        exact List.idxOf_inj h1
    | @array t xs h => cases hy with
      | @array _ ys h' =>
        obtain ⟨_, e, fx⟩ := fx; cases e
        obtain ⟨_, e, fy⟩ := fy; cases e
        simp only [cmp, cmpStep]
        rw [lexR_zero]
        constructor
        · rintro ⟨h1, h2⟩
          exact .arr h1 (fun i hi hi' => (ih (hU.array t ht) (h _ (List.getElem_mem hi)) (h' _ (List.getElem_mem hi'))
            (fx _ (List.getElem_mem hi)) (fy _ (List.getElem_mem hi'))).1 (h2 i hi hi'))
        · intro hp
          have hp' : xs.length = ys.length ∧ ∀ (i : Nat) (h : i < xs.length) (h' : i < ys.length), PyEq xs[i] ys[i] := by
            cases hp with
            | refl => exact ⟨rfl, fun _ _ _ => .refl _⟩
            | arr hl h => exact ⟨hl, h⟩
          exact ⟨hp'.1, fun i hi hi' => (ih (hU.array t ht) (h _ (List.getElem_mem hi)) (h' _ (List.getElem_mem hi'))
            (fx _ (List.getElem_mem hi)) (fy _ (List.getElem_mem hi'))).2 (hp'.2 i hi hi')⟩
    | map => exact absurd ht (hU.noMap _)
    | @record m fs d g hf hw hk hg hc =>
      cases hy with
      | @record _ fs' e k hf' hw' hk' hg' hc' =>
        rw [hf] at hf'; cases hf'
        obtain ⟨_, fs', e1, hf', fx⟩ := fx; cases e1
        rw [hf] at hf'; cases hf'
        obtain ⟨_, fs', e1, hf', fy⟩ := fy; cases e1
        rw [hf] at hf'; cases hf'
        simp only [cmp, cmpStep, hf]
        rw [cmpFields_zero (fun fd hfd => ho m fs fd ht hf hfd) hg hg']
        have step : ∀ fd ∈ fs, (cmp env n fd.type (g fd.name) (k fd.name) = .ok 0 ↔ PyEq (g fd.name) (k fd.name)) := by
          intro fd hfd
          obtain ⟨u, h1, h2⟩ := fx fd hfd
          obtain ⟨v, h3, h4⟩ := fy fd hfd
          rw [hg fd hfd] at h1; cases h1
          rw [hg' fd hfd] at h3; cases h3
          exact ih (hU.record m fs fd ht hf hfd) (hc fd hfd) (hc' fd hfd) h2 h4
        have some_iff : ∀ (d : List (String × Val)) (g : String → Val) (key : String),
            (∀ k ∈ PyDict.keys d, ∃ f ∈ fs, f.name = k) → (∀ f ∈ fs, PyDict.get? d f.name = some (g f.name)) →
            ((PyDict.get? d key).isSome ↔ key ∈ fs.map Field.name) := by
          intro d g key h1 h2
          constructor
          · intro h
            obtain ⟨f, hf, rfl⟩ := h1 key ((PyDict.get?_isSome_iff _ _).1 h)
            exact List.mem_map.2 ⟨f, hf, rfl⟩
          · intro h
            obtain ⟨f, hf, rfl⟩ := List.mem_map.1 h
            rw [h2 f hf]; rfl
        constructor
        · intro h
          refine .dict (fun key => (some_iff d g key hk hg).trans (some_iff e k key hk' hg').symm) (fun key u v hu hv => ?_)
          have hm := (some_iff d g key hk hg).1 (by rw [hu]; rfl)
          obtain ⟨f, hf1, rfl⟩ := List.mem_map.1 hm
          rw [hg f hf1] at hu; cases hu
          rw [hg' f hf1] at hv; cases hv
          exact (step f hf1).1 (h f hf1)
        · intro hp fd hfd
          refine (step fd hfd).2 ?_
          cases hp with
          | refl =>
            have := hg fd hfd
            rw [hg' fd hfd] at this
            injection this with this
            rw [this]; exact .refl _
          | dict _ h => exact h fd.name _ _ (hg fd hfd) (hg' fd hfd)
    | @unionNull ts hm =>
      obtain ⟨i, t, u, h1, _, h3, h4⟩ := resolve_fit hU ht fx
      cases hy with
      | unionNull =>
        simp only [cmp, cmpStep, h1, if_true]
        have hnul : u = .null := by
          simp only [resolve] at h1
          split at h1 <;> cases h1
          rfl
        subst hnul
        refine ⟨fun _ => .refl _, fun _ => ?_⟩
        exact (cmp_order hU n (hU.union ts ht t (List.mem_of_getElem? h3))).refl h4
      | unionNullTag h => exact absurd h hL.nullTag
      | @union _ s v hm' hne hc =>
        obtain ⟨j, h5, h6⟩ := findTag_spec hm' rfl (fun t' ht' he => hU.tags ts s t' ht hm' ht' he) 0
        have h7 : resolve (enc true env n) ts (.dict [(s.name, v)]) = .ok (j, s, v) := by simp only [resolve, h5]; simp
        constructor
        · intro h
          exfalso
          cases n with
          | zero =>
            rcases fx with ⟨_, _, h⟩ | ⟨_, _, _, _, h, _⟩
            · exact h
            · cases h
          | succ n =>
            have hnull : t = .null := by
              obtain ⟨j', k1, _⟩ := lastEnc_spec (g := enc true env (n + 1)) (v := .null) (u := .null) (t := .null) (ts := ts) rfl
                (fun t' ht' hne => enc_null hne (fun us he => hU.flat ts us ht (he ▸ ht'))) 0 none (.inl hm)
              simp only [resolve, k1] at h1
              cases h1; rfl
            subst hnull
            simp only [cmp, cmpStep] at h
            simp only [h7, h1] at h
            by_cases hij : i = j
            · subst hij
              rw [h3] at h6; cases h6
              exact hne rfl
            · rw [if_neg hij, ok_inj, sgn_zero] at h
              exact hij h
        · intro h; cases h
    | unionNullTag h => exact absurd h hL.nullTag
    | @union ts t v hm hne hc =>
      obtain ⟨i, t', u, h1, _, h3, h4⟩ := resolve_fit hU ht fx
      obtain ⟨i', h5, h6⟩ := findTag_spec hm rfl (fun t' ht' he => hU.tags ts t t' ht hm ht' he) 0
      have h7 : resolve (enc true env n) ts (.dict [(t.name, v)]) = .ok (i', t, v) := by simp only [resolve, h5]; simp
      rw [h7] at h1; cases h1
      cases hy with
      | unionNull hm' =>
        constructor
        · intro h
          exfalso
          cases n with
          | zero =>
            rcases fy with ⟨_, _, h⟩ | ⟨_, _, _, _, h, _⟩
            · exact h
            · cases h
          | succ n =>
            obtain ⟨j', k1, k2⟩ := lastEnc_spec (g := enc true env (n + 1)) (v := .null) (u := .null) (t := .null) (ts := ts) rfl
                (fun t' ht' hne => enc_null hne (fun us he => hU.flat ts us ht (he ▸ ht'))) 0 none (.inl hm')
            have k3 : ts[j']? = some .null := by
              rcases k2 with ⟨_, k2⟩ | k2
              · simpa using k2
              · cases k2
            have k4 : resolve (enc true env (n + 1)) ts .null = .ok (j', .null, .null) := by simp only [resolve, k1]
            simp only [cmp, cmpStep] at h
            simp only [h7, k4] at h
            by_cases hij : i = j'
            · subst hij
              rw [h3] at k3; cases k3
              exact hne rfl
            · rw [if_neg hij, ok_inj, sgn_zero] at h
              exact hij h
        · intro h; cases h
      | unionNullTag h => exact absurd h hL.nullTag
      | @union _ s w hm' hne' hc' =>
        obtain ⟨j, s', u', k1, _, k3, k4⟩ := resolve_fit hU ht fy
        obtain ⟨j', k5, k6⟩ := findTag_spec hm' rfl (fun t' ht' he => hU.tags ts s t' ht hm' ht' he) 0
        have k7 : resolve (enc true env n) ts (.dict [(s.name, w)]) = .ok (j', s, w) := by simp only [resolve, k5]; simp
        rw [k7] at k1; cases k1
        simp only [cmp, cmpStep, h7, k7]
        by_cases hij : i = j
        · subst hij
          rw [h3] at k3; cases k3
          rw [if_pos rfl]
          refine (ih (hU.union ts ht t hm) hc hc' h4 k4).trans ?_
          constructor
          · intro h
            refine .dict (fun key => by simp only [PyDict.get?]; split <;> simp) (fun key u v hu hv => ?_)
            simp only [PyDict.get?] at hu hv
            split at hu
            · next he => rw [if_pos he] at hv; cases hu; cases hv; exact h
            · cases hu
          · intro h
            cases h with
            | refl => exact .refl _
            | dict _ h => exact h t.name _ _ (by simp [PyDict.get?]) (by simp [PyDict.get?])
        · rw [if_neg hij, ok_inj, sgn_zero]
          refine ⟨fun h => absurd h hij, fun h => ?_⟩
          have hn : t.name = s.name := pyEq_dict1 h
          have := hU.tags ts s t ht hm' hm hn
          subst this
          exfalso
          rw [h5] at k5
          simp at k5
          exact hij k5

/-- C10: comparing equal is equality of data, when no field is ignored. -/
theorem compare_zero_partial {L : Lim} {env : Env} {U : AType → Prop} (hL : Plain L) (hU : Ordered env U)
    (ho : ∀ m fs fd, U (.record m) → env.fields? m = some fs → fd ∈ fs → fd.order ≠ .ignore) {t : AType}
    (ht : U t) {x y : Val} (hx : Good L env U t x) (hy : Good L env U t y) : Cmp env t x y 0 ↔ PyEq x y := by
  obtain ⟨N, hN⟩ := conf_fit hL hU ht hx.2 hx.1
  obtain ⟨M, hM⟩ := conf_fit hL hU ht hy.2 hy.1
  constructor
  · rintro ⟨K, hK⟩
    exact (cmp_zero hL hU ho (max K (max N M)) ht hx.1 hy.1 (hN _ (by omega)) (hM _ (by omega))).1 (hK _ (by omega))
  · intro h
    exact ⟨max N M, fun n hn => (cmp_zero hL hU ho n ht hx.1 hy.1 (hN _ (by omega)) (hM _ (by omega))).2 h⟩

/-! ## Which order it is (Avro specification, "Sort Order") -/

/-- Records: the first field that is not ignored and differs decides; a descending field decides the
other way. -/
theorem record_order {env : Env} {n : Nat} {m : Name} {fs : List Field} (hf : env.fields? m = some fs)
    {d e : List (String × Val)} {r : Int} (hr : r ≠ 0) :
    cmp env (n + 1) (.record m) (.dict d) (.dict e) = .ok r ↔
    ∃ pre fd post a b, fs = pre ++ fd :: post ∧
      (∀ f ∈ pre, f.order = .ignore ∨ ∃ a b, PyDict.get? d f.name = some a ∧ PyDict.get? e f.name = some b ∧
        cmp env n f.type a b = .ok 0) ∧
      fd.order ≠ .ignore ∧ PyDict.get? d fd.name = some a ∧ PyDict.get? e fd.name = some b ∧
      cmp env n fd.type a b = .ok (if fd.order = .descending then -r else r) := by
  have key : cmpFields (cmp env n) d e fs = .ok r ↔ ∃ pre fd post a b, fs = pre ++ fd :: post ∧
      (∀ f ∈ pre, f.order = .ignore ∨ ∃ a b, PyDict.get? d f.name = some a ∧ PyDict.get? e f.name = some b ∧
        cmp env n f.type a b = .ok 0) ∧
      fd.order ≠ .ignore ∧ PyDict.get? d fd.name = some a ∧ PyDict.get? e fd.name = some b ∧
      cmp env n fd.type a b = .ok (if fd.order = .descending then -r else r) := by
    clear hf
    induction fs with
    | nil =>
      constructor
      · intro h; exact absurd (ok_inj.1 h).symm hr
      · rintro ⟨pre, fd, post, _, _, h, _⟩; cases pre <;> cases h
    | cons fd fs ih =>
      have skip : (fd.order = .ignore ∨ ∃ a b, PyDict.get? d fd.name = some a ∧ PyDict.get? e fd.name = some b ∧
          cmp env n fd.type a b = .ok 0) → cmpFields (cmp env n) d e (fd :: fs) = cmpFields (cmp env n) d e fs := by
        rintro (h | ⟨a, b, h1, h2, h3⟩)
        · simp only [cmpFields, if_pos h]
        · by_cases h : fd.order = .ignore
          · simp only [cmpFields, if_pos h]
          · simp only [cmpFields, if_neg h, h1, h2, h3, if_true]
      constructor
      · intro h
        by_cases hs : fd.order = .ignore ∨ ∃ a b, PyDict.get? d fd.name = some a ∧ PyDict.get? e fd.name = some b ∧
          cmp env n fd.type a b = .ok 0
        · rw [skip hs] at h
          obtain ⟨pre, f, post, a, b, rfl, h1, h2⟩ := ih.1 h
          refine ⟨fd :: pre, f, post, a, b, rfl, ?_, h2⟩
          intro f' hf'
          rcases List.mem_cons.1 hf' with rfl | hf'
          · exact hs
          · exact h1 f' hf'
        · simp only [not_or] at hs
          obtain ⟨h1, h2⟩ := hs
          simp only [cmpFields, if_neg h1] at h
          cases ha : PyDict.get? d fd.name with
          | none => rw [ha] at h; cases h
          | some a =>
            cases hb : PyDict.get? e fd.name with
            | none => rw [ha, hb] at h; cases h
            | some b =>
              rw [ha, hb] at h
              simp only at h
              cases hc : cmp env n fd.type a b with
              | error e => rw [hc] at h; cases h
              | ok q =>
                rw [hc] at h
                have hq : q ≠ 0 := fun h0 => h2 ⟨a, b, ha, hb, by rw [hc, h0]⟩
                simp only [if_neg hq, ok_inj] at h
                refine ⟨[], fd, fs, a, b, rfl, by simp, h1, ha, hb, ?_⟩
                rw [hc, ok_inj]
                split <;> rename_i hd
                · rw [if_pos hd] at h; omega
                · rw [if_neg hd] at h; exact h
      · rintro ⟨pre, f, post, a, b, h, h1, h2, h3, h4, h5⟩
        cases pre with
        | nil =>
          simp only [List.nil_append, List.cons.injEq] at h
          obtain ⟨rfl, rfl⟩ := h
          have h0 : ¬ (if fd.order = .descending then -r else r) = 0 := by split <;> omega
          simp only [cmpFields, if_neg h2, h3, h4, h5, if_neg h0]
          congr 1
          split <;> omega
        | cons g pre =>
          simp only [List.cons_append, List.cons.injEq] at h
          obtain ⟨rfl, rfl⟩ := h
          rw [skip (h1 _ (by simp))]
          exact ih.2 ⟨pre, f, post, a, b, rfl, fun f' hf' => h1 f' (by simp [hf']), h2, h3, h4, h5⟩
  simpa only [cmp, cmpStep, hf] using key

theorem lexR_nonzero {α : Type} {c : α → α → Res Int} {xs ys : List α} {r : Int} (hr : r ≠ 0) :
    lexR c xs ys = .ok r ↔ ∃ pre pre' rest rest', xs = pre ++ rest ∧ ys = pre' ++ rest' ∧
      List.Forall₂ (fun x y => c x y = .ok 0) pre pre' ∧
      ((rest = [] ∧ rest' ≠ [] ∧ r = -1) ∨ (rest ≠ [] ∧ rest' = [] ∧ r = 1) ∨
        ∃ x y u v, rest = x :: u ∧ rest' = y :: v ∧ c x y = .ok r) := by
  induction xs generalizing ys with
  | nil =>
    cases ys with
    | nil =>
      constructor
      · intro h; exact absurd (ok_inj.1 h).symm hr
      · rintro ⟨pre, pre', rest, rest', h1, h2, h3, h4⟩
        obtain ⟨rfl, rfl⟩ := List.append_eq_nil_iff.1 h1.symm
        obtain ⟨rfl, rfl⟩ := List.append_eq_nil_iff.1 h2.symm
        rcases h4 with ⟨_, h, _⟩ | ⟨h, _⟩ | ⟨_, _, _, _, h, _⟩
        · exact absurd rfl h
        · exact absurd rfl h
        · cases h
    | cons y ys =>
      constructor
      · intro h
        exact ⟨[], [], [], y :: ys, rfl, rfl, .nil, .inl ⟨rfl, by simp, (ok_inj.1 h).symm⟩⟩
      · rintro ⟨pre, pre', rest, rest', h1, h2, h3, h4⟩
        obtain ⟨rfl, rfl⟩ := List.append_eq_nil_iff.1 h1.symm
        rcases h4 with ⟨_, _, rfl⟩ | ⟨h, _⟩ | ⟨_, _, _, _, h, _⟩
        · rfl
        · exact absurd rfl h
        · cases h
  | cons x xs ih =>
    cases ys with
    | nil =>
      constructor
      · intro h
        exact ⟨[], [], x :: xs, [], rfl, rfl, .nil, .inr (.inl ⟨by simp, rfl, (ok_inj.1 h).symm⟩)⟩
      · rintro ⟨pre, pre', rest, rest', h1, h2, h3, h4⟩
        obtain ⟨rfl, rfl⟩ := List.append_eq_nil_iff.1 h2.symm
        rcases h4 with ⟨_, h, _⟩ | ⟨_, _, rfl⟩ | ⟨_, _, _, _, _, h, _⟩
        · exact absurd rfl h
        · rfl
        · cases h
    | cons y ys =>
      by_cases h0 : c x y = .ok 0
      · have : lexR c (x :: xs) (y :: ys) = lexR c xs ys := by simp only [lexR, h0, if_true]
        rw [this, ih]
        constructor
        · rintro ⟨pre, pre', rest, rest', rfl, rfl, h3, h4⟩
          exact ⟨x :: pre, y :: pre', rest, rest', rfl, rfl, .cons h0 h3, h4⟩
        · rintro ⟨pre, pre', rest, rest', h1, h2, h3, h4⟩
          cases h3 with
          | nil =>
            simp only [List.nil_append] at h1 h2
            subst h1; subst h2
            rcases h4 with ⟨h, _⟩ | ⟨_, h, _⟩ | ⟨_, _, _, _, h, h', h5⟩
            · cases h
            · cases h
            · cases h; cases h'
              rw [h0] at h5
              exact absurd (ok_inj.1 h5).symm hr
          | cons ha hb =>
            simp only [List.cons_append, List.cons.injEq] at h1 h2
            obtain ⟨rfl, rfl⟩ := h1
            obtain ⟨rfl, rfl⟩ := h2
            exact ⟨_, _, rest, rest', rfl, rfl, hb, h4⟩
      · have hl : lexR c (x :: xs) (y :: ys) = c x y := by
          simp only [lexR]
          cases h : c x y with
          | error => rfl
          | ok q => simp only [if_neg (fun hq : q = 0 => h0 (by rw [h, hq]))]
        rw [hl]
        constructor
        · intro h
          exact ⟨[], [], _, _, rfl, rfl, .nil, .inr (.inr ⟨x, y, xs, ys, rfl, rfl, h⟩)⟩
        · rintro ⟨pre, pre', rest, rest', h1, h2, h3, h4⟩
          cases h3 with
          | nil =>
            simp only [List.nil_append] at h1 h2
            subst h1; subst h2
            rcases h4 with ⟨h, _⟩ | ⟨_, h, _⟩ | ⟨_, _, _, _, h, h', h5⟩
            · cases h
            · cases h
            · cases h; cases h'; exact h5
          | cons ha hb =>
            simp only [List.cons_append, List.cons.injEq] at h1 h2
            obtain ⟨rfl, rfl⟩ := h1
            obtain ⟨rfl, rfl⟩ := h2
            exact absurd ha h0

/-- Arrays: the first pair of elements that differ decides; a proper prefix comes first. -/
theorem array_order {env : Env} {n : Nat} {t : AType} {xs ys : List Val} {r : Int} (hr : r ≠ 0) :
    cmp env (n + 1) (.array t) (.arr xs) (.arr ys) = .ok r ↔
    ∃ pre pre' rest rest', xs = pre ++ rest ∧ ys = pre' ++ rest' ∧
      List.Forall₂ (fun x y => cmp env n t x y = .ok 0) pre pre' ∧
      ((rest = [] ∧ rest' ≠ [] ∧ r = -1) ∨ (rest ≠ [] ∧ rest' = [] ∧ r = 1) ∨
        ∃ x y u v, rest = x :: u ∧ rest' = y :: v ∧ cmp env n t x y = .ok r) := lexR_nonzero hr

/-- Unions: data of different members are in the order of the members; null counts as its member. -/
theorem union_member_order {env : Env} {U : AType → Prop} (hU : Ordered env U) {n : Nat} {ts : List AType}
    (ht : U (.union ts)) {i j : Nat} {s t : AType} (hs : ts[i]? = some s) (hj : ts[j]? = some t) (hij : i < j) {x y : Val}
    (hd : ts.Nodup) (hx : Fit env n s x) (hy : Fit env n t y) :
    cmp env (n + 1) (.union ts) (tagAs s x) (tagAs t y) = .ok (-1) ∧
    cmp env (n + 1) (.union ts) (tagAs t y) (tagAs s x) = .ok 1 := by
  have fit : ∀ {s : AType} {x : Val}, s ∈ ts → Fit env n s x → Fit env (n + 1) (.union ts) (tagAs s x) := by
    intro s x hs hx
    by_cases h : s = .null
    · subst h
      have : x = .null := by
        cases n with
        | zero => exact hx.elim
        | succ n => exact hx
      subst this
      exact .inl ⟨rfl, hs, hx⟩
    · refine .inr ⟨s, hs, h, x, ?_, hx⟩
      simp [tagAs, h]
  have res : ∀ {i : Nat} {s : AType} {x : Val}, ts[i]? = some s → Fit env n s x →
      resolve (enc true env n) ts (tagAs s x) = .ok (i, s, x) := by
    intro i s x hs hx
    have hm := List.mem_of_getElem? hs
    have uniq : ∀ k, ts[k]? = some s → k = i := by
      intro k hk
      obtain ⟨h1, h2⟩ := List.getElem?_eq_some_iff.1 hk
      obtain ⟨h3, h4⟩ := List.getElem?_eq_some_iff.1 hs
      exact (List.Nodup.getElem_inj_iff hd).1 (h2.trans h4.symm)
    by_cases h : s = .null
    · subst h
      cases n with
      | zero => exact hx.elim
      | succ n =>
        have : x = .null := hx
        subst this
        obtain ⟨k, h1, h2⟩ := lastEnc_spec (g := enc true env (n + 1)) (v := .null) (u := .null) (t := .null) (ts := ts) rfl
          (fun t' ht' hne => enc_null hne (fun us he => hU.flat ts us ht (he ▸ ht'))) 0 none (.inl hm)
        have h3 : ts[k]? = some .null := by
          rcases h2 with ⟨_, h2⟩ | h2
          · simpa using h2
          · cases h2
        simp only [tagAs, if_true, resolve, h1, uniq k h3]
    · obtain ⟨k, h1, h2⟩ := findTag_spec hm rfl (fun t' ht' he => hU.tags ts s t' ht hm ht' he) 0
      simp only [tagAs, if_neg h, resolve, h1, Nat.zero_add, uniq k h2]
  simp only [cmp, cmpStep, res hs hx, res hj hy]
  rw [if_neg (by omega), if_neg (by omega)]
  constructor
  · simp [sgn, hij]
  · simp [sgn, hij, not_lt.2 (le_of_lt hij)]

/-- Text is ordered by code points, the first difference deciding and prefixes first. -/
theorem string_order (a b : String) : (strCmp a b = .ok (-1) ↔ a.toList.map Char.toNat < b.toList.map Char.toNat) := by
  unfold strCmp
  generalize a.toList = xs
  generalize b.toList = ys
  induction xs generalizing ys with
  | nil => cases ys <;> simp [lexR]
  | cons x xs ih =>
    cases ys with
    | nil => simp [lexR]
    | cons y ys =>
      simp only [lexR, List.map_cons, List.cons_lt_cons_iff]
      rcases lt_trichotomy x.toNat y.toNat with h | h | h
      · simp [sgn, h]
      · have h0 : sgn x.toNat y.toNat = 0 := by simp [sgn, h]
        simp only [h0, if_true, ih ys]
        simp [h]
      · simp [sgn, h, not_lt.2 h.le, h.ne']

/-- The other leaves: numbers by value with NaN last among doubles, false before true, symbols of an
enumeration in declared order. -/
theorem leaf_order (env : Env) (n : Nat) :
    (∀ a b, cmp env (n + 1) .boolean (.bool a) (.bool b) = .ok (-1) ↔ a = false ∧ b = true) ∧
    (∀ a b, cmp env (n + 1) .int (.int a) (.int b) = .ok (-1) ↔ a < b) ∧
    (∀ a b, cmp env (n + 1) .long (.int a) (.int b) = .ok (-1) ↔ a < b) ∧
    (∀ a b : ℚ, cmp env (n + 1) .float (.flt (.fin a)) (.flt (.fin b)) = .ok (-1) ↔ a < b) ∧
    (∀ a b : ℚ, cmp env (n + 1) .double (.flt (.fin a)) (.flt (.fin b)) = .ok (-1) ↔ a < b) ∧
    (∀ a, cmp env (n + 1) .double (.flt a) (.flt .nan) = .ok (-1) ↔ a ≠ .nan) ∧
    (∀ m syms a b, a ∈ syms → b ∈ syms →
      (cmp env (n + 1) (.enum m syms) (.str a) (.str b) = .ok (-1) ↔ syms.idxOf a < syms.idxOf b)) := by
  have neg : ∀ {β : Type} [LinearOrder β] (a b : β), (sgn a b = -1 ↔ a < b) := by
    intro β _ a b
    unfold sgn
    rcases lt_trichotomy a b with h | h | h
    · simp [h]
    · simp [h]
    · simp [h, not_lt.2 h.le]
  refine ⟨?_, fun a b => ?_, fun a b => ?_, fun a b => ?_, fun a b => ?_, fun a => ?_, fun m syms a b ha hb => ?_⟩
  · intro a b; cases a <;> cases b <;> simp [cmp, cmpStep, sgn]
  · simp only [cmp, cmpStep, ok_inj, neg]
  · simp only [cmp, cmpStep, ok_inj, neg]
  · simp only [cmp, cmpStep, numVal, ok_inj]
    rw [fltSgn_key (by simp) (by simp), neg]
    simp [fltKey, Prod.Lex.toLex_lt_toLex]
  · simp only [cmp, cmpStep, numVal, dblCmp, isNan, ok_inj]
    simp only [reduceCtorEq, decide_false, Bool.false_eq_true, if_false]
    rw [fltSgn_key (by simp) (by simp), neg]
    simp [fltKey, Prod.Lex.toLex_lt_toLex]
  · simp only [cmp, cmpStep, numVal, dblCmp, isNan, ok_inj]
    by_cases h : a = .nan <;> simp [h]
  · simp only [cmp, cmpStep, if_pos (And.intro ha hb), ok_inj, neg]

/-! ## The operators (lib/core.py 219-294) -/

/-- `cmp` (line 226). -/
def opCmp (env : Env) (n : Nat) (t : AType) (x y : Val) : Res Int := cmp env n t x y
/-- `==` (line 236). -/
def opEq (env : Env) (n : Nat) (t : AType) (x y : Val) : Res Bool := Res.app (fun c => decide (c = 0)) (cmp env n t x y)
/-- `>=` (line 246). -/
def opGe (env : Env) (n : Nat) (t : AType) (x y : Val) : Res Bool := Res.app (fun c => decide (c ≥ 0)) (cmp env n t x y)
/-- `>` (line 256). -/
def opGt (env : Env) (n : Nat) (t : AType) (x y : Val) : Res Bool := Res.app (fun c => decide (c > 0)) (cmp env n t x y)
/-- `!=` (line 266). -/
def opNe (env : Env) (n : Nat) (t : AType) (x y : Val) : Res Bool := Res.app (fun c => decide (c ≠ 0)) (cmp env n t x y)
/-- `<` (line 276). -/
def opLt (env : Env) (n : Nat) (t : AType) (x y : Val) : Res Bool := Res.app (fun c => decide (c < 0)) (cmp env n t x y)
/-- `<=` (line 286). -/
def opLe (env : Env) (n : Nat) (t : AType) (x y : Val) : Res Bool := Res.app (fun c => decide (c ≤ 0)) (cmp env n t x y)
/-- `max` (line 296). -/
def opMax (env : Env) (n : Nat) (t : AType) (x y : Val) : Res Val := Res.app (fun c => if c ≥ 0 then x else y) (cmp env n t x y)
/-- `min` (line 306). -/
def opMin (env : Env) (n : Nat) (t : AType) (x y : Val) : Res Val := Res.app (fun c => if c < 0 then x else y) (cmp env n t x y)

section
variable {L : Lim} {env : Env} {U : AType → Prop} (hL : Plain L) (hU : Ordered env U) {t : AType} (ht : U t)
include hL hU ht

/-- C28: exactly one of `<`, `==`, `>` holds, the other operators follow from them, and swapping the
arguments swaps `<` with `>`. -/
theorem operators_agree_partial {x y : Val} (hx : Good L env U t x) (hy : Good L env U t y) :
    ∃ N, ∀ n ≥ N, ∃ lt eq gt : Bool,
      (lt, eq, gt) ∈ [(true, false, false), (false, true, false), (false, false, true)] ∧
      opLt env n t x y = .ok lt ∧ opEq env n t x y = .ok eq ∧ opGt env n t x y = .ok gt ∧
      opLe env n t x y = .ok (lt || eq) ∧ opGe env n t x y = .ok (gt || eq) ∧ opNe env n t x y = .ok (!eq) ∧
      opCmp env n t x y = .ok (if lt then -1 else if gt then 1 else 0) ∧
      opLt env n t y x = .ok gt ∧ opEq env n t y x = .ok eq ∧ opGt env n t y x = .ok lt := by
  obtain ⟨r, hr, ⟨N, hN⟩, ⟨M, hM⟩⟩ := compare_total_partial hL hU ht hx hy
  refine ⟨max N M, fun n hn => ⟨decide (r < 0), decide (r = 0), decide (0 < r), ?_⟩⟩
  simp only [opLt, opEq, opGt, opLe, opGe, opNe, opCmp, hN n (by omega), hM n (by omega), Res.app]
  rcases hr with rfl | rfl | rfl <;> simp

/-- C28: `max` and `min` return one argument each, together both, and bound both. -/
theorem max_min_partial {x y : Val} (hx : Good L env U t x) (hy : Good L env U t y) :
    ∃ N, ∀ n ≥ N, ∃ a b, opMax env n t x y = .ok a ∧ opMin env n t x y = .ok b ∧ (a = x ∧ b = y ∨ a = y ∧ b = x) ∧
      opLe env n t x a = .ok true ∧ opLe env n t y a = .ok true ∧
      opLe env n t b x = .ok true ∧ opLe env n t b y = .ok true := by
  obtain ⟨r, hr, ⟨N, hN⟩, ⟨M, hM⟩⟩ := compare_total_partial hL hU ht hx hy
  obtain ⟨K, hK⟩ := compare_refl_partial hL hU ht hx
  obtain ⟨J, hJ⟩ := compare_refl_partial hL hU ht hy
  refine ⟨max (max N M) (max K J), fun n hn => ?_⟩
  simp only [opMax, opMin, hN n (by omega), Res.app]
  refine ⟨_, _, rfl, rfl, ?_⟩
  rcases hr with rfl | rfl | rfl <;>
    simp [opLe, hN n (by omega), hM n (by omega), hK n (by omega), hJ n (by omega), Res.app]

end

/-! ## Where the order fails -/

/-- With NaN in a `float` comparison is not transitive: the code that puts NaN last is unreachable
(datatype.py 1051-1060). -/
theorem cmp_nan_violation (env : Env) (n : Nat) :
    cmp env (n + 1) .float (.flt (.fin 2)) (.flt .nan) = .ok 0 ∧
    cmp env (n + 1) .float (.flt .nan) (.flt (.fin 1)) = .ok 0 ∧
    cmp env (n + 1) .float (.flt (.fin 2)) (.flt (.fin 1)) = .ok 1 := by
  refine ⟨rfl, rfl, ?_⟩
  simp [cmp, cmpStep, numVal, fltSgn, fltLt]

/-- `max` depends on the order of its arguments when one is NaN. -/
theorem max_nan_violation (env : Env) (n : Nat) :
    opMax env (n + 1) .float (.flt .nan) (.flt (.fin 1)) = .ok (.flt .nan) ∧
    opMax env (n + 1) .float (.flt (.fin 1)) (.flt .nan) = .ok (.flt (.fin 1)) := ⟨rfl, rfl⟩

/-- Equality of maps is accepted by the type checker and always fails at run time. -/
theorem cmp_map_violation (env : Env) (n : Nat) (t : AType) (d e : List (String × Val)) :
    opEq env (n + 1) (.map t) (.dict d) (.dict e) = .error (.py "NotImplementedError") := rfl

/-- Input of type bytes is a `bytes` object (`chk_bytes_violation`), and comparing it raises TypeError. -/
theorem cmp_bytes_violation (env : Env) (n : Nat) (a b : List Nat) :
    cmp env (n + 1) .bytes (.bytes a) (.bytes b) = .error (.py "TypeError") := by
  simp [cmp, cmpStep, mismatch2, hasBytes]

/-- A datum of a narrower union, accepted where the wider union is expected, keeps its tag and makes
comparison fail. -/
theorem cmp_promoted_violation (env : Env) (n : Nat) :
    accepts env env (.union [.double, .string]) (.union [.int, .string]) = true ∧
    cmp env (n + 1) (.union [.double, .string]) (.dict [("int", .int 3)]) (.dict [("string", .str "a")]) =
      .error (.py "IndexError") := by
  constructor
  · rfl
  · rfl

/-! ## A concrete case: a recursive type -/

theorem treeTypes_ordered : Ordered treeEnv treeTypes where
  toTags := treeTypes_tags
  noMap t h := by rcases h with h | h | h | h <;> cases h
  flat ts us h hm := by
    rcases h with h | h | h | h <;> cases h
    simp at hm

theorem tree_good : Good strict treeEnv treeTypes (.record ⟨"", "Tree"⟩)
    (.dict [("right", .null), ("value", .int 7), ("left", .null)]) :=
  ⟨tree_conf, fun h => by rcases h with h | h | h | h <;> cases h⟩

example : Cmp treeEnv (.record ⟨"", "Tree"⟩) (.dict [("right", .null), ("value", .int 7), ("left", .null)])
    (.dict [("right", .null), ("value", .int 7), ("left", .null)]) 0 :=
  compare_refl_partial strict_plain treeTypes_ordered (.inl rfl) tree_good

/-- A smaller value compares as smaller whatever follows. -/
example : cmp treeEnv 5 (.record ⟨"", "Tree"⟩) (.dict [("right", .null), ("value", .int 6), ("left", .null)])
    (.dict [("right", .null), ("value", .int 7), ("left", .null)]) = .ok (-1) := by rfl

/-- Null is the first member here, so it comes first. -/
example : cmp treeEnv 5 (.union [.null, .record ⟨"", "Tree"⟩])
    (.dict [("Tree", .dict [("right", .null), ("value", .int 6), ("left", .null)])]) .null = .ok 1 := by rfl

end Verif.Avro
