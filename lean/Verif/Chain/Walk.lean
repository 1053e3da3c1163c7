import Verif.Chain.Sim
/-!
# Chaining of engines: code inside the chain and on its own (C84)

If an engine passes the check, so does its code inside the chain, with the same types, and the generated code does
the same (`walk_chain`).  `CleanE` says which programs: those that use none of the constructions that `chain.py` gets
wrong, and whose types keep their names.
-/

namespace Verif.Chain
open Avro Scope Path Sig Ast Lang

/-! ## Which programs -/

mutual
/-- `act`: the code of an action, `begin` or `end`, where the names can be read; inside of functions they cannot. -/
def CleanE (R : Ren) (names : List String) (act : Bool) : Ex → Prop
  | .fcnDef ps r body => (∀ p ∈ ps, p.1 ∉ names ∧ R.type p.2 = p.2) ∧ R.type r = r ∧ CleanL R names false body
  | .fcnRef n => R.emit.isSome → n ≠ "emit"
  | .fcnRefFill n fill => (R.emit.isSome → n ≠ "emit") ∧ CleanN R names act fill
  | .callUser _ _ => False
  | .call _ args => CleanL R names act args
  | .ref x => act = true ∨ x ∉ names
  | .litNull => True
  | .litBool _ => True
  | .litInt _ => True
  | .litLong _ => True
  | .litFloat _ => True
  | .litDouble _ => True
  | .litString _ => True
  | .litBase64 _ => True
  | .literal t _ => R.type t = t
  | .newObject fs t => CleanN R names act fs ∧ R.type t = t
  | .newArray is _ => CleanL R names act is
  | .do_ body => CleanL R names act body
  | .let_ vs => (∀ x ∈ vs.map Prod.fst, x ∉ names) ∧ CleanN R names act vs
  | .setVar vs => (∀ x ∈ vs.map Prod.fst, x ∉ names) ∧ CleanN R names act vs
  | .attrGet x p => CleanE R names act x ∧ CleanL R names act p
  | .attrTo x p r => CleanE R names act x ∧ CleanL R names act p ∧ CleanE R names act r
  | .cellGet _ p => CleanL R names act p
  | .cellTo _ p r => CleanL R names act p ∧ CleanE R names act r
  | .poolGet _ p => CleanL R names act p
  | .poolTo _ p r i => CleanL R names act p ∧ CleanE R names act r ∧ CleanE R names act i
  | .poolDel _ _ => False
  | .if_ p t e => CleanE R names act p ∧ CleanL R names act t ∧ CleanL R names act e
  | .cond its e => CleanL R names act its ∧ CleanL R names act e
  | .while_ p b => CleanE R names act p ∧ CleanL R names act b
  | .doUntil b p => CleanL R names act b ∧ CleanE R names act p
  | .for_ i p s b => (∀ x ∈ i.map Prod.fst, x ∉ names) ∧ (∀ x ∈ s.map Prod.fst, x ∉ names) ∧
      CleanN R names act i ∧ CleanE R names act p ∧ CleanN R names act s ∧ CleanL R names act b
  | .foreach n a b _ => n ∉ names ∧ CleanE R names act a ∧ CleanL R names act b
  | .forkeyval k v m b => k ∉ names ∧ v ∉ names ∧ CleanE R names act m ∧ CleanL R names act b
  | .castCase t n b => R.type t = t ∧ n ∉ names ∧ CleanL R names act b
  | .castBlock x cs _ => CleanE R names act x ∧ CleanL R names act cs
  | .upcast x t => CleanE R names act x ∧ R.type t = t
  | .ifNotNull xs t e => (∀ x ∈ xs.map Prod.fst, x ∉ names) ∧ CleanN R names act xs ∧ CleanL R names act t ∧ CleanL R names act e
  | .pack xs => CleanN R names act xs
  | .unpack b f t e => (∀ x ∈ f.map Prod.fst, x ∉ names) ∧ CleanE R names act b ∧ CleanL R names act t ∧ CleanL R names act e
  | .doc _ => True
  | .error _ _ => True
  | .try_ xs _ => CleanL R names act xs
  | .log xs _ => CleanL R names act xs
/-- All expressions. -/
def CleanL (R : Ren) (names : List String) (act : Bool) : List Ex → Prop
  | [] => True
  | e :: es => CleanE R names act e ∧ CleanL R names act es
/-- All members. -/
def CleanN (R : Ren) (names : List String) (act : Bool) : List (String × Ex) → Prop
  | [] => True
  | (_, e) :: es => CleanE R names act e ∧ CleanN R names act es
end

/-! ## Results of the check -/

/-- If the first passes, so does the second. -/
def RSim {α β : Type} (Q : α → β → Prop) (r : Res α) (r' : Res β) : Prop := ∀ a, r = .ok a → ∃ b, r' = .ok b ∧ Q a b

section
variable {α β γ δ : Type} {Q : α → β → Prop} {S : γ → δ → Prop}

theorem RSim.ok {a : α} {b : β} (h : Q a b) : RSim Q (.ok a) (.ok b) := fun _ h1 => by cases h1; exact ⟨b, rfl, h⟩

theorem RSim.error {e : Err} {r : Res β} : RSim Q (.error e) r := fun _ h => by cases h

theorem RSim.bind {r : Res α} {r' : Res β} {f : α → Res γ} {f' : β → Res δ} (h : RSim Q r r') (hf : ∀ a b, Q a b → RSim S (f a) (f' b)) :
    RSim S (r >>= f) (r' >>= f') := by
  intro c hc
  obtain ⟨a, h1, h2⟩ := ebind.1 hc
  obtain ⟨b, h3, h4⟩ := h a h1
  obtain ⟨d, h5, h6⟩ := hf a b h4 c h2
  exact ⟨d, ebind.2 ⟨b, h3, h5⟩, h6⟩

theorem RSim.same (r : Res α) : RSim Same r r := fun a h => ⟨a, h, rfl⟩

theorem RSim.req {b b' : Bool} (h : b = true → b' = true) : RSim Same (Lang.req b) (Lang.req b') := by
  intro u hu
  rw [req_iff] at hu
  exact ⟨(), by rw [req_iff]; exact h hu, rfl⟩

theorem RSim.bindS {r r' : Res α} {f : α → Res γ} {f' : α → Res δ} (h : RSim Same r r') (hf : ∀ a, RSim S (f a) (f' a)) :
    RSim S (r >>= f) (r' >>= f') := RSim.bind h (fun a b hab => by cases hab; exact hf a)

theorem RSim.check {b b' : Bool} {f f' : Unit → Res γ} {Q : γ → γ → Prop} (h : b = true → b' = true) (hf : RSim Q (f ()) (f' ())) :
    RSim Q (Lang.req b >>= f) (Lang.req b' >>= f') := RSim.bindS (RSim.req h) (fun _ => hf)

end

/-! ## Symbol tables -/

/-- Tables of the engine and of the chain: the same symbols but for those that have become cells. -/
structure GRel (names : List String) (T : String → AType) (act : Bool) (Γ Γ' : SymTab) : Prop where
  ne : Γ ≠ []
  ne' : Γ' ≠ []
  find : ∀ x, x ∉ names → Γ'.find x = Γ.find x
  writable : ∀ x, x ∉ names → Γ.writable x = true → Γ'.writable x = true
  within : Γ'.within = Γ.within
  cells : act = true → ∀ x ∈ names, Γ.find x = some (some (.avro (T x)))

section
variable {names : List String} {T : String → AType} {act : Bool} {Γ Γ' : SymTab}

theorem find_put {x : String} {t : Ty} (hne : Γ ≠ []) (y : String) : (Γ.put x t).find y = if y = x then some t else Γ.find y := by
  cases Γ with
  | nil => exact (hne rfl).elim
  | cons s up =>
    simp only [SymTab.put, SymTab.find]
    by_cases hy : y = x
    · subst hy; rw [PyDict.get?_set_self, if_pos rfl]
    · rw [PyDict.get?_set_ne _ _ (fun h => hy h.symm), if_neg hy]

theorem writable_put {x : String} {t : Ty} (hne : Γ ≠ []) (y : String) :
    (Γ.put x t).writable y = if Γ.within then false else if y = x then true else Γ.writable y := by
  cases Γ with
  | nil => exact (hne rfl).elim
  | cons s up =>
    obtain ⟨sy, ab, wi⟩ := s
    cases wi with
    | true => rfl
    | false =>
      show (match (sy.set x t).get? y with
        | some _ => true
        | none => if ab then false else SymTab.writable up y) = if y = x then true else (match sy.get? y with
        | some _ => true
        | none => if ab then false else SymTab.writable up y)
      by_cases hy : y = x
      · subst hy; rw [PyDict.get?_set_self, if_pos rfl]
      · rw [PyDict.get?_set_ne _ _ (fun h => hy h.symm), if_neg hy]

theorem GRel.new (h : GRel names T act Γ Γ') (above within : Bool) : GRel names T act (Γ.new above within) (Γ'.new above within) := by
  refine ⟨by simp [SymTab.new], by simp [SymTab.new], fun x hx => h.find x hx, fun x hx => ?_, rfl, fun ha x hx => h.cells ha x hx⟩
  simp only [SymTab.new, SymTab.writable, PyDict.get?_nil]
  cases within <;> cases above <;> simp
  exact h.writable x hx

theorem GRel.put (h : GRel names T act Γ Γ') {x : String} (hx : x ∉ names) (t : Ty) : GRel names T act (Γ.put x t) (Γ'.put x t) := by
  have hn := h.ne
  have hn' := h.ne'
  refine ⟨?_, ?_, fun y hy => ?_, fun y hy => ?_, ?_, fun ha y hy => ?_⟩
  · cases Γ with
    | nil => exact (hn rfl).elim
    | cons s up => simp [SymTab.put]
  · cases Γ' with
    | nil => exact (hn' rfl).elim
    | cons s up => simp [SymTab.put]
  · rw [find_put hn', find_put hn, h.find y hy]
  · rw [writable_put hn', writable_put hn, h.within]
    by_cases hw : Γ.within = true
    · rw [if_pos hw]; intro h; cases h
    · rw [if_neg hw, if_neg hw]
      by_cases hyx : y = x
      · rw [if_pos hyx, if_pos hyx]; exact id
      · rw [if_neg hyx, if_neg hyx]; exact h.writable y hy
  · have hw := h.within
    cases Γ with
    | nil => exact (hn rfl).elim
    | cons s up => cases Γ' with
      | nil => exact (hn' rfl).elim
      | cons s' up' => exact hw
  · rw [find_put hn, if_neg (by rintro rfl; exact hx hy)]; exact h.cells ha y hy

theorem GRel.putAll {ts : List (String × Ty)} (hts : ∀ x ∈ ts.map Prod.fst, x ∉ names) : ∀ {Γ Γ' : SymTab}, GRel names T act Γ Γ' →
    GRel names T act (Lang.putAll Γ ts) (Lang.putAll Γ' ts) := by
  induction ts with
  | nil => intro _ _ h; exact h
  | cons p ts ih =>
    intro _ _ h
    exact ih (fun x hx => hts x (List.mem_cons_of_mem _ hx)) (h.put (hts _ (List.mem_cons_self ..)) p.2)

theorem GRel.dead (h : GRel names T act Γ Γ') : GRel names T false Γ Γ' := ⟨h.ne, h.ne', h.find, h.writable, h.within, fun h => by cases h⟩

end

/-! ## Programs -/

/-- The signature of `emit` (pfaast.py 345-356). -/
def emitSig (t : AType) : Sig1 := ⟨[("output", fromType t)], .null, ⟨none, none, none⟩⟩

/-- The program of the chain contains that of the engine, under new names. -/
structure PRel (R : Ren) (X : Ctx) (T : String → AType) (P P' : Prog) : Prop where
  same : P' = { P with cells := P'.cells, pools := P'.pools, funs := P'.funs }
  cells : ∀ c t, P.cells.get? c = some t → P'.cells.get? (R.cell c) = some t ∧ X.cell c (R.cell c)
  special : ∀ x ∈ X.names, P'.cells.get? x = some (T x)
  pools : ∀ c t, P.pools.get? c = some t → P'.pools.get? (R.pool c) = some t ∧ X.pool c (R.pool c)
  user : ∀ n ps r b, P.funs.get? n = some (.user ps r b) → (R.emit.isSome → n ≠ "emit") ∧
    ∃ b', P'.funs.get? (R.fcn n) = some (.user ps r b')
  lib : ∀ n sigs, P.funs.get? n = some (.lib sigs) → (R.emit.isSome → n ≠ "emit") → R.fcn n = n ∧ P'.funs.get? n = some (.lib sigs)
  emit : ∀ next, R.emit = some next → ∃ t x b, P.funs.get? "emit" = some (.lib [emitSig t]) ∧ P'.funs.get? next = some (.user [(x, t)] .null b) ∧
    ∀ u o, sigsAccept P.env [emitSig t] [u] P.version = .ok (some o) → accTy P Guard.all t (some u) = true

/-- The two engine objects. -/
structure RtRel (R : Ren) (X : Ctx) (P : Prog) (rt rt' : Rt) : Prop where
  fuel : rt'.fuel = rt.fuel
  limit : rt.expired = noLimit
  limit' : rt'.expired = noLimit
  user : ∀ n ps r b, P.funs.get? n = some (.user ps r b) → ∀ k vs, Sim X k Same (callUserFn rt n vs) (callUserFn rt' (R.fcn n) vs)
  lib : ∀ n sigs, P.funs.get? n = some (.lib sigs) → (R.emit.isSome → n ≠ "emit") → ∀ k pt as as', List.Forall₂ (ARel X k) as as' →
    Sim X k Same (rt.lib n pt as) (rt'.lib n pt as')
  emit : ∀ next, R.emit = some next → ∀ k pt a a', ARel X k a a' →
    Sim X k Same (rt.lib "emit" pt [a]) (lift (vals [a']) >>= fun vs => inFresh (callUserFn rt' next vs))

/-- Everything that is fixed in what follows. -/
structure Setting (R : Ren) (X : Ctx) (T : String → AType) (P P' : Prog) : Prop where
  fits : X.Fits
  prog : PRel R X T P P'
  sp : ∀ x ∈ X.names, ∃ v, (x, v) ∈ X.sp
  dollar : ∀ j : Nat, "$" ++ toString j ∉ X.names

/-- The names that the replacer turns into cells. -/
def vars (X : Ctx) (act : Bool) : List String := if act then X.names else []

section
variable {R : Ren} {X : Ctx} {T : String → AType} {P P' : Prog} {act : Bool}

variable (R X P act) in
/-- Code of expressions. -/
def CSim (m m' : Rt → M Val) : Prop := ∀ rt rt', RtRel R X P rt rt' → ∀ k, (act = true → k = true) → Sim X k Same (m rt) (m' rt')

variable (R X P act) in
/-- Code of arguments. -/
inductive CodeRel : Code → Code → Prop where
  | expr {m m' : Rt → M Val} : CSim R X P act m m' → CodeRel (.expr m) (.expr m')
  | fn (b : Bool) {f f' : Rt → List Val → M Val} :
    (∀ rt rt', RtRel R X P rt rt' → ∀ k, (act = true → k = true) → ∀ vs, Sim X k Same (f rt vs) (f' rt' vs)) → CodeRel (.fn b f) (.fn b f')

variable (R X P act) in
/-- Code that gives an argument. -/
def ASim (m m' : Rt → M Arg) : Prop := ∀ rt rt', RtRel R X P rt rt' → ∀ k, (act = true → k = true) → Sim X k (ARel X k) (m rt) (m' rt')

variable (R X T P act) in
/-- Results of `walk`. -/
def OutRel (a b : Ty × Code × SymTab) : Prop := b.1 = a.1 ∧ CodeRel R X P act a.2.1 b.2.1 ∧ GRel X.names T act a.2.2 b.2.2

variable (R X T P act) in
/-- Results of `walk` for an expression. -/
def ERel (a b : Ty × (Rt → M Val) × SymTab) : Prop := b.1 = a.1 ∧ CSim R X P act a.2.1 b.2.1 ∧ GRel X.names T act a.2.2 b.2.2

variable (R X T P act) in
/-- Results of `walk` for several expressions. -/
def LRel (a b : List Ty × List (Rt → M Val) × SymTab) : Prop :=
  b.1 = a.1 ∧ List.Forall₂ (CSim R X P act) a.2.1 b.2.1 ∧ GRel X.names T act a.2.2 b.2.2

variable (R X T P act) in
/-- The check of the engine and the check of the chain. -/
def WSim (w w' : Walk) : Prop := ∀ e Γ Γ', CleanE R X.names act e → GRel X.names T act Γ Γ' →
  RSim (OutRel R X T P act) (w e Γ) (w' (chainE R (vars X act) e) Γ')

theorem CodeRel.toArg {c c' : Code} (h : CodeRel R X P act c c') : ASim R X P act c.toArg c'.toArg := by
  intro rt rt' hrt k hk
  cases h with
  | expr h => exact Sim.bindS (h rt rt' hrt k hk) (fun v => Sim.pure (.val v))
  | fn b h => exact Sim.pure (.fn b (fun vs => h rt rt' hrt k hk vs))

theorem runs {ms ms' : List (Rt → M Val)} (h : List.Forall₂ (CSim R X P act) ms ms') {rt rt' : Rt} (hrt : RtRel R X P rt rt') {k : Bool}
    (hk : act = true → k = true) : List.Forall₂ (Sim X k Same) (ms.map (· rt)) (ms'.map (· rt')) := by
  rw [List.forall₂_map_left_iff, List.forall₂_map_right_iff]
  exact h.imp (fun _ _ h => h rt rt' hrt k hk)

theorem runsD {ms ms' : List (String × (Rt → M Val))} (h : List.Forall₂ (MRel (CSim R X P act)) ms ms') {rt rt' : Rt} (hrt : RtRel R X P rt rt')
    {k : Bool} (hk : act = true → k = true) :
    List.Forall₂ (MRel (Sim X k Same)) (ms.map (fun km => (km.1, km.2 rt))) (ms'.map (fun km => (km.1, km.2 rt'))) := by
  rw [List.forall₂_map_left_iff, List.forall₂_map_right_iff]
  exact h.imp (fun _ _ h => ⟨h.1, h.2 rt rt' hrt k hk⟩)

theorem block_code {ms ms' : List (Rt → M Val)} (h : List.Forall₂ (CSim R X P act) ms ms') :
    CSim R X P act (fun rt => doM (ms.map (· rt))) (fun rt => doM (ms'.map (· rt))) := fun _ _ hrt _ hk => Sim.doM (runs h hrt hk)

/-! ### Several expressions -/

variable {w w' : Walk}

theorem walkE_sim (hw : WSim R X T P act w w') {e : Ex} {Γ Γ' : SymTab} (he : CleanE R X.names act e) (hΓ : GRel X.names T act Γ Γ') :
    RSim (ERel R X T P act) (walkE w e Γ) (walkE w' (chainE R (vars X act) e) Γ') := by
  intro a ha
  unfold walkE at ha
  cases h : w e Γ with
  | error e => rw [h] at ha; cases ha
  | ok r =>
    obtain ⟨t, c, Γ1⟩ := r
    obtain ⟨⟨t', c', Γ1'⟩, h1, h2, h3, h4⟩ := hw e Γ Γ' he hΓ _ h
    rw [h] at ha
    cases h2
    unfold walkE
    rw [h1]
    cases h3 with
    | expr h3 => cases ha; exact ⟨_, rfl, rfl, h3, h4⟩
    | fn b h3 => cases ha

theorem walkL_sim (hw : WSim R X T P act w w') {es : List Ex} : ∀ {Γ Γ' : SymTab}, CleanL R X.names act es → GRel X.names T act Γ Γ' →
    RSim (LRel R X T P act) (walkL w es Γ) (walkL w' (chainL R (vars X act) es) Γ') := by
  induction es with
  | nil => intro Γ Γ' _ hΓ; exact RSim.ok ⟨rfl, .nil, hΓ⟩
  | cons e es ih =>
    intro Γ Γ' he hΓ
    rw [CleanL] at he
    rw [chainL, walkL, walkL]
    refine RSim.bind (walkE_sim hw he.1 hΓ) ?_
    rintro ⟨t, m, Γ1⟩ ⟨t', m', Γ1'⟩ ⟨h1, h2, h3⟩
    cases h1
    refine RSim.bind (ih he.2 h3) ?_
    rintro ⟨ts, ms, Γ2⟩ ⟨ts', ms', Γ2'⟩ ⟨h4, h5, h6⟩
    cases h4
    exact RSim.ok ⟨rfl, .cons h2 h5, h6⟩

theorem walkA_sim (hw : WSim R X T P act w w') {es : List Ex} : ∀ {Γ Γ' : SymTab}, CleanL R X.names act es → GRel X.names T act Γ Γ' →
    RSim (fun a b : List Ty × List Code × SymTab => b.1 = a.1 ∧ List.Forall₂ (CodeRel R X P act) a.2.1 b.2.1 ∧ a.1.length = a.2.1.length ∧
      GRel X.names T act a.2.2 b.2.2)
      (walkA w es Γ) (walkA w' (chainL R (vars X act) es) Γ') := by
  induction es with
  | nil => intro Γ Γ' _ hΓ; exact RSim.ok ⟨rfl, .nil, rfl, hΓ⟩
  | cons e es ih =>
    intro Γ Γ' he hΓ
    rw [CleanL] at he
    rw [chainL, walkA, walkA]
    refine RSim.bind (hw e Γ Γ' he.1 hΓ) ?_
    rintro ⟨t, m, Γ1⟩ ⟨t', m', Γ1'⟩ ⟨h1, h2, h3⟩
    cases h1
    refine RSim.bind (ih he.2 h3) ?_
    rintro ⟨ts, ms, Γ2⟩ ⟨ts', ms', Γ2'⟩ ⟨h4, h5, h6, h7⟩
    cases h4
    exact RSim.ok ⟨rfl, .cons h2 h5, by simp only [List.length_cons]; rw [h6], h7⟩

theorem walkD_sim (hw : WSim R X T P act w w') {es : List (String × Ex)} : ∀ {Γ Γ' : SymTab}, CleanN R X.names act es → GRel X.names T act Γ Γ' →
    RSim (fun a b : List (String × Ty) × List (String × (Rt → M Val)) × SymTab => b.1 = a.1 ∧ List.Forall₂ (MRel (CSim R X P act)) a.2.1 b.2.1 ∧
      GRel X.names T act a.2.2 b.2.2) (walkD w es Γ) (walkD w' (chainN R (vars X act) es) Γ') := by
  induction es with
  | nil => intro Γ Γ' _ hΓ; exact RSim.ok ⟨rfl, .nil, hΓ⟩
  | cons e es ih =>
    intro Γ Γ' he hΓ
    obtain ⟨x, e⟩ := e
    rw [CleanN] at he
    rw [chainN, walkD, walkD]
    refine RSim.bind (walkE_sim hw he.1 hΓ) ?_
    rintro ⟨t, m, Γ1⟩ ⟨t', m', Γ1'⟩ ⟨h1, h2, h3⟩
    cases h1
    refine RSim.bind (ih he.2 h3) ?_
    rintro ⟨ts, ms, Γ2⟩ ⟨ts', ms', Γ2'⟩ ⟨h4, h5, h6⟩
    cases h4
    exact RSim.ok ⟨rfl, .cons ⟨rfl, h2⟩ h5, h6⟩

/-- Filled arguments. -/
def FillRel (R : Ren) (X : Ctx) (P : Prog) (act : Bool) (a b : String × Ty × Code) : Prop := b.1 = a.1 ∧ b.2.1 = a.2.1 ∧ CodeRel R X P act a.2.2 b.2.2

theorem walkDA_sim (hw : WSim R X T P act w w') {es : List (String × Ex)} : ∀ {Γ Γ' : SymTab}, CleanN R X.names act es → GRel X.names T act Γ Γ' →
    RSim (fun a b : List (String × Ty × Code) × SymTab => List.Forall₂ (FillRel R X P act) a.1 b.1)
      (walkDA w es Γ) (walkDA w' (chainN R (vars X act) es) Γ') := by
  induction es with
  | nil => intro Γ Γ' _ hΓ; exact RSim.ok .nil
  | cons e es ih =>
    intro Γ Γ' he hΓ
    obtain ⟨x, e⟩ := e
    rw [CleanN] at he
    rw [chainN, walkDA, walkDA]
    refine RSim.bind (hw e Γ Γ' he.1 hΓ) ?_
    rintro ⟨t, m, Γ1⟩ ⟨t', m', Γ1'⟩ ⟨h1, h2, h3⟩
    cases h1
    refine RSim.bind (ih he.2 h3) ?_
    rintro ⟨ts, Γ2⟩ ⟨ts', Γ2'⟩ h5
    exact RSim.ok (.cons ⟨rfl, rfl, h2⟩ h5)

theorem block_sim (hw : WSim R X T P act w w') {es : List Ex} {Γ Γ' : SymTab} (he : CleanL R X.names act es) (hΓ : GRel X.names T act Γ Γ') :
    RSim (ERel R X T P act) (block w es Γ) (block w' (chainL R (vars X act) es) Γ') := by
  unfold block
  refine RSim.bind (walkL_sim hw he hΓ) ?_
  rintro ⟨ts, ms, Γ2⟩ ⟨ts', ms', Γ2'⟩ ⟨h4, h5, h6⟩
  cases h4
  exact RSim.bindS (RSim.same _) (fun t => RSim.ok ⟨rfl, block_code h5, h6⟩)

theorem predicate_sim (hP : PRel R X T P P') (hw : WSim R X T P act w w') {e : Ex} {Γ Γ' : SymTab} (he : CleanE R X.names act e) (hΓ : GRel X.names T act Γ Γ') :
    RSim (CSim R X P act) (predicate P Guard.all w e Γ) (predicate P' Guard.all w' (chainE R (vars X act) e) Γ') := by
  rw [hP.same]
  unfold predicate
  refine RSim.bind (walkE_sim hw he (hΓ.new true true)) ?_
  rintro ⟨t, m, Γ1⟩ ⟨t', m', Γ1'⟩ ⟨h1, h2, h3⟩
  cases h1
  exact RSim.bindS (RSim.req id) (fun _ => RSim.ok h2)

theorem newVars_sim (hw : WSim R X T P act w w') {Γ Γ' : SymTab} (hΓ : GRel X.names T act Γ Γ') (r : Bool) {es : List (String × Ex)}
    (he : CleanN R X.names act es) (hx : ∀ x ∈ es.map Prod.fst, x ∉ X.names) :
    RSim (fun a b : List (String × Ty) × List (String × (Rt → M Val)) => b.1 = a.1 ∧ List.Forall₂ (MRel (CSim R X P act)) a.2 b.2 ∧
      (∀ x ∈ a.1.map Prod.fst, x ∉ X.names) ∧ (∀ x ∈ a.2.map Prod.fst, x ∉ X.names))
      (newVars w Γ r es) (newVars w' Γ' r (chainN R (vars X act) es)) := by
  induction es with
  | nil => exact RSim.ok ⟨rfl, .nil, by simp, by simp⟩
  | cons e es ih =>
    obtain ⟨x, e⟩ := e
    rw [CleanN] at he
    have hx1 : x ∉ X.names := hx x (List.mem_cons_self ..)
    rw [chainN, newVars, newVars]
    refine RSim.bindS (RSim.req (by rw [hΓ.find x hx1]; exact id)) (fun _ => RSim.bindS (RSim.req id) (fun _ => ?_))
    refine RSim.bind (walkE_sim hw he.1 (hΓ.new true true)) ?_
    rintro ⟨t, m, Γ1⟩ ⟨t', m', Γ1'⟩ ⟨h1, h2, h3⟩
    cases h1
    refine RSim.bindS (RSim.req id) (fun _ => RSim.bind (ih he.2 (fun y hy => hx y (List.mem_cons_of_mem _ hy))) ?_)
    rintro ⟨ts, ms⟩ ⟨ts', ms'⟩ ⟨h4, h5, h6, h7⟩
    cases h4
    refine RSim.ok ⟨rfl, .cons ⟨rfl, h2⟩ h5, ?_, ?_⟩
    · intro y hy
      rcases List.mem_cons.1 hy with rfl | hy
      · exact hx1
      · exact h6 y hy
    · intro y hy
      rcases List.mem_cons.1 hy with rfl | hy
      · exact hx1
      · exact h7 y hy

theorem assigns_sim (hP : PRel R X T P P') (hw : WSim R X T P act w w') {Γ Γ' : SymTab} (hΓ : GRel X.names T act Γ Γ') {es : List (String × Ex)}
    (he : CleanN R X.names act es) (hx : ∀ x ∈ es.map Prod.fst, x ∉ X.names) :
    RSim (fun a b : List (String × (Rt → M Val)) => List.Forall₂ (MRel (CSim R X P act)) a b ∧ (∀ x ∈ a.map Prod.fst, x ∉ X.names))
      (assigns P Guard.all w Γ es) (assigns P' Guard.all w' Γ' (chainN R (vars X act) es)) := by
  rw [hP.same]
  induction es with
  | nil => exact RSim.ok ⟨.nil, by simp⟩
  | cons e es ih =>
    obtain ⟨x, e⟩ := e
    rw [CleanN] at he
    have hx1 : x ∉ X.names := hx x (List.mem_cons_self ..)
    rw [chainN, assigns, assigns, hΓ.find x hx1]
    cases Γ.find x with
    | none => exact RSim.error
    | some t =>
      refine RSim.bindS (RSim.req (hΓ.writable x hx1)) (fun _ => ?_)
      refine RSim.bind (walkE_sim hw he.1 (hΓ.new true true)) ?_
      rintro ⟨u, m, Γ1⟩ ⟨u', m', Γ1'⟩ ⟨h1, h2, h3⟩
      cases h1
      have h4 : RSim (fun a b : List (String × (Rt → M Val)) => List.Forall₂ (MRel (CSim R X P act)) a b ∧ (∀ x ∈ a.map Prod.fst, x ∉ X.names))
          (assigns P Guard.all w Γ es >>= fun ms => .ok ((x, m) :: ms))
          (assigns { P with cells := P'.cells, pools := P'.pools, funs := P'.funs } Guard.all w' Γ' (chainN R (vars X act) es) >>= fun ms => .ok ((x, m') :: ms)) := by
        refine RSim.bind (ih he.2 (fun y hy => hx y (List.mem_cons_of_mem _ hy))) ?_
        rintro ms ms' ⟨h5, h6⟩
        refine RSim.ok ⟨.cons ⟨rfl, h2⟩ h5, ?_⟩
        intro y hy
        rcases List.mem_cons.1 hy with rfl | hy
        · exact hx1
        · exact h6 y hy
      rcases t with _ | (t | _ | _)
      · exact RSim.error
      · exact RSim.bindS (RSim.req id) (fun _ => h4)
      · exact RSim.error
      · exact RSim.error

theorem pathItem_sim (hP : PRel R X T P P') {t : AType} {e : Ex} {ty : Ty} {m m' : Rt → M Val} (he : CleanE R X.names act e) (hm : CSim R X P act m m') :
    RSim (fun a b : AType × (Rt → M Val) => b.1 = a.1 ∧ CSim R X P act a.2 b.2) (pathItem P t e ty m)
      (pathItem P' t (chainE R (vars X act) e) ty m') := by
  rw [hP.same]
  intro a ha
  unfold pathItem at ha
  split at ha
  · cases ha; exact ⟨_, rfl, rfl, hm⟩
  · cases ha; exact ⟨_, rfl, rfl, hm⟩
  · cases ha; exact ⟨_, rfl, rfl, hm⟩
  · next n =>
    have hself : ∀ s : String, CSim R X P act (fun _ => Pure.pure (Val.str s)) (fun _ => Pure.pure (Val.str s)) := fun s _ _ _ _ _ => Sim.pure rfl
    have key : ∀ s : String, (∀ e', (e' = E.litString s ∨ e' = .literal .string (.str s)) → ∀ m'', ∀ f, ((P.env.fields? n).getD []).find? (fun f => f.name = s) = some f →
        pathItem { P with cells := P'.cells, pools := P'.pools, funs := P'.funs } (.record n) e' (some (.avro .string)) m'' = .ok (f.type, fun _ => Pure.pure (Val.str s))) := by
      intro s e' he' m'' f hf
      rcases he' with rfl | rfl
      · simp only [pathItem, hf]
      · simp only [pathItem, hf]
    cases e with
    | litString s =>
      simp only at ha
      cases hf : ((P.env.fields? n).getD []).find? (fun f => f.name = s) with
      | none => rw [hf] at ha; cases ha
      | some f =>
        rw [hf] at ha; cases ha
        exact ⟨_, key s _ (.inl rfl) m' f hf, rfl, hself s⟩
    | literal t v =>
      rw [CleanE] at he
      rw [chainE, he]
      cases t <;> try (cases ha; done)
      cases v <;> try (cases ha; done)
      next s =>
      simp only at ha
      cases hf : ((P.env.fields? n).getD []).find? (fun f => f.name = s) with
      | none => rw [hf] at ha; cases ha
      | some f =>
        rw [hf] at ha; cases ha
        exact ⟨_, key s _ (.inr rfl) m' f hf, rfl, hself s⟩
    | _ => cases ha
  · cases ha

theorem walkPath_sim (hP : PRel R X T P P') (hw : WSim R X T P act w w') {es : List Ex} : ∀ {t : AType} {Γ Γ' : SymTab}, CleanL R X.names act es → GRel X.names T act Γ Γ' →
    RSim (fun a b : AType × List (Rt → M Val) × SymTab => b.1 = a.1 ∧ List.Forall₂ (CSim R X P act) a.2.1 b.2.1 ∧ GRel X.names T act a.2.2 b.2.2)
      (walkPath P w t es Γ) (walkPath P' w' t (chainL R (vars X act) es) Γ') := by
  induction es with
  | nil => intro t Γ Γ' _ hΓ; exact RSim.ok ⟨rfl, .nil, hΓ⟩
  | cons e es ih =>
    intro t Γ Γ' he hΓ
    rw [CleanL] at he
    rw [chainL, walkPath, walkPath]
    refine RSim.bind (walkE_sim hw he.1 hΓ) ?_
    rintro ⟨ty, m, Γ1⟩ ⟨ty', m', Γ1'⟩ ⟨h1, h2, h3⟩
    cases h1
    refine RSim.bind (pathItem_sim hP he.1 h2) ?_
    rintro ⟨t1, m1⟩ ⟨t1', m1'⟩ ⟨h4, h5⟩
    cases h4
    refine RSim.bind (ih he.2 h3) ?_
    rintro ⟨t2, ms, Γ2⟩ ⟨t2', ms', Γ2'⟩ ⟨h6, h7, h8⟩
    cases h6
    exact RSim.ok ⟨rfl, .cons h5 h7, h8⟩

theorem walkTo_sim (hP : PRel R X T P P') (hw : WSim R X T P act w w') {t : AType} {e : Ex} {Γ Γ' : SymTab} (he : CleanE R X.names act e) (hΓ : GRel X.names T act Γ Γ') :
    RSim (fun a b : (Rt → M Arg) × SymTab => ASim R X P act a.1 b.1 ∧ GRel X.names T act a.2 b.2)
      (walkTo P Guard.all w t e Γ) (walkTo P' Guard.all w' t (chainE R (vars X act) e) Γ') := by
  rw [hP.same]
  unfold walkTo
  refine RSim.bind (hw e Γ Γ' he hΓ) ?_
  rintro ⟨ty, c, Γ1⟩ ⟨ty', c', Γ1'⟩ ⟨h1, h2, h3⟩
  cases h1
  have h4 := h2.toArg
  cases h2 with
  | expr h => exact RSim.bindS (RSim.req id) (fun _ => RSim.ok ⟨h4, h3⟩)
  | fn b h =>
    dsimp only
    split
    · exact RSim.bindS (RSim.req id) (fun _ => RSim.ok ⟨h4, h3⟩)
    · exact RSim.error

/-- Parts of a cond node. -/
theorem walkIfs_sim (hP : PRel R X T P P') (hw : WSim R X T P act w w') {Γ Γ' : SymTab} (hΓ : GRel X.names T act Γ Γ') {es : List Ex} (he : CleanL R X.names act es) :
    RSim (fun a b : List Ty × List ((Rt → M Val) × (Rt → M Val)) => b.1 = a.1 ∧
      List.Forall₂ (fun x y => CSim R X P act x.1 y.1 ∧ CSim R X P act x.2 y.2) a.2 b.2)
      (walkIfs P Guard.all w es Γ) (walkIfs P' Guard.all w' (chainL R (vars X act) es) Γ') := by
  induction es with
  | nil => exact RSim.ok ⟨rfl, .nil⟩
  | cons e es ih =>
    rw [CleanL] at he
    cases e with
    | if_ p c d =>
      cases d with
      | nil =>
        obtain ⟨he1, he2⟩ := he
        rw [CleanE] at he1
        rw [chainL, chainE, chainL, walkIfs, walkIfs]
        refine RSim.bind (predicate_sim hP hw he1.1 hΓ) ?_
        intro m m' h1
        refine RSim.bind (block_sim hw he1.2.1 (hΓ.new false false)) ?_
        rintro ⟨t, c, Γ1⟩ ⟨t', c', Γ1'⟩ ⟨h2, h3, h4⟩
        cases h2
        refine RSim.bind (ih he2) ?_
        rintro ⟨ts, ms⟩ ⟨ts', ms'⟩ ⟨h5, h6⟩
        cases h5
        exact RSim.ok ⟨rfl, .cons ⟨h1, h3⟩ h6⟩
      | cons d ds => exact RSim.error
    | _ => exact RSim.error

theorem castTypes_chain {es : List Ex} (he : CleanL R X.names act es) : castTypes (chainL R (vars X act) es) = castTypes es := by
  induction es with
  | nil => rfl
  | cons e es ih =>
    rw [CleanL] at he
    have h1 := ih he.2
    unfold castTypes at h1 ⊢
    cases e with
    | castCase t x b =>
      have h2 := he.1
      rw [CleanE] at h2
      rw [chainL, chainE, List.filterMap_cons, List.filterMap_cons, h1, h2.1]
    | ref x =>
      rw [chainL, chainE]
      split
      · rw [List.filterMap_cons, List.filterMap_cons, h1]
      · rw [List.filterMap_cons, List.filterMap_cons, h1]
    | _ => rw [chainL, chainE, List.filterMap_cons, List.filterMap_cons, h1]

theorem walkCases_sim (hw : WSim R X T P act w w') {Γ Γ' : SymTab} (hΓ : GRel X.names T act Γ Γ') {es : List Ex} (he : CleanL R X.names act es) :
    RSim (fun a b : List Ty × List (String × AType × (Rt → M Val)) => b.1 = a.1 ∧
      List.Forall₂ (fun x y => y.1 = x.1 ∧ y.2.1 = x.2.1 ∧ x.1 ∉ X.names ∧ CSim R X P act x.2.2 y.2.2) a.2 b.2)
      (walkCases w es Γ) (walkCases w' (chainL R (vars X act) es) Γ') := by
  induction es with
  | nil => exact RSim.ok ⟨rfl, .nil⟩
  | cons e es ih =>
    rw [CleanL] at he
    cases e with
    | castCase t x b =>
      obtain ⟨he1, he2⟩ := he
      rw [CleanE] at he1
      rw [chainL, chainE, he1.1, walkCases, walkCases]
      refine RSim.bind (block_sim hw he1.2.2 ((hΓ.new false false).put he1.2.1 _)) ?_
      rintro ⟨u, c, Γ1⟩ ⟨u', c', Γ1'⟩ ⟨h2, h3, h4⟩
      cases h2
      refine RSim.bind (ih he2) ?_
      rintro ⟨ts, ms⟩ ⟨ts', ms'⟩ ⟨h5, h6⟩
      cases h5
      exact RSim.ok ⟨rfl, .cons ⟨rfl, rfl, he1.2.1, h3⟩ h6⟩
    | _ => exact RSim.error

theorem walkNotNull_sim (hw : WSim R X T P act w w') {es : List (String × Ex)} : ∀ {Γ Γ' : SymTab}, CleanN R X.names act es → GRel X.names T act Γ Γ' →
    (∀ x ∈ es.map Prod.fst, x ∉ X.names) →
    RSim (fun a b : List (String × AType × (Rt → M Val)) × SymTab =>
      List.Forall₂ (fun x y => y.1 = x.1 ∧ y.2.1 = x.2.1 ∧ x.1 ∉ X.names ∧ CSim R X P act x.2.2 y.2.2) a.1 b.1)
      (walkNotNull Guard.all w es Γ) (walkNotNull Guard.all w' (chainN R (vars X act) es) Γ') := by
  induction es with
  | nil => intro Γ Γ' _ _ _; exact RSim.ok .nil
  | cons e es ih =>
    intro Γ Γ' he hΓ hx
    obtain ⟨x, e⟩ := e
    rw [CleanN] at he
    have hx1 : x ∉ X.names := hx x (List.mem_cons_self ..)
    rw [chainN, walkNotNull, walkNotNull]
    refine RSim.bindS (RSim.req id) (fun _ => RSim.bind (walkE_sim hw he.1 hΓ) ?_)
    rintro ⟨t, m, Γ1⟩ ⟨t', m', Γ1'⟩ ⟨h1, h2, h3⟩
    cases h1
    rcases t with _ | (t | _ | _)
    · exact RSim.error
    · refine RSim.bindS (RSim.same _) (fun u => RSim.bindS (RSim.req id) (fun _ => RSim.bind (ih he.2 h3 (fun y hy => hx y (List.mem_cons_of_mem _ hy))) ?_))
      rintro ⟨ms, Γ2⟩ ⟨ms', Γ2'⟩ h5
      exact RSim.ok (.cons ⟨rfl, rfl, hx1, h2⟩ h5)
    · exact RSim.error
    · exact RSim.error

theorem walkPack_sim (hP : PRel R X T P P') (hw : WSim R X T P act w w') {Γ Γ' : SymTab} (hΓ : GRel X.names T act Γ Γ') {es : List (String × Ex)} (he : CleanN R X.names act es) :
    RSim (fun a b : List (Pack.Decl × AType × (Rt → M Val)) =>
      List.Forall₂ (fun x y => y.1 = x.1 ∧ y.2.1 = x.2.1 ∧ CSim R X P act x.2.2 y.2.2) a b)
      (walkPack P w es Γ) (walkPack P' w' (chainN R (vars X act) es) Γ') := by
  rw [hP.same]
  induction es with
  | nil => exact RSim.ok .nil
  | cons e es ih =>
    obtain ⟨x, e⟩ := e
    rw [CleanN] at he
    rw [chainN, walkPack, walkPack]
    refine RSim.bind (walkE_sim hw he.1 (hΓ.new true true)) ?_
    rintro ⟨t, m, Γ1⟩ ⟨t', m', Γ1'⟩ ⟨h1, h2, h3⟩
    cases h1
    refine RSim.bindS (RSim.same _) (fun d => ?_)
    rcases t with _ | (t | _ | _)
    · exact RSim.error
    · refine RSim.bindS (RSim.req id) (fun _ => RSim.bind (ih he.2) ?_)
      intro ms ms' h5
      exact RSim.ok (.cons ⟨rfl, rfl, h2⟩ h5)
    · exact RSim.error
    · exact RSim.error

theorem walkFormat_sim {fs : List (String × String)} : ∀ {Γ Γ' : SymTab}, GRel X.names T act Γ Γ' → (∀ x ∈ fs.map Prod.fst, x ∉ X.names) →
    RSim (fun a b : List (String × Pack.Decl) × SymTab => b.1 = a.1 ∧ (∀ x ∈ a.1.map Prod.fst, x ∉ X.names) ∧ GRel X.names T act a.2 b.2)
      (walkFormat fs Γ) (walkFormat fs Γ') := by
  induction fs with
  | nil => intro Γ Γ' hΓ _; exact RSim.ok ⟨rfl, by simp, hΓ⟩
  | cons f fs ih =>
    intro Γ Γ' hΓ hx
    obtain ⟨x, f⟩ := f
    have hx1 : x ∉ X.names := hx x (List.mem_cons_self ..)
    rw [walkFormat, walkFormat]
    refine RSim.bindS (RSim.req (by rw [hΓ.find x hx1]; exact id)) (fun _ => RSim.bindS (RSim.req id) (fun _ => RSim.bindS (RSim.same _) (fun d => ?_)))
    refine RSim.bind (ih (hΓ.put hx1 _) (fun y hy => hx y (List.mem_cons_of_mem _ hy))) ?_
    rintro ⟨ds, Γ2⟩ ⟨ds', Γ2'⟩ ⟨h1, h2, h3⟩
    cases h1
    refine RSim.ok ⟨rfl, ?_, h3⟩
    intro y hy
    rcases List.mem_cons.1 hy with rfl | hy
    · exact hx1
    · exact h2 y hy

/-- The code of an else clause, if there is one. -/
inductive ElseRel (R : Ren) (X : Ctx) (P : Prog) (act : Bool) : Option (Rt → M Val) → Option (Rt → M Val) → Prop where
  | none : ElseRel R X P act none none
  | some {m m' : Rt → M Val} : CSim R X P act m m' → ElseRel R X P act (some m) (some m')

theorem elseJoin_sim (hP : PRel R X T P P') (hw : WSim R X T P act w w') {Γ Γ' : SymTab} (hΓ : GRel X.names T act Γ Γ') (t : Ty) {es : List Ex} (he : CleanL R X.names act es) :
    RSim (fun a b : Ty × Option (Rt → M Val) => b.1 = a.1 ∧ ElseRel R X P act a.2 b.2)
      (elseJoin P Guard.all w t es Γ) (elseJoin P' Guard.all w' t (chainL R (vars X act) es) Γ') := by
  rw [hP.same]
  cases es with
  | nil => exact RSim.ok ⟨rfl, .none⟩
  | cons e es =>
    have h1 := block_sim hw he (hΓ.new false false)
    rw [chainL] at h1 ⊢
    simp only [elseJoin]
    refine RSim.bind h1 ?_
    rintro ⟨u, m, Γ1⟩ ⟨u', m', Γ1'⟩ ⟨h1, h2, h3⟩
    cases h1
    exact RSim.bindS (RSim.same _) (fun r => RSim.ok ⟨rfl, .some h2⟩)

theorem withElse_sim {d d' : Option (Rt → M Val)} (hd : ElseRel R X P act d d') {rt rt' : Rt} (hrt : RtRel R X P rt rt') {k : Bool} (hk : act = true → k = true)
    {f f' : M Val → M Val} (hf : ∀ m m', Sim X k Same m m' → Sim X k Same (f m) (f' m')) : Sim X k Same (withElse d rt f) (withElse d' rt' f') := by
  cases hd with
  | none => exact Sim.bindS (hf _ _ (Sim.pure rfl)) (fun _ => Sim.pure rfl)
  | some h => exact hf _ _ (h rt rt' hrt k hk)

theorem fillArgs_sim (hdollar : ∀ j : Nat, "$" ++ toString j ∉ X.names) {fs fs' : List (String × Ty × Code)} (h : List.Forall₂ (FillRel R X P act) fs fs') (ps : List String) : ∀ j : Nat,
    List.Forall₂ (ASim R X P act) (fillArgs fs ps j) (fillArgs fs' ps j) := by
  induction ps with
  | nil => intro j; exact .nil
  | cons p ps ih =>
    intro j
    have h1 : (fs.find? (fun f => f.1 = p) = none ∧ fs'.find? (fun f => f.1 = p) = none) ∨
        ∃ a b, fs.find? (fun f => f.1 = p) = some a ∧ fs'.find? (fun f => f.1 = p) = some b ∧ FillRel R X P act a b := by
      clear ih
      induction h with
      | nil => exact .inl ⟨rfl, rfl⟩
      | @cons a b _ _ hab _ ih =>
        by_cases hp : a.1 = p
        · refine .inr ⟨a, b, ?_, ?_, hab⟩
          · rw [List.find?_cons_of_pos (by simpa using hp)]
          · rw [List.find?_cons_of_pos (by rw [hab.1]; simpa using hp)]
        · rw [List.find?_cons_of_neg (by simpa using hp), List.find?_cons_of_neg (by rw [hab.1]; simpa using hp)]
          exact ih
    rw [fillArgs, fillArgs]
    rcases h1 with ⟨h1, h2⟩ | ⟨⟨x, t, c⟩, ⟨x', t', c'⟩, h1, h2, h3⟩
    · rw [h1, h2]
      exact .cons (fun rt rt' _ k _ => Sim.bindS (Sim.getVar (hdollar j)) (fun v => Sim.pure (.val v))) (ih (j + 1))
    · rw [h1, h2]
      exact .cons h3.2.2.toArg (ih j)

end

end Verif.Chain
