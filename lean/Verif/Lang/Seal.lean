import Verif.Lang.Whole
/-!
# Sealed scopes (C43)

The specification (`parts`, `Sets`, `Bad`) looks at the syntax only: which parts an expression has, which
names each part sees bound, and which parts are blocks that may not modify their surroundings.  The theorem
says that the check (`Verif.Lang.Check`, any guard, in particular `Guard.all`) rejects every bad
expression.
-/

namespace Verif.Lang
open Avro Scope Path Sig Ast

/-! ## Specification -/

/-- A part of an expression: may it not modify the variables around it; the names that the expression
binds for it; the part. -/
structure Part where
  closed : Bool
  binds : List String
  ex : Ex

/-- The names that an expression declares in the block it stands in. -/
def declares : Ex → List String
  | .let_ vs => vs.map Prod.fst
  | _ => []

/-- The parts of a block: each sees what the ones before it declare. -/
def seqParts (closed : Bool) : List String → List Ex → List Part
  | _, [] => []
  | bs, e :: es => ⟨closed, bs, e⟩ :: seqParts closed (declares e ++ bs) es

/-- What a block declares. -/
def declaresL : List String → List Ex → List String
  | bs, [] => bs
  | bs, e :: es => declaresL (declares e ++ bs) es

/-- Arguments and the like. -/
def args (bs : List String) (es : List Ex) : List Part := es.map (fun e => ⟨true, bs, e⟩)

/-- A branch with a predicate. -/
def ifParts : Ex → List Part
  | .if_ p c _ => ⟨true, [], p⟩ :: seqParts false [] c
  | _ => []

/-- A case of a cast. -/
def caseParts : Ex → List Part
  | .castCase _ x body => seqParts false [x] body
  | _ => []

/-- The parts of an expression. -/
def parts : Ex → List Part
  | .fcnDef ps _ body => seqParts true (ps.map Prod.fst) body
  | .fcnRefFill _ fill => args [] (fill.map Prod.snd)
  | .callUser name as => ⟨true, [], name⟩ :: args [] as
  | .call _ as => args [] as
  | .newObject fs _ => args [] (fs.map Prod.snd)
  | .newArray is _ => args [] is
  | .do_ body => seqParts false [] body
  | .let_ vs => args [] (vs.map Prod.snd)
  | .setVar vs => args [] (vs.map Prod.snd)
  | .attrGet e path => ⟨true, [], e⟩ :: args [] path
  | .attrTo e path repl => ⟨true, [], e⟩ :: args [] path ++ [⟨false, [], repl⟩]
  | .cellGet _ path => args [] path
  | .cellTo _ path repl => args [] path ++ [⟨false, [], repl⟩]
  | .poolGet _ path => args [] path
  | .poolTo _ path repl init => args [] path ++ [⟨false, [], repl⟩, ⟨false, [], init⟩]
  | .poolDel _ e => [⟨false, [], e⟩]
  | .if_ p c d => ⟨true, [], p⟩ :: seqParts false [] c ++ seqParts false [] d
  | .cond ifs d => ifs.flatMap ifParts ++ seqParts false [] d
  | .while_ p b => ⟨true, [], p⟩ :: seqParts false [] b
  | .doUntil b p => seqParts false [] b ++ [⟨true, declaresL [] b, p⟩]
  | .for_ init p step b => args [] (init.map Prod.snd) ++ ⟨true, init.map Prod.fst, p⟩ ::
      args (init.map Prod.fst) (step.map Prod.snd) ++ seqParts false (init.map Prod.fst) b
  | .foreach x a b seq => ⟨true, [], a⟩ :: seqParts (!seq) [x] b
  | .forkeyval k v m b => ⟨true, [], m⟩ :: seqParts false [k, v] b
  | .castBlock e cases _ => ⟨true, [], e⟩ :: cases.flatMap caseParts
  | .upcast e _ => [⟨true, [], e⟩]
  | .ifNotNull es c d => args [] (es.map Prod.snd) ++ seqParts false (es.map Prod.fst) c ++ seqParts false [] d
  | .pack es => args [] (es.map Prod.snd)
  | .unpack b fmt c d => ⟨true, [], b⟩ :: seqParts false (fmt.map Prod.fst) c ++ seqParts false [] d
  | .try_ es _ => seqParts true [] es
  | .log es _ => args [] es
  | _ => []

/-- The expression assigns the variable `x` of its surroundings. -/
inductive Sets (x : String) : Ex → Prop
  | set {vs : List (String × Ex)} : x ∈ vs.map Prod.fst → Sets x (.setVar vs)
  | step {init step : List (String × Ex)} {p : Ex} {b : List Ex} : x ∈ step.map Prod.fst → x ∉ init.map Prod.fst →
      Sets x (.for_ init p step b)
  | inside {e : Ex} {q : Part} : q ∈ parts e → x ∉ q.binds → Sets x q.ex → Sets x e

/-- Where the names in `vis` are visible, the expression breaks the rules: a block that may not modify its
surroundings assigns a variable from there, or a let declares a name that is visible. -/
inductive Bad : List String → Ex → Prop
  | assign {vis : List String} {e : Ex} {q : Part} {x : String} : q ∈ parts e → q.closed = true → x ∈ vis → x ∉ q.binds →
      Sets x q.ex → Bad vis e
  | again {vis : List String} {vs : List (String × Ex)} {x : String} : x ∈ vs.map Prod.fst → x ∈ vis → Bad vis (.let_ vs)
  | inside {vis : List String} {e : Ex} {q : Part} : q ∈ parts e → Bad (q.binds ++ vis) q.ex → Bad vis e

/-! ## Scopes -/

/-- The table `Δ` of a part in an expression with the table `Γ`. -/
structure Under (closed : Bool) (bs : List String) (Γ Δ : SymTab) : Prop where
  ne : Δ ≠ []
  find : ∀ x, (Γ.find x).isSome = true ∨ x ∈ bs → (Δ.find x).isSome = true
  writable : ∀ x, (Γ.find x).isSome = true → x ∉ bs → Δ.writable x = true → Γ.writable x = true ∧ closed = false

theorem Under.refl {Γ : SymTab} (h : Γ ≠ []) : Under false [] Γ Γ := ⟨h, fun x hx => by simpa using hx, fun _ _ _ h => ⟨h, rfl⟩⟩

theorem Under.trans {a b : Bool} {bs cs : List String} {Γ Δ Θ : SymTab} (h1 : Under a bs Γ Δ) (h2 : Under b cs Δ Θ) :
    Under (a || b) (cs ++ bs) Γ Θ := by
  refine ⟨h2.ne, fun x hx => ?_, fun x hx hn hw => ?_⟩
  · refine h2.find x ?_
    rcases hx with hx | hx
    · exact .inl (h1.find x (.inl hx))
    · rcases List.mem_append.1 hx with hx | hx
      · exact .inr hx
      · exact .inl (h1.find x (.inr hx))
  · rw [List.mem_append, not_or] at hn
    obtain ⟨h3, rfl⟩ := h2.writable x (h1.find x (.inl hx)) hn.1 hw
    obtain ⟨h4, rfl⟩ := h1.writable x hx hn.2 h3
    exact ⟨h4, rfl⟩

theorem Under.open_ {a : Bool} {bs : List String} {Γ Δ : SymTab} (h : Under a bs Γ Δ) : Under false bs Γ Δ :=
  ⟨h.ne, h.find, fun x hx hn hw => ⟨(h.writable x hx hn hw).1, rfl⟩⟩

theorem Under.new (Γ : SymTab) (a b : Bool) : Under (a || b) [] Γ (Γ.new a b) := by
  refine ⟨List.cons_ne_nil _ _, fun x hx => ?_, fun x hx _ hw => ?_⟩
  · rw [find_new]; simpa using hx
  · unfold SymTab.new SymTab.writable at hw
    cases b with
    | true => simp at hw
    | false =>
      cases a with
      | true => simp [PyDict.get?] at hw
      | false => simpa [PyDict.get?] using hw

theorem Under.put {Γ : SymTab} (h : Γ ≠ []) (x : String) (t : Ty) : Under false [x] Γ (Γ.put x t) := by
  cases Γ with
  | nil => exact absurd rfl h
  | cons s up =>
    refine ⟨List.cons_ne_nil _ _, fun y hy => ?_, fun y hy hn hw => ?_⟩
    · simp only [SymTab.put, SymTab.find, PyDict.get?_set] at hy ⊢
      by_cases hyx : x = y
      · rw [if_pos hyx]; rfl
      · rw [if_neg hyx]
        rcases hy with hy | hy
        · exact hy
        · exact absurd (List.mem_singleton.1 hy).symm hyx
    · simp only [List.mem_singleton] at hn
      simp only [SymTab.put, SymTab.writable, PyDict.get?_set, if_neg (Ne.symm hn)] at hw ⊢
      exact ⟨hw, trivial⟩

theorem Under.putAll {Γ : SymTab} (h : Γ ≠ []) (ts : List (String × Ty)) : Under false (ts.map Prod.fst) Γ (putAll Γ ts) := by
  have key : ∀ (ts : List (String × Ty)) (Γ : SymTab), Γ ≠ [] → Under false (ts.map Prod.fst) Γ (Lang.putAll Γ ts) := by
    intro ts
    induction ts with
    | nil => exact fun Γ h => Under.refl h
    | cons p ts ih =>
      intro Γ h
      have h1 := Under.put h p.1 p.2
      have h2 := h1.trans (ih _ h1.ne)
      refine ⟨h2.ne, fun x hx => h2.find x ?_, fun x hx hn => h2.writable x hx ?_⟩
      · rcases hx with hx | hx
        · exact .inl hx
        · right
          rw [List.map_cons, List.mem_cons] at hx
          rw [List.mem_append, List.mem_singleton]
          exact hx.symm
      · rw [List.map_cons, List.mem_cons] at hn
        rw [List.mem_append, List.mem_singleton]
        tauto
  exact key ts Γ h

theorem Under.congr {a : Bool} {bs cs : List String} {Γ Δ : SymTab} (h : Under a bs Γ Δ) (hb : ∀ x, x ∈ bs ↔ x ∈ cs) : Under a cs Γ Δ :=
  ⟨h.ne, fun x hx => h.find x (by rw [hb]; exact hx), fun x hx hn => h.writable x hx (by rw [hb]; exact hn)⟩

/-- Names put into a new scope. -/
theorem Under.scope (Γ : SymTab) (a b : Bool) (ts : List (String × Ty)) : Under (a || b) (ts.map Prod.fst) Γ (Lang.putAll (Γ.new a b) ts) := by
  have := (Under.new Γ a b).trans (Under.putAll (List.cons_ne_nil _ _) ts)
  rw [Bool.or_false, List.append_nil] at this
  exact this

/-! ## Parts are walked -/

section
variable {P : Prog} {g : Guard} {w : Walk}

/-- The part is walked in a scope under `Γ`. -/
def Walked (w : Walk) (Γ : SymTab) (q : Part) : Prop := ∃ Δ r, w q.ex Δ = .ok r ∧ Under q.closed q.binds Γ Δ

/-- A walk changes the table only by adding what is declared. -/
def GrowW (w : Walk) : Prop := ∀ (e : Ex) (Γ : SymTab) (t : Ty) (c : Code) (Γ' : SymTab), Γ ≠ [] → w e Γ = .ok (t, c, Γ') →
  Under false [] Γ Γ' ∧ (∀ x ∈ declares e, (Γ'.find x).isSome = true) ∧ Γ'.within = Γ.within

theorem GrowW.under {w : Walk} (hw : GrowW w) {e : Ex} {Γ Γ' : SymTab} {t : Ty} {c : Code} (hne : Γ ≠ []) (h : w e Γ = .ok (t, c, Γ')) :
    Under false (declares e) Γ Γ' := by
  obtain ⟨h1, h2, -⟩ := hw _ _ _ _ _ hne h
  exact ⟨h1.ne, fun x hx => hx.elim (fun h => h1.find x (.inl h)) (h2 x), fun x hx _ => h1.writable x hx (by simp)⟩

theorem walkE_w {e Γ t m Γ'} (h : walkE w e Γ = .ok (t, m, Γ')) : w e Γ = .ok (t, .expr m, Γ') := by
  unfold walkE at h
  split at h
  · next h1 => cases h; exact h1
  · cases h
  · cases h

/-- A block. -/
theorem seq_walked (hw : GrowW w) {es : List Ex} : ∀ {Γ Δ ts ms Δ'} {a : Bool} {bs : List String}, Under a bs Γ Δ → walkL w es Δ = .ok (ts, ms, Δ') →
    (∀ q ∈ seqParts a bs es, Walked w Γ q) ∧ Under a (declaresL bs es) Γ Δ' := by
  induction es with
  | nil =>
    intro Γ Δ ts ms Δ' a bs hu h
    cases h
    exact ⟨by simp [seqParts], hu⟩
  | cons e es ih =>
    intro Γ Δ ts ms Δ' a bs hu h
    simp only [walkL, ebind] at h
    obtain ⟨⟨t, m, Δ1⟩, h1, ⟨ts1, ms1, Δ2⟩, h2, h3⟩ := h
    cases h3
    have h4 := walkE_w h1
    have h5 := hu.trans (hw.under hu.ne h4)
    rw [Bool.or_false] at h5
    obtain ⟨h6, h7⟩ := ih h5 h2
    refine ⟨fun q hq => ?_, h7⟩
    rcases List.mem_cons.1 hq with rfl | hq
    · exact ⟨_, _, h4, hu⟩
    · exact h6 q hq

theorem block_walked (hw : GrowW w) {es : List Ex} {Γ Δ t m Δ'} {a : Bool} {bs : List String} (hu : Under a bs Γ Δ)
    (h : block w es Δ = .ok (t, m, Δ')) : (∀ q ∈ seqParts a bs es, Walked w Γ q) ∧ Under a (declaresL bs es) Γ Δ' := by
  simp only [block, ebind] at h
  obtain ⟨⟨ts, ms, Δ1⟩, h1, _, -, h2⟩ := h
  cases h2
  exact seq_walked hw hu h1

/-- A scope in which nothing can be assigned. -/
structure Shut (bs : List String) (Γ Δ : SymTab) : Prop where
  ne : Δ ≠ []
  within : Δ.within = true
  find : ∀ x, (Γ.find x).isSome = true ∨ x ∈ bs → (Δ.find x).isSome = true

theorem Shut.under {bs : List String} {Γ Δ : SymTab} (h : Shut bs Γ Δ) : Under true bs Γ Δ := by
  refine ⟨h.ne, h.find, fun x _ _ hw => ?_⟩
  have := h.within
  cases Δ with
  | nil => cases this
  | cons s up =>
    have : s.sealedWithin = true := this
    rw [SymTab.writable, if_pos this] at hw
    cases hw

theorem Shut.step (hw : GrowW w) {bs : List String} {Γ Δ Δ' : SymTab} {e t c} (hu : Shut bs Γ Δ) (h : w e Δ = .ok (t, c, Δ')) :
    Shut bs Γ Δ' ∧ Walked w Γ ⟨true, bs, e⟩ := by
  obtain ⟨h1, -, h2⟩ := hw _ _ _ _ _ hu.ne h
  exact ⟨⟨h1.ne, by rw [h2, hu.within], fun x hx => h1.find x (.inl (hu.find x hx))⟩, _, _, h, hu.under⟩

theorem Shut.new {a : Bool} {bs : List String} {Γ Δ : SymTab} (h : Under a bs Γ Δ) : Shut bs Γ (Δ.new true true) :=
  ⟨List.cons_ne_nil _ _, rfl, fun x hx => by rw [find_new]; exact h.find x hx⟩

theorem mem_args_cons {bs : List String} {e : Ex} {es : List Ex} {q : Part} (h : q ∈ args bs (e :: es)) : q = ⟨true, bs, e⟩ ∨ q ∈ args bs es := by
  simpa [args] using h

theorem not_mem_args {bs : List String} {q : Part} (h : q ∈ args bs []) : False := by simp [args] at h

theorem listE_walked (hw : GrowW w) {es : List Ex} {bs Γ} : ∀ {Δ ts ms Δ'}, Shut bs Γ Δ → walkL w es Δ = .ok (ts, ms, Δ') → ∀ q ∈ args bs es, Walked w Γ q := by
  induction es with
  | nil => exact fun _ _ q hq => (not_mem_args hq).elim
  | cons e es ih =>
    intro Δ ts ms Δ' hu h q hq
    simp only [walkL, ebind] at h
    obtain ⟨⟨t, m, Δ1⟩, h1, ⟨ts1, ms1, Δ2⟩, h2, h3⟩ := h
    obtain ⟨h4, h5⟩ := hu.step hw (walkE_w h1)
    rcases mem_args_cons hq with rfl | hq
    · exact h5
    · exact ih h4 h2 q hq

theorem listA_walked (hw : GrowW w) {es : List Ex} {bs Γ} : ∀ {Δ ts ms Δ'}, Shut bs Γ Δ → walkA w es Δ = .ok (ts, ms, Δ') → ∀ q ∈ args bs es, Walked w Γ q := by
  induction es with
  | nil => exact fun _ _ q hq => (not_mem_args hq).elim
  | cons e es ih =>
    intro Δ ts ms Δ' hu h q hq
    simp only [walkA, ebind] at h
    obtain ⟨⟨t, m, Δ1⟩, h1, ⟨ts1, ms1, Δ2⟩, h2, h3⟩ := h
    obtain ⟨h4, h5⟩ := hu.step hw h1
    rcases mem_args_cons hq with rfl | hq
    · exact h5
    · exact ih h4 h2 q hq

theorem dict_walked (hw : GrowW w) {es : List (String × Ex)} {bs Γ} : ∀ {Δ ts ms Δ'}, Shut bs Γ Δ → walkD w es Δ = .ok (ts, ms, Δ') → ∀ q ∈ args bs (es.map Prod.snd), Walked w Γ q := by
  induction es with
  | nil => exact fun _ _ q hq => (not_mem_args hq).elim
  | cons e es ih =>
    intro Δ ts ms Δ' hu h q hq
    obtain ⟨k, e⟩ := e
    simp only [walkD, ebind] at h
    obtain ⟨⟨t, m, Δ1⟩, h1, ⟨ts1, ms1, Δ2⟩, h2, h3⟩ := h
    obtain ⟨h4, h5⟩ := hu.step hw (walkE_w h1)
    rcases mem_args_cons hq with rfl | hq
    · exact h5
    · exact ih h4 h2 q hq

theorem dictA_walked (hw : GrowW w) {es : List (String × Ex)} {bs Γ} : ∀ {Δ ts Δ'}, Shut bs Γ Δ → walkDA w es Δ = .ok (ts, Δ') → ∀ q ∈ args bs (es.map Prod.snd), Walked w Γ q := by
  induction es with
  | nil => exact fun _ _ q hq => (not_mem_args hq).elim
  | cons e es ih =>
    intro Δ ts Δ' hu h q hq
    obtain ⟨k, e⟩ := e
    simp only [walkDA, ebind] at h
    obtain ⟨⟨t, m, Δ1⟩, h1, ⟨ts1, Δ2⟩, h2, h3⟩ := h
    obtain ⟨h4, h5⟩ := hu.step hw h1
    rcases mem_args_cons hq with rfl | hq
    · exact h5
    · exact ih h4 h2 q hq

theorem path_walked (hw : GrowW w) {es : List Ex} {bs Γ} : ∀ {t Δ r ms Δ'}, Shut bs Γ Δ → walkPath P w t es Δ = .ok (r, ms, Δ') → ∀ q ∈ args bs es, Walked w Γ q := by
  induction es with
  | nil => exact fun _ _ q hq => (not_mem_args hq).elim
  | cons e es ih =>
    intro t Δ r ms Δ' hu h q hq
    simp only [walkPath, ebind] at h
    obtain ⟨⟨t, m, Δ1⟩, h1, ⟨_, _⟩, -, ⟨ts1, ms1, Δ2⟩, h2, h3⟩ := h
    obtain ⟨h4, h5⟩ := hu.step hw (walkE_w h1)
    rcases mem_args_cons hq with rfl | hq
    · exact h5
    · exact ih h4 h2 q hq

theorem notNull_walked (hw : GrowW w) {es : List (String × Ex)} {bs Γ} : ∀ {Δ ms Δ'}, Shut bs Γ Δ → walkNotNull g w es Δ = .ok (ms, Δ') →
    (∀ q ∈ args bs (es.map Prod.snd), Walked w Γ q) ∧ ms.map Prod.fst = es.map Prod.fst := by
  induction es with
  | nil => intro Δ ms Δ' _ h; cases h; exact ⟨fun q hq => (not_mem_args hq).elim, rfl⟩
  | cons e es ih =>
    intro Δ ms Δ' hu h
    obtain ⟨k, e⟩ := e
    simp only [walkNotNull, ebind] at h
    obtain ⟨_, -, ⟨t, m, Δ1⟩, h1, h2⟩ := h
    dsimp only at h2
    split at h2
    · simp only [ebind] at h2
      obtain ⟨u, -, _, -, ⟨ms1, Δ2⟩, h3, h4⟩ := h2
      cases h4
      obtain ⟨h4, h5⟩ := hu.step hw (walkE_w h1)
      obtain ⟨h6, h7⟩ := ih h4 h3
      refine ⟨fun q hq => ?_, by rw [List.map_cons, List.map_cons, h7]⟩
      rcases mem_args_cons hq with rfl | hq
      · exact h5
      · exact h6 q hq
    · cases h2

theorem walked_new (hw : GrowW w) {a : Bool} {bs Γ Δ e t m Δ'} (hu : Under a bs Γ Δ) (h : walkE w e (Δ.new true true) = .ok (t, m, Δ')) : Walked w Γ ⟨true, bs, e⟩ :=
  ((Shut.new hu).step hw (walkE_w h)).2

theorem pred_walked (hw : GrowW w) {a : Bool} {bs Γ Δ e m} (hu : Under a bs Γ Δ) (h : predicate P g w e Δ = .ok m) : Walked w Γ ⟨true, bs, e⟩ := by
  simp only [predicate, ebind] at h
  obtain ⟨⟨t, m, Δ1⟩, h1, -⟩ := h
  exact walked_new hw hu h1

theorem newVars_walked (hw : GrowW w) {a b : Bool} {bs Γ Δ} (hu : Under a bs Γ Δ) {vs : List (String × Ex)} : ∀ {ts ms}, newVars w Δ b vs = .ok (ts, ms) →
    (∀ q ∈ args bs (vs.map Prod.snd), Walked w Γ q) ∧ ts.map Prod.fst = vs.map Prod.fst ∧ ∀ x ∈ vs.map Prod.fst, Δ.find x = none := by
  induction vs with
  | nil => intro ts ms h; cases h; exact ⟨fun q hq => (not_mem_args hq).elim, rfl, by simp⟩
  | cons v vs ih =>
    intro ts ms h
    obtain ⟨x, e⟩ := v
    simp only [newVars, ebind, req_iff] at h
    obtain ⟨_, h1, _, -, ⟨t, m, Δ1⟩, h2, _, -, ⟨ts1, ms1⟩, h3, h4⟩ := h
    cases h4
    obtain ⟨h5, h6, h7⟩ := ih h3
    refine ⟨fun q hq => ?_, by rw [List.map_cons, List.map_cons, h6], fun y hy => ?_⟩
    · rcases mem_args_cons hq with rfl | hq
      · exact walked_new hw hu h2
      · exact h5 q hq
    · rcases List.mem_cons.1 hy with rfl | hy
      · simpa using h1
      · exact h7 y hy

theorem assigns_walked (hw : GrowW w) {a : Bool} {bs Γ Δ} (hu : Under a bs Γ Δ) {vs : List (String × Ex)} : ∀ {ms}, assigns P g w Δ vs = .ok ms →
    (∀ q ∈ args bs (vs.map Prod.snd), Walked w Γ q) ∧ ∀ x ∈ vs.map Prod.fst, Δ.writable x = true := by
  induction vs with
  | nil => intro ms h; exact ⟨fun q hq => (not_mem_args hq).elim, by simp⟩
  | cons v vs ih =>
    intro ms h
    obtain ⟨x, e⟩ := v
    simp only [assigns] at h
    split at h
    · cases h
    · simp only [ebind, req_iff] at h
      obtain ⟨_, h1, ⟨t, m, Δ1⟩, h2, h3⟩ := h
      dsimp only at h3
      have : ∃ ms', assigns P g w Δ vs = .ok ms' := by
        split at h3
        · simp only [ebind] at h3
          obtain ⟨_, -, ms', h4, -⟩ := h3
          exact ⟨ms', h4⟩
        · simp only [ebind] at h3
          obtain ⟨_, h4, -⟩ := h3
          cases h4
      obtain ⟨ms', h4⟩ := this
      obtain ⟨h5, h6⟩ := ih h4
      refine ⟨fun q hq => ?_, fun y hy => ?_⟩
      · rcases mem_args_cons hq with rfl | hq
        · exact walked_new hw hu h2
        · exact h5 q hq
      · rcases List.mem_cons.1 hy with rfl | hy
        · exact h1
        · exact h6 y hy

theorem ifs_walked (hw : GrowW w) {Γ} {es : List Ex} (hne : Γ ≠ []) : ∀ {ts ms}, walkIfs P g w es Γ = .ok (ts, ms) → ∀ q ∈ es.flatMap ifParts, Walked w Γ q := by
  induction es with
  | nil => intro ts ms _ q hq; cases hq
  | cons e es ih =>
    intro ts ms h q hq
    have : ∃ p c, e = .if_ p c [] := by
      unfold walkIfs at h
      split at h
      · next heq => cases heq
      · next heq => cases heq; exact ⟨_, _, rfl⟩
      · cases h
    obtain ⟨p, c, rfl⟩ := this
    · simp only [walkIfs] at h
      simp only [ebind] at h
      obtain ⟨pm, h1, ⟨t, cm, Γ1⟩, h2, ⟨ts1, ms1⟩, h3, -⟩ := h
      rw [List.flatMap_cons, List.mem_append] at hq
      rcases hq with hq | hq
      · rcases List.mem_cons.1 hq with rfl | hq
        · exact pred_walked hw (Under.refl hne) h1
        · exact (block_walked hw (Under.new Γ false false) h2).1 q hq
      · exact ih h3 q hq

theorem cases_walked (hw : GrowW w) {Γ} {es : List Ex} : ∀ {us cs}, walkCases w es Γ = .ok (us, cs) → ∀ q ∈ es.flatMap caseParts, Walked w Γ q := by
  induction es with
  | nil => intro ts ms _ q hq; cases hq
  | cons e es ih =>
    intro ts ms h q hq
    have : ∃ t x body, e = .castCase t x body := by
      unfold walkCases at h
      split at h
      · next heq => cases heq
      · next heq => cases heq; exact ⟨_, _, _, rfl⟩
      · cases h
    obtain ⟨t, x, body, rfl⟩ := this
    · simp only [walkCases] at h
      simp only [ebind] at h
      obtain ⟨⟨u, cm, Γ1⟩, h2, ⟨ts1, ms1⟩, h3, -⟩ := h
      rw [List.flatMap_cons, List.mem_append] at hq
      rcases hq with hq | hq
      · exact (block_walked hw (Under.scope Γ false false [(x, some (.avro t))]) h2).1 q hq
      · exact ih h3 q hq

theorem pack_walked (hw : GrowW w) {Γ} {es : List (String × Ex)} (hne : Γ ≠ []) : ∀ {ms}, walkPack P w es Γ = .ok ms → ∀ q ∈ args [] (es.map Prod.snd), Walked w Γ q := by
  induction es with
  | nil => exact fun _ q hq => (not_mem_args hq).elim
  | cons e es ih =>
    intro ms h q hq
    obtain ⟨k, e⟩ := e
    simp only [walkPack, ebind] at h
    obtain ⟨⟨t, m, Δ1⟩, h1, d, -, h2⟩ := h
    dsimp only at h2
    split at h2
    · simp only [ebind] at h2
      obtain ⟨_, -, ms1, h3, h4⟩ := h2
      rcases mem_args_cons hq with rfl | hq
      · exact walked_new hw (Under.refl hne) h1
      · exact ih h3 q hq
    · cases h2

theorem format_walked {fs : List (String × String)} : ∀ {Γ ds Γ'}, Γ ≠ [] → walkFormat fs Γ = .ok (ds, Γ') → Under false (fs.map Prod.fst) Γ Γ' := by
  induction fs with
  | nil => intro Γ ds Γ' hne h; cases h; exact Under.refl hne
  | cons f fs ih =>
    intro Γ ds Γ' hne h
    obtain ⟨s, f⟩ := f
    simp only [walkFormat, ebind] at h
    obtain ⟨_, -, _, -, d, -, ⟨ds1, Γ1⟩, h1, h2⟩ := h
    cases h2
    have h3 := Under.put hne s (some (.avro (declType d)))
    refine (h3.trans (ih h3.ne h1)).congr (fun x => ?_)
    simp only [List.map_cons, List.mem_append, List.mem_cons, List.not_mem_nil, or_false]
    tauto

theorem else_walked (hw : GrowW w) {Γ t d r dm} (h : elseJoin P g w t d Γ = .ok (r, dm)) : ∀ q ∈ seqParts false [] d, Walked w Γ q := by
  unfold elseJoin at h
  split at h
  · simp [seqParts]
  · simp only [ebind] at h
    obtain ⟨⟨u, m, Γ1⟩, h1, -⟩ := h
    exact (block_walked hw (Under.new Γ false false) h1).1

theorem to_walked (hw : GrowW w) {Γ Γ' : SymTab} {t e a} (hne : Γ ≠ []) (h : walkTo P g w t e Γ = .ok (a, Γ')) :
    Walked w Γ ⟨false, [], e⟩ ∧ Under false [] Γ Γ' ∧ Γ'.within = Γ.within := by
  simp only [walkTo, ebind] at h
  obtain ⟨⟨ty, c, Γ1⟩, h1, h2⟩ := h
  have h3 : Γ' = Γ1 := by
    cases c with
    | expr m => simp only [ebind] at h2; obtain ⟨_, -, h8⟩ := h2; cases h8; rfl
    | fn l f =>
      dsimp only at h2
      split at h2
      · simp only [ebind] at h2; obtain ⟨_, -, h8⟩ := h2; cases h8; rfl
      · cases h2
  subst h3
  obtain ⟨h4, -, h5⟩ := hw _ _ _ _ _ hne h1
  exact ⟨⟨_, _, h1, Under.refl hne⟩, h4, h5⟩

theorem within_new (Γ : SymTab) (a b : Bool) : (Γ.new a b).within = b := rfl

theorem within_put (Γ : SymTab) (x : String) (t : Ty) : (Γ.put x t).within = Γ.within := by cases Γ <;> rfl

theorem within_putAll (Γ : SymTab) (ts : List (String × Ty)) : (putAll Γ ts).within = Γ.within := by
  induction ts generalizing Γ with
  | nil => rfl
  | cons p ts ih => exact (ih _).trans (within_put _ _ _)

theorem kept {Γ : SymTab} (hne : Γ ≠ []) {e : Ex} (hd : declares e = []) :
    Under false [] Γ Γ ∧ (∀ x ∈ declares e, (Γ.find x).isSome = true) ∧ Γ.within = Γ.within := by
  rw [hd]
  exact ⟨Under.refl hne, by simp, rfl⟩

theorem mem_one {q p : Part} (h : q ∈ [p]) : q = p := List.mem_singleton.1 h

/-- What one level of `walk` does with the table and the parts. -/
theorem step_parts (hw : GrowW w) {e : Ex} {Γ Γ' : SymTab} {t : Ty} {c : Code} (hne : Γ ≠ []) (h : walkStep P g w e Γ = .ok (t, c, Γ')) :
    (Under false [] Γ Γ' ∧ (∀ x ∈ declares e, (Γ'.find x).isSome = true) ∧ Γ'.within = Γ.within) ∧ ∀ q ∈ parts e, Walked w Γ q := by
  have hnil := Under.refl hne
  have shut := Shut.new hnil
  cases e with
  | fcnDef ps ret body =>
    simp only [walkStep, ebind] at h
    obtain ⟨_, -, _, -, ⟨u, m, Γ1⟩, h1, _, -, h3⟩ := h
    cases h3
    refine ⟨kept hne rfl, ?_⟩
    have := (block_walked hw (Under.scope Γ true false _) h1).1
    rw [List.map_map] at this
    exact this
  | fcnRef name =>
    refine ⟨?_, by simp [parts]⟩
    simp only [walkStep] at h
    split at h
    · cases h
    · next f _ =>
      simp only [ebind] at h
      obtain ⟨_, -, _, -, _, -, h⟩ := h
      cases f with
      | user => cases h; exact kept hne rfl
      | lib => simp only [ebind] at h; obtain ⟨_, -, h⟩ := h; cases h; exact kept hne rfl
  | fcnRefFill name fill =>
    simp only [walkStep] at h
    split at h
    · cases h
    · next f _ =>
      simp only [ebind] at h
      obtain ⟨⟨fs, Γ1⟩, h1, _, -, _, -, _, -, _, -, _, -, _, -, h⟩ := h
      have h2 := dictA_walked hw shut h1
      cases f with
      | user => simp only [ebind] at h; obtain ⟨_, -, h⟩ := h; cases h; exact ⟨kept hne rfl, h2⟩
      | lib => simp only [ebind] at h; obtain ⟨_, -, h⟩ := h; cases h; exact ⟨kept hne rfl, h2⟩
  | callUser name as =>
    simp only [walkStep, ebind] at h
    obtain ⟨⟨nt, nm, Γ1⟩, h1, h2⟩ := h
    dsimp only at h2
    split at h2
    · simp only [ebind] at h2
      obtain ⟨⟨ts, ms, Γ2⟩, h3, _, -, _, -, _, -, h4⟩ := h2
      cases h4
      refine ⟨kept hne rfl, fun q hq => ?_⟩
      rcases List.mem_cons.1 hq with rfl | hq
      · exact walked_new hw hnil h1
      · exact listE_walked hw shut h3 q hq
    · cases h2
  | call name as =>
    simp only [walkStep] at h
    split at h
    · cases h
    · next f _ =>
      simp only [ebind] at h
      obtain ⟨⟨ts, cs, Γ1⟩, h1, tys, -, h⟩ := h
      have h2 := listA_walked hw shut h1
      cases f with
      | user ps r _ =>
        simp only [ebind] at h
        obtain ⟨o, -, h⟩ := h
        cases o with
        | none => cases h
        | some o => simp only [ebind] at h; obtain ⟨_, -, h⟩ := h; cases h; exact ⟨kept hne rfl, h2⟩
      | lib sigs =>
        simp only [ebind] at h
        obtain ⟨o, -, h⟩ := h
        cases o with
        | none => cases h
        | some o => simp only [ebind] at h; obtain ⟨_, -, h⟩ := h; cases h; exact ⟨kept hne rfl, h2⟩
  | ref x =>
    refine ⟨?_, by simp [parts]⟩
    simp only [walkStep] at h
    split at h
    · cases h
    · cases h; exact kept hne rfl
  | litNull => simp only [walkStep, lit, ebind] at h; obtain ⟨_, -, h⟩ := h; cases h; exact ⟨kept hne rfl, by simp [parts]⟩
  | litBool => simp only [walkStep, lit, ebind] at h; obtain ⟨_, -, h⟩ := h; cases h; exact ⟨kept hne rfl, by simp [parts]⟩
  | litInt => simp only [walkStep, lit, ebind] at h; obtain ⟨_, -, h⟩ := h; cases h; exact ⟨kept hne rfl, by simp [parts]⟩
  | litLong => simp only [walkStep, lit, ebind] at h; obtain ⟨_, -, h⟩ := h; cases h; exact ⟨kept hne rfl, by simp [parts]⟩
  | litFloat => simp only [walkStep, lit, ebind] at h; obtain ⟨_, -, h⟩ := h; cases h; exact ⟨kept hne rfl, by simp [parts]⟩
  | litDouble => simp only [walkStep, lit, ebind] at h; obtain ⟨_, -, h⟩ := h; cases h; exact ⟨kept hne rfl, by simp [parts]⟩
  | litString => simp only [walkStep, lit, ebind] at h; obtain ⟨_, -, h⟩ := h; cases h; exact ⟨kept hne rfl, by simp [parts]⟩
  | litBase64 => simp only [walkStep, lit, ebind] at h; obtain ⟨_, -, h⟩ := h; cases h; exact ⟨kept hne rfl, by simp [parts]⟩
  | literal t s =>
    refine ⟨?_, by simp [parts]⟩
    simp only [walkStep, lit, ebind] at h
    obtain ⟨_, -, _, -, h⟩ := h
    cases h; exact kept hne rfl
  | newObject fs ty =>
    simp only [walkStep, ebind] at h
    obtain ⟨⟨ts, ms, Γ1⟩, h1, h⟩ := h
    have h2 := dict_walked hw shut h1
    cases ty with
    | record n =>
      dsimp only at h
      split at h
      · simp only [ebind] at h; obtain ⟨_, h3, _⟩ := h; cases h3
      · simp only [ebind] at h; obtain ⟨_, -, _, -, h⟩ := h; cases h; exact ⟨kept hne rfl, h2⟩
    | map i => simp only [ebind] at h; obtain ⟨_, -, h⟩ := h; cases h; exact ⟨kept hne rfl, h2⟩
    | _ => simp only [ebind] at h; obtain ⟨_, h3, _⟩ := h; cases h3
  | newArray is ty =>
    simp only [walkStep, ebind] at h
    obtain ⟨⟨ts, ms, Γ1⟩, h1, h⟩ := h
    have h2 := listE_walked hw shut h1
    cases ty with
    | array i => simp only [ebind] at h; obtain ⟨_, -, h⟩ := h; cases h; exact ⟨kept hne rfl, h2⟩
    | _ => simp only [ebind] at h; obtain ⟨_, h3, _⟩ := h; cases h3
  | do_ body =>
    simp only [walkStep, ebind] at h
    obtain ⟨⟨u, m, Γ1⟩, h1, h⟩ := h
    cases h
    exact ⟨kept hne rfl, (block_walked hw (Under.new Γ false false) h1).1⟩
  | let_ vs =>
    simp only [walkStep, ebind] at h
    obtain ⟨_, -, ⟨ts, ms⟩, h1, h⟩ := h
    cases h
    obtain ⟨h2, h3, h4⟩ := newVars_walked hw hnil h1
    have h5 := Under.putAll hne ts
    rw [h3] at h5
    refine ⟨⟨⟨h5.ne, fun x hx => h5.find x (.inl (by simpa using hx)), fun x hx _ => h5.writable x hx (fun hm => ?_)⟩,
      fun x hx => h5.find x (.inr hx), within_putAll _ _⟩, h2⟩
    rw [h4 x hm] at hx
    cases hx
  | setVar vs =>
    simp only [walkStep, ebind] at h
    obtain ⟨ms, h1, _, -, h⟩ := h
    cases h
    exact ⟨kept hne rfl, (assigns_walked hw hnil h1).1⟩
  | attrGet e path =>
    simp only [walkStep, ebind] at h
    obtain ⟨⟨u, m, Γ1⟩, h1, h2⟩ := h
    dsimp only at h2
    split at h2
    · simp only [ebind] at h2
      obtain ⟨_, -, ⟨r, ps, Γ2⟩, h3, h4⟩ := h2
      cases h4
      refine ⟨kept hne rfl, fun q hq => ?_⟩
      rcases List.mem_cons.1 hq with rfl | hq
      · exact walked_new hw hnil h1
      · exact path_walked hw shut h3 q hq
    · cases h2
  | attrTo e path repl =>
    simp only [walkStep, ebind] at h
    obtain ⟨⟨u, m, Γ1⟩, h1, h2⟩ := h
    dsimp only at h2
    split at h2
    · simp only [ebind] at h2
      obtain ⟨_, -, ⟨r, ps, Γ2⟩, h3, ⟨a, Γ3⟩, h4, h5⟩ := h2
      cases h5
      obtain ⟨h6, h7, h8⟩ := to_walked hw hne h4
      refine ⟨⟨h7, by simp [declares], h8⟩, fun q hq => ?_⟩
      rcases List.mem_append.1 hq with hq | hq
      · rcases List.mem_cons.1 hq with rfl | hq
        · exact walked_new hw hnil h1
        · exact path_walked hw shut h3 q hq
      · rw [mem_one hq]; exact h6
    · cases h2
  | cellGet n path =>
    simp only [walkStep] at h
    split at h
    · cases h
    · simp only [ebind] at h
      obtain ⟨⟨r, ps, Γ2⟩, h3, h4⟩ := h
      cases h4
      exact ⟨kept hne rfl, path_walked hw shut h3⟩
  | cellTo n path repl =>
    simp only [walkStep] at h
    split at h
    · cases h
    · simp only [ebind] at h
      obtain ⟨⟨r, ps, Γ2⟩, h3, ⟨a, Γ3⟩, h4, h5⟩ := h
      cases h5
      obtain ⟨h6, h7, h8⟩ := to_walked hw hne h4
      refine ⟨⟨h7, by simp [declares], h8⟩, fun q hq => ?_⟩
      rcases List.mem_append.1 hq with hq | hq
      · exact path_walked hw shut h3 q hq
      · rw [mem_one hq]; exact h6
  | poolGet n path =>
    simp only [walkStep] at h
    split at h
    · cases h
    · simp only [ebind] at h
      obtain ⟨⟨r, ps, Γ2⟩, h3, h4⟩ := h
      cases h4
      exact ⟨kept hne rfl, path_walked hw shut h3⟩
  | poolTo n path repl init =>
    simp only [walkStep] at h
    split at h
    · cases h
    · simp only [ebind] at h
      obtain ⟨_, -, ⟨r, ps, Γ2⟩, h3, ⟨a, Γ3⟩, h4, ⟨it, im, Γ4⟩, h5, _, -, h6⟩ := h
      cases h6
      obtain ⟨h6, h7, h8⟩ := to_walked hw hne h4
      have h9 := walkE_w h5
      obtain ⟨h10, -, h11⟩ := hw _ _ _ _ _ h7.ne h9
      refine ⟨⟨h7.trans h10, by simp [declares], h11.trans h8⟩, fun q hq => ?_⟩
      rcases List.mem_append.1 hq with hq | hq
      · exact path_walked hw shut h3 q hq
      · rcases List.mem_cons.1 hq with rfl | hq
        · exact h6
        · rw [mem_one hq]; exact ⟨_, _, h9, h7⟩
  | poolDel n e =>
    simp only [walkStep] at h
    split at h
    · cases h
    · simp only [ebind] at h
      obtain ⟨⟨r, m, Γ2⟩, h3, _, -, h4⟩ := h
      cases h4
      have h9 := walkE_w h3
      obtain ⟨h10, -, h11⟩ := hw _ _ _ _ _ hne h9
      refine ⟨⟨h10, by simp [declares], h11⟩, fun q hq => ?_⟩
      rw [mem_one hq]; exact ⟨_, _, h9, hnil⟩
  | if_ p cs d =>
    simp only [walkStep, ebind] at h
    obtain ⟨pm, h1, ⟨u, m, Γ1⟩, h2, h⟩ := h
    have h3 := (block_walked hw (Under.new Γ false false) h2).1
    cases d with
    | nil =>
      cases h
      refine ⟨kept hne rfl, fun q hq => ?_⟩
      rcases List.mem_append.1 hq with hq | hq
      · rcases List.mem_cons.1 hq with rfl | hq
        · exact pred_walked hw hnil h1
        · exact h3 q hq
      · cases hq
    | cons d ds =>
      simp only [ebind] at h
      obtain ⟨⟨v, dm, Γ2⟩, h4, h⟩ := h
      have h5 := (block_walked hw (Under.new Γ false false) h4).1
      have h6 : Γ' = Γ := by
        dsimp only at h
        split at h
        · simp only [ebind] at h; obtain ⟨_, -, h⟩ := h; cases h; rfl
        · simp only [ebind] at h; obtain ⟨_, -, h⟩ := h; cases h; rfl
      subst h6
      refine ⟨kept hne rfl, fun q hq => ?_⟩
      rcases List.mem_append.1 hq with hq | hq
      · rcases List.mem_cons.1 hq with rfl | hq
        · exact pred_walked hw hnil h1
        · exact h3 q hq
      · exact h5 q hq
  | cond ifs d =>
    simp only [walkStep, ebind] at h
    obtain ⟨⟨ts, ms⟩, h1, h⟩ := h
    have h3 := ifs_walked hw hne h1
    cases d with
    | nil =>
      cases h
      refine ⟨kept hne rfl, fun q hq => ?_⟩
      rcases List.mem_append.1 hq with hq | hq
      · exact h3 q hq
      · cases hq
    | cons d ds =>
      simp only [ebind] at h
      obtain ⟨⟨v, dm, Γ2⟩, h4, h⟩ := h
      have h5 := (block_walked hw (Under.new Γ false false) h4).1
      have h6 : Γ' = Γ := by
        dsimp only at h
        split at h
        · simp only [ebind] at h; obtain ⟨_, -, h⟩ := h; cases h; rfl
        · simp only [ebind] at h; obtain ⟨_, -, h⟩ := h; cases h; rfl
      subst h6
      refine ⟨kept hne rfl, fun q hq => ?_⟩
      rcases List.mem_append.1 hq with hq | hq
      · exact h3 q hq
      · exact h5 q hq
  | while_ p b =>
    simp only [walkStep, ebind] at h
    obtain ⟨pm, h1, ⟨u, m, Γ1⟩, h2, h⟩ := h
    cases h
    refine ⟨kept hne rfl, fun q hq => ?_⟩
    rcases List.mem_cons.1 hq with rfl | hq
    · exact pred_walked hw (Under.new Γ false false) h1
    · exact (block_walked hw (Under.new Γ false false) h2).1 q hq
  | doUntil b p =>
    simp only [walkStep, ebind] at h
    obtain ⟨⟨u, m, Γ1⟩, h1, pm, h2, h⟩ := h
    cases h
    obtain ⟨h3, h4⟩ := block_walked hw (Under.new Γ false false) h1
    refine ⟨kept hne rfl, fun q hq => ?_⟩
    rcases List.mem_append.1 hq with hq | hq
    · exact h3 q hq
    · rw [mem_one hq]; exact pred_walked hw h4 h2
  | for_ init p step b =>
    simp only [walkStep, ebind] at h
    obtain ⟨⟨ts, ims⟩, h1, pm, h2, sms, h3, _, -, ⟨u, bm, Γ1⟩, h4, h⟩ := h
    cases h
    obtain ⟨h5, h6, h7⟩ := newVars_walked hw (Under.new Γ false false) h1
    have h8 := Under.scope Γ false false ts
    rw [h6] at h8
    refine ⟨kept hne rfl, fun q hq => ?_⟩
    rcases List.mem_append.1 hq with hq | hq
    · rcases List.mem_append.1 hq with hq | hq
      · exact h5 q hq
      · rcases List.mem_cons.1 hq with rfl | hq
        · exact pred_walked hw h8 h2
        · exact (assigns_walked hw h8 h3).1 q hq
    · exact (block_walked hw (h8.trans (Under.new _ false false)) h4).1 q hq
  | foreach x a b seq =>
    simp only [walkStep, ebind] at h
    obtain ⟨_, -, _, -, ⟨u, am, Γ1⟩, h1, h⟩ := h
    dsimp only at h
    split at h
    · next i =>
      simp only [ebind] at h
      obtain ⟨⟨u, bm, Γ2⟩, h2, h⟩ := h
      cases h
      refine ⟨kept hne rfl, fun q hq => ?_⟩
      rcases List.mem_cons.1 hq with rfl | hq
      · exact walked_new hw (Under.new Γ (!seq) false) h1
      · have h8 := (Under.scope Γ (!seq) false [(x, some (.avro i))]).trans (Under.new _ false false)
        simp only [Bool.or_false] at h8
        exact (block_walked hw h8 h2).1 q hq
    · cases h
  | forkeyval k v m b =>
    simp only [walkStep, ebind] at h
    obtain ⟨_, -, _, -, _, -, _, -, ⟨u, am, Γ1⟩, h1, h⟩ := h
    dsimp only at h
    split at h
    · next i =>
      simp only [ebind] at h
      obtain ⟨⟨u, bm, Γ2⟩, h2, h⟩ := h
      cases h
      refine ⟨kept hne rfl, fun q hq => ?_⟩
      rcases List.mem_cons.1 hq with rfl | hq
      · exact walked_new hw (Under.new Γ false false) h1
      · exact (block_walked hw ((Under.scope Γ false false [(k, some (.avro .string)), (v, some (.avro i))]).trans (Under.new _ false false)) h2).1 q hq
    · cases h
  | castCase _ _ _ => cases h
  | castBlock e cases part =>
    simp only [walkStep, ebind] at h
    obtain ⟨⟨u, m, Γ1⟩, h1, h2⟩ := h
    dsimp only at h2
    split at h2
    · simp only [ebind] at h2
      obtain ⟨_, -, ⟨us, cs⟩, h3, h4⟩ := h2
      have h6 : Γ' = Γ := by
        cases part with
        | true => simp only [if_true, ebind] at h4; obtain ⟨_, -, _, -, h4⟩ := h4; cases h4; rfl
        | false => simp only [Bool.false_eq_true, if_false, ebind] at h4; obtain ⟨_, -, _, -, _, -, h4⟩ := h4; cases h4; rfl
      subst h6
      refine ⟨kept hne rfl, fun q hq => ?_⟩
      rcases List.mem_cons.1 hq with rfl | hq
      · exact walked_new hw hnil h1
      · exact cases_walked hw h3 q hq
    · cases h2
  | upcast e t' =>
    simp only [walkStep, ebind] at h
    obtain ⟨⟨u, m, Γ1⟩, h1, h2⟩ := h
    dsimp only at h2
    split at h2
    · simp only [ebind] at h2
      obtain ⟨_, -, h3⟩ := h2
      split at h3
      · cases h3
        refine ⟨kept hne rfl, fun q hq => ?_⟩
        rw [mem_one hq]
        exact walked_new hw hnil h1
      · cases h3
    · cases h2
  | ifNotNull es cs d =>
    simp only [walkStep, ebind] at h
    obtain ⟨⟨bs, Γ1⟩, h1, ⟨u, cm, Γ2⟩, h2, ⟨r, dm⟩, h3, h4⟩ := h
    cases h4
    obtain ⟨h5, h6⟩ := notNull_walked hw shut h1
    have h8 := (Under.scope Γ false false (bs.map (fun b => (b.1, (some (.avro b.2.1) : Ty))))).trans (Under.new _ false false)
    have h9 : (bs.map (fun b => (b.1, (some (.avro b.2.1) : Ty)))).map Prod.fst = es.map Prod.fst := by
      rw [← h6, List.map_map]; rfl
    rw [h9] at h8
    refine ⟨kept hne rfl, fun q hq => ?_⟩
    rcases List.mem_append.1 hq with hq | hq
    · rcases List.mem_append.1 hq with hq | hq
      · exact h5 q hq
      · exact (block_walked hw h8 h2).1 q hq
    · exact else_walked hw h3 q hq
  | pack es =>
    simp only [walkStep, ebind] at h
    obtain ⟨ms, h1, _, -, h⟩ := h
    cases h
    exact ⟨kept hne rfl, pack_walked hw hne h1⟩
  | unpack b fmt cs d =>
    simp only [walkStep, ebind] at h
    obtain ⟨⟨u, m, Γ1⟩, h1, _, -, ⟨ds, Γa⟩, h2, _, -, ⟨v, cm, Γ2⟩, h3, ⟨r, dm⟩, h4, h5⟩ := h
    cases h5
    have h8 := ((Under.new Γ false false).trans (format_walked (List.cons_ne_nil _ _) h2)).trans (Under.new _ false false)
    rw [List.append_nil] at h8
    refine ⟨kept hne rfl, fun q hq => ?_⟩
    rcases List.mem_append.1 hq with hq | hq
    · rcases List.mem_cons.1 hq with rfl | hq
      · exact walked_new hw hnil h1
      · exact (block_walked hw h8 h3).1 q hq
    · exact else_walked hw h4 q hq
  | doc _ => cases h; exact ⟨kept hne rfl, by simp [parts]⟩
  | error _ _ => cases h; exact ⟨kept hne rfl, by simp [parts]⟩
  | try_ es filter =>
    simp only [walkStep, ebind] at h
    obtain ⟨⟨u, m, Γ1⟩, h1, _, -, h⟩ := h
    have h2 := (block_walked hw (Under.new Γ true true) h1).1
    have h6 : Γ' = Γ := by
      dsimp only at h
      split at h
      · simp only [ebind] at h; obtain ⟨_, -, h⟩ := h; cases h; rfl
      · simp only [ebind] at h; obtain ⟨_, -, _, -, h⟩ := h; cases h; rfl
      · simp only [ebind] at h; obtain ⟨_, -, h⟩ := h; cases h; rfl
    subst h6
    exact ⟨kept hne rfl, h2⟩
  | log es ns =>
    simp only [walkStep, ebind] at h
    obtain ⟨⟨ts, ms, Γ1⟩, h1, _, -, h⟩ := h
    cases h
    exact ⟨kept hne rfl, listE_walked hw shut h1⟩

theorem walk_grow (n : Nat) : GrowW (walk P g n) := by
  induction n with
  | zero => intro e Γ t c Γ' _ h; cases h
  | succ n ih => exact fun e Γ t c Γ' hne h => (step_parts ih hne h).1

/-- The parts of a walked expression are walked. -/
theorem walk_parts {n : Nat} {e : Ex} {Γ : SymTab} {r} (hne : Γ ≠ []) (h : walk P g (n + 1) e Γ = .ok r) : ∀ q ∈ parts e, Walked (walk P g n) Γ q :=
  (step_parts (walk_grow n) hne h).2

/-! ## The theorems -/

/-- **What is assigned is writable.** -/
theorem sets_writable {x : String} {e : Ex} (hs : Sets x e) : ∀ {n : Nat} {Γ : SymTab} {r}, Γ ≠ [] → (Γ.find x).isSome = true →
    walk P g n e Γ = .ok r → Γ.writable x = true := by
  induction hs with
  | set hx =>
    intro n Γ r hne hf h
    cases n with
    | zero => cases h
    | succ n =>
      simp only [walk, walkStep, ebind] at h
      obtain ⟨ms, h1, -⟩ := h
      exact (assigns_walked (walk_grow n) (Under.refl hne) h1).2 x hx
  | step hx hn =>
    intro n Γ r hne hf h
    cases n with
    | zero => cases h
    | succ n =>
      simp only [walk, walkStep, ebind] at h
      obtain ⟨⟨ts, ims⟩, h1, pm, -, sms, h3, -⟩ := h
      obtain ⟨-, h6, -⟩ := newVars_walked (walk_grow n) (Under.new Γ false false) h1
      have h8 := Under.scope Γ false false ts
      rw [h6] at h8
      exact (h8.writable x hf hn ((assigns_walked (walk_grow n) h8 h3).2 x hx)).1
  | inside hq hn _ ih =>
    intro n Γ r hne hf h
    cases n with
    | zero => cases h
    | succ n =>
      obtain ⟨Δ, r', h1, h2⟩ := walk_parts hne h _ hq
      exact (h2.writable x hf hn (ih h2.ne (h2.find x (.inl hf)) h1)).1

/-- **C43.**  The check rejects every expression in which a block that may not modify its surroundings assigns a
variable of an enclosing scope, or in which a let declares a name that is visible. -/
theorem bad_rejected {vis : List String} {e : Ex} (hb : Bad vis e) : ∀ {n : Nat} {Γ : SymTab} {r}, Γ ≠ [] → (∀ x ∈ vis, (Γ.find x).isSome = true) →
    walk P g n e Γ ≠ .ok r := by
  induction hb with
  | assign hq hc hx hn hs =>
    intro n Γ r hne hv h
    cases n with
    | zero => cases h
    | succ n =>
      obtain ⟨Δ, r', h1, h2⟩ := walk_parts hne h _ hq
      have := (h2.writable _ (hv _ hx) hn (sets_writable hs h2.ne (h2.find _ (.inl (hv _ hx))) h1)).2
      rw [hc] at this
      cases this
  | again hx hv' =>
    intro n Γ r hne hv h
    cases n with
    | zero => cases h
    | succ n =>
      simp only [walk, walkStep, ebind] at h
      obtain ⟨_, -, ⟨ts, ms⟩, h1, -⟩ := h
      have := (newVars_walked (walk_grow n) (Under.refl hne) h1).2.2 _ hx
      have h2 := hv _ hv'
      rw [this] at h2
      cases h2
  | inside hq _ ih =>
    intro n Γ r hne hv h
    cases n with
    | zero => cases h
    | succ n =>
      obtain ⟨Δ, r', h1, h2⟩ := walk_parts hne h _ hq
      refine ih h2.ne (fun x hx => h2.find x ?_) h1
      rcases List.mem_append.1 hx with hx | hx
      · exact .inr hx
      · exact .inl (hv x hx)

/-! ## Whole engines -/

/-- A section of an engine (begin, action, end, merge) breaks the rules, or assigns one of the variables that it is
given. -/
def BadSection (vis : List String) (es : List Ex) : Prop :=
  ∃ q ∈ seqParts true [] es, (∃ x ∈ vis, x ∉ q.binds ∧ Sets x q.ex) ∨ Bad (q.binds ++ vis) q.ex

theorem section_ok {n : Nat} {top : SymTab} (ht : top ≠ []) {syms : List (String × Ty)} {es : List Ex} {ts ms Γ'} {vis : List String}
    (h : walkL (walk P g n) es (sect top syms) = .ok (ts, ms, Γ')) (hv : ∀ x ∈ vis, x ∈ syms.map Prod.fst ∨ (top.find x).isSome = true) : ¬ BadSection vis es := by
  have h0 := (Under.new top true false).trans (Under.putAll (List.cons_ne_nil _ _) syms)
  have h1 := Under.new (putAll (top.new true false) syms) true false
  have hf : ∀ x ∈ vis, ((putAll (top.new true false) syms).find x).isSome = true := by
    intro x hx
    refine h0.find x ?_
    rcases hv x hx with h | h
    · exact .inr (List.mem_append_left _ h)
    · exact .inl h
  rintro ⟨q, hq, hb⟩
  have hq' : ⟨true, q.binds, q.ex⟩ = q := by
    have : ∀ (es : List Ex) (bs : List String), q ∈ seqParts true bs es → q.closed = true := by
      intro es
      induction es with
      | nil => intro bs h; cases h
      | cons e es ih =>
        intro bs h
        rcases List.mem_cons.1 h with rfl | h
        · rfl
        · exact ih _ h
    rw [← this es [] hq]
  obtain ⟨Δ, r, h3, h4⟩ := (seq_walked (walk_grow n) h1 h).1 q hq
  rcases hb with ⟨x, hx, hn, hs⟩ | hb
  · have := (h4.writable x (hf x hx) hn (sets_writable hs h4.ne (h4.find x (.inl (hf x hx))) h3)).2
    rw [← hq'] at this
    cases this
  · refine bad_rejected hb h4.ne (fun x hx => h4.find x ?_) h3
    rcases List.mem_append.1 hx with hx | hx
    · exact .inr hx
    · exact .inl (hf x hx)

/-- The variables that each section is given (pfaast.py 928-1008). -/
def given (cfg : Config) : List String := ["name", "instance", "metadata"] ++ (if cfg.version.isSome then ["version"] else [])

/-- **C43, engines.**  An engine that passes the check has no section that breaks the rules; in particular `input` and
`tally` cannot be assigned. -/
theorem engine_sealed {d : Nat} {cfg : Config} {c : Compiled} (h : compile P g (walk P g d) cfg = .ok c) :
    ¬ BadSection (given cfg) cfg.begin_ ∧
    ¬ BadSection (("actionsStarted" :: "actionsFinished" :: given cfg) ++ if cfg.method = .fold then ["tally"] else []) cfg.end_ ∧
    ¬ BadSection (("input" :: "actionsStarted" :: "actionsFinished" :: given cfg) ++ if cfg.method = .fold then ["tally"] else []) cfg.action ∧
    ∀ es, cfg.merge = some es → ¬ BadSection ("tallyOne" :: "tallyTwo" :: given cfg) es := by
  simp only [compile, ebind] at h
  obtain ⟨⟨bts, bs, Γb⟩, h1, h2⟩ := h
  have hg : ∀ x ∈ given cfg, x ∈ (stdSyms cfg).map Prod.fst := by
    intro x hx
    unfold given at hx
    unfold stdSyms
    cases hv : cfg.version <;> simp only [hv] at hx ⊢ <;> simp at hx ⊢ <;> tauto
  have ht : ∀ x, x ∈ (if cfg.method = .fold then ["tally"] else []) → ((tallyTab cfg).find x).isSome = true := by
    intro x hx
    unfold tallyTab
    cases hm : cfg.method <;> simp only [hm] at hx ⊢ <;> simp at hx
    subst hx
    rfl
  have ht0 : tallyTab cfg ≠ [] := by unfold tallyTab; cases cfg.method <;> simp [topTab, SymTab.put]
  have key : ∃ ets es Γe t a Γa, walkL (walk P g d) cfg.end_ (sect (tallyTab cfg) (stdSyms cfg ++ countSyms)) = .ok (ets, es, Γe) ∧
      block (walk P g d) cfg.action (sect (tallyTab cfg) (("input", some (.avro cfg.input)) :: (stdSyms cfg ++ countSyms))) = .ok (t, a, Γa) ∧
      ∀ es, cfg.merge = some es → ∃ r, block (walk P g d) es (sect topTab (("tallyOne", some (.avro cfg.output)) :: ("tallyTwo", some (.avro cfg.output)) :: stdSyms cfg)) = .ok r := by
    cases hmg : cfg.merge with
    | none =>
      rw [hmg] at h2
      simp only [ebind] at h2
      obtain ⟨mg, -, ⟨ets, es, Γe⟩, h3, ⟨t, a, Γa⟩, h4, -⟩ := h2
      exact ⟨ets, es, Γe, t, a, Γa, h3, h4, by simp⟩
    | some mes =>
      rw [hmg] at h2
      simp only [ebind] at h2
      obtain ⟨r, h8, _, -, mg, -, ⟨ets, es, Γe⟩, h3, ⟨t, a, Γa⟩, h4, -⟩ := h2
      exact ⟨ets, es, Γe, t, a, Γa, h3, h4, fun es he => by cases he; exact ⟨_, h8⟩⟩
  obtain ⟨ets, es, Γe, t, a, Γa, h3, h4, h5⟩ := key
  refine ⟨section_ok (by simp [topTab]) h1 (fun x hx => .inl (hg x hx)), section_ok ht0 h3 (fun x hx => ?_), ?_, fun es he => ?_⟩
  · rcases List.mem_append.1 hx with hx | hx
    · left
      rw [List.map_append, List.mem_append]
      rcases List.mem_cons.1 hx with rfl | hx
      · simp [countSyms]
      · rcases List.mem_cons.1 hx with rfl | hx
        · simp [countSyms]
        · exact .inl (hg x hx)
    · exact .inr (ht x hx)
  · simp only [block, ebind] at h4
    obtain ⟨⟨ts, ms, Γ1⟩, h6, -⟩ := h4
    refine section_ok ht0 h6 (fun x hx => ?_)
    rcases List.mem_append.1 hx with hx | hx
    · left
      rw [List.map_cons, List.map_append, List.mem_cons, List.mem_append]
      rcases List.mem_cons.1 hx with rfl | hx
      · simp
      · rcases List.mem_cons.1 hx with rfl | hx
        · simp [countSyms]
        · rcases List.mem_cons.1 hx with rfl | hx
          · simp [countSyms]
          · exact .inr (.inl (hg x hx))
    · exact .inr (ht x hx)
  · obtain ⟨r, h6⟩ := h5 es he
    simp only [block, ebind] at h6
    obtain ⟨⟨ts, ms, Γ1⟩, h6, -⟩ := h6
    refine section_ok (by simp [topTab]) h6 (fun x hx => .inl ?_)
    rw [List.map_cons, List.map_cons, List.mem_cons, List.mem_cons]
    rcases List.mem_cons.1 hx with rfl | hx
    · simp
    · rcases List.mem_cons.1 hx with rfl | hx
      · simp
      · exact .inr (.inr (hg x hx))

/-- **C43, functions.** -/
theorem functions_sealed {d : Nat} (h : FunsOk P (walk P g d)) {name ps ret body} (hf : P.funs.get? name = some (.user ps ret body)) :
    ¬ Bad [] (.fcnDef ps ret body) := fun hb => by
  obtain ⟨r, h1⟩ := h name ps ret body hf
  exact bad_rejected hb (List.cons_ne_nil _ _) (by simp) h1

end

/-! ## Examples -/

/-- `{"let": {"x": 1}}`, `{"call": {"params": [], "ret": "int", "do": [{"set": {"x": 2}}, 3]}}`-like: a function body that
assigns a variable around it. -/
example : Bad ["x"] (.fcnDef [("y", .int)] .int [.setVar [("x", .litInt (.int 2))], .litInt (.int 3)]) :=
  .assign (q := ⟨true, ["y"], .setVar [("x", .litInt (.int 2))]⟩) (x := "x") (by simp [parts, seqParts]) rfl (by simp) (by simp) (.set (by simp))

/-- The same with a variable of the function itself is fine: it passes the check. -/
example : ∃ r, walk ⟨[], [], [], [], ⟨0, 0, 0⟩, fun _ v => .ok v, fun _ => "", ⟨fun _ => .ok [], fun _ => .ok []⟩⟩ Guard.all 3
    (.fcnDef [("y", .int)] .int [.let_ [("z", .ref "y")], .setVar [("z", .litInt (.int 2))], .ref "z"]) (topTab.new true false) = .ok r := ⟨_, rfl⟩

/-- A predicate that assigns. -/
example : Bad ["x"] (.while_ (.do_ [.setVar [("x", .litInt (.int 2))], .litBool true]) [.litNull]) :=
  .assign (q := ⟨true, [], .do_ [.setVar [("x", .litInt (.int 2))], .litBool true]⟩) (x := "x") (by simp [parts]) rfl (by simp) (by simp)
    (.inside (q := ⟨false, [], .setVar [("x", .litInt (.int 2))]⟩) (by simp [parts, seqParts]) (by simp) (.set (by simp)))

/-- A variable declared before, in the same block. -/
example : Bad [] (.do_ [.let_ [("x", .litInt (.int 1))], .foreach "i" (.ref "a") [.setVar [("x", .ref "i")]] false]) :=
  .inside (q := ⟨false, ["x"], .foreach "i" (.ref "a") [.setVar [("x", .ref "i")]] false⟩) (by simp [parts, seqParts, declares])
    (.assign (q := ⟨true, ["i"], .setVar [("x", .ref "i")]⟩) (x := "x") (by simp [parts, seqParts]) rfl (by simp) (by simp) (.set (by simp)))

end Verif.Lang
