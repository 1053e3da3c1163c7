import Verif.Chain.Model
/-!
# Chaining of engines: code that does the same in two engines (C84)

`Sim k Q m m'`: whatever `m` does in the engine on its own, `m'` does inside the chain.  The states are related by
`Rel`: cells, pools and everything else outside of the scopes by a relation `W`, the scopes by leaving out the
variables that have become cells.  Nothing is said about computations that do not end.
-/

namespace Verif.Chain
open Avro Scope Path Sig Ast Lang

/-- What the states of an engine on its own and inside the chain have in common. -/
structure Ctx where
  /-- the variables that have become cells, with their values -/
  sp : List (String × Val)
  W : World → World → Prop
  /-- a cell of the engine and its name in the chain -/
  cell : String → String → Prop
  pool : String → String → Prop

def Ctx.names (X : Ctx) : List String := X.sp.map Prod.fst

/-- The relation survives what the code does to cells, pools, clock and log. -/
structure Ctx.Fits (X : Ctx) : Prop where
  getCell : ∀ {w w' c c'}, X.W w w' → X.cell c c' → w'.cells.get? c' = w.cells.get? c
  setCell : ∀ {w w' c c'} (v : Val), X.W w w' → X.cell c c' →
    X.W { w with cells := w.cells.set c v } { w' with cells := w'.cells.set c' v }
  getPool : ∀ {w w' c c'}, X.W w w' → X.pool c c' → w'.pools.get? c' = w.pools.get? c
  setPool : ∀ {w w' c c'} (d : PyDict String Val), X.W w w' → X.pool c c' → (w.pools.get? c).isSome →
    X.W { w with pools := w.pools.set c d } { w' with pools := w'.pools.set c' d }
  special : ∀ {w w' x v}, X.W w w' → (x, v) ∈ X.sp → w'.cells.get? x = some v
  tick : ∀ {w w'}, X.W w w' → X.W { w with tick := w.tick + 1 } { w' with tick := w'.tick + 1 }
  out : ∀ {w w'} (vs : List Val), X.W w w' → X.W { w with out := w.out ++ vs } { w' with out := w'.out ++ vs }

/-- A scope without the given names. -/
def strip (names : List String) (f : Frame Val) : Frame Val := f.filter (fun kv => !decide (kv.1 ∈ names))

/-- The outermost scope has the variables, and no other scope has one of the same name. -/
def Live (sp : List (String × Val)) : Chain Val → Prop
  | [] => False
  | [b] => ∀ x v, (x, v) ∈ sp → PyDict.get? b x = some v
  | f :: g :: c => (∀ x, x ∈ sp.map Prod.fst → PyDict.get? f x = none) ∧ Live sp (g :: c)

/-- The scopes in the chain are those of the engine without the variables that have become cells; there may be
empty scopes around them. -/
structure CRel (X : Ctx) (k : Bool) (c c' : Chain Val) : Prop where
  ne : c ≠ []
  eq : ∃ r : Chain Val, (∀ f ∈ r, f = []) ∧ c' = c.map (strip X.names) ++ r
  live : k = true → Live X.sp c

/-- Related states. -/
structure Rel (X : Ctx) (k : Bool) (s s' : St) : Prop where
  chain : CRel X k s.chain s'.chain
  world : X.W s.world s'.world

/-- Related results. -/
def RRel {α β : Type} (Q : α → β → Prop) : Res α → Res β → Prop
  | .ok a, .ok b => Q a b
  | .error e, .error e' => e' = e
  | _, _ => False

/-- The second program does what the first does. -/
def Sim (X : Ctx) (k : Bool) {α β : Type} (Q : α → β → Prop) (m : M α) (m' : M β) : Prop :=
  ∀ s s', Rel X k s s' → (m s).1 = .error unfinished ∨
    ((m s).2.chain.length = s.chain.length ∧ Rel X k (m s).2 (m' s').2 ∧ RRel Q (m s).1 (m' s').1)

section
variable {X : Ctx} {k : Bool} {α β γ δ : Type} {Q : α → β → Prop} {R : γ → δ → Prop}

theorem Sim.pure {a : α} {b : β} (h : Q a b) : Sim X k Q (Pure.pure a) (Pure.pure b) := fun _ _ hr => .inr ⟨rfl, hr, h⟩

theorem Sim.raise (e : Err) : Sim X k Q (Lang.raise e) (Lang.raise e) := fun _ _ hr => .inr ⟨rfl, hr, rfl⟩

theorem Sim.lift {r : Res α} {r' : Res β} (h : RRel Q r r') : Sim X k Q (Lang.lift r) (Lang.lift r') := fun _ _ hr => .inr ⟨rfl, hr, h⟩

theorem RRel.refl {r : Res α} : RRel (fun a b => b = a) r r := by cases r <;> rfl

theorem Sim.lift_same (r : Res α) : Sim X k (fun a b => b = a) (Lang.lift r) (Lang.lift r) := Sim.lift RRel.refl

theorem bind_run {m : M α} {f : α → M γ} (s : St) : (m >>= f) s = (match m s with
    | (.ok a, s) => f a s
    | (.error e, s) => (.error e, s)) := rfl

theorem Sim.bind {m : M α} {m' : M β} {f : α → M γ} {f' : β → M δ} (h : Sim X k Q m m') (hf : ∀ a b, Q a b → Sim X k R (f a) (f' b)) :
    Sim X k R (m >>= f) (m' >>= f') := by
  intro s s' hr
  rw [bind_run, bind_run]
  rcases h s s' hr with h1 | ⟨h1, h2, h3⟩
  · rcases hm : m s with ⟨r, s1⟩
    rw [hm] at h1
    subst h1
    exact .inl rfl
  · revert h1 h2 h3
    rcases m s with ⟨r, s1⟩
    rcases m' s' with ⟨r', s1'⟩
    intro h1 h2 h3
    cases r with
    | error e => cases r' with
      | error e' => exact .inr ⟨h1, h2, h3⟩
      | ok b => exact h3.elim
    | ok a => cases r' with
      | error e' => exact h3.elim
      | ok b =>
        rcases hf a b h3 s1 s1' h2 with h4 | ⟨h4, h5, h6⟩
        · exact .inl h4
        · exact .inr ⟨h4.trans h1, h5, h6⟩

theorem Sim.mono {m : M α} {m' : M β} {Q' : α → β → Prop} (h : Sim X k Q m m') (hq : ∀ a b, Q a b → Q' a b) : Sim X k Q' m m' := by
  intro s s' hr
  rcases h s s' hr with h1 | ⟨h1, h2, h3⟩
  · exact .inl h1
  · refine .inr ⟨h1, h2, ?_⟩
    revert h3
    cases (m s).1 <;> cases (m' s').1 <;> intro h3
    · exact h3
    · exact h3
    · exact h3
    · exact hq _ _ h3

/-- The same value. -/
abbrev Same {α : Type} : α → α → Prop := fun a b => b = a

theorem Sim.bindS {m m' : M α} {f : α → M γ} {f' : α → M δ} (h : Sim X k Same m m') (hf : ∀ a, Sim X k R (f a) (f' a)) :
    Sim X k R (m >>= f) (m' >>= f') := Sim.bind h (fun a b hab => by cases hab; exact hf a)

/-! ## Scopes -/

theorem get?_strip {names : List String} {f : Frame Val} {x : String} (hx : x ∉ names) : PyDict.get? (strip names f) x = PyDict.get? f x := by
  induction f with
  | nil => rfl
  | cons kv f ih =>
    obtain ⟨y, v⟩ := kv
    unfold strip at ih ⊢
    by_cases hy : y ∈ names
    · rw [List.filter_cons_of_neg (by simp [hy]), ih, PyDict.get?_cons, if_neg (by rintro rfl; exact hx hy)]
    · rw [List.filter_cons_of_pos (by simp [hy]), PyDict.get?_cons, PyDict.get?_cons, ih]

theorem strip_set {names : List String} {f : Frame Val} {x : String} {v : Val} (hx : x ∉ names) :
    strip names (PyDict.set f x v) = PyDict.set (strip names f) x v := by
  induction f with
  | nil => simp [strip, PyDict.set, hx]
  | cons kv f ih =>
    obtain ⟨y, u⟩ := kv
    unfold strip at ih ⊢
    simp only [PyDict.set]
    by_cases hyx : y = x
    · subst hyx
      rw [if_pos rfl, List.filter_cons_of_pos (by simpa using hx), List.filter_cons_of_pos (by simpa using hx), PyDict.set, if_pos rfl]
    · rw [if_neg hyx]
      by_cases hy : y ∈ names
      · rw [List.filter_cons_of_neg (by simpa using hy), List.filter_cons_of_neg (by simpa using hy), ih]
      · rw [List.filter_cons_of_pos (by simpa using hy), List.filter_cons_of_pos (by simpa using hy), ih, PyDict.set, if_neg hyx]

theorem strip_update {names : List String} {d : List (String × Val)} (hd : ∀ x ∈ d.map Prod.fst, x ∉ names) : ∀ {f : Frame Val},
    strip names (PyDict.update f d) = PyDict.update (strip names f) d := by
  induction d with
  | nil => intro f; rfl
  | cons kv d ih =>
    intro f
    have h1 := ih (fun x hx => hd x (List.mem_cons_of_mem _ hx)) (f := PyDict.set f kv.1 kv.2)
    simp only [PyDict.update, List.foldl_cons] at h1 ⊢
    rw [h1, strip_set (hd _ (List.mem_cons_self ..))]

/-- An inner scope and what it is inside the chain. -/
structure FRel (X : Ctx) (k : Bool) (f f' : Frame Val) : Prop where
  eq : f' = strip X.names f
  live : k = true → ∀ x, x ∈ X.sp.map Prod.fst → PyDict.get? f x = none

theorem FRel.nil : FRel X k [] [] := ⟨rfl, fun _ _ _ => rfl⟩

/-- None of the names is one of the variables that have become cells. -/
def Free (X : Ctx) (xs : List String) : Prop := ∀ x ∈ xs, x ∉ X.names

theorem get?_update_free {X : Ctx} {f : Frame Val} {d : List (String × Val)} {x : String} (hx : x ∉ d.map Prod.fst) :
    PyDict.get? (PyDict.update f d) x = PyDict.get? f x := by
  induction d generalizing f with
  | nil => rfl
  | cons kv d ih =>
    simp only [List.map_cons, List.mem_cons, not_or] at hx
    have := ih (f := PyDict.set f kv.1 kv.2) hx.2
    simp only [PyDict.update, List.foldl_cons] at this ⊢
    rw [this]; exact PyDict.get?_set_ne _ _ (fun h => hx.1 h.symm)

theorem FRel.update {f f' : Frame Val} {d : List (String × Val)} (h : FRel X k f f') (hd : Free X (d.map Prod.fst)) :
    FRel X k (PyDict.update f d) (PyDict.update f' d) :=
  ⟨by rw [h.eq, strip_update hd], fun hk x hx => by rw [get?_update_free (X := X) (fun hm => hd x hm hx), h.live hk x hx]⟩

theorem CRel.push {c c' : Chain Val} {f f' : Frame Val} (h : CRel X k c c') (hf : FRel X k f f') : CRel X k (f :: c) (f' :: c') := by
  obtain ⟨r, hr, hc⟩ := h.eq
  refine ⟨by simp, ⟨r, hr, by rw [hc, hf.eq]; rfl⟩, fun hk => ?_⟩
  cases c with
  | nil => exact (h.ne rfl).elim
  | cons g c => exact ⟨hf.live hk, h.live hk⟩

theorem CRel.pop {c c' : Chain Val} (h : CRel X k c c') (hl : 2 ≤ c.length) :
    CRel X k c.tail c'.tail ∧ FRel X k (c.headD []) (c'.headD []) := by
  obtain ⟨r, hr, hc⟩ := h.eq
  cases c with
  | nil => simp at hl
  | cons f c => cases c with
    | nil => simp at hl
    | cons g c =>
      rw [hc]
      exact ⟨⟨by simp, ⟨r, hr, rfl⟩, fun hk => (h.live hk).2⟩, rfl, fun hk => (h.live hk).1⟩

theorem Sim.kept {f f' : Frame Val} {m : M α} {m' : M β} (hf : FRel X k f f') (h : Sim X k Q m m') :
    Sim X k (fun a b => Q a.1 b.1 ∧ FRel X k a.2 b.2) (inKept f m) (inKept f' m') := by
  intro s s' hr
  have h1 := h { s with chain := f :: s.chain } { s' with chain := f' :: s'.chain } ⟨hr.chain.push hf, hr.world⟩
  unfold inKept
  revert h1
  rcases m { s with chain := f :: s.chain } with ⟨r, s1⟩
  rcases m' { s' with chain := f' :: s'.chain } with ⟨r', s1'⟩
  rintro (h1 | ⟨h1, h2, h3⟩)
  · cases h1; exact .inl rfl
  · have hlen : s1.chain.length = s.chain.length + 1 := h1
    have hne : 0 < s.chain.length := List.length_pos_iff.2 hr.chain.ne
    obtain ⟨h4, h5⟩ := h2.chain.pop (by show 2 ≤ s1.chain.length; rw [hlen]; omega)
    cases r with
    | error e => cases r' with
      | error e' => exact .inr ⟨by simp [hlen], ⟨h4, h2.world⟩, h3⟩
      | ok b => exact h3.elim
    | ok a => cases r' with
      | error e' => exact h3.elim
      | ok b => exact .inr ⟨by simp [hlen], ⟨h4, h2.world⟩, h3, h5⟩

theorem Sim.frame {f f' : Frame Val} {m : M α} {m' : M β} (hf : FRel X k f f') (h : Sim X k Q m m') : Sim X k Q (inFrame f m) (inFrame f' m') := by
  intro s s' hr
  have h1 := h { s with chain := f :: s.chain } { s' with chain := f' :: s'.chain } ⟨hr.chain.push hf, hr.world⟩
  unfold inFrame
  revert h1
  rcases m { s with chain := f :: s.chain } with ⟨r, s1⟩
  rcases m' { s' with chain := f' :: s'.chain } with ⟨r', s1'⟩
  rintro (h1 | ⟨h1, h2, h3⟩)
  · exact .inl h1
  · have hlen : s1.chain.length = s.chain.length + 1 := h1
    have hne : 0 < s.chain.length := List.length_pos_iff.2 hr.chain.ne
    obtain ⟨h4, -⟩ := h2.chain.pop (by show 2 ≤ s1.chain.length; rw [hlen]; omega)
    exact .inr ⟨by simp [hlen], ⟨h4, h2.world⟩, h3⟩

/-- In a scope of its own, where nothing can be seen from outside. -/
theorem Sim.fresh {m : M α} {m' : M β} (h : Sim X false Q m m') : Sim X k Q (inFresh m) (inFresh m') := by
  intro s s' hr
  have h1 := h { s with chain := [[]] } { s' with chain := [[]] } ⟨⟨by simp, ⟨[], by simp, rfl⟩, fun h => by cases h⟩, hr.world⟩
  unfold inFresh
  revert h1
  rcases m { s with chain := [[]] } with ⟨r, s1⟩
  rcases m' { s' with chain := [[]] } with ⟨r', s1'⟩
  rintro (h1 | ⟨h1, h2, h3⟩)
  · exact .inl h1
  · exact .inr ⟨rfl, ⟨hr.chain, h2.world⟩, h3⟩

theorem get_nils (r : Chain Val) (hr : ∀ f ∈ r, f = []) (x : String) : Scope.get r x = .error (.py "RuntimeError") := by
  induction r with
  | nil => rfl
  | cons f r ih =>
    rw [hr f (List.mem_cons_self ..), Scope.get]
    exact ih (fun g hg => hr g (List.mem_cons_of_mem _ hg))

theorem get_related {c c' : Chain Val} (h : CRel X k c c') {x : String} (hx : x ∉ X.names) : Scope.get c' x = Scope.get c x := by
  obtain ⟨r, hr, rfl⟩ := h.eq
  clear h
  induction c with
  | nil => rw [List.map_nil, List.nil_append, get_nils r hr]; rfl
  | cons f c ih => rw [List.map_cons, List.cons_append, Scope.get, Scope.get, get?_strip hx, ih]

theorem get_live {sp : List (String × Val)} {c : Chain Val} (h : Live sp c) {x : String} {v : Val} (hx : (x, v) ∈ sp) : Scope.get c x = .ok v := by
  induction c with
  | nil => exact h.elim
  | cons f c ih => cases c with
    | nil => rw [Scope.get, h x v hx]
    | cons g c => rw [Scope.get, h.1 x (List.mem_map_of_mem (f := Prod.fst) hx)]; exact ih h.2

theorem Sim.getVar {x : String} (hx : x ∉ X.names) : Sim X k Same (Lang.getVar x) (Lang.getVar x) := fun s s' hr =>
  .inr ⟨rfl, hr, by simp only [Lang.getVar]; rw [get_related hr.chain hx]; exact RRel.refl⟩

theorem Sim.letM {d : List (String × Val)} (hd : Free X (d.map Prod.fst)) : Sim X k Same (Lang.letM d) (Lang.letM d) := by
  intro s s' hr
  refine .inr ⟨?_, ⟨?_, hr.world⟩, rfl⟩
  · simp only [Lang.letM]
    cases s.chain <;> rfl
  · simp only [Lang.letM]
    have hd' : Free X ((PyDict.update [] d : PyDict String Val).map Prod.fst) := fun x hx => by
      rcases (Producer.mem_keys_update).1 hx with h | h
      · cases h
      · exact hd x h
    have h := hr.chain
    revert h
    generalize s.chain = c
    generalize s'.chain = c'
    intro h
    obtain ⟨r, hr, rfl⟩ := h.eq
    cases c with
    | nil => exact (h.ne rfl).elim
    | cons f c =>
      simp only [letVars, List.map_cons, List.cons_append]
      refine ⟨by simp, ⟨r, hr, by rw [List.map_cons, strip_update hd']; rfl⟩, fun hk => ?_⟩
      have hl := h.live hk
      cases c with
      | nil => intro x v hx; rw [get?_update_free (X := X) (fun hm => hd' x hm (List.mem_map_of_mem (f := Prod.fst) hx)), hl x v hx]
      | cons g c => exact ⟨fun x hx => by rw [get?_update_free (X := X) (fun hm => hd' x hm hx), hl.1 x hx], hl.2⟩

/-! ### Assignment -/

theorem setLoop_cons (recur : Chain Val → Chain Val × Bool) (x : String) (v : Val) (rest : List (String × Val)) (f : Frame Val) (p : Chain Val) :
    setLoop recur ((x, v) :: rest) f p = if PyDict.has f x then setLoop recur rest (PyDict.set f x v) p
      else match p with
        | [] => ((f, p), true)
        | g :: ps =>
          match recur (g :: ps) with
          | (p', true) => ((f, p'), true)
          | (p', false) => setLoop recur rest f p' := by
  rw [setLoop.eq_def]
  dsimp only
  by_cases h : PyDict.has f x = true
  · rw [if_pos h, if_pos h]
  · rw [if_neg h, if_neg h]
    cases p with
    | nil => rfl
    | cons g p =>
      dsimp only
      rcases recur (g :: p) with ⟨q, _ | _⟩ <;> rfl

theorem forall₂_trans {R : Frame Val → Frame Val → Prop} (hR : ∀ a b c, R a b → R b c → R a c) {a b c : Chain Val}
    (h : List.Forall₂ R a b) (h' : List.Forall₂ R b c) : List.Forall₂ R a c := by
  induction h generalizing c with
  | nil => exact h'
  | cons h1 h2 ih => cases h' with
    | cons h3 h4 => exact .cons (hR _ _ _ h1 h3) (ih h4)

theorem setLoop_len {recur : Chain Val → Chain Val × Bool} {n : Nat} (hrec : ∀ c, c.length = n → (recur c).1.length = n) :
    ∀ (rest : List (String × Val)) (f : Frame Val) (p : Chain Val), p.length = n → (setLoop recur rest f p).1.2.length = n := by
  intro rest
  induction rest with
  | nil => intro f p hp; exact hp
  | cons kv rest ih =>
    intro f p hp
    obtain ⟨x, v⟩ := kv
    rw [setLoop_cons]
    split
    · exact ih _ _ hp
    · cases p with
      | nil => exact hp
      | cons g p =>
        have := hrec (g :: p) hp
        revert this
        dsimp only
        rcases recur (g :: p) with ⟨q, _ | _⟩
        · exact fun h => ih _ _ h
        · exact fun h => h

theorem setN_len (n : Nat) (d : PyDict String Val) : ∀ c : Chain Val, (setN n d c).1.length = c.length := by
  induction n with
  | zero => intro c; rfl
  | succ n ih =>
    intro c
    cases c with
    | nil => rfl
    | cons f c =>
      have := setLoop_len (n := c.length) (fun c' hc' => (ih c').trans hc') d f c rfl
      rw [setN]
      revert this
      rcases setLoop (setN n d) d f c with ⟨⟨f', p'⟩, b⟩
      intro h
      simpa using h

/-- Assignment does not touch other variables. -/
theorem setN_frames (n : Nat) (d : PyDict String Val) : ∀ c : Chain Val,
    List.Forall₂ (fun f f1 : Frame Val => ∀ x, x ∉ d.map Prod.fst → PyDict.get? f1 x = PyDict.get? f x) c (setN n d c).1 := by
  have hrefl : ∀ c : Chain Val, List.Forall₂ (fun f f1 : Frame Val => ∀ x, x ∉ d.map Prod.fst → PyDict.get? f1 x = PyDict.get? f x) c c :=
    fun c => List.forall₂_same.2 (fun _ _ _ _ => rfl)
  induction n with
  | zero => intro c; exact hrefl c
  | succ n ih =>
    intro c
    cases c with
    | nil => exact .nil
    | cons f c =>
      have key : ∀ (rest : List (String × Val)), (∀ kv ∈ rest, kv ∈ d) → ∀ (f0 f : Frame Val) (c0 c : Chain Val),
          (∀ x, x ∉ d.map Prod.fst → PyDict.get? f x = PyDict.get? f0 x) →
          List.Forall₂ (fun f f1 : Frame Val => ∀ x, x ∉ d.map Prod.fst → PyDict.get? f1 x = PyDict.get? f x) c0 c →
          (∀ x, x ∉ d.map Prod.fst → PyDict.get? (setLoop (setN n d) rest f c).1.1 x = PyDict.get? f0 x) ∧
          List.Forall₂ (fun f f1 : Frame Val => ∀ x, x ∉ d.map Prod.fst → PyDict.get? f1 x = PyDict.get? f x) c0 (setLoop (setN n d) rest f c).1.2 := by
        intro rest
        induction rest with
        | nil => intro _ f0 f c0 c h1 h2; exact ⟨h1, h2⟩
        | cons kv rest ihr =>
          intro hin f0 f c0 c h1 h2
          obtain ⟨y, v⟩ := kv
          rw [setLoop_cons]
          split
          · refine ihr (fun kv h => hin kv (List.mem_cons_of_mem _ h)) f0 _ c0 c (fun x hx => ?_) h2
            rw [PyDict.get?_set_ne _ _ (by rintro rfl; exact hx (List.mem_map_of_mem (f := Prod.fst) (hin _ (List.mem_cons_self ..)))), h1 x hx]
          · cases c with
            | nil => exact ⟨h1, h2⟩
            | cons g c =>
              have h3 := ih (g :: c)
              revert h3
              dsimp only
              rcases setN n d (g :: c) with ⟨q, b⟩
              intro h3
              have h4 : List.Forall₂ (fun f f1 : Frame Val => ∀ x, x ∉ d.map Prod.fst → PyDict.get? f1 x = PyDict.get? f x) c0 q := by
                refine forall₂_trans ?_ h2 h3
                intro a b c h h' x hx
                rw [h' x hx, h x hx]
              cases b with
              | true => exact ⟨h1, h4⟩
              | false => exact ihr (fun kv h => hin kv (List.mem_cons_of_mem _ h)) f0 f c0 q h1 h4
      have h1 := key d (fun _ h => h) f f c c (fun _ _ => rfl) (hrefl c)
      rw [setN]
      revert h1
      rcases setLoop (setN n d) d f c with ⟨⟨f', p'⟩, b⟩
      exact fun h1 => .cons h1.1 h1.2

theorem live_frames {sp : List (String × Val)} {c c1 : Chain Val} (h : List.Forall₂ (fun f f1 : Frame Val => ∀ x, x ∈ sp.map Prod.fst → PyDict.get? f1 x = PyDict.get? f x) c c1)
    (hl : Live sp c) : Live sp c1 := by
  induction h with
  | nil => exact hl
  | cons h1 h2 ih =>
    cases h2 with
    | nil => intro x v hx; rw [h1 x (List.mem_map_of_mem (f := Prod.fst) hx), hl x v hx]
    | cons h3 h4 => exact ⟨fun x hx => by rw [h1 x hx, hl.1 x hx], ih hl.2⟩

theorem setN_nils {d : PyDict String Val} (hd : d ≠ []) (r : Chain Val) (hr : ∀ f ∈ r, f = []) : setN r.length d r = (r, true) := by
  cases d with
  | nil => exact (hd rfl).elim
  | cons kv d =>
    obtain ⟨x, v⟩ := kv
    induction r with
    | nil => rfl
    | cons f r ih =>
      have h1 := ih (fun g hg => hr g (List.mem_cons_of_mem _ hg))
      have hf := hr f (List.mem_cons_self ..)
      subst hf
      rw [List.length_cons, setN, setLoop_cons, if_neg (by simp [PyDict.has])]
      cases r with
      | nil => rfl
      | cons g r => dsimp only; rw [h1]

theorem setN_strip {names : List String} {d : PyDict String Val} (hd : ∀ x ∈ d.map Prod.fst, x ∉ names) {r : Chain Val} (hr : ∀ f ∈ r, f = []) :
    ∀ (n : Nat) (c : Chain Val), c.length = n → c ≠ [] → setN (c.length + r.length) d (c.map (strip names) ++ r) =
      ((setN c.length d c).1.map (strip names) ++ r, (setN c.length d c).2) := by
  intro n
  induction n with
  | zero => intro c hc h; exact (h (List.length_eq_zero_iff.1 hc)).elim
  | succ n ih =>
    intro c hc _
    cases c with
    | nil => simp at hc
    | cons f0 c0 =>
      have key : ∀ (rest : List (String × Val)), (∀ kv ∈ rest, kv ∈ d) → ∀ (f : Frame Val) (c : Chain Val), c.length = c0.length →
          (∀ c : Chain Val, c ≠ [] → c.length = c0.length → setN (c.length + r.length) d (c.map (strip names) ++ r) =
            ((setN c.length d c).1.map (strip names) ++ r, (setN c.length d c).2)) →
          setLoop (setN (c0.length + r.length) d) rest (strip names f) (c.map (strip names) ++ r) =
            ((strip names (setLoop (setN c0.length d) rest f c).1.1, (setLoop (setN c0.length d) rest f c).1.2.map (strip names) ++ r),
              (setLoop (setN c0.length d) rest f c).2) := by
        intro rest
        induction rest with
        | nil => intro _ f c _ _; rfl
        | cons kv rest ihr =>
          intro hin f c hlen hrec
          obtain ⟨y, v⟩ := kv
          have hy : y ∉ names := hd y (List.mem_map_of_mem (f := Prod.fst) (hin _ (List.mem_cons_self ..)))
          have hin' : ∀ kv ∈ rest, kv ∈ d := fun kv h => hin kv (List.mem_cons_of_mem _ h)
          rw [setLoop_cons, setLoop_cons]
          have hhas : PyDict.has (strip names f) y = PyDict.has f y := by simp only [PyDict.has, get?_strip hy]
          rw [hhas]
          by_cases hb : PyDict.has f y = true
          · rw [if_pos hb, if_pos hb, ← strip_set hy]
            exact ihr hin' _ c hlen hrec
          · rw [if_neg hb, if_neg hb]
            cases c with
            | nil =>
              cases r with
              | nil => rfl
              | cons g r =>
                have h1 := setN_nils (d := d) (by rintro rfl; cases hin _ (List.mem_cons_self ..)) (g :: r) hr
                simp only [List.length_nil] at hlen
                simp only [List.map_nil, List.nil_append, ← hlen, Nat.zero_add]
                rw [h1]
            | cons g c =>
              have h1 := hrec (g :: c) (by simp) hlen
              have h2 := setN_len c0.length d (g :: c)
              rw [hlen] at h1 h2
              simp only [List.map_cons, List.cons_append] at h1 ⊢
              rw [h1]
              revert h2
              rcases setN c0.length d (g :: c) with ⟨q, b⟩
              intro h2
              cases b with
              | true => rfl
              | false => exact ihr hin' f q h2 hrec
      have hrec : ∀ c : Chain Val, c ≠ [] → c.length = c0.length → setN (c.length + r.length) d (c.map (strip names) ++ r) =
            ((setN c.length d c).1.map (strip names) ++ r, (setN c.length d c).2) :=
        fun c hne hl => ih c (by rw [hl]; simpa using hc) hne
      have h1 := key d (fun _ h => h) f0 c0 rfl hrec
      rw [List.length_cons, show c0.length + 1 + r.length = (c0.length + r.length) + 1 by omega, List.map_cons, List.cons_append, setN, h1, setN]
      rcases setLoop (setN c0.length d) d f0 c0 with ⟨⟨f', p'⟩, b⟩
      rfl

theorem Sim.setM {d : List (String × Val)} (hd : Free X (d.map Prod.fst)) : Sim X k Same (Lang.setM d) (Lang.setM d) := by
  intro s s' hr
  have hd' : ∀ x ∈ (PyDict.update [] d : PyDict String Val).map Prod.fst, x ∉ X.names := fun x hx => by
    rcases (Producer.mem_keys_update).1 hx with h | h
    · cases h
    · exact hd x h
  obtain ⟨r, hn, hc⟩ := hr.chain.eq
  have h1 := setN_strip hd' hn s.chain.length s.chain rfl hr.chain.ne
  have h2 := setN_len s.chain.length (PyDict.update [] d) s.chain
  have h3 := setN_frames s.chain.length (PyDict.update [] d) s.chain
  have hl : s'.chain.length = s.chain.length + r.length := by rw [hc]; simp
  simp only [Lang.setM]
  rw [hl, hc, h1]
  revert h2 h3
  rcases setN s.chain.length (PyDict.update [] d) s.chain with ⟨c1, b⟩
  intro h2 h3
  have h4 : Rel X k { s with chain := c1 } { s' with chain := c1.map (strip X.names) ++ r } := by
    refine ⟨⟨?_, ⟨r, hn, rfl⟩, fun hk => ?_⟩, hr.world⟩
    · intro h
      have : c1 = [] := h
      rw [this] at h2
      exact hr.chain.ne (List.length_eq_zero_iff.1 h2.symm)
    · refine live_frames (h3.imp ?_) (hr.chain.live hk)
      exact fun f f1 h x hx => h x (fun hm => hd' x hm hx)
  cases b
  · exact .inr ⟨h2, h4, rfl⟩
  · exact .inr ⟨h2, h4, rfl⟩

/-! ## Blocks, branches and loops -/

theorem Sim.evalL {ms ms' : List (M α)} (h : List.Forall₂ (Sim X k Same) ms ms') : Sim X k Same (Lang.evalL ms) (Lang.evalL ms') := by
  induction h with
  | nil => exact Sim.pure rfl
  | cons h1 _ ih => exact Sim.bindS h1 (fun a => Sim.bindS ih (fun as => Sim.pure rfl))

theorem Sim.evalL_rel {ms : List (M α)} {ms' : List (M β)} (h : List.Forall₂ (Sim X k Q) ms ms') : Sim X k (List.Forall₂ Q) (Lang.evalL ms) (Lang.evalL ms') := by
  induction h with
  | nil => exact Sim.pure .nil
  | cons h1 _ ih => exact Sim.bind h1 (fun a b hab => Sim.bind ih (fun as bs hs => Sim.pure (.cons hab hs)))

/-- Related members of a dictionary. -/
def MRel (P : α → β → Prop) : String × α → String × β → Prop := fun a b => b.1 = a.1 ∧ P a.2 b.2

theorem Sim.evalD {ms ms' : List (String × M α)} (h : List.Forall₂ (MRel (Sim X k Same)) ms ms') :
    Sim X k (fun a b => b = a ∧ a.map Prod.fst = ms.map Prod.fst) (Lang.evalD ms) (Lang.evalD ms') := by
  induction h with
  | nil => exact Sim.pure ⟨rfl, rfl⟩
  | @cons a b _ _ h1 _ ih =>
    obtain ⟨x, m⟩ := a
    obtain ⟨x', m'⟩ := b
    obtain ⟨rfl, h1⟩ := h1
    refine Sim.bindS h1 (fun a => Sim.bind ih (fun as bs hs => Sim.pure ⟨by rw [hs.1], by simp [hs.2]⟩))

theorem Sim.doM {ms ms' : List (M Val)} (h : List.Forall₂ (Sim X k Same) ms ms') : Sim X k Same (Lang.doM ms) (Lang.doM ms') :=
  Sim.bindS (Sim.evalL h) (fun _ => Sim.pure rfl)

theorem Sim.inner {m : M α} {m' : M β} (h : Sim X k Q m m') : Sim X k Q (inFrame [] m) (inFrame [] m') := Sim.frame FRel.nil h

theorem Sim.test {p p' : M Val} (h : Sim X k Same p p') : Sim X k Same (Lang.test p) (Lang.test p') :=
  Sim.bindS (Sim.inner h) (fun _ => Sim.pure rfl)

theorem Sim.ite {b : Bool} {m n : M α} {m' n' : M β} (hm : Sim X k Q m m') (hn : Sim X k Q n n') :
    Sim X k Q (if b = true then m else n) (if b = true then m' else n') := by
  cases b
  · exact hn
  · exact hm

theorem Sim.ifThen {p p' c c' : M Val} (hp : Sim X k Same p p') (hc : Sim X k Same c c') : Sim X k Same (Lang.ifThen p c) (Lang.ifThen p' c') :=
  Sim.bindS (Sim.test hp) (fun _ => Sim.ite (Sim.bindS (Sim.inner hc) (fun _ => Sim.pure rfl)) (Sim.pure rfl))

theorem Sim.ifThenElse {p p' c c' d d' : M Val} (hp : Sim X k Same p p') (hc : Sim X k Same c c') (hd : Sim X k Same d d') :
    Sim X k Same (Lang.ifThenElse p c d) (Lang.ifThenElse p' c' d') :=
  Sim.bindS (Sim.test hp) (fun _ => Sim.ite (Sim.inner hc) (Sim.inner hd))

/-- Related branches. -/
def BRel (X : Ctx) (k : Bool) : M Val × M Val → M Val × M Val → Prop := fun a b => Sim X k Same a.1 b.1 ∧ Sim X k Same a.2 b.2

theorem Sim.condM {bs bs' : List (M Val × M Val)} (h : List.Forall₂ (BRel X k) bs bs') : Sim X k Same (Lang.condM bs) (Lang.condM bs') := by
  induction h with
  | nil => exact Sim.pure rfl
  | cons h1 _ ih => exact Sim.bindS (Sim.test h1.1) (fun _ => Sim.ite (Sim.bindS (Sim.inner h1.2) (fun _ => Sim.pure rfl)) ih)

theorem Sim.condElse {bs bs' : List (M Val × M Val)} {d d' : M Val} (h : List.Forall₂ (BRel X k) bs bs') (hd : Sim X k Same d d') :
    Sim X k Same (Lang.condElse bs d) (Lang.condElse bs' d') := by
  induction h with
  | nil => exact Sim.inner hd
  | cons h1 _ ih => exact Sim.bindS (Sim.test h1.1) (fun _ => Sim.ite (Sim.inner h1.2) ih)

/-- No time limit. -/
def noLimit : Nat → Bool := fun _ => false

theorem Sim.checkTime (hX : X.Fits) : Sim X k Same (Lang.checkTime noLimit) (Lang.checkTime noLimit) :=
  fun _ _ hr => .inr ⟨rfl, ⟨hr.chain, hX.tick hr.world⟩, rfl⟩

theorem Sim.unfinished {m : M β} : Sim X k Q (Lang.raise Lang.unfinished) m := fun _ _ _ => .inl rfl

theorem Sim.whileLoop (hX : X.Fits) {p p' b b' : M Val} (hp : Sim X k Same p p') (hb : Sim X k Same b b') (n : Nat) :
    ∀ {pf pf' : Frame Val}, FRel X k pf pf' → Sim X k Same (Lang.whileLoop noLimit p b n pf) (Lang.whileLoop noLimit p' b' n pf') := by
  induction n with
  | zero => intro _ _ _; exact Sim.unfinished
  | succ n ih =>
    intro pf pf' hf
    refine Sim.bind (Sim.kept hf hp) ?_
    rintro ⟨v, f1⟩ ⟨v', f1'⟩ ⟨h1, h2⟩
    cases h1
    exact Sim.ite (Sim.bindS (Sim.checkTime hX) (fun _ => Sim.bindS hb (fun _ => ih h2))) (Sim.pure rfl)

theorem Sim.doWhile (hX : X.Fits) {p p' b b' : M Val} (hp : Sim X k Same p p') (hb : Sim X k Same b b') (n : Nat) :
    Sim X k Same (Lang.doWhile noLimit n p b) (Lang.doWhile noLimit n p' b') := Sim.inner (Sim.whileLoop hX hp hb n FRel.nil)

theorem Sim.untilLoop (hX : X.Fits) {p p' b b' : M Val} (hp : Sim X k Same p p') (hb : Sim X k Same b b') (n : Nat) :
    ∀ {pf pf' : Frame Val}, FRel X k pf pf' → Sim X k Same (Lang.untilLoop noLimit p b n pf) (Lang.untilLoop noLimit p' b' n pf') := by
  induction n with
  | zero => intro _ _ _; exact Sim.unfinished
  | succ n ih =>
    intro pf pf' hf
    refine Sim.bindS (Sim.checkTime hX) (fun _ => Sim.bindS hb (fun _ => Sim.bind (Sim.kept hf hp) ?_))
    rintro ⟨v, f1⟩ ⟨v', f1'⟩ ⟨h1, h2⟩
    cases h1
    exact Sim.ite (Sim.pure rfl) (ih h2)

theorem Sim.doUntil (hX : X.Fits) {p p' b b' : M Val} (hp : Sim X k Same p p') (hb : Sim X k Same b b') (n : Nat) :
    Sim X k Same (Lang.doUntil noLimit n p b) (Lang.doUntil noLimit n p' b') := Sim.inner (Sim.untilLoop hX hp hb n FRel.nil)

theorem Sim.forLoop (hX : X.Fits) {p p' b b' st st' : M Val} (hp : Sim X k Same p p') (hb : Sim X k Same b b') (hs : Sim X k Same st st') (n : Nat) :
    ∀ {pf pf' bf bf' : Frame Val}, FRel X k pf pf' → FRel X k bf bf' →
      Sim X k Same (Lang.forLoop noLimit p b st n pf bf) (Lang.forLoop noLimit p' b' st' n pf' bf') := by
  induction n with
  | zero => intro _ _ _ _ _ _; exact Sim.unfinished
  | succ n ih =>
    intro pf pf' bf bf' hf hg
    refine Sim.bind (Sim.kept hf hp) ?_
    rintro ⟨v, f1⟩ ⟨v', f1'⟩ ⟨h1, h2⟩
    cases h1
    refine Sim.ite (Sim.bindS (Sim.checkTime hX) (fun _ => Sim.bind (Sim.kept hg hb) ?_)) (Sim.pure rfl)
    rintro ⟨_, g1⟩ ⟨_, g1'⟩ ⟨-, h3⟩
    exact Sim.bindS hs (fun _ => ih h2 h3)

theorem Sim.doFor (hX : X.Fits) {i i' p p' b b' st st' : M Val} (hi : Sim X k Same i i') (hp : Sim X k Same p p') (hs : Sim X k Same st st')
    (hb : Sim X k Same b b') (n : Nat) : Sim X k Same (Lang.doFor noLimit n i p st b) (Lang.doFor noLimit n i' p' st' b') :=
  Sim.inner (Sim.bindS hi (fun _ => Sim.forLoop hX hp hb hs n FRel.nil FRel.nil))

theorem Sim.eachLoop (hX : X.Fits) {b b' : M Val} (hb : Sim X k Same b b') (ds : List (List (String × Val))) (hd : ∀ d ∈ ds, Free X (d.map Prod.fst)) :
    ∀ {bf bf' : Frame Val}, FRel X k bf bf' → Sim X k Same (Lang.eachLoop noLimit b ds bf) (Lang.eachLoop noLimit b' ds bf') := by
  induction ds with
  | nil => intro _ _ _; exact Sim.pure rfl
  | cons d ds ih =>
    intro bf bf' hf
    refine Sim.bindS (Sim.checkTime hX) (fun _ => Sim.bindS (Sim.letM (hd d (List.mem_cons_self ..))) (fun _ => Sim.bind (Sim.kept hf hb) ?_))
    rintro ⟨_, g1⟩ ⟨_, g1'⟩ ⟨-, h3⟩
    exact ih (fun d h => hd d (List.mem_cons_of_mem _ h)) h3

theorem Sim.doForeach (hX : X.Fits) {x : String} (hx : x ∉ X.names) (a : Val) {b b' : M Val} (hb : Sim X k Same b b') :
    Sim X k Same (Lang.doForeach noLimit x a b) (Lang.doForeach noLimit x a b') := by
  cases a with
  | arr vs =>
    refine Sim.inner (Sim.eachLoop hX hb _ ?_ FRel.nil)
    intro d hd y hy
    obtain ⟨v, -, rfl⟩ := List.mem_map.1 hd
    simp only [List.map_cons, List.map_nil, List.mem_singleton] at hy
    rw [hy]; exact hx
  | _ => exact Sim.raise _

theorem Sim.doForkeyval (hX : X.Fits) {x y : String} (hx : x ∉ X.names) (hy : y ∉ X.names) (a : Val) {b b' : M Val} (hb : Sim X k Same b b') :
    Sim X k Same (Lang.doForkeyval noLimit x y a b) (Lang.doForkeyval noLimit x y a b') := by
  cases a with
  | dict vs =>
    refine Sim.inner (Sim.eachLoop hX hb _ ?_ FRel.nil)
    intro d hd z hz
    obtain ⟨v, -, rfl⟩ := List.mem_map.1 hd
    simp only [List.map_cons, List.map_nil, List.mem_cons, List.not_mem_nil, or_false] at hz
    rcases hz with rfl | rfl
    · exact hx
    · exact hy
  | _ => exact Sim.raise _

/-! ## Paths, cells and pools -/

theorem Sim.evalPath {ms ms' : List (M Val)} (h : List.Forall₂ (Sim X k Same) ms ms') : Sim X k Same (Lang.evalPath ms) (Lang.evalPath ms') :=
  Sim.bindS (Sim.evalL h) (fun _ => Sim.lift_same _)

/-- Related arguments of functions. -/
inductive ARel (X : Ctx) (k : Bool) : Arg → Arg → Prop where
  | val (v : Val) : ARel X k (.val v) (.val v)
  | fn (b : Bool) {f f' : List Val → M Val} : (∀ vs, Sim X k Same (f vs) (f' vs)) → ARel X k (.fn b f) (.fn b f')

theorem Sim.replWith {r r' : Arg} (h : ARel X k r r') (v : Val) : Sim X k Same (Lang.replWith r v) (Lang.replWith r' v) := by
  cases h with
  | val v => exact Sim.pure rfl
  | fn b h => cases b with
    | true => exact h [v]
    | false => exact Sim.raise _

theorem Sim.readCell (hX : X.Fits) {c c' : String} (h : X.cell c c') : Sim X k Same (Lang.readCell c) (Lang.readCell c') := by
  intro s s' hr
  unfold Lang.readCell
  rw [hX.getCell hr.world h]
  cases s.world.cells.get? c with
  | none => exact .inr ⟨rfl, hr, rfl⟩
  | some v => exact .inr ⟨rfl, hr, rfl⟩

theorem Sim.readPool (hX : X.Fits) {c c' : String} (h : X.pool c c') : Sim X k Same (Lang.readPool c) (Lang.readPool c') := by
  intro s s' hr
  unfold Lang.readPool
  rw [hX.getPool hr.world h]
  cases s.world.pools.get? c with
  | none => exact .inr ⟨rfl, hr, rfl⟩
  | some v => exact .inr ⟨rfl, hr, rfl⟩

theorem Sim.writePool (hX : X.Fits) {c c' : String} (h : X.pool c c') (x : String) (v : Val) :
    Sim X k Same (Lang.writePool c x v) (Lang.writePool c' x v) := by
  intro s s' hr
  unfold Lang.writePool
  rw [hX.getPool hr.world h]
  cases hd : s.world.pools.get? c with
  | none => exact .inr ⟨rfl, hr, rfl⟩
  | some d => exact .inr ⟨rfl, ⟨hr.chain, hX.setPool _ hr.world h (by rw [hd]; rfl)⟩, rfl⟩

theorem updDict_run {σ : Type} (f : Val → SM σ Val) (x y : String) (v : Val) (d : List (String × Val)) (s : σ) :
    Path.updDict f x ((y, v) :: d) s = if y = x then
      match f v s with
      | (.ok v', s) => match Path.updDict f x d s with
        | (.ok d', s) => (.ok ((y, v') :: d'), s)
        | (.error e, s) => (.error e, s)
      | (.error e, s) => (.error e, s)
    else match Path.updDict f x d s with
      | (.ok d', s) => (.ok ((y, v) :: d'), s)
      | (.error e, s) => (.error e, s) := rfl

theorem updList_run {σ : Type} (f : Val → SM σ Val) (x i : Int) (v : Val) (d : List Val) (s : σ) :
    Path.updList f x i (v :: d) s = if i = x then
      match f v s with
      | (.ok v', s) => match Path.updList f x (i + 1) d s with
        | (.ok d', s) => (.ok (v' :: d'), s)
        | (.error e, s) => (.error e, s)
      | (.error e, s) => (.error e, s)
    else match Path.updList f x (i + 1) d s with
      | (.ok d', s) => (.ok (v :: d'), s)
      | (.error e, s) => (.error e, s) := rfl

/-- What comes after a computation. -/
def andThen (p : Res α × St) (f : α → M γ) : Res γ × St :=
  match p with
  | (.ok a, s) => f a s
  | (.error e, s) => (.error e, s)

theorem updDict_cons (f : Val → M Val) (x : String) (y : String) (v : Val) (d : List (String × Val)) :
    (updDict f x ((y, v) :: d) : M (List (String × Val))) = if y = x then f v >>= fun v' => (updDict f x d : M _) >>= fun d' => pure ((y, v') :: d')
      else (updDict f x d : M _) >>= fun d' => pure ((y, v) :: d') := by
  funext s
  refine (updDict_run (σ := St) f x y v d s).trans ?_
  by_cases h : y = x
  · rw [if_pos h, if_pos h]
    show _ = andThen (f v s) _
    rcases f v s with ⟨_ | v', s1⟩
    · rfl
    · show _ = andThen (updDict (σ := St) f x d s1) _
      dsimp only
      rcases updDict (σ := St) f x d s1 with ⟨_ | d', s2⟩ <;> rfl
  · rw [if_neg h, if_neg h]
    show _ = andThen (updDict (σ := St) f x d s) _
    rcases updDict (σ := St) f x d s with ⟨_ | d', s2⟩ <;> rfl

theorem updList_cons (f : Val → M Val) (x i : Int) (v : Val) (d : List Val) :
    (updList f x i (v :: d) : M (List Val)) = if i = x then f v >>= fun v' => (updList f x (i + 1) d : M _) >>= fun d' => pure (v' :: d')
      else (updList f x (i + 1) d : M _) >>= fun d' => pure (v :: d') := by
  funext s
  refine (updList_run (σ := St) f x i v d s).trans ?_
  by_cases h : i = x
  · rw [if_pos h, if_pos h]
    show _ = andThen (f v s) _
    rcases f v s with ⟨_ | v', s1⟩
    · rfl
    · show _ = andThen (updList (σ := St) f x (i + 1) d s1) _
      dsimp only
      rcases updList (σ := St) f x (i + 1) d s1 with ⟨_ | d', s2⟩ <;> rfl
  · rw [if_neg h, if_neg h]
    show _ = andThen (updList (σ := St) f x (i + 1) d s) _
    rcases updList (σ := St) f x (i + 1) d s with ⟨_ | d', s2⟩ <;> rfl

theorem updateM_key {σ : Type} (a m : Int) (f : Val → SM σ Val) (x : String) (path : List Elem) (d : List (String × Val)) (s : σ) :
    Path.updateM a m f (.key x :: path) (.dict d) s = if path ≠ [] ∧ PyDict.has d x = false then (.error (.rt m), s)
      else match Path.updDict (Path.updateM a m f path) x d s with
        | (.ok d', s) => (.ok (.dict d'), s)
        | (.error e, s) => (.error e, s) := by
  rw [Path.updateM]
  try rfl

theorem updateM_idx {σ : Type} (a m : Int) (f : Val → SM σ Val) (i : Int) (path : List Elem) (d : List Val) (s : σ) :
    Path.updateM a m f (.idx i :: path) (.arr d) s = if (path ≠ [] ∧ i ≥ d.length) ∨ i < 0 then (.error (.rt a), s)
      else match Path.updList (Path.updateM a m f path) i 0 d s with
        | (.ok d', s) => (.ok (.arr d'), s)
        | (.error e, s) => (.error e, s) := by
  rw [Path.updateM]
  try rfl

theorem updateM_dict_idx {σ : Type} (a m : Int) (f : Val → SM σ Val) (i : Int) (path : List Elem) (d : List (String × Val)) (s : σ) :
    Path.updateM a m f (.idx i :: path) (.dict d) s = if path ≠ [] then (.error (.rt m), s) else (.ok (.dict d), s) := by
  rw [Path.updateM]
  try rfl

theorem Sim.updDict {f f' : Val → M Val} (h : ∀ v, Sim X k Same (f v) (f' v)) (x : String) (d : List (String × Val)) :
    Sim X k Same (Path.updDict f x d : M _) (Path.updDict f' x d : M _) := by
  induction d with
  | nil => exact Sim.pure rfl
  | cons kv d ih =>
    obtain ⟨y, v⟩ := kv
    rw [updDict_cons, updDict_cons]
    by_cases hy : y = x
    · rw [if_pos hy, if_pos hy]
      exact Sim.bindS (h v) (fun _ => Sim.bindS ih (fun _ => Sim.pure rfl))
    · rw [if_neg hy, if_neg hy]
      exact Sim.bindS ih (fun _ => Sim.pure rfl)

theorem Sim.updList {f f' : Val → M Val} (h : ∀ v, Sim X k Same (f v) (f' v)) (x : Int) (d : List Val) : ∀ i : Int,
    Sim X k Same (Path.updList f x i d : M _) (Path.updList f' x i d : M _) := by
  induction d with
  | nil => intro i; exact Sim.pure rfl
  | cons v d ih =>
    intro i
    rw [updList_cons, updList_cons]
    by_cases hy : i = x
    · rw [if_pos hy, if_pos hy]
      exact Sim.bindS (h v) (fun _ => Sim.bindS (ih _) (fun _ => Sim.pure rfl))
    · rw [if_neg hy, if_neg hy]
      exact Sim.bindS (ih _) (fun _ => Sim.pure rfl)

theorem Sim.updateM {f f' : Val → M Val} (h : ∀ v, Sim X k Same (f v) (f' v)) (a m : Int) (path : List Elem) : ∀ obj : Val,
    Sim X k Same (Path.updateM a m f path obj : M Val) (Path.updateM a m f' path obj : M Val) := by
  induction path with
  | nil => exact h
  | cons e path ih =>
    intro obj
    cases obj with
    | dict d => cases e with
      | key x =>
        have key : ∀ f : Val → M Val, (Path.updateM a m f (.key x :: path) (.dict d) : M Val) =
            if path ≠ [] ∧ PyDict.has d x = false then Lang.raise (.rt m)
            else (Path.updDict (Path.updateM a m f path) x d : M _) >>= fun d' => Pure.pure (Val.dict d') := by
          intro f; funext s
          refine (updateM_key (σ := St) a m f x path d s).trans ?_
          by_cases hc : path ≠ [] ∧ PyDict.has d x = false
          · rw [if_pos hc, if_pos hc]; rfl
          · rw [if_neg hc, if_neg hc]
            show _ = andThen (Path.updDict (σ := St) (Path.updateM a m f path) x d s) _
            rcases Path.updDict (σ := St) (Path.updateM a m f path) x d s with ⟨_ | d', s2⟩ <;> rfl
        rw [key, key]
        by_cases hc : path ≠ [] ∧ PyDict.has d x = false
        · rw [if_pos hc, if_pos hc]; exact Sim.raise _
        · rw [if_neg hc, if_neg hc]
          exact Sim.bindS (Sim.updDict ih x d) (fun _ => Sim.pure rfl)
      | idx i =>
        have key : ∀ f : Val → M Val, (Path.updateM a m f (.idx i :: path) (.dict d) : M Val) =
            if path ≠ [] then Lang.raise (.rt m) else Pure.pure (Val.dict d) := by
          intro f; funext s
          refine (updateM_dict_idx (σ := St) a m f i path d s).trans ?_
          by_cases hc : path ≠ []
          · rw [if_pos hc, if_pos hc]; rfl
          · rw [if_neg hc, if_neg hc]; rfl
        rw [key, key]
        by_cases hc : path ≠ []
        · rw [if_pos hc]; exact Sim.raise _
        · rw [if_neg hc]; exact Sim.pure rfl
    | arr d => cases e with
      | key x => exact Sim.raise _
      | idx i =>
        have key : ∀ f : Val → M Val, (Path.updateM a m f (.idx i :: path) (.arr d) : M Val) =
            if (path ≠ [] ∧ i ≥ d.length) ∨ i < 0 then Lang.raise (.rt a)
            else (Path.updList (Path.updateM a m f path) i 0 d : M _) >>= fun d' => Pure.pure (Val.arr d') := by
          intro f; funext s
          refine (updateM_idx (σ := St) a m f i path d s).trans ?_
          by_cases hc : (path ≠ [] ∧ i ≥ d.length) ∨ i < 0
          · rw [if_pos hc, if_pos hc]; rfl
          · rw [if_neg hc, if_neg hc]
            show _ = andThen (Path.updList (σ := St) (Path.updateM a m f path) i 0 d s) _
            rcases Path.updList (σ := St) (Path.updateM a m f path) i 0 d s with ⟨_ | d', s2⟩ <;> rfl
        rw [key, key]
        by_cases hc : (path ≠ [] ∧ i ≥ d.length) ∨ i < 0
        · rw [if_pos hc, if_pos hc]; exact Sim.raise _
        · rw [if_neg hc, if_neg hc]
          exact Sim.bindS (Sim.updList ih i d 0) (fun _ => Sim.pure rfl)
    | _ => exact Sim.raise _

theorem Sim.updateAt {r r' : Arg} (h : ARel X k r r') (a m : Int) (path : List Elem) (obj : Val) :
    Sim X k Same (Lang.updateAt a m r path obj) (Lang.updateAt a m r' path obj) := Sim.updateM (Sim.replWith h) a m path obj

theorem Sim.cellUpdate (hX : X.Fits) {c c' : String} (h : X.cell c c') (path : List Elem) {r r' : Arg} (hr : ARel X k r r') :
    Sim X k Same (Lang.cellUpdate c path r) (Lang.cellUpdate c' path r') :=
  Sim.bindS (Sim.readCell hX h) (fun old => Sim.bindS (Sim.updateAt hr 2006 2007 path old) (fun v => fun s s' hs =>
    .inr ⟨rfl, ⟨hs.chain, hX.setCell v hs.world h⟩, rfl⟩))

theorem Sim.poolUpdate (hX : X.Fits) {c c' : String} (h : X.pool c c') (path : List Elem) {r r' : Arg} (hr : ARel X k r r') (init : Val) :
    Sim X k Same (Lang.poolUpdate c path r init) (Lang.poolUpdate c' path r' init) := by
  cases path with
  | nil => exact Sim.raise _
  | cons e path => cases e with
    | idx i => exact Sim.raise _
    | key x =>
      refine Sim.bindS (Sim.readPool hX h) (fun d => ?_)
      have h1 : ∀ v, Sim X k Same (Lang.writePool c x v) (Lang.writePool c' x v) := Sim.writePool hX h x
      cases hd : PyDict.get? d x with
      | some v => exact (Sim.bindS (Sim.updateAt hr _ _ path _) (fun v => Sim.bindS (h1 v) (fun _ => Sim.pure rfl)))
      | none => exact Sim.bindS (h1 init) (fun _ => Sim.bindS (Sim.updateAt hr _ _ path _) (fun v => Sim.bindS (h1 v) (fun _ => Sim.pure rfl)))

/-! ## Casts, null checks, unpacking, errors and logs -/

/-- Related cases. -/
def KRel (X : Ctx) (k : Bool) : String × AType × M Val → String × AType × M Val → Prop :=
  fun a b => b.1 = a.1 ∧ b.2.1 = a.2.1 ∧ a.1 ∉ X.names ∧ Sim X k Same a.2.2 b.2.2

theorem FRel.single {x : String} {v : Val} (hx : x ∉ X.names) : FRel X k [(x, v)] [(x, v)] :=
  FRel.update (d := [(x, v)]) FRel.nil (fun y hy => by simp only [List.map_cons, List.map_nil, List.mem_singleton] at hy; rw [hy]; exact hx)

theorem FRel.fresh {d : List (String × Val)} (hd : Free X (d.map Prod.fst)) : FRel X k (PyDict.update [] d) (PyDict.update [] d) :=
  FRel.update FRel.nil hd

theorem Sim.castM (decode : AType → Val → Res Val) (v : Val) (ft : AType) {cs cs' : List (String × AType × M Val)}
    (h : List.Forall₂ (KRel X k) cs cs') (part : Bool) : Sim X k Same (Lang.castM decode v ft cs part) (Lang.castM decode v ft cs' part) := by
  have hty : cs'.map (fun c => c.2.1) = cs.map (fun c => c.2.1) := by
    induction h with
    | nil => rfl
    | cons h1 _ ih => rw [List.map_cons, List.map_cons, ih, h1.2.1]
  unfold Lang.castM
  rw [hty]
  cases reparse ft with
  | error e => exact Sim.raise e
  | ok ft =>
    simp only
    cases castPick decode (isUnion ft) v (cs.map (fun c => c.2.1)) with
    | error e => exact Sim.raise e
    | ok o => cases o with
      | none => exact Sim.pure rfl
      | some iy =>
        obtain ⟨i, y⟩ := iy
        simp only
        have h1 : (cs[i]? = none ∧ cs'[i]? = none) ∨ ∃ a b, cs[i]? = some a ∧ cs'[i]? = some b ∧ KRel X k a b := by
          clear hty
          induction h generalizing i with
          | nil => exact .inl ⟨rfl, rfl⟩
          | cons h1 _ ih => cases i with
            | zero => exact .inr ⟨_, _, rfl, rfl, h1⟩
            | succ i => exact ih i
        rcases h1 with ⟨h1, h2⟩ | ⟨⟨x, t, m⟩, ⟨x', t', m'⟩, h1, h2, h3, h4, h5, h6⟩
        · rw [h1, h2]; exact Sim.raise _
        · rw [h1, h2]
          cases h3
          exact Sim.bindS (Sim.frame (FRel.single h5) h6) (fun _ => Sim.pure rfl)

theorem Sim.ifNotNullElse {vs : List (String × AType × Val)} (hv : Free X (vs.map Prod.fst)) {c c' d d' : M Val}
    (hc : Sim X k Same c c') (hd : Sim X k Same d d') : Sim X k Same (Lang.ifNotNullElse vs c d) (Lang.ifNotNullElse vs c' d') := by
  unfold Lang.ifNotNullElse
  refine Sim.ite (Sim.frame (FRel.fresh ?_) hc) hd
  rw [List.map_map]
  exact hv

theorem unpack_names {fs : List (String × Pack.Decl)} {bs : List Nat} {e : List (String × Val)} (h : Pack.unpack fs bs = some e) :
    ∀ x ∈ e.map Prod.fst, x ∈ fs.map Prod.fst := by
  induction fs generalizing bs e with
  | nil =>
    rw [Pack.unpack] at h
    by_cases hb : bs.length ≠ 0
    · rw [if_pos hb] at h; cases h
    · rw [if_neg hb] at h; cases h; exact fun x hx => hx
  | cons f fs ih =>
    obtain ⟨y, d⟩ := f
    rw [Pack.unpack] at h
    cases h1 : Pack.unpackOne d bs with
    | none => rw [h1] at h; cases h
    | some vr =>
      obtain ⟨v, rest⟩ := vr
      rw [h1] at h
      simp only [Option.map_eq_some_iff] at h
      obtain ⟨e1, h2, rfl⟩ := h
      intro x hx
      simp only [List.map_cons, List.mem_cons] at hx ⊢
      exact hx.imp id (ih h2 x)

theorem Sim.unpackM {fs : List (String × Pack.Decl)} (hf : Free X (fs.map Prod.fst)) (v : Val) {c c' d d' : M Val}
    (hc : Sim X k Same c c') (hd : Sim X k Same d d') : Sim X k Same (Lang.unpackM fs v c d) (Lang.unpackM fs v c' d') := by
  cases v with
  | bytes bs =>
    simp only [Lang.unpackM]
    cases h : Pack.unpack fs bs with
    | none => exact hd
    | some e => exact Sim.frame (FRel.fresh (fun x hx => hf x (unpack_names h x hx))) hc
  | _ => exact Sim.raise _

theorem Sim.tryCatch (msg : Int → String) {m m' : M Val} (h : Sim X k Same m m') (filter : Option (List (String ⊕ Int))) :
    Sim X k Same (Lang.tryCatch msg m filter) (Lang.tryCatch msg m' filter) := by
  intro s s' hr
  have h1 := h s s' hr
  unfold Lang.tryCatch
  revert h1
  rcases m s with ⟨r, s1⟩
  rcases m' s' with ⟨r', s1'⟩
  rintro (h1 | ⟨h1, h2, h3⟩)
  · cases h1
    exact .inl rfl
  · cases r with
    | ok a => cases r' with
      | ok b => exact .inr ⟨h1, h2, h3⟩
      | error e => exact h3.elim
    | error e => cases r' with
      | ok b => exact h3.elim
      | error e' =>
        cases h3
        by_cases hu : e = Lang.unfinished
        · subst hu; exact .inl rfl
        · simp only [if_neg hu]
          rcases caught msg filter e with e1 | (_ | _)
          · exact .inr ⟨h1, h2, rfl⟩
          · exact .inr ⟨h1, h2, rfl⟩
          · exact .inr ⟨h1, h2, rfl⟩

theorem Sim.logM (hX : X.Fits) (vs : List Val) : Sim X k Same (Lang.logM vs) (Lang.logM vs) := by
  intro s s' hr
  unfold Lang.logM
  by_cases h : vs.any hasBytes = true
  · rw [if_pos h, if_pos h]; exact .inr ⟨rfl, hr, rfl⟩
  · rw [if_neg h, if_neg h]; exact .inr ⟨rfl, ⟨hr.chain, hX.out vs hr.world⟩, rfl⟩

/-- Reading a variable that has become a cell. -/
theorem Sim.special (hX : X.Fits) {x : String} {v : Val} (h : (x, v) ∈ X.sp) : Sim X true Same (Lang.getVar x) (Lang.readCell x) := by
  intro s s' hr
  unfold Lang.getVar Lang.readCell
  rw [hX.special hr.world h, get_live (hr.chain.live rfl) h]
  exact .inr ⟨rfl, hr, rfl⟩

end

end Verif.Chain
