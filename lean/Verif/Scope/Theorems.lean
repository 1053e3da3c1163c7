import Verif.Scope.Model
/-! # C02: variables behave lexically

Specification: a chain of blocks, each a finite map; `level x` is the innermost block that
declared `x`. -/

namespace Verif.Scope
variable {V : Type _}

/-! ## Specification -/

/-- Block `n` (0 = innermost) declared `x` and no block inside it did. -/
inductive DeclaredAt (x : String) : Chain V → Nat → Prop
  | here {f ps} (v) : PyDict.get? f x = some v → DeclaredAt x (f :: ps) 0
  | there {f ps n} : PyDict.get? f x = none → DeclaredAt x ps n → DeclaredAt x (f :: ps) (n + 1)

/-- The value that block `n` holds for `x`. -/
def valueIn (s : Chain V) (n : Nat) (x : String) : Option V :=
  (s[n]?).bind fun f => PyDict.get? f x

/-! ## Reading -/

/-- C02: reading returns the value held by the innermost block that declared the variable. -/
theorem get_innermost (s : Chain V) (x : String) (n : Nat) (h : DeclaredAt x s n) :
    ∃ v, get s x = .ok v ∧ valueIn s n x = some v := by
  induction h with
  | here v h => exact ⟨v, by simp [get, h], by simp [valueIn, h]⟩
  | there h _ ih =>
    obtain ⟨v, h1, h2⟩ := ih
    exact ⟨v, by simp [get, h, h1], by simpa [valueIn] using h2⟩

/-- C02: an undeclared variable is the only failure of a read. -/
theorem get_error_iff (s : Chain V) (x : String) :
    get s x = .error (.py "RuntimeError") ↔ ∀ n, ¬ DeclaredAt x s n := by
  constructor
  · intro h n hn
    obtain ⟨v, h1, -⟩ := get_innermost s x n hn
    rw [h] at h1; cases h1
  · intro h
    induction s with
    | nil => rfl
    | cons f ps ih =>
      cases hf : PyDict.get? f x with
      | some v => exact absurd (DeclaredAt.here v hf) (h 0)
      | none =>
        simp only [get, hf]
        exact ih fun n hn => h (n + 1) (.there hf hn)

/-! ## Declaring -/

theorem get?_update (d e : PyDict String V) (x : String) :
    PyDict.get? (PyDict.update d e) x =
      match PyDict.get? e.reverse x with
      | some v => some v
      | none => PyDict.get? d x := by
  unfold PyDict.update
  rw [← List.foldr_reverse]
  generalize e.reverse = r
  induction r with
  | nil => rfl
  | cons kv r ih =>
    obtain ⟨k, v⟩ := kv
    simp only [List.foldr_cons, PyDict.get?_set, PyDict.get?_cons]
    split <;> simp_all

theorem get?_reverse {e : PyDict String V} (he : PyDict.WF e) (x : String) :
    PyDict.get? e.reverse x = PyDict.get? e x := by
  have hr : PyDict.WF e.reverse := by
    unfold PyDict.WF PyDict.keys at *
    rw [List.map_reverse, List.nodup_reverse]; exact he
  cases h : PyDict.get? e x with
  | none =>
    rw [PyDict.get?_eq_none_iff] at *
    simpa [PyDict.keys] using h
  | some v =>
    exact PyDict.get?_of_mem hr (by simpa using PyDict.mem_of_get? h)

/-- C02: after `let`, a declared variable has its new value, every other variable keeps its
value, and no outer block is touched. -/
theorem let_spec (f : Frame V) (ps : Chain V) (e : PyDict String V) (he : PyDict.WF e) :
    (∀ x v, PyDict.get? e x = some v → get (letVars (f :: ps) e) x = .ok v) ∧
    (∀ x, PyDict.get? e x = none → get (letVars (f :: ps) e) x = get (f :: ps) x) ∧
    (letVars (f :: ps) e).tail = ps := by
  refine ⟨?_, ?_, rfl⟩
  · intro x v h
    simp [letVars, get, get?_update, get?_reverse he, h]
  · intro x h
    simp [letVars, get, get?_update, get?_reverse he, h]

example : PyDict.WF [("x", 1), ("y", 2)] := by decide

/-! ## Assigning -/

/-- Update the entries of `e` that exist in frame `f`. -/
def assignPresent (f : Frame V) (e : PyDict String V) : Frame V :=
  e.foldl (fun f kv => if PyDict.has f kv.1 then PyDict.set f kv.1 kv.2 else f) f

theorem has_set (f : Frame V) (x y : String) (v : V) (h : PyDict.has f x) :
    PyDict.has (PyDict.set f x v) y = PyDict.has f y := by
  unfold PyDict.has at *
  rw [PyDict.get?_set]
  split
  · next h' => subst h'; simp [h]
  · rfl

theorem has_assign (f : Frame V) (e : PyDict String V) (y : String) :
    PyDict.has (assignPresent f e) y = PyDict.has f y := by
  unfold assignPresent
  induction e generalizing f with
  | nil => rfl
  | cons kv e ih =>
    simp only [List.foldl_cons]
    rw [ih]
    split
    · next h => exact has_set f kv.1 y kv.2 h
    · rfl

/-- What the code does, in closed form: walk outwards to the first block that holds all the
names, updating on the way every name found. -/
def setSpec (e : PyDict String V) : Chain V → Option (Chain V)
  | [] => none
  | f :: ps =>
    if e.all (fun kv => PyDict.has f kv.1) then some (assignPresent f e :: ps)
    else (setSpec e ps).map (assignPresent f e :: ·)

theorem get?_assign (f : Frame V) (e : PyDict String V) (x : String) :
    PyDict.get? (assignPresent f e) x =
      match PyDict.get? e.reverse x with
      | some v => if PyDict.has f x then some v else none
      | none => PyDict.get? f x := by
  unfold assignPresent
  rw [← List.foldr_reverse]
  generalize e.reverse = r
  induction r with
  | nil => rfl
  | cons kv r ih =>
    obtain ⟨k, v⟩ := kv
    simp only [List.foldr_cons]
    set g := List.foldr (fun (kv : String × V) (f : Frame V) =>
      if PyDict.has f kv.1 = true then PyDict.set f kv.1 kv.2 else f) f r with hg
    have hhas : ∀ y, PyDict.has g y = PyDict.has f y := by
      intro y
      have := has_assign f r.reverse y
      simpa [assignPresent, List.foldl_reverse] using this
    by_cases hk : k = x
    · subst hk
      simp only [PyDict.get?_cons, if_true]
      split
      · next h => rw [hhas] at h; simp [h]
      · next h =>
        rw [hhas] at h
        simp only [h]
        have h2 := hhas k
        unfold PyDict.has at h2 h
        rw [Bool.not_eq_true] at h
        rw [h] at h2
        simpa using h2
    · simp only [PyDict.get?_cons, if_neg hk]
      split
      · rw [PyDict.get?_set_ne _ _ hk]; exact ih
      · exact ih

theorem set_same (f : Frame V) (x : String) (v : V) (h : PyDict.get? f x = some v) :
    PyDict.set f x v = f := by
  induction f with
  | nil => simp at h
  | cons kv f ih =>
    obtain ⟨k, w⟩ := kv
    simp only [PyDict.get?_cons] at h
    simp only [PyDict.set]
    split
    · next hk => simp only [hk, if_true, Option.some.injEq] at h; rw [h]
    · next hk => simp only [hk, if_false] at h; rw [ih h]

theorem assign_idem (f : Frame V) (e : PyDict String V) (he : PyDict.WF e) :
    assignPresent (assignPresent f e) e = assignPresent f e := by
  have key : ∀ (e0 : PyDict String V) (g : Frame V),
      (∀ kv ∈ e0, PyDict.has g kv.1 → PyDict.get? g kv.1 = some kv.2) → assignPresent g e0 = g := by
    intro e0
    induction e0 with
    | nil => intro g _; rfl
    | cons kv e0 ih =>
      intro g hg
      have h1 : (if PyDict.has g kv.1 then PyDict.set g kv.1 kv.2 else g) = g := by
        split
        · next h => exact set_same g kv.1 kv.2 (hg kv (by simp) h)
        · rfl
      unfold assignPresent
      rw [List.foldl_cons, h1]
      exact ih g fun kv' h => hg kv' (List.mem_cons_of_mem _ h)
  apply key
  intro kv hkv hh
  rw [has_assign] at hh
  rw [get?_assign, get?_reverse he, PyDict.get?_of_mem he hkv]
  simp [hh]

theorem setSpec_idem (e : PyDict String V) (he : PyDict.WF e) (s s' : Chain V)
    (h : setSpec e s = some s') : setSpec e s' = some s' := by
  induction s generalizing s' with
  | nil => simp [setSpec] at h
  | cons f ps ih =>
    simp only [setSpec] at h
    split at h
    · next hall =>
      cases h
      simp only [setSpec, has_assign, hall, if_true, assign_idem f e he]
    · next hall =>
      cases hp : setSpec e ps with
      | none => simp [hp] at h
      | some ps' =>
        simp only [hp, Option.map_some, Option.some.injEq] at h
        subst h
        simp only [setSpec, has_assign, hall, ih ps' hp, assign_idem f e he]
        simp

theorem setSpec_length (e : PyDict String V) (s s' : Chain V)
    (h : setSpec e s = some s') : s'.length = s.length := by
  induction s generalizing s' with
  | nil => simp [setSpec] at h
  | cons f ps ih =>
    simp only [setSpec] at h
    split at h
    · cases h; simp
    · cases hp : setSpec e ps with
      | none => simp [hp] at h
      | some ps' =>
        simp only [hp, Option.map_some, Option.some.injEq] at h
        subst h
        simp [ih ps' hp]

/-- The loop when the recursive call behaves as `setSpec`. -/
theorem setLoop_ok (e : PyDict String V) (he : PyDict.WF e) (recur : Chain V → Chain V × Bool)
    (n : Nat) (hrec : ∀ s : Chain V, s.length = n →
      match setSpec e s with
      | some s' => recur s = (s', false)
      | none => (recur s).2 = true)
    (rest : PyDict String V) (f : Frame V) (ps : Chain V) (hn : ps.length = n) :
    if rest.all (fun kv => PyDict.has f kv.1) then
      setLoop recur rest f ps = ((assignPresent f rest, ps), false)
    else match setSpec e ps with
      | some ps' => setLoop recur rest f ps = ((assignPresent f rest, ps'), false)
      | none => (setLoop recur rest f ps).2 = true := by
  induction rest generalizing f ps with
  | nil => simp [setLoop, assignPresent]
  | cons kv rest ih =>
    obtain ⟨k, v⟩ := kv
    by_cases hk : PyDict.has f k
    · have hkk : ∀ y, PyDict.has (PyDict.set f k v) y = PyDict.has f y :=
        fun y => has_set f k y v hk
      have := ih (PyDict.set f k v) ps hn
      simp only [hkk] at this
      simp only [List.all_cons, hk, Bool.true_and, setLoop, if_true]
      have h2 : assignPresent f ((k, v) :: rest) = assignPresent (PyDict.set f k v) rest := by
        simp [assignPresent, hk]
      rw [h2]
      exact this
    · have h2 : assignPresent f ((k, v) :: rest) = assignPresent f rest := by
        simp [assignPresent, hk]
      simp only [List.all_cons, hk, Bool.false_and, setLoop, h2]
      cases ps with
      | nil => simp [setSpec]
      | cons p ps =>
        have hr := hrec (p :: ps) hn
        cases hs : setSpec e (p :: ps) with
        | none =>
          simp only [hs] at hr
          have : ∃ q, recur (p :: ps) = (q, true) := ⟨_, by rw [← hr]⟩
          obtain ⟨q, hq⟩ := this
          simp [hq]
        | some ps' =>
          simp only [hs] at hr
          have hlen := setSpec_length e _ _ hs
          have := ih f ps' (by rw [hlen, hn])
          rw [setSpec_idem e he _ _ hs] at this
          simp only [hr]
          split at this <;> simpa using this

theorem setN_spec (e : PyDict String V) (he : PyDict.WF e) (n : Nat) (s : Chain V)
    (hn : s.length = n) :
    match setSpec e s with
    | some s' => setN n e s = (s', false)
    | none => (setN n e s).2 = true := by
  induction n generalizing s with
  | zero =>
    have : s = [] := List.length_eq_zero_iff.1 hn
    subst this; rfl
  | succ n ih =>
    cases s with
    | nil => simp at hn
    | cons f ps =>
      have hl := setLoop_ok e he (setN n e) n ih e f ps (by simpa using hn)
      simp only [setSpec, setN]
      split at hl
      · next h => simp [h, hl]
      · next h =>
        simp only [h]
        cases hs : setSpec e ps with
        | none => simpa [hs] using hl
        | some ps' => simp only [hs] at hl; simp [hl]

/-- The closed form of `DynamicScope.set`, for every chain and every dict of assignments. -/
theorem setVars_eq (s : Chain V) (e : PyDict String V) (he : PyDict.WF e) :
    setVars s e = match setSpec e s with
      | some s' => .ok s'
      | none => .error (.py "RuntimeError") := by
  have h := setN_spec e he s.length s rfl
  unfold setVars
  cases hs : setSpec e s with
  | none =>
    simp only [hs] at h
    have : ∃ q, setN s.length e s = (q, true) := ⟨_, by rw [← h]⟩
    obtain ⟨q, hq⟩ := this
    simp [hq]
  | some s' => simp only [hs] at h; simp [h]

/-- All the assigned variables are declared in block `n`, and in no block inside it. -/
def SameBlock (e : PyDict String V) (s : Chain V) (n : Nat) : Prop :=
  ∀ kv ∈ e, DeclaredAt kv.1 s n

/-- Full statement of the assignment part of C02: a `set` of declared variables succeeds, changes
each named variable in the block that declared it and changes nothing else. -/
def SetLexical (s : Chain V) (e : PyDict String V) : Prop :=
  ∃ s', setVars s e = .ok s' ∧ s'.length = s.length ∧
    (∀ n x v, DeclaredAt x s n → PyDict.get? e x = some v → valueIn s' n x = some v) ∧
    (∀ n x, ¬ (DeclaredAt x s n ∧ x ∈ PyDict.keys e) → valueIn s' n x = valueIn s n x)

theorem declaredAt_unique {x : String} {s : Chain V} {n m : Nat}
    (h1 : DeclaredAt x s n) (h2 : DeclaredAt x s m) : n = m := by
  induction h1 generalizing m with
  | here v h => cases h2 with
    | here => rfl
    | there h' => rw [h] at h'; cases h'
  | there h _ ih => cases h2 with
    | here v h' => rw [h] at h'; cases h'
    | there _ h2 => rw [ih h2]

theorem declaredAt_has {x : String} {f : Frame V} {ps : Chain V} (h : DeclaredAt x (f :: ps) 0) :
    PyDict.has f x := by
  cases h with
  | here v h => simp [PyDict.has, h]

theorem has_iff_mem_keys (f : Frame V) (x : String) : PyDict.has f x ↔ x ∈ PyDict.keys f :=
  PyDict.get?_isSome_iff f x

theorem setSpec_sameBlock (e : PyDict String V) (s : Chain V) (n : Nat) (hne : e ≠ [])
    (h : SameBlock e s n) :
    ∃ f, s[n]? = some f ∧ setSpec e s = some (s.set n (assignPresent f e)) := by
  induction n generalizing s with
  | zero =>
    cases s with
    | nil =>
      obtain ⟨kv, e', rfl⟩ := List.exists_cons_of_ne_nil hne
      exact absurd (h kv (by simp)) (by intro h; cases h)
    | cons f ps =>
      refine ⟨f, rfl, ?_⟩
      have : e.all (fun kv => PyDict.has f kv.1) = true := by
        rw [List.all_eq_true]; intro kv hkv; exact declaredAt_has (h kv hkv)
      simp [setSpec, this]
  | succ n ih =>
    cases s with
    | nil =>
      obtain ⟨kv, e', rfl⟩ := List.exists_cons_of_ne_nil hne
      exact absurd (h kv (by simp)) (by intro h; cases h)
    | cons f ps =>
      have hnone : ∀ kv ∈ e, PyDict.has f kv.1 = false := by
        intro kv hkv
        cases h kv hkv with
        | there h1 _ => simp [PyDict.has, h1]
      have hall : e.all (fun kv => PyDict.has f kv.1) = false := by
        obtain ⟨kv, e', rfl⟩ := List.exists_cons_of_ne_nil hne
        simp [hnone kv (by simp)]
      have hassign : ∀ e' : PyDict String V, (∀ kv ∈ e', PyDict.has f kv.1 = false) →
          assignPresent f e' = f := by
        intro e' he'
        induction e' with
        | nil => rfl
        | cons kv e' ihe =>
          simp only [assignPresent, List.foldl_cons, he' kv (by simp)]
          exact ihe fun kv' hkv' => he' kv' (by simp [hkv'])
      obtain ⟨g, hg1, hg2⟩ := ih ps (by
        intro kv hkv
        cases h kv hkv with
        | there _ h2 => exact h2)
      refine ⟨g, by simpa using hg1, ?_⟩
      simp [setSpec, hall, hg2, hassign e hnone]

/-- C02, assignment part, under the guard that all assigned variables were declared in one
block.  Missing with respect to C02: a single `set` naming variables of different blocks
(`set_mixed_raises_violation`, `set_shadowed_violation`). -/
theorem set_lexical_partial (s : Chain V) (e : PyDict String V) (he : PyDict.WF e) (n : Nat)
    (hs : s ≠ []) (h : SameBlock e s n) : SetLexical s e := by
  by_cases hne : e = []
  · subst hne
    obtain ⟨f, ps, rfl⟩ := List.exists_cons_of_ne_nil hs
    refine ⟨f :: ps, ?_, rfl, ?_, ?_⟩
    · rw [setVars_eq _ _ he]; simp [setSpec, assignPresent]
    · intro n x v _ hx; simp at hx
    · intro n x _; rfl
  obtain ⟨f, hf, hspec⟩ := setSpec_sameBlock e s n hne h
  refine ⟨s.set n (assignPresent f e), ?_, by simp, ?_, ?_⟩
  · rw [setVars_eq _ _ he, hspec]
  · intro m x v hx hv
    have hm : m = n := declaredAt_unique hx (h (x, v) (PyDict.mem_of_get? hv))
    subst hm
    have hlt : m < s.length := by
      rcases Nat.lt_or_ge m s.length with h | h
      · exact h
      · rw [List.getElem?_eq_none h] at hf; cases hf
    obtain ⟨w, -, hw⟩ := get_innermost s x m hx
    simp only [valueIn, hf, Option.bind_some] at hw
    simp [valueIn, hlt, get?_assign, get?_reverse he, hv, PyDict.has, hw]
  · intro m x hx
    by_cases hm : m = n
    · subst hm
      have hlt : m < s.length := by
        rcases Nat.lt_or_ge m s.length with h | h
        · exact h
        · rw [List.getElem?_eq_none h] at hf; cases hf
      have hxk : PyDict.get? e x = none := by
        rw [PyDict.get?_eq_none_iff]
        intro hk
        obtain ⟨v, hv⟩ := Option.isSome_iff_exists.1 ((PyDict.get?_isSome_iff e x).2 hk)
        exact hx ⟨h (x, v) (PyDict.mem_of_get? hv), hk⟩
      have hsm : s[m] = f := by simpa [hlt] using hf
      simp [valueIn, hlt, get?_assign, get?_reverse he, hxk, hsm]
    · simp [valueIn, Ne.symm hm]

/-- Witness for the guard: two variables of the middle block of three. -/
example : SameBlock [("x", 10), ("y", 20)] [[("z", 0)], [("x", 1), ("y", 2)], [("x", 3)]] 1 := by
  intro kv hkv
  simp only [List.mem_cons, List.not_mem_nil, or_false] at hkv
  rcases hkv with rfl | rfl <;> exact .there rfl (.here _ rfl)

/-- The code violates C02: a `set` of two declared variables of different blocks raises
RuntimeError. -/
theorem set_mixed_raises_violation :
    ∃ (s : Chain Nat) (e : PyDict String Nat), PyDict.WF e ∧
      (∀ kv ∈ e, ∃ n, DeclaredAt kv.1 s n) ∧ setVars s e = .error (.py "RuntimeError") := by
  refine ⟨[[("x", 1)], [("y", 2)]], [("x", 10), ("y", 20)], by decide, ?_, by decide⟩
  intro kv hkv
  simp only [List.mem_cons, List.not_mem_nil, or_false] at hkv
  rcases hkv with rfl | rfl
  · exact ⟨0, .here 1 rfl⟩
  · exact ⟨1, .there rfl (.here 2 rfl)⟩

/-- The code violates C02: when the outer block also has a variable of that name (shadowing is
allowed for cast, ifnotnull and function parameters), the outer one is overwritten too. -/
theorem set_shadowed_violation :
    ∃ (s s' : Chain Nat) (e : PyDict String Nat), PyDict.WF e ∧ setVars s e = .ok s' ∧
      DeclaredAt "x" s 0 ∧ valueIn s 1 "x" = some 5 ∧ valueIn s' 1 "x" = some 10 := by
  refine ⟨[[("x", 1)], [("x", 5), ("y", 2)]], [[("x", 10)], [("x", 10), ("y", 20)]],
    [("x", 10), ("y", 20)], by decide, by decide, .here 1 rfl, by decide, by decide⟩

/-- Exactly when a `set` raises: no block holds all the names. -/
theorem set_raises_iff (s : Chain V) (e : PyDict String V) (he : PyDict.WF e) :
    setVars s e = .error (.py "RuntimeError") ↔
      ∀ f ∈ s, ∃ x ∈ PyDict.keys e, x ∉ PyDict.keys f := by
  rw [setVars_eq _ _ he]
  have : (setSpec e s = none) ↔ ∀ f ∈ s, ∃ x ∈ PyDict.keys e, x ∉ PyDict.keys f := by
    induction s with
    | nil => simp [setSpec]
    | cons f ps ih =>
      simp only [setSpec, List.mem_cons, forall_eq_or_imp]
      split
      · next h =>
        rw [List.all_eq_true] at h
        simp only [reduceCtorEq, false_iff, not_and]
        intro hx
        obtain ⟨x, hx1, hx2⟩ := hx
        obtain ⟨kv, hkv, rfl⟩ := List.mem_map.1 hx1
        exact absurd ((has_iff_mem_keys f kv.1).1 (h kv hkv)) hx2
      · next h =>
        rw [Option.map_eq_none_iff, ih]
        simp only [iff_and_self]
        intro _
        rw [Bool.not_eq_true, List.all_eq_false] at h
        obtain ⟨kv, hkv, h⟩ := h
        exact ⟨kv.1, List.mem_map.2 ⟨kv, hkv, rfl⟩, fun hh => h ((has_iff_mem_keys f kv.1).2 hh)⟩
  cases hs : setSpec e s with
  | none => simpa using this.1 hs
  | some s' => simp only [reduceCtorEq, false_iff]; rw [← this, hs]; simp

/-! ## Blocks

The shape of every use of scopes in the generated code: a block runs in a fresh child scope and
is left by dropping it. -/

/-- A program that only declares, assigns and opens blocks. -/
inductive Prog (V : Type _) where
  | done
  | letS (e : PyDict String V) (rest : Prog V)
  | setS (e : PyDict String V) (rest : Prog V)
  | block (body rest : Prog V)

/-- Run statements on a chain.  `block` is `DynamicScope(scope)` followed by the body, as in
ifThen, cond, doWhile, ... (genpy.py 731-946); the child scope is dropped at the end. -/
def exec : Prog V → Chain V → Res (Chain V)
  | .done, s => .ok s
  | .letS e rest, s => exec rest (letVars s e)
  | .setS e rest, s => do exec rest (← setVars s e)
  | .block body rest, s => do exec rest (← exec body (push s)).tail

/-- The variables named by a `set` somewhere in a program. -/
def assigned : Prog V → List String
  | .done => []
  | .letS _ rest => assigned rest
  | .setS e rest => PyDict.keys e ++ assigned rest
  | .block body rest => assigned body ++ assigned rest

/-- Every dict in the program has distinct keys (Python dicts do). -/
def ProgWF : Prog V → Prop
  | .done => True
  | .letS e rest => PyDict.WF e ∧ ProgWF rest
  | .setS e rest => PyDict.WF e ∧ ProgWF rest
  | .block body rest => ProgWF body ∧ ProgWF rest

theorem setSpec_frames (e : PyDict String V) (s s' : Chain V) (h : setSpec e s = some s') :
    ∀ n, (∀ x, (valueIn s' n x).isSome = (valueIn s n x).isSome) ∧
      ∀ x, x ∉ PyDict.keys e → valueIn s' n x = valueIn s n x := by
  have ha : ∀ f : Frame V, ∀ x, x ∉ PyDict.keys e →
      PyDict.get? (assignPresent f e) x = PyDict.get? f x := by
    intro f x hx
    rw [get?_assign, (PyDict.get?_eq_none_iff e.reverse x).2 (by simpa [PyDict.keys] using hx)]
  have hh : ∀ f : Frame V, ∀ x, (PyDict.get? (assignPresent f e) x).isSome
      = (PyDict.get? f x).isSome := fun f x => has_assign f e x
  induction s generalizing s' with
  | nil => simp [setSpec] at h
  | cons f ps ih =>
    simp only [setSpec] at h
    split at h
    · cases h
      intro n
      cases n with
      | zero => exact ⟨fun x => by simpa [valueIn] using hh f x,
                       fun x hx => by simpa [valueIn] using ha f x hx⟩
      | succ n => exact ⟨fun x => by simp [valueIn], fun x _ => by simp [valueIn]⟩
    · cases hp : setSpec e ps with
      | none => simp [hp] at h
      | some ps' =>
        simp only [hp, Option.map_some, Option.some.injEq] at h
        subst h
        intro n
        cases n with
        | zero => exact ⟨fun x => by simpa [valueIn] using hh f x,
                         fun x hx => by simpa [valueIn] using ha f x hx⟩
        | succ n =>
          have := ih ps' hp n
          exact ⟨fun x => by simpa [valueIn] using this.1 x,
                 fun x hx => by simpa [valueIn] using this.2 x hx⟩

/-- General form: what a program run in an innermost block can do to the chain. -/
theorem exec_effect (p : Prog V) (hp : ProgWF p) (s s' : Chain V) (hs : s ≠ [])
    (h : exec p s = .ok s') :
    s'.length = s.length ∧
    ∀ n, 0 < n → (∀ x, (valueIn s' n x).isSome = (valueIn s n x).isSome) ∧
      ∀ x, x ∉ assigned p → valueIn s' n x = valueIn s n x := by
  match p with
  | .done => simp only [exec, Except.ok.injEq] at h; subst h; simp
  | .letS e rest =>
    obtain ⟨f, ps, rfl⟩ := List.exists_cons_of_ne_nil hs
    obtain ⟨h1, h2⟩ := exec_effect rest hp.2 _ s' (by simp [letVars]) h
    refine ⟨by simpa [letVars] using h1, fun n hn => ?_⟩
    obtain ⟨m, rfl⟩ : ∃ m, n = m + 1 := ⟨n - 1, by omega⟩
    have := h2 (m + 1) hn
    exact ⟨fun x => by simpa [valueIn, letVars] using this.1 x,
           fun x hx => by simpa [valueIn, letVars] using this.2 x hx⟩
  | .setS e rest =>
    simp only [exec] at h
    cases hset : setVars s e with
    | error err => rw [hset] at h; cases h
    | ok s1 =>
      rw [hset] at h
      have hspec : setSpec e s = some s1 := by
        rw [setVars_eq _ _ hp.1] at hset
        cases hh : setSpec e s with
        | none => rw [hh] at hset; cases hset
        | some q => rw [hh] at hset; cases hset; rfl
      have hlen := setSpec_length e _ _ hspec
      have hfr := setSpec_frames e _ _ hspec
      obtain ⟨h1, h2⟩ := exec_effect rest hp.2 s1 s' (by
        intro hc; subst hc; exact hs (List.length_eq_zero_iff.1 hlen.symm)) h
      refine ⟨by omega, fun n hn => ⟨fun x => by rw [(h2 n hn).1 x, (hfr n).1 x], fun x hx => ?_⟩⟩
      simp only [assigned, List.mem_append, not_or] at hx
      rw [(h2 n hn).2 x hx.2, (hfr n).2 x hx.1]
  | .block body rest =>
    simp only [exec] at h
    cases hb : exec body (push s) with
    | error err => rw [hb] at h; cases h
    | ok s1 =>
      rw [hb] at h
      obtain ⟨b1, b2⟩ := exec_effect body hp.1 (push s) s1 (by simp [push]) hb
      have hs1 : s1 ≠ [] := by
        intro hc; subst hc; simp [push] at b1
      obtain ⟨g, t, rfl⟩ := List.exists_cons_of_ne_nil hs1
      have htl : t.length = s.length := by simpa [push] using b1
      obtain ⟨h1, h2⟩ := exec_effect rest hp.2 t s' (by
        intro hc; subst hc; exact hs (List.length_eq_zero_iff.1 htl.symm)) h
      refine ⟨by omega, fun n hn => ?_⟩
      have hb2 := b2 (n + 1) (by omega)
      refine ⟨fun x => ?_, fun x hx => ?_⟩
      · rw [(h2 n hn).1 x]; simpa [valueIn, push] using hb2.1 x
      · simp only [assigned, List.mem_append, not_or] at hx
        rw [(h2 n hn).2 x hx.2]; simpa [valueIn, push] using hb2.2 x hx.1

/-- C02 for whole blocks: running any block, however deeply nested, leaves the enclosing blocks
with the same variables, and every variable that no `set` inside names keeps its value.  In
particular nothing declared by `let` inside leaks or overwrites. -/
theorem block_effect (body : Prog V) (hb : ProgWF body) (s s' : Chain V)
    (h : exec (.block body .done) s = .ok s') :
    s'.length = s.length ∧ ∀ n x,
      ((valueIn s' n x).isSome = (valueIn s n x).isSome) ∧
      (x ∉ assigned body → valueIn s' n x = valueIn s n x) := by
  simp only [exec] at h
  cases hx : exec body (push s) with
  | error err => rw [hx] at h; cases h
  | ok s1 =>
    rw [hx] at h
    have h' : s1.tail = s' := by
      have : (Except.ok s1.tail : Res (Chain V)) = .ok s' := h
      simpa using this
    subst h'
    obtain ⟨b1, b2⟩ := exec_effect body hb (push s) s1 (by simp [push]) hx
    cases s1 with
    | nil => simp [push] at b1
    | cons g t =>
      refine ⟨by simpa [push] using b1, fun n x => ?_⟩
      have hb2 := b2 (n + 1) (by omega)
      exact ⟨by simpa [valueIn, push] using hb2.1 x,
             fun hx => by simpa [valueIn, push] using hb2.2 x hx⟩

example : exec (.block (.letS [("x", 7)] (.setS [("y", 8)] (.block (.setS [("x", 9)] .done) .done))) .done)
    [[("x", 1), ("y", 2)]] = .ok [[("x", 1), ("y", 8)]] := by
  decide

end Verif.Scope
