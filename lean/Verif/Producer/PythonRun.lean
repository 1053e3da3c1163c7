import Verif.Producer.PythonBack

/-!
# Python code as PFA: values, scopes, errors (C100)
-/

namespace Verif.PyCode
open Avro Ast Reader

/-! ## Values -/

/-- Any values, with functions for the names of PFA. -/
structure Sem (V : Type) where
  lit : Val → V
  str : String → V
  var : String → V
  call : String → List V → V
  get : V → V → V
  cell : String → V
  pool : String → V
  bool : Bool → V
  tt : V → Bool

/-- Booleans: conjunction, disjunction, and comparisons give booleans. -/
structure Laws {V : Type} (S : Sem V) : Prop where
  tt_bool : ∀ b, S.tt (S.bool b) = b
  and : ∀ a b, S.call "&&" [a, b] = S.bool (S.tt a && S.tt b)
  or : ∀ a b, S.call "||" [a, b] = S.bool (S.tt a || S.tt b)
  cmp : ∀ op s a b, cmpSign op = some s → S.bool (S.tt (S.call s [a, b])) = S.call s [a, b]

section
variable {V : Type} (S : Sem V)

mutual
/-- The value of a PFA expression (of those that occur here). -/
def ev : X → V
  | .litInt v | .litLong v | .litDouble v => S.lit v
  | .litString s => S.str s
  | .ref n => S.var n
  | .call n xs => S.call n (evL xs)
  | .if_ c t e => if S.tt (ev c) then (evL t).getLastD (S.bool false) else (evL e).getLastD (S.bool false)
  | .attrGet x ps => (evL ps).foldl S.get (ev x)
  | .cellGet c ps => (evL ps).foldl S.get (S.cell c)
  | .poolGet c ps => (evL ps).foldl S.get (S.pool c)
  | _ => S.bool false
@[inherit_doc ev] def evL : List X → List V
  | [] => []
  | x :: xs => ev x :: evL xs
end

/-- Each value with the next. -/
def allNext : V → List CmpOp → List V → Bool
  | a, op :: ops, b :: bs => S.tt (S.call ((cmpSign op).getD "") [a, b]) && allNext b ops bs
  | _, _, _ => true

/-- What a name at the beginning of a path means. -/
def root (st : State) (x : PyE) (v : V) : V := match x with
  | .name _ id => if id ∈ st.cells then S.cell id else if id ∈ st.pools then S.pool id else v
  | _ => v

/-- The function that a call means. -/
def meant (name : String) : String := (PyDict.get? coreSigns name).getD name

/-- The name of a function with its dots. -/
def nameOf : PyE → String
  | .name _ id => id
  | .attribute _ x a => nameOf x ++ "." ++ a
  | _ => ""

mutual
/-- The value of Python code: `and` is true if all values are, a chain of comparisons if each value compares with the next. -/
def den (st : State) : PyE → V
  | .boolOp _ true vs => S.bool ((dens st vs).all S.tt)
  | .boolOp _ false vs => S.bool ((dens st vs).any S.tt)
  | .binOp _ op a b => S.call ((binSign op).getD "") [den st a, den st b]
  | .unaryOp _ op a => S.call ((unSign op).getD "") [den st a]
  | .ifExp _ t b o => if S.tt (den st t) then den st b else den st o
  | .compare _ left ops cs => S.bool (allNext S (den st left) ops (dens st cs))
  | .call _ f args _ _ => S.call (meant (nameOf f)) (dens st args)
  | .num _ v => S.lit v
  | .str _ s => S.str s
  | .name _ id => S.var id
  | .attribute _ x a => S.get (root S st x (den st x)) (S.str a)
  | .subscript _ x (some i) => S.get (root S st x (den st x)) (den st i)
  | _ => S.bool false
@[inherit_doc den] def dens (st : State) : List PyE → List V
  | [] => []
  | e :: es => den st e :: dens st es
end

variable {S}

theorem evL_dens {st : State} : ∀ {es : List PyE} {xs : List X}, es.length = xs.length → (∀ e z, (e, z) ∈ es.zip xs → ev S z = den S st e) → evL S xs = dens S st es
  | [], [], _, _ => by simp [evL, dens]
  | e :: es, x :: xs, hl, h => by
    rw [evL, dens, h e x (by simp), evL_dens (by simpa using hl) (fun e z hz => h e z (by simp [hz]))]
  | [], _ :: _, hl, _ => by simp at hl
  | _ :: _, [], hl, _ => by simp at hl

theorem ev_joined_and (L : Laws S) : ∀ (x : X) (xs : List X) (b : Bool), ev S x = S.bool b → ev S (joined "&&" x xs) = S.bool (b && (evL S xs).all S.tt)
  | x, [], b, h => by simp [joined, evL, h]
  | x, y :: ys, b, h => by
    rw [joined, ev_joined_and L _ ys (b && S.tt (ev S y)) (by simp [ev, evL, L.and, h, L.tt_bool])]
    simp [evL, Bool.and_assoc]

theorem ev_joined_or (L : Laws S) : ∀ (x : X) (xs : List X) (b : Bool), ev S x = S.bool b → ev S (joined "||" x xs) = S.bool (b || (evL S xs).any S.tt)
  | x, [], b, h => by simp [joined, evL, h]
  | x, y :: ys, b, h => by
    rw [joined, ev_joined_or L _ ys (b || S.tt (ev S y)) (by simp [ev, evL, L.or, h, L.tt_bool])]
    simp [evL, Bool.or_assoc]

theorem ev_neighbours (L : Laws S) : ∀ (y : X) (ops : List CmpOp) (ss : List String) (ys : List X), ops.map cmpSign = ss.map some → ss.length = ys.length →
    (evL S (neighbours y ss ys)).all S.tt = allNext S (ev S y) ops (evL S ys)
  | y, [], [], [], _, _ => by simp [neighbours, evL, allNext]
  | y, op :: ops, s :: ss, z :: ys, hs, hl => by
    simp only [List.map_cons, List.cons.injEq] at hs
    simp only [neighbours, evL, List.all_cons, allNext, hs.1, Option.getD_some]
    rw [ev_neighbours L z ops ss ys hs.2 (by simpa using hl)]
    simp [ev, evL]
  | _, [], _ :: _, _, hs, _ => by simp at hs
  | _, _ :: _, [], _, hs, _ => by simp at hs
  | _, _, [], _ :: _, _, hl => by simp at hl
  | _, _, _ :: _, [], _, hl => by simp at hl

theorem dotted_name : ∀ {f : PyE} {s : String}, dotted f = .ok s → nameOf f = s
  | .name _ id, s, h => by simpa [dotted, nameOf] using h
  | .attribute _ x a, s, h => by
    simp only [dotted] at h
    cases hx : dotted x with
    | error e => simp [hx] at h
    | ok t => simp only [hx, Except.ok.injEq] at h; rw [nameOf, dotted_name hx, h]
  | .subscript .., s, h | .boolOp .., s, h | .binOp .., s, h | .unaryOp .., s, h | .ifExp .., s, h | .dict .., s, h | .compare .., s, h | .call .., s, h | .num .., s, h
  | .str .., s, h | .list .., s, h | .tuple .., s, h | .other .., s, h => by simp [dotted] at h

theorem coreSigns_keys : PyDict.keys coreSigns = PyDict.keys coreLibrary := by decide +kernel

theorem coreSigns_get : ∀ p ∈ coreSigns, PyDict.get? coreSigns p.1 = some p.2 := by decide +kernel

/-- The value of an attribute or index. -/
def stepDen (S : Sem V) (st : State) : String ⊕ PyE → V
  | .inl a => S.str a
  | .inr i => den S st i

theorem den_spine (st : State) : ∀ e : PyE, (spine e).2 ≠ [] → den S st e = ((spine e).2.map (stepDen S st)).foldl S.get (root S st (spine e).1 (den S st (spine e).1))
  | .attribute l x a, _ => by
    have hr : root S st x (den S st x) = ((spine x).2.map (stepDen S st)).foldl S.get (root S st (spine x).1 (den S st (spine x).1)) := by
      by_cases hx : (spine x).2 = []
      · rw [hx]; cases x with
        | subscript _ _ i => cases i <;> simp [spine] at hx ⊢
        | «attribute» => simp [spine] at hx
        | _ => simp [spine]
      · rw [← den_spine st x hx]; cases x <;> first | rfl | simp [spine] at hx
    simp only [spine, List.map_append, List.map_cons, List.map_nil, List.foldl_append, List.foldl_cons, List.foldl_nil, stepDen, den, hr]
  | .subscript l x (some i), _ => by
    have hr : root S st x (den S st x) = ((spine x).2.map (stepDen S st)).foldl S.get (root S st (spine x).1 (den S st (spine x).1)) := by
      by_cases hx : (spine x).2 = []
      · rw [hx]; cases x with
        | subscript _ _ i => cases i <;> simp [spine] at hx ⊢
        | «attribute» => simp [spine] at hx
        | _ => simp [spine]
      · rw [← den_spine st x hx]; cases x <;> first | rfl | simp [spine] at hx
    simp only [spine, List.map_append, List.map_cons, List.map_nil, List.foldl_append, List.foldl_cons, List.foldl_nil, stepDen, den, hr]
  | .subscript _ _ none, h | .boolOp _ _ _, h | .binOp _ _ _ _, h | .unaryOp _ _ _, h | .ifExp _ _ _ _, h | .dict _ _ _, h
  | .compare _ _ _ _, h | .call _ _ _ _ _, h | .num _ _, h | .str _ _, h | .name _ _, h | .list _ _, h | .tuple _ _, h
  | .other _, h => absurd rfl h

theorem evL_steps {st : State} : ∀ {ps : List (String ⊕ PyE)} {xs : List X}, ps.length = xs.length → (∀ a z, (Sum.inl a, z) ∈ ps.zip xs → z = .litString a) →
    (∀ i z, (Sum.inr i, z) ∈ ps.zip xs → ev S z = den S st i) → evL S xs = ps.map (stepDen S st)
  | [], [], _, _, _ => by simp [evL]
  | p :: ps, x :: xs, hl, ha, hi => by
    rw [evL, evL_steps (st := st) (ps := ps) (by simpa using hl) (fun a z h => ha a z (by simp [h])) (fun i z h => hi i z (by simp [h]))]
    cases p with
    | inl a => rw [ha a x (by simp)]; simp [ev, stepDen]
    | inr i => rw [hi i x (by simp)]; simp [stepDen]
  | [], _ :: _, hl, _, _ => by simp at hl
  | _ :: _, [], hl, _, _ => by simp at hl

/-- **C100.**  The expression has the value of the Python code. -/
theorem python_value_partial (L : Laws S) {st : State} {e : PyE} {x : X} (h : Means st e x) : ev S x = den S st e := by
  induction h with
  | int | long | float | str | name => simp [ev, den]
  | binOp hs _ _ iha ihb => simp [ev, evL, den, hs, iha, ihb]
  | unaryOp hs _ iha => simp [ev, evL, den, hs, iha]
  | ifExp _ _ _ iht ihb iho => simp [ev, evL, den, iht, ihb, iho]
  | @boolOp l and vs x y xs hl h ih =>
    have e := evL_dens hl ih
    simp only [evL] at e
    cases and
    · simp only [Bool.false_eq_true, if_false, joined, den, ← e]
      rw [ev_joined_or L _ xs (S.tt (ev S x) || S.tt (ev S y)) (by simp [ev, evL, L.or])]
      simp [Bool.or_assoc]
    · simp only [if_true, joined, den, ← e]
      rw [ev_joined_and L _ xs (S.tt (ev S x) && S.tt (ev S y)) (by simp [ev, evL, L.and])]
      simp [Bool.and_assoc]
  | @compare l left ops cs x y ys s ss hx hl h hs hn ihx ih =>
    have e := evL_dens hl ih
    simp only [evL] at e
    match ops, hs with
    | op :: ops, hs =>
      simp only [List.map_cons, List.cons.injEq] at hs
      rw [ev_joined_and L _ _ (S.tt (S.call s [ev S x, ev S y])) (by simp [ev, evL, L.cmp op s _ _ hs.1]), ev_neighbours L y ops ss ys hs.2 hn]
      simp only [den, ← e, allNext, hs.1, Option.getD_some, ihx]
  | @call l f args name xs hf hn hl h ih =>
    have e : meant name = name := by
      unfold meant
      rw [(PyDict.get?_eq_none_iff coreSigns name).2 (by rw [coreSigns_keys]; exact hn.core)]
      rfl
    simp only [ev, den, evL_dens hl ih, dotted_name hf, e]
  | @core l f args name sign xs hf hn hw hl h ih =>
    have e : meant name = sign := by
      unfold meant
      rw [coreSigns_get _ hn]
      rfl
    simp only [ev, den, evL_dens hl ih, dotted_name hf, e]
  | @attr e b ps x xs hp hne hb hc hl ha hi ihb ihi =>
    rw [den_spine st e (by rw [hp]; exact hne), hp]
    have : root S st b (den S st b) = den S st b := by
      cases b with
      | name l id => simp [root, hc l id rfl]
      | _ => rfl
    simp only [ev, ihb, evL_steps hl ha ihi, this]
  | @cell e l c ps xs hp hne hc hl ha hi ihi =>
    rw [den_spine st e (by rw [hp]; exact hne), hp]
    simp only [ev, evL_steps hl ha ihi, root, hc, if_true]
  | @pool e l c ps xs hp hne hc hc' hl ha hi ihi =>
    rw [den_spine st e (by rw [hp]; exact hne), hp]
    simp only [ev, evL_steps hl ha ihi, root, hc, hc', if_true, if_false]
end

/-! ## Scopes -/

/-- Statements in order, where `names` are declared: `let` declares names that are new, `set` changes names that are known. -/
inductive Scoped : List String → List Val → Prop where
  | nil {names} : Scoped names []
  | let_ {names D d vs} (h : entries D = [("let", .dict d)]) (hd : d ≠ []) (hn : ∀ k ∈ PyDict.keys d, k ∉ names) (hs : Scoped (PyDict.keys d ++ names) vs) : Scoped names (.dict D :: vs)
  | set {names D d vs} (h : entries D = [("set", .dict d)]) (hd : d ≠ []) (hn : ∀ k ∈ PyDict.keys d, k ∈ names) (hs : Scoped names vs) : Scoped names (.dict D :: vs)

theorem Scoped.congr {a : List String} {vs : List Val} (h : Scoped a vs) : ∀ {b : List String}, (∀ x, x ∈ a ↔ x ∈ b) → Scoped b vs := by
  induction h with
  | nil => intro b _; exact .nil
  | let_ h hd hn _ ih => intro b e; exact .let_ h hd (fun k hk hb => hn k hk ((e k).2 hb)) (ih (fun x => by simp [e x]))
  | set h hd hn _ ih => intro b e; exact .set h hd (fun k hk => (e k).1 (hn k hk)) (ih e)

theorem entries_form (st : State) (l : Nat) (k : String) (v : Val) (hk : k ≠ "@") : ∃ D, form st l [(k, v)] = .dict D ∧ entries D = [(k, v)] := by
  unfold form
  cases st.lineNumbers
  · exact ⟨_, rfl, by simp [entries, hk]⟩
  · exact ⟨_, rfl, by simp [entries, hk]⟩

theorem mem_keys_set {α : Type} (d : List (String × α)) (k k' : String) (v : α) : k' ∈ PyDict.keys (PyDict.set d k v) ↔ k' = k ∨ k' ∈ PyDict.keys d := by
  rw [PyDict.keys_set]
  split
  · next h => constructor
              · exact Or.inr
              · rintro (rfl | h'); exacts [h, h']
  · simp [or_comm]

theorem nil_of_keys {α : Type} {d : List (String × α)} (h : d ≠ []) : ∃ k, k ∈ PyDict.keys d := by
  cases d with
  | nil => exact absurd rfl h
  | cons kv d => exact ⟨kv.1, by simp [PyDict.keys]⟩

/-- What `several` counts. -/
theorem several_ok : ∀ {ns : List String} {vs : List PyE} {st st' : State} {out d : List (String × Val)} {lets sets m n : Nat},
    several st out lets sets ns vs = .ok (d, m, n, st') →
    lets ≤ m ∧ sets ≤ n ∧ (∀ k ∈ st.symbols, k ∈ st'.symbols) ∧ (∀ k ∈ PyDict.keys out, k ∈ PyDict.keys d) ∧ (m + n ≠ lets + sets → d ≠ []) ∧
    (n = sets → ∀ k, k ∈ PyDict.keys d ↔ k ∈ PyDict.keys out ∨ (k ∈ st'.symbols ∧ k ∉ st.symbols)) ∧
    (m = lets → st' = st ∧ ∀ k ∈ PyDict.keys d, k ∈ PyDict.keys out ∨ k ∈ st.symbols)
  | x :: ns, v :: vs, st, st', out, d, lets, sets, m, n, h => by
    simp only [several] at h
    split at h
    · next hx =>
      cases hv : expr st v with
      | error e => simp [hv] at h
      | ok w =>
        simp only [hv] at h
        obtain ⟨h1, h2, h3, h4, h5, h6, h7⟩ := several_ok h
        have hk : x ∈ PyDict.keys d := h4 x ((mem_keys_set _ _ _ _).2 (.inl rfl))
        refine ⟨h1, by omega, h3, fun k hk => h4 k ((mem_keys_set _ _ _ _).2 (.inr hk)), fun _ hd => by subst hd; simp [PyDict.keys] at hk, fun e => by omega, fun e => ?_⟩
        obtain ⟨rfl, h7⟩ := h7 e
        refine ⟨rfl, fun k hk => ?_⟩
        rcases h7 k hk with hk | hk
        · rcases (mem_keys_set _ _ _ _).1 hk with rfl | hk
          · exact .inr hx
          · exact .inl hk
        · exact .inr hk
    · next hx =>
      cases hv : expr { st with symbols := x :: st.symbols } v with
      | error e => simp [hv] at h
      | ok w =>
        simp only [hv] at h
        obtain ⟨h1, h2, h3, h4, h5, h6, h7⟩ := several_ok h
        have hk : x ∈ PyDict.keys d := h4 x ((mem_keys_set _ _ _ _).2 (.inl rfl))
        refine ⟨by omega, h2, fun k hk => h3 k (List.mem_cons_of_mem _ hk), fun k hk => h4 k ((mem_keys_set _ _ _ _).2 (.inr hk)), fun _ hd => by subst hd; simp [PyDict.keys] at hk, fun e k => ?_,
          fun e => by omega⟩
        rw [h6 e k, mem_keys_set]
        simp only [List.mem_cons, not_or]
        constructor
        · rintro ((rfl | hk) | ⟨hk, _, hk'⟩)
          · exact .inr ⟨h3 _ (by simp), hx⟩
          · exact .inl hk
          · exact .inr ⟨hk, hk'⟩
        · rintro (hk | ⟨hk, hk'⟩)
          · exact .inl (.inr hk)
          · by_cases e : k = x
            · exact .inl (.inl e)
            · exact .inr ⟨hk, e, hk'⟩
  | [], vs, st, st', out, d, lets, sets, m, n, h => by
    simp only [several, Except.ok.injEq, Prod.mk.injEq] at h
    obtain ⟨rfl, rfl, rfl, rfl⟩ := h
    simp +contextual
  | x :: ns, [], st, st', out, d, lets, sets, m, n, h => by
    simp only [several, Except.ok.injEq, Prod.mk.injEq] at h
    obtain ⟨rfl, rfl, rfl, rfl⟩ := h
    simp +contextual

/-- **C100.**  Whatever statements are converted, a name is declared where it is first assigned, and changed afterwards. -/
theorem python_scoped : ∀ {ss : List Stmt} {st : State} {vs : List Val}, statements st ss = .ok vs → Scoped st.symbols vs
  | [], st, vs, h => by simp only [statements, Except.ok.injEq] at h; subst h; exact .nil
  | s :: ss, st, vs, h => by
    simp only [statements] at h
    cases hs : statement st s with
    | error e => simp [hs] at h
    | ok r =>
      obtain ⟨v, st'⟩ := r
      simp only [hs] at h
      cases ht : statements st' ss with
      | error e => simp [ht] at h
      | ok ws =>
        simp only [ht, Except.ok.injEq] at h
        subst h
        have ih := python_scoped ht
        revert hs
        unfold statement
        split
        · next l l' id value =>
          cases expr st value with
          | error e => intro hs; cases hs
          | ok w =>
            intro hs
            simp only [Except.ok.injEq, Prod.mk.injEq] at hs
            obtain ⟨rfl, rfl⟩ := hs
            by_cases hid : id ∈ st.symbols
            · rw [if_pos hid]
              obtain ⟨D, e, hD⟩ := entries_form st l "set" (.dict [(id, w)]) (by decide)
              rw [e]
              refine .set hD (by simp) (by simpa [PyDict.keys] using hid) (ih.congr fun x => ?_)
              simp only [List.mem_cons, or_iff_right_iff_imp]
              rintro rfl; exact hid
            · rw [if_neg hid]
              obtain ⟨D, e, hD⟩ := entries_form st l "let" (.dict [(id, w)]) (by decide)
              rw [e]
              exact .let_ hD (by simp) (by simpa [PyDict.keys] using hid) (ih.congr fun x => by simp [PyDict.keys])
        · next l l' es l'' vs =>
          cases idents es with
          | none => intro hs; cases hs
          | some ns =>
            cases hv : several st [] 0 0 ns vs with
            | error e => intro hs; simp [hv] at hs
            | ok r =>
              obtain ⟨out, lets, sets, st''⟩ := r
              obtain ⟨_, _, h3, _, h5, h6, h7⟩ := several_ok hv
              intro hs
              simp only [hv, letSet] at hs
              by_cases c1 : lets > 0 ∧ sets = 0
              · simp only [if_pos c1, Except.ok.injEq, Prod.mk.injEq] at hs
                obtain ⟨rfl, rfl⟩ := hs
                obtain ⟨D, e, hD⟩ := entries_form st l "let" (.dict out) (by decide)
                have h6 := h6 c1.2
                simp only [PyDict.keys, List.map_nil, List.not_mem_nil, false_or] at h6
                rw [e]
                refine .let_ hD (h5 (by omega)) (fun k hk => ((h6 k).1 hk).2) (ih.congr fun x => ?_)
                rw [List.mem_append]
                simp only [PyDict.keys, h6 x]
                constructor
                · intro hx
                  by_cases hx' : x ∈ st.symbols
                  · exact .inr hx'
                  · exact .inl ⟨hx, hx'⟩
                · rintro (hx | hx)
                  · exact hx.1
                  · exact h3 x hx
              · by_cases c2 : lets = 0 ∧ sets > 0
                · simp only [if_neg c1, if_pos c2, Except.ok.injEq, Prod.mk.injEq] at hs
                  obtain ⟨rfl, rfl⟩ := hs
                  obtain ⟨D, e, hD⟩ := entries_form st l "set" (.dict out) (by decide)
                  obtain ⟨rfl, h7⟩ := h7 c2.1
                  rw [e]
                  refine .set hD (h5 (by omega)) (fun k hk => ?_) ih
                  rcases h7 k hk with h | h
                  · simp [PyDict.keys] at h
                  · exact h
                · simp only [if_neg c1, if_neg c2] at hs
                  cases hs
        · intro hs; cases hs
        · intro hs; cases hs

/-- **C100.**  An assignment of code that means `x` is read as the declaration or change of its name with `x`. -/
theorem assign_means_partial {st : State} {l l' : Nat} {id : String} {e : PyE} {x : X} (h : Means st e x) (ha : id ≠ "@") :
    ∃ v, statement st (.assign l [.name l' id] e) = .ok (v, { st with symbols := id :: st.symbols }) ∧
      Rd v (if id ∈ st.symbols then .setVar [(id, x)] else .let_ [(id, x)]) := by
  obtain ⟨v, h1, ⟨N, h2⟩, h3, _⟩ := python_means_partial h
  refine ⟨form st l [(if id ∈ st.symbols then "set" else "let", .dict [(id, v)])], by simp only [statement, h1], ⟨N + 1, fun m hm => ?_⟩⟩
  obtain ⟨m, rfl⟩ : ∃ i, m = i + 1 := ⟨m - 1, by omega⟩
  have hr : readMap (readExpr (readArg m)) (.dict [(id, v)]) = .ok [(id, x)] := by simp [readMap, entries, ha, Avro.mapR, readExpr, h2 m (by omega), h3, Res.app]
  by_cases hid : id ∈ st.symbols
  · rw [if_pos hid, if_pos hid, form_start]
    refine read_obj m _ _ (by simp [PyDict.keys]) (ss := [("set", .emap [(id, x)])]) ?_ ?_
    · simp [readSlots, Avro.mapR, show kindOf "set" = .emap from by decide +kernel, readKind, hr, Res.app]
    · have e : formOf (PyDict.keys [("set", Val.dict [(id, v)])]) = some .set := by
        have : formOf ["set"] = some .set := by decide +kernel
        exact this
      simp [assemble, wrongName, e, build, slot, PyDict.get?, Slot.emap?, mk, made, allN, h3]
  · rw [if_neg hid, if_neg hid, form_start]
    refine read_obj m _ _ (by simp [PyDict.keys]) (ss := [("let", .emap [(id, x)])]) ?_ ?_
    · simp [readSlots, Avro.mapR, show kindOf "let" = .emap from by decide +kernel, readKind, hr, Res.app]
    · have e : formOf (PyDict.keys [("let", Val.dict [(id, v)])]) = some .let_ := by
        have : formOf ["let"] = some .let_ := by decide +kernel
        exact this
      simp [assemble, wrongName, e, build, slot, PyDict.get?, Slot.emap?, mk, made, allN, h3]

/-! ## Errors -/

/-- Trees as the parser makes them, without the operators and slices that the code does not expect. -/
inductive Expected : PyE → Prop where
  | boolOp {l and vs} (hl : 2 ≤ vs.length) (h : ∀ e ∈ vs, Expected e) : Expected (.boolOp l and vs)
  | binOp {l op a b} (ho : op ≠ .matMult) (ha : Expected a) (hb : Expected b) : Expected (.binOp l op a b)
  | unaryOp {l op a} (ha : Expected a) : Expected (.unaryOp l op a)
  | ifExp {l t b o} (ht : Expected t) (hb : Expected b) (ho : Expected o) : Expected (.ifExp l t b o)
  | dict {l ks vs} (h : ∀ e ∈ vs, Expected e) : Expected (.dict l ks vs)
  | compare {l left ops cs} (hx : Expected left) (hl : ops ≠ []) (hc : cs ≠ []) (h : ∀ e ∈ cs, Expected e) (ho : .other ∉ ops) : Expected (.compare l left ops cs)
  | call {l f args kws kvs} (h : ∀ e ∈ args, Expected e) (hk : ∀ e ∈ kvs, Expected e) : Expected (.call l f args kws kvs)
  | num {l v} : Expected (.num l v)
  | str {l s} : Expected (.str l s)
  | attr {l x a} (h : Expected x) : Expected (.attribute l x a)
  | index {l x i} (h : Expected x) (hi : Expected i) : Expected (.subscript l x (some i))
  | name {l id} : Expected (.name l id)
  | list {l es} (h : ∀ e ∈ es, Expected e) : Expected (.list l es)
  | tuple {l es} (h : ∀ e ∈ es, Expected e) : Expected (.tuple l es)
  | other {l} : Expected (.other l)

/-- No other exception. -/
def Only {α : Type} (r : Res α) : Prop := ∀ er, r = .error er → er = refuse

theorem Only.ok {α : Type} (a : α) : Only (.ok a : Res α) := fun _ h => by cases h
theorem Only.of {α β : Type} {r : Res α} {e : Err} (he : r = .error e) (h : Only r) : Only (.error e : Res β) := fun _ h' => by cases h'; exact h _ he
theorem Only.refuse {α : Type} : Only (.error refuse : Res α) := fun _ h => by cases h; rfl

theorem only_ident {st : State} {id : String} {r : Res Val} (h : Only r) : Only (ident st id r) := by
  unfold ident
  split
  · exact .ok _
  · split
    · exact .ok _
    · split
      · exact .ok _
      · split
        · exact .ok _
        · exact h

theorem only_seqR {α : Type} : ∀ {rs : List (Res α)}, (∀ r ∈ rs, Only r) → Only (seqR rs)
  | [], _ => .ok _
  | .error e :: rs, h => by simp only [seqR]; exact .of rfl (h (.error e) (by simp))
  | .ok a :: rs, h => by
    have ih := only_seqR (rs := rs) (fun r hr => h r (by simp [hr]))
    simp only [seqR]
    cases hr : seqR rs with
    | error e => intro er he; exact ih er (by rw [hr]; simpa using he)
    | ok as => exact .ok _

theorem seqR_length {α : Type} : ∀ {rs : List (Res α)} {as : List α}, seqR rs = .ok as → as.length = rs.length
  | [], as, h => by simp [seqR] at h; simp [← h]
  | .error e :: rs, as, h => by simp [seqR] at h
  | .ok a :: rs, as, h => by
    simp only [seqR] at h
    cases hr : seqR rs with
    | error e => simp [hr] at h
    | ok bs => simp [hr] at h; simp [← h, seqR_length hr]

theorem exprs_map (st : State) : ∀ es : List PyE, exprs st es = es.map (expr st)
  | [] => by simp [exprs]
  | e :: es => by simp [exprs, exprs_map st es]

theorem only_literals {st : State} : ∀ {es : List PyE}, (∀ e ∈ es, Only (literal st e)) → Only (literals st es)
  | [], _ => by simp only [literals]; exact .ok _
  | e :: es, h => by
    have h1 := h e (by simp)
    have h2 := only_literals (es := es) (fun e he => h e (by simp [he]))
    simp only [literals]
    cases hl : literal st e with
    | error er => intro x hx; exact h1 x (by rw [hl]; simpa using hx)
    | ok v => cases hm : literals st es with
      | error er => intro x hx; exact h2 x (by rw [hm]; simpa using hx)
      | ok vs => exact .ok _

theorem only_literalD {st : State} : ∀ {ks vs : List PyE} {out : List (String × Val)}, (∀ e ∈ vs, Only (literal st e)) → Only (literalD st out ks vs)
  | k :: ks, v :: vs, out, h => by
    have h1 := h v (by simp)
    simp only [literalD]
    have hk : Only (literalKey st k) := by
      unfold literalKey
      split
      · exact .ok _
      · split
        · exact .ok _
        · exact .refuse
      · exact .refuse
    cases hk' : literalKey st k with
    | error er => intro x hx; exact hk x (by rw [hk']; simpa using hx)
    | ok k => cases hl : literal st v with
      | error er => intro x hx; exact h1 x (by rw [hl]; simpa using hx)
      | ok w => exact only_literalD (fun e he => h e (by simp [he]))
  | [], vs, out, _ => by simp only [literalD]; exact .ok _
  | _ :: _, [], out, _ => by simp only [literalD]; exact .ok _

theorem only_chain {st : State} {l : Nat} : ∀ {ops : List CmpOp} {cs : List (Res Val)} {out last : Val}, .other ∉ ops → (∀ c ∈ cs, Only c) → Only (chain st l out last ops cs)
  | op :: ops, c :: cs, out, last, ho, hc => by
    simp only [List.mem_cons, not_or] at ho
    cases c with
    | error e => simp only [chain]; exact .of rfl (hc (.error e) (by simp))
    | ok new =>
      cases op <;> first | exact absurd rfl ho.1 | (simp only [chain, cmpName]; exact only_chain ho.2 (fun c h => hc c (by simp [h])))
  | [], cs, out, last, _, _ => by simp only [chain]; exact .ok _
  | _ :: _, [], out, last, _, _ => by simp only [chain]; exact .ok _

theorem only_keywords : ∀ {ks : List String} {vs : List (Res Val)} {out : List (String × Val)}, (∀ v ∈ vs, Only v) → Only (keywords out ks vs)
  | k :: ks, v :: vs, out, h => by
    cases v with
    | error e => simp only [keywords]; exact .of rfl (h (.error e) (by simp))
    | ok w => simp only [keywords]; exact only_keywords (fun v hv => h v (by simp [hv]))
  | [], vs, out, _ => by simp only [keywords]; exact .ok _
  | _ :: _, [], out, _ => by simp only [keywords]; exact .ok _

theorem only_dotted : ∀ f : PyE, Only (dotted f)
  | .name _ id => .ok _
  | .attribute _ x a => by
    have := only_dotted x
    simp only [dotted]
    cases h : dotted x with
    | error e => intro er he; exact this er (by rw [h]; simpa using he)
    | ok s => exact .ok _
  | .subscript .. | .boolOp .. | .binOp .. | .unaryOp .. | .ifExp .. | .dict .. | .compare .. | .call .. | .num .. | .str .. | .list .. | .tuple .. | .other .. => .refuse

theorem only_base {st : State} {x : PyE} {r : Res Val} {path : List Val} (h : Only r) : Only (base st x r path) := by
  unfold base
  split
  · split
    · exact .ok _
    · split
      · exact .ok _
      · split
        · exact .ok _
        · next e => exact fun er he => h er (by simpa using he)
  · split
    · exact .ok _
    · next e => exact fun er he => h er (by simpa using he)

/-- **C100.**  Code that cannot be converted is refused with `PythonToPfaException`. -/
theorem python_errors_partial {st : State} {e : PyE} (h : Expected e) : Only (expr st e) := by
  suffices hh : Only (expr st e) ∧ (∀ path, Only (unfold st e path)) ∧ Only (literal st e) from hh.1
  have un : ∀ {e : PyE}, (∀ path, unfold st e path = base st e (expr st e) path) → Only (expr st e) → ∀ path, Only (unfold st e path) :=
    fun h1 h2 path => by rw [h1]; exact only_base h2
  have lit : ∀ {e : PyE}, literal st e = .error refuse → Only (literal st e) := fun h => by rw [h]; exact .refuse
  induction h with
  | @boolOp l and vs hl h ih =>
    have e1 : Only (expr st (.boolOp l and vs)) := by
      rw [expr]
      have hs := only_seqR (rs := exprs st vs) (by rw [exprs_map]; intro r hr; obtain ⟨e, he, rfl⟩ := List.mem_map.1 hr; exact (ih e he).1)
      cases hr : seqR (exprs st vs) with
      | error e => exact fun er he => hs er (by rw [hr]; simpa using he)
      | ok ws =>
        have := seqR_length hr
        rw [exprs_map, List.length_map] at this
        match ws, this with
        | [], this => simp at this; omega
        | [_], this => simp at this; omega
        | a :: b :: ws, _ => exact .ok _
    exact ⟨e1, un (fun path => by simp [unfold]) e1, lit (by simp [literal])⟩
  | @binOp l op a b ho ha hb iha ihb =>
    have e1 : Only (expr st (.binOp l op a b)) := by
      rw [expr]
      have hn : Only (binName op) := by cases op <;> first | exact absurd rfl ho | exact .ok _ | exact .refuse
      split
      · next e he => exact .of he hn
      · split
        · next e he => exact .of he iha.1
        · split
          · next e he => exact .of he ihb.1
          · exact .ok _
    exact ⟨e1, un (fun path => by simp [unfold]) e1, lit (by simp [literal])⟩
  | @unaryOp l op a ha iha =>
    have e1 : Only (expr st (.unaryOp l op a)) := by
      rw [expr]
      have hn : Only (unName op) := by cases op <;> first | exact .ok _ | exact .refuse
      split
      · next e he => exact .of he hn
      · split
        · next e he => exact .of he iha.1
        · exact .ok _
    exact ⟨e1, un (fun path => by simp [unfold]) e1, lit (by simp [literal])⟩
  | @ifExp l t b o _ _ _ iht ihb iho =>
    have e1 : Only (expr st (.ifExp l t b o)) := by
      rw [expr]
      split
      · next e he => exact .of he iht.1
      · split
        · next e he => exact .of he ihb.1
        · split
          · next e he => exact .of he iho.1
          · exact .ok _
    exact ⟨e1, un (fun path => by simp [unfold]) e1, lit (by simp [literal])⟩
  | @dict l ks vs h ih =>
    have e0 : Only (literal st (.dict l ks vs)) := by
      rw [literal]
      have := only_literalD (st := st) (ks := ks) (out := []) (fun e he => (ih e he).2.2)
      cases hr : literalD st [] ks vs with
      | error e => exact fun er he => this er (by rw [hr]; simpa using he)
      | ok d => exact .ok _
    have e1 : Only (expr st (.dict l ks vs)) := by rw [expr]; exact e0
    exact ⟨e1, un (fun path => by simp [unfold]) e1, e0⟩
  | @compare l left ops cs hx hl hc h ho ihx ih =>
    have e1 : Only (expr st (.compare l left ops cs)) := by
      rw [expr, exprs_map]
      match ops, cs with
      | [], _ => exact absurd rfl hl
      | _, [] => exact absurd rfl hc
      | op :: ops, c :: cs =>
        simp only [List.mem_cons, not_or] at ho
        simp only [List.map_cons, compareForm]
        have hn : Only (cmpName op) := by cases op <;> first | exact absurd rfl ho.1 | exact .ok _
        split
        · next e he => exact .of he (ih c (by simp)).1
        · split
          · next e he => exact .of he hn
          · split
            · next e he => exact .of he ihx.1
            · exact only_chain ho.2 (by intro r hr; obtain ⟨e, he, rfl⟩ := List.mem_map.1 hr; exact (ih e (by simp [he])).1)
    exact ⟨e1, un (fun path => by simp [unfold]) e1, lit (by simp [literal])⟩
  | @call l f args kws kvs h hk ih ihk =>
    have e1 : Only (expr st (.call l f args kws kvs)) := by
      rw [expr, exprs_map, exprs_map]
      split
      · next e he => exact .of he (only_dotted f)
      · split
        · next e he => exact .of he (only_seqR (by intro r hr; obtain ⟨e, he, rfl⟩ := List.mem_map.1 hr; exact (ih e he).1))
        · split
          · next e he => exact .of he (only_keywords (by intro r hr; obtain ⟨e, he, rfl⟩ := List.mem_map.1 hr; exact (ihk e he).1))
          · exact .ok _
    exact ⟨e1, un (fun path => by simp [unfold]) e1, lit (by simp [literal])⟩
  | @num l v =>
    have e1 : Only (expr st (.num l v)) := by rw [expr]; exact .ok _
    exact ⟨e1, un (fun path => by simp [unfold]) e1, by rw [literal]; exact .ok _⟩
  | @str l s =>
    have e1 : Only (expr st (.str l s)) := by rw [expr]; exact .ok _
    exact ⟨e1, un (fun path => by simp [unfold]) e1, by rw [literal]; exact .ok _⟩
  | @attr l x a _ ih => exact ⟨by rw [expr]; exact ih.2.1 _, fun path => by rw [unfold]; exact ih.2.1 _, lit (by simp [literal])⟩
  | @index l x i _ _ ih ihi =>
    refine ⟨?_, fun path => ?_, lit (by simp [literal])⟩
    · rw [expr]
      split
      · next e he => exact .of he ihi.1
      · exact ih.2.1 _
    · rw [unfold]
      split
      · next e he => exact .of he ihi.1
      · exact ih.2.1 _
  | @name l id =>
    have e1 : Only (expr st (.name l id)) := by rw [expr]; exact only_ident (.ok _)
    exact ⟨e1, un (fun path => by simp [unfold]) e1, by rw [literal]; exact only_ident .refuse⟩
  | @list l es h ih =>
    have e0 : Only (literal st (.list l es)) := by
      rw [literal]
      have := only_literals (st := st) (fun e he => (ih e he).2.2)
      cases hr : literals st es with
      | error e => exact fun er he => this er (by rw [hr]; simpa using he)
      | ok d => exact .ok _
    have e1 : Only (expr st (.list l es)) := by rw [expr]; exact e0
    exact ⟨e1, un (fun path => by simp [unfold]) e1, e0⟩
  | @tuple l es h ih =>
    have e1 : Only (expr st (.tuple l es)) := by
      rw [expr]
      have hs := only_seqR (rs := exprs st es) (by rw [exprs_map]; intro r hr; obtain ⟨e, he, rfl⟩ := List.mem_map.1 hr; exact (ih e he).1)
      cases hr : seqR (exprs st es) with
      | error e => exact fun er he => hs er (by rw [hr]; simpa using he)
      | ok ws => exact .ok _
    exact ⟨e1, un (fun path => by simp [unfold]) e1, lit (by simp [literal])⟩
  | @other l =>
    have e1 : Only (expr st (.other l)) := by rw [expr]; exact .refuse
    exact ⟨e1, un (fun path => by simp [unfold]) e1, lit (by simp [literal])⟩

/-! ## Literals, substitutions, keywords and line numbers -/

/-- JSON that is written in Python: `None`, `True` and `False` are the names of `null`, `true` and `false`, and a name may stand for JSON. -/
inductive Json (st : State) : PyE → Val → Prop where
  | num {l v} : Json st (.num l v) v
  | str {l s} : Json st (.str l s) (.str s)
  | sub {l id v} (h : PyDict.get? st.subs id = some v) : Json st (.name l id) v
  | null {l} (h : "None" ∉ PyDict.keys st.subs) : Json st (.name l "None") .null
  | true {l} (h : "True" ∉ PyDict.keys st.subs) : Json st (.name l "True") (.bool Bool.true)
  | false {l} (h : "False" ∉ PyDict.keys st.subs) : Json st (.name l "False") (.bool Bool.false)
  | list {l es vs} (hl : es.length = vs.length) (h : ∀ e v, (e, v) ∈ es.zip vs → Json st e v) : Json st (.list l es) (.arr vs)
  | dict {l ks es d} (hd : (PyDict.keys d).Nodup) (hk : ks.length = d.length) (hl : es.length = d.length)
      (h1 : ∀ k s v, (k, s, v) ∈ ks.zip d → (∃ l, k = .str l s) ∨ ∃ l id, k = .name l id ∧ PyDict.get? st.subs id = some (.str s))
      (h : ∀ e v, (e, v) ∈ es.zip (d.map Prod.snd) → Json st e v) : Json st (.dict l ks es) (.dict d)

theorem set_new {α : Type} : ∀ (d : List (String × α)) (k : String) (v : α), k ∉ PyDict.keys d → PyDict.set d k v = d ++ [(k, v)]
  | [], k, v, _ => by simp [PyDict.set]
  | (a, b) :: d, k, v, h => by
    simp only [PyDict.keys, List.map_cons, List.mem_cons, not_or] at h
    simp [PyDict.set, Ne.symm h.1, set_new d k v h.2]

theorem literals_json {st : State} : ∀ {es : List PyE} {vs : List Val}, es.length = vs.length → (∀ e v, (e, v) ∈ es.zip vs → literal st e = .ok v) → literals st es = .ok vs
  | [], [], _, _ => by simp [literals]
  | e :: es, v :: vs, hl, h => by
    have h1 := h e v (by simp)
    have h2 := literals_json (es := es) (vs := vs) (by simpa using hl) (fun e v he => h e v (by simp [he]))
    simp [literals, h1, h2]
  | [], _ :: _, hl, _ => by simp at hl
  | _ :: _, [], hl, _ => by simp at hl

theorem literalD_json {st : State} : ∀ {ks es : List PyE} {d out : List (String × Val)}, ks.length = d.length → es.length = d.length → (PyDict.keys (out ++ d)).Nodup →
    (∀ k s v, (k, s, v) ∈ ks.zip d → literalKey st k = .ok s) → (∀ e v, (e, v) ∈ es.zip (d.map Prod.snd) → literal st e = .ok v) → literalD st out ks es = .ok (out ++ d)
  | [], [], [], out, _, _, _, _, _ => by simp [literalD]
  | k :: ks, e :: es, (s, v) :: d, out, h1, h2, hd, hk, hv => by
    have e1 := hk k s v (by simp)
    have e2 := hv e v (by simp)
    have hs : s ∉ PyDict.keys out := by
      simp only [PyDict.keys, List.map_append, List.map_cons] at hd ⊢
      intro h
      exact (List.nodup_append.1 hd).2.2 s h s (by simp) rfl
    have hset : PyDict.set out s v = out ++ [(s, v)] := set_new out s v hs
    simp only [literalD, e1, e2, hset]
    rw [literalD_json (by simpa using h1) (by simpa using h2) (by simpa using hd) (fun k s v h => hk k s v (by simp [h])) (fun e v h => hv e v (by simp [h]))]
    simp
  | [], _ :: _, [], _, _, h, _, _, _ => by simp at h
  | _ :: _, _, [], _, h, _, _, _, _ => by simp at h
  | [], _, _ :: _, _, h, _, _, _, _ => by simp at h
  | _ :: _, [], _ :: _, _, _, h, _, _, _ => by simp at h

/-- **C100.**  Lists and dictionaries are the JSON they are written as. -/
theorem literal_json {st : State} {e : PyE} {v : Val} (h : Json st e v) : literal st e = .ok v := by
  induction h with
  | num => simp [literal]
  | str => simp [literal]
  | sub h => simp [literal, ident, h]
  | null h => simp [literal, ident, (PyDict.get?_eq_none_iff _ _).2 h]
  | true h => simp [literal, ident, (PyDict.get?_eq_none_iff _ _).2 h]
  | false h => simp [literal, ident, (PyDict.get?_eq_none_iff _ _).2 h]
  | list hl h ih => simp [literal, literals_json hl ih]
  | @dict l ks es d hd hk hl h1 h ih =>
    have := literalD_json (st := st) (out := []) hk hl (by simpa using hd) (fun k s v hs => by
      rcases h1 k s v hs with ⟨l, rfl⟩ | ⟨l, id, rfl, hg⟩
      · rfl
      · simp [literalKey, hg]) ih
    rw [literal, this]; rfl

/-- `[{"a": None}, n]` with a value for `n`. -/
example : expr { subs := [("n", .int 3)] } (.list 1 [.dict 1 [.str 1 "a"] [.name 1 "None"], .name 1 "n"]) = .ok (.arr [.dict [("a", .null)], .int 3]) := by
  rw [expr]
  refine literal_json (.list rfl ?_)
  intro e v h
  simp only [List.zip_cons_cons, List.zip_nil_right, List.mem_cons, Prod.mk.injEq, List.not_mem_nil, or_false] at h
  rcases h with ⟨rfl, rfl⟩ | ⟨rfl, rfl⟩
  · refine .dict (by simp [PyDict.keys]) rfl rfl (fun k s v h => ?_) (fun e v h => ?_)
    · simp at h; exact .inl ⟨1, by rw [h.1, h.2.1]⟩
    · simp at h; rw [h.1, h.2]; exact .null (by simp [PyDict.keys])
  · exact .sub (by simp [PyDict.get?])

/-- **C100.**  Where an expression is expected, a list or dictionary is its JSON. -/
theorem expr_json {st : State} {e : PyE} {v : Val} (h : Json st e v) (he : (∃ l es, e = .list l es) ∨ ∃ l ks es, e = .dict l ks es) : expr st e = .ok v := by
  rcases he with ⟨l, es, rfl⟩ | ⟨l, ks, es, rfl⟩
  · rw [expr]; exact literal_json h
  · rw [expr]; exact literal_json h

/-- **C100.**  A name is what it is substituted by, wherever it stands alone, even if it is one of Python's constants. -/
theorem expr_sub {st : State} {l : Nat} {id : String} {v : Val} (h : PyDict.get? st.subs id = some v) : expr st (.name l id) = .ok v := by simp [expr, ident, h]

/-- **C100.**  The constants. -/
theorem expr_constants {st : State} {l : Nat} (h : ∀ id ∈ ["None", "True", "False"], id ∉ PyDict.keys st.subs) :
    expr st (.name l "None") = .ok .null ∧ expr st (.name l "True") = .ok (.bool true) ∧ expr st (.name l "False") = .ok (.bool false) := by
  simp only [List.mem_cons, List.not_mem_nil, or_false, forall_eq_or_imp, forall_eq] at h
  simp [expr, ident, (PyDict.get?_eq_none_iff _ _).2 h.1, (PyDict.get?_eq_none_iff _ _).2 h.2.1, (PyDict.get?_eq_none_iff _ _).2 h.2.2]

/-- The word of a special form: that of PFA, in small letters. -/
def wordOf (s : String) : String := if s ∈ specialForms then String.ofList (s.toList.map Char.toLower) else s

/-- **C100.**  A call with keywords is one object with all of them, after the function. -/
theorem call_keywords {st : State} {l : Nat} {f : PyE} {args kvs : List PyE} {kws : List String} {name : String} {vs ws : List Val} (hf : dotted f = .ok name)
    (ha : seqR (exprs st args) = .ok vs) (hk : seqR (exprs st kvs) = .ok ws) (hl : kws.length = ws.length) (hd : (callName name :: kws.map wordOf).Nodup) :
    expr st (.call l f args kws kvs) = .ok (form st l ((callName name, callArgs (callName name) vs) :: (kws.map wordOf).zip ws)) := by
  have aux : ∀ {ks : List String} {rs : List (Res Val)} {ws : List Val} {out : List (String × Val)}, seqR rs = .ok ws → ks.length = ws.length →
      (PyDict.keys out ++ ks.map wordOf).Nodup → keywords out ks rs = .ok (out ++ (ks.map wordOf).zip ws) := by
    intro ks
    induction ks with
    | nil =>
      intro rs ws out h1 h2 _
      have : ws = [] := List.length_eq_zero_iff.1 (by simpa using h2.symm)
      subst this
      cases rs with
      | nil => simp [keywords]
      | cons r rs => have := seqR_length h1; simp at this
    | cons k ks ih =>
      intro rs ws out h1 h2 h3
      cases rs with
      | nil => have := seqR_length h1; simp at this; subst this; simp at h2
      | cons r rs =>
        cases r with
        | error e => simp [seqR] at h1
        | ok v =>
          simp only [seqR] at h1
          cases hr : seqR rs with
          | error e => simp [hr] at h1
          | ok us =>
            simp only [hr, Except.ok.injEq] at h1
            subst h1
            have hs : wordOf k ∉ PyDict.keys out := fun h => (List.nodup_append.1 h3).2.2 _ h _ (by simp) rfl
            have hset : PyDict.set out (wordOf k) v = out ++ [(wordOf k, v)] := set_new out _ v hs
            have hw : lower k = wordOf k := rfl
            simp only [keywords, hw, hset]
            rw [ih hr (by simpa using h2) (by simpa [PyDict.keys] using h3)]
            simp
  have := aux (out := [(callName name, callArgs (callName name) vs)]) hk hl (by simpa [PyDict.keys] using hd)
  rw [expr, hf]
  simp only [ha, this]
  rfl

/-- **C100.**  With one argument that is a string, a special form that wants a name gets the string itself. -/
theorem call_wants {name s : String} (h : name ∈ ["string", "base64", "value", "attr", "cell", "pool", "foreach", "forkey", "forval", "doc", "error", "fcn"]) :
    callArgs name [.dict [("string", .str s)]] = .str s := by
  have : name ∈ wantsString := h
  simp [callArgs, this]

/-- **C100.**  The words of the special forms are those of PFA. -/
theorem words_special : ∀ w ∈ ["int", "long", "float", "double", "string", "base64", "type", "value", "new", "do", "let", "set", "attr", "path", "to", "cell", "pool", "init", "if", "then", "else",
    "cond", "while", "until", "for", "step", "foreach", "in", "forkey", "forval", "cast", "cases", "partial", "upcast", "as", "ifnotnull", "doc", "error", "log", "params", "ret", "fcn"],
    (∃ s ∈ specialForms, lower s = w) ∧ w ∈ PyDict.keys kinds := by decide +kernel

/-- **C100.**  With line numbers, what a form says at "@" is the line of the code; without them there is no "@". -/
theorem form_lines (st : State) (l : Nat) (d : List (String × Val)) :
    form { st with lineNumbers := true } l d = .dict (("@", .str ("Python line " ++ toString l)) :: d) ∧ form { st with lineNumbers := false } l d = .dict d := by simp [form]

/-- **C100.**  A function is its parameters, its result and its statements. -/
theorem fcn_parts {params ret : Val} {st : State} {w : Bool} {ss : List Stmt} {v : Val} (h : pfa { st with symbols := [] } w ss = .ok v) :
    fcn params ret st w ss = .ok (.dict [("params", params), ("ret", ret), ("do", v)]) := by simp [fcn, h]

/-- **C100.**  One statement is not a list, unless a list is wanted. -/
theorem pfa_list {st : State} {ss : List Stmt} {vs : List Val} (h : statements st ss = .ok vs) :
    pfa st true ss = .ok (.arr vs) ∧ pfa st false ss = .ok (match vs with | [v] => v | vs => .arr vs) := by
  rcases vs with _ | ⟨v, _ | ⟨w, vs⟩⟩ <;> simp [pfa, h]

/-- **C100.**  What PFA has no word for is refused: shifts, the sign plus, other kinds of expressions, assignments to anything but names and to several targets, and declarations that are
mixed with changes. -/
theorem python_refused (st : State) (l : Nat) (a b : PyE) : expr st (.binOp l .lshift a b) = .error refuse ∧ expr st (.binOp l .rshift a b) = .error refuse ∧
    expr st (.unaryOp l .uadd a) = .error refuse ∧ expr st (.other l) = .error refuse ∧ statement st (.assign l [] a) = .error refuse ∧
    (∀ t t' ts, statement st (.assign l (t :: t' :: ts) a) = .error refuse) ∧ (∀ x i, statement st (.assign l [.attribute l x i] a) = .error refuse) ∧
    (∀ x i, statement st (.assign l [.subscript l x i] a) = .error refuse) ∧ (∀ m n, m > 0 → n > 0 → letSet m n = .error refuse) := by
  refine ⟨by simp [expr, binName], by simp [expr, binName], by simp [expr, unName], by simp [expr], rfl, fun t _ _ => by cases t <;> rfl, fun _ _ => rfl, fun _ _ => rfl, fun m n hm hn => ?_⟩
  unfold letSet
  rw [if_neg (by omega), if_neg (by omega)]

/-! ## Violations -/

/-- **C100, violation.**  Every statement that is no assignment, even an expression alone, is an AttributeError: `ast.Print` does not exist in Python 3. -/
theorem print_violation (st : State) (w : Bool) (ss : List Stmt) : pfa st w (.other :: ss) = .error (.py "AttributeError") := by simp [pfa, statements, statement]

/-- **C100, violation.**  A matrix product is an UnboundLocalError. -/
theorem matMult_violation (st : State) (l : Nat) (a b : PyE) : expr st (.binOp l .matMult a b) = .error unbound := by simp [expr, binName]

/-- **C100, violation.**  `a in b` and `a is b` are an AttributeError. -/
theorem in_violation {st : State} {l : Nat} {a b : PyE} {v : Val} (h : expr st b = .ok v) : expr st (.compare l a [.other] [b]) = .error (.py "AttributeError") := by
  simp [expr, exprs, compareForm, h, cmpName]

/-- **C100, violation.**  A slice, and in Python 3.9 every index, is a RecursionError. -/
theorem slice_violation (st : State) (l : Nat) (x : PyE) : expr st (.subscript l x none) = .error (.py "RecursionError") := by simp [expr]

/-- **C100, violation.**  A list with one string is read as that string. -/
theorem list_violation (st : State) (l l' : Nat) (s : String) : ∃ v, expr st (.list l [.str l' s]) = .ok v ∧ Rd v (.litString s) := by
  refine ⟨.arr [.str s], by simp [expr, literal, literals], ⟨1, fun n hn => ?_⟩⟩
  obtain ⟨n, rfl⟩ : ∃ i, n = i + 1 := ⟨n - 1, by omega⟩
  rfl

/-- **C100, violation.**  A call with a tuple is the call with its elements. -/
theorem tuple_call_violation (st : State) (l l' : Nat) (f a b : PyE) : expr st (.call l f [.tuple l' [a, b]] [] []) = expr st (.call l f [a, b] [] []) := by
  have e1 : ∀ n v w, callArgs n [.arr [v, w]] = .arr [v, w] := fun _ _ _ => rfl
  have e2 : ∀ n v w, callArgs n [v, w] = .arr [v, w] := by intro n v w; simp [callArgs]
  simp only [expr, exprs]
  cases expr st a <;> cases expr st b <;> simp [seqR, e1, e2]

/-- **C100, violation.**  `Negative` is converted to a name that is not that of the negation. -/
theorem negative_violation : callName "Negative" = "U-" ∧ meant "Negative" = "u-" := by
  have h1 : "Negative" ∉ specialForms := by decide +kernel
  have h2 : PyDict.get? coreLibrary "Negative" = some "U-" := by decide +kernel
  have h3 : PyDict.get? coreSigns "Negative" = some "u-" := by decide +kernel
  exact ⟨by simp [callName, lower, h1, h2], by simp [meant, h3]⟩

/-- **C100, violation.**  A cell without attribute or index is taken for a variable. -/
theorem bare_cell_violation {st : State} {l : Nat} {c : String} (hs : c ∉ PyDict.keys st.subs) (hv : c ∉ ["None", "True", "False"]) : expr st (.name l c) = .ok (.str c) := by
  simp only [List.mem_cons, List.not_mem_nil, or_false, not_or] at hv
  simp [expr, ident, (PyDict.get?_eq_none_iff st.subs c).2 hs, hv]

/-- **C100, violation.**  The middle of a chain is evaluated twice: `a < f() < b`. -/
theorem chain_twice_violation : Means {} (.compare 1 (.name 1 "a") [.lt, .lt] [.call 1 (.name 1 "f") [] [] [], .name 1 "b"])
    (.call "&&" [.call "<" [.ref "a", .call "f" []], .call "<" [.call "f" [], .ref "b"]]) := by
  have nm : ∀ id, validSymbol id = true → id ∉ ["None", "True", "False"] → Means {} (.name 1 id) (.ref id) := fun id h1 h2 => .name (by simp [PyDict.keys]) h1 h2
  have hf : Means {} (.call 1 (.name 1 "f") [] [] []) (.call "f" []) := .call (by simp [dotted]) ⟨by decide +kernel, by decide +kernel, by decide +kernel, by decide +kernel⟩ rfl (by simp)
  exact .compare (y := .call "f" []) (ys := [.ref "b"]) (s := "<") (ss := ["<"]) (nm "a" (by decide +kernel) (by decide +kernel)) rfl (by
    intro e z h
    simp only [List.zip_cons_cons, List.zip_nil_right, List.mem_cons, Prod.mk.injEq, List.not_mem_nil, or_false] at h
    rcases h with ⟨rfl, rfl⟩ | ⟨rfl, rfl⟩
    · exact hf
    · exact nm "b" (by decide +kernel) (by decide +kernel)) rfl rfl

/-- **C100, violation.**  `a, b = 1, 2, 3` is converted without the last value, although Python refuses it. -/
theorem unequal_violation : (statement { lineNumbers := false } (.assign 1 [.tuple 1 [.name 1 "a", .name 1 "b"]] (.tuple 1 [.num 1 (.int 1), .num 1 (.int 2), .num 1 (.int 3)]))).toOption.map Prod.fst =
    some (.dict [("let", .dict [("a", .int 1), ("b", .int 2)])]) := by
  simp [statement, idents, several, expr, letSet, form, PyDict.set, Except.toOption]

/-- `x.a["k"] * -2 + f(c.p, 1.5)`, where `c` is a cell. -/
def sampleCode : PyE :=
  .binOp 1 .add (.binOp 1 .mult (.subscript 1 (.attribute 1 (.name 1 "x") "a") (some (.str 1 "k"))) (.unaryOp 1 .usub (.num 1 (.int 2))))
    (.call 1 (.attribute 1 (.name 1 "m") "f") [.attribute 1 (.name 1 "c") "p", .num 1 (.flt (.fin (3 / 2)))] [] [])

/-- What it means. -/
theorem sampleCode_means : Means { cells := ["c"] } sampleCode
    (.call "+" [.call "*" [.attrGet (.ref "x") [.litString "a", .litString "k"], .call "u-" [.litInt (.int 2)]], .call "m.f" [.cellGet "c" [.litString "p"], .litDouble (.flt (.fin (3 / 2)))]]) := by
  refine .binOp rfl (.binOp rfl (.attr (ps := [.inl "a", .inr (.str 1 "k")]) rfl (by simp) (.name (by simp [PyDict.keys]) (by decide +kernel) (by decide +kernel)) ?_ rfl ?_ ?_) (.unaryOp rfl (.int (by decide))))
    (.call (name := "m.f") (by simp [dotted]) ⟨by decide +kernel, by decide +kernel, by decide +kernel, by decide +kernel⟩ rfl ?_)
  · intro l id h; cases h; decide +kernel
  · intro a z h; simp at h; rw [h.1, h.2]
  · intro i z h; simp at h; rw [h.1, h.2]; exact .str
  · intro e z h
    simp only [List.zip_cons_cons, List.zip_nil_right, List.mem_cons, Prod.mk.injEq, List.not_mem_nil, or_false] at h
    rcases h with ⟨rfl, rfl⟩ | ⟨rfl, rfl⟩
    · exact .cell (l := 1) (ps := [.inl "p"]) rfl (by simp) (by simp) rfl (by intro a z h; simp at h; rw [h.1, h.2]) (by simp)
    · exact .float

/-- It is converted to what it means. -/
example : Conv { cells := ["c"] } sampleCode
    (.call "+" [.call "*" [.attrGet (.ref "x") [.litString "a", .litString "k"], .call "u-" [.litInt (.int 2)]], .call "m.f" [.cellGet "c" [.litString "p"], .litDouble (.flt (.fin (3 / 2)))]]) :=
  python_means_partial sampleCode_means

/-- Values: integers with the functions of arithmetic; there are such meanings. -/
def intSem : Sem Int where
  lit | .int i => i | _ => 0
  str s := s.length
  var s := s.length
  call
    | "&&", [a, b] => if a ≠ 0 ∧ b ≠ 0 then 1 else 0
    | "||", [a, b] => if a ≠ 0 ∨ b ≠ 0 then 1 else 0
    | "==", [a, b] => if a = b then 1 else 0
    | "!=", [a, b] => if a ≠ b then 1 else 0
    | "<", [a, b] => if a < b then 1 else 0
    | "<=", [a, b] => if a ≤ b then 1 else 0
    | ">", [a, b] => if a > b then 1 else 0
    | ">=", [a, b] => if a ≥ b then 1 else 0
    | "+", [a, b] => a + b
    | _, _ => 0
  get a b := a + b
  cell s := s.length
  pool s := s.length
  bool b := if b then 1 else 0
  tt a := a ≠ 0

theorem intSem_laws : Laws intSem where
  tt_bool b := by cases b <;> rfl
  and a b := by simp [intSem]
  or a b := by simp [intSem]
  cmp op s a b h := by
    cases op <;> simp only [cmpSign, Option.some.injEq, reduceCtorEq] at h <;> subst h <;> simp [intSem]

end Verif.PyCode
