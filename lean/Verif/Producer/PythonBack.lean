import Verif.Producer.Python

/-!
# Python code as PFA: what it means (C100)
-/

namespace Verif.PyCode
open Avro Ast Reader

/-! ## Specification -/

/-- The PFA function with the sign that Python has for an operator. -/
def binSign : BinOp → Option String
  | .add => some "+" | .sub => some "-" | .mult => some "*" | .div => some "/" | .mod => some "%" | .pow => some "**" | .bitOr => some "|" | .bitXor => some "^" | .bitAnd => some "&"
  | .floorDiv => some "//" | .lshift | .rshift | .matMult => none

/-- The negation of numbers is `u-` in PFA, that of booleans `!`. -/
def unSign : UnOp → Option String
  | .invert => some "~" | .not_ => some "!" | .usub => some "u-" | .uadd => none

@[inherit_doc binSign] def cmpSign : CmpOp → Option String
  | .eq => some "==" | .notEq => some "!=" | .lt => some "<" | .ltE => some "<=" | .gt => some ">" | .gtE => some ">=" | .other => none

/-- Names for the functions of PFA whose names are no words. -/
def coreSigns : List (String × String) :=
  [("Plus", "+"), ("Minus", "-"), ("Times", "*"), ("Divide", "/"), ("FloorDivide", "//"), ("Negative", "u-"), ("Modulo", "%"), ("Remainder", "%%"), ("Pow", "**"),
   ("Comparison", "cmp"), ("Equal", "=="), ("GreaterOrEqual", ">="), ("GreaterThan", ">"), ("NotEqual", "!="), ("LessThan", "<"), ("LessOrEqual", "<="), ("Max", "max"), ("Min", "min"),
   ("And", "&&"), ("Or", "||"), ("XOr", "^^"), ("Not", "!"), ("BitwiseAnd", "&"), ("BitwiseOr", "|"), ("BitwiseXOr", "^"), ("BitwiseNot", "~")]

/-- `a op1 b op2 c …`: each value is compared with the next. -/
def neighbours : X → List String → List X → List X
  | x, s :: ss, y :: ys => .call s [x, y] :: neighbours y ss ys
  | _, _, _ => []

/-- Several values with a function of two. -/
def joined (sign : String) : X → List X → X
  | x, [] => x
  | x, y :: ys => joined sign (.call sign [x, y]) ys

/-- An expression with its attributes and indexes. -/
def spine : PyE → PyE × List (String ⊕ PyE)
  | .attribute _ x a => ((spine x).1, (spine x).2 ++ [.inl a])
  | .subscript _ x (some i) => ((spine x).1, (spine x).2 ++ [.inr i])
  | x => (x, [])

/-- Names that Python code means as functions of PFA: no keys of special forms. -/
structure FcnName (s : String) : Prop where
  lower : s ∉ specialForms
  core : s ∉ PyDict.keys coreLibrary
  kind : s ∉ PyDict.keys kinds
  at_ : s ≠ "@"

/-- The PFA expression that Python code means. -/
inductive Means (st : State) : PyE → X → Prop where
  | int {l i} (h : -2 ^ 31 ≤ i ∧ i ≤ 2 ^ 31 - 1) : Means st (.num l (.int i)) (.litInt (.int i))
  | long {l i} (h : ¬ (-2 ^ 31 ≤ i ∧ i ≤ 2 ^ 31 - 1)) (h' : -2 ^ 63 ≤ i ∧ i ≤ 2 ^ 63 - 1) : Means st (.num l (.int i)) (.litLong (.int i))
  | float {l f} : Means st (.num l (.flt f)) (.litDouble (.flt f))
  | str {l s} : Means st (.str l s) (.litString s)
  | name {l id} (hs : id ∉ PyDict.keys st.subs) (hv : validSymbol id = true) (hc : id ∉ ["None", "True", "False"]) : Means st (.name l id) (.ref id)
  | binOp {l op a b s x y} (hs : binSign op = some s) (ha : Means st a x) (hb : Means st b y) : Means st (.binOp l op a b) (.call s [x, y])
  | unaryOp {l op a s x} (hs : unSign op = some s) (ha : Means st a x) : Means st (.unaryOp l op a) (.call s [x])
  | ifExp {l t b o x y z} (ht : Means st t x) (hb : Means st b y) (ho : Means st o z) : Means st (.ifExp l t b o) (.if_ x [y] [z])
  | boolOp {l and vs x y xs} (hl : vs.length = (x :: y :: xs).length) (h : ∀ e z, (e, z) ∈ vs.zip (x :: y :: xs) → Means st e z) :
      Means st (.boolOp l and vs) (joined (if and then "&&" else "||") x (y :: xs))
  | compare {l left ops cs x y ys s ss} (hx : Means st left x) (hl : cs.length = (y :: ys).length) (h : ∀ e z, (e, z) ∈ cs.zip (y :: ys) → Means st e z)
      (hs : ops.map cmpSign = (s :: ss).map some) (hn : ss.length = ys.length) : Means st (.compare l left ops cs) (joined "&&" (.call s [x, y]) (neighbours y ss ys))
  | call {l f args name xs} (hf : dotted f = .ok name) (hn : FcnName name) (hl : args.length = xs.length) (h : ∀ e z, (e, z) ∈ args.zip xs → Means st e z) :
      Means st (.call l f args [] []) (.call name xs)
  | core {l f args name sign xs} (hf : dotted f = .ok name) (hn : (name, sign) ∈ coreSigns) (hw : name ≠ "Negative") (hl : args.length = xs.length) (h : ∀ e z, (e, z) ∈ args.zip xs → Means st e z) :
      Means st (.call l f args [] []) (.call sign xs)
  | attr {e b ps x xs} (hp : spine e = (b, ps)) (hne : ps ≠ []) (hb : Means st b x) (hc : ∀ l id, b = .name l id → id ∉ st.cells ∧ id ∉ st.pools) (hl : ps.length = xs.length)
      (ha : ∀ a z, (Sum.inl a, z) ∈ ps.zip xs → z = .litString a) (hi : ∀ i z, (Sum.inr i, z) ∈ ps.zip xs → Means st i z) : Means st e (.attrGet x xs)
  | cell {e l c ps xs} (hp : spine e = (.name l c, ps)) (hne : ps ≠ []) (hc : c ∈ st.cells) (hl : ps.length = xs.length)
      (ha : ∀ a z, (Sum.inl a, z) ∈ ps.zip xs → z = .litString a) (hi : ∀ i z, (Sum.inr i, z) ∈ ps.zip xs → Means st i z) : Means st e (.cellGet c xs)
  | pool {e l c ps xs} (hp : spine e = (.name l c, ps)) (hne : ps ≠ []) (hc : c ∉ st.cells) (hc' : c ∈ st.pools) (hl : ps.length = xs.length)
      (ha : ∀ a z, (Sum.inl a, z) ∈ ps.zip xs → z = .litString a) (hi : ∀ i z, (Sum.inr i, z) ∈ ps.zip xs → Means st i z) : Means st e (.poolGet c xs)

/-! ## Reading -/

/-- The reader makes `x` of the JSON `v`. -/
def Rd (v : Val) (x : X) : Prop := ∃ N, ∀ n, N ≤ n → readArg n v = .ok x

/-- Lists. -/
def Rds : List Val → List X → Prop
  | [], [] => True
  | v :: vs, x :: xs => Rd v x ∧ Rds vs xs
  | _, _ => False

theorem Rds.mapR : ∀ {vs : List Val} {xs : List X}, Rds vs xs → ∃ N, ∀ n, N ≤ n → Avro.mapR (readArg n) vs = .ok xs
  | [], [], _ => ⟨0, fun _ _ => rfl⟩
  | v :: vs, x :: xs, h => by
    obtain ⟨N, hN⟩ := h.1
    obtain ⟨M, hM⟩ := h.2.mapR
    exact ⟨max N M, fun n hn => by simp [Avro.mapR, hN n (by omega), hM n (by omega)]⟩
  | [], _ :: _, h => h.elim
  | _ :: _, [], h => h.elim

theorem Rds.mapE : ∀ {vs : List Val} {xs : List X}, Rds vs xs → xs.all isExpr = true → ∃ N, ∀ n, N ≤ n → Avro.mapR (readExpr (readArg n)) vs = .ok xs
  | [], [], _, _ => ⟨0, fun _ _ => rfl⟩
  | v :: vs, x :: xs, h, hx => by
    simp only [List.all_cons, Bool.and_eq_true] at hx
    obtain ⟨N, hN⟩ := h.1
    obtain ⟨M, hM⟩ := h.2.mapE hx.2
    exact ⟨max N M, fun n hn => by simp [Avro.mapR, readExpr, hN n (by omega), hM n (by omega), hx.1]⟩
  | [], _ :: _, h, _ => h.elim
  | _ :: _, [], h, _ => h.elim

theorem form_start (st : State) (l : Nat) (d : List (String × Val)) :
    form st l d = .dict (start (if st.lineNumbers then some ("Python line " ++ toString l) else none) ++ d) := by
  unfold form start
  cases st.lineNumbers <;> rfl

/-- What is needed of the words of functions. -/
structure Callable (n : String) : Prop where
  at_ : n ≠ "@"
  kind : n ∉ PyDict.keys kinds

theorem assemble_call {n : String} (h : Callable n) {xs : List X} (hx : xs.all isArg = true) : assemble [(n, .elist xs)] [n] = .ok (.call n xs) := by
  have hr : n ∉ reserved := fun h' => h.kind (reserved_sub h')
  have hk : ∀ k ∈ PyDict.keys kinds, n ≠ k := fun k hk e => h.kind (e ▸ hk)
  have ne1 : n ≠ "foreach" := hk _ (by decide +kernel)
  have ne2 : n ≠ "forkey" := hk _ (by decide +kernel)
  have ne3 : n ≠ "forval" := hk _ (by decide +kernel)
  have ne4 : n ≠ "fcn" := hk _ (by decide +kernel)
  simp [assemble, wrongName, PyDict.get?, ne1, ne2, ne3, ne4, formOf_other h.kind, hr, slot, Slot.elist?, mk, made, h.kind]
  simpa using hx

theorem rd_call {st : State} {l : Nat} {n : String} (h : Callable n) {vs : List Val} {xs : List X} (hv : Rds vs xs) (hx : xs.all isArg = true) :
    Rd (form st l [(n, .arr vs)]) (.call n xs) := by
  obtain ⟨N, hN⟩ := hv.mapR
  refine ⟨N + 1, fun m hm => ?_⟩
  obtain ⟨m, rfl⟩ : ∃ i, m = i + 1 := ⟨m - 1, by omega⟩
  rw [form_start]
  refine read_obj m _ _ (by simp [PyDict.keys, Ne.symm h.at_]) (ss := [(n, .elist xs)]) ?_ (assemble_call h hx)
  simp [readSlots, Avro.mapR, kindOf_other h.kind, readKind, hN m (by omega), Res.app]

theorem rd_call1 {st : State} {l : Nat} {n : String} (h : Callable n) {v : Val} {x : X} (hv : Rd v x) (hx : isArg x = true) (ha : ∀ vs, v ≠ .arr vs) :
    Rd (form st l [(n, v)]) (.call n [x]) := by
  obtain ⟨N, hN⟩ := hv
  refine ⟨N + 1, fun m hm => ?_⟩
  obtain ⟨m, rfl⟩ : ∃ i, m = i + 1 := ⟨m - 1, by omega⟩
  rw [form_start]
  refine read_obj m _ _ (by simp [PyDict.keys, Ne.symm h.at_]) (ss := [(n, .elist [x])]) ?_ (assemble_call h (by simp [hx]))
  have e : readKind (readArg m) .args v = .ok (.elist [x]) := by
    cases v with
    | arr vs => exact absurd rfl (ha vs)
    | _ => simp [readKind, hN m (by omega), Res.app]
  simp [readSlots, Avro.mapR, kindOf_other h.kind, e, Res.app]

theorem rd_if {st : State} {l : Nat} {a b c : Val} {x y z : X} (ha : Rd a x) (hb : Rd b y) (hc : Rd c z) (hx : isExpr x = true) (hy : isExpr y = true) (hz : isExpr z = true)
    (nb : ∀ vs, b ≠ .arr vs) (nc : ∀ vs, c ≠ .arr vs) : Rd (form st l [("if", a), ("then", b), ("else", c)]) (.if_ x [y] [z]) := by
  obtain ⟨N1, h1⟩ := ha
  obtain ⟨N2, h2⟩ := hb
  obtain ⟨N3, h3⟩ := hc
  refine ⟨max N1 (max N2 N3) + 1, fun m hm => ?_⟩
  obtain ⟨m, rfl⟩ : ∃ i, m = i + 1 := ⟨m - 1, by omega⟩
  rw [form_start]
  have body : ∀ (v : Val) (w : X), readArg m v = .ok w → isExpr w = true → (∀ vs, v ≠ .arr vs) → readBody (readArg m) v = .ok [w] := by
    intro v w h hw hn
    cases v with
    | arr vs => exact absurd rfl (hn vs)
    | _ => simp [readBody, readExpr, h, hw, Res.app]
  refine read_obj m _ _ (by simp [PyDict.keys]) (ss := [("if", .expr x), ("then", .elist [y]), ("else", .elist [z])]) ?_ ?_
  · simp [readSlots, Avro.mapR, show kindOf "if" = .expr from by decide +kernel, show kindOf "then" = .body from by decide +kernel, show kindOf "else" = .body from by decide +kernel, readKind,
      body b y (h2 m (by omega)) hy nb, body c z (h3 m (by omega)) hz nc, readExpr, h1 m (by omega), hx, Res.app]
  · have e : formOf (PyDict.keys [("if", a), ("then", b), ("else", c)]) = some .ifElse := by
      have : formOf ["if", "then", "else"] = some .ifElse := by decide +kernel
      exact this
    simp [assemble, wrongName, e, build, slot, mkElse, PyDict.get?, Slot.elist?, Slot.expr?, mk, made, hx, hy, hz]

theorem rd_path {st : State} {l : Nat} {vs : List Val} {xs : List X} (hv : Rds vs xs) (hx : xs.all isExpr = true) (hne : xs ≠ []) :
    (∀ v x, Rd v x → isExpr x = true → Rd (form st l [("attr", v), ("path", .arr vs)]) (.attrGet x xs)) ∧
    (∀ c, Rd (form st l [("cell", .str c), ("path", .arr vs)]) (.cellGet c xs)) ∧ (∀ c, Rd (form st l [("pool", .str c), ("path", .arr vs)]) (.poolGet c xs)) := by
  obtain ⟨N, hN⟩ := hv.mapE hx
  have kp : kindOf "path" = .elist := by decide +kernel
  refine ⟨fun v x ⟨M, hM⟩ he => ⟨max N M + 1, fun m hm => ?_⟩, fun c => ⟨N + 1, fun m hm => ?_⟩, fun c => ⟨N + 1, fun m hm => ?_⟩⟩
  all_goals
    obtain ⟨m, rfl⟩ : ∃ i, m = i + 1 := ⟨m - 1, by omega⟩
    rw [form_start]
  · refine read_obj m _ _ (by simp [PyDict.keys]) (ss := [("attr", .expr x), ("path", .elist xs)]) ?_ ?_
    · simp [readSlots, Avro.mapR, kp, show kindOf "attr" = .expr from by decide +kernel, readKind, readExpr, readList, hM m (by omega), hN m (by omega), he, Res.app]
    · have e : formOf (PyDict.keys [("attr", v), ("path", .arr vs)]) = some .attr := by
        have : formOf ["attr", "path"] = some .attr := by decide +kernel
        exact this
      simp [assemble, wrongName, e, build, slot, PyDict.get?, Slot.elist?, Slot.expr?, Slot.str?, mk, made, he, hne]
      simpa using hx
  · refine read_obj m _ _ (by simp [PyDict.keys]) (ss := [("cell", .str c), ("path", .elist xs)]) ?_ ?_
    · simp [readSlots, Avro.mapR, kp, show kindOf "cell" = .string from by decide +kernel, readKind, readString, readList, hN m (by omega), Res.app]
    · have e : formOf (PyDict.keys [("cell", Val.str c), ("path", .arr vs)]) = some .cellPath := by
        have : formOf ["cell", "path"] = some .cellPath := by decide +kernel
        exact this
      simp [assemble, wrongName, e, build, slot, PyDict.get?, Slot.elist?, Slot.str?, mk, made]
      simpa using hx
  · refine read_obj m _ _ (by simp [PyDict.keys]) (ss := [("pool", .str c), ("path", .elist xs)]) ?_ ?_
    · simp [readSlots, Avro.mapR, kp, show kindOf "pool" = .string from by decide +kernel, readKind, readString, readList, hN m (by omega), Res.app]
    · have e : formOf (PyDict.keys [("pool", Val.str c), ("path", .arr vs)]) = some .pool := by
        have : formOf ["pool", "path"] = some .pool := by decide +kernel
        exact this
      simp [assemble, wrongName, e, build, slot, PyDict.get?, Slot.elist?, Slot.str?, mk, made, hne]
      simpa using hx

theorem rd_string (s : String) : Rd (.dict [("string", .str s)]) (.litString s) := by
  refine ⟨1, fun m hm => ?_⟩
  obtain ⟨m, rfl⟩ : ∃ i, m = i + 1 := ⟨m - 1, by omega⟩
  refine read_obj m none [("string", .str s)] (by simp [PyDict.keys]) (ss := [("string", .str s)]) ?_ ?_
  · simp [readSlots, Avro.mapR, show kindOf "string" = .string from by decide +kernel, readKind, readString, Res.app]
  · simp [assemble, wrongName, show formOf (PyDict.keys [("string", Val.str s)]) = some .string from (by decide +kernel : formOf ["string"] = some .string), build, slot, PyDict.get?, Slot.str?, mk,
      made]

/-! ## Conversion -/

/-- The code is converted to JSON that is read as `x`. -/
def Conv (st : State) (e : PyE) (x : X) : Prop := ∃ v, expr st e = .ok v ∧ Rd v x ∧ isExpr x = true ∧ ∀ vs, v ≠ .arr vs

theorem form_ne (st : State) (l : Nat) (d : List (String × Val)) (vs : List Val) : form st l d ≠ .arr vs := by
  unfold form; split <;> simp

theorem convs {st : State} : ∀ {es : List PyE} {xs : List X}, es.length = xs.length → (∀ e z, (e, z) ∈ es.zip xs → Conv st e z) →
    ∃ vs, seqR (exprs st es) = .ok vs ∧ exprs st es = vs.map .ok ∧ Rds vs xs ∧ xs.all isExpr = true ∧ vs.length = xs.length ∧ ∀ v ∈ vs, ∀ l, v ≠ .arr l
  | [], [], _, _ => ⟨[], by simp [exprs, seqR], by simp [exprs], trivial, rfl, rfl, by simp⟩
  | e :: es, x :: xs, hl, h => by
    obtain ⟨v, h1, h2, h3, h4⟩ := h e x (by simp)
    obtain ⟨vs, k1, k0, k2, k3, k5, k4⟩ := convs (es := es) (xs := xs) (by simpa using hl) (fun e z hz => h e z (by simp [hz]))
    refine ⟨v :: vs, by simp [exprs, seqR, h1, k1], by simp [exprs, h1, k0], ⟨h2, k2⟩, by simp [h3]; simpa using k3, by simp [k5], ?_⟩
    intro w hw
    rcases List.mem_cons.1 hw with rfl | hw
    · exact h4
    · exact k4 w hw
  | [], _ :: _, hl, _ => by simp at hl
  | _ :: _, [], hl, _ => by simp at hl

theorem args_of_exprs {xs : List X} (h : xs.all isExpr = true) : xs.all isArg = true := by
  simp only [List.all_eq_true] at h ⊢
  exact fun x hx => isArg_of_isExpr (h x hx)

theorem callable_bin {op : BinOp} {s : String} (h : binSign op = some s) : Callable s ∧ binName op = .ok s := by
  cases op <;> simp only [binSign, Option.some.injEq, reduceCtorEq] at h <;> subst h <;> exact ⟨⟨by decide +kernel, by decide +kernel⟩, rfl⟩

theorem callable_un {op : UnOp} {s : String} (h : unSign op = some s) : Callable s ∧ unName op = .ok s := by
  cases op <;> simp only [unSign, Option.some.injEq, reduceCtorEq] at h <;> subst h <;> exact ⟨⟨by decide +kernel, by decide +kernel⟩, rfl⟩

theorem callable_cmp {op : CmpOp} {s : String} (h : cmpSign op = some s) : Callable s ∧ cmpName op = .ok s := by
  cases op <;> simp only [cmpSign, Option.some.injEq, reduceCtorEq] at h <;> subst h <;> exact ⟨⟨by decide +kernel, by decide +kernel⟩, rfl⟩

theorem callable_core : ∀ p ∈ coreSigns, p.1 ≠ "Negative" → Callable p.2 ∧ callName p.1 = p.2 ∧ p.2 ∉ wantsString := by
  have : ∀ p ∈ coreSigns, p.1 ≠ "Negative" → (p.2 ≠ "@" ∧ p.2 ∉ PyDict.keys kinds) ∧ callName p.1 = p.2 ∧ p.2 ∉ wantsString := by
    have h : ∀ p ∈ coreSigns, p.1 ≠ "Negative" → (p.2 ≠ "@" ∧ p.2 ∉ PyDict.keys kinds) ∧ p.1 ∉ specialForms ∧ PyDict.get? coreLibrary p.1 = some p.2 ∧ p.2 ∉ wantsString := by decide +kernel
    intro p hp hw
    obtain ⟨h1, h2, h3, h4⟩ := h p hp hw
    exact ⟨h1, by simp [callName, lower, h2, h3], h4⟩
  exact fun p hp hw => ⟨⟨(this p hp hw).1.1, (this p hp hw).1.2⟩, (this p hp hw).2⟩

theorem and_callable (b : Bool) : Callable (if b then "&&" else "||") := by cases b <;> exact ⟨by decide +kernel, by decide +kernel⟩

theorem wants_kinds {n : String} (h : n ∉ PyDict.keys kinds) : n ∉ wantsString := by
  have : ∀ n ∈ wantsString, n ∈ PyDict.keys kinds := by decide +kernel
  exact fun h' => h (this n h')

theorem callArgs_ok {st : State} {l : Nat} {n : String} (hc : Callable n) {vs : List Val} {xs : List X} (hr : Rds vs xs) (hx : xs.all isExpr = true)
    (ha : ∀ v ∈ vs, ∀ l, v ≠ .arr l) : Rd (form st l [(n, callArgs n vs)]) (.call n xs) := by
  have hw := wants_kinds hc.kind
  match vs, xs, hr with
  | [], [], _ => exact rd_call hc trivial rfl
  | [v], [x], hr =>
    have e : callArgs n [v] = v := by
      unfold callArgs
      split
      · next h => rw [List.cons.injEq] at h; simp [hw, h.1]
      · next h => rw [List.cons.injEq] at h; exact h.1.symm
      · next h1 h2 => exact absurd rfl (h2 v)
    rw [e]
    simp only [List.all_cons, List.all_nil, Bool.and_true] at hx
    exact rd_call1 hc hr.1 (isArg_of_isExpr hx) (ha v (by simp))
  | a :: b :: vs, xs, hr =>
    have e : callArgs n (a :: b :: vs) = .arr (a :: b :: vs) := by simp [callArgs]
    rw [e]
    exact rd_call hc hr (args_of_exprs hx)

theorem bool_ok {st : State} {l : Nat} {s : String} (hc : Callable s) : ∀ {vs : List Val} {xs : List X} {v : Val} {x : X}, Rd v x → isExpr x = true → (∀ l, v ≠ .arr l) → Rds vs xs →
    xs.all isExpr = true → Rd (vs.foldl (fun out v => form st l [(s, .arr [out, v])]) v) (joined s x xs) ∧ isExpr (joined s x xs) = true ∧
      ∀ ws, vs.foldl (fun out v => form st l [(s, .arr [out, v])]) v ≠ .arr ws
  | [], [], v, x, h, he, hn, _, _ => ⟨h, he, hn⟩
  | w :: vs, y :: xs, v, x, h, he, _, hr, hx => by
    simp only [List.all_cons, Bool.and_eq_true] at hx
    simp only [List.foldl_cons, joined]
    exact bool_ok hc (rd_call hc ⟨h, hr.1, trivial⟩ (by simp [isArg_of_isExpr he, isArg_of_isExpr hx.1])) rfl (form_ne _ _ _) hr.2 hx.2
  | [], _ :: _, _, _, _, _, _, hr, _ => hr.elim
  | _ :: _, [], _, _, _, _, _, hr, _ => hr.elim

theorem chain_ok {st : State} {l : Nat} : ∀ {ops : List CmpOp} {ss : List String} {vs : List Val} {ys : List X} {out last : Val} {x y : X}, ops.map cmpSign = ss.map some →
    ss.length = ys.length → Rd out x → isExpr x = true → (∀ l, out ≠ .arr l) → Rd last y → isExpr y = true → Rds vs ys → ys.all isExpr = true →
    ∃ w, chain st l out last ops (vs.map .ok) = .ok w ∧ Rd w (joined "&&" x (neighbours y ss ys)) ∧ isExpr (joined "&&" x (neighbours y ss ys)) = true ∧ ∀ l, w ≠ .arr l
  | [], [], [], [], out, last, x, y, _, _, h, he, hn, _, _, _, _ => ⟨out, rfl, h, he, hn⟩
  | op :: ops, s :: ss, v :: vs, z :: ys, out, last, x, y, hs, hl, h, he, hn, h', he', hr, hx => by
    simp only [List.map_cons, List.cons.injEq] at hs
    simp only [List.all_cons, Bool.and_eq_true] at hx
    obtain ⟨hc, hname⟩ := callable_cmp hs.1
    have h1 : Rd (form st l [(s, .arr [last, v])]) (.call s [y, z]) := rd_call hc ⟨h', hr.1, trivial⟩ (by simp [isArg_of_isExpr he', isArg_of_isExpr hx.1])
    have h2 : Rd (form st l [("&&", .arr [out, form st l [(s, .arr [last, v])]])]) (.call "&&" [x, .call s [y, z]]) :=
      rd_call (and_callable true) ⟨h, h1, trivial⟩ (by simp [isArg_of_isExpr he, show isArg (E.call s [y, z]) = true from rfl])
    simp only [List.map_cons, chain, hname, neighbours, joined]
    exact chain_ok hs.2 (by simpa using hl) h2 rfl (form_ne _ _ _) hr.1 hx.1 hr.2 hx.2
  | [], _ :: _, _, _, _, _, _, _, hs, _, _, _, _, _, _, _, _ => by simp at hs
  | _ :: _, [], _, _, _, _, _, _, hs, _, _, _, _, _, _, _, _ => by simp at hs
  | _, [], _, _ :: _, _, _, _, _, _, hl, _, _, _, _, _, _, _ => by simp at hl
  | _, _ :: _, _, [], _, _, _, _, _, hl, _, _, _, _, _, _, _ => by simp at hl
  | _, _, [], _ :: _, _, _, _, _, _, _, _, _, _, _, _, hr, _ => hr.elim
  | _, _, _ :: _, [], _, _, _, _, _, _, _, _, _, _, _, hr, _ => hr.elim

/-- The JSON of an attribute or index. -/
def stepVal (st : State) : String ⊕ PyE → Res Val
  | .inl a => .ok (.dict [("string", .str a)])
  | .inr i => expr st i

theorem seqR_append {α : Type} : ∀ {rs : List (Res α)} {r : Res α} {as : List α}, seqR (rs ++ [r]) = .ok as → ∃ bs b, as = bs ++ [b] ∧ seqR rs = .ok bs ∧ r = .ok b
  | [], r, as, h => by
    cases r with
    | error e => simp [seqR] at h
    | ok a => simp [seqR] at h; exact ⟨[], a, by simp [← h], rfl, rfl⟩
  | r' :: rs, r, as, h => by
    cases r' with
    | error e => simp [seqR] at h
    | ok a =>
      simp only [List.cons_append, seqR] at h
      cases h' : seqR (rs ++ [r]) with
      | error e => simp [h'] at h
      | ok as' =>
        simp only [h', Except.ok.injEq] at h
        obtain ⟨bs, b, e1, e2, e3⟩ := seqR_append h'
        exact ⟨a :: bs, b, by simp [← h, e1], by simp [seqR, e2], e3⟩

theorem unfold_spine {st : State} : ∀ (e : PyE) (path vs : List Val), seqR ((spine e).2.map (stepVal st)) = .ok vs →
    unfold st e path = base st (spine e).1 (expr st (spine e).1) (vs ++ path)
  | .attribute l x a, path, vs, h => by
    simp only [spine, List.map_append, List.map_cons, List.map_nil] at h
    obtain ⟨bs, b, rfl, h1, h2⟩ := seqR_append h
    simp only [stepVal, Except.ok.injEq] at h2
    rw [unfold, unfold_spine x _ bs h1, ← h2]
    simp [spine]
  | .subscript l x (some i), path, vs, h => by
    simp only [spine, List.map_append, List.map_cons, List.map_nil] at h
    obtain ⟨bs, b, rfl, h1, h2⟩ := seqR_append h
    simp only [stepVal] at h2
    rw [unfold, h2]
    simp only
    rw [unfold_spine x _ bs h1]
    simp [spine]
  | .subscript _ _ none, path, vs, h | .boolOp _ _ _, path, vs, h | .binOp _ _ _ _, path, vs, h | .unaryOp _ _ _, path, vs, h | .ifExp _ _ _ _, path, vs, h | .dict _ _ _, path, vs, h
  | .compare _ _ _ _, path, vs, h | .call _ _ _ _ _, path, vs, h | .num _ _, path, vs, h | .str _ _, path, vs, h | .name _ _, path, vs, h | .list _ _, path, vs, h | .tuple _ _, path, vs, h
  | .other _, path, vs, h => by simp [spine, seqR] at h; subst h; simp [spine, unfold]

theorem expr_spine {st : State} {e : PyE} (hne : (spine e).2 ≠ []) {vs : List Val} (h : seqR ((spine e).2.map (stepVal st)) = .ok vs) :
    expr st e = base st (spine e).1 (expr st (spine e).1) vs := by
  rw [← List.append_nil vs, ← unfold_spine e [] vs h]
  cases e with
  | subscript l x i => cases i with
    | none => simp [spine] at hne
    | some i => simp [expr, unfold]
  | «attribute» l x a => simp [expr, unfold]
  | _ => simp [spine] at hne

theorem steps {st : State} : ∀ {ps : List (String ⊕ PyE)} {xs : List X}, ps.length = xs.length → (∀ a z, (Sum.inl a, z) ∈ ps.zip xs → z = .litString a) →
    (∀ i z, (Sum.inr i, z) ∈ ps.zip xs → Conv st i z) → ∃ vs, seqR (ps.map (stepVal st)) = .ok vs ∧ Rds vs xs ∧ xs.all isExpr = true
  | [], [], _, _, _ => ⟨[], rfl, trivial, rfl⟩
  | p :: ps, x :: xs, hl, ha, hi => by
    obtain ⟨vs, h1, h2, h3⟩ := steps (st := st) (ps := ps) (xs := xs) (by simpa using hl) (fun a z h => ha a z (by simp [h])) (fun i z h => hi i z (by simp [h]))
    cases p with
    | inl a =>
      have := ha a x (by simp)
      subst this
      exact ⟨.dict [("string", .str a)] :: vs, by simp [seqR, stepVal, h1], ⟨rd_string a, h2⟩, by simpa [isExpr] using h3⟩
    | inr i =>
      obtain ⟨v, k1, k2, k3, _⟩ := hi i x (by simp)
      exact ⟨v :: vs, by simp [seqR, stepVal, h1, k1], ⟨k2, h2⟩, by simpa [k3] using h3⟩
  | [], _ :: _, hl, _, _ => by simp at hl
  | _ :: _, [], hl, _, _ => by simp at hl

/-- **C100.**  Python code is converted to JSON that the reader of PFA reads as the expression that it means. -/
theorem python_means_partial {st : State} {e : PyE} {x : X} (h : Means st e x) : Conv st e x := by
  have rd1 : ∀ {v : Val} {x : X}, (∀ n, readArg (n + 1) v = .ok x) → Rd v x :=
    fun h2 => ⟨1, fun n hn => by obtain ⟨n, rfl⟩ : ∃ i, n = i + 1 := ⟨n - 1, by omega⟩; exact h2 n⟩
  induction h with
  | @int l i h => exact ⟨.int i, by rw [expr], rd1 fun n => by simp only [readArg, readStep, if_pos h]; rfl, rfl, by simp⟩
  | @long l i h h' => exact ⟨.int i, by rw [expr], rd1 fun n => by simp only [readArg, readStep, if_neg h, if_pos h']; rfl, rfl, by simp⟩
  | @float l f => exact ⟨.flt f, by rw [expr], rd1 fun n => rfl, rfl, by simp⟩
  | @str l s => exact ⟨_, by rw [expr], rd_string s, rfl, by simp⟩
  | @name l id hs hv hc =>
    simp only [List.mem_cons, List.not_mem_nil, or_false, not_or] at hc
    exact ⟨.str id, by simp [expr, ident, (PyDict.get?_eq_none_iff st.subs id).2 hs, hc], rd1 fun n => by simp [readArg, readStep, readRef, validSymbol_noDot hv, hv, mk, made], rfl, by simp⟩
  | @binOp l op a b s x y hs _ _ iha ihb =>
    obtain ⟨v, h1, h2, h3, h4⟩ := iha
    obtain ⟨w, k1, k2, k3, k4⟩ := ihb
    obtain ⟨hc, hn⟩ := callable_bin hs
    exact ⟨form st l [(s, .arr [v, w])], by simp only [expr, hn, h1, k1], rd_call hc ⟨h2, k2, trivial⟩ (by simp [isArg_of_isExpr h3, isArg_of_isExpr k3]), rfl, form_ne _ _ _⟩
  | @unaryOp l op a s x hs _ iha =>
    obtain ⟨v, h1, h2, h3, h4⟩ := iha
    obtain ⟨hc, hn⟩ := callable_un hs
    exact ⟨form st l [(s, v)], by simp only [expr, hn, h1], rd_call1 hc h2 (isArg_of_isExpr h3) h4, rfl, form_ne _ _ _⟩
  | @ifExp l _ _ _ _ _ _ _ _ _ iht ihb iho =>
    obtain ⟨v, h1, h2, h3, h4⟩ := iht
    obtain ⟨w, k1, k2, k3, k4⟩ := ihb
    obtain ⟨u, l1, l2, l3, l4⟩ := iho
    exact ⟨form st l [("if", v), ("then", w), ("else", u)], by simp only [expr, h1, k1, l1], rd_if h2 k2 l2 h3 k3 l3 k4 l4, rfl, form_ne _ _ _⟩
  | @boolOp l and vs x y xs hl h ih =>
    obtain ⟨ws, h1, _, h2, h3, h5, h4⟩ := convs hl ih
    match ws, h2, h5, h4 with
    | a :: b :: ws, h2, h5, h4 =>
      simp only [List.all_cons, Bool.and_eq_true] at h3
      have hc := and_callable and
      have h0 : Rd (form st l [(if and then "&&" else "||", .arr [a, b])]) (.call (if and then "&&" else "||") [x, y]) :=
        rd_call hc ⟨h2.1, h2.2.1, trivial⟩ (by simp [isArg_of_isExpr h3.1, isArg_of_isExpr h3.2.1])
      obtain ⟨k1, k2, k3⟩ := bool_ok (st := st) (l := l) hc h0 rfl (form_ne _ _ _) h2.2.2 h3.2.2
      exact ⟨_, by simp only [expr, h1, boolForm], by simpa only [joined] using k1, by simpa only [joined] using k2, k3⟩
  | @compare l left ops cs x y ys s ss hx hl h hs hn ihx ih =>
    obtain ⟨v, l1, l2, l3, _⟩ := ihx
    obtain ⟨ws, _, h1, h2, h3, h5, h4⟩ := convs hl ih
    match ops, ws, h2, h5, h4, hs with
    | op :: ops, b :: ws, h2, h5, h4, hs =>
      simp only [List.map_cons, List.cons.injEq] at hs
      simp only [List.all_cons, Bool.and_eq_true] at h3
      obtain ⟨hc, hname⟩ := callable_cmp hs.1
      have h0 : Rd (form st l [(s, .arr [v, b])]) (.call s [x, y]) := rd_call hc ⟨l2, h2.1, trivial⟩ (by simp [isArg_of_isExpr l3, isArg_of_isExpr h3.1])
      obtain ⟨w, k1, k2, k3, k4⟩ := chain_ok (st := st) (l := l) hs.2 hn h0 rfl (form_ne _ _ _) h2.1 h3.1 h2.2 h3.2
      exact ⟨w, by simp only [expr, h1, List.map_cons, compareForm, hname, l1, k1], k2, k3, k4⟩
  | @call l f args name xs hf hn hl h ih =>
    obtain ⟨vs, h1, _, h2, h3, h5, h4⟩ := convs hl ih
    have e : callName name = name := by simp [callName, lower, hn.lower, (PyDict.get?_eq_none_iff coreLibrary name).2 hn.core]
    exact ⟨form st l [(name, callArgs name vs)], by simp only [expr, hf, h1, e, exprs, keywords], callArgs_ok ⟨hn.at_, hn.kind⟩ h2 h3 h4, rfl, form_ne _ _ _⟩
  | @core l f args name sign xs hf hn hw hl h ih =>
    obtain ⟨vs, h1, _, h2, h3, h5, h4⟩ := convs hl ih
    obtain ⟨hc, e, _⟩ := callable_core _ hn hw
    simp only at e hc
    exact ⟨form st l [(sign, callArgs sign vs)], by simp only [expr, hf, h1, e, exprs, keywords], callArgs_ok hc h2 h3 h4, rfl, form_ne _ _ _⟩
  | @attr e b ps x xs hp hne hb hc hl ha hi ihb ihi =>
    obtain ⟨vs, h1, h2, h3⟩ := steps hl ha ihi
    obtain ⟨v, k1, k2, k3, _⟩ := ihb
    have hne' : xs ≠ [] := by rintro rfl; exact hne (by simpa using hl)
    have e1 := expr_spine (st := st) (e := e) (by rw [hp]; exact hne) (by rw [hp]; exact h1)
    rw [hp] at e1
    simp only [k1] at e1
    have e2 : ∃ l, expr st e = .ok (form st l [("attr", v), ("path", .arr vs)]) := by
      rw [e1]
      cases b with
      | name l id => exact ⟨l, by simp [base, hc l id rfl]⟩
      | _ => exact ⟨_, rfl⟩
    obtain ⟨l, e2⟩ := e2
    exact ⟨_, e2, (rd_path h2 h3 hne').1 v x k2 k3, rfl, form_ne _ _ _⟩
  | @cell e l c ps xs hp hne hc hl ha hi ihi =>
    obtain ⟨vs, h1, h2, h3⟩ := steps hl ha ihi
    have hne' : xs ≠ [] := by rintro rfl; exact hne (by simpa using hl)
    have e1 := expr_spine (st := st) (e := e) (by rw [hp]; exact hne) (by rw [hp]; exact h1)
    rw [hp] at e1
    simp only [base, hc, if_true] at e1
    exact ⟨_, e1, (rd_path h2 h3 hne').2.1 c, rfl, form_ne _ _ _⟩
  | @pool e l c ps xs hp hne hc hc' hl ha hi ihi =>
    obtain ⟨vs, h1, h2, h3⟩ := steps hl ha ihi
    have hne' : xs ≠ [] := by rintro rfl; exact hne (by simpa using hl)
    have e1 := expr_spine (st := st) (e := e) (by rw [hp]; exact hne) (by rw [hp]; exact h1)
    rw [hp] at e1
    simp only [base, hc, hc', if_true, if_false] at e1
    exact ⟨_, e1, (rd_path h2 h3 hne').2.2 c, rfl, form_ne _ _ _⟩

end Verif.PyCode
