import Verif.Avro.Basic
import Verif.Cart.Model
import Verif.Arith.Model
import Verif.Lib.Round
import Std.Data.String.ToNat
/-!
# Transformations: fields, substitution and the numpy form (C93)

Models `titus/producer/transformation.py` (`Transformation.findFields` 95-112, `replace` 114-133, `toNumpyExpr` 135-159, `__init__` 161-189,
`transform` 191-242, `new` 261-300, `let` 302-317, `expr` 319-337).

Parsing of PrettyPFA is not modelled: an expression is given as its tree.  Numpy functions are total functions on elements, applied
elementwise; numbers and their types are an arbitrary type `D`.
-/

namespace Verif.Producer.Transform
open Avro

/-! ## Expressions -/

/-- The expressions that a transformation can hold (pfaast.py 1901 `Call`, 2032 `Ref`, 2088-2472 literals); `other` is any other node
with its JSON. -/
inductive Ex where
  | ref (s : String)
  | call (f : String) (args : List Ex)
  | null
  | bool (b : Bool)
  | int (n : Int)
  | long (n : Int)
  | float (q : Flt)
  | double (q : Flt)
  | str (s : String)
  | other (v : Val)

mutual
/-- `jsonNode(False, set())` (pfaast.py 2013-2025 and the like). -/
def json : Ex → Val
  | .ref s => .str s
  | .call f args => .dict [(f, .arr (jsonL args))]
  | .null => .null
  | .bool b => .bool b
  | .int n => .int n
  | .long n => .dict [("long", .int n)]
  | .float q => .dict [("float", .flt q)]
  | .double q => .flt q
  | .str s => .dict [("string", .str s)]
  | .other v => v
def jsonL : List Ex → List Val
  | [] => []
  | e :: l => json e :: jsonL l
end

/-! ## Model -/

mutual
/-- `Transformation.findFields` (transformation.py 95-112). -/
def findFields : Val → List String
  | .dict d => findFieldsD d
  | .arr xs => findFieldsL xs
  | .str s => [s]
  | _ => []
def findFieldsD : List (String × Val) → List String
  | [] => []
  | (k, v) :: d => (if k ≠ "@" then findFields v else []) ++ findFieldsD d
def findFieldsL : List Val → List String
  | [] => []
  | x :: xs => findFields x ++ findFieldsL xs
end

mutual
/-- `Transformation.replace` (114-133). -/
def replace (subs : String → Option Val) : Val → Val
  | .dict d => .dict (replaceD subs d)
  | .arr xs => .arr (replaceL subs xs)
  | .str s => match subs s with
    | some v => v
    | none => .str s
  | v => v
def replaceD (subs : String → Option Val) : List (String × Val) → List (String × Val)
  | [] => []
  | (k, v) :: d => (k, replace subs v) :: replaceD subs d
def replaceL (subs : String → Option Val) : List Val → List Val
  | [] => []
  | x :: xs => replace subs x :: replaceL subs xs
end

/-- `Transformation.constants` (43-46). -/
def constants : List (String × String) := [("m.pi", "math.pi"), ("m.e", "math.e")]

/-- `Transformation.functions` (48-91). -/
def functions : List (String × String) :=
  [("+", "numpy.add"), ("-", "numpy.subtract"), ("*", "numpy.multiply"), ("/", "numpy.true_divide"), ("u-", "numpy.negative"),
   ("**", "numpy.power"), ("%", "numpy.mod"), ("%%", "numpy.remainder"), ("==", "numpy.equal"), ("!=", "numpy.not_equal"),
   (">", "numpy.greater"), (">=", "numpy.greater_equal"), ("<", "numpy.less"), ("<=", "numpy.less_equal"),
   ("&&", "numpy.logical_and"), ("||", "numpy.logical_or"), ("^^", "numpy.logical_xor"), ("!", "numpy.logical_not"),
   ("m.abs", "numpy.absolute"), ("m.acos", "numpy.arccos"), ("m.asin", "numpy.arcsin"), ("m.atan", "numpy.arctan"),
   ("m.atan2", "numpy.arctan2"), ("m.ceil", "numpy.ceil"), ("m.copysign", "numpy.copysign"), ("m.cos", "numpy.cos"),
   ("m.cosh", "numpy.cosh"), ("m.exp", "numpy.exp"), ("m.expm1", "numpy.expm1"), ("m.floor", "numpy.floor"),
   ("m.hypot", "numpy.hypot"), ("m.ln", "numpy.log"), ("m.log10", "numpy.log10"), ("m.round", "numpy.round"),
   ("m.rint", "numpy.rint"), ("m.sin", "numpy.sin"), ("m.sinh", "numpy.sinh"), ("m.sqrt", "numpy.sqrt"), ("m.tan", "numpy.tan"),
   ("m.tanh", "numpy.tanh")]

/-- The numpy code, as a tree. -/
inductive NEx where
  | const (s : String)
  | app (f : String) (args : List NEx)
  | name (s : String)
  | lit (e : Ex)

/-- The first test of `toNumpyExpr` (145-146). -/
def constOf (f : String) (args : List Ex) : Option String :=
  if args.length = 0 then PyDict.get? constants f else none

mutual
/-- `Transformation.toNumpyExpr` (135-159).  For null it gives a float, and putting it into the text of the code raises TypeError. -/
def toNumpy : Ex → Res NEx
  | .call f args => match constOf f args with
    | some c => .ok (.const c)
    | none => match PyDict.get? functions f with
      | some g => match toNumpyL args with
        | .error e => .error e
        | .ok l => .ok (.app g l)
      | none => .error (.py "ValueError")
  | .ref s => .ok (.name s)
  | .null => .error (.py "TypeError")
  | .other _ => .error (.py "ValueError")
  | e => .ok (.lit e)
def toNumpyL : List Ex → Res (List NEx)
  | [] => .ok []
  | e :: l => match toNumpy e with
    | .error e => .error e
    | .ok x => match toNumpyL l with
      | .error e => .error e
      | .ok xs => .ok (x :: xs)
end

/-- `"_%d" % i`. -/
def underscore (i : Nat) : String := "_" ++ toString i

/-- `self.order` (176-180): `insert(i, key)` for each of the positional expressions. -/
def order (indexed : List Ex) (named : List (String × Ex)) : List String :=
  (List.range indexed.length).foldl (fun o i => o.insertIdx i (underscore i))
    ((named.map Prod.fst).insertionSort (fun a b => Cart.strLe a b = true))

/-- `self.exprs` (175-179). -/
def exprs (indexed : List Ex) (named : List (String × Ex)) : List (String × Ex) :=
  ((List.range indexed.length).zip indexed).foldl (fun d p => PyDict.set d (underscore p.1) p.2) named

/-- `self.pfas` (183). -/
def pfas (es : List (String × Ex)) : List (String × Val) := es.map fun p => (p.1, json p.2)

/-- `self.fields` (186). -/
def fields (es : List (String × Ex)) : List String :=
  Cart.sortedSet ((pfas es).map fun p => findFields p.2).flatten

/-- `self.lambdas` (189). -/
def lambdas : List (String × Ex) → Res (List (String × NEx))
  | [] => .ok []
  | (k, e) :: es => match toNumpy e with
    | .error e => .error e
    | .ok n => match lambdas es with
      | .error e => .error e
      | .ok l => .ok ((k, n) :: l)

/-- What numpy code computes: a column, or one number if the code has no column in it. -/
inductive Vec (D : Type) where
  | scalar (d : D)
  | col (l : List D)

variable {D : Type}

/-- The element of an array in row `i`; a number is the same in every row. -/
def Vec.row [Inhabited D] : Vec D → Nat → D
  | .scalar d, _ => d
  | .col l, i => l.getD i default

def Vec.isScalar : Vec D → Bool
  | .scalar _ => true
  | .col _ => false

mutual
/-- Numpy code on columns of `n` rows; functions work elementwise, and numbers are broadcast. -/
def vEval [Inhabited D] (G : String → List D → D) (C : String → D) (L : Ex → D) (n : Nat) (cols : String → List D) : NEx → Vec D
  | .const s => .scalar (C s)
  | .name s => .col (cols s)
  | .lit e => .scalar (L e)
  | .app f args =>
    let vs := vEvalL G C L n cols args
    if vs.all Vec.isScalar then .scalar (G f (vs.map (Vec.row · 0)))
    else .col ((List.range n).map fun i => G f (vs.map (Vec.row · i)))
def vEvalL [Inhabited D] (G : String → List D → D) (C : String → D) (L : Ex → D) (n : Nat) (cols : String → List D) : List NEx → List (Vec D)
  | [] => []
  | e :: l => vEval G C L n cols e :: vEvalL G C L n cols l
end

/-- `numpy.vstack(...)` (242): every part is a row of the stack, a number being one of length one, and all must have the same length. -/
def vstack (vs : List (Vec D)) : Res (List (List D)) :=
  let rows := vs.map fun v => match v with
    | .scalar d => [d]
    | .col l => l
  match rows with
  | [] => .error (.py "ValueError")
  | r :: rs => if rs.all (fun s => s.length == r.length) then .ok (r :: rs) else .error (.py "ValueError")

/-- `transform` (191-242) of a table with the columns `names`, up to the final transposition: the columns of the result.  The table is given by columns. -/
def transform [Inhabited D] (G : String → List D → D) (C : String → D) (L : Ex → D) (indexed : List Ex) (named : List (String × Ex))
    (n : Nat) (table : List (String × List D)) : Res (List (List D)) :=
  let es := exprs indexed named
  match lambdas es with
  | .error e => .error e
  | .ok ls =>
    let fs := fields es
    if fs.any (fun f => !(table.map Prod.fst).contains f) then .error (.py "TypeError")
    else vstack ((order indexed named).map fun k =>
      vEval G C L n (fun f => (PyDict.get? table f).getD []) ((PyDict.get? ls k).getD (.lit .null)))

/-- `new` for an array type (278-283). -/
def newArray (subs : String → Option Val) (indexed : List Ex) (named : List (String × Ex)) (t : Val) : Val :=
  .dict [("type", t), ("new", .arr ((order indexed named).map fun k =>
    replace subs ((PyDict.get? (pfas (exprs indexed named)) k).getD .null)))]

/-- `new` for a map or a record type (285-297). -/
def newObj (subs : String → Option Val) (indexed : List Ex) (named : List (String × Ex)) (t : Val) : Val :=
  .dict [("type", t), ("new", .dict ((pfas (exprs indexed named)).map fun p => (p.1, replace subs p.2)))]

/-- `let` (302-317). -/
def letOf (subs : String → Option Val) (indexed : List Ex) (named : List (String × Ex)) : Val :=
  .dict [("let", .dict ((pfas (exprs indexed named)).map fun p => (p.1, replace subs p.2)))]

/-- `expr` (319-337). -/
def exprOf (subs : String → Option Val) (indexed : List Ex) (named : List (String × Ex)) (name : String) : Res Val :=
  match PyDict.get? (pfas (exprs indexed named)) name with
  | some v => .ok (replace subs v)
  | none => .error (.py "KeyError")

/-! ## Specification -/

mutual
/-- The references of an expression. -/
def refs : Ex → List String
  | .ref s => [s]
  | .call _ args => refsL args
  | _ => []
def refsL : List Ex → List String
  | [] => []
  | e :: l => refs e ++ refsL l
end

mutual
/-- The references and the text literals. -/
def words : Ex → List String
  | .ref s => [s]
  | .call _ args => wordsL args
  | .str s => [s]
  | _ => []
def wordsL : List Ex → List String
  | [] => []
  | e :: l => words e ++ wordsL l
end

mutual
/-- Calls, references and literals only; `@` is not a function. -/
def plain : Ex → Bool
  | .call f args => decide (f ≠ "@") && plainL args
  | .other _ => false
  | _ => true
def plainL : List Ex → Bool
  | [] => true
  | e :: l => plain e && plainL l
end

mutual
/-- The text literals of an expression. -/
def texts : Ex → List String
  | .call _ args => textsL args
  | .str s => [s]
  | _ => []
def textsL : List Ex → List String
  | [] => []
  | e :: l => texts e ++ textsL l
end

mutual
/-- Substitution of expressions for references. -/
def subst (s : String → Option Ex) : Ex → Ex
  | .ref x => match s x with
    | some e => e
    | none => .ref x
  | .call f args => .call f (substL s args)
  | e => e
def substL (s : String → Option Ex) : List Ex → List Ex
  | [] => []
  | e :: l => subst s e :: substL s l
end

mutual
/-- The value of an expression. -/
def eval (F : String → List D → D) (L : Ex → D) (env : String → D) : Ex → D
  | .ref s => env s
  | .call f args => F f (evalL F L env args)
  | e => L e
def evalL (F : String → List D → D) (L : Ex → D) (env : String → D) : List Ex → List D
  | [] => []
  | e :: l => eval F L env e :: evalL F L env l
end

/-! ## Fields and substitution -/

mutual
/-- `findFields` gives the references, and the text literals among them. -/
theorem findFields_json (e : Ex) (h : plain e = true) : findFields (json e) = words e := by
  cases e with
  | call f args =>
    simp only [plain, Bool.and_eq_true, decide_eq_true_eq] at h
    simp only [json, findFields, findFieldsD, if_pos h.1, words, List.append_nil]
    exact findFields_jsonL args h.2
  | other v => cases h
  | ref s => rfl
  | null => rfl
  | bool b => rfl
  | int n => rfl
  | long n => simp [json, findFields, findFieldsD, words]
  | float q => simp [json, findFields, findFieldsD, words]
  | double q => rfl
  | str s => simp [json, findFields, findFieldsD, words]
theorem findFields_jsonL (l : List Ex) (h : plainL l = true) : findFieldsL (jsonL l) = wordsL l := by
  cases l with
  | nil => rfl
  | cons e l =>
    simp only [plainL, Bool.and_eq_true] at h
    simp only [jsonL, findFieldsL, wordsL, findFields_json e h.1, findFields_jsonL l h.2]
end

mutual
theorem words_mem (e : Ex) (s : String) : s ∈ words e ↔ s ∈ refs e ∨ s ∈ texts e := by
  cases e with
  | call f args => simp only [words, refs, texts]; exact words_memL args s
  | str t => simp [words, refs, texts]
  | ref t => simp [words, refs, texts]
  | null => simp [words, refs, texts]
  | bool b => simp [words, refs, texts]
  | int n => simp [words, refs, texts]
  | long n => simp [words, refs, texts]
  | float q => simp [words, refs, texts]
  | double q => simp [words, refs, texts]
  | other v => simp [words, refs, texts]
theorem words_memL (l : List Ex) (s : String) : s ∈ wordsL l ↔ s ∈ refsL l ∨ s ∈ textsL l := by
  cases l with
  | nil => simp [wordsL, refsL, textsL]
  | cons e l =>
    simp only [wordsL, refsL, textsL, List.mem_append, words_mem e s, words_memL l s]
    tauto
end

/-- `findFields` gives the references and, besides, the text literals. -/
theorem findFields_mem (e : Ex) (h : plain e = true) (s : String) :
    s ∈ findFields (json e) ↔ s ∈ refs e ∨ s ∈ texts e := by
  rw [findFields_json e h, words_mem]

theorem mem_sortedSet (l : List String) (s : String) : s ∈ Cart.sortedSet l ↔ s ∈ l := by
  rw [Cart.sortedSet, List.mem_insertionSort, List.mem_dedup]

/-- The fields of a transformation without text literals are the references of its expressions, each once. -/
theorem fields_spec_partial (es : List (String × Ex)) (h : ∀ p ∈ es, plain p.2 = true ∧ texts p.2 = []) :
    (fields es).Nodup ∧ ∀ s, s ∈ fields es ↔ ∃ p ∈ es, s ∈ refs p.2 := by
  refine ⟨?_, ?_⟩
  · rw [fields, Cart.sortedSet]
    exact (List.perm_insertionSort _ _).nodup_iff.2 (List.nodup_dedup _)
  · intro s
    rw [fields, mem_sortedSet, List.mem_flatten]
    constructor
    · rintro ⟨l, hl, hs⟩
      obtain ⟨q, hq, rfl⟩ := List.mem_map.1 hl
      obtain ⟨p, hp, rfl⟩ := List.mem_map.1 hq
      obtain ⟨h1, h2⟩ := h p hp
      rw [findFields_mem p.2 h1, h2] at hs
      exact ⟨p, hp, by simpa using hs⟩
    · rintro ⟨p, hp, hs⟩
      obtain ⟨h1, h2⟩ := h p hp
      refine ⟨findFields (json p.2), List.mem_map.2 ⟨(p.1, json p.2), List.mem_map.2 ⟨p, hp, rfl⟩, rfl⟩, ?_⟩
      rw [findFields_mem p.2 h1]
      exact .inl hs

/-- A text literal is taken for a field. -/
theorem fields_text_violation (s : String) : fields [("_0", .call "==" [.ref "x", .str s])] = Cart.sortedSet ["x", s] ∧
    refs (.call "==" [.ref "x", .str s]) = ["x"] := by
  refine ⟨?_, rfl⟩
  simp [fields, pfas, json, jsonL, findFields, findFieldsD, findFieldsL]

mutual
/-- `replace` puts in the substitutes for the references, if no text literal is one of the names replaced. -/
theorem replace_json (s : String → Option Ex) (e : Ex) (h : plain e = true) (ht : ∀ t ∈ texts e, s t = none) :
    replace (fun x => (s x).map json) (json e) = json (subst s e) := by
  cases e with
  | ref x =>
    simp only [json, replace, subst]
    cases hx : s x with
    | none => simp [json]
    | some e => simp
  | call f args =>
    simp only [plain, Bool.and_eq_true, decide_eq_true_eq] at h
    simp only [json, replace, replaceD, subst]
    rw [replace_jsonL s args h.2 ht]
  | other v => cases h
  | null => rfl
  | bool b => rfl
  | int n => rfl
  | long n => simp [json, replace, replaceD, subst]
  | float q => simp [json, replace, replaceD, subst]
  | double q => rfl
  | str t =>
    have : s t = none := ht t (by simp [texts])
    simp [json, replace, replaceD, subst, this]
theorem replace_jsonL (s : String → Option Ex) (l : List Ex) (h : plainL l = true) (ht : ∀ t ∈ textsL l, s t = none) :
    replaceL (fun x => (s x).map json) (jsonL l) = jsonL (substL s l) := by
  cases l with
  | nil => rfl
  | cons e l =>
    simp only [plainL, Bool.and_eq_true] at h
    simp only [textsL, List.mem_append] at ht
    simp only [jsonL, replaceL, substL, replace_json s e h.1 (fun t h => ht t (.inl h)),
      replace_jsonL s l h.2 (fun t h => ht t (.inr h))]
end

mutual
/-- An expression with substitutes has the value of the expression where the names have the values of the substitutes. -/
theorem eval_subst (F : String → List D → D) (L : Ex → D) (env : String → D) (s : String → Option Ex) (e : Ex) :
    eval F L env (subst s e) =
      eval F L (fun x => match s x with | some e' => eval F L env e' | none => env x) e := by
  cases e with
  | ref x =>
    simp only [subst, eval]
    cases s x <;> rfl
  | call f args =>
    simp only [subst, eval]
    rw [eval_substL F L env s args]
  | null => rfl
  | bool b => rfl
  | int n => rfl
  | long n => rfl
  | float q => rfl
  | double q => rfl
  | str t => rfl
  | other v => rfl
theorem eval_substL (F : String → List D → D) (L : Ex → D) (env : String → D) (s : String → Option Ex) (l : List Ex) :
    evalL F L env (substL s l) =
      evalL F L (fun x => match s x with | some e' => eval F L env e' | none => env x) l := by
  cases l with
  | nil => rfl
  | cons e l => simp only [substL, evalL, eval_subst F L env s e, eval_substL F L env s l]
end

/-- A text literal with the name of a substitute is replaced, too, and what comes out is not the JSON of any text. -/
theorem replace_text_violation (t : String) (e : Ex) :
    replace (fun x => if x = t then some (json e) else none) (json (.str t)) = .dict [("string", json e)] := by
  simp [json, replace, replaceD]

/-! ## The order of the expressions -/

theorem insertIdx_append (l r : List String) (x : String) : (l ++ r).insertIdx l.length x = l ++ x :: r := by
  induction l with
  | nil => rfl
  | cons y l ih => simp [ih]

theorem order_loop (n : Nat) (o : List String) :
    (List.range n).foldl (fun o i => o.insertIdx i (underscore i)) o = (List.range n).map underscore ++ o := by
  induction n with
  | zero => rfl
  | succ n ih =>
    rw [List.range_succ, List.foldl_append, ih, List.map_append, List.foldl_cons, List.foldl_nil]
    have := insertIdx_append ((List.range n).map underscore) o (underscore n)
    rw [List.length_map, List.length_range] at this
    rw [this]; simp

/-- The positional expressions come first in their order, then the named ones in the order of their names. -/
theorem order_spec (indexed : List Ex) (named : List (String × Ex)) :
    order indexed named = (List.range indexed.length).map underscore ++
      (named.map Prod.fst).insertionSort (fun a b => Cart.strLe a b = true) := order_loop _ _

theorem underscore_inj {i j : Nat} (h : underscore i = underscore j) : i = j := by
  have h1 : ("_" ++ Nat.repr i : String).toList = ("_" ++ Nat.repr j : String).toList := congrArg String.toList h
  rw [String.toList_append, String.toList_append] at h1
  exact Nat.repr_injective (String.ext (List.append_cancel_left h1))

theorem exprs_loop (ps : List (Nat × Ex)) (d : List (String × Ex)) (hn : (ps.map Prod.fst).Nodup) (k : String) :
    PyDict.get? (ps.foldl (fun d p => PyDict.set d (underscore p.1) p.2) d) k =
      match ps.find? (fun p => underscore p.1 == k) with
      | some p => some p.2
      | none => PyDict.get? d k := by
  induction ps generalizing d with
  | nil => rfl
  | cons p ps ih =>
    obtain ⟨hn1, hn2⟩ := List.nodup_cons.1 (by simpa using hn : (p.1 :: ps.map Prod.fst).Nodup)
    rw [List.foldl_cons, ih _ hn2, List.find?_cons]
    by_cases hk : underscore p.1 = k
    · have h1 : ps.find? (fun p => underscore p.1 == k) = none := by
        rw [List.find?_eq_none]
        intro q hq
        simp only [beq_iff_eq]
        intro h
        exact hn1 (List.mem_map.2 ⟨q, hq, underscore_inj (h.trans hk.symm)⟩)
      rw [h1, beq_iff_eq.2 hk, ← hk]
      simp
    · have h2 : (underscore p.1 == k) = false := by simpa using hk
      rw [h2]
      cases ps.find? (fun p => underscore p.1 == k) with
      | some q => rfl
      | none => exact PyDict.get?_set_ne _ _ (fun h => hk h)

/-- The positional expression `i` is found as `_i`. -/
theorem exprs_indexed (indexed : List Ex) (named : List (String × Ex)) (i : Nat) (hi : i < indexed.length) :
    PyDict.get? (exprs indexed named) (underscore i) = some indexed[i] := by
  rw [exprs, exprs_loop _ _ (by rw [List.map_fst_zip (by simp)]; exact List.nodup_range)]
  have hm : (i, indexed[i]) ∈ (List.range indexed.length).zip indexed := by
    rw [List.mem_iff_getElem]
    exact ⟨i, by simpa using hi, by simp⟩
  cases hf : ((List.range indexed.length).zip indexed).find? (fun p => underscore p.1 == underscore i) with
  | none =>
    have := List.find?_eq_none.1 hf _ hm
    simp at this
  | some p =>
    have h1 := List.find?_some hf
    have h2 := List.mem_of_find?_eq_some hf
    obtain ⟨j, hj, rfl⟩ := List.mem_iff_getElem.1 h2
    simp only [List.getElem_zip, List.getElem_range, beq_iff_eq] at h1
    have := underscore_inj h1
    subst this
    simp

/-- A named expression is found by its name, unless a positional one has that name. -/
theorem exprs_named (indexed : List Ex) (named : List (String × Ex)) (k : String) (hk : ∀ i < indexed.length, underscore i ≠ k) :
    PyDict.get? (exprs indexed named) k = PyDict.get? named k := by
  rw [exprs, exprs_loop _ _ (by rw [List.map_fst_zip (by simp)]; exact List.nodup_range)]
  have : ((List.range indexed.length).zip indexed).find? (fun p => underscore p.1 == k) = none := by
    rw [List.find?_eq_none]
    intro p hp
    obtain ⟨j, hj, rfl⟩ := List.mem_iff_getElem.1 hp
    simp only [List.getElem_zip, List.getElem_range, beq_iff_eq]
    exact hk j (by simpa using hj)
  rw [this]

/-- A keyword `_0` beside a positional expression is lost, and the positional expression stands in the order twice. -/
theorem clash_violation (e e' : Ex) :
    order [e] [("_0", e')] = ["_0", "_0"] ∧ exprs [e] [("_0", e')] = [("_0", e)] :=
  ⟨by
    rw [order_spec]
    show (List.range 1).map underscore ++ ["_0"].insertionSort _ = _
    decide +kernel, by
    have : underscore 0 = "_0" := by decide +kernel
    simp [exprs, PyDict.set, this, List.range_succ]⟩

/-! ## The numpy form -/

/-- Numpy functions and constants do to the elements what the PFA functions do. -/
def Agrees (F G : String → List D → D) (C : String → D) : Prop :=
  (∀ f g, PyDict.get? functions f = some g → ∀ l, G g l = F f l) ∧
  ∀ f c, PyDict.get? constants f = some c → C c = F f []

theorem row_scalar [Inhabited D] {v : Vec D} (h : v.isScalar = true) (i j : Nat) : v.row i = v.row j := by
  cases v with
  | scalar d => rfl
  | col l => cases h

mutual
/-- In each row the numpy code computes what the PFA expression does, it gives a number exactly if there is no reference in it, and
otherwise a column with all the rows. -/
theorem numpy_spec_partial [Inhabited D] (F G : String → List D → D) (C : String → D) (L : Ex → D) (hA : Agrees F G C) (n : Nat)
    (cols : String → List D) (e : Ex) (hc : ∀ s ∈ refs e, (cols s).length = n) (x : NEx) (h : toNumpy e = .ok x) :
    (∀ i < n, (vEval G C L n cols x).row i = eval F L (fun s => (cols s).getD i default) e) ∧
    ((vEval G C L n cols x).isScalar = true ↔ refs e = []) ∧
    (refs e = [] → ∀ env, (vEval G C L n cols x).row 0 = eval F L env e) ∧
    (∀ l, vEval G C L n cols x = .col l → l.length = n) := by
  cases e with
  | call f args =>
    have hfun : ∀ g, PyDict.get? functions f = some g → ∀ l, toNumpyL args = .ok l → x = .app g l →
        (∀ i < n, (vEval G C L n cols x).row i = eval F L (fun s => (cols s).getD i default) (.call f args)) ∧
        ((vEval G C L n cols x).isScalar = true ↔ refs (.call f args) = []) ∧
        (refs (.call f args) = [] → ∀ env, (vEval G C L n cols x).row 0 = eval F L env (.call f args)) ∧
        (∀ l, vEval G C L n cols x = .col l → l.length = n) := by
      rintro g hg l hl rfl
      obtain ⟨h1, h2, h3⟩ := numpy_specL F G C L hA n cols args (by simpa only [refs] using hc) l hl
      have hG := hA.1 f g hg
      simp only [vEval, refs, eval]
      by_cases hs : (vEvalL G C L n cols l).all Vec.isScalar = true
      · have hr := h2.1 hs
        rw [if_pos hs]
        refine ⟨fun i hi => ?_, ?_, ?_, ?_⟩
        · show G g _ = _
          rw [hG, h3 hr (fun s => (cols s).getD i default)]
        · simpa [Vec.isScalar] using hr
        · intro _ env
          show G g _ = _
          rw [hG, h3 hr env]
        · intro l h; cases h
      · have hr : refsL args ≠ [] := fun h => hs (h2.2 h)
        rw [if_neg hs]
        refine ⟨fun i hi => ?_, ?_, fun h => absurd h hr, ?_⟩
        · show List.getD _ i default = _
          rw [List.getD_eq_getElem _ _ (by simpa using hi)]
          simp only [List.getElem_map, List.getElem_range]
          rw [hG, h1 i hi]
        · simpa [Vec.isScalar] using hr
        · intro l h; cases h; simp
    rw [toNumpy] at h
    cases hcst : constOf f args with
    | none =>
      rw [hcst] at h
      cases hg : PyDict.get? functions f with
      | none => rw [hg] at h; cases h
      | some g =>
        rw [hg] at h
        cases hl : toNumpyL args with
        | error e => rw [hl] at h; cases h
        | ok l =>
          rw [hl] at h
          exact hfun g hg l hl (by injection h with h; exact h.symm)
    | some c =>
      rw [hcst] at h
      have : x = .const c := by injection h with h; exact h.symm
      subst this
      rw [constOf] at hcst
      split at hcst
      · rename_i h0
        have := List.length_eq_zero_iff.1 h0
        subst this
        have hC := hA.2 f c hcst
        simp [vEval, Vec.row, Vec.isScalar, refs, refsL, eval, evalL, hC]
      · cases hcst
  | ref t =>
    have : x = .name t := by rw [toNumpy] at h; injection h with h; exact h.symm
    subst this
    have := hc t (by simp [refs])
    simp [vEval, Vec.row, Vec.isScalar, refs, eval, this]
  | null => rw [toNumpy] at h; cases h
  | other v => rw [toNumpy] at h; cases h
  | bool b =>
    have : x = .lit (.bool b) := by rw [toNumpy] at h <;> simp_all
    subst this
    simp [vEval, Vec.row, Vec.isScalar, refs, eval]
  | int b =>
    have : x = .lit (.int b) := by rw [toNumpy] at h <;> simp_all
    subst this
    simp [vEval, Vec.row, Vec.isScalar, refs, eval]
  | long b =>
    have : x = .lit (.long b) := by rw [toNumpy] at h <;> simp_all
    subst this
    simp [vEval, Vec.row, Vec.isScalar, refs, eval]
  | float b =>
    have : x = .lit (.float b) := by rw [toNumpy] at h <;> simp_all
    subst this
    simp [vEval, Vec.row, Vec.isScalar, refs, eval]
  | double b =>
    have : x = .lit (.double b) := by rw [toNumpy] at h <;> simp_all
    subst this
    simp [vEval, Vec.row, Vec.isScalar, refs, eval]
  | str b =>
    have : x = .lit (.str b) := by rw [toNumpy] at h <;> simp_all
    subst this
    simp [vEval, Vec.row, Vec.isScalar, refs, eval]
theorem numpy_specL [Inhabited D] (F G : String → List D → D) (C : String → D) (L : Ex → D) (hA : Agrees F G C) (n : Nat)
    (cols : String → List D) (es : List Ex) (hc : ∀ s ∈ refsL es, (cols s).length = n) (xs : List NEx) (h : toNumpyL es = .ok xs) :
    (∀ i < n, (vEvalL G C L n cols xs).map (Vec.row · i) = evalL F L (fun s => (cols s).getD i default) es) ∧
    ((vEvalL G C L n cols xs).all Vec.isScalar = true ↔ refsL es = []) ∧
    (refsL es = [] → ∀ env, (vEvalL G C L n cols xs).map (Vec.row · 0) = evalL F L env es) := by
  cases es with
  | nil =>
    have : xs = [] := by rw [toNumpyL] at h; injection h with h; exact h.symm
    subst this
    simp [vEvalL, refsL, evalL]
  | cons e es =>
    rw [toNumpyL] at h
    cases he : toNumpy e with
    | error e => rw [he] at h; cases h
    | ok x =>
      rw [he] at h
      cases hes : toNumpyL es with
      | error e => rw [hes] at h; cases h
      | ok ys =>
        rw [hes] at h
        have : xs = x :: ys := by injection h with h; exact h.symm
        subst this
        obtain ⟨a1, a2, a3, -⟩ := numpy_spec_partial F G C L hA n cols e (fun s hs => hc s (by simp [refsL, hs])) x he
        obtain ⟨b1, b2, b3⟩ := numpy_specL F G C L hA n cols es (fun s hs => hc s (by simp [refsL, hs])) ys hes
        simp only [vEvalL, refsL, evalL, List.map_cons, List.all_cons, Bool.and_eq_true, List.append_eq_nil_iff]
        refine ⟨fun i hi => by rw [a1 i hi, b1 i hi], by rw [a2, b2], fun ⟨h1, h2⟩ env => by rw [a3 h1 env, b3 h2 env]⟩
end

/-! ## Transforming tables -/

theorem lambdas_spec (es : List (String × Ex)) (h : ∀ p ∈ es, ∃ x, toNumpy p.2 = .ok x) :
    ∃ ls, lambdas es = .ok ls ∧ ∀ k e, PyDict.get? es k = some e → ∃ x, toNumpy e = .ok x ∧ PyDict.get? ls k = some x := by
  induction es with
  | nil => exact ⟨[], rfl, fun k e h => by cases h⟩
  | cons p es ih =>
    obtain ⟨k, e⟩ := p
    obtain ⟨x, hx⟩ := h (k, e) (by simp)
    obtain ⟨ls, hl, hk⟩ := ih fun p hp => h p (by simp [hp])
    refine ⟨(k, x) :: ls, by simp only [lambdas, hx, hl], fun k' e' h' => ?_⟩
    rw [PyDict.get?_cons] at h' ⊢
    by_cases hkk : k = k'
    · rw [if_pos hkk] at h' ⊢
      injection h' with h'
      subst h'
      exact ⟨x, hx, rfl⟩
    · rw [if_neg hkk] at h' ⊢
      exact hk k' e' h'

/-- Each name in the order has an expression. -/
theorem order_known (indexed : List Ex) (named : List (String × Ex)) (k : String) (hk : k ∈ order indexed named) :
    ∃ e, PyDict.get? (exprs indexed named) k = some e := by
  by_cases h : ∃ i < indexed.length, underscore i = k
  · obtain ⟨i, hi, rfl⟩ := h
    exact ⟨_, exprs_indexed indexed named i hi⟩
  · push Not at h
    rw [exprs_named indexed named k h]
    rw [order_spec, List.mem_append] at hk
    rcases hk with hk | hk
    · obtain ⟨i, hi, rfl⟩ := List.mem_map.1 hk
      exact absurd rfl (h i (List.mem_range.1 hi))
    · have : k ∈ PyDict.keys named := (List.mem_insertionSort _).1 hk
      exact Option.isSome_iff_exists.1 ((PyDict.get?_isSome_iff named k).2 this)

theorem vstack_cols (n : Nat) (ks : List String) (hne : ks ≠ []) (v : String → Vec D) (c : String → List D)
    (h : ∀ k ∈ ks, v k = .col (c k) ∧ (c k).length = n) : vstack (ks.map v) = .ok (ks.map c) := by
  have h1 : (ks.map v).map (fun v => match v with | .scalar d => [d] | .col l => l) = ks.map c := by
    rw [List.map_map]
    apply List.map_congr_left
    intro k hk
    simp only [Function.comp, (h k hk).1]
  unfold vstack
  rw [h1]
  cases ks with
  | nil => exact absurd rfl hne
  | cons k ks =>
    simp only [List.map_cons]
    rw [if_pos]
    rw [List.all_eq_true]
    intro r hr
    obtain ⟨k', hk', rfl⟩ := List.mem_map.1 hr
    rw [beq_iff_eq, (h k (by simp)).2, (h k' (by simp [hk'])).2]

/-- If every expression mentions a column, is one that numpy has, and the table has the columns, then the transformed table has in each
column, row by row, the values of the expression that stands there in the order. -/
theorem transform_spec_partial [Inhabited D] (F G : String → List D → D) (C : String → D) (L : Ex → D) (hA : Agrees F G C)
    (indexed : List Ex) (named : List (String × Ex)) (n : Nat) (table : List (String × List D))
    (hp : ∀ p ∈ exprs indexed named, plain p.2 = true ∧ texts p.2 = [] ∧ refs p.2 ≠ [] ∧ ∃ x, toNumpy p.2 = .ok x)
    (ht : ∀ p ∈ exprs indexed named, ∀ s ∈ refs p.2, ∃ c, PyDict.get? table s = some c ∧ c.length = n)
    (hne : order indexed named ≠ []) :
    transform G C L indexed named n table = .ok ((order indexed named).map fun k => (List.range n).map fun i =>
      eval F L (fun s => ((PyDict.get? table s).getD []).getD i default) ((PyDict.get? (exprs indexed named) k).getD .null)) := by
  obtain ⟨ls, hl, hk⟩ := lambdas_spec (exprs indexed named) fun p h => (hp p h).2.2.2
  have hf : (fields (exprs indexed named)).any (fun f => !(table.map Prod.fst).contains f) = false := by
    rw [List.any_eq_false]
    intro s hs
    obtain ⟨p, hpm, hps⟩ := ((fields_spec_partial (exprs indexed named) fun p h => ⟨(hp p h).1, (hp p h).2.1⟩).2 s).1 hs
    obtain ⟨c, hc, -⟩ := ht p hpm s hps
    have : s ∈ table.map Prod.fst := PyDict.mem_keys_of_get? hc
    simpa using this
  simp only [transform]
  rw [hl]
  simp only [hf, Bool.false_eq_true, if_false]
  apply vstack_cols n _ hne
  intro k hko
  obtain ⟨e, he⟩ := order_known indexed named k hko
  obtain ⟨x, hx, hlx⟩ := hk k e he
  have hm := PyDict.mem_of_get? he
  obtain ⟨-, -, hr, -⟩ := hp _ hm
  obtain ⟨h1, h2, -, h4⟩ := numpy_spec_partial F G C L hA n (fun f => (PyDict.get? table f).getD []) e
    (fun s hs => by obtain ⟨c, hc, hcl⟩ := ht _ hm s hs; simpa [hc] using hcl) x hx
  rw [hlx, he]
  simp only [Option.getD_some]
  refine ⟨?_, by simp⟩
  cases hv : vEval G C L n (fun f => (PyDict.get? table f).getD []) x with
  | scalar d => rw [hv] at h2; exact absurd (h2.1 rfl) hr
  | col l =>
    have hln := h4 l hv
    congr 1
    apply List.ext_getElem (by simp [hln])
    intro i hi hi'
    have := h1 i (by omega)
    rw [hv] at this
    simp only [Vec.row] at this
    rw [List.getD_eq_getElem _ _ hi] at this
    simpa using this

/-- A column that is missing in the table is told. -/
theorem transform_missing [Inhabited D] (G : String → List D → D) (C : String → D) (L : Ex → D)
    (indexed : List Ex) (named : List (String × Ex)) (n : Nat) (table : List (String × List D))
    (hp : ∀ p ∈ exprs indexed named, plain p.2 = true ∧ texts p.2 = [] ∧ ∃ x, toNumpy p.2 = .ok x)
    (hm : ∃ p ∈ exprs indexed named, ∃ s ∈ refs p.2, s ∉ table.map Prod.fst) :
    transform G C L indexed named n table = .error (.py "TypeError") := by
  obtain ⟨ls, hl, -⟩ := lambdas_spec (exprs indexed named) fun p h => (hp p h).2.2
  obtain ⟨p, hpm, s, hs, hst⟩ := hm
  have hf : (fields (exprs indexed named)).any (fun f => !(table.map Prod.fst).contains f) = true := by
    rw [List.any_eq_true]
    refine ⟨s, ((fields_spec_partial (exprs indexed named) fun p h => ⟨(hp p h).1, (hp p h).2.1⟩).2 s).2 ⟨p, hpm, hs⟩, ?_⟩
    simpa using hst
  simp only [transform]
  rw [hl]
  simp only [hf, if_true]

/-- An expression without columns gives one number, and it cannot stand beside a column of two rows. -/
theorem transform_constant_violation (G : String → List Int → Int) (C : String → Int) (L : Ex → Int) (a b : Int) :
    transform G C L [.ref "x", .int 1] [] 2 [("x", [a, b])] = .error (.py "ValueError") ∧
    transform G C L [.int 1] [] 2 [("x", [a, b])] = .ok [[L (.int 1)]] := by
  have h0 : underscore 0 = "_0" := by decide +kernel
  have h1 : underscore 1 = "_1" := by decide +kernel
  have hf : fields [("_0", .ref "x"), ("_1", .int 1)] = ["x"] := by decide +kernel
  have hf' : fields [("_0", .int 1)] = [] := by decide +kernel
  constructor
  · simp [transform, order_spec, exprs, List.range_succ, h0, h1, PyDict.set, lambdas, toNumpy, hf, PyDict.get?, vEval, vstack]
  · simp [transform, order_spec, exprs, List.range_succ, h0, PyDict.set, lambdas, toNumpy, hf', PyDict.get?, vEval, vstack]

/-- A null makes the constructor fail, since `toNumpyExpr` gives a number for it instead of code. -/
theorem null_violation (f : String) (g : String) (hf : PyDict.get? functions f = some g) (args : List Ex) :
    toNumpy (.call f (.null :: args)) = .error (.py "TypeError") := by
  simp [toNumpy, toNumpyL, constOf, hf]

/-- `%` and `%%` have the same numpy function, since `numpy.mod` and `numpy.remainder` are one, though they are different functions of
PFA: there are no numpy functions that agree with both. -/
theorem remainder_violation (F G : String → List (Res Int) → Res Int) (C : String → Res Int)
    (hG : G "numpy.mod" = G "numpy.remainder")
    (h1 : ∀ x y, F "%" [.ok x, .ok y] = Arith.modulo x y) (h2 : ∀ x y, F "%%" [.ok x, .ok y] = Arith.remainder x y) :
    ¬ Agrees F G C := by
  rintro ⟨h, -⟩
  have a := h "%" "numpy.mod" (by decide +kernel) [.ok (-5), .ok 3]
  have b := h "%%" "numpy.remainder" (by decide +kernel) [.ok (-5), .ok 3]
  rw [h1] at a
  rw [h2, ← hG, a] at b
  revert b
  have ha : Arith.modulo (-5) 3 = .ok 1 := by rfl
  have hb : Arith.remainder (-5) 3 = .ok (-2) := by rfl
  rw [ha, hb]
  intro h
  injection h with h
  exact absurd h (by decide)

/-! ### Do the functions of the table agree? -/

/-- Numbers and booleans, as elements of columns. -/
inductive Elt where
  | num (q : Rat)
  | bool (b : Bool)
deriving DecidableEq

/-- What the documentation of numpy says that its functions do to elements, in exact arithmetic. -/
def numpyDoc : String → List Elt → Option Elt
  | "numpy.add", [.num a, .num b] => some (.num (a + b))
  | "numpy.subtract", [.num a, .num b] => some (.num (a - b))
  | "numpy.multiply", [.num a, .num b] => some (.num (a * b))
  | "numpy.true_divide", [.num a, .num b] => if b = 0 then none else some (.num (a / b))
  | "numpy.negative", [.num a] => some (.num (-a))
  | "numpy.equal", [.num a, .num b] => some (.bool (decide (a = b)))
  | "numpy.not_equal", [.num a, .num b] => some (.bool (decide (a ≠ b)))
  | "numpy.greater", [.num a, .num b] => some (.bool (decide (b < a)))
  | "numpy.greater_equal", [.num a, .num b] => some (.bool (decide (b ≤ a)))
  | "numpy.less", [.num a, .num b] => some (.bool (decide (a < b)))
  | "numpy.less_equal", [.num a, .num b] => some (.bool (decide (a ≤ b)))
  | "numpy.logical_and", [.bool a, .bool b] => some (.bool (a && b))
  | "numpy.logical_or", [.bool a, .bool b] => some (.bool (a || b))
  | "numpy.logical_xor", [.bool a, .bool b] => some (.bool (a != b))
  | "numpy.logical_not", [.bool a] => some (.bool (!a))
  | "numpy.absolute", [.num a] => some (.num |a|)
  | "numpy.ceil", [.num a] => some (.num ⌈a⌉)
  | "numpy.floor", [.num a] => some (.num ⌊a⌋)
  | "numpy.round", [.num a] => some (.num (Arith.roundEven a))
  | _, _ => none

/-- What the specification of PFA says that its operators do, in exact arithmetic. -/
def pfaDoc : String → List Elt → Option Elt
  | "+", [.num a, .num b] => some (.num (a + b))
  | "-", [.num a, .num b] => some (.num (a - b))
  | "*", [.num a, .num b] => some (.num (a * b))
  | "/", [.num a, .num b] => if b = 0 then none else some (.num (a / b))
  | "u-", [.num a] => some (.num (-a))
  | "==", [.num a, .num b] => some (.bool (decide (a = b)))
  | "!=", [.num a, .num b] => some (.bool (decide (a ≠ b)))
  | ">", [.num a, .num b] => some (.bool (decide (b < a)))
  | ">=", [.num a, .num b] => some (.bool (decide (b ≤ a)))
  | "<", [.num a, .num b] => some (.bool (decide (a < b)))
  | "<=", [.num a, .num b] => some (.bool (decide (a ≤ b)))
  | "&&", [.bool a, .bool b] => some (.bool (a && b))
  | "||", [.bool a, .bool b] => some (.bool (a || b))
  | "^^", [.bool a, .bool b] => some (.bool (a != b))
  | "!", [.bool a] => some (.bool (!a))
  | "m.abs", [.num a] => some (.num |a|)
  | "m.ceil", [.num a] => some (.num ⌈a⌉)
  | "m.floor", [.num a] => some (.num ⌊a⌋)
  | _, _ => none

/-- Every operator has the numpy function that does the same to numbers and booleans. -/
theorem operators_agree {f : String} {l : List Elt} {d : Elt} (h : pfaDoc f l = some d) :
    ∃ g, PyDict.get? functions f = some g ∧ numpyDoc g l = some d := by
  unfold pfaDoc at h
  split at h <;> first
    | exact ⟨_, rfl, h⟩
    | cases h

/-- `m.round` does not: it rounds halves up, `numpy.round` to the even number. -/
theorem round_violation : PyDict.get? functions "m.round" = some "numpy.round" ∧
    numpyDoc "numpy.round" [.num (1 / 2)] = some (.num 0) ∧ Lib.Round.floorHalf (1 / 2) = 1 := by
  refine ⟨rfl, ?_, ?_⟩
  · have : Arith.roundEven (1 / 2) = 0 := by decide +kernel
    simp [numpyDoc] at this ⊢
    exact this
  · decide +kernel

example : pfaDoc "-" [.num 3, .num 5] = some (.num (-2)) := by decide +kernel

/-! ## Making expressions -/

theorem get_pfas (es : List (String × Ex)) (k : String) : PyDict.get? (pfas es) k = (PyDict.get? es k).map json := by
  induction es with
  | nil => rfl
  | cons p es ih =>
    simp only [pfas, List.map_cons] at ih ⊢
    rw [PyDict.get?_cons, PyDict.get?_cons, ih]
    by_cases h : p.1 = k <;> simp [h]

/-- `expr` gives the expression of that name, with the substitutes put in. -/
theorem expr_spec_partial (s : String → Option Ex) (indexed : List Ex) (named : List (String × Ex)) (k : String) (e : Ex)
    (he : PyDict.get? (exprs indexed named) k = some e) (hp : plain e = true) (ht : ∀ t ∈ texts e, s t = none) :
    exprOf (fun x => (s x).map json) indexed named k = .ok (json (subst s e)) := by
  simp only [exprOf, get_pfas, he, Option.map_some, replace_json s e hp ht]

/-- `new` of an array has the expressions in the order, with the substitutes put in. -/
theorem newArray_spec_partial (s : String → Option Ex) (indexed : List Ex) (named : List (String × Ex)) (t : Val)
    (hp : ∀ p ∈ exprs indexed named, plain p.2 = true ∧ ∀ t ∈ texts p.2, s t = none) :
    newArray (fun x => (s x).map json) indexed named t = .dict [("type", t), ("new", .arr ((order indexed named).map fun k =>
      json (subst s ((PyDict.get? (exprs indexed named) k).getD .null))))] := by
  have : ∀ k ∈ order indexed named, replace (fun x => (s x).map json) ((PyDict.get? (pfas (exprs indexed named)) k).getD .null) =
      json (subst s ((PyDict.get? (exprs indexed named) k).getD .null)) := by
    intro k hk
    obtain ⟨e, he⟩ := order_known indexed named k hk
    obtain ⟨h1, h2⟩ := hp _ (PyDict.mem_of_get? he)
    rw [get_pfas, he]
    exact replace_json s e h1 h2
  rw [newArray, List.map_congr_left this]

/-- `let`, and `new` of a map or a record, have each expression under its name, with the substitutes put in. -/
theorem let_spec_partial (s : String → Option Ex) (indexed : List Ex) (named : List (String × Ex)) (t : Val)
    (hp : ∀ p ∈ exprs indexed named, plain p.2 = true ∧ ∀ t ∈ texts p.2, s t = none) :
    letOf (fun x => (s x).map json) indexed named =
      .dict [("let", .dict ((exprs indexed named).map fun p => (p.1, json (subst s p.2))))] ∧
    newObj (fun x => (s x).map json) indexed named t =
      .dict [("type", t), ("new", .dict ((exprs indexed named).map fun p => (p.1, json (subst s p.2))))] := by
  have : (pfas (exprs indexed named)).map (fun p => (p.1, replace (fun x => (s x).map json) p.2)) =
      (exprs indexed named).map fun p => (p.1, json (subst s p.2)) := by
    rw [pfas, List.map_map]
    apply List.map_congr_left
    intro p hpm
    obtain ⟨h1, h2⟩ := hp p hpm
    simp only [Function.comp, replace_json s p.2 h1 h2]
  exact ⟨by rw [letOf, this], by rw [newObj, this]⟩

/-! ## Examples -/

/-- `x + y*2` and `sqrt(x)`. -/
def exA : Ex := .call "+" [.ref "x", .call "*" [.ref "y", .int 2]]
def exB : Ex := .call "m.sqrt" [.ref "x"]

example : plain exA = true ∧ texts exA = [] ∧ refs exA = ["x", "y"] ∧ (∃ x, toNumpy exA = .ok x) ∧
    plain exB = true ∧ texts exB = [] ∧ refs exB = ["x"] ∧ ∃ x, toNumpy exB = .ok x :=
  ⟨by decide +kernel, by decide +kernel, by decide +kernel, ⟨_, rfl⟩, by decide +kernel, by decide +kernel, by decide +kernel, ⟨_, rfl⟩⟩

example : order [exA, exB] [("z", exA), ("b", exB)] = ["_0", "_1", "b", "z"] := by
  rw [order_spec]
  show (List.range 2).map underscore ++ ["z", "b"].insertionSort _ = _
  decide +kernel

example : json (subst (fun x => if x = "x" then some (.ref "w") else none) exB) =
    .dict [("m.sqrt", .arr [.str "w"])] := by simp [exB, subst, substL, json, jsonL]

/-- Whatever numpy functions there are, there are functions that agree with them. -/
def exF [Inhabited D] (G : String → List D → D) (C : String → D) (f : String) (l : List D) : D :=
  match PyDict.get? functions f with
  | some g => G g l
  | none => match PyDict.get? constants f with
    | some c => C c
    | none => default

example [Inhabited D] (G : String → List D → D) (C : String → D) : Agrees (exF G C) G C := by
  refine ⟨fun f g h l => by simp only [exF, h], fun f c h => ?_⟩
  have : PyDict.get? functions f = none := by
    have := PyDict.mem_of_get? h
    simp only [constants, List.mem_cons, Prod.mk.injEq, List.not_mem_nil, or_false] at this
    rcases this with ⟨rfl, -⟩ | ⟨rfl, -⟩ <;> decide +kernel
  simp only [exF, this, h]

/-- The whole of a transformation of two rows. -/
example (G : String → List Int → Int) (C : String → Int) (L : Ex → Int) :
    transform G C L [exA] [("b", exB)] 2 [("x", [1, 2]), ("y", [3, 4])] =
      .ok [[exF G C "+" [1, exF G C "*" [3, L (.int 2)]], exF G C "+" [2, exF G C "*" [4, L (.int 2)]]],
        [exF G C "m.sqrt" [1], exF G C "m.sqrt" [2]]] := by
  have h0 : underscore 0 = "_0" := by decide +kernel
  have hA : Agrees (exF G C) G C := by
    refine ⟨fun f g h l => by simp only [exF, h], fun f c h => ?_⟩
    have : PyDict.get? functions f = none := by
      have := PyDict.mem_of_get? h
      simp only [constants, List.mem_cons, Prod.mk.injEq, List.not_mem_nil, or_false] at this
      rcases this with ⟨rfl, -⟩ | ⟨rfl, -⟩ <;> decide +kernel
    simp only [exF, this, h]
  have he : exprs [exA] [("b", exB)] = [("b", exB), ("_0", exA)] := by
    simp [exprs, List.range_succ, h0, PyDict.set]
  have ho : order [exA] [("b", exB)] = ["_0", "b"] := by
    rw [order_spec]
    show (List.range 1).map underscore ++ ["b"].insertionSort _ = _
    decide +kernel
  rw [transform_spec_partial (exF G C) G C L hA _ _ 2 _ ?_ ?_ (by rw [ho]; simp), ho, he]
  · simp [PyDict.get?, exA, exB, eval, evalL, List.range_succ]
  · rw [he]
    intro p hp
    simp only [List.mem_cons, List.not_mem_nil, or_false] at hp
    rcases hp with rfl | rfl
    · exact ⟨by decide +kernel, by decide +kernel, by decide +kernel, _, rfl⟩
    · exact ⟨by decide +kernel, by decide +kernel, by decide +kernel, _, rfl⟩
  · rw [he]
    intro p hp s hs
    simp only [List.mem_cons, List.not_mem_nil, or_false] at hp
    rcases hp with rfl | rfl
    · simp [exB, refs, refsL] at hs
      subst hs
      exact ⟨[1, 2], rfl, rfl⟩
    · simp [exA, refs, refsL] at hs
      rcases hs with rfl | rfl
      · exact ⟨[1, 2], rfl, rfl⟩
      · exact ⟨[3, 4], by decide +kernel, rfl⟩

end Verif.Producer.Transform
