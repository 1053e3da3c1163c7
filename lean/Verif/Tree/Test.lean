import Verif.Tree.Walk
import Verif.Lang.Run
import Verif.Avro.CompareThm
/-!
# Comparisons in decision trees (C52)

Models `simpleComparison` (`titus/lib/model/tree.py` 36-134), SimpleTest (136-142), MissingTest (168-184) and
SimpleTree (252-275).
-/

namespace Verif.Tree
open Avro Lib

/-! ## Model -/

/-- The parts of `paramTypes` that are used: the fields of the datum, the type of the field `value` of the
comparison, and the name of its record type.  They are the JSON forms of the types, read again with
`getAvroType` (`Lang.reparse`). -/
structure Types where
  fields : List (String × AType)
  value : AType
  node : String

mutual
/-- Python `==`: numbers by value (True is 1), NaN is not equal to itself, dicts without regard to order. -/
def same : Val → Val → Bool
  | .null, .null => true
  | .bool a, w => match pyNum w with | some b => numEq (.fin a.toNat) b | none => false
  | .int a, w => match pyNum w with | some b => numEq (.fin a) b | none => false
  | .flt a, w => match pyNum w with | some b => numEq a b | none => false
  | .str a, .str b => a == b
  | .bytes a, .bytes b => a == b
  | .arr a, .arr b => sameL a b
  | .dict a, .dict b => decide (a.length = b.length) && sameD a b
  | _, _ => false
/-- Lists, item by item. -/
def sameL : List Val → List Val → Bool
  | [], [] => true
  | x :: xs, y :: ys => same x y && sameL xs ys
  | _, _ => false
/-- Dicts, key by key. -/
def sameD : List (String × Val) → List (String × Val) → Bool
  | [], _ => true
  | (k, v) :: d, e => (match PyDict.get? e k with | some w => same v w | none => false) && sameD d e
/-- An int, a float or a bool as a number. -/
def pyNum : Val → Option Flt
  | .bool b => some (.fin b.toNat)
  | .int i => some (.fin i)
  | .flt f => some f
  | _ => none
/-- `==` on numbers -/
def numEq (a b : Flt) : Bool := decide (a = b) && decide (a ≠ .nan)
end

/-- `any(parser.getAvroType(x).name == tag for x in types)` (54) -/
def anyName (tag : String) : List AType → Res Bool
  | [] => .ok false
  | t :: ts => match Lang.reparse t with
    | .error e => .error e
    | .ok u => if u.name = tag then .ok true else anyName tag ts

/-- Lines 45-55: type and value of the field.  When missing values are treated apart, null is left out of a
union, and a tag that names one of the other members is taken off. -/
def fieldOf (missingOperators : Bool) (t : AType) (v : Val) : Res (AType × Val) :=
  match missingOperators, t with
  | false, .union ts =>
    let us := ts.filter (fun t => decide (t ≠ .null))
    let u : AType := match us with | [u] => u | us => .union us
    match v with
    | .dict [(tag, x)] => match anyName tag us with
      | .error e => .error e
      | .ok true => .ok (u, x)
      | .ok false => .ok (u, v)
    | v => .ok (u, v)
  | _, t => .ok (t, v)

/-- `isinstance(t, (AvroInt, AvroLong, AvroFloat, AvroDouble))` -/
def isNum : AType → Bool
  | .int => true
  | .long => true
  | .float => true
  | .double => true
  | _ => false

/-- The type test of `in` and `notIn` (69-74). -/
def listOk (env : Env) (valueType fieldType : AType) : Bool :=
  match valueType with
  | .array t => accepts env env t fieldType
  | .union ts => ts.any (fun t => match t with | .array t => accepts env env t fieldType | _ => false)
  | _ => false

/-- `isinstance(value, dict) and len(value) == 1 and keys == ["array"]` (76-77) -/
def untagArray : Val → Val
  | .dict [(k, v)] => if k = "array" then v else .dict [(k, v)]
  | v => v

/-- The same for the numbers (101-102). -/
def untagNum : Val → Val
  | .dict [(k, v)] => if k = "int" ∨ k = "long" ∨ k = "float" ∨ k = "double" then v else .dict [(k, v)]
  | v => v

/-- `fieldValue in value` (83): a dict is searched for a key, lists and dicts cannot be keys.  The identity test
that Python makes before `==` is left out (it matters for NaN only), as is the search in text. -/
def contains (x value : Val) : Res Bool :=
  match value with
  | .arr vs => .ok (vs.any (same x))
  | .dict d => match x with
    | .str k => .ok (PyDict.has d k)
    | .arr _ => .error (.py "TypeError")
    | .dict _ => .error (.py "TypeError")
    | _ => .ok false
  | _ => .error (.py "TypeError")

/-- Lines 106-119, on numbers; false on NaN but for `!=`. -/
def numOp (code2 : Int) (op : String) (a b : Flt) : Res Bool :=
  if op = "<=" then .ok (fltLt a b || numEq a b)
  else if op = "<" then .ok (fltLt a b)
  else if op = ">=" then .ok (fltLt b a || numEq a b)
  else if op = ">" then .ok (fltLt b a)
  else if op = "==" then .ok (numEq a b)
  else if op = "!=" then .ok (!numEq a b)
  else .error (.rt code2)

/-- Lines 121-134, on the result of `compare`, which is computed only for these operators. -/
def cmpOp (code2 : Int) (op : String) (c : Res Int) : Res Bool :=
  if op = "<=" then Res.app (fun c => decide (c ≤ 0)) c
  else if op = "<" then Res.app (fun c => decide (c < 0)) c
  else if op = ">=" then Res.app (fun c => decide (c ≥ 0)) c
  else if op = ">" then Res.app (fun c => decide (c > 0)) c
  else if op = "==" then Res.app (fun c => decide (c = 0)) c
  else if op = "!=" then Res.app (fun c => decide (c ≠ 0)) c
  else .error (.rt code2)

/-- The last part of `simpleComparison` (90-134).  `n` bounds the depth of `compare`. -/
def ordered (env : Env) (n : Nat) (missingOperators : Bool) (code1 code2 : Int) (op : String) (ft vt : AType) (x value : Val) :
    Res (Option Bool) :=
  if !accepts env env vt ft && !(isNum vt && isNum ft) then .error (.rt code1)
  else if !missingOperators && decide (x = .null) then .ok none
  else if isNum ft then
    match pyNum (untagNum value) with
    | none => .error (.rt code1)
    | some b => match pyNum x with
      | some a => Res.app some (numOp code2 op a b)
      | none => .error (.py "TypeError")
  else Res.app some (cmpOp code2 op (cmp env n vt x value))

/-- Lines 60-134, with the types read. -/
def compareWith (env : Env) (n : Nat) (missingOperators : Bool) (code1 code2 : Int) (op : String) (ft vt : AType) (x value : Val) :
    Res (Option Bool) :=
  if op = "alwaysTrue" then .ok (some true)
  else if op = "alwaysFalse" then .ok (some false)
  else if missingOperators && decide (op = "isMissing") then .ok (some (decide (x = .null)))
  else if missingOperators && decide (op = "notMissing") then .ok (some (decide (x ≠ .null)))
  else if op = "in" ∨ op = "notIn" then
    if !listOk env vt ft then .error (.rt code1)
    else if !missingOperators && decide (x = .null) then .ok none
    else Res.app (fun b => some (if op = "in" then b else !b)) (contains x (untagArray value))
  else ordered env n missingOperators code1 code2 op ft vt x value

/-- `simpleComparison` (36-134); `none` is None.  The operator and the field are texts by their types. -/
def simpleComparison (env : Env) (n : Nat) (T : Types) (missingOperators : Bool) (code1 code2 : Int) (datum comparison : Val) :
    Res (Option Bool) :=
  match look comparison "field", look comparison "operator", look comparison "value" with
  | .ok (.str field), .ok (.str op), .ok value =>
    match look datum field with
    | .error e => .error e
    | .ok v => match PyDict.get? T.fields field with
      | none => .error (.py "IndexError")
      | some t => match fieldOf missingOperators t v with
        | .error e => .error e
        | .ok (t, x) => match Lang.reparse t with
          | .error e => .error e
          | .ok ft => match Lang.reparse T.value with
            | .error e => .error e
            | .ok vt => compareWith env n missingOperators code1 code2 op ft vt x value
  | _, _, _ => .error (.py "KeyError")

/-- A result with missing values not treated apart is a boolean (`simpleComparison_some`). -/
def decided : Res (Option Bool) → Res Bool
  | .ok (some b) => .ok b
  | .ok none => .ok false
  | .error e => .error e

/-- `SimpleTest.__call__` (140-141) -/
def simpleTest (env : Env) (n : Nat) (T : Types) (datum comparison : Val) : Res Bool :=
  decided (simpleComparison env n T true 32001 32000 datum comparison)

/-- `MissingTest.__call__` (172-183) -/
def missingTest (env : Env) (n : Nat) (T : Types) (datum comparison : Val) : Res Val :=
  match simpleComparison env n T false 32011 32010 datum comparison with
  | .error e => .error e
  | .ok (some b) => .ok (.dict [("boolean", .bool b)])
  | .ok none => .ok .null

/-- `SimpleTree.__call__` (257-274): the loop of simpleWalk with this test. -/
def simpleTree (env : Env) (n : Nat) (T : Types) (datum : Val) (fuel : Nat) (treeNode : Val) : Res Val :=
  (simpleWalk (σ := Unit) T.node
    (fun node s => (decided (simpleComparison env n T true 32061 32060 datum node), s)) fuel treeNode ()).1

/-! ## Specification -/

/-- The six operators as relations; on texts, numbers, and whatever else is ordered. -/
def Rel {α : Type} [LT α] [LE α] (op : String) (a b : α) : Prop :=
  (op = "<=" ∧ a ≤ b) ∨ (op = "<" ∧ a < b) ∨ (op = ">=" ∧ b ≤ a) ∨ (op = ">" ∧ b < a) ∨ (op = "==" ∧ a = b) ∨ (op = "!=" ∧ a ≠ b)

/-- The six operators. -/
def ops : List String := ["<=", "<", ">=", ">", "==", "!="]

/-! ## Proofs -/

section
variable {env : Env} {n : Nat} {T : Types} {c1 c2 : Int}

theorem app_some {r : Res Bool} : Res.app some r ≠ .ok none := by
  cases r <;> simp [Res.app]

theorem ordered_some {op : String} {ft vt : AType} {x value : Val} : ordered env n true c1 c2 op ft vt x value ≠ .ok none := by
  unfold ordered
  intro h
  by_cases h1 : (!accepts env env vt ft && !(isNum vt && isNum ft)) = true
  · rw [if_pos h1] at h; cases h
  · rw [if_neg h1] at h
    simp only [Bool.not_true, Bool.false_and, Bool.false_eq_true, if_false] at h
    by_cases h2 : isNum ft = true
    · rw [if_pos h2] at h
      split at h
      · cases h
      · split at h
        · exact app_some h
        · cases h
    · rw [if_neg h2] at h
      exact app_some h

/-- Where missing values are not treated apart the result is a boolean. -/
theorem compareWith_some {op : String} {ft vt : AType} {x value : Val} : compareWith env n true c1 c2 op ft vt x value ≠ .ok none := by
  unfold compareWith
  intro h
  by_cases h1 : op = "alwaysTrue"
  · rw [if_pos h1] at h; cases h
  rw [if_neg h1] at h
  by_cases h2 : op = "alwaysFalse"
  · rw [if_pos h2] at h; cases h
  rw [if_neg h2] at h
  by_cases h3 : op = "isMissing"
  · simp [h3] at h
  by_cases h4 : op = "notMissing"
  · simp [h4] at h
  simp only [h3, h4, decide_false, Bool.and_false, Bool.false_eq_true, if_false, Bool.not_true, Bool.false_and] at h
  by_cases h5 : op = "in" ∨ op = "notIn"
  · rw [if_pos h5] at h
    split at h
    · cases h
    · cases hc : contains x (untagArray value) <;> simp [hc, Res.app] at h
  · rw [if_neg h5] at h
    exact ordered_some h

/-- What `simpleComparison` looks up. -/
structure Reads (T : Types) (datum cmp : Val) (op : String) (t : AType) (v value : Val) : Prop where
  reads : ∃ field, look cmp "field" = .ok (.str field) ∧ look datum field = .ok v ∧ PyDict.get? T.fields field = some t
  op : look cmp "operator" = .ok (.str op)
  value : look cmp "value" = .ok value

theorem simpleComparison_eq {mo : Bool} {datum cmp : Val} {op : String} {t t' ft vt : AType} {v value x : Val}
    (h : Reads T datum cmp op t v value) (hf : fieldOf mo t v = .ok (t', x)) (ht : Lang.reparse t' = .ok ft)
    (hv : Lang.reparse T.value = .ok vt) :
    simpleComparison env n T mo c1 c2 datum cmp = compareWith env n mo c1 c2 op ft vt x value := by
  obtain ⟨⟨field, h1, h2, h3⟩, h4, h5⟩ := h
  simp [simpleComparison, h1, h2, h3, h4, h5, hf, ht, hv]

theorem fieldOf_true (t : AType) (v : Val) : fieldOf true t v = .ok (t, v) := rfl

/-! ### Operators without a comparison -/

/-- **C52.** `isMissing` and `notMissing` tell whether the field is null, whatever the types; `alwaysTrue` and
`alwaysFalse` need no field. -/
theorem simpleTest_missing {datum cmp : Val} {op : String} {t ft vt : AType} {v value : Val} (h : Reads T datum cmp op t v value)
    (ht : Lang.reparse t = .ok ft) (hv : Lang.reparse T.value = .ok vt) :
    (op = "isMissing" → simpleTest env n T datum cmp = .ok (decide (v = .null))) ∧
    (op = "notMissing" → simpleTest env n T datum cmp = .ok (decide (v ≠ .null))) ∧
    (op = "alwaysTrue" → simpleTest env n T datum cmp = .ok true) ∧
    (op = "alwaysFalse" → simpleTest env n T datum cmp = .ok false) := by
  refine ⟨?_, ?_, ?_, ?_⟩ <;>
  · rintro rfl
    rw [simpleTest, simpleComparison_eq h (fieldOf_true t v) ht hv]
    simp [compareWith, decided]

/-! ### Numbers -/

theorem numEq_iff {a b : Flt} (ha : a ≠ .nan) : numEq a b = true ↔ fltKey a = fltKey b := by
  simp [numEq, ha, fltKey_inj]

theorem fltLt_iff {a b : Flt} (ha : a ≠ .nan) (hb : b ≠ .nan) : fltLt a b = true ↔ fltKey a < fltKey b := by
  have h := fltSgn_key ha hb
  have hirr : ¬ (fltLt a b = true ∧ fltLt b a = true) := by
    rintro ⟨h1, h2⟩
    cases a <;> cases b <;> simp [fltLt] at h1 h2
    exact absurd (lt_trans h1 h2) (lt_irrefl _)
  unfold fltSgn sgn at h
  by_cases h1 : fltKey a < fltKey b
  · simp only [h1, if_true] at h
    have : fltLt a b = true := by
      by_contra hc
      simp only [hc] at h
      split at h <;> simp at h
    simp [h1, this]
  · simp only [h1, if_false] at h
    have : ¬ fltLt a b = true := by
      intro hc
      have hd : ¬ fltLt b a = true := fun hd => hirr ⟨hc, hd⟩
      rw [if_neg hd, if_pos hc] at h
      split at h <;> simp at h
    simp [h1, this]

/-- The operators on numbers that are not NaN. -/
theorem numOp_iff {op : String} (ho : op ∈ ops) {a b : Flt} (ha : a ≠ .nan) (hb : b ≠ .nan) :
    ∃ r, numOp c2 op a b = .ok r ∧ (r = true ↔ Rel op (fltKey a) (fltKey b)) := by
  have e1 := numEq_iff (b := b) ha
  have e2 := fltLt_iff ha hb
  have e3 := fltLt_iff hb ha
  simp only [ops, List.mem_cons, List.not_mem_nil, or_false] at ho
  rcases ho with rfl | rfl | rfl | rfl | rfl | rfl
  · exact ⟨_, rfl, by simp [Rel, e1, e2, le_iff_lt_or_eq]⟩
  · exact ⟨_, rfl, by simp [Rel, e2]⟩
  · exact ⟨_, rfl, by simp only [Rel, Bool.or_eq_true, e1, e3, le_iff_lt_or_eq]; simp only [eq_comm (a := fltKey a)]; simp⟩
  · exact ⟨_, rfl, by simp [Rel, e3]⟩
  · exact ⟨_, rfl, by simp [Rel, e1]⟩
  · exact ⟨_, rfl, by simp [Rel, ← e1]⟩

theorem mem_ops_plain {op : String} (ho : op ∈ ops) :
    op ≠ "alwaysTrue" ∧ op ≠ "alwaysFalse" ∧ op ≠ "isMissing" ∧ op ≠ "notMissing" ∧ ¬ (op = "in" ∨ op = "notIn") := by
  simp only [ops, List.mem_cons, List.not_mem_nil, or_false] at ho
  rcases ho with rfl | rfl | rfl | rfl | rfl | rfl <;> decide

theorem compareWith_ordered {mo : Bool} {op : String} (ho : op ∈ ops) {ft vt : AType} {x value : Val} :
    compareWith env n mo c1 c2 op ft vt x value = ordered env n mo c1 c2 op ft vt x value := by
  obtain ⟨h1, h2, h3, h4, h5⟩ := mem_ops_plain ho
  simp [compareWith, h1, h2, h3, h4, h5]

/-- **C52.** A number in the field is compared with the number in the tree, tagged or not, whatever numeric
types they have. -/
theorem compareWith_num {mo : Bool} {op : String} (ho : op ∈ ops) {ft vt : AType} {x value : Val} {a b : Flt}
    (hf : isNum ft = true) (hv : isNum vt = true ∨ accepts env env vt ft = true) (hx : pyNum x = some a) (ha : a ≠ .nan)
    (hy : pyNum (untagNum value) = some b) (hb : b ≠ .nan) :
    ∃ r, compareWith env n mo c1 c2 op ft vt x value = .ok (some r) ∧ (r = true ↔ Rel op (fltKey a) (fltKey b)) := by
  obtain ⟨r, h1, h2⟩ := numOp_iff (c2 := c2) ho ha hb
  refine ⟨r, ?_, h2⟩
  rw [compareWith_ordered ho, ordered, if_neg, if_neg, if_pos hf]
  · simp [hy, hx, h1, Res.app]
  · cases x <;> simp [pyNum] at hx ⊢
  · rcases hv with hv | hv <;> simp [hv, hf]

/-! ### Other ordered types -/

theorem cmpOp_iff {op : String} (ho : op ∈ ops) {c : Int} :
    ∃ r, cmpOp c2 op (.ok c) = .ok r ∧ (r = true ↔ Rel op c 0) := by
  simp only [ops, List.mem_cons, List.not_mem_nil, or_false] at ho
  rcases ho with rfl | rfl | rfl | rfl | rfl | rfl <;> exact ⟨_, rfl, by simp [Rel]⟩

/-- **C52.** Other values are compared by `compare` (C10), in the type of the value in the tree. -/
theorem compareWith_cmp {mo : Bool} {op : String} (ho : op ∈ ops) {ft vt : AType} {x value : Val} {c : Int}
    (hf : isNum ft = false) (hv : accepts env env vt ft = true) (hx : mo = true ∨ x ≠ .null) (hc : cmp env n vt x value = .ok c) :
    ∃ r, compareWith env n mo c1 c2 op ft vt x value = .ok (some r) ∧ (r = true ↔ Rel op c 0) := by
  obtain ⟨r, h1, h2⟩ := cmpOp_iff (c2 := c2) (c := c) ho
  refine ⟨r, ?_, h2⟩
  rw [compareWith_ordered ho, ordered, if_neg, if_neg, if_neg]
  · rw [hc, h1]; rfl
  · simp [hf]
  · rcases hx with rfl | hx <;> simp_all
  · simp [hv]

/-- Texts compare by code points. -/
theorem compareWith_str {mo : Bool} {op : String} (ho : op ∈ ops) (a b : String) (n : Nat) :
    ∃ r, compareWith env (n + 1) mo c1 c2 op .string .string (.str a) (.str b) = .ok (some r) ∧
      (r = true ↔ Rel op (a.toList.map Char.toNat) (b.toList.map Char.toNat)) := by
  obtain ⟨c, hc, hr, hs⟩ := strCmp_order.total a b trivial trivial
  obtain ⟨r, h1, h2⟩ := compareWith_cmp (env := env) (n := n + 1) (c1 := c1) (c2 := c2) (mo := mo) (ft := .string) (vt := .string)
    (x := .str a) (value := .str b) (c := c) ho rfl rfl (.inr (by simp)) (by simpa [Avro.cmp, cmpStep] using hc)
  refine ⟨r, h1, h2.trans ?_⟩
  have l1 := string_order a b
  have l2 := string_order b a
  have e := strCmp_zero (a := a) (b := b)
  have e' : a = b ↔ a.toList.map Char.toNat = b.toList.map Char.toNat := by
    constructor
    · rintro rfl; rfl
    · intro h
      have := (List.map_injective_iff.2 (fun x y => toNat_inj.1)) h
      exact String.toList_inj.1 this
  rw [hc] at l1 e
  rw [hs] at l2
  simp only [Except.ok.injEq] at l1 l2 e
  have hlt : c < 0 ↔ a.toList.map Char.toNat < b.toList.map Char.toNat := by rw [← l1]; omega
  have hgt : 0 < c ↔ b.toList.map Char.toNat < a.toList.map Char.toNat := by rw [← l2]; omega
  have heq : c = 0 ↔ a.toList.map Char.toNat = b.toList.map Char.toNat := by rw [e, e']
  have hle : c ≤ 0 ↔ a.toList.map Char.toNat ≤ b.toList.map Char.toNat := by rw [← not_lt, ← not_lt, hgt]
  have hge : 0 ≤ c ↔ b.toList.map Char.toNat ≤ a.toList.map Char.toNat := by rw [← not_lt, ← not_lt, hlt]
  simp only [Rel, hlt, hgt, heq, hle, hge, ne_eq]

/-! ### Membership -/

/-- **C52.** `in` tells whether a member of the list equals the field, `notIn` the opposite. -/
theorem compareWith_in {mo : Bool} {op : String} {ft vt : AType} {x value : Val} {vs : List Val} (hl : listOk env vt ft = true)
    (hx : mo = true ∨ x ≠ .null) (hv : untagArray value = .arr vs) :
    (op = "in" → compareWith env n mo c1 c2 op ft vt x value = .ok (some (decide (∃ v ∈ vs, same x v = true)))) ∧
    (op = "notIn" → compareWith env n mo c1 c2 op ft vt x value = .ok (some (decide (¬ ∃ v ∈ vs, same x v = true)))) := by
  have hx' : (!mo && decide (x = Val.null)) = false := by rcases hx with rfl | hx <;> simp_all
  constructor <;>
  · rintro rfl
    simp only [compareWith, String.reduceEq, if_false, decide_false, Bool.and_false, Bool.false_eq_true, true_or, or_true, if_true,
      hl, Bool.not_true, hx', hv, contains, Res.app]
    simp only [List.any_eq, if_true, decide_not, if_false, String.reduceEq]

/-! ### Missing values -/

/-- **C52, missingTest.** A null field gives null when the types fit, for every operator but the constant ones. -/
theorem compareWith_null {op : String} (ho : op ∈ ops) {ft vt : AType} {value : Val}
    (hv : (isNum vt = true ∧ isNum ft = true) ∨ accepts env env vt ft = true) :
    compareWith env n false c1 c2 op ft vt .null value = .ok none := by
  rw [compareWith_ordered ho, ordered, if_neg, if_pos]
  · simp
  · rcases hv with ⟨h1, h2⟩ | hv <;> simp [*]

theorem compareWith_null_in {op : String} (ho : op = "in" ∨ op = "notIn") {ft vt : AType} {value : Val} (hv : listOk env vt ft = true) :
    compareWith env n false c1 c2 op ft vt .null value = .ok none := by
  rcases ho with rfl | rfl <;> simp [compareWith, hv]

/-- **C52, missingTest.** On a field of type `T` or null: null gives null, and another value is compared like a
value of the type `T`. -/
theorem missingTest_nullable {datum cmp : Val} {op : String} {u ft vt : AType} {v value : Val} (hu : u ≠ .null) (hn : ∀ us, u ≠ .union us)
    {ts : List AType} (hts : ts = [.null, u] ∨ ts = [u, .null]) (h : Reads T datum cmp op (.union ts) v value)
    (ht : Lang.reparse u = .ok ft) (hname : ft.name = u.name) (hv : Lang.reparse T.value = .ok vt) :
    (v = .null → missingTest env n T datum cmp = match compareWith env n false 32011 32010 op ft vt .null value with
      | .ok (some b) => .ok (.dict [("boolean", .bool b)]) | .ok none => .ok .null | .error e => .error e) ∧
    (∀ x, v = .dict [(u.name, x)] → missingTest env n T datum cmp = match compareWith env n false 32011 32010 op ft vt x value with
      | .ok (some b) => .ok (.dict [("boolean", .bool b)]) | .ok none => .ok .null | .error e => .error e) := by
  have hf : (ts.filter (fun t => decide (t ≠ .null))) = [u] := by
    rcases hts with rfl | rfl <;> simp [hu]
  constructor
  · rintro rfl
    have : fieldOf false (.union ts) .null = .ok (u, .null) := by simp only [fieldOf, hf]
    rw [missingTest, simpleComparison_eq h this ht hv]
    rcases compareWith env n false 32011 32010 op ft vt .null value with e | (_ | b) <;> rfl
  · rintro x rfl
    have : fieldOf false (.union ts) (.dict [(u.name, x)]) = .ok (u, x) := by
      simp only [fieldOf, hf, anyName, ht, hname, if_true]
    rw [missingTest, simpleComparison_eq h this ht hv]
    rcases compareWith env n false 32011 32010 op ft vt x value with e | (_ | b) <;> rfl

/-! ### Whole trees -/

/-- **C52, simpleTree.** If every comparison in the tree can be decided, the score is at the end of the one path that
passes the nodes whose comparison is true and fails the others. -/
theorem simpleTree_path {datum tree : Val} {f : Val → Bool}
    (ht : IsTree T.node ["pass", "fail"] (fun v => simpleComparison env n T true 32061 32060 datum v = .ok (some (f v))) tree) :
    ∃ (x : Val) (ns : List Val), (∀ k, sizeOf tree ≤ k → simpleTree env n T datum k tree = .ok x) ∧
      Path T.node tree (ns.map (fun a => (a, branch (f a)))) x ∧
      ∀ (ms : List Val) (y : Val), Path T.node tree (ms.map (fun a => (a, branch (f a)))) y → ms = ns ∧ y = x := by
  have ht' : IsTree T.node ["pass", "fail"] (fun v => decided (simpleComparison env n T true 32061 32060 datum v) = .ok (f v)) tree := by
    induction ht with
    | mk hP hb _ ih => exact .mk (by simp [hP, decided]) hb ih
  obtain ⟨x, h1, ns, h2⟩ := simpleWalk_pure (σ := Unit) (name := T.node) ht' ()
  refine ⟨x, ns, fun k hk => by rw [simpleTree, h1 k hk], h2, fun ms y h3 => ?_⟩
  exact h3.unique h2

/-- A comparison of a number in the datum with a number in the tree; `b` tells whether it holds. -/
def NumNode (env : Env) (T : Types) (datum node : Val) (b : Bool) : Prop :=
  ∃ op t v value vt x y, Reads T datum node op t v value ∧ op ∈ ops ∧ isNum t = true ∧ Lang.reparse T.value = .ok vt ∧
    (isNum vt = true ∨ accepts env env vt t = true) ∧ pyNum v = some x ∧ x ≠ .nan ∧ pyNum (untagNum value) = some y ∧ y ≠ .nan ∧
    (b = true ↔ Rel op (fltKey x) (fltKey y))

theorem numNode_eq {datum node : Val} {b : Bool} (h : NumNode env T datum node b) :
    simpleComparison env n T true 32061 32060 datum node = .ok (some b) := by
  obtain ⟨op, t, v, value, vt, x, y, hr, ho, ht, hvt, hv, hx, hxn, hy, hyn, hb⟩ := h
  have hrt : Lang.reparse t = .ok t := by cases t <;> simp [isNum] at ht <;> rfl
  rw [simpleComparison_eq hr (fieldOf_true t v) hrt hvt]
  obtain ⟨r, h1, h2⟩ := compareWith_num (env := env) (n := n) (c1 := 32061) (c2 := 32060) (mo := true) ho ht hv hx hxn hy hyn
  rw [h1]
  have : r = b := by cases r <;> cases b <;> simp_all
  rw [this]

/-- **C52, simpleTree on numbers.** In a tree whose nodes compare numbers (none of them NaN) the score returned is
at the end of the one path on which the comparison of every node that is passed holds, and that of every node that is
failed does not. -/
theorem simpleTree_numbers {datum tree : Val} {f : Val → Bool}
    (ht : IsTree T.node ["pass", "fail"] (fun v => NumNode env T datum v (f v)) tree) :
    ∃ (x : Val) (ns : List Val), (∀ k, sizeOf tree ≤ k → simpleTree env n T datum k tree = .ok x) ∧
      Path T.node tree (ns.map (fun a => (a, branch (f a)))) x ∧
      ∀ (ms : List Val) (y : Val), Path T.node tree (ms.map (fun a => (a, branch (f a)))) y → ms = ns ∧ y = x := by
  refine simpleTree_path (f := f) ?_
  induction ht with
  | mk hP hb _ ih => exact .mk (numNode_eq hP) hb ih

end

/-! ## A concrete case -/

/-- Fields, values and nodes of a small tree. -/
def exTypes : Types := ⟨[("x", .int), ("y", .string)], .union [.double, .string], "TreeNode"⟩

/-- `x < 2.5`, then `x != 1`. -/
def exTree : Val := .dict [("field", .str "x"), ("operator", .str "<"), ("value", .dict [("double", .flt (.fin (5/2)))]),
  ("pass", .dict [("TreeNode", .dict [("field", .str "x"), ("operator", .str "!="), ("value", .dict [("double", .flt (.fin 1))]),
    ("pass", .dict [("string", .str "not one")]), ("fail", .dict [("string", .str "one")])])]),
  ("fail", .dict [("string", .str "large")])]

/-- Whether the comparisons hold for `x = 1`. -/
def exHolds (v : Val) : Bool := decide (look v "operator" = .ok (.str "<"))

theorem exTree_numbers : IsTree exTypes.node ["pass", "fail"] (fun v => NumNode [] exTypes (.dict [("x", .int 1)]) v (exHolds v)) exTree := by
  refine .mk ?_ ?_ ?_
  · refine ⟨"<", .int, .int 1, .dict [("double", .flt (.fin (5/2)))], .union [.double, .string], .fin 1, .fin (5/2),
      ⟨⟨"x", rfl, rfl, rfl⟩, rfl, rfl⟩, by decide, rfl, by decide +kernel, .inr (by decide +kernel), rfl, by simp, rfl, by simp, ?_⟩
    simp [exHolds, look, PyDict.get?, Rel, fltKey, Prod.Lex.lt_iff]
    norm_num
  · intro b hb
    simp only [List.mem_cons, List.not_mem_nil, or_false] at hb
    rcases hb with rfl | rfl
    · exact .inr ⟨_, _, rfl⟩
    · exact .inr ⟨_, _, rfl⟩
  · intro b hb m hm
    simp only [List.mem_cons, List.not_mem_nil, or_false] at hb
    rcases hb with rfl | rfl
    · simp [PyDict.get?, exTypes] at hm
      subst hm
      refine .mk ?_ ?_ ?_
      · refine ⟨"!=", .int, .int 1, .dict [("double", .flt (.fin 1))], .union [.double, .string], .fin 1, .fin 1,
          ⟨⟨"x", rfl, rfl, rfl⟩, rfl, rfl⟩, by decide, rfl, by decide +kernel, .inr (by decide +kernel), rfl, by simp, rfl, by simp, ?_⟩
        simp [exHolds, look, PyDict.get?, Rel, fltKey]
      · intro b hb
        simp only [List.mem_cons, List.not_mem_nil, or_false] at hb
        rcases hb with rfl | rfl
        · exact .inr ⟨_, _, rfl⟩
        · exact .inr ⟨_, _, rfl⟩
      · intro b hb m hm
        simp only [List.mem_cons, List.not_mem_nil, or_false] at hb
        rcases hb with rfl | rfl <;> simp [PyDict.get?, exTypes] at hm
    · simp [PyDict.get?, exTypes] at hm

example : simpleTree [] 10 exTypes (.dict [("x", .int 1)]) 1000 exTree = .ok (.str "one") := by decide +kernel
example : simpleTree [] 10 exTypes (.dict [("x", .int 7)]) 1000 exTree = .ok (.str "large") := by decide +kernel

/-! ## Violations -/

/-- **Violation.**  The test of `in` looks at the type of the value only: when the union has a list among its members, but
the value is another member, the tag of the value is searched.  So the text "string" is found in the text "abc", and no
error is raised. -/
theorem in_member_violation :
    simpleTest [] 10 ⟨[("y", .string)], .union [.string, .array .string], "TreeNode"⟩ (.dict [("y", .str "string")])
      (.dict [("field", .str "y"), ("operator", .str "in"), ("value", .dict [("string", .str "abc")])]) = .ok true ∧
    simpleTest [] 10 ⟨[("y", .string)], .union [.string, .array .string], "TreeNode"⟩ (.dict [("y", .str "abc")])
      (.dict [("field", .str "y"), ("operator", .str "in"), ("value", .dict [("string", .str "abc")])]) = .ok false := by
  decide +kernel

/-- **Violation.**  A text without tag is taken for the last member of the union it could belong to, so a text is not equal
to the same text. -/
theorem eq_text_violation :
    simpleTest [] 10 ⟨[("y", .string)], .union [.string, .bytes], "TreeNode"⟩ (.dict [("y", .str "abc")])
      (.dict [("field", .str "y"), ("operator", .str "=="), ("value", .dict [("string", .str "abc")])]) = .ok false := by
  decide +kernel

/-- **Violation.**  Bytes cannot be compared: the exception is not one of the declared errors (C10). -/
theorem bytes_violation :
    simpleTest [] 10 ⟨[("y", .bytes)], .bytes, "TreeNode"⟩ (.dict [("y", .bytes [1])])
      (.dict [("field", .str "y"), ("operator", .str "=="), ("value", .bytes [1])]) = .error (.py "TypeError") := by
  decide +kernel

/-- **Violation.**  The tag of a map is not recognised in a field that may be missing, because maps are read as arrays: `in` compares the
tagged map. -/
theorem map_tag_violation :
    fieldOf false (.union [.null, .map .int]) (.dict [("map", .dict [("a", .int 1)])]) =
      .ok (.map .int, .dict [("map", .dict [("a", .int 1)])]) := by decide +kernel

/-- **Violation.**  NaN fails `<` and `>=` alike, though the order of the language puts NaN after all numbers (C10). -/
theorem nan_violation (b : Flt) (c2 : Int) :
    numOp c2 "<" .nan b = .ok false ∧ numOp c2 ">=" .nan b = .ok false ∧ numOp c2 ">" .nan b = .ok false ∧ numOp c2 "==" .nan b = .ok false := by
  cases b <;> simp [numOp, fltLt, numEq]

end Verif.Tree
