import Verif.Cart.Sets
/-! # Growing trees: the document made from a tree (C87) -/

namespace Verif.Cart
open Avro Lib Tree

/-! ## Model -/

/-- The types that are allowed for a field (691-703). -/
def kindType (maxSub : Option Nat) : Col → AType → Res AType
  | .num _, t => if t ∈ [AType.int, .long, .float, .double] then .ok t else .error (.py "TypeError")
  | .cat _ _, t => if t = .string then (if maxSub = some 1 then .ok t else .ok (.array t)) else .error (.py "TypeError")

/-- The loop over the fields of the data type (685-703). -/
def fieldTypes (maxSub : Option Nat) (d : Data) : List (String × AType) → Res (List AType)
  | [] => .ok []
  | (nm, t) :: fs =>
    if nm ∈ d.names then
      match d.fields[d.names.idxOf nm]? with
      | none => .error (.py "IndexError")
      | some f => match kindType maxSub f t, fieldTypes maxSub d fs with
        | .ok u, .ok us => .ok (u :: us)
        | .error e, _ => .error e
        | _, .error e => .error e
    else fieldTypes maxSub d fs

/-- `pfaValueType` (670-707), for a data type that is a record with these fields.  The parser gives a dict, so that types that are written
in the same way are taken once (datatype.py 747).  Without types `broadestType` returns something else than a type. -/
def pfaValueType (maxSub : Option Nat) (d : Data) (fields : List (String × AType)) : Res AType :=
  if d.names.all (fun nm => fields.any fun f => f.1 == nm) then
    match fieldTypes maxSub d fields with
    | .error e => .error e
    | .ok ts => match ts.eraseDups with
      | [] => .error (.py "AttributeError")
      | c :: cs => Sig.bt [] c cs
  else .error (.py "TypeError")

/-- `pfaScoreType` (709-721) -/
def pfaScoreType : Col → String
  | .num _ => "double"
  | .cat _ _ => "string"

/-- The optional fields. -/
structure Opts where
  nodeScores : Bool
  datasetSize : Bool
  predictandDistribution : Bool
  predictandUnique : Bool
  entropy : Bool
  nTimesVariance : Bool
  gain : Bool

/-- A value that is there when it is asked for. -/
def opt (b : Bool) (name : String) (v : Res Val) : Res (List (String × Val)) :=
  if b then (match v with | .ok x => .ok [(name, x)] | .error e => .error e) else .ok []

/-- `scoreDistribution` (869-872) -/
def distValue : Col → Res Val
  | .num _ => .error (.py "TypeError")
  | .cat codes names => .ok (.dict (((names.zip (distribution codes names)).insertionSort fun a b => strLe a.1 b.1 = true).map fun p => (p.1, .flt (.fin p.2))))

/-- `scoreValues` (874-880) -/
def uniqueValue : Col → Res Val
  | .num ys => .ok (.arr ((ys.dedup.insertionSort (· ≤ ·)).map fun q => .flt (.fin q)))
  | .cat codes names => .ok (.arr (((((names.zip (distribution codes names)).filter fun p => decide (p.2 > 0)).map Prod.fst).insertionSort fun a b => strLe a b = true).map .str))

/-- `entropy` and `nTimesVariance` (882-890) -/
def constValue (w : World) (number : Bool) (y : Col) : Res Val :=
  match y, number with
  | .num _, true => .ok (.flt (.fin (constant w y)))
  | .cat _ _, false => .ok (.flt (.fin (constant w y)))
  | _, _ => .error (.py "TypeError")

/-- All optional values (863-893). -/
def extras (w : World) (o : Opts) (d : Data) (y : Col) (s : Split) : Res (List (String × Val)) :=
  match opt o.nodeScores "score" (score y), opt o.datasetSize "datasetSize" (Res.app (fun n => Val.int n) d.len),
      opt o.predictandDistribution "scoreDistribution" (distValue y), opt o.predictandUnique "scoreValues" (uniqueValue y),
      opt o.entropy "entropy" (constValue w false y), opt o.nTimesVariance "nTimesVariance" (constValue w true y),
      opt o.gain "gain" (.ok (.flt (.fin s.gain))) with
  | .ok a, .ok b, .ok c, .ok e, .ok f, .ok g, .ok h => .ok (a ++ b ++ c ++ e ++ f ++ g ++ h)
  | _, _, _, _, _, _, _ => .error (.py "TypeError")

/-- `intToStr[x]` -/
def nameOf (names : List String) (x : Nat) : Res Val :=
  match names[x]? with
  | some s => .ok (.str s)
  | none => .error (.py "KeyError")

/-- Operator and value of a split (816-833). -/
def splitValue (maxSub : Option Nat) : Col → Cut → Res (String × Val)
  | .num _, .num c => .ok ("<=", .flt (.fin c))
  | .cat _ names, .cats cs =>
    if maxSub = some 1 then
      match cs with
      | [] => .error (.py "IndexError")
      | c :: _ => Res.app (fun v => ("==", v)) (nameOf names c)
    else Res.app (fun vs => ("in", Val.arr vs)) (mapR (nameOf names) cs)
  | _, _ => .error (.py "RuntimeError")

/-- `isinstance(valueType, AvroUnion)` -/
def isUnion : AType → Bool
  | .union _ => true
  | _ => false

/-- The tag of the value (836-845). -/
def tagValue (fields : List (String × AType)) (vt : AType) (nm op : String) (v : Val) : Res Val :=
  if isUnion vt then
    match fields.filter (fun f => f.1 == nm) with
    | [f] => .ok (.dict [(if op = "in" then "array" else f.2.name, v)])
    | _ => .error (.py "ValueError")
  else .ok v

/-- `pfaValue` (795-895); `vt` is the value type, `tree` the name of the node type. -/
def pfaValue (w : World) (o : Opts) (fields : List (String × AType)) (vt : AType) (tree : String) : Node → Res Val
  | .leaf _ y _ => Res.app (fun v => Val.dict [(pfaScoreType y, v)]) (score y)
  | .node d y s p f =>
    match d.names[s.index]?, d.fields[s.index]? with
    | some nm, some col => match splitValue w.maxSub col s.cut with
      | .error e => .error e
      | .ok (op, v) => match tagValue fields vt nm op v with
        | .error e => .error e
        | .ok value => match pfaValue w o fields vt tree p, pfaValue w o fields vt tree f with
          | .ok pv, .ok fv => match extras w o d y s with
            | .error e => .error e
            | .ok ex => .ok (.dict ([("field", .str nm), ("operator", .str op), ("value", value),
                ("pass", if p.isLeaf then pv else .dict [(tree, pv)]), ("fail", if f.isLeaf then fv else .dict [(tree, fv)])] ++ ex))
          | .error e, _ => .error e
          | _, .error e => .error e
    | _, _ => .error (.py "IndexError")

/-- The tree as the document has it (797-800, 930-953): the value type is that of the root. -/
def pfaTree (w : World) (o : Opts) (fields : List (String × AType)) (tree : String) (t : Node) : Res Val :=
  match pfaValueType w.maxSub t.data fields with
  | .ok vt => pfaValue w o fields vt tree t
  | .error e => .error e

/-- The parameter types of `model.tree.simpleTest` in the document (942-953). -/
def docTypes (fields : List (String × AType)) (vt : AType) (tree : String) : Types := ⟨fields, vt, tree⟩

/-- The action (948-953): `model.tree.simpleWalk` with `model.tree.simpleTest`. -/
def predict (env : Env) (n : Nat) (T : Types) (datum treeValue : Val) (fuel : Nat) : Res Val :=
  (simpleWalk (σ := Unit) T.node (fun node s => (simpleTest env n T datum node, s)) fuel treeValue ()).1

/-! ## Specification -/

/-- What a row has in a field. -/
inductive Cell
  | num (q : ℚ)
  | str (s : String)

/-- A number may be an int or a float. -/
def Cell.Is : Cell → Val → Prop
  | .num q, v => v = .flt (.fin q) ∨ ∃ i : Int, v = .int i ∧ (i : ℚ) = q
  | .str s, v => v = .str s

/-- The record `v` has the row `row` in the fields of the dataset, and numbers where the dataset has numbers. -/
def Reading (d : Data) (row : List Cell) (v : Val) : Prop :=
  ∀ (i : Nat) (f : Col) (nm : String), d.fields[i]? = some f → d.names[i]? = some nm →
    (∀ xs, f = .num xs → ∃ q x, row[i]? = some (.num q) ∧ look v nm = .ok x ∧ (Cell.num q).Is x) ∧
    (∀ xs ns, f = .cat xs ns → ∃ s x, row[i]? = some (.str s) ∧ look v nm = .ok x ∧ (Cell.str s).Is x)

/-- The row passes the split: its number is not above the cut, or its text is one of the texts of the split. -/
def Passes (d : Data) (s : Split) (row : List Cell) : Prop :=
  (∃ xs c q, d.fields[s.index]? = some (.num xs) ∧ s.cut = .num c ∧ row[s.index]? = some (.num q) ∧ q ≤ c) ∨
  (∃ xs ns cs k t, d.fields[s.index]? = some (.cat xs ns) ∧ s.cut = .cats cs ∧ k ∈ cs ∧ ns[k]? = some t ∧ row[s.index]? = some (.str t))

/-- The row comes to the leaf. -/
inductive Routes (row : List Cell) : Node → Node → Prop
  | leaf {d : Data} {y : Col} {t : Option Split} : Routes row (.leaf d y t) (.leaf d y t)
  | pass {d : Data} {y : Col} {s : Split} {p f l : Node} : Passes d s row → Routes row p l → Routes row (.node d y s p f) l
  | fail {d : Data} {y : Col} {s : Split} {p f l : Node} : ¬ Passes d s row → Routes row f l → Routes row (.node d y s p f) l

/-- The cut belongs to the column: a number, or codes that have names; with `maxSubsetSize` 1 a single one. -/
def CutFine (m : Option Nat) : Col → Cut → Prop
  | .num _, .num _ => True
  | .cat _ ns, .cats cs => cs ≠ [] ∧ (∀ c ∈ cs, c < ns.length) ∧ (m = some 1 → cs.length = 1)
  | _, _ => False

/-- All nodes have names and kinds of fields as the dataset has, and cuts that belong to them; the leaves have a score. -/
inductive Fine (m : Option Nat) (d : Data) (y : Col) : Node → Prop
  | leaf {rs : List Nat} {t : Option Split} : rs ≠ [] → Fine m d y (.leaf (d.at rs) (y.at rs) t)
  | node {rs : List Nat} {s : Split} {col : Col} {p f : Node} : rs ≠ [] → d.fields[s.index]? = some col → CutFine m col s.cut →
      Fine m d y p → Fine m d y f → Fine m d y (.node (d.at rs) (y.at rs) s p f)

/-! ## The value type -/

/-- The types that can occur. -/
def plain : List AType := [.int, .long, .float, .double, .string, .array .string]

theorem kindType_plain {m : Option Nat} {c : Col} {t u : AType} (h : kindType m c t = .ok u) : u ∈ plain := by
  cases c with
  | num xs =>
    simp only [kindType] at h
    by_cases ht : t ∈ [AType.int, .long, .float, .double]
    · rw [if_pos ht] at h
      cases h
      simp only [List.mem_cons, List.not_mem_nil, or_false] at ht
      rcases ht with rfl | rfl | rfl | rfl <;> simp [plain]
    · rw [if_neg ht] at h; cases h
  | cat xs ns =>
    simp only [kindType] at h
    by_cases ht : t = .string
    · rw [if_pos ht] at h
      subst ht
      split at h <;> cases h <;> simp [plain]
    · rw [if_neg ht] at h; cases h

theorem fieldTypes_mem {m : Option Nat} {d : Data} {fs : List (String × AType)} {ts : List AType} (h : fieldTypes m d fs = .ok ts) :
    (∀ u ∈ ts, u ∈ plain) ∧ ∀ nm t, (nm, t) ∈ fs → nm ∈ d.names → ∃ f u, d.fields[d.names.idxOf nm]? = some f ∧ kindType m f t = .ok u ∧ u ∈ ts := by
  induction fs generalizing ts with
  | nil => cases h; simp
  | cons a fs ih =>
    obtain ⟨nm, t⟩ := a
    unfold fieldTypes at h
    by_cases hm : nm ∈ d.names
    · rw [if_pos hm] at h
      cases hf : d.fields[d.names.idxOf nm]? with
      | none => rw [hf] at h; cases h
      | some f =>
        rw [hf] at h
        simp only at h
        cases hk : kindType m f t with
        | error e => rw [hk] at h; cases h
        | ok u =>
          cases hr : fieldTypes m d fs with
          | error e => rw [hk, hr] at h; cases h
          | ok us =>
            rw [hk, hr] at h
            cases h
            obtain ⟨i1, i2⟩ := ih hr
            constructor
            · intro v hv
              rcases List.mem_cons.1 hv with rfl | hv
              · exact kindType_plain hk
              · exact i1 v hv
            · intro nm' t' hm' hn'
              rcases List.mem_cons.1 hm' with h1 | h1
              · cases h1
                exact ⟨f, u, hf, hk, by simp⟩
              · obtain ⟨f', u', a, b, c⟩ := i2 nm' t' h1 hn'
                exact ⟨f', u', a, b, by simp [c]⟩
    · rw [if_neg hm] at h
      obtain ⟨i1, i2⟩ := ih h
      refine ⟨i1, fun nm' t' hm' hn' => ?_⟩
      rcases List.mem_cons.1 hm' with h1 | h1
      · cases h1; exact absurd hn' hm
      · exact i2 nm' t' h1 hn'

/-- One of the plain types, or a union of them. -/
def Simple (t : AType) : Prop := t ∈ plain ∨ ∃ ts, t = .union ts ∧ (∀ u ∈ ts, u ∈ plain) ∧ (ts.map AType.name).Nodup ∧ "union" ∉ ts.map AType.name

theorem mix_simple {cs : List AType} (hp : ∀ c ∈ cs, c ∈ plain) {t : AType} (h : Sig.mix [] cs = .ok t) : Simple t := by
  unfold Sig.mix at h
  simp only at h
  split at h
  · cases h
  · split at h
    · cases h
    · have hfl : ∀ c ∈ cs, c.flat = true := by
        intro c hc
        have := hp c hc
        simp only [plain, List.mem_cons, List.not_mem_nil, or_false] at this
        rcases this with rfl | rfl | rfl | rfl | rfl | rfl <;> rfl
      have hmem : ∀ (cs out : List AType), ∀ y ∈ cs.foldl (Sig.absorb []) out, y ∈ out ∨ y ∈ cs := by
        intro cs
        induction cs with
        | nil => intro out y hy; exact .inl hy
        | cons c cs ih =>
          intro out y hy
          rcases ih _ _ hy with hy | hy
          · rcases Sig.absorb_sub hy with hy | rfl
            · exact .inl hy
            · exact .inr (by simp)
          · exact .inr (by simp [hy])
      rw [Sig.distinctL_flat _ _ _ hfl] at h
      have h2 := Sig.mkUnion_ok h
      obtain ⟨rfl, hn⟩ := h2
      have hpl : ∀ u ∈ cs.foldl (Sig.absorb []) [], u ∈ plain := by
        intro u hu
        rcases hmem cs [] u hu with hu | hu
        · cases hu
        · exact hp u hu
      refine .inr ⟨_, rfl, hpl, hn, ?_⟩
      intro hx
      obtain ⟨u, hu, hux⟩ := List.mem_map.1 hx
      have := hpl u hu
      simp only [plain, List.mem_cons, List.not_mem_nil, or_false] at this
      rcases this with rfl | rfl | rfl | rfl | rfl | rfl <;> simp [AType.name] at hux

theorem bt_simple {c : AType} {cs : List AType} (hp : ∀ x ∈ c :: cs, x ∈ plain) {t : AType} (h : Sig.bt [] c cs = .ok t) : Simple t := by
  have hc := hp c (by simp)
  unfold Sig.bt at h
  by_cases h1 : ((c :: cs).all Sig.isNull) = true
  · rw [if_pos h1] at h; cases h; exact .inl hc
  rw [if_neg h1] at h
  by_cases h2 : ((c :: cs).all Sig.isBool) = true
  · rw [if_pos h2] at h; cases h; exact .inl hc
  rw [if_neg h2] at h
  split at h
  · cases h; exact .inl (by simp [plain])
  split at h
  · cases h; exact .inl (by simp [plain])
  split at h
  · cases h; exact .inl (by simp [plain])
  split at h
  · cases h; exact .inl (by simp [plain])
  split at h
  · cases h; exact .inl hc
  split at h
  · cases h; exact .inl hc
  have hsn : ∀ cs', Sig.sameName c cs' = .ok t → Simple t := by
    intro cs' h
    unfold Sig.sameName at h
    split at h <;> cases h
    exact .inl hc
  split at h
  · exact hsn _ h
  split at h
  · exact hsn _ h
  split at h
  · exact hsn _ h
  simp only [plain, List.mem_cons, List.not_mem_nil, or_false] at hc
  rcases hc with rfl | rfl | rfl | rfl | rfl | rfl
  · exact mix_simple hp h
  · exact mix_simple hp h
  · exact mix_simple hp h
  · exact mix_simple hp h
  · exact mix_simple hp h
  · simp only at h
    split at h
    · next ha =>
      have hall : (AType.string :: cs.map Sig.inner) = List.replicate (cs.length + 1) .string := by
        rw [List.replicate_succ, List.cons.injEq]
        refine ⟨rfl, ?_⟩
        rw [List.eq_replicate_iff]
        refine ⟨by simp, ?_⟩
        intro b hb
        obtain ⟨x, hx, rfl⟩ := List.mem_map.1 hb
        have h3 := hp x (by simp [hx])
        have h4 := List.all_eq_true.1 ha x hx
        simp only [plain, List.mem_cons, List.not_mem_nil, or_false] at h3
        rcases h3 with rfl | rfl | rfl | rfl | rfl | rfl <;> simp [Sig.isArray] at h4
        rfl
      have hbt : Sig.bt [] .string (cs.map Sig.inner) = .ok .string := by
        unfold Sig.bt
        rw [hall]
        simp [Sig.isNull, Sig.isBool, Sig.isInt, Sig.isLong, Sig.isFloat, Sig.isDouble, Sig.isBytes, Sig.isString, List.replicate_succ]
      rw [hbt] at h
      cases h
      exact .inl (by simp [plain])
    · exact mix_simple hp h

theorem simple_reparse {t : AType} (h : Simple t) : Lang.reparse t = .ok t := by
  have hp : ∀ u ∈ plain, Lang.reparse u = .ok u := by
    intro u hu
    simp only [plain, List.mem_cons, List.not_mem_nil, or_false] at hu
    rcases hu with rfl | rfl | rfl | rfl | rfl | rfl <;> rfl
  rcases h with h | ⟨ts, rfl, h1, h2, h3⟩
  · exact hp t h
  · have : ∀ ts : List AType, (∀ u ∈ ts, u ∈ plain) → Lang.reparse.reparseL ts = .ok ts := by
      intro ts
      induction ts with
      | nil => intro _; rfl
      | cons a ts ih =>
        intro h
        simp only [Lang.reparse.reparseL, hp a (h a (by simp)), ih fun u hu => h u (by simp [hu]), Res.app]
    simp only [Lang.reparse, this ts h1]
    unfold Sig.mkUnion
    rw [if_neg (by simpa using h2), if_neg h3]

/-- Types without records accept each other in every document. -/
theorem accepts_any {env : Env} {r t : AType} (h : accepts [] [] r t = true) : accepts env env r t = true := by
  obtain ⟨S, hS, ha⟩ := (accepts_iff [] [] r t).1 h
  refine (accepts_iff env env r t).2 ⟨S, ?_, ha⟩
  intro n hn
  obtain ⟨xs, ys, h1, -, -⟩ := hS n hn
  simp [Env.fields?, PyDict.get?] at h1

theorem nil_ok : Env.Ok [] := ⟨by simp [Env.fields?, PyDict.get?], by simp [Env.fields?, PyDict.get?]⟩

theorem plain_good {u : AType} (h : u ∈ plain) : Sig.Good [] (fun _ => none) u := by
  simp only [plain, List.mem_cons, List.not_mem_nil, or_false] at h
  rcases h with rfl | rfl | rfl | rfl | rfl | rfl <;> exact ⟨rfl, rfl, trivial⟩

/-- What the value type is good for. -/
theorem pfaValueType_spec {m : Option Nat} {d : Data} {fields : List (String × AType)} {vt : AType} (h : pfaValueType m d fields = .ok vt) :
    Simple vt ∧ (∀ nm ∈ d.names, ∃ t, (nm, t) ∈ fields) ∧
      ∀ nm t, (nm, t) ∈ fields → nm ∈ d.names → ∃ f u, d.fields[d.names.idxOf nm]? = some f ∧ kindType m f t = .ok u ∧
        ∀ env : Env, accepts env env vt u = true := by
  unfold pfaValueType at h
  split at h
  · next hall =>
    cases hf : fieldTypes m d fields with
    | error e => rw [hf] at h; cases h
    | ok ts =>
      rw [hf] at h
      simp only at h
      obtain ⟨h1, h2⟩ := fieldTypes_mem hf
      cases he : ts.eraseDups with
      | nil => rw [he] at h; cases h
      | cons c cs =>
        rw [he] at h
        simp only at h
        have hm : ∀ x, x ∈ c :: cs ↔ x ∈ ts := by
          intro x
          rw [← he]
          exact List.mem_eraseDups
        have hp : ∀ x ∈ c :: cs, x ∈ plain := fun x hx => h1 x ((hm x).1 hx)
        obtain ⟨h3, -, -⟩ := Sig.bt_ok nil_ok (sizeOf c) c cs vt le_rfl (fun x hx => plain_good (hp x hx)) h
        refine ⟨bt_simple hp h, ?_, ?_⟩
        · intro nm hn
          have := List.all_eq_true.1 hall nm hn
          simp only [List.any_eq_true, beq_iff_eq] at this
          obtain ⟨⟨a, b⟩, h5, h6⟩ := this
          simp only at h6
          subst h6
          exact ⟨b, h5⟩
        · intro nm t hmem hn
          obtain ⟨f, u, a, b, c⟩ := h2 nm t hmem hn
          exact ⟨f, u, a, b, fun env => accepts_any (h3 u ((hm u).2 c))⟩
  · cases h

/-! ## One node -/

theorem listOk_of {env : Env} {vt : AType} (hs : Simple vt) (h : accepts env env vt (.array .string) = true) : listOk env vt .string = true := by
  have inv : ∀ u ∈ plain, accepts env env u (.array .string) = true → u = .array .string := by
    intro u hu ha
    simp only [plain, List.mem_cons, List.not_mem_nil, or_false] at hu
    rcases hu with rfl | rfl | rfl | rfl | rfl | rfl <;> first | rfl | (simp [accepts, acc, overUnion] at ha)
  have hss : accepts env env .string .string = true := rfl
  rcases hs with hs | ⟨ts, rfl, h1, -, -⟩
  · rw [inv vt hs h]
    exact hss
  · unfold accepts at h
    rw [acc_union_flat _ _ _ rfl] at h
    obtain ⟨u, hu, ha⟩ := h
    simp only [listOk, List.any_eq_true]
    refine ⟨u, hu, ?_⟩
    rw [inv u (h1 u hu) ha]
    exact hss

theorem string_of {env : Env} {vt : AType} (hs : Simple vt) (h : accepts env env vt .string = true) :
    vt = .string ∨ ∃ ts, vt = .union ts ∧ (∀ u ∈ ts, u ∈ plain) ∧ (ts.map AType.name).Nodup ∧ .string ∈ ts := by
  have inv : ∀ u ∈ plain, accepts env env u .string = true → u = .string := by
    intro u hu h
    simp only [plain, List.mem_cons, List.not_mem_nil, or_false] at hu
    rcases hu with rfl | rfl | rfl | rfl | rfl | rfl <;> first | rfl | (simp [accepts, acc, overUnion] at h)
  rcases hs with hs | ⟨ts, rfl, h1, h2, -⟩
  · exact .inl (inv vt hs h)
  · unfold accepts at h
    rw [acc_union_flat _ _ _ rfl] at h
    obtain ⟨u, hu, ha⟩ := h
    have := inv u (h1 u hu) ha
    subst this
    exact .inr ⟨ts, rfl, h1, h2, hu⟩

/-- In a union of these types the text has one place, with the tag and without. -/
theorem resolve_string {env : Env} {n : Nat} {ts : List AType} (hp : ∀ u ∈ ts, u ∈ plain) (hn : (ts.map AType.name).Nodup) (hm : .string ∈ ts)
    (a b : String) : ∃ i, resolve (enc true env (n + 1)) ts (.str a) = .ok (i, .string, .str a) ∧
      resolve (enc true env (n + 1)) ts (.dict [("string", .str b)]) = .ok (i, .string, .str b) := by
  have he : ∀ u ∈ plain, u ≠ .string → enc true env (n + 1) u (.str a) = .error .avro := by
    intro u hu hne
    simp only [plain, List.mem_cons, List.not_mem_nil, or_false] at hu
    rcases hu with rfl | rfl | rfl | rfl | rfl | rfl <;> first | rfl | exact absurd rfl hne
  have hs : enc true env (n + 1) .string (.str a) = .ok (.str a) := rfl
  have hname : ∀ u ∈ plain, u.name = "string" → u = .string := by
    intro u hu h
    simp only [plain, List.mem_cons, List.not_mem_nil, or_false] at hu
    rcases hu with rfl | rfl | rfl | rfl | rfl | rfl <;> first | rfl | (simp [AType.name] at h)
  have hskip : ∀ (ts : List AType) (k : Nat) (o : Option (Nat × AType)), (∀ u ∈ ts, u ∈ plain) → .string ∉ ts →
      lastEnc (enc true env (n + 1)) (.str a) k ts o = .ok o := by
    intro ts
    induction ts with
    | nil => intros; rfl
    | cons u ts ih =>
      intro k o h1 h2
      simp only [lastEnc, he u (h1 u (by simp)) (fun e => h2 (by simp [e]))]
      exact ih _ _ (fun v hv => h1 v (by simp [hv])) (fun h => h2 (by simp [h]))
  have key : ∀ (ts : List AType) (k : Nat) (o : Option (Nat × AType)), (∀ u ∈ ts, u ∈ plain) → (ts.map AType.name).Nodup → .string ∈ ts →
      ∃ i, lastEnc (enc true env (n + 1)) (.str a) k ts o = .ok (some (i, .string)) ∧ findTag "string" k ts = some (i, .string) := by
    intro ts
    induction ts with
    | nil => intro k o h1 h2 h3; cases h3
    | cons u ts ih =>
      intro k o h1 h2 h3
      rw [List.map_cons, List.nodup_cons] at h2
      by_cases hu : u = .string
      · subst hu
        refine ⟨k, ?_, by simp [findTag, AType.name]⟩
        simp only [lastEnc, hs]
        exact hskip ts _ _ (fun v hv => h1 v (by simp [hv])) (fun h => h2.1 (List.mem_map.2 ⟨_, h, rfl⟩))
      · have hmem : .string ∈ ts := by
          rcases List.mem_cons.1 h3 with h | h
          · exact absurd h.symm hu
          · exact h
        obtain ⟨i, b1, b2⟩ := ih (k + 1) o (fun v hv => h1 v (by simp [hv])) h2.2 hmem
        refine ⟨i, ?_, ?_⟩
        · simp only [lastEnc, he u (h1 u (by simp)) hu]
          exact b1
        · unfold findTag
          rw [if_neg (fun h => hu (hname u (h1 u (by simp)) h))]
          exact b2
  obtain ⟨i, b1, b2⟩ := key ts 0 none hp hn hm
  exact ⟨i, by simp [resolve, b1], by simp [resolve, b2]⟩

/-- Texts compare in the union as they compare without it. -/
theorem compareWith_mixed {env : Env} {c1 c2 : Int} {ts : List AType} (hp : ∀ u ∈ ts, u ∈ plain) (hn : (ts.map AType.name).Nodup) (hm : .string ∈ ts)
    {op : String} (ho : op ∈ ops) (a b : String) (n : Nat) :
    compareWith env (n + 2) true c1 c2 op .string (.union ts) (.str a) (.dict [("string", .str b)]) =
      compareWith env (n + 1) true c1 c2 op .string .string (.str a) (.str b) := by
  obtain ⟨i, h1, h2⟩ := resolve_string (env := env) (n := n) hp hn hm a b
  have hc : Avro.cmp env (n + 2) (.union ts) (.str a) (.dict [("string", .str b)]) = Avro.cmp env (n + 1) .string (.str a) (.str b) := by
    show cmpStep env (Avro.cmp env (n + 1)) (enc true env (n + 1)) (.union ts) _ _ = _
    simp only [cmpStep, h1, h2, if_true]
  have hacc : accepts env env (.union ts) .string = true := by
    unfold accepts
    rw [acc_union_flat _ _ _ rfl]
    exact ⟨_, hm, rfl⟩
  have hacc2 : accepts env env .string .string = true := rfl
  rw [compareWith_ordered ho, compareWith_ordered ho]
  simp [ordered, hacc, hacc2, isNum, hc]

theorem filter_name {fields : List (String × AType)} (hn : (fields.map Prod.fst).Nodup) {nm : String} {t : AType} (h : (nm, t) ∈ fields) :
    fields.filter (fun f => f.1 == nm) = [(nm, t)] := by
  induction fields with
  | nil => cases h
  | cons a fields ih =>
    rw [List.map_cons, List.nodup_cons] at hn
    rw [List.filter_cons]
    rcases List.mem_cons.1 h with h1 | h1
    · subst h1
      simp only [beq_self_eq_true, if_true, List.cons.injEq, true_and]
      rw [List.filter_eq_nil_iff]
      intro b hb
      simp only [beq_iff_eq]
      intro e
      exact hn.1 (List.mem_map.2 ⟨b, hb, e⟩)
    · have : a.1 ≠ nm := fun e => hn.1 (List.mem_map.2 ⟨_, h1, e.symm⟩)
      simp only [beq_iff_eq, this, if_false]
      exact ih hn.2 h1

theorem get_name {fields : List (String × AType)} (hn : (fields.map Prod.fst).Nodup) {nm : String} {t : AType} (h : (nm, t) ∈ fields) :
    PyDict.get? fields nm = some t := by
  induction fields with
  | nil => cases h
  | cons a fields ih =>
    rw [List.map_cons, List.nodup_cons] at hn
    rw [PyDict.get?_cons]
    rcases List.mem_cons.1 h with h1 | h1
    · subst h1; simp
    · have : a.1 ≠ nm := fun e => hn.1 (List.mem_map.2 ⟨_, h1, e.symm⟩)
      rw [if_neg this]
      exact ih hn.2 h1

theorem mapR_names {ns : List String} {cs : List Nat} {vs : List Val} (h : mapR (nameOf ns) cs = .ok vs) :
    ∀ v, v ∈ vs ↔ ∃ k ∈ cs, ∃ t, ns[k]? = some t ∧ v = .str t := by
  induction cs generalizing vs with
  | nil => cases h; simp
  | cons c cs ih =>
    unfold mapR at h
    cases hc : nameOf ns c with
    | error e => rw [hc] at h; cases h
    | ok v0 =>
      rw [hc] at h
      simp only at h
      cases hr : mapR (nameOf ns) cs with
      | error e => rw [hr] at h; cases h
      | ok us =>
        rw [hr] at h
        cases h
        unfold nameOf at hc
        cases hk : ns[c]? with
        | none => rw [hk] at hc; cases hc
        | some t =>
          rw [hk] at hc
          cases hc
          intro v
          rw [List.mem_cons, ih hr]
          constructor
          · rintro (rfl | ⟨k, h1, h2⟩)
            · exact ⟨c, by simp, t, hk, rfl⟩
            · exact ⟨k, by simp [h1], h2⟩
          · rintro ⟨k, h1, t', h2, rfl⟩
            rcases List.mem_cons.1 h1 with rfl | h1
            · rw [hk] at h2; cases h2; exact .inl rfl
            · exact .inr ⟨k, h1, t', h2, rfl⟩

open Classical in
/-- The test of a node of the document tells whether the row passes its split. -/
theorem simpleTest_node {env : Env} {n : Nat} {m : Option Nat} {d : Data} {fields : List (String × AType)} {vt : AType} {tree : String}
    (hvt : pfaValueType m d fields = .ok vt) (hdn : d.names.Nodup) (hfn : (fields.map Prod.fst).Nodup)
    {row : List Cell} {datum : Val} (hr : Reading d row datum) {s : Split} {col : Col} {nm op : String} {v value node : Val}
    (hnm : d.names[s.index]? = some nm) (hcol : d.fields[s.index]? = some col) (hcut : CutFine m col s.cut)
    (hsv : splitValue m col s.cut = .ok (op, v)) (htv : tagValue fields vt nm op v = .ok value)
    (h1 : look node "field" = .ok (.str nm)) (h2 : look node "operator" = .ok (.str op)) (h3 : look node "value" = .ok value) :
    simpleTest env (n + 2) (docTypes fields vt tree) datum node = .ok (decide (Passes d s row)) := by
  obtain ⟨hs, h4, h5⟩ := pfaValueType_spec hvt
  obtain ⟨hi, hnm'⟩ := List.getElem?_eq_some_iff.1 hnm
  have hmem : nm ∈ d.names := hnm' ▸ List.getElem_mem hi
  obtain ⟨t, ht⟩ := h4 nm hmem
  obtain ⟨f, u, hf, hk, hacc⟩ := h5 nm t ht hmem
  have hidx : d.names.idxOf nm = s.index := by
    rw [← hnm']
    exact hdn.idxOf_getElem _ hi
  rw [hidx, hcol] at hf
  cases hf
  have hg := get_name hfn ht
  obtain ⟨r1, r2⟩ := hr s.index col nm hcol hnm
  have fl := filter_name hfn ht
  have hvr := simple_reparse hs
  cases col with
  | num xs =>
    cases hc : s.cut with
    | cats cs => rw [hc] at hsv; cases hsv
    | num c =>
      rw [hc] at hsv
      cases hsv
      obtain ⟨q, x, a1, a2, a3⟩ := r1 xs rfl
      simp only [kindType] at hk
      by_cases hnt : t ∈ [AType.int, .long, .float, .double]
      · rw [if_pos hnt] at hk
        cases hk
        have hnum : isNum t = true := by
          simp only [List.mem_cons, List.not_mem_nil, or_false] at hnt
          rcases hnt with rfl | rfl | rfl | rfl <;> rfl
        have hrt : Lang.reparse t = .ok t := by
          simp only [List.mem_cons, List.not_mem_nil, or_false] at hnt
          rcases hnt with rfl | rfl | rfl | rfl <;> rfl
        have hval : pyNum (untagNum value) = some (.fin c) := by
          unfold tagValue at htv
          split at htv
          · rw [fl] at htv
            cases htv
            simp only [List.mem_cons, List.not_mem_nil, or_false] at hnt
            rcases hnt with rfl | rfl | rfl | rfl <;> simp [untagNum, AType.name, pyNum]
          · cases htv
            rfl
        have hx : pyNum x = some (.fin q) := by
          rcases a3 with rfl | ⟨i, rfl, rfl⟩ <;> rfl
        have hrd : Reads (docTypes fields vt tree) datum node "<=" t x value := ⟨⟨nm, h1, a2, hg⟩, h2, h3⟩
        obtain ⟨r, e1, e2⟩ := compareWith_num (env := env) (n := n + 2) (c1 := 32001) (c2 := 32000) (mo := true) (op := "<=") (by decide) hnum
          (.inr (hacc env)) hx (by simp) hval (by simp)
        rw [simpleTest, simpleComparison_eq hrd (fieldOf_true t x) hrt hvr, e1]
        simp only [decided, Except.ok.injEq]
        have e3 : r = true ↔ q ≤ c := by
          rw [e2]
          simp [Rel, fltKey, Prod.Lex.le_iff]
        have e4 : Passes d s row ↔ q ≤ c := by
          unfold Passes
          constructor
          · rintro (⟨xs', c', q', b1, b2, b3, b4⟩ | ⟨xs', ns, cs, k, t', b1, -⟩)
            · rw [hc] at b2; cases b2
              rw [a1] at b3; cases b3
              exact b4
            · rw [hcol] at b1; cases b1
          · intro h; exact .inl ⟨xs, c, q, hcol, hc, a1, h⟩
        by_cases hq : q ≤ c
        · rw [decide_eq_true (e4.2 hq)]; exact e3.2 hq
        · rw [decide_eq_false (fun h => hq (e4.1 h))]
          cases hrr : r
          · rfl
          · exact absurd (e3.1 hrr) hq
      · rw [if_neg hnt] at hk; cases hk
  | cat xs ns =>
    cases hc : s.cut with
    | num c => rw [hc] at hsv; cases hsv
    | cats cs =>
      rw [hc] at hsv hcut
      obtain ⟨k1, k2, k3⟩ := hcut
      obtain ⟨tx, x, a1, a2, a3⟩ := r2 xs ns rfl
      simp only [Cell.Is] at a3
      subst a3
      simp only [kindType] at hk
      by_cases hst : t = .string
      · rw [if_pos hst] at hk
        subst hst
        have e4 : Passes d s row ↔ ∃ k ∈ cs, ns[k]? = some tx := by
          unfold Passes
          constructor
          · rintro (⟨xs', c', q', b1, -⟩ | ⟨xs', ns', cs', k, t', b1, b2, b3, b4, b5⟩)
            · rw [hcol] at b1; cases b1
            · rw [hcol] at b1; cases b1
              rw [hc] at b2; cases b2
              rw [a1] at b5; cases b5
              exact ⟨k, b3, b4⟩
          · rintro ⟨k, b3, b4⟩
            exact .inr ⟨xs, ns, cs, k, tx, hcol, hc, b3, b4, a1⟩
        by_cases hm1 : m = some 1
        · simp only [hm1, if_true, Except.ok.injEq] at hk
          subst hk
          have hlen := k3 hm1
          match cs, hlen with
          | [c], _ =>
            simp only [splitValue, hm1, if_true] at hsv
            cases hno : nameOf ns c with
            | error e => rw [hno] at hsv; cases hsv
            | ok v0 =>
              rw [hno] at hsv
              simp only [Res.app, Except.ok.injEq, Prod.mk.injEq] at hsv
              obtain ⟨rfl, rfl⟩ := hsv
              unfold nameOf at hno
              cases hkk : ns[c]? with
              | none => rw [hkk] at hno; cases hno
              | some t' =>
                rw [hkk] at hno
                cases hno
                have hrd : Reads (docTypes fields vt tree) datum node "==" .string (.str tx) value := ⟨⟨nm, h1, a2, hg⟩, h2, h3⟩
                have hcmp : ∃ r, compareWith env (n + 2) true 32001 32000 "==" .string vt (.str tx) value = .ok (some r) ∧
                    (r = true ↔ Rel "==" (tx.toList.map Char.toNat) (t'.toList.map Char.toNat)) := by
                  rcases string_of hs (hacc env) with rfl | ⟨ts, rfl, g1, g2, g3⟩
                  · simp only [tagValue, isUnion, Bool.false_eq_true, if_false, Except.ok.injEq] at htv
                    subst htv
                    exact compareWith_str (op := "==") (by decide) tx t' (n + 1)
                  · simp only [tagValue, isUnion, if_true, fl, AType.name, String.reduceEq, if_false, Except.ok.injEq] at htv
                    subst htv
                    rw [compareWith_mixed g1 g2 g3 (by decide) tx t' n]
                    exact compareWith_str (op := "==") (by decide) tx t' n
                obtain ⟨r, e1, e2⟩ := hcmp
                rw [simpleTest, simpleComparison_eq hrd (fieldOf_true _ _) rfl hvr]
                simp only [docTypes, e1]
                simp only [decided, Except.ok.injEq]
                have e3 : r = true ↔ tx = t' := by
                  rw [e2]
                  simp only [Rel, String.reduceEq, false_and, false_or, true_and, or_false]
                  constructor
                  · intro h
                    have := (List.map_injective_iff.2 (fun x y => toNat_inj.1)) h
                    exact String.toList_inj.1 this
                  · rintro rfl; rfl
                have e5 : Passes d s row ↔ tx = t' := by
                  rw [e4]
                  simp only [List.mem_singleton, exists_eq_left, hkk, Option.some.injEq]
                  exact eq_comm
                by_cases hq : tx = t'
                · rw [decide_eq_true (e5.2 hq)]; exact e3.2 hq
                · rw [decide_eq_false (fun h => hq (e5.1 h))]
                  cases hrr : r
                  · rfl
                  · exact absurd (e3.1 hrr) hq
        · simp only [hm1, if_false, Except.ok.injEq] at hk
          subst hk
          simp only [splitValue, hm1, if_false] at hsv
          cases hno : mapR (nameOf ns) cs with
          | error e => rw [hno] at hsv; cases hsv
          | ok vs =>
            rw [hno] at hsv
            simp only [Res.app, Except.ok.injEq, Prod.mk.injEq] at hsv
            obtain ⟨rfl, rfl⟩ := hsv
            have hval : untagArray value = .arr vs := by
              unfold tagValue at htv
              split at htv
              · rw [fl] at htv
                cases htv
                simp [untagArray]
              · cases htv
                rfl
            have hrd : Reads (docTypes fields vt tree) datum node "in" .string (.str tx) value := ⟨⟨nm, h1, a2, hg⟩, h2, h3⟩
            have e1 := (compareWith_in (env := env) (n := n + 2) (c1 := 32001) (c2 := 32000) (mo := true) (op := "in") (ft := .string)
              (vt := vt) (x := .str tx) (listOk_of hs (hacc env)) (.inl rfl) hval).1 rfl
            rw [simpleTest, simpleComparison_eq hrd (fieldOf_true _ _) rfl hvr, e1]
            simp only [decided, Except.ok.injEq, decide_eq_decide]
            rw [e4]
            have := mapR_names hno
            constructor
            · rintro ⟨v', b1, b2⟩
              obtain ⟨k, b3, t', b4, rfl⟩ := (this v').1 b1
              simp only [same, beq_iff_eq] at b2
              subst b2
              exact ⟨k, b3, b4⟩
            · rintro ⟨k, b3, b4⟩
              exact ⟨.str tx, (this _).2 ⟨k, b3, tx, b4, rfl⟩, by simp [same]⟩
      · rw [if_neg hst] at hk; cases hk

/-! ## The walk -/

theorem passes_at (d : Data) (rs : List Nat) (s : Split) (row : List Cell) : Passes (d.at rs) s row ↔ Passes d s row := by
  unfold Passes
  rw [at_field]
  cases hf : d.fields[s.index]? with
  | none => simp
  | some f => cases f <;> simp [Col.at]

theorem splitValue_at (m : Option Nat) (rs : List Nat) (c : Col) (k : Cut) : splitValue m (c.at rs) k = splitValue m c k := by
  cases c <;> cases k <;> rfl

theorem pfaScoreType_at (rs : List Nat) (y : Col) : pfaScoreType (y.at rs) = pfaScoreType y := by cases y <;> rfl

/-- The parts of the value of an inner node. -/
theorem pfaValue_node {w : World} {o : Opts} {fields : List (String × AType)} {vt : AType} {tree : String} {d : Data} {y : Col} {s : Split}
    {p f : Node} {v : Val} (h : pfaValue w o fields vt tree (.node d y s p f) = .ok v) :
    ∃ nm col op x value pv fv ex, d.names[s.index]? = some nm ∧ d.fields[s.index]? = some col ∧ splitValue w.maxSub col s.cut = .ok (op, x) ∧
      tagValue fields vt nm op x = .ok value ∧ pfaValue w o fields vt tree p = .ok pv ∧ pfaValue w o fields vt tree f = .ok fv ∧
      v = .dict ([("field", .str nm), ("operator", .str op), ("value", value),
        ("pass", if p.isLeaf then pv else .dict [(tree, pv)]), ("fail", if f.isLeaf then fv else .dict [(tree, fv)])] ++ ex) := by
  unfold pfaValue at h
  cases h1 : d.names[s.index]? with
  | none => rw [h1] at h; cases h
  | some nm =>
    cases h2 : d.fields[s.index]? with
    | none => rw [h1, h2] at h; cases h
    | some col =>
      rw [h1, h2] at h
      simp only at h
      cases h3 : splitValue w.maxSub col s.cut with
      | error e => rw [h3] at h; cases h
      | ok ox =>
        obtain ⟨op, x⟩ := ox
        rw [h3] at h
        simp only at h
        cases h4 : tagValue fields vt nm op x with
        | error e => rw [h4] at h; cases h
        | ok value =>
          rw [h4] at h
          simp only at h
          cases h5 : pfaValue w o fields vt tree p with
          | error e => rw [h5] at h; cases h
          | ok pv =>
            cases h6 : pfaValue w o fields vt tree f with
            | error e => rw [h5, h6] at h; cases h
            | ok fv =>
              rw [h5, h6] at h
              simp only at h
              cases h7 : extras w o d y s with
              | error e => rw [h7] at h; cases h
              | ok ex =>
                rw [h7] at h
                exact ⟨nm, col, op, x, value, pv, fv, ex, rfl, rfl, h3, h4, rfl, rfl, (Except.ok.inj h).symm⟩

open Classical in
/-- **C87.** The document gives for every record the score of the leaf that the record comes to, whatever optional fields it has. -/
theorem predict_routes {env : Env} {n : Nat} {w : World} {o : Opts} {d : Data} {y : Col} {fields : List (String × AType)} {vt : AType} {tree : String}
    (hvt : pfaValueType w.maxSub d fields = .ok vt) (hdn : d.names.Nodup) (hfn : (fields.map Prod.fst).Nodup)
    (ht : pfaScoreType y ≠ tree) {row : List Cell} {datum : Val} (hr : Reading d row datum)
    {t l : Node} (hfine : Fine w.maxSub d y t) (hro : Routes row t l) (hin : t.isLeaf = false) {v : Val}
    (hv : pfaValue w o fields vt tree t = .ok v) (k : Nat) (hk : sizeOf v ≤ k) :
    predict env (n + 2) (docTypes fields vt tree) datum v k = score l.y := by
  have leafCase : ∀ {rs : List Nat} {tr : Option Split} {l' : Node} {pv : Val}, Routes row (.leaf (d.at rs) (y.at rs) tr) l' →
      pfaValue w o fields vt tree (.leaf (d.at rs) (y.at rs) tr) = .ok pv → ∃ x, pv = .dict [(pfaScoreType y, x)] ∧ score l'.y = .ok x := by
    intro rs tr l' pv h1 h2
    cases h1
    simp only [pfaValue] at h2
    cases hs : score (y.at rs) with
    | error e => rw [hs] at h2; cases h2
    | ok x =>
      rw [hs] at h2
      cases h2
      exact ⟨x, by rw [pfaScoreType_at], hs⟩
  induction hfine generalizing v k l with
  | leaf => simp [Node.isLeaf] at hin
  | @node rs s col p f hrs hcol hcut hp hf ihp ihf =>
    obtain ⟨nm, col', op, x, value, pv, fv, ex, a1, a2, a3, a4, a5, a6, rfl⟩ := pfaValue_node hv
    rw [at_field, hcol] at a2
    cases a2
    rw [splitValue_at] at a3
    have htest := simpleTest_node (env := env) (n := n) (tree := tree) hvt hdn hfn hr (s := s)
      (node := .dict ([("field", .str nm), ("operator", .str op), ("value", value),
        ("pass", if p.isLeaf then pv else .dict [(tree, pv)]), ("fail", if f.isLeaf then fv else .dict [(tree, fv)])] ++ ex))
      a1 hcol hcut a3 a4 rfl rfl rfl
    have gp : PyDict.get? ([("field", .str nm), ("operator", .str op), ("value", value),
        ("pass", if p.isLeaf then pv else .dict [(tree, pv)]), ("fail", if f.isLeaf then fv else .dict [(tree, fv)])] ++ ex) "pass" =
        some (if p.isLeaf then pv else .dict [(tree, pv)]) := rfl
    have gf : PyDict.get? ([("field", .str nm), ("operator", .str op), ("value", value),
        ("pass", if p.isLeaf then pv else .dict [(tree, pv)]), ("fail", if f.isLeaf then fv else .dict [(tree, fv)])] ++ ex) "fail" =
        some (if f.isLeaf then fv else .dict [(tree, fv)]) := rfl
    generalize hd : ([("field", .str nm), ("operator", .str op), ("value", value),
        ("pass", if p.isLeaf then pv else .dict [(tree, pv)]), ("fail", if f.isLeaf then fv else .dict [(tree, fv)])] ++ ex :
        List (String × Val)) = dv at *
    cases k with
    | zero => simp at hk
    | succ k =>
      unfold predict simpleWalk
      rw [walk]
      simp only [choose2, htest]
      cases hro with
      | pass hpa hro =>
        rw [passes_at] at hpa
        simp only [decide_eq_true hpa, if_true, look, gp]
        cases hp with
        | leaf =>
          obtain ⟨x, rfl, hx⟩ := leafCase hro a5
          simp [Node.isLeaf, descend, docTypes, ht, hx]
        | @node rs' s' col2 p' f' b1 b2 b3 b4 b5 =>
          simp only [Node.isLeaf, Bool.false_eq_true, if_false, descend, docTypes, ne_eq, not_true]
          have hsz := size_lt (t := tree) (n := pv) gp
          have := ihp hro rfl a5 k (by omega)
          simpa only [predict, simpleWalk, docTypes] using this
      | fail hpa hro =>
        rw [passes_at] at hpa
        simp only [decide_eq_false hpa, Bool.false_eq_true, if_false, look, gf]
        cases hf with
        | leaf =>
          obtain ⟨x, rfl, hx⟩ := leafCase hro a6
          simp [Node.isLeaf, descend, docTypes, ht, hx]
        | @node rs' s' col2 p' f' b1 b2 b3 b4 b5 =>
          simp only [Node.isLeaf, Bool.false_eq_true, if_false, descend, docTypes, ne_eq, not_true]
          have hsz := size_lt (t := tree) (n := fv) gf
          have := ihf hro rfl a6 k (by omega)
          simpa only [predict, simpleWalk, docTypes] using this

/-- Every row comes to a leaf. -/
theorem routes_total (row : List Cell) (t : Node) : ∃ l, Routes row t l ∧ l.isLeaf = true := by
  induction t with
  | leaf d y t => exact ⟨_, .leaf, rfl⟩
  | node d y s p f hp hf =>
    by_cases h : Passes d s row
    · obtain ⟨l, h1, h2⟩ := hp; exact ⟨l, .pass h h1, h2⟩
    · obtain ⟨l, h1, h2⟩ := hf; exact ⟨l, .fail h h1, h2⟩

/-! ## Trees that have been grown -/

theorem bestField_from {w : World} {y : Col} {best : Option Split} {i : Nat} {fs : List Col} {s : Split}
    (h : bestField w y best i fs = .ok (some s)) :
    best = some s ∨ ∃ (j : Nat) (f : Col) (g : ℚ), s.index = i + j ∧ fs[j]? = some f ∧ gainTerm w y f = .ok (g, s.cut) := by
  induction fs generalizing best i with
  | nil => simp only [bestField, Except.ok.injEq] at h; exact .inl h
  | cons f fs ih =>
    unfold bestField at h
    cases hg : gainTerm w y f with
    | error e => rw [hg] at h; cases h
    | ok gc =>
      obtain ⟨g, c⟩ := gc
      rw [hg] at h
      simp only at h
      have new : (∃ (j : Nat) (f' : Col) (g' : ℚ), s.index = i + 1 + j ∧ fs[j]? = some f' ∧ gainTerm w y f' = .ok (g', s.cut)) →
          ∃ (j : Nat) (f' : Col) (g' : ℚ), s.index = i + j ∧ (f :: fs)[j]? = some f' ∧ gainTerm w y f' = .ok (g', s.cut) := by
        rintro ⟨j, f', g', e1, e2, e3⟩
        exact ⟨j + 1, f', g', by omega, by simpa using e2, e3⟩
      have here : (some (⟨g + constant w y, c, i⟩ : Split) = some s) →
          ∃ (j : Nat) (f' : Col) (g' : ℚ), s.index = i + j ∧ (f :: fs)[j]? = some f' ∧ gainTerm w y f' = .ok (g', s.cut) := by
        intro e
        cases e
        exact ⟨0, f, g, by simp, rfl, hg⟩
      cases best with
      | none =>
        rcases ih h with h1 | h1
        · exact .inr (here h1)
        · exact .inr (new h1)
      | some b =>
        simp only at h
        split at h
        · rcases ih h with h1 | h1
          · exact .inr (here h1)
          · exact .inr (new h1)
        · rcases ih h with h1 | h1
          · exact .inl h1
          · exact .inr (new h1)

theorem unique_length {xs : List Nat} {k : Nat} (h : ∀ x ∈ xs, x < k) : (uniqueCodes xs).length ≤ k := by
  obtain ⟨h1, h2⟩ := uniqueCodes_spec xs
  have : uniqueCodes xs ⊆ List.range k := by
    intro x hx
    exact List.mem_range.2 (h x ((h2 x).1 hx))
  simpa using (List.subperm_of_subset h1 this).length_le

/-- The cut that a field gives belongs to it. -/
theorem gainTerm_fine {w : World} {y f : Col} {g : ℚ} {c : Cut} (hc : ∀ xs ns, f = .cat xs ns → ∀ x ∈ xs, x < ns.length)
    (h : gainTerm w y f = .ok (g, c)) : CutFine w.maxSub f c := by
  have small : ∀ {r sel : List Nat}, sel ∈ tried w.maxSub r → sel ≠ [] ∧ (∀ x ∈ sel, x ∈ r) ∧ (w.maxSub = some 1 → sel.length = 1) := by
    intro r sel hsel
    obtain ⟨h1, h2, h3⟩ := (mem_tried _ _ _).1 hsel
    refine ⟨List.ne_nil_of_length_pos h2, fun x hx => h1.subset hx, fun hm => ?_⟩
    rw [hm] at h3
    simp only [largest] at h3
    omega
  cases f with
  | num xs =>
    cases y with
    | num ys =>
      simp only [gainTerm] at h
      split at h <;> cases h
      trivial
    | cat cs ns =>
      simp only [gainTerm] at h
      split at h <;> cases h
      trivial
  | cat xs xns =>
    have hx := hc xs xns rfl
    cases y with
    | num ys =>
      simp only [gainTerm] at h
      cases hb : catVariance w xs ys with
      | none => rw [hb] at h; cases h
      | some gc =>
        rw [hb] at h
        cases h
        obtain ⟨h1, -, -⟩ := bestOf_max hb
        obtain ⟨s1, s2, s3⟩ := small h1
        refine ⟨s1, fun x hxs => ?_, s3⟩
        have := List.mem_range.1 (s2 x hxs)
        have := unique_length hx
        omega
    | cat cs ns =>
      simp only [gainTerm] at h
      cases hb : catEntropy w xs xns cs ns with
      | none => rw [hb] at h; cases h
      | some gc =>
        rw [hb] at h
        cases h
        obtain ⟨h1, -, -⟩ := bestOf_max hb
        obtain ⟨s1, s2, s3⟩ := small h1
        refine ⟨s1, fun x hxs => ?_, s3⟩
        have := (List.mem_filter.1 (s2 x hxs)).1
        exact List.mem_range.1 this

theorem cutFine_at {m : Option Nat} {rs : List Nat} {f : Col} {c : Cut} (h : CutFine m (f.at rs) c) : CutFine m f c := by
  cases f <;> cases c <;> exact h

/-- A tree that has been grown is fine. -/
theorem splitUntil_fine {w : World} {condition : Node → Nat → Bool} {n : Nat} {d : Data} {y : Col} (hd : Sound n d y) (fuel depth : Nat)
    (rs : List Nat) (hne : rs ≠ []) (hrs : ∀ i ∈ rs, i < n) (t : Node) (h : splitUntil w condition fuel depth (d.at rs) (y.at rs) = .ok t) :
    Fine w.maxSub d y t := by
  induction fuel generalizing depth rs t with
  | zero =>
    unfold splitUntil at h
    by_cases hc : canSplit (y.at rs) = true
    · rw [if_pos hc] at h; cases h
    · rw [if_neg hc] at h; cases h; exact .leaf hne
  | succ fuel ih =>
    unfold splitUntil at h
    by_cases hc : canSplit (y.at rs) = true
    · rw [if_pos hc] at h
      simp only at h
      cases ho : splitOnce w (d.at rs) (y.at rs) with
      | error e => rw [ho] at h; cases h
      | ok nd =>
        rw [ho] at h
        rcases splitOnce_cases ho with ⟨s, -, rfl, -, -⟩ | ⟨s, hb, hs, h1, h2, rfl⟩
        · cases h; exact .leaf hne
        · have hfine : ∃ col, d.fields[s.index]? = some col ∧ CutFine w.maxSub col s.cut := by
            rcases bestField_from hb with h3 | ⟨j, f, g, e1, e2, e3⟩
            · cases h3
            · rw [at_field] at e2
              rw [Nat.zero_add] at e1
              rw [← e1] at e2
              cases hcol : d.fields[s.index]? with
              | none => rw [hcol] at e2; cases e2
              | some col =>
                rw [hcol] at e2
                simp only [Option.map_some, Option.some.injEq] at e2
                subst e2
                refine ⟨col, rfl, cutFine_at (gainTerm_fine ?_ e3)⟩
                intro xs ns hx x hxs
                have hmem := List.mem_of_getElem? hcol
                cases col with
                | num xs' => cases hx
                | cat xs' ns' =>
                  cases hx
                  obtain ⟨i, hi, rfl⟩ := List.mem_map.1 hxs
                  have hlen : xs'.length = n := hd.len _ hmem
                  have hin := hrs i hi
                  rw [List.getD_eq_getElem _ _ (by omega)]
                  exact hd.codes xs' _ hmem _ (List.getElem_mem _)
          obtain ⟨col, hcol, hcut⟩ := hfine
          simp only at h
          have r1 : ∀ i ∈ rs.filter (goesB d s), i < n := fun i hi => hrs i (List.mem_filter.1 hi).1
          have r2 : ∀ i ∈ rs.filter (fun i => !goesB d s i), i < n := fun i hi => hrs i (List.mem_filter.1 hi).1
          split at h
          · cases hp : splitUntil w condition fuel (depth + 1) (d.at (rs.filter (goesB d s))) (y.at (rs.filter (goesB d s))) with
            | error e => rw [hp] at h; cases h
            | ok p =>
              cases hf : splitUntil w condition fuel (depth + 1) (d.at (rs.filter fun i => !goesB d s i))
                  (y.at (rs.filter fun i => !goesB d s i)) with
              | error e => rw [hp, hf] at h; cases h
              | ok f =>
                rw [hp, hf] at h
                cases h
                exact .node hne hcol hcut (ih _ _ h1 r1 _ hp) (ih _ _ h2 r2 _ hf)
          · cases h
            exact .node hne hcol hcut (.leaf h1) (.leaf h2)
    · rw [if_neg hc] at h; cases h; exact .leaf hne

theorem grow_fine {w : World} {condition : Node → Nat → Bool} {n : Nat} {d : Data} {y : Col} (hd : Sound n d y) (hn : 0 < n) {t : Node}
    (h : grow w condition d y = .ok t) : Fine w.maxSub d y t := by
  unfold grow at h
  rw [← data_at_all hd.len, ← at_all hd.ylen] at h
  refine splitUntil_fine hd _ _ _ ?_ (fun i hi => List.mem_range.1 hi) _ h
  simpa using Nat.pos_iff_ne_zero.1 hn

theorem mapR_total {ns : List String} {cs : List Nat} (h : ∀ c ∈ cs, c < ns.length) : ∃ vs, mapR (nameOf ns) cs = .ok vs := by
  induction cs with
  | nil => exact ⟨[], rfl⟩
  | cons c cs ih =>
    obtain ⟨vs, hv⟩ := ih fun x hx => h x (by simp [hx])
    have hc := h c (by simp)
    unfold mapR
    simp only [nameOf, List.getElem?_eq_getElem hc, hv]
    exact ⟨_, rfl⟩

/-- The options fit the kind of tree. -/
def Opts.Fits (o : Opts) : Col → Prop
  | .num _ => o.predictandDistribution = false ∧ o.entropy = false
  | .cat _ _ => o.nTimesVariance = false

/-- There is always a score. -/
theorem score_total {n : Nat} {d : Data} {y : Col} (hd : Sound n d y) (hn : 0 < n) (rs : List Nat) : ∃ x, score (y.at rs) = .ok x := by
  cases y with
  | num ys => exact ⟨_, rfl⟩
  | cat codes names =>
    have hne : names ≠ [] := by
      rintro rfl
      have hl : codes.length = n := hd.ylen
      have := hd.ycodes codes [] rfl (codes[0]'(by omega)) (List.getElem_mem _)
      simp at this
    simp only [Col.at, score]
    have hdl : (distribution (rs.map (codes.getD · 0)) names).length = names.length := by
      unfold distribution; split <;> simp
    obtain ⟨g, pre, post, h1, -, -, h2⟩ := argmax_spec (distribution (rs.map (codes.getD · 0)) names) (by
      intro h; rw [h] at hdl; simp at hdl; exact hne (List.length_eq_zero_iff.1 hdl.symm))
    rw [h2]
    have hlt : pre.length < names.length := by
      rw [← hdl, h1]; simp
    simp only [List.getElem?_eq_getElem hlt]
    exact ⟨_, rfl⟩

theorem extras_total {w : World} {o : Opts} {n : Nat} {d : Data} {y : Col} (hd : Sound n d y) (hn : 0 < n) (ho : o.Fits y) (rs : List Nat) (s : Split) :
    ∃ ex, extras w o (d.at rs) (y.at rs) s = .ok ex := by
  have hopt : ∀ (b : Bool) (nm : String) (v : Res Val), (b = true → ∃ x, v = .ok x) → ∃ l, opt b nm v = .ok l := by
    intro b nm v h
    unfold opt
    cases b with
    | false => exact ⟨[], rfl⟩
    | true =>
      obtain ⟨x, rfl⟩ := h rfl
      exact ⟨_, rfl⟩
  unfold extras
  obtain ⟨l1, h1⟩ := hopt o.nodeScores "score" (score (y.at rs)) fun _ => score_total hd hn rs
  obtain ⟨l2, h2⟩ := hopt o.datasetSize "datasetSize" (Res.app (fun n => Val.int n) (d.at rs).len) fun _ => by
    cases hf : d.fields with
    | nil => exact absurd hf hd.some_field
    | cons f fs => exact ⟨.int (f.at rs).len, by simp [Data.len, Data.at, hf, Res.app]⟩
  obtain ⟨l3, h3⟩ := hopt o.predictandDistribution "scoreDistribution" (distValue (y.at rs)) fun h => by
    cases y with
    | num ys => rw [ho.1] at h; cases h
    | cat c ns => exact ⟨_, rfl⟩
  obtain ⟨l4, h4⟩ := hopt o.predictandUnique "scoreValues" (uniqueValue (y.at rs)) fun _ => by cases y <;> exact ⟨_, rfl⟩
  obtain ⟨l5, h5⟩ := hopt o.entropy "entropy" (constValue w false (y.at rs)) fun h => by
    cases y with
    | num ys => rw [ho.2] at h; cases h
    | cat c ns => exact ⟨_, rfl⟩
  obtain ⟨l6, h6⟩ := hopt o.nTimesVariance "nTimesVariance" (constValue w true (y.at rs)) fun h => by
    cases y with
    | num ys => exact ⟨_, rfl⟩
    | cat c ns => rw [show o.nTimesVariance = false from ho] at h; cases h
  obtain ⟨l7, h7⟩ := hopt o.gain "gain" (.ok (.flt (.fin s.gain))) fun _ => ⟨_, rfl⟩
  rw [h1, h2, h3, h4, h5, h6, h7]
  exact ⟨_, rfl⟩

/-- **C87.** Every tree that has been grown can be written. -/
theorem pfaValue_total {w : World} {o : Opts} {n : Nat} {d : Data} {y : Col} (hd : Sound n d y) (hn : 0 < n) (ho : o.Fits y)
    {fields : List (String × AType)} {vt : AType} (hvt : pfaValueType w.maxSub d fields = .ok vt) (hfn : (fields.map Prod.fst).Nodup) (tree : String)
    {t : Node} (hfine : Fine w.maxSub d y t) : ∃ v, pfaValue w o fields vt tree t = .ok v := by
  obtain ⟨hs, h4, h5⟩ := pfaValueType_spec hvt
  induction hfine with
  | @leaf rs t hrs =>
    obtain ⟨x, hx⟩ := score_total hd hn rs
    exact ⟨.dict [(pfaScoreType (y.at rs), x)], by simp only [pfaValue, hx, Res.app]⟩
  | @node rs s col p f hrs hcol hcut hp hf ihp ihf =>
    obtain ⟨pv, hpv⟩ := ihp
    obtain ⟨fv, hfv⟩ := ihf
    obtain ⟨ex, hex⟩ := extras_total (w := w) hd hn ho rs s
    have hi : s.index < d.names.length := by
      rw [hd.names]
      exact (List.getElem?_eq_some_iff.1 hcol).1
    have hnm : d.names[s.index]? = some d.names[s.index] := List.getElem?_eq_getElem hi
    have hsv : ∃ op v, splitValue w.maxSub col s.cut = .ok (op, v) := by
      cases col with
      | num xs =>
        cases hc : s.cut with
        | num c => exact ⟨_, _, rfl⟩
        | cats cs => rw [hc] at hcut; exact hcut.elim
      | cat xs ns =>
        cases hc : s.cut with
        | num c => rw [hc] at hcut; exact hcut.elim
        | cats cs =>
          rw [hc] at hcut
          obtain ⟨k1, k2, k3⟩ := hcut
          by_cases hm1 : w.maxSub = some 1
          · cases cs with
            | nil => exact absurd rfl k1
            | cons c cs =>
              simp only [splitValue, hm1, if_true, nameOf, List.getElem?_eq_getElem (k2 c (by simp)), Res.app]
              exact ⟨_, _, rfl⟩
          · obtain ⟨vs, hvs⟩ := mapR_total k2
            simp only [splitValue, hm1, if_false, hvs, Res.app]
            exact ⟨_, _, rfl⟩
    obtain ⟨op, x, hsv⟩ := hsv
    have htv : ∃ value, tagValue fields vt d.names[s.index] op x = .ok value := by
      unfold tagValue
      split
      · obtain ⟨t, ht⟩ := h4 d.names[s.index] (List.getElem_mem hi)
        rw [filter_name hfn ht]
        exact ⟨_, rfl⟩
      · exact ⟨_, rfl⟩
    obtain ⟨value, htv⟩ := htv
    have e1 : (d.at rs).names[s.index]? = some d.names[s.index] := hnm
    have e2 : (d.at rs).fields[s.index]? = some (col.at rs) := by rw [at_field, hcol]; rfl
    unfold pfaValue
    simp only [e1, e2, splitValue_at, hsv, htv, hpv, hfv, hex]
    exact ⟨_, rfl⟩

/-- What row `i` of the dataset has in a field. -/
def cellOf (i : Nat) : Col → Cell
  | .num xs => .num (xs.getD i 0)
  | .cat xs ns => .str (ns.getD (xs.getD i 0) "")

/-- Row `i` of the dataset. -/
def rowOf (d : Data) (i : Nat) : List Cell := d.fields.map (cellOf i)

/-- A row of the training data comes to its own leaf. -/
theorem train_routes {n : Nat} {d : Data} {y : Col} (hd : Sound n d y) (hns : ∀ xs ns, Col.cat xs ns ∈ d.fields → ns.Nodup) {m : Option Nat} {t : Node}
    (hfine : Fine m d y t) {i : Nat} (hi : i < n) : Routes (rowOf d i) t (leafOf d i t) := by
  induction hfine with
  | leaf => exact .leaf
  | @node rs s col p f hrs hcol hcut hp hf ihp ihf =>
    have hrow : (rowOf d i)[s.index]? = some (cellOf i col) := by simp [rowOf, hcol]
    have hmem := List.mem_of_getElem? hcol
    have hiff : Passes (d.at rs) s (rowOf d i) ↔ Goes d s i := by
      rw [passes_at]
      unfold Passes Goes
      rw [hcol, hrow]
      cases col with
      | num xs =>
        cases hc : s.cut with
        | num c => simp [cellOf]
        | cats cs => simp
      | cat xs ns =>
        cases hc : s.cut with
        | num c => simp
        | cats cs =>
          rw [hc] at hcut
          obtain ⟨k1, k2, -⟩ := hcut
          have hlen : xs.length = n := hd.len _ hmem
          have hcode : xs.getD i 0 < ns.length := by
            rw [List.getD_eq_getElem _ _ (by omega)]
            exact hd.codes xs ns hmem _ (List.getElem_mem _)
          have hnd := hns xs ns hmem
          simp only [cellOf, Option.some.injEq, reduceCtorEq, false_and, exists_false, false_or, Col.cat.injEq, Cut.cats.injEq, Cell.str.injEq]
          constructor
          · rintro ⟨xs', ns', cs', k, t', ⟨rfl, rfl⟩, rfl, b3, b4, b5⟩
            refine ⟨xs, ns, cs, ⟨rfl, rfl⟩, rfl, ?_⟩
            rw [List.getD_eq_getElem _ _ hcode] at b5
            obtain ⟨hk, b6⟩ := List.getElem?_eq_some_iff.1 b4
            have := (hnd.getElem_inj_iff).1 (b6.trans b5.symm)
            rw [← this]
            exact b3
          · rintro ⟨xs', ns', cs', ⟨rfl, rfl⟩, rfl, b3⟩
            refine ⟨xs, ns, cs, xs.getD i 0, ns[xs.getD i 0], ⟨rfl, rfl⟩, rfl, b3, List.getElem?_eq_getElem hcode, ?_⟩
            rw [List.getD_eq_getElem _ _ hcode]
    unfold leafOf
    by_cases hg : Goes d s i
    · rw [if_pos hg]
      exact .pass (hiff.2 hg) ihp
    · rw [if_neg hg]
      exact .fail (fun h => hg (hiff.1 h)) ihf

/-- **C87 (partial).** For a tree that has been grown from a dataset the document can be made, and on every row of the dataset the document gives
the score of the leaf that has the row.  The tree has been split at least once (`unsplit_violation`).  That the document is accepted at all needs
more (`integer_cut_violation`, `tag_violation`, `distribution_violation`). -/
theorem document_partial {w : World} {condition : Node → Nat → Bool} {n : Nat} {d : Data} {y : Col} (hd : Sound n d y) (hn : 0 < n)
    (hns : ∀ xs ns, Col.cat xs ns ∈ d.fields → ns.Nodup) (hdn : d.names.Nodup) {o : Opts} (ho : o.Fits y)
    {fields : List (String × AType)} (hfn : (fields.map Prod.fst).Nodup) {vt : AType} (hvt : pfaValueType w.maxSub d fields = .ok vt)
    {tree : String} (ht : pfaScoreType y ≠ tree) {t : Node}
    (h : grow w condition d y = .ok t) (hin : t.isLeaf = false) :
    ∃ v, pfaValue w o fields vt tree t = .ok v ∧ ∀ (i : Nat) (datum : Val), i < n → Reading d (rowOf d i) datum →
      ∀ (env : Env) (depth k : Nat), sizeOf v ≤ k →
        predict env (depth + 2) (docTypes fields vt tree) datum v k = score (leafOf d i t).y := by
  have hf := grow_fine hd hn h
  obtain ⟨v, hv⟩ := pfaValue_total hd hn ho hvt hfn tree hf
  exact ⟨v, hv, fun i datum hi hr env depth k hk => predict_routes hvt hdn hfn ht hr hf (train_routes hd hns hf hi) hin hv k hk⟩

end Verif.Cart
