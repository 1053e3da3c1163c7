import Verif.Avro.Accepts
/-!
# The common type of several types (C39)

Models `LabelData.distinctTypes` and `LabelData.broadestType` of `titus/signature.py` 171-285 and the
constructor of `AvroUnion` (`titus/datatype.py` 553-564).
-/

namespace Verif.Sig

open Avro

/-! ## Model -/

/-- The types of arguments (datatype.py 32-64, 336-346): Avro types, functions and the type of
expressions that never return. -/
inductive CType where
  | avro (t : AType)
  | exc
  | fcn (params : List CType) (ret : CType)

/-- The exception `IncompatibleTypes` (signature.py 45). -/
def incompatible : Err := .py "IncompatibleTypes"

/-- `isinstance` checks -/
def isNull : AType → Bool | .null => true | _ => false
@[inherit_doc isNull] def isBool : AType → Bool | .boolean => true | _ => false
@[inherit_doc isNull] def isInt : AType → Bool | .int => true | _ => false
@[inherit_doc isNull] def isLong : AType → Bool | .long => true | _ => false
@[inherit_doc isNull] def isFloat : AType → Bool | .float => true | _ => false
@[inherit_doc isNull] def isDouble : AType → Bool | .double => true | _ => false
@[inherit_doc isNull] def isBytes : AType → Bool | .bytes => true | _ => false
@[inherit_doc isNull] def isString : AType → Bool | .string => true | _ => false
@[inherit_doc isNull] def isArray : AType → Bool | .array _ => true | _ => false
@[inherit_doc isNull] def isMap : AType → Bool | .map _ => true | _ => false
@[inherit_doc isNull] def isFixed : AType → Bool | .fixed _ _ => true | _ => false
@[inherit_doc isNull] def isEnum : AType → Bool | .enum _ _ => true | _ => false
@[inherit_doc isNull] def isRecord : AType → Bool | .record _ => true | _ => false

/-- `x.items` of an array and `x.values` of a map; not called otherwise. -/
def inner : AType → AType
  | .array i => i
  | .map i => i
  | t => t

/-- `x.fullName` of a named type; not called otherwise. -/
def fullName : AType → Option Name
  | .fixed n _ => some n
  | .enum n _ => some n
  | .record n => some n
  | _ => none

/-- The constructor of AvroUnion (datatype.py 553-564): no two members of the same short name, no
union inside. -/
def mkUnion (ts : List AType) : Res AType :=
  if ¬ (ts.map AType.name).Nodup then .error .avro
  else if "union" ∈ ts.map AType.name then .error .avro
  else .ok (.union ts)

/-- The body of the loop in `distinctTypes` (180-190): a candidate that is accepted is dropped, one that
accepts an earlier type replaces the first of those, another one is appended. -/
def absorb (env : Env) (out : List AType) (c : AType) : List AType :=
  if out.any (fun y => accepts env env y c) then out
  else match out.findIdx? (fun y => accepts env env c y) with
    | some i => out.set i c
    | none => out ++ [c]

mutual
/-- `distinctTypes` (173-191); unions are taken apart. -/
def distinct1 (env : Env) (out : List AType) : AType → List AType
  | .union ts => distinctL env out ts
  | c => absorb env out c
@[inherit_doc distinct1] def distinctL (env : Env) (out : List AType) : List AType → List AType
  | [] => out
  | c :: cs => distinctL env (distinct1 env out c) cs
end

/-- The last case for Avro types (263-280). -/
def mix (env : Env) (cs : List AType) : Res AType :=
  let types := distinctL env [] cs
  if (types.filter isFixed).length > 1 then .error incompatible
  else if (types.filter isEnum).length > 1 then .error incompatible
  else mkUnion types

/-- The cases for named types of one kind (233-252). -/
def sameName (c : AType) (cs : List AType) : Res AType :=
  if cs.all (fun x => decide (fullName x = fullName c)) then .ok c else .error incompatible

/-- `broadestType` for Avro types (194-280), the first candidate apart.  The cases for arrays and maps
(227-231) stand last here; the cases exclude each other, as every check is about all candidates. -/
def bt (env : Env) (c : AType) (cs : List AType) : Res AType :=
  if (c :: cs).all isNull then .ok c
  else if (c :: cs).all isBool then .ok c
  else if (c :: cs).all isInt then .ok .int
  else if (c :: cs).all (fun x => isInt x || isLong x) then .ok .long
  else if (c :: cs).all (fun x => isInt x || isLong x || isFloat x) then .ok .float
  else if (c :: cs).all (fun x => isInt x || isLong x || isFloat x || isDouble x) then .ok .double
  else if (c :: cs).all isBytes then .ok c
  else if (c :: cs).all isString then .ok c
  else if (c :: cs).all isFixed then sameName c cs
  else if (c :: cs).all isEnum then sameName c cs
  else if (c :: cs).all isRecord then sameName c cs
  else match c with
    | .array i =>
      if cs.all isArray then
        match bt env i (cs.map inner) with
        | .ok t => .ok (.array t)
        | .error e => .error e
      else mix env (c :: cs)
    | .map i =>
      if cs.all isMap then
        match bt env i (cs.map inner) with
        | .ok t => .ok (.map t)
        | .error e => .error e
      else mix env (c :: cs)
    | _ => mix env (c :: cs)
termination_by structural c

mutual
/-- `==` of types (datatype.py 60-64, 175-182); Avro types are equal when their schemas are. -/
def CType.beq : CType → CType → Bool
  | .avro t, .avro u => decide (t = u)
  | .exc, .exc => true
  | .fcn ps r, .fcn qs s => CType.beqL ps qs && CType.beq r s
  | _, _ => false
@[inherit_doc CType.beq] def CType.beqL : List CType → List CType → Bool
  | [], [] => true
  | x :: xs, y :: ys => CType.beq x y && CType.beqL xs ys
  | _, _ => false
end

mutual
theorem CType.beq_refl : ∀ a : CType, CType.beq a a = true
  | .avro _ => by simp [CType.beq]
  | .exc => rfl
  | .fcn ps r => by simp only [CType.beq, CType.beqL_refl ps, CType.beq_refl r, Bool.and_self]
theorem CType.beqL_refl : ∀ a : List CType, CType.beqL a a = true
  | [] => rfl
  | x :: xs => by simp only [CType.beqL, CType.beq_refl x, CType.beqL_refl xs, Bool.and_self]
end

mutual
theorem CType.beq_eq : ∀ (a b : CType), CType.beq a b = true → a = b
  | .avro _, .avro _, h => by simp only [CType.beq, decide_eq_true_eq] at h; rw [h]
  | .exc, .exc, _ => rfl
  | .fcn ps r, .fcn qs s, h => by
    simp only [CType.beq, Bool.and_eq_true] at h
    rw [CType.beqL_eq ps qs h.1, CType.beq_eq r s h.2]
  | .avro _, .exc, h => by simp [CType.beq] at h
  | .avro _, .fcn _ _, h => by simp [CType.beq] at h
  | .exc, .avro _, h => by simp [CType.beq] at h
  | .exc, .fcn _ _, h => by simp [CType.beq] at h
  | .fcn _ _, .avro _, h => by simp [CType.beq] at h
  | .fcn _ _, .exc, h => by simp [CType.beq] at h
theorem CType.beqL_eq : ∀ (a b : List CType), CType.beqL a b = true → a = b
  | [], [], _ => rfl
  | x :: xs, y :: ys, h => by
    simp only [CType.beqL, Bool.and_eq_true] at h
    rw [CType.beq_eq x y h.1, CType.beqL_eq xs ys h.2]
  | [], _ :: _, h => by simp [CType.beqL] at h
  | _ :: _, [], h => by simp [CType.beqL] at h
end

instance : DecidableEq CType := fun a b =>
  if h : CType.beq a b = true then .isTrue (CType.beq_eq a b h)
  else .isFalse (fun e => h (by rw [e]; exact CType.beq_refl b))

/-- `isinstance(x, ExceptionType)` and `isinstance(x, FcnType)` -/
def isExc : CType → Bool | .exc => true | _ => false
@[inherit_doc isExc] def isFcn : CType → Bool | .fcn _ _ => true | _ => false

/-- The Avro types among the candidates. -/
def avros : List CType → List AType
  | [] => []
  | .avro t :: cs => t :: avros cs
  | _ :: cs => avros cs

/-- `broadestType` (194-285).  `none` stands for the ValueError object that lines 207 and 209 return
instead of raising it. -/
def broadest (env : Env) (cs : List CType) : Res (Option CType) :=
  match cs.filter (fun x => !isExc x) with
  | [] => .ok none
  | .fcn ps r :: rest =>
    if (CType.fcn ps r :: rest).all isFcn then
      if rest.all (fun x => CType.beq x (.fcn ps r)) then .ok (some (.fcn ps r)) else .error incompatible
    else .error incompatible
  | .avro t :: rest =>
    if (CType.avro t :: rest).any isFcn then .error incompatible
    else match bt env t (avros rest) with
      | .ok u => .ok (some (.avro u))
      | .error e => .error e
  | .exc :: _ => .ok none

/-! ## Specification -/

/-- `accepts` between types (datatype.py 52-58, 206-287, 336-346), as a relation: functions are
contravariant in the parameters and covariant in the result. -/
inductive Accepts (env : Env) : CType → CType → Prop
  | avro {t u : AType} : accepts env env t u = true → Accepts env (.avro t) (.avro u)
  | exc : Accepts env .exc .exc
  | fcn {ps qs : List CType} {r s : CType} : ps.length = qs.length →
      (∀ (i : Nat) p q, ps[i]? = some p → qs[i]? = some q → Accepts env q p) → Accepts env r s →
      Accepts env (.fcn ps r) (.fcn qs s)

mutual
/-- Unions as `AvroUnion` admits them, at every level. -/
def wf : AType → Bool
  | .array i => wf i
  | .map i => wf i
  | .union ts => decide (ts.map AType.name).Nodup && ts.all AType.flat && wfL ts
  | _ => true
@[inherit_doc wf] def wfL : List AType → Bool
  | [] => true
  | t :: ts => wf t && wfL ts
end

mutual
/-- The names of fixed and enum types have the definitions that `D` gives, as in one document. -/
def Declared (D : Name → Option AType) : AType → Prop
  | .fixed n s => D n = some (.fixed n s)
  | .enum n s => D n = some (.enum n s)
  | .array i => Declared D i
  | .map i => Declared D i
  | .union ts => DeclaredL D ts
  | _ => True
@[inherit_doc Declared] def DeclaredL (D : Name → Option AType) : List AType → Prop
  | [] => True
  | t :: ts => Declared D t ∧ DeclaredL D ts
end

/-- A type of a document: its records are defined, its unions are proper, its names consistent. -/
structure Good (env : Env) (D : Name → Option AType) (t : AType) : Prop where
  known : AType.known env t = true
  wf : wf t = true
  decl : Declared D t

/-- The same for all types of arguments. -/
inductive GoodC (env : Env) (D : Name → Option AType) : CType → Prop
  | avro {t : AType} : Good env D t → GoodC env D (.avro t)
  | exc : GoodC env D .exc
  | fcn {ps : List CType} {r : CType} : (∀ p ∈ ps, GoodC env D p) → GoodC env D r → GoodC env D (.fcn ps r)

/-! ## Lemmas -/

theorem wfL_eq (ts : List AType) : wfL ts = ts.all wf := by
  induction ts with
  | nil => rfl
  | cons t ts ih => simp [wfL, ih]

theorem declaredL_iff (D : Name → Option AType) (ts : List AType) : DeclaredL D ts ↔ ∀ t ∈ ts, Declared D t := by
  induction ts with
  | nil => simp [DeclaredL]
  | cons t ts ih => simp [DeclaredL, ih]

theorem Good.array {env D i} (h : Good env D (.array i)) : Good env D i :=
  ⟨by simpa [AType.known] using h.known, by simpa [Sig.wf] using h.wf, by simpa [Declared] using h.decl⟩

theorem Good.map {env D i} (h : Good env D (.map i)) : Good env D i :=
  ⟨by simpa [AType.known] using h.known, by simpa [Sig.wf] using h.wf, by simpa [Declared] using h.decl⟩

theorem Good.to_array {env D i} (h : Good env D i) : Good env D (.array i) :=
  ⟨by simpa [AType.known] using h.known, by simpa [Sig.wf] using h.wf, by simpa [Declared] using h.decl⟩

theorem Good.to_map {env D i} (h : Good env D i) : Good env D (.map i) :=
  ⟨by simpa [AType.known] using h.known, by simpa [Sig.wf] using h.wf, by simpa [Declared] using h.decl⟩

theorem Good.union {env D ts} (h : Good env D (.union ts)) :
    (ts.map AType.name).Nodup ∧ ∀ t ∈ ts, t.flat = true ∧ Good env D t := by
  have h1 := h.known
  have h2 := h.wf
  have h3 := h.decl
  simp only [AType.known, knownL_eq, List.all_eq_true] at h1
  simp only [Sig.wf, wfL_eq, Bool.and_eq_true, List.all_eq_true, decide_eq_true_eq] at h2
  simp only [Declared, declaredL_iff] at h3
  exact ⟨h2.1.1, fun t ht => ⟨h2.1.2 t ht, h1 t ht, h2.2 t ht, h3 t ht⟩⟩

theorem Good.to_union {env D ts} (hn : (ts.map AType.name).Nodup) (h : ∀ t ∈ ts, t.flat = true ∧ Good env D t) :
    Good env D (.union ts) := by
  refine ⟨?_, ?_, ?_⟩
  · simp only [AType.known, knownL_eq, List.all_eq_true]; exact fun t ht => (h t ht).2.known
  · simp only [Sig.wf, wfL_eq, Bool.and_eq_true, List.all_eq_true, decide_eq_true_eq]
    exact ⟨⟨hn, fun t ht => (h t ht).1⟩, fun t ht => (h t ht).2.wf⟩
  · simp only [Declared, declaredL_iff]; exact fun t ht => (h t ht).2.decl

/-- Flat members of a type. -/
def parts : AType → List AType
  | .union ts => ts
  | t => [t]

theorem Good.parts {env D t} (h : Good env D t) : ∀ x ∈ parts t, x.flat = true ∧ Good env D x := by
  cases t with
  | union ts => exact h.union.2
  | _ => intro x hx; simp only [Sig.parts, List.mem_singleton] at hx; subst hx; exact ⟨rfl, h⟩

theorem absorb_cover {env : Env} (he : env.Ok) {out : List AType} {c : AType} (hc : AType.known env c = true) :
    (∃ y ∈ absorb env out c, accepts env env y c = true) ∧
    ∀ x, (∃ y ∈ out, accepts env env y x = true) → ∃ y ∈ absorb env out c, accepts env env y x = true := by
  unfold absorb
  by_cases h : (out.any fun y => accepts env env y c) = true
  · rw [if_pos h]
    exact ⟨by simpa using h, fun x hx => hx⟩
  · rw [if_neg h]
    cases hf : out.findIdx? (fun y => accepts env env c y) with
    | none =>
      refine ⟨⟨c, by simp, accepts_refl he c hc⟩, ?_⟩
      rintro x ⟨y, hy, hx⟩
      exact ⟨y, by simp [hy], hx⟩
    | some i =>
      obtain ⟨hi, hci, -⟩ := List.findIdx?_eq_some_iff_getElem.1 hf
      refine ⟨⟨c, List.mem_set hi c, accepts_refl he c hc⟩, ?_⟩
      rintro x ⟨y, hy, hx⟩
      obtain ⟨j, hj, rfl⟩ := List.getElem_of_mem hy
      by_cases hij : i = j
      · subst hij
        exact ⟨c, List.mem_set hi c, accepts_trans he _ _ _ hci hx⟩
      · refine ⟨out[j], ?_, hx⟩
        have : (out.set i c)[j]'(by simpa using hj) = out[j] := by simp [List.getElem_set, hij]
        rw [← this]; exact List.getElem_mem _

theorem absorb_sub {env : Env} {out : List AType} {c x : AType} (hx : x ∈ absorb env out c) : x ∈ out ∨ x = c := by
  unfold absorb at hx
  split at hx
  · exact .inl hx
  · split at hx
    · exact List.mem_or_eq_of_mem_set hx
    · simpa using hx

theorem distinctL_flat (env : Env) (out cs : List AType) (h : ∀ c ∈ cs, c.flat = true) :
    distinctL env out cs = cs.foldl (absorb env) out := by
  induction cs generalizing out with
  | nil => rfl
  | cons c cs ih =>
    rw [distinctL, List.foldl_cons, ih _ (fun c' hc' => h c' (by simp [hc']))]
    have := h c (by simp)
    cases c <;> first | (cases this; done) | rfl

theorem distinct1_parts (env : Env) (out : List AType) (c : AType) (h : ∀ x ∈ parts c, x.flat = true) :
    distinct1 env out c = (parts c).foldl (absorb env) out := by
  cases c with
  | union ts => exact distinctL_flat env out ts h
  | _ => rfl

theorem distinctL_parts (env : Env) (out cs : List AType) (h : ∀ c ∈ cs, ∀ x ∈ parts c, x.flat = true) :
    distinctL env out cs = (cs.flatMap parts).foldl (absorb env) out := by
  induction cs generalizing out with
  | nil => rfl
  | cons c cs ih =>
    rw [distinctL, ih _ (fun c' hc' => h c' (by simp [hc'])), distinct1_parts env out c (h c (by simp)),
      List.flatMap_cons, List.foldl_append]

theorem fold_absorb {env : Env} (he : env.Ok) (xs out : List AType) (hk : ∀ x ∈ xs, AType.known env x = true) :
    (∀ x, (x ∈ xs ∨ ∃ y ∈ out, accepts env env y x = true) →
      ∃ y ∈ xs.foldl (absorb env) out, accepts env env y x = true) ∧
    ∀ y ∈ xs.foldl (absorb env) out, y ∈ out ∨ y ∈ xs := by
  induction xs generalizing out with
  | nil => simp
  | cons c xs ih =>
    obtain ⟨h1, h2⟩ := ih (absorb env out c) (fun x hx => hk x (by simp [hx]))
    obtain ⟨h3, h4⟩ := absorb_cover he (out := out) (hk c (by simp))
    constructor
    · rintro x (hx | hx)
      · rcases List.mem_cons.1 hx with rfl | hx
        · exact h1 _ (.inr h3)
        · exact h1 _ (.inl hx)
      · exact h1 _ (.inr (h4 x hx))
    · intro y hy
      rcases h2 y hy with hy | hy
      · rcases absorb_sub hy with hy | rfl
        · exact .inl hy
        · exact .inr (by simp)
      · exact .inr (by simp [hy])

theorem accepts_flat_parts {env : Env} {u x : AType} (h : ∀ y ∈ parts x, accepts env env u y = true)
    (hu : u.flat = true) : accepts env env u x = true := by
  cases x with
  | union ts => exact (acc_flat_union _ _ hu _).2 h
  | _ => exact h _ (by simp [parts])

theorem parts_accepts {env : Env} {u x : AType} (h : accepts env env u x = true) (hx : ∀ y ∈ parts x, y.flat = true) :
    ∀ y ∈ parts x, accepts env env u y = true := by
  cases x with
  | union ts =>
    intro y hy
    rcases flat_or u with hu | ⟨us, rfl⟩
    · exact (acc_flat_union _ _ hu _).1 h y hy
    · exact (acc_union_flat _ _ _ (hx y hy)).2 ((acc_union_union _ _ _).1 h y hy)
  | _ => intro y hy; simp only [parts, List.mem_singleton] at hy; subst hy; exact h

theorem accepts_of_parts {env : Env} {u x : AType} (h : ∀ y ∈ parts x, accepts env env u y = true)
    (hx : ∀ y ∈ parts x, y.flat = true) : accepts env env u x = true := by
  rcases flat_or u with hu | ⟨us, rfl⟩
  · exact accepts_flat_parts h hu
  · cases x with
    | union ts => exact (acc_union_union _ _ _).2 (fun y hy => (acc_union_flat _ _ _ (hx y hy)).1 (h y hy))
    | _ => exact h _ (by simp [parts])

theorem mkUnion_ok {ts : List AType} {t : AType} (h : mkUnion ts = .ok t) : t = .union ts ∧ (ts.map AType.name).Nodup := by
  unfold mkUnion at h
  split at h
  · cases h
  · next hn =>
    split at h
    · cases h
    · cases h; exact ⟨rfl, by simpa using hn⟩

/-- The last case. -/
theorem mix_ok {env : Env} (he : env.Ok) {D} {cs : List AType} (hg : ∀ c ∈ cs, Good env D c) {t : AType}
    (h : mix env cs = .ok t) :
    (∀ c ∈ cs, accepts env env t c = true) ∧ Good env D t ∧
    ∀ u, (∀ c ∈ cs, accepts env env u c = true) → accepts env env u t = true := by
  unfold mix at h
  simp only at h
  split at h
  · cases h
  · split at h
    · cases h
    · obtain ⟨rfl, hn⟩ := mkUnion_ok h
      have hfl : ∀ c ∈ cs, ∀ x ∈ parts c, x.flat = true := fun c hc x hx => ((hg c hc).parts x hx).1
      have hgp : ∀ x ∈ cs.flatMap parts, x.flat = true ∧ Good env D x := by
        intro x hx
        obtain ⟨c, hc, hx⟩ := List.mem_flatMap.1 hx
        exact (hg c hc).parts x hx
      rw [distinctL_parts env [] cs hfl] at hn ⊢
      obtain ⟨h1, h2⟩ := fold_absorb he (cs.flatMap parts) [] (fun x hx => (hgp x hx).2.known)
      have h2' : ∀ y ∈ (cs.flatMap parts).foldl (absorb env) [], y ∈ cs.flatMap parts := fun y hy => by
        rcases h2 y hy with h | h
        · cases h
        · exact h
      refine ⟨fun c hc => ?_, Good.to_union hn (fun y hy => hgp y (h2' y hy)), fun u hu => ?_⟩
      · refine accepts_of_parts (fun y hy => ?_) (hfl c hc)
        exact (acc_union_flat _ _ _ (hfl c hc y hy)).2 (h1 y (.inl (List.mem_flatMap.2 ⟨c, hc, hy⟩)))
      · refine accepts_of_parts (x := .union _) (fun y hy => ?_) (fun y hy => (hgp y (h2' y hy)).1)
        obtain ⟨c, hc, hy⟩ := List.mem_flatMap.1 (h2' y hy)
        exact parts_accepts (hu c hc) (hfl c hc) y hy

theorem sameName_ok {env : Env} (he : env.Ok) {D} {c : AType} {cs : List AType} (hg : ∀ x ∈ c :: cs, Good env D x)
    (hk : ((c :: cs).all isFixed = true ∨ (c :: cs).all isEnum = true) ∨ (c :: cs).all isRecord = true)
    {t : AType} (h : sameName c cs = .ok t) : t = c ∧ ∀ x ∈ c :: cs, x = c := by
  unfold sameName at h
  split at h
  · next ha =>
    cases h
    refine ⟨rfl, fun x hx => ?_⟩
    rcases List.mem_cons.1 hx with rfl | hx'
    · rfl
    simp only [List.all_eq_true, decide_eq_true_eq] at ha
    have hn := ha x hx'
    have d1 := (hg x hx).decl
    have d2 := (hg c (by simp)).decl
    simp only [List.all_eq_true] at hk
    rcases hk with (hk | hk) | hk
    all_goals
      have k1 := hk x hx
      have k2 := hk c (by simp)
      cases x <;> simp only [isFixed, isEnum, isRecord, Bool.false_eq_true] at k1
      cases c <;> simp only [isFixed, isEnum, isRecord, Bool.false_eq_true] at k2
      simp only [fullName, Option.some.injEq] at hn
      subst hn
    · simp only [Declared] at d1 d2; rw [d1] at d2; exact Option.some.inj d2
    · simp only [Declared] at d1 d2; rw [d1] at d2; exact Option.some.inj d2
    · rfl
  · cases h

/-- A union with distinct names accepts arrays by its one array member only. -/
theorem array_member {env : Env} {u : AType} (hu : wf u = true) {cs : List AType} (c : AType)
    (ha : ∀ x ∈ c :: cs, ∃ i, x = .array i) (h : ∀ x ∈ c :: cs, accepts env env u x = true) :
    ∃ v, wf v = true ∧ (∀ x ∈ c :: cs, accepts env env v (inner x) = true) ∧
      ∀ t, accepts env env v t = true → accepts env env u (.array t) = true := by
  have one : ∀ (m : AType) (i : AType), m.flat = true → accepts env env m (.array i) = true → ∃ v, m = .array v ∧ accepts env env v i = true := by
    intro m i hm h
    cases m <;> first | (cases hm; done) | simp [accepts, acc, overUnion] at h
    exact ⟨_, rfl, h⟩
  rcases flat_or u with hf | ⟨us, rfl⟩
  · obtain ⟨i, hi⟩ := ha c (by simp)
    have := h c (by simp)
    rw [hi] at this
    obtain ⟨v, rfl, hv⟩ := one u i hf this
    refine ⟨v, by simpa [wf] using hu, fun x hx => ?_, fun t ht => ht⟩
    obtain ⟨j, rfl⟩ := ha x hx
    exact h _ hx
  · simp only [wf, wfL_eq, Bool.and_eq_true, List.all_eq_true, decide_eq_true_eq] at hu
    obtain ⟨⟨hn, hfl⟩, hw⟩ := hu
    have mem : ∀ x ∈ c :: cs, ∃ v, AType.array v ∈ us ∧ accepts env env v (inner x) = true := by
      intro x hx
      obtain ⟨j, rfl⟩ := ha x hx
      obtain ⟨m, hm, hma⟩ := (acc_union_flat _ _ _ rfl).1 (h _ hx)
      obtain ⟨v, rfl, hv⟩ := one m j (hfl m hm) hma
      exact ⟨v, hm, hv⟩
    obtain ⟨v, hv, -⟩ := mem c (by simp)
    refine ⟨v, by simpa [wf] using hw _ hv, fun x hx => ?_, fun t ht => ?_⟩
    · obtain ⟨v', hv', hx'⟩ := mem x hx
      have := List.inj_on_of_nodup_map hn hv hv' rfl
      cases this; exact hx'
    · exact (acc_union_flat _ _ _ rfl).2 ⟨_, hv, ht⟩

/-- The same for maps. -/
theorem map_member {env : Env} {u : AType} (hu : wf u = true) {cs : List AType} (c : AType)
    (ha : ∀ x ∈ c :: cs, ∃ i, x = .map i) (h : ∀ x ∈ c :: cs, accepts env env u x = true) :
    ∃ v, wf v = true ∧ (∀ x ∈ c :: cs, accepts env env v (inner x) = true) ∧
      ∀ t, accepts env env v t = true → accepts env env u (.map t) = true := by
  have one : ∀ (m : AType) (i : AType), m.flat = true → accepts env env m (.map i) = true → ∃ v, m = .map v ∧ accepts env env v i = true := by
    intro m i hm h
    cases m <;> first | (cases hm; done) | simp [accepts, acc, overUnion] at h
    exact ⟨_, rfl, h⟩
  rcases flat_or u with hf | ⟨us, rfl⟩
  · obtain ⟨i, hi⟩ := ha c (by simp)
    have := h c (by simp)
    rw [hi] at this
    obtain ⟨v, rfl, hv⟩ := one u i hf this
    refine ⟨v, by simpa [wf] using hu, fun x hx => ?_, fun t ht => ht⟩
    obtain ⟨j, rfl⟩ := ha x hx
    exact h _ hx
  · simp only [wf, wfL_eq, Bool.and_eq_true, List.all_eq_true, decide_eq_true_eq] at hu
    obtain ⟨⟨hn, hfl⟩, hw⟩ := hu
    have mem : ∀ x ∈ c :: cs, ∃ v, AType.map v ∈ us ∧ accepts env env v (inner x) = true := by
      intro x hx
      obtain ⟨j, rfl⟩ := ha x hx
      obtain ⟨m, hm, hma⟩ := (acc_union_flat _ _ _ rfl).1 (h _ hx)
      obtain ⟨v, rfl, hv⟩ := one m j (hfl m hm) hma
      exact ⟨v, hm, hv⟩
    obtain ⟨v, hv, -⟩ := mem c (by simp)
    refine ⟨v, by simpa [wf] using hw _ hv, fun x hx => ?_, fun t ht => ?_⟩
    · obtain ⟨v', hv', hx'⟩ := mem x hx
      have := List.inj_on_of_nodup_map hn hv hv' rfl
      cases this; exact hx'
    · exact (acc_union_flat _ _ _ rfl).2 ⟨_, hv, ht⟩

theorem isArray_iff (t : AType) : isArray t = true ↔ ∃ i, t = .array i := by cases t <;> simp [isArray]
theorem isMap_iff (t : AType) : isMap t = true ↔ ∃ i, t = .map i := by cases t <;> simp [isMap]

/-- C39 for Avro types: the result accepts every candidate, is a proper type again, and is accepted by
every other proper type that accepts all candidates. -/
theorem bt_ok {env : Env} (he : env.Ok) {D} : ∀ (k : Nat) (c : AType) (cs : List AType) (t : AType), sizeOf c ≤ k →
    (∀ x ∈ c :: cs, Good env D x) → bt env c cs = .ok t →
    (∀ x ∈ c :: cs, accepts env env t x = true) ∧ Good env D t ∧
    ∀ u, wf u = true → (∀ x ∈ c :: cs, accepts env env u x = true) → accepts env env u t = true := by
  intro k
  induction k with
  | zero =>
    intro c cs t hk
    have : 0 < sizeOf c := by cases c <;> simp <;> omega
    omega
  | succ k ih =>
    intro c cs t hk hg h
    rw [bt.eq_def] at h
    -- a result that is a candidate, equal to all
    have same : (∀ x ∈ c :: cs, x = c) → t = c → (∀ x ∈ c :: cs, accepts env env t x = true) ∧ Good env D t ∧
        ∀ u, wf u = true → (∀ x ∈ c :: cs, accepts env env u x = true) → accepts env env u t = true := by
      rintro h1 rfl
      have hc := hg t (by simp)
      exact ⟨fun x hx => by rw [h1 x hx]; exact accepts_refl he t hc.known, hc, fun u _ hu => hu t (by simp)⟩
    -- a result that is a candidate and accepts all
    have among : t ∈ c :: cs → (∀ x ∈ c :: cs, accepts env env t x = true) → (∀ x ∈ c :: cs, accepts env env t x = true) ∧
        Good env D t ∧ ∀ u, wf u = true → (∀ x ∈ c :: cs, accepts env env u x = true) → accepts env env u t = true :=
      fun h1 h2 => ⟨h2, hg t h1, fun u _ hu => hu t h1⟩
    by_cases c1 : (c :: cs).all isNull = true
    · rw [if_pos c1] at h; cases h
      rw [List.all_eq_true] at c1
      refine same (fun x hx => ?_) rfl
      have k1 := c1 x hx; have k2 := c1 c (by simp)
      cases x <;> simp [isNull] at k1; cases c <;> simp [isNull] at k2; rfl
    rw [if_neg c1] at h
    by_cases c2 : (c :: cs).all isBool = true
    · rw [if_pos c2] at h; cases h
      rw [List.all_eq_true] at c2
      refine same (fun x hx => ?_) rfl
      have k1 := c2 x hx; have k2 := c2 c (by simp)
      cases x <;> simp [isBool] at k1; cases c <;> simp [isBool] at k2; rfl
    rw [if_neg c2] at h
    by_cases c3 : (c :: cs).all isInt = true
    · rw [if_pos c3] at h; cases h
      rw [List.all_eq_true] at c3
      have k2 := c3 c (by simp)
      cases c <;> simp [isInt] at k2
      refine same (fun x hx => ?_) rfl
      have k1 := c3 x hx
      cases x <;> simp [isInt] at k1; rfl
    rw [if_neg c3] at h
    have has : ∀ (p q : AType → Bool), ¬ (c :: cs).all p = true → (c :: cs).all (fun x => p x || q x) = true →
        ∃ x ∈ c :: cs, q x = true := by
      intro p q h1 h2
      rw [List.all_eq_true] at h1 h2
      push Not at h1
      obtain ⟨x, hx, hp⟩ := h1
      have := h2 x hx
      simp only [Bool.or_eq_true] at this
      exact ⟨x, hx, this.resolve_left hp⟩
    by_cases c4 : (c :: cs).all (fun x => isInt x || isLong x) = true
    · rw [if_pos c4] at h; cases h
      obtain ⟨x, hx, hq⟩ := has _ _ c3 c4
      cases x <;> simp [isLong] at hq
      refine among hx (fun y hy => ?_)
      have := (List.all_eq_true.1 c4) y hy
      cases y <;> simp [isInt, isLong] at this <;> rfl
    rw [if_neg c4] at h
    by_cases c5 : (c :: cs).all (fun x => isInt x || isLong x || isFloat x) = true
    · rw [if_pos c5] at h; cases h
      obtain ⟨x, hx, hq⟩ := has _ _ c4 c5
      cases x <;> simp [isFloat] at hq
      refine among hx (fun y hy => ?_)
      have := (List.all_eq_true.1 c5) y hy
      cases y <;> simp [isInt, isLong, isFloat] at this <;> rfl
    rw [if_neg c5] at h
    by_cases c6 : (c :: cs).all (fun x => isInt x || isLong x || isFloat x || isDouble x) = true
    · rw [if_pos c6] at h; cases h
      obtain ⟨x, hx, hq⟩ := has _ _ c5 c6
      cases x <;> simp [isDouble] at hq
      refine among hx (fun y hy => ?_)
      have := (List.all_eq_true.1 c6) y hy
      cases y <;> simp [isInt, isLong, isFloat, isDouble] at this <;> rfl
    rw [if_neg c6] at h
    by_cases c7 : (c :: cs).all isBytes = true
    · rw [if_pos c7] at h; cases h
      rw [List.all_eq_true] at c7
      refine same (fun x hx => ?_) rfl
      have k1 := c7 x hx; have k2 := c7 c (by simp)
      cases x <;> simp [isBytes] at k1; cases c <;> simp [isBytes] at k2; rfl
    rw [if_neg c7] at h
    by_cases c8 : (c :: cs).all isString = true
    · rw [if_pos c8] at h; cases h
      rw [List.all_eq_true] at c8
      refine same (fun x hx => ?_) rfl
      have k1 := c8 x hx; have k2 := c8 c (by simp)
      cases x <;> simp [isString] at k1; cases c <;> simp [isString] at k2; rfl
    rw [if_neg c8] at h
    by_cases c9 : (c :: cs).all isFixed = true
    · rw [if_pos c9] at h
      obtain ⟨h1, h2⟩ := sameName_ok he hg (.inl (.inl c9)) h
      exact same h2 h1
    rw [if_neg c9] at h
    by_cases c10 : (c :: cs).all isEnum = true
    · rw [if_pos c10] at h
      obtain ⟨h1, h2⟩ := sameName_ok he hg (.inl (.inr c10)) h
      exact same h2 h1
    rw [if_neg c10] at h
    by_cases c11 : (c :: cs).all isRecord = true
    · rw [if_pos c11] at h
      obtain ⟨h1, h2⟩ := sameName_ok he hg (.inr c11) h
      exact same h2 h1
    rw [if_neg c11] at h
    have mixed : ∀ {t}, mix env (c :: cs) = .ok t → (∀ x ∈ c :: cs, accepts env env t x = true) ∧ Good env D t ∧
        ∀ u, wf u = true → (∀ x ∈ c :: cs, accepts env env u x = true) → accepts env env u t = true := by
      intro t h
      obtain ⟨h1, h2, h3⟩ := mix_ok he hg h
      exact ⟨h1, h2, fun u _ => h3 u⟩
    cases c with
    | array i =>
      simp only at h
      by_cases ca : cs.all isArray = true
      · rw [if_pos ca] at h
        have ha : ∀ x ∈ AType.array i :: cs, ∃ j, x = .array j := by
          intro x hx
          rcases List.mem_cons.1 hx with rfl | hx
          · exact ⟨i, rfl⟩
          · exact (isArray_iff x).1 (List.all_eq_true.1 ca x hx)
        cases hb : bt env i (cs.map inner) with
        | error e => rw [hb] at h; cases h
        | ok v =>
          rw [hb] at h; cases h
          obtain ⟨h1, h2, h3⟩ := ih i (cs.map inner) v (by simp at hk; omega) (by
            intro x hx
            have : ∃ y ∈ AType.array i :: cs, x = inner y := by
              rcases List.mem_cons.1 hx with rfl | hx
              · exact ⟨.array x, by simp, rfl⟩
              · obtain ⟨y, hy, rfl⟩ := List.mem_map.1 hx
                exact ⟨y, by simp [hy], rfl⟩
            obtain ⟨y, hy, rfl⟩ := this
            obtain ⟨j, rfl⟩ := ha y hy
            exact (hg _ hy).array) hb
          refine ⟨fun x hx => ?_, h2.to_array, fun u hw hu => ?_⟩
          · obtain ⟨j, rfl⟩ := ha x hx
            refine h1 j ?_
            rcases List.mem_cons.1 hx with hx | hx
            · cases hx; simp
            · exact List.mem_cons_of_mem _ (List.mem_map.2 ⟨_, hx, rfl⟩)
          · obtain ⟨v', hv', hv2, hv3⟩ := array_member hw _ ha hu
            refine hv3 _ (h3 v' hv' (fun x hx => ?_))
            rcases List.mem_cons.1 hx with rfl | hx
            · exact hv2 (.array x) (by simp)
            · obtain ⟨y, hy, rfl⟩ := List.mem_map.1 hx
              exact hv2 y (by simp [hy])
      · rw [if_neg ca] at h; exact mixed h
    | map i =>
      simp only at h
      by_cases ca : cs.all isMap = true
      · rw [if_pos ca] at h
        have ha : ∀ x ∈ AType.map i :: cs, ∃ j, x = .map j := by
          intro x hx
          rcases List.mem_cons.1 hx with rfl | hx
          · exact ⟨i, rfl⟩
          · exact (isMap_iff x).1 (List.all_eq_true.1 ca x hx)
        cases hb : bt env i (cs.map inner) with
        | error e => rw [hb] at h; cases h
        | ok v =>
          rw [hb] at h; cases h
          obtain ⟨h1, h2, h3⟩ := ih i (cs.map inner) v (by simp at hk; omega) (by
            intro x hx
            have : ∃ y ∈ AType.map i :: cs, x = inner y := by
              rcases List.mem_cons.1 hx with rfl | hx
              · exact ⟨.map x, by simp, rfl⟩
              · obtain ⟨y, hy, rfl⟩ := List.mem_map.1 hx
                exact ⟨y, by simp [hy], rfl⟩
            obtain ⟨y, hy, rfl⟩ := this
            obtain ⟨j, rfl⟩ := ha y hy
            exact (hg _ hy).map) hb
          refine ⟨fun x hx => ?_, h2.to_map, fun u hw hu => ?_⟩
          · obtain ⟨j, rfl⟩ := ha x hx
            refine h1 j ?_
            rcases List.mem_cons.1 hx with hx | hx
            · cases hx; simp
            · exact List.mem_cons_of_mem _ (List.mem_map.2 ⟨_, hx, rfl⟩)
          · obtain ⟨v', hv', hv2, hv3⟩ := map_member hw _ ha hu
            refine hv3 _ (h3 v' hv' (fun x hx => ?_))
            rcases List.mem_cons.1 hx with rfl | hx
            · exact hv2 (.map x) (by simp)
            · obtain ⟨y, hy, rfl⟩ := List.mem_map.1 hx
              exact hv2 y (by simp [hy])
      · rw [if_neg ca] at h; exact mixed h
    | _ => exact mixed h

/-- Every type of a document accepts itself. -/
theorem Accepts.refl {env : Env} (he : env.Ok) {D} {t : CType} (h : GoodC env D t) : Accepts env t t := by
  induction h with
  | avro h => exact .avro (accepts_refl he _ h.known)
  | exc => exact .exc
  | fcn _ _ ih ihr =>
    refine .fcn rfl (fun i p q hp hq => ?_) ihr
    rw [hp] at hq; cases hq
    exact ih _ (List.mem_of_getElem? hp)

theorem mem_avros {t : AType} {cs : List CType} : t ∈ avros cs ↔ CType.avro t ∈ cs := by
  induction cs with
  | nil => simp [avros]
  | cons c cs ih => cases c <;> simp [avros, ih]

/-! ## C39 -/

/-- C39: the result accepts every candidate except those of the exception type, and is again a type of
the document. -/
theorem broadest_accepts {env : Env} (he : env.Ok) {D} {cs : List CType} (hg : ∀ c ∈ cs, GoodC env D c) {t : CType}
    (h : broadest env cs = .ok (some t)) : (∀ c ∈ cs, c ≠ .exc → Accepts env t c) ∧ GoodC env D t ∧ t ≠ .exc := by
  unfold broadest at h
  have hmem : ∀ c, c ∈ cs.filter (fun x => !isExc x) ↔ c ∈ cs ∧ c ≠ .exc := by
    intro c; rw [List.mem_filter]; cases c <;> simp [isExc]
  cases hf : cs.filter (fun x => !isExc x) with
  | nil => rw [hf] at h; cases h
  | cons c rest =>
    rw [hf] at h hmem
    cases c with
    | exc => cases h
    | fcn ps r =>
      simp only at h
      split at h
      · split at h
        · next hall =>
          cases h
          have hin : CType.fcn ps r ∈ cs := ((hmem _).1 (by simp)).1
          refine ⟨fun c hc hne => ?_, hg _ hin, by simp⟩
          have := (hmem c).2 ⟨hc, hne⟩
          have heq : c = .fcn ps r := by
            rcases List.mem_cons.1 this with h | h
            · exact h
            · exact CType.beq_eq _ _ (List.all_eq_true.1 hall c h)
          rw [heq]; exact Accepts.refl he (hg _ hin)
        · cases h
      · cases h
    | avro a =>
      simp only at h
      split at h
      · cases h
      · next hany =>
        cases hb : bt env a (avros rest) with
        | error e => rw [hb] at h; cases h
        | ok u =>
          rw [hb] at h; cases h
          have hga : ∀ x ∈ a :: avros rest, Good env D x := by
            intro x hx
            have : CType.avro x ∈ cs := by
              refine ((hmem _).1 ?_).1
              rcases List.mem_cons.1 hx with rfl | hx
              · simp
              · exact List.mem_cons_of_mem _ (mem_avros.1 hx)
            cases hg _ this; assumption
          obtain ⟨h1, h2, -⟩ := bt_ok he _ a (avros rest) u (Nat.le_refl _) hga hb
          refine ⟨fun c hc hne => ?_, .avro h2, by simp⟩
          have hc' := (hmem c).2 ⟨hc, hne⟩
          cases c with
          | exc => exact absurd rfl hne
          | fcn ps r => exact absurd (List.any_eq_true.2 ⟨_, hc', rfl⟩) hany
          | avro x =>
            refine .avro (h1 x ?_)
            rcases List.mem_cons.1 hc' with h | h
            · cases h; simp
            · exact List.mem_cons_of_mem _ (mem_avros.2 h)

/-- C39: among the proper Avro types the result is the narrowest one. -/
theorem broadest_least {env : Env} (he : env.Ok) {D} {cs : List CType} (hg : ∀ c ∈ cs, GoodC env D c) {t : AType}
    (h : broadest env cs = .ok (some (.avro t))) (u : AType) (hu : wf u = true)
    (hacc : ∀ c, CType.avro c ∈ cs → accepts env env u c = true) : accepts env env u t = true := by
  unfold broadest at h
  have hmem : ∀ c, c ∈ cs.filter (fun x => !isExc x) ↔ c ∈ cs ∧ c ≠ .exc := by
    intro c; rw [List.mem_filter]; cases c <;> simp [isExc]
  cases hf : cs.filter (fun x => !isExc x) with
  | nil => rw [hf] at h; cases h
  | cons c rest =>
    rw [hf] at h hmem
    cases c with
    | exc => cases h
    | fcn ps r =>
      simp only at h
      split at h
      · split at h <;> cases h
      · cases h
    | avro a =>
      simp only at h
      split at h
      · cases h
      · cases hb : bt env a (avros rest) with
        | error e => rw [hb] at h; cases h
        | ok v =>
          rw [hb] at h; cases h
          have hin : ∀ x ∈ a :: avros rest, CType.avro x ∈ cs := by
            intro x hx
            refine ((hmem _).1 ?_).1
            rcases List.mem_cons.1 hx with rfl | hx
            · simp
            · exact List.mem_cons_of_mem _ (mem_avros.1 hx)
          exact (bt_ok he (D := D) _ a (avros rest) t (Nat.le_refl _)
            (fun x hx => by cases hg _ (hin x hx); assumption) hb).2.2 u hu (fun x hx => hacc x (hin x hx))

theorem mix_error {env : Env} {cs : List AType} {e : Err} (h : mix env cs = .error e) : e = incompatible ∨ e = .avro := by
  unfold mix mkUnion at h
  simp only at h
  split_ifs at h <;> cases h <;> simp

theorem bt_error {env : Env} : ∀ (k : Nat) (c : AType) (cs : List AType) (e : Err), sizeOf c ≤ k →
    bt env c cs = .error e → e = incompatible ∨ e = .avro := by
  intro k
  induction k with
  | zero =>
    intro c cs e hk
    have : 0 < sizeOf c := by cases c <;> simp <;> omega
    omega
  | succ k ih =>
    intro c cs e hk h
    rw [bt.eq_def] at h
    have hs : ∀ {c cs}, sameName c cs = .error e → e = incompatible ∨ e = .avro := by
      intro c cs h
      unfold sameName at h
      split at h <;> cases h
      exact .inl rfl
    iterate 8 (rcases Classical.em _ with hc | hc <;> [(rw [if_pos hc] at h; cases h); rw [if_neg hc] at h])
    iterate 3 (rcases Classical.em _ with hc | hc <;> [(rw [if_pos hc] at h; exact hs h); rw [if_neg hc] at h])
    cases c with
    | array i =>
      simp only at h
      split at h
      · cases hb : bt env i (cs.map inner) with
        | ok t => rw [hb] at h; cases h
        | error e' => rw [hb] at h; cases h; exact ih i _ _ (by simp at hk; omega) hb
      · exact mix_error h
    | map i =>
      simp only at h
      split at h
      · cases hb : bt env i (cs.map inner) with
        | ok t => rw [hb] at h; cases h
        | error e' => rw [hb] at h; cases h; exact ih i _ _ (by simp at hk; omega) hb
      · exact mix_error h
    | _ => exact mix_error h

/-- C39 in full: a type that accepts each candidate, or IncompatibleTypes.  See the violations. -/
def BroadestSpec : Prop := ∀ (env : Env) (D : Name → Option AType) (cs : List CType), env.Ok → cs ≠ [] →
  (∀ c ∈ cs, GoodC env D c) →
  (∃ t, broadest env cs = .ok (some t) ∧ ∀ c ∈ cs, c ≠ .exc → Accepts env t c) ∨ broadest env cs = .error incompatible

/-- C39, partial: either the result accepts each candidate, or IncompatibleTypes is raised, or AvroException is
raised, or there is no candidate but the exception type and a ValueError object is returned as if it were
a type. -/
theorem broadest_partial {env : Env} (he : env.Ok) {D} {cs : List CType} (hg : ∀ c ∈ cs, GoodC env D c) :
    (∃ t, broadest env cs = .ok (some t) ∧ ∀ c ∈ cs, c ≠ .exc → Accepts env t c) ∨
    broadest env cs = .error incompatible ∨ broadest env cs = .error .avro ∨
    (broadest env cs = .ok none ∧ ∀ c ∈ cs, c = .exc) := by
  cases h : broadest env cs with
  | ok o =>
    cases o with
    | some t => exact .inl ⟨t, rfl, (broadest_accepts he hg h).1⟩
    | none =>
      refine .inr (.inr (.inr ⟨rfl, fun c hc => ?_⟩))
      by_contra hne
      have hmem : c ∈ cs.filter (fun x => !isExc x) := by
        rw [List.mem_filter]; refine ⟨hc, ?_⟩; cases c <;> simp_all [isExc]
      have hex : ∀ x ∈ cs.filter (fun x => !isExc x), x ≠ .exc := by
        intro x hx; rw [List.mem_filter] at hx; rintro rfl; simp [isExc] at hx
      unfold broadest at h
      split at h
      · next hf => rw [hf] at hmem; cases hmem
      · split_ifs at h; all_goals cases h
      · split at h
        · cases h
        · split at h <;> cases h
      · next hf => rw [hf] at hex; exact hex _ (by simp) rfl
  | error e =>
    have : e = incompatible ∨ e = .avro := by
      unfold broadest at h
      split at h
      · cases h
      · split_ifs at h <;> cases h <;> exact .inl rfl
      · split at h
        · cases h; exact .inl rfl
        · split at h
          · cases h
          · next hb => cases h; exact bt_error _ _ _ _ (Nat.le_refl _) hb
      · cases h
    rcases this with rfl | rfl
    · exact .inr (.inl rfl)
    · exact .inr (.inr (.inl rfl))

/-- Arrays of different items together with null: AvroException, although
`union(array(union(string, int)), null)` accepts all three. -/
theorem broadest_union_violation : ¬ BroadestSpec ∧
    ∃ cs u, broadest [] cs = .error .avro ∧ wf u = true ∧ ∀ c ∈ cs, Accepts [] (.avro u) c := by
  have hw : broadest [] [.avro (.array .string), .avro (.array .int), .avro .null] = .error .avro := by decide +kernel
  constructor
  · intro h
    have := h [] (fun _ => none) [.avro (.array .string), .avro (.array .int), .avro .null]
      ⟨by simp [Env.fields?, PyDict.get?], by simp [Env.fields?, PyDict.get?]⟩ (by simp) (by
        intro c hc
        simp only [List.mem_cons, List.not_mem_nil, or_false] at hc
        rcases hc with rfl | rfl | rfl <;> exact .avro ⟨by decide, by decide, by simp [Declared]⟩)
    rw [hw] at this
    rcases this with ⟨t, h, -⟩ | h
    · cases h
    · cases h
  · refine ⟨_, .union [.array (.union [.string, .int]), .null], hw, by decide +kernel, ?_⟩
    intro c hc
    simp only [List.mem_cons, List.not_mem_nil, or_false] at hc
    rcases hc with rfl | rfl | rfl <;> exact .avro (by decide +kernel)

/-- Candidates of the exception type only: the result is no type. -/
theorem broadest_exception_violation (env : Env) (n : Nat) : broadest env (List.replicate n .exc) = .ok none := by
  have : (List.replicate n CType.exc).filter (fun x => !isExc x) = [] := by
    rw [List.filter_eq_nil_iff]
    intro x hx
    rw [List.mem_replicate] at hx
    rw [hx.2]; simp [isExc]
  unfold broadest; rw [this]

/-- Without consistent names the result need not accept the candidates. -/
theorem broadest_names_violation : bt [] (.fixed nR 3) [.fixed nR 4] = .ok (.fixed nR 3) ∧
    accepts [] [] (.fixed nR 3) (.fixed nR 4) = false := by decide +kernel

example : broadest [] [.avro (.array .int), .exc, .avro (.array .double)] = .ok (some (.avro (.array .double))) := by
  decide +kernel
example : broadest [] [.avro .int, .avro (.union [.null, .string]), .avro .double] =
    .ok (some (.avro (.union [.double, .null, .string]))) := by decide +kernel
example : broadest [] [.avro .int, .fcn [] (.avro .int)] = .error incompatible := by decide +kernel

end Verif.Sig
