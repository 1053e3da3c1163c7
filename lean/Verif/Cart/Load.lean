import Verif.Cart.Rows
import Verif.Avro.JsonRound
/-! # Growing trees: the document is read as it was written (C87) -/

namespace Verif.Cart
open Avro Lib Tree

/-! ## Model -/

/-- A field of the node type that is there when it is asked for. -/
def optField (b : Bool) (name : String) (t : AType) : List Field := if b then [{ name := name, type := t }] else []

/-- The type of the score (709-721). -/
def scoreAType : Col → AType
  | .num _ => .double
  | .cat _ _ => .string

/-- `pfaType` (725-788): the fields of the node type.  `enumName` is the name of the type of the field names. -/
def pfaType (o : Opts) (y : Col) (enumName : Name) (fields : List (String × AType)) (vt : AType) (tree : String) : List Field :=
  [{ name := "field", type := .enum enumName (fields.map Prod.fst) }, { name := "operator", type := .string }, { name := "value", type := vt },
    { name := "pass", type := .union [scoreAType y, .record ⟨"", tree⟩] }, { name := "fail", type := .union [scoreAType y, .record ⟨"", tree⟩] }] ++
  (optField o.nodeScores "score" (scoreAType y) ++ (optField o.datasetSize "datasetSize" .int ++
    (optField o.predictandDistribution "scoreDistribution" (.map .int) ++ (optField o.predictandUnique "scoreValues" (.array (scoreAType y)) ++
    (optField o.entropy "entropy" .double ++ (optField o.nTimesVariance "nTimesVariance" .double ++ optField o.gain "gain" .double))))))

/-! ## Values that are read as they were written -/

/-- Reading gives the same value, whatever the depth that is left. -/
def Same (pf : List Char → Option Flt) (env : Env) (t : AType) (v : Val) : Prop := Ends (dec pf env) t v v

variable {pf : List Char → Option Flt} {env : Env}

theorem same_double (x : Flt) : Same pf env .double (.flt x) :=
  ⟨1, fun n hn => by obtain ⟨m, rfl⟩ : ∃ m, n = m + 1 := ⟨n - 1, by omega⟩
                     rfl⟩

theorem same_float (x : Flt) : Same pf env .float (.flt x) :=
  ⟨1, fun n hn => by obtain ⟨m, rfl⟩ : ∃ m, n = m + 1 := ⟨n - 1, by omega⟩
                     rfl⟩

theorem same_int (i : Int) : Same pf env .int (.int i) :=
  ⟨1, fun n hn => by obtain ⟨m, rfl⟩ : ∃ m, n = m + 1 := ⟨n - 1, by omega⟩
                     rfl⟩

theorem same_string (s : String) : Same pf env .string (.str s) :=
  ⟨1, fun n hn => by obtain ⟨m, rfl⟩ : ∃ m, n = m + 1 := ⟨n - 1, by omega⟩
                     rfl⟩

theorem same_enum (nm : Name) {syms : List String} {s : String} (h : s ∈ syms) : Same pf env (.enum nm syms) (.str s) :=
  ⟨1, fun n hn => by obtain ⟨m, rfl⟩ : ∃ m, n = m + 1 := ⟨n - 1, by omega⟩
                     simp [dec, decStep, h]⟩

theorem same_array {t : AType} {xs : List Val} (h : ∀ x ∈ xs, Same pf env t x) : Same pf env (.array t) (.arr xs) := by
  obtain ⟨N, hN⟩ := ev_list (P := fun n x => dec pf env n t x = .ok x) (xs := xs) (fun x hx => h x hx)
  refine ⟨N + 1, fun n hn => ?_⟩
  obtain ⟨m, rfl⟩ : ∃ m, n = m + 1 := ⟨n - 1, by omega⟩
  have : ∀ (xs : List Val), (∀ x ∈ xs, dec pf env m t x = .ok x) → mapR (dec pf env m t) xs = .ok xs := by
    intro xs
    induction xs with
    | nil => intro _; rfl
    | cons x xs ih =>
      intro h
      simp only [mapR, h x (by simp), ih fun y hy => h y (by simp [hy])]
  simp only [dec, decStep, this xs (hN m (by omega)), Res.app]

theorem same_union {ts : List AType} {t : AType} {v : Val} (ht : t ∈ ts) (hu : ∀ t' ∈ ts, t'.name = t.name → t' = t) (h : Same pf env t v) :
    Same pf env (.union ts) (.dict [(t.name, v)]) := by
  obtain ⟨N, hN⟩ := h
  refine ⟨N + 1, fun n hn => ?_⟩
  obtain ⟨m, rfl⟩ : ∃ m, n = m + 1 := ⟨n - 1, by omega⟩
  simp only [dec, decStep, tagTypes_of ht hu, hN m (by omega), Res.app]

theorem set_fresh {out : List (String × Val)} {k : String} (h : k ∉ out.map Prod.fst) (v : Val) : PyDict.set out k v = out ++ [(k, v)] := by
  induction out with
  | nil => rfl
  | cons a out ih =>
    obtain ⟨a, b⟩ := a
    simp only [List.map_cons, List.mem_cons, not_or] at h
    simp only [PyDict.set, List.cons_append]
    rw [if_neg (Ne.symm h.1), ih h.2]

theorem decFields_same {f : AType → Val → Res Val} {e : Err} {all : List (String × Val)} (ps : List (Field × Val)) :
    ∀ (out : List (String × Val)), (∀ p ∈ ps, PyDict.get? all p.1.name = some p.2 ∧ f p.1.type p.2 = .ok p.2) →
      (out.map Prod.fst ++ ps.map fun p => p.1.name).Nodup →
      decFields f all e (ps.map Prod.fst) out = .ok (out ++ ps.map fun p => (p.1.name, p.2)) := by
  induction ps with
  | nil => intro out _ _; simp [decFields]
  | cons p ps ih =>
    intro out h hn
    obtain ⟨h1, h2⟩ := h p (by simp)
    have hf : p.1.name ∉ out.map Prod.fst := by
      intro hm
      rw [List.nodup_append] at hn
      exact hn.2.2 _ hm _ (by simp) rfl
    simp only [List.map_cons, decFields, h1, h2, set_fresh hf]
    rw [ih (out ++ [(p.1.name, p.2)]) (fun q hq => h q (by simp [hq])) (by simpa using hn)]
    simp

/-- A record whose entries are in the order of the fields. -/
theorem same_record {n : Name} {ps : List (Field × Val)} (hf : env.fields? n = some (ps.map Prod.fst)) (hn : (ps.map fun p => p.1.name).Nodup)
    (h : ∀ p ∈ ps, Same pf env p.1.type p.2) : Same pf env (.record n) (.dict (ps.map fun p => (p.1.name, p.2))) := by
  obtain ⟨N, hN⟩ := ev_list (P := fun n (p : Field × Val) => dec pf env n p.1.type p.2 = .ok p.2) (xs := ps) (fun p hp => h p hp)
  refine ⟨N + 1, fun k hk => ?_⟩
  obtain ⟨m, rfl⟩ : ∃ m, k = m + 1 := ⟨k - 1, by omega⟩
  have hwf : PyDict.WF (ps.map fun p => (p.1.name, p.2)) := by
    simp only [PyDict.WF, PyDict.keys, List.map_map]
    exact hn
  simp only [dec, decStep, hf]
  rw [decFields_same ps [] (fun p hp => ⟨PyDict.get?_of_mem hwf (List.mem_map.2 ⟨p, hp, rfl⟩), hN m (by omega) p hp⟩) (by simpa using hn)]
  simp [Res.app]

/-! ## The value type -/

theorem bt_members {c : AType} {cs : List AType} (hp : ∀ x ∈ c :: cs, x ∈ plain) {ts : List AType} (h : Sig.bt [] c cs = .ok (.union ts)) :
    ∀ u ∈ ts, u ∈ c :: cs := by
  have mixm : ∀ {l : List AType}, (∀ x ∈ l, x ∈ plain) → Sig.mix [] l = .ok (.union ts) → ∀ u ∈ ts, u ∈ l := by
    intro l hl h
    unfold Sig.mix at h
    simp only at h
    split at h
    · cases h
    · split at h
      · cases h
      · have hfl : ∀ c ∈ l, c.flat = true := by
          intro c hc
          have := hl c hc
          simp only [plain, List.mem_cons, List.not_mem_nil, or_false] at this
          rcases this with rfl | rfl | rfl | rfl | rfl | rfl <;> rfl
        have hmem : ∀ (cs out : List AType), ∀ y ∈ cs.foldl (Sig.absorb []) out, y ∈ out ∨ y ∈ cs := by
          intro cs
          induction cs with
          | nil => intro out y hy; exact .inl hy
          | cons c cs ih =>
            intro out y hy
            rcases ih _ _ hy with hy | hy
            · rcases Sig.absorb_sub hy with hy | rfl
              · exact .inl hy
              · exact .inr (by simp)
            · exact .inr (by simp [hy])
        rw [Sig.distinctL_flat _ _ _ hfl] at h
        obtain ⟨h2, hn⟩ := Sig.mkUnion_ok h
        cases h2
        intro u hu
        rcases hmem l [] u hu with hu | hu
        · cases hu
        · exact hu
  have hc := hp c (by simp)
  unfold Sig.bt at h
  have nu : c ≠ .union ts := by
    rintro rfl
    simp [plain] at hc
  by_cases h1 : ((c :: cs).all Sig.isNull) = true
  · rw [if_pos h1] at h; cases h; exact absurd rfl nu
  rw [if_neg h1] at h
  by_cases h2 : ((c :: cs).all Sig.isBool) = true
  · rw [if_pos h2] at h; cases h; exact absurd rfl nu
  rw [if_neg h2] at h
  split at h
  · cases h
  split at h
  · cases h
  split at h
  · cases h
  split at h
  · cases h
  split at h
  · cases h; exact absurd rfl nu
  split at h
  · cases h; exact absurd rfl nu
  have hsn : ∀ cs', Sig.sameName c cs' = .ok (.union ts) → False := by
    intro cs' h
    unfold Sig.sameName at h
    split at h <;> cases h
    exact nu rfl
  split at h
  · exact (hsn _ h).elim
  split at h
  · exact (hsn _ h).elim
  split at h
  · exact (hsn _ h).elim
  simp only [plain, List.mem_cons, List.not_mem_nil, or_false] at hc
  rcases hc with rfl | rfl | rfl | rfl | rfl | rfl
  · exact mixm hp h
  · exact mixm hp h
  · exact mixm hp h
  · exact mixm hp h
  · exact mixm hp h
  · simp only at h
    split at h
    · split at h <;> cases h
    · exact mixm hp h

/-- A union has only types of fields. -/
theorem pfaValueType_members {m : Option Nat} {d : Data} {fields : List (String × AType)} {ts : List AType}
    (h : pfaValueType m d fields = .ok (.union ts)) :
    ∀ u ∈ ts, ∃ nm t f, (nm, t) ∈ fields ∧ nm ∈ d.names ∧ kindType m f t = .ok u := by
  have hft : ∀ (fs : List (String × AType)) (us : List AType), fieldTypes m d fs = .ok us →
      ∀ u ∈ us, ∃ nm t f, (nm, t) ∈ fs ∧ nm ∈ d.names ∧ kindType m f t = .ok u := by
    intro fs
    induction fs with
    | nil => intro us h u hu; cases h; cases hu
    | cons a fs ih =>
      obtain ⟨nm, t⟩ := a
      intro us h u hu
      unfold fieldTypes at h
      by_cases hm : nm ∈ d.names
      · rw [if_pos hm] at h
        cases hf : d.fields[d.names.idxOf nm]? with
        | none => rw [hf] at h; cases h
        | some f =>
          rw [hf] at h
          simp only at h
          cases hk : kindType m f t with
          | error e => rw [hk] at h; cases h
          | ok v =>
            cases hr : fieldTypes m d fs with
            | error e => rw [hk, hr] at h; cases h
            | ok vs =>
              rw [hk, hr] at h
              cases h
              rcases List.mem_cons.1 hu with rfl | hu
              · exact ⟨nm, t, f, by simp, hm, hk⟩
              · obtain ⟨a, b, c, h1, h2⟩ := ih vs hr u hu
                exact ⟨a, b, c, by simp [h1], h2⟩
      · rw [if_neg hm] at h
        obtain ⟨a, b, c, h1, h2⟩ := ih us h u hu
        exact ⟨a, b, c, by simp [h1], h2⟩
  unfold pfaValueType at h
  split at h
  · cases hf : fieldTypes m d fields with
    | error e => rw [hf] at h; cases h
    | ok us =>
      rw [hf] at h
      simp only at h
      obtain ⟨h1, -⟩ := fieldTypes_mem hf
      cases he : us.eraseDups with
      | nil => rw [he] at h; cases h
      | cons c cs =>
        rw [he] at h
        simp only at h
        have hm : ∀ x, x ∈ c :: cs ↔ x ∈ us := by
          intro x
          rw [← he]
          exact List.mem_eraseDups
        intro u hu
        exact hft fields us hf u ((hm u).1 (bt_members (fun x hx => h1 x ((hm x).1 hx)) h u hu))
  · cases h

/-- All fields that are used are texts or numbers of one floating point type. -/
def Floating (T : AType) (d : Data) (fields : List (String × AType)) : Prop :=
  T ∈ [AType.float, .double] ∧ ∀ nm t, (nm, t) ∈ fields → nm ∈ d.names → t = T ∨ t = .string

/-- The type of the texts in the node type. -/
def textType (m : Option Nat) : AType := if m = some 1 then .string else .array .string

theorem kindType_floating {T : AType} {d : Data} {fields : List (String × AType)} (hT : Floating T d fields) {m : Option Nat} {f : Col} {nm : String}
    {t u : AType} (h1 : (nm, t) ∈ fields) (h2 : nm ∈ d.names) (h : kindType m f t = .ok u) :
    ((∃ xs, f = .num xs) ∧ t = T ∧ u = T) ∨ ((∃ xs ns, f = .cat xs ns) ∧ t = .string ∧ u = textType m) := by
  cases f with
  | num xs =>
    simp only [kindType] at h
    by_cases ht : t ∈ [AType.int, .long, .float, .double]
    · rw [if_pos ht] at h
      cases h
      rcases hT.2 nm t h1 h2 with rfl | rfl
      · exact .inl ⟨⟨xs, rfl⟩, rfl, rfl⟩
      · simp at ht
    · rw [if_neg ht] at h; cases h
  | cat xs ns =>
    simp only [kindType] at h
    by_cases ht : t = .string
    · rw [if_pos ht] at h
      refine .inr ⟨⟨xs, ns, rfl⟩, ht, ?_⟩
      subst ht
      unfold textType
      split at h <;> cases h <;> simp [*]
    · rw [if_neg ht] at h; cases h

/-- The value of a node is read as it was written. -/
theorem value_same {T : AType} {d : Data} {fields : List (String × AType)} (hT : Floating T d fields) {m : Option Nat} {vt : AType}
    (hvt : pfaValueType m d fields = .ok vt) (hdn : d.names.Nodup) (hfn : (fields.map Prod.fst).Nodup) {i : Nat} {nm : String} {col : Col}
    (hi : d.names[i]? = some nm) (hc : d.fields[i]? = some col) {cut : Cut} {op : String} {x value : Val} {col' : Col}
    (hk : (∃ xs, col = .num xs) ↔ ∃ xs, col' = .num xs) (hs : splitValue m col' cut = .ok (op, x))
    (htv : tagValue fields vt nm op x = .ok value) : Same pf env vt value := by
  obtain ⟨hsim, h4, h5⟩ := pfaValueType_spec hvt
  have hnm := List.mem_of_getElem? hi
  obtain ⟨t, hmem⟩ := h4 nm hnm
  obtain ⟨f, u, h6, h7, h8⟩ := h5 nm t hmem hnm
  have hidx : d.names.idxOf nm = i := by
    obtain ⟨hlt, rfl⟩ := List.getElem?_eq_some_iff.1 hi
    exact hdn.idxOf_getElem _ hlt
  rw [hidx, hc] at h6
  cases h6
  have fl := filter_name hfn hmem
  have hacc := h8 env
  have hkind := kindType_floating hT hmem hnm h7
  -- what has been written, with its type
  have hx : Same pf env u x ∧ (if op = "in" then "array" else t.name) = u.name := by
    rcases hkind with ⟨⟨xs, rfl⟩, rfl, rfl⟩ | ⟨⟨xs, ns, rfl⟩, rfl, rfl⟩
    · obtain ⟨xs', rfl⟩ := hk.1 ⟨xs, rfl⟩
      cases cut with
      | cats cs => cases hs
      | num c =>
        cases hs
        refine ⟨?_, rfl⟩
        have := hT.1
        simp only [List.mem_cons, List.not_mem_nil, or_false] at this
        rcases this with rfl | rfl
        · exact same_float _
        · exact same_double _
    · cases col' with
      | num xs' => obtain ⟨_, h⟩ := hk.2 ⟨xs', rfl⟩; cases h
      | cat xs' ns' =>
        cases cut with
        | num c => cases hs
        | cats cs =>
          simp only [splitValue] at hs
          have hname : ∀ k v, nameOf ns' k = .ok v → ∃ s, v = .str s := by
            intro k v h
            unfold nameOf at h
            split at h <;> cases h
            exact ⟨_, rfl⟩
          by_cases hm1 : m = some 1
          · simp only [hm1, if_true] at hs
            cases cs with
            | nil => cases hs
            | cons c cs =>
              simp only at hs
              cases hn : nameOf ns' c with
              | error e => rw [hn] at hs; cases hs
              | ok v =>
                rw [hn] at hs
                cases hs
                obtain ⟨s, rfl⟩ := hname _ _ hn
                simp only [textType, hm1, if_true, String.reduceEq, if_false]
                exact ⟨same_string s, trivial⟩
          · rw [if_neg hm1] at hs
            cases hn : mapR (nameOf ns') cs with
            | error e => rw [hn] at hs; cases hs
            | ok vs =>
              rw [hn] at hs
              cases hs
              simp only [textType, hm1, if_true, if_false]
              refine ⟨same_array ?_, rfl⟩
              have : ∀ (cs : List Nat) (vs : List Val), mapR (nameOf ns') cs = .ok vs → ∀ v ∈ vs, ∃ s, v = .str s := by
                intro cs
                induction cs with
                | nil => intro vs h v hv; cases h; cases hv
                | cons c cs ih =>
                  intro vs h v hv
                  unfold mapR at h
                  cases h1 : nameOf ns' c with
                  | error e => rw [h1] at h; cases h
                  | ok y =>
                    rw [h1] at h
                    simp only at h
                    cases h2 : mapR (nameOf ns') cs with
                    | error e => rw [h2] at h; cases h
                    | ok ys =>
                      rw [h2] at h
                      cases h
                      rcases List.mem_cons.1 hv with rfl | hv
                      · exact hname _ _ h1
                      · exact ih ys h2 v hv
              intro v hv
              obtain ⟨s, rfl⟩ := this cs vs hn v hv
              exact same_string s
  obtain ⟨hx1, hx2⟩ := hx
  have hu2 : u ∈ [AType.float, .double, .string, .array .string] := by
    rcases hkind with ⟨-, -, rfl⟩ | ⟨-, -, rfl⟩
    · have := hT.1
      simp only [List.mem_cons, List.not_mem_nil, or_false] at this ⊢
      rcases this with h | h <;> simp [h]
    · unfold textType; split <;> simp
  rcases hsim with hpl | ⟨ts, rfl, p1, p2, -⟩
  · have hnu : isUnion vt = false := by
      simp only [plain, List.mem_cons, List.not_mem_nil, or_false] at hpl
      rcases hpl with rfl | rfl | rfl | rfl | rfl | rfl <;> rfl
    simp only [tagValue, hnu, Bool.false_eq_true, if_false, Except.ok.injEq] at htv
    subst htv
    -- the value type is that of the field, or double where the field is float
    have hvu : vt = u ∨ (vt = .double ∧ u = .float) := by
      simp only [plain, List.mem_cons, List.not_mem_nil, or_false] at hpl hu2
      rcases hu2 with rfl | rfl | rfl | rfl <;> rcases hpl with rfl | rfl | rfl | rfl | rfl | rfl <;>
        first
        | exact .inl rfl
        | exact .inr ⟨rfl, rfl⟩
        | (simp [accepts, acc, overUnion] at hacc)
    rcases hvu with rfl | ⟨rfl, rfl⟩
    · exact hx1
    · rcases hkind with ⟨⟨xs, rfl⟩, rfl, h⟩ | ⟨-, -, h⟩
      · obtain ⟨xs', rfl⟩ := hk.1 ⟨xs, rfl⟩
        cases cut with
        | cats cs => cases hs
        | num c => cases hs; exact same_double _
      · unfold textType at h; split at h <;> cases h
  · simp only [tagValue, isUnion, if_true, fl, Except.ok.injEq] at htv
    subst htv
    rw [hx2]
    have hin : u ∈ ts := by
      unfold accepts at hacc
      rw [acc_union_flat _ _ _ (by simp only [List.mem_cons, List.not_mem_nil, or_false] at hu2; rcases hu2 with rfl | rfl | rfl | rfl <;> rfl)] at hacc
      obtain ⟨u', hu', ha⟩ := hacc
      obtain ⟨nm', t', f', b1, b2, b3⟩ := pfaValueType_members hvt u' hu'
      have hT1 := hT.1
      simp only [List.mem_cons, List.not_mem_nil, or_false] at hT1
      have : u' = u := by
        rcases hkind with ⟨-, -, rfl⟩ | ⟨-, -, rfl⟩ <;> rcases kindType_floating hT b1 b2 b3 with ⟨-, -, rfl⟩ | ⟨-, -, rfl⟩
        · rfl
        · rcases hT1 with rfl | rfl <;> by_cases hm1 : m = some 1 <;> simp [textType, hm1, acc, overUnion] at ha
        · rcases hT1 with rfl | rfl <;> by_cases hm1 : m = some 1 <;> simp [textType, hm1, acc, overUnion] at ha
        · rfl
      exact this ▸ hu'
    refine same_union hin ?_ hx1
    intro t' ht' hname
    exact List.inj_on_of_nodup_map p2 ht' hin hname

/-! ## Trees -/

/-- The optional entries with their fields. -/
theorem opt_pairs {b : Bool} {name : String} {t : AType} {v : Res Val} {l : List (String × Val)} (h : opt b name v = .ok l)
    (hs : b = true → ∀ x, v = .ok x → Same pf env t x) :
    ∃ ps : List (Field × Val), ps.map Prod.fst = optField b name t ∧ (ps.map fun p => (p.1.name, p.2)) = l ∧ (∀ p ∈ ps, Same pf env p.1.type p.2) ∧
      (ps.map fun p => p.1.name).Sublist [name] := by
  cases b with
  | false => cases h; exact ⟨[], rfl, rfl, by simp, by simp⟩
  | true =>
    unfold opt at h
    simp only [if_true] at h
    cases hv : v with
    | error e => rw [hv] at h; cases h
    | ok x =>
      rw [hv] at h
      cases h
      refine ⟨[({ name := name, type := t }, x)], rfl, rfl, ?_, by simp⟩
      intro p hp
      cases List.mem_singleton.1 hp
      exact hs rfl x hv

theorem append_pairs {a b : List Field} {l m : List (String × Val)} {x y : List String}
    (h1 : ∃ ps : List (Field × Val), ps.map Prod.fst = a ∧ (ps.map fun p => (p.1.name, p.2)) = l ∧ (∀ p ∈ ps, Same pf env p.1.type p.2) ∧
      (ps.map fun p => p.1.name).Sublist x)
    (h2 : ∃ ps : List (Field × Val), ps.map Prod.fst = b ∧ (ps.map fun p => (p.1.name, p.2)) = m ∧ (∀ p ∈ ps, Same pf env p.1.type p.2) ∧
      (ps.map fun p => p.1.name).Sublist y) :
    ∃ ps : List (Field × Val), ps.map Prod.fst = a ++ b ∧ (ps.map fun p => (p.1.name, p.2)) = l ++ m ∧ (∀ p ∈ ps, Same pf env p.1.type p.2) ∧
      (ps.map fun p => p.1.name).Sublist (x ++ y) := by
  obtain ⟨p, a1, a2, a3, a4⟩ := h1
  obtain ⟨q, b1, b2, b3, b4⟩ := h2
  refine ⟨p ++ q, by simp [a1, b1], by simp [a2, b2], ?_, by simpa using a4.append b4⟩
  intro r hr
  rcases List.mem_append.1 hr with hr | hr
  · exact a3 r hr
  · exact b3 r hr

theorem score_same {y : Col} {x : Val} (h : score y = .ok x) : Same pf env (scoreAType y) x := by
  cases y with
  | num ys => cases h; exact same_double _
  | cat codes names =>
    unfold score at h
    simp only at h
    split at h
    · cases h
    · split at h <;> cases h
      exact same_string _

theorem extras_pairs {w : World} {o : Opts} {d : Data} {y : Col} {s : Split} {ex : List (String × Val)} (ho : o.predictandDistribution = false)
    (h : extras w o d y s = .ok ex) :
    ∃ ps : List (Field × Val), ps.map Prod.fst = optField o.nodeScores "score" (scoreAType y) ++ (optField o.datasetSize "datasetSize" .int ++
        (optField o.predictandDistribution "scoreDistribution" (.map .int) ++ (optField o.predictandUnique "scoreValues" (.array (scoreAType y)) ++
        (optField o.entropy "entropy" .double ++ (optField o.nTimesVariance "nTimesVariance" .double ++ optField o.gain "gain" .double))))) ∧
      (ps.map fun p => (p.1.name, p.2)) = ex ∧ (∀ p ∈ ps, Same pf env p.1.type p.2) ∧
      (ps.map fun p => p.1.name).Sublist (["score"] ++ (["datasetSize"] ++ (["scoreDistribution"] ++ (["scoreValues"] ++ (["entropy"] ++
        (["nTimesVariance"] ++ ["gain"])))))) := by
  unfold extras at h
  cases h1 : opt o.nodeScores "score" (score y) with
  | error e => rw [h1] at h; cases h
  | ok l1 =>
  cases h2 : opt o.datasetSize "datasetSize" (Res.app (fun n => Val.int n) d.len) with
  | error e => rw [h1, h2] at h; cases h
  | ok l2 =>
  cases h3 : opt o.predictandDistribution "scoreDistribution" (distValue y) with
  | error e => rw [h1, h2, h3] at h; cases h
  | ok l3 =>
  cases h4 : opt o.predictandUnique "scoreValues" (uniqueValue y) with
  | error e => rw [h1, h2, h3, h4] at h; cases h
  | ok l4 =>
  cases h5 : opt o.entropy "entropy" (constValue w false y) with
  | error e => rw [h1, h2, h3, h4, h5] at h; cases h
  | ok l5 =>
  cases h6 : opt o.nTimesVariance "nTimesVariance" (constValue w true y) with
  | error e => rw [h1, h2, h3, h4, h5, h6] at h; cases h
  | ok l6 =>
  cases h7 : opt o.gain "gain" (.ok (.flt (.fin s.gain))) with
  | error e => rw [h1, h2, h3, h4, h5, h6, h7] at h; cases h
  | ok l7 =>
  rw [h1, h2, h3, h4, h5, h6, h7] at h
  simp only [Except.ok.injEq] at h
  subst h
  have hconst : ∀ b x, constValue w b y = .ok x → Same pf env .double x := by
    intro b x h
    cases y <;> cases b <;> cases h <;> exact same_double _
  have := append_pairs (opt_pairs (pf := pf) (env := env) (t := scoreAType y) h1 fun _ x hx => score_same hx)
    (append_pairs (opt_pairs (t := .int) h2 fun _ x hx => by
        cases hl : d.len with
        | error e => rw [hl] at hx; cases hx
        | ok k => rw [hl] at hx; cases hx; exact same_int _)
    (append_pairs (opt_pairs (t := .map .int) h3 fun hb => by rw [ho] at hb; cases hb)
    (append_pairs (opt_pairs (t := .array (scoreAType y)) h4 fun _ x hx => by
        cases y with
        | num ys =>
          cases hx
          refine same_array fun v hv => ?_
          obtain ⟨q, -, rfl⟩ := List.mem_map.1 hv
          exact same_double _
        | cat codes names =>
          cases hx
          refine same_array fun v hv => ?_
          obtain ⟨q, -, rfl⟩ := List.mem_map.1 hv
          exact same_string _)
    (append_pairs (opt_pairs (t := .double) h5 fun _ x hx => hconst _ x hx)
    (append_pairs (opt_pairs (t := .double) h6 fun _ x hx => hconst _ x hx)
      (opt_pairs (t := .double) h7 fun _ x hx => by cases hx; exact same_double _))))))
  obtain ⟨ps, b1, b2, b3, b4⟩ := this
  exact ⟨ps, b1, by rw [b2]; simp, b3, b4⟩

theorem scoreAType_at (rs : List Nat) (y : Col) : scoreAType (y.at rs) = scoreAType y := by cases y <;> rfl

theorem scoreAType_name (y : Col) : (scoreAType y).name = pfaScoreType y := by cases y <;> rfl

/-- **C87.** A tree is read as it was written.  The numbers are all float or all double and the distributions are not asked for; otherwise the
tree that is read may be another one (`integer_cut_violation`, `distribution_violation`) or none (`tag_violation`). -/
theorem pfaValue_same {w : World} {o : Opts} {d : Data} {y : Col} {fields : List (String × AType)} {T vt : AType} {tree : String} {en : Name}
    (hT : Floating T d fields) (ho : o.predictandDistribution = false) (hvt : pfaValueType w.maxSub d fields = .ok vt) (hdn : d.names.Nodup)
    (hfn : (fields.map Prod.fst).Nodup) (ht : pfaScoreType y ≠ tree) (henv : env.fields? ⟨"", tree⟩ = some (pfaType o y en fields vt tree))
    {t : Node} (hfine : Fine w.maxSub d y t) {v : Val} (hv : pfaValue w o fields vt tree t = .ok v) :
    Same pf env (if t.isLeaf then .union [scoreAType y, .record ⟨"", tree⟩] else .record ⟨"", tree⟩) v := by
  have hun : ∀ t ∈ [scoreAType y, .record ⟨"", tree⟩], ∀ t' ∈ [scoreAType y, .record ⟨"", tree⟩], t'.name = t.name → t' = t := by
    have hne : (scoreAType y).name ≠ tree := by rw [scoreAType_name]; exact ht
    intro t h t' h' he
    simp only [List.mem_cons, List.not_mem_nil, or_false] at h h'
    rcases h with rfl | rfl <;> rcases h' with rfl | rfl
    · rfl
    · exact absurd he.symm hne
    · exact absurd he hne
    · rfl
  induction hfine generalizing v with
  | @leaf rs tr hrs =>
    simp only [pfaValue] at hv
    cases hs : score (y.at rs) with
    | error e => rw [hs] at hv; cases hv
    | ok x =>
      rw [hs] at hv
      cases hv
      have h1 := score_same (pf := pf) (env := env) hs
      rw [scoreAType_at] at h1
      have : pfaScoreType (y.at rs) = (scoreAType y).name := by rw [← scoreAType_name, scoreAType_at]
      simp only [Node.isLeaf, if_true, this]
      exact same_union (by simp) (hun _ (by simp)) h1
  | @node rs s col p f hrs hcol hcut hp hf ihp ihf =>
    obtain ⟨nm, col', op, x, value, pv, fv, ex, a1, a2, a3, a4, a5, a6, rfl⟩ := pfaValue_node hv
    have hex : extras w o (d.at rs) (y.at rs) s = .ok ex := by
      unfold pfaValue at hv
      rw [a1, a2] at hv
      simp only [a3, a4, a5, a6] at hv
      cases he : extras w o (d.at rs) (y.at rs) s with
      | error e => rw [he] at hv; cases hv
      | ok ex' =>
        rw [he] at hv
        simp only [Except.ok.injEq, Val.dict.injEq, List.cons_append, List.nil_append, List.cons.injEq, true_and] at hv
        rw [hv]
    have hnm : d.names[s.index]? = some nm := a1
    rw [at_field, hcol] at a2
    simp only [Option.map_some, Option.some.injEq] at a2
    have hval : Same pf env vt value := value_same hT hvt hdn hfn hnm hcol (col' := col') (by
      subst a2
      cases col <;> simp [Col.at]) a3 a4
    have hbranch : ∀ (q : Node) (qv : Val), Same pf env (if q.isLeaf then .union [scoreAType y, .record ⟨"", tree⟩] else .record ⟨"", tree⟩) qv →
        Same pf env (.union [scoreAType y, .record ⟨"", tree⟩]) (if q.isLeaf then qv else .dict [(tree, qv)]) := by
      intro q qv h
      cases hq : q.isLeaf with
      | true => rw [hq] at h; exact h
      | false =>
        rw [hq] at h
        exact same_union (t := .record ⟨"", tree⟩) (by simp) (hun _ (by simp)) h
    obtain ⟨ps, b1, b2, b3, b4⟩ := extras_pairs (pf := pf) (env := env) ho hex
    rw [scoreAType_at] at b1
    obtain ⟨_, h4, _⟩ := pfaValueType_spec hvt
    obtain ⟨tt, hmem⟩ := h4 nm (List.mem_of_getElem? hnm)
    have key := same_record (pf := pf) (env := env) (n := ⟨"", tree⟩)
      (ps := [({ name := "field", type := .enum en (fields.map Prod.fst) }, .str nm), ({ name := "operator", type := .string }, .str op),
        ({ name := "value", type := vt }, value),
        ({ name := "pass", type := .union [scoreAType y, .record ⟨"", tree⟩] }, if p.isLeaf then pv else .dict [(tree, pv)]),
        ({ name := "fail", type := .union [scoreAType y, .record ⟨"", tree⟩] }, if f.isLeaf then fv else .dict [(tree, fv)])] ++ ps)
      (by rw [henv, List.map_append, b1]; rfl)
      (by
        rw [List.map_append]
        refine List.Nodup.sublist (List.Sublist.append (List.Sublist.refl _) b4) ?_
        show (["field", "operator", "value", "pass", "fail", "score", "datasetSize", "scoreDistribution", "scoreValues", "entropy", "nTimesVariance",
          "gain"] : List String).Nodup
        decide)
      (by
        intro q hq
        rcases List.mem_append.1 hq with hq | hq
        · simp only [List.mem_cons, List.not_mem_nil, or_false] at hq
          rcases hq with rfl | rfl | rfl | rfl | rfl
          · exact same_enum en (List.mem_map.2 ⟨_, hmem, rfl⟩)
          · exact same_string _
          · exact hval
          · exact hbranch p pv (ihp a5)
          · exact hbranch f fv (ihf a6)
        · exact b3 q hq)
    rw [List.map_append, b2] at key
    simpa [Node.isLeaf] using key

/-- **C87 (partial).** A tree is grown from a dataset and written in a document, and the document is loaded: on every row of the dataset the
engine gives the score of the leaf that has the row.  The tree has been split at least once (`unsplit_violation`), its numbers are all float
or all double (`integer_cut_violation`, `tag_violation`). -/
theorem loaded_partial {w : World} {condition : Node → Nat → Bool} {n : Nat} {d : Data} {y : Col} (hd : Sound n d y) (hn : 0 < n)
    (hns : ∀ xs ns, Col.cat xs ns ∈ d.fields → ns.Nodup) (hdn : d.names.Nodup) {o : Opts} (ho : o.Fits y) (hod : o.predictandDistribution = false)
    {fields : List (String × AType)} (hfn : (fields.map Prod.fst).Nodup) {T vt : AType} (hT : Floating T d fields)
    (hvt : pfaValueType w.maxSub d fields = .ok vt) {tree : String} (ht : pfaScoreType y ≠ tree) {en : Name}
    (henv : env.fields? ⟨"", tree⟩ = some (pfaType o y en fields vt tree)) {t : Node} (h : grow w condition d y = .ok t) (hin : t.isLeaf = false) :
    ∃ v, pfaValue w o fields vt tree t = .ok v ∧ ∃ N, ∀ fuel ≥ N, ∃ cell, dec pf env fuel (.record ⟨"", tree⟩) v = .ok cell ∧
      ∀ (i : Nat) (datum : Val), i < n → Reading d (rowOf d i) datum → ∀ depth k, sizeOf cell ≤ k →
        predict env (depth + 2) (docTypes fields vt tree) datum cell k = score (leafOf d i t).y := by
  obtain ⟨v, hv, hp⟩ := document_partial hd hn hns hdn ho hfn hvt ht h hin
  have hsame := pfaValue_same (pf := pf) (env := env) hT hod hvt hdn hfn ht henv (grow_fine hd hn h) hv
  rw [hin] at hsame
  obtain ⟨N, hN⟩ := hsame
  exact ⟨v, hv, N, fun fuel hf => ⟨v, hN fuel hf, fun i datum hi hr depth k hk => hp i datum hi hr env depth k hk⟩⟩

end Verif.Cart
