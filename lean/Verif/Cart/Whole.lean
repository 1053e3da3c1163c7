import Verif.Cart.Cases
/-! # Growing trees: cuts of fields of integers (C87)

The cut of a field of integers need not be an integer, and it is truncated when the document is loaded (`integer_cut_violation`).  For cuts that are not negative this is no
harm: every row comes to the same leaf as before. -/

namespace Verif.Cart
open Avro Lib Tree

variable {pf : List Char → Option Flt} {env : Env}

/-! ## Values that are read as others -/

theorem ends_union {ts : List AType} {t : AType} {v v' : Val} (ht : t ∈ ts) (hu : ∀ t' ∈ ts, t'.name = t.name → t' = t) (h : Ends (dec pf env) t v v') :
    Ends (dec pf env) (.union ts) (.dict [(t.name, v)]) (.dict [(t.name, v')]) := by
  obtain ⟨N, hN⟩ := h
  refine ⟨N + 1, fun n hn => ?_⟩
  obtain ⟨m, rfl⟩ : ∃ m, n = m + 1 := ⟨n - 1, by omega⟩
  simp only [dec, decStep, tagTypes_of ht hu, hN m (by omega), Res.app]

theorem decFields_ends {f : AType → Val → Res Val} {e : Err} {all : List (String × Val)} (ps : List (Field × Val × Val)) :
    ∀ (out : List (String × Val)), (∀ p ∈ ps, PyDict.get? all p.1.name = some p.2.1 ∧ f p.1.type p.2.1 = .ok p.2.2) →
      (out.map Prod.fst ++ ps.map fun p => p.1.name).Nodup →
      decFields f all e (ps.map Prod.fst) out = .ok (out ++ ps.map fun p => (p.1.name, p.2.2)) := by
  induction ps with
  | nil => intro out _ _; simp [decFields]
  | cons p ps ih =>
    intro out h hn
    obtain ⟨h1, h2⟩ := h p (by simp)
    have hf : p.1.name ∉ out.map Prod.fst := by
      intro hm
      rw [List.nodup_append] at hn
      exact hn.2.2 _ hm _ (by simp) rfl
    simp only [List.map_cons, decFields, h1, h2, set_fresh hf]
    rw [ih (out ++ [(p.1.name, p.2.2)]) (fun q hq => h q (by simp [hq])) (by simpa using hn)]
    simp

theorem ends_record {n : Name} {ps : List (Field × Val × Val)} (hf : env.fields? n = some (ps.map Prod.fst)) (hn : (ps.map fun p => p.1.name).Nodup)
    (h : ∀ p ∈ ps, Ends (dec pf env) p.1.type p.2.1 p.2.2) :
    Ends (dec pf env) (.record n) (.dict (ps.map fun p => (p.1.name, p.2.1))) (.dict (ps.map fun p => (p.1.name, p.2.2))) := by
  obtain ⟨N, hN⟩ := ev_list (P := fun n (p : Field × Val × Val) => dec pf env n p.1.type p.2.1 = .ok p.2.2) (xs := ps) (fun p hp => h p hp)
  refine ⟨N + 1, fun k hk => ?_⟩
  obtain ⟨m, rfl⟩ : ∃ m, k = m + 1 := ⟨k - 1, by omega⟩
  have hwf : PyDict.WF (ps.map fun p => (p.1.name, p.2.1)) := by
    simp only [PyDict.WF, PyDict.keys, List.map_map]
    exact hn
  simp only [dec, decStep, hf]
  rw [decFields_ends ps [] (fun p hp => ⟨PyDict.get?_of_mem hwf (List.mem_map.2 ⟨p, hp, rfl⟩), hN m (by omega) p hp⟩) (by simpa using hn)]
  simp [Res.app]

/-! ## The value of a node -/

/-- All fields that are used are texts or numbers of one integer type. -/
def Whole (T : AType) (d : Data) (fields : List (String × AType)) : Prop :=
  T ∈ [AType.int, .long] ∧ ∀ nm t, (nm, t) ∈ fields → nm ∈ d.names → t = T ∨ t = .string

theorem kindType_whole {T : AType} {d : Data} {fields : List (String × AType)} (hT : Whole T d fields) {m : Option Nat} {f : Col} {nm : String}
    {t u : AType} (h1 : (nm, t) ∈ fields) (h2 : nm ∈ d.names) (h : kindType m f t = .ok u) :
    ((∃ xs, f = .num xs) ∧ t = T ∧ u = T) ∨ ((∃ xs ns, f = .cat xs ns) ∧ t = .string ∧ u = textType m) := by
  cases f with
  | num xs =>
    simp only [kindType] at h
    by_cases ht : t ∈ [AType.int, .long, .float, .double]
    · rw [if_pos ht] at h
      cases h
      rcases hT.2 nm t h1 h2 with rfl | rfl
      · exact .inl ⟨⟨xs, rfl⟩, rfl, rfl⟩
      · simp at ht
    · rw [if_neg ht] at h; cases h
  | cat xs ns =>
    simp only [kindType] at h
    by_cases ht : t = .string
    · rw [if_pos ht] at h
      refine .inr ⟨⟨xs, ns, rfl⟩, ht, ?_⟩
      subst ht
      unfold textType
      split at h <;> cases h <;> simp [*]
    · rw [if_neg ht] at h; cases h

theorem nodup_eraseDups (n : Nat) : ∀ l : List AType, l.length ≤ n → l.eraseDups.Nodup := by
  induction n with
  | zero => intro l h; cases l with
    | nil => simp
    | cons a l => simp at h
  | succ n ih =>
    intro l h
    cases l with
    | nil => simp
    | cons a l =>
      rw [List.eraseDups_cons, List.nodup_cons]
      refine ⟨fun hm => ?_, ih _ ((List.length_filter_le _ _).trans (by simpa using h))⟩
      have := List.mem_eraseDups.1 hm
      simp at this

/-- A value type that is no union is the type of all fields. -/
theorem vt_whole {T : AType} {d : Data} {fields : List (String × AType)} (hT : Whole T d fields) {m : Option Nat} {vt : AType}
    (hvt : pfaValueType m d fields = .ok vt) (hpl : vt ∈ plain) : ∀ u ∈ [T, textType m], accepts env env vt u = true → vt = u := by
  have hT1 := hT.1
  simp only [List.mem_cons, List.not_mem_nil, or_false] at hT1
  have hX : textType m = .string ∨ textType m = .array .string := by unfold textType; split <;> simp
  have hft : ∀ (fs us), (∀ x ∈ fs, x ∈ fields) → fieldTypes m d fs = .ok us → ∀ u ∈ us, u = T ∨ u = textType m := by
    intro fs
    induction fs with
    | nil => intro us _ h u hu; cases h; cases hu
    | cons a fs ih =>
      obtain ⟨nm, t⟩ := a
      intro us hsub h u hu
      unfold fieldTypes at h
      by_cases hm : nm ∈ d.names
      · rw [if_pos hm] at h
        cases hf : d.fields[d.names.idxOf nm]? with
        | none => rw [hf] at h; cases h
        | some f =>
          rw [hf] at h
          simp only at h
          cases hk : kindType m f t with
          | error e => rw [hk] at h; cases h
          | ok v =>
            cases hr : fieldTypes m d fs with
            | error e => rw [hk, hr] at h; cases h
            | ok vs =>
              rw [hk, hr] at h
              cases h
              rcases List.mem_cons.1 hu with rfl | hu
              · rcases kindType_whole hT (hsub _ (by simp)) hm hk with ⟨-, -, h⟩ | ⟨-, -, h⟩
                · exact .inl h
                · exact .inr h
              · exact ih vs (fun x hx => hsub x (by simp [hx])) hr u hu
      · rw [if_neg hm] at h
        exact ih us (fun x hx => hsub x (by simp [hx])) h u hu
  unfold pfaValueType at hvt
  split at hvt
  · cases hf : fieldTypes m d fields with
    | error e => rw [hf] at hvt; cases hvt
    | ok us =>
      rw [hf] at hvt
      simp only at hvt
      have hus := hft fields us (fun _ h => h) hf
      have hnd : us.eraseDups.Nodup := nodup_eraseDups _ us le_rfl
      have hmem : ∀ x ∈ us.eraseDups, x = T ∨ x = textType m := fun x hx => hus x (List.mem_eraseDups.1 hx)
      generalize us.eraseDups = l at hvt hnd hmem
      generalize textType m = X at hX hmem ⊢
      clear hft hf hus
      match l, hvt, hnd, hmem with
      | [], hvt, _, _ => cases hvt
      | [a], hvt, _, hmem =>
        have ha := hmem a (by simp)
        have : vt = a := by
          rcases ha with rfl | rfl
          · rcases hT1 with rfl | rfl <;> cases hvt <;> rfl
          · rcases hX with rfl | rfl <;> cases hvt <;> rfl
        subst this
        intro u hu hacc
        simp only [List.mem_cons, List.not_mem_nil, or_false] at hu
        rcases ha with rfl | rfl <;> rcases hu with rfl | rfl
        · rfl
        · rcases hT1 with rfl | rfl <;> rcases hX with rfl | rfl <;> simp [accepts, acc, overUnion] at hacc
        · rcases hT1 with rfl | rfl <;> rcases hX with rfl | rfl <;> simp [accepts, acc, overUnion] at hacc
        · rfl
      | [a, b], hvt, hnd, hmem =>
        exfalso
        have ha := hmem a (by simp)
        have hb := hmem b (by simp)
        have hne : a ≠ b := by simpa using hnd
        have : vt = .union [a, b] := by
          rcases ha with rfl | rfl <;> rcases hb with rfl | rfl
          · exact absurd rfl hne
          · rcases hT1 with rfl | rfl <;> rcases hX with rfl | rfl <;> cases hvt <;> rfl
          · rcases hT1 with rfl | rfl <;> rcases hX with rfl | rfl <;> cases hvt <;> rfl
          · exact absurd rfl hne
        subst this
        simp [plain] at hpl
      | a :: b :: c :: l, _, hnd, hmem =>
        exfalso
        have h1 := hmem a (by simp)
        have h2 := hmem b (by simp)
        have h3 := hmem c (by simp)
        simp only [List.nodup_cons, List.mem_cons, not_or] at hnd
        rcases h1 with rfl | rfl <;> rcases h2 with rfl | rfl <;> rcases h3 with rfl | rfl <;> simp_all
  · cases hvt

/-- A number is read as its whole part, and a text as it was written. -/
theorem value_whole {T : AType} {d : Data} {fields : List (String × AType)} (hT : Whole T d fields) {m : Option Nat} {vt : AType}
    (hvt : pfaValueType m d fields = .ok vt) (hdn : d.names.Nodup) (hfn : (fields.map Prod.fst).Nodup) {i : Nat} {nm : String} {col : Col}
    (hi : d.names[i]? = some nm) (hc : d.fields[i]? = some col) {cut : Cut} {op : String} {x value : Val} {col' : Col}
    (hk : (∃ xs, col = .num xs) ↔ ∃ xs, col' = .num xs) (hs : splitValue m col' cut = .ok (op, x))
    (htv : tagValue fields vt nm op x = .ok value) : ∃ value', Ends (dec pf env) vt value value' ∧
      ((∃ xs, col = .num xs) → ∃ c, cut = .num c ∧ op = "<=" ∧ untagNum value' = .int (Arith.trunc c)) ∧ ((∃ xs ns, col = .cat xs ns) → value' = value) := by
  obtain ⟨hsim, h4, h5⟩ := pfaValueType_spec hvt
  have hnm := List.mem_of_getElem? hi
  obtain ⟨t, hmem⟩ := h4 nm hnm
  obtain ⟨f, u, h6, h7, h8⟩ := h5 nm t hmem hnm
  have hidx : d.names.idxOf nm = i := by
    obtain ⟨hlt, rfl⟩ := List.getElem?_eq_some_iff.1 hi
    exact hdn.idxOf_getElem _ hlt
  rw [hidx, hc] at h6
  cases h6
  have fl := filter_name hfn hmem
  have hacc := h8 env
  have hkind := kindType_whole hT hmem hnm h7
  have hx : ∃ x', Ends (dec pf env) u x x' ∧ (if op = "in" then "array" else t.name) = u.name ∧
      ((∃ xs, col = .num xs) → ∃ c, cut = .num c ∧ op = "<=" ∧ x' = .int (Arith.trunc c)) ∧ ((∃ xs ns, col = .cat xs ns) → x' = x) := by
    rcases hkind with ⟨⟨xs, rfl⟩, rfl, rfl⟩ | ⟨⟨xs, ns, rfl⟩, rfl, rfl⟩
    · obtain ⟨xs', rfl⟩ := hk.1 ⟨xs, rfl⟩
      cases cut with
      | cats cs => cases hs
      | num c =>
        cases hs
        refine ⟨.int (Arith.trunc c), ⟨1, fun n hn => ?_⟩, rfl, fun _ => ⟨c, rfl, rfl, rfl⟩, fun ⟨_, _, h⟩ => by cases h⟩
        obtain ⟨m, rfl⟩ : ∃ m, n = m + 1 := ⟨n - 1, by omega⟩
        have := hT.1
        simp only [List.mem_cons, List.not_mem_nil, or_false] at this
        rcases this with rfl | rfl <;> rfl
    · cases col' with
      | num xs' => obtain ⟨_, h⟩ := hk.2 ⟨xs', rfl⟩; cases h
      | cat xs' ns' =>
        cases cut with
        | num c => cases hs
        | cats cs =>
          simp only [splitValue] at hs
          have hname : ∀ k v, nameOf ns' k = .ok v → ∃ s, v = .str s := by
            intro k v h
            unfold nameOf at h
            split at h <;> cases h
            exact ⟨_, rfl⟩
          by_cases hm1 : m = some 1
          · simp only [hm1, if_true] at hs
            cases cs with
            | nil => cases hs
            | cons c cs =>
              simp only at hs
              cases hn : nameOf ns' c with
              | error e => rw [hn] at hs; cases hs
              | ok v =>
                rw [hn] at hs
                cases hs
                obtain ⟨s, rfl⟩ := hname _ _ hn
                simp only [textType, hm1, if_true, String.reduceEq, if_false]
                exact ⟨_, same_string s, trivial, fun ⟨_, h⟩ => (by cases h), fun _ => rfl⟩
          · rw [if_neg hm1] at hs
            cases hn : mapR (nameOf ns') cs with
            | error e => rw [hn] at hs; cases hs
            | ok vs =>
              rw [hn] at hs
              cases hs
              simp only [textType, hm1, if_true, if_false]
              refine ⟨_, same_array ?_, rfl, fun ⟨_, h⟩ => (by cases h), fun _ => rfl⟩
              have : ∀ (cs : List Nat) (vs : List Val), mapR (nameOf ns') cs = .ok vs → ∀ v ∈ vs, ∃ s, v = .str s := by
                intro cs
                induction cs with
                | nil => intro vs h v hv; cases h; cases hv
                | cons c cs ih =>
                  intro vs h v hv
                  unfold mapR at h
                  cases h1 : nameOf ns' c with
                  | error e => rw [h1] at h; cases h
                  | ok y =>
                    rw [h1] at h
                    simp only at h
                    cases h2 : mapR (nameOf ns') cs with
                    | error e => rw [h2] at h; cases h
                    | ok ys =>
                      rw [h2] at h
                      cases h
                      rcases List.mem_cons.1 hv with rfl | hv
                      · exact hname _ _ h1
                      · exact ih ys h2 v hv
              intro v hv
              obtain ⟨s, rfl⟩ := this cs vs hn v hv
              exact same_string s
  obtain ⟨x', hx1, hx2, hx3, hx4⟩ := hx
  have hu2 : u ∈ [AType.int, .long, .string, .array .string] := by
    rcases hkind with ⟨-, -, rfl⟩ | ⟨-, -, rfl⟩
    · have := hT.1
      simp only [List.mem_cons, List.not_mem_nil, or_false] at this ⊢
      rcases this with h | h <;> simp [h]
    · unfold textType; split <;> simp
  rcases hsim with hpl | ⟨ts, rfl, p1, p2, -⟩
  · have hnu : isUnion vt = false := by
      simp only [plain, List.mem_cons, List.not_mem_nil, or_false] at hpl
      rcases hpl with rfl | rfl | rfl | rfl | rfl | rfl <;> rfl
    simp only [tagValue, hnu, Bool.false_eq_true, if_false, Except.ok.injEq] at htv
    subst htv
    have hvu : vt = u := vt_whole hT hvt hpl u (by rcases hkind with ⟨-, -, rfl⟩ | ⟨-, -, rfl⟩ <;> simp) hacc
    rw [hvu]
    refine ⟨x', hx1, fun h => ?_, hx4⟩
    obtain ⟨c, e1, e2, rfl⟩ := hx3 h
    exact ⟨c, e1, e2, rfl⟩
  · simp only [tagValue, isUnion, if_true, fl, Except.ok.injEq] at htv
    subst htv
    rw [hx2]
    have hin : u ∈ ts := by
      unfold accepts at hacc
      rw [acc_union_flat _ _ _ (by simp only [List.mem_cons, List.not_mem_nil, or_false] at hu2; rcases hu2 with rfl | rfl | rfl | rfl <;> rfl)] at hacc
      obtain ⟨u', hu', ha⟩ := hacc
      obtain ⟨nm', t', f', b1, b2, b3⟩ := pfaValueType_members hvt u' hu'
      have hT1 := hT.1
      simp only [List.mem_cons, List.not_mem_nil, or_false] at hT1
      have : u' = u := by
        rcases hkind with ⟨-, -, rfl⟩ | ⟨-, -, rfl⟩ <;> rcases kindType_whole hT b1 b2 b3 with ⟨-, -, rfl⟩ | ⟨-, -, rfl⟩
        · rfl
        · rcases hT1 with rfl | rfl <;> by_cases hm1 : m = some 1 <;> simp [textType, hm1, acc, overUnion] at ha
        · rcases hT1 with rfl | rfl <;> by_cases hm1 : m = some 1 <;> simp [textType, hm1, acc, overUnion] at ha
        · rfl
      exact this ▸ hu'
    refine ⟨_, ends_union hin ?_ hx1, ?_, ?_⟩
    · intro t' ht' hname
      exact List.inj_on_of_nodup_map p2 ht' hin hname
    · intro h
      obtain ⟨c, e1, e2, rfl⟩ := hx3 h
      refine ⟨c, e1, e2, ?_⟩
      have hu : u = .int ∨ u = .long := by
        rcases hkind with ⟨-, -, rfl⟩ | ⟨⟨xs, ns, rfl⟩, -, -⟩
        · simpa using hT.1
        · obtain ⟨_, h⟩ := h; cases h
      rcases hu with rfl | rfl <;> simp [untagNum, AType.name]
    · intro h
      rw [hx4 h]

/-! ## The walk -/

/-- The numbers of the row are integers. -/
def IntRow (row : List Cell) : Prop := ∀ (i : Nat) (q : ℚ), row[i]? = some (Cell.num q) → ∃ z : ℤ, (z : ℚ) = q

/-- An integer is not above a number that is not negative exactly if it is not above its whole part. -/
theorem trunc_le {z : ℤ} {c : ℚ} (hc : 0 ≤ c) : (z : ℚ) ≤ (Arith.trunc c : ℤ) ↔ (z : ℚ) ≤ c := by
  rw [Arith.trunc, if_pos hc, Int.cast_le, Int.le_floor]

open Classical in
/-- The test of a node with a truncated cut tells whether the row passes the split. -/
theorem simpleTest_whole {n : Nat} {m : Option Nat} {d : Data} {fields : List (String × AType)} {vt : AType} {tree : String}
    (hvt : pfaValueType m d fields = .ok vt) (hdn : d.names.Nodup) (hfn : (fields.map Prod.fst).Nodup)
    {row : List Cell} {datum : Val} (hr : Reading d row datum) (hrow : IntRow row) {s : Split} {xs : List ℚ} {nm : String} {value node : Val} {c : ℚ}
    (hnm : d.names[s.index]? = some nm) (hcol : d.fields[s.index]? = some (.num xs)) (hc : s.cut = .num c) (hc0 : 0 ≤ c)
    (hval : untagNum value = .int (Arith.trunc c))
    (h1 : look node "field" = .ok (.str nm)) (h2 : look node "operator" = .ok (.str "<=")) (h3 : look node "value" = .ok value) :
    simpleTest env (n + 2) (docTypes fields vt tree) datum node = .ok (decide (Passes d s row)) := by
  obtain ⟨hs, h4, h5⟩ := pfaValueType_spec hvt
  obtain ⟨hi, hnm'⟩ := List.getElem?_eq_some_iff.1 hnm
  have hmem : nm ∈ d.names := hnm' ▸ List.getElem_mem hi
  obtain ⟨t, ht⟩ := h4 nm hmem
  obtain ⟨f, u, hf, hk, hacc⟩ := h5 nm t ht hmem
  have hidx : d.names.idxOf nm = s.index := by
    rw [← hnm']
    exact hdn.idxOf_getElem _ hi
  rw [hidx, hcol] at hf
  cases hf
  have hg := get_name hfn ht
  obtain ⟨r1, r2⟩ := hr s.index _ nm hcol hnm
  have hvr := simple_reparse hs
  obtain ⟨q, x, a1, a2, a3⟩ := r1 xs rfl
  simp only [kindType] at hk
  by_cases hnt : t ∈ [AType.int, .long, .float, .double]
  · rw [if_pos hnt] at hk
    cases hk
    have hnum : isNum t = true := by
      simp only [List.mem_cons, List.not_mem_nil, or_false] at hnt
      rcases hnt with rfl | rfl | rfl | rfl <;> rfl
    have hrt : Lang.reparse t = .ok t := by
      simp only [List.mem_cons, List.not_mem_nil, or_false] at hnt
      rcases hnt with rfl | rfl | rfl | rfl <;> rfl
    have hval : pyNum (untagNum value) = some (.fin ((Arith.trunc c : ℤ) : ℚ)) := by rw [hval]; rfl
    have hx : pyNum x = some (.fin q) := by
      rcases a3 with rfl | ⟨i, rfl, rfl⟩ <;> rfl
    have hrd : Reads (docTypes fields vt tree) datum node "<=" t x value := ⟨⟨nm, h1, a2, hg⟩, h2, h3⟩
    obtain ⟨r, e1, e2⟩ := compareWith_num (env := env) (n := n + 2) (c1 := 32001) (c2 := 32000) (mo := true) (op := "<=") (by decide) hnum
      (.inr (hacc env)) hx (by simp) hval (by simp)
    rw [simpleTest, simpleComparison_eq hrd (fieldOf_true t x) hrt hvr, e1]
    simp only [decided, Except.ok.injEq]
    obtain ⟨z, rfl⟩ := hrow _ _ a1
    have e3 : r = true ↔ (z : ℚ) ≤ c := by
      rw [e2, ← trunc_le hc0]
      simp [Rel, fltKey, Prod.Lex.le_iff]
    have e4 : Passes d s row ↔ (z : ℚ) ≤ c := by
      unfold Passes
      constructor
      · rintro (⟨xs', c', q', b1, b2, b3, b4⟩ | ⟨xs', ns, cs, k, t', b1, -⟩)
        · rw [hc] at b2; cases b2
          rw [a1] at b3; cases b3
          exact b4
        · rw [hcol] at b1; cases b1
      · intro h; exact .inl ⟨xs, c, z, hcol, hc, a1, h⟩
    by_cases hq : (z : ℚ) ≤ c
    · rw [decide_eq_true (e4.2 hq)]; exact e3.2 hq
    · rw [decide_eq_false (fun h => hq (e4.1 h))]
      cases hrr : r
      · rfl
      · exact absurd (e3.1 hrr) hq
  · rw [if_neg hnt] at hk; cases hk

open Classical in
/-- The value has the shape of the tree, and its tests tell whether a row passes. -/
inductive Stored (tree : String) (d : Data) (y : Col) (row : List Cell) (test : Val → Res Bool) : Node → Val → Prop
  | leaf {rs : List Nat} {tr : Option Split} {x : Val} : score (y.at rs) = .ok x →
      Stored tree d y row test (.leaf (d.at rs) (y.at rs) tr) (.dict [(pfaScoreType y, x)])
  | node {rs : List Nat} {s : Split} {p f : Node} {dv : List (String × Val)} {pv fv : Val} : test (.dict dv) = .ok (decide (Passes d s row)) →
      PyDict.get? dv "pass" = some (if p.isLeaf then pv else .dict [(tree, pv)]) → PyDict.get? dv "fail" = some (if f.isLeaf then fv else .dict [(tree, fv)]) →
      Stored tree d y row test p pv → Stored tree d y row test f fv → Stored tree d y row test (.node (d.at rs) (y.at rs) s p f) (.dict dv)

open Classical in
/-- The walk comes to the leaf of the row. -/
theorem stored_walk {tree : String} {d : Data} {y : Col} {row : List Cell} {test : Val → Res Bool} (ht : pfaScoreType y ≠ tree) {t l : Node} {v : Val}
    (h : Stored tree d y row test t v) (hro : Routes row t l) (hin : t.isLeaf = false) (k : Nat) (hk : sizeOf v ≤ k) :
    (simpleWalk (σ := Unit) tree (fun node s => (test node, s)) k v ()).1 = score l.y := by
  induction h generalizing k l with
  | leaf => simp [Node.isLeaf] at hin
  | @node rs s p f dv pv fv htest gp gf hp hf ihp ihf =>
    cases k with
    | zero => simp at hk
    | succ k =>
      unfold simpleWalk
      rw [walk]
      simp only [choose2, htest]
      cases hro with
      | pass hpa hro =>
        rw [passes_at] at hpa
        simp only [decide_eq_true hpa, if_true, look, gp]
        cases hp with
        | leaf hx =>
          cases hro
          simp [Node.isLeaf, descend, ht, hx, Node.y]
        | node =>
          simp only [Node.isLeaf, Bool.false_eq_true, if_false, descend, ne_eq, not_true] at gp ⊢
          have hsz := size_lt gp
          have := ihp hro rfl k (by omega)
          simpa only [simpleWalk] using this
      | fail hpa hro =>
        rw [passes_at] at hpa
        simp only [decide_eq_false hpa, Bool.false_eq_true, if_false, look, gf]
        cases hf with
        | leaf hx =>
          cases hro
          simp [Node.isLeaf, descend, ht, hx, Node.y]
        | node =>
          simp only [Node.isLeaf, Bool.false_eq_true, if_false, descend, ne_eq, not_true] at gf ⊢
          have hsz := size_lt gf
          have := ihf hro rfl k (by omega)
          simpa only [simpleWalk] using this

/-- No cut of the tree is negative. -/
def Mild : Node → Prop
  | .leaf _ _ _ => True
  | .node _ _ s p f => (∀ c, s.cut = .num c → 0 ≤ c) ∧ Mild p ∧ Mild f

/-- A tree is read as a tree whose tests tell the same. -/
theorem pfaValue_whole {w : World} {o : Opts} {d : Data} {y : Col} {fields : List (String × AType)} {T vt : AType} {tree : String} {en : Name}
    (hT : Whole T d fields) (ho : o.predictandDistribution = false) (hvt : pfaValueType w.maxSub d fields = .ok vt) (hdn : d.names.Nodup)
    (hfn : (fields.map Prod.fst).Nodup) (ht : pfaScoreType y ≠ tree) (henv : env.fields? ⟨"", tree⟩ = some (pfaType o y en fields vt tree))
    {t : Node} (hfine : Fine w.maxSub d y t) (hmild : Mild t) {v : Val} (hv : pfaValue w o fields vt tree t = .ok v) :
    ∃ v', Ends (dec pf env) (if t.isLeaf then .union [scoreAType y, .record ⟨"", tree⟩] else .record ⟨"", tree⟩) v v' ∧
      ∀ (n : Nat) (row : List Cell) (datum : Val), Reading d row datum → IntRow row →
        Stored tree d y row (simpleTest env (n + 2) (docTypes fields vt tree) datum) t v' := by
  have hun : ∀ t ∈ [scoreAType y, .record ⟨"", tree⟩], ∀ t' ∈ [scoreAType y, .record ⟨"", tree⟩], t'.name = t.name → t' = t := by
    have hne : (scoreAType y).name ≠ tree := by rw [scoreAType_name]; exact ht
    intro t h t' h' he
    simp only [List.mem_cons, List.not_mem_nil, or_false] at h h'
    rcases h with rfl | rfl <;> rcases h' with rfl | rfl
    · rfl
    · exact absurd he.symm hne
    · exact absurd he hne
    · rfl
  induction hfine generalizing v with
  | @leaf rs tr hrs =>
    simp only [pfaValue] at hv
    cases hs : score (y.at rs) with
    | error e => rw [hs] at hv; cases hv
    | ok x =>
      rw [hs] at hv
      cases hv
      have h1 := score_same (pf := pf) (env := env) hs
      rw [scoreAType_at] at h1
      have : pfaScoreType (y.at rs) = (scoreAType y).name := by rw [← scoreAType_name, scoreAType_at]
      simp only [Node.isLeaf, if_true, this]
      refine ⟨_, same_union (by simp) (hun _ (by simp)) h1, fun n row datum _ _ => ?_⟩
      rw [scoreAType_name]
      exact .leaf hs
  | @node rs s col p f hrs hcol hcut hp hf ihp ihf =>
    obtain ⟨nm, col', op, x, value, pv, fv, ex, a1, a2, a3, a4, a5, a6, rfl⟩ := pfaValue_node hv
    obtain ⟨hmc, hmp, hmf⟩ := hmild
    obtain ⟨pv', ip, sp⟩ := ihp hmp a5
    obtain ⟨fv', jf, sf⟩ := ihf hmf a6
    have hex : extras w o (d.at rs) (y.at rs) s = .ok ex := by
      unfold pfaValue at hv
      rw [a1, a2] at hv
      simp only [a3, a4, a5, a6] at hv
      cases he : extras w o (d.at rs) (y.at rs) s with
      | error e => rw [he] at hv; cases hv
      | ok ex' =>
        rw [he] at hv
        simp only [Except.ok.injEq, Val.dict.injEq, List.cons_append, List.nil_append, List.cons.injEq, true_and] at hv
        rw [hv]
    have hnm : d.names[s.index]? = some nm := a1
    rw [at_field, hcol] at a2
    simp only [Option.map_some, Option.some.injEq] at a2
    obtain ⟨value', hval, hnum, hcat⟩ := value_whole (pf := pf) (env := env) hT hvt hdn hfn hnm hcol (col' := col') (by
      subst a2
      cases col <;> simp [Col.at]) a3 a4
    have hbranch : ∀ (q : Node) (qv qv' : Val), Ends (dec pf env) (if q.isLeaf then .union [scoreAType y, .record ⟨"", tree⟩] else .record ⟨"", tree⟩) qv qv' →
        Ends (dec pf env) (.union [scoreAType y, .record ⟨"", tree⟩]) (if q.isLeaf then qv else .dict [(tree, qv)]) (if q.isLeaf then qv' else .dict [(tree, qv')]) := by
      intro q qv qv' h
      cases hq : q.isLeaf with
      | true => rw [hq] at h; exact h
      | false =>
        rw [hq] at h
        exact ends_union (t := .record ⟨"", tree⟩) (by simp) (hun _ (by simp)) h
    obtain ⟨ps, b1, b2, b3, b4⟩ := extras_pairs (pf := pf) (env := env) ho hex
    rw [scoreAType_at] at b1
    obtain ⟨_, h4, _⟩ := pfaValueType_spec hvt
    obtain ⟨tt, hmem⟩ := h4 nm (List.mem_of_getElem? hnm)
    have key := ends_record (pf := pf) (env := env) (n := ⟨"", tree⟩)
      (ps := [({ name := "field", type := .enum en (fields.map Prod.fst) }, .str nm, .str nm), ({ name := "operator", type := .string }, .str op, .str op),
        ({ name := "value", type := vt }, value, value'),
        ({ name := "pass", type := .union [scoreAType y, .record ⟨"", tree⟩] }, if p.isLeaf then pv else .dict [(tree, pv)], if p.isLeaf then pv' else .dict [(tree, pv')]),
        ({ name := "fail", type := .union [scoreAType y, .record ⟨"", tree⟩] }, if f.isLeaf then fv else .dict [(tree, fv)], if f.isLeaf then fv' else .dict [(tree, fv')])] ++
        ps.map fun p => (p.1, p.2, p.2))
      (by rw [henv, List.map_append, List.map_map, show ((Prod.fst ∘ fun p : Field × Val => (p.1, p.2, p.2)) : Field × Val → Field) = Prod.fst from rfl, b1]; rfl)
      (by
        rw [List.map_append, List.map_map]
        refine List.Nodup.sublist (List.Sublist.append (List.Sublist.refl _) b4) ?_
        show (["field", "operator", "value", "pass", "fail", "score", "datasetSize", "scoreDistribution", "scoreValues", "entropy", "nTimesVariance",
          "gain"] : List String).Nodup
        decide)
      (by
        intro q hq
        rcases List.mem_append.1 hq with hq | hq
        · simp only [List.mem_cons, List.not_mem_nil, or_false] at hq
          rcases hq with rfl | rfl | rfl | rfl | rfl
          · exact same_enum en (List.mem_map.2 ⟨_, hmem, rfl⟩)
          · exact same_string _
          · exact hval
          · exact hbranch p pv pv' ip
          · exact hbranch f fv fv' jf
        · obtain ⟨q', hq', rfl⟩ := List.mem_map.1 hq
          exact b3 q' hq')
    rw [List.map_append, List.map_map, List.map_append, List.map_map,
      show ((fun p : Field × Val × Val => (p.1.name, p.2.1)) ∘ fun p : Field × Val => (p.1, p.2, p.2)) = fun p => (p.1.name, p.2) from rfl,
      show ((fun p : Field × Val × Val => (p.1.name, p.2.2)) ∘ fun p : Field × Val => (p.1, p.2, p.2)) = fun p => (p.1.name, p.2) from rfl, b2] at key
    refine ⟨_, by simpa [Node.isLeaf] using key, fun n row datum hr hrow => ?_⟩
    refine .node ?_ rfl rfl (sp n row datum hr hrow) (sf n row datum hr hrow)
    cases col with
    | num xs =>
      obtain ⟨c, e1, rfl, e3⟩ := hnum ⟨xs, rfl⟩
      exact simpleTest_whole hvt hdn hfn hr hrow hnm hcol e1 (hmc c e1) e3 rfl rfl rfl
    | cat xs ns =>
      subst a2
      rw [splitValue_at] at a3
      rw [hcat ⟨xs, ns, rfl⟩]
      exact simpleTest_node hvt hdn hfn hr hnm hcol hcut a3 a4 rfl rfl rfl

/-! ## Trees that have been grown -/

/-- The numbers of a dataset are not negative. -/
def Positive (d : Data) : Prop := ∀ xs, Col.num xs ∈ d.fields → ∀ x ∈ xs, 0 ≤ x

theorem getD_pos {xs : List ℚ} (h : ∀ x ∈ xs, 0 ≤ x) (i : Nat) : 0 ≤ xs.getD i 0 := by
  rcases lt_or_ge i xs.length with hi | hi
  · rw [List.getD_eq_getElem _ _ hi]; exact h _ (List.getElem_mem hi)
  · rw [List.getD_eq_default _ _ hi]

theorem map_pos {xs : List ℚ} (h : ∀ x ∈ xs, 0 ≤ x) (is : List Nat) : ∀ x ∈ is.map (xs.getD · 0), 0 ≤ x := by
  intro x hx
  obtain ⟨i, -, rfl⟩ := List.mem_map.1 hx
  exact getD_pos h i

theorem pickCut_pos {n : Nat} {values gains : List ℚ} (h : ∀ x ∈ values, 0 ≤ x) {g c : ℚ} (hp : pickCut n values gains = .ok (g, c)) : 0 ≤ c := by
  unfold pickCut at hp
  split at hp
  · cases hp
  · cases hp
    have h1 := getD_pos h
    exact div_nonneg (add_nonneg (h1 _) (h1 _)) (by norm_num)

/-- The cut of numbers that are not negative is not negative. -/
theorem gainTerm_pos {w : World} {y f : Col} {g c : ℚ} (hf : ∀ xs, f = .num xs → ∀ x ∈ xs, 0 ≤ x) (h : gainTerm w y f = .ok (g, .num c)) : 0 ≤ c := by
  cases f with
  | num xs =>
    have hx := map_pos (hf xs rfl) (w.argsort xs)
    cases y with
    | num ys =>
      simp only [gainTerm] at h
      cases hn : numVariance w xs ys with
      | error e => rw [hn] at h; cases h
      | ok r => rw [hn] at h; cases h; exact pickCut_pos hx hn
    | cat cs ns =>
      simp only [gainTerm] at h
      cases hn : numEntropy w xs cs ns with
      | error e => rw [hn] at h; cases h
      | ok r => rw [hn] at h; cases h; exact pickCut_pos hx hn
  | cat xs ns =>
    cases y with
    | num ys =>
      simp only [gainTerm] at h
      split at h <;> cases h
    | cat cs ns =>
      simp only [gainTerm] at h
      split at h <;> cases h

theorem splitUntil_mild {w : World} {condition : Node → Nat → Bool} {d : Data} {y : Col} (hd : Positive d) (fuel depth : Nat)
    (rs : List Nat) (t : Node) (h : splitUntil w condition fuel depth (d.at rs) (y.at rs) = .ok t) : Mild t := by
  induction fuel generalizing depth rs t with
  | zero =>
    unfold splitUntil at h
    by_cases hc : canSplit (y.at rs) = true
    · rw [if_pos hc] at h; cases h
    · rw [if_neg hc] at h; cases h; trivial
  | succ fuel ih =>
    unfold splitUntil at h
    by_cases hc : canSplit (y.at rs) = true
    · rw [if_pos hc] at h
      simp only at h
      cases ho : splitOnce w (d.at rs) (y.at rs) with
      | error e => rw [ho] at h; cases h
      | ok nd =>
        rw [ho] at h
        rcases splitOnce_cases ho with ⟨s, -, rfl, -, -⟩ | ⟨s, hb, hs, h1, h2, rfl⟩
        · cases h; trivial
        · have hcut : ∀ c, s.cut = .num c → 0 ≤ c := by
            intro c hcc
            rcases bestField_from hb with h3 | ⟨j, f, g, e1, e2, e3⟩
            · cases h3
            · rw [hcc] at e3
              refine gainTerm_pos (fun xs hx => ?_) e3
              rw [at_field] at e2
              cases hcol : d.fields[j]? with
              | none => rw [hcol] at e2; cases e2
              | some col =>
                rw [hcol] at e2
                simp only [Option.map_some, Option.some.injEq] at e2
                subst e2
                cases col with
                | num xs' => cases hx; exact map_pos (hd xs' (List.mem_of_getElem? hcol)) rs
                | cat xs' ns => cases hx
          simp only at h
          split at h
          · cases hp : splitUntil w condition fuel (depth + 1) (d.at (rs.filter (goesB d s))) (y.at (rs.filter (goesB d s))) with
            | error e => rw [hp] at h; cases h
            | ok p =>
              cases hf : splitUntil w condition fuel (depth + 1) (d.at (rs.filter fun i => !goesB d s i))
                  (y.at (rs.filter fun i => !goesB d s i)) with
              | error e => rw [hp, hf] at h; cases h
              | ok f =>
                rw [hp, hf] at h
                cases h
                exact ⟨hcut, ih _ _ _ hp, ih _ _ _ hf⟩
          · cases h
            exact ⟨hcut, trivial, trivial⟩
    · rw [if_neg hc] at h; cases h; trivial

theorem grow_mild {w : World} {condition : Node → Nat → Bool} {n : Nat} {d : Data} {y : Col} (hd : Sound n d y) (hp : Positive d) {t : Node}
    (h : grow w condition d y = .ok t) : Mild t := by
  unfold grow at h
  rw [← data_at_all hd.len, ← at_all hd.ylen] at h
  exact splitUntil_mild hp _ _ _ _ h

/-- **C87 (partial).** A tree of integers that are not negative is grown and written in a document, and the document is loaded: every record whose numbers are integers gets the
score of the leaf that it comes to, though the cuts have been truncated.  With negative numbers it may be another leaf (`integer_cut_violation`). -/
theorem whole_routes_partial {w : World} {condition : Node → Nat → Bool} {n : Nat} {d : Data} {y : Col} (hd : Sound n d y) (hn : 0 < n) (hpos : Positive d)
    (hdn : d.names.Nodup) {o : Opts} (ho : o.Fits y) (hod : o.predictandDistribution = false)
    {fields : List (String × AType)} (hfn : (fields.map Prod.fst).Nodup) {T vt : AType} (hT : Whole T d fields)
    (hvt : pfaValueType w.maxSub d fields = .ok vt) {tree : String} (ht : pfaScoreType y ≠ tree) {en : Name}
    (henv : env.fields? ⟨"", tree⟩ = some (pfaType o y en fields vt tree)) {t : Node} (h : grow w condition d y = .ok t) (hin : t.isLeaf = false) :
    ∃ v, pfaValue w o fields vt tree t = .ok v ∧ ∃ N cell, (∀ fuel ≥ N, dec pf env fuel (.record ⟨"", tree⟩) v = .ok cell) ∧
      ∀ (row : List Cell) (datum : Val) (l : Node), Reading d row datum → IntRow row → Routes row t l → ∀ depth k, sizeOf cell ≤ k →
        predict env (depth + 2) (docTypes fields vt tree) datum cell k = score l.y := by
  have hf := grow_fine hd hn h
  obtain ⟨v, hv⟩ := pfaValue_total hd hn ho hvt hfn tree hf
  obtain ⟨cell, he, hst⟩ := pfaValue_whole (pf := pf) (env := env) hT hod hvt hdn hfn ht henv hf (grow_mild hd hpos h) hv
  rw [hin] at he
  obtain ⟨N, hN⟩ := he
  exact ⟨v, hv, N, cell, hN, fun row datum l hr hi hro depth k hk => stored_walk ht (hst depth row datum hr hi) hro hin k hk⟩

/-- **C87 (partial).** In particular every row of the dataset gets the score of the leaf that has it. -/
theorem whole_loaded_partial {w : World} {condition : Node → Nat → Bool} {n : Nat} {d : Data} {y : Col} (hd : Sound n d y) (hn : 0 < n)
    (hnat : ∀ xs, Col.num xs ∈ d.fields → ∀ x ∈ xs, ∃ k : ℕ, (k : ℚ) = x)
    (hns : ∀ xs ns, Col.cat xs ns ∈ d.fields → ns.Nodup) (hdn : d.names.Nodup) {o : Opts} (ho : o.Fits y) (hod : o.predictandDistribution = false)
    {fields : List (String × AType)} (hfn : (fields.map Prod.fst).Nodup) {T vt : AType} (hT : Whole T d fields)
    (hvt : pfaValueType w.maxSub d fields = .ok vt) {tree : String} (ht : pfaScoreType y ≠ tree) {en : Name}
    (henv : env.fields? ⟨"", tree⟩ = some (pfaType o y en fields vt tree)) {t : Node} (h : grow w condition d y = .ok t) (hin : t.isLeaf = false) :
    ∃ v, pfaValue w o fields vt tree t = .ok v ∧ ∃ N cell, (∀ fuel ≥ N, dec pf env fuel (.record ⟨"", tree⟩) v = .ok cell) ∧
      ∀ (i : Nat) (datum : Val), i < n → Reading d (rowOf d i) datum → ∀ depth k, sizeOf cell ≤ k →
        predict env (depth + 2) (docTypes fields vt tree) datum cell k = score (leafOf d i t).y := by
  have hpos : Positive d := by
    intro xs hxs x hx
    obtain ⟨k, rfl⟩ := hnat xs hxs x hx
    positivity
  obtain ⟨v, hv, N, cell, h1, h2⟩ := whole_routes_partial (pf := pf) hd hn hpos hdn ho hod hfn hT hvt ht henv h hin
  refine ⟨v, hv, N, cell, h1, fun i datum hi hr => h2 _ datum _ hr ?_ (train_routes hd hns (grow_fine hd hn h) hi)⟩
  intro j q hq
  simp only [rowOf, List.getElem?_map, Option.map_eq_some_iff] at hq
  obtain ⟨col, hcol, hc⟩ := hq
  cases col with
  | cat xs ns => simp [cellOf] at hc
  | num xs =>
    simp only [cellOf, Cell.num.injEq] at hc
    subst hc
    rcases lt_or_ge i xs.length with hi | hi
    · rw [List.getD_eq_getElem _ _ hi]
      obtain ⟨k, hk⟩ := hnat xs (List.mem_of_getElem? hcol) _ (List.getElem_mem hi)
      exact ⟨k, by simpa using hk⟩
    · rw [List.getD_eq_default _ _ hi]
      exact ⟨0, by simp⟩

/-- The fields of the data type, with integers. -/
def f2 : List (String × AType) := [("x", .int), ("c", .string)]

/-- All hypotheses hold for the four rows of `d1`. -/
example : gives (pfaValueType none d1 f2) (.union [.int, .array .string]) = true ∧ Whole .int d1 f2 ∧ (∀ xs, Col.num xs ∈ d1.fields → ∀ x ∈ xs, ∃ k : ℕ, (k : ℚ) = x) ∧
    leaves (grow w1 (fun _ _ => true) d1 y1) = some [(.num [0], 2), (.num [1], 2), (.num [10], 2), (.num [11], 2)] := by
  refine ⟨by decide +kernel, ⟨by decide, ?_⟩, ?_, by decide +kernel⟩
  · intro nm t h _
    simp only [f2, List.mem_cons, Prod.mk.injEq, List.not_mem_nil, or_false] at h
    rcases h with ⟨-, rfl⟩ | ⟨-, rfl⟩ <;> simp
  · intro xs h x hx
    simp only [d1, List.mem_cons, Col.num.injEq, reduceCtorEq, List.not_mem_nil, or_false] at h
    subst h
    simp only [List.mem_cons, List.not_mem_nil, or_false] at hx
    rcases hx with rfl | rfl | rfl | rfl
    exacts [⟨1, by norm_num⟩, ⟨2, by norm_num⟩, ⟨3, by norm_num⟩, ⟨4, by norm_num⟩]

/-- The cut between 1 and 3 is 2, and that between 2 and 4 is 3. -/
example : gives (scored w1 o0 f2 d1 y1 (.dict [("x", .int 3), ("c", .str "a")])) (.flt (.fin 1)) = true ∧
    gives (scored w1 o0 f2 d1 y1 (.dict [("x", .int 2), ("c", .str "b")])) (.flt (.fin 10)) = true := by decide +kernel

/-- A cut that is no integer. -/
example : gives (scored w1 o0 [("x", .int)] ⟨[.num [1, 2]], ["x"]⟩ (.num [0, 1]) (.dict [("x", .int 2)])) (.flt (.fin 1)) = true ∧
    gives (scored w1 o0 [("x", .int)] ⟨[.num [1, 2]], ["x"]⟩ (.num [0, 1]) (.dict [("x", .int 1)])) (.flt (.fin 0)) = true := by decide +kernel

end Verif.Cart
