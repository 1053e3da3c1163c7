import Verif.Scripts.Program
import Mathlib.Order.Filter.AtTopBot.Basic
import Mathlib.Data.List.Nodup
/-! # Programs that make random data pass the check (C108) -/

namespace Verif.Scripts
open Avro Sig Lang Ast

/-! ## The types for which it is so -/

mutual
/-- In each union there are at most one fixed type and one enum type, records are not alone unless there is only one, there is at least one member, and
none is named `union`. -/
def Mild : AType → Prop
  | .array i => Mild i
  | .map i => Mild i
  | .union ts => ts ≠ [] ∧ (∀ a ∈ ts, ∀ b ∈ ts, isFixed a = true → isFixed b = true → a = b) ∧ (∀ a ∈ ts, ∀ b ∈ ts, isEnum a = true → isEnum b = true → a = b) ∧
      ((∀ a ∈ ts, isRecord a = true) → ts.length = 1) ∧ "union" ∉ ts.map AType.name ∧ MildL ts
  | _ => True
@[inherit_doc Mild] def MildL : List AType → Prop
  | [] => True
  | t :: ts => Mild t ∧ MildL ts
end

theorem mildL_iff (ts : List AType) : MildL ts ↔ ∀ t ∈ ts, Mild t := by
  induction ts with
  | nil => simp [MildL]
  | cons t ts ih => simp [MildL, ih]

/-! ## Their common types -/

variable {env : Env} {D : Name → Option AType}

theorem absorb_names {out : List AType} {c : AType} (h : (out.map AType.name).Nodup) (hc : c.name ∉ out.map AType.name) : ((absorb env out c).map AType.name).Nodup := by
  unfold absorb
  split
  · exact h
  · split
    · rw [List.map_set]
      exact List.Nodup.set h hc
    · rw [List.map_append, List.nodup_append]
      refine ⟨h, by simp, ?_⟩
      intro a ha b hb
      simp only [List.map_cons, List.map_nil, List.mem_singleton] at hb
      rintro rfl
      exact hc (hb ▸ ha)

theorem absorb_name {out : List AType} {c : AType} {s : String} (h : s ∈ (absorb env out c).map AType.name) : s ∈ out.map AType.name ∨ s = c.name := by
  obtain ⟨x, hx, rfl⟩ := List.mem_map.1 h
  rcases absorb_sub hx with h | rfl
  · exact .inl (List.mem_map.2 ⟨x, h, rfl⟩)
  · exact .inr rfl

theorem fold_names : ∀ (xs out : List AType), (out.map AType.name ++ xs.map AType.name).Nodup → ((xs.foldl (absorb env) out).map AType.name).Nodup
  | [], out, h => by simpa using h
  | x :: xs, out, h => by
    rw [List.foldl_cons]
    rw [List.map_cons, List.nodup_append] at h
    obtain ⟨h1, h2, h3⟩ := h
    rw [List.nodup_cons] at h2
    refine fold_names xs _ (List.nodup_append.2 ⟨absorb_names h1 (fun hx => h3 _ hx _ (by simp) rfl), h2.2, ?_⟩)
    intro a ha b hb
    rcases absorb_name ha with ha | rfl
    · exact h3 a ha b (by simp [hb])
    · rintro rfl; exact h2.1 hb

theorem fold_same : ∀ (xs out : List AType), (∀ x ∈ xs, ∃ y ∈ out, accepts env env y x = true) → xs.foldl (absorb env) out = out
  | [], out, _ => rfl
  | x :: xs, out, h => by
    have : absorb env out x = out := by
      unfold absorb
      rw [if_pos]
      simpa using h x (by simp)
    rw [List.foldl_cons, this]
    exact fold_same xs out (fun y hy => h y (by simp [hy]))

theorem one_of {p : AType → Bool} {l : List AType} (hn : l.Nodup) (h : ∀ a ∈ l, ∀ b ∈ l, p a = true → p b = true → a = b) : (l.filter p).length ≤ 1 := by
  have hn' := hn.filter p
  cases hl : l.filter p with
  | nil => simp
  | cons a r =>
    cases r with
    | nil => simp
    | cons b r =>
      exfalso
      have ha : a ∈ l.filter p := by rw [hl]; simp
      have hb : b ∈ l.filter p := by rw [hl]; simp
      rw [List.mem_filter] at ha hb
      have := h a ha.1 b hb.1 ha.2 hb.2
      rw [hl, this] at hn'
      simp at hn'

/-- Members of a union, and what the union accepts, have a common type. -/
theorem mix_ok_of (he : env.Ok) {ts rest cs : List AType} (hfl : ∀ c ∈ cs, ∀ x ∈ Sig.parts c, x.flat = true) (hcs : cs.flatMap Sig.parts = ts ++ rest)
    (hk : ∀ t ∈ ts, AType.known env t = true) (hn : (ts.map AType.name).Nodup) (h1 : ∀ a ∈ ts, ∀ b ∈ ts, isFixed a = true → isFixed b = true → a = b)
    (h2 : ∀ a ∈ ts, ∀ b ∈ ts, isEnum a = true → isEnum b = true → a = b) (hu : "union" ∉ ts.map AType.name)
    (hr : ∀ x ∈ rest, ∃ y ∈ ts, accepts env env y x = true) : ∃ A, mix env cs = .ok A := by
  obtain ⟨c1, c2⟩ := fold_absorb he ts [] hk
  have hd : distinctL env [] cs = ts.foldl (absorb env) [] := by
    rw [distinctL_parts env [] cs hfl, hcs, List.foldl_append]
    refine fold_same _ _ (fun x hx => ?_)
    obtain ⟨y, hy, ha⟩ := hr x hx
    obtain ⟨z, hz, hza⟩ := c1 y (.inl hy)
    exact ⟨z, hz, accepts_trans he _ _ _ hza ha⟩
  have hsub : ∀ y ∈ ts.foldl (absorb env) [], y ∈ ts := fun y hy => (c2 y hy).elim (fun h => by cases h) id
  have hnn := fold_names (env := env) ts [] (by simpa using hn)
  have hnd : (ts.foldl (absorb env) []).Nodup := List.Nodup.of_map _ hnn
  unfold mix
  simp only [hd]
  rw [if_neg (by
    have := one_of (p := isFixed) hnd (fun a ha b hb => h1 a (hsub a ha) b (hsub b hb))
    omega), if_neg (by
    have := one_of (p := isEnum) hnd (fun a ha b hb => h2 a (hsub a ha) b (hsub b hb))
    omega)]
  unfold mkUnion
  rw [if_neg (by simpa using hnn), if_neg ?_]
  · exact ⟨_, rfl⟩
  · intro h
    obtain ⟨x, hx, e⟩ := List.mem_map.1 h
    exact hu (List.mem_map.2 ⟨x, hsub x hx, e⟩)

/-- A union and types that it accepts have a common type. -/
theorem mix_union (he : env.Ok) {ts cs : List AType} (hg : Good env D (.union ts)) (hm : Mild (.union ts)) (hc : ∀ c ∈ cs, Good env D c ∧ accepts env env (.union ts) c = true) :
    ∃ A, mix env (.union ts :: cs) = .ok A := by
  obtain ⟨hn, hm'⟩ := hg.union
  obtain ⟨_, m1, m2, _, m4, _⟩ := hm
  refine mix_ok_of he (ts := ts) (rest := cs.flatMap Sig.parts) ?_ rfl (fun t ht => (hm' t ht).2.known) hn m1 m2 m4 ?_
  · intro c hc'
    rcases List.mem_cons.1 hc' with rfl | hc'
    · exact fun x hx => (hm' x hx).1
    · exact fun x hx => ((hc c hc').1.parts x hx).1
  · intro x hx
    obtain ⟨c, hcc, hx⟩ := List.mem_flatMap.1 hx
    obtain ⟨hgc, hac⟩ := hc c hcc
    have hxf := (hgc.parts x hx).1
    exact (acc_union_flat _ _ _ hxf).1 (parts_accepts hac (fun y hy => (hgc.parts y hy).1) x hx)

theorem bt_union {ts cs : List AType} : bt env (.union ts) cs = mix env (.union ts :: cs) := by
  unfold bt
  simp [isNull, isBool, isInt, isLong, isFloat, isDouble, isBytes, isString, isFixed, isEnum, isRecord]

/-- A type several times. -/
theorem bt_same (he : env.Ok) : ∀ (t : AType) (cs : List AType), Good env D t → Mild t → (∀ c ∈ cs, c = t) → ∃ A, bt env t cs = .ok A
  | .union ts, cs, hg, hm, hc => by
    rw [bt_union]
    exact mix_union he hg hm (fun c h => by rw [hc c h]; exact ⟨hg, accepts_refl he _ hg.known⟩)
  | .array i, cs, hg, hm, hc => by
    obtain ⟨A, hA⟩ := bt_same he i (cs.map inner) hg.array hm (fun c h => by
      obtain ⟨c', h', rfl⟩ := List.mem_map.1 h
      rw [hc c' h']; rfl)
    unfold bt
    have : cs.all isArray = true := List.all_eq_true.2 fun c h => by rw [hc c h]; rfl
    simp [isNull, isBool, isInt, isLong, isFloat, isDouble, isBytes, isString, isFixed, isEnum, isRecord, this, hA]
  | .map i, cs, hg, hm, hc => by
    obtain ⟨A, hA⟩ := bt_same he i (cs.map inner) hg.map hm (fun c h => by
      obtain ⟨c', h', rfl⟩ := List.mem_map.1 h
      rw [hc c' h']; rfl)
    unfold bt
    have : cs.all isMap = true := List.all_eq_true.2 fun c h => by rw [hc c h]; rfl
    simp [isNull, isBool, isInt, isLong, isFloat, isDouble, isBytes, isString, isFixed, isEnum, isRecord, this, hA]
  | .null, cs, _, _, hc => by
    have : cs.all isNull = true := List.all_eq_true.2 fun c h => by rw [hc c h]; rfl
    unfold bt; simp [isNull, this]
  | .boolean, cs, _, _, hc => by
    have : cs.all isBool = true := List.all_eq_true.2 fun c h => by rw [hc c h]; rfl
    unfold bt; simp [isNull, isBool, this]
  | .int, cs, _, _, hc => by
    have : cs.all isInt = true := List.all_eq_true.2 fun c h => by rw [hc c h]; rfl
    unfold bt; simp [isNull, isBool, isInt, this]
  | .long, cs, _, _, hc => by
    have : cs.all (fun x => isInt x || isLong x) = true := List.all_eq_true.2 fun c h => by rw [hc c h]; rfl
    unfold bt
    simp only [List.all_cons, this]
    simp [isNull, isBool, isInt, isLong]
  | .float, cs, _, _, hc => by
    have : cs.all (fun x => isInt x || isLong x || isFloat x) = true := List.all_eq_true.2 fun c h => by rw [hc c h]; rfl
    unfold bt
    simp only [List.all_cons, this]
    simp [isNull, isBool, isInt, isLong, isFloat]
  | .double, cs, _, _, hc => by
    have : cs.all (fun x => isInt x || isLong x || isFloat x || isDouble x) = true := List.all_eq_true.2 fun c h => by rw [hc c h]; rfl
    unfold bt
    simp only [List.all_cons, this]
    simp [isNull, isBool, isInt, isLong, isFloat, isDouble]
  | .bytes, cs, _, _, hc => by
    have : cs.all isBytes = true := List.all_eq_true.2 fun c h => by rw [hc c h]; rfl
    unfold bt
    simp only [List.all_cons, this]
    simp [isNull, isBool, isInt, isLong, isFloat, isDouble, isBytes]
  | .string, cs, _, _, hc => by
    have : cs.all isString = true := List.all_eq_true.2 fun c h => by rw [hc c h]; rfl
    unfold bt
    simp only [List.all_cons, this]
    simp [isNull, isBool, isInt, isLong, isFloat, isDouble, isBytes, isString]
  | .fixed n k, cs, _, _, hc => by
    have : cs.all isFixed = true := List.all_eq_true.2 fun c h => by rw [hc c h]; rfl
    unfold bt
    simp only [List.all_cons, this]
    have hs : sameName (.fixed n k) cs = .ok (.fixed n k) := if_pos (List.all_eq_true.2 fun c h => by rw [hc c h]; simp)
    simp [isNull, isBool, isInt, isLong, isFloat, isDouble, isBytes, isString, isFixed, hs]
  | .enum n s, cs, _, _, hc => by
    have : cs.all isEnum = true := List.all_eq_true.2 fun c h => by rw [hc c h]; rfl
    unfold bt
    simp only [List.all_cons, this]
    have hs : sameName (.enum n s) cs = .ok (.enum n s) := if_pos (List.all_eq_true.2 fun c h => by rw [hc c h]; simp)
    simp [isNull, isBool, isInt, isLong, isFloat, isDouble, isBytes, isString, isFixed, isEnum, hs]
  | .record n, cs, _, _, hc => by
    have : cs.all isRecord = true := List.all_eq_true.2 fun c h => by rw [hc c h]; rfl
    unfold bt
    simp only [List.all_cons, this]
    have hs : sameName (.record n) cs = .ok (.record n) := if_pos (List.all_eq_true.2 fun c h => by rw [hc c h]; simp)
    simp [isNull, isBool, isInt, isLong, isFloat, isDouble, isBytes, isString, isFixed, isEnum, isRecord, hs]
termination_by t => sizeOf t

theorem ite_ok {p : Prop} [Decidable p] {a : AType} {x : Res AType} (h : ∃ A, x = .ok A) : ∃ A, (if p then .ok a else x) = .ok A := by
  split
  · exact ⟨_, rfl⟩
  · exact h

theorem flat_parts {c : AType} (h : c.flat = true) : Sig.parts c = [c] := by
  cases c <;> first | rfl | cases h

/-- The members of a union have a common type. -/
theorem bt_members (he : env.Ok) {t : AType} {ts : List AType} (hg : Good env D (.union (t :: ts))) (hm : Mild (.union (t :: ts))) : ∃ A, bt env t ts = .ok A := by
  obtain ⟨hn, hm'⟩ := hg.union
  obtain ⟨_, m1, m2, m3, m4, m5⟩ := hm
  rw [mildL_iff] at m5
  have hmix : ∃ A, mix env (t :: ts) = .ok A := by
    refine mix_ok_of he (ts := t :: ts) (rest := []) ?_ ?_ (fun t ht => (hm' t ht).2.known) hn m1 m2 m4 (by simp)
    · intro c hc x hx
      rw [flat_parts (hm' c hc).1, List.mem_singleton] at hx
      rw [hx]; exact (hm' c hc).1
    · have : ∀ l : List AType, (∀ c ∈ l, c.flat = true) → l.flatMap Sig.parts = l := by
        intro l
        induction l with
        | nil => simp
        | cons c l ih =>
          intro h
          rw [List.flatMap_cons, ih (fun c hc => h c (by simp [hc]))]
          rw [flat_parts (h c (by simp))]
          rfl
      rw [this _ (fun c hc => (hm' c hc).1), List.append_nil]
  by_cases hts : ts = []
  · subst hts
    exact bt_same he t [] (hm' t (by simp)).2 (m5 t (by simp)) (by simp)
  have hne : ∀ c ∈ ts, c.name ≠ t.name := by
    intro c hc e
    rw [List.map_cons, List.nodup_cons] at hn
    exact hn.1 (e ▸ List.mem_map.2 ⟨c, hc, rfl⟩)
  obtain ⟨c0, hc0⟩ := List.exists_mem_of_ne_nil _ hts
  have single : ∀ p : AType → Bool, (∀ a ∈ t :: ts, ∀ b ∈ t :: ts, p a = true → p b = true → a = b) → (t :: ts).all p = false := by
    intro p hp
    rw [← Bool.not_eq_true, List.all_eq_true]
    intro h
    exact hne c0 hc0 (by rw [hp c0 (by simp [hc0]) t (by simp) (h c0 (by simp [hc0])) (h t (by simp))])
  have hf := single isFixed m1
  have hen := single isEnum m2
  have hr : (t :: ts).all isRecord = false := by
    rw [← Bool.not_eq_true, List.all_eq_true]
    intro h
    have := m3 h
    simp at this
    exact hts this
  unfold bt
  rw [hf, hen, hr]
  iterate 8 refine ite_ok ?_
  rw [if_neg Bool.false_ne_true, if_neg Bool.false_ne_true, if_neg Bool.false_ne_true]
  cases t with
  | array i =>
    simp only
    rw [if_neg]
    · exact hmix
    · intro h
      have := List.all_eq_true.1 h c0 hc0
      obtain ⟨j, rfl⟩ := (isArray_iff _).1 this
      exact hne _ hc0 rfl
  | map i =>
    simp only
    rw [if_neg]
    · exact hmix
    · intro h
      have := List.all_eq_true.1 h c0 hc0
      obtain ⟨j, rfl⟩ := (isMap_iff _).1 this
      exact hne _ hc0 rfl
  | _ => exact hmix

/-- A type and what stands for it have a common type, which the type accepts. -/
theorem pair_common (he : env.Ok) {t u : AType} (hg : Good env D t) (hm : Mild t) (hu : Good env D u) (ha : accepts env env t u = true) (hf : t.flat = true → u = t) :
    ∃ A, broadest env [.avro t, .avro u] = .ok (some (.avro A)) ∧ accepts env env t A = true ∧ Good env D A := by
  have hb : ∃ A, bt env t [u] = .ok A := by
    rcases flat_or t with h | ⟨ts, rfl⟩
    · exact bt_same he t [u] hg hm (by simp [hf h])
    · rw [bt_union]
      exact mix_union he hg hm (by simp [hu, ha])
  obtain ⟨A, hA⟩ := hb
  have e : broadest env [.avro t, .avro u] = .ok (some (.avro A)) := by
    simp [broadest, isExc, isFcn, avros, hA]
  have hgc : ∀ c ∈ [CType.avro t, CType.avro u], GoodC env D c := by
    intro c hc
    simp only [List.mem_cons, List.not_mem_nil, or_false] at hc
    rcases hc with rfl | rfl
    · exact .avro hg
    · exact .avro hu
  refine ⟨A, e, broadest_least he hgc e t hg.wf (fun c hc => ?_), ?_⟩
  · simp only [List.mem_cons, CType.avro.injEq, List.not_mem_nil, or_false] at hc
    rcases hc with rfl | rfl
    · exact accepts_refl he _ hg.known
    · exact ha
  · exact (bt_ok he (D := D) _ t [u] A (Nat.le_refl _) (by
      intro x hx
      simp only [List.mem_cons, List.not_mem_nil, or_false] at hx
      rcases hx with rfl | rfl
      · exact hg
      · exact hu) hA).2.1

end Verif.Scripts
