import Verif.Sig.MatchThm
/-!
# Matching argument types with signatures: what is not refused (C38)

A signature without labels accepts exactly the arguments that fit its patterns.  In particular the search for an assignment of the members of a union to
the patterns, which tries the members in every order and takes the first pattern that fits, finds one whenever there is one.
-/

namespace Verif.Sig

open Avro

/-! ## Patterns without labels -/

mutual
/-- No label occurs in the pattern. -/
def Pat.plain : Pat → Bool
  | .array p => p.plain
  | .map p => p.plain
  | .union ps => plainL ps
  | .record fs _ => plainF fs
  | .fcn ps r => plainL ps && r.plain
  | .wild _ _ => false
  | .wildRecord _ _ => false
  | .wildEnum _ => false
  | .wildFixed _ => false
  | .enumFields _ _ => false
  | _ => true
@[inherit_doc Pat.plain] def plainL : List Pat → Bool
  | [] => true
  | p :: ps => p.plain && plainL ps
@[inherit_doc Pat.plain] def plainF : List (String × Pat) → Bool
  | [] => true
  | (_, p) :: fs => p.plain && plainF fs
end

/-- The check has an outcome, changes nothing, and says yes to what fits. -/
def CompleteFor (env : Env) (h : Heap) (p : Pat) (c : Checker) : Prop :=
  ∀ a s r, (∃ b, c a s r [] h = .ok (b, [], h)) ∧ ∀ M, Fits env M p a s r → c a s r [] h = .ok (true, [], h)

/-! ## Loops -/

theorem allC_pure {h : Heap} {cs : List (LDict → Heap → Out)} (hc : ∀ c ∈ cs, ∃ b, c [] h = .ok (b, [], h)) :
    ∃ b, allC cs [] h = .ok (b, [], h) := by
  induction cs with
  | nil => exact ⟨true, rfl⟩
  | cons c cs ih =>
    obtain ⟨b, hb⟩ := hc c (by simp)
    cases b with
    | false => exact ⟨false, by simp only [allC, hb]⟩
    | true =>
      obtain ⟨b, hb'⟩ := ih (fun c hc' => hc c (by simp [hc']))
      exact ⟨b, by simp only [allC, hb, hb']⟩

theorem allC_true {h : Heap} {cs : List (LDict → Heap → Out)} (hc : ∀ c ∈ cs, c [] h = .ok (true, [], h)) :
    allC cs [] h = .ok (true, [], h) := by
  induction cs with
  | nil => rfl
  | cons c cs ih => simp only [allC, hc c (by simp), ih (fun c hc' => hc c (by simp [hc']))]

theorem anyC_pure {h : Heap} {cs : List (LDict → Heap → Out)} (hc : ∀ c ∈ cs, ∃ b, c [] h = .ok (b, [], h)) :
    (∃ b, anyC cs [] h = .ok (b, [], h)) ∧ ((∃ c ∈ cs, c [] h = .ok (true, [], h)) → anyC cs [] h = .ok (true, [], h)) := by
  induction cs with
  | nil => exact ⟨⟨false, rfl⟩, fun ⟨c, hm, _⟩ => by cases hm⟩
  | cons c cs ih =>
    obtain ⟨b, hb⟩ := hc c (by simp)
    obtain ⟨h1, h2⟩ := ih (fun c hc' => hc c (by simp [hc']))
    cases b with
    | true => exact ⟨⟨true, by simp only [anyC, hb]⟩, fun _ => by simp only [anyC, hb]⟩
    | false =>
      obtain ⟨b, hb'⟩ := h1
      refine ⟨⟨b, by simp only [anyC, hb, hb']⟩, fun ⟨c', hm, ht⟩ => ?_⟩
      rcases List.mem_cons.1 hm with rfl | hm
      · rw [hb] at ht; cases ht
      · simp only [anyC, hb, h2 ⟨c', hm, ht⟩]

/-- The check says yes to a member of a union. -/
def Says (h : Heap) (rev : Bool) (a : AType) (c : Checker) : Prop := c (.avro a) true rev [] h = .ok (true, [], h)

theorem pick_pure {h : Heap} {rev : Bool} {a : AType} {cs : List Checker} (hc : ∀ c ∈ cs, ∃ b, c (.avro a) true rev [] h = .ok (b, [], h)) :
    (pick a rev cs [] h = .ok (none, [], h) ∧ ∀ c ∈ cs, ¬ Says h rev a c) ∨
    ∃ l c r, cs = l ++ c :: r ∧ pick a rev cs [] h = .ok (some (l ++ r), [], h) ∧ ∀ c ∈ l, ¬ Says h rev a c := by
  induction cs with
  | nil => exact .inl ⟨rfl, by simp⟩
  | cons c cs ih =>
    obtain ⟨b, hb⟩ := hc c (by simp)
    cases b with
    | true => exact .inr ⟨[], c, cs, rfl, by simp only [pick, hb, List.nil_append], by simp⟩
    | false =>
      have hn : ¬ Says h rev a c := fun hs => by unfold Says at hs; rw [hb] at hs; cases hs
      rcases ih (fun c hc' => hc c (by simp [hc'])) with ⟨h1, h2⟩ | ⟨l, c', r, rfl, h1, h2⟩
      · refine .inl ⟨by simp only [pick, hb, h1], fun x hx => ?_⟩
        rcases List.mem_cons.1 hx with rfl | hx
        · exact hn
        · exact h2 x hx
      · refine .inr ⟨c :: l, c', r, rfl, by simp only [pick, hb, h1, List.cons_append], fun x hx => ?_⟩
        rcases List.mem_cons.1 hx with rfl | hx
        · exact hn
        · exact h2 x hx

theorem tryPerm_pure {h : Heap} {rev : Bool} {cs : List Checker} {as : List AType}
    (hc : ∀ c ∈ cs, ∀ a, ∃ b, c (.avro a) true rev [] h = .ok (b, [], h)) : ∃ b, tryPerm rev cs as [] h = .ok (b, [], h) := by
  induction as generalizing cs with
  | nil => exact ⟨true, rfl⟩
  | cons a as ih =>
    rcases pick_pure (a := a) (fun c hm => hc c hm a) with ⟨h1, -⟩ | ⟨l, c, r, rfl, h1, -⟩
    · exact ⟨false, by simp only [tryPerm, h1]⟩
    · obtain ⟨b, hb⟩ := ih (cs := l ++ r) (fun c hm => hc c (by
        rcases List.mem_append.1 hm with hm | hm <;> simp [hm]))
      exact ⟨b, by simp only [tryPerm, h1, hb]⟩

/-- If the members are in the order of the patterns that they fit, each finds one. -/
theorem tryPerm_sorted {h : Heap} {rev : Bool} {as : List AType} {cs cs' : List Checker}
    (hc : ∀ c ∈ cs, ∀ a, ∃ b, c (.avro a) true rev [] h = .ok (b, [], h)) (hs : cs'.Sublist cs) (hf : List.Forall₂ (Says h rev) as cs') :
    tryPerm rev cs as [] h = .ok (true, [], h) := by
  induction as generalizing cs cs' with
  | nil => rfl
  | cons a as ih =>
    cases hf with
    | cons h0 hf =>
      rename_i c0 cs0
      rcases pick_pure (a := a) (fun c hm => hc c hm a) with ⟨-, h2⟩ | ⟨l, c, r, rfl, h1, h2⟩
      · exact absurd h0 (h2 c0 (hs.subset (by simp)))
      · simp only [tryPerm, h1]
        refine ih (cs := l ++ r) (fun c hm => hc c (by rcases List.mem_append.1 hm with hm | hm <;> simp [hm])) ?_ hf
        obtain ⟨x, y, hxy, hx, hy⟩ := List.sublist_append_iff.1 hs
        cases x with
        | nil =>
          rw [List.nil_append] at hxy
          subst hxy
          have : cs0.Sublist r := by
            cases hy with
            | cons _ hy => exact (List.sublist_cons_self c0 cs0).trans hy
            | cons_cons _ hy => exact hy
          exact this.trans (List.sublist_append_right l r)
        | cons x0 x =>
          simp only [List.cons_append, List.cons.injEq] at hxy
          obtain ⟨rfl, -⟩ := hxy
          exact absurd h0 (h2 c0 (hx.subset (by simp)))

theorem tryPerms_pure {h : Heap} {rev : Bool} {cs : List Checker} {perms : List (List AType)}
    (hc : ∀ c ∈ cs, ∀ a, ∃ b, c (.avro a) true rev [] h = .ok (b, [], h)) :
    (∃ b, tryPerms rev cs [] perms [] h = .ok (b, [], h)) ∧
    ((∃ p ∈ perms, tryPerm rev cs p [] h = .ok (true, [], h)) → tryPerms rev cs [] perms [] h = .ok (true, [], h)) := by
  induction perms with
  | nil => exact ⟨⟨false, rfl⟩, fun ⟨p, hm, _⟩ => by cases hm⟩
  | cons p ps ih =>
    obtain ⟨b, hb⟩ := tryPerm_pure (as := p) hc
    cases b with
    | true => exact ⟨⟨true, by simp only [tryPerms, hb]⟩, fun _ => by simp only [tryPerms, hb]⟩
    | false =>
      obtain ⟨⟨b, hb'⟩, h2⟩ := ih
      refine ⟨⟨b, by simp only [tryPerms, hb, hb']⟩, fun ⟨q, hm, ht⟩ => ?_⟩
      rcases List.mem_cons.1 hm with rfl | hm
      · rw [hb] at ht; cases ht
      · simp only [tryPerms, hb, h2 ⟨q, hm, ht⟩]

/-- Members of different patterns can be put in the order of these. -/
theorem sorted_exists {α β : Type} {P : α → β → Prop} (cs : List β) : ∀ (ts : List α) (idx : Nat → Nat),
    (∀ i j, i < ts.length → j < ts.length → idx i = idx j → i = j) →
    (∀ i a, ts[i]? = some a → ∃ c, cs[idx i]? = some c ∧ P a c) →
    ∃ as, as.Perm ts ∧ ∃ cs', cs'.Sublist cs ∧ List.Forall₂ P as cs' := by
  induction cs with
  | nil =>
    intro ts idx _ h
    cases ts with
    | nil => exact ⟨[], .refl _, [], .slnil, .nil⟩
    | cons t ts => obtain ⟨c, hc, _⟩ := h 0 t rfl; simp at hc
  | cons c cs ih =>
    intro ts idx hinj h
    by_cases h0 : ∃ i, i < ts.length ∧ idx i = 0
    · obtain ⟨i, hi, hi0⟩ := h0
      have hp : P ts[i] c := by
        obtain ⟨c', hc', hp⟩ := h i ts[i] (List.getElem?_eq_getElem hi)
        rw [hi0] at hc'
        cases hc'
        exact hp
      have hlen : (ts.eraseIdx i).length = ts.length - 1 := List.length_eraseIdx_of_lt hi
      have hne : ∀ k, k < ts.length - 1 → idx (if k < i then k else k + 1) ≠ 0 := fun k hk h => by
        have := hinj (if k < i then k else k + 1) i (by split <;> omega) hi (h.trans hi0.symm)
        split at this <;> omega
      obtain ⟨as, h1, cs', h2, h3⟩ := ih (ts.eraseIdx i) (fun k => idx (if k < i then k else k + 1) - 1) (fun a b ha hb hab => by
          rw [hlen] at ha hb
          have e1 := hne a ha
          have e2 := hne b hb
          have := hinj (if a < i then a else a + 1) (if b < i then b else b + 1) (by split <;> omega) (by split <;> omega) (by omega)
          split at this <;> split at this <;> omega) (fun k a hk => by
          have hkl : k < ts.length - 1 := by rw [← hlen]; exact (List.getElem?_eq_some_iff.1 hk).1
          rw [List.getElem?_eraseIdx] at hk
          obtain ⟨c', hc', hp'⟩ := h (if k < i then k else k + 1) a (by split <;> simp_all)
          refine ⟨c', ?_, hp'⟩
          have := hne k hkl
          rw [← hc']
          obtain ⟨m, hm⟩ := Nat.exists_eq_succ_of_ne_zero this
          rw [hm]; rfl)
      exact ⟨ts[i] :: as, (h1.cons _).trans (List.getElem_cons_eraseIdx_perm hi), c :: cs', .cons_cons _ h2, .cons hp h3⟩
    · have hne : ∀ i, i < ts.length → idx i ≠ 0 := fun i hi h => h0 ⟨i, hi, h⟩
      obtain ⟨as, h1, cs', h2, h3⟩ := ih ts (fun k => idx k - 1) (fun a b ha hb hab => by
          have e1 := hne a ha
          have e2 := hne b hb
          exact hinj a b ha hb (by omega)) (fun k a hk => by
          obtain ⟨c', hc', hp'⟩ := h k a hk
          have := hne k (List.getElem?_eq_some_iff.1 hk).1
          refine ⟨c', ?_, hp'⟩
          rw [← hc']
          obtain ⟨m, hm⟩ := Nat.exists_eq_succ_of_ne_zero this
          rw [hm]; rfl)
      exact ⟨as, h1, cs', .cons _ h2, h3⟩

/-! ## The check -/

theorem prim_complete {env : Env} {p : Pat} {t u : AType} {s r : Bool} (hp : p.prim = some t) (h : PrimFits t u s r) (d : LDict) (hp' : Heap) :
    check env p (.avro u) s r d hp' = .ok (true, d, hp') := by
  cases p <;> simp only [Pat.prim, reduceCtorEq, Option.some.injEq] at hp <;> subst hp <;> obtain ⟨h1, h2⟩ := h <;>
    cases s <;> cases r <;> simp only [if_true, if_false, Bool.false_eq_true] at h2 <;>
    first
      | (subst h2; rfl)
      | (cases u <;> first | rfl | (simp [AType.flat] at h1; done) | (simp [accepts, acc, overUnion] at h2; done))

theorem plainL_mem {ps : List Pat} (h : plainL ps = true) : ∀ p ∈ ps, p.plain = true := by
  induction ps with
  | nil => simp
  | cons p ps ih =>
    simp only [plainL, Bool.and_eq_true] at h
    intro q hq
    rcases List.mem_cons.1 hq with rfl | hq
    · exact h.1
    · exact ih h.2 q hq

theorem forall2_right {α β : Type} {R : α → β → Prop} {xs : List α} {ys : List β} (h : List.Forall₂ R xs ys) : ∀ y ∈ ys, ∃ x ∈ xs, R x y := by
  induction h with
  | nil => simp
  | cons h _ ih =>
    intro y hy
    rcases List.mem_cons.1 hy with rfl | hy
    · exact ⟨_, by simp, h⟩
    · obtain ⟨x, hx, hr⟩ := ih y hy
      exact ⟨x, by simp [hx], hr⟩

theorem forall2_get {α β : Type} {R : α → β → Prop} {xs : List α} {ys : List β} (h : List.Forall₂ R xs ys) (i : Nat) {x : α}
    (hx : xs[i]? = some x) : ∃ y, ys[i]? = some y ∧ R x y := by
  induction h generalizing i with
  | nil => simp at hx
  | cons h _ ih =>
    cases i with
    | zero => simp only [List.getElem?_cons_zero, Option.some.injEq] at hx ⊢; subst hx; exact ⟨_, rfl, h⟩
    | succ i => simp only [List.getElem?_cons_succ] at hx ⊢; exact ih i hx

theorem unionUnion_complete {env : Env} {h : Heap} {ps : List Pat} {cs : List Checker} (hL : List.Forall₂ (CompleteFor env h) ps cs)
    (ts : List AType) (r : Bool) :
    (∃ b, unionUnion cs ts r [] h = .ok (b, [], h)) ∧
    ∀ M s, Fits env M (.union ps) (.avro (.union ts)) s r → unionUnion cs ts r [] h = .ok (true, [], h) := by
  have hc : ∀ c ∈ cs, ∀ a, ∃ b, c (.avro a) true r [] h = .ok (b, [], h) := fun c hm a => by
    obtain ⟨p, _, hp⟩ := forall2_right hL c hm
    exact (hp _ _ _).1
  obtain ⟨⟨b, hb⟩, h2⟩ := tryPerms_pure (perms := Lib.permutations ts) hc
  refine ⟨⟨b, by simp only [unionUnion, hb]; rfl⟩, fun M s hf => ?_⟩
  have hx : ∃ p ∈ Lib.permutations ts, tryPerm r cs p [] h = .ok (true, [], h) := by
    generalize ha : CType.avro (AType.union ts) = a at hf
    cases hf with
    | prim h1 h2 => cases h1
    | member _ hflat _ => cases ha; simp [AType.flat] at hflat
    | union idx pat h1 h3 h4 =>
      cases ha
      obtain ⟨as, hp, cs', hs, hf⟩ := sorted_exists (P := Says h r) cs ts idx h1 (fun i a hi => by
        have hil := (List.getElem?_eq_some_iff.1 hi).1
        obtain ⟨c, hc1, hc2⟩ := forall2_get hL (idx i) (h3 i hil)
        exact ⟨c, hc1, (hc2 _ _ _).2 M (h4 i a hi)⟩)
      exact ⟨as, ((Lib.permutations_spec ts).1 as).2 hp, tryPerm_sorted hc hs hf⟩
  simp only [unionUnion, h2 hx]
  rfl

theorem fieldChecks_complete {env : Env} {h : Heap} {fs : List (String × Pat)} {cs : List (String × Checker)}
    (hF : List.Forall₂ (fun kp kc => kp.1 = kc.1 ∧ CompleteFor env h kp.2 kc.2) fs cs) {afs : List Field} (hn : (afs.map Field.name).Nodup)
    (hk : fs.all (fun kp => decide (kp.1 ∈ afs.map Field.name)) = true) (r : Bool) :
    (∃ b, allC (fieldChecks cs afs r) [] h = .ok (b, [], h)) ∧
    ∀ (M : String → CType → Prop) (field : String → Field), (∀ k p, (k, p) ∈ fs → field k ∈ afs ∧ (field k).name = k) →
      (∀ k p, (k, p) ∈ fs → Fits env M p (.avro (field k).type) true r) → allC (fieldChecks cs afs r) [] h = .ok (true, [], h) := by
  have key : ∀ c ∈ fieldChecks cs afs r, ∃ k p f, (k, p) ∈ fs ∧ f ∈ afs ∧ f.name = k ∧ ∃ kc, CompleteFor env h p kc ∧ c = kc (.avro f.type) true r := by
    intro c hc
    simp only [fieldChecks, List.mem_map] at hc
    obtain ⟨kc, hkc, rfl⟩ := hc
    obtain ⟨⟨k, p⟩, hkp, hk1, hcf⟩ := forall2_right hF kc hkc
    simp only at hk1 hcf
    have := List.all_eq_true.1 hk _ hkp
    simp only [decide_eq_true_eq, List.mem_map] at this
    obtain ⟨f0, hf0, hn0⟩ := this
    cases hfind : afs.find? (fun f => f.name = kc.1) with
    | none =>
      have := List.find?_eq_none.1 hfind f0 hf0
      simp [hn0, hk1] at this
    | some f =>
      have h1 := List.mem_of_find?_eq_some hfind
      have h2 := List.find?_some hfind
      simp only [decide_eq_true_eq] at h2
      exact ⟨k, p, f, hkp, h1, by rw [h2, hk1], kc.2, hcf, rfl⟩
  refine ⟨allC_pure fun c hc => ?_, fun M field h1 h2 => allC_true fun c hc => ?_⟩
  · obtain ⟨k, p, f, _, _, _, kc, hcf, rfl⟩ := key c hc
    exact (hcf _ _ _).1
  · obtain ⟨k, p, f, hkp, hf, hfn, kc, hcf, rfl⟩ := key c hc
    obtain ⟨g1, g2⟩ := h1 k p hkp
    have : f = field k := field_unique hn hf g1 (by rw [hfn, g2])
    rw [this]
    exact (hcf _ _ _).2 M (h2 k p hkp)

theorem no_complete {env : Env} {h : Heap} {p : Pat} {a : CType} {s r : Bool} (hn : ∀ M, ¬ Fits env M p a s r) :
    (∃ b, (Except.ok (false, [], h) : Out) = .ok (b, [], h)) ∧ ∀ M, Fits env M p a s r → (Except.ok (false, [], h) : Out) = .ok (true, [], h) :=
  ⟨⟨false, rfl⟩, fun M hf => absurd hf (hn M)⟩

theorem pure_complete {env : Env} {h : Heap} {p : Pat} {f : CType → Bool → Bool → Bool} (hc : check env p = pureC f)
    (hf : ∀ M a s r, Fits env M p a s r → f a s r = true) : CompleteFor env h p (check env p) := fun a s r => by
  rw [hc]
  exact ⟨⟨_, rfl⟩, fun M h' => by simp only [pureC, hf M a s r h']⟩

mutual
theorem check_complete {env : Env} (hn : ∀ n, (((env.fields? n).getD []).map Field.name).Nodup) (h : Heap) : ∀ p : Pat, p.plain = true →
    CompleteFor env h p (check env p)
  | .null, _ => fun a s r => ⟨⟨_, rfl⟩, fun M hf => by cases hf with | prim h1 h2 => exact prim_complete h1 h2 [] h⟩
  | .boolean, _ => fun a s r => ⟨⟨_, rfl⟩, fun M hf => by cases hf with | prim h1 h2 => exact prim_complete h1 h2 [] h⟩
  | .int, _ => fun a s r => ⟨⟨_, rfl⟩, fun M hf => by cases hf with | prim h1 h2 => exact prim_complete h1 h2 [] h⟩
  | .long, _ => fun a s r => ⟨⟨_, rfl⟩, fun M hf => by cases hf with | prim h1 h2 => exact prim_complete h1 h2 [] h⟩
  | .float, _ => fun a s r => ⟨⟨_, rfl⟩, fun M hf => by cases hf with | prim h1 h2 => exact prim_complete h1 h2 [] h⟩
  | .double, _ => fun a s r => ⟨⟨_, rfl⟩, fun M hf => by cases hf with | prim h1 h2 => exact prim_complete h1 h2 [] h⟩
  | .bytes, _ => fun a s r => ⟨⟨_, rfl⟩, fun M hf => by cases hf with | prim h1 h2 => exact prim_complete h1 h2 [] h⟩
  | .string, _ => fun a s r => ⟨⟨_, rfl⟩, fun M hf => by cases hf with | prim h1 h2 => exact prim_complete h1 h2 [] h⟩
  | .array p, hp => fun a s r => by
    have ih := check_complete hn h p (by simpa [Pat.plain] using hp)
    simp only [check]
    split
    · next i =>
      refine ⟨(ih _ s r).1, fun M hf => ?_⟩
      cases hf with
      | prim h1 h2 => cases h1
      | array hf => exact (ih _ s r).2 M hf
    · next hne =>
      refine no_complete fun M hf => ?_
      cases hf with
      | prim h1 h2 => cases h1
      | array hf => exact hne _ rfl
  | .map p, hp => fun a s r => by
    have ih := check_complete hn h p (by simpa [Pat.plain] using hp)
    simp only [check]
    split
    · next i =>
      refine ⟨(ih _ s r).1, fun M hf => ?_⟩
      cases hf with
      | prim h1 h2 => cases h1
      | map hf => exact (ih _ s r).2 M hf
    · next hne =>
      refine no_complete fun M hf => ?_
      cases hf with
      | prim h1 h2 => cases h1
      | map hf => exact hne _ rfl
  | .union ps, hp => fun a s r => by
    have ih := checkL_complete hn h ps (by simpa [Pat.plain] using hp)
    simp only [check]
    split
    · next ts =>
      obtain ⟨h1, h2⟩ := unionUnion_complete ih ts r
      exact ⟨h1, fun M hf => h2 M s hf⟩
    · next t hne =>
      obtain ⟨h1, h2⟩ := anyC_pure (h := h) (cs := (checkL env ps).map (fun c => c (.avro t) s r)) (fun c hc => by
        obtain ⟨c', hc', rfl⟩ := List.mem_map.1 hc
        obtain ⟨p, _, hcp⟩ := forall2_right ih c' hc'
        exact (hcp _ _ _).1)
      refine ⟨h1, fun M hf => h2 ?_⟩
      cases hf with
      | prim h1 h2 => cases h1
      | union => exact absurd rfl (hne _)
      | member hm _ hf =>
        obtain ⟨i, hi⟩ := List.getElem?_of_mem hm
        obtain ⟨c, hc1, hc2⟩ := forall2_get ih i hi
        exact ⟨_, List.mem_map.2 ⟨c, List.mem_of_getElem? hc1, rfl⟩, (hc2 _ _ _).2 M hf⟩
    · next hne1 hne2 =>
      refine no_complete fun M hf => ?_
      cases hf with
      | prim h1 h2 => cases h1
      | union => exact hne1 _ rfl
      | member => exact hne2 _ rfl
  | .fixed size name, _ => pure_complete rfl fun M a s r hf => by
    cases hf with
    | prim h1 h2 => cases h1
    | fixedName => simp
    | fixedSize => simp
  | .enum syms name, _ => pure_complete rfl fun M a s r hf => by
    cases hf with
    | prim h1 h2 => cases h1
    | enumName => simp
    | enumSyms => simp
  | .record fs (some m), _ => fun a s r => by
    simp only [check]
    split
    · refine ⟨⟨_, rfl⟩, fun M hf => ?_⟩
      cases hf with
      | prim h1 h2 => cases h1
      | recordName => simp
    · next hne =>
      refine no_complete fun M hf => ?_
      cases hf with
      | prim h1 h2 => cases h1
      | recordName => exact hne _ rfl
  | .record fs none, hp => fun a s r => by
    have ih := checkF_complete hn h fs (by simpa [Pat.plain] using hp)
    simp only [check]
    split
    · next n =>
      split
      · next hk =>
        rw [Bool.and_eq_true] at hk
        obtain ⟨h1, h2⟩ := fieldChecks_complete ih (hn n) hk.1 r
        refine ⟨h1, fun M hf => ?_⟩
        cases hf with
        | prim h1 h2 => cases h1
        | recordFields field g1 g2 g3 => exact h2 M field g1 g3
      · next hk =>
        refine no_complete fun M hf => hk ?_
        cases hf with
        | prim h1 h2 => cases h1
        | recordFields field g1 g2 g3 =>
          rw [Bool.and_eq_true]
          constructor
          · refine List.all_eq_true.2 fun kp hkp => ?_
            obtain ⟨e1, e2⟩ := g1 kp.1 kp.2 hkp
            simp only [decide_eq_true_eq, List.mem_map]
            exact ⟨_, e1, e2⟩
          · refine List.all_eq_true.2 fun f hf => ?_
            obtain ⟨p, hp⟩ := g2 f hf
            simp only [decide_eq_true_eq, List.mem_map]
            exact ⟨_, hp, rfl⟩
    · next hne =>
      refine no_complete fun M hf => ?_
      cases hf with
      | prim h1 h2 => cases h1
      | recordFields => exact hne _ rfl
  | .fcn ps ret, hp => fun a s r => by
    simp only [Pat.plain, Bool.and_eq_true] at hp
    have ihL := checkL_complete hn h ps hp.1
    have ihR := check_complete hn h ret hp.2
    simp only [check]
    split
    · next qs aret =>
      have hall : ∀ c ∈ ((checkL env ps).zip qs).map (fun cq => cq.1 cq.2 s true), ∃ b, c [] h = .ok (b, [], h) := fun c hc => by
        obtain ⟨cq, hcq, rfl⟩ := List.mem_map.1 hc
        obtain ⟨p, _, hcp⟩ := forall2_right ihL cq.1 (List.of_mem_zip (a := cq.1) (b := cq.2) hcq).1
        exact (hcp _ _ _).1
      obtain ⟨b, hb⟩ := allC_pure hall
      refine ⟨?_, fun M hf => ?_⟩
      · rw [hb]
        cases b with
        | false => exact ⟨false, rfl⟩
        | true => exact (ihR _ _ _).1
      · cases hf with
        | fcn g1 g2 =>
          rw [allC_true (fun c hc => by
            obtain ⟨⟨c', q⟩, hcq, rfl⟩ := List.mem_map.1 hc
            obtain ⟨i, hi⟩ := List.getElem?_of_mem hcq
            rw [List.getElem?_zip_eq_some] at hi
            have hil : i < ps.length := by
              rw [ihL.length_eq]
              exact (List.getElem?_eq_some_iff.1 hi.1).1
            obtain ⟨c'', hc1, hc2⟩ := forall2_get ihL i (List.getElem?_eq_getElem hil)
            have : c'' = c' := by
              have := hc1.symm.trans hi.1
              exact Option.some.inj this
            subst this
            exact (hc2 _ _ _).2 M (g1 i _ q (List.getElem?_eq_getElem hil) hi.2))]
          exact (ihR _ _ _).2 M g2
    · next hne =>
      refine no_complete fun M hf => ?_
      cases hf with
      | prim h1 h2 => cases h1
      | fcn => exact hne _ _ rfl
  | .wild _ _, hp => by simp [Pat.plain] at hp
  | .wildRecord _ _, hp => by simp [Pat.plain] at hp
  | .wildEnum _, hp => by simp [Pat.plain] at hp
  | .wildFixed _, hp => by simp [Pat.plain] at hp
  | .enumFields _ _, hp => by simp [Pat.plain] at hp
theorem checkL_complete {env : Env} (hn : ∀ n, (((env.fields? n).getD []).map Field.name).Nodup) (h : Heap) : ∀ ps : List Pat, plainL ps = true →
    List.Forall₂ (CompleteFor env h) ps (checkL env ps)
  | [], _ => .nil
  | p :: ps, hp => by
    simp only [plainL, Bool.and_eq_true] at hp
    exact .cons (check_complete hn h p hp.1) (checkL_complete hn h ps hp.2)
theorem checkF_complete {env : Env} (hn : ∀ n, (((env.fields? n).getD []).map Field.name).Nodup) (h : Heap) : ∀ fs : List (String × Pat),
    plainF fs = true → List.Forall₂ (fun kp kc => kp.1 = kc.1 ∧ CompleteFor env h kp.2 kc.2) fs (checkF env fs)
  | [], _ => .nil
  | (k, p) :: fs, hp => by
    simp only [plainF, Bool.and_eq_true] at hp
    exact .cons ⟨rfl, check_complete hn h p hp.1⟩ (checkF_complete hn h fs hp.2)
end

/-! ## Signatures -/

theorem assign_plain {env : Env} {M : String → CType → Prop} {σ : PyDict String (Option CType)} : ∀ (k : Nat) (p : Pat) (u : AType), sizeOf p ≤ k →
    p.plain = true → Fits env M p (.avro u) false false → ∃ t, assign σ p (.avro u) = .ok (.avro t) := by
  intro k
  induction k with
  | zero =>
    intro p u hk
    have : 0 < sizeOf p := by cases p <;> simp <;> omega
    omega
  | succ k ih =>
    intro p u hk hp hf
    generalize ha : CType.avro u = a at hf
    cases hf with
    | prim h1 h2 =>
      cases ha
      obtain ⟨h3, h4⟩ := h2
      simp only [Bool.false_eq_true, if_false] at h4
      cases p <;> simp only [Pat.prim, reduceCtorEq, Option.some.injEq] at h1 <;> subst h1 <;> cases u <;>
        first | exact ⟨_, rfl⟩ | (simp [AType.flat] at h3; done) | (simp [accepts, acc, overUnion] at h4; done)
    | array hf =>
      cases ha
      obtain ⟨t, ht⟩ := ih _ _ (by simp at hk; omega) (by simpa [Pat.plain] using hp) hf
      exact ⟨.array t, by simp only [assign, ht, wrapAvro]⟩
    | map hf =>
      cases ha
      obtain ⟨t, ht⟩ := ih _ _ (by simp at hk; omega) (by simpa [Pat.plain] using hp) hf
      exact ⟨.map t, by simp only [assign, ht, wrapAvro]⟩
    | union => cases ha; exact ⟨_, rfl⟩
    | member => cases ha; exact ⟨_, rfl⟩
    | fixedName => cases ha; exact ⟨_, rfl⟩
    | fixedSize => cases ha; exact ⟨_, rfl⟩
    | enumName => cases ha; exact ⟨_, rfl⟩
    | enumSyms => cases ha; exact ⟨_, rfl⟩
    | recordName => cases ha; exact ⟨_, rfl⟩
    | recordFields => cases ha; exact ⟨_, rfl⟩
    | fcn => cases ha
    | wild => simp [Pat.plain] at hp
    | wildRecord => simp [Pat.plain] at hp
    | wildEnum => simp [Pat.plain] at hp
    | wildFixed => simp [Pat.plain] at hp
    | enumFields => simp [Pat.plain] at hp

theorem assign_fits {env : Env} {M : String → CType → Prop} {σ : PyDict String (Option CType)} {p : Pat} {a : CType} (hp : p.plain = true)
    (hf : Fits env M p a false false) : ∃ t, assign σ p a = .ok t := by
  cases a with
  | avro u => obtain ⟨t, ht⟩ := assign_plain (σ := σ) _ p u (Nat.le_refl _) hp hf; exact ⟨_, ht⟩
  | exc =>
    cases hf with
    | wild => simp [Pat.plain] at hp
    | wildEnum => simp [Pat.plain] at hp
    | wildFixed => simp [Pat.plain] at hp
  | fcn qs r =>
    cases hf with
    | fcn => exact ⟨_, rfl⟩
    | wild => simp [Pat.plain] at hp
    | wildEnum => simp [Pat.plain] at hp
    | wildFixed => simp [Pat.plain] at hp

theorem assignAll_fits {env : Env} {M : String → CType → Prop} {σ : PyDict String (Option CType)} {ps : List Pat} {as : List CType}
    (hp : ∀ p ∈ ps, p.plain = true) (hf : List.Forall₂ (fun p a => Fits env M p a false false) ps as) : ∃ ts, assignAll σ ps as = .ok ts := by
  induction hf with
  | nil => exact ⟨[], rfl⟩
  | cons h _ ih =>
    obtain ⟨t, ht⟩ := assign_fits (σ := σ) (hp _ (by simp)) h
    obtain ⟨ts, hts⟩ := ih (fun p hm => hp p (by simp [hm]))
    exact ⟨t :: ts, by simp only [assignAll, ht, hts]⟩

/-- C38, the other direction: a signature without labels that is alive accepts all arguments that fit its patterns. -/
theorem sig_complete {env : Env} (he : env.Ok) {sig : Sig1} {args : List CType} {v : Ver} {M : String → CType → Prop} {ret : CType}
    (hp : ∀ p ∈ sig.params, p.2.plain = true) (hr : assignRet [] sig.ret = .ok ret) (hl : Alive sig.life v)
    (hf : List.Forall₂ (fun p a => Fits env M p.2 a false false) sig.params args) :
    ∃ ts, sig.accepts env args v = .ok (some (ts, ret)) := by
  have hn : ∀ n, (((env.fields? n).getD []).map Field.name).Nodup := fun n => by
    cases hfs : env.fields? n with
    | none => simp
    | some fs => exact he.names n fs hfs
  have hf' : List.Forall₂ (fun p a => Fits env M p a false false) (sig.params.map Prod.snd) args := by
    rw [List.forall₂_map_left_iff]; exact hf
  have hp' : ∀ p ∈ sig.params.map Prod.snd, p.plain = true := fun p hm => by
    obtain ⟨q, hq, rfl⟩ := List.mem_map.1 hm
    exact hp q hq
  have hpl : plainL (sig.params.map Prod.snd) = true := by
    clear hf' hf hr
    generalize sig.params.map Prod.snd = ps at hp'
    induction ps with
    | nil => rfl
    | cons p ps ih =>
      simp only [plainL, Bool.and_eq_true]
      exact ⟨hp' p (by simp), ih (fun q hq => hp' q (by simp [hq]))⟩
  have hL := checkL_complete hn [] _ hpl
  have hall : allC (((checkL env (sig.params.map Prod.snd)).zip args).map (fun ca => ca.1 ca.2 false false)) [] [] = .ok (true, [], []) := by
    refine allC_true fun c hc => ?_
    obtain ⟨⟨c', q⟩, hcq, rfl⟩ := List.mem_map.1 hc
    obtain ⟨i, hi⟩ := List.getElem?_of_mem hcq
    rw [List.getElem?_zip_eq_some] at hi
    have hil : i < (sig.params.map Prod.snd).length := by
      rw [hL.length_eq]
      exact (List.getElem?_eq_some_iff.1 hi.1).1
    obtain ⟨c'', hc1, hc2⟩ := forall2_get hL i (List.getElem?_eq_getElem hil)
    have e : c'' = c' := Option.some.inj (hc1.symm.trans hi.1)
    subst e
    obtain ⟨q', hq1, hq2⟩ := forall2_get hf' i (List.getElem?_eq_getElem hil)
    have e : q' = q := Option.some.inj (hq1.symm.trans hi.2)
    subst e
    exact (hc2 _ _ _).2 M hq2
  obtain ⟨ts, hts⟩ := assignAll_fits (σ := []) hp' hf'
  refine ⟨ts, ?_⟩
  unfold Sig1.accepts
  rw [if_pos (by simpa [Alive] using hl), if_pos hf.length_eq, hall]
  simp only [finish, determineAll, hts, hr, orNone]

/-- C38: exactly these, for arguments that are types of the document. -/
theorem sig_iff_plain {env : Env} (he : env.Ok) {D} (hE : EnvGood env D) {sig : Sig1} {args : List CType} {v : Ver} {ret : CType}
    (hg : ∀ a ∈ args, GoodC env D a) (hp : ∀ p ∈ sig.params, p.2.plain = true) (hr : assignRet [] sig.ret = .ok ret) :
    (∃ res, sig.accepts env args v = .ok (some res)) ↔
      Alive sig.life v ∧ ∃ M, List.Forall₂ (fun p a => Fits env M p.2 a false false) sig.params args := by
  constructor
  · rintro ⟨⟨ts, r⟩, h⟩
    obtain ⟨h1, M, σ, h2, -⟩ := sig_accepts_partial he hE hg h
    exact ⟨h1, M, h2⟩
  · rintro ⟨h1, M, h2⟩
    obtain ⟨ts, h⟩ := sig_complete he hp hr h1 h2
    exact ⟨_, h⟩

/-! ## Calls of user-defined functions -/

/-- No union in the type, apart from the fields of records. -/
def NoUnion : AType → Prop
  | .array i => NoUnion i
  | .map i => NoUnion i
  | .union _ => False
  | _ => True

mutual
theorem fromType_plain : ∀ t : AType, (fromType t).plain = true
  | .null | .boolean | .int | .long | .float | .double | .bytes | .string => rfl
  | .array i => by simp only [fromType, Pat.plain, fromType_plain i]
  | .map i => by simp only [fromType, Pat.plain, fromType_plain i]
  | .union ts => by simp only [fromType, Pat.plain, fromTypeL_plain ts]
  | .fixed n s => rfl
  | .enum n s => rfl
  | .record n => rfl
theorem fromTypeL_plain : ∀ ts : List AType, plainL (fromTypeL ts) = true
  | [] => rfl
  | t :: ts => by simp only [fromTypeL, plainL, fromType_plain t, fromTypeL_plain ts, Bool.and_self]
end

theorem fits_of_accepts {env : Env} {M : String → CType → Prop} : ∀ (t u : AType), NoUnion t → NoUnion u → accepts env env t u = true →
    Fits env M (fromType t) (.avro u) false false
  | .array i, u, ht, hu, h => by
    cases u <;> first
      | exact hu.elim
      | (simp [accepts, acc, overUnion] at h; done)
      | exact .array (fits_of_accepts i _ ht hu (by simpa [accepts, acc, overUnion] using h))
  | .map i, u, ht, hu, h => by
    cases u <;> first
      | exact hu.elim
      | (simp [accepts, acc, overUnion] at h; done)
      | exact .map (fits_of_accepts i _ ht hu (by simpa [accepts, acc, overUnion] using h))
  | .union ts, u, ht, hu, h => ht.elim
  | .fixed n s, u, ht, hu, h => by
    cases u <;> first
      | exact hu.elim
      | (simp [accepts, acc, overUnion] at h; done)
      | (simp [accepts, acc, overUnion] at h; obtain ⟨-, rfl⟩ := h; exact .fixedName)
  | .enum n s, u, ht, hu, h => by
    cases u <;> first
      | exact hu.elim
      | (simp [accepts, acc, overUnion] at h; done)
      | (simp [accepts, acc, overUnion] at h; obtain ⟨-, rfl⟩ := h; exact .enumName)
  | .record n, u, ht, hu, h => by
    cases u <;> first
      | exact hu.elim
      | (simp [accepts, acc, overUnion] at h; done)
      | (simp [accepts, acc, overUnion] at h; obtain ⟨rfl, -⟩ := h; exact .recordName)
  | .null, u, _, hu, h => by
    cases u <;> first | exact hu.elim | (simp [accepts, acc, overUnion] at h; done) | exact .prim rfl ⟨rfl, by decide⟩
  | .boolean, u, _, hu, h => by
    cases u <;> first | exact hu.elim | (simp [accepts, acc, overUnion] at h; done) | exact .prim rfl ⟨rfl, by decide⟩
  | .int, u, _, hu, h => by
    cases u <;> first | exact hu.elim | (simp [accepts, acc, overUnion] at h; done) | exact .prim rfl ⟨rfl, by decide⟩
  | .long, u, _, hu, h => by
    cases u <;> first | exact hu.elim | (simp [accepts, acc, overUnion] at h; done) | exact .prim rfl ⟨rfl, by decide⟩
  | .float, u, _, hu, h => by
    cases u <;> first | exact hu.elim | (simp [accepts, acc, overUnion] at h; done) | exact .prim rfl ⟨rfl, by decide⟩
  | .double, u, _, hu, h => by
    cases u <;> first | exact hu.elim | (simp [accepts, acc, overUnion] at h; done) | exact .prim rfl ⟨rfl, by decide⟩
  | .bytes, u, _, hu, h => by
    cases u <;> first | exact hu.elim | (simp [accepts, acc, overUnion] at h; done) | exact .prim rfl ⟨rfl, by decide⟩
  | .string, u, _, hu, h => by
    cases u <;> first | exact hu.elim | (simp [accepts, acc, overUnion] at h; done) | exact .prim rfl ⟨rfl, by decide⟩

/-- C38, partial: a call of a user-defined function is accepted if and only if each declared type accepts its argument, for types without unions;
for unions see `user_call_incomplete`. -/
theorem user_call_iff_partial {env : Env} (he : env.Ok) {D} (hE : EnvGood env D) {params : List (String × AType)} {ret : AType}
    {args : List AType} {v : Ver} {r : CType} (hp : ∀ p ∈ params, Good env D p.2 ∧ NoUnion p.2) (hg : ∀ a ∈ args, Good env D a ∧ NoUnion a)
    (hr : assignRet [] (fromType ret) = .ok r) :
    (∃ res, (userSig params ret).accepts env (args.map .avro) v = .ok (some res)) ↔
      List.Forall₂ (fun p a => accepts env env p.2 a = true) params args := by
  have hga : ∀ a ∈ args.map CType.avro, GoodC env D a := fun a hm => by
    obtain ⟨t, ht, rfl⟩ := List.mem_map.1 hm
    exact .avro (hg t ht).1
  constructor
  · rintro ⟨res, h⟩
    have := user_call_sound he hE (fun p hm => (hp p hm).1) hga h
    rw [List.forall₂_map_right_iff] at this
    exact this.imp fun p a hpa => by cases hpa with | avro h => exact h
  · intro h
    rw [sig_iff_plain he hE hga (fun p hm => by
      simp only [userSig, List.mem_map] at hm
      obtain ⟨q, _, rfl⟩ := hm
      exact fromType_plain _) hr]
    refine ⟨.inl rfl, fun _ _ => False, ?_⟩
    simp only [userSig, List.forall₂_map_left_iff, List.forall₂_map_right_iff]
    clear hga
    induction h with
    | nil => exact .nil
    | cons h _ ih =>
      exact .cons (fits_of_accepts _ _ (hp _ (by simp)).2 (hg _ (by simp)).2 h)
        (ih (fun p hm => hp p (by simp [hm])) (fun a hm => hg a (by simp [hm])))

/-! ## Non-vacuity -/

/-- Members in another order than the patterns: the first pattern fits two of them. -/
example : (Sig1.mk [("x", .union [.enum ["a"] none, .fixed 2 none, .string])] .null ⟨none, none, none⟩).accepts []
    [.avro (.union [.string, .fixed ⟨"", "F"⟩ 2])] ⟨0, 8, 1⟩ = .ok (some ([.avro (.union [.string, .fixed ⟨"", "F"⟩ 2])], .avro .null)) := by decide +kernel

example : List.Forall₂ (fun (p : String × AType) a => accepts [] [] p.2 a = true) [("x", .array .double), ("y", .string)] [.array .int, .string] :=
  .cons (by decide) (.cons (by decide) .nil)

end Verif.Sig
