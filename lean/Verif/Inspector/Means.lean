import Verif.Inspector.Pattern
/-! # Patterns of the inspector are compared as they are written (C101) -/

namespace Verif.Inspector
open Avro Producer

/-! ## Objects -/

theorem set_new {α : Type} {d : PyDict String α} {k : String} {v : α} (h : k ∉ PyDict.keys d) : PyDict.set d k v = d ++ [(k, v)] := by
  induction d with
  | nil => rfl
  | cons kv d ih =>
    obtain ⟨k', w⟩ := kv
    have h' : k' ≠ k ∧ k ∉ PyDict.keys d := by
      simp only [keys_cons, List.mem_cons, not_or] at h
      exact ⟨fun e => h.1 e.symm, h.2⟩
    rw [PyDict.set, if_neg h'.1, ih h'.2]; rfl

theorem keyed_spec {α : Type} : ∀ (ps : List (Key × α)) (d : PyDict String α), (∀ kv ∈ ps, (Key.text? kv.1).isSome = true) →
    (PyDict.keys d ++ ps.map (Key.written ·.1)).Nodup → keyed ps d = some (d ++ ps.map fun kv => (Key.written kv.1, kv.2))
  | [], d, _, _ => by simp [keyed]
  | (k, v) :: ps, d, ht, hn => by
    have hk : Key.text? k = some k.written := by
      have := ht (k, v) List.mem_cons_self
      cases k with
      | str s => rfl
      | word s =>
        by_cases hs : s ∈ ["null", "true", "false"]
        · simp only [Key.text?, if_pos hs] at this; cases this
        · simp only [Key.text?, if_neg hs]; rfl
    have hnew : k.written ∉ PyDict.keys d := by
      intro hm
      rw [List.nodup_append] at hn
      exact hn.2.2 _ hm k.written (by simp) rfl
    rw [keyed, hk]
    simp only []
    rw [keyed_spec ps _ (fun kv hm => ht kv (List.mem_cons_of_mem _ hm)), set_new hnew]
    · simp
    · rw [PyDict.keys_set, if_neg hnew]
      simpa using hn

/-! ## Compilation -/

/-- The pattern is safe to compare, and means what is typed. -/
def Fits (s : Src) (p : Pat) : Prop := p.safe = true ∧ ∀ v, Means p v ↔ Typed s v

theorem safeL_mem {ps : List Pat} : safeL ps = true ↔ ∀ p ∈ ps, p.safe = true := by
  induction ps with
  | nil => simp [safeL]
  | cons p ps ih => simp [safeL, ih]

theorem safeD_mem {ps : List (String × Pat)} : safeD ps = true ↔ ∀ kv ∈ ps, kv.2.safe = true := by
  induction ps with
  | nil => simp [safeD]
  | cons p ps ih => simp [safeD, ih]

/-- The patterns of a list, each with what was typed. -/
def FitsL (vs : List Src) (ps : List Pat) : Prop := safeL ps = true ∧ ps.length = vs.length ∧
  ∀ (i : Nat) s p, vs[i]? = some s → ps[i]? = some p → ∀ v, Means p v ↔ Typed s v

theorem FitsL.cons {s : Src} {vs : List Src} {p : Pat} {ps : List Pat} (h : Fits s p) (hs : FitsL vs ps) : FitsL (s :: vs) (p :: ps) := by
  obtain ⟨hp, hm⟩ := h
  obtain ⟨hps, hl, hms⟩ := hs
  refine ⟨by simp [safeL, hp, hps], by simp [hl], ?_⟩
  intro i
  cases i with
  | zero => intro s' p' h1 h2; simp only [List.getElem?_cons_zero, Option.some.injEq] at h1 h2; subst h1 h2; exact hm
  | succ i => intro s' p' h1 h2; exact hms i s' p' (by simpa using h1) (by simpa using h2)

/-- All of them. -/
theorem FitsL.all {vs : List Src} {ps : List Pat} (hl : ps.length = vs.length)
    (hm : ∀ (i : Nat) s p, vs[i]? = some s → ps[i]? = some p → ∀ v, Means p v ↔ Typed s v) (v : Val) : (∀ p ∈ ps, Means p v) ↔ ∀ s ∈ vs, Typed s v := by
  constructor
  · intro h s hs
    obtain ⟨i, hi, rfl⟩ := List.getElem_of_mem hs
    have hi' : i < ps.length := by omega
    exact (hm i vs[i] ps[i] (List.getElem?_eq_getElem hi) (List.getElem?_eq_getElem hi') v).1 (h _ (List.getElem_mem hi'))
  · intro h p hp
    obtain ⟨i, hi, rfl⟩ := List.getElem_of_mem hp
    have hi' : i < vs.length := by omega
    exact (hm i vs[i] ps[i] (List.getElem?_eq_getElem hi') (List.getElem?_eq_getElem hi) v).2 (h _ (List.getElem_mem hi'))

/-- Element by element. -/
theorem FitsL.each {vs : List Src} {ps : List Pat} {xs : List Val} (hl : ps.length = vs.length)
    (hm : ∀ (i : Nat) s p, vs[i]? = some s → ps[i]? = some p → ∀ v, Means p v ↔ Typed s v) :
    (∀ (i : Nat) p v, ps[i]? = some p → xs[i]? = some v → Means p v) ↔ ∀ (i : Nat) s v, vs[i]? = some s → xs[i]? = some v → Typed s v := by
  constructor
  · intro h i s v hs hv
    have hi : i < ps.length := by have := (List.getElem?_eq_some_iff.1 hs).1; omega
    exact (hm i s ps[i] hs (List.getElem?_eq_getElem hi) v).1 (h i ps[i] v (List.getElem?_eq_getElem hi) hv)
  · intro h i p v hp hv
    have hi : i < vs.length := by have := (List.getElem?_eq_some_iff.1 hp).1; omega
    exact (hm i vs[i] p (List.getElem?_eq_getElem hi) hp v).2 (h i vs[i] v (List.getElem?_eq_getElem hi) hv)

/-- The patterns of the pairs of an object. -/
def FitsD (ps : List (Key × Src)) (qs : List (Key × Pat)) : Prop := qs.map (·.1) = ps.map (·.1) ∧ (∀ q ∈ qs, q.2.safe = true) ∧
  ∀ (i : Nat) s q, ps[i]? = some s → qs[i]? = some q → ∀ v, Means q.2 v ↔ Typed s.2 v

theorem FitsD.cons {k : Key} {s : Src} {ps : List (Key × Src)} {p : Pat} {qs : List (Key × Pat)} (h : Fits s p) (hs : FitsD ps qs) :
    FitsD ((k, s) :: ps) ((k, p) :: qs) := by
  obtain ⟨hp, hm⟩ := h
  obtain ⟨hk, hq, hms⟩ := hs
  refine ⟨by simp [hk], ?_, ?_⟩
  · intro q hq'
    rcases List.mem_cons.1 hq' with rfl | h
    · exact hp
    · exact hq q h
  · intro i
    cases i with
    | zero => intro s' p' h1 h2; simp only [List.getElem?_cons_zero, Option.some.injEq] at h1 h2; subst h1 h2; exact hm
    | succ i => intro s' p' h1 h2; exact hms i s' p' (by simpa using h1) (by simpa using h2)

theorem typed_word {s : String} {v : Val} (h : Typed (.word s) v) : (s = "null" ∧ v = .null) ∨ (s = "true" ∧ num? v = some (.fin 1)) ∨
    (s = "false" ∧ num? v = some (.fin 0)) ∨ (s ∉ ["null", "true", "false"] ∧ v = .str s) := by
  generalize hw : Src.word s = w at h
  cases h with
  | null => cases hw; exact .inl ⟨rfl, rfl⟩
  | true h => cases hw; exact .inr (.inl ⟨rfl, h⟩)
  | false h => cases hw; exact .inr (.inr (.inl ⟨rfl, h⟩))
  | word h => cases hw; exact .inr (.inr (.inr ⟨h, rfl⟩))
  | _ => cases hw

theorem word_fits (s : String) : Fits (.word s) (wordPat s) := by
  have hd : ("true" : String) ≠ "null" ∧ ("false" : String) ≠ "null" ∧ ("false" : String) ≠ "true" := by decide
  refine ⟨?_, fun v => ⟨fun h => ?_, fun h => ?_⟩⟩
  · unfold wordPat; split; · rfl
    split; · rfl
    split <;> rfl
  · unfold wordPat at h
    by_cases h1 : s = "null"
    · rw [if_pos h1] at h; cases h; rw [h1]; exact .null
    · by_cases h2 : s = "true"
      · rw [if_neg h1, if_pos h2] at h
        cases h with
        | num hl hv hx => simp only [Lit.num?, if_true, Option.some.injEq] at hl; subst hl; rw [h2]; exact .true hv
      · by_cases h3 : s = "false"
        · rw [if_neg h1, if_neg h2, if_pos h3] at h
          cases h with
          | num hl hv hx => simp only [Lit.num?, Bool.false_eq_true, if_false, Option.some.injEq] at hl; subst hl; rw [h3]; exact .false hv
        · rw [if_neg h1, if_neg h2, if_neg h3] at h
          cases h with
          | str => exact .word (by simp [h1, h2, h3])
          | num hl hv hx => simp [Lit.num?] at hl
  · unfold wordPat
    rcases typed_word h with ⟨rfl, rfl⟩ | ⟨rfl, h'⟩ | ⟨rfl, h'⟩ | ⟨hs, rfl⟩
    · rw [if_pos rfl]; exact .null
    · rw [if_neg hd.1, if_pos rfl]; exact .num (x := .fin 1) (by simp [Lit.num?]) h' (by simp)
    · rw [if_neg hd.2.1, if_neg hd.2.2, if_pos rfl]; exact .num (x := .fin 0) (by simp [Lit.num?]) h' (by simp)
    · simp only [List.mem_cons, List.not_mem_nil, or_false, not_or] at hs
      rw [if_neg hs.1, if_neg hs.2.1, if_neg hs.2.2]; exact .str

theorem obj_fits {ps : List (Key × Src)} {dots : Bool} {qs : List (Key × Pat)} (h : FitsD ps qs) (ht : ∀ kv ∈ ps, (Key.text? kv.1).isSome = true)
    (hn : (ps.map (Key.written ·.1)).Nodup) (hself : dots = true → "self" ∉ ps.map (Key.written ·.1)) :
    ∃ p, objPat qs dots = .ok p ∧ Fits (.obj ps dots) p := by
  obtain ⟨hk, hq, hm⟩ := h
  have hlen : qs.length = ps.length := by simpa using congrArg List.length hk
  have hw : qs.map (Key.written ·.1) = ps.map (Key.written ·.1) := by
    have := congrArg (List.map Key.written) hk
    simpa [List.map_map, Function.comp_def] using this
  have ht' : ∀ kv ∈ qs, (Key.text? kv.1).isSome = true := by
    intro kv hkv
    have : kv.1 ∈ ps.map (·.1) := by rw [← hk]; exact List.mem_map_of_mem hkv
    obtain ⟨kv', hm', he⟩ := List.mem_map.1 this
    rw [← he]; exact ht kv' hm'
  have hkey : keyed qs [] = some (qs.map fun kv => (Key.written kv.1, kv.2)) := by
    have := keyed_spec qs [] ht' (by simpa [PyDict.keys, hw] using hn)
    simpa using this
  have hks : PyDict.keys (qs.map fun kv => (Key.written kv.1, kv.2)) = ps.map (Key.written ·.1) := by
    rw [← hw]; simp [PyDict.keys, List.map_map, Function.comp_def]
  have hsafe : safeD (qs.map fun kv => (Key.written kv.1, kv.2)) = true := by
    rw [safeD_mem]; intro kv hkv
    obtain ⟨q, hq', rfl⟩ := List.mem_map.1 hkv
    exact hq q hq'
  -- the pairs correspond
  have fwd : ∀ k s, (k, s) ∈ ps → ∃ q, (Key.written k, q) ∈ (qs.map fun kv => (Key.written kv.1, kv.2)) ∧ ∀ v, Means q v ↔ Typed s v := by
    intro k s hmem
    obtain ⟨i, hi, he⟩ := List.getElem_of_mem hmem
    have hi' : i < qs.length := by omega
    refine ⟨qs[i].2, ?_, hm i (k, s) qs[i] (by rw [List.getElem?_eq_getElem hi, he]) (List.getElem?_eq_getElem hi')⟩
    refine List.mem_map.2 ⟨qs[i], List.getElem_mem hi', ?_⟩
    have : qs[i].1 = k := by
      have h1 : (qs.map (·.1))[i]? = (ps.map (·.1))[i]? := by rw [hk]
      simpa [List.getElem?_eq_getElem hi, List.getElem?_eq_getElem hi', he] using h1
    rw [this]
  have bwd : ∀ k q, (k, q) ∈ (qs.map fun kv => (Key.written kv.1, kv.2)) → ∃ k' s, (k', s) ∈ ps ∧ Key.written k' = k ∧ ∀ v, Means q v ↔ Typed s v := by
    intro k q hmem
    obtain ⟨⟨k', q'⟩, hq', he⟩ := List.mem_map.1 hmem
    obtain ⟨i, hi, hi'⟩ := List.getElem_of_mem hq'
    have hi'' : i < ps.length := by omega
    simp only [Prod.mk.injEq] at he
    refine ⟨ps[i].1, ps[i].2, List.getElem_mem hi'', ?_, ?_⟩
    · have h1 : (qs.map (·.1))[i]? = (ps.map (·.1))[i]? := by rw [hk]
      have : k' = ps[i].1 := by simpa [List.getElem?_eq_getElem hi, List.getElem?_eq_getElem hi'', hi'] using h1
      rw [← this]; exact he.1
    · have := hm i ps[i] qs[i] (List.getElem?_eq_getElem hi'') (List.getElem?_eq_getElem hi)
      rw [hi', he.2] at this; exact this
  unfold objPat
  simp only [hkey]
  cases dots with
  | false =>
    refine ⟨_, rfl, by simpa [Pat.safe] using hsafe, fun v => ⟨?_, ?_⟩⟩
    · intro h
      cases h with
      | dict hk' h' =>
        refine .obj ?_ ?_ ?_
        · intro k p hp hat
          refine (hk' _ hat).1 ?_
          rw [hks]; exact List.mem_map.2 ⟨_, hp, rfl⟩
        · intro _ k hkd hat
          have := (hk' k hat).2 hkd
          rwa [hks] at this
        · intro k p hp hat v hv
          obtain ⟨q, hq1, hq2⟩ := fwd k p hp
          exact (hq2 v).1 (h' _ _ hq1 hat v hv)
    · intro h
      cases h with
      | obj h1 h2 h3 =>
        refine .dict ?_ ?_
        · intro k hat
          rw [hks]
          constructor
          · intro hm'
            obtain ⟨⟨k', s⟩, hp, rfl⟩ := List.mem_map.1 hm'
            exact h1 k' s hp hat
          · intro hm'; exact h2 rfl k hm' hat
        · intro k q hq' hat v hv
          obtain ⟨k', s, hp, rfl, hx⟩ := bwd k q hq'
          exact (hx v).2 (h3 k' s hp hat v hv)
  | true =>
    have hs : PyDict.has (qs.map fun kv => (Key.written kv.1, kv.2)) "self" = false := by
      rw [PyDict.has, Bool.eq_false_iff, ne_eq, PyDict.get?_isSome_iff, hks]
      exact hself rfl
    simp only [hs, Bool.false_eq_true, if_false, if_true]
    refine ⟨_, rfl, by simpa [Pat.safe] using hsafe, fun v => ⟨?_, ?_⟩⟩
    · intro h
      cases h with
      | min hk' h' =>
        refine .obj ?_ (fun h => by cases h) ?_
        · intro k p hp hat
          refine hk' _ hat ?_
          rw [hks]; exact List.mem_map.2 ⟨_, hp, rfl⟩
        · intro k p hp hat v hv
          obtain ⟨q, hq1, hq2⟩ := fwd k p hp
          exact (hq2 v).1 (h' _ _ hq1 hat v hv)
    · intro h
      cases h with
      | obj h1 h2 h3 =>
        refine .min ?_ ?_
        · intro k hat hm'
          rw [hks] at hm'
          obtain ⟨⟨k', s⟩, hp, rfl⟩ := List.mem_map.1 hm'
          exact h1 k' s hp hat
        · intro k q hq' hat v hv
          obtain ⟨k', s, hp, rfl, hx⟩ := bwd k q hq'
          exact (hx v).2 (h3 k' s hp hat v hv)

theorem arr_fits {vs : List Src} {ps : List Pat} (h : FitsL vs ps) : Fits (.arr vs) (.arr ps) ∧ Fits (.ends vs) (.end_ ps) ∧ Fits (.starts vs) (.start ps) := by
  obtain ⟨hs, hl, hm⟩ := h
  refine ⟨⟨by simpa [Pat.safe] using hs, fun v => ⟨?_, ?_⟩⟩, ⟨by simpa [Pat.safe] using hs, fun v => ⟨?_, ?_⟩⟩,
    ⟨by simpa [Pat.safe] using hs, fun v => ⟨?_, ?_⟩⟩⟩
  · intro h; cases h with | arr h1 h2 => exact .arr (by omega) ((FitsL.each hl hm).1 h2)
  · intro h; cases h with | arr h1 h2 => exact .arr (by omega) ((FitsL.each hl hm).2 h2)
  · intro h; cases h with | end_ h1 h2 => exact .ends (by omega) ((FitsL.each hl hm).1 h2)
  · intro h; cases h with | ends h1 h2 => exact .end_ (by omega) ((FitsL.each hl hm).2 h2)
  · intro h; cases h with | start h1 h2 => exact .starts (by omega) ((FitsL.each hl hm).1 h2)
  · intro h; cases h with | starts h1 h2 => exact .start (by omega) ((FitsL.each hl hm).2 h2)

theorem cmp_fits (o : Cmp) (x : Flt) (hx : x ≠ .nan) : Fits (.cmp o x) (rangePat (some (o, x))) := by
  refine ⟨by cases o <;> simpa [rangePat, Pat.safe] using hx, fun v => ⟨?_, ?_⟩⟩
  · intro h
    cases o with
    | lt => cases h with | lt hv h => exact .cmp hv h
    | le => cases h with | le hv h => exact .cmp hv h
    | gt => cases h with | gt hv h => exact .cmp hv h
    | ge => cases h with | ge hv h => exact .cmp hv h
  · intro h
    cases h with
    | cmp hv h =>
      cases o with
      | lt => exact .lt hv h
      | le => exact .le hv h
      | gt => exact .gt hv h
      | ge => exact .ge hv h

theorem number_fits : Fits .number (rangePat none) := by
  refine ⟨rfl, fun v => ⟨?_, ?_⟩⟩
  · intro h
    cases h with
    | any ht h =>
      rename_i t
      have : ∃ x, num? v = some x := by
        simp only [List.mem_cons, List.not_mem_nil, or_false] at ht
        rcases ht with rfl | rfl | rfl <;> cases v <;> first | (exact ⟨_, rfl⟩) | (simp [PyType.has] at h)
      obtain ⟨x, hx⟩ := this
      exact .number hx
  · intro h
    cases h with
    | number h =>
      cases v with
      | int i => exact .any (t := .int) (by simp) rfl
      | bool b => exact .any (t := .int) (by simp) rfl
      | flt f => exact .any (t := .float) (by simp) rfl
      | _ => simp [num?] at h

theorem means_group {n : String} {p : Pat} {v : Val} : Means (.group n p) v ↔ Means p v :=
  ⟨fun h => by cases h with | group h => exact h, .group⟩

theorem means_and {ps : List Pat} {v : Val} : Means (.and ps) v ↔ ps ≠ [] ∧ ∀ p ∈ ps, Means p v :=
  ⟨fun h => by cases h with | and h1 h2 => exact ⟨h1, h2⟩, fun h => .and h.1 h.2⟩

theorem means_or {ps : List Pat} {v : Val} : Means (.or ps) v ↔ ∃ p ∈ ps, Means p v :=
  ⟨fun h => by cases h with | or h1 h2 => exact ⟨_, h1, h2⟩, fun ⟨_, h1, h2⟩ => .or h1 h2⟩

theorem ne_nil_iff {ps : List Pat} {vs : List Src} (hl : ps.length = vs.length) : ps ≠ [] ↔ vs ≠ [] := by
  rw [← List.length_pos_iff, ← List.length_pos_iff, hl]

/-- Alternatives: each is the `And` of its values. -/
def FitsA (vss : List (List Src)) (ps : List Pat) : Prop := safeL ps = true ∧
  ∀ v, (∃ p ∈ ps, Means p v) ↔ ∃ vs ∈ vss, vs ≠ [] ∧ ∀ s ∈ vs, Typed s v

mutual
theorem regex_fits : ∀ (s : Src) (n : Nat), s.fair = true → ∃ p, regex (build s n).1 = .ok p ∧ Fits s p
  | .under, _, _ => by
    rw [build, regex]
    exact ⟨_, rfl, rfl, fun v => ⟨fun _ => .under, fun _ => .anything⟩⟩
  | .word s, _, _ => by rw [build, regex]; exact ⟨_, rfl, word_fits s⟩
  | .str s, _, _ => by
    rw [build, regex]
    refine ⟨_, rfl, rfl, fun v => ⟨fun h => ?_, fun h => ?_⟩⟩
    · cases h with
      | str => exact .str
      | num hl hv hx => simp [Lit.num?] at hl
    · cases h; exact .str
  | .int i, _, _ => by
    rw [build, regex]
    refine ⟨_, rfl, rfl, fun v => ⟨fun h => ?_, fun h => ?_⟩⟩
    · cases h with
      | num hl hv hx => simp only [Lit.num?, Option.some.injEq] at hl; subst hl; exact .int hv
    · cases h with
      | int h => exact .num rfl h (by simp)
  | .flt f, _, _ => by
    rw [build, regex]
    refine ⟨_, rfl, rfl, fun v => ⟨fun h => ?_, fun h => ?_⟩⟩
    · cases h with
      | num hl hv hx => simp only [Lit.num?, Option.some.injEq] at hl; subst hl; exact .flt hv hx
    · cases h with
      | flt h hf => exact .num rfl h hf
  | .regex ok sub, _, _ => by
    rw [build, regex]
    refine ⟨_, rfl, rfl, fun v => ⟨fun h => ?_, fun h => ?_⟩⟩
    · cases h with | regex h => exact .regex h
    · cases h with | regex h => exact .regex h
  | .obj ps dots, n, h => by
    simp only [Src.fair, Bool.and_eq_true, List.all_eq_true, List.mem_map, decide_eq_true_eq, Bool.or_eq_true, Bool.not_eq_true'] at h
    obtain ⟨⟨⟨h1, h2⟩, h3⟩, h4⟩ := h
    rw [build, regex]
    obtain ⟨qs, hr, hq⟩ := regexD_fits ps n h4
    rw [hr]
    refine obj_fits hq (fun kv hm => h1 kv.1 ⟨kv, hm, rfl⟩) h2 ?_
    intro hd
    rcases h3 with h3 | h3
    · rw [hd] at h3; cases h3
    · simpa using h3
  | .arr vs, n, h => by
    obtain ⟨ps, hr, hq⟩ := regexL_fits vs n h
    rw [build, regex, hr]; exact ⟨_, rfl, (arr_fits hq).1⟩
  | .ends vs, n, h => by
    obtain ⟨ps, hr, hq⟩ := regexL_fits vs n h
    rw [build, regex, hr]; exact ⟨_, rfl, (arr_fits hq).2.1⟩
  | .starts vs, n, h => by
    obtain ⟨ps, hr, hq⟩ := regexL_fits vs n h
    rw [build, regex, hr]; exact ⟨_, rfl, (arr_fits hq).2.2⟩
  | .number, _, _ => by rw [build, regex]; exact ⟨_, rfl, number_fits⟩
  | .cmp o x, _, h => by rw [build, regex]; exact ⟨_, rfl, cmp_fits o x (by simpa [Src.fair] using h)⟩
  | .between _ _ _ _, _, h => by simp [Src.fair] at h
  | .approx c e, _, h => by
    rw [build, regex]
    refine ⟨_, rfl, by simpa [Pat.safe, Src.fair] using h, fun v => ⟨fun h => ?_, fun h => ?_⟩⟩
    · cases h with | approx hv h => exact .approx hv h
    · cases h with | approx hv h => exact .approx hv h
  | .all vs, n, h => by
    obtain ⟨ps, hr, hs, hl, hm⟩ := regexL_fits vs n h
    rw [build, regex, regex, hr]
    refine ⟨_, rfl, by simpa [Pat.safe, Pat.isMatcher] using hs, fun v => ?_⟩
    rw [means_group, means_and, ne_nil_iff hl, FitsL.all hl hm v]
    exact ⟨fun h => .all h.1 h.2, fun h => by cases h with | all h1 h2 => exact ⟨h1, h2⟩⟩
  | .alt vss, n, h => by
    obtain ⟨ps, hr, hs, hm⟩ := regexA_fits vss n h
    rw [build, regex, regex, hr]
    refine ⟨_, rfl, by simpa [Pat.safe, Pat.isMatcher] using hs, fun v => ?_⟩
    rw [means_group, means_or, hm v]
    exact ⟨fun ⟨_, h1, h2, h3⟩ => .alt h1 h2 h3, fun h => by cases h with | alt h1 h2 h3 => exact ⟨_, h1, h2, h3⟩⟩
theorem regexD_fits : ∀ (ps : List (Key × Src)) (n : Nat), fairD ps = true → ∃ qs, regexD (buildD ps n).1 = .ok qs ∧ FitsD ps qs
  | [], _, _ => by rw [buildD, regexD]; exact ⟨[], rfl, rfl, by simp, by simp⟩
  | (k, s) :: ps, n, h => by
    simp only [fairD, Bool.and_eq_true] at h
    obtain ⟨p, hr, hp⟩ := regex_fits s n h.1
    obtain ⟨qs, hr', hq⟩ := regexD_fits ps (build s n).2 h.2
    rw [buildD, regexD, hr, hr']
    exact ⟨_, rfl, FitsD.cons hp hq⟩
theorem regexL_fits : ∀ (vs : List Src) (n : Nat), fairL vs = true → ∃ ps, regexL (buildL vs n).1 = .ok ps ∧ FitsL vs ps
  | [], _, _ => by rw [buildL, regexL]; exact ⟨[], rfl, rfl, rfl, by simp⟩
  | s :: vs, n, h => by
    simp only [fairL, Bool.and_eq_true] at h
    obtain ⟨p, hr, hp⟩ := regex_fits s n h.1
    obtain ⟨qs, hr', hq⟩ := regexL_fits vs (build s n).2 h.2
    rw [buildL, regexL, hr, hr']
    exact ⟨_, rfl, FitsL.cons hp hq⟩
theorem regexA_fits : ∀ (vss : List (List Src)) (n : Nat), fairA vss = true → ∃ ps, regexL (buildA vss n).1 = .ok ps ∧ FitsA vss ps
  | [], _, _ => by rw [buildA, regexL]; exact ⟨[], rfl, rfl, by simp⟩
  | vs :: vss, n, h => by
    simp only [fairA, Bool.and_eq_true] at h
    obtain ⟨ps, hr, hs, hl, hm⟩ := regexL_fits vs n h.1
    obtain ⟨qs, hr', hs', hm'⟩ := regexA_fits vss (buildL vs n).2 h.2
    rw [buildA, regexL, regex, hr, hr']
    refine ⟨.and ps :: qs, rfl, by simp [safeL, Pat.safe, hs, hs'], fun v => ?_⟩
    simp only [List.mem_cons, exists_eq_or_imp, means_and, ne_nil_iff hl, FitsL.all hl hm v, hm' v]
end

/-! ## Theorems -/

/-- A typed pattern is turned into one that is compared without an exception, and that matches what is meant.  Missing: ranges with two bounds, keys that
are constants, keys that are given twice, and the key `self` together with `...`, see below. -/
theorem pattern_means_partial {s : Src} (h : s.fair = true) : ∃ p, regex (parse s) = .ok p ∧
    ∀ v, NoNan v → (∃ o, getmatch p v = .ok o) ∧ ((∃ m, getmatch p v = .ok (some m)) ↔ Typed s v) := by
  obtain ⟨p, h1, h2, h3⟩ := regex_fits s 1 h
  refine ⟨p, h1, fun v hv => ⟨?_, (getmatch_means h2 hv).trans (h3 v)⟩⟩
  obtain ⟨o, ho, _⟩ := getmatch_says p v h2 hv
  exact ⟨o, ho⟩

/-- The pattern `{type: (record | enum), count: # >= 2, ...}` is such a pattern, and there are objects that it matches. -/
example : (Src.obj [(.word "type", .alt [[.word "record"], [.str "enum"]]), (.str "count", .cmp .ge (.fin 2))] true).fair = true ∧
    Typed (.obj [(.word "type", .alt [[.word "record"], [.str "enum"]]), (.str "count", .cmp .ge (.fin 2))] true)
      (.dict [("count", .int 3), ("doc", .null), ("type", .str "enum")]) := by
  refine ⟨by decide +kernel, .obj ?_ (by simp) ?_⟩
  · intro k p hp _
    simp only [List.mem_cons, Prod.mk.injEq, List.not_mem_nil, or_false] at hp
    rcases hp with ⟨rfl, rfl⟩ | ⟨rfl, rfl⟩ <;> simp [Key.written, PyDict.keys]
  · intro k p hp _ v hv
    simp only [List.mem_cons, Prod.mk.injEq, List.not_mem_nil, or_false] at hp
    rcases hp with ⟨rfl, rfl⟩ | ⟨rfl, rfl⟩
    · simp [PyDict.get?, Key.written] at hv; subst hv
      exact .alt (vs := [.str "enum"]) (by simp) (by simp) (by simpa using .str)
    · simp [PyDict.get?, Key.written] at hv; subst hv
      exact .cmp (x := .fin 3) rfl (.fin (by norm_num))

/-! ## What is not taken as it is written -/

/-- A range with two bounds is compiled to bounds of which the first is strict if it is written as not strict, and not strict if it is written as strict. -/
theorem between_pattern (x y : Flt) (a b : Bool) : regex (parse (.between x a b y)) =
    .ok (.and [if a then .gt x else .ge x, if b then .le y else .lt y]) := by
  cases a <;> cases b <;> simp [parse, build, regex, regexL, rangePat, reverse, upper]

/-- `x < # < y` matches `x`, and `x <= # <= y` does not. -/
theorem between_violation (x y : Rat) (h : x < y) (b : Bool) :
    (∃ p m, regex (parse (.between (.fin x) false b (.fin y))) = .ok p ∧ getmatch p (.flt (.fin x)) = .ok (some m)) ∧
    ¬ Typed (.between (.fin x) false b (.fin y)) (.flt (.fin x)) ∧
    (∃ p, regex (parse (.between (.fin x) true b (.fin y))) = .ok p ∧ getmatch p (.flt (.fin x)) = .ok none) ∧
    Typed (.between (.fin x) true b (.fin y)) (.flt (.fin x)) := by
  have hn : ¬ y ≤ x := not_le.2 h
  refine ⟨⟨_, ⟨.flt (.fin x), .flt (.fin x), []⟩, between_pattern _ _ _ _, ?_⟩, ?_, ⟨_, between_pattern _ _ _ _, ?_⟩, ?_⟩
  · cases b <;> simp [getmatch, matchAnd, num?, same, flt, fle, h.le, hn]
  · intro hT
    cases hT with
    | between hv h1 h2 =>
      simp only [num?, Option.some.injEq] at hv
      subst hv
      exact h1.2 rfl
  · simp [getmatch, matchAnd, num?, same, fle]
  · refine .between (x := .fin x) rfl (.fin le_rfl) ?_
    cases b
    · exact ⟨.fin h.le, by simpa using h.ne⟩
    · exact .fin h.le

/-- Away from the first bound, such a range matches what is meant. -/
theorem between_means_partial (x y z : Flt) (a b : Bool) (hx : x ≠ .nan) (hy : y ≠ .nan) (v : Val) (hv : num? v = some z) (hz : z ≠ .nan) (hzx : z ≠ x) :
    ∃ p, regex (parse (.between x a b y)) = .ok p ∧ ((∃ m, getmatch p v = .ok (some m)) ↔ Typed (.between x a b y) v) := by
  refine ⟨_, between_pattern x y a b, ?_⟩
  have hn : NoNan v := by
    intro js hs
    cases hs with
    | here => simp only [num?, Option.some.injEq] at hv; exact hz hv.symm
    | key hm h => simp [num?] at hv
    | pos hm h => simp [num?] at hv
  rw [getmatch_means (by cases a <;> cases b <;> simp [Pat.safe, safeL, hx, hy]) hn, means_and]
  simp only [List.mem_cons, List.not_mem_nil, or_false, forall_eq_or_imp, forall_eq, ne_eq, reduceCtorEq, not_false_eq_true, true_and]
  have h1 : Means (if a then Pat.gt x else .ge x) v ↔ FLe x z := by
    cases a
    · exact ⟨fun h => by cases h with | ge h1 h2 => rw [hv] at h1; cases h1; exact h2, fun h => .ge hv h⟩
    · exact ⟨fun h => by cases h with | gt h1 h2 => rw [hv] at h1; cases h1; exact h2.1, fun h => .gt hv ⟨h, hzx⟩⟩
  have h2 : Means (if b then Pat.le y else .lt y) v ↔ if b then Cmp.le.Holds z y else Cmp.lt.Holds z y := by
    cases b
    · exact ⟨fun h => by cases h with | lt h1 h2 => rw [hv] at h1; cases h1; exact h2, fun h => .lt hv h⟩
    · exact ⟨fun h => by cases h with | le h1 h2 => rw [hv] at h1; cases h1; exact h2, fun h => .le hv h⟩
  rw [h1, h2]
  constructor
  · intro ⟨h3, h4⟩
    refine .between hv ?_ h4
    cases a
    · exact ⟨h3, fun e => hzx e.symm⟩
    · exact h3
  · intro h
    cases h with
    | between hv' h3 h4 =>
      rw [hv] at hv'; cases hv'
      refine ⟨?_, h4⟩
      cases a
      · exact h3.1
      · exact h3

/-- A key that is written as a constant is not taken as a key: without `...` nothing is matched, and with it the pattern is refused, as it is with the
key `self`. -/
theorem key_violation (p : Src) (hp : p.fair = true) (v : Val) :
    (∃ q, regex (parse (.obj [(.word "true", p)] false)) = .ok q ∧ getmatch q v = .ok none) ∧
    regex (parse (.obj [(.word "null", p)] true)) = .error typeErr ∧ regex (parse (.obj [(.str "self", p)] true)) = .error typeErr := by
  obtain ⟨q, hq, _⟩ := regex_fits p 1 hp
  have h : ∀ k, regexD (buildD [(k, p)] 1).1 = .ok [(k, q)] := by intro k; simp [buildD, regexD, hq]
  refine ⟨⟨.or [], ?_, ?_⟩, ?_, ?_⟩
  · rw [parse, build, regex, h]; rfl
  · rw [getmatch, matchOr]
  · rw [parse, build, regex, h]; rfl
  · rw [parse, build, regex, h]; rfl

/-- Of a key that is given twice only the last pattern is used. -/
theorem twice_violation (k : String) (p q : Src) (hp : p.fair = true) (hq : q.fair = true) :
    ∃ a b, regex (build p 1).1 = .ok a ∧ regex (build q (build p 1).2).1 = .ok b ∧
      regex (parse (.obj [(.str k, p), (.str k, q)] false)) = .ok (.dict [(k, b)]) := by
  obtain ⟨a, ha, _⟩ := regex_fits p 1 hp
  obtain ⟨b, hb, _⟩ := regex_fits q (build p 1).2 hq
  refine ⟨a, b, ha, hb, ?_⟩
  rw [parse, build, regex]
  have h : regexD (buildD [(.str k, p), (.str k, q)] 1).1 = .ok [(.str k, a), (.str k, b)] := by simp [buildD, regexD, ha, hb]
  rw [h]
  simp [objPat, keyed, Key.text?, PyDict.set]

/-- `true` is compared as the number 1, and a truth value is taken for a number. -/
theorem truth_violation : Typed (.word "true") (.int 1) ∧ Typed .number (.bool true) ∧ Typed (.cmp .lt (.fin 3)) (.bool false) :=
  ⟨.true rfl, .number rfl, .cmp (x := .fin 0) (by simp [num?]) ⟨.fin (by norm_num), by simp⟩⟩

/-! ## Numbers of groups -/

mutual
/-- The numbers of the groups, from the left in the order of the closing parentheses. -/
def Ast.numbers : Ast → List Nat
  | .obj ps _ => numbersD ps
  | .arr vs _ _ => numbersL vs
  | .group a n => a.numbers ++ [n]
  | .orChain vs => numbersL vs
  | .andChain vs => numbersL vs
  | _ => []
@[inherit_doc Ast.numbers] def numbersD : List (Key × Ast) → List Nat
  | [] => []
  | (_, a) :: ps => a.numbers ++ numbersD ps
@[inherit_doc Ast.numbers] def numbersL : List Ast → List Nat
  | [] => []
  | a :: as => a.numbers ++ numbersL as
end

mutual
/-- How many parentheses are typed. -/
def Src.groups : Src → Nat
  | .obj ps _ => groupsD ps
  | .arr vs => groupsL vs
  | .ends vs => groupsL vs
  | .starts vs => groupsL vs
  | .all vs => groupsL vs + 1
  | .alt vss => groupsA vss + 1
  | _ => 0
@[inherit_doc Src.groups] def groupsD : List (Key × Src) → Nat
  | [] => 0
  | (_, a) :: ps => a.groups + groupsD ps
@[inherit_doc Src.groups] def groupsL : List Src → Nat
  | [] => 0
  | a :: as => a.groups + groupsL as
@[inherit_doc Src.groups] def groupsA : List (List Src) → Nat
  | [] => 0
  | as :: ass => groupsL as + groupsA ass
end

mutual
theorem build_numbers : ∀ (s : Src) (n : Nat), (build s n).1.numbers = List.range' n s.groups ∧ (build s n).2 = n + s.groups
  | .under, n => by simp [build, Ast.numbers, Src.groups]
  | .word _, n => by simp [build, Ast.numbers, Src.groups]
  | .str _, n => by simp [build, Ast.numbers, Src.groups]
  | .int _, n => by simp [build, Ast.numbers, Src.groups]
  | .flt _, n => by simp [build, Ast.numbers, Src.groups]
  | .regex _ _, n => by simp [build, Ast.numbers, Src.groups]
  | .number, n => by simp [build, Ast.numbers, Src.groups]
  | .cmp _ _, n => by simp [build, Ast.numbers, Src.groups]
  | .between _ _ _ _, n => by simp [build, Ast.numbers, numbersL, Src.groups]
  | .approx _ _, n => by simp [build, Ast.numbers, Src.groups]
  | .obj ps _, n => by rw [build, Ast.numbers, Src.groups]; exact buildD_numbers ps n
  | .arr vs, n => by rw [build, Ast.numbers, Src.groups]; exact buildL_numbers vs n
  | .ends vs, n => by rw [build, Ast.numbers, Src.groups]; exact buildL_numbers vs n
  | .starts vs, n => by rw [build, Ast.numbers, Src.groups]; exact buildL_numbers vs n
  | .all vs, n => by
    rw [build, Ast.numbers, Ast.numbers, Src.groups, (buildL_numbers vs n).1, (buildL_numbers vs n).2]
    exact ⟨by rw [List.range'_concat]; simp, by omega⟩
  | .alt vss, n => by
    rw [build, Ast.numbers, Ast.numbers, Src.groups, (buildA_numbers vss n).1, (buildA_numbers vss n).2]
    exact ⟨by rw [List.range'_concat]; simp, by omega⟩
theorem buildD_numbers : ∀ (ps : List (Key × Src)) (n : Nat), numbersD (buildD ps n).1 = List.range' n (groupsD ps) ∧ (buildD ps n).2 = n + groupsD ps
  | [], n => by simp [buildD, numbersD, groupsD]
  | (_, s) :: ps, n => by
    rw [buildD, numbersD, groupsD, (buildD_numbers ps _).1, (buildD_numbers ps _).2, (build_numbers s n).1, (build_numbers s n).2]
    exact ⟨by rw [List.range'_append_1], by omega⟩
theorem buildL_numbers : ∀ (vs : List Src) (n : Nat), numbersL (buildL vs n).1 = List.range' n (groupsL vs) ∧ (buildL vs n).2 = n + groupsL vs
  | [], n => by simp [buildL, numbersL, groupsL]
  | s :: vs, n => by
    rw [buildL, numbersL, groupsL, (buildL_numbers vs _).1, (buildL_numbers vs _).2, (build_numbers s n).1, (build_numbers s n).2]
    exact ⟨by rw [List.range'_append_1], by omega⟩
theorem buildA_numbers : ∀ (vss : List (List Src)) (n : Nat), numbersL (buildA vss n).1 = List.range' n (groupsA vss) ∧ (buildA vss n).2 = n + groupsA vss
  | [], n => by simp [buildA, numbersL, groupsA]
  | vs :: vss, n => by
    rw [buildA, numbersL, Ast.numbers, groupsA, (buildA_numbers vss _).1, (buildA_numbers vss _).2, (buildL_numbers vs n).1, (buildL_numbers vs n).2]
    exact ⟨by rw [List.range'_append_1], by omega⟩
end

/-- The groups of a pattern have the numbers 1, 2, … in the order of their closing parentheses. -/
theorem groups_numbered (s : Src) : (parse s).numbers = List.range' 1 s.groups := (build_numbers s 1).1

/-- An outer group has a greater number than the ones in it, so that `((_) & #)` has the number 1 inside. -/
example : parse (.all [.all [.under], .number]) = .group (.andChain [.group (.andChain [.under]) 1, .range none]) 2 := by
  simp [parse, build, buildL]

end Verif.Inspector
