import Verif.Inspector.Changed
/-! # The command `json change` of the inspector: replacements, and how it ends early (C101) -/

namespace Verif.Inspector
open Avro Producer

/-! ## Specification -/

mutual
/-- `Writes g s v`: the replacement `s` is written for `v`, where `(n)` stands for the group `n` of `g`. -/
inductive Writes (g : PyDict String Val) : Src → Val → Prop where
  | null : Writes g (.word "null") .null
  | true : Writes g (.word "true") (.bool true)
  | false : Writes g (.word "false") (.bool false)
  | word {s : String} (h : s ∉ ["null", "true", "false"]) : Writes g (.word s) (.str s)
  | str (s : String) : Writes g (.str s) (.str s)
  | int (i : Int) : Writes g (.int i) (.int i)
  | flt (f : Flt) : Writes g (.flt f) (.flt f)
  | obj {ps : List (Key × Src)} {d : List (String × Val)} (h : WritesD g ps d) : Writes g (.obj ps false) (.dict d)
  | arr {vs : List Src} {xs : List Val} (h : WritesL g vs xs) : Writes g (.arr vs) (.arr xs)
  | ref {i : Int} {v : Val} (h : PyDict.get? g (toString i) = some v) : Writes g (.all [.int i]) v
@[inherit_doc Writes] inductive WritesD (g : PyDict String Val) : List (Key × Src) → List (String × Val) → Prop where
  | nil : WritesD g [] []
  | str {s : String} {p : Src} {v : Val} {ps : List (Key × Src)} {d : List (String × Val)} (h : Writes g p v) (hs : WritesD g ps d) :
      WritesD g ((.str s, p) :: ps) ((s, v) :: d)
  | word {s : String} {p : Src} {v : Val} {ps : List (Key × Src)} {d : List (String × Val)} (hw : s ∉ ["null", "true", "false"]) (h : Writes g p v)
      (hs : WritesD g ps d) : WritesD g ((.word s, p) :: ps) ((s, v) :: d)
@[inherit_doc Writes] inductive WritesL (g : PyDict String Val) : List Src → List Val → Prop where
  | nil : WritesL g [] []
  | cons {s : Src} {v : Val} {vs : List Src} {xs : List Val} (h : Writes g s v) (hs : WritesL g vs xs) : WritesL g (s :: vs) (v :: xs)
end

mutual
/-- No key is given twice in an object. -/
def Src.single : Src → Bool
  | .obj ps _ => decide ((ps.map (Key.written ·.1)).Nodup) && singleD ps
  | .arr vs => singleL vs
  | _ => true
@[inherit_doc Src.single] def singleD : List (Key × Src) → Bool
  | [] => true
  | (_, v) :: ps => v.single && singleD ps
@[inherit_doc Src.single] def singleL : List Src → Bool
  | [] => true
  | v :: vs => v.single && singleL vs
end

/-- `Halts p r s v bs v'`: `v` has become `v'` when, after the matches that `bs` decides, the next match has been found and not been replaced. -/
inductive Halts (p : Pat) (r : Rep) : Stage → Val → List Bool → Val → Prop where
  | here {s : Stage} {v w x : Val} {bs : List Bool} {m : Match} (h : Edits p r .parts v bs w) (hm : getmatch p w = .ok (some m)) (hx : replace m.groups r = .ok x) :
      Halts p r s v bs w
  | dict {s : Stage} {d d' : List (String × Val)} {es : List Entry} {k : String} {v v' : Val} {bs : List Bool} {fs : List (String × Val)}
      (ho : (es.map (·.key) ++ k :: fs.map (·.1)).Pairwise (· < ·)) (hk : PyDict.keys d' = PyDict.keys d)
      (hd : ∀ j w, (j, w) ∈ d ↔ (∃ e ∈ es, e.key = j ∧ e.val = w) ∨ (k = j ∧ v = w) ∨ (j, w) ∈ fs)
      (hd' : ∀ j w, (j, w) ∈ d' ↔ (∃ e ∈ es, e.key = j ∧ e.new = w) ∨ (k = j ∧ v' = w) ∨ (j, w) ∈ fs)
      (h : ∀ e ∈ es, Edits p r .part e.val e.bs e.new) (hh : Halts p r .part v bs v') : Halts p r s (.dict d) (es.flatMap (·.bs) ++ bs) (.dict d')
  | arr {s : Stage} {es : List (Val × List Bool × Val)} {v v' : Val} {bs : List Bool} {ys : List Val} (h : ∀ e ∈ es, Edits p r .part e.1 e.2.1 e.2.2)
      (hh : Halts p r .part v bs v') : Halts p r s (.arr (es.map (·.1) ++ v :: ys)) (es.flatMap (·.2.1) ++ bs) (.arr (es.map (·.2.2) ++ v' :: ys))

/-- The next answer, when there is a question. -/
inductive Says : List Answer → Answer → Prop where
  | now {a : Answer} {as : List Answer} (h : a ≠ .other) : Says (a :: as) a
  | again {a : Answer} {as : List Answer} (h : Says as a) : Says (.other :: as) a

/-! ## Replacements -/

theorem text_iff {k : Key} {s : String} : k.text? = some s ↔ k = .str s ∨ (k = .word s ∧ s ∉ ["null", "true", "false"]) := by
  cases k with
  | str t => simp [Key.text?]
  | word t =>
    simp only [Key.text?]
    by_cases ht : t ∈ ["null", "true", "false"]
    · rw [if_pos ht]
      constructor
      · intro h; cases h
      · rintro (h | ⟨h, h'⟩)
        · cases h
        · cases h; exact absurd ht h'
    · rw [if_neg ht]
      constructor
      · intro h; cases h; exact .inr ⟨rfl, ht⟩
      · rintro (h | ⟨h, _⟩) <;> cases h; rfl

theorem keyed_some {α : Type} : ∀ (ps : List (Key × α)) (d d' : PyDict String α), keyed ps d = some d' → ∀ kv ∈ ps, (Key.text? kv.1).isSome = true
  | [], _, _, _ => by simp
  | (k, v) :: ps, d, d', h => by
    rw [keyed] at h
    cases hk : k.text? with
    | none => rw [hk] at h; cases h
    | some s =>
      rw [hk] at h
      intro kv hm
      rcases List.mem_cons.1 hm with rfl | hm
      · simp [hk]
      · exact keyed_some ps _ d' h kv hm

theorem replaceD_keys {g : PyDict String Val} : ∀ {ps : List (String × Rep)} {d : List (String × Val)}, replaceD g ps = .ok d → d.map (·.1) = ps.map (·.1)
  | [], _, h => by rw [replaceD] at h; cases h; rfl
  | (k, r) :: ps, d, h => by
    rw [replaceD] at h
    split at h
    · cases h
    · split at h
      · cases h
      · next hd => cases h; simp [replaceD_keys hd]

theorem replacementD_keys : ∀ {ps : List (Key × Ast)} {qs : List (Key × Rep)}, replacementD ps = .ok qs → qs.map (·.1) = ps.map (·.1)
  | [], _, h => by rw [replacementD] at h; cases h; rfl
  | (k, a) :: ps, qs, h => by
    rw [replacementD] at h
    split at h
    · cases h
    · split at h
      · cases h
      · next hd => cases h; simp [replacementD_keys hd]

theorem buildD_keys : ∀ (ps : List (Key × Src)) (n : Nat), (buildD ps n).1.map (·.1) = ps.map (·.1)
  | [], n => by rw [buildD]; rfl
  | (k, v) :: ps, n => by rw [buildD]; simp [buildD_keys ps]

theorem writesD_keys {g : PyDict String Val} : ∀ {ps : List (Key × Src)} {d : List (String × Val)}, WritesD g ps d → (∀ kv ∈ ps, (Key.text? kv.1).isSome = true)
  | [], _, _ => by simp
  | _ :: ps, _, .str h hs => by
    intro kv hm
    rcases List.mem_cons.1 hm with rfl | hm
    · rfl
    · exact writesD_keys hs kv hm
  | _ :: ps, _, .word hw h hs => by
    intro kv hm
    rcases List.mem_cons.1 hm with rfl | hm
    · simp only [Key.text?, if_neg hw]; rfl
    · exact writesD_keys hs kv hm

theorem writes_word {g : PyDict String Val} {s : String} {v : Val} : Writes g (.word s) v ↔ v = wordVal s := by
  constructor
  · intro h
    generalize hs : Src.word s = t at h
    cases h <;> cases hs <;> simp_all [wordVal]
  · rintro rfl
    by_cases hs : s ∈ ["null", "true", "false"]
    · simp only [List.mem_cons, List.not_mem_nil, or_false] at hs
      rcases hs with rfl | rfl | rfl
      · exact .null
      · exact .true
      · exact .false
    · have := hs
      simp only [List.mem_cons, List.not_mem_nil, or_false, not_or] at hs
      simp only [wordVal, if_neg hs.1, if_neg hs.2.1, if_neg hs.2.2]
      exact .word this

theorem ref_iff {g : PyDict String Val} {vs : List Src} {n m : Nat} {v : Val} : (∃ r, replacement (.group (.andChain (buildL vs n).1) m) = .ok r ∧ replace g r = .ok v) ↔
    Writes g (.all vs) v := by
  constructor
  · rintro ⟨r, h1, h2⟩
    rw [replacement] at h1
    match vs, h1 with
    | [.int i], h1 =>
      simp only [buildL, build, refOf, Except.ok.injEq] at h1
      subst h1
      rw [replace] at h2
      cases hg : PyDict.get? g (toString i) with
      | none => rw [hg] at h2; cases h2
      | some w => rw [hg] at h2; cases h2; exact .ref hg
    | [], h1 => simp [buildL, refOf] at h1
    | a :: b :: c, h1 => simp [buildL, refOf] at h1
    | [.under], h1 | [.word _], h1 | [.str _], h1 | [.flt _], h1 | [.regex _ _], h1 | [.obj _ _], h1 | [.arr _], h1 | [.ends _], h1 | [.starts _], h1
    | [.number], h1 | [.cmp _ _], h1 | [.between _ _ _ _], h1 | [.approx _ _], h1 | [.all _], h1 | [.alt _], h1 => simp [buildL, build, refOf] at h1
  · intro h
    generalize hs : Src.all vs = t at h
    cases h <;> cases hs
    next i h => exact ⟨.ref (toString i), by simp [replacement, buildL, build, refOf], by rw [replace, h]⟩

mutual
theorem writes_iff (g : PyDict String Val) : ∀ (s : Src) (n : Nat) (v : Val), s.single = true →
    ((∃ r, replacement (build s n).1 = .ok r ∧ replace g r = .ok v) ↔ Writes g s v)
  | .word s, n, v, _ => by rw [writes_word]; simp [build, replacement, replace, eq_comm]
  | .str s, n, v, _ => by
    constructor
    · rintro ⟨r, h1, h2⟩; simp only [build, replacement, Except.ok.injEq] at h1; subst h1; rw [replace] at h2; cases h2; exact .str s
    · intro h; cases h; exact ⟨_, by rw [build, replacement], by rw [replace]⟩
  | .int i, n, v, _ => by
    constructor
    · rintro ⟨r, h1, h2⟩; simp only [build, replacement, Except.ok.injEq] at h1; subst h1; rw [replace] at h2; cases h2; exact .int i
    · intro h; cases h; exact ⟨_, by rw [build, replacement], by rw [replace]⟩
  | .flt f, n, v, _ => by
    constructor
    · rintro ⟨r, h1, h2⟩; simp only [build, replacement, Except.ok.injEq] at h1; subst h1; rw [replace] at h2; cases h2; exact .flt f
    · intro h; cases h; exact ⟨_, by rw [build, replacement], by rw [replace]⟩
  | .obj ps dots, n, v, hs => by
    rw [Src.single, Bool.and_eq_true, decide_eq_true_eq] at hs
    have ih := writesD_iff g ps n
    cases dots with
    | true =>
      constructor
      · rintro ⟨r, h1, _⟩; simp [build, replacement] at h1
      · intro h; cases h
    | false =>
      constructor
      · rintro ⟨r, h1, h2⟩
        rw [build, replacement] at h1
        simp only [Bool.false_eq_true, if_false] at h1
        cases hq : replacementD (buildD ps n).1 with
        | error e => rw [hq] at h1; cases h1
        | ok qs =>
          simp only [hq] at h1
          have hkeys : qs.map (·.1) = ps.map (·.1) := (replacementD_keys hq).trans (buildD_keys ps n)
          cases hd : keyed qs [] with
          | none => rw [hd] at h1; cases h1
          | some d =>
            simp only [hd, Except.ok.injEq] at h1
            subst h1
            have htx := keyed_some _ _ _ hd
            rw [keyed_spec qs [] htx ?_, List.nil_append] at hd
            · cases hd
              rw [replace] at h2
              split at h2
              · cases h2
              · next d' hd' =>
                cases h2
                exact .obj ((ih d' hs.2).1 ⟨qs, hq, htx, hd'⟩)
            · have : qs.map (Key.written ·.1) = ps.map (Key.written ·.1) := by
                have := congrArg (List.map Key.written) hkeys
                simp only [List.map_map] at this
                exact this
              simpa [PyDict.keys, this] using hs.1
      · intro h
        cases h with
        | obj h =>
          obtain ⟨qs, hq, htx, hd'⟩ := (ih _ hs.2).2 h
          have hkeys : qs.map (·.1) = ps.map (·.1) := (replacementD_keys hq).trans (buildD_keys ps n)
          have hn : (qs.map (Key.written ·.1)).Nodup := by
            have := congrArg (List.map Key.written) hkeys
            simp only [List.map_map] at this
            have h3 : qs.map (Key.written ·.1) = ps.map (Key.written ·.1) := this
            rw [h3]; exact hs.1
          refine ⟨.obj (qs.map fun kv => (Key.written kv.1, kv.2)), ?_, ?_⟩
          · rw [build, replacement]
            simp only [Bool.false_eq_true, if_false, hq]
            rw [keyed_spec qs [] htx (by simpa [PyDict.keys] using hn)]
            rfl
          · rw [replace, hd']
  | .arr vs, n, v, hs => by
    rw [Src.single] at hs
    have ih := writesL_iff g vs n
    constructor
    · rintro ⟨r, h1, h2⟩
      rw [build, replacement] at h1
      simp only [Bool.or_self, Bool.false_eq_true, if_false] at h1
      split at h1
      · cases h1
      · next rs hr =>
        cases h1
        rw [replace] at h2
        split at h2
        · cases h2
        · next xs hx => cases h2; exact .arr ((ih xs hs).1 ⟨rs, hr, hx⟩)
    · intro h
      cases h with
      | arr h =>
        obtain ⟨rs, hr, hx⟩ := (ih _ hs).2 h
        exact ⟨.arr rs, by rw [build, replacement]; simp [hr], by rw [replace, hx]⟩
  | .all vs, n, v, _ => by rw [build]; exact ref_iff
  | .under, _, _, _ | .regex _ _, _, _, _ | .ends _, _, _, _ | .starts _, _, _, _ | .number, _, _, _ | .cmp _ _, _, _, _ | .between _ _ _ _, _, _, _
  | .approx _ _, _, _, _ | .alt _, _, _, _ => by
    constructor
    · rintro ⟨r, h1, _⟩; simp [build, replacement, refOf] at h1
    · intro h; cases h
theorem writesD_iff (g : PyDict String Val) : ∀ (ps : List (Key × Src)) (n : Nat) (d : List (String × Val)), singleD ps = true →
    ((∃ qs, replacementD (buildD ps n).1 = .ok qs ∧ (∀ kv ∈ qs, (Key.text? kv.1).isSome = true) ∧
      replaceD g (qs.map fun kv => (Key.written kv.1, kv.2)) = .ok d) ↔ WritesD g ps d)
  | [], n, d, _ => by
    constructor
    · rintro ⟨qs, h1, _, h2⟩
      rw [buildD, replacementD] at h1; cases h1
      rw [List.map_nil, replaceD] at h2; cases h2; exact .nil
    · intro h; cases h
      exact ⟨[], by rw [buildD, replacementD], by simp, by rw [List.map_nil, replaceD]⟩
  | (k, s) :: ps, n, d, hs => by
    rw [singleD, Bool.and_eq_true] at hs
    have ihv := fun v => writes_iff g s n v hs.1
    have ih := fun d => writesD_iff g ps (build s n).2 d hs.2
    constructor
    · rintro ⟨qs, h1, ht, h2⟩
      rw [buildD, replacementD] at h1
      split at h1
      · cases h1
      · next r hr =>
        split at h1
        · cases h1
        · next qs' hq =>
          cases h1
          rw [List.map_cons, replaceD] at h2
          split at h2
          · cases h2
          · next v hv =>
            split at h2
            · cases h2
            · next d' hd =>
              cases h2
              have hw := (ihv v).1 ⟨r, hr, hv⟩
              have hws := (ih d').1 ⟨qs', hq, fun kv hm => ht kv (List.mem_cons_of_mem _ hm), hd⟩
              have htk := ht (k, r) List.mem_cons_self
              cases k with
              | str t => exact .str hw hws
              | word t =>
                refine .word ?_ hw hws
                intro hm
                simp only [Key.text?, if_pos hm] at htk
                cases htk
    · intro h
      have main : ∀ v d', Writes g s v → WritesD g ps d' → (Key.text? k).isSome = true → ∃ qs, replacementD (buildD ((k, s) :: ps) n).1 = .ok qs ∧
          (∀ kv ∈ qs, (Key.text? kv.1).isSome = true) ∧ replaceD g (qs.map fun kv => (Key.written kv.1, kv.2)) = .ok ((k.written, v) :: d') := by
        intro v d' hw hws htk
        obtain ⟨r, hr, hv⟩ := (ihv v).2 hw
        obtain ⟨qs, hq, ht, hd⟩ := (ih d').2 hws
        refine ⟨(k, r) :: qs, by rw [buildD, replacementD]; simp only [hr, hq], ?_, ?_⟩
        · intro kv hm
          rcases List.mem_cons.1 hm with rfl | hm
          · exact htk
          · exact ht kv hm
        · rw [List.map_cons, replaceD]; simp only [hv, hd]
      cases h with
      | str h hs => exact main _ _ h hs rfl
      | word hw h hs => exact main _ _ h hs (by simp only [Key.text?, if_neg hw]; rfl)
theorem writesL_iff (g : PyDict String Val) : ∀ (vs : List Src) (n : Nat) (xs : List Val), singleL vs = true →
    ((∃ rs, replacementL (buildL vs n).1 = .ok rs ∧ replaceL g rs = .ok xs) ↔ WritesL g vs xs)
  | [], n, xs, _ => by
    constructor
    · rintro ⟨rs, h1, h2⟩
      rw [buildL, replacementL] at h1; cases h1
      rw [replaceL] at h2; cases h2; exact .nil
    · intro h; cases h
      exact ⟨[], by rw [buildL, replacementL], by rw [replaceL]⟩
  | s :: vs, n, xs, hs => by
    rw [singleL, Bool.and_eq_true] at hs
    have ihv := fun v => writes_iff g s n v hs.1
    have ih := fun d => writesL_iff g vs (build s n).2 d hs.2
    constructor
    · rintro ⟨rs, h1, h2⟩
      rw [buildL, replacementL] at h1
      split at h1
      · cases h1
      · next r hr =>
        split at h1
        · cases h1
        · next rs' hrs =>
          cases h1
          rw [replaceL] at h2
          split at h2
          · cases h2
          · next v hv =>
            split at h2
            · cases h2
            · next xs' hx => cases h2; exact .cons ((ihv v).1 ⟨r, hr, hv⟩) ((ih xs').1 ⟨rs', hrs, hx⟩)
    · intro h
      cases h with
      | cons h hs =>
        obtain ⟨r, hr, hv⟩ := (ihv _).2 h
        obtain ⟨rs, hrs, hx⟩ := (ih _).2 hs
        exact ⟨r :: rs, by rw [buildL, replacementL]; simp only [hr, hrs], by rw [replaceL]; simp only [hv, hx]⟩
end

/-- What is put in the place of a match is what is written, with the groups of the match; anything that is not written so is refused.  A key that is given
twice is left out: the last value is used. -/
theorem replaced_partial {s : Src} (h : s.single = true) (g : PyDict String Val) (v : Val) :
    (∃ r, replacement (parse s) = .ok r ∧ replace g r = .ok v) ↔ Writes g s v := writes_iff g s 1 v h

/-- `{"kind": (1), name: [true, x]}`. -/
example (g : PyDict String Val) (v : Val) (h : PyDict.get? g (toString (1 : Int)) = some v) :
    (Src.obj [(.str "kind", .all [.int 1]), (.word "name", .arr [.word "true", .word "x"])] false).single = true ∧
    Writes g (.obj [(.str "kind", .all [.int 1]), (.word "name", .arr [.word "true", .word "x"])] false)
      (.dict [("kind", v), ("name", .arr [.bool true, .str "x"])]) :=
  ⟨by decide +kernel, .obj (.str (.ref h) (.word (by decide) (.arr (.cons .true (.cons (.word (by decide)) .nil))) .nil))⟩

/-! ## Ends -/

/-- How the loop ends with an answer that is not about the match alone. -/
def ended (a : Option Answer) (v : Val) (o : Out Val) : Prop :=
  (a = some .stop → o = .stopped v) ∧ (a = some .revert → o = .reverted) ∧ (a = none → o = .failed (.py "EOFError"))

theorem says_next {as : List Answer} {a : Answer} (h : Says as a) : ∃ bs, next as = some (a, bs) := by
  induction h with
  | now h => rename_i a as; cases a <;> first | exact absurd rfl h | exact ⟨as, rfl⟩
  | again _ ih => obtain ⟨bs, h⟩ := ih; exact ⟨bs, by rw [next]; exact h⟩

theorem next_none {as : List Answer} (h : ∀ a ∈ as, a = .other) : next as = none := by
  induction as with
  | nil => rfl
  | cons a as ih => rw [h a List.mem_cons_self, next]; exact ih fun b hb => h b (List.mem_cons_of_mem _ hb)

theorem respond_ended {whole : Bool} {w x : Val} {as : List Answer} : ended ((next as).map (·.1)) w (respond whole w x ⟨as, true⟩) := by
  unfold respond
  simp only [if_true]
  cases h : next as with
  | none => exact ⟨by simp, by simp, fun _ => rfl⟩
  | some ab =>
    obtain ⟨a, bs⟩ := ab
    cases a <;> refine ⟨?_, ?_, ?_⟩ <;> intro h <;> first | rfl | cases h

theorem eachKey_append : ∀ (l m : List (String × (Talk → Out Val))) (D D' : List (String × Val)) (t t' : Talk), eachKey l D t = .going D' t' →
    eachKey (l ++ m) D t = eachKey m D' t'
  | [], m, D, D', t, t', h => by rw [eachKey] at h; cases h; rfl
  | (k, f) :: l, m, D, D', t, t', h => by
    rw [eachKey] at h
    rw [List.cons_append, eachKey]
    cases hf : f t with
    | failed e => rw [hf] at h; cases h
    | reverted => rw [hf] at h; cases h
    | stopped v => rw [hf] at h; cases h
    | going v u => rw [hf] at h; exact eachKey_append l m _ D' u t' h

theorem walkL_append {p : Pat} {r : Rep} {x x' : Val} {ys : List Val} {a : Option Answer} : ∀ (xs xs' : List Val) (t t' : Talk), walkL p r xs t = .going xs' t' →
    ended a x' (walk p r false x t') →
    (a = some .stop → walkL p r (xs ++ x :: ys) t = .stopped (xs' ++ x' :: ys)) ∧ (a = some .revert → walkL p r (xs ++ x :: ys) t = .reverted) ∧
    (a = none → walkL p r (xs ++ x :: ys) t = .failed (.py "EOFError"))
  | [], xs', t, t', h, he => by
    rw [walkL] at h; cases h
    refine ⟨fun ha => ?_, fun ha => ?_, fun ha => ?_⟩
    · rw [List.nil_append, walkL, he.1 ha]; rfl
    · rw [List.nil_append, walkL, he.2.1 ha]
    · rw [List.nil_append, walkL, he.2.2 ha]
  | z :: xs, xs', t, t', h, he => by
    rw [walkL] at h
    cases hz : walk p r false z t with
    | failed e => rw [hz] at h; cases h
    | reverted => rw [hz] at h; cases h
    | stopped v => rw [hz] at h; cases h
    | going v u =>
      simp only [hz] at h
      cases hl : walkL p r xs u with
      | failed e => rw [hl] at h; cases h
      | reverted => rw [hl] at h; cases h
      | stopped v => rw [hl] at h; cases h
      | going vs u' =>
        simp only [hl] at h
        cases h
        have ih := walkL_append (ys := ys) xs vs u t' hl he
        refine ⟨fun ha => ?_, fun ha => ?_, fun ha => ?_⟩
        · rw [List.cons_append, walkL, hz]; simp only [ih.1 ha, List.cons_append]
        · rw [List.cons_append, walkL, hz]; simp only [ih.2.1 ha]
        · rw [List.cons_append, walkL, hz]; simp only [ih.2.2 ha]

theorem tidy_mem {xs : List Val} (ht : Tidy (.arr xs)) {x : Val} (h : x ∈ xs) : Tidy x := by
  obtain ⟨i, hi⟩ := List.getElem?_of_mem h
  exact ht.pos hi

/-- When the matches that `bs` decides have been answered, the next answer ends the loop. -/
theorem walk_ended {p : Pat} {r : Rep} {s : Stage} {v v' : Val} {bs : List Bool} (hh : Halts p r s v bs v') : Tidy v → ∀ (whole : Bool) (t : Talk) (as : List Answer),
    Chooses t bs ⟨as, true⟩ → ended ((next as).map (·.1)) v' (walk p r whole v t) := by
  induction hh with
  | @here s v w x bs m h hm hx =>
    intro ht whole t as hc
    have hmeet : meet p r whole w ⟨as, true⟩ = respond whole w x ⟨as, true⟩ := by rw [meet, hm]; simp only [hx]
    have key : walk p r whole v t = meet p r whole w ⟨as, true⟩ := by
      cases h with
      | leaf h1 h2 => rw [walk_leaf h1 h2]; rw [chooses_nil.1 hc]
      | miss hs _ _ => exact absurd rfl hs
      | skip hs _ _ _ => exact absurd rfl hs
      | @dict d d' es ho hk hd hd' h =>
        have hn : (PyDict.keys d).Nodup := ht [] d (.here _)
        have := (dict_going (p := p) (r := r) hn (fun kv hm t t' v' => walk_going (ht.key hm) false v' t t') d' t ⟨as, true⟩).2 ⟨_, .dict ho hk hd hd' h, hc⟩
        rw [walk, this]
      | @arr es h =>
        have := (list_going (p := p) (r := r) (xs := es.map (·.1)) (fun x hx t t' v' => walk_going (tidy_mem ht hx) false v' t t') (es.map (·.2.2)) t ⟨as, true⟩).2
          ⟨es, rfl, rfl, h, hc⟩
        rw [walk, this]
    rw [key, hmeet]
    exact respond_ended
  | @dict s d d' es k v v' bs fs ho hk hd hd' h hh ih =>
    intro ht whole t as hc
    have hn : (PyDict.keys d).Nodup := ht [] d (.here _)
    obtain ⟨u, hc1, hc2⟩ := chooses_append.1 hc
    have hb : byKey (walkD p r d) = (es.map (fun e => (e.key, e.val)) ++ (k, v) :: fs).map fun kv => (kv.1, walk p r false kv.2) := by
      rw [walkD_map, byKey_map]
      rw [byKey_unique (m := es.map (fun e => (e.key, e.val)) ++ (k, v) :: fs) hn]
      · have : (es.map (fun e => (e.key, e.val)) ++ (k, v) :: fs).map (·.1) = es.map (·.key) ++ k :: fs.map (·.1) := by
          simp [List.map_map, Function.comp_def]
        rw [← this, List.pairwise_map] at ho
        exact ho
      · rintro ⟨j, w⟩
        rw [hd, List.mem_append, List.mem_map, List.mem_cons]
        simp only [Prod.mk.injEq]
        constructor
        · rintro (h | ⟨rfl, rfl⟩ | h)
          · exact .inl h
          · exact .inr (.inl ⟨rfl, rfl⟩)
          · exact .inr (.inr h)
        · rintro (h | ⟨rfl, rfl⟩ | h)
          · exact .inl h
          · exact .inr (.inl ⟨rfl, rfl⟩)
          · exact .inr (.inr h)
    have hmem : ∀ kv ∈ es.map (fun e => (e.key, e.val)), kv ∈ d := by
      rintro ⟨j, w⟩ hm
      obtain ⟨e, he, hjw⟩ := List.mem_map.1 hm
      cases hjw
      exact (hd _ _).2 (.inl ⟨e, he, rfl, rfl⟩)
    have hpre : eachKey ((es.map (fun e => (e.key, e.val))).map fun kv => (kv.1, walk p r false kv.2)) d t = .going (putAll d es) u :=
      (eachKey_going (p := p) (r := r) (es.map (fun e => (e.key, e.val))) d (putAll d es) t u
        (fun kv hm t t' v' => walk_going (ht.key (hmem kv hm)) false v' t t')).2 ⟨es, rfl, h, rfl, hc1⟩
    have hkd : (k, v) ∈ d := (hd _ _).2 (.inr (.inl ⟨rfl, rfl⟩))
    have ihv := ih (ht.key hkd) false u as hc2
    have hall : eachKey (byKey (walkD p r d)) d t =
        eachKey ((k, walk p r false v) :: fs.map fun kv => (kv.1, walk p r false kv.2)) (putAll d es) u := by
      rw [hb, List.map_append, eachKey_append _ _ _ _ _ _ hpre, List.map_cons]
    have hset : PyDict.set (putAll d es) k v' = d' := by
      have hkeys : ∀ e ∈ es, e.key ∈ PyDict.keys d := fun e he => List.mem_map.2 ⟨(e.key, e.val), (hd _ _).2 (.inl ⟨e, he, rfl, rfl⟩), rfl⟩
      have hp := putAll_keys es d hkeys
      have hkm : k ∈ PyDict.keys d := List.mem_map.2 ⟨(k, v), hkd, rfl⟩
      have hks : PyDict.keys (PyDict.set (putAll d es) k v') = PyDict.keys d := by rw [PyDict.keys_set, hp, if_pos hkm]
      have hes : es.Pairwise fun a b => a.key < b.key := by
        have := (List.pairwise_append.1 ho).1
        rwa [List.pairwise_map] at this
      have hke : ∀ e ∈ es, e.key < k := fun e he => (List.pairwise_append.1 ho).2.2 e.key (List.mem_map.2 ⟨e, he, rfl⟩) k List.mem_cons_self
      refine dict_ext (hks.trans hk.symm) (hks ▸ hn) ?_
      intro j
      have hwf : PyDict.WF d' := by rw [PyDict.WF, hk]; exact hn
      by_cases hj : j ∈ PyDict.keys d
      · obtain ⟨⟨j', w⟩, hm0, rfl⟩ := List.mem_map.1 hj
        by_cases hjk : j' = k
        · subst hjk
          rw [PyDict.get?_set_self]
          exact (PyDict.get?_of_mem hwf ((hd' _ _).2 (.inr (.inl ⟨rfl, rfl⟩)))).symm
        · rw [PyDict.get?_set_ne _ _ (fun e => hjk e.symm)]
          rcases (hd _ _).1 hm0 with ⟨e, he, hek, hev⟩ | ⟨hk', _⟩ | hf
          · rw [(putAll_get es d _ hes).1 e he hek]
            exact (PyDict.get?_of_mem hwf ((hd' _ _).2 (.inl ⟨e, he, hek, rfl⟩))).symm
          · exact absurd hk'.symm hjk
          · have hne : ∀ e ∈ es, e.key ≠ j' := fun e he =>
              ((List.pairwise_append.1 ho).2.2 e.key (List.mem_map.2 ⟨e, he, rfl⟩) j' (List.mem_cons_of_mem _ (List.mem_map.2 ⟨_, hf, rfl⟩))).ne
            rw [(putAll_get es d _ hes).2 hne, PyDict.get?_of_mem hn hm0]
            exact (PyDict.get?_of_mem hwf ((hd' _ _).2 (.inr (.inr hf)))).symm
      · rw [(PyDict.get?_eq_none_iff _ _).2 (hks ▸ hj), (PyDict.get?_eq_none_iff _ _).2 (hk ▸ hj)]
    refine ⟨fun ha => ?_, fun ha => ?_, fun ha => ?_⟩
    · rw [walk, hall, eachKey, ihv.1 ha]; simp only [hset]
    · rw [walk, hall, eachKey, ihv.2.1 ha]
    · rw [walk, hall, eachKey, ihv.2.2 ha]
  | @arr s es v v' bs ys h hh ih =>
    intro ht whole t as hc
    obtain ⟨u, hc1, hc2⟩ := chooses_append.1 hc
    have hpre := (list_going (p := p) (r := r) (xs := es.map (·.1)) (fun x hx t t' v' => walk_going (tidy_mem ht (List.mem_append_left _ hx)) false v' t t') (es.map (·.2.2)) t u).2
      ⟨es, rfl, rfl, h, hc1⟩
    have := walkL_append (ys := ys) _ _ t u hpre (ih (tidy_mem ht (List.mem_append_right _ List.mem_cons_self)) false u as hc2)
    refine ⟨fun ha => ?_, fun ha => ?_, fun ha => ?_⟩
    · rw [walk, this.1 ha]
    · rw [walk, this.2.1 ha]
    · rw [walk, this.2.2 ha]

/-- `stop` keeps what has been replaced so far, and nothing else is changed; `revert` gives the document as it was; so does the end of the answers, with an
exception. -/
theorem change_ended {pat rep : Src} {p : Pat} {r : Rep} {doc doc' : Val} {answers as : List Answer} {bs : List Bool} (ht : Tidy doc)
    (hp : regex (parse pat) = .ok p) (hr : replacement (parse rep) = .ok r) (hh : Halts p r .whole doc bs doc') (hc : Chooses ⟨answers, true⟩ bs ⟨as, true⟩) :
    (Says as .stop → change pat rep doc answers = (doc', none)) ∧ (Says as .revert → change pat rep doc answers = (doc, none)) ∧
    ((∀ a ∈ as, a = .other) → change pat rep doc answers = (doc, some (.py "EOFError"))) := by
  have h := walk_ended hh ht true _ as hc
  unfold change
  simp only [hp, hr]
  refine ⟨fun hs => ?_, fun hs => ?_, fun hs => ?_⟩
  · obtain ⟨bs, hb⟩ := says_next hs
    rw [h.1 (by rw [hb]; rfl)]; rfl
  · obtain ⟨bs, hb⟩ := says_next hs
    rw [h.2.1 (by rw [hb]; rfl)]; rfl
  · rw [h.2.2 (by rw [next_none hs]; rfl)]; rfl

/-- The same for a part of a document. -/
theorem changeIn_ended {items : List Ix} {pat rep : Src} {p : Pat} {r : Rep} {doc node node' doc' : Val} {answers as : List Answer} {bs : List Bool}
    (hi : items ≠ []) (hg : extaction doc items = .ok node) (ht : Tidy node) (hp : regex (parse pat) = .ok p) (hr : replacement (parse rep) = .ok r)
    (hh : Halts p r .whole node bs node') (hc : Chooses ⟨answers, true⟩ bs ⟨as, true⟩) (ha : assign doc items node' = .ok doc') :
    (Says as .stop → changeIn items pat rep doc answers = (doc', none)) ∧ (Says as .revert → changeIn items pat rep doc answers = (doc, none)) ∧
    ((∀ a ∈ as, a = .other) → changeIn items pat rep doc answers = (doc, some (.py "EOFError"))) := by
  have h := walk_ended hh ht true _ as hc
  unfold changeIn
  simp only [hg, hp, hr]
  refine ⟨fun hs => ?_, fun hs => ?_, fun hs => ?_⟩
  · obtain ⟨bs, hb⟩ := says_next hs
    rw [h.1 (by rw [hb]; rfl)]
    cases items with
    | nil => exact absurd rfl hi
    | cons i is => simp only [within, ha]; rfl
  · obtain ⟨bs, hb⟩ := says_next hs
    rw [h.2.1 (by rw [hb]; rfl)]; rfl
  · rw [h.2.2 (by rw [next_none hs]; rfl)]; rfl

/-- In `[1, 2, 1]` the answers `yes` and `stop` replace the first 1 only. -/
example : Halts (.lit (.int 1)) (.leaf (.int 5)) .whole (.arr [.int 1, .int 2, .int 1]) [true] (.arr [.int 5, .int 2, .int 1]) ∧
    Chooses ⟨[.yes, .other, .stop], true⟩ [true] ⟨[.other, .stop], true⟩ ∧ Says [.other, .stop] .stop := by
  have hp : ∀ v : Val, (∀ d, v ≠ .dict d) → (∀ xs, v ≠ .arr xs) → Edits (.lit (.int 1)) (.leaf (.int 5)) .parts v [] v := fun v h1 h2 => .leaf h1 h2
  have h1 : getmatch (.lit (.int 1)) (.int 1) = .ok (some ⟨.int 1, .int 1, []⟩) := by simp [getmatch, same, litEq, num?, fle]
  have h2 : getmatch (.lit (.int 1)) (.int 2) = .ok none := by simp [getmatch, same, litEq, num?, fle]
  refine ⟨?_, .yes (.done _), .again (.now (by decide))⟩
  exact Halts.arr (es := [(.int 1, [true], .int 5), (.int 2, [], .int 2)]) (ys := []) (bs := []) (by
    intro e he
    rcases List.mem_cons.1 he with rfl | he
    · exact Edits.hit (bs := []) (hp _ (by simp) (by simp)) h1 (by simp [replace])
    · rcases List.mem_cons.1 he with rfl | he
      · exact .miss (by simp) (hp _ (by simp) (by simp)) h2
      · cases he) (Halts.here (hp _ (by simp) (by simp)) h1 (by rw [replace]))

end Verif.Inspector
