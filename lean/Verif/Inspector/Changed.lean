import Verif.Inspector.Change
/-! # The command `json change` of the inspector: theorems (C101) -/

namespace Verif.Inspector
open Avro Producer

/-! ## Specification -/

/-- `Chooses t bs t'`: for the matches that are found in turn the answers say to replace or not to replace, as in `bs`. -/
inductive Chooses : Talk → List Bool → Talk → Prop where
  | done (t : Talk) : Chooses t [] t
  | again {as : List Answer} {b : Bool} {bs : List Bool} {t : Talk} (h : Chooses ⟨as, true⟩ (b :: bs) t) : Chooses ⟨.other :: as, true⟩ (b :: bs) t
  | yes {as : List Answer} {bs : List Bool} {t : Talk} (h : Chooses ⟨as, true⟩ bs t) : Chooses ⟨.yes :: as, true⟩ (true :: bs) t
  | no {as : List Answer} {bs : List Bool} {t : Talk} (h : Chooses ⟨as, true⟩ bs t) : Chooses ⟨.no :: as, true⟩ (false :: bs) t
  | all {as : List Answer} {bs : List Bool} {t : Talk} (h : Chooses ⟨as, false⟩ bs t) : Chooses ⟨.all :: as, true⟩ (true :: bs) t
  | silent {as : List Answer} {bs : List Bool} {t : Talk} (h : Chooses ⟨as, false⟩ bs t) : Chooses ⟨as, false⟩ (true :: bs) t

/-- What is to be changed: the whole, one of its parts, or only the parts of something. -/
inductive Stage where
  | whole | part | parts

/-- An entry of an object, what is chosen for the matches in it, and what it becomes. -/
structure Entry where
  key : String
  val : Val
  bs : List Bool
  new : Val

/-- `Edits p r s v bs v'`: `v` becomes `v'` when the matches of `p` are replaced as `bs` says, one after another: parts before the whole, entries in the
order of their keys.  What is compared is what the parts have become.  The whole is never replaced. -/
inductive Edits (p : Pat) (r : Rep) : Stage → Val → List Bool → Val → Prop where
  | leaf {v : Val} (h1 : ∀ d, v ≠ .dict d) (h2 : ∀ xs, v ≠ .arr xs) : Edits p r .parts v [] v
  | dict {d d' : List (String × Val)} {es : List Entry} (ho : es.Pairwise fun a b => a.key < b.key) (hk : PyDict.keys d' = PyDict.keys d)
      (hd : ∀ k v, (k, v) ∈ d ↔ ∃ e ∈ es, e.key = k ∧ e.val = v) (hd' : ∀ k v, (k, v) ∈ d' ↔ ∃ e ∈ es, e.key = k ∧ e.new = v)
      (h : ∀ e ∈ es, Edits p r .part e.val e.bs e.new) : Edits p r .parts (.dict d) (es.flatMap (·.bs)) (.dict d')
  | arr {es : List (Val × List Bool × Val)} (h : ∀ e ∈ es, Edits p r .part e.1 e.2.1 e.2.2) :
      Edits p r .parts (.arr (es.map (·.1))) (es.flatMap (·.2.1)) (.arr (es.map (·.2.2)))
  | miss {s : Stage} {v w : Val} {bs : List Bool} (hs : s ≠ .parts) (h : Edits p r .parts v bs w) (hm : getmatch p w = .ok none) : Edits p r s v bs w
  | skip {s : Stage} {v w x : Val} {bs : List Bool} {m : Match} (hs : s ≠ .parts) (h : Edits p r .parts v bs w) (hm : getmatch p w = .ok (some m))
      (hx : replace m.groups r = .ok x) : Edits p r s v (bs ++ [false]) w
  | hit {v w x : Val} {bs : List Bool} {m : Match} (h : Edits p r .parts v bs w) (hm : getmatch p w = .ok (some m)) (hx : replace m.groups r = .ok x) :
      Edits p r .part v (bs ++ [true]) x

/-- The whole, or a part. -/
def Stage.of (whole : Bool) : Stage := if whole then .whole else .part

/-! ## Choices -/

theorem chooses_append {a b : List Bool} : ∀ {t t' : Talk}, Chooses t (a ++ b) t' ↔ ∃ u, Chooses t a u ∧ Chooses u b t' := by
  intro t t'
  constructor
  · intro h
    generalize hc : a ++ b = c at h
    induction h generalizing a with
    | done t => obtain ⟨rfl, rfl⟩ := List.append_eq_nil_iff.1 hc; exact ⟨t, .done t, .done t⟩
    | again h ih =>
      cases a with
      | nil => simp only [List.nil_append] at hc; subst hc; exact ⟨_, .done _, .again h⟩
      | cons x a =>
        obtain ⟨u, h1, h2⟩ := ih hc
        simp only [List.cons_append, List.cons.injEq] at hc
        obtain ⟨rfl, rfl⟩ := hc
        exact ⟨u, .again h1, h2⟩
    | yes h ih =>
      cases a with
      | nil => simp only [List.nil_append] at hc; subst hc; exact ⟨_, .done _, .yes h⟩
      | cons x a =>
        simp only [List.cons_append, List.cons.injEq] at hc
        obtain ⟨rfl, hc⟩ := hc
        obtain ⟨u, h1, h2⟩ := ih hc
        exact ⟨u, .yes h1, h2⟩
    | no h ih =>
      cases a with
      | nil => simp only [List.nil_append] at hc; subst hc; exact ⟨_, .done _, .no h⟩
      | cons x a =>
        simp only [List.cons_append, List.cons.injEq] at hc
        obtain ⟨rfl, hc⟩ := hc
        obtain ⟨u, h1, h2⟩ := ih hc
        exact ⟨u, .no h1, h2⟩
    | all h ih =>
      cases a with
      | nil => simp only [List.nil_append] at hc; subst hc; exact ⟨_, .done _, .all h⟩
      | cons x a =>
        simp only [List.cons_append, List.cons.injEq] at hc
        obtain ⟨rfl, hc⟩ := hc
        obtain ⟨u, h1, h2⟩ := ih hc
        exact ⟨u, .all h1, h2⟩
    | silent h ih =>
      cases a with
      | nil => simp only [List.nil_append] at hc; subst hc; exact ⟨_, .done _, .silent h⟩
      | cons x a =>
        simp only [List.cons_append, List.cons.injEq] at hc
        obtain ⟨rfl, hc⟩ := hc
        obtain ⟨u, h1, h2⟩ := ih hc
        exact ⟨u, .silent h1, h2⟩
  · rintro ⟨u, h1, h2⟩
    induction h1 with
    | done t => exact h2
    | again h ih => exact .again (ih h2)
    | yes h ih => exact .yes (ih h2)
    | no h ih => exact .no (ih h2)
    | all h ih => exact .all (ih h2)
    | silent h ih => exact .silent (ih h2)

theorem chooses_nil {t t' : Talk} : Chooses t [] t' ↔ t' = t := ⟨fun h => by cases h; rfl, fun h => h ▸ .done t⟩

/-- One choice. -/
theorem respond_going {whole : Bool} {w x v : Val} {t t' : Talk} : respond whole w x t = .going v t' ↔
    (whole = false ∧ v = x ∧ Chooses t [true] t') ∨ (v = w ∧ Chooses t [false] t') := by
  obtain ⟨as, ask⟩ := t
  cases ask with
  | false =>
    have h1 : Chooses ⟨as, false⟩ [true] t' ↔ t' = ⟨as, false⟩ :=
      ⟨fun h => by cases h with | silent h => exact chooses_nil.1 h, fun h => by rw [h]; exact .silent (.done _)⟩
    have h2 : ¬ Chooses ⟨as, false⟩ [false] t' := fun h => by cases h
    cases whole <;> simp [respond, assigned, h1, h2, eq_comm]
  | true =>
    induction as with
    | nil =>
      have h1 : ∀ b, ¬ Chooses ⟨[], true⟩ [b] t' := fun b h => by cases h
      simp [respond, next, h1]
    | cons a as ih =>
      cases a with
      | other =>
        have h1 : ∀ b, Chooses ⟨.other :: as, true⟩ [b] t' ↔ Chooses ⟨as, true⟩ [b] t' :=
          fun b => ⟨fun h => by cases h with | again h => exact h, .again⟩
        rw [h1, h1, ← ih]
        simp [respond, next]
      | yes =>
        have h1 : Chooses ⟨.yes :: as, true⟩ [true] t' ↔ t' = ⟨as, true⟩ :=
          ⟨fun h => by cases h with | yes h => exact chooses_nil.1 h, fun h => h ▸ .yes (.done _)⟩
        have h2 : ¬ Chooses ⟨.yes :: as, true⟩ [false] t' := fun h => by cases h
        cases whole <;> simp [respond, next, assigned, h1, h2, eq_comm]
      | all =>
        have h1 : Chooses ⟨.all :: as, true⟩ [true] t' ↔ t' = ⟨as, false⟩ :=
          ⟨fun h => by cases h with | all h => exact chooses_nil.1 h, fun h => h ▸ .all (.done _)⟩
        have h2 : ¬ Chooses ⟨.all :: as, true⟩ [false] t' := fun h => by cases h
        cases whole <;> simp [respond, next, assigned, h1, h2, eq_comm]
      | no =>
        have h1 : Chooses ⟨.no :: as, true⟩ [false] t' ↔ t' = ⟨as, true⟩ :=
          ⟨fun h => by cases h with | no h => exact chooses_nil.1 h, fun h => h ▸ .no (.done _)⟩
        have h2 : ¬ Chooses ⟨.no :: as, true⟩ [true] t' := fun h => by cases h
        cases whole <;> simp [respond, next, h1, h2, eq_comm]
      | stop =>
        have h1 : ∀ b, ¬ Chooses ⟨.stop :: as, true⟩ [b] t' := fun b h => by cases h
        simp [respond, next, h1]
      | revert =>
        have h1 : ∀ b, ¬ Chooses ⟨.revert :: as, true⟩ [b] t' := fun b h => by cases h
        simp [respond, next, h1]

theorem stage_of (whole : Bool) : Stage.of whole ≠ .parts := by cases whole <;> simp [Stage.of]

/-- One place, when its parts are done. -/
theorem meet_going {p : Pat} {r : Rep} {whole : Bool} {v : Val} {t t' : Talk} {v' : Val} {P : Val → Talk → Prop}
    (hP : ∀ w u, P w u ↔ ∃ bs, Edits p r .parts v bs w ∧ Chooses t bs u) :
    (∃ w u, P w u ∧ meet p r whole w u = .going v' t') ↔ ∃ bs, Edits p r (.of whole) v bs v' ∧ Chooses t bs t' := by
  constructor
  · rintro ⟨w, u, hw, h⟩
    obtain ⟨bs, he, hc⟩ := (hP w u).1 hw
    unfold meet at h
    split at h
    · cases h
    · next hm => cases h; exact ⟨bs, .miss (stage_of _) he hm, hc⟩
    · next m hm =>
      split at h
      · cases h
      · next x hx =>
        rcases respond_going.1 h with ⟨rfl, rfl, h'⟩ | ⟨rfl, h'⟩
        · exact ⟨bs ++ [true], .hit he hm hx, chooses_append.2 ⟨u, hc, h'⟩⟩
        · exact ⟨bs ++ [false], .skip (stage_of _) he hm hx, chooses_append.2 ⟨u, hc, h'⟩⟩
  · rintro ⟨bs, he, hc⟩
    generalize hs : Stage.of whole = s at he
    cases he with
    | leaf _ _ => exact absurd hs (stage_of _)
    | dict _ _ _ _ _ => exact absurd hs (stage_of _)
    | arr _ => exact absurd hs (stage_of _)
    | miss _ h hm => exact ⟨_, _, (hP _ _).2 ⟨_, h, hc⟩, by simp [meet, hm]⟩
    | skip _ h hm hx =>
      obtain ⟨u, h1, h2⟩ := chooses_append.1 hc
      refine ⟨_, u, (hP _ _).2 ⟨_, h, h1⟩, ?_⟩
      rw [meet, hm]; simp only [hx]
      exact respond_going.2 (.inr ⟨rfl, h2⟩)
    | hit h hm hx =>
      obtain ⟨u, h1, h2⟩ := chooses_append.1 hc
      refine ⟨_, u, (hP _ _).2 ⟨_, h, h1⟩, ?_⟩
      rw [meet, hm]; simp only [hx]
      refine respond_going.2 (.inl ⟨?_, rfl, h2⟩)
      cases whole
      · rfl
      · simp [Stage.of] at hs

/-! ## Objects -/

/-- The entries put in. -/
def putAll (D : List (String × Val)) (es : List Entry) : List (String × Val) := es.foldl (fun D e => PyDict.set D e.key e.new) D

theorem eachKey_going {p : Pat} {r : Rep} : ∀ (l : List (String × Val)) (D D' : List (String × Val)) (t t' : Talk),
    (∀ kv ∈ l, ∀ t t' v', walk p r false kv.2 t = .going v' t' ↔ ∃ bs, Edits p r .part kv.2 bs v' ∧ Chooses t bs t') →
    (eachKey (l.map fun kv => (kv.1, walk p r false kv.2)) D t = .going D' t' ↔
      ∃ es : List Entry, es.map (fun e => (e.key, e.val)) = l ∧ (∀ e ∈ es, Edits p r .part e.val e.bs e.new) ∧ D' = putAll D es ∧ Chooses t (es.flatMap (·.bs)) t')
  | [], D, D', t, t', _ => by
    simp only [List.map_nil, eachKey, Out.going.injEq, List.map_eq_nil_iff]
    constructor
    · rintro ⟨rfl, rfl⟩; exact ⟨[], rfl, by simp, rfl, .done _⟩
    · rintro ⟨es, rfl, _, rfl, h⟩; exact ⟨rfl, (chooses_nil.1 h).symm⟩
  | (k, v) :: l, D, D', t, t', ih => by
    have ihl := fun D D' t t' => eachKey_going (p := p) (r := r) l D D' t t' (fun kv hm => ih kv (List.mem_cons_of_mem _ hm))
    have ihv := ih (k, v) List.mem_cons_self
    rw [List.map_cons, eachKey]
    constructor
    · intro h
      split at h
      · cases h
      · cases h
      · cases h
      · next v' t'' hv =>
        obtain ⟨bs, h1, h2⟩ := (ihv _ _ _).1 hv
        obtain ⟨es, he1, he2, he3, he4⟩ := (ihl _ _ _ _).1 h
        refine ⟨⟨k, v, bs, v'⟩ :: es, by simp [he1], ?_, he3, ?_⟩
        · intro e he
          rcases List.mem_cons.1 he with rfl | he
          · exact h1
          · exact he2 e he
        · rw [List.flatMap_cons]; exact chooses_append.2 ⟨_, h2, he4⟩
    · rintro ⟨es, he1, he2, he3, he4⟩
      cases es with
      | nil => cases he1
      | cons e es =>
        simp only [List.map_cons, List.cons.injEq, Prod.mk.injEq] at he1
        obtain ⟨⟨rfl, rfl⟩, rfl⟩ := he1
        rw [List.flatMap_cons] at he4
        obtain ⟨u, h1, h2⟩ := chooses_append.1 he4
        rw [(ihv t u e.new).2 ⟨e.bs, he2 e List.mem_cons_self, h1⟩]
        exact (ihl _ _ _ _).2 ⟨es, rfl, fun e' h' => he2 e' (List.mem_cons_of_mem _ h'), he3, h2⟩

theorem putAll_keys : ∀ (es : List Entry) (D : List (String × Val)), (∀ e ∈ es, e.key ∈ PyDict.keys D) → PyDict.keys (putAll D es) = PyDict.keys D
  | [], _, _ => rfl
  | e :: es, D, h => by
    have h1 : PyDict.keys (PyDict.set D e.key e.new) = PyDict.keys D := by rw [PyDict.keys_set, if_pos (h e List.mem_cons_self)]
    have := putAll_keys es (PyDict.set D e.key e.new) (fun e' h' => by rw [h1]; exact h e' (List.mem_cons_of_mem _ h'))
    rw [h1] at this; exact this

theorem putAll_get : ∀ (es : List Entry) (D : List (String × Val)) (k : String), (es.Pairwise fun a b => a.key < b.key) →
    (∀ e ∈ es, e.key = k → PyDict.get? (putAll D es) k = some e.new) ∧ ((∀ e ∈ es, e.key ≠ k) → PyDict.get? (putAll D es) k = PyDict.get? D k)
  | [], _, _, _ => ⟨by simp, fun _ => rfl⟩
  | e :: es, D, k, h => by
    have ih := putAll_get es (PyDict.set D e.key e.new) k (List.pairwise_cons.1 h).2
    have hne : ∀ e' ∈ es, e'.key ≠ e.key := fun e' he' => ((List.pairwise_cons.1 h).1 e' he').ne'
    constructor
    · intro e' he' hk
      rcases List.mem_cons.1 he' with rfl | he'
      · have := ih.2 (fun e'' h'' => hk ▸ hne e'' h'')
        refine this.trans ?_
        rw [← hk]; exact PyDict.get?_set_self _ _ _
      · exact ih.1 e' he' hk
    · intro hk
      refine (ih.2 (fun e' he' => hk e' (List.mem_cons_of_mem _ he'))).trans ?_
      exact PyDict.get?_set_ne _ _ (hk e List.mem_cons_self)

/-- Two objects with the same keys in the same order and the same values are the same. -/
theorem dict_ext : ∀ {d e : List (String × Val)}, PyDict.keys d = PyDict.keys e → (PyDict.keys d).Nodup →
    (∀ k, PyDict.get? d k = PyDict.get? e k) → d = e
  | [], [], _, _, _ => rfl
  | [], _ :: _, h, _, _ => by simp [PyDict.keys] at h
  | _ :: _, [], h, _, _ => by simp [PyDict.keys] at h
  | (k, v) :: d, (k', v') :: e, h, hn, hg => by
    rw [keys_cons, keys_cons, List.cons.injEq] at h
    obtain ⟨rfl, hk⟩ := h
    rw [keys_cons, List.nodup_cons] at hn
    have h1 := hg k
    rw [PyDict.get?, PyDict.get?, if_pos rfl, if_pos rfl] at h1
    cases h1
    rw [dict_ext hk hn.2]
    intro j
    by_cases hj : j = k
    · subst hj
      rw [(PyDict.get?_eq_none_iff _ _).2 hn.1, (PyDict.get?_eq_none_iff _ _).2 (hk ▸ hn.1)]
    · have := hg j
      rw [PyDict.get?, PyDict.get?, if_neg (fun e => hj e.symm), if_neg (fun e => hj e.symm)] at this
      exact this

theorem walkD_map (p : Pat) (r : Rep) (d : List (String × Val)) : walkD p r d = d.map fun kv => (kv.1, walk p r false kv.2) := by
  induction d with
  | nil => rw [walkD]; rfl
  | cons kv d ih => rw [walkD, ih]; rfl

theorem byKey_map {α β : Type} (f : α → β) (l : List (String × α)) : byKey (l.map fun kv => (kv.1, f kv.2)) = (byKey l).map fun kv => (kv.1, f kv.2) := by
  unfold byKey
  rw [List.map_mergeSort]
  intro a _ b _; rfl

theorem byKey_unique {l m : List (String × Val)} (hn : (PyDict.keys l).Nodup) (hs : m.Pairwise fun a b => a.1 < b.1) (hm : ∀ x, x ∈ m ↔ x ∈ l) : byKey l = m := by
  have h1 : (byKey l).Pairwise fun a b => a.1 < b.1 := byKey_sorted hn
  refine List.Perm.eq_of_pairwise (le := fun a b => a.1 < b.1) (fun a b _ _ h1 h2 => absurd h1 (lt_asymm h2)) h1 hs ?_
  refine (List.perm_ext_iff_of_nodup (h1.imp fun h e => absurd (e ▸ h) (lt_irrefl _)) (hs.imp fun h e => absurd (e ▸ h) (lt_irrefl _))).2 ?_
  intro x; rw [mem_byKey, hm]

theorem dict_going {p : Pat} {r : Rep} {d : List (String × Val)} (hn : (PyDict.keys d).Nodup)
    (ih : ∀ kv ∈ d, ∀ t t' v', walk p r false kv.2 t = .going v' t' ↔ ∃ bs, Edits p r .part kv.2 bs v' ∧ Chooses t bs t') (d' : List (String × Val)) (t t' : Talk) :
    eachKey (byKey (walkD p r d)) d t = .going d' t' ↔ ∃ bs, Edits p r .parts (.dict d) bs (.dict d') ∧ Chooses t bs t' := by
  have hb : byKey (walkD p r d) = (byKey d).map fun kv => (kv.1, walk p r false kv.2) := by rw [walkD_map]; exact byKey_map _ _
  rw [hb, eachKey_going (byKey d) d d' t t' (fun kv hm => ih kv (mem_byKey.1 hm))]
  constructor
  · rintro ⟨es, h1, h2, h3, h4⟩
    have hs : es.Pairwise fun a b => a.key < b.key := by
      have := byKey_sorted hn
      rw [← h1, List.pairwise_map] at this
      exact this
    have hmem : ∀ k v, (k, v) ∈ d ↔ ∃ e ∈ es, e.key = k ∧ e.val = v := by
      intro k v
      rw [← mem_byKey, ← h1, List.mem_map]
      simp only [Prod.mk.injEq]
    have hkeys : ∀ e ∈ es, e.key ∈ PyDict.keys d := fun e he => List.mem_map.2 ⟨(e.key, e.val), (hmem _ _).2 ⟨e, he, rfl, rfl⟩, rfl⟩
    have hk : PyDict.keys d' = PyDict.keys d := by rw [h3]; exact putAll_keys es d hkeys
    refine ⟨_, .dict hs hk hmem ?_ h2, h4⟩
    intro k v
    constructor
    · intro hm
      have hg : PyDict.get? d' k = some v := PyDict.get?_of_mem (by rw [PyDict.WF, hk]; exact hn) hm
      have : k ∈ PyDict.keys d := hk ▸ PyDict.mem_keys_of_get? hg
      obtain ⟨⟨k', v0⟩, hm0, rfl⟩ := List.mem_map.1 this
      obtain ⟨e, he, hek, _⟩ := (hmem _ _).1 hm0
      refine ⟨e, he, hek, ?_⟩
      have := (putAll_get es d _ hs).1 e he hek
      rw [← h3, hg] at this
      exact (Option.some.inj this).symm
    · rintro ⟨e, he, rfl, rfl⟩
      have := (putAll_get es d _ hs).1 e he rfl
      rw [← h3] at this
      exact PyDict.mem_of_get? this
  · rintro ⟨bs, he, hc⟩
    cases he with
    | leaf h1 _ => exact absurd rfl (h1 d)
    | miss hs _ _ => exact absurd rfl hs
    | skip hs _ _ _ => exact absurd rfl hs
    | @dict _ _ es ho hk hd hd' h =>
      refine ⟨es, ?_, h, ?_, hc⟩
      · refine (byKey_unique hn ?_ ?_).symm
        · rw [List.pairwise_map]; exact ho
        · rintro ⟨k, v⟩
          rw [hd, List.mem_map]
          simp only [Prod.mk.injEq]
      · have hkeys : ∀ e ∈ es, e.key ∈ PyDict.keys d := fun e he => List.mem_map.2 ⟨(e.key, e.val), (hd _ _).2 ⟨e, he, rfl, rfl⟩, rfl⟩
        have hp := putAll_keys es d hkeys
        refine dict_ext (hk.trans hp.symm) (hk ▸ hn) ?_
        intro k
        by_cases hm : k ∈ PyDict.keys d
        · obtain ⟨⟨k', v0⟩, hm0, rfl⟩ := List.mem_map.1 hm
          obtain ⟨e, he, hek, _⟩ := (hd _ _).1 hm0
          rw [(putAll_get es d _ ho).1 e he hek]
          exact PyDict.get?_of_mem (by rw [PyDict.WF, hk]; exact hn) ((hd' _ _).2 ⟨e, he, hek, rfl⟩)
        · rw [(PyDict.get?_eq_none_iff _ _).2 (hk ▸ hm), (PyDict.get?_eq_none_iff _ _).2 (hp ▸ hm)]

/-! ## Lists -/

theorem list_going {p : Pat} {r : Rep} : ∀ {xs : List Val}, (∀ x ∈ xs, ∀ t t' v', walk p r false x t = .going v' t' ↔ ∃ bs, Edits p r .part x bs v' ∧ Chooses t bs t') →
    ∀ (ys : List Val) (t t' : Talk), walkL p r xs t = .going ys t' ↔ ∃ es : List (Val × List Bool × Val), es.map (·.1) = xs ∧ es.map (·.2.2) = ys ∧
      (∀ e ∈ es, Edits p r .part e.1 e.2.1 e.2.2) ∧ Chooses t (es.flatMap (·.2.1)) t'
  | [], _, ys, t, t' => by
    rw [walkL]
    constructor
    · intro h; cases h; exact ⟨[], rfl, rfl, by simp, .done _⟩
    · rintro ⟨es, h1, h2, _, h4⟩
      rw [List.map_eq_nil_iff] at h1; subst h1
      simp only [List.map_nil] at h2; subst h2
      rw [chooses_nil.1 h4]
  | x :: xs, ih, ys, t, t' => by
    have ihl := list_going (p := p) (r := r) (xs := xs) (fun y hy => ih y (List.mem_cons_of_mem _ hy))
    have ihv := ih x List.mem_cons_self
    rw [walkL]
    constructor
    · intro h
      split at h
      · cases h
      · cases h
      · cases h
      · next x' u hx =>
        split at h
        · cases h
        · cases h
        · cases h
        · next xs' u' hxs =>
          cases h
          obtain ⟨bs, h1, h2⟩ := (ihv _ _ _).1 hx
          obtain ⟨es, he1, he2, he3, he4⟩ := (ihl _ _ _).1 hxs
          refine ⟨(x, bs, x') :: es, by simp [he1], by simp [he2], ?_, ?_⟩
          · intro e he
            rcases List.mem_cons.1 he with rfl | he
            · exact h1
            · exact he3 e he
          · rw [List.flatMap_cons]; exact chooses_append.2 ⟨_, h2, he4⟩
    · rintro ⟨es, he1, he2, he3, he4⟩
      cases es with
      | nil => cases he1
      | cons e es =>
        simp only [List.map_cons, List.cons.injEq] at he1
        obtain ⟨rfl, rfl⟩ := he1
        rw [List.flatMap_cons] at he4
        obtain ⟨u, h1, h2⟩ := chooses_append.1 he4
        rw [(ihv t u e.2.2).2 ⟨e.2.1, he3 e List.mem_cons_self, h1⟩]
        simp only []
        rw [(ihl (es.map (·.2.2)) u t').2 ⟨es, rfl, rfl, fun e' h' => he3 e' (List.mem_cons_of_mem _ h'), h2⟩]
        simp only [← he2, List.map_cons]

/-! ## Theorems -/

theorem walk_leaf {p : Pat} {r : Rep} {whole : Bool} {v : Val} {t : Talk} (h1 : ∀ d, v ≠ .dict d) (h2 : ∀ xs, v ≠ .arr xs) : walk p r whole v t = meet p r whole v t := by
  cases v with
  | dict d => exact absurd rfl (h1 d)
  | arr xs => exact absurd rfl (h2 xs)
  | _ => rw [walk] <;> intros <;> simp_all

/-- The loop goes through all of it if and only if for each match there is an answer to replace it or not, and then the parts are replaced accordingly. -/
theorem walk_going {p : Pat} {r : Rep} {v : Val} (ht : Tidy v) : ∀ (whole : Bool) (v' : Val) (t t' : Talk), walk p r whole v t = .going v' t' ↔
    ∃ bs, Edits p r (.of whole) v bs v' ∧ Chooses t bs t' := by
  revert ht
  refine val_ind (P := fun v => Tidy v → ∀ (whole : Bool) (v' : Val) (t t' : Talk), walk p r whole v t = .going v' t' ↔
    ∃ bs, Edits p r (.of whole) v bs v' ∧ Chooses t bs t') ?_ ?_ ?_ v
  · intro d ih ht whole v' t t'
    have hn : (PyDict.keys d).Nodup := ht [] d (.here _)
    have hd := dict_going (p := p) (r := r) hn (fun kv hm t t' v' => ih kv.1 kv.2 hm (ht.key hm) false v' t t')
    rw [← meet_going (P := fun w u => ∃ d', w = .dict d' ∧ eachKey (byKey (walkD p r d)) d t = .going d' u)]
    · rw [walk]
      constructor
      · intro h
        split at h
        · cases h
        · cases h
        · cases h
        · next d' u hu => exact ⟨_, u, ⟨d', rfl, hu⟩, h⟩
      · rintro ⟨_, u, ⟨d', rfl, hu⟩, h⟩
        rw [hu]; exact h
    · intro w u
      constructor
      · rintro ⟨d', rfl, h⟩; exact (hd _ _ _).1 h
      · rintro ⟨bs, h1, h2⟩
        have : ∃ d', w = .dict d' := by
          cases h1 with
          | leaf h _ => exact absurd rfl (h d)
          | dict _ _ _ _ _ => exact ⟨_, rfl⟩
          | miss hs _ _ => exact absurd rfl hs
          | skip hs _ _ _ => exact absurd rfl hs
        obtain ⟨d', rfl⟩ := this
        exact ⟨d', rfl, (hd _ _ _).2 ⟨bs, h1, h2⟩⟩
  · intro xs ih ht whole v' t t'
    have hx : ∀ x ∈ xs, ∀ t t' v', walk p r false x t = .going v' t' ↔ ∃ bs, Edits p r .part x bs v' ∧ Chooses t bs t' := by
      intro x hx t t' v'
      obtain ⟨i, hi, he⟩ := List.getElem_of_mem hx
      exact ih x hx (ht.pos (i := i) (by rw [List.getElem?_eq_getElem hi, he])) false v' t t'
    have hl := list_going (p := p) (r := r) hx
    rw [← meet_going (P := fun w u => ∃ ys, w = .arr ys ∧ walkL p r xs t = .going ys u)]
    · rw [walk]
      constructor
      · intro h
        split at h
        · cases h
        · cases h
        · cases h
        · next d' u hu => exact ⟨_, u, ⟨d', rfl, hu⟩, h⟩
      · rintro ⟨_, u, ⟨d', rfl, hu⟩, h⟩
        rw [hu]; exact h
    · intro w u
      constructor
      · rintro ⟨ys, rfl, h⟩
        obtain ⟨es, rfl, rfl, h1, h2⟩ := (hl _ _ _).1 h
        exact ⟨_, .arr h1, h2⟩
      · rintro ⟨bs, h1, h2⟩
        generalize hv : Val.arr xs = a at h1
        cases h1 with
        | leaf _ h => exact absurd hv.symm (h xs)
        | dict _ _ _ _ _ => cases hv
        | @arr es h => cases hv; exact ⟨_, rfl, (hl _ _ _).2 ⟨es, rfl, rfl, h, h2⟩⟩
        | miss hs _ _ => exact absurd rfl hs
        | skip hs _ _ _ => exact absurd rfl hs
  · intro v h1 h2 _ whole v' t t'
    rw [walk_leaf h1 h2, ← meet_going (P := fun w u => w = v ∧ u = t)]
    · constructor
      · intro h; exact ⟨v, t, ⟨rfl, rfl⟩, h⟩
      · rintro ⟨_, _, ⟨rfl, rfl⟩, h⟩; exact h
    · intro w u
      constructor
      · rintro ⟨rfl, rfl⟩; exact ⟨[], .leaf h1 h2, .done _⟩
      · rintro ⟨bs, he, hc⟩
        cases he with
        | leaf _ _ => exact ⟨rfl, chooses_nil.1 hc⟩
        | dict _ _ _ _ _ => exact absurd rfl (h1 _)
        | arr _ => exact absurd rfl (h2 _)
        | miss hs _ _ => exact absurd rfl hs
        | skip hs _ _ _ => exact absurd rfl hs

/-- What is replaced only ever is a match. -/
inductive Partly (p : Pat) (r : Rep) : Val → Val → Prop where
  | same (v : Val) : Partly p r v v
  | dict {d d' : List (String × Val)} (hk : PyDict.keys d' = PyDict.keys d)
      (h : ∀ k v v', PyDict.get? d k = some v → PyDict.get? d' k = some v' → Partly p r v v') : Partly p r (.dict d) (.dict d')
  | arr {xs ys : List Val} (hl : xs.length = ys.length) (h : ∀ (i : Nat) x y, xs[i]? = some x → ys[i]? = some y → Partly p r x y) : Partly p r (.arr xs) (.arr ys)
  | hit {v w x : Val} {m : Match} (h : Partly p r v w) (hm : getmatch p w = .ok (some m)) (hx : replace m.groups r = .ok x) : Partly p r v x

/-- What an object or a list is while the loop runs. -/
def Out.has {α : Type} (o : Out α) (a : α) : Prop := o = .stopped a ∨ ∃ t, o = .going a t

theorem respond_has {whole : Bool} {w x v : Val} {t : Talk} (h : (respond whole w x t).has v) : v = w ∨ v = x := by
  unfold respond at h
  split at h
  · split at h <;> first
    | (unfold assigned at h; split at h <;> rcases h with h | ⟨_, h⟩ <;> cases h <;> simp)
    | (rcases h with h | ⟨_, h⟩ <;> cases h <;> simp)
  · unfold assigned at h; split at h <;> rcases h with h | ⟨_, h⟩ <;> cases h <;> simp

theorem meet_has {p : Pat} {r : Rep} {whole : Bool} {v w v' : Val} {t : Talk} (hw : Partly p r v w) (h : (meet p r whole w t).has v') : Partly p r v v' := by
  unfold meet at h
  split at h
  · rcases h with h | ⟨_, h⟩ <;> cases h
  · rcases h with h | ⟨_, h⟩ <;> cases h; exact hw
  · next m hm =>
    split at h
    · rcases h with h | ⟨_, h⟩ <;> cases h
    · next x hx =>
      rcases respond_has h with rfl | rfl
      · exact hw
      · exact .hit hw hm hx

theorem eachKey_has {p : Pat} {r : Rep} {d : List (String × Val)} : ∀ (l : List (String × Val)) (D D' : List (String × Val)) (t : Talk),
    (∀ kv ∈ l, PyDict.get? d kv.1 = some kv.2 ∧ ∀ t v', (walk p r false kv.2 t).has v' → Partly p r kv.2 v') → PyDict.keys D = PyDict.keys d →
    (∀ k v v', PyDict.get? d k = some v → PyDict.get? D k = some v' → Partly p r v v') →
    (eachKey (l.map fun kv => (kv.1, walk p r false kv.2)) D t).has D' →
    PyDict.keys D' = PyDict.keys d ∧ ∀ k v v', PyDict.get? d k = some v → PyDict.get? D' k = some v' → Partly p r v v'
  | [], D, D', t, _, hk, hD, h => by
    rw [List.map_nil, eachKey] at h
    rcases h with h | ⟨_, h⟩ <;> cases h
    exact ⟨hk, hD⟩
  | (k, v) :: l, D, D', t, ih, hk, hD, h => by
    have hv := ih (k, v) List.mem_cons_self
    have step : ∀ v', (walk p r false v t).has v' → PyDict.keys (PyDict.set D k v') = PyDict.keys d ∧
        ∀ j u u', PyDict.get? d j = some u → PyDict.get? (PyDict.set D k v') j = some u' → Partly p r u u' := by
      intro v' hv'
      refine ⟨?_, ?_⟩
      · rw [PyDict.keys_set, if_pos (by rw [hk]; exact PyDict.mem_keys_of_get? hv.1), hk]
      · intro j u u' h1 h2
        by_cases hj : k = j
        · subst hj
          rw [PyDict.get?_set_self] at h2
          have h3 := hv.1
          simp only [] at h3
          rw [h1] at h3
          cases h2; cases h3
          exact hv.2 t _ hv'
        · rw [PyDict.get?_set_ne _ _ hj] at h2
          exact hD j u u' h1 h2
    rw [List.map_cons, eachKey] at h
    split at h
    · rcases h with h | ⟨_, h⟩ <;> cases h
    · rcases h with h | ⟨_, h⟩ <;> cases h
    · next v' hw =>
      rcases h with h | ⟨_, h⟩ <;> cases h
      exact step v' (.inl hw)
    · next v' t' hw =>
      obtain ⟨h1, h2⟩ := step v' (.inr ⟨t', hw⟩)
      exact eachKey_has l _ D' t' (fun kv hm => ih kv (List.mem_cons_of_mem _ hm)) h1 h2 h

theorem walkL_has {p : Pat} {r : Rep} : ∀ (xs ys : List Val) (t : Talk), (∀ x ∈ xs, ∀ t v', (walk p r false x t).has v' → Partly p r x v') →
    (walkL p r xs t).has ys → xs.length = ys.length ∧ ∀ (i : Nat) x y, xs[i]? = some x → ys[i]? = some y → Partly p r x y
  | [], ys, t, _, h => by
    rw [walkL] at h
    rcases h with h | ⟨_, h⟩ <;> cases h
    exact ⟨rfl, by simp⟩
  | x :: xs, ys, t, ih, h => by
    have ihx := ih x List.mem_cons_self
    have cons : ∀ {y : Val} {ys : List Val}, Partly p r x y → (xs.length = ys.length ∧ ∀ (i : Nat) x y, xs[i]? = some x → ys[i]? = some y → Partly p r x y) →
        (x :: xs).length = (y :: ys).length ∧ ∀ (i : Nat) x' y', (x :: xs)[i]? = some x' → (y :: ys)[i]? = some y' → Partly p r x' y' := by
      intro y ys h1 h2
      refine ⟨by simp [h2.1], ?_⟩
      intro i
      cases i with
      | zero => intro x' y' e1 e2; simp only [List.getElem?_cons_zero, Option.some.injEq] at e1 e2; subst e1 e2; exact h1
      | succ i => intro x' y' e1 e2; exact h2.2 i x' y' (by simpa using e1) (by simpa using e2)
    rw [walkL] at h
    split at h
    · rcases h with h | ⟨_, h⟩ <;> cases h
    · rcases h with h | ⟨_, h⟩ <;> cases h
    · next x' hx =>
      rcases h with h | ⟨_, h⟩ <;> cases h
      refine cons (ihx t _ (.inl hx)) ⟨rfl, ?_⟩
      intro i a b e1 e2; rw [e1] at e2; cases e2; exact .same _
    · next x' t' hx =>
      have h1 := ihx t _ (.inr ⟨t', hx⟩)
      split at h
      · rcases h with h | ⟨_, h⟩ <;> cases h
      · rcases h with h | ⟨_, h⟩ <;> cases h
      · next xs' hxs =>
        rcases h with h | ⟨_, h⟩ <;> cases h
        exact cons h1 (walkL_has xs xs' t' (fun y hy => ih y (List.mem_cons_of_mem _ hy)) (.inl hxs))
      · next xs' t'' hxs =>
        rcases h with h | ⟨_, h⟩ <;> cases h
        exact cons h1 (walkL_has xs xs' t' (fun y hy => ih y (List.mem_cons_of_mem _ hy)) (.inr ⟨t'', hxs⟩))

theorem walk_has {p : Pat} {r : Rep} {v : Val} (ht : Tidy v) : ∀ (whole : Bool) (t : Talk) (v' : Val), (walk p r whole v t).has v' → Partly p r v v' := by
  revert ht
  refine val_ind (P := fun v => Tidy v → ∀ (whole : Bool) (t : Talk) (v' : Val), (walk p r whole v t).has v' → Partly p r v v') ?_ ?_ ?_ v
  · intro d ih ht whole t v' h
    have hn : (PyDict.keys d).Nodup := ht [] d (.here _)
    have hb : byKey (walkD p r d) = (byKey d).map fun kv => (kv.1, walk p r false kv.2) := by rw [walkD_map]; exact byKey_map _ _
    have key : ∀ D', (eachKey (byKey (walkD p r d)) d t).has D' → Partly p r (.dict d) (.dict D') := by
      intro D' hD
      rw [hb] at hD
      have h := eachKey_has (p := p) (r := r) (d := d) (byKey d) d D' t (fun kv hm => ⟨PyDict.get?_of_mem hn (mem_byKey.1 hm),
        fun t v' => ih kv.1 kv.2 (mem_byKey.1 hm) (ht.key (mem_byKey.1 hm)) false t v'⟩) rfl
        (fun k v v' e1 e2 => by rw [e1] at e2; cases e2; exact .same _) hD
      exact .dict h.1 h.2
    rw [walk] at h
    split at h
    · rcases h with h | ⟨_, h⟩ <;> cases h
    · rcases h with h | ⟨_, h⟩ <;> cases h
    · next d' hd =>
      rcases h with h | ⟨_, h⟩ <;> cases h
      exact key d' (.inl hd)
    · next d' t' hd => exact meet_has (key d' (.inr ⟨t', hd⟩)) h
  · intro xs ih ht whole t v' h
    have key : ∀ ys, (walkL p r xs t).has ys → Partly p r (.arr xs) (.arr ys) := by
      intro ys hys
      have h := walkL_has (p := p) (r := r) xs ys t (fun x hx t v' => by
        obtain ⟨i, hi, he⟩ := List.getElem_of_mem hx
        exact ih x hx (ht.pos (i := i) (by rw [List.getElem?_eq_getElem hi, he])) false t v') hys
      exact .arr h.1 h.2
    rw [walk] at h
    split at h
    · rcases h with h | ⟨_, h⟩ <;> cases h
    · rcases h with h | ⟨_, h⟩ <;> cases h
    · next d' hd =>
      rcases h with h | ⟨_, h⟩ <;> cases h
      exact key d' (.inl hd)
    · next d' t' hd => exact meet_has (key d' (.inr ⟨t', hd⟩)) h
  · intro v h1 h2 _ whole t v' h
    rw [walk_leaf h1 h2] at h
    exact meet_has (.same v) h

/-- With every outcome, what is different in the document was a match and is the replacement. -/
theorem change_partly {pat rep : Src} {p : Pat} {r : Rep} {doc : Val} (ht : Tidy doc) (hp : regex (parse pat) = .ok p) (hr : replacement (parse rep) = .ok r)
    (answers : List Answer) : Partly p r doc (change pat rep doc answers).1 := by
  unfold change
  simp only [hp, hr]
  cases h : walk p r true doc ⟨answers, true⟩ with
  | going v t => exact walk_has ht true _ v (.inr ⟨t, h⟩)
  | stopped v => exact walk_has ht true _ v (.inl h)
  | reverted => exact .same _
  | failed e => exact .same _

/-- If for each match it is answered whether to replace it, the document becomes what is chosen. -/
theorem change_chosen {pat rep : Src} {p : Pat} {r : Rep} {doc doc' : Val} {answers : List Answer} {bs : List Bool} {t : Talk} (ht : Tidy doc)
    (hp : regex (parse pat) = .ok p) (hr : replacement (parse rep) = .ok r) (he : Edits p r .whole doc bs doc') (hc : Chooses ⟨answers, true⟩ bs t) :
    change pat rep doc answers = (doc', none) := by
  unfold change
  simp only [hp, hr]
  rw [(walk_going ht true doc' ⟨answers, true⟩ t).2 ⟨bs, he, hc⟩]
  rfl

/-- After an exception the document is as it was. -/
theorem change_error {pat rep : Src} {doc : Val} {answers : List Answer} {e : Err} (h : (change pat rep doc answers).2 = some e) :
    (change pat rep doc answers).1 = doc := by
  unfold change at h ⊢
  cases hp : regex (parse pat) with
  | error e => rfl
  | ok p =>
    cases hr : replacement (parse rep) with
    | error e => rfl
    | ok r =>
      simp only [hp, hr] at h ⊢
      cases hw : walk p r true doc ⟨answers, true⟩ <;> rw [hw] at h <;> first | rfl | cases h

/-- When there is nothing to answer `no` to, or `no` is always answered, the document is as it was. -/
theorem edits_no {p : Pat} {r : Rep} {s : Stage} {v v' : Val} {bs : List Bool} (he : Edits p r s v bs v') (ht : Tidy v) (hb : ∀ b ∈ bs, b = false) : v' = v := by
  induction he with
  | leaf _ _ => rfl
  | @dict d d' es ho hk hd hd' h ih =>
    have hn : (PyDict.keys d).Nodup := ht [] d (.here _)
    have hsame : ∀ e ∈ es, e.new = e.val := by
      intro e he
      exact ih e he (ht.key ((hd _ _).2 ⟨e, he, rfl, rfl⟩)) (fun b hb' => hb b (List.mem_flatMap.2 ⟨e, he, hb'⟩))
    refine congrArg Val.dict (dict_ext hk (hk ▸ hn) ?_)
    intro k
    by_cases hm : k ∈ PyDict.keys d
    · obtain ⟨⟨k', v0⟩, hm0, rfl⟩ := List.mem_map.1 hm
      obtain ⟨e, he, hek, hev⟩ := (hd _ _).1 hm0
      rw [PyDict.get?_of_mem hn hm0, PyDict.get?_of_mem (by rw [PyDict.WF, hk]; exact hn) ((hd' _ _).2 ⟨e, he, hek, rfl⟩), hsame e he, hev]
    · rw [(PyDict.get?_eq_none_iff _ _).2 (hk ▸ hm), (PyDict.get?_eq_none_iff _ _).2 hm]
  | @arr es h ih =>
    refine congrArg Val.arr (List.map_congr_left fun e he => ?_)
    obtain ⟨i, hi, hie⟩ := List.getElem_of_mem he
    refine ih e he (ht.pos (i := i) ?_) (fun b hb' => hb b (List.mem_flatMap.2 ⟨e, he, hb'⟩))
    rw [List.getElem?_map, List.getElem?_eq_getElem hi, hie]; rfl
  | miss _ h hm ih => exact ih ht hb
  | skip _ h hm hx ih => exact ih ht (fun b hb' => hb b (List.mem_append_left _ hb'))
  | hit h hm hx ih => exact absurd (hb true (by simp)) (by simp)

/-- After `all` nothing more is asked and each match is replaced. -/
theorem chooses_all {as : List Answer} {bs : List Bool} {t : Talk} : Chooses ⟨.all :: as, true⟩ bs t ↔
    (bs = [] ∧ t = ⟨.all :: as, true⟩) ∨ (bs ≠ [] ∧ (∀ b ∈ bs, b = true) ∧ t = ⟨as, false⟩) := by
  have key : ∀ {bs : List Bool} {t : Talk}, Chooses ⟨as, false⟩ bs t ↔ (∀ b ∈ bs, b = true) ∧ t = ⟨as, false⟩ := by
    intro bs t
    induction bs with
    | nil => simp [chooses_nil]
    | cons b bs ih =>
      constructor
      · intro h
        cases h with
        | silent h => obtain ⟨h1, h2⟩ := ih.1 h; exact ⟨by simpa using h1, h2⟩
      · rintro ⟨h1, h2⟩
        have := h1 b List.mem_cons_self
        subst this
        exact .silent (ih.2 ⟨fun b hb => h1 b (List.mem_cons_of_mem _ hb), h2⟩)
  constructor
  · intro h
    cases h with
    | done t => exact .inl ⟨rfl, rfl⟩
    | all h => obtain ⟨h1, h2⟩ := key.1 h; exact .inr ⟨by simp, by simpa using h1, h2⟩
  · rintro (⟨rfl, rfl⟩ | ⟨h0, h1, rfl⟩)
    · exact .done _
    · cases bs with
      | nil => exact absurd rfl h0
      | cons b bs =>
        have := h1 b List.mem_cons_self
        subst this
        exact .all (key.2 ⟨fun b hb => h1 b (List.mem_cons_of_mem _ hb), rfl⟩)

/-- After `revert` the document is as it was, whatever was replaced before. -/
theorem change_revert {pat rep : Src} {p : Pat} {r : Rep} {doc : Val} {answers : List Answer} (hp : regex (parse pat) = .ok p)
    (hr : replacement (parse rep) = .ok r) (h : walk p r true doc ⟨answers, true⟩ = .reverted) : change pat rep doc answers = (doc, none) := by
  unfold change
  simp only [hp, hr, h]
  rfl

/-- The whole document cannot be replaced: if it is a match and the answer is `yes`, there is an IndexError. -/
theorem whole_violation {v : Val} (h1 : ∀ d, v ≠ .dict d) (h2 : ∀ xs, v ≠ .arr xs) (i : Int) (as : List Answer) :
    change .under (.int i) v (.yes :: as) = (v, some indexErr) := by
  have hp : regex (parse .under) = .ok (.any []) := by simp [parse, build, regex]
  have hr : replacement (parse (.int i)) = .ok (.leaf (.int i)) := by simp [parse, build, replacement]
  unfold change
  simp only [hp, hr]
  rw [walk_leaf h1 h2]
  simp [meet, getmatch, same, replace, respond, next, assigned, finish]

/-- `(n)` in a replacement stands for what the group with this number matches. -/
theorem ref_group (n : Nat) : replacement (parse (.all [.int n])) = .ok (.ref (toString n)) ∧
    ∀ (q : Pat) (v : Val) (m : Match), getmatch (.group (toString n) q) v = .ok (some m) → replace m.groups (.ref (toString n)) = .ok m.modified := by
  refine ⟨by simp [parse, build, buildL, replacement, refOf]; rfl, ?_⟩
  intro q v m h
  rw [getmatch] at h
  split at h
  · split at h
    · cases h
    · cases h
    · cases h; simp [replace]
  · cases h

/-- A number that no group has is refused, and nothing is changed. -/
theorem ref_missing {g : PyDict String Val} {n : String} (h : n ∉ PyDict.keys g) : replace g (.ref n) = .error (.py "InspectorError") := by
  rw [replace, (PyDict.get?_eq_none_iff _ _).2 h]

/-- In `[1, 2, 1]` the second 1 is replaced with 5 when the answers are `no` and `all`. -/
example : change (.int 1) (.int 5) (.arr [.int 1, .int 2, .int 1]) [.other, .no, .all] = (.arr [.int 1, .int 2, .int 5], none) := by
  have ht : Tidy (.arr [.int 1, .int 2, .int 1]) := by
    intro js d h
    cases h with
    | pos hm h =>
      rename_i i c js
      have : c = .int 1 ∨ c = .int 2 := by
        rcases i with _ | _ | _ | i <;> simp at hm <;> simp [← hm]
      rcases this with rfl | rfl <;> cases h
  have hp : regex (parse (.int 1)) = .ok (.lit (.int 1)) := by simp [parse, build, regex]
  have hr : replacement (parse (.int 5)) = .ok (.leaf (.int 5)) := by simp [parse, build, replacement]
  have h1 : ∀ (d : List (String × Val)), Val.int 1 ≠ .dict d := by simp
  have e1 : Edits (.lit (.int 1)) (.leaf (.int 5)) .part (.int 1) [false] (.int 1) :=
    .skip (bs := []) (m := ⟨.int 1, .int 1, []⟩) (x := .int 5) (by simp) (.leaf (by simp) (by simp))
      (by simp [getmatch, same, litEq, num?, fle]) (by simp [replace])
  have e2 : Edits (.lit (.int 1)) (.leaf (.int 5)) .part (.int 2) [] (.int 2) :=
    .miss (by simp) (.leaf (by simp) (by simp)) (by simp [getmatch, same, litEq, num?, fle])
  have e3 : Edits (.lit (.int 1)) (.leaf (.int 5)) .part (.int 1) [true] (.int 5) :=
    .hit (bs := []) (m := ⟨.int 1, .int 1, []⟩) (.leaf (by simp) (by simp)) (by simp [getmatch, same, litEq, num?, fle]) (by simp [replace])
  refine change_chosen (bs := [false, true]) (t := ⟨[], false⟩) ht hp hr (.miss (by simp) ?_ ?_) (.again (.no (.all (.done _))))
  · refine .arr (es := [(.int 1, [false], .int 1), (.int 2, [], .int 2), (.int 1, [true], .int 5)]) ?_
    intro e he
    simp only [List.mem_cons, List.not_mem_nil, or_false] at he
    rcases he with rfl | rfl | rfl
    · exact e1
    · exact e2
    · exact e3
  · simp [getmatch, same, litEq, num?]

/-! ## Finding -/

mutual
theorem safe_sane : ∀ (p : Pat), p.safe = true → p.sane = true
  | .dict ps, h => by rw [Pat.sane]; exact safeD_sane ps (by simpa [Pat.safe] using h)
  | .min ps, h => by rw [Pat.sane]; exact safeD_sane ps (by simpa [Pat.safe] using h)
  | .arr ps, h => by rw [Pat.sane]; exact safeL_sane ps (by simpa [Pat.safe] using h)
  | .start ps, h => by rw [Pat.sane]; exact safeL_sane ps (by simpa [Pat.safe] using h)
  | .end_ ps, h => by rw [Pat.sane]; exact safeL_sane ps (by simpa [Pat.safe] using h)
  | .or ps, h => by rw [Pat.sane]; exact safeL_sane ps (by simpa [Pat.safe] using h)
  | .and ps, h => by rw [Pat.sane]; exact safeL_sane ps (by simpa [Pat.safe] using h)
  | .group _ p, h => by
    simp only [Pat.safe, Bool.and_eq_true] at h
    rw [Pat.sane, h.1, safe_sane p h.2]; rfl
  | .lit _, _ => by simp [Pat.sane]
  | .null, _ => by simp [Pat.sane]
  | .approx _ _, _ => by simp [Pat.sane]
  | .lt _, _ => by simp [Pat.sane]
  | .le _, _ => by simp [Pat.sane]
  | .gt _, _ => by simp [Pat.sane]
  | .ge _, _ => by simp [Pat.sane]
  | .regex _ _, _ => by simp [Pat.sane]
  | .any _, _ => by simp [Pat.sane]
theorem safeD_sane : ∀ (ps : List (String × Pat)), safeD ps = true → saneD ps = true
  | [], _ => by simp [saneD]
  | (_, p) :: ps, h => by
    simp only [safeD, Bool.and_eq_true] at h
    rw [saneD, safe_sane p h.1, safeD_sane ps h.2]; rfl
theorem safeL_sane : ∀ (ps : List Pat), safeL ps = true → saneL ps = true
  | [], _ => by simp [saneL]
  | p :: ps, h => by
    simp only [safeL, Bool.and_eq_true] at h
    rw [saneL, safe_sane p h.1, safeL_sane ps h.2]; rfl
end

theorem noNan_sub {v w : Val} {js : List Ix} (h : NoNan v) (hs : Producer.Sub v js w) : NoNan w := by
  induction hs with
  | here _ => exact h
  | key hm _ ih => exact ih (h.key hm)
  | pos hm _ ih => exact ih (h.pos hm)

/-- `json index` and `json count` (jsongadget.py 223 and 301) find every place that is as the typed pattern says, and only those, each once and in order. -/
theorem index_typed_partial {s : Src} {v : Val} (hs : s.fair = true) (ht : Tidy v) (hv : NoNan v) : ∃ p is, regex (parse s) = .ok p ∧
    indexes p v = .ok is ∧ is.Nodup ∧ is.Pairwise Before ∧ count p v = .ok is.length ∧ ∀ js, js ∈ is ↔ ∃ w, Producer.Sub v js w ∧ Typed s w := by
  obtain ⟨p, h1, h2, h3⟩ := regex_fits s 1 hs
  obtain ⟨is, h4, h5, h6, h7, h8⟩ := indexes_spec (safe_sane p h2) ht
  refine ⟨p, is, h1, h4, h5, h6, h7, fun js => (h8 js).trans ⟨?_, ?_⟩⟩
  · rintro ⟨w, m, hw, hm⟩
    exact ⟨w, hw, (h3 w).1 ((getmatch_means h2 (noNan_sub hv hw)).1 ⟨m, hm⟩)⟩
  · rintro ⟨w, hw, hT⟩
    obtain ⟨m, hm⟩ := (getmatch_means h2 (noNan_sub hv hw)).2 ((h3 w).2 hT)
    exact ⟨w, m, hw, hm⟩

/-! ## A part of a document -/

/-- A part that is named in square brackets becomes what is chosen, and what is elsewhere stays. -/
theorem changeIn_chosen {items : List Ix} {pat rep : Src} {p : Pat} {r : Rep} {doc node node' doc' : Val} {answers : List Answer} {bs : List Bool} {t : Talk}
    (hi : items ≠ []) (hg : extaction doc items = .ok node) (ht : Tidy node)
    (hp : regex (parse pat) = .ok p) (hr : replacement (parse rep) = .ok r) (he : Edits p r .whole node bs node') (hc : Chooses ⟨answers, true⟩ bs t)
    (ha : assign doc items node' = .ok doc') :
    changeIn items pat rep doc answers = (doc', none) ∧ get doc' items = .ok node' ∧
      ((∀ i ∈ items, i.plain) → ∀ js, (∀ i ∈ js, i.plain) → Apart items js → get doc' js = get doc js) := by
  refine ⟨?_, get_assign ha, fun h1 js h2 h3 => get_assign_other h1 h2 h3 ha⟩
  unfold changeIn
  simp only [hg, hp, hr]
  rw [(walk_going ht true node' ⟨answers, true⟩ t).2 ⟨bs, he, hc⟩]
  cases items with
  | nil => exact absurd rfl hi
  | cons i is => simp only [within, ha]; rfl

theorem extaction_get : ∀ {items : List Ix} {doc v : Val}, extaction doc items = .ok v ↔ Producer.get doc items = .ok v
  | [], _, _ => by rw [extaction, Producer.get]
  | i :: is, doc, v => by
    rw [extaction, Producer.get]
    cases step doc i with
    | error e => simp
    | ok w => exact extaction_get

/-- After an exception the document is as it was. -/
theorem changeIn_error {items : List Ix} {pat rep : Src} {doc : Val} {answers : List Answer} {e : Err} (h : (changeIn items pat rep doc answers).2 = some e) :
    (changeIn items pat rep doc answers).1 = doc := by
  unfold changeIn at h ⊢
  cases hn : extaction doc items with
  | error e => rfl
  | ok node =>
    cases hp : regex (parse pat) with
    | error e => rfl
    | ok p =>
      cases hr : replacement (parse rep) with
      | error e => rfl
      | ok r =>
        simp only [hn, hp, hr] at h ⊢
        cases hw : within doc items (walk p r true node ⟨answers, true⟩) <;> rw [hw] at h <;> first | rfl | cases h

/-- A number in square brackets where there is an object gives a KeyError and not the message of the inspector. -/
theorem extaction_violation (d : List (String × Val)) (i : Int) (k : String) (hk : k ∉ PyDict.keys d) :
    extaction (.dict d) [.pos i] = .error keyErr ∧ extaction (.dict d) [.key k] = .error (.py "InspectorError") := by
  refine ⟨?_, ?_⟩
  · simp [extaction, step, caught, keyErr, indexErr, typeErr]
  · simp [extaction, step, caught, (PyDict.get?_eq_none_iff _ _).2 hk]

/-! ## Depth -/

mutual
/-- How deep a document is: 0 for what has no parts, else one more than its deepest part. -/
def depth : Val → Nat
  | .dict d => 1 + depthD d
  | .arr xs => 1 + depthL xs
  | _ => 0
@[inherit_doc depth] def depthD : List (String × Val) → Nat
  | [] => 0
  | (_, v) :: d => max (depth v) (depthD d)
@[inherit_doc depth] def depthL : List Val → Nat
  | [] => 0
  | v :: xs => max (depth v) (depthL xs)
end

mutual
theorem depth_iff : ∀ (v : Val) (t : Int), depthGreaterThan v t = true ↔ t < depth v
  | .dict d, t => by
    rw [depthGreaterThan, depth, Bool.or_eq_true, anyD_iff]
    cases d with
    | nil => simp [depthD]; omega
    | cons x d => simp; omega
  | .arr xs, t => by
    rw [depthGreaterThan, depth, Bool.or_eq_true, anyL_iff]
    cases xs with
    | nil => simp [depthL]; omega
    | cons x d => simp; omega
  | .null, t => by simp [depthGreaterThan, depth]
  | .bool _, t => by simp [depthGreaterThan, depth]
  | .int _, t => by simp [depthGreaterThan, depth]
  | .flt _, t => by simp [depthGreaterThan, depth]
  | .str _, t => by simp [depthGreaterThan, depth]
  | .bytes _, t => by simp [depthGreaterThan, depth]
theorem anyD_iff : ∀ (d : List (String × Val)) (t : Int), anyD d t = true ↔ d ≠ [] ∧ t < depthD d
  | [], t => by simp [anyD]
  | (_, v) :: d, t => by
    rw [anyD, Bool.or_eq_true, depth_iff v t, anyD_iff d t, depthD]
    cases d with
    | nil => simp [depthD]
    | cons x d => simp
theorem anyL_iff : ∀ (xs : List Val) (t : Int), anyL xs t = true ↔ xs ≠ [] ∧ t < depthL xs
  | [], t => by simp [anyL]
  | v :: xs, t => by
    rw [anyL, Bool.or_eq_true, depth_iff v t, anyL_iff xs t, depthL]
    cases xs with
    | nil => simp [depthL]
    | cons x d => simp
end

/-- `depthGreaterThan` compares the depth. -/
theorem depthGreaterThan_spec (v : Val) (t : Int) : depthGreaterThan v t = true ↔ t < depth v := depth_iff v t

end Verif.Inspector
