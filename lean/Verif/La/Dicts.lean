import Verif.La.Model
import Mathlib.Algebra.BigOperators.Finprod
import Mathlib.Data.Rat.Defs
/-! # Maps of maps are matrices with named rows and columns (C66)

A map of maps stands for a function of two names that is zero almost everywhere.  The specification uses that
function and sums over all names. -/

namespace Verif.La
open PyDict

variable {α : Type}

/-- The entry stored under two names. -/
def cell (x : Maps α) (i j : String) : Option α := (x.get? i).bind (·.get? j)

/-- The number a map of maps stands for: missing entries are zero. -/
def entry [Zero α] (x : Maps α) (i j : String) : α :=
  match cell x i j with
  | some v => v
  | none => 0

/-- The number a map stands for. -/
def coord [Zero α] (x : PyDict String α) (i : String) : α :=
  match x.get? i with
  | some v => v
  | none => 0

/-- Keys do not repeat, in the map and in every row. -/
def Good (x : Maps α) : Prop := x.WF ∧ ∀ r ∈ x, r.2.WF

theorem at0_entry [Zero α] (x : Maps α) (i j : String) : at0 x i j = entry x i j := by
  unfold at0 entry cell
  cases h : x.get? i with
  | none => simp
  | some r =>
    simp only [Option.getD_some, Option.bind_some]
    cases r.get? j <;> rfl

theorem get0_coord [Zero α] (x : PyDict String α) (i : String) : get0 x i = coord x i := by
  unfold get0 coord
  cases x.get? i <;> rfl

theorem mem_union (a b : List String) (k : String) : k ∈ union a b ↔ k ∈ a ∨ k ∈ b := by
  unfold union
  simp only [List.mem_append, List.mem_filter, decide_eq_true_eq]
  by_cases h : k ∈ a <;> simp [h]

theorem nodup_union {a b : List String} (ha : a.Nodup) (hb : b.Nodup) : (union a b).Nodup := by
  unfold union
  refine List.nodup_append.2 ⟨ha, hb.filter _, ?_⟩
  intro p hp q hq he
  subst he
  simp at hq
  exact hq.2 hp

theorem mem_foldl_union (x : Maps α) (a : List String) (k : String) :
    k ∈ x.foldl (fun a r => union a r.2.keys) a ↔ k ∈ a ∨ ∃ r ∈ x, k ∈ r.2.keys := by
  induction x generalizing a with
  | nil => simp
  | cons r x ih =>
    rw [List.foldl_cons, ih, mem_union]
    simp only [List.mem_cons, exists_eq_or_imp, or_assoc]

theorem mem_colKeys (x : Maps α) (k : String) : k ∈ colKeys x ↔ ∃ r ∈ x, k ∈ r.2.keys := by
  unfold colKeys
  rw [mem_foldl_union]
  simp

theorem nodup_colKeys {x : Maps α} (hx : Good x) : (colKeys x).Nodup := by
  unfold colKeys
  have : ∀ (y : Maps α) (a : List String), (∀ r ∈ y, r.2.WF) → a.Nodup →
      (y.foldl (fun a r => union a r.2.keys) a).Nodup := by
    intro y
    induction y with
    | nil => intro a _ ha; exact ha
    | cons r y ih =>
      intro a h ha
      exact ih _ (fun s hs => h s (List.mem_cons_of_mem _ hs)) (nodup_union ha (h r List.mem_cons_self))
  exact this x [] hx.2 List.nodup_nil

theorem keys_build {β : Type} (ks : List String) (f : String → β) : (build ks f).keys = ks := by
  simp [build, PyDict.keys, Function.comp_def]

theorem get?_build {β : Type} (ks : List String) (f : String → β) (k : String) :
    (build ks f).get? k = if k ∈ ks then some (f k) else none := by
  induction ks with
  | nil => rfl
  | cons a ks ih =>
    show PyDict.get? ((a, f a) :: build ks f) k = _
    rw [get?_cons, ih]
    by_cases h : a = k
    · subst h; simp
    · have : k ≠ a := fun e => h e.symm
      simp [h, this]

theorem cell_some_keys {x : Maps α} {i j : String} {v : α} (h : cell x i j = some v) : i ∈ rowKeys x ∧ j ∈ colKeys x := by
  unfold cell at h
  cases hr : x.get? i with
  | none => rw [hr] at h; simp at h
  | some r =>
    rw [hr] at h
    exact ⟨mem_keys_of_get? hr, (mem_colKeys x j).2 ⟨_, mem_of_get? hr, mem_keys_of_get? h⟩⟩

theorem entry_ne [Zero α] {x : Maps α} {i j : String} (h : entry x i j ≠ 0) : i ∈ rowKeys x ∧ j ∈ colKeys x := by
  unfold entry at h
  cases hc : cell x i j with
  | none => rw [hc] at h; simp at h
  | some v => exact cell_some_keys hc

theorem coord_ne [Zero α] {x : PyDict String α} {i : String} (h : coord x i ≠ 0) : i ∈ rowKeys x := by
  unfold coord at h
  cases hc : x.get? i with
  | none => rw [hc] at h; simp at h
  | some v => exact mem_keys_of_get? hc

theorem cell_build2 (rs cs : List String) (f : String → String → α) (i j : String) :
    cell (build rs fun i => build cs fun j => f i j) i j = if i ∈ rs ∧ j ∈ cs then some (f i j) else none := by
  unfold cell
  rw [get?_build]
  by_cases h : i ∈ rs
  · simp only [h, if_true, Option.bind_some, get?_build, true_and]
  · simp [h]

theorem good_build2 {rs cs : List String} (hr : rs.Nodup) (hc : cs.Nodup) (f : String → String → α) :
    Good (build rs fun i => build cs fun j => f i j) := by
  refine ⟨by unfold PyDict.WF; rw [keys_build]; exact hr, ?_⟩
  intro r hrm
  simp only [build, List.mem_map] at hrm
  obtain ⟨i, _, rfl⟩ := hrm
  show (PyDict.keys (build cs _)).Nodup
  rw [keys_build]; exact hc

/-! ## Entry by entry -/

theorem get?_mapSnd {β γ : Type} (g : β → γ) (x : PyDict String β) (k : String) :
    PyDict.get? (x.map fun c => (c.1, g c.2)) k = (x.get? k).map g := by
  induction x with
  | nil => rfl
  | cons c x ih =>
    obtain ⟨a, v⟩ := c
    rw [List.map_cons, get?_cons, get?_cons, ih]
    split <;> rfl

/-- `la.map`. -/
theorem mapMaps_cell {β : Type} (f : α → β) (x : Maps α) (i j : String) : cell (mapMaps f x) i j = (cell x i j).map f := by
  unfold cell mapMaps
  rw [get?_mapSnd (fun r : PyDict String α => r.map fun c => (c.1, f c.2))]
  cases x.get? i with
  | none => rfl
  | some r => simp only [Option.map_some, Option.bind_some]; exact get?_mapSnd f r j

/-- `la.scale`. -/
theorem scaleMaps_entry [MulZeroClass α] (x : Maps α) (a : α) (i j : String) :
    entry (scaleMaps x a) i j = entry x i j * a := by
  unfold entry
  have : cell (scaleMaps x a) i j = (cell x i j).map (· * a) := mapMaps_cell (· * a) x i j
  rw [this]
  cases cell x i j <;> simp

theorem scaleMap_coord [MulZeroClass α] (x : PyDict String α) (a : α) (i : String) : coord (scaleMap x a) i = coord x i * a := by
  unfold coord scaleMap
  rw [get?_mapSnd (fun v : α => v * a)]
  cases x.get? i <;> simp

/-- `la.zipmap`, `la.add` and `la.sub` on maps of maps: the entries of the result. -/
theorem zipMaps_cell [Zero α] (f : α → α → α) (x y : Maps α) (i j : String) :
    cell (zipMaps f x y) i j =
      if (i ∈ x.keys ∨ i ∈ y.keys) ∧ ((∃ r ∈ x, j ∈ r.2.keys) ∨ (∃ r ∈ y, j ∈ r.2.keys))
      then some (f (entry x i j) (entry y i j)) else none := by
  unfold zipMaps
  rw [cell_build2]
  simp only [mem_union, mem_colKeys, rowKeys, at0_entry]

theorem zipMaps_entry [Zero α] (f : α → α → α) (hf : f 0 0 = 0) (x y : Maps α) (i j : String) :
    entry (zipMaps f x y) i j = f (entry x i j) (entry y i j) := by
  conv_lhs => unfold entry
  rw [zipMaps_cell]
  split
  · next h => split at h
              · cases h; rfl
              · cases h
  · next h =>
    split at h
    · cases h
    · next hn =>
      have hx : entry x i j = 0 := by
        by_contra hne
        have := entry_ne hne
        exact hn ⟨.inl this.1, .inl ((mem_colKeys x j).1 this.2)⟩
      have hy : entry y i j = 0 := by
        by_contra hne
        have := entry_ne hne
        exact hn ⟨.inr this.1, .inr ((mem_colKeys y j).1 this.2)⟩
      rw [hx, hy, hf]

theorem zipMaps_good [Zero α] (f : α → α → α) {x y : Maps α} (hx : Good x) (hy : Good y) : Good (zipMaps f x y) :=
  good_build2 (nodup_union hx.1 hy.1) (nodup_union (nodup_colKeys hx) (nodup_colKeys hy)) _

theorem addMaps_entry [AddZeroClass α] (x y : Maps α) (i j : String) : entry (addMaps x y) i j = entry x i j + entry y i j :=
  zipMaps_entry _ (add_zero 0) x y i j

theorem subMaps_entry [SubtractionMonoid α] (x y : Maps α) (i j : String) : entry (subMaps x y) i j = entry x i j - entry y i j :=
  zipMaps_entry _ (sub_zero 0) x y i j

theorem zipMap_coord [Zero α] (f : α → α → α) (hf : f 0 0 = 0) (x y : PyDict String α) (i : String) :
    coord (zipMap f x y) i = f (coord x i) (coord y i) := by
  conv_lhs => unfold coord
  unfold zipMap
  rw [get?_build]
  by_cases h : i ∈ union (rowKeys x) (rowKeys y)
  · rw [if_pos h]; simp only [get0_coord]
  · rw [if_neg h]
    rw [mem_union, not_or] at h
    have hx : coord x i = 0 := by by_contra hne; exact h.1 (coord_ne hne)
    have hy : coord y i = 0 := by by_contra hne; exact h.2 (coord_ne hne)
    rw [hx, hy, hf]

theorem addMap_coord [AddZeroClass α] (x y : PyDict String α) (i : String) : coord (addMap x y) i = coord x i + coord y i :=
  zipMap_coord _ (add_zero 0) x y i

theorem subMap_coord [SubtractionMonoid α] (x y : PyDict String α) (i : String) : coord (subMap x y) i = coord x i - coord y i :=
  zipMap_coord _ (sub_zero 0) x y i

/-! ## Products -/

section
variable [CommRing α]

/-- A sum over a list without repetition that covers all terms other than zero is the sum over all names. -/
theorem sum_finsum (ks : List String) (hk : ks.Nodup) (g : String → α) (hg : ∀ k, g k ≠ 0 → k ∈ ks) :
    (ks.map g).sum = ∑ᶠ k, g k := by
  rw [finsum_eq_sum_of_support_subset g (s := ks.toFinset)]
  · rw [List.sum_toFinset g hk]
  · intro k h
    simpa using hg k h

/-- `la.dot` of maps of maps is the product: sums over all names of the products of the entries. -/
theorem dotMaps_entry (bad : α → Bool) (x y z : Maps α) (hx : Good x) (hy : Good y) (h : dotMaps bad x y = .ok z) (i j : String) :
    entry z i j = ∑ᶠ k, entry x i k * entry y k j := by
  unfold dotMaps at h
  simp only at h
  split at h
  · cases h
  · split at h
    · cases h
    · injection h with h
      subst h
      conv_lhs => unfold entry
      rw [cell_build2]
      by_cases hij : i ∈ rowKeys x ∧ j ∈ colKeys y
      · rw [if_pos hij]
        simp only [at0_entry]
        apply sum_finsum
        · exact nodup_union (nodup_colKeys hx) hy.1
        · intro k hne
          rw [mem_union]
          left
          exact (entry_ne (left_ne_zero_of_mul hne)).2
      · rw [if_neg hij]
        simp only
        rw [show (fun k => entry x i k * entry y k j) = fun _ => 0 from ?_, finsum_zero]
        funext k
        by_contra hne
        exact hij ⟨(entry_ne (left_ne_zero_of_mul hne)).1, (entry_ne (right_ne_zero_of_mul hne)).2⟩

/-- When `la.dot` of maps of maps succeeds, and what it raises otherwise. -/
theorem dotMaps_result (bad : α → Bool) (x y : Maps α) :
    ((x = [] ∨ (∀ r ∈ y, r.2 = [])) → dotMaps bad x y = .error (.rt 24051)) ∧
    (x ≠ [] → (∃ r ∈ y, r.2 ≠ []) → (∃ r ∈ x ++ y, ∃ c ∈ r.2, bad c.2 = true) → dotMaps bad x y = .error (.rt 24052)) ∧
    (x ≠ [] → (∃ r ∈ y, r.2 ≠ []) → (∀ r ∈ x ++ y, ∀ c ∈ r.2, bad c.2 = false) → ∃ z, dotMaps bad x y = .ok z) := by
  have hcol : ∀ w : Maps α, (colKeys w).length = 0 ↔ ∀ r ∈ w, r.2 = [] := by
    intro w
    rw [List.length_eq_zero_iff, List.eq_nil_iff_forall_not_mem]
    constructor
    · intro h r hr
      by_contra hne
      obtain ⟨c, hc⟩ := List.exists_mem_of_ne_nil _ hne
      exact h c.1 ((mem_colKeys w _).2 ⟨r, hr, List.mem_map_of_mem hc⟩)
    · intro h k hk
      obtain ⟨r, hr, hm⟩ := (mem_colKeys w k).1 hk
      rw [h r hr] at hm
      simp [PyDict.keys] at hm
  have hrow : ∀ w : Maps α, (rowKeys w).length = 0 ↔ w = [] := by
    intro w; simp [rowKeys, PyDict.keys]
  have hgo : x ≠ [] → (∃ r ∈ y, r.2 ≠ []) →
      ¬ ((rowKeys x).length = 0 ∨ (union (colKeys x) (rowKeys y)).length = 0 ∨ (colKeys y).length = 0) := by
    rintro h1 ⟨r, hr, hne⟩ (h | h | h)
    · exact h1 ((hrow x).1 h)
    · rw [List.length_eq_zero_iff, List.eq_nil_iff_forall_not_mem] at h
      exact h r.1 ((mem_union _ _ _).2 (.inr (List.mem_map_of_mem hr)))
    · exact hne ((hcol y).1 h r hr)
  refine ⟨?_, ?_, ?_⟩
  · intro h
    unfold dotMaps
    simp only
    rw [if_pos]
    rcases h with h | h
    · exact .inl ((hrow x).2 h)
    · exact .inr (.inr ((hcol y).2 h))
  · rintro h1 h2 ⟨r, hr, c, hc, hb⟩
    unfold dotMaps
    simp only
    rw [if_neg (hgo h1 h2), if_pos]
    rw [Bool.or_eq_true]
    rcases List.mem_append.1 hr with hr | hr
    · exact .inl (List.any_eq_true.2 ⟨r, hr, List.any_eq_true.2 ⟨c, hc, hb⟩⟩)
    · exact .inr (List.any_eq_true.2 ⟨r, hr, List.any_eq_true.2 ⟨c, hc, hb⟩⟩)
  · intro h1 h2 h3
    unfold dotMaps
    simp only
    rw [if_neg (hgo h1 h2), if_neg]
    · exact ⟨_, rfl⟩
    · rw [Bool.or_eq_true, not_or]
      constructor <;>
      · rw [List.any_eq_true]
        rintro ⟨r, hr, h⟩
        rw [List.any_eq_true] at h
        obtain ⟨c, hc, hb⟩ := h
        rw [h3 r (by simp [hr]) c hc] at hb
        cases hb

/-- `la.dot` of a map of maps and a map. -/
theorem dotMap_coord (bad : α → Bool) (x : Maps α) (y z : PyDict String α) (hx : Good x) (hy : y.WF)
    (h : dotMap bad x y = .ok z) (i : String) : coord z i = ∑ᶠ k, entry x i k * coord y k := by
  unfold dotMap at h
  simp only at h
  split at h
  · cases h
  · split at h
    · cases h
    · injection h with h
      subst h
      conv_lhs => unfold coord
      rw [get?_build]
      by_cases hi : i ∈ rowKeys x
      · rw [if_pos hi]
        simp only [at0_entry, get0_coord]
        apply sum_finsum
        · exact nodup_union (nodup_colKeys hx) hy
        · intro k hne
          rw [mem_union]
          left
          exact (entry_ne (left_ne_zero_of_mul hne)).2
      · rw [if_neg hi]
        simp only
        rw [show (fun k => entry x i k * coord y k) = fun _ => 0 from ?_, finsum_zero]
        funext k
        by_contra hne
        exact hi (entry_ne (left_ne_zero_of_mul hne)).1

/-! ## Trace -/

theorem diagSum_ok (x : Maps α) (ks : List String) (t : α) (h : diagSum x ks = .ok t) :
    t = (ks.map fun k => entry x k k).sum := by
  induction ks generalizing t with
  | nil => unfold diagSum at h; injection h with h; simp [← h]
  | cons k ks ih =>
    unfold diagSum at h
    split at h
    · cases h
    · next v hv =>
      cases hd : diagSum x ks with
      | error e => rw [hd] at h; cases h
      | ok s =>
        rw [hd] at h
        injection h with h
        rw [List.map_cons, List.sum_cons, ← ih s hd, ← at0_entry]
        unfold at0
        rw [hv, ← h]
        rfl

/-- Whenever `la.trace` of a map of maps answers, it is the sum of the diagonal entries. -/
theorem traceMaps_ok (x : Maps α) (hx : Good x) (t : α) (h : traceMaps x = .ok t) : t = ∑ᶠ k, entry x k k := by
  unfold traceMaps at h
  rw [diagSum_ok x _ t h]
  apply sum_finsum
  · exact List.Nodup.filter _ hx.1
  · intro k hne
    have := entry_ne hne
    simp only [List.mem_filter, decide_eq_true_eq]
    exact this

/-- Full statement: `la.trace` answers for every map of maps.  What is missing: the map has a diagonal entry for
every name that is the key of a row and the key of a column. -/
theorem traceMaps_partial (x : Maps α) (hd : ∀ i ∈ x.keys, (∃ r ∈ x, i ∈ r.2.keys) → ∃ v, cell x i i = some v) :
    ∃ t, traceMaps x = .ok t := by
  unfold traceMaps
  have : ∀ ks : List String, (∀ k ∈ ks, ∃ v, cell x k k = some v) → ∃ t, diagSum x ks = .ok t := by
    intro ks
    induction ks with
    | nil => intro _; exact ⟨0, rfl⟩
    | cons k ks ih =>
      intro h
      obtain ⟨t, ht⟩ := ih fun k' hk' => h k' (List.mem_cons_of_mem _ hk')
      obtain ⟨v, hv⟩ := h k List.mem_cons_self
      unfold diagSum
      have : ((x.get? k).getD []).get? k = some v := by
        unfold cell at hv
        cases hr : x.get? k with
        | none => rw [hr] at hv; cases hv
        | some r => rw [hr] at hv; exact hv
      rw [this, ht]
      exact ⟨_, rfl⟩
  apply this
  intro k hk
  simp only [List.mem_filter, decide_eq_true_eq] at hk
  exact hd k hk.1 ((mem_colKeys x k).1 hk.2)

/-- A matrix whose diagonal entry is left out because it is zero has no trace. -/
theorem traceMaps_violation :
    traceMaps ([("a", [("b", 1)]), ("b", [("a", 1)])] : Maps ℚ) = .error (.py "KeyError") := by decide +kernel

end

/-! ## Transposition -/

theorem column_ok (x : Maps α) (rs : List String) (c : String) (d : PyDict String α) (h : column x rs c = .ok d) :
    d.keys = rs ∧ ∀ r, d.get? r = if r ∈ rs then cell x r c else none := by
  induction rs generalizing d with
  | nil => unfold column at h; injection h with h; subst h; simp [PyDict.keys]
  | cons r rs ih =>
    unfold column at h
    split at h
    · cases h
    · next v hv =>
      cases hc : column x rs c with
      | error e => rw [hc] at h; cases h
      | ok d' =>
        rw [hc] at h
        injection h with h
        subst h
        obtain ⟨h1, h2⟩ := ih d' hc
        refine ⟨by simp [PyDict.keys] at h1 ⊢; exact h1, ?_⟩
        intro k
        rw [get?_cons, h2]
        have hcell : cell x r c = some v := by
          unfold cell
          cases hr : x.get? r with
          | none => rw [hr] at hv; simp at hv
          | some row => rw [hr] at hv; exact hv
        by_cases hk : r = k
        · subst hk; simp [hcell]
        · have : k ≠ r := fun e => hk e.symm
          simp [hk, this]

theorem columns_ok (x : Maps α) (rs cs : List String) (d : Maps α) (h : columns x rs cs = .ok d) :
    d.keys = cs ∧ ∀ c r, cell d c r = if c ∈ cs ∧ r ∈ rs then cell x r c else none := by
  induction cs generalizing d with
  | nil => unfold columns at h; injection h with h; subst h; simp [PyDict.keys, cell]
  | cons c cs ih =>
    unfold columns at h
    cases hc : column x rs c with
    | error e => rw [hc] at h; cases h
    | ok d1 =>
      cases hcs : columns x rs cs with
      | error e => rw [hc, hcs] at h; cases h
      | ok d2 =>
        rw [hc, hcs] at h
        injection h with h
        subst h
        obtain ⟨h1, h2⟩ := ih d2 hcs
        obtain ⟨h3, h4⟩ := column_ok x rs c d1 hc
        refine ⟨by simp [PyDict.keys] at h1 ⊢; exact h1, ?_⟩
        intro k r
        have := h2 k r
        unfold cell at this ⊢
        rw [get?_cons]
        by_cases hk : c = k
        · subst hk
          simp only [if_true, Option.bind_some, h4, List.mem_cons, true_or, true_and]
          rfl
        · have hk' : k ≠ c := fun e => hk e.symm
          simp only [hk, if_false, this, List.mem_cons, hk', false_or]

/-- Whenever `la.transpose` of a map of maps answers, rows and columns are exchanged and nothing is lost. -/
theorem transposeMaps_ok (x y : Maps α) (h : transposeMaps x = .ok y) (i j : String) : cell y j i = cell x i j := by
  unfold transposeMaps at h
  simp only at h
  split at h
  · cases h
  · split at h
    · cases h
    · rw [(columns_ok x _ _ y h).2 j i]
      split
      · rfl
      · next hn =>
        cases hc : cell x i j with
        | none => rfl
        | some v => exact absurd ⟨(cell_some_keys hc).2, (cell_some_keys hc).1⟩ hn

theorem column_total (x : Maps α) (c : String) (rs : List String) (h : ∀ r ∈ rs, ∃ v, cell x r c = some v) :
    ∃ d, column x rs c = .ok d := by
  induction rs with
  | nil => exact ⟨[], rfl⟩
  | cons r rs ih =>
    obtain ⟨d, hd⟩ := ih fun r' hr' => h r' (List.mem_cons_of_mem _ hr')
    obtain ⟨v, hv⟩ := h r List.mem_cons_self
    unfold column
    have : ((x.get? r).getD []).get? c = some v := by
      unfold cell at hv
      cases hr : x.get? r with
      | none => rw [hr] at hv; cases hv
      | some row => rw [hr] at hv; exact hv
    rw [this, hd]
    exact ⟨_, rfl⟩

theorem columns_total (x : Maps α) (rs cs : List String) (h : ∀ r ∈ rs, ∀ c ∈ cs, ∃ v, cell x r c = some v) :
    ∃ d, columns x rs cs = .ok d := by
  induction cs with
  | nil => exact ⟨[], rfl⟩
  | cons c cs ih =>
    obtain ⟨d, hd⟩ := ih fun r hr c' hc' => h r hr c' (List.mem_cons_of_mem _ hc')
    obtain ⟨d1, hd1⟩ := column_total x c rs fun r hr => h r hr c List.mem_cons_self
    unfold columns
    rw [hd1, hd]
    exact ⟨_, rfl⟩

theorem dedup_replicate (w : List Nat) (n : Nat) (h1 : w ≠ []) (h : ∀ k ∈ w, k = n) : w.dedup = [n] := by
  induction w with
  | nil => simp at h1
  | cons a w ih =>
    have ha : a = n := h a List.mem_cons_self
    by_cases hw : w = []
    · subst hw; simp [ha]
    · have := ih hw fun k hk => h k (List.mem_cons_of_mem _ hk)
      rw [List.dedup_cons_of_mem]
      · exact this
      · obtain ⟨b, hb⟩ := List.exists_mem_of_ne_nil _ hw
        rw [ha, ← h b (List.mem_cons_of_mem _ hb)]; exact hb

/-- Full statement: `la.transpose` of a map of maps either answers or raises one of its two errors.  What is missing:
all rows have the same names. -/
theorem transposeMaps_partial (x : Maps α) (hx : Good x) (h1 : x ≠ []) (h2 : ∀ r ∈ x, r.2 ≠ [])
    (h3 : ∀ r ∈ x, ∀ s ∈ x, ∀ k, k ∈ r.2.keys ↔ k ∈ s.2.keys) : ∃ y, transposeMaps x = .ok y := by
  obtain ⟨r0, hr0⟩ := List.exists_mem_of_ne_nil _ h1
  have hcol : ∀ k, k ∈ colKeys x ↔ k ∈ r0.2.keys := by
    intro k
    rw [mem_colKeys]
    constructor
    · rintro ⟨r, hr, hk⟩; exact (h3 r hr r0 hr0 k).1 hk
    · intro hk; exact ⟨r0, hr0, hk⟩
  unfold transposeMaps
  simp only
  rw [if_neg, if_neg]
  · apply columns_total
    intro r hr c hc
    unfold rowKeys at hr
    rw [← get?_isSome_iff, Option.isSome_iff_exists] at hr
    obtain ⟨row, hrow⟩ := hr
    have hm := mem_of_get? hrow
    have hk := (h3 r0 hr0 _ hm c).1 ((hcol c).1 hc)
    rw [← get?_isSome_iff, Option.isSome_iff_exists] at hk
    obtain ⟨v, hv⟩ := hk
    exact ⟨v, by unfold cell; rw [hrow]; exact hv⟩
  · unfold raggedMap
    rw [dedup_replicate _ r0.2.length]
    · simp
    · simpa using h1
    · intro k hk
      rw [List.mem_map] at hk
      obtain ⟨r, hr, rfl⟩ := hk
      have hp : r.2.keys.Perm r0.2.keys :=
        (List.perm_ext_iff_of_nodup (hx.2 r hr) (hx.2 r0 hr0)).2 fun k => h3 r hr r0 hr0 k
      have := hp.length_eq
      simpa [PyDict.keys] using this
  · rintro (h | h)
    · have := List.length_pos_iff.2 h1
      simp only [rowKeys, PyDict.keys, List.length_map] at h
      omega
    · obtain ⟨c, hc⟩ := List.exists_mem_of_ne_nil _ (h2 r0 hr0)
      have : c.1 ∈ colKeys x := (hcol _).2 (List.mem_map_of_mem hc)
      have := List.length_pos_of_mem this
      omega

/-- Rows of the same size with different names. -/
theorem transposeMaps_violation :
    transposeMaps ([("a", [("p", 1)]), ("b", [("q", 1)])] : Maps ℚ) = .error (.py "KeyError") := by decide +kernel

/-! ## Symmetry and truncation -/

/-- `la.symmetric` compares every entry with its mirror image, whatever the names. -/
theorem symmetricMaps_spec [Zero α] (same : α → α → Bool) (h0 : same 0 0 = true) (x : Maps α) (h1 : ∃ r ∈ x, r.2 ≠ []) :
    ∃ b, symmetricMaps same x = .ok b ∧ (b = true ↔ ∀ i j, same (entry x i j) (entry x j i) = true) := by
  obtain ⟨r, hr, hne⟩ := h1
  unfold symmetricMaps
  simp only
  rw [if_neg]
  · refine ⟨_, rfl, ?_⟩
    simp only [List.all_eq_true, at0_entry, mem_union]
    constructor
    · intro h i j
      by_cases hij : (i ∈ rowKeys x ∨ i ∈ colKeys x) ∧ (j ∈ rowKeys x ∨ j ∈ colKeys x)
      · exact h i hij.1 j hij.2
      · have e1 : entry x i j = 0 := by
          by_contra hn
          have := entry_ne hn
          exact hij ⟨.inl this.1, .inr this.2⟩
        have e2 : entry x j i = 0 := by
          by_contra hn
          have := entry_ne hn
          exact hij ⟨.inr this.2, .inl this.1⟩
        rw [e1, e2, h0]
    · intro h i _ j _
      exact h i j
  · rw [Bool.or_eq_true, not_or]
    constructor
    · have : r.1 ∈ union (rowKeys x) (colKeys x) := (mem_union _ _ _).2 (.inl (List.mem_map_of_mem hr))
      have := List.length_pos_of_mem this
      simp only [decide_eq_true_eq]
      omega
    · intro h
      have := List.all_eq_true.1 h r hr
      simp only [decide_eq_true_eq, List.length_eq_zero_iff] at this
      exact hne this

/-- `la.truncate` keeps exactly the named rows. -/
theorem truncateMaps_spec (x : Maps α) (keep : List String) (h : ∃ r ∈ x, r.2 ≠ []) :
    ∃ y, truncateMaps x keep = .ok y ∧ ∀ i, y.get? i = if i ∈ keep then x.get? i else none := by
  obtain ⟨r, hr, hne⟩ := h
  unfold truncateMaps
  rw [if_neg]
  · refine ⟨_, rfl, ?_⟩
    intro i
    clear hr hne
    induction x with
    | nil => simp
    | cons c x ih =>
      obtain ⟨a, v⟩ := c
      rw [List.filter_cons]
      by_cases ha : a ∈ keep
      · simp only [ha, decide_true, if_true, get?_cons, ih]
        by_cases hi : a = i
        · subst hi; simp [ha]
        · simp [hi]
      · simp only [ha, decide_false, Bool.false_eq_true, if_false, ih, get?_cons]
        by_cases hi : a = i
        · subst hi; simp [ha]
        · simp [hi]
  · rintro (h | h)
    · have := List.length_pos_of_mem hr
      simp only [rowKeys, PyDict.keys, List.length_map] at h
      omega
    · obtain ⟨c, hc⟩ := List.exists_mem_of_ne_nil _ hne
      have : c.1 ∈ colKeys x := (mem_colKeys _ _).2 ⟨r, hr, List.mem_map_of_mem hc⟩
      have := List.length_pos_of_mem this
      omega

/-! ## Concrete cases -/

example : dotMaps (fun _ => false) ([("r", [("a", 2), ("b", 3)])] : Maps ℚ) [("b", [("c", 5)]), ("z", [("c", 7)])] =
    .ok [("r", [("c", 15)])] := by decide +kernel
example : transposeMaps ([("a", [("p", 1), ("q", 2)])] : Maps ℚ) = .ok [("p", [("a", 1)]), ("q", [("a", 2)])] := by decide +kernel
example : traceMaps ([("a", [("a", 1), ("b", 2)]), ("b", [("b", 5)])] : Maps ℚ) = .ok 6 := by decide +kernel
example : addMaps ([("a", [("p", 1)])] : Maps ℚ) [("b", [("p", 2)])] = [("a", [("p", 1)]), ("b", [("p", 2)])] := by decide +kernel

end Verif.La
