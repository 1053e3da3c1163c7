import Verif.Cart.Gain
/-! # Growing trees: the gain of a split by a set of categories (C86) -/

namespace Verif.Cart
open Avro

/-! ## Specification -/

/-- Entropy of a list of categories `0, …, k - 1`, for the logarithm `lg`; a category that does not occur adds nothing. -/
def ent (lg : ℚ → ℚ) (k : Nat) (l : List Nat) : ℚ :=
  -((List.range k).map fun j => if l.count j = 0 then 0 else ((l.count j : ℚ) / l.length) * lg ((l.count j : ℚ) / l.length)).sum

/-- The entropies of the two sides, weighted by their sizes. -/
def entLoss {α : Type} (lg : ℚ → ℚ) (k : Nat) (p : α → Bool) (xs : List α) (codes : List Nat) : ℚ :=
  ((those p xs codes).length : ℚ) / codes.length * ent lg k (those p xs codes) +
    ((those (fun x => !p x) xs codes).length : ℚ) / codes.length * ent lg k (those (fun x => !p x) xs codes)

/-! ## Combinations -/

theorem mem_combinations {α : Type} (k : Nat) (xs c : List α) : c ∈ combinations k xs ↔ c.Sublist xs ∧ c.length = k := by
  induction xs generalizing k c with
  | nil =>
    cases k with
    | zero => simp [combinations]
    | succ k =>
      simp only [combinations, List.not_mem_nil, List.sublist_nil, false_iff, not_and]
      rintro rfl
      simp
  | cons x xs ih =>
    cases k with
    | zero =>
      simp only [combinations, List.mem_singleton, List.length_eq_zero_iff]
      constructor
      · rintro rfl; simp
      · exact fun h => h.2
    | succ k =>
      simp only [combinations, List.mem_append, List.mem_map, ih]
      constructor
      · rintro (⟨a, ⟨h1, h2⟩, rfl⟩ | ⟨h1, h2⟩)
        · exact ⟨h1.cons_cons x, by simp [h2]⟩
        · exact ⟨h1.cons x, h2⟩
      · rintro ⟨h1, h2⟩
        cases h1 with
        | cons _ h => exact .inr ⟨h, h2⟩
        | cons_cons _ h => exact .inl ⟨_, ⟨h, by simpa using h2⟩, rfl⟩

theorem mem_tried {α : Type} (m : Option Nat) (xs c : List α) :
    c ∈ tried m xs ↔ c.Sublist xs ∧ 1 ≤ c.length ∧ c.length ≤ largest m xs.length := by
  simp only [tried, List.mem_flatten, List.mem_map, List.mem_range]
  constructor
  · rintro ⟨_, ⟨k, hk, rfl⟩, hc⟩
    obtain ⟨h1, h2⟩ := (mem_combinations _ _ _).1 hc
    exact ⟨h1, by omega, by omega⟩
  · rintro ⟨h1, h2, h3⟩
    exact ⟨_, ⟨c.length - 1, by omega, rfl⟩, (mem_combinations _ _ _).2 ⟨h1, by omega⟩⟩

/-- Half of the categories, rounded up, is enough: of a set and its complement one is that small. -/
theorem half_tried {α : Type} (xs : List α) (p : α → Bool) (h1 : xs.filter p ≠ []) (h2 : (xs.filter fun x => !p x) ≠ []) :
    xs.filter p ∈ tried none xs ∨ (xs.filter fun x => !p x) ∈ tried none xs := by
  have hl := (List.filter_append_perm p xs).length_eq
  rw [List.length_append] at hl
  have l1 := List.length_pos_of_ne_nil h1
  have l2 := List.length_pos_of_ne_nil h2
  rw [mem_tried, mem_tried]
  simp only [largest]
  by_cases h : (xs.filter p).length ≤ (xs.length + 1) / 2
  · exact .inl ⟨List.filter_sublist, l1, h⟩
  · exact .inr ⟨List.filter_sublist, l2, by omega⟩

/-! ## Sums over categories -/

theorem keep_those {β : Type} (p : Nat → Bool) (xs : List Nat) (ys : List β) : keep (xs.map p) ys = those p xs ys := by
  induction xs generalizing ys with
  | nil => cases ys <;> rfl
  | cons x xs ih =>
    cases ys with
    | nil => rfl
    | cons y ys =>
      have := ih ys
      unfold keep those at this ⊢
      simp only [List.map_cons, List.zip_cons_cons, List.filter_cons]
      cases h : p x <;> simp [this]

theorem those_cons {β : Type} (p : Nat → Bool) (x : Nat) (xs : List Nat) (y : β) (ys : List β) :
    those p (x :: xs) (y :: ys) = (if p x then [y] else []) ++ those p xs ys := by
  unfold those
  rw [List.zip_cons_cons, List.filter_cons]
  cases h : p x <;> simp

/-- A sum over the rows of a set of categories is the sum of the sums over the categories. -/
theorem sum_those {β : Type} (h : β → ℚ) (sel : List Nat) (hs : sel.Nodup) (xs : List Nat) (ys : List β) :
    (sel.map fun i => ((those (· == i) xs ys).map h).sum).sum = ((those (fun x => decide (x ∈ sel)) xs ys).map h).sum := by
  induction xs generalizing ys with
  | nil => simp [those]
  | cons x xs ih =>
    cases ys with
    | nil => simp [those]
    | cons y ys =>
      have e : ∀ i, ((those (· == i) (x :: xs) (y :: ys)).map h).sum = (if i = x then h y else 0) + ((those (· == i) xs ys).map h).sum := by
        intro i
        rw [those_cons]
        by_cases hi : x = i
        · subst hi; simp
        · have : ¬ i = x := fun h => hi h.symm
          simp [hi, this]
      simp only [e]
      rw [those_cons, List.map_append, List.sum_append, ← ih]
      have f : ∀ (l : List Nat) (u v : Nat → ℚ), (l.map fun i => u i + v i).sum = (l.map u).sum + (l.map v).sum := by
        intro l u v
        induction l with
        | nil => simp
        | cons a l ih => simp only [List.map_cons, List.sum_cons, ih]; ring
      rw [f]
      congr 1
      clear e ih f
      induction sel with
      | nil => simp
      | cons a sel ih2 =>
        rw [List.nodup_cons] at hs
        simp only [List.map_cons, List.sum_cons, ih2 hs.2]
        by_cases ha : a = x
        · subst ha
          simp [hs.1]
        · have : ¬ x = a := fun h => ha h.symm
          simp [ha, this]

theorem those_len {β : Type} (sel : List Nat) (hs : sel.Nodup) (xs : List Nat) (ys : List β) :
    (sel.map fun i => ((those (· == i) xs ys).length : ℚ)).sum = ((those (fun x => decide (x ∈ sel)) xs ys).length : ℚ) := by
  have := sum_those (fun _ => (1 : ℚ)) sel hs xs ys
  simpa using this

theorem those_congr {α β : Type} {p q : α → Bool} {xs : List α} (ys : List β) (h : ∀ x ∈ xs, p x = q x) : those p xs ys = those q xs ys := by
  unfold those
  congr 1
  apply List.filter_congr
  intro z hz
  exact h z.1 (List.of_mem_zip (a := z.1) (b := z.2) hz).1

theorem those_not {α β : Type} (h : β → ℚ) (p : α → Bool) (xs : List α) (ys : List β) (hl : xs.length = ys.length) :
    ((those (fun x => !p x) xs ys).map h).sum = (ys.map h).sum - ((those p xs ys).map h).sum := by
  have := ((those_split p xs ys hl).map h).sum_eq
  rw [List.map_append, List.sum_append] at this
  linarith

theorem those_not_len {α β : Type} (p : α → Bool) (xs : List α) (ys : List β) (hl : xs.length = ys.length) :
    ((those (fun x => !p x) xs ys).length : ℚ) = ys.length - (those p xs ys).length := by
  have := (those_split p xs ys hl).length_eq
  rw [List.length_append] at this
  have h2 : ((those p xs ys).length : ℚ) + ((those (fun x => !p x) xs ys).length : ℚ) = ys.length := by exact_mod_cast this
  linarith

/-! ## Variance -/

theorem uniqueCodes_spec (xs : List Nat) : (uniqueCodes xs).Nodup ∧ ∀ x, x ∈ uniqueCodes xs ↔ x ∈ xs := by
  have h : (uniqueCodes xs).Perm xs.dedup := List.perm_insertionSort _ _
  exact ⟨h.nodup_iff.2 (List.nodup_dedup xs), fun x => by rw [h.mem_iff, List.mem_dedup]⟩

/-- The gain that is computed for a set of places, when the places are the categories. -/
theorem setVariance_eq {xs : List Nat} {ys : List ℚ} {m : Nat} (hl : xs.length = ys.length) (hu : uniqueCodes xs = List.range m) (sel : List Nat)
    (hs : sel.Sublist (List.range m)) : setVariance (partSums xs ys) sel = -loss (fun x => decide (x ∈ sel)) xs ys := by
  have hnd : sel.Nodup := hs.nodup List.nodup_range
  have hget : ∀ i ∈ sel, (partSums xs ys).getD i (0, 0, 0) = (((those (· == i) xs ys).length : ℚ), (those (· == i) xs ys).sum,
      ((those (· == i) xs ys).map (· ^ 2)).sum) := by
    intro i hi
    have him : i < m := List.mem_range.1 (hs.subset hi)
    unfold partSums
    rw [hu, List.getD_eq_getElem _ _ (by simpa using him)]
    simp only [List.getElem_map, List.getElem_range, keep_those]
  have a1 : (sel.map fun i => ((partSums xs ys).getD i (0, 0, 0)).1).sum = ((those (fun x => decide (x ∈ sel)) xs ys).length : ℚ) := by
    rw [← those_len sel hnd]
    congr 1
    exact List.map_congr_left fun i hi => by rw [hget i hi]
  have a2 : (sel.map fun i => ((partSums xs ys).getD i (0, 0, 0)).2.1).sum = (those (fun x => decide (x ∈ sel)) xs ys).sum := by
    have := sum_those id sel hnd xs ys
    rw [List.map_id] at this
    rw [← this]
    congr 1
    exact List.map_congr_left fun i hi => by rw [hget i hi]; simp
  have a3 : (sel.map fun i => ((partSums xs ys).getD i (0, 0, 0)).2.2).sum = ((those (fun x => decide (x ∈ sel)) xs ys).map (· ^ 2)).sum := by
    rw [← sum_those (· ^ 2) sel hnd xs ys]
    congr 1
    exact List.map_congr_left fun i hi => by rw [hget i hi]
  have hall : those (fun x => decide (x ∈ List.range m)) xs ys = ys := by
    have : those (fun x => decide (x ∈ List.range m)) xs ys = those (fun _ => true) xs ys := those_congr ys fun x hx => by
      rw [← hu]
      simpa using ((uniqueCodes_spec xs).2 x).2 hx
    rw [this, those, List.filter_true, List.map_snd_zip (by omega)]
  have b1 : ((partSums xs ys).map (·.1)).sum = (ys.length : ℚ) := by
    have := those_len (List.range m) List.nodup_range xs ys
    rw [hall] at this
    rw [← this, partSums, hu, List.map_map]
    simp [Function.comp_def, keep_those]
  have b2 : ((partSums xs ys).map (·.2.1)).sum = ys.sum := by
    have := sum_those id (List.range m) List.nodup_range xs ys
    rw [hall, List.map_id] at this
    rw [← this, partSums, hu, List.map_map]
    simp [Function.comp_def, keep_those]
  have b3 : ((partSums xs ys).map (·.2.2)).sum = (ys.map (· ^ 2)).sum := by
    have := sum_those (· ^ 2) (List.range m) List.nodup_range xs ys
    rw [hall] at this
    rw [← this, partSums, hu, List.map_map]
    simp [Function.comp_def, keep_those]
  unfold setVariance
  simp only [a1, a2, a3, b1, b2, b3]
  have n1 := those_not_len (fun x => decide (x ∈ sel)) xs ys hl
  have n2 := those_not (id : ℚ → ℚ) (fun x => decide (x ∈ sel)) xs ys hl
  have n3 := those_not (fun x : ℚ => x ^ 2) (fun x => decide (x ∈ sel)) xs ys hl
  simp only [List.map_id] at n2
  rw [← n1, ← n2, ← n3, loss, SS_eq, SS_eq]
  have z : ∀ l : List ℚ, (if ((l.length : ℚ) > 0) then (l.map fun x => x ^ 2).sum - l.sum ^ 2 / l.length else 0) =
      (l.map fun x => x ^ 2).sum - l.sum ^ 2 / l.length := by
    intro l
    cases l with
    | nil => simp
    | cons a l =>
      rw [if_pos]
      simp only [List.length_cons, Nat.cast_add, Nat.cast_one]
      positivity
  rw [z, z]
  ring

theorem loss_congr {p q : Nat → Bool} {xs : List Nat} (ys : List ℚ) (h : ∀ x ∈ xs, p x = q x) : loss p xs ys = loss q xs ys := by
  rw [loss, loss, those_congr ys h, those_congr (p := fun x => !p x) (q := fun x => !q x) ys fun x hx => by rw [h x hx]]

theorem loss_not (p : Nat → Bool) (xs : List Nat) (ys : List ℚ) : loss (fun x => !p x) xs ys = loss p xs ys := by
  unfold loss
  have : those (fun x => !!p x) xs ys = those p xs ys := those_congr ys fun x _ => by simp
  rw [this]
  ring

theorem separates_sets {xs : List Nat} {p : Nat → Bool} {r : List Nat} (hr : ∀ x, x ∈ r ↔ x ∈ xs) (h : Separates p xs) :
    r.filter p ≠ [] ∧ (r.filter fun x => !p x) ≠ [] := by
  obtain ⟨⟨x, hx, h1⟩, ⟨z, hz, h2⟩⟩ := h
  constructor
  · exact List.ne_nil_of_mem (List.mem_filter.2 ⟨(hr x).2 hx, h1⟩)
  · exact List.ne_nil_of_mem (List.mem_filter.2 ⟨(hr z).2 hz, by simp [h2]⟩)

/-- A set that was tried separates when there are at least two categories. -/
theorem tried_separates {xs r sel : List Nat} {m : Option Nat} (hr : ∀ x, x ∈ r ↔ x ∈ xs) (hnd : r.Nodup) (h2 : 2 ≤ r.length)
    (h : sel ∈ tried m r) : Separates (fun x => decide (x ∈ sel)) xs := by
  obtain ⟨h3, h4, h5⟩ := (mem_tried _ _ _).1 h
  have h6 : sel.length < r.length := by
    have : largest m r.length ≤ (r.length + 1) / 2 := by
      unfold largest
      cases m with
      | none => simp
      | some k => simp only; omega
    omega
  constructor
  · obtain ⟨x, hx⟩ := List.exists_mem_of_ne_nil sel (List.ne_nil_of_length_pos (by omega))
    exact ⟨x, (hr x).1 (h3.subset hx), by simpa using hx⟩
  · by_contra hc
    push Not at hc
    have hsub : r ⊆ sel := by
      intro x hx
      have := hc x ((hr x).1 hx)
      simpa using this
    have := (List.subperm_of_subset hnd hsub).length_le
    omega

/-- **C86 (partial).** While all categories are present, a regression tree splits a field of categories in the best way: the gain is right, the set
separates, and no set of categories leaves a smaller sum of squares.  Where some category is missing the statement is false (`places_violation`). -/
theorem catVariance_best_partial {w : World} (hm : w.maxSub = none) {xs : List Nat} {ys : List ℚ} (hl : xs.length = ys.length) {m : Nat}
    (hu : uniqueCodes xs = List.range m) (h2 : 2 ≤ m) :
    ∃ g sel, catVariance w xs ys = some (g, sel) ∧ Separates (fun x => decide (x ∈ sel)) xs ∧ g = -loss (fun x => decide (x ∈ sel)) xs ys ∧
      ∀ p : Nat → Bool, Separates p xs → loss (fun x => decide (x ∈ sel)) xs ys ≤ loss p xs ys := by
  have hul : (uniqueCodes xs).length = m := by rw [hu, List.length_range]
  unfold catVariance
  rw [hul, hm]
  have hr : ∀ x, x ∈ List.range m ↔ x ∈ xs := by
    intro x
    rw [← hu]
    exact (uniqueCodes_spec xs).2 x
  obtain ⟨sel, pre, post, h3, -, -, h4⟩ := bestOf_spec (setVariance (partSums xs ys)) (tried none (List.range m))
    (tried_ne none (by simp) _ (by simp; omega))
  obtain ⟨h5, -, h6⟩ := bestOf_max h4
  have hsub : ∀ c ∈ tried none (List.range m), setVariance (partSums xs ys) c = -loss (fun x => decide (x ∈ c)) xs ys :=
    fun c hc => setVariance_eq hl hu c ((mem_tried _ _ _).1 hc).1
  refine ⟨_, sel, h4, tried_separates hr List.nodup_range (by simpa using h2) h5, hsub sel h5, ?_⟩
  intro p hp
  obtain ⟨f1, f2⟩ := separates_sets hr hp
  have hmem : ∀ (q : Nat → Bool), ∀ x ∈ xs, decide (x ∈ (List.range m).filter q) = q x := by
    intro q x hx
    have := (hr x).2 hx
    cases hq : q x <;> simp [List.mem_filter, hq, this] <;> simpa using this
  rcases half_tried (List.range m) p f1 f2 with h7 | h7
  · have := h6 _ h7
    rw [hsub _ h7, hsub _ h5, loss_congr ys (hmem p)] at this
    linarith
  · have := h6 _ h7
    rw [hsub _ h7, hsub _ h5, loss_congr ys (hmem fun x => !p x), loss_not] at this
    linarith

/-! ## Entropy -/

theorem foldl_sub {α : Type} (f : α → ℚ) (l : List α) (e : ℚ) : l.foldl (fun e j => e - f j) e = e - (l.map f).sum := by
  induction l generalizing e with
  | nil => simp
  | cons a l ih => simp only [List.foldl_cons, List.map_cons, List.sum_cons, ih]; ring

theorem plogp_count (lg : ℚ → ℚ) (l : List Nat) (j : Nat) :
    plogp lg ((l.count j : ℚ) / l.length) = if l.count j = 0 then 0 else ((l.count j : ℚ) / l.length) * lg ((l.count j : ℚ) / l.length) := by
  unfold plogp
  by_cases h : l.count j = 0
  · simp [h]
  · rw [if_neg h, if_neg]
    have h1 : (l.count j : ℚ) ≠ 0 := by exact_mod_cast h
    have h2 : (l.length : ℚ) ≠ 0 := by
      have := List.count_le_length (a := j) (l := l)
      have h3 : l.length ≠ 0 := by omega
      exact_mod_cast h3
    exact div_ne_zero h1 h2

theorem count_sum (l : List Nat) (j : Nat) : (l.map fun x => if x = j then (1 : ℚ) else 0).sum = l.count j := by
  induction l with
  | nil => simp
  | cons a l ih =>
    simp only [List.map_cons, List.sum_cons, ih, List.count_cons]
    by_cases h : a = j
    · simp [h]; ring
    · simp [h]

theorem countEq_those (xs codes : List Nat) (hl : xs.length = codes.length) (i : Nat) : countEq xs i = (those (· == i) xs codes).length := by
  induction xs generalizing codes with
  | nil => simp [countEq, those]
  | cons x xs ih =>
    cases codes with
    | nil => simp at hl
    | cons c codes =>
      rw [those_cons, List.length_append, ← ih codes (by simpa using hl)]
      unfold countEq
      rw [List.countP_cons]
      by_cases h : x = i
      · simp [h]; omega
      · simp [h]

theorem both_those (xs codes : List Nat) (i j : Nat) :
    ((xs.zip codes).countP (fun p => p.1 == i && p.2 == j) : ℚ) = ((those (· == i) xs codes).map fun x => if x = j then (1 : ℚ) else 0).sum := by
  induction xs generalizing codes with
  | nil => simp [those]
  | cons x xs ih =>
    cases codes with
    | nil => simp [those]
    | cons c codes =>
      rw [those_cons, List.map_append, List.sum_append, ← ih codes, List.zip_cons_cons, List.countP_cons]
      by_cases h : x = i
      · by_cases h3 : c = j
        · simp [h, h3]; ring
        · simp [h, h3]
      · simp [h]

theorem distribution_pos {codes : List Nat} {names : List String} {j : Nat} (hj : j < names.length) :
    ((distribution codes names).getD j 0 > 0) ↔ codes.count j ≠ 0 := by
  unfold distribution
  by_cases h : codes.length > 0
  · rw [if_pos h, List.getD_eq_getElem _ _ (by simpa using hj), List.getElem_map, List.getElem_range, countEq,
      show codes.countP (fun x => x == j) = codes.count j from rfl]
    have h2 : (0 : ℚ) < codes.length := by exact_mod_cast h
    constructor
    · intro h3 h4
      rw [h4] at h3
      simp at h3
    · intro h3
      have : (0 : ℚ) < codes.count j := by exact_mod_cast Nat.pos_of_ne_zero h3
      positivity
  · rw [if_neg h]
    have : codes = [] := by simpa using h
    subst this
    simp [List.getElem?_replicate, hj]

/-- Categories that do not occur may be left out. -/
theorem ent_remaining (lg : ℚ → ℚ) (names : List String) (codes l : List Nat) (hsub : ∀ j, codes.count j = 0 → l.count j = 0) :
    ((List.range names.length).filter fun j => decide ((distribution codes names).getD j 0 > 0)).foldl
      (fun e j => e - plogp lg ((l.count j : ℚ) / l.length)) 0 = ent lg names.length l := by
  rw [foldl_sub, ent, zero_sub]
  congr 1
  have : ∀ (r : List Nat), (∀ j ∈ r, j < names.length) →
      ((r.filter fun j => decide ((distribution codes names).getD j 0 > 0)).map fun j => plogp lg ((l.count j : ℚ) / l.length)).sum =
      (r.map fun j => if l.count j = 0 then 0 else ((l.count j : ℚ) / l.length) * lg ((l.count j : ℚ) / l.length)).sum := by
    intro r hr
    induction r with
    | nil => rfl
    | cons a r ih =>
      have h1 := ih fun j hj => hr j (by simp [hj])
      have h2 := distribution_pos (codes := codes) (hr a (by simp))
      rw [List.filter_cons, List.map_cons, List.sum_cons, ← h1]
      by_cases h : (distribution codes names).getD a 0 > 0
      · rw [if_pos (by simpa using h), List.map_cons, List.sum_cons, plogp_count]
      · rw [if_neg (by simpa using h)]
        have h3 : codes.count a = 0 := by
          by_contra hc
          exact h (h2.2 hc)
        rw [if_pos (hsub a h3), zero_add]
  exact this _ fun j hj => List.mem_range.1 hj

theorem entropy_eq (lg : ℚ → ℚ) (codes : List Nat) (names : List String) : entropy lg (distribution codes names) = ent lg names.length codes := by
  unfold entropy
  have : ∀ (l : List ℚ) (e : ℚ), l.foldl (fun e frac => if frac ≠ 0 then e - frac * lg frac else e) e = e - (l.map (plogp lg)).sum := by
    intro l
    induction l with
    | nil => intro e; simp
    | cons a l ih =>
      intro e
      simp only [List.foldl_cons, List.map_cons, List.sum_cons, ih]
      unfold plogp
      by_cases h : a = 0
      · simp [h]
      · simp [h]; ring
  rw [this, zero_sub, ent]
  congr 1
  unfold distribution
  by_cases h : codes.length > 0
  · rw [if_pos h, List.map_map]
    congr 1
    apply List.map_congr_left
    intro j hj
    rw [← plogp_count]
    rfl
  · rw [if_neg h]
    have : codes = [] := by simpa using h
    subst this
    simp [plogp, List.map_replicate]

/-- The gain that is computed for a set of categories. -/
theorem setEntropy_eq (lg : ℚ → ℚ) {xs codes : List Nat} {names : List String} (hl : xs.length = codes.length) {r sel : List Nat} (hnd : r.Nodup)
    (hr : ∀ x, x ∈ r ↔ x ∈ xs) (hs : sel.Sublist r) :
    setEntropy lg xs codes r ((List.range names.length).filter fun j => decide ((distribution codes names).getD j 0 > 0)) sel =
      -entLoss lg names.length (fun x => decide (x ∈ sel)) xs codes := by
  have hsn : sel.Nodup := hs.nodup hnd
  have hin : (sel.map fun i => (countEq xs i : ℚ)).sum = ((those (fun x => decide (x ∈ sel)) xs codes).length : ℚ) := by
    rw [← those_len sel hsn]
    congr 1
    exact List.map_congr_left fun i _ => by rw [countEq_those xs codes hl]
  have hanti : those (fun x => decide (x ∈ r.filter fun x => decide (x ∉ sel))) xs codes = those (fun x => !decide (x ∈ sel)) xs codes := by
    apply those_congr
    intro x hx
    have := (hr x).2 hx
    by_cases h : x ∈ sel <;> simp [h, this]
  have hb1 : ∀ j, (sel.map fun i => ((xs.zip codes).countP (fun p => p.1 == i && p.2 == j) : ℚ)).sum =
      ((those (fun x => decide (x ∈ sel)) xs codes).count j : ℚ) := by
    intro j
    rw [← count_sum, ← sum_those _ sel hsn xs codes]
    congr 1
    exact List.map_congr_left fun i _ => both_those xs codes i j
  have hb2 : ∀ j, ((r.filter fun x => decide (x ∉ sel)).map fun i => ((xs.zip codes).countP (fun p => p.1 == i && p.2 == j) : ℚ)).sum =
      ((those (fun x => !decide (x ∈ sel)) xs codes).count j : ℚ) := by
    intro j
    rw [← hanti, ← count_sum, ← sum_those _ _ (hnd.filter _) xs codes]
    congr 1
    exact List.map_congr_left fun i _ => both_those xs codes i j
  have hz : ∀ (p : Nat → Bool) j, codes.count j = 0 → (those p xs codes).count j = 0 := by
    intro p j hj
    rw [List.count_eq_zero] at hj ⊢
    intro hm
    apply hj
    unfold those at hm
    obtain ⟨z, hz, rfl⟩ := List.mem_map.1 hm
    exact (List.of_mem_zip (a := z.1) (b := z.2) (List.mem_filter.1 hz).1).2
  have n1 := those_not_len (fun x => decide (x ∈ sel)) xs codes hl
  unfold setEntropy
  simp only
  rw [hin, ← n1]
  simp only [hb1, hb2]
  rw [ent_remaining lg names codes _ (hz _), ent_remaining lg names codes _ (hz _), entLoss]
  ring

/-- The classes that remain (471) are those that occur. -/
theorem remaining_spec {xs : List Nat} {names : List String} (hc : ∀ x ∈ xs, x < names.length) :
    ((List.range names.length).filter fun i => decide (countEq xs i > 0)).Nodup ∧
      ∀ x, x ∈ ((List.range names.length).filter fun i => decide (countEq xs i > 0)) ↔ x ∈ xs := by
  refine ⟨List.nodup_range.filter _, fun x => ?_⟩
  rw [List.mem_filter, List.mem_range]
  simp only [countEq, decide_eq_true_eq, gt_iff_lt, List.countP_pos_iff, beq_iff_eq, exists_eq_right]
  exact ⟨fun h => h.2, fun h => ⟨hc x h, h⟩⟩

theorem entLoss_congr (lg : ℚ → ℚ) (k : Nat) {p q : Nat → Bool} {xs : List Nat} (ys : List Nat) (h : ∀ x ∈ xs, p x = q x) :
    entLoss lg k p xs ys = entLoss lg k q xs ys := by
  rw [entLoss, entLoss, those_congr ys h, those_congr (p := fun x => !p x) (q := fun x => !q x) ys fun x hx => by rw [h x hx]]

theorem entLoss_not (lg : ℚ → ℚ) (k : Nat) (p : Nat → Bool) (xs ys : List Nat) : entLoss lg k (fun x => !p x) xs ys = entLoss lg k p xs ys := by
  unfold entLoss
  have : those (fun x => !!p x) xs ys = those p xs ys := those_congr ys fun x _ => by simp
  rw [this]
  ring

/-- **C86.** A classification tree splits a field of categories in the best way: the gain is right, the set separates, and no set of categories
leaves a smaller entropy, whatever the logarithm. -/
theorem catEntropy_best {w : World} (hm : w.maxSub = none) {xs codes : List Nat} {xnames names : List String} (hl : xs.length = codes.length)
    (hc : ∀ x ∈ xs, x < xnames.length) (h2 : 2 ≤ xs.dedup.length) :
    ∃ g sel, catEntropy w xs xnames codes names = some (g, sel) ∧ Separates (fun x => decide (x ∈ sel)) xs ∧
      g = -entLoss w.lg names.length (fun x => decide (x ∈ sel)) xs codes ∧
      ∀ p : Nat → Bool, Separates p xs → entLoss w.lg names.length (fun x => decide (x ∈ sel)) xs codes ≤ entLoss w.lg names.length p xs codes := by
  obtain ⟨hnd, hr⟩ := remaining_spec hc
  unfold catEntropy
  rw [hm]
  generalize ((List.range xnames.length).filter fun i => decide (countEq xs i > 0)) = r at *
  have hrl : 2 ≤ r.length := by
    have : r.Perm xs.dedup := (List.perm_ext_iff_of_nodup hnd (List.nodup_dedup _)).2 fun x => by rw [hr, List.mem_dedup]
    rw [this.length_eq]
    exact h2
  simp only
  obtain ⟨sel, pre, post, h3, -, -, h4⟩ := bestOf_spec (setEntropy w.lg xs codes r
    ((List.range names.length).filter fun j => decide ((distribution codes names).getD j 0 > 0))) (tried none r)
    (tried_ne none (by simp) _ (List.ne_nil_of_length_pos (by omega)))
  obtain ⟨h5, -, h6⟩ := bestOf_max h4
  have hsub : ∀ c ∈ tried none r, setEntropy w.lg xs codes r
      ((List.range names.length).filter fun j => decide ((distribution codes names).getD j 0 > 0)) c =
      -entLoss w.lg names.length (fun x => decide (x ∈ c)) xs codes :=
    fun c hc => setEntropy_eq w.lg hl hnd hr ((mem_tried _ _ _).1 hc).1
  refine ⟨_, sel, h4, tried_separates hr hnd hrl h5, hsub sel h5, ?_⟩
  intro p hp
  obtain ⟨f1, f2⟩ := separates_sets hr hp
  have hmem : ∀ (q : Nat → Bool), ∀ x ∈ xs, decide (x ∈ r.filter q) = q x := by
    intro q x hx
    have := (hr x).2 hx
    cases hq : q x <;> simp [List.mem_filter, hq, this]
  rcases half_tried r p f1 f2 with h7 | h7
  · have := h6 _ h7
    rw [hsub _ h7, hsub _ h5, entLoss_congr w.lg _ codes (hmem p)] at this
    linarith
  · have := h6 _ h7
    rw [hsub _ h7, hsub _ h5, entLoss_congr w.lg _ codes (hmem fun x => !p x), entLoss_not] at this
    linarith

end Verif.Cart
