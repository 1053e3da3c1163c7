import Verif.Lib.HigherOrder
import Mathlib.Data.List.Range
/-!
# Searching arrays (C33)

Models `titus/lib/array.py` 135-269.  Python `==` on elements is an arbitrary Boolean function
`eq`; where the code compares in both directions the theorem asks that it is symmetric.
-/

namespace Verif.Lib

variable {σ α : Type _}

/-! ## Model -/

/-- `needle == xs` for two Python lists. -/
def listEq (eq : α → α → Bool) : List α → List α → Bool
  | [], [] => true
  | x :: xs, y :: ys => eq x y && listEq eq xs ys
  | _, _ => false

/-- `range(len(haystack) - len(needle) + 1)`. -/
def starts (h n : List α) : List Nat := List.range ((h.length : Int) - n.length + 1).toNat

/-- `needle == haystack[start:(start + len(needle))]`. -/
def matchAt (eq : α → α → Bool) (h n : List α) (start : Nat) : Bool :=
  listEq eq n ((h.drop start).take n.length)

/-- `return start` from a loop over candidate positions, `-1` at its end. -/
def orMinusOne : Option Nat → Int
  | some i => i
  | none => -1

/-- `a.contains` with an array needle (array.py 142-146). -/
def containsList (eq : α → α → Bool) (h n : List α) : Bool := (starts h n).any (matchAt eq h n)

/-- `a.contains` with a function (147-151): the loop of `a.any`. -/
def containsPred (f : α → Eff σ Bool) : List α → Eff σ Bool
  | [], s => (.ok false, s)
  | x :: xs, s =>
    match f x s with
    | (.error e, s1) => (.error e, s1)
    | (.ok true, s1) => (.ok true, s1)
    | (.ok false, s1) => containsPred f xs s1

/-- `haystack.index(needle)`; `none` stands for ValueError. -/
def pyIndex (eq : α → α → Bool) (h : List α) (x : α) : Option Nat := h.findIdx? (fun y => eq y x)

/-- `a.contains` with an element (152-158). -/
def containsElem (eq : α → α → Bool) (h : List α) (x : α) : Bool := (pyIndex eq h x).isSome

/-- `a.count` with an array needle (array.py 168-179). -/
def countList (eq : α → α → Bool) (h n : List α) : Nat :=
  if h.length = 0 then 0
  else if n.length = 0 then 0
  else (starts h n).countP (matchAt eq h n)

/-- `a.count` with a function (180-185); on an empty array there is nothing to call (168-169). -/
def countPred (f : α → Eff σ Bool) : List α → Nat → Eff σ Nat
  | [], count, s => (.ok count, s)
  | x :: xs, count, s =>
    match f x s with
    | (.error e, s1) => (.error e, s1)
    | (.ok true, s1) => countPred f xs (count + 1) s1
    | (.ok false, s1) => countPred f xs count s1

/-- `a.count` with an element (187): `haystack.count(needle)`. -/
def countElem (eq : α → α → Bool) (h : List α) (x : α) : Nat := h.countP (fun y => eq y x)

/-- `a.index` with an array needle (array.py 197-201). -/
def indexList (eq : α → α → Bool) (h n : List α) : Int :=
  orMinusOne ((starts h n).find? (matchAt eq h n))

/-- `a.index` with a function (202-206). -/
def indexPred (f : α → Eff σ Bool) : Nat → List α → Eff σ Int
  | _, [], s => (.ok (-1), s)
  | i, x :: xs, s =>
    match f x s with
    | (.error e, s1) => (.error e, s1)
    | (.ok true, s1) => (.ok i, s1)
    | (.ok false, s1) => indexPred f (i + 1) xs s1

/-- `a.index` with an element (207-211). -/
def indexElem (eq : α → α → Bool) (h : List α) (x : α) : Int := orMinusOne (pyIndex eq h x)

/-- `a.rindex` with an array needle (221-225): `range(len(haystack) - len(needle), -1, -1)`. -/
def rindexList (eq : α → α → Bool) (h n : List α) : Int :=
  orMinusOne ((starts h n).reverse.find? (matchAt eq h n))

/-- `a.rindex` with a function (226-230): the loop over `enumerate(reversed(haystack))`. -/
def rindexPred (f : α → Eff σ Bool) (h : List α) : Eff σ Int := fun s =>
  match indexPred f 0 h.reverse s with
  | (.ok i, s1) => if i = -1 then (.ok (-1), s1) else (.ok (h.length - 1 - i), s1)
  | (.error e, s1) => (.error e, s1)

/-- `a.rindex` with an element (231-235). -/
def rindexElem (eq : α → α → Bool) (h : List α) (x : α) : Int :=
  orMinusOne ((List.range h.length).reverse.find? (fun i =>
    match h[i]? with
    | some y => eq x y
    | none => false))

/-- `a.startswith` with an array (244-245). -/
def startsWithList (eq : α → α → Bool) (h n : List α) : Bool := listEq eq n (h.take n.length)

/-- `a.startswith` with an element (246-250). -/
def startsWithElem (eq : α → α → Bool) (h : List α) (x : α) : Bool :=
  match h with
  | [] => false
  | y :: _ => eq x y

/-- `a.endswith` with an array (259-263): `haystack[-len(needle):]` is the whole haystack when the
needle is longer. -/
def endsWithList (eq : α → α → Bool) (h n : List α) : Bool :=
  if n.length = 0 then true else listEq eq n (h.drop (h.length - n.length))

/-- `a.endswith` with an element (264-268). -/
def endsWithElem (eq : α → α → Bool) (h : List α) (x : α) : Bool :=
  match h.getLast? with
  | none => false
  | some y => eq x y

/-! ## Specification -/

/-- Two lists agree element by element. -/
abbrev Same (eq : α → α → Bool) (n m : List α) : Prop := List.Forall₂ (fun a b => eq a b = true) n m

/-- The needle occurs in the haystack with `i` elements before it. -/
def OccursAt (eq : α → α → Bool) (h n : List α) (i : Nat) : Prop :=
  ∃ pre mid post, h = pre ++ mid ++ post ∧ pre.length = i ∧ Same eq n mid

/-- An element satisfying `P` is at position `i`. -/
def ElemAt (P : α → Prop) (h : List α) (i : Nat) : Prop := ∃ pre x post, h = pre ++ x :: post ∧ pre.length = i ∧ P x

/-- `r` is the first position with `P`, or -1 when there is none. -/
def IsFirst (P : Nat → Prop) (r : Int) : Prop :=
  (r = -1 ∧ ∀ i, ¬ P i) ∨ ∃ i : Nat, r = i ∧ P i ∧ ∀ j, j < i → ¬ P j

/-- `r` is the last position with `P`, or -1 when there is none. -/
def IsLast (P : Nat → Prop) (r : Int) : Prop :=
  (r = -1 ∧ ∀ i, ¬ P i) ∨ ∃ i : Nat, r = i ∧ P i ∧ ∀ j, i < j → ¬ P j

/-- `c` is the number of positions with `P`. -/
def IsCount (P : Nat → Prop) (c : Nat) : Prop :=
  ∃ l : List Nat, l.Nodup ∧ (∀ i, i ∈ l ↔ P i) ∧ l.length = c

/-! ## Proofs -/

theorem listEq_iff (eq : α → α → Bool) (n m : List α) : listEq eq n m = true ↔ Same eq n m := by
  induction n generalizing m with
  | nil => cases m <;> simp [listEq, Same]
  | cons x xs ih => cases m <;> simp [listEq, Same, ih]

theorem occursAt_iff (eq : α → α → Bool) (h n : List α) (i : Nat) :
    OccursAt eq h n i ↔ i ∈ starts h n ∧ matchAt eq h n i = true := by
  simp only [starts, List.mem_range, matchAt, listEq_iff]
  constructor
  · rintro ⟨pre, mid, post, rfl, rfl, hs⟩
    have hl := hs.length_eq
    refine ⟨by simp; omega, ?_⟩
    simpa [hl] using hs
  · rintro ⟨hi, hs⟩
    have hl := hs.length_eq
    refine ⟨h.take i, (h.drop i).take n.length, (h.drop i).drop n.length, ?_, ?_, hs⟩
    · rw [List.append_assoc, List.take_append_drop, List.take_append_drop]
    · simp; omega

theorem isFirst_find (N : Nat) (p : Nat → Bool) :
    IsFirst (fun i => i ∈ List.range N ∧ p i = true) (orMinusOne ((List.range N).find? p)) := by
  cases h : (List.range N).find? p with
  | none =>
    refine .inl ⟨rfl, ?_⟩
    rintro i ⟨hi, hp⟩
    exact absurd hp (by simpa using List.find?_eq_none.1 h i hi)
  | some i =>
    refine .inr ⟨i, rfl, ⟨List.mem_of_find?_eq_some h, List.find?_some h⟩, ?_⟩
    rintro j hj ⟨_, hp⟩
    obtain ⟨_, as, bs, he, hn⟩ := List.find?_eq_some_iff_append.1 h
    have hpw : (List.range N).Pairwise (· < ·) := List.pairwise_lt_range
    have hjm : j ∈ List.range N := by
      have : i ∈ List.range N := List.mem_of_find?_eq_some h
      simp only [List.mem_range] at this ⊢; omega
    rw [he] at hjm hpw
    rcases List.mem_append.1 hjm with hm | hm
    · have := hn j hm; simp [hp] at this
    · rcases List.mem_cons.1 hm with rfl | hm
      · omega
      · have := (List.pairwise_append.1 hpw).2.1
        have := (List.pairwise_cons.1 this).1 j hm
        omega

theorem isLast_find (N : Nat) (p : Nat → Bool) :
    IsLast (fun i => i ∈ List.range N ∧ p i = true) (orMinusOne ((List.range N).reverse.find? p)) := by
  cases h : (List.range N).reverse.find? p with
  | none =>
    refine .inl ⟨rfl, ?_⟩
    rintro i ⟨hi, hp⟩
    exact absurd hp (by simpa using List.find?_eq_none.1 h i (List.mem_reverse.2 hi))
  | some i =>
    refine .inr ⟨i, rfl, ⟨List.mem_reverse.1 (List.mem_of_find?_eq_some h), List.find?_some h⟩, ?_⟩
    rintro j hj ⟨hjm, hp⟩
    obtain ⟨_, as, bs, he, hn⟩ := List.find?_eq_some_iff_append.1 h
    have hpw : ((List.range N).reverse).Pairwise (fun a b => b < a) :=
      List.pairwise_reverse.2 List.pairwise_lt_range
    have hjm := List.mem_reverse.2 hjm
    rw [he] at hjm hpw
    rcases List.mem_append.1 hjm with hm | hm
    · have := hn j hm; simp [hp] at this
    · rcases List.mem_cons.1 hm with rfl | hm
      · omega
      · have := (List.pairwise_append.1 hpw).2.1
        have := (List.pairwise_cons.1 this).1 j hm
        omega

theorem IsFirst.congr {P Q : Nat → Prop} {r : Int} (h : ∀ i, P i ↔ Q i) (hp : IsFirst P r) :
    IsFirst Q r := by
  have : P = Q := funext fun i => propext (h i)
  exact this ▸ hp

theorem IsLast.congr {P Q : Nat → Prop} {r : Int} (h : ∀ i, P i ↔ Q i) (hp : IsLast P r) :
    IsLast Q r := by
  have : P = Q := funext fun i => propext (h i)
  exact this ▸ hp

/-- Array needle: `contains` says whether it occurs somewhere. -/
theorem contains_list (eq : α → α → Bool) (h n : List α) :
    containsList eq h n = true ↔ ∃ i, OccursAt eq h n i := by
  simp [containsList, occursAt_iff]

/-- Array needle: `index` is the first occurrence. -/
theorem index_list (eq : α → α → Bool) (h n : List α) :
    IsFirst (OccursAt eq h n) (indexList eq h n) :=
  (isFirst_find _ _).congr (fun i => (occursAt_iff eq h n i).symm)

/-- Array needle: `rindex` is the last occurrence. -/
theorem rindex_list (eq : α → α → Bool) (h n : List α) :
    IsLast (OccursAt eq h n) (rindexList eq h n) :=
  (isLast_find _ _).congr (fun i => (occursAt_iff eq h n i).symm)

/-- Non-empty array needle: `count` is the number of positions, overlapping ones included. -/
theorem count_list (eq : α → α → Bool) (h n : List α) (hn : n ≠ []) :
    IsCount (OccursAt eq h n) (countList eq h n) := by
  refine ⟨(starts h n).filter (matchAt eq h n), List.nodup_range.filter _, ?_, ?_⟩
  · intro i; rw [List.mem_filter, occursAt_iff]
  · have hn' : n.length ≠ 0 := by simpa using hn
    rw [countList, ← List.countP_eq_length_filter]
    by_cases h0 : h.length = 0
    · rw [if_pos h0]
      have : (starts h n) = [] := by simp only [starts]; rw [List.range_eq_nil]; omega
      rw [this]; rfl
    · rw [if_neg h0, if_neg hn']

/-- The empty needle is counted zero times. -/
theorem count_list_empty (eq : α → α → Bool) (h : List α) : countList eq h [] = 0 := by
  simp [countList]

theorem elemAt_iff (P : α → Prop) (h : List α) (i : Nat) :
    ElemAt P h i ↔ ∃ x, h[i]? = some x ∧ P x := by
  constructor
  · rintro ⟨pre, x, post, rfl, rfl, hp⟩; exact ⟨x, by simp, hp⟩
  · rintro ⟨x, hx, hp⟩
    obtain ⟨hi, rfl⟩ := List.getElem?_eq_some_iff.1 hx
    refine ⟨h.take i, h[i], h.drop (i + 1), ?_, by simp; omega, hp⟩
    rw [← List.drop_eq_getElem_cons, List.take_append_drop]

/-- Element needle. -/
theorem contains_elem (eq : α → α → Bool) (h : List α) (x : α) :
    containsElem eq h x = true ↔ ∃ i, ElemAt (fun y => eq y x = true) h i := by
  simp only [containsElem, pyIndex, List.findIdx?_isSome, List.any_eq_true, elemAt_iff]
  constructor
  · rintro ⟨y, hy, he⟩
    obtain ⟨i, hi, rfl⟩ := List.mem_iff_getElem.1 hy
    exact ⟨i, _, by simp [hi], he⟩
  · rintro ⟨i, y, hy, he⟩
    exact ⟨y, List.mem_of_getElem? hy, he⟩

theorem index_elem (eq : α → α → Bool) (h : List α) (x : α) :
    IsFirst (ElemAt (fun y => eq y x = true) h) (indexElem eq h x) := by
  unfold indexElem pyIndex
  cases hf : h.findIdx? (fun y => eq y x) with
  | none =>
    refine .inl ⟨rfl, ?_⟩
    rintro i ⟨pre, y, post, rfl, rfl, hp⟩
    have := List.findIdx?_eq_none_iff.1 hf y (by simp)
    simp [hp] at this
  | some i =>
    rw [List.findIdx?_eq_some_iff_getElem] at hf
    obtain ⟨hi, hp, hlt⟩ := hf
    refine .inr ⟨i, rfl, (elemAt_iff _ _ _).2 ⟨h[i], by simp [hi], hp⟩, ?_⟩
    intro j hj hc
    obtain ⟨y, hy, hpy⟩ := (elemAt_iff _ _ _).1 hc
    obtain ⟨hjl, rfl⟩ := List.getElem?_eq_some_iff.1 hy
    exact hlt j hj hpy

theorem rindex_elem (eq : α → α → Bool) (hs : ∀ x y, eq x y = eq y x) (h : List α) (x : α) :
    IsLast (ElemAt (fun y => eq y x = true) h) (rindexElem eq h x) := by
  refine (isLast_find _ _).congr ?_
  intro i
  rw [elemAt_iff, List.mem_range]
  constructor
  · rintro ⟨hi, hp⟩
    simp only [List.getElem?_eq_getElem hi] at hp ⊢
    exact ⟨_, rfl, by rw [hs]; exact hp⟩
  · rintro ⟨y, hy, hp⟩
    obtain ⟨hi, rfl⟩ := List.getElem?_eq_some_iff.1 hy
    exact ⟨hi, by simp only [List.getElem?_eq_getElem hi]; rw [hs]; exact hp⟩

theorem count_elem (eq : α → α → Bool) (h : List α) (x : α) :
    IsCount (ElemAt (fun y => eq y x = true) h) (countElem eq h x) := by
  refine ⟨(List.range h.length).filter (fun i => match h[i]? with | some y => eq y x | none => false),
    List.nodup_range.filter _, ?_, ?_⟩
  · intro i
    rw [List.mem_filter, elemAt_iff, List.mem_range]
    constructor
    · rintro ⟨hi, hp⟩
      simp only [List.getElem?_eq_getElem hi] at hp ⊢
      exact ⟨_, rfl, hp⟩
    · rintro ⟨y, hy, hp⟩
      obtain ⟨hi, rfl⟩ := List.getElem?_eq_some_iff.1 hy
      exact ⟨hi, by simp only [List.getElem?_eq_getElem hi]; exact hp⟩
  · rw [← List.countP_eq_length_filter, countElem]
    induction h with
    | nil => rfl
    | cons y h ih =>
      rw [List.length_cons, List.range_succ_eq_map, List.countP_cons, List.countP_map,
        List.countP_cons, ← ih]
      simp [Function.comp_def]

/-- `index` is -1 exactly when `contains` is false; the same for `rindex`; and `count` is positive
exactly when `contains` is true (for a non-empty needle). -/
theorem search_agree (eq : α → α → Bool) (h n : List α) (x : α) (hs : ∀ x y, eq x y = eq y x) :
    (indexList eq h n = -1 ↔ containsList eq h n = false) ∧
    (rindexList eq h n = -1 ↔ containsList eq h n = false) ∧
    (n ≠ [] → (countList eq h n = 0 ↔ containsList eq h n = false)) ∧
    (indexElem eq h x = -1 ↔ containsElem eq h x = false) ∧
    (rindexElem eq h x = -1 ↔ containsElem eq h x = false) ∧
    (countElem eq h x = 0 ↔ containsElem eq h x = false) := by
  have first : ∀ {P : Nat → Prop} {r : Int} {b : Bool}, IsFirst P r → (b = true ↔ ∃ i, P i) →
      (r = -1 ↔ b = false) := by
    rintro P r b (⟨rfl, hn⟩ | ⟨i, rfl, hp, _⟩) hb
    · simp only [true_iff]; rw [← Bool.not_eq_true, hb]; rintro ⟨i, hi⟩; exact hn i hi
    · have : b = true := hb.2 ⟨i, hp⟩
      simp [this]
  have last : ∀ {P : Nat → Prop} {r : Int} {b : Bool}, IsLast P r → (b = true ↔ ∃ i, P i) →
      (r = -1 ↔ b = false) := by
    rintro P r b (⟨rfl, hn⟩ | ⟨i, rfl, hp, _⟩) hb
    · simp only [true_iff]; rw [← Bool.not_eq_true, hb]; rintro ⟨i, hi⟩; exact hn i hi
    · have : b = true := hb.2 ⟨i, hp⟩
      simp [this]
  have cnt : ∀ {P : Nat → Prop} {c : Nat} {b : Bool}, IsCount P c → (b = true ↔ ∃ i, P i) →
      (c = 0 ↔ b = false) := by
    rintro P c b ⟨l, _, hm, rfl⟩ hb
    rw [List.length_eq_zero_iff, ← Bool.not_eq_true, hb]
    constructor
    · rintro rfl ⟨i, hi⟩; exact absurd ((hm i).2 hi) (by simp)
    · intro hn
      rw [List.eq_nil_iff_forall_not_mem]
      exact fun i hi => hn ⟨i, (hm i).1 hi⟩
  exact ⟨first (index_list eq h n) (contains_list eq h n),
    last (rindex_list eq h n) (contains_list eq h n),
    fun hn => cnt (count_list eq h n hn) (contains_list eq h n),
    first (index_elem eq h x) (contains_elem eq h x),
    last (rindex_elem eq hs h x) (contains_elem eq h x),
    cnt (count_elem eq h x) (contains_elem eq h x)⟩

/-- `startswith`: the needle occurs at position 0. -/
theorem startsWith_list (eq : α → α → Bool) (h n : List α) :
    startsWithList eq h n = true ↔ OccursAt eq h n 0 := by
  rw [startsWithList, listEq_iff]
  constructor
  · intro hs; exact ⟨[], h.take n.length, h.drop n.length, by simp, rfl, hs⟩
  · rintro ⟨pre, mid, post, rfl, hp, hs⟩
    rw [List.length_eq_zero_iff] at hp; subst hp
    simpa [hs.length_eq] using hs

theorem startsWith_elem (eq : α → α → Bool) (h : List α) (x : α) :
    startsWithElem eq h x = true ↔ ElemAt (fun y => eq x y = true) h 0 := by
  rw [elemAt_iff]; cases h <;> simp [startsWithElem]

/-- `endswith`: the needle occurs at the end. -/
theorem endsWith_list (eq : α → α → Bool) (h n : List α) :
    endsWithList eq h n = true ↔ ∃ pre mid, h = pre ++ mid ∧ Same eq n mid := by
  unfold endsWithList
  by_cases hn : n.length = 0
  · rw [if_pos hn]
    rw [List.length_eq_zero_iff] at hn; subst hn
    simp only [true_iff]
    exact ⟨h, [], by simp, .nil⟩
  · rw [if_neg hn, listEq_iff]
    constructor
    · intro hs; exact ⟨h.take (h.length - n.length), _, (List.take_append_drop _ _).symm, hs⟩
    · rintro ⟨pre, mid, rfl, hs⟩
      have : (pre ++ mid).length - n.length = pre.length := by simp [hs.length_eq]
      rw [this]; simpa using hs

theorem endsWith_elem (eq : α → α → Bool) (h : List α) (x : α) :
    endsWithElem eq h x = true ↔ ∃ pre y, h = pre ++ [y] ∧ eq x y = true := by
  unfold endsWithElem
  constructor
  · intro he
    cases hl : h.getLast? with
    | none => simp [hl] at he
    | some y =>
      rw [hl] at he
      obtain ⟨ys, rfl⟩ := List.getLast?_eq_some_iff.1 hl
      exact ⟨ys, y, rfl, he⟩
  · rintro ⟨pre, y, rfl, he⟩; simpa using he

/-! ### Predicate needles -/

section
variable {f : α → Eff σ Bool} {s s1 s2 : σ} {tr : List (α × Bool)} {a : α} {e : Err}
  {rest : List α}

/-- `contains` with a function is `a.any`. -/
theorem containsPred_eq_any (f : α → Eff σ Bool) (h : List α) (s : σ) :
    containsPred f h s = anyA f h s := by
  induction h generalizing s with
  | nil => rfl
  | cons x xs ih =>
    simp only [containsPred, anyA]
    rcases f x s with ⟨r, s1⟩
    rcases r with e | b
    · rfl
    · cases b
      · exact ih s1
      · rfl

theorem indexPred_gen (h : Chain f s tr s1) (ht : ∀ p ∈ tr, p.2 = false) (i : Nat) :
    indexPred f i (tr.map Prod.fst ++ rest) s = indexPred f (i + tr.length) rest s1 := by
  induction h generalizing i with
  | nil => simp
  | @cons s a b s1 tr s2 hf _ ih =>
    have hb : b = false := ht (a, b) (by simp)
    subst hb
    simp only [List.map_cons, List.cons_append, indexPred, hf]
    rw [ih (fun p hp => ht p (by simp [hp]))]
    congr 1
    simp only [List.length_cons]; omega

/-- `index` with a function: -1 when all calls return false; otherwise the number of elements
before the first true, which is the last call. -/
theorem indexPred_none (h : Chain f s tr s1) (ht : ∀ p ∈ tr, p.2 = false) :
    indexPred f 0 (tr.map Prod.fst) s = (.ok (-1), s1) := by
  simpa [indexPred] using indexPred_gen (rest := []) h ht 0

theorem indexPred_some (h : Chain f s tr s1) (ht : ∀ p ∈ tr, p.2 = false)
    (ha : f a s1 = (.ok true, s2)) :
    indexPred f 0 (tr.map Prod.fst ++ a :: rest) s = (.ok tr.length, s2) := by
  rw [indexPred_gen h ht]; simp [indexPred, ha]

theorem indexPred_raises (h : Chain f s tr s1) (ht : ∀ p ∈ tr, p.2 = false)
    (ha : f a s1 = (.error e, s2)) :
    indexPred f 0 (tr.map Prod.fst ++ a :: rest) s = (.error e, s2) := by
  rw [indexPred_gen h ht]; simp [indexPred, ha]

/-- `rindex` with a function: the calls run from the right. -/
theorem rindexPred_none (h : Chain f s tr s1) (ht : ∀ p ∈ tr, p.2 = false) :
    rindexPred f (tr.map Prod.fst).reverse s = (.ok (-1), s1) := by
  rw [rindexPred, List.reverse_reverse, indexPred_none h ht]; rfl

theorem rindexPred_some (h : Chain f s tr s1) (ht : ∀ p ∈ tr, p.2 = false)
    (ha : f a s1 = (.ok true, s2)) :
    rindexPred f (rest ++ a :: (tr.map Prod.fst).reverse) s = (.ok rest.length, s2) := by
  have hr : (rest ++ a :: (tr.map Prod.fst).reverse).reverse =
      tr.map Prod.fst ++ a :: rest.reverse := by simp
  rw [rindexPred, hr, indexPred_some h ht ha]
  simp only
  rw [if_neg (by omega)]
  congr 2
  simp; omega

theorem rindexPred_raises (h : Chain f s tr s1) (ht : ∀ p ∈ tr, p.2 = false)
    (ha : f a s1 = (.error e, s2)) :
    rindexPred f (rest ++ a :: (tr.map Prod.fst).reverse) s = (.error e, s2) := by
  have hr : (rest ++ a :: (tr.map Prod.fst).reverse).reverse =
      tr.map Prod.fst ++ a :: rest.reverse := by simp
  rw [rindexPred, hr, indexPred_raises h ht ha]

/-- `count` with a function: the number of calls that returned true; every element is visited. -/
theorem countPred_ok (h : Chain f s tr s1) :
    countPred f (tr.map Prod.fst) 0 s = (.ok (tr.countP (fun p => p.2)), s1) := by
  suffices hs : ∀ c, countPred f (tr.map Prod.fst) c s = (.ok (c + tr.countP (fun p => p.2)), s1) by
    simpa using hs 0
  induction h with
  | nil => intro c; rfl
  | @cons s a b s1 tr s2 hf _ ih =>
    intro c
    cases b <;> simp only [List.map_cons, countPred, hf, ih, List.countP_cons] <;> simp <;> omega

theorem countPred_raises (h : Chain f s tr s1) (ha : f a s1 = (.error e, s2)) :
    countPred f (tr.map Prod.fst ++ a :: rest) 0 s = (.error e, s2) := by
  generalize 0 = c
  induction h generalizing c with
  | nil => simp only [List.map_nil, List.nil_append, countPred, ha]
  | @cons s a b s1 tr s2 hf _ ih =>
    cases b <;> simp only [List.map_cons, List.cons_append, countPred, hf, ih ha]
end

/-! ### Non-vacuity -/

private def ieq (x y : Int) : Bool := x == y
example : countList ieq [1, 1, 1, 2] [1, 1] = 2 := by decide
example : indexList ieq [1, 2, 1, 2, 3] [1, 2, 3] = 2 := by decide
example : rindexList ieq [1, 2, 1, 2, 3] [1, 2] = 2 := by decide
example : rindexList ieq [1, 2] [] = 2 := by decide
example : OccursAt ieq [1, 2, 1, 2, 3] [1, 2, 3] 2 :=
  ⟨[1, 2], [1, 2, 3], [], rfl, rfl, by repeat constructor⟩
example : indexPred probe 0 [5, 7, 4, 3] 0 = (.ok 2, 3) := by decide
example : rindexPred probe [3, 4, 5] 0 = (.ok 1, 2) := by decide
example : ∀ x y : Int, ieq x y = ieq y x := by intro x y; unfold ieq; rw [Bool.eq_iff_iff, beq_iff_eq, beq_iff_eq]; exact ⟨Eq.symm, Eq.symm⟩

end Verif.Lib
