import Verif.Py.Basic
/-!
# Set operations on arrays (C31)

Models `titus/lib/array.py` 826-916.  Python `==` on elements is a Boolean function `eq`;
`x in xs` asks `eq y x` for the elements `y` of `xs`.
-/

namespace Verif.Lib

variable {α : Type _}

/-! ## Model -/

/-- `x in xs`. -/
def isIn (eq : α → α → Bool) (x : α) (xs : List α) : Bool := xs.any (fun y => eq y x)

/-- `for ai in a: if ai not in out: out.append(ai)` (array.py 832-834). -/
def addNew (eq : α → α → Bool) : List α → List α → List α
  | out, [] => out
  | out, x :: xs => if isIn eq x out then addNew eq out xs else addNew eq (out ++ [x]) xs

/-- `a.distinct` (826-835). -/
def distinct (eq : α → α → Bool) (a : List α) : List α := addNew eq [] a

/-- `a.seteq` (838-843). -/
def setEq (eq : α → α → Bool) (a b : List α) : Bool :=
  a.all (fun x => isIn eq x b) && b.all (fun x => isIn eq x a)

/-- `a.union` (846-858). -/
def setUnion (eq : α → α → Bool) (a b : List α) : List α := addNew eq (addNew eq [] a) b

/-- `a.intersection` (861-873). -/
def intersection (eq : α → α → Bool) (a b : List α) : List α :=
  a.filter (fun x => isIn eq x b) ++ b.filter (fun x => isIn eq x a)

/-- `a.diff` (876-885). -/
def setDiff (eq : α → α → Bool) (a b : List α) : List α := a.filter (fun x => !isIn eq x b)

/-- `a.symdiff` (888-900). -/
def symDiff (eq : α → α → Bool) (a b : List α) : List α :=
  a.filter (fun x => !isIn eq x b) ++ b.filter (fun x => !isIn eq x a)

/-- `a.subset` (903-908). -/
def subset (eq : α → α → Bool) (a b : List α) : Bool := a.all (fun x => isIn eq x b)

/-- `a.disjoint` (911-916). -/
def disjoint (eq : α → α → Bool) (a b : List α) : Bool :=
  a.all (fun x => !isIn eq x b) && b.all (fun x => !isIn eq x a)

/-! ## Specification -/

/-- The set an array stands for: the values equal to one of its elements. -/
def SetOf (eq : α → α → Bool) (a : List α) (x : α) : Prop := ∃ y ∈ a, eq y x = true

/-- No two elements (at different positions) are equal. -/
def NoDup (eq : α → α → Bool) (a : List α) : Prop := a.Pairwise (fun x y => eq x y = false)

/-- `==` is an equivalence relation. -/
structure Equality (eq : α → α → Bool) : Prop where
  refl : ∀ x, eq x x = true
  symm : ∀ x y, eq x y = true → eq y x = true
  trans : ∀ x y z, eq x y = true → eq y z = true → eq x z = true

/-! ## Theorems -/

theorem isIn_iff (eq : α → α → Bool) (x : α) (a : List α) : isIn eq x a = true ↔ SetOf eq a x := by
  simp [isIn, SetOf]

theorem isIn_false (eq : α → α → Bool) (x : α) (a : List α) :
    (!isIn eq x a) = true ↔ ¬ SetOf eq a x := by
  rw [← isIn_iff]; simp

theorem setOf_append (eq : α → α → Bool) (a b : List α) (x : α) :
    SetOf eq (a ++ b) x ↔ SetOf eq a x ∨ SetOf eq b x := by
  simp only [SetOf, List.mem_append]
  constructor
  · rintro ⟨y, h | h, he⟩
    · exact .inl ⟨y, h, he⟩
    · exact .inr ⟨y, h, he⟩
  · rintro (⟨y, h, he⟩ | ⟨y, h, he⟩)
    · exact ⟨y, .inl h, he⟩
    · exact ⟨y, .inr h, he⟩

variable {eq : α → α → Bool}

theorem addNew_set (h : Equality eq) (out a : List α) (x : α) :
    SetOf eq (addNew eq out a) x ↔ SetOf eq out x ∨ SetOf eq a x := by
  induction a generalizing out with
  | nil => simp [addNew, SetOf]
  | cons y ys ih =>
    have hc : SetOf eq (y :: ys) x ↔ eq y x = true ∨ SetOf eq ys x := by simp [SetOf]
    simp only [addNew]
    split
    · next hin =>
      rw [ih, hc]
      obtain ⟨z, hz, hzy⟩ := (isIn_iff _ _ _).1 hin
      constructor
      · rintro (h1 | h1)
        · exact .inl h1
        · exact .inr (.inr h1)
      · rintro (h1 | h1 | h1)
        · exact .inl h1
        · exact .inl ⟨z, hz, h.trans _ _ _ hzy h1⟩
        · exact .inr h1
    · rw [ih, hc, setOf_append]
      have : SetOf eq [y] x ↔ eq y x = true := by simp [SetOf]
      rw [this, or_assoc]

theorem addNew_nodup (out a : List α) (ho : NoDup eq out) : NoDup eq (addNew eq out a) := by
  induction a generalizing out with
  | nil => exact ho
  | cons y ys ih =>
    simp only [addNew]
    split
    · exact ih out ho
    · next hin =>
      apply ih
      unfold NoDup at *
      rw [List.pairwise_append]
      refine ⟨ho, by simp, ?_⟩
      intro x hx z hz
      rw [List.mem_singleton.1 hz]
      by_contra hc
      rw [Bool.not_eq_false] at hc
      exact hin ((isIn_iff _ _ _).2 ⟨x, hx, hc⟩)

theorem addNew_sublist (out a : List α) : ∃ s, addNew eq out a = out ++ s ∧ s.Sublist a := by
  induction a generalizing out with
  | nil => exact ⟨[], by simp [addNew], .slnil⟩
  | cons y ys ih =>
    simp only [addNew]
    split
    · obtain ⟨s, h1, h2⟩ := ih out; exact ⟨s, h1, h2.cons y⟩
    · obtain ⟨s, h1, h2⟩ := ih (out ++ [y]); exact ⟨y :: s, by simp [h1], h2.cons₂ y⟩

/-- `a.distinct`: same set, no duplicates, elements kept in their order. -/
theorem distinct_spec (h : Equality eq) (a : List α) :
    (∀ x, SetOf eq (distinct eq a) x ↔ SetOf eq a x) ∧ NoDup eq (distinct eq a) ∧
      (distinct eq a).Sublist a := by
  refine ⟨fun x => ?_, addNew_nodup [] a .nil, ?_⟩
  · rw [distinct, addNew_set h]; simp [SetOf]
  · obtain ⟨s, h1, h2⟩ := addNew_sublist (eq := eq) [] a
    rw [distinct, h1]; simpa using h2

/-- `a.union`: the union of the sets, no duplicates. -/
theorem union_spec (h : Equality eq) (a b : List α) :
    (∀ x, SetOf eq (setUnion eq a b) x ↔ SetOf eq a x ∨ SetOf eq b x) ∧
      NoDup eq (setUnion eq a b) := by
  refine ⟨fun x => ?_, addNew_nodup _ _ (addNew_nodup [] a .nil)⟩
  rw [setUnion, addNew_set h, addNew_set h]; simp [SetOf]

theorem setOf_filter (h : Equality eq) (a b : List α) (x : α) :
    (SetOf eq (a.filter (fun x => isIn eq x b)) x ↔ SetOf eq a x ∧ SetOf eq b x) ∧
    (SetOf eq (a.filter (fun x => !isIn eq x b)) x ↔ SetOf eq a x ∧ ¬ SetOf eq b x) := by
  have cong : ∀ y, eq y x = true → (SetOf eq b y ↔ SetOf eq b x) := by
    intro y hyx
    constructor
    · rintro ⟨z, hz, hzy⟩; exact ⟨z, hz, h.trans _ _ _ hzy hyx⟩
    · rintro ⟨z, hz, hzx⟩; exact ⟨z, hz, h.trans _ _ _ hzx (h.symm _ _ hyx)⟩
  constructor
  · constructor
    · rintro ⟨y, hy, hyx⟩
      obtain ⟨h1, h2⟩ := List.mem_filter.1 hy
      exact ⟨⟨y, h1, hyx⟩, (cong y hyx).1 ((isIn_iff _ _ _).1 h2)⟩
    · rintro ⟨⟨y, hy, hyx⟩, hb⟩
      exact ⟨y, List.mem_filter.2 ⟨hy, (isIn_iff _ _ _).2 ((cong y hyx).2 hb)⟩, hyx⟩
  · constructor
    · rintro ⟨y, hy, hyx⟩
      obtain ⟨h1, h2⟩ := List.mem_filter.1 hy
      exact ⟨⟨y, h1, hyx⟩, fun hb => (isIn_false _ _ _).1 h2 ((cong y hyx).2 hb)⟩
    · rintro ⟨⟨y, hy, hyx⟩, hb⟩
      exact ⟨y, List.mem_filter.2 ⟨hy, (isIn_false _ _ _).2 (fun hy' => hb ((cong y hyx).1 hy'))⟩, hyx⟩

/-- `a.intersection`: the intersection of the sets (with duplicates, see below). -/
theorem intersection_spec_partial (h : Equality eq) (a b : List α) (x : α) :
    SetOf eq (intersection eq a b) x ↔ SetOf eq a x ∧ SetOf eq b x := by
  rw [intersection, setOf_append, (setOf_filter h a b x).1, (setOf_filter h b a x).1]
  constructor
  · rintro (h1 | h1)
    · exact h1
    · exact ⟨h1.2, h1.1⟩
  · exact .inl

/-- The intersection of two arrays without duplicates that share an element always has
duplicates. -/
theorem intersection_dup_violation (h : Equality eq) (a b : List α) (x : α) (ha : SetOf eq a x)
    (hb : SetOf eq b x) : ¬ NoDup eq (intersection eq a b) := by
  intro hn
  have h1 := ((setOf_filter h a b x).1).2 ⟨ha, hb⟩
  have h2 := ((setOf_filter h b a x).1).2 ⟨hb, ha⟩
  obtain ⟨y, hy, hyx⟩ := h1
  obtain ⟨z, hz, hzx⟩ := h2
  have := (List.pairwise_append.1 hn).2.2 y hy z hz
  rw [h.trans _ _ _ hyx (h.symm _ _ hzx)] at this
  cases this

/-- `a.diff`: the difference of the sets; no new duplicates. -/
theorem diff_spec (h : Equality eq) (a b : List α) :
    (∀ x, SetOf eq (setDiff eq a b) x ↔ SetOf eq a x ∧ ¬ SetOf eq b x) ∧
      (NoDup eq a → NoDup eq (setDiff eq a b)) :=
  ⟨fun x => (setOf_filter h a b x).2, fun hn => hn.sublist List.filter_sublist⟩

/-- `a.symdiff`: the symmetric difference; no new duplicates. -/
theorem symDiff_spec (h : Equality eq) (a b : List α) :
    (∀ x, SetOf eq (symDiff eq a b) x ↔
      (SetOf eq a x ∧ ¬ SetOf eq b x) ∨ (SetOf eq b x ∧ ¬ SetOf eq a x)) ∧
      (NoDup eq a → NoDup eq b → NoDup eq (symDiff eq a b)) := by
  refine ⟨fun x => by rw [symDiff, setOf_append, (setOf_filter h a b x).2, (setOf_filter h b a x).2], ?_⟩
  intro ha hb
  unfold NoDup symDiff
  rw [List.pairwise_append]
  refine ⟨ha.sublist List.filter_sublist, hb.sublist List.filter_sublist, ?_⟩
  intro x hx y hy
  by_contra hc
  rw [Bool.not_eq_false] at hc
  have := (isIn_false _ _ _).1 (List.mem_filter.1 hx).2
  exact this ⟨y, (List.mem_filter.1 hy).1, h.symm _ _ hc⟩

/-- `a.seteq`, `a.subset`, `a.disjoint` compare the sets. -/
theorem set_relations (h : Equality eq) (a b : List α) :
    (setEq eq a b = true ↔ ∀ x, SetOf eq a x ↔ SetOf eq b x) ∧
    (subset eq a b = true ↔ ∀ x, SetOf eq a x → SetOf eq b x) ∧
    (disjoint eq a b = true ↔ ∀ x, ¬ (SetOf eq a x ∧ SetOf eq b x)) := by
  have sub : ∀ a b : List α, a.all (fun x => isIn eq x b) = true ↔ ∀ x, SetOf eq a x → SetOf eq b x := by
    intro a b
    simp only [List.all_eq_true, isIn_iff]
    constructor
    · rintro hs x ⟨y, hy, hyx⟩
      obtain ⟨z, hz, hzy⟩ := hs y hy
      exact ⟨z, hz, h.trans _ _ _ hzy hyx⟩
    · intro hs x hx; exact hs x ⟨x, hx, h.refl x⟩
  refine ⟨?_, sub a b, ?_⟩
  · rw [setEq, Bool.and_eq_true, sub, sub]
    exact ⟨fun ⟨h1, h2⟩ x => ⟨h1 x, h2 x⟩, fun h' => ⟨fun x => (h' x).1, fun x => (h' x).2⟩⟩
  · simp only [disjoint, Bool.and_eq_true, List.all_eq_true, isIn_false]
    constructor
    · rintro ⟨h1, _⟩ x ⟨⟨y, hy, hyx⟩, ⟨z, hz, hzx⟩⟩
      exact h1 y hy ⟨z, hz, h.trans _ _ _ hzx (h.symm _ _ hyx)⟩
    · intro hd
      exact ⟨fun x hx hb => hd x ⟨⟨x, hx, h.refl x⟩, hb⟩, fun x hx ha => hd x ⟨ha, ⟨x, hx, h.refl x⟩⟩⟩

/-! ### Non-vacuity -/

/-- Equality modulo 10. -/
def eqMod (x y : Int) : Bool := decide (x % 10 = y % 10)

theorem eqMod_equality : Equality eqMod where
  refl := by intro x; simp [eqMod]
  symm := by intro x y; simp only [eqMod, decide_eq_true_eq]; omega
  trans := by intro x y z; simp only [eqMod, decide_eq_true_eq]; omega

example : distinct eqMod [1, 11, 2, 21, 12] = [1, 2] := by decide
example : setUnion eqMod [1, 2] [12, 3] = [1, 2, 3] := by decide
example : intersection eqMod [1] [1] = [1, 1] := by decide
example : symDiff eqMod [1, 2] [2, 3] = [1, 3] := by decide

end Verif.Lib
