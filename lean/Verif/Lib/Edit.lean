import Verif.Py.Basic
import Verif.Slice.Theorems
/-!
# Array editing functions (C58)

Models `titus/lib/array.py` 58-119, 273-365, 395-401 and `util.flatten`.
-/

namespace Verif.Lib
open Verif.Slice

variable {α : Type _}

/-! ## Model -/

/-- `a.head` (array.py 78-87). -/
def head : List α → Res α
  | [] => .error (.rt 15020)
  | x :: _ => .ok x

/-- `a.tail` (89-98): `a[1:]`. -/
def tail (a : List α) : Res (List α) :=
  if a.length = 0 then .error (.rt 15030) else .ok (pySliceFrom a 1)

/-- `a.last` (100-109): `a[-1]`. -/
def last (a : List α) : Res α :=
  match a.getLast? with
  | none => .error (.rt 15040)
  | some x => .ok x

/-- `a.init` (111-120): `a[:-1]`. -/
def init (a : List α) : Res (List α) :=
  if a.length = 0 then .error (.rt 15050) else .ok (pySliceTo a (-1))

/-- `a.cycle` (293-305). -/
def cycle (a : List α) (item : α) (maxLength : Int) : Res (List α) :=
  if maxLength < 0 then .error (.rt 15150)
  else if maxLength = 0 then .ok []
  else .ok (pySliceFrom (a ++ [item]) (-maxLength))

/-- `checkRange` (52-54). -/
def outOfRange (length index : Int) : Bool := index < 0 || index ≥ length

/-- `a.insert` (307-317). -/
def insert (a : List α) (index : Int) (item : α) : Res (List α) :=
  let normIndex := negativeIndex a.length index
  if outOfRange a.length normIndex then .error (.rt 15160)
  else .ok (pySliceTo a normIndex ++ [item] ++ pySliceFrom a normIndex)

/-- `a.replace` (319-329). -/
def replace (a : List α) (index : Int) (item : α) : Res (List α) :=
  let normIndex := negativeIndex a.length index
  if outOfRange a.length normIndex then .error (.rt 15170)
  else .ok (pySliceTo a normIndex ++ [item] ++ pySliceFrom a (normIndex + 1))

/-- `a.remove` with two positions (337-342). -/
def removeRange (a : List α) (start end_ : Int) : List α :=
  let se := startEnd a.length start end_
  pySliceTo a se.1 ++ pySliceFrom a se.2

/-- `a.remove` with one position (343-349). -/
def removeAt (a : List α) (index : Int) : Res (List α) :=
  let normIndex := negativeIndex a.length index
  if outOfRange a.length normIndex then .error (.rt 15180)
  else .ok (pySliceTo a normIndex ++ pySliceFrom a (normIndex + 1))

/-- `a.rotate` (352-365). -/
def rotate (a : List α) (steps : Int) : Res (List α) :=
  if steps < 0 then .error (.rt 15190)
  else if steps = 0 || a.length = 0 then .ok a
  else
    let index := steps % (a.length : Int)
    .ok (pySliceFrom a index ++ pySliceTo a index)

/-- `a.flatten`, `util.flatten` (util.py 74-82):
`[item for sublist in x for item in sublist]`. -/
def flatten : List (List α) → List α
  | [] => []
  | x :: xs => x ++ flatten xs

/-! ## Specification -/

/-- The position an index names in an array of length `n`: from the front when non-negative, from
the back when negative; none when outside. -/
inductive Position (n : Nat) : Int → Nat → Prop
  | front {k : Nat} : k < n → Position n k k
  | back {k j : Nat} : k + j = n → 0 < j → Position n (-(j : Int)) k

/-! ## Theorems -/

theorem position_iff (n : Nat) (i : Int) (k : Nat) :
    Position n i k ↔ negativeIndex n i = k ∧ outOfRange n (negativeIndex n i) = false := by
  unfold negativeIndex outOfRange
  constructor
  · rintro (h | ⟨h, hj⟩)
    · simp; omega
    · rw [if_neg (by omega)]; simp; omega
  · rintro ⟨h1, h2⟩
    simp only [Bool.or_eq_false_iff, decide_eq_false_iff_not] at h2
    split at h1
    · subst h1; exact .front (by rw [if_pos (by assumption)] at h2; omega)
    · have : i = -((n - k : Nat) : Int) := by omega
      rw [this]
      exact .back (by omega) (by omega)

theorem no_position_iff (n : Nat) (i : Int) :
    (∀ k, ¬ Position n i k) ↔ outOfRange n (negativeIndex n i) = true := by
  constructor
  · intro h
    by_contra hc
    rw [Bool.not_eq_true] at hc
    have : 0 ≤ negativeIndex n i := by
      simp only [outOfRange, Bool.or_eq_false_iff, decide_eq_false_iff_not] at hc; omega
    exact h (negativeIndex n i).toNat ((position_iff _ _ _).2 ⟨by omega, hc⟩)
  · intro h k hk
    rw [((position_iff _ _ _).1 hk).2] at h; cases h

theorem sliceTo_nat (a : List α) (k : Nat) (h : k ≤ a.length) : pySliceTo a (k : Int) = a.take k := by
  unfold pySliceTo adjust
  rw [if_neg (by omega)]
  split
  · have : k = a.length := by omega
    subst this; simp
  · simp

theorem sliceFrom_nat (a : List α) (k : Nat) (h : k ≤ a.length) :
    pySliceFrom a (k : Int) = a.drop k := by
  unfold pySliceFrom adjust
  rw [if_neg (by omega)]
  split
  · have : k = a.length := by omega
    subst this; simp
  · simp

/-- `head`, `tail`, `last`, `init` take a non-empty array apart. -/
theorem ends_spec (x y : α) (a : List α) :
    head (x :: a) = .ok x ∧ tail (x :: a) = .ok a ∧ last (a ++ [y]) = .ok y ∧
      init (a ++ [y]) = .ok a := by
  refine ⟨rfl, ?_, by simp [last], ?_⟩
  · have := sliceFrom_nat (x :: a) 1 (by simp)
    simp only [Int.ofNat_one, Int.natCast_one] at this
    simp [tail, this]
  · have : (adjust ((a ++ [y]).length : Int) (-1)).toNat = a.length := by
      simp only [adjust, List.length_append, List.length_singleton]
      rw [if_pos (by omega)]
      split <;> omega
    rw [init, if_neg (by simp), pySliceTo, this]
    simp

theorem ends_empty :
    head ([] : List α) = .error (.rt 15020) ∧ tail ([] : List α) = .error (.rt 15030) ∧
    last ([] : List α) = .error (.rt 15040) ∧ init ([] : List α) = .error (.rt 15050) :=
  ⟨rfl, rfl, rfl, rfl⟩

/-- `a.insert` puts the item before the named position and moves nothing else. -/
theorem insert_spec (pre post : List α) (x : α) (i : Int)
    (h : Position (pre ++ post).length i pre.length) :
    insert (pre ++ post) i x = .ok (pre ++ x :: post) := by
  obtain ⟨h1, h2⟩ := (position_iff _ _ _).1 h
  rw [h1] at h2
  simp only [insert, h1, h2, Bool.false_eq_true, if_false]
  rw [sliceTo_nat _ _ (by simp), sliceFrom_nat _ _ (by simp)]
  simp

/-- `a.replace` changes exactly the named position. -/
theorem replace_spec (pre post : List α) (old x : α) (i : Int)
    (h : Position (pre ++ old :: post).length i pre.length) :
    replace (pre ++ old :: post) i x = .ok (pre ++ x :: post) := by
  obtain ⟨h1, h2⟩ := (position_iff _ _ _).1 h
  rw [h1] at h2
  simp only [replace, h1, h2, Bool.false_eq_true, if_false]
  have := sliceFrom_nat (pre ++ old :: post) (pre.length + 1) (by simp)
  push_cast at this
  rw [sliceTo_nat _ _ (by simp), this]
  simp

/-- `a.remove` with one position takes out exactly that element. -/
theorem removeAt_spec (pre post : List α) (old : α) (i : Int)
    (h : Position (pre ++ old :: post).length i pre.length) :
    removeAt (pre ++ old :: post) i = .ok (pre ++ post) := by
  obtain ⟨h1, h2⟩ := (position_iff _ _ _).1 h
  rw [h1] at h2
  simp only [removeAt, h1, h2, Bool.false_eq_true, if_false]
  have := sliceFrom_nat (pre ++ old :: post) (pre.length + 1) (by simp)
  push_cast at this
  rw [sliceTo_nat _ _ (by simp), this]
  simp

/-- An index that names no position raises the documented error in all three. -/
theorem edit_out_of_range (a : List α) (i : Int) (x : α) (h : ∀ k, ¬ Position a.length i k) :
    insert a i x = .error (.rt 15160) ∧ replace a i x = .error (.rt 15170) ∧
      removeAt a i = .error (.rt 15180) := by
  have h := (no_position_iff _ _).1 h
  simp [insert, replace, removeAt, h]

/-- Every index names a position or none, and every position splits the array: the theorems above
cover all cases. -/
theorem position_split (a : List α) (i : Int) :
    (∀ k, ¬ Position a.length i k) ∨
      ∃ pre x post, a = pre ++ x :: post ∧ Position a.length i pre.length := by
  by_cases h : ∀ k, ¬ Position a.length i k
  · exact .inl h
  · simp only [not_forall, not_not] at h
    obtain ⟨k, hk⟩ := h
    have hlt : k < a.length := by cases hk <;> omega
    refine .inr ⟨a.take k, a[k], a.drop (k + 1), ?_, ?_⟩
    · rw [← List.drop_eq_getElem_cons, List.take_append_drop]
    · rwa [List.length_take, Nat.min_eq_left (Nat.le_of_lt hlt)]

/-- `a.remove` of a range is `a.subseqto` with an empty replacement (C01 says which block that
removes). -/
theorem removeRange_eq (a : List α) (s e : Int) : removeRange a s e = subseqto a s e [] := by
  simp [removeRange, subseqto]

/-- `a.rotate` moves the element at position `(i + steps) mod length` to position `i`. -/
theorem rotate_spec (a : List α) (steps : Nat) (ha : a ≠ []) :
    ∃ r, rotate a steps = .ok r ∧ r.length = a.length ∧
      ∀ i, i < a.length → r[i]? = a[(i + steps) % a.length]? := by
  have hl : 0 < a.length := List.length_pos_iff.2 ha
  have hm : steps % a.length < a.length := Nat.mod_lt _ hl
  by_cases hs : steps = 0
  · subst hs
    exact ⟨a, by simp [rotate], rfl, fun i hi => by rw [Nat.add_zero, Nat.mod_eq_of_lt hi]⟩
  · have hmod : ((steps : Int) % (a.length : Int)) = ((steps % a.length : Nat) : Int) := by
      simp
    refine ⟨a.drop (steps % a.length) ++ a.take (steps % a.length), ?_, ?_, ?_⟩
    · have h0 : ¬ (decide ((steps : Int) = 0) || decide (a.length = 0)) = true := by
        simp; exact ⟨hs, ha⟩
      rw [rotate, if_neg (by omega), if_neg h0]
      simp only [hmod]
      rw [sliceFrom_nat _ _ (Nat.le_of_lt hm), sliceTo_nat _ _ (Nat.le_of_lt hm)]
    · simp; omega
    · intro i hi
      have key : (i + steps) % a.length = (i + steps % a.length) % a.length := by
        rw [Nat.add_mod_mod]
      rw [key]
      generalize steps % a.length = m at *
      by_cases hc : i < a.length - m
      · rw [List.getElem?_append_left (by simp; omega), List.getElem?_drop,
          Nat.mod_eq_of_lt (by omega), Nat.add_comm]
      · rw [List.getElem?_append_right (by simp; omega), List.length_drop,
          List.getElem?_take_of_lt (by omega)]
        have : (i + m) % a.length = i - (a.length - m) := by
          rw [Nat.mod_eq_sub_mod (by omega), Nat.mod_eq_of_lt (by omega)]; omega
        rw [this]

theorem rotate_edge (a : List α) (steps : Int) :
    (steps < 0 → rotate a steps = .error (.rt 15190)) ∧
    (0 ≤ steps → rotate ([] : List α) steps = .ok []) := by
  constructor
  · intro h; simp [rotate, h]
  · intro h; rw [rotate, if_neg (by omega)]; simp

/-- `a.cycle` appends and keeps the last `maxLength` elements. -/
theorem cycle_spec (a : List α) (item : α) (maxLength : Int) (h : 0 ≤ maxLength) :
    ∃ r dropped, cycle a item maxLength = .ok r ∧ a ++ [item] = dropped ++ r ∧
      (r.length : Int) = min maxLength (a.length + 1) := by
  unfold cycle
  rw [if_neg (by omega)]
  by_cases h0 : maxLength = 0
  · subst h0
    exact ⟨[], a ++ [item], by simp, by simp, by simp; omega⟩
  · rw [if_neg h0]
    refine ⟨_, (a ++ [item]).take (adjust ((a ++ [item]).length : Int) (-maxLength)).toNat, rfl, ?_, ?_⟩
    · rw [pySliceFrom, List.take_append_drop]
    · simp only [pySliceFrom, List.length_drop, List.length_append, List.length_singleton, adjust]
      rw [if_pos (by omega)]
      split <;> omega

theorem cycle_negative (a : List α) (item : α) (maxLength : Int) (h : maxLength < 0) :
    cycle a item maxLength = .error (.rt 15150) := by simp [cycle, h]

/-- `a.flatten` concatenates. -/
theorem flatten_spec (a b : List (List α)) (x : List α) :
    flatten ([] : List (List α)) = [] ∧ flatten [x] = x ∧ flatten (a ++ b) = flatten a ++ flatten b := by
  refine ⟨rfl, by simp [flatten], ?_⟩
  induction a with
  | nil => rfl
  | cons y a ih => simp [flatten, ih]

/-! ### Non-vacuity -/

example : Position 4 (-1) 3 := .back (j := 1) rfl (by omega)
example : insert [1, 2, 3, (4 : Int)] (-1) 9 = .ok [1, 2, 3, 9, 4] := by decide
example : insert [1, 2, 3, (4 : Int)] 4 9 = .error (.rt 15160) := by decide
example : ∀ k, ¬ Position 4 4 k := (no_position_iff 4 4).2 (by decide)
example : rotate [1, 2, 3, (4 : Int)] 5 = .ok [2, 3, 4, 1] := by decide
example : cycle [1, 2, (3 : Int)] 4 2 = .ok [3, 4] := by decide

/-- `a.reverse` (array.py 395-401). -/
def reverseA : List α → List α → List α
  | [], out => out
  | x :: xs, out => reverseA xs (x :: out)

/-- Position `i` of the reversed array holds the element `i` places from the end. -/
theorem reverse_spec (a : List α) :
    (reverseA a []).length = a.length ∧
      ∀ i, i < a.length → (reverseA a [])[i]? = a[a.length - 1 - i]? := by
  have : reverseA a [] = a.reverse := by
    have h : ∀ (a out : List α), reverseA a out = a.reverse ++ out := by
      intro a
      induction a with
      | nil => intro out; rfl
      | cons x xs ih => intro out; simp [reverseA, ih]
    simpa using h a []
  rw [this]
  exact ⟨by simp, fun i hi => List.getElem?_reverse hi⟩

example : reverseA [1, 2, 3] [] = [3, 2, 1] := by decide

end Verif.Lib
