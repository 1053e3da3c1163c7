import Verif.La.Model
import Mathlib.LinearAlgebra.Matrix.Trace
import Mathlib.Algebra.BigOperators.Fin
import Mathlib.Data.Matrix.Mul
import Mathlib.Data.Rat.Defs
/-! # Arrays of arrays are matrices (C66)

The specification is the matrix algebra of Mathlib. -/

namespace Verif.La

variable {α : Type} {n m k : Nat}

/-- The array of arrays that holds a matrix. -/
def rep (A : Matrix (Fin n) (Fin m) α) : Rows α := List.ofFn fun i => List.ofFn fun j => A i j

theorem ragged_rep (A : Matrix (Fin n) (Fin m) α) : ragged (rep A) = false := by
  unfold ragged rep
  cases n with
  | zero => simp
  | succ n => simp [List.ofFn_succ]

theorem head_rep (A : Matrix (Fin n) (Fin m) α) (h : 0 < n) : ((rep A).headD []).length = m := by
  cases n with
  | zero => simp at h
  | succ n => simp [rep, List.ofFn_succ]

@[simp] theorem length_rep (A : Matrix (Fin n) (Fin m) α) : (rep A).length = n := by simp [rep]

/-- Every array of arrays of equal lengths holds a matrix. -/
theorem rect_rep (x : Rows α) (h : ragged x = false) :
    ∃ A : Matrix (Fin x.length) (Fin (x.headD []).length) α, x = rep A := by
  have hl : ∀ i (hi : i < x.length), x[i].length = (x.headD []).length := by
    intro i hi
    unfold ragged at h
    rw [List.any_eq_false] at h
    simpa using h x[i] (List.getElem_mem hi)
  refine ⟨fun i j => x[i][j]'(by rw [Fin.getElem_fin, hl i i.2]; exact j.2), ?_⟩
  apply List.ext_getElem (by simp [rep])
  intro i h1 h2
  apply List.ext_getElem (by simp [rep, hl i h1])
  intro j h3 h4
  simp [rep]

theorem rep_inj {A B : Matrix (Fin n) (Fin m) α} (h : rep A = rep B) : A = B := by
  unfold rep at h
  have h1 := List.ofFn_injective h
  funext i j
  have h2 := congrFun h1 i
  exact congrFun (List.ofFn_injective h2) j

theorem zipWith_ofFn {β γ δ : Type} (f : β → γ → δ) (a : Fin n → β) (b : Fin n → γ) :
    List.zipWith f (List.ofFn a) (List.ofFn b) = List.ofFn fun i => f (a i) (b i) := by
  apply List.ext_getElem (by simp)
  intro i h1 h2
  simp

theorem range_map {β : Type} (f : Nat → β) : (List.range n).map f = List.ofFn fun i : Fin n => f i := by
  apply List.ext_getElem (by simp)
  intro i h1 h2
  simp

theorem filterMap_ofFn {β γ : Type} (f : Fin n → β) (g : β → Option γ) (h : Fin n → γ) (hg : ∀ i, g (f i) = some (h i)) :
    (List.ofFn f).filterMap g = List.ofFn h := by
  rw [List.ofFn_eq_map, List.filterMap_map, List.ofFn_eq_map]
  rw [show (g ∘ f) = (some ∘ h) from funext hg, List.filterMap_eq_map]

theorem col_rep (A : Matrix (Fin n) (Fin m) α) (j : Fin m) : col (rep A) j = List.ofFn fun i => A i j := by
  unfold col rep
  apply filterMap_ofFn
  intro i
  simp

/-! ## Entry by entry -/

/-- `la.map`. -/
theorem map_rep {β : Type} (f : α → β) (A : Matrix (Fin n) (Fin m) α) : mapRows f (rep A) = rep (A.map f) := by
  simp [mapRows, rep, List.map_ofFn, Function.comp_def, Matrix.map]

/-- `la.scale`. -/
theorem scale_rep [Mul α] (a : α) (A : Matrix (Fin n) (Fin m) α) : scaleRows (rep A) a = rep (A.map (· * a)) := by
  simp [scaleRows, rep, List.map_ofFn, Function.comp_def, Matrix.map]

theorem scaleVec_rep [Mul α] (a : α) (v : Fin n → α) : scaleVec (List.ofFn v) a = List.ofFn fun i => v i * a := by
  simp [scaleVec, List.map_ofFn, Function.comp_def]

/-- `la.zipmap` and the array branches of `la.add` and `la.sub` on matrices of the same shape. -/
theorem zip_rep (base : Int) (f : α → α → α) (A B : Matrix (Fin n) (Fin m) α) :
    zipRows base f (rep A) (rep B) = .ok (rep (Matrix.of fun i j => f (A i j) (B i j))) := by
  have hd : rowsDiffer (rep A) (rep B) = false := by
    unfold rowsDiffer
    rw [List.any_eq_false]
    rintro ⟨r, s⟩ hp
    obtain ⟨i, hi, he⟩ := List.getElem_of_mem hp
    rw [List.getElem_zip, Prod.mk.injEq] at he
    rw [← he.1, ← he.2]
    simp [rep]
  simp only [zipRows, length_rep, ne_eq, not_true, decide_false, hd, Bool.or_self, Bool.false_eq_true, if_false]
  unfold rep
  rw [zipWith_ofFn]
  simp only [zipWith_ofFn, Matrix.of_apply]

/-- Different shapes raise the documented error. -/
theorem zip_misaligned (base : Int) (f : α → α → α) (x y : Rows α)
    (h : x.length ≠ y.length ∨ ∃ i, ∃ (h1 : i < x.length) (h2 : i < y.length), x[i].length ≠ y[i].length) :
    zipRows base f x y = .error (.rt base) := by
  unfold zipRows
  rw [if_pos]
  rcases h with h | ⟨i, h1, h2, h3⟩
  · simp [h]
  · rw [Bool.or_eq_true]; right
    unfold rowsDiffer
    rw [List.any_eq_true]
    exact ⟨(x[i], y[i]), List.mem_iff_getElem.2 ⟨i, by simp; omega, by simp⟩, by simpa using h3⟩

theorem add_rep [Add α] (A B : Matrix (Fin n) (Fin m) α) : addRows (rep A) (rep B) = .ok (rep (A + B)) := zip_rep _ _ _ _

theorem sub_rep [Sub α] (A B : Matrix (Fin n) (Fin m) α) : subRows (rep A) (rep B) = .ok (rep (A - B)) := zip_rep _ _ _ _

theorem zipVec_spec (base : Int) (f : α → α → α) (x y : List α) :
    (x.length = y.length → zipVec base f x y = .ok (List.zipWith f x y)) ∧
    (x.length ≠ y.length → zipVec base f x y = .error (.rt base)) := by
  constructor <;> intro h <;> simp [zipVec, h]

theorem addVec_rep [Add α] (v w : Fin n → α) : addVec (List.ofFn v) (List.ofFn w) = .ok (List.ofFn (v + w)) := by
  unfold addVec
  rw [(zipVec_spec _ _ _ _).1 (by simp), zipWith_ofFn]; rfl

theorem subVec_rep [Sub α] (v w : Fin n → α) : subVec (List.ofFn v) (List.ofFn w) = .ok (List.ofFn (v - w)) := by
  unfold subVec
  rw [(zipVec_spec _ _ _ _).1 (by simp), zipWith_ofFn]; rfl

/-! ## Transposition -/

/-- `la.transpose`. -/
theorem transpose_rep (A : Matrix (Fin n) (Fin m) α) (hn : 0 < n) (hm : 0 < m) :
    transposeRows (rep A) = .ok (rep A.transpose) := by
  unfold transposeRows
  simp only [length_rep, head_rep A hn, ragged_rep]
  rw [if_neg (by omega), if_neg (by omega), if_neg (by simp), range_map]
  congr 2
  funext j
  rw [col_rep]
  rfl

/-- Transposing twice gives the matrix back. -/
theorem transpose_transpose (x y : Rows α) (h : transposeRows x = .ok y) : transposeRows y = .ok x := by
  unfold transposeRows at h
  split at h
  · cases h
  · next h1 =>
    simp only at h
    split at h
    · cases h
    · next h2 =>
      split at h
      · cases h
      · next h3 =>
        obtain ⟨A, hA⟩ := rect_rep x (by simpa using h3)
        have h4 : transposeRows x = .ok (rep A.transpose) := by
          conv_lhs => rw [hA]
          exact transpose_rep A (by omega) (by omega)
        have h5 : transposeRows x = .ok y := by
          unfold transposeRows
          simp only [if_neg h1, if_neg h2, if_neg h3]
          exact h
        rw [h4] at h5
        injection h5 with h5
        rw [← h5, transpose_rep _ (by omega) (by omega), Matrix.transpose_transpose, ← hA]

/-- Arrays that hold no matrix, or one without entries, raise the documented errors. -/
theorem transpose_errors (x : Rows α) :
    (x = [] ∨ x.head? = some [] → transposeRows x = .error (.rt 24060)) ∧
    (x ≠ [] → x.head? ≠ some [] → (∃ r ∈ x, ∃ s ∈ x, r.length ≠ s.length) → transposeRows x = .error (.rt 24061)) := by
  constructor
  · rintro (rfl | h)
    · rfl
    · cases x with
      | nil => rfl
      | cons r x => simp only [List.head?_cons, Option.some.injEq] at h; subst h; rfl
  · rintro h1 h2 ⟨r, hr, s, hs, hne⟩
    cases x with
    | nil => simp at h1
    | cons t x =>
      have ht : t ≠ [] := by simpa using h2
      unfold transposeRows
      have h3 : ¬ (t :: x).length < 1 := by simp
      have h4 : ¬ ((t :: x).headD []).length < 1 := by
        simp only [List.headD_cons, not_lt]
        exact List.length_pos_iff.2 ht
      have h5 : ragged (t :: x) = true := by
        unfold ragged
        rw [List.any_eq_true]
        by_cases hrt : r.length = t.length
        · exact ⟨s, hs, by simp; omega⟩
        · exact ⟨r, hr, by simp [hrt]⟩
      simp only [if_neg h3, if_neg h4, h5, if_true]

/-! ## Products -/

section
variable [CommRing α]

theorem inner_ofFn (a b : Fin n → α) : inner (List.ofFn a) (List.ofFn b) = ∑ i, a i * b i := by
  unfold inner
  rw [zipWith_ofFn, List.sum_ofFn]

theorem npMatrix_rep (A : Matrix (Fin n) (Fin m) α) (hn : 0 < n) : npMatrix (rep A) = .ok (n, m, rep A) := by
  unfold npMatrix
  have : (rep A).isEmpty = false := by
    rw [List.isEmpty_eq_false_iff, ← List.length_pos_iff, length_rep]; exact hn
  simp only [this, ragged_rep, head_rep A hn, length_rep]
  rfl

/-- `la.dot` of two matrices with finite entries is their product. -/
theorem dot_rep (bad : α → Bool) (A : Matrix (Fin n) (Fin m) α) (B : Matrix (Fin m) (Fin k) α) (hn : 0 < n) (hm : 0 < m)
    (hk : 0 < k) (hA : ∀ i j, bad (A i j) = false) (hB : ∀ i j, bad (B i j) = false) :
    dotRows bad (rep A) (rep B) = .ok (rep (A * B)) := by
  have hb1 : (rep A).any (·.any bad) = false := by
    simp only [rep, List.any_eq_false, List.mem_ofFn, forall_exists_index]
    rintro r i rfl
    simp [List.mem_ofFn, hA]
  have hb2 : (rep B).any (·.any bad) = false := by
    simp only [rep, List.any_eq_false, List.mem_ofFn, forall_exists_index]
    rintro r i rfl
    simp [List.mem_ofFn, hB]
  unfold dotRows
  simp only [hb1, hb2, npMatrix_rep A hn, npMatrix_rep B hm, bind, Except.bind]
  rw [if_neg (by omega)]
  simp only [Bool.or_self, Bool.false_eq_true, if_false, ne_eq, not_true]
  congr 1
  unfold npDot
  conv_lhs => arg 2; rw [rep]
  rw [List.map_ofFn, show rep (A * B) = List.ofFn fun i => List.ofFn fun j => (A * B) i j from rfl]
  congr 1
  funext i
  simp only [Function.comp_apply]
  rw [range_map]
  congr 1
  funext j
  rw [col_rep B j, inner_ofFn, Matrix.mul_apply]

/-- `la.dot` of a matrix and a vector. -/
theorem dotVec_rep (bad : α → Bool) (A : Matrix (Fin n) (Fin m) α) (v : Fin m → α) (hn : 0 < n) (hm : 0 < m)
    (hA : ∀ i j, bad (A i j) = false) (hv : ∀ i, bad (v i) = false) :
    dotVec bad (rep A) (List.ofFn v) = .ok (List.ofFn (A.mulVec v)) := by
  have hb1 : (rep A).any (·.any bad) = false := by
    simp only [rep, List.any_eq_false, List.mem_ofFn, forall_exists_index]
    rintro r i rfl
    simp [List.mem_ofFn, hA]
  have hb2 : (List.ofFn v).any bad = false := by
    simp [List.any_eq_false, List.mem_ofFn, hv]
  unfold dotVec
  simp only [hb1, hb2, npMatrix_rep A hn, bind, Except.bind, List.length_ofFn]
  rw [if_neg (by omega)]
  simp only [Bool.or_self, Bool.false_eq_true, if_false, ne_eq, not_true]
  congr 1
  conv_lhs => rw [rep]
  rw [List.map_ofFn]
  congr 1
  funext i
  simp only [Function.comp_apply, inner_ofFn]
  rfl

/-- Matrices that do not fit raise the documented error. -/
theorem dot_misaligned {k' : Nat} (bad : α → Bool) (A : Matrix (Fin n) (Fin m) α) (B : Matrix (Fin k') (Fin k) α) (hn : 0 < n)
    (hm : 0 < m) (hk' : 0 < k') (hk : 0 < k) (hA : ∀ i j, bad (A i j) = false) (hB : ∀ i j, bad (B i j) = false)
    (hne : m ≠ k') : dotRows bad (rep A) (rep B) = .error (.rt 24050) := by
  have hb1 : (rep A).any (·.any bad) = false := by
    simp only [rep, List.any_eq_false, List.mem_ofFn, forall_exists_index]
    rintro r i rfl
    simp [List.mem_ofFn, hA]
  have hb2 : (rep B).any (·.any bad) = false := by
    simp only [rep, List.any_eq_false, List.mem_ofFn, forall_exists_index]
    rintro r i rfl
    simp [List.mem_ofFn, hB]
  unfold dotRows
  simp only [hb1, hb2, npMatrix_rep A hn, npMatrix_rep B hk', bind, Except.bind]
  rw [if_neg (by omega), if_neg (by simp), if_pos hne]

/-- Multiplication by a column is matrix-vector multiplication, and products may be regrouped: consequences of the
specification, on the arrays. -/
theorem dot_assoc {l : Nat} (bad : α → Bool) (hbad : ∀ a, bad a = false) (A : Matrix (Fin n) (Fin m) α) (B : Matrix (Fin m) (Fin k) α)
    (C : Matrix (Fin k) (Fin l) α) (hn : 0 < n) (hm : 0 < m) (hk : 0 < k) (hl : 0 < l) :
    (dotRows bad (rep A) (rep B)).bind (fun p => dotRows bad p (rep C)) =
      (dotRows bad (rep B) (rep C)).bind (fun p => dotRows bad (rep A) p) := by
  rw [dot_rep bad A B hn hm hk (by simp [hbad]) (by simp [hbad]), dot_rep bad B C hm hk hl (by simp [hbad]) (by simp [hbad])]
  simp only [Except.bind]
  rw [dot_rep bad _ C hn hk hl (by simp [hbad]) (by simp [hbad]), dot_rep bad A _ hn hm hl (by simp [hbad]) (by simp [hbad]),
    Matrix.mul_assoc]

/-- Rows of different lengths make `la.dot` raise ValueError instead of a documented error. -/
theorem dot_ragged_violation : dotRows (fun _ : ℚ => false) [[1, 2], [3]] [[1], [1]] = .error (.py "ValueError") := by decide +kernel

/-! ## Trace and symmetry -/

/-- `la.trace` of a square matrix. -/
theorem trace_rep (A : Matrix (Fin n) (Fin n) α) : traceRows (rep A) = .ok A.trace := by
  unfold traceRows
  by_cases hn : n = 0
  · subst hn; simp [Matrix.trace]
  · simp only [length_rep, if_neg hn, ragged_rep, Bool.false_eq_true, if_false, head_rep A (by omega), min_self]
    congr 1
    have : (List.range n).filterMap (fun i => ((rep A)[i]?).bind (·[i]?)) = List.ofFn fun i => A i i := by
      have hr : List.range n = List.ofFn fun i : Fin n => (i : Nat) := by
        have := range_map (n := n) (fun i => i)
        simpa using this
      rw [hr]
      apply filterMap_ofFn
      intro i
      simp [rep]
    rw [this, List.sum_ofFn]
    rfl

end

/-- `la.symmetric` of a square matrix. -/
theorem symmetric_rep (same : α → α → Bool) (A : Matrix (Fin n) (Fin n) α) (hn : 0 < n) :
    ∃ b, symmetricRows same (rep A) = .ok b ∧ (b = true ↔ ∀ i j, same (A i j) (A j i) = true) := by
  unfold symmetricRows
  simp only [length_rep, head_rep A hn, ragged_rep]
  rw [if_neg (by omega), if_neg (by omega), if_neg (by simp), if_neg (by simp)]
  refine ⟨_, rfl, ?_⟩
  simp only [List.all_eq_true, List.mem_range]
  have key : ∀ i (hi : i < n) j (hj : j < n), ((rep A)[i]?).bind (·[j]?) = some (A ⟨i, hi⟩ ⟨j, hj⟩) := by
    intro i hi j hj
    simp [rep, hi, hj]
  constructor
  · intro h i j
    have := h i i.2 j j.2
    rw [key i i.2 j j.2, key j j.2 i i.2] at this
    exact this
  · intro h i hi j hj
    rw [key i hi j hj, key j hj i hi]
    exact h ⟨i, hi⟩ ⟨j, hj⟩

/-- A matrix that is not square raises the documented error. -/
theorem symmetric_nonsquare (same : α → α → Bool) (A : Matrix (Fin n) (Fin m) α) (hn : 0 < n) (hm : 0 < m) (h : n ≠ m) :
    symmetricRows same (rep A) = .error (.rt 24102) := by
  unfold symmetricRows
  simp only [length_rep, head_rep A hn, ragged_rep]
  rw [if_neg (by omega), if_neg (by omega), if_neg (by simp), if_pos h]

/-- `la.truncate` keeps the first rows. -/
theorem truncate_rep (A : Matrix (Fin n) (Fin m) α) (hn : 0 < n) (hm : 0 < m) (keep : Int) :
    truncateRows (rep A) keep = .ok ((rep A).take keep.toNat) ∧
      ((rep A).take keep.toNat).length = min (max keep 0).toNat n := by
  constructor
  · unfold truncateRows
    simp only [length_rep, head_rep A hn, ragged_rep]
    rw [if_neg (by omega), if_neg (by omega), if_neg (by simp)]
  · rw [List.length_take, length_rep]
    congr 1
    omega

/-- A concrete product. -/
example : dotRows (fun _ => false) (rep !![(1 : ℚ), 2; 3, 4]) (rep !![5; 6]) = .ok [[17], [39]] := by decide +kernel
example : rep !![(1 : ℚ), 2; 3, 4] = [[1, 2], [3, 4]] := by decide +kernel

end Verif.La
