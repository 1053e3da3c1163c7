import Verif.La.Arrays
import Verif.La.Dicts
import Verif.Misc.Small
import Mathlib.LinearAlgebra.Matrix.NonsingularInverse
import Mathlib.LinearAlgebra.Matrix.PosDef
import Mathlib.Analysis.Matrix.PosDef
import Mathlib.Data.Real.StarOrdered
import Mathlib.Algebra.QuadraticDiscriminant
import Mathlib.Data.List.NodupEquivFin
/-!
# Inverses, determinants, eigenvectors and distances by numpy (C95)

Models `titus/lib/la.py` 292-317 (`la.inverse`), 341-372 (`la.det`), 411-457 (`la.eigenBasis`), `titus/lib/stat/pfatest.py` 134-174
(`stat.test.mahalanobis`) and `titus/lib/model/reg.py` 449-483 (`model.reg.mahalanobis`).

`numpy.linalg` computes with real numbers: `inv` and `solve` raise LinAlgError for a singular matrix, `det` is the determinant, `pinv`, `eig`
and `argsort` are parameters with what their documentation says about them.
-/

namespace Verif.La.Numpy
open Matrix Verif.La Verif.Misc

variable {n m : Nat}

/-! ## Model -/

/-- `arraysToMatrix` (la.py 51-52) of `n` rows with `m` numbers. -/
def toM (n m : Nat) (x : Rows ℝ) : Matrix (Fin n) (Fin m) ℝ := .of fun i j => (x.getD i []).getD j 0

open Classical in
/-- `numpy.linalg.inv`. -/
noncomputable def npInv (A : Matrix (Fin n) (Fin n) ℝ) : Res (Matrix (Fin n) (Fin n) ℝ) :=
  if A.det = 0 then .error (.py "LinAlgError") else .ok A⁻¹

/-- `numpy.linalg.pinv`. -/
abbrev Pinv := ∀ n m : Nat, Matrix (Fin n) (Fin m) ℝ → Matrix (Fin m) (Fin n) ℝ

/-- `.I` of a numpy matrix, as rows. -/
noncomputable def npI (pinv : Pinv) (n m : Nat) (x : Rows ℝ) : Res (Rows ℝ) :=
  if n = m then
    match npInv (toM n n x) with
    | .error e => .error e
    | .ok B => .ok (rep B)
  else .ok (rep (pinv n m (toM n m x)))

/-- `la.inverse` on arrays (298-307). -/
noncomputable def inverseRows (pinv : Pinv) (x : Rows ℝ) : Res (Rows ℝ) :=
  let rows := x.length
  if rows < 1 then .error (.rt 24070)
  else
    let cols := (x.headD []).length
    if cols < 1 then .error (.rt 24070)
    else if ragged x then .error (.rt 24071)
    else npI pinv rows cols x

/-- `mapsToMatrix` (63-64), as rows. -/
noncomputable def mapsToRows (x : Maps ℝ) (rows cols : List String) : Rows ℝ := rows.map fun i => cols.map fun j => at0 x i j

/-- `matrixToMaps` (72-73). -/
def matrixToMaps {β : Type} (y : Rows β) (rows cols : List String) : Maps β := (rows.zip y).map fun p => (p.1, cols.zip p.2)

/-- `la.inverse` on maps (309-315). -/
noncomputable def inverseMaps (pinv : Pinv) (x : Maps ℝ) : Res (Maps ℝ) :=
  let rows := rowKeys x
  let cols := colKeys x
  if rows.length < 1 || cols.length < 1 then .error (.rt 24070)
  else match npI pinv rows.length cols.length (mapsToRows x rows cols) with
    | .error e => .error e
    | .ok y => .ok (matrixToMaps y cols rows)

/-- `math.isnan(z) or math.isinf(z)`. -/
def bad : RNum → Bool
  | .fin _ => false
  | _ => true

/-- The number, if it is one. -/
noncomputable def val : RNum → ℝ
  | .fin v => v
  | _ => 0

/-- `la.det` on arrays (347-361). -/
noncomputable def detRows (x : Rows RNum) : Res RNum :=
  let rows := x.length
  if rows < 1 then .error (.rt 24090)
  else
    let cols := (x.headD []).length
    if cols < 1 then .error (.rt 24090)
    else if ragged x then .error (.rt 24091)
    else if rows ≠ cols then .error (.rt 24092)
    else if x.any (·.any bad) then .ok .nan
    else .ok (.fin (toM rows rows (x.map (·.map val))).det)

/-- `list(rowKeys(x).union(colKeys(x)))`. -/
def allKeys {β : Type} (x : Maps β) : List String := union (rowKeys x) (colKeys x)

/-- The numbers of a map of maps. -/
noncomputable def vals (x : Maps RNum) : Maps ℝ := x.map fun r => (r.1, r.2.map fun c => (c.1, val c.2))

/-- `la.det` on maps (363-370). -/
noncomputable def detMaps (x : Maps RNum) : Res RNum :=
  let keys := allKeys x
  if keys.length < 1 || x.all (fun r => r.2.length = 0) then .error (.rt 24090)
  else if x.any (fun r => r.2.any fun c => bad c.2) then .ok .nan
  else .ok (.fin (toM keys.length keys.length (mapsToRows (vals x) keys keys)).det)

/-- `numpy.linalg.eig`: eigenvalues, and eigenvectors as columns. -/
abbrev Eig := ∀ n : Nat, Matrix (Fin n) (Fin n) ℝ → (Fin n → ℝ) × Matrix (Fin n) (Fin n) ℝ

/-- `numpy.argsort`. -/
abbrev Argsort := ∀ n : Nat, (Fin n → RNum) → Equiv.Perm (Fin n)

open Classical in
/-- `div(1.0, math.sqrt(abs(ei)))` (423, util.py 84-105). -/
noncomputable def m2 (e : ℝ) : RNum := if √|e| = 0 then .pinf else .fin (1 / √|e|)

open Classical in
/-- `v * s` for a number `v`. -/
noncomputable def times (v : ℝ) : RNum → RNum
  | .fin s => .fin (v * s)
  | .pinf => if 0 < v then .pinf else if v < 0 then .ninf else .nan
  | .ninf => if 0 < v then .ninf else if v < 0 then .pinf else .nan
  | .nan => .nan

open Classical in
/-- `calculate` (416-430) of `n` rows with `n > 0`. -/
noncomputable def calculate (eig : Eig) (argsort : Argsort) (A : Matrix (Fin n) (Fin n) ℝ) : Matrix (Fin n) (Fin n) RNum :=
  let symm := (0.5 : ℝ) • (A + Aᵀ)
  let evals := (eig n symm).1
  let evects := (eig n symm).2
  let sign := fun i : Fin n => if evects ⟨0, i.pos⟩ i < 0 then (-1 : ℝ) else 1
  let eigvalm2 := fun i => m2 (evals i)
  let order := argsort n eigvalm2
  .of fun i j => times (evects j (order i) * sign (order i)) (eigvalm2 (order i))

/-- `la.eigenBasis` on arrays (432-446). -/
noncomputable def eigenBasisRows (eig : Eig) (argsort : Argsort) (x : Rows RNum) : Res (Rows RNum) :=
  let rows := x.length
  if rows < 1 then .error (.rt 24110)
  else
    let cols := (x.headD []).length
    if cols < 1 then .error (.rt 24110)
    else if ragged x then .error (.rt 24111)
    else if rows ≠ cols then .error (.rt 24112)
    else if x.any (·.any bad) then .error (.rt 24113)
    else .ok (rep (calculate eig argsort (toM rows rows (x.map (·.map val)))))

/-- `la.eigenBasis` on maps (448-455). -/
noncomputable def eigenBasisMaps (eig : Eig) (argsort : Argsort) (x : Maps RNum) : Res (Maps RNum) :=
  let keys := allKeys x
  if keys.length < 1 || x.all (fun r => r.2.length = 0) then .error (.rt 24110)
  else if x.any (fun r => r.2.any fun c => bad c.2) then .error (.rt 24113)
  else .ok (matrixToMaps (rep (calculate eig argsort (toM keys.length keys.length (mapsToRows (vals x) keys keys))))
    ((List.range keys.length).map toString) keys)

open Classical in
/-- `numpy.linalg.solve(C, x).T.dot(x)`, where `numpy.array` refuses rows of different lengths. -/
noncomputable def solveDot (C : Rows ℝ) (x : List ℝ) : Res ℝ :=
  if ragged C then .error (.py "ValueError")
  else if C.length ≠ (C.headD []).length ∨ C = [] then .error (.py "LinAlgError")
  else if C.length ≠ x.length then .error (.py "ValueError")
  else
    let A := toM C.length C.length C
    let v := fun i : Fin C.length => x.getD i 0
    if A.det = 0 then .error (.py "LinAlgError") else .ok ((A⁻¹ *ᵥ v) ⬝ᵥ v)

open Classical in
/-- The root, or nan (pfatest.py 170-173; `numpy.sqrt` in reg.py 482). -/
noncomputable def rootOf (q : ℝ) : RNum := if q < 0 then .nan else .fin √q

/-- `stat.test.mahalanobis` on arrays (pfatest.py 142-150, 169-173). -/
noncomputable def mahalanobis (o p : List ℝ) (C : Rows ℝ) : Res RNum :=
  if o.length < 1 then .error (.rt 38030)
  else if o.length ≠ p.length then .error (.rt 38031)
  else if C.length ≠ o.length || C.any (fun x => x.length ≠ o.length) then .error (.rt 38032)
  else match solveDot C (List.zipWith (· - ·) o p) with
    | .error e => .error e
    | .ok q => .ok (rootOf q)

/-- `[f(k) for k in keys]`, where a missing key raises the code. -/
def lookups (d : PyDict String ℝ) (code : Int) : List String → Res (List ℝ)
  | [] => .ok []
  | k :: ks => match d.get? k with
    | none => .error (.rt code)
    | some v => match lookups d code ks with
      | .error e => .error e
      | .ok vs => .ok (v :: vs)

/-- `covariance[k1][k2]` for all keys (pfatest.py 163-168). -/
def table (C : Maps ℝ) (code : Int) (keys : List String) : List String → Res (Rows ℝ)
  | [] => .ok []
  | k :: ks => match C.get? k with
    | none => .error (.rt code)
    | some r => match lookups r code keys with
      | .error e => .error e
      | .ok v => match table C code keys ks with
        | .error e => .error e
        | .ok vs => .ok (v :: vs)

/-- `stat.test.mahalanobis` on maps (pfatest.py 152-173). -/
noncomputable def mahalanobisMaps (o p : PyDict String ℝ) (C : Maps ℝ) : Res RNum :=
  if o.length < 1 then .error (.rt 38030)
  else if !(o.keys.all (p.keys.contains ·) && p.keys.all (o.keys.contains ·)) then .error (.rt 38031)
  else
    match lookups p 38031 o.keys with
    | .error e => .error e
    | .ok ps => match table C 38032 o.keys o.keys with
      | .error e => .error e
      | .ok rows => match solveDot rows (List.zipWith (· - ·) (o.map Prod.snd) ps) with
        | .error e => .error e
        | .ok q => .ok (rootOf q)

/-- `model.reg.mahalanobis` on arrays (reg.py 455-463, 482). -/
noncomputable def regMahalanobis (o p : List ℝ) (C : Rows ℝ) : Res RNum :=
  if o.length < 1 then .error (.rt 31040)
  else if o.length ≠ p.length then .error (.rt 31041)
  else if !(C.all fun i => i.length = (C.headD []).length) && decide (C.length ≠ (C.headD []).length) then .error (.rt 31042)
  else match solveDot C (List.zipWith (· - ·) o p) with
    | .error e => .error e
    | .ok q => .ok (rootOf q)

/-- `model.reg.mahalanobis` on maps (reg.py 465-482). -/
noncomputable def regMahalanobisMaps (o p : PyDict String ℝ) (C : Maps ℝ) : Res RNum :=
  if o.length < 1 then .error (.rt 31040)
  else if o.length ≠ p.length then .error (.rt 31041)
  else
    match lookups p 31041 o.keys with
    | .error e => .error e
    | .ok ps => match table C 31042 o.keys o.keys with
      | .error e => .error e
      | .ok rows => match solveDot rows (List.zipWith (· - ·) (o.map Prod.snd) ps) with
        | .error e => .error e
        | .ok q => .ok (rootOf q)

/-! ## Matrices and rows -/

theorem toM_rep (A : Matrix (Fin n) (Fin m) ℝ) : toM n m (rep A) = A := by
  ext i j
  simp [toM, rep]

/-- Every array of arrays that is not refused holds a matrix. -/
theorem inverseRows_matrix (pinv : Pinv) (A : Matrix (Fin n) (Fin n) ℝ) (hn : 0 < n) :
    (A.det ≠ 0 → inverseRows pinv (rep A) = .ok (rep A⁻¹)) ∧
    (A.det = 0 → inverseRows pinv (rep A) = .error (.py "LinAlgError")) := by
  have h : inverseRows pinv (rep A) = npI pinv n n (rep A) := by
    simp only [inverseRows]
    rw [length_rep, head_rep A hn, if_neg (by omega), if_neg (by omega), ragged_rep]
    simp
  rw [h, npI, if_pos rfl, toM_rep, npInv]
  refine ⟨fun h => by rw [if_neg h], fun h => by rw [if_pos h]⟩

/-- What la.inverse gives is the inverse: both products are the unit matrix. -/
theorem inverse_spec (pinv : Pinv) (A : Matrix (Fin n) (Fin n) ℝ) (hn : 0 < n) (hA : A.det ≠ 0) :
    ∃ B : Matrix (Fin n) (Fin n) ℝ, inverseRows pinv (rep A) = .ok (rep B) ∧ A * B = 1 ∧ B * A = 1 :=
  ⟨A⁻¹, (inverseRows_matrix pinv A hn).1 hA, mul_nonsing_inv A (isUnit_iff_ne_zero.2 hA), nonsing_inv_mul A (isUnit_iff_ne_zero.2 hA)⟩

/-- A singular matrix raises an exception that is not of PFA. -/
theorem inverse_singular_violation (pinv : Pinv) :
    inverseRows pinv [[1, 2], [2, 4]] = .error (.py "LinAlgError") := by
  have h : ([[1, 2], [2, 4]] : Rows ℝ) = rep !![1, 2; 2, 4] := by
    simp [rep, List.ofFn_succ]
  rw [h]
  exact (inverseRows_matrix pinv _ (by norm_num)).2 (by rw [det_fin_two_of]; norm_num)

/-- What the documentation of `pinv` says (the conditions of Penrose). -/
def Penrose (A : Matrix (Fin n) (Fin m) ℝ) (B : Matrix (Fin m) (Fin n) ℝ) : Prop :=
  A * B * A = A ∧ B * A * B = B ∧ (A * B)ᵀ = A * B ∧ (B * A)ᵀ = B * A

/-- A matrix that is not square gives the pseudoinverse. -/
theorem inverse_pseudo (pinv : Pinv) (hp : ∀ n m A, Penrose A (pinv n m A)) (A : Matrix (Fin n) (Fin m) ℝ) (hn : 0 < n) (hm : 0 < m)
    (hnm : n ≠ m) : ∃ B : Matrix (Fin m) (Fin n) ℝ, inverseRows pinv (rep A) = .ok (rep B) ∧ Penrose A B := by
  refine ⟨pinv n m A, ?_, hp n m A⟩
  simp only [inverseRows]
  rw [length_rep, head_rep A hn, if_neg (by omega), if_neg (by omega), ragged_rep]
  simp [npI, hnm, toM_rep]

/-- What is refused. -/
theorem inverse_errors (pinv : Pinv) (x : Rows ℝ) :
    (x = [] ∨ x.headD [] = [] → inverseRows pinv x = .error (.rt 24070)) ∧
    (x ≠ [] → x.headD [] ≠ [] → ragged x = true → inverseRows pinv x = .error (.rt 24071)) := by
  refine ⟨?_, fun h1 h2 h3 => ?_⟩
  · rintro (rfl | h)
    · simp [inverseRows]
    · simp only [inverseRows, h]
      by_cases hx : x.length < 1 <;> simp
  · have a : ¬ x.length < 1 := by have := List.length_pos_iff.2 h1; omega
    have b : ¬ (x.headD []).length < 1 := by have := List.length_pos_iff.2 h2; omega
    simp only [inverseRows, if_neg a, if_neg b, h3, if_true]

/-! ## Maps -/

theorem cell_matrixToMaps {β : Type} (rows cols : List String) (hr : rows.Nodup) (hc : cols.Nodup) (B : Matrix (Fin rows.length) (Fin cols.length) β)
    (i : Fin rows.length) (j : Fin cols.length) :
    cell (matrixToMaps (rep B) rows cols) rows[i] cols[j] = some (B i j) := by
  have wf : PyDict.WF (matrixToMaps (rep B) rows cols) := by
    have : PyDict.keys (matrixToMaps (rep B) rows cols) = rows := by
      simp only [PyDict.keys, matrixToMaps, List.map_map]
      rw [show (Prod.fst ∘ fun p : String × List β => (p.1, cols.zip p.2)) = Prod.fst from rfl, List.map_fst_zip (by simp)]
    rw [PyDict.WF, this]
    exact hr
  have h1 : (rows[i], cols.zip (List.ofFn fun j => B i j)) ∈ matrixToMaps (rep B) rows cols := by
    refine List.mem_map.2 ⟨(rows[i], List.ofFn fun j => B i j), ?_, rfl⟩
    rw [List.mem_iff_getElem]
    exact ⟨i, by simp, by simp [rep]⟩
  have h2 : (cols[j], B i j) ∈ cols.zip (List.ofFn fun j => B i j) := by
    rw [List.mem_iff_getElem]
    exact ⟨j, by simp, by simp⟩
  have wf2 : PyDict.WF (cols.zip (List.ofFn fun j => B i j)) := by
    rw [PyDict.WF, PyDict.keys, List.map_fst_zip (by simp)]
    exact hc
  rw [cell, PyDict.get?_of_mem wf h1]
  exact PyDict.get?_of_mem wf2 h2

theorem toM_maps (x : Maps ℝ) (rows cols : List String) (i : Fin rows.length) (j : Fin cols.length) :
    toM rows.length cols.length (mapsToRows x rows cols) i j = entry x rows[i] cols[j] := by
  rw [← at0_entry]
  simp [toM, mapsToRows]

theorem rep_cast {β : Type} {k : Nat} (B : Matrix (Fin n) (Fin k) β) (h : n = m) :
    rep B = rep (.of fun (j : Fin m) (l : Fin k) => B (Fin.cast h.symm j) l) := by
  subst h
  rfl

theorem sum_list (ks : List String) (f : String → ℝ) : ∑ i : Fin ks.length, f ks[i] = (ks.map f).sum := by
  rw [← List.sum_ofFn]
  congr 1
  apply List.ext_getElem (by simp)
  intro i h1 h2
  simp

/-- The inverse of a map of maps with as many rows as columns: its rows are the columns and its columns the rows, and both products
are unit matrices. -/
theorem inverseMaps_spec (pinv : Pinv) (x y : Maps ℝ) (hx : Good x) (hs : (rowKeys x).length = (colKeys x).length)
    (h : inverseMaps pinv x = .ok y) :
    (∀ i ∈ rowKeys x, ∀ k ∈ rowKeys x, ((colKeys x).map fun j => entry x i j * entry y j k).sum = if i = k then 1 else 0) ∧
    (∀ j ∈ colKeys x, ∀ l ∈ colKeys x, ((rowKeys x).map fun i => entry y j i * entry x i l).sum = if j = l then 1 else 0) := by
  have hr : (rowKeys x).Nodup := hx.1
  have hc : (colKeys x).Nodup := nodup_colKeys hx
  generalize hR : rowKeys x = rows at *
  generalize hC : colKeys x = cols at *
  unfold inverseMaps at h
  simp only [hR, hC] at h
  split at h
  · cases h
  · unfold npI at h
    rw [if_pos hs] at h
    generalize hX : toM rows.length rows.length (mapsToRows x rows cols) = A at h
    have hA : ∀ (i : Fin rows.length) (j : Fin cols.length), A i (Fin.cast hs.symm j) = entry x rows[i] cols[j] := by
      intro i j
      rw [← toM_maps x rows cols i j, ← hX]
      rfl
    unfold npInv at h
    split at h
    · cases h
    · rename_i y' hy'
      split at hy'
      · cases hy'
      · rename_i B hB
        split at hB
        · cases hB
        · rename_i hdet
          injection hB with hB
          injection hy' with hy'
          injection h with h
          subst h
          subst hy'
          have hu := isUnit_iff_ne_zero.2 hdet
          have e : rep B = rep (.of fun (j : Fin cols.length) (k : Fin rows.length) => B (Fin.cast hs.symm j) k) := rep_cast B hs
          have hY : ∀ (j : Fin cols.length) (k : Fin rows.length),
              entry (matrixToMaps (rep B) cols rows) cols[j] rows[k] = B (Fin.cast hs.symm j) k := by
            intro j k
            rw [entry, e, cell_matrixToMaps cols rows hc hr]
            rfl
          refine ⟨fun a ha c hcc => ?_, fun a ha c hcc => ?_⟩
          · obtain ⟨i, hi, rfl⟩ := List.mem_iff_getElem.1 ha
            obtain ⟨k, hk, rfl⟩ := List.mem_iff_getElem.1 hcc
            rw [← sum_list cols]
            have := congrFun (congrFun (mul_nonsing_inv A hu) ⟨i, hi⟩) ⟨k, hk⟩
            rw [Matrix.mul_apply, Matrix.one_apply, hB] at this
            rw [show (if rows[i] = rows[k] then (1 : ℝ) else 0) = if (⟨i, hi⟩ : Fin rows.length) = ⟨k, hk⟩ then 1 else 0 by
              simp [hr.getElem_inj_iff], ← this, ← (finCongr hs.symm).sum_comp]
            refine Finset.sum_congr rfl fun j _ => ?_
            have a1 := hA ⟨i, hi⟩ j
            have a2 := hY j ⟨k, hk⟩
            simp only [Fin.getElem_fin] at a1 a2 ⊢
            rw [← a1, a2]
            rfl
          · obtain ⟨i, hi, rfl⟩ := List.mem_iff_getElem.1 ha
            obtain ⟨k, hk, rfl⟩ := List.mem_iff_getElem.1 hcc
            rw [← sum_list rows]
            have := congrFun (congrFun (nonsing_inv_mul A hu) (Fin.cast hs.symm ⟨i, hi⟩)) (Fin.cast hs.symm ⟨k, hk⟩)
            rw [Matrix.mul_apply, Matrix.one_apply, hB] at this
            rw [show (if cols[i] = cols[k] then (1 : ℝ) else 0) =
              if Fin.cast hs.symm (⟨i, hi⟩ : Fin cols.length) = Fin.cast hs.symm ⟨k, hk⟩ then 1 else 0 by
              simp [hc.getElem_inj_iff, Fin.ext_iff], ← this]
            refine Finset.sum_congr rfl fun j _ => ?_
            have a1 := hA j ⟨k, hk⟩
            have a2 := hY ⟨i, hi⟩ j
            simp only [Fin.getElem_fin] at a1 a2 ⊢
            rw [← a1, a2]

/-! ## Determinants -/

theorem any_bad_rep (A : Matrix (Fin n) (Fin m) ℝ) : (rep (A.map RNum.fin)).any (·.any bad) = false := by
  simp [rep, List.any_eq_false, bad, List.mem_ofFn]

theorem val_rep (A : Matrix (Fin n) (Fin m) ℝ) : (rep (A.map RNum.fin)).map (·.map val) = rep A := by
  simp [rep, List.map_ofFn, Function.comp_def, val]

/-- The determinant of a square matrix of numbers. -/
theorem det_spec (A : Matrix (Fin n) (Fin n) ℝ) (hn : 0 < n) : detRows (rep (A.map RNum.fin)) = .ok (.fin A.det) := by
  simp only [detRows]
  rw [length_rep, head_rep _ hn, if_neg (by omega), if_neg (by omega), ragged_rep, any_bad_rep, val_rep, toM_rep]
  simp

/-- A matrix has an inverse exactly if the determinant is not zero. -/
theorem det_inverse (pinv : Pinv) (A : Matrix (Fin n) (Fin n) ℝ) (hn : 0 < n) :
    (∃ y, inverseRows pinv (rep A) = .ok y) ↔ detRows (rep (A.map RNum.fin)) ≠ .ok (.fin 0) := by
  rw [det_spec A hn]
  by_cases h : A.det = 0
  · simp [(inverseRows_matrix pinv A hn).2 h, h]
  · simp [(inverseRows_matrix pinv A hn).1 h, h]

/-- An entry that is not finite gives nan, a matrix that is not square is refused. -/
theorem det_bad (A : Matrix (Fin n) (Fin m) RNum) (hn : 0 < n) (hm : 0 < m) :
    (n ≠ m → detRows (rep A) = .error (.rt 24092)) ∧
    (n = m → (∃ i j, bad (A i j) = true) → detRows (rep A) = .ok .nan) := by
  have h : detRows (rep A) = if n ≠ m then .error (.rt 24092)
      else if (rep A).any (·.any bad) then .ok .nan else .ok (.fin (toM n n ((rep A).map (·.map val))).det) := by
    simp only [detRows]
    rw [length_rep, head_rep _ hn, if_neg (by omega), if_neg (by omega), ragged_rep]
    simp
  refine ⟨fun hne => by rw [h, if_pos hne], fun he ⟨i, j, hb⟩ => ?_⟩
  rw [h, if_neg (by simpa using he), if_pos]
  simp only [rep, List.any_eq_true, List.mem_ofFn]
  exact ⟨_, ⟨i, rfl⟩, _, List.mem_ofFn.2 ⟨j, rfl⟩, hb⟩

theorem det_errors (x : Rows RNum) :
    (x = [] ∨ x.headD [] = [] → detRows x = .error (.rt 24090)) ∧
    (x ≠ [] → x.headD [] ≠ [] → ragged x = true → detRows x = .error (.rt 24091)) := by
  refine ⟨?_, fun h1 h2 h3 => ?_⟩
  · rintro (rfl | h)
    · simp [detRows]
    · simp only [detRows, h]
      by_cases hx : x.length < 1 <;> simp
  · have a : ¬ x.length < 1 := by have := List.length_pos_iff.2 h1; omega
    have b : ¬ (x.headD []).length < 1 := by have := List.length_pos_iff.2 h2; omega
    simp only [detRows, if_neg a, if_neg b, h3, if_true]

theorem nodup_allKeys {β : Type} {x : Maps β} (hx : Good x) : (allKeys x).Nodup := nodup_union hx.1 (nodup_colKeys hx)

/-- The determinant of a map of maps does not depend on an order of the keys: it is that of the matrix indexed by the keys. -/
theorem detMaps_spec (x : Maps RNum) (hx : Good x) (hf : ∀ r ∈ x, ∀ c ∈ r.2, bad c.2 = false) (hne : ∃ r ∈ x, r.2 ≠ []) :
    detMaps x = .ok (.fin (Matrix.of fun a b : {k // k ∈ allKeys x} => entry (vals x) a.1 b.1).det) := by
  have h1 : ¬ ((decide ((allKeys x).length < 1) || x.all fun r => decide (r.2.length = 0)) = true) := by
    obtain ⟨r, hr, hr2⟩ := hne
    have hk : r.1 ∈ allKeys x := (mem_union _ _ _).2 (.inl (List.mem_map.2 ⟨r, hr, rfl⟩))
    have := List.length_pos_of_mem hk
    simp only [Bool.or_eq_true, decide_eq_true_eq, List.all_eq_true, not_or]
    exact ⟨by omega, fun h => hr2 (List.length_eq_zero_iff.1 (h r hr))⟩
  have h2 : ¬ ((x.any fun r => r.2.any fun c => bad c.2) = true) := by
    simp only [List.any_eq_true, not_exists, not_and]
    intro r hr c hc
    simp [hf r hr c hc]
  simp only [detMaps]
  rw [if_neg h1, if_neg h2]
  congr 2
  rw [← Matrix.det_submatrix_equiv_self ((nodup_allKeys hx).getEquiv _)]
  congr 1
  ext i j
  rw [toM_maps]
  rfl

/-! ## Basis of eigenvectors -/

/-- What `numpy.linalg.eig` says: the columns are eigenvectors of length one. -/
def IsEig (eig : Eig) : Prop := ∀ (n : Nat) (S : Matrix (Fin n) (Fin n) ℝ), Sᵀ = S →
  ∀ i, S *ᵥ (fun k => (eig n S).2 k i) = (eig n S).1 i • (fun k => (eig n S).2 k i) ∧
    (fun k => (eig n S).2 k i) ⬝ᵥ (fun k => (eig n S).2 k i) = 1

/-- What `numpy.argsort` says, for numbers. -/
def IsArgsort (argsort : Argsort) : Prop := ∀ (n : Nat) (g : Fin n → ℝ), Monotone fun i => g (argsort n (fun k => .fin (g k)) i)

/-- The symmetric part of a matrix. -/
noncomputable def symPart (A : Matrix (Fin n) (Fin n) ℝ) : Matrix (Fin n) (Fin n) ℝ := (1 / 2 : ℝ) • (A + Aᵀ)

theorem symPart_symm (A : Matrix (Fin n) (Fin n) ℝ) : (symPart A)ᵀ = symPart A := by
  simp [symPart, add_comm]

/-- Eigenvectors of a symmetric matrix for different eigenvalues are orthogonal. -/
theorem orthogonal (S : Matrix (Fin n) (Fin n) ℝ) (hS : Sᵀ = S) (v w : Fin n → ℝ) (a b : ℝ) (hv : S *ᵥ v = a • v) (hw : S *ᵥ w = b • w)
    (hab : a ≠ b) : v ⬝ᵥ w = 0 := by
  have h : (S *ᵥ v) ⬝ᵥ w = v ⬝ᵥ (S *ᵥ w) := by
    rw [dotProduct_mulVec, ← mulVec_transpose, hS]
  rw [hv, hw, smul_dotProduct, dotProduct_smul, smul_eq_mul, smul_eq_mul] at h
  have h2 : (a - b) * (v ⬝ᵥ w) = 0 := by linarith
  rcases mul_eq_zero.1 h2 with h2 | h2
  · exact absurd (by linarith) hab
  · exact h2

theorem eigenBasisRows_finite (eig : Eig) (argsort : Argsort) (A : Matrix (Fin n) (Fin n) ℝ) (hn : 0 < n) :
    eigenBasisRows eig argsort (rep (A.map RNum.fin)) = .ok (rep (calculate eig argsort A)) := by
  simp only [eigenBasisRows]
  rw [length_rep, head_rep _ hn, if_neg (by omega), if_neg (by omega), ragged_rep, any_bad_rep, val_rep, toM_rep]
  simp

/-- The rows of the basis are the eigenvectors of the symmetric part over the roots of the eigenvalues: the basis turns the matrix into
the unit matrix. The first component of a row is not negative, and the eigenvalues descend. -/
theorem eigenBasis_spec_partial (eig : Eig) (argsort : Argsort) (he : IsEig eig) (ha : IsArgsort argsort) (A : Matrix (Fin n) (Fin n) ℝ)
    (hn : 0 < n) (hpos : ∀ i, 0 < (eig n (symPart A)).1 i) (hinj : Function.Injective (eig n (symPart A)).1) :
    ∃ (B : Matrix (Fin n) (Fin n) ℝ) (l : Fin n → ℝ), eigenBasisRows eig argsort (rep (A.map RNum.fin)) = .ok (rep (B.map RNum.fin)) ∧
      B * symPart A * Bᵀ = 1 ∧ (∀ i, 0 ≤ B i ⟨0, hn⟩) ∧ (∀ i, symPart A *ᵥ B i = l i • B i) ∧ Antitone l := by
  have hs : (0.5 : ℝ) • (A + Aᵀ) = symPart A := by rw [symPart]; norm_num
  obtain ⟨S, hS⟩ : ∃ S, S = symPart A := ⟨_, rfl⟩
  have hsy : Sᵀ = S := by rw [hS, symPart_symm]
  rw [← hS] at hs hpos hinj ⊢
  obtain ⟨ev, hev⟩ : ∃ ev, ev = (eig n S).1 := ⟨_, rfl⟩
  obtain ⟨V, hV⟩ : ∃ V, V = (eig n S).2 := ⟨_, rfl⟩
  have he' := he n S hsy
  rw [← hev] at hpos hinj he'
  rw [← hV] at he'
  have hm : ∀ i, m2 (ev i) = .fin (1 / √(ev i)) := by
    intro i
    have := hpos i
    rw [m2, abs_of_pos this, if_neg (Real.sqrt_ne_zero'.2 this)]
  obtain ⟨σ, hσ⟩ : ∃ σ, σ = argsort n (fun i => .fin (1 / √(ev i))) := ⟨_, rfl⟩
  have hmono := ha n fun i => 1 / √(ev i)
  rw [← hσ] at hmono
  let sg : Fin n → ℝ := fun i => if V ⟨0, hn⟩ i < 0 then -1 else 1
  let B : Matrix (Fin n) (Fin n) ℝ := .of fun i j => V j (σ i) * sg (σ i) * (1 / √(ev (σ i)))
  have hB : calculate eig argsort A = B.map RNum.fin := by
    ext i j
    simp only [calculate]
    rw [hs, ← hev, ← hV]
    simp only [hm, ← hσ, times, Matrix.of_apply, Matrix.map_apply, B, sg]
  have hsg : ∀ i, sg i * sg i = 1 := by
    intro i
    simp only [sg]
    split <;> norm_num
  have hrow : ∀ i, B i = (sg (σ i) * (1 / √(ev (σ i)))) • fun k => V k (σ i) := by
    intro i
    ext j
    simp only [B, Matrix.of_apply, Pi.smul_apply, smul_eq_mul]
    ring
  have hSB : ∀ i, S *ᵥ B i = ev (σ i) • B i := by
    intro i
    rw [hrow, mulVec_smul, (he' (σ i)).1, smul_comm]
  refine ⟨B, fun i => ev (σ i), ?_, ?_, ?_, hSB, ?_⟩
  · rw [eigenBasisRows_finite eig argsort A hn, hB]
  · ext i k
    have h1 : (B * S * Bᵀ) i k = B i ⬝ᵥ (S *ᵥ B k) := by
      rw [Matrix.mul_assoc, Matrix.mul_apply']
      congr 1
    rw [h1, hSB, dotProduct_smul, hrow i, hrow k, smul_dotProduct, dotProduct_smul, Matrix.one_apply]
    by_cases hik : i = k
    · subst hik
      rw [if_pos rfl, (he' (σ i)).2]
      have hp := hpos (σ i)
      have h2 := Real.mul_self_sqrt hp.le
      have h3 : √(ev (σ i)) ≠ 0 := Real.sqrt_ne_zero'.2 hp
      have h4 := hsg (σ i)
      simp only [smul_eq_mul, mul_one]
      rw [show ev (σ i) * (sg (σ i) * (1 / √(ev (σ i))) * (sg (σ i) * (1 / √(ev (σ i))))) =
        (sg (σ i) * sg (σ i)) * (ev (σ i) / (√(ev (σ i)) * √(ev (σ i)))) by field_simp, h4, h2, one_mul, div_self hp.ne']
    · rw [if_neg hik, orthogonal S hsy _ _ _ _ (he' (σ i)).1 (he' (σ k)).1 (fun h => hik (σ.injective (hinj h)))]
      simp
  · intro i
    have h3 : 0 ≤ 1 / √(ev (σ i)) := by positivity
    refine mul_nonneg ?_ h3
    simp only [sg]
    split
    · linarith
    · linarith
  · intro i j hij
    have h1 := hmono hij
    simp only at h1 ⊢
    have p1 := Real.sqrt_pos.2 (hpos (σ i))
    have p2 := Real.sqrt_pos.2 (hpos (σ j))
    rw [one_div_le_one_div p1 p2] at h1
    exact (Real.sqrt_le_sqrt_iff (hpos (σ i)).le).1 h1

/-- The eigenvalue zero gives infinities. -/
theorem eigenBasis_zero_violation (eig : Eig) (argsort : Argsort) (he : IsEig eig) :
    eigenBasisRows eig argsort [[.fin 0]] = .ok [[.pinf]] := by
  have h : ([[.fin 0]] : Rows RNum) = rep ((0 : Matrix (Fin 1) (Fin 1) ℝ).map RNum.fin) := by
    simp [rep]
  rw [h, eigenBasisRows_finite _ _ _ (by norm_num)]
  have h0 : (0.5 : ℝ) • ((0 : Matrix (Fin 1) (Fin 1) ℝ) + 0ᵀ) = 0 := by simp
  have he' := he 1 0 (by simp) 0
  obtain ⟨h1, h2⟩ := he'
  have hv : (eig 1 0).2 0 0 * (eig 1 0).2 0 0 = 1 := by simpa [dotProduct] using h2
  have hl : (eig 1 0).1 0 = 0 := by
    have := congrFun h1 0
    simp only [zero_mulVec, Pi.zero_apply, Pi.smul_apply, smul_eq_mul] at this
    rcases mul_eq_zero.1 this.symm with h | h
    · exact h
    · rw [h] at hv; norm_num at hv
  have : calculate eig argsort (0 : Matrix (Fin 1) (Fin 1) ℝ) = .of fun _ _ => .pinf := by
    ext i j
    have ei : argsort 1 (fun i => m2 ((eig 1 0).1 i)) i = 0 := Subsingleton.elim _ _
    have ej : j = 0 := Subsingleton.elim _ _
    simp only [calculate]
    rw [h0]
    have hm : m2 ((eig 1 0).1 0) = .pinf := by simp [m2, hl]
    simp only [Matrix.of_apply, ei, ej, hm, times]
    rw [if_pos]
    by_cases hneg : (eig 1 0).2 0 0 < 0
    · rw [if_pos (by simpa using hneg)]; linarith
    · rw [if_neg (by simpa using hneg)]
      push Not at hneg
      rcases lt_or_eq_of_le hneg with h | h
      · linarith
      · rw [← h] at hv; norm_num at hv
  rw [this]
  simp [rep]

/-- What is refused. -/
theorem eigenBasis_errors (eig : Eig) (argsort : Argsort) (A : Matrix (Fin n) (Fin m) RNum) (hn : 0 < n) (hm : 0 < m) :
    (n ≠ m → eigenBasisRows eig argsort (rep A) = .error (.rt 24112)) ∧
    (n = m → (∃ i j, bad (A i j) = true) → eigenBasisRows eig argsort (rep A) = .error (.rt 24113)) := by
  have h : eigenBasisRows eig argsort (rep A) = if n ≠ m then .error (.rt 24112)
      else if (rep A).any (·.any bad) then .error (.rt 24113)
      else .ok (rep (calculate eig argsort (toM n n ((rep A).map (·.map val))))) := by
    simp only [eigenBasisRows]
    rw [length_rep, head_rep _ hn, if_neg (by omega), if_neg (by omega), ragged_rep]
    simp
  refine ⟨fun hne => by rw [h, if_pos hne], fun he ⟨i, j, hb⟩ => ?_⟩
  rw [h, if_neg (by simpa using he), if_pos]
  simp only [rep, List.any_eq_true, List.mem_ofFn]
  exact ⟨_, ⟨i, rfl⟩, _, List.mem_ofFn.2 ⟨j, rfl⟩, hb⟩

/-! ## Distances -/

/-- The distance of Mahalanobis. -/
noncomputable def dist (A : Matrix (Fin n) (Fin n) ℝ) (a b : Fin n → ℝ) : ℝ := √((a - b) ⬝ᵥ (A⁻¹ *ᵥ (a - b)))

theorem solveDot_rep (A : Matrix (Fin n) (Fin n) ℝ) (hn : 0 < n) (hA : A.det ≠ 0) (v : Fin n → ℝ) :
    solveDot (rep A) (List.ofFn v) = .ok (v ⬝ᵥ (A⁻¹ *ᵥ v)) := by
  have key : ∀ k (hk : k = n), ((toM k k (rep A)).det ≠ 0 →
      ((toM k k (rep A))⁻¹ *ᵥ fun i : Fin k => (List.ofFn v).getD i 0) ⬝ᵥ (fun i : Fin k => (List.ofFn v).getD i 0) = v ⬝ᵥ (A⁻¹ *ᵥ v)) ∧
      (toM k k (rep A)).det = A.det := by
    rintro k rfl
    rw [toM_rep]
    have : (fun i : Fin k => (List.ofFn v).getD i 0) = v := by ext i; simp
    rw [this]
    exact ⟨fun _ => dotProduct_comm _ _, rfl⟩
  have hne : rep A ≠ [] := by
    intro h
    have := length_rep A
    rw [h] at this
    simp at this
    omega
  obtain ⟨k1, k2⟩ := key (rep A).length (length_rep A)
  simp only [solveDot]
  rw [ragged_rep, if_neg (by simp), if_neg (by rw [length_rep, head_rep A hn]; simp [hne]), if_neg (by simp), if_neg (by rw [k2]; exact hA),
    k1 (by rw [k2]; exact hA)]

theorem zipWith_sub (a b : Fin n → ℝ) : List.zipWith (· - ·) (List.ofFn a) (List.ofFn b) = List.ofFn (a - b) := by
  rw [zipWith_ofFn]
  rfl

theorem quad_nonneg {A : Matrix (Fin n) (Fin n) ℝ} (hA : A.PosDef) (v : Fin n → ℝ) : 0 ≤ v ⬝ᵥ (A⁻¹ *ᵥ v) := by
  simpa using hA.inv.posSemidef.dotProduct_mulVec_nonneg v

/-- Both functions give the distance, for a covariance matrix (positive definite). -/
theorem mahalanobis_spec (A : Matrix (Fin n) (Fin n) ℝ) (hA : A.PosDef) (hn : 0 < n) (a b : Fin n → ℝ) :
    mahalanobis (List.ofFn a) (List.ofFn b) (rep A) = .ok (.fin (dist A a b)) ∧
    regMahalanobis (List.ofFn a) (List.ofFn b) (rep A) = .ok (.fin (dist A a b)) := by
  have hq := quad_nonneg hA (a - b)
  have h1 := solveDot_rep A hn hA.det_pos.ne' (a - b)
  have hl : ∀ r ∈ rep A, r.length = n := by
    intro r hr
    obtain ⟨i, rfl⟩ := List.mem_ofFn.1 hr
    simp
  constructor
  · unfold mahalanobis
    rw [if_neg (by simp; omega), if_neg (by simp), if_neg, zipWith_sub, h1]
    · simp only [rootOf, dist]
      rw [if_neg (not_lt.2 hq)]
    · simp only [length_rep, List.length_ofFn, ne_eq, not_true_eq_false, decide_false, Bool.false_or, List.any_eq_true, not_exists, not_and,
        decide_eq_true_eq, not_not]
      exact hl
  · unfold regMahalanobis
    rw [if_neg (by simp; omega), if_neg (by simp), if_neg, zipWith_sub, h1]
    · simp only [rootOf, dist]
      rw [if_neg (not_lt.2 hq)]
    · rw [length_rep, head_rep A hn]
      simp

/-- The bilinear form of a symmetric matrix. -/
theorem quad_add (M : Matrix (Fin n) (Fin n) ℝ) (hM : Mᵀ = M) (v w : Fin n → ℝ) (t : ℝ) :
    (v + t • w) ⬝ᵥ (M *ᵥ (v + t • w)) = w ⬝ᵥ (M *ᵥ w) * (t * t) + 2 * (v ⬝ᵥ (M *ᵥ w)) * t + v ⬝ᵥ (M *ᵥ v) := by
  have h : w ⬝ᵥ (M *ᵥ v) = v ⬝ᵥ (M *ᵥ w) := by
    rw [dotProduct_mulVec, ← mulVec_transpose, hM, dotProduct_comm]
  rw [mulVec_add, mulVec_smul, add_dotProduct, dotProduct_add, dotProduct_add, smul_dotProduct, smul_dotProduct, dotProduct_smul,
    dotProduct_smul, h]
  simp only [smul_eq_mul]
  ring

/-- The distance is one: not negative, zero for equal arguments only, symmetric, with the inequality of triangles. -/
theorem dist_metric (A : Matrix (Fin n) (Fin n) ℝ) (hA : A.PosDef) (a b c : Fin n → ℝ) :
    0 ≤ dist A a b ∧ (dist A a b = 0 ↔ a = b) ∧ dist A a b = dist A b a ∧ dist A a c ≤ dist A a b + dist A b c := by
  have hsy : (A⁻¹)ᵀ = A⁻¹ := by simpa [IsHermitian] using hA.inv.isHermitian
  refine ⟨Real.sqrt_nonneg _, ⟨fun h => ?_, fun h => ?_⟩, ?_, ?_⟩
  · by_contra hne
    have h0 := hA.inv.dotProduct_mulVec_pos (sub_ne_zero.2 hne)
    rw [dist, Real.sqrt_eq_zero (quad_nonneg hA _)] at h
    simp only [star_trivial] at h0
    linarith
  · simp [dist, h]
  · rw [dist, dist, ← neg_sub b a, mulVec_neg, neg_dotProduct_neg]
  · obtain ⟨v, hv⟩ : ∃ v, v = a - b := ⟨_, rfl⟩
    obtain ⟨w, hw⟩ : ∃ w, w = b - c := ⟨_, rfl⟩
    have e : a - c = v + w := by rw [hv, hw]; abel
    rw [dist, dist, dist, e, ← hv, ← hw]
    have hd := discrim_le_zero (a := w ⬝ᵥ (A⁻¹ *ᵥ w)) (b := 2 * (v ⬝ᵥ (A⁻¹ *ᵥ w))) (c := v ⬝ᵥ (A⁻¹ *ᵥ v)) fun t => by
      rw [← quad_add A⁻¹ hsy]
      exact quad_nonneg hA _
    have h1 := quad_add A⁻¹ hsy v w 1
    rw [one_smul] at h1
    have p := quad_nonneg hA v
    have q := quad_nonneg hA w
    rw [h1]
    unfold discrim at hd
    generalize v ⬝ᵥ (A⁻¹ *ᵥ v) = x at *
    generalize w ⬝ᵥ (A⁻¹ *ᵥ w) = y at *
    generalize v ⬝ᵥ (A⁻¹ *ᵥ w) = z at *
    have sx := Real.mul_self_sqrt p
    have sy := Real.mul_self_sqrt q
    have nx := Real.sqrt_nonneg x
    have ny := Real.sqrt_nonneg y
    have hz : z ≤ √x * √y := by
      refine (abs_le.1 (abs_le_of_sq_le_sq (a := z) (b := √x * √y) ?_ (by positivity))).2
      nlinarith
    refine Real.sqrt_le_iff.2 ⟨by positivity, ?_⟩
    nlinarith

/-- In the basis of la.eigenBasis the distance of Mahalanobis is that of Euclid. -/
theorem dist_eigenBasis (A B : Matrix (Fin n) (Fin n) ℝ) (hB : B * A * Bᵀ = 1) (a b : Fin n → ℝ) :
    dist A a b = √((B *ᵥ a - B *ᵥ b) ⬝ᵥ (B *ᵥ a - B *ᵥ b)) := by
  have h1 : (B * A) * Bᵀ = 1 := hB
  have h2 : Bᵀ * (B * A) = 1 := mul_eq_one_comm.1 h1
  have h3 : A⁻¹ = Bᵀ * B := Matrix.inv_eq_left_inv (by rw [Matrix.mul_assoc]; exact h2)
  rw [dist, h3, ← mulVec_sub, ← mulVec_mulVec, dotProduct_mulVec, vecMul_transpose]

/-- What stat.test.mahalanobis refuses, and what it leaves to numpy. -/
theorem mahalanobis_errors (o p : List ℝ) (C : Rows ℝ) :
    (o = [] → mahalanobis o p C = .error (.rt 38030)) ∧
    (o ≠ [] → o.length ≠ p.length → mahalanobis o p C = .error (.rt 38031)) ∧
    (o ≠ [] → o.length = p.length → (C.length ≠ o.length ∨ ∃ r ∈ C, r.length ≠ o.length) → mahalanobis o p C = .error (.rt 38032)) := by
  refine ⟨fun h => by simp [mahalanobis, h], fun h1 h2 => ?_, fun h1 h2 h3 => ?_⟩
  · have a : ¬ o.length < 1 := by have := List.length_pos_iff.2 h1; omega
    simp [mahalanobis, a, h2]
  · have a : ¬ o.length < 1 := by have := List.length_pos_iff.2 h1; omega
    unfold mahalanobis
    rw [if_neg a, if_neg (by simpa using h2), if_pos]
    simpa using h3

/-- A singular covariance gives an exception that is not of PFA. -/
theorem mahalanobis_singular_violation : mahalanobis [1] [0] [[0]] = .error (.py "LinAlgError") := by
  have : toM 1 1 [[0]] 0 0 = 0 := by simp [toM]
  simp [mahalanobis, solveDot, ragged, this]

/-- A covariance of the wrong size is not refused with the code 31042. -/
theorem regMahalanobis_violation :
    regMahalanobis [1, 2] [0, 0] [[1, 0, 0], [0, 1, 0]] = .error (.py "LinAlgError") ∧
    mahalanobis [1, 2] [0, 0] [[1, 0, 0], [0, 1, 0]] = .error (.rt 38032) ∧
    regMahalanobis [1, 2] [0, 0] [[1, 0], [0]] = .error (.py "ValueError") := by
  refine ⟨?_, ?_, ?_⟩
  · simp [regMahalanobis, solveDot, ragged]
  · simp [mahalanobis]
  · simp [regMahalanobis, solveDot, ragged]

/-! ### Maps -/

theorem lookups_ok (d : PyDict String ℝ) (code : Int) (f : String → ℝ) : ∀ (ks : List String), (∀ k ∈ ks, d.get? k = some (f k)) →
    lookups d code ks = .ok (ks.map f)
  | [], _ => rfl
  | k :: ks, h => by
    rw [lookups, h k (by simp)]
    simp only
    rw [lookups_ok d code f ks fun k hk => h k (by simp [hk])]
    rfl

theorem lookups_missing (d : PyDict String ℝ) (code : Int) : ∀ (ks : List String), (∃ k ∈ ks, d.get? k = none) →
    lookups d code ks = .error (.rt code)
  | [], h => by simp at h
  | k :: ks, h => by
    rw [lookups]
    cases hk : d.get? k with
    | none => rfl
    | some v =>
      obtain ⟨k', h1, h2⟩ := h
      have : k' ∈ ks := by
        rcases List.mem_cons.1 h1 with rfl | h1
        · rw [hk] at h2; cases h2
        · exact h1
      simp only
      rw [lookups_missing d code ks ⟨k', this, h2⟩]

theorem table_ok (C : Maps ℝ) (code : Int) (keys : List String) (f : String → String → ℝ) : ∀ (ks : List String),
    (∀ k ∈ ks, ∀ l ∈ keys, cell C k l = some (f k l)) → keys ≠ [] → table C code keys ks = .ok (ks.map fun k => keys.map (f k))
  | [], _, _ => rfl
  | k :: ks, h, hk => by
    obtain ⟨l, hl⟩ := List.exists_mem_of_ne_nil keys hk
    rw [table]
    cases hr : C.get? k with
    | none =>
      have := h k (by simp) l hl
      simp [cell, hr] at this
    | some r =>
      simp only
      rw [lookups_ok r code (f k) keys fun l hl => by have := h k (by simp) l hl; simpa [cell, hr] using this]
      simp only
      rw [table_ok C code keys f ks (fun k hk => h k (by simp [hk])) hk]
      rfl

theorem table_missing (C : Maps ℝ) (code : Int) (keys : List String) : ∀ (ks : List String),
    (∃ k ∈ ks, ∃ l ∈ keys, cell C k l = none) → table C code keys ks = .error (.rt code)
  | [], h => by simp at h
  | k :: ks, h => by
    rw [table]
    cases hr : C.get? k with
    | none => rfl
    | some r =>
      simp only
      by_cases hm : ∃ l ∈ keys, r.get? l = none
      · rw [lookups_missing r code keys hm]
      · push Not at hm
        have h1 : ∀ l ∈ keys, r.get? l = some ((r.get? l).getD 0) := by
          intro l hl
          cases hx : r.get? l with
          | none => exact absurd hx (hm l hl)
          | some v => rfl
        rw [lookups_ok r code (fun l => (r.get? l).getD 0) keys h1]
        simp only
        obtain ⟨k', hk', l, hl, hc⟩ := h
        have : k' ∈ ks := by
          rcases List.mem_cons.1 hk' with rfl | h2
          · simp [cell, hr] at hc
            exact absurd hc (hm l hl)
          · exact h2
        rw [table_missing C code keys ks ⟨k', this, l, hl, hc⟩]

/-- Maps with the same keys give what arrays of their values give, whatever the order of the keys. -/
theorem mahalanobisMaps_spec (o p : PyDict String ℝ) (C : Maps ℝ) (hk : ∀ k, k ∈ o.keys ↔ k ∈ p.keys) (ho : o ≠ [])
    (f : String → ℝ) (g : String → String → ℝ) (hf : ∀ k ∈ o.keys, p.get? k = some (f k))
    (hg : ∀ k ∈ o.keys, ∀ l ∈ o.keys, cell C k l = some (g k l)) :
    mahalanobisMaps o p C = mahalanobis (o.map Prod.snd) (o.keys.map f) (o.keys.map fun k => o.keys.map (g k)) := by
  have h0 : ¬ o.length < 1 := by have := List.length_pos_iff.2 ho; omega
  have hl : o.keys.length = o.length := by simp [PyDict.keys]
  have hne : o.keys ≠ [] := by
    intro h
    rw [h] at hl
    exact ho (List.length_eq_zero_iff.1 hl.symm)
  unfold mahalanobisMaps mahalanobis
  rw [if_neg h0, if_neg, lookups_ok p _ f _ hf]
  · simp only
    rw [table_ok C _ _ g _ hg hne, if_neg (by simpa using h0), if_neg (by simp [hl]), if_neg]
    simp [hl]
  · simp only [Bool.not_eq_true', Bool.not_eq_false, Bool.and_eq_true, List.all_eq_true, List.contains_iff_mem]
    exact ⟨fun k h => (hk k).1 h, fun k h => (hk k).2 h⟩

/-- Maps with other keys, or a covariance that lacks one, are refused. -/
theorem mahalanobisMaps_errors (o p : PyDict String ℝ) (C : Maps ℝ) (ho : o ≠ []) :
    ((∃ k, ¬ (k ∈ o.keys ↔ k ∈ p.keys)) → mahalanobisMaps o p C = .error (.rt 38031)) ∧
    ((∀ k, k ∈ o.keys ↔ k ∈ p.keys) → (∃ k ∈ o.keys, ∃ l ∈ o.keys, cell C k l = none) → mahalanobisMaps o p C = .error (.rt 38032)) := by
  have h0 : ¬ o.length < 1 := by have := List.length_pos_iff.2 ho; omega
  refine ⟨fun ⟨k, hk⟩ => ?_, fun hk hc => ?_⟩
  · unfold mahalanobisMaps
    rw [if_neg h0, if_pos]
    rw [Bool.not_eq_true', Bool.eq_false_iff]
    intro h
    simp only [Bool.and_eq_true, List.all_eq_true, List.contains_iff_mem] at h
    exact hk ⟨h.1 k, h.2 k⟩
  · have hf : ∀ k ∈ o.keys, p.get? k = some ((p.get? k).getD 0) := by
      intro k hk'
      have := (PyDict.get?_isSome_iff _ _).2 ((hk k).1 hk')
      cases hx : p.get? k with
      | none => rw [hx] at this; cases this
      | some v => rfl
    unfold mahalanobisMaps
    rw [if_neg h0, if_neg, lookups_ok p _ _ _ hf]
    · simp only
      rw [table_missing C _ _ _ hc]
    · simp only [Bool.not_eq_true', Bool.not_eq_false, Bool.and_eq_true, List.all_eq_true, List.contains_iff_mem]
      exact ⟨fun k h => (hk k).1 h, fun k h => (hk k).2 h⟩

/-! ## Example -/

/-- The hypotheses hold for a matrix of two rows. -/
example : (1 : Matrix (Fin 2) (Fin 2) ℝ).PosDef ∧ (!![2, 1; 1, 1] : Matrix (Fin 2) (Fin 2) ℝ).det ≠ 0 ∧
    mahalanobis [3, 4] [0, 0] [[1, 0], [0, 1]] = .ok (.fin 5) := by
  refine ⟨Matrix.PosDef.one, by rw [det_fin_two_of]; norm_num, ?_⟩
  have h := (mahalanobis_spec (1 : Matrix (Fin 2) (Fin 2) ℝ) Matrix.PosDef.one (by norm_num) ![3, 4] ![0, 0]).1
  have e1 : List.ofFn (![3, 4] : Fin 2 → ℝ) = [3, 4] := by simp [List.ofFn_succ]
  have e2 : List.ofFn (![0, 0] : Fin 2 → ℝ) = [0, 0] := by simp [List.ofFn_succ]
  have e3 : rep (1 : Matrix (Fin 2) (Fin 2) ℝ) = [[1, 0], [0, 1]] := by simp [rep, List.ofFn_succ]
  rw [e1, e2, e3] at h
  rw [h, dist]
  congr 2
  rw [inv_one, one_mulVec, show (![3, 4] : Fin 2 → ℝ) - ![0, 0] = ![3, 4] by simp]
  rw [show (![3, 4] : Fin 2 → ℝ) ⬝ᵥ ![3, 4] = 5 ^ 2 by simp [dotProduct, Fin.sum_univ_two]; norm_num]
  exact Real.sqrt_sq (by norm_num)

end Verif.La.Numpy
