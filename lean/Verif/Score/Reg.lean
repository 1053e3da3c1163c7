import Verif.La.Arrays
import Verif.La.Dicts
import Verif.Misc.Test
/-! # Linear regression (`titus/lib/model/reg.py`)

Exact arithmetic over any commutative ring. Of `gaussianProcess` only the treatment of the kriging weight and the loop over the outputs
are modelled, the fit itself (Cholesky and QR factors of numpy) is not. -/

namespace Verif.Score
open Verif.La
open Verif.Stat (Num)

variable {α : Type}

/-! ## Model -/

/-- `model.reg.linear` with an array of coefficients (reg.py 57-62). -/
def regLinear [Add α] [Mul α] [Zero α] [One α] (datum coeff : List α) (const : α) : Res α :=
  let c := coeff ++ [const]
  let d := datum ++ [1]
  if d.length ≠ c.length then .error (.rt 31000) else .ok (La.inner c d)

/-- With an array of arrays (64-78): stacking the constants under the transposed coefficients appends one to each row. -/
def regLinearRows [Add α] [Mul α] [Zero α] [One α] (datum : List α) (coeff : Rows α) (const : List α) : Res (List α) :=
  if const.length ≠ coeff.length then .error (.rt 31001)
  else if coeff.any (fun row => decide (row.length ≠ datum.length)) then .error (.rt 31000)
  else if datum.length = 0 then .ok const
  else if const.length = 0 then .ok []
  else .ok (List.zipWith (fun row c => La.inner (row ++ [c]) (datum ++ [1])) coeff const)

/-- With a map (80-86). -/
def regLinearMap [Add α] [Mul α] [Zero α] (datum coeff : PyDict String α) (const : α) : α :=
  ((La.union datum.keys coeff.keys).map fun k => get0 datum k * get0 coeff k).sum + const

/-- With a map of maps (88-102). -/
def regLinearMaps [Add α] [Mul α] [Zero α] (datum : PyDict String α) (coeff : Maps α) (const : PyDict String α) : PyDict String α :=
  let innerKeys := La.union datum.keys (colKeys coeff)
  build (La.union const.keys coeff.keys) fun o => (innerKeys.map fun k => get0 datum k * at0 coeff o k).sum + get0 const o

/-- `x.dot(C.dot(x.T))`. -/
def quad [Add α] [Mul α] [Zero α] (x : List α) (C : Rows α) : α := La.inner x (C.map fun row => La.inner row x)

/-- `model.reg.linearVariance` with one matrix (115-122), and the body of the loop over matrices (129-132). -/
def regVariance [Add α] [Mul α] [Zero α] [One α] (datum : List α) (covar : Rows α) : Res α :=
  let d := datum ++ [1]
  if d.length ≠ covar.length || covar.any (fun x => decide (d.length ≠ x.length)) then .error (.rt 31010) else .ok (quad d covar)

/-- With an array of matrices (124-133). -/
def regVariances [Add α] [Mul α] [Zero α] [One α] (datum : List α) (covar : List (Rows α)) : Res (List α) :=
  evalAll (regVariance datum) covar

/-- `sum([list(x.keys()) for x in covar.values()], [])` joined with the keys of the datum. -/
def varKeys (datum : PyDict String α) (covar : Maps α) : List String := La.union datum.keys (colKeys covar)

/-- The product of matrices over the keys. -/
def quadMap [Add α] [Mul α] [Zero α] (keys : List String) (d : PyDict String α) (C : Maps α) : α :=
  (keys.map fun i => get0 d i * (keys.map fun j => at0 C i j * get0 d j).sum).sum

/-- With a map of maps (135-141). -/
def regVarianceMap [Add α] [Mul α] [Zero α] [One α] (datum : PyDict String α) (covar : Maps α) : α :=
  let d := datum.set "" 1
  quadMap (varKeys d covar) d covar

/-- With a map of maps of maps (143-152). -/
def regVarianceMaps [Add α] [Mul α] [Zero α] [One α] (datum : PyDict String α) (covar : PyDict String (Maps α)) : PyDict String α :=
  let d := datum.set "" 1
  let keys := covar.foldl (fun a r => La.union a (colKeys r.2)) d.keys
  covar.map fun r => (r.1, quadMap keys d r.2)

/-- `getbeta` of `model.reg.gaussianProcess` (187-193): there is no `return`. -/
def getbeta : Option Num → Res (Option Num)
  | some b => if b.isNan || b.isInf then .error (.rt 31087) else .ok none
  | none => .ok none

/-- The loop over the outputs (263-272): `beta` is the variable given to the next fit. -/
def gpOutputs {β γ δ : Type} (fit : Option β → Nat → β × γ) (predict : Nat → β → γ → δ) : Option β → List Nat → List δ
  | _, [] => []
  | beta, i :: l =>
    let p := fit beta i
    predict i p.1 p.2 :: gpOutputs fit predict (some p.1) l

/-- `model.reg.residual` of arrays (deprecated, 397-402). -/
def regResidual (r : ℚ → Num) (o p : List Num) : Res (List Num) := .ok (List.zipWith (Num.sub r) o p)

/-- Python's `/` between floats. -/
def pyDivide (r : ℚ → Num) (a b : Num) : Res Num :=
  if b = .fin 0 then .error (.py "ZeroDivisionError") else .ok (Num.div r a b)

/-- `model.reg.pull` of arrays (deprecated, 437-442). -/
def regPull (r : ℚ → Num) (o p u : List Num) : Res (List Num) :=
  if o.length ≠ p.length then .error (.rt 31030)
  else if o.length ≠ u.length then .error (.rt 31030)
  else evalAll (fun t : (Num × Num) × Num => pyDivide r (Num.sub r t.1.1 t.1.2) t.2) ((o.zip p).zip u)

/-- A number of Python with its type, for the field `DOF`. -/
inductive PyNum
  | int (n : Int)
  | float (q : ℚ)
  deriving DecidableEq

/-- A record in memory. -/
structure RegState where
  chi2 : Num
  dof : PyNum
  deriving DecidableEq

/-- `update` (500-503): changes the record that it is given, and returns it. The memory is a function from references. -/
def regUpdate (r : ℚ → Num) (x : Num) (ref : Nat) (mem : Nat → RegState) : Nat × (Nat → RegState) :=
  let old := mem ref
  let dof := match old.dof with
    | .int n => .float (n + 1)
    | .float q => .float (q + 1)
  (ref, fun k => if k = ref then ⟨Num.add r old.chi2 x, dof⟩ else mem k)

/-! ## linear -/

section
variable [CommRing α] {n m : Nat}

theorem inner_append (a b : List α) (x y : α) (h : a.length = b.length) : La.inner (a ++ [x]) (b ++ [y]) = La.inner a b + x * y := by
  unfold La.inner
  rw [List.zipWith_append h]
  simp

/-- A linear function of the datum. -/
theorem regLinear_spec (c d : Fin n → α) (k : α) : regLinear (List.ofFn d) (List.ofFn c) k = .ok (∑ i, c i * d i + k) := by
  unfold regLinear
  simp only
  rw [if_neg (by simp), inner_append _ _ _ _ (by simp), inner_ofFn, mul_one]

theorem regLinear_errors (datum coeff : List α) (k : α) (h : datum.length ≠ coeff.length) :
    regLinear datum coeff k = .error (.rt 31000) := by
  unfold regLinear
  simp only
  rw [if_pos (by simpa using h)]

/-- A matrix applied to the datum, plus a vector; also without rows or columns. -/
theorem regLinearRows_spec (A : Matrix (Fin n) (Fin m) α) (d : Fin m → α) (k : Fin n → α) :
    regLinearRows (List.ofFn d) (rep A) (List.ofFn k) = .ok (List.ofFn fun i => A.mulVec d i + k i) := by
  unfold regLinearRows
  rw [if_neg (by simp [rep]), if_neg (by simp [rep, List.forall_mem_ofFn_iff])]
  by_cases hm : (List.ofFn d).length = 0
  · rw [if_pos hm]
    simp at hm
    subst hm
    congr 2
    funext i
    simp [Matrix.mulVec, dotProduct]
  · rw [if_neg hm]
    by_cases hn : (List.ofFn k).length = 0
    · rw [if_pos hn]
      simp at hn
      subst hn
      simp
    · rw [if_neg hn]
      congr 1
      have := La.zipWith_ofFn (fun (row : List α) (c : α) => La.inner (row ++ [c]) (List.ofFn d ++ [1])) (fun i => List.ofFn fun j => A i j) k
      refine Eq.trans this ?_
      congr 1
      funext i
      rw [inner_append _ _ _ _ (by simp), inner_ofFn, mul_one]
      rfl

theorem regLinearRows_errors (datum : List α) (coeff : Rows α) (const : List α) :
    (const.length ≠ coeff.length → regLinearRows datum coeff const = .error (.rt 31001)) ∧
    (const.length = coeff.length → (∃ row ∈ coeff, row.length ≠ datum.length) →
      regLinearRows datum coeff const = .error (.rt 31000)) := by
  refine ⟨?_, ?_⟩
  · intro h; unfold regLinearRows; rw [if_pos h]
  · rintro h ⟨row, hr, hl⟩
    unfold regLinearRows
    rw [if_neg (by simpa using h), if_pos]
    rw [List.any_eq_true]
    exact ⟨row, hr, by simpa using hl⟩

/-- The map forms are the same sums over all names, where missing entries are zero. -/
theorem regLinearMap_spec (datum coeff : PyDict String α) (hd : datum.WF) (hc : coeff.WF) (k : α) :
    regLinearMap datum coeff k = ∑ᶠ i, coord datum i * coord coeff i + k := by
  unfold regLinearMap
  congr 1
  simp only [get0_coord]
  apply sum_finsum
  · exact nodup_union hd hc
  · intro i hi
    rw [mem_union]
    exact Or.inl (coord_ne (left_ne_zero_of_mul hi))

theorem regLinearMaps_spec (datum : PyDict String α) (coeff : Maps α) (const : PyDict String α) (hd : datum.WF) (hc : Good coeff)
    (o : String) :
    (o ∈ (regLinearMaps datum coeff const).keys ↔ o ∈ const.keys ∨ o ∈ coeff.keys) ∧
    (o ∈ (regLinearMaps datum coeff const).keys → coord (regLinearMaps datum coeff const) o =
      ∑ᶠ i, coord datum i * entry coeff o i + coord const o) := by
  unfold regLinearMaps
  simp only
  rw [keys_build, mem_union]
  refine ⟨Iff.rfl, ?_⟩
  intro h
  conv_lhs => unfold coord
  rw [get?_build, if_pos ((mem_union _ _ _).2 h)]
  simp only [get0_coord, at0_entry]
  congr 1
  apply sum_finsum
  · exact nodup_union hd (nodup_colKeys hc)
  · intro i hi
    rw [mem_union]
    exact Or.inl (coord_ne (left_ne_zero_of_mul hi))

/-! ## linearVariance -/

theorem quad_spec (x : Fin n → α) (C : Matrix (Fin n) (Fin n) α) :
    quad (List.ofFn x) (rep C) = ∑ i, ∑ j, x i * C i j * x j := by
  unfold quad rep
  rw [List.map_ofFn, inner_ofFn]
  refine Finset.sum_congr rfl fun i _ => ?_
  simp only [Function.comp_def]
  rw [inner_ofFn, Finset.mul_sum]
  refine Finset.sum_congr rfl fun j _ => ?_
  ring

/-- The quadratic form of the matrix in the datum with 1 appended. -/
theorem regVariance_spec (x : Fin n → α) (C : Matrix (Fin (n + 1)) (Fin (n + 1)) α) :
    regVariance (List.ofFn x) (rep C) = .ok (∑ i, ∑ j, (Fin.snoc x 1 : Fin (n + 1) → α) i * C i j * (Fin.snoc x 1 : Fin (n + 1) → α) j) := by
  have e : List.ofFn x ++ [1] = List.ofFn (Fin.snoc x 1 : Fin (n + 1) → α) := by
    rw [List.ofFn_succ']
    simp [List.concat_eq_append]
  unfold regVariance
  simp only
  rw [e, if_neg (by simp [rep, List.forall_mem_ofFn_iff]), quad_spec]

theorem regVariance_errors (datum : List α) (covar : Rows α)
    (h : datum.length + 1 ≠ covar.length ∨ ∃ row ∈ covar, row.length ≠ datum.length + 1) :
    regVariance datum covar = .error (.rt 31010) := by
  unfold regVariance
  simp only
  rw [if_pos]
  simp only [List.length_append, List.length_singleton, Bool.or_eq_true, decide_eq_true_eq, List.any_eq_true]
  rcases h with h | ⟨row, hr, h⟩
  · exact Or.inl h
  · exact Or.inr ⟨row, hr, h.symm⟩

/-- It is the variance of the prediction: if the coefficients and the constant vary over a finite space with weights `w` and `C` is their
covariance matrix, then the result is the mean squared deviation of `model.reg.linear` from its mean. -/
theorem regVariance_is_variance {Ω : Type} [Fintype Ω] (w : Ω → α) (c : Ω → Fin (n + 1) → α) (mean : Fin (n + 1) → α) (x : Fin n → α)
    (C : Matrix (Fin (n + 1)) (Fin (n + 1)) α) (hC : ∀ i j, C i j = ∑ o, w o * ((c o i - mean i) * (c o j - mean j))) :
    ∃ f : Ω → α, ∃ mf : α,
      (∀ o, regLinear (List.ofFn x) (List.ofFn fun i : Fin n => c o i.castSucc) (c o (Fin.last n)) = .ok (f o)) ∧
      regLinear (List.ofFn x) (List.ofFn fun i : Fin n => mean i.castSucc) (mean (Fin.last n)) = .ok mf ∧
      regVariance (List.ofFn x) (rep C) = .ok (∑ o, w o * (f o - mf) ^ 2) := by
  refine ⟨_, _, fun o => regLinear_spec _ _ _, regLinear_spec _ _ _, ?_⟩
  rw [regVariance_spec]
  congr 1
  have hdev : ∀ o, (∑ i : Fin n, c o i.castSucc * x i + c o (Fin.last n)) - (∑ i : Fin n, mean i.castSucc * x i + mean (Fin.last n)) =
      ∑ i : Fin (n + 1), (c o i - mean i) * (Fin.snoc x 1 : Fin (n + 1) → α) i := by
    intro o
    rw [Fin.sum_univ_castSucc]
    simp only [Fin.snoc_castSucc, Fin.snoc_last, sub_mul, Finset.sum_sub_distrib]
    ring
  simp only [hdev]
  generalize (Fin.snoc x 1 : Fin (n + 1) → α) = y
  have : ∀ o, w o * (∑ i, (c o i - mean i) * y i) ^ 2 = ∑ i, ∑ j, y i * (w o * ((c o i - mean i) * (c o j - mean j))) * y j := by
    intro o
    rw [pow_two, Finset.sum_mul_sum, Finset.mul_sum]
    refine Finset.sum_congr rfl fun i _ => ?_
    rw [Finset.mul_sum]
    refine Finset.sum_congr rfl fun j _ => ?_
    ring
  simp only [this, hC]
  rw [Finset.sum_comm (s := (Finset.univ : Finset Ω))]
  refine Finset.sum_congr rfl fun i _ => ?_
  rw [Finset.sum_comm (s := (Finset.univ : Finset Ω))]
  refine Finset.sum_congr rfl fun j _ => ?_
  rw [Finset.mul_sum, Finset.sum_mul]

theorem quadMap_spec (keys : List String) (hk : keys.Nodup) (d : PyDict String α) (C : Maps α) (hd : ∀ k ∈ d.keys, k ∈ keys) :
    quadMap keys d C = ∑ᶠ i, coord d i * ∑ᶠ j, entry C i j * coord d j := by
  unfold quadMap
  have : ∀ i, (keys.map fun j => at0 C i j * get0 d j).sum = ∑ᶠ j, entry C i j * coord d j := by
    intro i
    simp only [get0_coord, at0_entry]
    exact sum_finsum keys hk _ fun j hj => hd j (coord_ne (right_ne_zero_of_mul hj))
  simp only [this]
  simp only [get0_coord]
  exact sum_finsum keys hk _ fun j hj => hd j (coord_ne (left_ne_zero_of_mul hj))

/-- The map form: the constant is under the empty name, whatever the datum has there. -/
theorem regVarianceMap_spec (datum : PyDict String α) (covar : Maps α) (hd : datum.WF) (hc : Good covar) :
    regVarianceMap datum covar = ∑ᶠ i, (if i = "" then 1 else coord datum i) *
      ∑ᶠ j, entry covar i j * (if j = "" then 1 else coord datum j) := by
  have hs : (datum.set "" 1).WF := PyDict.set_nodup hd _ _
  unfold regVarianceMap varKeys
  simp only
  rw [quadMap_spec _ (nodup_union hs (nodup_colKeys hc)) _ _ fun k hk => (mem_union _ _ _).2 (Or.inl hk)]
  have : ∀ i, coord (datum.set "" (1 : α)) i = if i = "" then 1 else coord datum i := by
    intro i
    unfold coord
    rw [PyDict.get?_set]
    by_cases h : i = ""
    · subst h; simp
    · have : "" ≠ i := fun h' => h h'.symm
      simp [h, this]
  simp only [this]

/-- With several matrices: each entry is the result for its matrix, and any misaligned matrix is refused. -/
theorem regVariances_spec (datum : List α) (covar : List (Rows α)) (out : List α) :
    regVariances datum covar = .ok out ↔ List.Forall₂ (fun C v => regVariance datum C = .ok v) covar out :=
  evalAll_ok _ _ _

theorem foldl_union_nodup (l : PyDict String (Maps α)) (h : ∀ r ∈ l, Good r.2) (a : List String) (ha : a.Nodup) :
    (l.foldl (fun a r => La.union a (colKeys r.2)) a).Nodup ∧ ∀ k ∈ a, k ∈ l.foldl (fun a r => La.union a (colKeys r.2)) a := by
  induction l generalizing a with
  | nil => exact ⟨ha, fun _ h => h⟩
  | cons r l ih =>
    have := ih (fun r hr => h r (by simp [hr])) (La.union a (colKeys r.2)) (nodup_union ha (nodup_colKeys (h r (by simp))))
    exact ⟨this.1, fun k hk => this.2 k ((mem_union _ _ _).2 (Or.inl hk))⟩

theorem regVarianceMaps_spec (datum : PyDict String α) (covar : PyDict String (Maps α)) (hd : datum.WF) (hc : ∀ r ∈ covar, Good r.2) :
    (regVarianceMaps datum covar).keys = covar.keys ∧
    ∀ o C, covar.get? o = some C → (regVarianceMaps datum covar).get? o = some (regVarianceMap datum C) := by
  have hs : (datum.set "" (1 : α)).WF := PyDict.set_nodup hd _ _
  obtain ⟨h1, h2⟩ := foldl_union_nodup covar hc (datum.set "" (1 : α)).keys hs
  unfold regVarianceMaps
  simp only
  refine ⟨by simp [PyDict.keys], ?_⟩
  generalize covar.foldl (fun a r => La.union a (colKeys r.2)) (datum.set "" (1 : α)).keys = keys at h1 h2
  intro o C
  induction covar with
  | nil => intro h; cases h
  | cons r l ih =>
    obtain ⟨k, D⟩ := r
    simp only [List.map_cons]
    rw [PyDict.get?_cons, PyDict.get?_cons]
    by_cases hk : k = o
    · rw [if_pos hk, if_pos hk]
      intro h
      cases h
      have hg : Good C := hc (k, C) (by simp)
      rw [quadMap_spec keys h1 _ _ h2]
      unfold regVarianceMap varKeys
      simp only
      rw [quadMap_spec _ (nodup_union hs (nodup_colKeys hg)) _ _ fun k hk => (mem_union _ _ _).2 (Or.inl hk)]
    · rw [if_neg hk, if_neg hk]
      exact ih fun r hr => hc r (by simp [hr])

end

/-! ## Wrong results -/

/-- The kriging weight is never used: whatever it is, the fit gets None. -/
theorem kriging_violation (w : Option Num) (b : Option Num) (h : getbeta w = .ok b) : b = none := by
  unfold getbeta at h
  split at h
  · split at h
    · cases h
    · cases h; rfl
  · cases h; rfl

theorem kriging_error (b : Num) (h : b.isNan = true ∨ b.isInf = true) : getbeta (some b) = .error (.rt 31087) := by
  unfold getbeta
  simp only
  rw [if_pos (by simpa using h)]

/-- `fit` returns a beta that it was given (344-347). With two outputs the second one is computed with the beta fitted for the first. -/
theorem outputs_violation {β γ δ : Type} (fit : Option β → Nat → β × γ) (hfit : ∀ b i, (fit (some b) i).1 = b) (predict : Nat → β → γ → δ) :
    gpOutputs fit predict none [0, 1] =
      [predict 0 (fit none 0).1 (fit none 0).2, predict 1 (fit none 0).1 (fit (some (fit none 0).1) 1).2] := by
  simp [gpOutputs, hfit]

/-- The deprecated residual drops the entries that have no partner. -/
theorem regResidual_violation : regResidual .fin [.fin 1, .fin 2] [.fin 1] = .ok [.fin 0] := by
  simp [regResidual, Num.sub_fin]

/-- The deprecated pull raises ZeroDivisionError for an uncertainty of zero. -/
theorem regPull_violation : regPull .fin [.fin 1] [.fin 0] [.fin 0] = .error (.py "ZeroDivisionError") := rfl

/-- Where lengths agree and no uncertainty is zero it is the pull of stat.test. -/
theorem regPull_partial (r : ℚ → Num) (o p u : List Num) (h1 : o.length = p.length) (h2 : o.length = u.length)
    (h3 : ∀ x ∈ u, x ≠ .fin 0) : ∃ l, regPull r o p u = .ok l ∧ Misc.pull r (.array o) (.array p) (.array u) = .ok (.array l) := by
  refine ⟨Misc.zip3With (fun o p u => Num.div r (Num.sub r o p) u) o p u, ?_, ?_⟩
  · unfold regPull
    rw [if_neg (by simpa using h1), if_neg (by simpa using h2)]
    clear h1 h2
    rw [evalAll_ok]
    induction u generalizing o p with
    | nil => cases o <;> cases p <;> simp [Misc.zip3With]
    | cons a u ih =>
      cases o with
      | nil => simp [Misc.zip3With]
      | cons b o =>
        cases p with
        | nil => simp [Misc.zip3With]
        | cons c p =>
          refine .cons ?_ (ih o p fun x hx => h3 x (by simp [hx]))
          unfold pyDivide
          rw [if_neg (h3 a (by simp))]
  · simp only [Misc.pull]
    rw [if_neg (by simpa using h1), if_neg (by simpa using h2)]

/-- The deprecated updateChi2 changes the record that it is given, and makes the int field a float. -/
theorem regUpdate_violation (r : ℚ → Num) (x c : Num) (n : Int) (ref : Nat) (mem : Nat → RegState) (h : mem ref = ⟨c, .int n⟩) :
    ∃ mem', regUpdate r x ref mem = (ref, mem') ∧ mem' ref = ⟨Num.add r c x, .float (n + 1)⟩ ∧ mem' ref ≠ mem ref := by
  refine ⟨_, rfl, ?_, ?_⟩
  · simp [h]
  · simp [h]

/-- Non-trivial cases. -/
theorem reg_example : regLinear [1, 2] [3, 4] (5 : ℚ) = .ok 16 ∧ regVariance [2] [[1, 3], [3, 10]] = .ok (26 : ℚ) ∧
    regVarianceMap [("x", 2)] [("x", [("x", 1), ("", 3)]), ("", [("x", 3), ("", 10)])] = (26 : ℚ) := by
  refine ⟨by decide +kernel, by decide +kernel, by decide +kernel⟩

end Verif.Score
