import Verif.Stat.Update
import Verif.Py.Basic
/-! # stat.sample.updateCovariance: streaming means and covariances (C62) -/

namespace Verif.Stat
open Num

/-- The state record of `stat.sample.updateCovariance` with arrays. -/
structure CovA (ρ : Type) where
  count : Num
  mean : List Num
  cov : List (List Num)
  rest : ρ
  deriving DecidableEq, Repr

/-- titus/lib/stat/sample.py:165, one entry of the new covariance matrix: the old entry and count, the
two data and means, the weight and the new count. -/
def covEntry (r : ℚ → Num) (old oldCount xi mi xj mj w newCount : Num) : Num :=
  div r (add r (mul r old oldCount)
    (div r (mul r (mul r (mul r (sub r xi mi) (sub r xj mj)) w) oldCount) newCount)) newCount

/-- titus/lib/stat/sample.py:161, one entry of the new mean. -/
def meanEntry (r : ℚ → Num) (x oldm w newCount : Num) : Num :=
  add r oldm (div r (mul r (sub r x oldm) w) newCount)

/-- titus/lib/stat/sample.py:102-105 and 151-168, the array signature. -/
def updateCovA {ρ} (r : ℚ → Num) (x : List Num) (w : Num) (s : CovA ρ) : Res (CovA ρ) :=
  if x.length < 2 then .error (.rt 14011)
  else if x.length ≠ s.mean.length ∨ x.length ≠ s.cov.length ∨
      s.cov.any (fun row => decide (x.length ≠ row.length)) = true then .error (.rt 14012)
  else
    let newCount := add r s.count w
    let xm := List.zip x s.mean
    .ok { s with
      count := newCount
      mean := xm.map (fun p => meanEntry r p.1 p.2 w newCount)
      cov := List.zipWith (fun p row =>
        List.zipWith (fun q old => covEntry r old s.count p.1 p.2 q.1 q.2 w newCount) xm row) xm s.cov }

/-- A stream of vectors. -/
def runCovA {ρ} (r : ℚ → Num) : List (List Num × Num) → CovA ρ → Res (CovA ρ)
  | [], s => .ok s
  | (x, w) :: l, s =>
    match updateCovA r x w s with
    | .error e => .error e
    | .ok s' => runCovA r l s'

/-- The state record with maps, as functions with the default 0.0 of lines 119, 130, 139-142.  The
maps returned have an entry for every key seen so far; entries never seen are 0.0. -/
structure CovM (κ ρ : Type) where
  count : κ → κ → Num
  mean : κ → Num
  cov : κ → κ → Num
  rest : ρ

/-- titus/lib/stat/sample.py:102-149, the map signature: only the entries whose keys are both in `x`
change. -/
def updateCovM {κ ρ : Type} (r : ℚ → Num) (size : Nat) (x : κ → Option Num) (w : Num) (s : CovM κ ρ) :
    Res (CovM κ ρ) :=
  if size < 2 then .error (.rt 14011)
  else
    let newCount : κ → κ → Num := fun i j =>
      match x i, x j with
      | some _, some _ => add r (s.count i j) w
      | _, _ => s.count i j
    .ok { s with
      count := newCount
      mean := fun i =>
        match x i with
        | some xi => meanEntry r xi (s.mean i) w (newCount i i)
        | none => s.mean i
      cov := fun i j =>
        match x i, x j with
        | some xi, some xj =>
          covEntry r (s.cov i j) (s.count i j) xi (s.mean i) xj (s.mean j) w (newCount i j)
        | _, _ => s.cov i j }

/-! ## Specification -/

/-- A weighted data vector: coordinate `i` is `v i`. -/
abbrev Vec := (Nat → ℚ) × ℚ

/-- Total weight. -/
def cW (l : List Vec) : ℚ := (l.map (·.2)).sum
/-- Weighted mean of coordinate `i`. -/
def cM (l : List Vec) (i : Nat) : ℚ := (l.map (fun d => d.2 * d.1 i)).sum / cW l
/-- Weighted covariance of the coordinates `i` and `j`. -/
def cV (l : List Vec) (i j : Nat) : ℚ :=
  (l.map (fun d => d.2 * ((d.1 i - cM l i) * (d.1 j - cM l j)))).sum / cW l

/-- The first `d` coordinates as a Python list. -/
def vec (d : Nat) (f : Nat → ℚ) : List Num := (List.range d).map (fun i => .fin (f i))
/-- A `d` by `d` matrix as Python lists. -/
def mat (d : Nat) (f : Nat → Nat → ℚ) : List (List Num) := (List.range d).map (fun i => vec d (f i))

/-! ## Proofs -/

/-- The moments of a state with respect to sums. -/
structure CovMom {ρ} (d : Nat) (st : CovA ρ) (c : ℚ) (s : Nat → ℚ) (q : Nat → Nat → ℚ)
    (rest : ρ) : Prop where
  ex : ∃ m v, st = ⟨.fin c, vec d m, mat d v, rest⟩ ∧ (∀ i, c * m i = s i) ∧
    ∀ i j, c * v i j = q i j - m i * s j

theorem zip_vec (d : Nat) (f g : Nat → ℚ) :
    List.zip (vec d f) (vec d g) = (List.range d).map (fun i => (Num.fin (f i), Num.fin (g i))) := by
  simp [vec, List.zip_map']

theorem covMom_update {ρ} {d : Nat} (hd : 2 ≤ d) {st : CovA ρ} {c s q rest}
    (h : CovMom d st c s q rest) (x : Nat → ℚ) (w : ℚ) (hz : c + w ≠ 0) :
    ∃ st', updateCovA .fin (vec d x) (.fin w) st = .ok st' ∧
      CovMom d st' (c + w) (fun i => s i + w * x i) (fun i j => q i j + w * (x i * x j)) rest := by
  obtain ⟨m, v, rfl, e1, e2⟩ := h
  have hl : ∀ f, (vec d f).length = d := by intro f; simp [vec]
  have g1 : ¬ ((vec d x).length < 2) := by rw [hl]; omega
  have g2 : ¬ ((vec d x).length ≠ (vec d m).length ∨ (vec d x).length ≠ (mat d v).length ∨
      (mat d v).any (fun row => decide ((vec d x).length ≠ row.length)) = true) := by
    simp [mat, vec]
  refine ⟨_, by rw [updateCovA, if_neg g1, if_neg g2], ?_⟩
  refine ⟨⟨fun i => m i + (x i - m i) * w / (c + w), fun i j =>
    (v i j * c + (x i - m i) * (x j - m j) * w * c / (c + w)) / (c + w), ?_, ?_, ?_⟩⟩
  · simp only [zip_vec, mat, add_fin, CovA.mk.injEq, true_and, and_true]
    constructor
    · simp [vec, meanEntry, div_fin _ _ hz]
    · rw [List.zipWith_map, List.zipWith_self]
      apply List.map_congr_left
      intro i _
      simp only [vec, List.zipWith_map, List.zipWith_self]
      apply List.map_congr_left
      intro j _
      simp [covEntry, div_fin _ _ hz]
  · intro i
    have := e1 i
    field_simp
    linear_combination this
  · intro i j
    have a := e1 i
    have b := e1 j
    have k := e2 i j
    have : q i j = c * v i j + m i * s j := by linear_combination -k
    simp only [this, ← b]
    field_simp
    ring

theorem covMom_run {ρ} {d : Nat} (hd : 2 ≤ d) (l : List Vec) : ∀ {st : CovA ρ} {c s q rest},
    CovMom d st c s q rest → (∀ k, 0 < k → k ≤ l.length → c + cW (l.take k) ≠ 0) →
    ∃ st', runCovA .fin (l.map (fun p => (vec d p.1, .fin p.2))) st = .ok st' ∧
      CovMom d st' (c + cW l) (fun i => s i + (l.map (fun p => p.2 * p.1 i)).sum)
        (fun i j => q i j + (l.map (fun p => p.2 * (p.1 i * p.1 j))).sum) rest := by
  induction l with
  | nil => intro st c s q rest h _; exact ⟨st, rfl, by simpa [cW] using h⟩
  | cons p l ih =>
    intro st c s q rest h hz
    have h1 : c + p.2 ≠ 0 := by simpa [cW] using hz 1 (by omega) (by simp)
    obtain ⟨st1, e1, m1⟩ := covMom_update hd h p.1 p.2 h1
    obtain ⟨st2, e2, m2⟩ := ih m1 (by
      intro k hk hl
      have := hz (k + 1) (by omega) (by simpa using hl)
      simp only [cW, List.take_succ_cons, List.map_cons, List.sum_cons, ← add_assoc] at this
      exact this)
    refine ⟨st2, by simp only [List.map_cons, runCovA, e1]; exact e2, ?_⟩
    simp only [cW, List.map_cons, List.sum_cons, ← add_assoc]
    exact m2

theorem cdev_sum (a b : ℚ) (i j : Nat) (l : List Vec) :
    (l.map (fun d => d.2 * ((d.1 i - a) * (d.1 j - b)))).sum =
      (l.map (fun d => d.2 * (d.1 i * d.1 j))).sum - a * (l.map (fun d => d.2 * d.1 j)).sum
        - b * (l.map (fun d => d.2 * d.1 i)).sum + a * b * cW l := by
  induction l with
  | nil => simp [cW]
  | cons d l ih =>
    simp only [List.map_cons, List.sum_cons, ih, cW]
    ring

/-- **C62, arrays.** From count 0 and any finite means and covariances, after any non-empty stream of
vectors of the same length (at least two) whose running total weight is never zero, the state has the
total weight, the means and the covariances of the stream. -/
theorem covariance_batch {ρ} {d : Nat} (hd : 2 ≤ d) (l : List Vec) (hl : l ≠ [])
    (hz : ∀ k, 0 < k → k ≤ l.length → cW (l.take k) ≠ 0) (m0 : Nat → ℚ) (v0 : Nat → Nat → ℚ) (rest : ρ) :
    runCovA .fin (l.map (fun p => (vec d p.1, .fin p.2))) ⟨.fin 0, vec d m0, mat d v0, rest⟩
      = .ok ⟨.fin (cW l), vec d (cM l), mat d (cV l), rest⟩ := by
  have h0 : CovMom d (⟨.fin 0, vec d m0, mat d v0, rest⟩ : CovA ρ) 0 (fun _ => 0) (fun _ _ => 0) rest :=
    ⟨⟨m0, v0, rfl, by simp, by simp⟩⟩
  obtain ⟨st, e, ⟨m, v, rfl, a, b⟩⟩ := covMom_run hd l h0 (by simpa using hz)
  rw [e]
  have hw : cW l ≠ 0 := by
    have := hz l.length (List.length_pos_iff.2 hl) le_rfl
    rwa [List.take_length] at this
  simp only [zero_add] at a b ⊢
  have hm : m = cM l := by
    funext i
    rw [cM, eq_div_iff hw]
    linear_combination a i
  have hv : v = cV l := by
    funext i j
    rw [cV, eq_div_iff hw, cdev_sum]
    have h1 := b i j
    have h2 := a i
    have h3 := a j
    rw [← hm]
    linear_combination h1 - (m j) * h2
  rw [hm, hv]

/-- The matrix is symmetric, and its diagonal holds the variances. -/
theorem cV_symm (l : List Vec) (i j : Nat) : cV l i j = cV l j i := by
  rw [cV, cV]
  congr 3
  funext d
  ring

theorem cV_diag (l : List Vec) (i : Nat) : cV l i i = V (l.map (fun d => (d.1 i, d.2))) := by
  have hm : cM l i = M (l.map (fun d => (d.1 i, d.2))) := by
    simp [cM, M, S, W, cW, Function.comp_def]
  rw [cV, V, ← hm]
  simp only [List.map_map, Function.comp_def, W, cW]
  congr 3
  funext d
  ring

/-! ## Maps -/

/-- A stream of maps; the size test is done by the caller of the model. -/
def runCovM {κ ρ : Type} (r : ℚ → Num) : List ((κ → Option ℚ) × ℚ) → CovM κ ρ → Res (CovM κ ρ)
  | [], s => .ok s
  | (x, w) :: l, s =>
    match updateCovM r 2 (fun i => (x i).map .fin) (.fin w) s with
    | .error e => .error e
    | .ok s' => runCovM r l s'

/-- The weighted data with both keys. -/
def both {κ : Type} (i j : κ) (l : List ((κ → Option ℚ) × ℚ)) : List (ℚ × ℚ × ℚ) :=
  l.filterMap (fun d => match d.1 i, d.1 j with
    | some a, some b => some (a, b, d.2)
    | _, _ => none)

/-- The weighted data with one key. -/
def having {κ : Type} (i : κ) (l : List ((κ → Option ℚ) × ℚ)) : List (ℚ × ℚ) :=
  l.filterMap (fun d => (d.1 i).map (fun a => (a, d.2)))

/-- **C62, maps, one key.** The mean and the diagonal entry of a key are the mean and the variance of
the data that have the key. -/
theorem covM_diag {κ ρ : Type} (i : κ) (l : List ((κ → Option ℚ) × ℚ)) : ∀ (s : CovM κ ρ) (c sm q : ℚ),
    Moments (⟨s.count i i, s.mean i, s.cov i i, ()⟩ : St Unit) c sm q →
    (∀ k, 0 < k → k ≤ (having i l).length → c + W ((having i l).take k) ≠ 0) →
    ∃ s', runCovM .fin l s = .ok s' ∧
      Moments (⟨s'.count i i, s'.mean i, s'.cov i i, ()⟩ : St Unit)
        (c + W (having i l)) (sm + S (having i l)) (q + Q (having i l)) := by
  induction l with
  | nil => intro s c sm q h _; exact ⟨s, rfl, by simpa [having] using h⟩
  | cons p l ih =>
    obtain ⟨x, w⟩ := p
    intro s c sm q h hz
    cases hx : x i with
    | none =>
      have hh : having i ((x, w) :: l) = having i l := by simp [having, hx]
      rw [hh] at hz ⊢
      simp only [runCovM, updateCovM]
      exact ih _ c sm q (by simpa [hx] using h) hz
    | some a =>
      have hh : having i ((x, w) :: l) = (a, w) :: having i l := by simp [having, hx]
      rw [hh] at hz ⊢
      have h1 : c + w ≠ 0 := by simpa using hz 1 (by omega) (by simp)
      simp only [runCovM, updateCovM]
      simp only [W_cons, S_cons, Q_cons, ← add_assoc]
      refine ih _ (c + w) (sm + w * a) (q + w * a ^ 2) ?_ ?_
      · obtain ⟨hc, m, v, hm, hv, e1, e2⟩ := h
        simp only at hc hm hv
        refine ⟨?_, m + (a - m) * w / (c + w),
          (v * c + (a - m) * (a - m) * w * c / (c + w)) / (c + w), ?_, ?_, ?_, ?_⟩
        · simp [hx, hc]
        · simp [hx, hc, hm, meanEntry, div_fin _ _ h1]
        · simp [hx, hc, hm, hv, covEntry, div_fin _ _ h1]
        · field_simp
          linear_combination e1
        · have : q = c * v + m * sm := by linear_combination -e2
          subst this
          subst e1
          field_simp
          ring
      · intro k hk hl
        have := hz (k + 1) (by omega) (by simpa using hl)
        simp only [List.take_succ_cons, W_cons] at this
        rwa [← add_assoc] at this

/-- The moments of a pair of keys. -/
structure PairMom {κ ρ : Type} (i j : κ) (s : CovM κ ρ) (c si sj q : ℚ) : Prop where
  cii : s.count i i = .fin c
  cjj : s.count j j = .fin c
  cij : s.count i j = .fin c
  ex : ∃ mi mj v, s.mean i = .fin mi ∧ s.mean j = .fin mj ∧ s.cov i j = .fin v ∧
    c * mi = si ∧ c * mj = sj ∧ c * v = q - mi * sj

/-- Sums over the data with both keys. -/
def bW (l : List (ℚ × ℚ × ℚ)) : ℚ := (l.map (fun d => d.2.2)).sum
@[inherit_doc bW] def bS1 (l : List (ℚ × ℚ × ℚ)) : ℚ := (l.map (fun d => d.2.2 * d.1)).sum
@[inherit_doc bW] def bS2 (l : List (ℚ × ℚ × ℚ)) : ℚ := (l.map (fun d => d.2.2 * d.2.1)).sum
@[inherit_doc bW] def bQ (l : List (ℚ × ℚ × ℚ)) : ℚ := (l.map (fun d => d.2.2 * (d.1 * d.2.1))).sum
/-- Weighted covariance of the data with both keys. -/
def bV (l : List (ℚ × ℚ × ℚ)) : ℚ :=
  (l.map (fun d => d.2.2 * ((d.1 - bS1 l / bW l) * (d.2.1 - bS2 l / bW l)))).sum / bW l

theorem bdev_sum (a b : ℚ) (l : List (ℚ × ℚ × ℚ)) :
    (l.map (fun d => d.2.2 * ((d.1 - a) * (d.2.1 - b)))).sum =
      bQ l - a * bS2 l - b * bS1 l + a * b * bW l := by
  induction l with
  | nil => simp [bQ, bS1, bS2, bW]
  | cons d l ih =>
    simp only [bQ, bS1, bS2, bW] at ih
    simp only [List.map_cons, List.sum_cons, ih, bQ, bS1, bS2, bW]
    ring

theorem pairMom_run {κ ρ : Type} (i j : κ) (l : List ((κ → Option ℚ) × ℚ)) :
    ∀ (s : CovM κ ρ) (c si sj q : ℚ), PairMom i j s c si sj q →
    (∀ d ∈ l, (d.1 i).isSome = (d.1 j).isSome) →
    (∀ k, 0 < k → k ≤ (both i j l).length → c + bW ((both i j l).take k) ≠ 0) →
    ∃ s', runCovM .fin l s = .ok s' ∧ PairMom i j s' (c + bW (both i j l)) (si + bS1 (both i j l))
      (sj + bS2 (both i j l)) (q + bQ (both i j l)) := by
  induction l with
  | nil => intro s c si sj q h _ _; exact ⟨s, rfl, by simpa [both, bW, bS1, bS2, bQ] using h⟩
  | cons p l ih =>
    obtain ⟨x, w⟩ := p
    intro s c si sj q h ht hz
    have htx := ht (x, w) (by simp)
    have ht' : ∀ d ∈ l, (d.1 i).isSome = (d.1 j).isSome := fun d hd => ht d (by simp [hd])
    simp only at htx
    cases hx : x i with
    | none =>
      have hy : x j = none := by rw [hx] at htx; simpa using htx.symm
      have hh : both i j ((x, w) :: l) = both i j l := by simp [both, hx]
      rw [hh] at hz ⊢
      simp only [runCovM, updateCovM]
      refine ih _ c si sj q ?_ ht' hz
      obtain ⟨h1, h2, h3, h4⟩ := h
      exact ⟨by simpa [hx] using h1, by simpa [hy] using h2, by simpa [hx] using h3,
        by simpa [hx, hy] using h4⟩
    | some a =>
      obtain ⟨b, hy⟩ : ∃ b, x j = some b := by
        rw [hx] at htx; exact Option.isSome_iff_exists.1 (by simpa using htx.symm)
      have hh : both i j ((x, w) :: l) = (a, b, w) :: both i j l := by simp [both, hx, hy]
      rw [hh] at hz ⊢
      have h1 : c + w ≠ 0 := by simpa [bW] using hz 1 (by omega) (by simp)
      simp only [runCovM, updateCovM]
      have e : ∀ (f : ℚ × ℚ × ℚ → ℚ) (t : ℚ),
          t + (((a, b, w) :: both i j l).map f).sum = t + f (a, b, w) + ((both i j l).map f).sum := by
        intro f t; simp [add_assoc]
      simp only [bW, bS1, bS2, bQ, e]
      refine ih _ (c + w) (si + w * a) (sj + w * b) (q + w * (a * b)) ?_ ht' ?_
      · obtain ⟨c1, c2, c3, mi, mj, v, hmi, hmj, hv, e1, e2, e3⟩ := h
        refine ⟨by simp [hx, c1], by simp [hy, c2], by simp [hx, hy, c3],
          mi + (a - mi) * w / (c + w), mj + (b - mj) * w / (c + w),
          (v * c + (a - mi) * (b - mj) * w * c / (c + w)) / (c + w), ?_, ?_, ?_, ?_, ?_, ?_⟩
        · simp [hx, c1, hmi, meanEntry, div_fin _ _ h1]
        · simp [hy, c2, hmj, meanEntry, div_fin _ _ h1]
        · simp [hx, hy, c3, hmi, hmj, hv, covEntry, div_fin _ _ h1]
        · field_simp
          linear_combination e1
        · field_simp
          linear_combination e2
        · have : q = c * v + mi * sj := by linear_combination -e3
          subst this
          subst e2
          field_simp
          ring
      · intro k hk hl
        have := hz (k + 1) (by omega) (by simpa using hl)
        simp only [List.take_succ_cons, bW, List.map_cons, List.sum_cons, ← add_assoc] at this
        exact this

/-- **C62, maps, two keys that always come together** (a datum has both or neither): the entry is the
covariance of the data that have them. -/
theorem covM_pair {κ ρ : Type} (i j : κ) (l : List ((κ → Option ℚ) × ℚ)) (s : CovM κ ρ)
    (h0 : PairMom i j s 0 0 0 0) (ht : ∀ d ∈ l, (d.1 i).isSome = (d.1 j).isSome)
    (hne : both i j l ≠ [])
    (hz : ∀ k, 0 < k → k ≤ (both i j l).length → bW ((both i j l).take k) ≠ 0) :
    ∃ s', runCovM .fin l s = .ok s' ∧ s'.count i j = .fin (bW (both i j l)) ∧
      s'.cov i j = .fin (bV (both i j l)) := by
  obtain ⟨s', e, ⟨-, -, c3, mi, mj, v, -, -, hv, e1, e2, e3⟩⟩ :=
    pairMom_run i j l s 0 0 0 0 h0 ht (by simpa using hz)
  simp only [zero_add] at c3 e1 e2 e3
  have hw : bW (both i j l) ≠ 0 := by
    have := hz _ (List.length_pos_iff.2 hne) le_rfl
    rwa [List.take_length] at this
  refine ⟨s', e, c3, ?_⟩
  rw [hv]
  congr 1
  have h1 : bS1 (both i j l) / bW (both i j l) = mi := by rw [div_eq_iff hw]; linear_combination -e1
  have h2 : bS2 (both i j l) / bW (both i j l) = mj := by rw [div_eq_iff hw]; linear_combination -e2
  rw [bV, h1, h2, bdev_sum, eq_div_iff hw]
  linear_combination e3 - mj * e1

/-- **Not for two keys that do not always come together**: the entry depends on the order of the data
(the data are the same up to order, all weights are one). -/
theorem covM_order_violation : ∃ l l' : List ((Bool → Option ℚ) × ℚ), l.length = l'.length ∧
    (∀ p, p ∈ l ↔ p ∈ l') ∧
    (match runCovM .fin l (⟨fun _ _ => .fin 0, fun _ => .fin 0, fun _ _ => .fin 0, ()⟩ : CovM Bool Unit),
        runCovM .fin l' (⟨fun _ _ => .fin 0, fun _ => .fin 0, fun _ _ => .fin 0, ()⟩ : CovM Bool Unit) with
      | .ok s, .ok s' => s.cov true false = .fin 1 ∧ s'.cov true false ≠ .fin 1 ∧ s.count = s'.count
      | _, _ => False) := by
  refine ⟨[(fun _ => some 0, 1), (fun _ => some 2, 1), (fun b => if b then some 7 else none, 1)],
    [(fun _ => some 0, 1), (fun b => if b then some 7 else none, 1), (fun _ => some 2, 1)], rfl, ?_, ?_⟩
  · intro p; simp only [List.mem_cons, List.not_mem_nil, or_false]; tauto
  · refine ⟨by decide +kernel, by decide +kernel, ?_⟩
    funext i j
    revert i j
    decide +kernel

/-- A case of `covariance_batch`: three points in the plane. -/
example : cV [(fun i => if i = 0 then 0 else 1, 1), (fun i => if i = 0 then 2 else 3, 1),
    (fun i => if i = 0 then 4 else 2, 2)] 0 1 = 1 / 2 := by
  norm_num [cV, cM, cW]

end Verif.Stat
