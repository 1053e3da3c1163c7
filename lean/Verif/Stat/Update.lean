import Verif.Stat.Num
import Mathlib.Algebra.BigOperators.Group.List.Basic
import Mathlib.Algebra.Order.BigOperators.Group.List
import Mathlib.Algebra.BigOperators.Ring.List
import Mathlib.Tactic.LinearCombination
/-! # stat.sample.update: streaming count, mean and variance (C46) -/

namespace Verif.Stat
open Num

/-- A state record of `stat.sample.update`: the fields the function reads and all others.
Which of `mean` and `variance` exist is told by the level. -/
structure St (ρ : Type) where
  count : Num
  mean : Num
  variance : Num
  rest : ρ
  deriving Repr

/-- titus/lib/stat/sample.py:42-63 `UpdateMeanVariance.genpy`: the level, or the semantic error for
a variance without a mean. -/
def level (hasMean hasVariance : Bool) : Except String Nat :=
  match hasMean, hasVariance with
  | false, false => .ok 0
  | true, false => .ok 1
  | true, true => .ok 2
  | false, true => .error "update with \"variance\" must also have \"mean\""

/-- titus/lib/stat/sample.py:77-92 `Update.__call__`. -/
def update {ρ} (r : ℚ → Num) (x w : Num) (s : St ρ) (level : Nat) : St ρ :=
  let originalCount := s.count
  let count := add r originalCount w
  if level = 0 then { s with count := count }
  else
    let mean := s.mean
    let delta := sub r x mean
    let shift := div r (mul r delta w) count
    let mean := add r mean shift
    if level = 1 then { s with count := count, mean := mean }
    else
      let varianceTimesCount := mul r s.variance originalCount
      let varianceTimesCount := add r varianceTimesCount (mul r (mul r originalCount delta) shift)
      { s with count := count, mean := mean, variance := div r varianceTimesCount count }

/-- A stream of data fed one by one. -/
def run {ρ} (r : ℚ → Num) (lv : Nat) (l : List (ℚ × ℚ)) (s : St ρ) : St ρ :=
  l.foldl (fun s d => update r (.fin d.1) (.fin d.2) s lv) s

/-! ## Specification: the totals of the whole sequence (pairs of datum and weight) -/

/-- Sum of the weights. -/
def W (l : List (ℚ × ℚ)) : ℚ := (l.map (·.2)).sum
/-- Weighted sum of the data. -/
def S (l : List (ℚ × ℚ)) : ℚ := (l.map (fun d => d.2 * d.1)).sum
/-- Weighted mean. -/
def M (l : List (ℚ × ℚ)) : ℚ := S l / W l
/-- Weighted mean square deviation from the mean. -/
def V (l : List (ℚ × ℚ)) : ℚ := (l.map (fun d => d.2 * (d.1 - M l) ^ 2)).sum / W l

/-- The total weight is not zero after any number of data from the first on. -/
def NoZero (l : List (ℚ × ℚ)) : Prop := ∀ k, 0 < k → k ≤ l.length → W (l.take k) ≠ 0

/-! ## Proofs -/

/-- Weighted sum of squares. -/
def Q (l : List (ℚ × ℚ)) : ℚ := (l.map (fun d => d.2 * d.1 ^ 2)).sum

@[simp] theorem W_nil : W [] = 0 := rfl
@[simp] theorem S_nil : S [] = 0 := rfl
@[simp] theorem Q_nil : Q [] = 0 := rfl
@[simp] theorem W_append (a b) : W (a ++ b) = W a + W b := by simp [W]
@[simp] theorem S_append (a b) : S (a ++ b) = S a + S b := by simp [S]
@[simp] theorem Q_append (a b) : Q (a ++ b) = Q a + Q b := by simp [Q]
@[simp] theorem W_cons (d l) : W (d :: l) = d.2 + W l := by simp [W]
@[simp] theorem S_cons (d l) : S (d :: l) = d.2 * d.1 + S l := by simp [S]
@[simp] theorem Q_cons (d l) : Q (d :: l) = d.2 * d.1 ^ 2 + Q l := by simp [Q]

theorem dev_sum (m : ℚ) (l : List (ℚ × ℚ)) :
    (l.map (fun d => d.2 * (d.1 - m) ^ 2)).sum = Q l - 2 * m * S l + m ^ 2 * W l := by
  induction l with
  | nil => simp
  | cons d l ih => simp only [List.map_cons, List.sum_cons, ih, Q_cons, S_cons, W_cons]; ring

/-- The mean square deviation from any other point is larger by the square of the distance. -/
theorem V_eq {l : List (ℚ × ℚ)} (h : W l ≠ 0) : V l = (Q l - M l * S l) / W l := by
  rw [V, dev_sum]
  have : M l * W l = S l := by rw [M]; field_simp
  congr 1
  linear_combination (M l) * this

/-- The moments kept by a state: its count is `c`, and mean and variance satisfy the two moment
equations for the sums `s` and `q`. -/
structure Moments {ρ} (st : St ρ) (c s q : ℚ) : Prop where
  count : st.count = .fin c
  mean : ∃ m v, st.mean = .fin m ∧ st.variance = .fin v ∧ c * m = s ∧ c * v = q - m * s

theorem moments_update {ρ} {st : St ρ} {c s q : ℚ} (h : Moments st c s q) (x w : ℚ)
    (hz : c + w ≠ 0) :
    Moments (update .fin (.fin x) (.fin w) st 2) (c + w) (s + w * x) (q + w * x ^ 2) := by
  obtain ⟨hc, m, v, hm, hv, e1, e2⟩ := h
  have e : update Num.fin (.fin x) (.fin w) st 2 =
      ⟨.fin (c + w), .fin (m + (x - m) * w / (c + w)),
        .fin ((v * c + c * (x - m) * ((x - m) * w / (c + w))) / (c + w)), st.rest⟩ := by
    simp [update, hc, hm, hv, div_fin _ _ hz]
  rw [e]
  refine ⟨rfl, _, _, rfl, rfl, ?_, ?_⟩
  · field_simp
    linear_combination e1
  · field_simp
    subst e1
    have : q = c * v + m * (c * m) := by linear_combination -e2
    subst this
    ring

theorem moments_run {ρ} (l : List (ℚ × ℚ)) : ∀ {st : St ρ} {c s q : ℚ}, Moments st c s q →
    (∀ k, 0 < k → k ≤ l.length → c + W (l.take k) ≠ 0) →
    Moments (run .fin 2 l st) (c + W l) (s + S l) (q + Q l) := by
  induction l with
  | nil => intro st c s q h _; simpa [run] using h
  | cons d l ih =>
    intro st c s q h hz
    have h1 := hz 1 (by omega) (by simp)
    have := ih (moments_update h d.1 d.2 (by simpa using h1)) (by
      intro k hk hl
      have := hz (k + 1) (by omega) (by simpa using hl)
      simp only [List.take_succ_cons, W_cons] at this
      rwa [← add_assoc] at this)
    simp only [W_cons, S_cons, Q_cons, ← add_assoc]
    exact this

theorem run_rest {ρ} (r) (lv) (l : List (ℚ × ℚ)) : ∀ st : St ρ, (run r lv l st).rest = st.rest := by
  induction l with
  | nil => intro st; rfl
  | cons d l ih =>
    intro st
    show (run r lv l _).rest = _
    rw [ih]
    simp only [update]
    split_ifs <;> rfl

theorem moments_zero {ρ} (m v : ℚ) (rest : ρ) : Moments ⟨.fin 0, .fin m, .fin v, rest⟩ 0 0 0 :=
  ⟨rfl, m, v, rfl, rfl, by simp, by simp⟩

/-- **C46.** From count 0 and any finite mean and variance, after any non-empty sequence whose
running total weight is never zero, count, mean and variance are those of the whole sequence and the
other fields are as they were. -/
theorem update_batch {ρ} (l : List (ℚ × ℚ)) (hl : l ≠ []) (hz : NoZero l) (m v : ℚ) (rest : ρ) :
    run .fin 2 l ⟨.fin 0, .fin m, .fin v, rest⟩ = ⟨.fin (W l), .fin (M l), .fin (V l), rest⟩ := by
  have h := moments_run l (moments_zero m v rest) (by simpa [NoZero] using hz)
  have hr := run_rest Num.fin 2 l (⟨.fin 0, .fin m, .fin v, rest⟩ : St ρ)
  have hw : W l ≠ 0 := by
    have := hz l.length (List.length_pos_iff.2 hl) le_rfl
    simpa using this
  generalize run Num.fin 2 l _ = st at h hr
  obtain ⟨hc, m', v', hm, hv, e1, e2⟩ := h
  simp only [zero_add] at hc e1 e2
  have hm' : m' = M l := by rw [M, eq_div_iff hw]; linear_combination e1
  have hv' : v' = V l := by rw [V_eq hw, eq_div_iff hw, ← hm']; linear_combination e2
  obtain ⟨c, m'', v'', r'⟩ := st
  simp only at hc hm hv hr
  simp [hc, hm, hv, hr, hm', hv']

/-- With fewer fields in the state the fields that are there have the same values. -/
theorem run_level1 {ρ} (r) (l : List (ℚ × ℚ)) : ∀ st st' : St ρ, st.count = st'.count →
    st.mean = st'.mean →
    (run r 1 l st).count = (run r 2 l st').count ∧ (run r 1 l st).mean = (run r 2 l st').mean := by
  induction l with
  | nil => intro st st' h1 h2; exact ⟨h1, h2⟩
  | cons d l ih =>
    intro st st' h1 h2
    exact ih _ _ (by simp [update, h1]) (by simp [update, h1, h2])

theorem run_level0 {ρ} (r) (l : List (ℚ × ℚ)) : ∀ st st' : St ρ, st.count = st'.count →
    (run r 0 l st).count = (run r 2 l st').count := by
  induction l with
  | nil => intro st st' h; exact h
  | cons d l ih => intro st st' h; exact ih _ _ (by simp [update, h])

/-- **C46, level 1.** -/
theorem update_batch_mean {ρ} (l : List (ℚ × ℚ)) (hl : l ≠ []) (hz : NoZero l) (m : ℚ) (v : Num)
    (rest : ρ) :
    (run .fin 1 l ⟨.fin 0, .fin m, v, rest⟩).count = .fin (W l) ∧
    (run .fin 1 l ⟨.fin 0, .fin m, v, rest⟩).mean = .fin (M l) := by
  have := run_level1 Num.fin l ⟨.fin 0, .fin m, v, rest⟩ ⟨.fin 0, .fin m, .fin 0, rest⟩ rfl rfl
  rw [update_batch l hl hz] at this
  exact this

theorem run_count {ρ} (lv) (l : List (ℚ × ℚ)) : ∀ (c : ℚ) (st : St ρ), st.count = .fin c →
    (run .fin lv l st).count = .fin (c + W l) := by
  induction l with
  | nil => intro c st h; simpa [run] using h
  | cons d l ih =>
    intro c st h
    have : (update Num.fin (.fin d.1) (.fin d.2) st lv).count = .fin (c + d.2) := by
      simp only [update, h]
      split_ifs <;> simp
    have := ih (c + d.2) _ this
    simp only [W_cons, ← add_assoc]
    exact this

/-- **C46, level 0.** The count is the total weight, without any condition. -/
theorem update_batch_count {ρ} (lv) (l : List (ℚ × ℚ)) (m v : Num) (rest : ρ) :
    (run .fin lv l ⟨.fin 0, m, v, rest⟩).count = .fin (W l) := by
  simpa using run_count lv l 0 ⟨.fin 0, m, v, rest⟩ rfl

theorem noZero_of_pos {l : List (ℚ × ℚ)} (h : ∀ d ∈ l, 0 < d.2) : NoZero l := by
  intro k hk hl
  have hp : ∀ (l : List (ℚ × ℚ)), (∀ d ∈ l, 0 < d.2) → l ≠ [] → 0 < W l := by
    intro l
    induction l with
    | nil => intro _ h; exact absurd rfl h
    | cons d l ih =>
      intro h _
      rw [W_cons]
      have h1 := h d (by simp)
      by_cases hl : l = []
      · subst hl; simpa using h1
      · have := ih (fun d hd => h d (by simp [hd])) hl
        linarith
  apply ne_of_gt
  apply hp _ (fun d hd => h d (List.mem_of_mem_take hd))
  intro e
  have := congrArg List.length e
  rw [List.length_take, List.length_nil] at this
  omega

/-- **C46 for positive weights.** -/
theorem update_positive {ρ} (l : List (ℚ × ℚ)) (hl : l ≠ []) (hw : ∀ d ∈ l, 0 < d.2) (m v : ℚ)
    (rest : ρ) :
    run .fin 2 l ⟨.fin 0, .fin m, .fin v, rest⟩ = ⟨.fin (W l), .fin (M l), .fin (V l), rest⟩ :=
  update_batch l hl (noZero_of_pos hw) m v rest

theorem W_perm {l l' : List (ℚ × ℚ)} (h : l.Perm l') : W l = W l' := (h.map _).sum_eq
theorem S_perm {l l' : List (ℚ × ℚ)} (h : l.Perm l') : S l = S l' := (h.map _).sum_eq
theorem V_perm {l l' : List (ℚ × ℚ)} (h : l.Perm l') : V l = V l' := by
  have hm : M l = M l' := by rw [M, M, W_perm h, S_perm h]
  rw [V, V, W_perm h, hm, (h.map (fun d : ℚ × ℚ => d.2 * (d.1 - M l') ^ 2)).sum_eq]

/-- **C46, order.** The same data in another order give the same state. -/
theorem update_order {ρ} {l l' : List (ℚ × ℚ)} (h : l.Perm l') (hl : l ≠ [])
    (hw : ∀ d ∈ l, 0 < d.2) (m v m' v' : ℚ) (rest : ρ) :
    run .fin 2 l ⟨.fin 0, .fin m, .fin v, rest⟩ = run .fin 2 l' ⟨.fin 0, .fin m', .fin v', rest⟩ := by
  rw [update_positive l hl hw, update_positive l' (by rintro rfl; exact hl h.eq_nil)
    (fun d hd => hw d (h.mem_iff.2 hd))]
  have hm : M l = M l' := by rw [M, M, W_perm h, S_perm h]
  rw [W_perm h, V_perm h, hm]

/-- **C46, merging.** Two parts merged: the weighted combination of the two means, and the two
variances plus what the distance of the means adds. -/
theorem merge_batch {a b : List (ℚ × ℚ)} (ha : W a ≠ 0) (hb : W b ≠ 0) (hab : W a + W b ≠ 0) :
    M (a ++ b) = (W a * M a + W b * M b) / (W a + W b) ∧
    V (a ++ b) = (W a * V a + W b * V b + W a * W b * (M a - M b) ^ 2 / (W a + W b)) /
      (W a + W b) := by
  have e1 : S a = W a * M a := by rw [M]; field_simp
  have e2 : S b = W b * M b := by rw [M]; field_simp
  have e3 : Q a = W a * V a + M a * S a := by rw [V_eq ha]; field_simp; ring
  have e4 : Q b = W b * V b + M b * S b := by rw [V_eq hb]; field_simp; ring
  have hm : M (a ++ b) = (W a * M a + W b * M b) / (W a + W b) := by
    rw [M, S_append, W_append, e1, e2]
  refine ⟨hm, ?_⟩
  rw [V_eq (by simpa using hab), hm]
  simp only [Q_append, S_append, W_append, e3, e4, e1, e2]
  field_simp
  ring

/-- The mean never becomes finite again. -/
theorem bad_mean {ρ} (r) (x w : Num) (st : St ρ) (h : st.mean.bad) {lv} (hlv : lv ≠ 0) :
    (update r x w st lv).mean.bad := by
  simp only [update]
  split_ifs
  · exact absurd ‹_› hlv
  · exact add_bad_left _ h
  · exact add_bad_left _ h

theorem run_bad {ρ} (r) {lv} (hlv : lv ≠ 0) (l : List (ℚ × ℚ)) :
    ∀ st : St ρ, st.mean.bad → (run r lv l st).mean.bad := by
  induction l with
  | nil => intro st h; exact h
  | cons d l ih => intro st h; exact ih _ (bad_mean r _ _ _ h hlv)

/-- **The condition of `update_batch` is exact**: when the running total weight is zero once, the
mean is an infinity or nan from then on. -/
theorem update_zero_bad {ρ} {lv} (hlv : lv ≠ 0) (l : List (ℚ × ℚ)) (hz : ¬ NoZero l) (m v : Num)
    (rest : ρ) : (run .fin lv l ⟨.fin 0, m, v, rest⟩).mean.bad := by
  simp only [NoZero, not_forall, not_not] at hz
  obtain ⟨k, hk, hl, h0⟩ := hz
  obtain ⟨k, rfl⟩ : ∃ j, k = j + 1 := ⟨k - 1, by omega⟩
  have hk' : k < l.length := by omega
  have hs : l = l.take k ++ l[k] :: l.drop (k + 1) := by simp
  rw [hs, run, List.foldl_append, List.foldl_cons]
  apply run_bad _ hlv
  have hc := update_batch_count lv (l.take k) m v rest
  generalize hst : (List.foldl _ (⟨.fin 0, m, v, rest⟩ : St ρ) (l.take k)) = st
  have hc : st.count = .fin (W (l.take k)) := by rw [← hst]; exact hc
  have h0 : W (l.take k) + (l[k]).2 = 0 := by
    have : l.take (k + 1) = l.take k ++ [l[k]] := by simp
    rw [this, W_append] at h0
    simpa [W] using h0
  simp only [update, hc, add_fin, h0, if_neg hlv]
  split_ifs <;> exact add_bad_right _ (div_zero_bad _ _)

/-- **Not for weights that may be zero**: a first datum of weight zero makes the mean nan, whatever
follows, although the weighted mean of the sequence exists. -/
theorem update_zero_violation : ∃ l : List (ℚ × ℚ), (∀ d ∈ l, 0 ≤ d.2) ∧ W l = 1 ∧ M l = 5 ∧
    (run .fin 2 l ⟨.fin 0, .fin 0, .fin 0, ()⟩).mean = .nan :=
  ⟨[(3, 0), (5, 1)], by simp, by norm_num, by norm_num [M], by decide +kernel⟩

/-- A case of `update_positive`: three data with different weights. -/
example : run .fin 2 [(1, 1), (2, 2), (6, 1)] ⟨.fin 0, .fin 0, .fin 0, "kept"⟩
    = ⟨.fin 4, .fin (11 / 4), .fin (59 / 16), "kept"⟩ := by
  rw [update_positive _ (by simp) (by simp)]
  norm_num [W, M, S, V]
example : NoZero [(1, 1), (2, -3), (6, 1)] := by
  intro k hk hl
  have : k = 1 ∨ k = 2 ∨ k = 3 := by simp at hl; omega
  rcases this with rfl | rfl | rfl <;> norm_num [W]

end Verif.Stat
