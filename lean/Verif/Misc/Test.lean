import Verif.Score.Naive
import Verif.Stat.Num
import Mathlib.Data.List.Sort
import Mathlib.Tactic.FieldSimp
import Mathlib.Analysis.Real.Pi.Bounds
/-! # Tests (`titus/lib/stat/pfatest.py`)

`mahalanobis` and the distribution of chi-squared (`Chi2Distribution`) are left to numpy and dist.py and not modelled. -/

namespace Verif.Misc
open Verif.Stat (Num dbl)
open Verif.Score (sameKeys sameKeys_iff)

/-! ## Model -/

/-- `if dt > d: d = dt` (pfatest.py 68-69). -/
def bump (d dt : ℚ) : ℚ := if d < dt then dt else d

/-- The loop of `stat.test.kolmogorov` (pfatest.py 58-69) on what remains of the two samples; `j1` is `n1` minus the length of the rest.
Quotients of integers are exact. -/
def ksLoop (n1 n2 : Nat) (xs ys : List ℚ) (fn1 fn2 d : ℚ) : ℚ :=
  match xs, ys with
  | [], _ => d
  | _, [] => d
  | x :: xs, y :: ys =>
    if x ≤ y ∧ y ≤ x then
      let fn1 := ((n1 : ℚ) - xs.length) / n1
      let fn2 := ((n2 : ℚ) - ys.length) / n2
      ksLoop n1 n2 xs ys fn1 fn2 (bump d |fn2 - fn1|)
    else if x ≤ y then
      let fn1 := ((n1 : ℚ) - xs.length) / n1
      ksLoop n1 n2 xs (y :: ys) fn1 fn2 (bump d |fn2 - fn1|)
    else
      let fn2 := ((n2 : ℚ) - ys.length) / n2
      ksLoop n1 n2 (x :: xs) ys fn1 fn2 (bump d |fn2 - fn1|)
  termination_by xs.length + ys.length

/-- `d` for sorted samples (55-69). -/
def ksStat (x y : List ℚ) : ℚ := ksLoop x.length y.length x y 0 0 0

/-- `kolomogorov_cdf` (75-84). -/
noncomputable def kolCdf (z : ℝ) : ℝ :=
  √(2 * Real.pi) * (1 / z) * ((List.range 149).map fun v => Real.exp (-(2 * ((v : ℝ) + 1) - 1) ^ 2 * (Real.pi ^ 2 / (8 * z ^ 2)))).sum

/-- `stat` (70-71). -/
noncomputable def ksZ (n1 n2 : Nat) (d : ℝ) : ℝ :=
  let en := √((n1 * n2 : ℝ) / (n1 + n2 : ℝ))
  (en + 0.12 + 0.11 / en) * d

/-- `stat.test.kolmogorov` of finite samples (47-72): `sorted` is a stable sort. -/
noncomputable def kolmogorov (x y : List ℚ) : Res ℝ :=
  let x := x.mergeSort (· ≤ ·)
  let y := y.mergeSort (· ≤ ·)
  if x = y then .ok 1
  else if x.length = 0 ∨ y.length = 0 then .ok 0
  else if ksStat x y = 0 then .error (.py "ZeroDivisionError")
  else .ok (1 - kolCdf (ksZ x.length y.length (ksStat x y)))

/-- Both forms of the arguments with components. -/
inductive Comp (α : Type)
  | one (v : α)
  | array (l : List α)
  | map (d : PyDict String α)

/-- The value under a key that is known to be there. -/
def look (d : PyDict String Num) (k : String) : Num := (PyDict.get? d k).getD .nan

/-- `stat.test.residual` (92-105) when the arguments have the same form, as the signature requires. -/
def residual (r : ℚ → Num) : Comp Num → Comp Num → Res (Comp Num)
  | .map o, .map p => if sameKeys o p = false then .error (.rt 38010) else .ok (.map (o.map fun e => (e.1, Num.sub r e.2 (look p e.1))))
  | .array o, .array p => if o.length ≠ p.length then .error (.rt 38010) else .ok (.array (List.zipWith (Num.sub r) o p))
  | .one o, .one p => .ok (.one (Num.sub r o p))
  | _, _ => .error (.py "TypeError")

/-- `[f(o, p, u) for o, p, u in zip(observation, prediction, uncertainty)]`. -/
def zip3With {α β γ δ : Type} (f : α → β → γ → δ) (o : List α) (p : List β) (u : List γ) : List δ :=
  List.zipWith (fun g c => g c) (List.zipWith f o p) u

/-- `stat.test.pull` (115-131). -/
def pull (r : ℚ → Num) : Comp Num → Comp Num → Comp Num → Res (Comp Num)
  | .map o, .map p, .map u =>
    if sameKeys o p = false then .error (.rt 38020)
    else if sameKeys o u = false then .error (.rt 38021)
    else .ok (.map (o.map fun e => (e.1, Num.div r (Num.sub r e.2 (look p e.1)) (look u e.1))))
  | .array o, .array p, .array u =>
    if o.length ≠ p.length then .error (.rt 38020)
    else if o.length ≠ u.length then .error (.rt 38021)
    else .ok (.array (zip3With (fun o p u => Num.div r (Num.sub r o p) u) o p u))
  | .one o, .one p, .one u => .ok (.one (Num.div r (Num.sub r o p) u))
  | _, _, _ => .error (.py "TypeError")

/-- The fields of the state of chi-squared. -/
structure Chi where
  chi2 : Num
  dof : Int
  deriving DecidableEq

/-- A pull as Python has it: a double can be an int, when it was read from JSON without a decimal point. -/
inductive Pull
  | float (v : Num)
  | int (v : Int)
  | array (l : List Num)
  | map (d : PyDict String Num)

/-- `sum([y**2 for y in l])`; the squares here do not overflow (`**` would raise OverflowError). -/
def sumSq (r : ℚ → Num) (l : List Num) : Num := l.foldl (fun s y => Num.add r s (Num.mul r y y)) (.fin 0)

/-- `stat.test.updateChi2` (183-189). -/
def updateChi2 (r : ℚ → Num) (p : Pull) (s : Chi) : Res Chi :=
  match p with
  | .float v => .ok ⟨Num.add r s.chi2 (Num.mul r v v), s.dof + 1⟩
  | .array l => .ok ⟨Num.add r s.chi2 (sumSq r l), s.dof + 1⟩
  | .map d => .ok ⟨Num.add r s.chi2 (sumSq r (d.map Prod.snd)), s.dof + 1⟩
  | .int _ => .error (.py "AttributeError")

/-- `stat.test.reducedChi2` (196-197). -/
def reducedChi2 (r : ℚ → Num) (s : Chi) : Num := Num.div r s.chi2 (.fin s.dof)

/-- `stat.test.chi2Prob` (204-222), given the distribution function for positive `dof`. -/
def chi2Prob (cdf : Int → ℚ → Num) (s : Chi) : Res Num :=
  if s.dof < 0 then .error (.rt 38060)
  else if s.dof = 0 then .ok (if s.chi2.isPos then .fin 1 else .fin 0)
  else match s.chi2 with
    | .nan => .ok .nan
    | .pinf => .ok (.fin 1)
    | .ninf => .ok (.fin 0)
    | .fin q => .ok (cdf s.dof q)

/-! ## The statistic of Kolmogorov and Smirnov -/

/-- The empirical distribution function. -/
def ecdf (l : List ℚ) (t : ℚ) : ℚ := (l.countP (fun x => decide (x ≤ t)) : ℚ) / l.length

theorem le_pick (d e : ℚ) : e ≤ bump d e ∧ d ≤ bump d e := by
  unfold bump
  split <;> constructor <;> linarith

theorem frac_step (n a l : Nat) (h : a + (l + 1) = n) : ((n : ℚ) - l) / n = ((a + 1 : Nat) : ℚ) / n := by
  congr 1
  have : ((a : ℚ) + (l + 1)) = n := by exact_mod_cast h
  push_cast
  linarith

theorem ksLoop_ge_d (n1 n2 : Nat) (xs ys : List ℚ) (f1 f2 d : ℚ) : d ≤ ksLoop n1 n2 xs ys f1 f2 d := by
  fun_induction ksLoop n1 n2 xs ys f1 f2 d with
  | case1 => exact le_refl _
  | case2 => exact le_refl _
  | case3 => rename_i ih; exact le_trans (le_pick _ _).2 ih
  | case4 => rename_i ih; exact le_trans (le_pick _ _).2 ih
  | case5 => rename_i ih; exact le_trans (le_pick _ _).2 ih

theorem count_zero (t : ℚ) (x : ℚ) (xs : List ℚ) (hs : (x :: xs).Pairwise (· ≤ ·)) (h : t < x) :
    (x :: xs).countP (fun x => decide (x ≤ t)) = 0 := by
  rw [List.countP_eq_zero]
  intro a ha
  simp only [decide_eq_true_eq, not_le]
  rcases List.mem_cons.1 ha with rfl | ha
  · exact h
  · exact lt_of_lt_of_le h ((List.pairwise_cons.1 hs).1 a ha)

theorem count_succ (t : ℚ) (x : ℚ) (xs : List ℚ) (h : x ≤ t) :
    ((x :: xs).countP (fun x => decide (x ≤ t)) : ℚ) = xs.countP (fun x => decide (x ≤ t)) + 1 := by
  rw [List.countP_cons_of_pos (by simpa using h)]
  push_cast
  rfl

/-- From a state with `a` and `b` elements used the result is at least every difference to come. -/
theorem ksLoop_ge (n1 n2 : Nat) (h1 : 0 < n1) (h2 : 0 < n2) (xs ys : List ℚ) (f1 f2 d : ℚ) (hx : xs.Pairwise (· ≤ ·))
    (hy : ys.Pairwise (· ≤ ·)) (a b : Nat) (ha : a + xs.length = n1) (hb : b + ys.length = n2) (hf1 : f1 = (a : ℚ) / n1)
    (hf2 : f2 = (b : ℚ) / n2) (hd : |f2 - f1| ≤ d) (t : ℚ) :
    |((b : ℚ) + ys.countP (fun x => decide (x ≤ t))) / n2 - ((a : ℚ) + xs.countP (fun x => decide (x ≤ t))) / n1| ≤
      ksLoop n1 n2 xs ys f1 f2 d := by
  have p1 : (0 : ℚ) < n1 := by exact_mod_cast h1
  have p2 : (0 : ℚ) < n2 := by exact_mod_cast h2
  fun_induction ksLoop n1 n2 xs ys f1 f2 d generalizing a b with
  | case1 ys f1 f2 d =>
    refine le_trans ?_ hd
    simp at ha
    subst hf1 hf2 ha
    simp only [List.countP_nil, Nat.cast_zero, add_zero]
    have hc : (ys.countP (fun x => decide (x ≤ t)) : ℚ) ≤ ys.length := by exact_mod_cast List.countP_le_length
    have hbn : (b : ℚ) + ys.length = n2 := by exact_mod_cast hb
    rw [div_self p1.ne']
    have e1 : ((b : ℚ) + ys.countP (fun x => decide (x ≤ t))) / n2 ≤ 1 := by rw [div_le_one p2]; linarith
    have e2 : (b : ℚ) / n2 ≤ ((b : ℚ) + ys.countP (fun x => decide (x ≤ t))) / n2 := by
      apply div_le_div_of_nonneg_right _ p2.le
      have : (0 : ℚ) ≤ ys.countP (fun x => decide (x ≤ t)) := by positivity
      linarith
    rw [abs_of_nonpos (by linarith), abs_of_nonpos (by linarith)]
    linarith
  | case2 xs f1 f2 d hne =>
    refine le_trans ?_ hd
    simp at hb
    subst hf1 hf2 hb
    simp only [List.countP_nil, Nat.cast_zero, add_zero]
    have hc : (xs.countP (fun x => decide (x ≤ t)) : ℚ) ≤ xs.length := by exact_mod_cast List.countP_le_length
    have hbn : (a : ℚ) + xs.length = n1 := by exact_mod_cast ha
    rw [div_self p2.ne']
    have e1 : ((a : ℚ) + xs.countP (fun x => decide (x ≤ t))) / n1 ≤ 1 := by rw [div_le_one p1]; linarith
    have e2 : (a : ℚ) / n1 ≤ ((a : ℚ) + xs.countP (fun x => decide (x ≤ t))) / n1 := by
      apply div_le_div_of_nonneg_right _ p1.le
      have : (0 : ℚ) ≤ xs.countP (fun x => decide (x ≤ t)) := by positivity
      linarith
    rw [abs_of_nonneg (by linarith), abs_of_nonneg (by linarith)]
    linarith
  | case3 f1 f2 d x xs y ys h g1 g2 ih =>
    by_cases ht : t < x
    · rw [count_zero t x xs hx ht, count_zero t y ys hy (by linarith [h.1])]
      simp only [Nat.cast_zero, add_zero]
      rw [← hf1, ← hf2]
      refine le_trans hd (le_trans (le_pick d _).2 (ksLoop_ge_d _ _ _ _ _ _ _))
    · rw [count_succ t x xs (by linarith), count_succ t y ys (by linarith [h.2])]
      simp only [List.length_cons] at ha hb
      have := ih (List.pairwise_cons.1 hx).2 (List.pairwise_cons.1 hy).2 (a + 1) (b + 1) (by omega) (by omega)
        (frac_step n1 a _ ha) (frac_step n2 b _ hb) (le_pick d _).1
      refine le_trans (le_of_eq ?_) this
      push_cast
      congr 2 <;> ring
  | case4 f1 f2 d x xs y ys h h' g1 ih =>
    have hlt : x < y := by
      rcases lt_or_eq_of_le h' with h'' | h''
      · exact h''
      · exact absurd ⟨h', h''.ge⟩ h
    by_cases ht : t < x
    · rw [count_zero t x xs hx ht, count_zero t y ys hy (by linarith)]
      simp only [Nat.cast_zero, add_zero]
      rw [← hf1, ← hf2]
      refine le_trans hd (le_trans (le_pick d _).2 (ksLoop_ge_d _ _ _ _ _ _ _))
    · rw [count_succ t x xs (by linarith)]
      simp only [List.length_cons] at ha
      have := ih (List.pairwise_cons.1 hx).2 hy (a + 1) b (by omega) hb (frac_step n1 a _ ha) hf2 (le_pick d _).1
      refine le_trans (le_of_eq ?_) this
      push_cast
      congr 2; ring
  | case5 f1 f2 d x xs y ys h h' g2 ih =>
    have hlt : y < x := not_le.1 h'
    by_cases ht : t < y
    · rw [count_zero t x xs hx (by linarith), count_zero t y ys hy ht]
      simp only [Nat.cast_zero, add_zero]
      rw [← hf1, ← hf2]
      refine le_trans hd (le_trans (le_pick d _).2 (ksLoop_ge_d _ _ _ _ _ _ _))
    · rw [count_succ t y ys (by linarith)]
      simp only [List.length_cons] at hb
      have := ih hx (List.pairwise_cons.1 hy).2 a (b + 1) ha (by omega) hf1 (frac_step n2 b _ hb) (le_pick d _).1
      refine le_trans (le_of_eq ?_) this
      push_cast
      congr 2; ring

/-- The statistic is at least the distance of the empirical distributions anywhere. -/
theorem ksStat_ge (x y : List ℚ) (hx : x ≠ []) (hy : y ≠ []) (sx : x.Pairwise (· ≤ ·)) (sy : y.Pairwise (· ≤ ·)) (t : ℚ) :
    |ecdf x t - ecdf y t| ≤ ksStat x y := by
  have := ksLoop_ge x.length y.length (List.length_pos_iff.2 hx) (List.length_pos_iff.2 hy) x y 0 0 0 sx sy 0 0 (by simp) (by simp)
    (by simp) (by simp) (by simp) t
  rw [abs_sub_comm]
  simpa [ecdf, ksStat] using this

theorem count_one (x : ℚ) (xs : List ℚ) (hs : (x :: xs).Pairwise (· < ·)) : (x :: xs).countP (fun y => decide (y ≤ x)) = 1 := by
  rw [List.countP_cons_of_pos (by simp), List.countP_eq_zero.2]
  intro a ha
  have := (List.pairwise_cons.1 hs).1 a ha
  simpa using this

theorem count_zero' (t : ℚ) (x : ℚ) (xs : List ℚ) (hs : (x :: xs).Pairwise (· < ·)) (h : t < x) :
    (x :: xs).countP (fun x => decide (x ≤ t)) = 0 :=
  count_zero t x xs (hs.imp fun h => h.le) h

theorem count_tail_zero (t : ℚ) (x : ℚ) (xs : List ℚ) (hs : (x :: xs).Pairwise (· < ·)) (h : t < x) :
    xs.countP (fun x => decide (x ≤ t)) = 0 := by
  have := count_zero' t x xs hs h
  rw [List.countP_cons_of_neg (by simpa using h)] at this
  exact this

/-- If no value occurs twice in a sample, the result is one of the differences. -/
theorem ksLoop_le (n1 n2 : Nat) (xs ys : List ℚ) (f1 f2 d : ℚ) (hx : xs.Pairwise (· < ·)) (hy : ys.Pairwise (· < ·)) (a b : Nat)
    (ha : a + xs.length = n1) (hb : b + ys.length = n2) (hf1 : f1 = (a : ℚ) / n1) (hf2 : f2 = (b : ℚ) / n2) :
    ksLoop n1 n2 xs ys f1 f2 d = d ∨ ∃ t : ℚ, ksLoop n1 n2 xs ys f1 f2 d =
      |((b : ℚ) + ys.countP (fun x => decide (x ≤ t))) / n2 - ((a : ℚ) + xs.countP (fun x => decide (x ≤ t))) / n1| := by
  fun_induction ksLoop n1 n2 xs ys f1 f2 d generalizing a b with
  | case1 => exact Or.inl rfl
  | case2 => exact Or.inl rfl
  | case3 f1 f2 d x xs y ys h g1 g2 ih =>
    have hxy : x = y := le_antisymm h.1 h.2
    simp only [List.length_cons] at ha hb
    have e1 : g1 = ((a + 1 : Nat) : ℚ) / n1 := frac_step n1 a _ ha
    have e2 : g2 = ((b + 1 : Nat) : ℚ) / n2 := frac_step n2 b _ hb
    have hdt : |g2 - g1| = |((b : ℚ) + (y :: ys).countP (fun z => decide (z ≤ x))) / n2 -
        ((a : ℚ) + (x :: xs).countP (fun z => decide (z ≤ x))) / n1| := by
      rw [count_one x xs hx]
      have : (y :: ys).countP (fun z => decide (z ≤ x)) = 1 := by rw [hxy]; exact count_one y ys hy
      rw [this, e1, e2]; push_cast; rfl
    rcases ih (List.pairwise_cons.1 hx).2 (List.pairwise_cons.1 hy).2 (a + 1) (b + 1) (by omega) (by omega) e1 e2 with hr | ⟨t, hr⟩
    · rw [hr]
      by_cases hd : d < |g2 - g1|
      · rw [bump, if_pos hd]; exact Or.inr ⟨x, hdt⟩
      · rw [bump, if_neg hd]; exact Or.inl rfl
    · right
      by_cases ht : t < x
      · refine ⟨x, ?_⟩
        rw [hr, count_tail_zero t x xs hx ht, count_tail_zero t y ys hy (hxy ▸ ht), ← hdt, e1, e2]
        simp
      · refine ⟨t, ?_⟩
        rw [hr, count_succ t x xs (by linarith), count_succ t y ys (by linarith)]
        push_cast
        congr 2 <;> ring
  | case4 f1 f2 d x xs y ys h h' g1 ih =>
    have hlt : x < y := by
      rcases lt_or_eq_of_le h' with h'' | h''
      · exact h''
      · exact absurd ⟨h', h''.ge⟩ h
    simp only [List.length_cons] at ha
    have e1 : g1 = ((a + 1 : Nat) : ℚ) / n1 := frac_step n1 a _ ha
    have hdt : |f2 - g1| = |((b : ℚ) + (y :: ys).countP (fun z => decide (z ≤ x))) / n2 -
        ((a : ℚ) + (x :: xs).countP (fun z => decide (z ≤ x))) / n1| := by
      rw [count_one x xs hx, count_zero' x y ys hy hlt, e1, hf2]; push_cast; simp
    rcases ih (List.pairwise_cons.1 hx).2 hy (a + 1) b (by omega) hb e1 hf2 with hr | ⟨t, hr⟩
    · rw [hr]
      by_cases hd : d < |f2 - g1|
      · rw [bump, if_pos hd]; exact Or.inr ⟨x, hdt⟩
      · rw [bump, if_neg hd]; exact Or.inl rfl
    · right
      by_cases ht : t < x
      · refine ⟨x, ?_⟩
        rw [hr, count_tail_zero t x xs hx ht, count_zero' t y ys hy (by linarith), ← hdt, e1, hf2]
        simp
      · refine ⟨t, ?_⟩
        rw [hr, count_succ t x xs (by linarith)]
        push_cast
        congr 2; ring
  | case5 f1 f2 d x xs y ys h h' g2 ih =>
    have hlt : y < x := not_le.1 h'
    simp only [List.length_cons] at hb
    have e2 : g2 = ((b + 1 : Nat) : ℚ) / n2 := frac_step n2 b _ hb
    have hdt : |g2 - f1| = |((b : ℚ) + (y :: ys).countP (fun z => decide (z ≤ y))) / n2 -
        ((a : ℚ) + (x :: xs).countP (fun z => decide (z ≤ y))) / n1| := by
      rw [count_one y ys hy, count_zero' y x xs hx hlt, e2, hf1]; push_cast; simp
    rcases ih hx (List.pairwise_cons.1 hy).2 a (b + 1) ha (by omega) hf1 e2 with hr | ⟨t, hr⟩
    · rw [hr]
      by_cases hd : d < |g2 - f1|
      · rw [bump, if_pos hd]; exact Or.inr ⟨y, hdt⟩
      · rw [bump, if_neg hd]; exact Or.inl rfl
    · right
      by_cases ht : t < y
      · refine ⟨y, ?_⟩
        rw [hr, count_tail_zero t y ys hy ht, count_zero' t x xs hx (by linarith), ← hdt, e2, hf1]
        simp
      · refine ⟨t, ?_⟩
        rw [hr, count_succ t y ys (by linarith)]
        push_cast
        congr 2; ring

/-- For samples in which no value occurs twice the statistic is the largest distance of the empirical distributions. -/
theorem ksStat_partial (x y : List ℚ) (hx : x ≠ []) (hy : y ≠ []) (sx : x.Pairwise (· < ·)) (sy : y.Pairwise (· < ·)) :
    (∀ t, |ecdf x t - ecdf y t| ≤ ksStat x y) ∧ ∃ t, ksStat x y = |ecdf x t - ecdf y t| := by
  refine ⟨ksStat_ge x y hx hy (sx.imp fun h => h.le) (sy.imp fun h => h.le), ?_⟩
  rcases ksLoop_le x.length y.length x y 0 0 0 sx sy 0 0 (by simp) (by simp) (by simp) (by simp) with h | ⟨t, h⟩
  · obtain ⟨a, x', rfl⟩ := List.exists_cons_of_ne_nil hx
    obtain ⟨b, y', rfl⟩ := List.exists_cons_of_ne_nil hy
    refine ⟨min a b - 1, ?_⟩
    have h1 : min a b - 1 < a := by have := min_le_left a b; linarith
    have h2 : min a b - 1 < b := by have := min_le_right a b; linarith
    unfold ecdf
    rw [count_zero' _ a x' sx h1, count_zero' _ b y' sy h2]
    unfold ksStat
    rw [h]
    simp
  · refine ⟨t, ?_⟩
    rw [abs_sub_comm]
    unfold ksStat
    rw [h]
    simp [ecdf]

/-- With a repeated value it is not: these samples have the same distribution, and the statistic is 1/2. -/
theorem ksStat_tie_violation : ksStat [0, 0] [0] = 1 / 2 ∧ ∀ t, ecdf [0, 0] t = ecdf [0] t := by
  refine ⟨by unfold ksStat; rw [ksLoop]; simp; rw [ksLoop] <;> norm_num [bump], ?_⟩
  intro t
  by_cases h : (0 : ℚ) ≤ t
  · simp [ecdf, h]
  · simp [ecdf, h]

theorem ksLoop_pos (n : Nat) (hn : 0 < n) (xs ys : List ℚ) (f d : ℚ) (hl : xs.length = ys.length) (hne : xs ≠ ys) (hd : 0 ≤ d)
    (hf : f = ((n : ℚ) - xs.length) / n) : 0 < ksLoop n n xs ys f f d := by
  have p : (0 : ℚ) < n := by exact_mod_cast hn
  induction xs generalizing ys f d with
  | nil => simp at hl; exact absurd hl.symm (by simpa using Ne.symm hne)
  | cons x xs ih =>
    cases ys with
    | nil => simp at hl
    | cons y ys =>
      have hl' : xs.length = ys.length := by simpa using hl
      have hstep : ∀ g : ℚ, g = ((n : ℚ) - xs.length) / n → g - f = 1 / n := by
        intro g hg
        rw [hg, hf, ← sub_div]
        congr 1
        push_cast [List.length_cons]
        ring
      have pn : 0 < 1 / (n : ℚ) := by positivity
      rw [ksLoop]
      by_cases h : x ≤ y ∧ y ≤ x
      · rw [if_pos h]
        have hxy : x = y := le_antisymm h.1 h.2
        simp only
        rw [← hl']
        refine ih ys _ _ hl' (fun e => hne (by rw [hxy, e])) ?_ rfl
        exact le_trans hd (le_pick _ _).2
      · rw [if_neg h]
        by_cases h' : x ≤ y
        · rw [if_pos h']
          simp only
          refine lt_of_lt_of_le ?_ (ksLoop_ge_d _ _ _ _ _ _ _)
          refine lt_of_lt_of_le ?_ (le_pick d _).1
          rw [abs_sub_comm, hstep _ rfl, abs_of_pos pn]
          exact pn
        · rw [if_neg h']
          simp only
          refine lt_of_lt_of_le ?_ (ksLoop_ge_d _ _ _ _ _ _ _)
          refine lt_of_lt_of_le ?_ (le_pick d _).1
          rw [← hl', hstep _ rfl, abs_of_pos pn]
          exact pn

/-- The statistic of different samples is not zero, so the division of `kolomogorov_cdf` does not fail. -/
theorem ksStat_pos (x y : List ℚ) (hx : x ≠ []) (hy : y ≠ []) (hne : x ≠ y) : 0 < ksStat x y := by
  by_cases hl : x.length = y.length
  · unfold ksStat
    rw [← hl]
    refine ksLoop_pos x.length (List.length_pos_iff.2 hx) x y 0 0 hl hne (le_refl _) ?_
    simp
  · obtain ⟨a, x', rfl⟩ := List.exists_cons_of_ne_nil hx
    obtain ⟨b, y', rfl⟩ := List.exists_cons_of_ne_nil hy
    have p1 : (0 : ℚ) < ((a :: x').length : ℚ) := by simp; positivity
    have p2 : (0 : ℚ) < ((b :: y').length : ℚ) := by simp; positivity
    have e1 : (((a :: x').length : ℚ) - x'.length) = 1 := by simp
    have e2 : (((b :: y').length : ℚ) - y'.length) = 1 := by simp
    unfold ksStat
    rw [ksLoop]
    by_cases h : a ≤ b ∧ b ≤ a
    · rw [if_pos h]
      simp only
      refine lt_of_lt_of_le ?_ (ksLoop_ge_d _ _ _ _ _ _ _)
      refine lt_of_lt_of_le ?_ (le_pick _ _).1
      rw [abs_pos, e1, e2, sub_ne_zero]
      intro he
      have he' := (div_eq_div_iff p2.ne' p1.ne').1 he
      rw [one_mul, one_mul] at he'
      exact hl (by exact_mod_cast he')
    · rw [if_neg h]
      by_cases h' : a ≤ b
      · rw [if_pos h']
        simp only
        refine lt_of_lt_of_le ?_ (ksLoop_ge_d _ _ _ _ _ _ _)
        refine lt_of_lt_of_le ?_ (le_pick _ _).1
        rw [abs_pos, e1, zero_sub, neg_ne_zero]
        positivity
      · rw [if_neg h']
        simp only
        refine lt_of_lt_of_le ?_ (ksLoop_ge_d _ _ _ _ _ _ _)
        refine lt_of_lt_of_le ?_ (le_pick _ _).1
        rw [abs_pos, e2, sub_zero]
        positivity

/-! ## The probability -/

theorem kolCdf_bounds (z : ℝ) (hz : 0 < z) : 0 < kolCdf z ∧ kolCdf z ≤ √(2 * Real.pi) * (1 / z) * 149 := by
  have hL : 0 < √(2 * Real.pi) * (1 / z) := by
    have : 0 < √(2 * Real.pi) := Real.sqrt_pos.2 (by positivity)
    positivity
  unfold kolCdf
  refine ⟨mul_pos hL ?_, mul_le_mul_of_nonneg_left ?_ hL.le⟩
  · apply List.sum_pos
    · intro x hx
      obtain ⟨v, _, rfl⟩ := List.mem_map.1 hx
      exact Real.exp_pos _
    · intro h
      have := congrArg List.length h
      simp at this
  · refine le_trans (List.sum_le_card_nsmul _ 1 ?_) (by simp)
    intro x hx
    obtain ⟨v, _, rfl⟩ := List.mem_map.1 hx
    rw [Real.exp_le_one_iff]
    have : 0 ≤ (2 * ((v : ℝ) + 1) - 1) ^ 2 * (Real.pi ^ 2 / (8 * z ^ 2)) := by positivity
    linarith

theorem ksZ_pos (n1 n2 : Nat) (h1 : 0 < n1) (h2 : 0 < n2) (d : ℝ) (hd : 0 < d) : 0 < ksZ n1 n2 d := by
  have p1 : (0 : ℝ) < n1 := by exact_mod_cast h1
  have p2 : (0 : ℝ) < n2 := by exact_mod_cast h2
  have : 0 < √((n1 * n2 : ℝ) / (n1 + n2 : ℝ)) := Real.sqrt_pos.2 (by positivity)
  unfold ksZ
  simp only
  positivity

/-- `stat.test.kolmogorov` raises no error; the result is less than 1 unless the samples are the same, when it is 1; it is 0 when one of
them is empty. -/
theorem kolmogorov_spec (x y : List ℚ) :
    (x.Perm y → kolmogorov x y = .ok 1) ∧
    (¬ x.Perm y → x = [] ∨ y = [] → kolmogorov x y = .ok 0) ∧
    (¬ x.Perm y → x ≠ [] → y ≠ [] → ∃ d : ℚ, d = ksStat (x.mergeSort (· ≤ ·)) (y.mergeSort (· ≤ ·)) ∧ 0 < d ∧
      kolmogorov x y = .ok (1 - kolCdf (ksZ x.length y.length d)) ∧ 1 - kolCdf (ksZ x.length y.length d) < 1) := by
  have px := List.mergeSort_perm x (· ≤ ·)
  have py := List.mergeSort_perm y (· ≤ ·)
  have hiff : x.mergeSort (· ≤ ·) = y.mergeSort (· ≤ ·) ↔ x.Perm y := by
    constructor
    · intro h
      exact px.symm.trans (h ▸ py)
    · intro h
      have hs : ∀ l : List ℚ, (l.mergeSort (· ≤ ·)).Pairwise (· ≤ ·) := by
        intro l
        have := List.pairwise_mergeSort (le := fun a b : ℚ => decide (a ≤ b)) (by intro a b c; simpa using le_trans)
          (by intro a b; simpa using le_total a b) l
        exact this.imp fun h => by simpa using h
      exact ((px.trans h).trans py.symm).eq_of_pairwise (fun a b _ _ => le_antisymm) (hs x) (hs y)
  have lx : (x.mergeSort (· ≤ ·)).length = x.length := px.length_eq
  have ly : (y.mergeSort (· ≤ ·)).length = y.length := py.length_eq
  refine ⟨?_, ?_, ?_⟩
  · intro h
    unfold kolmogorov
    simp only
    rw [if_pos (hiff.2 h)]
  · intro h h0
    unfold kolmogorov
    simp only
    rw [if_neg (fun h' => h (hiff.1 h')), if_pos]
    rw [lx, ly]
    simpa using h0
  · intro h hx hy
    have nx : x.mergeSort (· ≤ ·) ≠ [] := by
      intro e; rw [e] at lx; exact hx (List.length_eq_zero_iff.1 lx.symm)
    have ny : y.mergeSort (· ≤ ·) ≠ [] := by
      intro e; rw [e] at ly; exact hy (List.length_eq_zero_iff.1 ly.symm)
    have hpos := ksStat_pos _ _ nx ny (fun h' => h (hiff.1 h'))
    refine ⟨_, rfl, hpos, ?_, ?_⟩
    · unfold kolmogorov
      simp only
      rw [if_neg (fun h' => h (hiff.1 h')), if_neg, if_neg hpos.ne', lx, ly]
      rw [lx, ly]
      simp [hx, hy]
    · have hpos' : (0 : ℝ) < (ksStat (x.mergeSort (· ≤ ·)) (y.mergeSort (· ≤ ·)) : ℚ) := by exact_mod_cast hpos
      have hz := ksZ_pos x.length y.length (List.length_pos_iff.2 hx) (List.length_pos_iff.2 hy) _ hpos'
      have := (kolCdf_bounds _ hz).1
      linarith

/-- The series has too few terms for large arguments: two samples of two million values without overlap get a probability above 1/2 of
being from the same distribution. -/
theorem kolmogorov_large_violation (x y : List ℚ) (n : Nat) (hn : 2000000 ≤ n) (lx : x.length = n) (ly : y.length = n) (c : ℚ)
    (hx : ∀ a ∈ x, a ≤ c) (hy : ∀ b ∈ y, c < b) : ∃ p, kolmogorov x y = .ok p ∧ 1 / 2 < p := by
  have nx : x ≠ [] := by rintro rfl; simp at lx; omega
  have ny : y ≠ [] := by rintro rfl; simp at ly; omega
  have hp : ¬ x.Perm y := by
    intro h
    obtain ⟨a, x', rfl⟩ := List.exists_cons_of_ne_nil nx
    have h1 := hx a (by simp)
    have h2 := hy a (h.subset (by simp))
    linarith
  obtain ⟨d, hd, hpos, hk, _⟩ := (kolmogorov_spec x y).2.2 hp nx ny
  refine ⟨_, hk, ?_⟩
  have px := List.mergeSort_perm x (· ≤ ·)
  have py := List.mergeSort_perm y (· ≤ ·)
  have hs : ∀ l : List ℚ, (l.mergeSort (· ≤ ·)).Pairwise (· ≤ ·) := by
    intro l
    have := List.pairwise_mergeSort (le := fun a b : ℚ => decide (a ≤ b)) (by intro a b c; simpa using le_trans)
      (by intro a b; simpa using le_total a b) l
    exact this.imp fun h => by simpa using h
  have h1 : 1 ≤ d := by
    have := ksStat_ge _ _ (by intro e; have := px.length_eq; rw [e] at this; exact nx (List.length_eq_zero_iff.1 this.symm))
      (by intro e; have := py.length_eq; rw [e] at this; exact ny (List.length_eq_zero_iff.1 this.symm)) (hs x) (hs y) c
    rw [← hd] at this
    refine le_trans (le_of_eq ?_) this
    unfold ecdf
    rw [px.countP_eq, py.countP_eq, px.length_eq, py.length_eq, List.countP_eq_length.2 (by simpa using hx),
      List.countP_eq_zero.2 (by simpa using hy), lx]
    have : (n : ℚ) ≠ 0 := by
      have : n ≠ 0 := by omega
      exact_mod_cast this
    rw [div_self this]
    simp
  have hz : 1000 ≤ ksZ x.length y.length d := by
    rw [lx, ly]
    unfold ksZ
    simp only
    have hn' : (2000000 : ℝ) ≤ n := by exact_mod_cast hn
    have e : (n * n : ℝ) / (n + n) = n / 2 := by field_simp; norm_num
    rw [e]
    have hq : (1000 : ℝ) ≤ √((n : ℝ) / 2) := by
      apply Real.le_sqrt_of_sq_le
      linarith
    have hd' : (1 : ℝ) ≤ d := by exact_mod_cast h1
    have h3 : (0 : ℝ) ≤ 0.11 / √((n : ℝ) / 2) := by positivity
    nlinarith
  have hb := (kolCdf_bounds _ (by linarith)).2
  have hs2 : √(2 * Real.pi) ≤ 3 := by
    rw [Real.sqrt_le_left (by norm_num)]
    have := Real.pi_lt_d2
    linarith
  have hi : 1 / ksZ x.length y.length d ≤ 1 / 1000 := one_div_le_one_div_of_le (by norm_num) hz
  have hi0 : 0 ≤ 1 / ksZ x.length y.length d := by apply one_div_nonneg.2; linarith
  have h0 : 0 ≤ √(2 * Real.pi) := Real.sqrt_nonneg _
  have : √(2 * Real.pi) * (1 / ksZ x.length y.length d) ≤ 3 * (1 / 1000) := mul_le_mul hs2 hi hi0 (by norm_num)
  linarith

/-! ## Residuals and pulls -/

/-- The set of keys decides for maps, the length for arrays; the result has the differences in the order of the observation. -/
theorem residual_spec (r : ℚ → Num) (o p : Num) (lo lp : List Num) (mo mp : PyDict String Num) :
    residual r (.one o) (.one p) = .ok (.one (Num.sub r o p)) ∧
    (lo.length = lp.length → ∃ l, residual r (.array lo) (.array lp) = .ok (.array l) ∧ l.length = lo.length ∧
      ∀ (i : Nat) (h1 : i < lo.length) (h2 : i < lp.length), l[i]? = some (Num.sub r lo[i] lp[i])) ∧
    (lo.length ≠ lp.length → residual r (.array lo) (.array lp) = .error (.rt 38010)) ∧
    ((∀ k, k ∈ PyDict.keys mo ↔ k ∈ PyDict.keys mp) → ∃ m, residual r (.map mo) (.map mp) = .ok (.map m) ∧
      PyDict.keys m = PyDict.keys mo ∧
      ∀ k a b, PyDict.get? mo k = some a → PyDict.get? mp k = some b → PyDict.get? m k = some (Num.sub r a b)) ∧
    ((∃ k, ¬ (k ∈ PyDict.keys mo ↔ k ∈ PyDict.keys mp)) → residual r (.map mo) (.map mp) = .error (.rt 38010)) := by
  refine ⟨rfl, ?_, ?_, ?_, ?_⟩
  · intro h
    refine ⟨List.zipWith (Num.sub r) lo lp, ?_, by simp [h], ?_⟩
    · simp only [residual]
      rw [if_neg (by simpa using h)]
    · intro i h1 h2
      simp [h1, h2]
  · intro h
    simp only [residual]
    rw [if_pos h]
  · intro h
    refine ⟨mo.map fun e => (e.1, Num.sub r e.2 (look mp e.1)), ?_, ?_, ?_⟩
    · simp only [residual]
      rw [if_neg (by rw [(sameKeys_iff mo mp).2 h]; simp)]
    · simp [PyDict.keys]
    · intro k a b ha hb
      have e : ∀ l : PyDict String Num, PyDict.get? (l.map fun e => (e.1, Num.sub r e.2 (look mp e.1))) k =
          (PyDict.get? l k).map fun v => Num.sub r v (look mp k) := by
        intro l
        induction l with
        | nil => rfl
        | cons e l ih =>
          obtain ⟨k', v⟩ := e
          simp only [List.map_cons]
          rw [PyDict.get?_cons, PyDict.get?_cons, ih]
          by_cases hk : k' = k
          · subst hk; simp
          · simp [hk]
      rw [e, ha]
      simp [look, hb]
  · rintro ⟨k, h⟩
    simp only [residual]
    rw [if_pos]
    by_contra h'
    exact h ((sameKeys_iff mo mp).1 (by simpa using h') k)

/-- Pulls: residuals divided by uncertainties, with the division of util.py; the prediction is checked first. -/
theorem pull_spec (r : ℚ → Num) (o p u : Num) (lo lp lu : List Num) (mo mp mu : PyDict String Num) :
    pull r (.one o) (.one p) (.one u) = .ok (.one (Num.div r (Num.sub r o p) u)) ∧
    (lo.length = lp.length → lo.length = lu.length → ∃ l, pull r (.array lo) (.array lp) (.array lu) = .ok (.array l) ∧
      l.length = lo.length ∧ ∀ (i : Nat) (h1 : i < lo.length) (h2 : i < lp.length) (h3 : i < lu.length),
        l[i]? = some (Num.div r (Num.sub r lo[i] lp[i]) lu[i])) ∧
    (lo.length ≠ lp.length → pull r (.array lo) (.array lp) (.array lu) = .error (.rt 38020)) ∧
    (lo.length = lp.length → lo.length ≠ lu.length → pull r (.array lo) (.array lp) (.array lu) = .error (.rt 38021)) ∧
    ((∀ k, k ∈ PyDict.keys mo ↔ k ∈ PyDict.keys mp) → (∀ k, k ∈ PyDict.keys mo ↔ k ∈ PyDict.keys mu) →
      ∃ m, pull r (.map mo) (.map mp) (.map mu) = .ok (.map m) ∧ PyDict.keys m = PyDict.keys mo ∧
      ∀ k a b c, PyDict.get? mo k = some a → PyDict.get? mp k = some b → PyDict.get? mu k = some c →
        PyDict.get? m k = some (Num.div r (Num.sub r a b) c)) ∧
    ((∃ k, ¬ (k ∈ PyDict.keys mo ↔ k ∈ PyDict.keys mp)) → pull r (.map mo) (.map mp) (.map mu) = .error (.rt 38020)) ∧
    ((∀ k, k ∈ PyDict.keys mo ↔ k ∈ PyDict.keys mp) → (∃ k, ¬ (k ∈ PyDict.keys mo ↔ k ∈ PyDict.keys mu)) →
      pull r (.map mo) (.map mp) (.map mu) = .error (.rt 38021)) := by
  refine ⟨rfl, ?_, ?_, ?_, ?_, ?_, ?_⟩
  · intro h h'
    refine ⟨zip3With (fun o p u => Num.div r (Num.sub r o p) u) lo lp lu, ?_, by simp [zip3With, ← h, ← h'], ?_⟩
    · simp only [pull]
      rw [if_neg (by simpa using h), if_neg (by simpa using h')]
    · intro i h1 h2 h3
      simp [zip3With, h1, h2, h3]
  · intro h
    simp only [pull]
    rw [if_pos h]
  · intro h h'
    simp only [pull]
    rw [if_neg (by simpa using h), if_pos h']
  · intro h h'
    refine ⟨mo.map fun e => (e.1, Num.div r (Num.sub r e.2 (look mp e.1)) (look mu e.1)), ?_, ?_, ?_⟩
    · simp only [pull]
      rw [if_neg (by rw [(sameKeys_iff mo mp).2 h]; simp), if_neg (by rw [(sameKeys_iff mo mu).2 h']; simp)]
    · simp [PyDict.keys]
    · intro k a b c ha hb hc
      have e : ∀ l : PyDict String Num, PyDict.get? (l.map fun e => (e.1, Num.div r (Num.sub r e.2 (look mp e.1)) (look mu e.1))) k =
          (PyDict.get? l k).map fun v => Num.div r (Num.sub r v (look mp k)) (look mu k) := by
        intro l
        induction l with
        | nil => rfl
        | cons e l ih =>
          obtain ⟨k', v⟩ := e
          simp only [List.map_cons]
          rw [PyDict.get?_cons, PyDict.get?_cons, ih]
          by_cases hk : k' = k
          · subst hk; simp
          · simp [hk]
      rw [e, ha]
      simp [look, hb, hc]
  · rintro ⟨k, h⟩
    simp only [pull]
    rw [if_pos]
    by_contra h'
    exact h ((sameKeys_iff mo mp).1 (by simpa using h') k)
  · intro h ⟨k, h'⟩
    simp only [pull]
    rw [if_neg (by rw [(sameKeys_iff mo mp).2 h]; simp), if_pos]
    by_contra h''
    exact h' ((sameKeys_iff mo mu).1 (by simpa using h'') k)

/-! ## Chi-squared -/

theorem sumSq_eq (l : List ℚ) (s : ℚ) :
    (l.map Num.fin).foldl (fun s y => Num.add .fin s (Num.mul .fin y y)) (.fin s) = .fin (s + (l.map fun q => q * q).sum) := by
  induction l generalizing s with
  | nil => simp
  | cons q l ih =>
    simp only [List.map_cons, List.foldl_cons, Num.mul_fin, Num.add_fin, ih, List.sum_cons]
    congr 1
    ring

/-- In exact arithmetic a sequence of pulls gives the sum of the squares and the number of pulls (one for each array). -/
theorem chi2_partial (ls : List (List ℚ)) (c : ℚ) (n : Int) :
    ls.foldlM (fun s l => updateChi2 .fin (.array (l.map Num.fin)) s) (⟨.fin c, n⟩ : Chi) =
      .ok ⟨.fin (c + (ls.map fun l => (l.map fun q => q * q).sum).sum), n + ls.length⟩ := by
  induction ls generalizing c n with
  | nil => simp [List.foldlM, pure, Except.pure]
  | cons l ls ih =>
    have h : updateChi2 .fin (.array (l.map Num.fin)) ⟨.fin c, n⟩ = .ok ⟨.fin (c + (l.map fun q => q * q).sum), n + 1⟩ := by
      simp only [updateChi2, sumSq, sumSq_eq, zero_add, Num.add_fin]
    simp only [List.foldlM_cons, h, bind, Except.bind, ih, List.map_cons, List.sum_cons, List.length_cons]
    congr 2
    · congr 1; ring
    · push_cast; ring

/-- One number, an array of one number and a map of one number are the same. -/
theorem chi2_forms (q c : ℚ) (n : Int) (k : String) : updateChi2 .fin (.float (.fin q)) ⟨.fin c, n⟩ = .ok ⟨.fin (c + q * q), n + 1⟩ ∧
    updateChi2 .fin (.array [.fin q]) ⟨.fin c, n⟩ = .ok ⟨.fin (c + q * q), n + 1⟩ ∧
    updateChi2 .fin (.map [(k, .fin q)]) ⟨.fin c, n⟩ = .ok ⟨.fin (c + q * q), n + 1⟩ := by
  refine ⟨rfl, ?_, ?_⟩
  · simp [updateChi2, sumSq]
  · simp [updateChi2, sumSq]

/-- A pull that is an int in Python is taken for a map. -/
theorem chi2_int_violation (r : ℚ → Num) (n : Int) (s : Chi) : updateChi2 r (.int n) s = .error (.py "AttributeError") := rfl

/-- `stat.test.reducedChi2` divides; nothing over nothing is nan. -/
theorem reducedChi2_spec (r : ℚ → Num) (q : ℚ) (n : Int) :
    (n ≠ 0 → reducedChi2 r ⟨.fin q, n⟩ = r (q / n)) ∧ (0 < q → reducedChi2 r ⟨.fin q, 0⟩ = .pinf) ∧ reducedChi2 r ⟨.fin 0, 0⟩ = .nan := by
  refine ⟨?_, ?_, ?_⟩
  · intro h
    exact Num.div_fin r q (by exact_mod_cast h)
  · intro h
    simp [reducedChi2, Num.div, Num.isPos, h]
  · simp [reducedChi2, Num.div, Num.isPos, Num.isNeg]

/-- `stat.test.chi2Prob` outside of the distribution function. -/
theorem chi2Prob_spec (cdf : Int → ℚ → Num) (c : Num) (n : Int) (q : ℚ) :
    (n < 0 → chi2Prob cdf ⟨c, n⟩ = .error (.rt 38060)) ∧ (0 < q → chi2Prob cdf ⟨.fin q, 0⟩ = .ok (.fin 1)) ∧
    chi2Prob cdf ⟨.fin 0, 0⟩ = .ok (.fin 0) ∧
    (0 < n → chi2Prob cdf ⟨.fin q, n⟩ = .ok (cdf n q) ∧ chi2Prob cdf ⟨.nan, n⟩ = .ok .nan ∧ chi2Prob cdf ⟨.pinf, n⟩ = .ok (.fin 1) ∧
      chi2Prob cdf ⟨.ninf, n⟩ = .ok (.fin 0)) := by
  refine ⟨?_, ?_, ?_, ?_⟩
  · intro h; unfold chi2Prob; rw [if_pos h]
  · intro h
    simp [chi2Prob, Num.isPos, h]
  · simp [chi2Prob, Num.isPos]
  · intro h
    have h1 : ¬ n < 0 := by omega
    have h2 : n ≠ 0 := by omega
    simp [chi2Prob, h1, h2]

end Verif.Misc
