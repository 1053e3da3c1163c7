import Verif.Stat.Num
import Verif.Py.Basic
import Mathlib.Tactic.LinearCombination
import Mathlib.Data.List.Range
import Mathlib.Algebra.BigOperators.Group.List.Basic
/-! # stat.sample.updateEWMA and the Holt-Winters functions (C49) -/

namespace Verif.Stat
open Num

/-- A state record of `stat.sample.updateEWMA`. -/
structure Ewma (ρ : Type) where
  mean : Num
  variance : Num
  rest : ρ
  deriving Repr, DecidableEq

/-- titus/lib/stat/sample.py:288-300 `UpdateEWMA.__call__`. -/
def updateEWMA {ρ} (r : ℚ → Num) (x alpha : Num) (s : Ewma ρ) (hasVariance : Bool) : Res (Ewma ρ) :=
  if lt alpha (.fin 0) || lt (.fin 1) alpha then .error (.rt 14030)
  else
    let diff := sub r x s.mean
    let incr := mul r alpha diff
    if hasVariance then
      .ok { s with
        mean := add r s.mean incr
        variance := mul r (sub r (.fin 1) alpha) (add r s.variance (mul r diff incr)) }
    else .ok { s with mean := add r s.mean incr }

/-- A stream of data, each with its own `alpha`. -/
def runEWMA {ρ} (r : ℚ → Num) (hv : Bool) : List (ℚ × ℚ) → Ewma ρ → Res (Ewma ρ)
  | [], s => .ok s
  | (x, a) :: l, s =>
    match updateEWMA r (.fin x) (.fin a) s hv with
    | .error e => .error e
    | .ok s' => runEWMA r hv l s'

/-- A state record of `stat.sample.updateHoltWinters`. -/
structure HW (ρ : Type) where
  level : Num
  trend : Num
  rest : ρ
  deriving Repr, DecidableEq

/-- titus/lib/stat/sample.py:308-317 `UpdateHoltWinters.__call__`. -/
def updateHW {ρ} (r : ℚ → Num) (x alpha beta : Num) (s : HW ρ) : Res (HW ρ) :=
  if lt alpha (.fin 0) || lt (.fin 1) alpha then .error (.rt 14040)
  else if lt beta (.fin 0) || lt (.fin 1) beta then .error (.rt 14041)
  else
    let level := add r (mul r alpha x) (mul r (sub r (.fin 1) alpha) (add r s.level s.trend))
    let trend := add r (mul r beta (sub r level s.level)) (mul r (sub r (.fin 1) beta) s.trend)
    .ok { s with level := level, trend := trend }

/-- A state record of `stat.sample.updateHoltWintersPeriodic`. -/
structure HWP (ρ : Type) where
  level : Num
  trend : Num
  cycle : List Num
  multiplicative : Bool
  rest : ρ
  deriving Repr, DecidableEq

/-- titus/lib/stat/sample.py:324-350 `UpdateHoltWintersPeriodic.__call__`. -/
def updateHWP {ρ} (r : ℚ → Num) (x alpha beta gamma : Num) (s : HWP ρ) : Res (HWP ρ) :=
  if lt alpha (.fin 0) || lt (.fin 1) alpha then .error (.rt 14050)
  else if lt beta (.fin 0) || lt (.fin 1) beta then .error (.rt 14051)
  else if lt gamma (.fin 0) || lt (.fin 1) gamma then .error (.rt 14052)
  else match s.cycle with
    | [] => .error (.rt 14053)
    | c0 :: cs =>
      match cs ++ [c0] with
      | [] => .error (.py "IndexError")
      | cyclePrev :: rotated =>
        let cont := add r s.level s.trend
        let level :=
          if s.multiplicative then
            add r (div r (mul r alpha x) cyclePrev) (mul r (sub r (.fin 1) alpha) cont)
          else add r (mul r alpha (sub r x cyclePrev)) (mul r (sub r (.fin 1) alpha) cont)
        let trend := add r (mul r beta (sub r level s.level)) (mul r (sub r (.fin 1) beta) s.trend)
        let cycle :=
          if s.multiplicative then
            add r (div r (mul r gamma x) level) (mul r (sub r (.fin 1) gamma) cyclePrev)
          else add r (mul r gamma (sub r x level)) (mul r (sub r (.fin 1) gamma) cyclePrev)
        .ok { s with level := level, trend := trend, cycle := cycle :: rotated }

/-- titus/lib/stat/sample.py:375-392 `Forecast1HoltWinters.__call__` without a cycle. -/
def forecast1 {ρ} (r : ℚ → Num) (s : HW ρ) : Num := add r s.level s.trend

/-- titus/lib/stat/sample.py:417-434 `ForecastHoltWinters.__call__` without a cycle;
`range(1, n + 1)` is empty for `n ≤ 0`. -/
def forecast {ρ} (r : ℚ → Num) (n : Int) (s : HW ρ) : List Num :=
  (List.range n.toNat).map (fun i => add r s.level (mul r (.fin ((i + 1 : Nat) : ℚ)) s.trend))

/-- One periodic forecast, `i` steps ahead (the two comprehensions of lines 431-434). -/
def seasonal (r : ℚ → Num) (mult : Bool) (line c : Num) : Num :=
  if mult then mul r line c else add r line c

/-- titus/lib/stat/sample.py:375-392, with a cycle. -/
def forecast1P {ρ} (r : ℚ → Num) (s : HWP ρ) : Res Num :=
  match h : s.cycle with
  | [] => .error (.rt 14060)
  | c :: cs => .ok (seasonal r s.multiplicative (add r s.level s.trend)
      ((c :: cs)[1 % (c :: cs).length]'(Nat.mod_lt _ (by simp))))

/-- titus/lib/stat/sample.py:417-434, with a cycle. -/
def forecastP {ρ} (r : ℚ → Num) (n : Int) (s : HWP ρ) : Res (List Num) :=
  match h : s.cycle with
  | [] => .error (.rt 14070)
  | c :: cs => .ok ((List.range n.toNat).map (fun i =>
      seasonal r s.multiplicative (add r s.level (mul r (.fin ((i + 1 : Nat) : ℚ)) s.trend))
        ((c :: cs)[(i + 1) % (c :: cs).length]'(Nat.mod_lt _ (by simp)))))

/-! ## Exponentially weighted mean -/

/-- One step in exact arithmetic. -/
theorem updateEWMA_fin {ρ} (x a m v : ℚ) (rest : ρ) (ha : 0 ≤ a) (ha1 : a ≤ 1) :
    updateEWMA .fin (.fin x) (.fin a) ⟨.fin m, .fin v, rest⟩ true =
      .ok ⟨.fin (m + a * (x - m)), .fin ((1 - a) * (v + (x - m) * (a * (x - m)))), rest⟩ := by
  simp [updateEWMA, lt, not_lt.2 ha, not_lt.2 ha1]

/-- **C49.** Whatever the data and the weights in [0,1]: the mean stays in every interval that
contains the initial mean and the data, the variance does not become negative, the other fields do
not change, and no error is raised. -/
theorem ewma_range_partial {ρ} (l : List (ℚ × ℚ)) : ∀ (m v lo hi : ℚ) (rest : ρ),
    (∀ d ∈ l, 0 ≤ d.2 ∧ d.2 ≤ 1) → lo ≤ m → m ≤ hi → (∀ d ∈ l, lo ≤ d.1 ∧ d.1 ≤ hi) → 0 ≤ v →
    ∃ m' v', runEWMA .fin true l ⟨.fin m, .fin v, rest⟩ = .ok ⟨.fin m', .fin v', rest⟩ ∧
      lo ≤ m' ∧ m' ≤ hi ∧ 0 ≤ v' := by
  induction l with
  | nil => intro m v lo hi rest _ h1 h2 _ h3; exact ⟨m, v, rfl, h1, h2, h3⟩
  | cons d l ih =>
    obtain ⟨x, a⟩ := d
    intro m v lo hi rest ha h1 h2 hx h3
    obtain ⟨a0, a1⟩ := ha (x, a) (by simp)
    obtain ⟨x0, x1⟩ := hx (x, a) (by simp)
    simp only at a0 a1 x0 x1
    rw [runEWMA, updateEWMA_fin x a m v rest a0 a1]
    apply ih _ _ lo hi rest (fun d hd => ha d (by simp [hd]))
    · nlinarith
    · nlinarith
    · exact fun d hd => hx d (by simp [hd])
    · apply mul_nonneg (by linarith)
      have : 0 ≤ (x - m) ^ 2 * a := mul_nonneg (sq_nonneg _) a0
      nlinarith

/-- The mean without a variance field is the same. -/
theorem ewma_mean {ρ} (r) (l : List (ℚ × ℚ)) : ∀ s s' : Ewma ρ, s.mean = s'.mean →
    (runEWMA r false l s).map (·.mean) = (runEWMA r true l s').map (·.mean) := by
  induction l with
  | nil => intro s s' h; simp [runEWMA, Except.map, h]
  | cons d l ih =>
    obtain ⟨x, a⟩ := d
    intro s s' h
    simp only [runEWMA, updateEWMA]
    by_cases hc : (lt (.fin a) (.fin 0) || lt (.fin 1) (.fin a)) = true
    · simp only [if_pos hc]
    · simp only [if_neg hc, if_true, h]
      exact ih _ _ rfl

/-- **C49, closed form.** With a constant weight the mean is the exponentially weighted sum. -/
theorem ewma_closed {ρ} (a : ℚ) (ha : 0 ≤ a) (ha1 : a ≤ 1) (l : List ℚ) : ∀ (m v : ℚ) (rest : ρ),
    (runEWMA .fin true (l.map (fun x => (x, a))) ⟨.fin m, .fin v, rest⟩).map (·.mean)
      = .ok (.fin ((1 - a) ^ l.length * m +
          (l.zipIdx.map (fun p => a * (1 - a) ^ (l.length - 1 - p.2) * p.1)).sum)) := by
  induction l with
  | nil => intro m v rest; simp [runEWMA, Except.map]
  | cons x l ih =>
    intro m v rest
    rw [List.map_cons, runEWMA, updateEWMA_fin x a m v rest ha ha1]
    simp only
    rw [ih]
    congr 2
    rw [List.zipIdx_cons, List.map_cons, List.sum_cons, zero_add, List.zipIdx_succ,
      List.map_map]
    have e : ((fun p : ℚ × ℕ => a * (1 - a) ^ ((x :: l).length - 1 - p.2) * p.1) ∘
        fun p : ℚ × ℕ => (p.1, p.2 + 1)) = fun p => a * (1 - a) ^ (l.length - 1 - p.2) * p.1 := by
      funext p
      have : (x :: l).length - 1 - (p.2 + 1) = l.length - 1 - p.2 := by simp only [List.length_cons]; omega
      simp only [Function.comp, this]
    have e2 : ∀ p : ℚ × ℕ, (match p with | (a, i) => (a, i + 1)) = (p.1, p.2 + 1) := fun _ => rfl
    simp only [Function.comp_def, e2] at e ⊢
    rw [e]
    simp only [List.length_cons, Nat.add_sub_cancel, Nat.sub_zero]
    ring

/-- An `alpha` outside [0,1] is refused, nan is not. -/
theorem ewma_alpha {ρ} (r) (x a : Num) (s : Ewma ρ) (hv) :
    updateEWMA r x a s hv = .error (.rt 14030) ↔ lt a (.fin 0) = true ∨ lt (.fin 1) a = true := by
  rw [updateEWMA]
  by_cases hc : (lt a (.fin 0) || lt (.fin 1) a) = true
  · simp only [if_pos hc]; simpa using hc
  · simp only [if_neg hc]
    have : ¬ (lt a (.fin 0) = true ∨ lt (.fin 1) a = true) := by simpa using hc
    simp only [this, iff_false]
    split_ifs <;> simp

/-! ## Holt-Winters -/

theorem updateHW_fin {ρ} (x a b l t : ℚ) (rest : ρ) (ha : 0 ≤ a) (ha1 : a ≤ 1) (hb : 0 ≤ b)
    (hb1 : b ≤ 1) :
    updateHW .fin (.fin x) (.fin a) (.fin b) ⟨.fin l, .fin t, rest⟩ =
      .ok ⟨.fin (a * x + (1 - a) * (l + t)),
        .fin (b * (a * x + (1 - a) * (l + t) - l) + (1 - b) * t), rest⟩ := by
  simp [updateHW, lt, not_lt.2 ha, not_lt.2 ha1, not_lt.2 hb, not_lt.2 hb1]

/-- **C49, forecasts are linear.** The `i`-th forecast is level plus `i` times the trend, there are
`n` of them, and the first is the single forecast. -/
theorem forecast_linear {ρ} (n : Int) (l t : ℚ) (rest : ρ) :
    (forecast .fin n ⟨.fin l, .fin t, rest⟩).length = n.toNat ∧
    ∀ i, i < n.toNat → (forecast .fin n ⟨.fin l, .fin t, rest⟩)[i]? = some (.fin (l + (i + 1) * t)) := by
  constructor
  · simp [forecast]
  · intro i hi
    simp [forecast, hi]

theorem forecast_first {ρ} (n : Int) (hn : 1 ≤ n) (l t : ℚ) (rest : ρ) :
    (forecast .fin n ⟨.fin l, .fin t, rest⟩).head? = some (forecast1 .fin ⟨.fin l, .fin t, rest⟩) := by
  obtain ⟨k, hk⟩ : ∃ k, n.toNat = k + 1 := ⟨n.toNat - 1, by omega⟩
  simp [forecast, forecast1, hk, List.range_succ_eq_map]

/-- **C49, forecasts are consistent.** When the datum is the forecast, the level moves along the line
and the trend stays, so the later forecasts are those made before, shifted by one. -/
theorem forecast_shift {ρ} (a b l t : ℚ) (rest : ρ) (ha : 0 ≤ a) (ha1 : a ≤ 1) (hb : 0 ≤ b)
    (hb1 : b ≤ 1) (n : Nat) :
    ∃ s, updateHW .fin (forecast1 .fin ⟨.fin l, .fin t, rest⟩) (.fin a) (.fin b)
        ⟨.fin l, .fin t, rest⟩ = .ok s ∧ s = ⟨.fin (l + t), .fin t, rest⟩ ∧
      forecast .fin n s = (forecast .fin (n + 1) ⟨.fin l, .fin t, rest⟩).tail := by
  refine ⟨⟨.fin (l + t), .fin t, rest⟩, ?_, rfl, ?_⟩
  · rw [forecast1, add_fin, updateHW_fin _ _ _ _ _ _ ha ha1 hb hb1]
    congr 3 <;> ring
  · have : ((n : Int) + 1).toNat = n + 1 := by omega
    simp only [forecast, this, Int.toNat_natCast, List.range_succ_eq_map, List.map_cons,
      List.tail_cons, List.map_map]
    apply List.map_congr_left
    intro i _
    simp only [Function.comp, mul_fin, add_fin]
    congr 1
    push_cast
    ring

/-- Data on a line, `x₀ + k·t` for `k = 1, 2, …`. -/
def line (x0 t : ℚ) : Nat → List ℚ
  | 0 => []
  | n + 1 => (x0 + t) :: line (x0 + t) t n

/-- A stream fed to `updateHoltWinters` with constant weights. -/
def runHW {ρ} (r : ℚ → Num) (a b : Num) : List ℚ → HW ρ → Res (HW ρ)
  | [], s => .ok s
  | x :: l, s =>
    match updateHW r (.fin x) a b s with
    | .error e => .error e
    | .ok s' => runHW r a b l s'

/-- **C49.** A state on a line follows data on that line exactly. -/
theorem hw_line {ρ} (a b t : ℚ) (rest : ρ) (ha : 0 ≤ a) (ha1 : a ≤ 1) (hb : 0 ≤ b) (hb1 : b ≤ 1)
    (n : Nat) : ∀ x0 : ℚ, runHW .fin (.fin a) (.fin b) (line x0 t n) ⟨.fin x0, .fin t, rest⟩
      = .ok ⟨.fin (x0 + n * t), .fin t, rest⟩ := by
  induction n with
  | zero => intro x0; simp [line, runHW]
  | succ n ih =>
    intro x0
    rw [line, runHW, updateHW_fin _ _ _ _ _ _ ha ha1 hb hb1]
    have e : (⟨.fin (a * (x0 + t) + (1 - a) * (x0 + t)),
        .fin (b * (a * (x0 + t) + (1 - a) * (x0 + t) - x0) + (1 - b) * t), rest⟩ : HW ρ)
        = ⟨.fin (x0 + t), .fin t, rest⟩ := by
      congr 2 <;> ring
    simp only [e]
    rw [ih]
    congr 3
    push_cast
    ring

/-! ## Holt-Winters with a cycle -/

/-- The cycle entry that belongs to `i` steps ahead. -/
def ahead {α} (c : α) (cs : List α) (i : Nat) : α :=
  (c :: cs)[i % (c :: cs).length]'(Nat.mod_lt _ (by simp))

theorem forecast1P_eq {ρ} (r) (l t : Num) (c : Num) (cs : List Num) (mu : Bool) (rest : ρ) :
    forecast1P r ⟨l, t, c :: cs, mu, rest⟩ = .ok (seasonal r mu (add r l t) (ahead c cs 1)) := rfl

theorem forecastP_eq {ρ} (r) (n : Int) (l t : Num) (c : Num) (cs : List Num) (mu : Bool) (rest : ρ) :
    forecastP r n ⟨l, t, c :: cs, mu, rest⟩ = .ok ((List.range n.toNat).map (fun i =>
      seasonal r mu (add r l (mul r (.fin ((i + 1 : Nat) : ℚ)) t)) (ahead c cs (i + 1)))) := rfl

theorem ahead_rotate {α} (c : α) (cs : List α) {d : α} {ds : List α} (h : cs ++ [c] = d :: ds)
    (i : Nat) : ahead d ds i = ahead c cs (i + 1) := by
  unfold ahead
  have hl : (d :: ds).length = cs.length + 1 := by rw [← h]; simp
  simp only [← h]
  have hlen : (cs ++ [c]).length = cs.length + 1 := by simp
  simp only [hlen, List.length_cons]
  have hlt : i % (cs.length + 1) < cs.length + 1 := Nat.mod_lt _ (by omega)
  have hmod : (i + 1) % (cs.length + 1) = (i % (cs.length + 1) + 1) % (cs.length + 1) := by
    rw [Nat.mod_add_mod]
  by_cases hi : i % (cs.length + 1) < cs.length
  · rw [List.getElem_append_left hi]
    have : (i + 1) % (cs.length + 1) = i % (cs.length + 1) + 1 := by
      rw [hmod, Nat.mod_eq_of_lt (by omega)]
    simp only [this, List.getElem_cons_succ]
  · have he : i % (cs.length + 1) = cs.length := by omega
    have : (i + 1) % (cs.length + 1) = 0 := by rw [hmod, he, Nat.mod_self]
    simp only [he, this, List.getElem_concat_length, List.getElem_cons_zero]

/-- **C49 with a cycle, additive.** When the datum is the forecast, level and trend move along the
line, the cycle only rotates, and the later forecasts are those made before. -/
theorem forecastP_shift {ρ} (a b g l t : ℚ) (c : ℚ) (cs : List ℚ) (rest : ρ) (ha : 0 ≤ a)
    (ha1 : a ≤ 1) (hb : 0 ≤ b) (hb1 : b ≤ 1) (hg : 0 ≤ g) (hg1 : g ≤ 1) (n : Nat) :
    let s : HWP ρ := ⟨.fin l, .fin t, (c :: cs).map .fin, false, rest⟩
    ∃ x s' f, forecast1P .fin s = .ok x ∧ updateHWP .fin x (.fin a) (.fin b) (.fin g) s = .ok s' ∧
      s' = ⟨.fin (l + t), .fin t, (cs ++ [c]).map .fin, false, rest⟩ ∧
      forecastP .fin (n + 1) s = .ok f ∧ forecastP .fin n s' = .ok f.tail := by
  intro s
  obtain ⟨d, ds, hd⟩ : ∃ d ds, cs ++ [c] = d :: ds := by
    cases cs with
    | nil => exact ⟨c, [], rfl⟩
    | cons d ds => exact ⟨d, ds ++ [c], rfl⟩
  have hmap : cs.map Num.fin ++ [Num.fin c] = .fin d :: ds.map .fin := by
    have := congrArg (List.map Num.fin) hd
    simpa using this
  have hah : ∀ i, ahead (Num.fin c) (cs.map .fin) (i + 1) = ahead (Num.fin d) (ds.map .fin) i :=
    fun i => (ahead_rotate _ _ hmap i).symm
  have hd0 : ahead (Num.fin d) (ds.map Num.fin) 0 = .fin d := by simp [ahead]
  refine ⟨_, _, _, rfl, ?_, rfl, rfl, ?_⟩
  · have hx : seasonal Num.fin false (add Num.fin (.fin l) (.fin t))
        (ahead (Num.fin c) (cs.map .fin) 1) = .fin (l + t + d) := by
      rw [show (1 : Nat) = 0 + 1 from rfl, hah, hd0]; rfl
    have hx' : seasonal Num.fin s.multiplicative (add Num.fin s.level s.trend)
        ((Num.fin c :: cs.map .fin)[1 % (Num.fin c :: cs.map .fin).length]'(Nat.mod_lt _ (by simp)))
        = .fin (l + t + d) := hx
    rw [hx']
    simp only [updateHWP, lt, not_lt.2 ha, not_lt.2 ha1, not_lt.2 hb, not_lt.2 hb1, not_lt.2 hg,
      not_lt.2 hg1, decide_false, Bool.or_false, if_false, s, List.map_cons, hmap, Bool.false_eq_true,
      sub_fin, mul_fin, add_fin]
    have e1 : a * (l + t + d - d) + (1 - a) * (l + t) = l + t := by ring
    have e2 : b * (l + t - l) + (1 - b) * t = t := by ring
    have e3 : g * (l + t + d - (l + t)) + (1 - g) * d = d := by ring
    rw [e1, e2, e3]
    congr 2
    rw [List.map_append, List.map_cons, List.map_nil, hmap]
  · have e : (cs ++ [c]).map Num.fin = .fin d :: ds.map .fin := by rw [hd]; rfl
    rw [e, forecastP_eq]
    have : ((n : Int) + 1).toNat = n + 1 := by omega
    congr 1
    simp only [this, Int.toNat_natCast, List.range_succ_eq_map, List.map_cons, List.tail_cons,
      List.map_map]
    apply List.map_congr_left
    intro i _
    show _ = seasonal Num.fin s.multiplicative _ (ahead (Num.fin c) (cs.map .fin) (i + 1 + 1))
    rw [hah]
    simp only [s, mul_fin, add_fin]
    congr 2
    push_cast
    ring

/-- **C49 with a cycle, multiplicative.** The same, when neither the cycle entry nor the forecast level
is zero. -/
theorem forecastP_shift_mul {ρ} (a b g l t : ℚ) (c : ℚ) (cs : List ℚ) (rest : ρ) (ha : 0 ≤ a)
    (ha1 : a ≤ 1) (hb : 0 ≤ b) (hb1 : b ≤ 1) (hg : 0 ≤ g) (hg1 : g ≤ 1) (n : Nat)
    (hc : ∀ d ∈ (cs ++ [c]).head?, d ≠ 0) (hlt : l + t ≠ 0) :
    let s : HWP ρ := ⟨.fin l, .fin t, (c :: cs).map .fin, true, rest⟩
    ∃ x s' f, forecast1P .fin s = .ok x ∧ updateHWP .fin x (.fin a) (.fin b) (.fin g) s = .ok s' ∧
      s' = ⟨.fin (l + t), .fin t, (cs ++ [c]).map .fin, true, rest⟩ ∧
      forecastP .fin (n + 1) s = .ok f ∧ forecastP .fin n s' = .ok f.tail := by
  intro s
  obtain ⟨d, ds, hd⟩ : ∃ d ds, cs ++ [c] = d :: ds := by
    cases cs with
    | nil => exact ⟨c, [], rfl⟩
    | cons d ds => exact ⟨d, ds ++ [c], rfl⟩
  have hdz : d ≠ 0 := hc d (by rw [hd]; simp)
  have hmap : cs.map Num.fin ++ [Num.fin c] = .fin d :: ds.map .fin := by
    have := congrArg (List.map Num.fin) hd
    simpa using this
  have hah : ∀ i, ahead (Num.fin c) (cs.map .fin) (i + 1) = ahead (Num.fin d) (ds.map .fin) i :=
    fun i => (ahead_rotate _ _ hmap i).symm
  have hd0 : ahead (Num.fin d) (ds.map Num.fin) 0 = .fin d := by simp [ahead]
  refine ⟨_, _, _, rfl, ?_, rfl, rfl, ?_⟩
  · have hx : seasonal Num.fin true (add Num.fin (.fin l) (.fin t))
        (ahead (Num.fin c) (cs.map .fin) 1) = .fin ((l + t) * d) := by
      rw [show (1 : Nat) = 0 + 1 from rfl, hah, hd0]; rfl
    have hx' : seasonal Num.fin s.multiplicative (add Num.fin s.level s.trend)
        ((Num.fin c :: cs.map .fin)[1 % (Num.fin c :: cs.map .fin).length]'(Nat.mod_lt _ (by simp)))
        = .fin ((l + t) * d) := hx
    rw [hx']
    have e1 : a * ((l + t) * d) / d + (1 - a) * (l + t) = l + t := by field_simp; ring
    have e2 : b * (l + t - l) + (1 - b) * t = t := by ring
    have e3 : g * ((l + t) * d) / (l + t) + (1 - g) * d = d := by field_simp; ring
    simp only [updateHWP, lt, not_lt.2 ha, not_lt.2 ha1, not_lt.2 hb, not_lt.2 hb1, not_lt.2 hg,
      not_lt.2 hg1, decide_false, Bool.or_false, if_false, s, List.map_cons, hmap, Bool.false_eq_true,
      sub_fin, mul_fin, add_fin, if_true, div_fin _ _ hdz, e1, div_fin _ _ hlt, e2, e3]
    congr 2
    rw [List.map_append, List.map_cons, List.map_nil, hmap]
  · have e : (cs ++ [c]).map Num.fin = .fin d :: ds.map .fin := by rw [hd]; rfl
    rw [e, forecastP_eq]
    have : ((n : Int) + 1).toNat = n + 1 := by omega
    congr 1
    simp only [this, Int.toNat_natCast, List.range_succ_eq_map, List.map_cons, List.tail_cons,
      List.map_map]
    apply List.map_congr_left
    intro i _
    show _ = seasonal Num.fin s.multiplicative _ (ahead (Num.fin c) (cs.map .fin) (i + 1 + 1))
    rw [hah]
    simp only [s, mul_fin, add_fin]
    congr 2
    push_cast
    ring

/-! ## Not with rounding -/

/-- **C49 holds in exact arithmetic only.**  In binary64 with `alpha` = 1 the new mean can lie above
both the old mean and the datum (all four numbers are doubles). -/
theorem ewma_double_violation : ∃ m x m' : ℚ, Arith.rnd m = m ∧ Arith.rnd x = x ∧
    updateEWMA dbl (.fin x) (.fin 1) ⟨.fin m, .fin 0, ()⟩ false = .ok ⟨.fin m', .fin 0, ()⟩ ∧
    m < x ∧ x < m' :=
  ⟨-1, 3 / 2 ^ 54, 1 / 2 ^ 52, by decide +kernel, by decide +kernel, by decide +kernel, by norm_num,
    by norm_num⟩

/-- Two finite numbers far apart overflow: the mean becomes infinite. -/
theorem ewma_overflow_violation : ∃ m x : ℚ, Arith.rnd m = m ∧ Arith.rnd x = x ∧ |m| < 2 ^ 1024 ∧
    |x| < 2 ^ 1024 ∧
    updateEWMA dbl (.fin x) (.fin (1 / 2)) ⟨.fin m, .fin 0, ()⟩ false = .ok ⟨.pinf, .fin 0, ()⟩ :=
  ⟨-2 ^ 1023, 2 ^ 1023, by decide +kernel, by decide +kernel, by decide +kernel, by decide +kernel,
    by decide +kernel⟩

/-- A case of `ewma_range_partial`. -/
example : runEWMA .fin true [(4, 1/2), (0, 1/4)] ⟨.fin 2, .fin 0, "kept"⟩
    = .ok ⟨.fin (9 / 4), .fin (39 / 16), "kept"⟩ := by decide +kernel
example : runHW .fin (.fin (1/2)) (.fin (1/3)) (line 1 2 3) ⟨.fin 1, .fin 2, ()⟩
    = .ok ⟨.fin 7, .fin 2, ()⟩ := by decide +kernel
example : forecastP .fin 3 ⟨.fin 1, .fin 2, [.fin 10, .fin 20], false, ()⟩
    = .ok [.fin 23, .fin 15, .fin 27] := by decide +kernel

end Verif.Stat
