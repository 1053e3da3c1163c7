import Verif.Stat.Update
import Verif.Py.Basic
/-! # stat.sample.updateWindow: statistics of the last data (C47) -/

namespace Verif.Stat
open Num

/-- An entry of the state array of `stat.sample.updateWindow`. -/
structure Ent (ρ : Type) where
  x : Num
  w : Num
  count : Num
  mean : Num
  variance : Num
  rest : ρ
  deriving Repr, DecidableEq

/-- titus/lib/stat/sample.py:221-229, one turn of the loop that takes removed data out again.  The
state is `accumulatedCount`, `mean`, `varianceCorrection`; the datum is `ox`, `ow`. -/
def takeOut (r : ℚ → Num) (s : Num × Num × Num) (o : Num × Num) : Num × Num × Num :=
  let accumulatedCount := add r s.1 o.2
  let delta2 := sub r o.1 s.2.1
  let shift2 := div r (mul r delta2 o.2) accumulatedCount
  (accumulatedCount, add r s.2.1 shift2,
    add r s.2.2 (mul r (mul r (sub r accumulatedCount o.2) delta2) shift2))

/-- titus/lib/stat/sample.py:178-262 `UpdateWindow.__call__`.  `fresh` is what the other fields of a
first record hold; `none` when the record type has fields the function does not know, which it
refuses to make (line 197). -/
def updateWindow {ρ} (r : ℚ → Num) (fresh : Option ρ) (x w : Num) (st : List (Ent ρ))
    (windowSize : Int) (level : Nat) : Res (List (Ent ρ)) :=
  if windowSize < 2 then .error (.rt 14020)
  else match st.getLast? with
    | none =>
      match fresh with
      | some rest => .ok [⟨x, w, w, x, .fin 0, rest⟩]
      | none => .error (.rt 14021)
    | some record =>
      if (windowSize : Int) ≤ st.length then
        let splitAt := ((st.length : Int) - windowSize + 1).toNat
        let remove := st.take splitAt
        let keep := st.drop splitAt
        let old := remove.map (fun e => (e.x, neg e.w))
        let originalCount := record.count
        let count := add r originalCount w
        let count2 := add r count (old.foldl (fun a o => add r a o.2) (.fin 0))
        if level = 0 then .ok (keep ++ [{ record with x := x, w := w, count := count2 }])
        else
          let delta := sub r x record.mean
          let shift := div r (mul r delta w) count
          let mean := add r record.mean shift
          let t := old.foldl (takeOut r) (count, mean, .fin 0)
          if level = 1 then
            .ok (keep ++ [{ record with x := x, w := w, count := count2, mean := t.2.1 }])
          else
            let varianceTimesCount := mul r record.variance originalCount
            let varianceTimesCount := add r varianceTimesCount (mul r (mul r originalCount delta) shift)
            let varianceTimesCount := add r varianceTimesCount t.2.2
            .ok (keep ++ [{ record with x := x, w := w, count := count2, mean := t.2.1, variance := div r varianceTimesCount count2 }])
      else
        let originalCount := record.count
        let count := add r originalCount w
        if level = 0 then .ok (st ++ [{ record with x := x, w := w, count := count }])
        else
          let delta := sub r x record.mean
          let shift := div r (mul r delta w) count
          let mean := add r record.mean shift
          if level = 1 then
            .ok (st ++ [{ record with x := x, w := w, count := count, mean := mean }])
          else
            let varianceTimesCount := mul r record.variance originalCount
            let varianceTimesCount := add r varianceTimesCount (mul r (mul r originalCount delta) shift)
            .ok (st ++ [{ record with x := x, w := w, count := count, mean := mean, variance := div r varianceTimesCount count }])

/-- A stream of data, weights and window sizes fed one by one. -/
def runWindow {ρ} (r : ℚ → Num) (fresh : Option ρ) (lv : Nat) :
    List (ℚ × ℚ × Int) → List (Ent ρ) → Res (List (Ent ρ))
  | [], st => .ok st
  | (x, w, n) :: l, st =>
    match updateWindow r fresh (.fin x) (.fin w) st n lv with
    | .error e => .error e
    | .ok st' => runWindow r fresh lv l st'

/-! ## Specification -/

/-- The last `n` elements. -/
def lastN {α} (n : Nat) (l : List α) : List α := l.drop (l.length - n)

/-- The window after a stream: each new datum is appended and all but the last `n` are forgotten. -/
def window : List (ℚ × ℚ × Int) → List (ℚ × ℚ) → List (ℚ × ℚ)
  | [], d => d
  | (x, w, n) :: l, d => window l (lastN n.toNat (d ++ [(x, w)]))

/-! ## Proofs -/

/-- The state holds the data `d`, and its last record the moments of `d`. -/
structure Holds {ρ} (st : List (Ent ρ)) (d : List (ℚ × ℚ)) : Prop where
  data : st.map (fun e => (e.x, e.w)) = d.map (fun p => (Num.fin p.1, Num.fin p.2))
  last : ∀ e, st.getLast? = some e →
    Moments (⟨e.count, e.mean, e.variance, e.rest⟩ : St ρ) (W d) (S d) (Q d)

/-- No total weight met on the way is zero: the new total, and the total after each removal. -/
def NoZeroStep (d : List (ℚ × ℚ)) (x w : ℚ) (n : Int) : Prop :=
  d ≠ [] → ∀ j, j ≤ d.length + 1 - n.toNat → W ((d ++ [(x, w)]).drop j) ≠ 0

theorem Holds.length {ρ} {st : List (Ent ρ)} {d} (h : Holds st d) : st.length = d.length := by
  simpa using congrArg List.length h.data

/-- Taking out data one by one keeps the moment equations, with the variance as the correction says. -/
theorem takeOut_moments (o : List (ℚ × ℚ)) : ∀ (c m k s q v : ℚ),
    c * m = s → v + k = q - m * s →
    (∀ j, 0 < j → j ≤ o.length → c - W (o.take j) ≠ 0) →
    ∃ m' k', (o.map (fun p => (Num.fin p.1, neg (Num.fin p.2)))).foldl (takeOut .fin)
        (.fin c, .fin m, .fin k) = (.fin (c - W o), .fin m', .fin k') ∧
      (c - W o) * m' = s - S o ∧ v + k' = (q - Q o) - m' * (s - S o) := by
  induction o with
  | nil => intro c m k s q v h1 h2 _; exact ⟨m, k, by simp, by simpa using h1, by simpa using h2⟩
  | cons p o ih =>
    intro c m k s q v h1 h2 hz
    have hp : c - p.2 ≠ 0 := by simpa using hz 1 (by omega) (by simp)
    have hp' : c + -p.2 ≠ 0 := by rwa [← sub_eq_add_neg]
    obtain ⟨m', k', e, i1, i2⟩ := ih (c - p.2) (m + (p.1 - m) * (-p.2) / (c - p.2))
      (k + (c - p.2 + p.2) * (p.1 - m) * ((p.1 - m) * (-p.2) / (c - p.2))) (s - p.2 * p.1)
      (q - p.2 * p.1 ^ 2) v (by field_simp; linear_combination h1)
      (by
        subst h1
        have : v = q - m * (c * m) - k := by linear_combination h2
        subst this
        field_simp
        ring)
      (by
        intro j hj hl
        have := hz (j + 1) (by omega) (by simpa using hl)
        simp only [List.take_succ_cons, W_cons] at this
        rwa [sub_sub])
    refine ⟨m', k', ?_, ?_, ?_⟩
    · rw [List.map_cons, List.foldl_cons, W_cons, ← sub_sub, ← e]
      congr 1
      simp [takeOut, div_fin _ _ hp', sub_eq_add_neg]
    · rw [W_cons, S_cons]; linear_combination i1
    · rw [Q_cons, S_cons]; linear_combination i2

theorem foldl_sum (o : List (ℚ × ℚ)) : ∀ a : ℚ,
    (o.map (fun p => (Num.fin p.1, neg (Num.fin p.2)))).foldl (fun a o => add Num.fin a o.2) (.fin a)
      = .fin (a - W o) := by
  induction o with
  | nil => intro a; simp
  | cons p o ih =>
    intro a
    rw [List.map_cons, List.foldl_cons]
    simp only [neg_fin, add_fin]
    have := ih (a + -p.2)
    simp only [neg_fin] at this
    rw [this, W_cons]
    congr 1
    ring

/-- **C47, one step.** -/
theorem updateWindow_holds {ρ} {st : List (Ent ρ)} {d} (h : Holds st d) (rest : ρ) (x w : ℚ) (n : Int)
    (hn : 2 ≤ n) (hz : NoZeroStep d x w n) :
    ∃ st', updateWindow .fin (some rest) (.fin x) (.fin w) st n 2 = .ok st' ∧
      Holds st' (lastN n.toNat (d ++ [(x, w)])) := by
  have hlen := h.length
  rw [updateWindow, if_neg (by omega)]
  cases hg : st.getLast? with
  | none =>
    have hst : st = [] := by simpa using hg
    subst hst
    have hd : d = [] := by simpa using hlen.symm
    subst hd
    refine ⟨_, rfl, ?_, ?_⟩
    · have : 1 - n.toNat = 0 := by omega
      simp [lastN, this]
    · have : 1 - n.toNat = 0 := by omega
      intro e he
      simp only [List.getLast?_singleton, Option.some.injEq] at he
      subst he
      simp only [lastN, List.nil_append, List.length_singleton, this, List.drop_zero]
      refine ⟨by simp [W], x, 0, rfl, rfl, by simp [W, S], by simp [W, S, Q]; ring⟩
  | some e =>
    have hdne : d ≠ [] := by
      rintro rfl
      have : st = [] := by simpa using hlen
      simp [this] at hg
    have hz := hz hdne
    obtain ⟨hc, m, v, hm, hv, e1, e2⟩ := h.last e hg
    simp only at hc hm hv
    have hz0 : W d + w ≠ 0 := by
      have := hz 0 (Nat.zero_le _)
      simpa using this
    by_cases hb : n ≤ (st.length : Int)
    · simp only [hb, if_true]
      obtain ⟨k, hk⟩ : ∃ k : Nat, k = ((st.length : Int) - n + 1).toNat := ⟨_, rfl⟩
      rw [← hk]
      have hkd : k = d.length + 1 - n.toNat := by omega
      have hkl : k ≤ d.length := by omega
      have hold : (st.take k).map (fun e => (e.x, neg e.w))
          = (d.take k).map (fun p => (Num.fin p.1, neg (Num.fin p.2))) := by
        have := congrArg (fun l => (l.take k).map (fun p : Num × Num => (p.1, neg p.2))) h.data
        simpa [List.map_take, Function.comp_def] using this
      have hsplitW : W d = W (d.take k) + W (d.drop k) := by rw [← W_append, List.take_append_drop]
      have hsplitS : S d = S (d.take k) + S (d.drop k) := by rw [← S_append, List.take_append_drop]
      have hsplitQ : Q d = Q (d.take k) + Q (d.drop k) := by rw [← Q_append, List.take_append_drop]
      have hdrop : ∀ j, j ≤ k → W (d.drop j) + w ≠ 0 := by
        intro j hj
        have := hz j (by omega)
        rw [List.drop_append_of_le_length (by omega)] at this
        simpa using this
      obtain ⟨m', k', et, t1, t2⟩ := takeOut_moments (d.take k) (W d + w)
        (m + (x - m) * w / (W d + w)) 0 (S d + w * x) (Q d + w * x ^ 2)
        (v * W d + W d * (x - m) * ((x - m) * w / (W d + w)))
        (by field_simp; linear_combination e1)
        (by
          have : Q d = W d * v + m * S d := by linear_combination -e2
          rw [this, ← e1]
          field_simp
          ring)
        (by
          intro j hj hl
          have hjk : j ≤ k := by simp at hl; omega
          have := hdrop j hjk
          rw [List.take_take, min_eq_left hjk]
          have e : W d = W (d.take j) + W (d.drop j) := by rw [← W_append, List.take_append_drop]
          rw [e]
          intro h0
          exact this (by linear_combination h0))
      refine ⟨_, rfl, ?_, ?_⟩
      · rw [lastN]
        simp only [List.map_append, List.map_drop, h.data, List.length_append, List.length_singleton,
          List.map_cons, List.map_nil]
        rw [← hkd, List.drop_append_of_le_length (by simpa using hkl)]
      · intro e' he'
        simp only [List.getLast?_append, List.getLast?_singleton, Option.some_or,
          Option.some.injEq] at he'
        subst he'
        have hz2 : W d + w + (0 - W (d.take k)) ≠ 0 := by
          have := hdrop k le_rfl
          intro h0
          exact this (by rw [hsplitW] at h0; linear_combination h0)
        have hz3 : W d + w - W (d.take k) ≠ 0 := by
          intro h0; exact hz2 (by linear_combination h0)
        have hlast : lastN n.toNat (d ++ [(x, w)]) = d.drop k ++ [(x, w)] := by
          rw [lastN]
          simp only [List.length_append, List.length_singleton]
          rw [← hkd, List.drop_append_of_le_length hkl]
        rw [hlast]
        have hcw : add Num.fin (.fin (W d)) (.fin w) = .fin (W d + w) := rfl
        have hmean : add Num.fin (.fin m) (div Num.fin (mul Num.fin (sub Num.fin (.fin x) (.fin m)) (.fin w)) (.fin (W d + w)))
            = .fin (m + (x - m) * w / (W d + w)) := by
          simp [div_fin _ _ hz0]
        simp only [hc, hm, hv, hold, hcw, foldl_sum, add_fin, hmean, et]
        simp only [W_append, S_append, Q_append, W_cons, S_cons, Q_cons, W_nil, S_nil, Q_nil]
        refine ⟨?_, m', (v * W d + W d * (x - m) * ((x - m) * w / (W d + w)) + k') /
            (W d + w + (0 - W (d.take k))), rfl, ?_, ?_, ?_⟩
        · show Num.fin _ = Num.fin _
          congr 1; rw [hsplitW]; ring
        · dsimp only
          simp only [sub_fin, mul_fin, div_fin _ _ hz0, add_fin, div_fin _ _ hz2]
        · rw [hsplitW, hsplitS] at t1; linear_combination t1
        · rw [t2]
          have : W (d.drop k) + (w + 0) = W d + w + (0 - W (d.take k)) := by rw [hsplitW]; ring
          rw [this, mul_div_cancel₀ _ hz2, hsplitS, hsplitQ]
          ring
    · simp only [hb, if_false]
      have hk : d.length + 1 - n.toNat = 0 := by omega
      refine ⟨_, rfl, ?_, ?_⟩
      · simp [lastN, h.data, hk]
      · intro e' he'
        simp only [List.getLast?_append, List.getLast?_singleton, Option.some_or,
          Option.some.injEq] at he'
        subst he'
        have hlast : lastN n.toNat (d ++ [(x, w)]) = d ++ [(x, w)] := by simp [lastN, hk]
        rw [hlast]
        have := moments_update (h.last e hg) x w hz0
        simp only [W_append, S_append, Q_append, W_cons, S_cons, Q_cons, W_nil, S_nil, Q_nil, add_zero]
        exact this

theorem noZeroStep_of_pos {d : List (ℚ × ℚ)} {x w : ℚ} {n : Int} (hn : 2 ≤ n)
    (h : ∀ p ∈ d ++ [(x, w)], 0 < p.2) : NoZeroStep d x w n := by
  intro _ j hj
  have hne : (d ++ [(x, w)]).drop j ≠ [] := by
    intro e
    have := congrArg List.length e
    rw [List.length_drop, List.length_append, List.length_singleton, List.length_nil] at this
    omega
  have := noZero_of_pos (l := (d ++ [(x, w)]).drop j) (fun p hp => h p (List.mem_of_mem_drop hp))
    _ (List.length_pos_iff.2 hne) le_rfl
  rwa [List.take_length] at this

theorem runWindow_holds {ρ} (rest : ρ) (l : List (ℚ × ℚ × Int)) : ∀ {st : List (Ent ρ)} {d},
    Holds st d → (∀ p ∈ d, 0 < p.2) → (∀ t ∈ l, 0 < t.2.1 ∧ 2 ≤ t.2.2) →
    ∃ st', runWindow .fin (some rest) 2 l st = .ok st' ∧ Holds st' (window l d) := by
  induction l with
  | nil => intro st d h _ _; exact ⟨st, rfl, h⟩
  | cons t l ih =>
    obtain ⟨x, w, n⟩ := t
    intro st d h hd hl
    obtain ⟨hw, hn⟩ := hl _ (List.mem_cons_self)
    simp only at hw hn
    have hpos : ∀ p ∈ d ++ [(x, w)], 0 < p.2 := by
      intro p hp
      rcases List.mem_append.1 hp with hp | hp
      · exact hd p hp
      · simp only [List.mem_singleton] at hp; subst hp; exact hw
    obtain ⟨st1, e1, h1⟩ := updateWindow_holds h rest x w n hn (noZeroStep_of_pos hn hpos)
    obtain ⟨st2, e2, h2⟩ := ih h1 (fun p hp => hpos p (List.mem_of_mem_drop hp))
      (fun t ht => hl t (by simp [ht]))
    exact ⟨st2, by simp only [runWindow, e1]; exact e2, h2⟩

/-- **C47.** After any stream of data of positive weight, with window sizes of at least two that may
change at every step, the state holds exactly the data of the window and its last record the count,
mean and variance of exactly these. -/
theorem window_batch_partial {ρ} (rest : ρ) (l : List (ℚ × ℚ × Int)) (hl : ∀ t ∈ l, 0 < t.2.1 ∧ 2 ≤ t.2.2)
    (hne : l ≠ []) :
    ∃ st e, runWindow .fin (some rest) 2 l [] = .ok st ∧
      st.map (fun e => (e.x, e.w)) = (window l []).map (fun p => (Num.fin p.1, Num.fin p.2)) ∧
      st.getLast? = some e ∧ e.count = .fin (W (window l [])) ∧ e.mean = .fin (M (window l [])) ∧
      e.variance = .fin (V (window l [])) := by
  obtain ⟨st, e1, h⟩ := runWindow_holds rest l (st := []) (d := []) ⟨rfl, by simp⟩ (by simp) hl
  have hpos : ∀ (l : List (ℚ × ℚ × Int)) (d : List (ℚ × ℚ)), (∀ t ∈ l, 0 < t.2.1 ∧ 2 ≤ t.2.2) →
      (∀ p ∈ d, 0 < p.2) → (d ≠ [] ∨ l ≠ []) →
      (∀ p ∈ window l d, 0 < p.2) ∧ window l d ≠ [] := by
    intro l
    induction l with
    | nil => intro d _ hd h; exact ⟨hd, by simpa [window] using h⟩
    | cons t l ih =>
      obtain ⟨x, w, n⟩ := t
      intro d hl hd _
      obtain ⟨hw, hn⟩ := hl _ (List.mem_cons_self)
      simp only at hw hn
      refine ih _ (fun t ht => hl t (by simp [ht])) ?_ (Or.inl ?_)
      · intro p hp
        rcases List.mem_append.1 (List.mem_of_mem_drop hp) with hp | hp
        · exact hd p hp
        · simp only [List.mem_singleton] at hp; subst hp; exact hw
      · intro e
        have := congrArg List.length e
        rw [lastN, List.length_drop, List.length_append, List.length_singleton,
          List.length_nil] at this
        omega
  obtain ⟨hp, hwne⟩ := hpos l [] hl (by simp) (Or.inr hne)
  have hlen := h.length
  cases hg : st.getLast? with
  | none =>
    have : st = [] := by simpa using hg
    rw [this] at hlen
    exact absurd (List.length_eq_zero_iff.1 hlen.symm) hwne
  | some e =>
    obtain ⟨hc, m, v, hm, hv, i1, i2⟩ := h.last e hg
    simp only at hc hm hv
    have hw : W (window l []) ≠ 0 := by
      have := noZero_of_pos hp _ (List.length_pos_iff.2 hwne) le_rfl
      simpa using this
    have hm' : m = M (window l []) := by rw [M, eq_div_iff hw]; linear_combination i1
    have hv' : v = V (window l []) := by rw [V_eq hw, eq_div_iff hw, ← hm']; linear_combination i2
    exact ⟨st, e, e1, h.data, hg, hc, by rw [hm, hm'], by rw [hv, hv']⟩

/-- **C47, size.** Whatever the state, the data and the arithmetic: a window of at least two is never
exceeded, a smaller one is an error, and the new datum is the last entry. -/
theorem updateWindow_size {ρ} (r) (fresh : Option ρ) (x w : Num) (st : List (Ent ρ)) (n : Int) (lv)
    {st'} (h : updateWindow r fresh x w st n lv = .ok st') :
    2 ≤ n ∧ (st'.length : Int) ≤ n ∧
      ∃ pre e, st' = pre ++ [e] ∧ e.x = x ∧ e.w = w ∧ pre = lastN (n.toNat - 1) st := by
  rw [updateWindow.eq_def] at h
  by_cases h2 : n < 2
  · simp [h2] at h
  rw [if_neg h2] at h
  refine ⟨by omega, ?_⟩
  cases hg : st.getLast? with
  | none =>
    have hst : st = [] := by simpa using hg
    subst hst
    cases fresh with
    | none => simp at h
    | some rest =>
      simp at h
      subst h
      exact ⟨by simp; omega, [], _, rfl, rfl, rfl, by simp [lastN]⟩
  | some rec =>
    rw [hg] at h
    simp only at h
    by_cases hb : n ≤ (st.length : Int)
    · have hd : ((st.length : Int) - n + 1).toNat = st.length - (n.toNat - 1) := by omega
      have hl : ((st.drop (st.length - (n.toNat - 1))).length : Int) = n - 1 := by
        rw [List.length_drop]; omega
      rw [if_pos hb, hd] at h
      split_ifs at h <;> cases h <;>
        exact ⟨by rw [List.length_append, List.length_singleton]; push_cast; rw [hl]; omega,
          _, _, rfl, rfl, rfl, rfl⟩
    · have hd : lastN (n.toNat - 1) st = st := by
        have : st.length - (n.toNat - 1) = 0 := by omega
        simp [lastN, this]
      rw [if_neg hb] at h
      split_ifs at h <;> cases h <;>
        exact ⟨by rw [List.length_append, List.length_singleton]; push_cast; omega,
          _, _, rfl, rfl, rfl, hd.symm⟩

/-- The window of a stream is the last data of the stream: with a constant size `n`, the last `n`. -/
theorem window_const (n : Int) (hn : 2 ≤ n) (l : List (ℚ × ℚ)) : ∀ d : List (ℚ × ℚ),
    d.length ≤ n.toNat →
    window (l.map (fun p => (p.1, p.2, n))) d = lastN n.toNat (d ++ l) := by
  induction l with
  | nil =>
    intro d hd
    have : d.length - n.toNat = 0 := by omega
    simp [window, lastN, this]
  | cons p l ih =>
    intro d hd
    have h1 : (lastN n.toNat (d ++ [p])).length ≤ n.toNat := by
      rw [lastN, List.length_drop]; omega
    rw [List.map_cons, window, ih _ h1]
    have e : d ++ p :: l = (d ++ [p]) ++ l := by simp
    rw [e]
    have key : ∀ (a b : List (ℚ × ℚ)) (k : Nat), lastN k (lastN k a ++ b) = lastN k (a ++ b) := by
      intro a b k
      rw [lastN, lastN, lastN]
      by_cases hk : a.length ≤ k
      · have : a.length - k = 0 := by omega
        simp [this]
      · have e1 : a.drop (a.length - k) ++ b = (a ++ b).drop (a.length - k) := by
          rw [List.drop_append_of_le_length (by omega)]
        rw [e1, List.drop_drop]
        congr 1
        simp only [List.length_drop, List.length_append]
        omega
    exact key _ _ _

/-- The fields of a record with a mean but no variance. -/
def Ent.upTo1 {ρ} (e : Ent ρ) : Num × Num × Num × Num := (e.x, e.w, e.count, e.mean)
/-- The fields of a record with neither. -/
def Ent.upTo0 {ρ} (e : Ent ρ) : Num × Num × Num := (e.x, e.w, e.count)

/-- **C47, level 1.** Without a variance the other fields are as with one. -/
theorem updateWindow_level1 {ρ} (r) (fresh : Option ρ) (x w : Num) (st st' : List (Ent ρ)) (n : Int)
    (h : st.map Ent.upTo1 = st'.map Ent.upTo1) :
    (updateWindow r fresh x w st n 1).map (List.map Ent.upTo1)
      = (updateWindow r fresh x w st' n 2).map (List.map Ent.upTo1) := by
  have hlen : st.length = st'.length := by simpa using congrArg List.length h
  have hlast : st.getLast?.map Ent.upTo1 = st'.getLast?.map Ent.upTo1 := by
    rw [← List.getLast?_map, ← List.getLast?_map, h]
  have hold : ∀ k, (st.take k).map (fun e => (e.x, neg e.w)) = (st'.take k).map (fun e => (e.x, neg e.w)) := by
    intro k
    have := congrArg (fun l => (l.take k).map (fun p : Num × Num × Num × Num => (p.1, neg p.2.1))) h
    simpa [List.map_take, Function.comp_def, Ent.upTo1] using this
  rw [updateWindow.eq_def, updateWindow.eq_def r fresh x w st']
  by_cases h2 : n < 2
  · simp [h2]
  · rw [if_neg h2, if_neg h2]
    cases hg : st.getLast? with
    | none =>
      rw [hg] at hlast
      cases hg' : st'.getLast? with
      | none => rfl
      | some e' => rw [hg'] at hlast; simp at hlast
    | some e =>
      rw [hg] at hlast
      cases hg' : st'.getLast? with
      | none => rw [hg'] at hlast; simp at hlast
      | some e' =>
        rw [hg'] at hlast
        simp only [Option.map_some, Option.some.injEq, Ent.upTo1, Prod.mk.injEq] at hlast
        obtain ⟨-, -, hc, hm⟩ := hlast
        by_cases hb : n ≤ (st.length : Int)
        · have hb' : n ≤ (st'.length : Int) := by omega
          simp only [if_pos hb, if_pos hb', hlen, hold, hc, hm, if_false, if_true, one_ne_zero,
            Except.map, List.map_append, List.map_drop, h, Nat.reduceEqDiff, List.map_cons,
            List.map_nil, Ent.upTo1, OfNat.ofNat_ne_zero]
        · have hb' : ¬ n ≤ (st'.length : Int) := by omega
          simp only [if_neg hb, if_neg hb', hc, hm, if_false, if_true, one_ne_zero,
            Except.map, List.map_append, h, Nat.reduceEqDiff, List.map_cons,
            List.map_nil, Ent.upTo1, OfNat.ofNat_ne_zero]

/-- **C47, level 0.** -/
theorem updateWindow_level0 {ρ} (r) (fresh : Option ρ) (x w : Num) (st st' : List (Ent ρ)) (n : Int)
    (h : st.map Ent.upTo0 = st'.map Ent.upTo0) :
    (updateWindow r fresh x w st n 0).map (List.map Ent.upTo0)
      = (updateWindow r fresh x w st' n 2).map (List.map Ent.upTo0) := by
  have hlen : st.length = st'.length := by simpa using congrArg List.length h
  have hlast : st.getLast?.map Ent.upTo0 = st'.getLast?.map Ent.upTo0 := by
    rw [← List.getLast?_map, ← List.getLast?_map, h]
  have hold : ∀ k, (st.take k).map (fun e => (e.x, neg e.w)) = (st'.take k).map (fun e => (e.x, neg e.w)) := by
    intro k
    have := congrArg (fun l => (l.take k).map (fun p : Num × Num × Num => (p.1, neg p.2.1))) h
    simpa [List.map_take, Function.comp_def, Ent.upTo0] using this
  rw [updateWindow.eq_def, updateWindow.eq_def r fresh x w st']
  by_cases h2 : n < 2
  · simp [h2]
  · rw [if_neg h2, if_neg h2]
    cases hg : st.getLast? with
    | none =>
      rw [hg] at hlast
      cases hg' : st'.getLast? with
      | none => rfl
      | some e' => rw [hg'] at hlast; simp at hlast
    | some e =>
      rw [hg] at hlast
      cases hg' : st'.getLast? with
      | none => rw [hg'] at hlast; simp at hlast
      | some e' =>
        rw [hg'] at hlast
        simp only [Option.map_some, Option.some.injEq, Ent.upTo0, Prod.mk.injEq] at hlast
        obtain ⟨-, -, hc⟩ := hlast
        by_cases hb : n ≤ (st.length : Int)
        · have hb' : n ≤ (st'.length : Int) := by omega
          simp only [if_pos hb, if_pos hb', hlen, hold, hc, if_false, if_true,
            Except.map, List.map_append, List.map_drop, h, Nat.reduceEqDiff, List.map_cons,
            List.map_nil, Ent.upTo0, OfNat.ofNat_ne_zero]
        · have hb' : ¬ n ≤ (st'.length : Int) := by omega
          simp only [if_neg hb, if_neg hb', hc, if_false, if_true,
            Except.map, List.map_append, h, Nat.reduceEqDiff, List.map_cons,
            List.map_nil, Ent.upTo0, OfNat.ofNat_ne_zero]

/-- **Not for weights that may be zero**: removing the only datum with weight makes the mean nan. -/
theorem window_zero_violation : ∃ l : List (ℚ × ℚ × Int),
    (∀ t ∈ l, 0 ≤ t.2.1 ∧ 2 ≤ t.2.2) ∧ W (window l []) = 1 ∧ M (window l []) = 7 ∧
    ((runWindow .fin (some ()) 2 l []).toOption.bind List.getLast?).map (·.mean) = some .nan :=
  ⟨[(4, 1, 2), (5, 0, 2), (6, 0, 2), (7, 1, 2)], by simp, by decide +kernel, by decide +kernel,
    by decide +kernel⟩

/-- A case of `window_batch_partial`: four data, the window shrinking from three to two. -/
example : runWindow .fin (some ()) 2 [(1, 1, 3), (2, 2, 3), (6, 1, 3), (4, 1, 2)] []
    = .ok [⟨.fin 6, .fin 1, .fin 4, .fin (11 / 4), .fin (59 / 16), ()⟩,
           ⟨.fin 4, .fin 1, .fin 2, .fin 5, .fin 1, ()⟩] := by decide +kernel
example : window [(1, 1, 3), (2, 2, 3), (6, 1, 3), (4, 1, 2)] [] = [(6, 1), (4, 1)] := by
  simp [window, lastN]

end Verif.Stat
