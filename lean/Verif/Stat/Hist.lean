import Verif.Stat.Num
import Verif.Py.Basic
import Mathlib.Algebra.Order.Floor.Ring
import Mathlib.Algebra.BigOperators.Group.List.Basic
import Mathlib.Data.List.GetD
import Mathlib.Algebra.BigOperators.Fin
import Mathlib.Algebra.BigOperators.Intervals
import Mathlib.Tactic.LinearCombination
/-! # stat.sample.fillHistogram: one weight goes to one place (C48) -/

namespace Verif.Stat
open Num

/-- The four flow fields. -/
inductive Flow where
  | under | over | nanf | inff
  deriving DecidableEq, Repr

/-- The fields of a histogram record that change; a flow field is `none` when the record type does not
have it. -/
structure Hist where
  values : List Num
  under : Option Num := none
  over : Option Num := none
  nanf : Option Num := none
  inff : Option Num := none
  deriving DecidableEq, Repr

/-- titus/lib/stat/sample.py:473-483 `updateHistogram`.  The four Booleans, of which at most one is
true, are an optional flow. -/
def updateHistogram (r : ℚ → Num) (w : Num) (h : Hist) (newValues : List Num) (f : Option Flow) :
    Hist :=
  let inc (g : Flow) (o : Option Num) := o.map (fun v => add r v (if f = some g then w else .fin 0))
  { values := newValues
    under := inc .under h.under
    over := inc .over h.over
    nanf := inc .nanf h.nanf
    inff := inc .inff h.inff }

/-- `math.floor` of Python 3: an int, or an error for the special values. -/
def pyFloor : Num → Res Int
  | .fin q => .ok ⌊q⌋
  | .nan => .error (.py "ValueError")
  | _ => .error (.py "OverflowError")

/-- `math.floor((x - low) / (high - low) * n)`, with the index 0 for a ZeroDivisionError
(lines 511-523, 549-552, 690-697). -/
def binIndex (r : ℚ → Num) (x low high : Num) (n : Nat) : Res Int :=
  let d := sub r high low
  if d = .fin 0 then .ok 0
  else pyFloor (mul r (div r (sub r x low) d) (.fin n))

/-- `newValues[index] = newValues[index] + w`, with Python's negative indexes. -/
def addAt (r : ℚ → Num) (values : List Num) (index : Int) (w : Num) : Res (List Num) :=
  let i := if index < 0 then index + values.length else index
  if i < 0 then .error (.py "IndexError")
  else match values[i.toNat]? with
    | none => .error (.py "IndexError")
    | some v => .ok (values.set i.toNat (add r v w))

/-- Lines 498-508: where the datum flows, if anywhere, with a fixed range. -/
def flow0 (hasInf : Bool) (x low high : Num) : Option Flow :=
  if hasInf && isInf x then some .inff
  else if isNan x then some .nanf
  else if ge x high then some .over
  else if lt x low then some .under
  else none

/-- titus/lib/stat/sample.py:488-530, method 0: `numbins`, `low`, `high`.  The test for an infinite
`indexFloat` is not reached: `math.floor` gives an int or raises. -/
def fill0 (r : ℚ → Num) (x w : Num) (numbins : Int) (low high : Num) (h : Hist) : Res Hist :=
  if numbins < 1 then .error (.rt 14082)
  else if (h.values.length : Int) ≠ numbins then .error (.rt 14080)
  else if ge low high || isNan low || isInf low || isNan high || isInf high then .error (.rt 14081)
  else match flow0 h.inff.isSome x low high with
    | some f => .ok (updateHistogram r w h h.values (some f))
    | none =>
      match binIndex r x low high numbins.toNat with
      | .error e => .error e
      | .ok index =>
        match addAt r h.values index w with
        | .error e => .error e
        | .ok vs => .ok (updateHistogram r w h vs none)

/-- Lines 538-547: where the datum flows with a fixed bin size. -/
def flow1 (hasInf : Bool) (x low : Num) : Option Flow :=
  if hasInf && isInf x then some .inff
  else if isNan x then some .nanf
  else if isInf x && isPos x then some .over
  else if lt x low then some .under
  else none

/-- titus/lib/stat/sample.py:532-563, method 1: `low`, `binsize`. -/
def fill1 (r : ℚ → Num) (x w low binsize : Num) (h : Hist) : Res Hist :=
  if ge (.fin 0) binsize || isNan binsize || isInf binsize then .error (.rt 14082)
  else match flow1 h.inff.isSome x low with
    | some f => .ok (updateHistogram r w h h.values (some f))
    | none =>
      let n := h.values.length
      let currentHigh := add r low (mul r binsize (.fin n))
      match binIndex r x low currentHigh n with
      | .error e => .error e
      | .ok index =>
        if index < n then
          match addAt r h.values index w with
          | .error e => .error e
          | .ok vs => .ok (updateHistogram r w h vs none)
        else
          .ok (updateHistogram r w h
            (h.values ++ List.replicate (index - n).toNat (.fin 0) ++ [w]) none)

/-- Lines 587-594, the test of one range. -/
def inRange (x low high : Num) : Bool :=
  (decide (low = high) && decide (x = low)) || (ge x low && lt x high)

/-- Lines 583-594: one pass over ranges and values. -/
def fillRanges (r : ℚ → Num) (x w : Num) : List (Num × Num) → List Num → List Num × Bool
  | (low, high) :: rs, v :: vs =>
    let t := fillRanges r x w rs vs
    if inRange x low high then (add r v w :: t.1, true) else (v :: t.1, t.2)
  | _, vs => (vs, false)

/-- Line 574: a range is a pair of finite numbers in order (a range that has not two entries is left
out of the model: it is the same error). -/
def badRange (p : Num × Num) : Bool :=
  ge p.1 p.2 || isNan p.1 || isInf p.1 || isNan p.2 || isInf p.2

/-- titus/lib/stat/sample.py:568-605, method 2: `ranges`. -/
def fill2 (r : ℚ → Num) (x w : Num) (ranges : List (Num × Num)) (h : Hist) : Res Hist :=
  if h.values.length ≠ ranges.length then .error (.rt 14080)
  else if ranges.any badRange then .error (.rt 14083)
  else
    let t := if !isInf x && !isNan x then fillRanges r x w ranges h.values else (h.values, false)
    let f : Option Flow :=
      if h.inff.isSome && isInf x then some .inff
      else if isNan x then some .nanf
      else if !t.2 then some .under
      else none
    .ok (updateHistogram r w h t.1 f)

/-! ## Specification -/

/-- A place a weight can go to. -/
inductive Spot where
  | bin (i : Nat)
  | flow (f : Flow)
  deriving DecidableEq, Repr

/-- What the record holds at a flow field. -/
def Hist.flow (h : Hist) : Flow → Option Num
  | .under => h.under
  | .over => h.over
  | .nanf => h.nanf
  | .inff => h.inff

/-- `h'` is `h` with the weight `w` added in one place and nothing else changed.  A bin behind the
last one starts at zero; a flow field that the record does not have is not written. -/
structure Adds (w : Num) (s : Spot) (h h' : Hist) : Prop where
  bins : ∀ i, h'.values.getD i (.fin 0) =
    if s = .bin i then add .fin (h.values.getD i (.fin 0)) w else h.values.getD i (.fin 0)
  flows : ∀ f, h'.flow f = if s = .flow f then (h.flow f).map (fun v => add .fin v w) else h.flow f

/-- Bin `i` of `n` equal bins between `low` and `high`. -/
def InBin (low high : ℚ) (n i : Nat) (x : ℚ) : Prop :=
  low + i * ((high - low) / n) ≤ x ∧ x < low + (i + 1) * ((high - low) / n)

/-- Where a datum belongs when the bins lie between `low` and `high`. -/
def Belongs0 (low high : ℚ) (n : Nat) (hasInf : Bool) (x : Num) (s : Spot) : Prop :=
  match x with
  | .nan => s = .flow .nanf
  | .pinf => s = .flow (if hasInf then .inff else .over)
  | .ninf => s = .flow (if hasInf then .inff else .under)
  | .fin q =>
    (q < low ∧ s = .flow .under) ∨ (high ≤ q ∧ s = .flow .over) ∨
      (∃ i, i < n ∧ InBin low high n i q ∧ s = .bin i)

/-- Where a datum belongs when bins of size `b` start at `low` and do not end. -/
def Belongs1 (low b : ℚ) (hasInf : Bool) (x : Num) (s : Spot) : Prop :=
  match x with
  | .nan => s = .flow .nanf
  | .pinf => s = .flow (if hasInf then .inff else .over)
  | .ninf => s = .flow (if hasInf then .inff else .under)
  | .fin q =>
    (q < low ∧ s = .flow .under) ∨
      (∃ i : Nat, low + i * b ≤ q ∧ q < low + (i + 1) * b ∧ s = .bin i)

/-! ## Proofs -/

@[simp] theorem add_zero_fin (a : Num) : add .fin a (.fin 0) = a := by
  cases a <;> simp [add]

theorem adds_flow (w : Num) (h : Hist) (f : Flow) :
    Adds w (.flow f) h (updateHistogram .fin w h h.values (some f)) := by
  constructor
  · intro i; simp [updateHistogram]
  · intro g
    cases f <;> cases g <;> simp [updateHistogram, Hist.flow]

theorem adds_bin (w : Num) (h : Hist) (i : Nat) (vs : List Num)
    (hb : ∀ j, vs.getD j (.fin 0) =
      if i = j then add .fin (h.values.getD j (.fin 0)) w else h.values.getD j (.fin 0)) :
    Adds w (.bin i) h (updateHistogram .fin w h vs none) := by
  constructor
  · intro j
    have := hb j
    simp only [updateHistogram, Spot.bin.injEq]
    exact this
  · intro g
    cases g <;> simp [updateHistogram, Hist.flow]

theorem addAt_ok (vs : List Num) (i : Nat) (w : Num) (hi : i < vs.length) :
    ∃ vs', addAt .fin vs i w = .ok vs' ∧ vs'.length = vs.length ∧ ∀ j, vs'.getD j (.fin 0) =
      if i = j then add .fin (vs.getD j (.fin 0)) w else vs.getD j (.fin 0) := by
  refine ⟨vs.set i (add .fin vs[i] w), ?_, by simp, ?_⟩
  · have h1 : ¬ ((i : Int) < 0) := by omega
    simp only [addAt, h1, if_false, Int.toNat_natCast, List.getElem?_eq_getElem hi]
  · intro j
    by_cases hj : i = j
    · subst hj; simp [hi]
    · simp [hj]

theorem floor_bin {low high x : ℚ} {n : Nat} (hn : 0 < n) (hlh : low < high) (h1 : low ≤ x)
    (h2 : x < high) : ∃ i : Nat, ⌊(x - low) / (high - low) * n⌋ = (i : Int) ∧ i < n ∧
      InBin low high n i x := by
  have hd : 0 < high - low := by linarith
  have hn' : (0 : ℚ) < n := by exact_mod_cast hn
  have hpos : 0 ≤ (x - low) / (high - low) * n :=
    mul_nonneg (div_nonneg (by linarith) hd.le) hn'.le
  have hlt : (x - low) / (high - low) * n < n := by
    have : (x - low) / (high - low) < 1 := by rw [div_lt_one hd]; linarith
    nlinarith
  obtain ⟨i, hi⟩ := Int.eq_ofNat_of_zero_le (Int.floor_nonneg.2 hpos)
  refine ⟨i, hi, ?_, ?_, ?_⟩
  · have : ⌊(x - low) / (high - low) * n⌋ < (n : Int) := Int.floor_lt.2 (by exact_mod_cast hlt)
    omega
  · have := Int.floor_le ((x - low) / (high - low) * n)
    rw [hi] at this
    push_cast at this
    have h3 : (i : ℚ) * ((high - low) / n) ≤ x - low := by
      have e : x - low = ((x - low) / (high - low) * n) * ((high - low) / n) := by
        field_simp
      rw [e]
      exact mul_le_mul_of_nonneg_right this (div_nonneg hd.le hn'.le)
    linarith
  · have := Int.lt_floor_add_one ((x - low) / (high - low) * n)
    rw [hi] at this
    push_cast at this
    have h3 : x - low < ((i : ℚ) + 1) * ((high - low) / n) := by
      have e : x - low = ((x - low) / (high - low) * n) * ((high - low) / n) := by
        field_simp
      rw [e]
      exact mul_lt_mul_of_pos_right this (div_pos hd hn')
    linarith

theorem inBin_unique {low high x : ℚ} {n i j : Nat} (hn : 0 < n) (hlh : low < high)
    (hi : InBin low high n i x) (hj : InBin low high n j x) : i = j := by
  have hn' : (0 : ℚ) < n := by exact_mod_cast hn
  have hb : 0 < (high - low) / n := div_pos (by linarith) hn'
  obtain ⟨a1, a2⟩ := hi
  obtain ⟨b1, b2⟩ := hj
  have h1 : (i : ℚ) < j + 1 := by
    by_contra hc
    have := mul_le_mul_of_nonneg_right (not_lt.1 hc) hb.le
    linarith
  have h2 : (j : ℚ) < i + 1 := by
    by_contra hc
    have := mul_le_mul_of_nonneg_right (not_lt.1 hc) hb.le
    linarith
  have h1 : i < j + 1 := by exact_mod_cast h1
  have h2 : j < i + 1 := by exact_mod_cast h2
  omega

theorem inBin_range {low high x : ℚ} {n i : Nat} (hn : 0 < n) (hlh : low < high) (hi : i < n)
    (h : InBin low high n i x) : low ≤ x ∧ x < high := by
  have hn' : (0 : ℚ) < n := by exact_mod_cast hn
  have hb : 0 < (high - low) / n := div_pos (by linarith) hn'
  obtain ⟨a1, a2⟩ := h
  have h0 : (0 : ℚ) ≤ i := by positivity
  refine ⟨by nlinarith, ?_⟩
  have h1 : (i : ℚ) + 1 ≤ n := by exact_mod_cast hi
  have h2 := mul_le_mul_of_nonneg_right h1 hb.le
  have h3 : (n : ℚ) * ((high - low) / n) = high - low := by field_simp
  linarith

/-- The place is unique. -/
theorem belongs0_unique {low high : ℚ} {n : Nat} (hn : 0 < n) (hlh : low < high) {hi : Bool}
    {x : Num} {s t : Spot} (hs : Belongs0 low high n hi x s) (ht : Belongs0 low high n hi x t) :
    s = t := by
  cases x with
  | nan => exact hs.trans ht.symm
  | pinf => exact hs.trans ht.symm
  | ninf => exact hs.trans ht.symm
  | fin q =>
    rcases hs with ⟨h1, rfl⟩ | ⟨h1, rfl⟩ | ⟨i, hi1, hi2, rfl⟩ <;>
      rcases ht with ⟨g1, rfl⟩ | ⟨g1, rfl⟩ | ⟨j, hj1, hj2, rfl⟩
    · rfl
    · linarith
    · have := inBin_range hn hlh hj1 hj2; linarith [this.1]
    · linarith
    · rfl
    · have := inBin_range hn hlh hj1 hj2; linarith [this.2]
    · have := inBin_range hn hlh hi1 hi2; linarith [this.1]
    · have := inBin_range hn hlh hi1 hi2; linarith [this.2]
    · rw [inBin_unique hn hlh hi2 hj2]

/-- **C48, method 0.** With exact arithmetic, a well-formed histogram and any datum, the weight goes
to exactly the one place where the datum belongs, and the number of bins stays. -/
theorem fill0_spec_partial (x w : Num) (n : Nat) (hn : 0 < n) (low high : ℚ) (hlh : low < high) (h : Hist)
    (hlen : h.values.length = n) :
    ∃ h' s, fill0 .fin x w n (.fin low) (.fin high) h = .ok h' ∧
      Belongs0 low high n h.inff.isSome x s ∧ Adds w s h h' ∧ h'.values.length = n := by
  have g1 : ¬ ((n : Int) < 1) := by omega
  have g2 : ¬ ((h.values.length : Int) ≠ n) := by simp [hlen]
  have g3 : ¬ ((ge (.fin low) (.fin high) || isNan (.fin low) || isInf (.fin low) ||
      isNan (.fin high) || isInf (.fin high)) = true) := by
    simp [ge, lt, isNan, isInf, hlh]
  rw [fill0, if_neg g1, if_neg g2, if_neg g3]
  have fl : ∀ f, flow0 h.inff.isSome x (.fin low) (.fin high) = some f →
      Belongs0 low high n h.inff.isSome x (.flow f) →
      ∃ h' s, (match flow0 h.inff.isSome x (.fin low) (.fin high) with
        | some f => Except.ok (updateHistogram Num.fin w h h.values (some f))
        | none =>
          match binIndex Num.fin x (.fin low) (.fin high) (n : Int).toNat with
          | .error e => .error e
          | .ok index =>
            match addAt Num.fin h.values index w with
            | .error e => .error e
            | .ok vs => .ok (updateHistogram Num.fin w h vs none)) = (.ok h' : Res Hist) ∧
        Belongs0 low high n h.inff.isSome x s ∧ Adds w s h h' ∧ h'.values.length = n := by
    intro f hf hb
    rw [hf]
    exact ⟨_, _, rfl, hb, adds_flow w h f, hlen⟩
  cases x with
  | nan =>
    refine fl .nanf ?_ rfl
    cases h.inff.isSome <;> rfl
  | pinf =>
    cases hi : h.inff.isSome with
    | true => rw [hi] at fl; exact fl .inff rfl rfl
    | false => rw [hi] at fl; exact fl .over rfl rfl
  | ninf =>
    cases hi : h.inff.isSome with
    | true => rw [hi] at fl; exact fl .inff rfl rfl
    | false => rw [hi] at fl; exact fl .under rfl rfl
  | fin q =>
    by_cases hq1 : high ≤ q
    · refine fl .over ?_ (Or.inr (Or.inl ⟨hq1, rfl⟩))
      simp [flow0, isInf, isNan, ge, lt, hq1]
    · by_cases hq2 : q < low
      · refine fl .under ?_ (Or.inl ⟨hq2, rfl⟩)
        simp [flow0, isInf, isNan, ge, lt, hq1, hq2]
      · have hf : flow0 h.inff.isSome (.fin q) (.fin low) (.fin high) = none := by
          simp [flow0, isInf, isNan, ge, lt, hq1, hq2]
        rw [hf]
        obtain ⟨i, e, hi, hb⟩ := floor_bin hn hlh (not_lt.1 hq2) (not_le.1 hq1)
        have hd : high - low ≠ 0 := by intro h0; linarith
        have hbi : binIndex Num.fin (.fin q) (.fin low) (.fin high) (n : Int).toNat = .ok (i : Int) := by
          rw [binIndex]
          simp only [sub_fin, Num.fin.injEq, if_neg hd, div_fin _ _ hd, mul_fin, pyFloor,
            Int.toNat_natCast, e]
        simp only [hbi]
        obtain ⟨vs', e1, e2, e3⟩ := addAt_ok h.values i w (by omega)
        simp only [e1]
        exact ⟨_, .bin i, rfl, Or.inr (Or.inr ⟨i, hi, hb, rfl⟩), adds_bin w h i vs' e3, by
          simpa [updateHistogram] using e2.trans hlen⟩

/-- **C48, method 1.** The same with a fixed bin size, when the histogram has at least one bin. -/
theorem fill1_spec_partial (x w : Num) (low b : ℚ) (hb : 0 < b) (h : Hist) (hne : h.values ≠ []) :
    ∃ h' s, fill1 .fin x w (.fin low) (.fin b) h = .ok h' ∧
      Belongs1 low b h.inff.isSome x s ∧ Adds w s h h' := by
  have g3 : ¬ ((ge (.fin 0) (.fin b) || isNan (.fin b) || isInf (.fin b)) = true) := by
    simp [ge, lt, isNan, isInf, hb]
  rw [fill1, if_neg g3]
  cases x with
  | nan =>
    have : flow1 h.inff.isSome .nan (.fin low) = some .nanf := by cases h.inff.isSome <;> rfl
    rw [this]; exact ⟨_, _, rfl, rfl, adds_flow w h .nanf⟩
  | pinf =>
    cases hi : h.inff.isSome with
    | true =>
      exact ⟨_, _, rfl, rfl, adds_flow w h .inff⟩
    | false => exact ⟨_, _, rfl, rfl, adds_flow w h .over⟩
  | ninf =>
    cases hi : h.inff.isSome with
    | true => exact ⟨_, _, rfl, rfl, adds_flow w h .inff⟩
    | false => exact ⟨_, _, rfl, rfl, adds_flow w h .under⟩
  | fin q =>
    by_cases hq2 : q < low
    · have : flow1 h.inff.isSome (.fin q) (.fin low) = some .under := by
        simp [flow1, isInf, isNan, lt, hq2]
      rw [this]
      exact ⟨_, _, rfl, Or.inl ⟨hq2, rfl⟩, adds_flow w h .under⟩
    · have hf : flow1 h.inff.isSome (.fin q) (.fin low) = none := by
        simp [flow1, isInf, isNan, lt, hq2]
      rw [hf]
      have hl : 0 < h.values.length := List.length_pos_iff.2 hne
      obtain ⟨n, hn⟩ : ∃ n, n = h.values.length := ⟨_, rfl⟩
      rw [← hn] at hl
      have hn' : (0 : ℚ) < n := by exact_mod_cast hl
      have hd : low + b * n - low ≠ 0 := by
        have : 0 < b * n := mul_pos hb hn'
        intro h0; linarith
      have hq0 : 0 ≤ (q - low) / b := div_nonneg (by linarith [not_lt.1 hq2]) hb.le
      obtain ⟨i, hi⟩ := Int.eq_ofNat_of_zero_le (Int.floor_nonneg.2 hq0)
      have e : (q - low) / (low + b * n - low) * n = (q - low) / b := by
        rw [add_sub_cancel_left]; field_simp
      have hbi : binIndex Num.fin (.fin q) (.fin low)
          (add .fin (.fin low) (mul .fin (.fin b) (.fin h.values.length))) h.values.length
          = .ok (i : Int) := by
        rw [← hn, binIndex]
        simp only [mul_fin, add_fin, sub_fin, Num.fin.injEq, if_neg hd, div_fin _ _ hd, pyFloor, e, hi]
      have hin : low + i * b ≤ q ∧ q < low + (i + 1) * b := by
        have h1 := Int.floor_le ((q - low) / b)
        have h2 := Int.lt_floor_add_one ((q - low) / b)
        rw [hi] at h1 h2
        push_cast at h1 h2
        rw [le_div_iff₀ hb] at h1
        rw [div_lt_iff₀ hb] at h2
        exact ⟨by linarith, by linarith⟩
      simp only [hbi]
      by_cases hlt : (i : Int) < h.values.length
      · rw [if_pos hlt]
        obtain ⟨vs', e1, e2, e3⟩ := addAt_ok h.values i w (by omega)
        simp only [e1]
        exact ⟨_, .bin i, rfl, Or.inr ⟨i, hin.1, hin.2, rfl⟩, adds_bin w h i vs' e3⟩
      · rw [if_neg hlt]
        refine ⟨_, .bin i, rfl, Or.inr ⟨i, hin.1, hin.2, rfl⟩, adds_bin w h i _ ?_⟩
        intro j
        have hk : ((i : Int) - h.values.length).toNat = i - h.values.length := by omega
        have hge : h.values.length ≤ i := by omega
        rw [hk]
        have hadd0 : add Num.fin (.fin 0) w = w := by cases w <;> simp [add]
        by_cases hj : i = j
        · subst hj
          rw [if_pos rfl]
          have h1 : h.values.getD i (.fin 0) = .fin 0 := by
            rw [List.getD_eq_default _ _ hge]
          have h2 : (h.values ++ List.replicate (i - h.values.length) (Num.fin 0) ++ [w]).getD i (.fin 0) = w := by
            rw [List.getD_append_right _ _ _ _ (by simp; omega)]
            have : i - (h.values ++ List.replicate (i - h.values.length) (Num.fin 0)).length = 0 := by
              simp; omega
            rw [this]; rfl
          rw [h1, h2, hadd0]
        · rw [if_neg hj]
          by_cases hjl : j < h.values.length
          · rw [List.append_assoc, List.getD_append _ _ _ _ hjl]
          · rw [List.getD_eq_default h.values _ (by omega)]
            by_cases hji : j < i
            · rw [List.getD_append _ _ _ _ (by simp; omega),
                List.getD_append_right _ _ _ _ (by omega)]
              simp [List.getD_replicate]
            · rw [List.getD_eq_default _ _ (by simp; omega)]

theorem fillRanges_length (r) (x w : Num) : ∀ (rs : List (Num × Num)) (vs : List Num),
    (fillRanges r x w rs vs).1.length = vs.length := by
  intro rs
  induction rs with
  | nil => intro vs; cases vs <;> rfl
  | cons p rs ih =>
    intro vs
    cases vs with
    | nil => rfl
    | cons v vs =>
      simp only [fillRanges]
      split_ifs <;> simp [ih]

/-- The pass adds the weight in every bin whose range contains the datum and tells whether there was
one. -/
theorem fillRanges_spec (x w : Num) : ∀ (rs : List (Num × Num)) (vs : List Num),
    vs.length = rs.length →
    ((fillRanges .fin x w rs vs).2 = true ↔ ∃ (i : Nat) (p : Num × Num), rs[i]? = some p ∧ inRange x p.1 p.2 = true) ∧
    ∀ i, (fillRanges .fin x w rs vs).1.getD i (.fin 0) =
      if (∃ p, rs[i]? = some p ∧ inRange x p.1 p.2 = true) then add .fin (vs.getD i (.fin 0)) w
      else vs.getD i (.fin 0) := by
  classical
  intro rs
  induction rs with
  | nil =>
    intro vs h
    have : vs = [] := by simpa using h
    subst this
    simp [fillRanges]
  | cons p rs ih =>
    intro vs h
    cases vs with
    | nil => simp at h
    | cons v vs =>
      obtain ⟨h1, h2⟩ := ih vs (by simpa using h)
      rw [fillRanges]
      by_cases hp : inRange x p.1 p.2 = true
      · rw [if_pos hp]
        refine ⟨by simp only [true_iff]; exact ⟨0, p, rfl, hp⟩, ?_⟩
        intro i
        cases i with
        | zero => simp [hp]
        | succ i => simpa using h2 i
      · rw [if_neg hp]
        refine ⟨?_, ?_⟩
        · simp only [h1]
          constructor
          · rintro ⟨i, q, hq⟩; exact ⟨i + 1, q, by simpa using hq⟩
          · rintro ⟨i, q, hq1, hq2⟩
            cases i with
            | zero => simp at hq1; subst hq1; exact absurd hq2 hp
            | succ i => exact ⟨i, q, by simpa using hq1, hq2⟩
        · intro i
          cases i with
          | zero => simp [hp]
          | succ i => simpa using h2 i

/-- Where a datum belongs among given ranges. -/
def Belongs2 (ranges : List (ℚ × ℚ)) (hasInf : Bool) (x : Num) (s : Spot) : Prop :=
  match x with
  | .nan => s = .flow .nanf
  | .pinf => s = .flow (if hasInf then .inff else .under)
  | .ninf => s = .flow (if hasInf then .inff else .under)
  | .fin q =>
    (∃ i p, ranges[i]? = some p ∧ p.1 ≤ q ∧ q < p.2 ∧ s = .bin i) ∨
      ((∀ p ∈ ranges, ¬ (p.1 ≤ q ∧ q < p.2)) ∧ s = .flow .under)

/-- **C48, method 2.** The same for ranges of which no two overlap. -/
theorem fill2_spec_partial (x w : Num) (ranges : List (ℚ × ℚ)) (hr : ∀ p ∈ ranges, p.1 < p.2)
    (hdis : ∀ (i j : Nat) (p q : ℚ × ℚ), ranges[i]? = some p → ranges[j]? = some q → i ≠ j → p.2 ≤ q.1 ∨ q.2 ≤ p.1)
    (h : Hist) (hlen : h.values.length = ranges.length) :
    ∃ h' s, fill2 .fin x w (ranges.map (fun p => (.fin p.1, .fin p.2))) h = .ok h' ∧
      Belongs2 ranges h.inff.isSome x s ∧ Adds w s h h' := by
  classical
  have g1 : ¬ (h.values.length ≠ (ranges.map (fun p => (Num.fin p.1, Num.fin p.2))).length) := by
    simp [hlen]
  have g2 : ¬ ((ranges.map (fun p => (Num.fin p.1, Num.fin p.2))).any badRange = true) := by
    simp only [List.any_map, List.any_eq_true, not_exists, not_and]
    intro p hp
    have := hr p hp
    simp [badRange, ge, lt, isNan, isInf, this]
  rw [fill2, if_neg g1, if_neg g2]
  simp only
  cases x with
  | nan =>
    refine ⟨_, .flow .nanf, rfl, rfl, ?_⟩
    have := adds_flow w h .nanf
    simpa [isInf, isNan] using this
  | pinf =>
    cases hi : h.inff.isSome with
    | true =>
      refine ⟨_, .flow .inff, rfl, rfl, ?_⟩
      have := adds_flow w h .inff
      simpa [isInf, isNan] using this
    | false =>
      refine ⟨_, .flow .under, rfl, rfl, ?_⟩
      have := adds_flow w h .under
      simpa [isInf, isNan] using this
  | ninf =>
    cases hi : h.inff.isSome with
    | true =>
      refine ⟨_, .flow .inff, rfl, rfl, ?_⟩
      have := adds_flow w h .inff
      simpa [isInf, isNan] using this
    | false =>
      refine ⟨_, .flow .under, rfl, rfl, ?_⟩
      have := adds_flow w h .under
      simpa [isInf, isNan] using this
  | fin q =>
    have hin : ∀ p : ℚ × ℚ, inRange (.fin q) (.fin p.1) (.fin p.2) = true ↔
        (p.1 = p.2 ∧ q = p.1) ∨ (p.1 ≤ q ∧ q < p.2) := by
      intro p
      simp [inRange, ge, lt]
    obtain ⟨s1, s2⟩ := fillRanges_spec (.fin q) w (ranges.map (fun p => (.fin p.1, .fin p.2)))
      h.values (by simpa using hlen)
    have hex : ∀ i : Nat, (∃ p : Num × Num, (ranges.map (fun p => (Num.fin p.1, Num.fin p.2)))[i]? = some p ∧
        inRange (.fin q) p.1 p.2 = true) ↔ ∃ p : ℚ × ℚ, ranges[i]? = some p ∧ p.1 ≤ q ∧ q < p.2 := by
      intro i
      constructor
      · rintro ⟨p, hp, hp2⟩
        rw [List.getElem?_map, Option.map_eq_some_iff] at hp
        obtain ⟨p', hp', rfl⟩ := hp
        refine ⟨p', hp', ?_⟩
        rcases (hin p').1 hp2 with ⟨e, _⟩ | h
        · have := hr p' (List.mem_of_getElem? hp'); linarith
        · exact h
      · rintro ⟨p, hp, hp2⟩
        exact ⟨_, by rw [List.getElem?_map, hp]; rfl, (hin p).2 (Or.inr hp2)⟩
    have hcond : (!isInf (.fin q) && !isNan (.fin q)) = true := rfl
    simp only [hcond, if_true]
    have hff : ∀ b : Bool, (if (h.inff.isSome && isInf (.fin q)) = true then some Flow.inff
        else if isNan (.fin q) = true then some Flow.nanf
        else if (!b) = true then some Flow.under else none)
        = if b = true then none else some .under := by
      intro b; cases b <;> simp [isInf, isNan]
    rw [hff]
    by_cases hit : ∃ (i : Nat) (p : ℚ × ℚ), ranges[i]? = some p ∧ p.1 ≤ q ∧ q < p.2
    · obtain ⟨i, p, hp, hp2⟩ := hit
      have hit' : (fillRanges Num.fin (.fin q) w
          (ranges.map (fun p => (Num.fin p.1, Num.fin p.2))) h.values).2 = true := by
        rw [s1]
        obtain ⟨p', a, b⟩ := (hex i).2 ⟨p, hp, hp2⟩
        exact ⟨i, p', a, b⟩
      rw [if_pos hit']
      refine ⟨_, .bin i, rfl, Or.inl ⟨i, p, hp, hp2.1, hp2.2, rfl⟩, adds_bin w h i _ ?_⟩
      intro j
      rw [s2 j]
      simp only [hex j]
      by_cases hj : i = j
      · subst hj
        rw [if_pos rfl, if_pos ⟨p, hp, hp2⟩]
      · rw [if_neg hj, if_neg]
        rintro ⟨p', hp', hp2'⟩
        rcases hdis i j p p' hp hp' hj with h1 | h1 <;> linarith [hp2.1, hp2.2, hp2'.1, hp2'.2]
    · have hit' : ¬ (fillRanges Num.fin (.fin q) w
          (ranges.map (fun p => (Num.fin p.1, Num.fin p.2))) h.values).2 = true := by
        rw [s1]
        rintro ⟨i, p', a, b⟩
        obtain ⟨p, hp⟩ := (hex i).1 ⟨p', a, b⟩
        exact hit ⟨i, p, hp⟩
      rw [if_neg hit']
      refine ⟨_, .flow .under, rfl, Or.inr ⟨?_, rfl⟩, ?_⟩
      · intro p hp hc
        obtain ⟨i, hi⟩ := List.getElem?_of_mem hp
        exact hit ⟨i, p, hi, hc⟩
      · have := adds_flow w h .under
        constructor
        · intro i
          have h1 := s2 i
          simp only [hex i] at h1
          rw [if_neg (fun hc => hit ⟨i, hc⟩)] at h1
          simpa [updateHistogram] using h1
        · intro f
          exact this.flows f

/-! ## The sum of everything in the record -/

/-- The rational value of a finite number. -/
def toQ : Num → ℚ
  | .fin q => q
  | _ => 0

/-- All that the record counts, summed. -/
def Hist.total (h : Hist) : ℚ :=
  (h.values.map toQ).sum + ((h.under.map toQ).getD 0 + (h.over.map toQ).getD 0 +
    (h.nanf.map toQ).getD 0 + (h.inff.map toQ).getD 0)

/-- All numbers in the record are finite. -/
structure Hist.Finite (h : Hist) : Prop where
  bins : ∀ v ∈ h.values, ∃ q, v = .fin q
  flows : ∀ f, ∀ v ∈ h.flow f, ∃ q, v = .fin q

/-- The record can hold a weight there: every bin, and the flow fields that it has. -/
def Hist.has (h : Hist) : Spot → Bool
  | .bin _ => true
  | .flow f => (h.flow f).isSome

theorem sum_getD (l : List Num) : ∀ N, l.length ≤ N →
    (l.map toQ).sum = ∑ i ∈ Finset.range N, toQ (l.getD i (.fin 0)) := by
  induction l with
  | nil => intro N _; simp [toQ]
  | cons v l ih =>
    intro N hN
    obtain ⟨N, rfl⟩ : ∃ M, N = M + 1 := ⟨N - 1, by simp at hN; omega⟩
    rw [Finset.sum_range_succ', List.map_cons, List.sum_cons, ih N (by simpa using hN)]
    simp [add_comm]

/-- **C48, conservation.** Whenever a weight is added in one place, the sum of all bins and flows
grows by exactly that weight if the record has the place, and stays the same if it has not. -/
theorem adds_total (w : ℚ) (s : Spot) (h h' : Hist) (ha : Adds (.fin w) s h h') (hf : h.Finite) :
    h'.total = h.total + if h.has s then w else 0 := by
  have hadd : ∀ v, (∃ q, v = Num.fin q) → toQ (add .fin v (.fin w)) = toQ v + w := by
    rintro _ ⟨q, rfl⟩; rfl
  have hv : (h'.values.map toQ).sum = (h.values.map toQ).sum +
      (match s with | .bin _ => w | .flow _ => 0) := by
    obtain ⟨N, hN⟩ : ∃ N, h.values.length + h'.values.length +
      (match s with | .bin i => i + 1 | .flow _ => 0) = N := ⟨_, rfl⟩
    rw [sum_getD h'.values N (by omega), sum_getD h.values N (by omega)]
    cases s with
    | flow f =>
      simp only [add_zero]
      refine Finset.sum_congr rfl fun i _ => ?_
      rw [ha.bins i]; simp
    | bin k =>
      simp only at hN ⊢
      have e : ∀ i ∈ Finset.range N, toQ (h'.values.getD i (.fin 0)) =
          toQ (h.values.getD i (.fin 0)) + if i = k then w else 0 := by
        intro i _
        rw [ha.bins i]
        by_cases hk : i = k
        · subst hk
          rw [if_pos rfl, if_pos rfl, hadd]
          rw [List.getD_eq_getElem?_getD]
          cases hg : h.values[i]? with
          | none => exact ⟨0, rfl⟩
          | some v => exact hf.bins v (List.mem_of_getElem? hg)
        · rw [if_neg (by intro hc; injection hc with hc; exact hk hc.symm), if_neg hk, add_zero]
      rw [Finset.sum_congr rfl e, Finset.sum_add_distrib, Finset.sum_ite_eq' (Finset.range N) k]
      rw [if_pos (Finset.mem_range.2 (by omega))]
  have hfl : ∀ f, ((h'.flow f).map toQ).getD 0 = ((h.flow f).map toQ).getD 0 +
      if s = .flow f ∧ (h.flow f).isSome then w else 0 := by
    intro f
    rw [ha.flows f]
    by_cases hs : s = .flow f
    · rw [if_pos hs]
      cases hv : h.flow f with
      | none => simp
      | some v => simp [hs, hadd v (hf.flows f v (by simp [hv]))]
    · rw [if_neg hs, if_neg (fun hc => hs hc.1), add_zero]
  have f1 := hfl .under
  have f2 := hfl .over
  have f3 := hfl .nanf
  have f4 := hfl .inff
  simp only [Hist.flow] at f1 f2 f3 f4
  rw [Hist.total, Hist.total, hv, f1, f2, f3, f4]
  cases s with
  | bin i => simp [Hist.has]; ring
  | flow f =>
    by_cases hp : h.has (.flow f) = true
    · rw [if_pos hp]
      cases f <;> simp only [Hist.has, Hist.flow] at hp <;> simp [hp] <;> ring
    · rw [if_neg hp]
      cases f <;> simp only [Hist.has, Hist.flow] at hp <;> simp [hp] <;> ring

/-! ## Where the statement fails -/

/-- A flow field that the record type does not have: the weight is lost. -/
theorem fill_lost_violation : ∃ (h h' : Hist), fill0 .fin (.fin 7) (.fin 1) 2 (.fin 0) (.fin 4) h = .ok h'
    ∧ h' = h :=
  ⟨⟨[.fin 1, .fin 2], none, none, none, none⟩, _, by decide +kernel, rfl⟩

/-- Method 1 with no bins yet: the first weight goes to bin 0 whatever the datum. -/
theorem fill1_empty_violation : ∃ h' : Hist, fill1 .fin (.fin 7) (.fin 1) (.fin 0) (.fin 2) ⟨[], none, none, none, none⟩ = .ok h' ∧
    h'.values = [.fin 1] ∧ ∀ s, Belongs1 0 2 false (.fin 7) s → s = .bin 3 := by
  refine ⟨⟨[.fin 1], none, none, none, none⟩, by decide +kernel, rfl, ?_⟩
  rintro s (⟨h, -⟩ | ⟨i, h1, h2, rfl⟩)
  · norm_num at h
  · have h1 : (i : ℚ) < 4 := by linarith
    have h2 : (2 : ℚ) < i := by linarith
    have h1 : i < 4 := by exact_mod_cast h1
    have h2 : 2 < i := by exact_mod_cast h2
    have : i = 3 := by omega
    rw [this]

/-- Method 2 with overlapping ranges: the weight is counted twice. -/
theorem fill2_overlap_violation : fill2 .fin (.fin 3) (.fin 1) [(.fin 0, .fin 4), (.fin 2, .fin 6)]
    ⟨[.fin 0, .fin 0], none, none, none, none⟩ = .ok ⟨[.fin 1, .fin 1], none, none, none, none⟩ := by
  decide +kernel

/-- Method 2 counts plus infinity as underflow when there is no `infflow`, although there is an
`overflow`. -/
theorem fill2_inf_violation : fill2 .fin .pinf (.fin 1) [(.fin 0, .fin 4)]
    ⟨[.fin 0], some (.fin 0), some (.fin 0), none, none⟩
      = .ok ⟨[.fin 0], some (.fin 1), some (.fin 0), none, none⟩ := by decide +kernel

/-- In binary64 a datum below `high` can be given the index behind the last bin: IndexError. -/
theorem fill0_rounding_violation : ∃ low high x : ℚ, low < x ∧ x < high ∧ Arith.rnd high = high ∧
    fill0 dbl (.fin x) (.fin 1) 2 (.fin low) (.fin high) ⟨[.fin 0, .fin 0], none, none, none, none⟩
      = .error (.py "IndexError") :=
  ⟨-1, 1 / 2 ^ 60, 0, by norm_num, by norm_num, by decide +kernel, by decide +kernel⟩

/-- In binary64 a wide range overflows: the weight goes to bin 0 although the datum is in the middle. -/
theorem fill0_overflow_violation : ∃ low high x : ℚ, Arith.rnd low = low ∧ Arith.rnd high = high ∧
    |low| < 2 ^ 1024 ∧ |high| < 2 ^ 1024 ∧ Belongs0 low high 2 false (.fin x) (.bin 1) ∧
    fill0 dbl (.fin x) (.fin 1) 2 (.fin low) (.fin high) ⟨[.fin 0, .fin 0], none, none, none, none⟩
      = .ok ⟨[.fin 1, .fin 0], none, none, none, none⟩ :=
  ⟨-2 ^ 1023, 2 ^ 1023, 0, by decide +kernel, by decide +kernel, by decide +kernel, by decide +kernel,
    Or.inr (Or.inr ⟨1, by norm_num, ⟨by norm_num, by norm_num⟩, rfl⟩), by decide +kernel⟩

/-! ## Cases that meet the hypotheses -/

example : fill0 .fin (.fin 3) (.fin (1/2)) 4 (.fin 0) (.fin 4)
    ⟨[.fin 0, .fin 1, .fin 2, .fin 3], some (.fin 0), none, none, none⟩
    = .ok ⟨[.fin 0, .fin 1, .fin 2, .fin (7/2)], some (.fin 0), none, none, none⟩ := by decide +kernel
example : fill1 .fin (.fin 7) (.fin 1) (.fin 0) (.fin 2) ⟨[.fin 5], none, none, none, none⟩
    = .ok ⟨[.fin 5, .fin 0, .fin 0, .fin 1], none, none, none, none⟩ := by decide +kernel

end Verif.Stat
