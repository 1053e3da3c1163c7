import Mathlib.Tactic.Common
import Mathlib.Tactic.IntervalCases
/-! # The calendar behind the time library

`titus/lib/pfatime.py` uses `datetime.datetime`.  This file gives the two conversions of Python's
`datetime` module between a date and its number (day 1 is 1 January of year 1), written as in its
Python source (`_ymd2ord`, `_ord2ymd`), and proves that they follow the calendar: counted from 1 January
of year 1, day after day by the rule `next`. -/

namespace Verif.Time

/-- A date of the proleptic Gregorian calendar. -/
structure Date where
  y : Int
  m : Int
  d : Int
  deriving DecidableEq, Repr

/-! ## Specification -/

/-- Leap years. -/
def Leap (y : Int) : Prop := y % 4 = 0 ∧ (y % 100 ≠ 0 ∨ y % 400 = 0)

instance (y : Int) : Decidable (Leap y) := by unfold Leap; infer_instance

/-- The number of days of a month. -/
def monthLength (y m : Int) : Int :=
  if m = 2 then (if Leap y then 29 else 28)
  else if m = 4 ∨ m = 6 ∨ m = 9 ∨ m = 11 then 30 else 31

/-- A date that exists. -/
def Date.Valid (t : Date) : Prop :=
  1 ≤ t.y ∧ 1 ≤ t.m ∧ t.m ≤ 12 ∧ 1 ≤ t.d ∧ t.d ≤ monthLength t.y t.m

instance (t : Date) : Decidable t.Valid := by unfold Date.Valid; infer_instance

/-- The next day. -/
def Date.next (t : Date) : Date :=
  if t.d < monthLength t.y t.m then ⟨t.y, t.m, t.d + 1⟩
  else if t.m < 12 then ⟨t.y, t.m + 1, 1⟩
  else ⟨t.y + 1, 1, 1⟩

/-! ## Model of the module `datetime` -/

/-- `_is_leap`. -/
def isLeap (y : Int) : Bool := y % 4 = 0 && (y % 100 ≠ 0 || y % 400 = 0)

/-- `_days_before_year`. -/
def daysBeforeYear (year : Int) : Int :=
  let y := year - 1
  y * 365 + y / 4 - y / 100 + y / 400

/-- The table `_DAYS_BEFORE_MONTH`. -/
def daysTable : Int → Int
  | 2 => 31
  | 3 => 59
  | 4 => 90
  | 5 => 120
  | 6 => 151
  | 7 => 181
  | 8 => 212
  | 9 => 243
  | 10 => 273
  | 11 => 304
  | 12 => 334
  | _ => 0

/-- `_days_before_month`. -/
def daysBeforeMonth (y m : Int) : Int := daysTable m + (if m > 2 && isLeap y then 1 else 0)

/-- `_ymd2ord`. -/
def ymd2ord (t : Date) : Int := daysBeforeYear t.y + daysBeforeMonth t.y t.m + t.d

/-- The last part of `_ord2ymd`: month and day from the number `n` (from 0) of the day in the year. -/
def monthDay (year : Int) (leap : Bool) (n : Int) : Date :=
  let month := (n + 50) / 32
  let preceding := daysTable month + (if month > 2 && leap then 1 else 0)
  if preceding > n then
    let month := month - 1
    let preceding := preceding - (if month = 2 && leap then 29 else monthLength 1 month)
    ⟨year, month, n - preceding + 1⟩
  else ⟨year, month, n - preceding + 1⟩

/-- `_ord2ymd`. -/
def ord2ymd (ordinal : Int) : Date :=
  let n := ordinal - 1
  let n400 := n / 146097
  let n := n % 146097
  let year := n400 * 400 + 1
  let n100 := n / 36524
  let n := n % 36524
  let n4 := n / 1461
  let n := n % 1461
  let n1 := n / 365
  let n := n % 365
  let year := year + (n100 * 100 + n4 * 4 + n1)
  if n1 = 4 || n100 = 4 then ⟨year - 1, 12, 31⟩
  else monthDay year (n1 = 3 && (n4 ≠ 24 || n100 = 3)) n

/-! ## Proofs -/

theorem isLeap_iff (y : Int) : isLeap y = true ↔ Leap y := by
  simp [isLeap, Leap]

theorem isLeap_eq (y : Int) : isLeap y = decide (Leap y) := by
  rw [Bool.eq_iff_iff, isLeap_iff, decide_eq_true_iff]

/-- The number of a date counts the days: the next day has the next number. -/
theorem ymd2ord_next (t : Date) (h : t.Valid) : ymd2ord t.next = ymd2ord t + 1 := by
  obtain ⟨y, m, d⟩ := t
  obtain ⟨h1, h2, h3, h4, h5⟩ := h
  simp only at h1 h2 h3 h4 h5
  have hm : m = 1 ∨ m = 2 ∨ m = 3 ∨ m = 4 ∨ m = 5 ∨ m = 6 ∨ m = 7 ∨ m = 8 ∨ m = 9 ∨ m = 10 ∨ m = 11 ∨ m = 12 := by
    omega
  by_cases hd : d < monthLength y m
  · have : Date.next ⟨y, m, d⟩ = ⟨y, m, d + 1⟩ := by simp [Date.next, hd]
    rw [this]; unfold ymd2ord; simp only; omega
  · have hd' : d = monthLength y m := by omega
    by_cases h12 : m < 12
    · have : Date.next ⟨y, m, d⟩ = ⟨y, m + 1, 1⟩ := by simp [Date.next, hd, h12]
      rw [this, hd']
      unfold ymd2ord daysBeforeMonth
      simp only [isLeap_eq]
      by_cases hl : Leap y <;>
      rcases hm with rfl | rfl | rfl | rfl | rfl | rfl | rfl | rfl | rfl | rfl | rfl | rfl <;>
        first
        | (exfalso; omega)
        | (simp [monthLength, daysTable, hl]; try omega)
    · have : Date.next ⟨y, m, d⟩ = ⟨y + 1, 1, 1⟩ := by simp [Date.next, hd, h12]
      have e12 : m = 12 := by omega
      subst e12
      rw [this, hd']
      unfold ymd2ord daysBeforeMonth daysBeforeYear
      simp only [isLeap_eq]
      by_cases hl : Leap y
      · simp [monthLength, daysTable, hl]
        unfold Leap at hl; omega
      · simp [monthLength, daysTable, hl]
        unfold Leap at hl; omega

theorem next_valid (t : Date) (h : t.Valid) : t.next.Valid := by
  obtain ⟨y, m, d⟩ := t
  obtain ⟨h1, h2, h3, h4, h5⟩ := h
  simp only at h1 h2 h3 h4 h5
  unfold Date.next Date.Valid
  simp only
  have pos : ∀ y m, 1 ≤ monthLength y m := by
    intro y m; unfold monthLength; split_ifs <;> omega
  split_ifs with a b
  · exact ⟨h1, h2, h3, by simp only; omega, by simp only; omega⟩
  · exact ⟨h1, by simp only; omega, by simp only; omega, le_refl _, pos _ _⟩
  · exact ⟨by simp only; omega, le_refl _, by simp, le_refl _, pos _ _⟩

/-- The last part of `_ord2ymd` finds the month. -/
theorem monthDay_spec (y : Int) (hy : 1 ≤ y) (leap : Bool) (hl : leap = true ↔ Leap y) (n : Int) (h0 : 0 ≤ n)
    (h1 : n < 365 + (if leap then 1 else 0)) :
    (monthDay y leap n).Valid ∧ (monthDay y leap n).y = y ∧
      daysBeforeMonth y (monthDay y leap n).m + (monthDay y leap n).d = n + 1 := by
  have hm : (n + 50) / 32 = 1 ∨ (n + 50) / 32 = 2 ∨ (n + 50) / 32 = 3 ∨ (n + 50) / 32 = 4 ∨ (n + 50) / 32 = 5 ∨
      (n + 50) / 32 = 6 ∨ (n + 50) / 32 = 7 ∨ (n + 50) / 32 = 8 ∨ (n + 50) / 32 = 9 ∨ (n + 50) / 32 = 10 ∨
      (n + 50) / 32 = 11 ∨ (n + 50) / 32 = 12 := by
    split_ifs at h1 <;> omega
  have h1' : ¬ Leap 1 := by decide
  obtain ⟨t, ht⟩ : ∃ t, t = monthDay y leap n := ⟨_, rfl⟩
  rw [← ht]
  unfold monthDay at ht
  unfold Date.Valid daysBeforeMonth
  simp only [isLeap_eq]
  cases leap
  · have hl' : ¬ Leap y := fun h => by simpa using hl.2 h
    rcases hm with e | e | e | e | e | e | e | e | e | e | e | e <;>
      simp only [e] at ht <;> simp [daysTable, monthLength, h1'] at ht <;> split at ht <;> rename_i hp <;> subst ht <;>
      simp [monthLength, daysTable, hl', h1'] at h1 hp ⊢ <;> omega
  · have hl' : Leap y := hl.1 rfl
    rcases hm with e | e | e | e | e | e | e | e | e | e | e | e <;>
      simp only [e] at ht <;> simp [daysTable, monthLength, h1'] at ht <;> split at ht <;> rename_i hp <;> subst ht <;>
      simp [monthLength, daysTable, hl', h1'] at h1 hp ⊢ <;> omega

/-- `_ord2ymd` gives an existing date whose number is the argument. -/
theorem ord2ymd_spec (n : Int) (h : 1 ≤ n) : (ord2ymd n).Valid ∧ ymd2ord (ord2ymd n) = n := by
  unfold ord2ymd
  simp only
  generalize e400 : (n - 1) / 146097 = n400
  generalize er : (n - 1) % 146097 = r
  generalize e100 : r / 36524 = n100
  generalize er1 : r % 36524 = r1
  generalize e4 : r1 / 1461 = n4
  generalize er2 : r1 % 1461 = r2
  generalize e1 : r2 / 365 = n1
  generalize er3 : r2 % 365 = r3
  have b400 : 0 ≤ n400 := by omega
  have b100 : 0 ≤ n100 ∧ n100 ≤ 4 := by omega
  have b4 : 0 ≤ n4 ∧ n4 ≤ 24 := by omega
  have b1 : 0 ≤ n1 ∧ n1 ≤ 4 := by omega
  have b3 : 0 ≤ r3 ∧ r3 < 365 := by omega
  have hn : n - 1 = n400 * 146097 + n100 * 36524 + n4 * 1461 + n1 * 365 + r3 := by omega
  by_cases hlast : n1 = 4 ∨ n100 = 4
  · have : (decide (n1 = 4) || decide (n100 = 4)) = true := by simpa using hlast
    rw [if_pos this]
    have hleap : Leap (n400 * 400 + 1 + (n100 * 100 + n4 * 4 + n1) - 1) := by
      unfold Leap; omega
    refine ⟨?_, ?_⟩
    · unfold Date.Valid; simp [monthLength]; omega
    · unfold ymd2ord daysBeforeMonth daysBeforeYear
      simp only [isLeap_eq]
      simp [daysTable, hleap]
      rcases Classical.em (n100 = 4) with h100 | h100
      · have z1 : n4 = 0 := by omega
        have z2 : n1 = 0 := by omega
        have z3 : r3 = 0 := by omega
        subst h100 z1 z2 z3
        omega
      · have h4 : n1 = 4 := by omega
        have z3 : r3 = 0 := by omega
        subst h4 z3
        have q1 : (n400 * 400 + 1 + (n100 * 100 + n4 * 4 + 4) - 1 - 1) / 4 = n400 * 100 + n100 * 25 + n4 := by omega
        have q2 : (n400 * 400 + 1 + (n100 * 100 + n4 * 4 + 4) - 1 - 1) / 100 = n400 * 4 + n100 := by omega
        have q3 : (n400 * 400 + 1 + (n100 * 100 + n4 * 4 + 4) - 1 - 1) / 400 = n400 := by omega
        omega
  · have : ¬ (decide (n1 = 4) || decide (n100 = 4)) = true := by simpa using hlast
    rw [if_neg this]
    push Not at hlast
    obtain ⟨v, hy, hd⟩ := monthDay_spec (n400 * 400 + 1 + (n100 * 100 + n4 * 4 + n1)) (by omega)
      (n1 = 3 && (n4 ≠ 24 || n100 = 3)) (by
        simp only [Bool.and_eq_true, decide_eq_true_iff, Bool.or_eq_true, ne_eq]
        unfold Leap
        omega) r3 b3.1 (by split_ifs <;> omega)
    refine ⟨v, ?_⟩
    unfold ymd2ord
    rw [hy, add_assoc, hd]
    unfold daysBeforeYear
    simp only
    have q1 : (n400 * 400 + 1 + (n100 * 100 + n4 * 4 + n1) - 1) / 4 = n400 * 100 + n100 * 25 + n4 := by omega
    have q2 : (n400 * 400 + 1 + (n100 * 100 + n4 * 4 + n1) - 1) / 100 = n400 * 4 + n100 := by omega
    have q3 : (n400 * 400 + 1 + (n100 * 100 + n4 * 4 + n1) - 1) / 400 = n400 := by omega
    rw [q1, q2, q3]
    omega

theorem daysBeforeMonth_mono {y m d m' d' : Int} (h : (⟨y, m, d⟩ : Date).Valid) (h' : (⟨y, m', d'⟩ : Date).Valid)
    (hm : m < m') : daysBeforeMonth y m + d < daysBeforeMonth y m' + d' := by
  obtain ⟨_, a2, a3, a4, a5⟩ := h
  obtain ⟨_, b2, b3, b4, b5⟩ := h'
  simp only at a2 a3 a4 a5 b2 b3 b4 b5
  unfold daysBeforeMonth
  simp only [isLeap_eq]
  have hm1 : m = 1 ∨ m = 2 ∨ m = 3 ∨ m = 4 ∨ m = 5 ∨ m = 6 ∨ m = 7 ∨ m = 8 ∨ m = 9 ∨ m = 10 ∨ m = 11 := by omega
  have hm2 : m' = 2 ∨ m' = 3 ∨ m' = 4 ∨ m' = 5 ∨ m' = 6 ∨ m' = 7 ∨ m' = 8 ∨ m' = 9 ∨ m' = 10 ∨ m' = 11 ∨ m' = 12 := by
    omega
  by_cases hl : Leap y <;>
  rcases hm1 with rfl | rfl | rfl | rfl | rfl | rfl | rfl | rfl | rfl | rfl | rfl <;>
    rcases hm2 with rfl | rfl | rfl | rfl | rfl | rfl | rfl | rfl | rfl | rfl | rfl <;>
    first
    | (exfalso; omega)
    | (simp [monthLength, daysTable, hl] at a5 ⊢; omega)

theorem dayInYear_le {t : Date} (h : t.Valid) :
    1 ≤ daysBeforeMonth t.y t.m + t.d ∧ daysBeforeMonth t.y t.m + t.d ≤ (if Leap t.y then 366 else 365) := by
  obtain ⟨y, m, d⟩ := t
  obtain ⟨h1, a2, a3, a4, a5⟩ := h
  simp only at h1 a2 a3 a4 a5 ⊢
  unfold daysBeforeMonth
  simp only [isLeap_eq]
  have hm1 : m = 1 ∨ m = 2 ∨ m = 3 ∨ m = 4 ∨ m = 5 ∨ m = 6 ∨ m = 7 ∨ m = 8 ∨ m = 9 ∨ m = 10 ∨ m = 11 ∨ m = 12 := by
    omega
  by_cases hl : Leap y <;>
  rcases hm1 with rfl | rfl | rfl | rfl | rfl | rfl | rfl | rfl | rfl | rfl | rfl | rfl <;>
    (simp [monthLength, daysTable, hl] at a5 ⊢; omega)

/-- Different dates have different numbers. -/
theorem ymd2ord_inj {t u : Date} (ht : t.Valid) (hu : u.Valid) (h : ymd2ord t = ymd2ord u) : t = u := by
  have key : ∀ {t u : Date}, t.Valid → u.Valid → t.y < u.y → ymd2ord t < ymd2ord u := by
    intro t u ht hu hlt
    have h1 := dayInYear_le ht
    have h2 := dayInYear_le hu
    unfold ymd2ord
    have : daysBeforeYear t.y + (if Leap t.y then 366 else 365) ≤ daysBeforeYear u.y := by
      unfold daysBeforeYear Leap
      simp only
      split_ifs <;> omega
    omega
  have hy : t.y = u.y := by
    rcases lt_trichotomy t.y u.y with l | l | l
    · have := key ht hu l; omega
    · exact l
    · have := key hu ht l; omega
  obtain ⟨y, m, d⟩ := t
  obtain ⟨y', m', d'⟩ := u
  simp only at hy
  subst hy
  unfold ymd2ord at h
  simp only at h
  have hm : m = m' := by
    rcases lt_trichotomy m m' with l | l | l
    · have := daysBeforeMonth_mono ht hu l; omega
    · exact l
    · have := daysBeforeMonth_mono hu ht l; omega
  subst hm
  have : d = d' := by omega
  rw [this]

/-- `_ymd2ord` and `_ord2ymd` are inverse. -/
theorem ord2ymd_ymd2ord (t : Date) (h : t.Valid) : ord2ymd (ymd2ord t) = t := by
  have h1 : 1 ≤ ymd2ord t := by
    have := (dayInYear_le h).1
    have h2 : 0 ≤ daysBeforeYear t.y := by
      have := h.1
      unfold daysBeforeYear; simp only; omega
    unfold ymd2ord; omega
  obtain ⟨v, e⟩ := ord2ymd_spec _ h1
  exact ymd2ord_inj v h e

/-- Day number `n` is the day reached after `n - 1` steps from 1 January of year 1. -/
theorem ord2ymd_iterate (k : Nat) : ord2ymd (k + 1) = Date.next^[k] ⟨1, 1, 1⟩ := by
  induction k with
  | zero => decide
  | succ k ih =>
    rw [Function.iterate_succ_apply', ← ih]
    obtain ⟨v, e⟩ := ord2ymd_spec (k + 1) (by omega)
    refine ymd2ord_inj (ord2ymd_spec _ (by push_cast; omega)).1 (next_valid _ v) ?_
    rw [(ord2ymd_spec _ (by push_cast; omega)).2, ymd2ord_next _ v, e]
    push_cast
    rfl

/-- A leap day. -/
example : (⟨2024, 2, 29⟩ : Date).Valid ∧ (⟨2024, 2, 29⟩ : Date).next = ⟨2024, 3, 1⟩ ∧ ymd2ord ⟨2024, 2, 29⟩ = 738945 ∧
    ord2ymd 738945 = ⟨2024, 2, 29⟩ := by decide

end Verif.Time
