import Verif.Time.Model
import Verif.Lib.Round
/-! # The time library follows the calendar (C65) -/

namespace Verif.Time
open Verif.Stat (Num)

/-! ## Specification -/

/-- `t` is the clock and calendar reading at the instant `u`: `k` days after 1 January of year 1, which is 719162
days before 1 January 1970, and so many hours, minutes, seconds and microseconds later. -/
def Reads (u : Int) (t : Dt) : Prop :=
  ∃ k : Nat, t.date = Date.next^[k] ⟨1, 1, 1⟩ ∧ 0 ≤ t.hour ∧ t.hour < 24 ∧ 0 ≤ t.minute ∧ t.minute < 60 ∧
    0 ≤ t.second ∧ t.second < 60 ∧ 0 ≤ t.micro ∧ t.micro < 1000000 ∧
    u = ((((k : Int) - 719162) * 24 + t.hour) * 60 + t.minute) * 60000000 + t.second * 1000000 + t.micro

/-- Timestamps of the years 1 to 9999. -/
def InYears (q : ℚ) : Prop := -62135596800 ≤ q ∧ q ≤ 253402300799

/-! ## Accessors -/

/-- The epoch of the specification is 1 January 1970. -/
theorem epoch : Date.next^[719162] ⟨1, 1, 1⟩ = ⟨1970, 1, 1⟩ := by
  rw [← ord2ymd_iterate]; decide

theorem ofMicros_reads (u : Int) (h : minMicros ≤ u) : Reads u (ofMicros u) := by
  unfold minMicros at h
  have hk : 0 ≤ u / dayMicros + 719162 := by unfold dayMicros; omega
  refine ⟨(u / dayMicros + 719162).toNat, ?_, ?_⟩
  · rw [← ord2ymd_iterate]
    unfold ofMicros epochDay
    simp only
    congr 1
    omega
  · rw [Int.toNat_of_nonneg hk]
    unfold ofMicros dayMicros
    simp only
    omega

theorem toMicros_reads (t : Dt) (u : Int) (h : Reads u t) : u = toMicros t := by
  obtain ⟨k, hd, _, _, _, _, _, _, _, _, hu⟩ := h
  unfold toMicros epochDay
  rw [hd, ← ord2ymd_iterate, (ord2ymd_spec _ (by omega)).2]
  omega

/-- A reading determines the instant. -/
theorem reads_inj {u v : Int} {t : Dt} (h : Reads u t) (h' : Reads v t) : u = v :=
  (toMicros_reads t u h).trans (toMicros_reads t v h').symm

/-- An instant has one reading. -/
theorem reads_unique {u : Int} {t t' : Dt} (h : Reads u t) (h' : Reads u t') : t = t' := by
  obtain ⟨k, hd, a1, a2, a3, a4, a5, a6, a7, a8, hu⟩ := h
  obtain ⟨k', hd', b1, b2, b3, b4, b5, b6, b7, b8, hu'⟩ := h'
  obtain ⟨d, h, m, s, us⟩ := t
  obtain ⟨d', h', m', s', us'⟩ := t'
  simp only at *
  have hk : (k : Int) = k' := by omega
  have e1 : h = h' := by omega
  have e2 : m = m' := by omega
  have e3 : s = s' := by omega
  have e4 : us = us' := by omega
  have : k = k' := by exact_mod_cast hk
  subst e1 e2 e3 e4 this
  rw [hd, hd']

theorem micros_bounds (q : ℚ) (h : InYears q) : minMicros ≤ micros q ∧ micros q ≤ maxMicros := by
  obtain ⟨h1, h2⟩ := h
  unfold micros minMicros maxMicros
  constructor
  · apply Arith.roundEven_mono; push_cast; linarith
  · have : Arith.roundEven (q * 1000000) ≤ 253402300799000000 := by
      apply Arith.roundEven_le; push_cast; linarith
    omega

/-- Without a zone every accessor reads the clock and the calendar at the timestamp, rounded to microseconds. -/
theorem moment_utc (zs : Zones) (a b : Int) (q : ℚ) (h : InYears q) :
    ∃ t, moment zs a b (.fin q) "" = .ok t ∧ Reads (micros q) t := by
  have hc : ¬ (q < -62135596800 ∨ q > 253402300799) := by
    rintro (l | l)
    · exact absurd h.1 (not_le.2 l)
    · exact absurd h.2 (not_le.2 l)
  refine ⟨ofMicros (micros q), ?_, ofMicros_reads _ (micros_bounds q h).1⟩
  simp [moment, tscheck, hc, tz, bind, Except.bind]

/-- In a known zone every accessor reads the local clock, if the local time is within the years 1 to 9999. -/
theorem moment_zone (zs : Zones) (a b : Int) (q : ℚ) (h : InYears q) (zone : String) (hz : zone ≠ "") (z : Zone)
    (hzs : zs zone = some z) (hr : minMicros ≤ micros q + z.off (micros q) ∧ micros q + z.off (micros q) ≤ maxMicros) :
    ∃ t, moment zs a b (.fin q) zone = .ok t ∧ Reads (micros q + z.off (micros q)) t := by
  have hc : ¬ (q < -62135596800 ∨ q > 253402300799) := by
    rintro (l | l)
    · exact absurd h.1 (not_le.2 l)
    · exact absurd h.2 (not_le.2 l)
  have hv : ¬ (micros q + z.off (micros q) < minMicros ∨ micros q + z.off (micros q) > maxMicros) := by omega
  refine ⟨ofMicros (micros q + z.off (micros q)), ?_, ofMicros_reads _ hr.1⟩
  simp only [moment, tscheck, hc, tz, bind, Except.bind, if_false, hz, hzs, hv]

/-- A timestamp that is nan, infinite or outside the years 1 to 9999 raises the documented error. -/
theorem moment_range (zs : Zones) (a b : Int) (ts : Num) (zone : String) (h : ∀ q, ts = .fin q → ¬ InYears q) :
    moment zs a b ts zone = .error (.rt a) := by
  cases ts with
  | fin q =>
    have : q < -62135596800 ∨ q > 253402300799 := by
      by_contra hc
      rw [not_or, not_lt, not_lt] at hc
      exact h q rfl hc
    simp [moment, tscheck, this, bind, Except.bind]
  | _ => simp [moment, tscheck, bind, Except.bind]

/-- An unknown zone raises the documented error. -/
theorem moment_unknown (zs : Zones) (a b : Int) (q : ℚ) (h : InYears q) (zone : String) (hz : zone ≠ "")
    (hzs : zs zone = none) : moment zs a b (.fin q) zone = .error (.rt b) := by
  have hc : ¬ (q < -62135596800 ∨ q > 253402300799) := by
    rintro (l | l)
    · exact absurd h.1 (not_le.2 l)
    · exact absurd h.2 (not_le.2 l)
  simp only [moment, tscheck, hc, tz, bind, Except.bind, if_false, hz, hzs]

/-- All accessors read the same moment. -/
theorem accessors (zs : Zones) (q : ℚ) (h : InYears q) :
    ∃ t, Reads (micros q) t ∧ year zs (.fin q) "" = .ok t.date.y ∧ monthOfYear zs (.fin q) "" = .ok t.date.m ∧
      dayOfMonth zs (.fin q) "" = .ok t.date.d ∧ hourOfDay zs (.fin q) "" = .ok t.hour ∧
      minuteOfHour zs (.fin q) "" = .ok t.minute ∧ secondOfMinute zs (.fin q) "" = .ok t.second ∧
      dayOfWeek zs (.fin q) "" = .ok (weekday t.date) ∧ dayOfYear zs (.fin q) "" = .ok (yday t.date) := by
  have key : ∀ a b, ∀ t, Reads (micros q) t → moment zs a b (.fin q) "" = .ok t := by
    intro a b t ht
    obtain ⟨t', h1, h2⟩ := moment_utc zs a b q h
    rw [h1, reads_unique h2 ht]
  obtain ⟨t, _, h2⟩ := moment_utc zs 0 0 q h
  refine ⟨t, h2, ?_⟩
  simp [year, monthOfYear, dayOfMonth, hourOfDay, minuteOfHour, secondOfMinute, dayOfWeek, dayOfYear, key _ _ t h2,
    Except.map]

/-- The days of the week follow each other, and 1 January 1970 was a Thursday (Monday is 0). -/
theorem weekday_spec (t : Date) (h : t.Valid) : weekday ⟨1970, 1, 1⟩ = 3 ∧ 0 ≤ weekday t ∧ weekday t < 7 ∧
    weekday t.next = (weekday t + 1) % 7 := by
  refine ⟨by decide, ?_⟩
  unfold weekday
  rw [ymd2ord_next t h]
  omega

/-- The days of a year are counted from 1. -/
theorem yday_spec (t : Date) (h : t.Valid) : yday ⟨t.y, 1, 1⟩ = 1 ∧ 1 ≤ yday t ∧ yday t ≤ (if Leap t.y then 366 else 365) ∧
    (t.next.y = t.y → yday t.next = yday t + 1) := by
  refine ⟨?_, dayInYear_le h |>.1, dayInYear_le h |>.2, ?_⟩
  · simp [yday, daysBeforeMonth, daysTable]
  · intro hy
    have := ymd2ord_next t h
    unfold ymd2ord at this
    unfold yday
    rw [hy] at this ⊢
    omega

/-- The dates met are valid. -/
theorem reads_valid {u : Int} {t : Dt} (h : Reads u t) : t.date.Valid := by
  obtain ⟨k, hd, _⟩ := h
  rw [hd, ← ord2ymd_iterate]
  exact (ord2ymd_spec _ (by omega)).1

/-! ## Tests -/

/-- Within a half-open interval of doubles; nan is in no interval. -/
def Between (low high : Num) (n : Int) : Prop :=
  (low = .ninf ∨ ∃ q : ℚ, low = .fin q ∧ q ≤ n) ∧ (high = .pinf ∨ ∃ q : ℚ, high = .fin q ∧ (n : ℚ) < q)

theorem within_spec (low high : Num) (n : Int) : within low high n = true ↔ Between low high n := by
  cases low <;> cases high <;> simp [within, Between, Num.ge, Num.lt]

/-- The interval tests agree with the accessors. -/
theorem isField_spec (f : Dt → Int) (base : Int) (zs : Zones) (ts : Num) (zone : String) (low high : Num) :
    (Num.ge low high = true → isField f base zs ts zone low high = .error (.rt base)) ∧
    (Num.ge low high = false → ∀ t, moment zs (base + 2) (base + 1) ts zone = .ok t →
      ∃ b, isField f base zs ts zone low high = .ok b ∧ (b = true ↔ Between low high (f t))) ∧
    (Num.ge low high = false → ∀ e, moment zs (base + 2) (base + 1) ts zone = .error e →
      isField f base zs ts zone low high = .error e) := by
  refine ⟨?_, ?_, ?_⟩
  · intro h; simp [isField, h]
  · intro h t ht
    exact ⟨_, by simp [isField, h, ht, Except.map], within_spec _ _ _⟩
  · intro h e he; simp [isField, h, he, Except.map]

/-- Each interval test tests its own field. -/
theorem interval_tests (zs : Zones) (q : ℚ) (h : InYears q) (low high : Num) (hl : Num.ge low high = false) :
    ∃ t, Reads (micros q) t ∧
      (∃ b, isSecondOfMinute zs (.fin q) "" low high = .ok b ∧ (b = true ↔ Between low high (t.second))) ∧
      (∃ b, isMinuteOfHour zs (.fin q) "" low high = .ok b ∧ (b = true ↔ Between low high (t.minute))) ∧
      (∃ b, isHourOfDay zs (.fin q) "" low high = .ok b ∧ (b = true ↔ Between low high (t.hour))) ∧
      (∃ b, isDayOfWeek zs (.fin q) "" low high = .ok b ∧ (b = true ↔ Between low high (weekday t.date))) ∧
      (∃ b, isDayOfMonth zs (.fin q) "" low high = .ok b ∧ (b = true ↔ Between low high (t.date.d))) ∧
      (∃ b, isMonthOfYear zs (.fin q) "" low high = .ok b ∧ (b = true ↔ Between low high (t.date.m))) ∧
      (∃ b, isDayOfYear zs (.fin q) "" low high = .ok b ∧ (b = true ↔ Between low high (yday t.date))) := by
  have key : ∀ (f : Dt → Int) (base : Int) (t : Dt), Reads (micros q) t →
      ∃ b, isField f base zs (.fin q) "" low high = .ok b ∧ (b = true ↔ Between low high (f t)) := by
    intro f base t ht
    obtain ⟨t', h1, h2⟩ := moment_utc zs (base + 2) (base + 1) q h
    rw [reads_unique h2 ht] at h1
    exact (isField_spec f base zs (.fin q) "" low high).2.1 hl t h1
  obtain ⟨t, _, h2⟩ := moment_utc zs 0 0 q h
  exact ⟨t, h2, key _ _ t h2, key _ _ t h2, key _ _ t h2, key _ _ t h2, key _ _ t h2, key _ _ t h2, key _ _ t h2⟩

/-- The error codes of the interval tests: an empty interval, an unknown zone, a timestamp outside the years. -/
theorem interval_errors (zs : Zones) (zone : String) (low high : Num) :
    (Num.ge low high = true → ∀ ts, isSecondOfMinute zs ts zone low high = .error (.rt 40090) ∧
      isMinuteOfHour zs ts zone low high = .error (.rt 40100) ∧
      isHourOfDay zs ts zone low high = .error (.rt 40110) ∧
      isDayOfWeek zs ts zone low high = .error (.rt 40120) ∧
      isDayOfMonth zs ts zone low high = .error (.rt 40130) ∧
      isMonthOfYear zs ts zone low high = .error (.rt 40140) ∧
      isDayOfYear zs ts zone low high = .error (.rt 40150)) ∧
    (Num.ge low high = false → zone ≠ "" → zs zone = none → ∀ q, InYears q → isSecondOfMinute zs (.fin q) zone low high = .error (.rt 40091) ∧
      isMinuteOfHour zs (.fin q) zone low high = .error (.rt 40101) ∧
      isHourOfDay zs (.fin q) zone low high = .error (.rt 40111) ∧
      isDayOfWeek zs (.fin q) zone low high = .error (.rt 40121) ∧
      isDayOfMonth zs (.fin q) zone low high = .error (.rt 40131) ∧
      isMonthOfYear zs (.fin q) zone low high = .error (.rt 40141) ∧
      isDayOfYear zs (.fin q) zone low high = .error (.rt 40151)) ∧
    (Num.ge low high = false → ∀ ts, (∀ q, ts = .fin q → ¬ InYears q) → isSecondOfMinute zs ts zone low high = .error (.rt 40092) ∧
      isMinuteOfHour zs ts zone low high = .error (.rt 40102) ∧
      isHourOfDay zs ts zone low high = .error (.rt 40112) ∧
      isDayOfWeek zs ts zone low high = .error (.rt 40122) ∧
      isDayOfMonth zs ts zone low high = .error (.rt 40132) ∧
      isMonthOfYear zs ts zone low high = .error (.rt 40142) ∧
      isDayOfYear zs ts zone low high = .error (.rt 40152)) := by
  refine ⟨?_, ?_, ?_⟩
  · intro h ts
    have key := fun f base => (isField_spec f base zs ts zone low high).1 h
    exact ⟨key _ _, key _ _, key _ _, key _ _, key _ _, key _ _, key _ _⟩
  · intro h hz hzs q hq
    have key := fun f base => (isField_spec f base zs (.fin q) zone low high).2.2 h _ (moment_unknown zs _ _ q hq zone hz hzs)
    exact ⟨key _ _, key _ _, key _ _, key _ _, key _ _, key _ _, key _ _⟩
  · intro h ts hq
    have key := fun f base => (isField_spec f base zs ts zone low high).2.2 h _ (moment_range zs _ _ ts zone hq)
    exact ⟨key _ _, key _ _, key _ _, key _ _, key _ _, key _ _, key _ _⟩

/-- The error codes of the other functions: an unknown zone, a timestamp outside the years. -/
theorem accessor_errors (zs : Zones) (zone : String) :
    (zone ≠ "" → zs zone = none → ∀ q, InYears q → year zs (.fin q) zone = .error (.rt 40000) ∧
      monthOfYear zs (.fin q) zone = .error (.rt 40010) ∧
      dayOfYear zs (.fin q) zone = .error (.rt 40020) ∧
      dayOfMonth zs (.fin q) zone = .error (.rt 40030) ∧
      dayOfWeek zs (.fin q) zone = .error (.rt 40040) ∧
      hourOfDay zs (.fin q) zone = .error (.rt 40050) ∧
      minuteOfHour zs (.fin q) zone = .error (.rt 40060) ∧
      secondOfMinute zs (.fin q) zone = .error (.rt 40070) ∧
      isWeekend zs (.fin q) zone = .error (.rt 40160) ∧
      isWorkHours zs (.fin q) zone = .error (.rt 40170)) ∧
    (∀ ts, (∀ q, ts = .fin q → ¬ InYears q) → year zs ts zone = .error (.rt 40001) ∧
      monthOfYear zs ts zone = .error (.rt 40011) ∧
      dayOfYear zs ts zone = .error (.rt 40021) ∧
      dayOfMonth zs ts zone = .error (.rt 40031) ∧
      dayOfWeek zs ts zone = .error (.rt 40041) ∧
      hourOfDay zs ts zone = .error (.rt 40051) ∧
      minuteOfHour zs ts zone = .error (.rt 40061) ∧
      secondOfMinute zs ts zone = .error (.rt 40071) ∧
      isWeekend zs ts zone = .error (.rt 40161) ∧
      isWorkHours zs ts zone = .error (.rt 40171)) := by
  refine ⟨?_, ?_⟩
  · intro hz hzs q hq
    simp only [year, monthOfYear, dayOfYear, dayOfMonth, dayOfWeek, hourOfDay, minuteOfHour, secondOfMinute, isWeekend, isWorkHours, moment_unknown zs _ _ q hq zone hz hzs, Except.map, and_self]
  · intro ts hq
    simp only [year, monthOfYear, dayOfYear, dayOfMonth, dayOfWeek, hourOfDay, minuteOfHour, secondOfMinute, isWeekend, isWorkHours, moment_range zs _ _ ts zone hq, Except.map, and_self]

/-- `time.isWeekend` is true on Saturdays and Sundays. -/
theorem isWeekend_spec (zs : Zones) (ts : Num) (zone : String) (t : Dt) (h : moment zs 40161 40160 ts zone = .ok t) :
    isWeekend zs ts zone = .ok (decide (weekday t.date = 5 ∨ weekday t.date = 6)) := by
  simp [isWeekend, h, Except.map]

/-- `time.isWorkHours` is true from 9 to 17 o'clock.  The full statement also asks for a day from Monday to
Friday; the code's test of the day is always true. -/
theorem isWorkHours_partial (zs : Zones) (ts : Num) (zone : String) (t : Dt) (h : moment zs 40171 40170 ts zone = .ok t)
    (hd : weekday t.date ≠ 5 ∧ weekday t.date ≠ 6) :
    isWorkHours zs ts zone = .ok (decide (weekday t.date ≤ 4 ∧ 9 ≤ t.hour ∧ t.hour < 17)) := by
  have hw : weekday t.date < 7 := by unfold weekday; omega
  have : weekday t.date ≤ 4 := by omega
  simp [isWorkHours, h, Except.map, hd.1, this]

/-- Saturday 3 January 1970, 10 o'clock, is called working hours. -/
theorem isWorkHours_violation (zs : Zones) :
    isWorkHours zs (.fin 208800) "" = .ok true ∧ isWeekend zs (.fin 208800) "" = .ok true := by
  have hm : micros 208800 = 208800000000 := by
    unfold micros
    have : (208800 : ℚ) * 1000000 = ((208800000000 : Int) : ℚ) := by norm_num
    rw [this, Arith.roundEven_int]
  have hmo : ∀ a b, moment zs a b (.fin 208800) "" = .ok (ofMicros 208800000000) := by
    intro a b
    have : ¬ ((208800 : ℚ) < -62135596800 ∨ (208800 : ℚ) > 253402300799) := by norm_num
    simp only [moment, tscheck, this, tz, bind, Except.bind, if_false, hm, if_true]
  have e : ofMicros 208800000000 = ⟨⟨1970, 1, 3⟩, 10, 0, 0, 0⟩ := by decide
  simp only [isWorkHours, isWeekend, hmo, Except.map, e]
  decide

/-! ## Timestamps from fields -/

/-- The arguments of `time.makeTimestamp` name an instant of the years 1 to 9999. -/
structure Named (y mo d h mi s ms : Int) : Prop where
  date : (⟨y, mo, d⟩ : Date).Valid
  year : y ≤ 9999
  hour : 0 ≤ h ∧ h ≤ 23
  minute : 0 ≤ mi ∧ mi ≤ 59
  second : 0 ≤ s ∧ s ≤ 59
  milli : 0 ≤ ms ∧ ms ≤ 999

theorem ymd2ord_bounds (t : Date) (h : t.Valid) (hy : t.y ≤ 9999) : 1 ≤ ymd2ord t ∧ ymd2ord t ≤ 3652059 := by
  have h1 := h.1
  have h2 := dayInYear_le h
  unfold ymd2ord
  have : 0 ≤ daysBeforeYear t.y ∧ daysBeforeYear t.y + (if Leap t.y then 366 else 365) ≤ 3652059 := by
    unfold daysBeforeYear Leap
    simp only
    split_ifs <;> omega
  omega

theorem toMicros_bounds {y mo d h mi s ms : Int} (hn : Named y mo d h mi s ms) :
    minMicros ≤ toMicros ⟨⟨y, mo, d⟩, h, mi, s, ms * 1000⟩ ∧ toMicros ⟨⟨y, mo, d⟩, h, mi, s, ms * 1000⟩ ≤ maxMicros := by
  have h1 := ymd2ord_bounds _ hn.date hn.year
  obtain ⟨_, _, h2, h3, h4, h5⟩ := hn
  unfold toMicros minMicros maxMicros epochDay
  simp only at *
  omega

theorem mkDt_ok {y mo d h mi s ms : Int} (hn : Named y mo d h mi s ms) :
    mkDt y mo d h mi s (ms * 1000) = .ok ⟨⟨y, mo, d⟩, h, mi, s, ms * 1000⟩ := by
  obtain ⟨⟨a1, a2, a3, a4, a5⟩, h1, h2, h3, h4, h5⟩ := hn
  simp only at a1 a2 a3 a4 a5
  unfold mkDt
  rw [if_neg (by omega), if_pos (by refine ⟨a1, h1, a2, a3, a4, a5, ?_⟩; omega)]

theorem named_reads {y mo d h mi s ms : Int} (hn : Named y mo d h mi s ms) :
    Reads (toMicros ⟨⟨y, mo, d⟩, h, mi, s, ms * 1000⟩) ⟨⟨y, mo, d⟩, h, mi, s, ms * 1000⟩ := by
  have h1 := ymd2ord_bounds _ hn.date hn.year
  have h0 := hn.date
  obtain ⟨_, _, h2, h3, h4, h5⟩ := hn
  refine ⟨(ymd2ord ⟨y, mo, d⟩ - 1).toNat, ?_, ?_⟩
  · rw [← ord2ymd_iterate]
    have : ((ymd2ord ⟨y, mo, d⟩ - 1).toNat : Int) + 1 = ymd2ord ⟨y, mo, d⟩ := by omega
    rw [this, ord2ymd_ymd2ord _ h0]
  · have : ((ymd2ord ⟨y, mo, d⟩ - 1).toNat : Int) = ymd2ord ⟨y, mo, d⟩ - 1 := by omega
    rw [this]
    unfold toMicros epochDay
    simp only
    omega

/-- The spacing of doubles in the range of timestamps. -/
theorem rnd_seconds (u : Int) (h1 : minMicros ≤ u) (h2 : u ≤ maxMicros) :
    |Arith.rnd ((u : ℚ) / 1000000) - (u : ℚ) / 1000000| ≤ 1 / 65536 := by
  unfold minMicros at h1
  unfold maxMicros at h2
  refine (Arith.rnd_err _).trans ?_
  have hu : Arith.ulp ((u : ℚ) / 1000000) ≤ 2 ^ (-15 : Int) := by
    unfold Arith.ulp
    apply zpow_le_zpow_right₀ (by norm_num)
    apply max_le _ (by norm_num)
    by_cases h0 : (u : ℚ) / 1000000 = 0
    · rw [h0]; simp
    · have : Int.log 2 |(u : ℚ) / 1000000| < 38 := by
        apply Arith.log_lt h0
        rw [abs_lt]
        have e1 : ((-62135596800000000 : Int) : ℚ) ≤ u := by exact_mod_cast h1
        have e2 : (u : ℚ) ≤ ((253402300799999999 : Int) : ℚ) := by exact_mod_cast h2
        push_cast at e1 e2
        constructor
        · rw [lt_div_iff₀ (by norm_num)]; norm_num; linarith
        · rw [div_lt_iff₀ (by norm_num)]; norm_num; linarith
      omega
  have : (2 : ℚ) ^ (-15 : Int) = 1 / 32768 := by norm_num
  rw [this] at hu
  linarith

/-- Reading back a timestamp made from an instant in whole milliseconds gives the same instant, up to 16 microseconds;
exactly for whole seconds. -/
theorem micros_seconds (u : Int) (h1 : minMicros ≤ u) (h2 : u ≤ maxMicros) :
    |micros (Arith.rnd ((u : ℚ) / 1000000)) - u| ≤ 16 ∧
      (u % 1000000 = 0 → micros (Arith.rnd ((u : ℚ) / 1000000)) = u) := by
  constructor
  · have e := rnd_seconds u h1 h2
    have e' := Arith.roundEven_err (Arith.rnd ((u : ℚ) / 1000000) * 1000000)
    rw [abs_le] at e e'
    unfold micros
    have k1 : ((Arith.roundEven (Arith.rnd ((u : ℚ) / 1000000) * 1000000) : Int) : ℚ) - u ≤ 16 := by linarith [e.2, e'.2]
    have k2 : (-16 : ℚ) ≤ ((Arith.roundEven (Arith.rnd ((u : ℚ) / 1000000) * 1000000) : Int) : ℚ) - u := by
      linarith [e.1, e'.1]
    rw [abs_le]
    constructor
    · exact_mod_cast k2
    · exact_mod_cast k1
  · intro hu
    obtain ⟨n, rfl⟩ : ∃ n, u = n * 1000000 := ⟨u / 1000000, by omega⟩
    have : ((n * 1000000 : Int) : ℚ) / 1000000 = (n : ℚ) := by push_cast; field_simp
    rw [this, Arith.rnd_double (Arith.isDouble_int (by
      unfold minMicros at h1; unfold maxMicros at h2; rw [abs_le]; constructor <;> norm_num <;> omega))]
    unfold micros
    have : (n : ℚ) * 1000000 = ((n * 1000000 : Int) : ℚ) := by push_cast; rfl
    rw [this, Arith.roundEven_int]

/-- `time.makeTimestamp` without a zone gives the seconds from 1970 to the named instant, to the nearest double. -/
theorem makeTimestamp_spec (zs : Zones) {y mo d h mi s ms : Int} (hn : Named y mo d h mi s ms) :
    ∃ u, Reads u ⟨⟨y, mo, d⟩, h, mi, s, ms * 1000⟩ ∧
      makeTimestamp zs y mo d h mi s ms "" = .ok (Arith.rnd ((u : ℚ) / 1000000)) := by
  refine ⟨_, named_reads hn, ?_⟩
  have hb := toMicros_bounds hn
  simp only [makeTimestamp, if_true, mkDt_ok hn, catchValue, bind, Except.bind, seconds]
  rw [if_neg (by omega)]

/-- In a zone, the local time of the result is the named one, when the offsets agree there. -/
theorem makeTimestamp_zone (zs : Zones) {y mo d h mi s ms : Int} (hn : Named y mo d h mi s ms) (zone : String)
    (hz : zone ≠ "") (z : Zone) (hzs : zs zone = some z) (u : Int)
    (hu : Reads (u + z.off u) ⟨⟨y, mo, d⟩, h, mi, s, ms * 1000⟩) (hl : z.loc (u + z.off u) = z.off u)
    (hr : minMicros ≤ u ∧ u ≤ maxMicros) :
    makeTimestamp zs y mo d h mi s ms zone = .ok (Arith.rnd ((u : ℚ) / 1000000)) := by
  have e := toMicros_reads _ _ hu
  simp only [makeTimestamp, if_neg hz, hzs, mkDt_ok hn, catchValue, bind, Except.bind, seconds]
  rw [← e, hl, add_sub_cancel_right, if_neg (by omega)]

/-- Arguments that name no instant raise the documented error, for milliseconds up to 2147483. -/
theorem makeTimestamp_error_partial (zs : Zones) {y mo d h mi s ms : Int} (hn : ¬ Named y mo d h mi s ms)
    (hms : -2147483 ≤ ms ∧ ms ≤ 2147483) : makeTimestamp zs y mo d h mi s ms "" = .error (.rt 40081) := by
  simp only [makeTimestamp, if_true, mkDt]
  rw [if_neg (by omega), if_neg]
  · rfl
  · rintro ⟨a1, a2, a3, a4, a5, a6, a7⟩
    exact hn ⟨⟨a1, a3, a4, a5, a6⟩, a2, by omega, by omega, by omega, by omega⟩

/-- Larger milliseconds raise OverflowError. -/
theorem makeTimestamp_overflow_violation (zs : Zones) (y mo d h mi s : Int) :
    makeTimestamp zs y mo d h mi s 2147484 "" = .error (.py "OverflowError") := by
  simp [makeTimestamp, mkDt, catchValue, bind, Except.bind]

/-- A named instant is read back: every accessor returns the argument it was made from.  The full statement has no
condition on the last second of year 9999. -/
theorem named_back_partial (zs : Zones) {y mo d h mi s ms : Int} (hn : Named y mo d h mi s ms)
    (hlast : ¬ (y = 9999 ∧ mo = 12 ∧ d = 31 ∧ h = 23 ∧ mi = 59 ∧ s = 59 ∧ 0 < ms)) :
    ∃ q, makeTimestamp zs y mo d h mi s ms "" = .ok q ∧ year zs (.fin q) "" = .ok y ∧ monthOfYear zs (.fin q) "" = .ok mo ∧
      dayOfMonth zs (.fin q) "" = .ok d ∧ hourOfDay zs (.fin q) "" = .ok h ∧ minuteOfHour zs (.fin q) "" = .ok mi ∧
      secondOfMinute zs (.fin q) "" = .ok s := by
  obtain ⟨u, hu, hm⟩ := makeTimestamp_spec zs hn
  refine ⟨_, hm, ?_⟩
  have hb := toMicros_bounds hn
  rw [← toMicros_reads _ _ hu] at hb
  obtain ⟨e1, e2⟩ := micros_seconds u hb.1 hb.2
  have hin : InYears (Arith.rnd ((u : ℚ) / 1000000)) := by
    have hle : u ≤ 253402300799000000 := by
      by_contra hc
      have eu := toMicros_reads _ _ hu
      have ho := ymd2ord_bounds _ hn.date hn.year
      obtain ⟨g0, _, g2, g3, g4, g5⟩ := hn
      unfold toMicros epochDay at eu
      simp only at eu ho
      have h9 : ymd2ord ⟨y, mo, d⟩ = ymd2ord ⟨9999, 12, 31⟩ := by
        have : ymd2ord ⟨9999, 12, 31⟩ = 3652059 := by decide
        omega
      have := ymd2ord_inj g0 (by decide) h9
      rw [Date.mk.injEq] at this
      exact hlast ⟨this.1, this.2.1, this.2.2, by omega, by omega, by omega, by omega⟩
    have hge := hb.1
    unfold minMicros at hge
    have q1 : ((-62135596800000000 : Int) : ℚ) ≤ u := by exact_mod_cast hge
    have q2 : (u : ℚ) ≤ ((253402300799000000 : Int) : ℚ) := by exact_mod_cast hle
    push_cast at q1 q2
    have hq1 : ((-62135596800 : Int) : ℚ) ≤ (u : ℚ) / 1000000 := by
      rw [le_div_iff₀ (by norm_num)]; push_cast; linarith
    have hq2 : (u : ℚ) / 1000000 ≤ ((253402300799 : Int) : ℚ) := by
      rw [div_le_iff₀ (by norm_num)]; push_cast; linarith
    have hlt : |(u : ℚ) / 1000000| < 2 ^ 53 := by
      push_cast at hq1 hq2
      rw [abs_lt]; constructor <;> norm_num <;> linarith
    have r1 := Lib.Round.floor_le_rnd hlt _ hq1
    have r2 := Lib.Round.rnd_le_int hlt _ hq2
    push_cast at r1 r2
    exact ⟨r1, r2⟩
  obtain ⟨t, ht, hy, hmo, hd, hh, hmi, hs, _⟩ := accessors zs _ hin
  have : t.date = ⟨y, mo, d⟩ ∧ t.hour = h ∧ t.minute = mi ∧ t.second = s := by
    generalize micros (Arith.rnd ((u : ℚ) / 1000000)) = v at *
    obtain ⟨k, hd, a1, a2, a3, a4, a5, a6, a7, a8, hu⟩ := hu
    obtain ⟨k', hd', b1, b2, b3, b4, b5, b6, b7, b8, hu'⟩ := ht
    simp only at *
    have hms := hn.milli
    rw [abs_le] at e1
    have hmod : u % 1000000 = ms * 1000 := by omega
    have hq : u / 1000000 = v / 1000000 := by
      by_cases h0 : ms = 0
      · rw [e2 (by omega)]
      · omega
    have hk : (k : Int) = k' := by omega
    have e1 : h = t.hour := by omega
    have e2 : mi = t.minute := by omega
    have e3 : s = t.second := by omega
    have : k = k' := by exact_mod_cast hk
    subst this
    exact ⟨hd'.trans hd.symm, e1.symm, e2.symm, e3.symm⟩
  obtain ⟨w1, rfl, rfl, rfl⟩ := this
  rw [w1] at hy hmo hd
  exact ⟨hy, hmo, hd, hh, hmi, hs⟩

/-- In the last second of year 9999 the timestamp made is refused by the accessors. -/
theorem named_back_violation (zs : Zones) : Named 9999 12 31 23 59 59 500 ∧
    ∃ q, makeTimestamp zs 9999 12 31 23 59 59 500 "" = .ok q ∧ year zs (.fin q) "" = .error (.rt 40001) := by
  have hn : Named 9999 12 31 23 59 59 500 := by constructor <;> decide
  refine ⟨hn, _, (makeTimestamp_spec zs hn).choose_spec.2, ?_⟩
  have hu := (makeTimestamp_spec zs hn).choose_spec.1
  have e := toMicros_reads _ _ hu
  have e2 : toMicros ⟨⟨9999, 12, 31⟩, 23, 59, 59, 500 * 1000⟩ = 253402300799500000 := by decide
  rw [e2] at e
  rw [e]
  have hd : Arith.rnd (((253402300799500000 : Int) : ℚ) / 1000000) = 506804601599 / 2 := by
    have e3 : (((253402300799500000 : Int) : ℚ) / 1000000) = 506804601599 / 2 := by norm_num
    rw [e3]
    apply Arith.rnd_double
    exact ⟨506804601599, -1, by norm_num, by norm_num, by norm_num⟩
  rw [hd, year, moment_range]
  · rfl
  · intro q hq
    injection hq with hq
    subst hq
    rintro ⟨_, h2⟩
    norm_num at h2

/-- The result type of `time.makeTimestamp` is declared as int, but the result need not be an integer, nor fit in 32 bits. -/
theorem makeTimestamp_int_violation (zs : Zones) :
    makeTimestamp zs 1970 1 1 0 0 0 500 "" = .ok (1 / 2) ∧ makeTimestamp zs 2040 1 1 0 0 0 0 "" = .ok 2208988800 := by
  constructor
  · obtain ⟨u, hu, hm⟩ := makeTimestamp_spec zs (y := 1970) (mo := 1) (d := 1) (h := 0) (mi := 0) (s := 0) (ms := 500)
      (by constructor <;> decide)
    have e := toMicros_reads _ _ hu
    have e2 : toMicros ⟨⟨1970, 1, 1⟩, 0, 0, 0, 500 * 1000⟩ = 500000 := by decide
    rw [e2] at e
    rw [hm, e]
    have e3 : (((500000 : Int) : ℚ) / 1000000) = 1 / 2 := by norm_num
    rw [e3, Arith.rnd_double ⟨1, -1, by norm_num, by norm_num, by norm_num⟩]
  · obtain ⟨u, hu, hm⟩ := makeTimestamp_spec zs (y := 2040) (mo := 1) (d := 1) (h := 0) (mi := 0) (s := 0) (ms := 0)
      (by constructor <;> decide)
    have e := toMicros_reads _ _ hu
    have e2 : toMicros ⟨⟨2040, 1, 1⟩, 0, 0, 0, 0 * 1000⟩ = 2208988800000000 := by decide
    rw [e2] at e
    rw [hm, e]
    have e3 : (((2208988800000000 : Int) : ℚ) / 1000000) = ((2208988800 : Int) : ℚ) := by norm_num
    rw [e3, Arith.rnd_double (Arith.isDouble_int (by norm_num))]
    norm_num

theorem year_le {t : Date} (h : t.Valid) (hb : ymd2ord t ≤ 3652059) : t.y ≤ 9999 := by
  by_contra hc
  have h1 := (dayInYear_le h).1
  unfold ymd2ord daysBeforeYear at hb
  simp only at hb
  omega

/-- A timestamp in whole seconds is made again from its fields. -/
theorem fields_back (zs : Zones) (n : Int) (h : InYears n) :
    ∃ y mo d h mi s, year zs (.fin n) "" = .ok y ∧ monthOfYear zs (.fin n) "" = .ok mo ∧ dayOfMonth zs (.fin n) "" = .ok d ∧
      hourOfDay zs (.fin n) "" = .ok h ∧ minuteOfHour zs (.fin n) "" = .ok mi ∧ secondOfMinute zs (.fin n) "" = .ok s ∧
      makeTimestamp zs y mo d h mi s 0 "" = .ok (n : ℚ) := by
  obtain ⟨t, ht, hy, hmo, hd, hh, hmi, hs, _⟩ := accessors zs n h
  refine ⟨_, _, _, _, _, _, hy, hmo, hd, hh, hmi, hs, ?_⟩
  have hm : micros (n : ℚ) = n * 1000000 := by
    unfold micros
    have : (n : ℚ) * 1000000 = ((n * 1000000 : Int) : ℚ) := by push_cast; rfl
    rw [this, Arith.roundEven_int]
  have hb := micros_bounds _ h
  rw [hm] at ht hb
  have eu := toMicros_reads _ _ ht
  have hv := reads_valid ht
  have hr := ht
  obtain ⟨k, hdk, a1, a2, a3, a4, a5, a6, a7, a8, hu⟩ := hr
  have hmic : t.micro = 0 := by omega
  have ho : ymd2ord t.date ≤ 3652059 := by
    unfold toMicros epochDay at eu
    unfold maxMicros at hb
    omega
  have hn : Named t.date.y t.date.m t.date.d t.hour t.minute t.second 0 :=
    ⟨hv, year_le hv ho, by omega, by omega, by omega, by omega⟩
  obtain ⟨u, hu', hmk⟩ := makeTimestamp_spec zs hn
  have et : (⟨⟨t.date.y, t.date.m, t.date.d⟩, t.hour, t.minute, t.second, 0 * 1000⟩ : Dt) = t := by
    obtain ⟨⟨y, mo, d⟩, h, mi, s, us⟩ := t
    simp only at hmic
    rw [hmic]; rfl
  rw [et] at hu'
  have := reads_inj hu' ht
  rw [hmk, this]
  have e3 : (((n * 1000000 : Int) : ℚ) / 1000000) = (n : ℚ) := by push_cast; field_simp
  rw [e3, Arith.rnd_double (Arith.isDouble_int (by
      obtain ⟨h1, h2⟩ := h
      have g1 : (-62135596800 : Int) ≤ n := by exact_mod_cast h1
      have g2 : n ≤ 253402300799 := by exact_mod_cast h2
      rw [abs_le]; constructor <;> norm_num <;> omega))]

/-- Near the ends of the range a zone raises OverflowError: New York, five hours behind, in the first hour of year 1. -/
theorem moment_overflow_violation : ∃ zs : Zones, ∃ q : ℚ, InYears q ∧
    year zs (.fin q) "America/New_York" = .error (.py "OverflowError") := by
  refine ⟨fun _ => some ⟨fun _ => -18000000000, fun _ => -18000000000⟩, -62135596800, by constructor <;> norm_num, ?_⟩
  have hm : micros (-62135596800) = -62135596800000000 := by
    unfold micros
    have : (-62135596800 : ℚ) * 1000000 = ((-62135596800000000 : Int) : ℚ) := by norm_num
    rw [this, Arith.roundEven_int]
  have hc : ¬ ((-62135596800 : ℚ) < -62135596800 ∨ (-62135596800 : ℚ) > 253402300799) := by norm_num
  have hz : ("America/New_York" : String) ≠ "" := by decide
  simp only [year, moment, tscheck, if_neg hc, tz, bind, Except.bind, hm, if_neg hz]
  rfl

/-- A concrete named instant: noon on a leap day. -/
example : Named 2024 2 29 12 0 0 1 := by constructor <;> decide
example : InYears 1709208000 := by constructor <;> norm_num

end Verif.Time
