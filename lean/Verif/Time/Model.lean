import Verif.Time.Calendar
import Verif.Stat.Num
import Verif.Py.Basic
/-! # The time library (`titus/lib/pfatime.py`)

Instants are counted in microseconds from 1 January 1970, as in Python's `datetime`.  Modelled of
`datetime`: `fromtimestamp` rounds to the nearest microsecond, ties to even; the constructor raises ValueError
outside the ranges of the fields and OverflowError for an argument that is not a C int;
`total_seconds` is the double nearest to the exact quotient.  Not modelled: that `fromtimestamp` multiplies
the fractional part in floating point before rounding.

Time zones come from `pytz`: a zone is any pair of functions giving the offset at an instant
and the offset chosen for a local time (`localize`).  Beyond the years 1 to 9999 the addition raises OverflowError. -/

namespace Verif.Time
open Verif.Stat (Num)

/-- A `datetime`: date and time of day. -/
structure Dt where
  date : Date
  hour : Int
  minute : Int
  second : Int
  micro : Int
  deriving DecidableEq, Repr

/-- A time zone of `pytz`: the offset (microseconds) from UTC at an instant, and the offset that `localize`
chooses for a local time. -/
structure Zone where
  off : Int → Int
  loc : Int → Int

/-- The known zones by name. -/
abbrev Zones := String → Option Zone

/-- 1 January 1970 as a day number. -/
def epochDay : Int := 719163

/-- Microseconds of a day. -/
def dayMicros : Int := 86400000000

/-- The `datetime` at an instant. -/
def ofMicros (u : Int) : Dt :=
  let day := u / dayMicros
  let t := u % dayMicros
  { date := ord2ymd (day + epochDay)
    hour := t / 3600000000
    minute := t / 60000000 % 60
    second := t / 1000000 % 60
    micro := t % 1000000 }

/-- The instant of a `datetime`. -/
def toMicros (t : Dt) : Int :=
  ((ymd2ord t.date - epochDay) * 86400 + t.hour * 3600 + t.minute * 60 + t.second) * 1000000 + t.micro

/-- The first instant of year 1 and the last of year 9999. -/
def minMicros : Int := -62135596800000000
def maxMicros : Int := 253402300799999999

/-- `tscheck` (pfatime.py 59-62). -/
def tscheck (code : Int) (ts : Num) : Res ℚ :=
  match ts with
  | .fin q => if q < -62135596800 ∨ q > 253402300799 then .error (.rt code) else .ok q
  | _ => .error (.rt code)

/-- The rounding of `datetime.fromtimestamp`. -/
def micros (q : ℚ) : Int := Arith.roundEven (q * 1000000)

/-- `tz` (pfatime.py 50-57) on the instant `u`. -/
def tz (zs : Zones) (code : Int) (u : Int) (zone : String) : Res Dt :=
  if zone = "" then .ok (ofMicros u)
  else match zs zone with
    | none => .error (.rt code)
    | some z =>
      let v := u + z.off u
      if v < minMicros ∨ v > maxMicros then .error (.py "OverflowError") else .ok (ofMicros v)

/-- `tz(datetime.datetime.fromtimestamp(tscheck(ts, ...), UTC()), zone, ...)`, the common part of all accessors. -/
def moment (zs : Zones) (codeTs codeZone : Int) (ts : Num) (zone : String) : Res Dt := do
  let q ← tscheck codeTs ts
  tz zs codeZone (micros q) zone

/-- `time.year` (64-70). -/
def year (zs : Zones) (ts : Num) (zone : String) : Res Int := (moment zs 40001 40000 ts zone).map (·.date.y)
/-- `time.monthOfYear` (72-78). -/
def monthOfYear (zs : Zones) (ts : Num) (zone : String) : Res Int := (moment zs 40011 40010 ts zone).map (·.date.m)
/-- `.timetuple().tm_yday`. -/
def yday (t : Date) : Int := daysBeforeMonth t.y t.m + t.d
/-- `time.dayOfYear` (80-86). -/
def dayOfYear (zs : Zones) (ts : Num) (zone : String) : Res Int := (moment zs 40021 40020 ts zone).map (yday ·.date)
/-- `time.dayOfMonth` (88-94). -/
def dayOfMonth (zs : Zones) (ts : Num) (zone : String) : Res Int := (moment zs 40031 40030 ts zone).map (·.date.d)
/-- `.weekday()`, Monday is 0. -/
def weekday (t : Date) : Int := (ymd2ord t + 6) % 7
/-- `time.dayOfWeek` (96-102). -/
def dayOfWeek (zs : Zones) (ts : Num) (zone : String) : Res Int := (moment zs 40041 40040 ts zone).map (weekday ·.date)
/-- `time.hourOfDay` (104-110). -/
def hourOfDay (zs : Zones) (ts : Num) (zone : String) : Res Int := (moment zs 40051 40050 ts zone).map (·.hour)
/-- `time.minuteOfHour` (112-118). -/
def minuteOfHour (zs : Zones) (ts : Num) (zone : String) : Res Int := (moment zs 40061 40060 ts zone).map (·.minute)
/-- `time.secondOfMinute` (120-126). -/
def secondOfMinute (zs : Zones) (ts : Num) (zone : String) : Res Int := (moment zs 40071 40070 ts zone).map (·.second)

/-- The constructor `datetime.datetime(...)`. -/
def mkDt (y mo d h mi s us : Int) : Res Dt :=
  if us > 2147483647 ∨ us < -2147483648 then .error (.py "OverflowError")
  else if 1 ≤ y ∧ y ≤ 9999 ∧ 1 ≤ mo ∧ mo ≤ 12 ∧ 1 ≤ d ∧ d ≤ monthLength y mo ∧ 0 ≤ h ∧ h ≤ 23 ∧ 0 ≤ mi ∧ mi ≤ 59 ∧
      0 ≤ s ∧ s ≤ 59 ∧ 0 ≤ us ∧ us ≤ 999999 then .ok ⟨⟨y, mo, d⟩, h, mi, s, us⟩
  else .error (.py "ValueError")

/-- `(dt.astimezone(UTC()) - self.epoch).total_seconds()` for the instant `u` (145). -/
def seconds (u : Int) : Res ℚ :=
  if u < minMicros ∨ u > maxMicros then .error (.py "OverflowError") else .ok (Arith.rnd (u / 1000000))

/-- `except ValueError` (142-143). -/
def catchValue (code : Int) : Res Dt → Res Dt
  | .error (.py "ValueError") => .error (.rt code)
  | r => r

/-- `time.makeTimestamp` (128-146) for 32-bit arguments (the other fields cannot overflow a C int). -/
def makeTimestamp (zs : Zones) (y mo d h mi s ms : Int) (zone : String) : Res ℚ :=
  let us := ms * 1000
  if zone = "" then do
    let t ← catchValue 40081 (mkDt y mo d h mi s us)
    seconds (toMicros t)
  else match zs zone with
    | none => .error (.rt 40080)
    | some z => do
      let t ← catchValue 40081 (mkDt y mo d h mi s us)
      seconds (toMicros t - z.loc (toMicros t))

/-- The comparison `low <= field and field < high` with double bounds. -/
def within (low high : Num) (field : Int) : Bool :=
  Num.ge (.fin field) low && Num.lt (.fin field) high

/-- `time.isSecondOfMinute` and its siblings (148-223): `base` is `errcodeBase`. -/
def isField (f : Dt → Int) (base : Int) (zs : Zones) (ts : Num) (zone : String) (low high : Num) : Res Bool :=
  if Num.ge low high then .error (.rt base)
  else (moment zs (base + 2) (base + 1) ts zone).map fun t => within low high (f t)

/-- `time.isSecondOfMinute` (148-157). -/
def isSecondOfMinute := isField (·.second) 40090
/-- `time.isMinuteOfHour` (159-168). -/
def isMinuteOfHour := isField (·.minute) 40100
/-- `time.isHourOfDay` (170-179). -/
def isHourOfDay := isField (·.hour) 40110
/-- `time.isDayOfWeek` (181-190). -/
def isDayOfWeek := isField (weekday ·.date) 40120
/-- `time.isDayOfMonth` (192-201). -/
def isDayOfMonth := isField (·.date.d) 40130
/-- `time.isMonthOfYear` (203-212). -/
def isMonthOfYear := isField (·.date.m) 40140
/-- `time.isDayOfYear` (214-223). -/
def isDayOfYear := isField (yday ·.date) 40150

/-- `time.isWeekend` (225-232). -/
def isWeekend (zs : Zones) (ts : Num) (zone : String) : Res Bool :=
  (moment zs 40161 40160 ts zone).map fun t => weekday t.date = 5 || weekday t.date = 6

/-- `time.isWorkHours` (234-243), with the `or` of the code. -/
def isWorkHours (zs : Zones) (ts : Num) (zone : String) : Res Bool :=
  (moment zs 40171 40170 ts zone).map fun t =>
    (weekday t.date ≠ 5 || weekday t.date ≠ 6) && (t.hour ≥ 9 && t.hour < 17)

end Verif.Time
