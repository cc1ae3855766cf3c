import Verif.Base.Num
/-!
# Model of `date_to_timestamp` in `/repo/src/parser/serde_util.rs` (lines 1-38)

`chrono` (not in `/repo`) is modelled as the proleptic Gregorian calendar: dates of the years
`-262144 … 262143`, no leap seconds. A date or time out of range makes `from_ymd`, `and_hms` and
`from_timestamp` panic.
-/
namespace Swrs.Date

/-- `chrono::NaiveDateTime` with whole seconds. Used through `chrono` in parser/serde_util.rs:17-21, 25-34. -/
structure DateTime where
  year : Int
  month : Nat
  day : Nat
  hour : Nat
  minute : Nat
  second : Nat
deriving DecidableEq, Repr

/-- Gregorian leap year. Used through `chrono` in parser/serde_util.rs:17-21, 25-34. -/
def isLeap (y : Int) : Bool := y % 4 = 0 && (y % 100 ≠ 0 || y % 400 = 0)

/-- Days of the year before month `m`. Used through `chrono` in parser/serde_util.rs:17-21, 25-34. -/
def daysBeforeMonth (leap : Bool) (m : Nat) : Nat :=
  let l := if leap then 1 else 0
  match m with
  | 1 => 0
  | 2 => 31
  | 3 => 59 + l
  | 4 => 90 + l
  | 5 => 120 + l
  | 6 => 151 + l
  | 7 => 181 + l
  | 8 => 212 + l
  | 9 => 243 + l
  | 10 => 273 + l
  | 11 => 304 + l
  | 12 => 334 + l
  | _ => 365 + l

/-- Length of a month. Used through `chrono` in parser/serde_util.rs:17-21, 25-34. -/
def daysInMonth (leap : Bool) (m : Nat) : Nat := daysBeforeMonth leap (m + 1) - daysBeforeMonth leap m

/-- Days from 0001-01-01 to the first day of year `y`. Used through `chrono` in parser/serde_util.rs:17-21, 25-34. -/
def daysBeforeYear (y : Int) : Int := 365 * (y - 1) + (y - 1) / 4 - (y - 1) / 100 + (y - 1) / 400

/-- `chrono::naive::{MIN_YEAR, MAX_YEAR}`. Used through `chrono` in parser/serde_util.rs:17-21, 25-34. -/
def minYear : Int := -262144
/-- `chrono::naive::MAX_YEAR`. Used through `chrono` in parser/serde_util.rs:17-21, 25-34. -/
def maxYear : Int := 262143

/-- `NaiveDate::from_ymd_opt(..).is_some()`. Used through `chrono` in parser/serde_util.rs:17-21, 25-34. -/
def validDate (y : Int) (m d : Nat) : Bool :=
  minYear ≤ y && y ≤ maxYear && 1 ≤ m && m ≤ 12 && 1 ≤ d && d ≤ daysInMonth (isLeap y) m

/-- `NaiveDate::and_hms_opt(..).is_some()`. Used through `chrono` in parser/serde_util.rs:17-21, 25-34. -/
def validTime (h m s : Nat) : Bool := h < 24 && m < 60 && s < 60

/-- Days since 1970-01-01. Used through `chrono` in parser/serde_util.rs:17-21, 25-34. -/
def daysSinceEpoch (y : Int) (m d : Nat) : Int :=
  daysBeforeYear y + daysBeforeMonth (isLeap y) m + (d - 1) - 719162

/-- `NaiveDateTime::timestamp`. Used through `chrono` in parser/serde_util.rs:17-21, 25-34. -/
def timestamp (t : DateTime) : Int :=
  daysSinceEpoch t.year t.month t.day * 86400 + t.hour * 3600 + t.minute * 60 + t.second

/-- Month of a zero-based day of the year. Used through `chrono` in parser/serde_util.rs:17-21, 25-34. -/
def monthOf (leap : Bool) (doy : Nat) : Nat :=
  ((List.range 11).filter fun i => daysBeforeMonth leap (i + 2) ≤ doy).length + 1

/-- Year and zero-based day of the year of a number of days since 0001-01-01.
Used through `chrono` in parser/serde_util.rs:17-21, 25-34. -/
def yearOf (z : Int) : Int × Nat :=
  let a := z / 146097
  let r := z % 146097
  let b := min (r / 36524) 3
  let r := r - b * 36524
  let c := r / 1461
  let r := r - c * 1461
  let d := min (r / 365) 3
  (400 * a + 100 * b + 4 * c + d + 1, (r - d * 365).toNat)

/-- `NaiveDateTime::from_timestamp(ts, 0)`; `none` when it panics.
Used through `chrono` in parser/serde_util.rs:17-21, 25-34. -/
def fromTimestamp (ts : Int) : Option DateTime :=
  let days := ts / 86400
  let secs := (ts % 86400).toNat
  let (y, doy) := yearOf (days + 719162)
  let m := monthOf (isLeap y) doy
  if minYear ≤ y ∧ y ≤ maxYear then
    some { year := y, month := m, day := doy - daysBeforeMonth (isLeap y) m + 1,
           hour := secs / 3600, minute := secs / 60 % 60, second := secs % 60 }
  else none

/-- `deserialize` on the text of the date — serde_util.rs:7-22. -/
def deserialize (v : Str) : Out Unit UInt64 := do
  let t ← Out.unwrap (slice v 0 4)
  let year ← Out.ofOption () (parseSigned (-2147483648) 2147483647 t)
  let t ← Out.unwrap (slice v 4 6)
  let month ← Out.ofOption () (parseUnsigned 10 4294967295 t)
  let t ← Out.unwrap (slice v 6 8)
  let day ← Out.ofOption () (parseUnsigned 10 4294967295 t)
  let t ← Out.unwrap (slice v 8 10)
  let hour ← Out.ofOption () (parseUnsigned 10 4294967295 t)
  let t ← Out.unwrap (slice v 10 12)
  let minute ← Out.ofOption () (parseUnsigned 10 4294967295 t)
  let t ← Out.unwrap (slice v 12 14)
  let second ← Out.ofOption () (parseUnsigned 10 4294967295 t)
  if validDate year month day && validTime hour minute second then
    Out.ok (Int64.ofInt (timestamp { year, month, day, hour, minute, second })).toUInt64
  else Out.panic

/-- The text written for a date — serde_util.rs:26-34: the numbers one after the other, without padding. -/
def text (t : DateTime) : Str :=
  intStr t.year ++ natStr 10 t.month ++ natStr 10 t.day ++ natStr 10 t.hour ++ natStr 10 t.minute ++
    natStr 10 t.second

/-- `serialize` — serde_util.rs:24-37; `none` when `from_timestamp` panics. -/
def serialize (ts : UInt64) : Option Str := (fromTimestamp ts.toInt64.toInt).map text

end Swrs.Date
