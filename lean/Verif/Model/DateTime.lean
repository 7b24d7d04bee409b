import Verif.Model.Arithmetic
/-! `src/runtime/datetime.rs`, and the part of `chrono` 0.4.43 it uses: proleptic Gregorian dates,
timestamps in seconds, durations. -/

namespace Cal

/-- Range of years `chrono::NaiveDate` supports. -/
def minYear : Int := -262143
def maxYear : Int := 262142

/-- Gregorian leap years. -/
def isLeap (y : Int) : Bool := y % 4 == 0 && (y % 100 != 0 || y % 400 == 0)

/-- Number of days of a month; 0 for numbers that are not months. -/
def daysInMonth (y : Int) (m : Nat) : Nat :=
  match m with
  | 1 | 3 | 5 | 7 | 8 | 10 | 12 => 31
  | 4 | 6 | 9 | 11 => 30
  | 2 => if isLeap y then 29 else 28
  | _ => 0

/-- Day number of a civil date, 1970-01-01 being day 0 (`NaiveDate::num_days_from_ce` shifted).
Computed with the year starting in March. -/
def dayNumber (y : Int) (m d : Nat) : Int :=
  let y' := if m ≤ 2 then y - 1 else y
  let era := y' / 400
  let yoe := y' % 400
  let mp : Int := if m ≤ 2 then (m : Int) + 9 else (m : Int) - 3
  let doy := (153 * mp + 2) / 5 + (d : Int) - 1
  let doe := yoe * 365 + yoe / 4 - yoe / 100 + doy
  era * 146097 + doe - 719468

/-- Civil date of a day number (`NaiveDate::from_num_days_from_ce_opt`, then `year`, `month`, `day`). -/
def civil (z : Int) : Int × Nat × Nat :=
  let z := z + 719468
  let era := z / 146097
  let doe := z % 146097
  let yoe := (doe - doe / 1460 + doe / 36524 - doe / 146096) / 365
  let doy := doe - (365 * yoe + yoe / 4 - yoe / 100)
  let mp := (5 * doy + 2) / 153
  let d := doy - (153 * mp + 2) / 5 + 1
  let m := if mp < 10 then mp + 3 else mp - 9
  let y := yoe + era * 400
  (if m ≤ 2 then y + 1 else y, m.toNat, d.toNat)

/-- `NaiveDate::from_ymd_opt`, as a day number. -/
def fromYmd (y : Int) (m d : Nat) : Option Int :=
  if minYear ≤ y ∧ y ≤ maxYear ∧ 1 ≤ m ∧ m ≤ 12 ∧ 1 ≤ d ∧ d ≤ daysInMonth y m
  then some (dayNumber y m d) else none

/-- First and last supported day numbers. -/
def minDay : Int := dayNumber minYear 1 1
def maxDay : Int := dayNumber maxYear 12 31

/-- `DateTime::from_timestamp(ts, 0)`: day number and second of the day. -/
def fromTimestamp (ts : Int) : Option (Int × Int) :=
  if minDay ≤ ts / 86400 ∧ ts / 86400 ≤ maxDay then some (ts / 86400, ts % 86400) else none

/-- Bounds of `chrono::TimeDelta` in whole seconds. -/
def maxDeltaSecs : Int := 9223372036854775

/-- `dt + Duration::<unit>(interval)`: `unit` is the unit's length in seconds. Both constructing the
duration and adding it panic out of range. -/
def addDuration (ts interval unit : Int) : Res Int :=
  let secs := interval * unit
  if secs < -maxDeltaSecs ∨ maxDeltaSecs < secs then panics "TimeDelta out of bounds"
  else match fromTimestamp (ts + secs) with
    | some _ => .ok (ts + secs)
    | none => panics "`DateTime + TimeDelta` overflowed"

end Cal

namespace DT

open Cal

/-- Wrapping conversion `i64 as i32`. -/
def wrapI32 (i : Int) : Int := (i + 2147483648) % 4294967296 - 2147483648

/-- `x as u32`. -/
def toU32 (x : F64) : Nat := (F64.toIntSat 0 4294967295 x).toNat

/-- `NOW`. Models `src/runtime/datetime.rs:11-14`. -/
def now (X : Ext) : Builtin := fun _ => .ok (.dt X.now)

/-- `DATE`. Models `src/runtime/datetime.rs:15-44`. -/
def date (X : Ext) : Builtin := fun args =>
  match args with
  | [] => .ok (.dt X.today)
  | [a, b, c] => match a with
    | .num y => match b with
      | .num m => match c with
        | .num d => match fromYmd y.toI32 (toU32 m) (toU32 d) with
          | some day => .ok (.dt (day * 86400))
          | none => fail "Invalid date"
        | _ => fail "DATE expects day as number"
      | _ => fail "DATE expects month as number"
    | _ => fail "DATE expects year as number"
  | _ => fail "DATE expects either no arguments or three arguments (year, month, day)"

/-- `TIME`. Models `src/runtime/datetime.rs:45-49`. -/
def time (X : Ext) : Builtin := fun _ => .ok (.num (F64.ofNat X.secsOfDay))

/-- A civil field of a timestamp. Models `src/runtime/datetime.rs:50-76`. -/
def field (err : String) (f : Int × Nat × Nat → Int) : Builtin := fun args =>
  match argAt args 0 with
  | some (.dt ts) => match fromTimestamp ts with
    | some (day, _) => .ok (.num (F64.ofInt (f (civil day))))
    | none => fail "Invalid timestamp"
  | _ => fail err

/-- `YEAR`. Models `src/runtime/datetime.rs:50-58`. -/
def year : Builtin := field "YEAR expects datetime" (fun c => c.1)
/-- `MONTH`. Models `src/runtime/datetime.rs:59-67`. -/
def month : Builtin := field "MONTH expects datetime" (fun c => c.2.1)
/-- `DAY`. Models `src/runtime/datetime.rs:68-76`. -/
def day : Builtin := field "DAY expects datetime" (fun c => c.2.2)

/-- `while month > 12 { year += 1; month -= 12; }` with enough fuel.
Models `src/runtime/datetime.rs:107-110`. -/
def normUp : Nat → Int × Int → Int × Int
  | 0, ym => ym
  | n + 1, (y, m) => if 12 < m then normUp n (y + 1, m - 12) else (y, m)

/-- `while month < 1 { year -= 1; month += 12; }` with enough fuel.
Models `src/runtime/datetime.rs:111-114`. -/
def normDown : Nat → Int × Int → Int × Int
  | 0, ym => ym
  | n + 1, (y, m) => if m < 1 then normDown n (y - 1, m + 12) else (y, m)

/-- A date in the given month, falling back to day 28; a panic when that does not exist either.
Models `src/runtime/datetime.rs:115-117,121-123`. -/
def dateOr28 (y : Int) (m d : Nat) (sec : Int) : Res Int :=
  match fromYmd y m d with
  | some n => .ok (n * 86400 + sec)
  | none => match fromYmd y m 28 with
    | some n => .ok (n * 86400 + sec)
    | none => panics "called `Option::unwrap()` on a `None` value"

/-- `i32` addition: a panic on overflow in a debug build. -/
def addI32 (a b : Int) : Res Int :=
  if F64.i32Min ≤ a + b ∧ a + b ≤ F64.i32Max then .ok (a + b) else panics "attempt to add with overflow"

/-- Add months. Models `src/runtime/datetime.rs:103-118`. -/
def addMonths (day sec interval : Int) : Res Int := do
  let (y, m, d) := civil day
  let month ← addI32 m (wrapI32 interval)
  let (y, month) := normUp month.toNat (y, month)
  let (y, month) := normDown (1 - month).toNat (y, month)
  dateOr28 y month.toNat d sec

/-- Add years. Models `src/runtime/datetime.rs:119-124`. -/
def addYears (day sec interval : Int) : Res Int := do
  let (y, m, d) := civil day
  let y ← addI32 y (wrapI32 interval)
  dateOr28 y m d sec

/-- The units. Models the string patterns of `src/runtime/datetime.rs:98-119,155-165`. -/
inductive Unit' where
  | days | hours | minutes | seconds | weeks | months | years
deriving DecidableEq, Repr

/-- Decode a lower-cased unit name. Models the patterns of `src/runtime/datetime.rs:98-119`. -/
def unitOf (s : Str) : Option Unit' :=
  if s = c!"days" ∨ s = c!"day" ∨ s = c!"d" then some .days
  else if s = c!"hours" ∨ s = c!"hour" ∨ s = c!"h" then some .hours
  else if s = c!"minutes" ∨ s = c!"minute" ∨ s = c!"m" then some .minutes
  else if s = c!"seconds" ∨ s = c!"second" ∨ s = c!"s" then some .seconds
  else if s = c!"weeks" ∨ s = c!"week" ∨ s = c!"w" then some .weeks
  else if s = c!"months" ∨ s = c!"month" then some .months
  else if s = c!"years" ∨ s = c!"year" ∨ s = c!"y" then some .years
  else none

/-- `DATEADD` on decoded arguments. Models `src/runtime/datetime.rs:94-128`. -/
def dateaddCore (ts interval : Int) (unit : Option Unit') : Res Value :=
  match fromTimestamp ts with
  | none => fail "Invalid timestamp"
  | some (day, sec) => match unit with
    | some .days => do return .dt (← addDuration ts interval 86400)
    | some .hours => do return .dt (← addDuration ts interval 3600)
    | some .minutes => do return .dt (← addDuration ts interval 60)
    | some .seconds => do return .dt (← addDuration ts interval 1)
    | some .weeks => do return .dt (← addDuration ts interval 604800)
    | some .months => do return .dt (← addMonths day sec interval)
    | some .years => do return .dt (← addYears day sec interval)
    | none => fail "DATEADD unit must be one of: days, hours, minutes, seconds, weeks, months, years"

/-- `DATEADD`. Models `src/runtime/datetime.rs:77-129`. -/
def dateadd (X : Ext) : Builtin := fun args =>
  match args with
  | a :: b :: c :: _ => match a with
    | .dt ts => match b with
      | .num n => match c with
        | .str u => dateaddCore ts n.toI64 (unitOf (X.lower u))
        | _ => fail "DATEADD expects string unit as third argument"
      | _ => fail "DATEADD expects number as second argument"
    | _ => fail "DATEADD expects datetime as first argument"
  | _ => fail "DATEADD expects date, interval, unit"

/-- `DATEDIFF` on decoded arguments. Models `src/runtime/datetime.rs:147-169`. Differences are truncated
towards zero (`TimeDelta::num_days` and friends). -/
def datediffCore (t1 t2 : Int) (unit : Option Unit') : Res Value :=
  match fromTimestamp t1 with
  | none => fail "Invalid timestamp1"
  | some (d1, _) => match fromTimestamp t2 with
    | none => fail "Invalid timestamp2"
    | some (d2, _) =>
      let c1 := civil d1
      let c2 := civil d2
      match unit with
      | some .days => .ok (.num (F64.ofInt ((t2 - t1).tdiv 86400)))
      | some .hours => .ok (.num (F64.ofInt ((t2 - t1).tdiv 3600)))
      | some .minutes => .ok (.num (F64.ofInt ((t2 - t1).tdiv 60)))
      | some .seconds => .ok (.num (F64.ofInt (t2 - t1)))
      | some .weeks => .ok (.num (F64.ofInt (((t2 - t1).tdiv 86400).tdiv 7)))
      | some .months => .ok (.num (F64.ofInt ((c2.1 - c1.1) * 12 + ((c2.2.1 : Int) - c1.2.1))))
      | some .years => .ok (.num (F64.ofInt (c2.1 - c1.1)))
      | none => fail "DATEDIFF unit must be one of: days, hours, minutes, seconds, weeks, months, years"

/-- `DATEDIFF`. Models `src/runtime/datetime.rs:130-170`. -/
def datediff (X : Ext) : Builtin := fun args =>
  match args with
  | a :: b :: c :: _ => match a with
    | .dt t1 => match b with
      | .dt t2 => match c with
        | .str u => datediffCore t1 t2 (unitOf (X.lower u))
        | _ => fail "DATEDIFF expects string unit as third argument"
      | _ => fail "DATEDIFF expects datetime as second argument"
    | _ => fail "DATEDIFF expects datetime as first argument"
  | _ => fail "DATEDIFF expects date1, date2, unit"

/-- The arms of `src/runtime/datetime.rs:10-170`. -/
def table (X : Ext) : List (Str × Builtin) :=
  [(c!"NOW", now X), (c!"DATE", date X), (c!"TIME", time X), (c!"YEAR", year), (c!"MONTH", month),
   (c!"DAY", day), (c!"DATEADD", dateadd X), (c!"DATEDIFF", datediff X)]

end DT

/-- Models `src/runtime/datetime.rs:9-173` (`exec_datetime`). -/
def execDatetime (X : Ext) (name : Str) (args : List Value) : Res Value :=
  match lookupFn name (DT.table X) with
  | some f => f args
  | none => fail "Unknown datetime function: {}" [name]

/-- Models `src/runtime/datetime.rs:5-7` (`is_datetime_function`). -/
def isDatetimeFunction (name : Str) : Bool :=
  name ∈ [c!"NOW", c!"DATE", c!"TIME", c!"YEAR", c!"MONTH", c!"DAY", c!"DATEADD", c!"DATEDIFF"]
