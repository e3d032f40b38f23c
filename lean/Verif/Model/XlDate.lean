import Verif.Model.Pack
import Verif.Model.Float64
/-!
# Model of channelpack/xlrd/xldate.py
-/

namespace CP

/-- The two float multiplications of xldate.py: `frac * 86400.0` (line 99) and
`fraction * 86400000.0` (line 156), as functions of the fraction.  The theorems say
what they need of them; the one of the code is `ieeeMul`, exact multiplication is another instance. -/
structure XlMul where
  sec : Rat → Rat
  ms : Rat → Rat

/-- xldate.py:99, 156: the multiplications of floats. -/
def ieeeMul : XlMul := ⟨fun f => f64 (f * 86400), fun f => f64 (f * 86400000)⟩

/-- xldate.py:23 `_JDN_delta[datemode]` -/
def jdnDelta (datemode : Int) : Int := if datemode = 0 then 2415080 - 61 else 2416482 - 1

/-- xldate.py:32 `_XLDAYS_TOO_LARGE[datemode]` -/
def xldaysTooLarge (datemode : Int) : Int := if datemode = 0 then 2958466 else 2958466 - 1462

/-- xldate.py:118-127: from the Julian day number to year, month, day. -/
def ymdOfJdn (jdn : Int) : Int × Int × Int :=
  let yreg := ((((jdn * 4 + 274277) / 146097) * 3 / 4) + jdn + 1363) * 4 + 3
  let mp := ((yreg % 1461) / 4) * 535 + 333
  let d := ((mp % 16384) / 535) + 1
  let mp := mp / 16384
  if mp ≥ 10 then (yreg / 1461 - 4715, mp - 9, d) else (yreg / 1461 - 4716, mp + 3, d)

/-- A result of `xldate_as_tuple`. -/
structure DateTuple where
  year : Int
  month : Int
  day : Int
  hour : Int
  minute : Int
  second : Int
  deriving DecidableEq, Repr

/-- xldate.py:59-127 `xldate_as_tuple`, for finite numbers `x`.  The subtraction of line 98 is exact for
floats (`isDouble_frac`). -/
def xldateAsTuple (M : XlMul) (x : Rat) (datemode : Int) : Except Exc DateTuple :=
  if datemode ≠ 0 ∧ datemode ≠ 1 then .error .xldateBadDatemode
  else if x = 0 then .ok ⟨0, 0, 0, 0, 0, 0⟩
  else if x < 0 then .error .xldateNegative
  else
    let xldays := truncRat x
    let frac := x - xldays
    let seconds := roundHalfEven (M.sec frac)
    if ¬ (0 ≤ seconds ∧ seconds ≤ 86400) then .error .assertionError
    else
      let (xldays, hour, minute, second) :=
        if seconds = 86400 then (xldays + 1, 0, 0, 0)
        else (xldays, seconds / 60 / 60, seconds / 60 % 60, seconds % 60)
      if xldays ≥ xldaysTooLarge datemode then .error .xldateTooLarge
      else if xldays = 0 then .ok ⟨0, 0, 0, hour, minute, second⟩
      else if xldays < 61 ∧ datemode = 0 then .error .xldateAmbiguous
      else
        let (y, m, d) := ymdOfJdn (xldays + jdnDelta datemode)
        .ok ⟨y, m, d, hour, minute, second⟩

/-- xldate.py:130-159 `xldate_as_datetime`, for finite numbers `x`.  A datetime is given
by the days since 1899-12-30 and the milliseconds of the day.  `datetime + timedelta`
raises OverflowError outside the years 1..9999 (1899-12-30 has ordinal 693594, year
9999 ends with 3652059). -/
def xldateAsDatetime (M : XlMul) (x : Rat) (datemode : Int) : Except Exc (Int × Int) :=
  let epoch : Int := if datemode ≠ 0 then 1462 else if x < 60 then 1 else 0
  let days := truncRat x
  let fraction := x - days
  let ms := roundHalfEven (M.ms fraction)
  let day := epoch + days + ms / 86400000
  if day + 693594 < 1 ∨ day + 693594 > 3652059 then .error .overflowError
  else .ok (day, ms % 86400000)

/-- xldate.py:164-168 `_leap` -/
def xlLeap (y : Int) : Bool :=
  if y % 4 ≠ 0 then false
  else if y % 100 ≠ 0 then true
  else if y % 400 ≠ 0 then false
  else true

/-- xldate.py:170 `_days_in_month[month]` for `1 <= month <= 12` -/
def xlDaysInMonth (m : Int) : Int :=
  match m with
  | 1 => 31 | 2 => 28 | 3 => 31 | 4 => 30 | 5 => 31 | 6 => 30 | 7 => 31 | 8 => 31
  | 9 => 30 | 10 => 31 | 11 => 30 | _ => 31

/-- xldate.py:203-212: the Julian day number of a date. -/
def jdnOfYmd (year month day : Int) : Int :=
  let (yp, mp) := if month ≤ 2 then (year + 4716 - 1, month + 9) else (year + 4716, month - 3)
  (1461 * yp / 4) + ((979 * mp + 16) / 32) + day - 1364 - (((yp + 184) / 100) * 3 / 4)

/-- xldate.py:173-217 `xldate_from_date_tuple`; the float result is an integer. -/
def xldateFromDateTuple (year month day : Int) (datemode : Int) : Except Exc Int :=
  if datemode ≠ 0 ∧ datemode ≠ 1 then .error .xldateBadDatemode
  else if year = 0 ∧ month = 0 ∧ day = 0 then .ok 0
  else if ¬ (1900 ≤ year ∧ year ≤ 9999) then .error .xldateBadTuple
  else if ¬ (1 ≤ month ∧ month ≤ 12) then .error .xldateBadTuple
  else if day < 1 ∨ (day > xlDaysInMonth month ∧ ¬ (day = 29 ∧ month = 2 ∧ xlLeap year = true)) then
    .error .xldateBadTuple
  else
    let xldays := jdnOfYmd year month day - jdnDelta datemode
    if xldays ≤ 0 then .error .xldateBadTuple
    else if xldays < 61 ∧ datemode = 0 then .error .xldateAmbiguous
    else .ok xldays

/-- xldate.py:220-233 `xldate_from_time_tuple`, for integers, in floats. -/
def xldateFromTimeTuple (hour minute second : Int) : Except Exc Rat :=
  if (0 ≤ hour ∧ hour < 24) ∧ (0 ≤ minute ∧ minute < 60) ∧ (0 ≤ second ∧ second < 60) then
    .ok (f64 (f64 (f64 (f64 (f64 ((second : Rat) / 60) + minute) / 60) + hour) / 24))
  else .error .xldateBadTuple

/-- xldate.py:236-248 `xldate_from_datetime_tuple`, in floats. -/
def xldateFromDatetimeTuple (t : DateTuple) (datemode : Int) : Except Exc Rat :=
  match xldateFromDateTuple t.year t.month t.day datemode with
  | .error e => .error e
  | .ok d =>
    match xldateFromTimeTuple t.hour t.minute t.second with
    | .error e => .error e
    | .ok f => .ok (f64 (d + f))

end CP
