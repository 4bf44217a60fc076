import Verif.Model.Plots
import Mathlib.Data.Rat.Floor

/-!
# The time axis of a plot (plots.py 128-135, 276, 344)

The position of an item on the axis is a Javascript expression, `new Date(Date.UTC(...))`, made of the fields of the
local date and time of the item.  Modelled: the fields of a Python datetime, the expression, and the time value
Javascript gives it (ECMAScript, `Date.UTC`, `MakeDay`, `MakeTime`).  The conversion of an epoch into a datetime is
the external library `propertime`: a datetime comes with its instant and its offset.  The text of the expression is
not modelled, its arguments are.
-/

namespace Timeseria

/-- the fields of a Python `datetime`; `us` is the microsecond -/
structure DtFields where
  y : ℤ
  mo : ℤ
  d : ℤ
  h : ℤ
  mi : ℤ
  s : ℤ
  us : ℤ
  deriving DecidableEq, Repr

/-- leap years of the Gregorian calendar, as in Python and ECMAScript -/
def leapYear (y : ℤ) : Bool := decide (y % 4 = 0) && (decide (y % 100 ≠ 0) || decide (y % 400 = 0))

/-- the days of a month -/
def daysInMonth (y mo : ℤ) : ℤ :=
  if mo = 2 then (if leapYear y then 29 else 28)
  else if mo = 4 ∨ mo = 6 ∨ mo = 9 ∨ mo = 11 then 30 else 31

/-- what a `datetime` may hold -/
structure DtFields.Valid (f : DtFields) : Prop where
  y : 1 ≤ f.y ∧ f.y ≤ 9999
  mo : 1 ≤ f.mo ∧ f.mo ≤ 12
  d : 1 ≤ f.d ∧ f.d ≤ daysInMonth f.y f.mo
  h : 0 ≤ f.h ∧ f.h < 24
  mi : 0 ≤ f.mi ∧ f.mi < 60
  s : 0 ≤ f.s ∧ f.s < 60
  us : 0 ≤ f.us ∧ f.us < 1000000

/-- the arguments of `Date.UTC` in the expression of `_to_dg_time` (plots.py 128-135): the month is counted from 0, and
the milliseconds, `dt.microsecond/1000`, are there only if the microsecond is not 0 -/
structure UtcCall where
  year : ℤ
  month : ℤ
  day : ℤ
  hours : ℤ
  minutes : ℤ
  seconds : ℤ
  ms : Option ℚ
  deriving DecidableEq, Repr

/-- `_to_dg_time` (plots.py 128-135) -/
def toDgTime (f : DtFields) : UtcCall where
  year := f.y
  month := f.mo - 1
  day := f.d
  hours := f.h
  minutes := f.mi
  seconds := f.s
  ms := if f.us ≠ 0 then some (f.us / 1000) else none

/-- ECMAScript `DayFromYear` -/
def jsDayFromYear (y : ℤ) : ℤ := 365 * (y - 1970) + (y - 1969) / 4 - (y - 1901) / 100 + (y - 1601) / 400

/-- the day of the year a month starts, the months counted from 0 (ECMAScript `MonthFromTime`) -/
def jsMonthStart (leap : Bool) (m : ℤ) : ℤ :=
  let l : ℤ := if leap then 1 else 0
  if m = 0 then 0 else if m = 1 then 31 else if m = 2 then 59 + l else if m = 3 then 90 + l else if m = 4 then 120 + l
  else if m = 5 then 151 + l else if m = 6 then 181 + l else if m = 7 then 212 + l else if m = 8 then 243 + l
  else if m = 9 then 273 + l else if m = 10 then 304 + l else 334 + l

/-- ECMAScript `MakeDay` -/
def jsMakeDay (y m d : ℤ) : ℤ :=
  let ym := y + m / 12
  jsDayFromYear ym + jsMonthStart (leapYear ym) (m % 12) + d - 1

/-- ECMAScript `ToIntegerOrInfinity`: towards zero -/
def jsToInteger (q : ℚ) : ℤ := if 0 ≤ q then ⌊q⌋ else ⌈q⌉

/-- ECMAScript `MakeTime` -/
def jsMakeTime (h mi s : ℤ) (ms : ℚ) : ℤ := h * 3600000 + mi * 60000 + s * 1000 + jsToInteger ms

/-- ECMAScript `Date.UTC`: milliseconds since the epoch; years from 0 to 99 are taken as 1900 to 1999 -/
def UtcCall.eval (c : UtcCall) : ℤ :=
  let yr := if 0 ≤ c.year ∧ c.year ≤ 99 then 1900 + c.year else c.year
  jsMakeDay yr c.month c.day * 86400000 + jsMakeTime c.hours c.minutes c.seconds (c.ms.getD 0)

/-- the position on the axis, in milliseconds -/
def dgMillis (f : DtFields) : ℤ := (toDgTime f).eval

/-- a time zone, for an epoch in seconds: the fields of `dt_from_s(t, tz=...)` -/
abbrev LocalFields := String → ℚ → DtFields

/-- the positions on the axis of the rows of a plot without aggregation (plots.py 344) -/
def plotAxis (loc : LocalFields) (l : List Item) : List ℤ := l.map (fun x => dgMillis (loc x.tz x.t))

end Timeseria
