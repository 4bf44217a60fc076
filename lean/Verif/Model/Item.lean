import Verif.Model.Basic

/-! # Points and slots: equality, order, succession, construction -/

namespace Timeseria

/-- `==` between two data dictionaries: same number of keys and same value for each key,
whatever the insertion order. -/
def dictEq (a b : Dict ℚ) : Bool :=
  a.length == b.length && a.all (fun p => b.get? p.1 == some p.2)

/-- `==` between data objects (Python compares numbers, lists and dictionaries structurally;
objects of different types are different). -/
def dataEq : Data → Data → Bool
  | .num x, .num y => x == y
  | .list x, .list y => x == y
  | .dict x, .dict y => dictEq x y
  | _, _ => false

/-- `a == b` between items.

Points: `DataPoint.__eq__` (datastructures.py 229-235) compares the data only if *both* have some
(the `AttributeError` of a missing `_data` is swallowed), then `Point.__eq__` (60-69) compares the
coordinates.  When only one side has data Python's dispatch (subclass first) still reaches
`DataPoint.__eq__`.  A point is never equal to a slot (68-69).

Slots: `DataSlot.__eq__` (531-534) reads `other._data` without a guard, so comparing with a slot
without data raises `AttributeError`; `Slot.__eq__` (349-354) compares start and end, and raises
`AttributeError` on a point. -/
def itemEq (a b : Item) : Except PyErr Bool :=
  match a.slot, b.slot with
  | none, none =>
    match a.data, b.data with
    | some x, some y => if dataEq x y then .ok (a.t == b.t) else .ok false
    | _, _ => .ok (a.t == b.t)
  | none, some _ => .ok false
  | some (e, _), some (e', _) =>
    match a.data, b.data with
    | some x, some y => if dataEq x y then .ok (a.t == b.t && e == e') else .ok false
    | none, none => .ok (a.t == b.t && e == e')
    | _, _ => .error .attributeError
  | some _, none =>
    match a.data, b.data with
    | some x, some y => if dataEq x y then .error .attributeError else .ok false
    | _, _ => .error .attributeError

/-- `_is_close(a, b)` with the default tolerances (utilities.py 524-525). -/
def isClose (a b : ℚ) : Bool :=
  |a - b| ≤ max ((1 / 1000000000) * max |a| |b|) 0

/-- `x.__succedes__(y)` for time slots (datastructures.py 437-444). -/
def slotSucceeds (x y : Item) : Bool :=
  if y.endT ≠ x.t then isClose y.endT x.t else true

/-- The external calendar (`propertime.TimeSpan.shift`): moving a timestamp, read in a time zone,
by one time unit.  Only its behaviour on physical units is assumed. -/
structure Calendar where
  shift : TUnit → String → ℚ → ℚ
  physical : ∀ u tz t, u.Physical → shift u tz t = t + u.secs

/-- a calendar exists: ignore the calendar components -/
def physicalCalendar : Calendar where
  shift u _ t := t + u.secs
  physical := by intros; rfl

/-- A time point used as slot start or end: timestamp and time zone. -/
abbrev TP := ℚ × String

/-- `TimeSlot(start, end, unit)` (datastructures.py 407-433 on top of 316-341) followed by the
`unit` property (453-460).  Data and indexes are set by the caller.  Time points are
one-dimensional, so the dimension check at 332 never fires here.  Simplification: the unit derived
from start and end goes through `str(float)`; it is taken as exact. -/
def mkTimeSlot (cal : Calendar) (start : TP) (stop : Option TP) (unit : Option TUnit) :
    Except PyErr Item :=
  -- 421-423: time zone check
  match stop with
  | some e =>
    if start.2 ≠ e.2 then .error .valueError
    -- 331-335
    else if start.1 = e.1 then .error .valueError
    else .ok { t := start.1
               slot := some (e.1, unit.getD (TUnit.ofSecs (e.1 - start.1)))
               tz := start.2 }
  | none =>
    match unit with
    -- 327-330
    | some u => .ok { t := start.1, slot := some (cal.shift u start.2 start.1, u), tz := start.2 }
    -- 332: `len(end.coordinates)` with `end` None
    | none => .error .attributeError

/-- coordinates of a generic point -/
abbrev Coords := List ℚ

/-- `Slot(start, end)` for generic (multi-dimensional) points, datastructures.py 331-338. -/
def mkGenericSlot (start stop : Coords) : Except PyErr (Coords × Coords) :=
  if start.length ≠ stop.length then .error .valueError
  else if start = stop then .error .valueError
  else .ok (start, stop)

end Timeseria
