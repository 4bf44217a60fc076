import Verif.Model.Ops

/-! # The square brackets of a time series (datastructures.py 1325-1352) -/

namespace Timeseria

/-- a bound of a slice; a datetime is given by the epoch it stands for, and a number which is not an integer is
an epoch too -/
inductive SliceBound where
  | none
  | int (i : Int)
  | float (t : ℚ)
  | dt (t : ℚ)
  | other
  deriving DecidableEq, Repr

/-- what can be put in the square brackets -/
inductive Key where
  | int (i : Int)
  | float (t : ℚ)
  | dt (t : ℚ)
  | text (k : String)
  | slice (a b : SliceBound) (step : Option Int)
  | other
  deriving DecidableEq, Repr

/-- an item or a series -/
inductive Got where
  | item (x : Item)
  | series (s : TSeries)
  deriving DecidableEq, Repr

/-- a bound as the argument `from_i` or `to_i` of `slice` (operations.py 891-893, 906-908): anything but an integer
is refused -/
def SliceBound.asIndex : SliceBound → Except PyErr (Option Int)
  | .none => .ok Option.none
  | .int i => .ok (some i)
  | _ => .error .valueError

/-- a bound as the argument `from_t` or `to_t` (operations.py 894-896, 909-911).  An integer bound never gets here. -/
def SliceBound.asEpoch : SliceBound → Except PyErr (Option ℚ)
  | .none => .ok Option.none
  | .float t => .ok (some t)
  | .int i => .ok (some i)
  | _ => .error .valueError

/-- a bound as the argument `from_dt` or `to_dt` (operations.py 897-899, 912-914) -/
def SliceBound.asDt : SliceBound → Except PyErr (Option ℚ)
  | .none => .ok Option.none
  | .dt t => .ok (some t)
  | _ => .error .valueError

def SliceBound.isInt : SliceBound → Bool
  | .int _ => true
  | _ => false

def SliceBound.isFloat : SliceBound → Bool
  | .float _ => true
  | _ => false

def SliceBound.isDt : SliceBound → Bool
  | .dt _ => true
  | _ => false

/-- two conversions in a row -/
def both {α : Type} (a b : Except PyErr (Option α)) : Except PyErr (Option α × Option α) :=
  match a, b with
  | .ok x, .ok y => .ok (x, y)
  | .error e, _ => .error e
  | _, .error e => .error e

/-- the series of a result -/
def gotSeries (r : Except PyErr TSeries) : Except PyErr Got := r.map Got.series

/-- the item of a result -/
def gotItem (r : Except PyErr Item) : Except PyErr Got := r.map Got.item

/-- `series[a:b:step]` (1325-1338): the kind of the bounds is decided by the integers first, then the floats, then the
datetimes; the step is never looked at.  (An empty series is refused before the bounds are checked, with the same
exception, so the order does not matter.) -/
def TSeries.getSliceItem (s : TSeries) (a b : SliceBound) : Except PyErr TSeries :=
  if a.isInt || b.isInt then
    match both a.asIndex b.asIndex with
    | .error e => .error e
    | .ok (x, y) => s.slice x y none none
  else if a.isFloat || b.isFloat then
    match both a.asEpoch b.asEpoch with
    | .error e => .error e
    | .ok (x, y) => s.slice none none x y
  else if a.isDt || b.isDt then
    match both a.asDt b.asDt with
    | .error e => .error e
    | .ok (x, y) => s.slice none none x y
  else .error .valueError

/-- `series[key]` (1325-1352): for any other object the message of the `ValueError` reads `arg.start`, an
`AttributeError` (1351) -/
def TSeries.getItem (s : TSeries) : Key → Except PyErr Got
  | .slice a b _ => gotSeries (s.getSliceItem a b)
  | .text k => gotSeries (s.filterOp [k])
  | .int i => gotItem (s.getAt i)
  | .float t => gotItem (s.getAtT t)
  | .dt t => gotItem (s.getAtT t)
  | .other => .error .attributeError

end Timeseria
