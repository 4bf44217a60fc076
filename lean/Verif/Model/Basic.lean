import Mathlib.Algebra.Order.Field.Rat
import Mathlib.Tactic.Linarith
import Mathlib.Tactic.Ring
import Mathlib.Tactic.FieldSimp
import Mathlib.Tactic.NormNum
import Mathlib.Tactic.IntervalCases
import Mathlib.Data.List.TakeWhile
import Mathlib.Data.List.Basic
import Mathlib.Data.List.Chain
import Mathlib.Tactic.Tauto
import Mathlib.Tactic.Positivity

/-!
# Basic Python-side notions shared by all the model

Numbers are exact rationals: Python `int` and `float` values are both represented by `ℚ`
(no rounding, no NaN, no infinities).  Exceptions are the error values of `Except PyErr`.
-/

namespace Timeseria

/-- The Python exception classes raised by the modelled code (messages are dropped). -/
inductive PyErr where
  | valueError | typeError | indexError | keyError | attributeError | zeroDivision
  | notImplemented | notFitted | fileExists | ioError | floatConversion | stopIteration
  | exception        -- bare `Exception(...)`
  deriving DecidableEq, Repr, Inhabited

/-- A Python dictionary with string keys: association list in insertion order.
Python guarantees key uniqueness; see `Dict.WF`. -/
abbrev Dict (α : Type) := List (String × α)

namespace Dict
variable {α : Type}

/-- the keys, in insertion order (`d.keys()`) -/
def keys (d : Dict α) : List String := d.map Prod.fst

/-- `d.get(k)` : `none` stands for a missing key -/
def get? (d : Dict α) (k : String) : Option α := List.lookup k d

/-- `d[k] = v` : keeps the position of an existing key, appends a new one -/
def set (d : Dict α) (k : String) (v : α) : Dict α :=
  match d with
  | [] => [(k, v)]
  | (k', v') :: r => if k' = k then (k, v) :: r else (k', v') :: set r k v

/-- `d.pop(k, None)` -/
def erase (d : Dict α) (k : String) : Dict α := d.filter (fun p => p.1 ≠ k)

/-- keys are unique: holds for every Python dictionary -/
def WF (d : Dict α) : Prop := d.keys.Nodup

/-- `set(a.keys()) == set(b.keys())` -/
def sameKeys {β : Type} (a : Dict α) (b : Dict β) : Bool :=
  a.keys.all (fun k => b.keys.contains k) && b.keys.all (fun k => a.keys.contains k)

end Dict

/-- The data carried by an item (`item.data`): a number, a list of numbers or a dictionary of
numbers.  datastructures.py 187-278 accepts any object; other types are not modelled. -/
inductive Data where
  | num  (x : ℚ)
  | list (l : List ℚ)
  | dict (d : Dict ℚ)
  deriving DecidableEq, Repr, Inhabited

/-- Python truth value of the data (`if self._item_data_reference`, datastructures.py 683):
zero, the empty list and the empty dictionary are false. -/
def Data.truthy : Data → Bool
  | .num x => x ≠ 0
  | .list l => !l.isEmpty
  | .dict d => !d.isEmpty

/-- A time unit (units.py 112-203, on top of the external `propertime.TimeSpan`): calendar
components and a physical part in seconds.  Simplification: hours and minutes are folded into the
seconds (units.py 129-131 documents `'1h'`, `hours=1` and `3600` as equivalent), equality is
structural. -/
structure TUnit where
  years : Int := 0
  months : Int := 0
  weeks : Int := 0
  days : Int := 0
  secs : ℚ := 0
  deriving DecidableEq, Repr, Inhabited

/-- a physical unit of `x` seconds -/
def TUnit.ofSecs (x : ℚ) : TUnit := { secs := x }

/-- no calendar components: the duration is a fixed number of seconds -/
def TUnit.Physical (u : TUnit) : Prop := u.years = 0 ∧ u.months = 0 ∧ u.weeks = 0 ∧ u.days = 0

/-- data indexes of an item: name to value, where the value may be `None` -/
abbrev Idx := Dict (Option ℚ)

/-- An item of a time series: `TimePoint`, `DataTimePoint`, `TimeSlot` or `DataTimeSlot`
(datastructures.py 87-174, 281-297, 395-473, 580-597).

* `slot = none` for points, `some (end.t, unit)` for slots (the unit is the one given or, when
  missing, the one computed at lines 453-460);
* `t` is `item.t` (`start.t` for slots);
* `tz` is `item.tz`, time zones being compared by name;
* `data = none` for the classes without data. -/
structure Item where
  t : ℚ
  slot : Option (ℚ × TUnit) := none
  tz : String := "UTC"
  data : Option Data := none
  idx : Idx := []
  deriving DecidableEq, Repr, Inhabited

/-- isinstance(item, TimeSlot) -/
def Item.isSlot (x : Item) : Bool := x.slot.isSome

/-- the end timestamp of a slot (a point ends where it is) -/
def Item.endT (x : Item) : ℚ := match x.slot with | some (e, _) => e | none => x.t

/-- the unit of a slot (meaningless for points) -/
def Item.unit (x : Item) : TUnit := match x.slot with | some (_, u) => u | none => {}

/-- a `DataTimePoint` -/
def mkPoint (t : ℚ) (data : Data) (tz : String := "UTC") (idx : Idx := []) : Item :=
  { t := t, slot := none, tz := tz, data := some data, idx := idx }

/-- The four item classes. -/
inductive Cls where
  | timePoint | dataTimePoint | timeSlot | dataTimeSlot
  deriving DecidableEq, Repr

/-- `item.__class__` -/
def Item.cls (x : Item) : Cls :=
  match x.isSlot, x.data.isSome with
  | false, false => .timePoint
  | false, true => .dataTimePoint
  | true, false => .timeSlot
  | true, true => .dataTimeSlot

/-- `isinstance(x, c)`: `DataTimePoint` derives from `TimePoint` and `DataTimeSlot` from
`TimeSlot` (datastructures.py 281, 580). -/
def Item.isInstance (x : Item) (c : Cls) : Bool :=
  match c with
  | .timePoint => !x.isSlot
  | .dataTimePoint => !x.isSlot && x.data.isSome
  | .timeSlot => x.isSlot
  | .dataTimeSlot => x.isSlot && x.data.isSome

end Timeseria
