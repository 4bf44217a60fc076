import Verif.Model.BaseSeries
import Verif.Model.Ops

/-! # Operations on series which are not in time

The methods for the operations are those of the base class `Series` (datastructures.py 932-1035), so that they can be called on a series of
`DataPoint` or `DataSlot` objects in a space of one dimension. -/

namespace Timeseria

/-- a `DataPoint` (datastructures.py 177-219) or a `DataSlot` (476-521) with one coordinate and key-value data; a slot has its end and its unit -/
structure PlainItem where
  start : ℚ
  slot : Option (ℚ × ℚ) := none
  data : Dict ℚ
  idx : Idx := []
  deriving DecidableEq

/-- comparing coordinates (68-79), `__succedes__` of slots (351-355), equality (58-66, 344-349) -/
def plainClass : ItemClass PlainItem where
  isInst x y := x.slot.isSome == y.slot.isSome
  succ x := match x.slot with
    | none => none
    | some _ => some (fun y => match y.slot with | some (e, _) => decide (e = x.start) | none => false)
  gt x y := .ok (decide (x.start > y.start))
  eq x y := decide (x = y)
  data x := some (.dict x.data)

/-- the item created by the operations (operations.py 663-673, 728-738): `t = item.t, tz = item.tz` for points, but a `DataPoint` which is not in time has no
`t`: an `AttributeError`; `start = item.start, unit = item.unit` for slots, with the end computed from them (datastructures.py 328-331, units.py 39-48) -/
def remakePlain (x : PlainItem) (d : Dict ℚ) : Except PyErr PlainItem :=
  match x.slot with
  | none => .error .attributeError
  | some (_, u) => .ok { start := x.start, slot := some (x.start + u, u), data := d, idx := x.idx }

/-- one value of the item, under its label, and what is done to it (operations.py 650-660, 715-725) -/
def plainValue (g : String → ℚ → ℚ) (x : PlainItem) (k : String) : Except PyErr (String × ℚ) :=
  match x.data.get? k with
  | some v => .ok (k, g k v)
  | none => .error .keyError

/-- the loop of `Rescale` and `Offset` (operations.py 635-674, 699-739): `g` is what is done to a value -/
def plainLoop (g : String → ℚ → ℚ) (ks : List String) : BSeries PlainItem → List PlainItem → Except PyErr (BSeries PlainItem)
  | acc, [] => .ok acc
  | acc, x :: r =>
    match mapE (plainValue g x) ks with
    | .error e => .error e
    | .ok kvs => match remakePlain x (kvs.foldl (fun d p => Dict.set d p.1 p.2) []) with
      | .error e => .error e
      | .ok y => match acc.append plainClass y with
        | (_, .error e) => .error e
        | (acc', .ok _) => plainLoop g ks acc' r

/-- `series.rescale(v)` or `series.offset(v)` on such a series (operations.py 47, 619-677, 683-742) -/
def BSeries.plainMap (g : String → ℚ → ℚ) (s : BSeries PlainItem) : Except PyErr (BSeries PlainItem) :=
  match s.items with
  | [] => .error .valueError
  | x :: _ => match s.ref with
    | none => .error .typeError
    | some r => if !r.truthy then .error .typeError else plainLoop g (sortStr x.data.keys) {} s.items

/-- the operations which look at `series.resolution` (operations.py 239-253, 372-387, 514-527): the base class has no such attribute -/
inductive TimedOp where
  | derivative | diff | integral | csum

def BSeries.timedOp (s : BSeries PlainItem) (op : TimedOp) : Except PyErr (BSeries PlainItem) :=
  match s.items, op with
  | [], _ => .error .valueError
  | [_], .derivative => .error .valueError      -- 231-235: before the resolution
  | _, _ => .error .attributeError

end Timeseria
