import Verif.Model.Transform
import Verif.Model.Ops

/-! # The built-in operations of an aggregation other than the average (operations.py 73-124, 191-207)

They do not support weights: they are given the points of the slot only (transformations.py 289-292), as a dense view (so with
the interpolated ones) or as a series with a single point. -/

namespace Timeseria

/-- the values of one label of the points of a view, in order: `item._data_by_label(label)` (datastructures.py 271-278) -/
def viewValues (k : String) : List VPoint → Except PyErr (List ℚ)
  | [] => .ok []
  | p :: r =>
    match p.data.get? k with
    | none => .error .keyError
    | some v =>
      match viewValues k r with
      | .error e => .error e
      | .ok l => .ok (v :: l)

/-- `if item > maxs[label]: maxs[label] = item` (operations.py 87-91) -/
def slotMaxStep (m v : ℚ) : ℚ := if v > m then v else m

/-- `if item < mins[label]: mins[label] = item` (operations.py 114-117) -/
def slotMinStep (m v : ℚ) : ℚ := if v < m then v else m

/-- `Max` and `Min` on a view (operations.py 73-124): the first value, then the steps.  An empty view is refused by
`Operation.__call__` (46-47). -/
def extremeView (step : ℚ → ℚ → ℚ) (ks : List String) (view : List VPoint) : Except PyErr (Dict ℚ) :=
  perLabelDict ks (fun k =>
    match viewValues k view with
    | .error e => .error e
    | .ok [] => .error .valueError
    | .ok (v :: r) => .ok (r.foldl step v))

/-- `Sum` on a view (operations.py 191-207) -/
def sumView (ks : List String) (view : List VPoint) : Except PyErr (Dict ℚ) :=
  if view.isEmpty then .error .valueError
  else perLabelDict ks (fun k =>
    match viewValues k view with
    | .error e => .error e
    | .ok l => .ok (l.foldl (· + ·) 0))

/-- `max`, as an operation of an aggregation -/
def maxSlotOp : SlotOp := { name := "max", weighted := false, run := fun ks _ _ v => extremeView slotMaxStep ks v }
/-- `min`, as an operation of an aggregation -/
def minSlotOp : SlotOp := { name := "min", weighted := false, run := fun ks _ _ v => extremeView slotMinStep ks v }
/-- `sum`, as an operation of an aggregation -/
def sumSlotOp : SlotOp := { name := "sum", weighted := false, run := fun ks _ _ v => sumView ks v }

end Timeseria
