import Verif.Model.Access
import Verif.Model.ListMethods
import Verif.Model.Ops

/-! # Views as objects

`TimeSeriesView` (datastructures.py 1797-1915) derives from `TimeSeries`, hence from `list`.  It rewrites
`__getitem__`, `__iter__`, `__next__`, `__len__`, `__bool__`, `item_type`, `resolution` and
`data_labels`; everything else is inherited and works on the list and on the attributes of the view
itself, which have nothing to do with the series shown.  This module models both sides. -/

namespace Timeseria

/-- The items a view shows, for bounds inside the series (datastructures.py 1851-1878). -/
def View.window (v : View) : List Item := (v.series.items.drop v.fromI.toNat).take (v.toI - v.fromI).toNat

/-- A view of a non-empty series with bounds inside it (datastructures.py 1800-1806): the view, and
what it inherits from `list` and `TimeSeries`: its own items and attributes, none of which exists in a
view just made with `series.view(a, b)`. -/
structure ViewObj where
  view : View
  own : TSeries := {}

/-- the attributes of the view, as the inherited methods see them: the items are those shown, since
`len(self)`, `self[k]` and `for item in self` are rewritten -/
def ViewObj.face (o : ViewObj) : TSeries := { o.own with items := o.view.window }

/-- `bool(view)` (1881-1885): the length of the series shown, not of the view -/
def ViewObj.truthy (o : ViewObj) : Bool := !o.view.series.items.isEmpty

/-- datastructures.py 1222-1310 and 642-699: `view.append(x)`.  The checks of `TimeSeries.append` use the
attributes of the view; `Series.append` compares with the class of the first item of the series shown
(1888-1892) and with `self[-1]`, and then reads `self._item_data_reference` (682), an attribute the view
does not have. -/
def ViewObj.append (o : ViewObj) (x : Item) : ViewObj × Outcome :=
  let r := if x.isSlot then o.face.preSlot x else o.face.prePoint x
  let o' : ViewObj := { o with own := { r.1 with items := o.own.items } }
  match r.2 with
  | .error e => (o', .error e)
  | .ok _ =>
    match o.view.series.items.head? with
    | none => (o', .error .indexError)
    | some first =>
      if !x.isInstance first.cls then (o', .error .typeError)
      else match o.view.getAt (-1) with
        | .error e => (o', .error e)
        | .ok last =>
          if (if x.isSlot then !slotSucceeds x last else !decide (x.t > last.t)) then (o', .error .valueError)
          else (o', .error .attributeError)

/-- datastructures.py 738-778: `view.insert(i, x)`.  The checks look at the items shown, the insertion at
775 (`list.insert`) goes to the own list of the view. -/
def ViewObj.insert (o : ViewObj) (i : Int) (x : Item) : ViewObj × Outcome :=
  match o.view.window.head?, o.view.window.getLast?, o.view.series.items.head? with
  | some first, some last, some ref =>
    let done : ViewObj × Outcome :=
      ({ o with own := { o.own with items := insertAt o.own.items (pyInsertPos o.own.items.length i) x } }, .ok ())
    if !x.isInstance ref.cls then (o, .error .typeError)
    else if i = 0 then
      if (if first.isSlot then slotSucceeds first x else decide (first.t > x.t)) then done
      else (o, .error .valueError)
    else if i = o.view.window.length then
      if (if x.isSlot then slotSucceeds x last else decide (x.t > last.t)) then done
      else (o, .error .valueError)
    else if first.isSlot then (o, .error .indexError)
    else
      match o.view.getAt (i - 1) with
      | .error e => (o, .error e)
      | .ok y =>
        if x.t > y.t then done
        else match o.view.getAt i with            -- 771: the message shows `self[i]`
          | .error e => (o, .error e)
          | .ok _ => (o, .error .valueError)
  | _, _, _ => o.append x

/-- datastructures.py 780-793: `view.remove(x)`: `self[0]` is the first item shown, `list.remove` works on
the own list. -/
def ViewObj.remove (o : ViewObj) (x : Item) : ViewObj × Outcome :=
  let fromOwn : ViewObj × Outcome :=
    match removeFirst x o.own.items with
    | .ok l => ({ o with own := { o.own with items := l } }, .ok ())
    | .error e => (o, .error e)
  match o.view.getAt 0 with
  | .ok y => if y.isSlot then (o, .error .notImplemented) else fromOwn
  | .error _ => fromOwn

/-- datastructures.py 795-813: `view.pop(i)`: the length is that of the view, `list.pop` works on the own
list. -/
def ViewObj.pop (o : ViewObj) (i : Option Int) : ViewObj × Except PyErr Item :=
  match o.view.window with
  | [] => (o, .error .indexError)
  | y :: _ =>
    let n := o.view.window.length
    let popAt (i : Int) : ViewObj × Except PyErr Item :=
      match pyPos o.own.items.length i with
      | none => (o, .error .indexError)
      | some k => match o.own.items[k]? with
        | none => (o, .error .indexError)
        | some z => ({ o with own := { o.own with items := o.own.items.eraseIdx k } }, .ok z)
    match i with
    | none => popAt (-1)
    | some i => if i ≠ 0 ∧ i ≠ n ∧ y.isSlot then (o, .error .indexError) else popAt i

/-- datastructures.py 815-817: `view.clear()` empties the own list. -/
def ViewObj.clear (o : ViewObj) : ViewObj := { o with own := { o.own with items := [] } }

/-- the calls meant to change what a series holds -/
inductive ViewOp where
  | append (x : Item)
  | insert (i : Int) (x : Item)
  | remove (x : Item)
  | pop (i : Option Int)
  | clear
  deriving Repr

/-- one call on a view: the view afterwards, and how the call ended -/
def ViewObj.step (o : ViewObj) : ViewOp → ViewObj × Outcome
  | .append x => o.append x
  | .insert i x => o.insert i x
  | .remove x => o.remove x
  | .pop i => match o.pop i with
    | (o', .ok _) => (o', .ok ())
    | (o', .error e) => (o', .error e)
  | .clear => (o.clear, .ok ())

/-- a history of calls on a view -/
def ViewObj.run (o : ViewObj) (ops : List ViewOp) : ViewObj := ops.foldl (fun o op => (o.step op).1) o

/-- `x in view`: the inherited `list.__contains__`, on the own list -/
def ViewObj.contains (o : ViewObj) (x : Item) : Except PyErr Bool := o.own.contains x

/-- `view == other` for another view: the inherited `list.__eq__`, on the own lists -/
def ViewObj.equals (o p : ViewObj) : Except PyErr Bool := o.own.equals p.own

/-- `view == series` -/
def ViewObj.equalsSeries (o : ViewObj) (s : TSeries) : Except PyErr Bool := o.own.equals s

/-- `view.get(at_i=k)` (operations.py 809-848, datastructures.py 837-838): a negative position is counted
from the length of the view, then `list.__getitem__` reads the own list. -/
def ViewObj.getAtI (o : ViewObj) (k : Int) : Except PyErr Item :=
  if !o.truthy then .error .indexError
  else
    match pyPos o.own.items.length (if k < 0 then o.view.window.length - |k| else k) with
    | none => .error .indexError
    | some j => match o.own.items[j]? with
      | none => .error .indexError
      | some x => .ok x

/-- `view.get(at_t=t)` and `view[t]` with a float (operations.py 809-848, datastructures.py 1312-1317):
the items are found by iterating on the view. -/
def ViewObj.getAtT (o : ViewObj) (t : ℚ) : Except PyErr Item :=
  if !o.truthy then .error .indexError else findT t o.view.window

/-- `view[a:b]` with epochs, or datetimes, or missing bounds (datastructures.py 1814-1836).  A bound which
is not an integer is passed on to the series shown, a missing one becomes a position; a position together
with a time is refused (operations.py 895, 910). -/
def ViewObj.getSliceT (o : ViewObj) (a b : Option ℚ) : Except PyErr TSeries :=
  match a, b with
  | some x, some y => o.view.series.slice none none (some x) (some y)
  | none, none => o.view.getSlice none none
  | _, _ => .error .valueError

/-- `view.slice(from_i, to_i, from_t, to_t)` (operations.py 884-999) iterates on the view; the check for an
empty series (operations.py 47) looks at `bool(view)`, so that an empty view goes through. -/
def ViewObj.slice (o : ViewObj) (fromI toI : Option Int) (fromT toT : Option ℚ) : Except PyErr TSeries :=
  if !o.truthy then .error .valueError
  else if o.view.window.isEmpty then
    if fromI.isSome && fromT.isSome || toI.isSome && toT.isSome then .error .valueError
    else if fromI.isSome && toT.isSome || toI.isSome && fromT.isSome then .error .valueError
    else .ok TSeries.empty
  else match sliceItems o.view.window fromI toI fromT toT with
    | .error e => .error e
    | .ok l => TSeries.build l

/-- `view.resolution` (1894-1899): that of the series shown -/
def ViewObj.resolution (o : ViewObj) : Res := o.view.series.res

/-- `view.rename_data_label(…)`, `remove_data_label(…)`, `remove_data_index(…)` and `remove_data_loss()`
(896-924): with items to show, the first line reads `self._item_data_reference`, which the view does not
have; with none, nothing is done. -/
def ViewObj.editLabels (o : ViewObj) : Outcome :=
  if o.view.window.length > 0 then .error .attributeError else .ok ()

/-! ## The time zone of a view, and loops -/

/-- the loop of the `tz` property (1366-1375) over the items the view gives, one `next` at a time -/
def View.tzAux : ℕ → Option String → View → View × Except PyErr (Option String)
  | 0, d, v => (v, .ok d)
  | fuel + 1, d, v =>
    match v.next with
    | (v', .ok none) => (v', .ok d)
    | (v', .error e) => (v', .error e)
    | (v', .ok (some x)) =>
      match d with
      | none => View.tzAux fuel (some x.tz) v'
      | some z => if x.tz ≠ z then (v', .ok (some "UTC")) else View.tzAux fuel (some z) v'

/-- `view.tz` (1358-1375) for a view without a zone of its own: `for item in self` starts with
`iter(view)`, which resets the counter of the view. -/
def View.tz (v : View) : View × Except PyErr (Option String) :=
  View.tzAux ((v.toI - v.fromI).toNat + 1) none v.iter

/-- The items seen by `for x in view: out.append(x); view.tz`, the loop being allowed `fuel` turns;
`true` when the loop has ended by itself. -/
def View.loopTz : ℕ → View → Except PyErr (List Item × Bool)
  | 0, _ => .ok ([], false)
  | fuel + 1, v =>
    match v.next with
    | (_, .ok none) => .ok ([], true)
    | (_, .error e) => .error e
    | (v', .ok (some x)) =>
      match v'.tz with
      | (_, .error e) => .error e
      | (v'', .ok _) =>
        match View.loopTz fuel v'' with
        | .ok (r, e) => .ok (x :: r, e)
        | .error e => .error e

/-! ## Views of views -/

/-- What a view can show: a series, or another view (`TimeSeriesView(series=…, from_i=…, to_i=…)`). -/
inductive VSrc where
  | base (s : TSeries)
  | view (src : VSrc) (fromI toI : Int)

/-- `bool` and `len` of a series or of a view (1874-1885): `bool(view)` is whether `len` of what it shows is
not zero; `len(view)` is the difference of the bounds, unless what it shows is falsy (`if self.series:`),
when the view works on its own list, which is empty.  A negative length is a `ValueError` of Python. -/
def VSrc.size : VSrc → Except PyErr Bool × Except PyErr ℕ
  | .base s => (.ok (!s.items.isEmpty), .ok s.items.length)
  | .view src a b =>
    (match src.size.2 with
     | .ok n => .ok (n ≠ 0)
     | .error e => .error e,
     match src.size.1 with
     | .error e => .error e
     | .ok false => .ok 0
     | .ok true => if b - a < 0 then .error .valueError else .ok (b - a).toNat)

/-- `bool(x)` -/
def VSrc.truthy (v : VSrc) : Except PyErr Bool := v.size.1

/-- `len(x)` -/
def VSrc.len (v : VSrc) : Except PyErr ℕ := v.size.2

/-- `view[k]` for an integer (1808-1849) -/
def VSrc.getAt : VSrc → Int → Except PyErr Item
  | .base s, k => s.getAt k
  | .view src a b, k =>
    match src.truthy with
    | .error e => .error e
    | .ok false => .error .indexError
    | .ok true => if k ≥ 0 then VSrc.getAt src (a + k) else VSrc.getAt src (b - |k|)

/-- `list(view)` (1851-1872): `source[from_i]`, `source[from_i + 1]`, … up to `to_i` -/
def VSrc.toList : VSrc → Except PyErr (List Item)
  | .base s => .ok s.items
  | .view src a b =>
    match src.truthy with
    | .error e => .error e
    | .ok false => .ok []
    | .ok true => mapE (fun k : ℕ => src.getAt (a + k)) (List.range (b - a).toNat)

/-! ## Views made without bounds -/

/-- `series.view(from_i=None, to_i=None)` (1768-1770): the bounds are stored as they are. -/
structure LooseView where
  series : TSeries
  fromI : Option Int
  toI : Option Int

/-- `len(view)` (1874-1878): `None` cannot be subtracted -/
def LooseView.len (v : LooseView) : Except PyErr ℕ :=
  match v.fromI, v.toI with
  | some a, some b => View.len { series := v.series, fromI := a, toI := b }
  | _, _ => .error .typeError

/-- `list(view)` (1851-1872): `self.count + None` and `i >= None` raise `TypeError` -/
def LooseView.toList (v : LooseView) : Except PyErr (List Item) :=
  match v.fromI, v.toI with
  | some a, some b => View.toList { series := v.series, fromI := a, toI := b }
  | _, _ => .error .typeError

/-- `view[k]` (1839-1845) -/
def LooseView.getAt (v : LooseView) (k : Int) : Except PyErr Item :=
  if k ≥ 0 then match v.fromI with
    | some a => v.series.getAt (a + k)
    | none => .error .typeError
  else match v.toI with
    | some b => v.series.getAt (b - |k|)
    | none => .error .typeError

/-! ## Scalar operations on a view

`bool(view)`, `view.item_type` and `view.data_labels()` are those of the series shown (1881-1904), so the
checks of `TSeries.opPrep` are made on it; the loops run over the items of the view. -/

/-- `view.max()` (operations.py 81-97) -/
def View.maxOp (v : View) : Except PyErr (Dict (Option ℚ)) :=
  match v.series.opPrep with
  | .error e => .error e
  | .ok (_, ks) => perLabel { items := v.window } ks maxLoop

/-- `view.min()` (operations.py 108-124) -/
def View.minOp (v : View) : Except PyErr (Dict (Option ℚ)) :=
  match v.series.opPrep with
  | .error e => .error e
  | .ok (_, ks) => perLabel { items := v.window } ks minLoop

/-- `view.sum()` (operations.py 194-207) -/
def View.sumOp (v : View) : Except PyErr (Dict ℚ) :=
  match v.series.opPrep with
  | .error e => .error e
  | .ok (_, ks) => perLabel { items := v.window } ks (fun vs => vs.foldl (· + ·) 0)

/-- `view.avg()` for items without weights (operations.py 132-188).  Without items the variable `weighted`
is never set (139-142) and reading it at 151 raises `UnboundLocalError`, here `exception`. -/
def View.avgOp (v : View) : Except PyErr (Dict ℚ) :=
  match v.series.opPrep with
  | .error e => .error e
  | .ok (_, ks) =>
    if v.window.isEmpty then .error .exception
    else match perLabel { items := v.window } ks sumFromNone with
      | .error e => .error e
      | .ok sums => mapE (fun p => match p.2 with
        | none => .error .typeError
        | some m => match pyDiv m v.window.length with
          | .ok q => .ok (p.1, q)
          | .error e => .error e) sums

end Timeseria
