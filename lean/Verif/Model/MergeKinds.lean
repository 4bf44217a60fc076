import Verif.Model.Merge

/-! # Merging with the classes of the items (operations.py 1002-1148, datastructures.py 1013-1016)

`mergeOp` assumes that the series are all of points or all of slots.  Here the items of the result are made as the
code makes them: with the class of the first item of the *first* series, and with arguments chosen by the kind of the
items of the *reference* series. -/

namespace Timeseria

/-- operations.py 1139-1150: `seriess[0][0].__class__(…)`, `first` being `seriess[0][0]` and `ref` the first item of the
reference series.  A point made with `start` and `unit` fails in `TimePoint.__init__` (datastructures.py 111-143: no
`t` is bound, an `UnboundLocalError`, `.exception` here); a slot made with `t` and `tz` fails in `Slot.__init__`
(datastructures.py 328-331: there is no end, `None.coordinates`). -/
def mergeItemAs (cal : Calendar) (first ref : Item) (x : Item) (d i : Dict ℚ) : Except PyErr Item :=
  match ref.slot, first.slot with
  | none, none => .ok (mergeItem cal first.tz ref.unit x d i)
  | none, some _ => .error .attributeError
  | some _, none => .error .exception
  | some _, some _ => .ok (mergeItem cal first.tz ref.unit x d i)

/-- operations.py 1075-1150: the loop over the reference series, as `mergeLoop`, with the classes -/
def mergeLoopK (cal : Calendar) (ss : List TSeries) (first ref : Item) (mx mn : ℚ) : ℕ → List Item → Except PyErr (List Item)
  | _, [] => .ok []
  | i, x :: r =>
    if x.t > mn then .ok []
    else match mapE (mergePick mx i) ss with
      | .error e => .error e
      | .ok picks => match mergeItemAs cal first ref x (mergeDicts (picks.map Prod.fst)) (mergeDicts (picks.map (fun p => someEntries p.2))) with
        | .error e => .error e
        | .ok y => match mergeLoopK cal ss first ref mx mn (i + 1) r with
          | .error e => .error e
          | .ok ys => .ok (y :: ys)

/-- operations.py 1002-1148: `merge(*series)` for series of any kind -/
def mergeOpK (cal : Calendar) (ss : List TSeries) : Except PyErr TSeries :=
  match ss with
  | [] => .error .typeError
  | s0 :: _ => match s0.items.head? with
    | none => .error .valueError
    | some x0 => match mergeCheck .unset ss with
      | .error e => .error e
      | .ok _ => match mapE TSeries.firstT ss, mapE TSeries.lastT ss with
        | .ok starts, .ok ends =>
          match maxLoop starts, minLoop ends with
          | some mx, some mn => match mergeRef mx ss none with
            | none => .error .exception
            | some ref => match ref.items.head? with
              | none => .error .indexError
              | some f => finish (mergeLoopK cal ss x0 f mx mn 0 ref.items)
          | _, _ => .error .exception
        | _, _ => .error .indexError

/-- what is given to `series.merge(…)` -/
inductive MergeArg where
  | series (s : TSeries)
  | list (ss : List TSeries)

/-- datastructures.py 1013-1016: the method `merge(self, series)`, documented as "Merge the series with one or more
other series": it calls `merge(self, series)`.  A list passed as second argument meets `series.resolution`
(operations.py 1015), an `AttributeError`, after the same of the series itself (1015-1016: its variable resolution is
refused first; the series is checked to be non-empty, operations.py 46-49). -/
def TSeries.mergeMethod (cal : Calendar) (s : TSeries) : MergeArg → Except PyErr TSeries
  | .series s' => mergeOpK cal [s, s']
  | .list _ => if s.items.isEmpty then .error .valueError
      else if s.res = .varying then .error .valueError else .error .attributeError

end Timeseria
