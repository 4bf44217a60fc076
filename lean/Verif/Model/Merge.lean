import Verif.Model.Ops

/-! # Merging series (operations.py 1002-1148) -/

namespace Timeseria

/-- the checks on the resolutions (operations.py 1013-1029); `r` is the variable `resolution`,
`.unset` standing for `None`.  Different time units are refused as in `TSeries.preSlot`, and so is
a missing resolution after a defined one.  An empty series is an `IndexError` (`series[0]`, 1032), raised in
the same loop. -/
def mergeCheck : Res → List TSeries → Except PyErr Unit
  | _, [] => .ok ()
  | r, s :: rest =>
    if s.res = .varying then .error .valueError
    else match r with
      | .unset => if s.items.isEmpty then .error .indexError else mergeCheck s.res rest
      | r => if s.res ≠ r then .error .valueError
        else if s.items.isEmpty then .error .indexError else mergeCheck r rest

/-- `series[0].t` (1032) -/
def TSeries.firstT (s : TSeries) : Except PyErr ℚ :=
  match s.items.head? with
  | some x => .ok x.t
  | none => .error .indexError

/-- `series[-1].t` (1033) -/
def TSeries.lastT (s : TSeries) : Except PyErr ℚ :=
  match s.items.getLast? with
  | some x => .ok x.t
  | none => .error .indexError

/-- 1057-1060: the last series starting at the maximum start -/
def mergeRef (mx : ℚ) : List TSeries → Option TSeries → Option TSeries
  | [], acc => acc
  | s :: rest, acc => mergeRef mx rest (if s.items.head?.map Item.t = some mx then some s else acc)

/-- 1066-1072: the first position holding the maximum start.  (The dictionary of offsets is keyed by
object identity.) -/
def offsetOf (mx : ℚ) (s : TSeries) : Option ℕ := s.items.findIdx? (fun x => decide (x.t = mx))

/-- 1105-1115: sum and count of a label, updated together -/
def addEntry (acc : Dict (ℚ × ℕ)) (p : String × ℚ) : Dict (ℚ × ℕ) :=
  match acc.get? p.1 with
  | none => acc.set p.1 (p.2, 1)
  | some (v, n) => acc.set p.1 (v + p.2, n + 1)

/-- the entries of the indexes which are not `None` (1118) -/
def someEntries (i : Idx) : List (String × ℚ) :=
  i.filterMap (fun p => p.2.map (fun v => (p.1, v)))

/-- 1129-1130 and 1133-1137: sums divided by counts (the counts are positive) -/
def finalize (acc : Dict (ℚ × ℕ)) : Dict ℚ := acc.map (fun p => (p.1, p.2.1 / p.2.2))

/-- the merged data of a list of dictionaries -/
def mergeDicts (ds : List (List (String × ℚ))) : Dict ℚ :=
  finalize (ds.foldl (fun acc d => d.foldl addEntry acc) [])

/-- 1100-1102: the item of a series for the `i`-th item of the reference, with its dictionary data (for
list data `item.data[data_label]` is indexed by a value: a `TypeError`). -/
def mergePick (mx : ℚ) (i : ℕ) (s : TSeries) : Except PyErr (Dict ℚ × Idx) :=
  match offsetOf mx s with
  | none => .error .keyError
  | some o => match s.items[i + o]? with
    | none => .error .indexError
    | some x => match x.data with
      | some (.dict d) => .ok (d, x.idx)
      | some _ => .error .typeError
      | none => .error .attributeError

/-- 1139-1150: the new item: time zone of the first item of the first series for points; start of the
reference item and unit `u` of the first reference item for slots -/
def mergeItem (cal : Calendar) (tz : String) (u : TUnit) (x : Item) (d : Dict ℚ) (i : Dict ℚ) : Item :=
  match x.slot with
  | none => { t := x.t, slot := none, tz := tz, data := some (.dict d)
              idx := i.map (fun p => (p.1, some p.2)) }
  | some _ => { t := x.t, slot := some (cal.shift u x.tz x.t, u), tz := x.tz
                data := some (.dict d), idx := i.map (fun p => (p.1, some p.2)) }

/-- 1075-1150: the loop over the reference series -/
def mergeLoop (cal : Calendar) (ss : List TSeries) (tz : String) (u : TUnit) (mx mn : ℚ) :
    ℕ → List Item → Except PyErr (List Item)
  | _, [] => .ok []
  | i, x :: r =>
    if x.t > mn then .ok []
    else match mapE (mergePick mx i) ss with
      | .error e => .error e
      | .ok picks => match mergeLoop cal ss tz u mx mn (i + 1) r with
        | .error e => .error e
        | .ok ys => .ok (mergeItem cal tz u x (mergeDicts (picks.map Prod.fst))
            (mergeDicts (picks.map (fun p => someEntries p.2))) :: ys)

/-- `merge(*series)`.  The series are all of points or all of slots (mixing them is not modelled). -/
def mergeOp (cal : Calendar) (ss : List TSeries) : Except PyErr TSeries :=
  match ss with
  | [] => .error .typeError
  | s0 :: _ => match s0.items.head? with
    | none => .error .valueError
    | some x0 => match mergeCheck .unset ss with
      | .error e => .error e
      | .ok _ => match mapE TSeries.firstT ss, mapE TSeries.lastT ss with
        | .ok starts, .ok ends =>
          match maxLoop starts, minLoop ends with
          | some mx, some mn => match mergeRef mx ss none with
            | none => .error .exception
            | some ref => match ref.items.head? with
              | none => .error .indexError
              | some f => finish (mergeLoop cal ss x0.tz f.unit mx mn 0 ref.items)
          | _, _ => .error .exception
        | _, _ => .error .indexError

end Timeseria
