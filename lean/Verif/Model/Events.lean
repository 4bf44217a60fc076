import Verif.Model.Series
import Verif.Model.Ops

/-! # Anomalous events (models/anomaly_detectors.py 51-128) -/

namespace Timeseria

/-- `item.data_indexes['anomaly']` used in a comparison -/
def anomalyOf (x : Item) : Except PyErr ℚ :=
  match x.idx.get? "anomaly" with
  | none => .error .keyError
  | some none => .error .typeError
  | some (some v) => .ok v

/-- `event_timeseries[j].data_indexes['anomaly'] >= index_treshold` for the indexes `a` -/
def anomalousAt (th : ℚ) (a : List ℚ) (j : ℕ) : Bool :=
  match a[j]? with
  | some v => decide (th ≤ v)
  | none => false

/-- no anomalous item from `i - max_gap` (at least 0) to `i` (anomaly_detectors.py 84-91) -/
def gapExceeded (th : ℚ) (a : List ℚ) (g i : ℕ) : Bool :=
  (List.range (i + 1)).all (fun j => decide (j < i - g) || !anomalousAt th a j)

/-- set the mark of the items from `lo` to `hi` (excluded) -/
def markRange (lo hi : ℕ) (m : List Bool) : List Bool :=
  m.mapIdx (fun j b => b || (decide (lo ≤ j) && decide (j < hi)))

/-- state of the loop: `event_start` and the marks -/
structure EvState where
  start : Option ℕ
  marks : List Bool
  deriving DecidableEq, Repr

/-- closing an event begun in `s` when looking at the item `i` (anomaly_detectors.py 92-103) -/
def closeEvent (minP : Int) (g i s : ℕ) (m : List Bool) : List Bool :=
  if ((i : Int) - g) - s < minP then m else markRange s (i - g) m

/-- one item of the loop (anomaly_detectors.py 67-105) -/
def evStep (th : ℚ) (minP : Int) (g : ℕ) (a : List ℚ) (st : EvState) (i : ℕ) : EvState :=
  match anomalousAt th a i, st.start with
  | true, none => { st with start := some i }
  | true, some _ => st
  | false, none => st
  | false, some s => if gapExceeded th a g i then ⟨none, closeEvent minP g i s st.marks⟩ else st

/-- where the last event ends (anomaly_detectors.py 110-115): the last anomalous item after the start,
or the length of the series if there is none -/
def lastEnd (th : ℚ) (a : List ℚ) (s : ℕ) : ℕ → ℕ
  | 0 => a.length
  | i + 1 => if s < i then (if anomalousAt th a i then i else lastEnd th a s i) else a.length

/-- the last event, if still open (anomaly_detectors.py 107-124): marking beyond the end of the series is
an `IndexError` -/
def finishEvents (th : ℚ) (minP : Int) (a : List ℚ) (st : EvState) : Except PyErr (List Bool) :=
  match st.start with
  | none => .ok st.marks
  | some s =>
    if (lastEnd th a s a.length : Int) - s < minP then .ok st.marks
    else if lastEnd th a s a.length = a.length then .error .indexError
    else .ok (markRange s (lastEnd th a s a.length + 1) st.marks)

/-- which items are marked, for the anomaly indexes `a` -/
def eventMarks (th : ℚ) (minP : Int) (g : ℕ) (a : List ℚ) : Except PyErr (List Bool) :=
  finishEvents th minP a
    ((List.range a.length).foldl (evStep th minP g a) ⟨none, List.replicate a.length false⟩)

/-- the mark, as the value of an index -/
def eventVal (b : Bool) : Option ℚ := some (if b then 1 else 0)

/-- the indexes of an item with its mark (anomaly_detectors.py 70, 103, 124) and, with `replace`, with the
mark in place of the anomaly index (126-128) -/
def eventIdx (replace b : Bool) (d : Dict (Option ℚ)) : Dict (Option ℚ) :=
  if replace then ((d.set "anomaly_event" (eventVal b)).erase "anomaly_event").set "anomaly" (eventVal b)
  else d.set "anomaly_event" (eventVal b)

/-- the item with its mark -/
def withEvent (replace : Bool) (x : Item) (b : Bool) : Item := { x with idx := eventIdx replace b x.idx }

/-- `mark_events(timeseries)` as a value.  Simplification: all the anomaly indexes are read first; the
loop reads them in the same order, each before it is used, so the first missing one raises in both. -/
def markEvents (th : ℚ) (minP : Int) (g : ℕ) (replace : Bool) (l : List Item) : Except PyErr (List Item) :=
  match mapE anomalyOf l with
  | .error e => .error e
  | .ok a =>
    match eventMarks th minP g a with
    | .error e => .error e
    | .ok m => .ok (List.zipWith (withEvent replace) l m)

end Timeseria
