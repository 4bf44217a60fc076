import Verif.Model.EventsLive
import Verif.Model.RemoveIndex
import Verif.Model.Merge

/-! # Histories of calls on several series whose items are objects

A program holds several series, makes new ones from them (operations.py, models/anomaly_detectors.py 518-774), and changes the labels, the values and the data indexes of some.  The
operations are those of `Heap`, `EventsLive`, `RemoveIndex` and, for the calls whose results have only new objects, any function of what the series read as (`mergeOp` of `Merge` for instance).  To each series belong two marks, which are not in the code: the number of the series its data objects come from, and the one its data indexes objects come from. -/

namespace Timeseria

/-- a series of the program; `dataFrom` and `idxFrom` are the positions of the series which its data and its data indexes objects were made with -/
structure Entry where
  series : HSeries
  dataFrom : ℕ
  idxFrom : ℕ

/-- the objects and the series of the program -/
structure World where
  heap : Heap := {}
  entries : List Entry := []

/-- new objects for new items (datastructures.py 87-278, 395-577) -/
def newItems : Heap → List Item → Heap × List HItem
  | h, [] => (h, [])
  | h, x :: r =>
    let q := newItems ((h.alloc (x.data.getD (.num 0))).allocIdx x.idx) r
    (q.1, { t := x.t, slot := x.slot, tz := x.tz, dA := h.data.length, iA := h.idx.length } :: q.2)

/-- `series.pop(i)` (datastructures.py 795-813) on objects: the attributes and the reference are left as they are -/
def HSeries.pop (s : HSeries) (i : Option Int) : HSeries :=
  match s.items with
  | [] => s
  | y :: _ =>
    let n := s.items.length
    let popAt (i : Int) : HSeries :=
      match pyPos n i with
      | none => s
      | some k => { s with items := s.items.eraseIdx k }
    match i with
    | none => popAt (-1)
    | some i => if i ≠ 0 ∧ i ≠ n ∧ y.slot.isSome then s else popAt i

/-- `series.insert(pos, x)` (datastructures.py 738-778) of an item that exists already: the order is compared with one neighbour, and neither the attributes nor the reference change; an empty series appends -/
def HSeries.insert (h : Heap) (s : HSeries) (pos : Int) (x : HItem) : HSeries × Outcome :=
  match s.items with
  | [] => s.append h x
  | _ :: _ =>
    match (s.view h).insert pos (h.read x) with
    | (_, .error e) => (s, .error e)
    | (_, .ok _) => ({ s with items := s.items.take (pyInsertPos s.items.length pos) ++ x :: s.items.drop (pyInsertPos s.items.length pos) }, .ok ())

/-- a loop of appends of items that exist already -/
def HSeries.appendAll (h : Heap) : HSeries → List HItem → Except PyErr HSeries
  | s, [] => .ok s
  | s, x :: r =>
    match s.append h x with
    | (_, .error e) => .error e
    | (s', .ok _) => HSeries.appendAll h s' r

/-- an item of the copy -/
def shiftItem (nd ni : ℕ) (x : HItem) : HItem := { x with dA := x.dA + nd, iA := x.iA + ni }

/-- `series.duplicate()` (datastructures.py 833-835), a `deepcopy`: items which shared an object share its copy, and the reference is the copy of the reference.  The attributes are copied first,
then the copies of the items are appended (1236).  Simplification: all the objects of the program are copied, those not of the series being without use. -/
def HSeries.duplicate (h : Heap) (s : HSeries) : Except PyErr (Heap × HSeries) :=
  let h' : Heap := { data := h.data ++ h.data, idx := h.idx ++ h.idx }
  match HSeries.appendAll h' { attrs := s.attrs, items := [], refA := s.refA.map (· + h.data.length) } (s.items.map (shiftItem h.data.length h.idx.length)) with
  | .error e => .error e
  | .ok r => .ok (h', r)

/-- after an item of `e'` went into `e`, their objects are of one family -/
def Entry.join (e e' y : Entry) : Entry :=
  { y with
    dataFrom := if y.dataFrom = e'.dataFrom then e.dataFrom else y.dataFrom
    idxFrom := if y.idxFrom = e'.idxFrom then e.idxFrom else y.idxFrom }

/-- a call; series are named by their position -/
inductive WorldCall where
  /-- `TimeSeries(*items)` of new items -/
  | create (l : List Item)
  /-- `rescale`, `offset`, `normalize` (operations.py 530-742) -/
  | map (k : ℕ) (g : String → ℚ → Except PyErr ℚ)
  /-- `derivative` (operations.py 213-352) -/
  | derivative (k : ℕ) (auto : ℚ)
  /-- `mavg` (operations.py 744-803) -/
  | mavg (k : ℕ) (w : Int)
  /-- `filter` (operations.py 851-878) -/
  | filter (k : ℕ) (labels : List String)
  /-- `series[a:b]` (operations.py 881-999) -/
  | slice (k : ℕ) (a b : ℕ)
  /-- `detector.apply(series)` (models/anomaly_detectors.py 518-774) -/
  | detect (k : ℕ) (lg : ℚ → ℚ) (d : Detector) (c : AnomCfg) (pre : Option Predictions) (ranges : List (String × IndexRange))
  /-- a call computing a new series with only new objects from what some series read as: `merge` (operations.py 1002-1148), `resample` (transformations.py), `to_df` and back, `save` and `load` -/
  | compute (ks : List ℕ) (f : List TSeries → Except PyErr TSeries)
  /-- `series.duplicate()` (datastructures.py 833-835) -/
  | duplicate (k : ℕ)
  /-- `series.rename_data_label(old, new)` (datastructures.py 896-902) -/
  | rename (k : ℕ) (old new : String)
  /-- `series.remove_data_label(label)` (datastructures.py 904-910) -/
  | removeLabel (k : ℕ) (label : String)
  /-- a change to the data of the item `i`, such as `series[i].data['v'] = 3` -/
  | setData (k i : ℕ) (f : Data → Data)
  /-- a change to the data indexes of the item `i` -/
  | setIdx (k i : ℕ) (f : Idx → Idx)
  /-- `series.remove_data_index(name)`, `series.remove_data_loss()` (datastructures.py 912-924) -/
  | removeIndex (k : ℕ) (name : String)
  /-- `series_k.append(series_j[i])` -/
  | append (k j i : ℕ)
  /-- `series_k.append(item)` of a new item -/
  | appendNew (k : ℕ) (x : Item)
  /-- `series_k.insert(pos, series_j[i])` -/
  | insert (k j i : ℕ) (pos : Int)
  /-- `series.pop(i)` -/
  | pop (k : ℕ) (i : Option Int)

/-- the series whose objects a call changes in place, if any -/
def WorldCall.changed : WorldCall → Option ℕ
  | .rename k _ _ => some k
  | .removeLabel k _ => some k
  | .setData k _ _ => some k
  | .setIdx k _ _ => some k
  | .removeIndex k _ => some k
  | _ => none

/-- the series to which a call adds items, or from which it removes them, if any -/
def WorldCall.reshaped : WorldCall → Option ℕ
  | .append k _ _ => some k
  | .appendNew k _ => some k
  | .insert k _ _ _ => some k
  | .pop k _ => some k
  | _ => none

/-- a call giving a new series: `newData` and `newIdx` tell whether its objects are all new -/
def World.produce (w : World) (k : ℕ) (newData newIdx : Bool) (op : Heap → HSeries → Except PyErr (Heap × HSeries)) : World :=
  match w.entries[k]? with
  | none => w
  | some e =>
    match op w.heap e.series with
    | .error _ => w
    | .ok (h', r) =>
      { heap := h'
        entries := w.entries ++ [{ series := r
                                   dataFrom := if newData then w.entries.length else e.dataFrom
                                   idxFrom := if newIdx then w.entries.length else e.idxFrom }] }

/-- a call changing objects of the series `k` -/
def World.change (w : World) (k : ℕ) (f : Heap → HSeries → Heap) : World :=
  match w.entries[k]? with
  | none => w
  | some e => { w with heap := f w.heap e.series }

/-- one call; when it raises no series is made.  Simplification: the objects made by a call which raises, which nothing refers to, are not in the heap. -/
def World.step (cal : Calendar) (w : World) : WorldCall → World
  | .create l =>
    match finishH (.ok (newItems w.heap l)) with
    | .error _ => w
    | .ok (h', r) => { heap := h', entries := w.entries ++ [{ series := r, dataFrom := w.entries.length, idxFrom := w.entries.length }] }
  | .map k g => w.produce k true false (fun h s => s.mapOp cal g h)
  | .derivative k auto => w.produce k true false (fun h s => s.derivativeOp cal auto h)
  | .mavg k n => w.produce k true true (fun h s => s.mavgOp cal n h)
  | .filter k labels => w.produce k true false (fun h s => s.filterOp labels h)
  | .slice k a b => w.produce k false false (fun h s => s.sliceOp a b h)
  | .detect k lg d c pre ranges => w.produce k false false (fun h s => s.detect lg d c pre ranges h)
  | .compute ks f =>
    match f (ks.filterMap (fun k => (w.entries[k]?).map (fun e => e.series.view w.heap))) with
    | .error _ => w
    | .ok s =>
      match finishH (.ok (newItems w.heap s.items)) with
      | .error _ => w
      | .ok (h', r) => { heap := h', entries := w.entries ++ [{ series := r, dataFrom := w.entries.length, idxFrom := w.entries.length }] }
  | .duplicate k => w.produce k true true (fun h s => s.duplicate h)
  | .rename k old new => w.change k (fun h s => (s.rename old new h).1)
  | .removeLabel k label => w.change k (fun h s => (s.removeLabel label h).1)
  | .setData k i f => w.change k (fun h s => match s.items[i]? with
      | none => h
      | some x => h.store x.dA f)
  | .setIdx k i f => w.change k (fun h s => match s.items[i]? with
      | none => h
      | some x => h.storeIdx x.iA f)
  | .removeIndex k name => w.change k (fun h s => (s.removeIndex name h).1)
  | .append k j i =>
    match w.entries[k]?, w.entries[j]? with
    | some e, some e' =>
      match e'.series.items[i]? with
      | none => w
      | some x =>
        match e.series.append w.heap x with
        | (s', .error _) => { w with entries := w.entries.set k { e with series := s' } }
        | (s', .ok _) => { w with entries := (w.entries.set k { e with series := s' }).map (Entry.join e e') }
    | _, _ => w
  | .insert k j i pos =>
    match w.entries[k]?, w.entries[j]? with
    | some e, some e' =>
      match e'.series.items[i]? with
      | none => w
      | some x =>
        match e.series.insert w.heap pos x with
        | (s', .error _) => { w with entries := w.entries.set k { e with series := s' } }
        | (s', .ok _) => { w with entries := (w.entries.set k { e with series := s' }).map (Entry.join e e') }
    | _, _ => w
  | .appendNew k x =>
    match w.entries[k]? with
    | none => w
    | some e =>
      let h' := (w.heap.alloc (x.data.getD (.num 0))).allocIdx x.idx
      { heap := h'
        entries := w.entries.set k { e with series := (e.series.append h' { t := x.t, slot := x.slot, tz := x.tz, dA := w.heap.data.length, iA := w.heap.idx.length }).1 } }
  | .pop k i =>
    match w.entries[k]? with
    | none => w
    | some e => { w with entries := w.entries.set k { e with series := e.series.pop i } }

/-- a history of calls, from a program without series -/
def World.run (cal : Calendar) (w : World) (cs : List WorldCall) : World := cs.foldl (World.step cal) w

/-- what the series `k` reads as -/
def World.read (w : World) (k : ℕ) : Option TSeries := (w.entries[k]?).map (fun e => e.series.view w.heap)

end Timeseria
