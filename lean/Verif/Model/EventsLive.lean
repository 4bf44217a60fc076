import Verif.Model.Events
import Verif.Model.Anomaly
import Verif.Model.Heap

/-! # Marking events step by step, and the objects of a detection

`Events` gives the result of `mark_events` as a value.  Here are the changes it makes one after the other to the data indexes of the items
(models/anomaly_detectors.py 51-128), so that what is left by an exception can be told; and the detection (518-774) on objects at addresses, where the items which are too lossy are
appended to the result as they are (660-663), and the others as deep copies (683). -/

namespace Timeseria

/-- the key of the marks -/
def eventKey : String := "anomaly_event"

/-- `item.data_indexes['anomaly']` used in a comparison (75, 81, 91, 114) -/
def anomalyIn (d : Idx) : Except PyErr ℚ :=
  match d.get? "anomaly" with
  | none => .error .keyError
  | some none => .error .typeError
  | some (some v) => .ok v

/-- the indexes of the item `j`; a position out of the series is an `IndexError` -/
def idxAt (l : List Idx) (j : ℕ) : Except PyErr Idx :=
  match l[j]? with
  | none => .error .indexError
  | some d => .ok d

/-- the anomaly index of the item `j` -/
def readAnomaly (l : List Idx) (j : ℕ) : Except PyErr ℚ :=
  match idxAt l j with
  | .error e => .error e
  | .ok d => anomalyIn d

/-- `for j in range(s, s + c): event_timeseries[j].data_indexes['anomaly_event'] = 1` (102-103, 123-124) -/
def markLive : List Idx → ℕ → ℕ → List Idx × Outcome
  | l, _, 0 => (l, .ok ())
  | l, s, c + 1 =>
    if s < l.length then markLive (l.modify s (fun d => d.set eventKey (some 1))) (s + 1) c
    else (l, .error .indexError)

/-- the loop looking for an anomalous item in the gap (90-92): from `j` on, `c` items -/
def gapLoop (th : ℚ) (l : List Idx) : ℕ → ℕ → Bool → Except PyErr Bool
  | _, 0, ended => .ok ended
  | j, c + 1, ended =>
    match readAnomaly l j with
    | .error e => .error e
    | .ok v => gapLoop th l (j + 1) c (if th ≤ v then false else ended)

/-- the end of an event, looked for at an item which is not anomalous (80-107); `max_gap` is not negative -/
def endLive (th : ℚ) (minP : Int) (g i s : ℕ) (l : List Idx) : List Idx × Except PyErr (Option ℕ) :=
  match gapLoop th l (i - g) (i + 1 - (i - g)) true with
  | .error e => (l, .error e)
  | .ok false => (l, .ok (some s))
  | .ok true =>
    if ((i : Int) - g) - s < minP then (l, .ok none)
    else match markLive l s (i - g - s) with
      | (l', .error e) => (l', .error e)
      | (l', .ok _) => (l', .ok none)

/-- one item of the loop (69-107): the indexes and the new `event_start` -/
def liveStep (th : ℚ) (minP : Int) (g i : ℕ) (start : Option ℕ) (l : List Idx) : List Idx × Except PyErr (Option ℕ) :=
  let l1 := l.modify i (fun d => d.set eventKey (some 0))
  match readAnomaly l1 i with
  | .error e => (l1, .error e)
  | .ok v =>
    let start1 := if th ≤ v then (match start with | none => some i | some s => some s) else start
    match start1 with
    | none => (l1, .ok none)
    | some s => if v < th then endLive th minP g i s l1 else (l1, .ok (some s))

/-- the loop on the items, from `i`, `c` items (67-107) -/
def liveLoop (th : ℚ) (minP : Int) (g : ℕ) : ℕ → ℕ → Option ℕ → List Idx → List Idx × Except PyErr (Option ℕ)
  | _, 0, start, l => (l, .ok start)
  | i, c + 1, start, l =>
    match liveStep th minP g i start l with
    | (l', .error e) => (l', .error e)
    | (l', .ok start') => liveLoop th minP g (i + 1) c start' l'

/-- the last anomalous item after the start, or the length (113-117) -/
def liveEnd (th : ℚ) (l : List Idx) (s : ℕ) : ℕ → Except PyErr ℕ
  | 0 => .ok l.length
  | i + 1 =>
    if s < i then
      match readAnomaly l i with
      | .error e => .error e
      | .ok v => if th ≤ v then .ok i else liveEnd th l s i
    else .ok l.length

/-- the last event (109-124) -/
def liveLast (th : ℚ) (minP : Int) (l : List Idx) : Option ℕ → List Idx × Outcome
  | none => (l, .ok ())
  | some s =>
    match liveEnd th l s l.length with
    | .error e => (l, .error e)
    | .ok e => if (e : Int) - s < minP then (l, .ok ()) else markLive l s (e + 1 - s)

/-- `data_indexes['anomaly'] = data_indexes.pop('anomaly_event')` for one item (126-128) -/
def replaceMark (d : Idx) : Except PyErr Idx :=
  match d.get? eventKey with
  | none => .error .keyError
  | some v => .ok ((d.erase eventKey).set "anomaly" v)

/-- the loop of `replace_index` (126-128) -/
def replaceLoop : List Idx → List Idx × Outcome
  | [] => ([], .ok ())
  | d :: r =>
    match replaceMark d with
    | .error e => (d :: r, .error e)
    | .ok d' => ((d' :: (replaceLoop r).1), (replaceLoop r).2)

/-- `mark_events(series, inplace=True)` on the data indexes of the items (51-128): what they are when the call ends, and how it ends.
Simplification: each item has a data indexes object of its own. -/
def liveMark (th : ℚ) (minP : Int) (g : ℕ) (replace : Bool) (l : List Idx) : List Idx × Outcome :=
  match liveLoop th minP g 0 l.length none l with
  | (l1, .error e) => (l1, .error e)
  | (l1, .ok start) =>
    match liveLast th minP l1 start with
    | (l2, .error e) => (l2, .error e)
    | (l2, .ok _) => if replace then replaceLoop l2 else (l2, .ok ())

/-! ## The objects of a detection -/

/-- the main loop of a detection (anomaly_detectors.py 628-772) on objects: what a scored item reads as is given by `Anomaly` -/
def heapAnomLoop (d : Detector) (thr : ℚ) (l : List Item) (sc : ℕ → Item → Except PyErr Item) : Heap → List HItem → ℕ → Except PyErr (Heap × List HItem)
  | h, [], _ => .ok (h, [])
  | h, x :: r, i =>
    match stepAt d thr l i with
    | .error e => .error e
    | .ok .skip => heapAnomLoop d thr l sc h r (i + 1)
    | .ok .stop => .ok (h, [])
    | .ok .pass =>
      match heapAnomLoop d thr l sc h r (i + 1) with
      | .error e => .error e
      | .ok (h', ys) => .ok (h', x :: ys)
    | .ok .score =>
      match sc i (h.read x) with
      | .error e => .error e
      | .ok y =>
        match heapAnomLoop d thr l sc ((h.alloc (y.data.getD (.num 0))).allocIdx y.idx) r (i + 1) with
        | .error e => .error e
        | .ok (h', ys) => .ok (h', { x with dA := h.data.length, iA := h.idx.length } :: ys)

/-- `detector.apply(series)` on objects (518-774), after the checks and the ranges of the labels.  Simplification: the items are appended at the end, so that an exception of a score comes before one of an append. -/
def HSeries.detect (lg : ℚ → ℚ) (d : Detector) (c : AnomCfg) (pre : Option Predictions) (ranges : List (String × IndexRange)) (h : Heap) (s : HSeries) :
    Except PyErr (Heap × HSeries) :=
  finishH (heapAnomLoop d c.lossThreshold (h.reads s.items) (scoreItem lg d c pre ranges (h.reads s.items)) h s.items 0)

end Timeseria
