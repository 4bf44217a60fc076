import Verif.Model.Forecast
import Verif.Model.Storage

/-! # The model-based anomaly detector (models/anomaly_detectors.py 240-395, 484-774)

The inner predictive model, the fitted error distribution (a `scipy` density), the search of the error with
a given density and the logarithm are arbitrary functions.  Models with context, callables as index type or
as strategy and the progress output are not modelled. -/

namespace Timeseria

/-- The fitted detector: what is read from `self.data` and the inner model.

* `dist k x` is the density of the error distribution of label `k` in `x`, `loc k` its `loc` parameter;
* `errors` are the stored prediction errors (missing with `store_errors=False`);
* `findX k y` is `find_x` (utilities.py 432-449), which searches numerically;
* `predict l i k` is `_get_predicted_value` (218-248): the prediction of label `k` of the item `i`. -/
structure Detector where
  window : ℕ
  recon : Bool := false
  metric : String := "PE"
  dist : String → ℚ → ℚ
  loc : String → ℚ
  stdev : String → ℚ
  errors : Option (Dict (List ℚ))
  findX : String → ℚ → Except PyErr ℚ
  predict : List Item → ℕ → String → Except PyErr ℚ

/-- one of the index bounds: `'max_err'`, `'avg_err'`, `'x_sigma'` or `'xsig'`, `'adherence/x'`, a number,
or another string -/
inductive Bound where
  | maxErr
  | avgErr
  | sigma (x : ℚ)
  | adherence (x : ℚ)
  | num (x : ℚ)
  | unknown
  deriving DecidableEq, Repr

/-- `index_type`: `'lin'`, `'log'` or another string -/
inductive IndexKind where
  | lin
  | log
  | unknown
  deriving DecidableEq, Repr

/-- `multivariate_index_strategy` -/
inductive Strategy where
  | min
  | max
  | avg
  deriving DecidableEq, Repr

/-- `details`: `False`, `True` or a list of strings -/
inductive Details where
  | no
  | all
  | some (l : List String)
  deriving DecidableEq, Repr

/-- the arguments of `apply` -/
structure AnomCfg where
  lower : Bound := .avgErr
  upper : Bound := .maxErr
  tuple : Bool := false
  kind : IndexKind := .log
  threshold : Option ℚ := none
  strategy : Strategy := .max
  lossThreshold : ℚ := 1
  details : Details := .no
  deriving DecidableEq, Repr

/-- `max` of a list; of an empty one it is a `ValueError` -/
def pyMaxList : List ℚ → Except PyErr ℚ
  | [] => .error .valueError
  | x :: r => .ok (r.foldl max x)

/-- `min` of a list -/
def pyMinList : List ℚ → Except PyErr ℚ
  | [] => .error .valueError
  | x :: r => .ok (r.foldl min x)

/-- `self.data['prediction_errors'][data_label]` -/
def storedErrors (d : Detector) (k : String) : Except PyErr (List ℚ) :=
  match d.errors with
  | none => .error .keyError
  | some e =>
    match e.get? k with
    | none => .error .keyError
    | some l => .ok l

/-- the value of a bound given as a string (anomaly_detectors.py 588-602); `errs` are the absolute
prediction errors -/
def boundValue (d : Detector) (k : String) (errs : List ℚ) : Bound → Except PyErr ℚ
  | .maxErr => pyMaxList errs
  | .avgErr => pyDiv errs.sum errs.length
  | .sigma x => .ok (x * d.stdev k)
  | .adherence x =>
    match pyDiv (d.dist k (d.loc k)) x with
    | .error e => .error e
    | .ok y => d.findX k y
  | .num x => .ok x
  | .unknown => .error .valueError

/-- is the bound given as a string? -/
def Bound.isStr : Bound → Bool
  | .num _ => false
  | _ => true

/-- `this_index_bounds[i] = ...` (588-602): a tuple does not support the assignment -/
def resolveBound (d : Detector) (tuple : Bool) (k : String) (errs : List ℚ) (b : Bound) : Except PyErr ℚ :=
  match boundValue d k errs b with
  | .error e => .error e
  | .ok v => if tuple && b.isStr then .error .typeError else .ok v

/-- the range of the index for a label: the bounds and the density there -/
structure IndexRange where
  xs : ℚ
  xe : ℚ
  ys : ℚ
  ye : ℚ
  deriving DecidableEq, Repr

/-- `log10(y)`: a `ValueError` for what is not positive -/
def pyLog (lg : ℚ → ℚ) (y : ℚ) : Except PyErr ℚ :=
  if y ≤ 0 then .error .valueError else .ok (lg y)

/-- the check of the logarithms of the bounds (608-623) -/
def checkLogs (lg : ℚ → ℚ) (kind : IndexKind) (r : IndexRange) : Except PyErr IndexRange :=
  if kind = .log then
    match pyLog lg r.ys, pyLog lg r.ye with
    | .ok _, .ok _ => .ok r
    | _, _ => .error .valueError
  else .ok r

/-- the range of a label (anomaly_detectors.py 581-623) -/
def labelRange (lg : ℚ → ℚ) (d : Detector) (c : AnomCfg) (k : String) : Except PyErr IndexRange :=
  match storedErrors d k with
  | .error e => .error e
  | .ok errs =>
    match resolveBound d c.tuple k (errs.map (fun e => |e|)) c.lower with
    | .error e => .error e
    | .ok xs =>
      match resolveBound d c.tuple k (errs.map (fun e => |e|)) c.upper with
      | .error e => .error e
      | .ok xe => checkLogs lg c.kind ⟨xs, xe, d.dist k xs, d.dist k xe⟩

/-- a label with its range -/
def labelWithRange (lg : ℚ → ℚ) (d : Detector) (c : AnomCfg) (k : String) : Except PyErr (String × IndexRange) :=
  match labelRange lg d c k with
  | .error e => .error e
  | .ok r => .ok (k, r)

/-- the prediction error (anomaly_detectors.py 691-702, and 329-338 in the fit), for Python numbers -/
def predictionError (metric : String) (actual predicted : ℚ) : Except PyErr ℚ :=
  if metric = "E" then .ok (actual - predicted)
  else if metric = "AE" then .ok |actual - predicted|
  else if metric = "PE" then pyDiv (actual - predicted) actual
  else if metric = "APE" then
    match pyDiv (actual - predicted) actual with
    | .error e => .error e
    | .ok v => .ok |v|
  else .error .valueError

/-- "reverse values on the left side" (anomaly_detectors.py 704-706) -/
def mirrored (loc e : ℚ) : ℚ := if e < loc then |e| + loc else e

/-- the index of the error `x`, of density `y` (anomaly_detectors.py 715-729).  Simplification: a zero
denominator is a `ZeroDivisionError`; with `numpy` numbers it would be a NaN or an infinity. -/
def rawIndex (lg : ℚ → ℚ) (kind : IndexKind) (r : IndexRange) (x y : ℚ) : Except PyErr ℚ :=
  if x ≤ r.xs then .ok 0
  else if r.xe ≤ x then .ok 1
  else
    match kind with
    | .lin =>
      match pyDiv (y - r.ye) (r.ys - r.ye) with
      | .error e => .error e
      | .ok v => .ok (1 - v)
    | .log =>
      match pyLog lg y with
      | .error e => .error e
      | .ok ly => pyDiv (ly - lg r.ys) (lg r.ye - lg r.ys)
    | .unknown => .error .valueError

/-- the categorical index (anomaly_detectors.py 731-735) -/
def withThreshold (threshold : Option ℚ) (v : ℚ) : ℚ :=
  match threshold with
  | none => v
  | some t => if v < t then 0 else 1

/-- what is computed for a label of an item -/
structure LabelScore where
  index : ℚ
  pred : ℚ
  err : ℚ
  adh : ℚ
  deriving DecidableEq, Repr

/-- the index of a label given the actual and the predicted value (anomaly_detectors.py 691-735).
Simplification: the adherence for a zero maximum density is taken as 0. -/
def scoreValues (lg : ℚ → ℚ) (d : Detector) (c : AnomCfg) (k : String) (r : IndexRange) (actual predicted : ℚ) :
    Except PyErr LabelScore :=
  match predictionError d.metric actual predicted with
  | .error e => .error e
  | .ok pe =>
    match rawIndex lg c.kind r (mirrored (d.loc k) pe) (d.dist k (mirrored (d.loc k) pe)) with
    | .error e => .error e
    | .ok v => .ok ⟨withThreshold c.threshold v, predicted, mirrored (d.loc k) pe,
        d.dist k (mirrored (d.loc k) pe) / d.dist k (d.loc k)⟩

/-- the predictions of a pre-processed series, by position: `series.predictions` -/
abbrev Predictions := List (ℕ × Dict ℚ)

/-- `series.predictions[i][data_label]` -/
def storedPrediction (p : Predictions) (i : ℕ) (k : String) : Except PyErr ℚ :=
  match p.lookup i with
  | none => .error .keyError
  | some d => lookupE d k

/-- the predicted value: stored if the series is pre-processed (anomaly_detectors.py 683-689) -/
def predictedFor (d : Detector) (pre : Option Predictions) (l : List Item) (i : ℕ) (k : String) :
    Except PyErr ℚ :=
  match pre with
  | some p => storedPrediction p i k
  | none => d.predict l i k

/-- the score of a label of an item -/
def scoreLabel (lg : ℚ → ℚ) (d : Detector) (c : AnomCfg) (pre : Option Predictions) (l : List Item) (i : ℕ)
    (x : Item) (kr : String × IndexRange) : Except PyErr (String × LabelScore) :=
  match itemValue x kr.1 with
  | .error e => .error e
  | .ok actual =>
    match predictedFor d pre l i kr.1 with
    | .error e => .error e
    | .ok predicted =>
      match scoreValues lg d c kr.1 kr.2 actual predicted with
      | .error e => .error e
      | .ok sc => .ok (kr.1, sc)

/-- the details of a label added to the data (anomaly_detectors.py 741-755); the key of the adherence in
the list variant is misspelt in the code -/
def addDetails (details : Details) (dd : Dict ℚ) (ks : String × LabelScore) : Dict ℚ :=
  match details with
  | .no => dd
  | .all => ((dd.set (ks.1 ++ "_pred") ks.2.pred).set (ks.1 ++ "_err") ks.2.err).set (ks.1 ++ "_adh") ks.2.adh
  | .some l =>
    let d1 := if l.contains "pred" then dd.set (ks.1 ++ "_pred") ks.2.pred else dd
    let d2 := if l.contains "err" then d1.set (ks.1 ++ "_err") ks.2.err else d1
    if l.contains "adh" then d2.set (ks.1 ++ "_adh)") ks.2.adh else d2

/-- the index of the item from those of its labels (anomaly_detectors.py 757-768) -/
def combineIndexes (st : Strategy) (l : List ℚ) : Except PyErr ℚ :=
  match l with
  | [v] => .ok v
  | _ =>
    match st with
    | .min => pyMinList l
    | .max => pyMaxList l
    | .avg => pyDiv l.sum l.length

/-- the data with the details -/
def detailedData (details : Details) (sc : List (String × LabelScore)) : Option Data → Option Data
  | some (.dict dd) => some (.dict (sc.foldl (addDetails details) dd))
  | o => o

/-- the copy of the item with its index and its details -/
def scoredItem (details : Details) (sc : List (String × LabelScore)) (v : ℚ) (x : Item) : Item :=
  { x with data := detailedData details sc x.data, idx := x.idx.set "anomaly" (some v) }

/-- the scored item (anomaly_detectors.py 662-771) -/
def scoreItem (lg : ℚ → ℚ) (d : Detector) (c : AnomCfg) (pre : Option Predictions)
    (ranges : List (String × IndexRange)) (l : List Item) (i : ℕ) (x : Item) : Except PyErr Item :=
  match mapE (scoreLabel lg d c pre l i x) ranges with
  | .error e => .error e
  | .ok sc =>
    match combineIndexes c.strategy (sc.map (fun p => p.2.index)) with
    | .error e => .error e
    | .ok v => .ok (scoredItem c.details sc v x)

/-- the data loss of an item, as read by the property (datastructures.py 254-261, 553-560) -/
def lossOf (x : Item) : Option ℚ := (x.idx.get? "data_loss").join

/-- the data loss of the item `j`, if any -/
def lossAt (l : List Item) (j : ℕ) : Option ℚ := (l[j]?).bind lossOf

/-- `data_loss is not None and data_loss >= data_loss_threshold` -/
def tooLossy (thr : ℚ) : Option ℚ → Bool
  | none => false
  | some v => decide (thr ≤ v)

/-- what to do with an item: nothing (before the window), end the loop, append it as it is, score it -/
inductive Step where
  | skip
  | stop
  | pass
  | score
  deriving DecidableEq, Repr

/-- the check on the other side of the window of a reconstructor (anomaly_detectors.py 653-657): one
item only, and the `break` ends the whole loop.  With a zero window `j` is not defined
(`UnboundLocalError`, here a generic exception); comparing a missing data loss is a `TypeError`. -/
def farCheck (d : Detector) (thr : ℚ) (l : List Item) (i : ℕ) : Except PyErr Step :=
  if d.window = 0 then .error .exception
  else
    match lossAt l (i - d.window) with
    | none => .ok .score
    | some _ =>
      match lossAt l (i + d.window) with
      | none => .error .typeError
      | some v => if thr ≤ v then .ok .stop else .ok .score

/-- the decision for the item `i` (anomaly_detectors.py 633-661) -/
def stepAt (d : Detector) (thr : ℚ) (l : List Item) (i : ℕ) : Except PyErr Step :=
  if i ≤ d.window then .ok .skip
  else if d.recon && decide ((l.length : Int) - d.window - 1 < i) then .ok .stop
  else if tooLossy thr (lossAt l i) then .ok .pass
  else if (List.range d.window).any (fun j => tooLossy thr (lossAt l (i - j - 1))) then .ok .pass
  else if d.recon then farCheck d thr l i
  else .ok .score

/-- the main loop (anomaly_detectors.py 628-772) -/
def anomLoop (lg : ℚ → ℚ) (d : Detector) (c : AnomCfg) (pre : Option Predictions)
    (ranges : List (String × IndexRange)) (l : List Item) : List Item → ℕ → TSeries → Except PyErr TSeries
  | [], _, acc => .ok acc
  | x :: r, i, acc =>
    match stepAt d c.lossThreshold l i with
    | .error e => .error e
    | .ok .skip => anomLoop lg d c pre ranges l r (i + 1) acc
    | .ok .stop => .ok acc
    | .ok .pass =>
      match appendE acc x with
      | .error e => .error e
      | .ok acc' => anomLoop lg d c pre ranges l r (i + 1) acc'
    | .ok .score =>
      match scoreItem lg d c pre ranges l i x with
      | .error e => .error e
      | .ok y =>
        match appendE acc y with
        | .error e => .error e
        | .ok acc' => anomLoop lg d c pre ranges l r (i + 1) acc'

/-- is the metric known? (anomaly_detectors.py 561-568) -/
def knownMetric (m : String) : Bool := m == "E" || m == "AE" || m == "PE" || m == "APE"

/-- `apply(series)` of a fitted detector, after the checks of the base class (which are in `Models`).  For
an unknown metric the code reads `self.data['error']` to write the message: a `KeyError`. -/
def anomApply (lg : ℚ → ℚ) (d : Detector) (c : AnomCfg) (pre : Option Predictions) (s : TSeries) :
    Except PyErr TSeries :=
  if knownMetric d.metric then
    match (MSeries.ofSeries s).labels with
    | .error e => .error e
    | .ok ks =>
      match mapE (labelWithRange lg d c) ks with
      | .error e => .error e
      | .ok ranges => anomLoop lg d c pre ranges s.items s.items 0 {}
  else .error .keyError

/-- is the item `i` pre-processed? (anomaly_detectors.py 501-507) -/
def inScope (d : Detector) (n i : ℕ) : Bool :=
  !decide (i ≤ d.window) && !(d.recon && decide ((n : Int) - d.window - 1 < i))

/-- the prediction of a label -/
def predictPair (d : Detector) (l : List Item) (i : ℕ) (k : String) : Except PyErr (String × ℚ) :=
  match d.predict l i k with
  | .error e => .error e
  | .ok v => .ok (k, v)

/-- the predictions of an item -/
def predictItem (d : Detector) (l : List Item) (ks : List String) (i : ℕ) : Except PyErr (ℕ × Dict ℚ) :=
  match mapE (predictPair d l i) ks with
  | .error e => .error e
  | .ok p => .ok (i, p)

/-- `preprocess(series)` (anomaly_detectors.py 484-516): the predictions stored on the series.  The
positions out of scope are those before a reconstructor's `break` or after it, so leaving them out is the
same as stopping there. -/
def preprocess (d : Detector) (s : TSeries) : Except PyErr Predictions :=
  match (MSeries.ofSeries s).labels with
  | .error e => .error e
  | .ok ks => mapE (predictItem d s.items ks) ((List.range s.items.length).filter (inScope d s.items.length))

end Timeseria
