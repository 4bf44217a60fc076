import Verif.Model.Models

/-! # Training windows, features and normalisation of the neural network forecaster
(models/base.py 562-680, models/forecasters.py 780-1044) -/

namespace Timeseria

/-- `data_loss_limit is not None and 'data_loss' in item.data_indexes and
item.data_indexes['data_loss'] >= data_loss_limit`: comparing `None` with a number is a `TypeError`. -/
def lossReaches (limit : Option ℚ) (x : Item) : Except PyErr Bool :=
  match limit with
  | none => .ok false
  | some m =>
    match x.idx.get? "data_loss" with
    | none => .ok false
    | some none => .error .typeError
    | some (some l) => .ok (decide (l ≥ m))

/-- `item.data[label]` by subscript: only dictionaries are indexed by strings -/
def Item.raw (x : Item) (k : String) : Except PyErr ℚ :=
  match x.data with
  | none => .error .attributeError
  | some (.dict d) => match d.get? k with
    | some v => .ok v
    | none => .error .keyError
  | some _ => .error .typeError

/-- does some item of the list, looked at in order, reach the limit? -/
def anyReaches (limit : Option ℚ) : List Item → Except PyErr Bool
  | [] => .ok false
  | x :: r =>
    match lossReaches limit x with
    | .error e => .error e
    | .ok true => .ok true
    | .ok false => anyReaches limit r

/-- A row of the matrices: the window elements, the target values and the context data. -/
structure WRow where
  window : List Item
  target : List ℚ
  context : Dict ℚ
  deriving DecidableEq, Repr

/-- `{label: item.data[label] for label in labels}`, or nothing when no context is asked for -/
def contextOf (ctx : Option (List String)) (x : Item) : Except PyErr (Dict ℚ) :=
  match ctx with
  | none => .ok []
  | some ks => mapE (fun k => tag k (x.raw k)) ks

/-- the row for a target item `x` preceded by the window `w` (base.py 580-602); `none` when the data
loss is too high -/
def windowRow (ctx : Option (List String)) (targets : List String) (limit : Option ℚ) (w : List Item)
    (x : Item) : Except PyErr (Option WRow) :=
  match anyReaches limit (w ++ [x]) with
  | .error e => .error e
  | .ok true => .ok none
  | .ok false =>
    match mapE (fun k => x.raw k) targets with
    | .error e => .error e
    | .ok tv =>
      match contextOf ctx x with
      | .error e => .error e
      | .ok c => .ok (some ⟨w, tv, c⟩)

/-- the loop over the positions `i, i+1, …` (base.py 572-602); `rest` are the items from `i` on -/
def windowLoop (ctx : Option (List String)) (targets : List String) (limit : Option ℚ) (W : ℕ) (l : List Item) :
    ℕ → List Item → Except PyErr (List WRow)
  | _, [] => .ok []
  | i, x :: r =>
    if i < W then windowLoop ctx targets limit W l (i + 1) r
    else
      match windowRow ctx targets limit ((l.drop (i - W)).take W) x with
      | .error e => .error e
      | .ok o =>
        match windowLoop ctx targets limit W l (i + 1) r with
        | .error e => .error e
        | .ok t => .ok (o.toList ++ t)

/-- `_to_matrix_representation(series, window, steps, …)` (base.py 562-604), the three lists being kept
together row by row -/
def toMatrix (l : List Item) (W steps : ℕ) (ctx : Option (List String)) (targets : List String)
    (limit : Option ℚ) : Except PyErr (List WRow) :=
  if steps > 1 then .error .notImplemented
  else windowLoop ctx targets limit W l 0 l

/-! ## Features -/

/-- the kinds of features -/
structure Features where
  values : Bool
  diffs : Bool
  hours : Bool
  deriving DecidableEq, Repr

/-- a data point of a window: its data and the hour of its date -/
structure FPoint where
  data : Dict ℚ
  hour : ℚ
  deriving DecidableEq, Repr

/-- the value of a label, 0 when missing (base.py 645-649) -/
def featValue (p : FPoint) (k : String) : ℚ := match p.data.get? k with | some v => v | none => 0

/-- a difference of 0 is replaced by 1 (base.py 663-664) -/
def nonZero (d : ℚ) : ℚ := if d = 0 then 1 else d

/-- the difference of two values, missing if one of them is -/
def optSub (b a : Option ℚ) : Option ℚ :=
  match b, a with
  | some b, some a => some (b - a)
  | _, _ => none

/-- the difference stored for a label: a missing one is stored as 0 (the `KeyError` branch, 665-666) -/
def featStore (o : Option ℚ) : ℚ := match o with | some d => nonZero d | none => 0

/-- `window_datapoints[i].data[label]`: `none` for a missing position (an `IndexError` of the caller) -/
def featAt (ps : List FPoint) (i : ℕ) (k : String) : Option ℚ :=
  match ps[i]? with
  | some p => p.data.get? k
  | none => none

/-- the difference for the label at position `i` (base.py 655-667): forward at the first position, backward at the last,
central in between.  A window of a single item has no second one: `IndexError`. -/
def featDiff (ps : List FPoint) (i : ℕ) (k : String) : Except PyErr ℚ :=
  if i = 0 then
    if ps.length < 2 then .error .indexError
    else .ok (featStore (optSub (featAt ps 1 k) (featAt ps 0 k)))
  else if i = ps.length - 1 then
    .ok (featStore (optSub (featAt ps (ps.length - 1) k) (featAt ps (ps.length - 2) k)))
  else .ok (featStore ((optSub (featAt ps (i + 1) k) (featAt ps (i - 1) k)).map (· / 2)))

/-- the features of the item at position `i` (base.py 636-672) -/
def featRow (ps : List FPoint) (ks : List String) (f : Features) (i : ℕ) (p : FPoint) : Except PyErr (List ℚ) :=
  match (if f.diffs then mapE (featDiff ps i) ks else .ok []) with
  | .error e => .error e
  | .ok ds => .ok ((if f.values then ks.map (featValue p) else []) ++ ds ++ (if f.hours then [p.hour / 24] else []))

/-- the rows from position `i` on -/
def featRows (ps : List FPoint) (ks : List String) (f : Features) : ℕ → List FPoint → Except PyErr (List (List ℚ))
  | _, [] => .ok []
  | i, p :: r =>
    match featRow ps ks f i p with
    | .error e => .error e
    | .ok v =>
      match featRows ps ks f (i + 1) r with
      | .error e => .error e
      | .ok t => .ok (v :: t)

/-- `_compute_window_features(window_datapoints, data_labels, time_unit, features, context_data)` (base.py
607-680): the context, if any, is a further data point (its hour comes with it here). -/
def windowFeatures (ps : List FPoint) (ks : List String) (f : Features) (ctx : Option FPoint) :
    Except PyErr (List (List ℚ)) :=
  featRows (ps ++ ctx.toList) ks f 0 (ps ++ ctx.toList)

/-! ## Normalisation -/

/-- `(value - min) / (max - min)` (forecasters.py 924, 1013, 1018) -/
def normalize (lo hi v : ℚ) : Except PyErr ℚ := if hi - lo = 0 then .error .zeroDivision else .ok ((v - lo) / (hi - lo))

/-- `value*(max - min) + min` (forecasters.py 1034) -/
def denormalize (lo hi v : ℚ) : ℚ := v * (hi - lo) + lo

/-- normalisation of one data dictionary with the ranges stored by the fit -/
def normalizeDict (ranges : Dict (ℚ × ℚ)) : Dict ℚ → Except PyErr (Dict ℚ)
  | [] => .ok []
  | (k, v) :: r =>
    match ranges.get? k with
    | none => .error .keyError
    | some (lo, hi) =>
      match normalize lo hi v with
      | .error e => .error e
      | .ok v' => match normalizeDict ranges r with
        | .error e => .error e
        | .ok r' => .ok ((k, v') :: r')

/-- least and greatest value of a label over the training data (`series.min()`, `series.max()`,
forecasters.py 917-918) -/
def rangeOf (k : String) : List (Dict ℚ) → Except PyErr (ℚ × ℚ)
  | [] => .error .valueError
  | [d] => match d.get? k with
    | some v => .ok (v, v)
    | none => .error .keyError
  | d :: r => match d.get? k, rangeOf k r with
    | some v, .ok (lo, hi) => .ok (min v lo, max v hi)
    | none, _ => .error .keyError
    | _, .error e => .error e

/-- the ranges of all the labels -/
def rangesOf (ks : List String) (rows : List (Dict ℚ)) : Except PyErr (Dict (ℚ × ℚ)) :=
  mapE (fun k => tag k (rangeOf k rows)) ks

/-- What the fit does with the ranges stored before (forecasters.py 911-928): without normalisation they
are left there.  Gives the ranges stored and the data the network is trained on. -/
def lstmNormalization (old : Option (Dict (ℚ × ℚ))) (normalized : Bool) (ks : List String) (rows : List (Dict ℚ)) :
    Except PyErr (Option (Dict (ℚ × ℚ)) × List (Dict ℚ)) :=
  if normalized then
    match rangesOf ks rows with
    | .error e => .error e
    | .ok rg =>
      match mapE (normalizeDict rg) rows with
      | .error e => .error e
      | .ok rows' => .ok (some rg, rows')
  else .ok (old, rows)

/-- What the fit of the LSTM forecaster stores (forecasters.py 800-940). -/
structure Lstm where
  window : ℕ
  labels : List String
  targets : List String
  features : Features
  ranges : Option (Dict (ℚ × ℚ))
  deriving DecidableEq, Repr

/-- one data point normalised -/
def normPoint (rg : Dict (ℚ × ℚ)) (p : FPoint) : Except PyErr FPoint :=
  match normalizeDict rg p.data with
  | .ok d => .ok { p with data := d }
  | .error e => .error e

/-- the data points of the window, normalised if the fit was (forecasters.py 1004-1014) -/
def Lstm.prepare (m : Lstm) (ps : List FPoint) : Except PyErr (List FPoint) :=
  match m.ranges with
  | none => .ok ps
  | some rg => mapE (normPoint rg) ps

/-- `series[-window:]` (forecasters.py 998): with a window of 0 this is the whole series -/
def lastWindow (W : ℕ) (ps : List FPoint) : List FPoint := if W = 0 then ps else ps.drop (ps.length - W)

/-- the prediction for one target from the output of the network (forecasters.py 1027-1040) -/
def Lstm.output (m : Lstm) (k : String) (y : ℚ) : Except PyErr (String × ℚ) :=
  match m.ranges with
  | none => .ok (k, y)
  | some rg => match rg.get? k with
    | none => .error .keyError
    | some (lo, hi) => .ok (k, denormalize lo hi y)

/-- the predictions for all the targets, in order; a network with too few outputs is an `IndexError` -/
def Lstm.outputs (m : Lstm) : List String → List ℚ → Except PyErr (Dict ℚ)
  | [], _ => .ok []
  | _ :: _, [] => .error .indexError
  | k :: r, y :: ys =>
    match m.output k y with
    | .error e => .error e
    | .ok a => match m.outputs r ys with
      | .error e => .error e
      | .ok t => .ok (a :: t)

/-- `LSTMForecaster.predict(series, steps)` without context data (forecasters.py 974-1044): `net` is the external
neural network, from the features of the window to the outputs. -/
def Lstm.predict (m : Lstm) (net : List (List ℚ) → List ℚ) (ps : List FPoint) (steps : ℕ) : Except PyErr (Dict ℚ) :=
  if ps.length < m.window then .error .valueError
  else if steps > 1 then .error .notImplemented
  else
    match m.prepare (lastWindow m.window ps) with
    | .error e => .error e
    | .ok w =>
      match windowFeatures w m.labels m.features none with
      | .error e => .error e
      | .ok f => m.outputs m.targets (net f)

end Timeseria
