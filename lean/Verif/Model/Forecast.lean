import Verif.Model.Models
import Verif.Model.Reconstruct

/-! # The generic forecaster (models/forecasters.py 45-440)

The `predict` method of the concrete class, checks of the base class included, is an arbitrary function
of the series and of the number of steps.  Context data is not modelled. -/

namespace Timeseria

/-- what `predict` returns: the data of one step, or a list with the data of each step -/
inductive FPred where
  | one (d : Dict ℚ)
  | many (l : List (Dict ℚ))
  deriving DecidableEq, Repr

/-- `self.predict(series, steps=steps)` -/
abbrev FPredictor := TSeries → ℕ → Except PyErr FPred

/-- The entries of `self.data` read by the generic forecaster: `target_data_labels` (empty: missing)
and `resolution` (missing for a model without a fit). -/
structure FCfg where
  targets : List String := []
  resolution : Option Res := none

/-- what `forecast` returns: an item, or a list of items -/
inductive FItems where
  | one (x : Item)
  | many (l : List Item)
  deriving DecidableEq, Repr

/-- `t + resolution` for the timestamp of a point: adding the missing resolution or the string
`'variable'` to a number is a `TypeError`.  The resolution of a point series is in seconds. -/
def addRes (t : ℚ) : Res → Except PyErr ℚ
  | .unit u => .ok (t + u.secs)
  | _ => .error .typeError

/-- the unit passed to the slot: `None` for a missing resolution (a slot series has no variable one) -/
def Res.toUnit : Res → Option TUnit
  | .unit u => some u
  | _ => none

/-- the point forecast after `last` (forecasters.py 117-119, 130-132) -/
def forecastPoint (tz : Option String) (res : Res) (last : Item) (d : Dict ℚ) : Except PyErr Item :=
  match addRes last.t res with
  | .error e => .error e
  | .ok t => .ok (mkPoint t (.dict d) (tz.getD "UTC"))

/-- the slot forecast after `last` (forecasters.py 110-115, 124-128): `last.end` is missing on a point;
`data_loss = None` sets the index to `None` (datastructures.py 211-217) -/
def forecastSlot (cal : Calendar) (res : Res) (last : Item) (d : Dict ℚ) : Except PyErr Item :=
  match last.slot with
  | none => .error .attributeError
  | some (e, _) =>
    match mkTimeSlot cal (e, last.tz) none res.toUnit with
    | .error er => .error er
    | .ok x => .ok { x with data := some (.dict d), idx := [("data_loss", none)] }

/-- one forecast after `last`, `slots` being `isinstance(series[0], Slot)` -/
def forecastItem (cal : Calendar) (slots : Bool) (tz : Option String) (res : Res) (last : Item) (d : Dict ℚ) :
    Except PyErr Item :=
  if slots then forecastSlot cal res last d else forecastPoint tz res last d

/-- the loop over a list of predictions (forecasters.py 105-120) -/
def forecastList (cal : Calendar) (slots : Bool) (tz : Option String) (res : Res) :
    Item → List (Dict ℚ) → Except PyErr (List Item)
  | _, [] => .ok []
  | last, d :: r =>
    match forecastItem cal slots tz res last d with
    | .error e => .error e
    | .ok x =>
      match forecastList cal slots tz res x r with
      | .error e => .error e
      | .ok l => .ok (x :: l)

/-- `isinstance(series[0], Slot)` -/
def TSeries.ofSlots (s : TSeries) : Bool :=
  match s.items.head? with
  | some x => x.isSlot
  | none => false

/-- the resolution used for a single prediction: that of the series for slots, that stored in the model
for points (forecasters.py 125, 130) -/
def singleRes (c : FCfg) (s : TSeries) : Except PyErr Res :=
  if s.ofSlots then .ok s.res
  else
    match c.resolution with
    | none => .error .keyError
    | some r => .ok r

/-- the check of the target labels (forecasters.py 92-94, 142-144): compared as sets -/
def checkTargets (c : FCfg) (s : TSeries) : Outcome :=
  if c.targets.isEmpty then .ok ()
  else
    match (MSeries.ofSeries s).labels with
    | .error e => .error e
    | .ok ls =>
      if c.targets.all (fun k => ls.contains k) && ls.all (fun k => c.targets.contains k) then .ok ()
      else .error .valueError

/-- building the items from the predictions (forecasters.py 101-133) -/
def itemsFrom (cal : Calendar) (c : FCfg) (s : TSeries) (p : FPred) : Except PyErr FItems :=
  match s.items.getLast? with
  | none => .error .indexError
  | some last =>
    match p with
    | .many ds =>
      match forecastList cal s.ofSlots s.getTz s.res last ds with
      | .error e => .error e
      | .ok l => .ok (.many l)
    | .one d =>
      match singleRes c s with
      | .error e => .error e
      | .ok r =>
        match forecastItem cal s.ofSlots s.getTz r last d with
        | .error e => .error e
        | .ok x => .ok (.one x)

/-- `forecast(series, steps)` (forecasters.py 85-135) -/
def forecast (cal : Calendar) (c : FCfg) (pred : FPredictor) (s : TSeries) (n : ℕ) : Except PyErr FItems :=
  match checkTargets c s with
  | .error e => .error e
  | .ok () =>
    match pred s n with
    | .error e => .error e
    | .ok p => itemsFrom cal c s p

/-- `item.data_indexes['forecast'] = v` -/
def markForecast (v : ℚ) (x : Item) : Item := { x with idx := x.idx.set "forecast" (some v) }

/-- the body of the `try` (forecasters.py 157-169) -/
def applyAtOnce (cal : Calendar) (c : FCfg) (pred : FPredictor) (s : TSeries) (n : ℕ) : TSeries × Outcome :=
  match forecast cal c pred s n with
  | .error e => (s, .error e)
  | .ok (.one x) => s.append (markForecast 1 x)
  | .ok (.many l) => s.appendAll (l.map (markForecast 1))

/-- the loop of the `except NotImplementedError` (forecasters.py 171-185): a list has no
`data_indexes` -/
def applyByStep (cal : Calendar) (c : FCfg) (pred : FPredictor) : ℕ → TSeries → TSeries × Outcome
  | 0, s => (s, .ok ())
  | n + 1, s =>
    match forecast cal c pred s 1 with
    | .error e => (s, .error e)
    | .ok (.many _) => (s, .error .attributeError)
    | .ok (.one x) =>
      match s.append (markForecast 1 x) with
      | (s', .error e) => (s', .error e)
      | (s', .ok ()) => applyByStep cal c pred n s'

/-- `try` and `except` together -/
def applySteps (cal : Calendar) (c : FCfg) (pred : FPredictor) (s : TSeries) (n : ℕ) : TSeries × Outcome :=
  match applyAtOnce cal c pred s n with
  | (s', .error e) => if e = .notImplemented then applyByStep cal c pred n s' else (s', .error e)
  | (s', .ok ()) => (s', .ok ())

/-- `apply(series, steps, inplace=True)` (forecasters.py 137-193): the series afterwards and the
outcome -/
def forecastInplace (cal : Calendar) (c : FCfg) (pred : FPredictor) (s : TSeries) (n : ℕ) : TSeries × Outcome :=
  match checkTargets c s with
  | .error e => (s, .error e)
  | .ok () =>
    match applySteps cal c pred { s with items := s.items.map (markForecast 0) } n with
    | (s', .error e) => (s', .error e)
    | (s', .ok ()) =>
      if s.items.length + n ≠ s'.items.length then (s', .error .valueError) else (s', .ok ())

/-- `apply(series, steps)` (forecasters.py 146-147, 190-191): works on a duplicate.  The check of the
target labels comes first in the code and gives the same result on the duplicate. -/
def forecastApply (cal : Calendar) (c : FCfg) (pred : FPredictor) (s : TSeries) (n : ℕ) : Except PyErr TSeries :=
  match s.duplicate with
  | .error e => .error e
  | .ok s1 =>
    match forecastInplace cal c pred s1 n with
    | (_, .error e) => .error e
    | (s', .ok ()) => .ok s'

/-! ## Evaluation -/

/-- `self.predict(view, steps=1)`, the argument being a view of the series -/
abbrev VPredictor := View → Except PyErr FPred

/-- `d[k]` -/
def lookupE (d : Dict ℚ) (k : String) : Except PyErr ℚ :=
  match d.get? k with
  | none => .error .keyError
  | some v => .ok v

/-- `item.data[k]` -/
def itemValue (x : Item) (k : String) : Except PyErr ℚ :=
  match x.data with
  | some (.dict d) => lookupE d k
  | some _ => .error .typeError
  | none => .error .attributeError

/-- `_get_predicted_value` (forecasters.py 64-83).  The dictionary of lists is not a result of the
modelled predictors. -/
def predictedValue (k : String) : FPred → Except PyErr ℚ
  | .many [] => .error .indexError
  | .many (d :: _) => lookupE d k
  | .one d => lookupE d k

/-- `_get_actual_value` (forecasters.py 60-62) for dictionary data -/
def actualValue (s : TSeries) (i : ℕ) (k : String) : Except PyErr ℚ :=
  match s.items[i]? with
  | none => .error .indexError
  | some x => itemValue x k

/-- actual and predicted value of the item `i`; the prediction is made on the view of the items
before it -/
def evalPair (pred : VPredictor) (s : TSeries) (k : String) (i : ℕ) : Except PyErr (ℚ × ℚ) :=
  match actualValue s i k with
  | .error e => .error e
  | .ok a =>
    match pred ⟨s, 0, i, 0⟩ with
    | .error e => .error e
    | .ok p =>
      match predictedValue k p with
      | .error e => .error e
      | .ok v => .ok (a, v)

/-- the values compared for a label: from the window on (forecasters.py 286-323).  `window = 0` stands
for a missing window too. -/
def evalPairs (pred : VPredictor) (window : ℕ) (s : TSeries) (k : String) : Except PyErr (List (ℚ × ℚ)) :=
  mapE (evalPair pred s k) ((List.range s.items.length).filter (fun i => decide (window ≤ i)))

end Timeseria
