import Verif.Model.Forecast
import Verif.Model.Models

/-! # The models around Prophet and ARIMA (models/base.py 454-484, forecasters.py 603-792,
reconstructors.py 481-541)

The engines (prophet, statsmodels, pmdarima) are external: what they are asked and how their answers
are used is modelled, what they answer is an arbitrary function. -/

namespace Timeseria

/-- The time zones (external, propertime and pytz): the offset from UTC, in seconds, in force in a zone
at a timestamp. -/
structure Zones where
  off : String → ℚ → ℚ
  utc : ∀ t, off "UTC" t = 0

/-- the datetime of a timestamp in a zone, without its time zone (`_remove_timezone`, base.py 457-459):
the reading of the wall clock, kept as a number of seconds -/
def Zones.wall (Z : Zones) (tz : String) (t : ℚ) : ℚ := t + Z.off tz t

/-- `_remove_timezone(item.dt)`: `dt` uses the zone of the item, and the start for slots
(datastructures.py 168-171, 467-470) -/
def Zones.itemWall (Z : Zones) (x : Item) : ℚ := Z.wall x.tz x.t

/-- `item.data[0]` for lists, `item.data[list(item.data.keys())[0]]` for dictionaries
(base.py 466-479; the items of a series carry the same kind of data) -/
def firstValue (x : Item) : Except PyErr ℚ :=
  match x.data with
  | none => .error .attributeError
  | some (.dict ((_, v) :: _)) => .ok v
  | some (.dict []) => .error .indexError
  | some (.list (v :: _)) => .ok v
  | some (.list []) => .error .indexError
  | some (.num _) => .error .typeError

/-- one row of the data frame given to Prophet: `ds` and `y` -/
def prophetRow (Z : Zones) (x : Item) : Except PyErr (ℚ × ℚ) :=
  match firstValue x with
  | .error e => .error e
  | .ok v => .ok (Z.itemWall x, v)

/-- `_from_timeseria_to_prophet(series)` (base.py 461-484): `series[0]` of an empty series raises -/
def prophetRows (Z : Zones) (l : List Item) : Except PyErr (List (ℚ × ℚ)) :=
  if l.isEmpty then .error .indexError else mapE (prophetRow Z) l

/-- Prophet: from the rows it is fitted on to the value (`yhat`) it predicts for a `ds`.  The rows asked
for in one call are answered one by one (simplification). -/
abbrev ProphetEngine := List (ℚ × ℚ) → ℚ → ℚ

/-- the body of `fit` (forecasters.py 611-636, reconstructors.py 492-512): more than one label is refused
(`Exception` in the forecaster, `NotImplementedError` in the reconstructor), otherwise the model keeps the
fitted engine.  The import of the package and the log settings are left out. -/
def prophetFit (Z : Zones) (E : ProphetEngine) (multi : PyErr) (s : TSeries) : Except PyErr (ℚ → ℚ) :=
  match (MSeries.ofSeries s).labels with
  | .error e => .error e
  | .ok ls =>
    if ls.length > 1 then .error multi
    else
      match prophetRows Z s.items with
      | .error e => .error e
      | .ok rows => .ok (E rows)

/-- the datetimes to forecast (forecasters.py 645-654): `last_item_dt + series.resolution`, again and
again; a missing or variable resolution cannot be added to a datetime -/
def prophetAsk (cal : Calendar) (Z : Zones) (tz : String) (res : Res) : ℕ → ℚ → Except PyErr (List ℚ)
  | 0, _ => .ok []
  | n + 1, t =>
    match res with
    | .unit u =>
      match prophetAsk cal Z tz res n (cal.shift u tz t) with
      | .error e => .error e
      | .ok l => .ok (Z.wall tz (cal.shift u tz t) :: l)
    | _ => .error .typeError

/-- `ProphetForecaster.predict(series, steps)` (forecasters.py 638-667), `label` being
`self.data['data_labels'][0]` and `yhat` the fitted engine -/
def prophetForecast (cal : Calendar) (Z : Zones) (label : String) (yhat : ℚ → ℚ) : FPredictor := fun s n =>
  match s.items.getLast? with
  | none => .error .indexError
  | some last =>
    match prophetAsk cal Z last.tz s.res n last.t with
    | .error e => .error e
    | .ok ws => .ok (.many (ws.map (fun w => [(label, yhat w)])))

/-- `series[j]` for `j` in `range(from_i, to_i+1)`, then `_remove_timezone(dt_from_s(item.t))`
(reconstructors.py 528-532): `dt_from_s` without a zone gives UTC -/
def prophetRecAsk (Z : Zones) (cur : List Item) (j : ℕ) : Except PyErr ℚ :=
  match cur[j]? with
  | none => .error .indexError
  | some x => .ok (Z.wall "UTC" x.t)

/-- `ProphetReconstructor.predict(series, from_i, to_i)` (reconstructors.py 514-541) -/
def prophetRec (Z : Zones) (yhat : ℚ → ℚ) : Predictor := fun cur g h =>
  match headLabelsR cur with
  | .error e => .error e
  | .ok [] => .error .indexError
  | .ok [k] =>
    match mapE (prophetRecAsk Z cur) (List.range' g (h + 1 - g)) with
    | .error e => .error e
    | .ok ws => .ok (.lists [(k, ws.map yhat)])
  | .ok (_ :: _ :: _) => .error .notImplemented

/-! ## ARIMA -/

/-- `ARIMAForecaster.predict(series, steps)` and `AARIMAForecaster.predict(series, steps)`
(forecasters.py 719-733, 778-790): `fit` is the series the model keeps (`self.fit_series`) as it is *now*,
`fc` the forecasts of the engine, counted from the end of the data it was fitted on.  The
`NonContiguityError` is an `exception` here. -/
def arimaPredict (fit : TSeries) (label : String) (fc : ℕ → List ℚ) : FPredictor := fun s n =>
  match fit.items.getLast? with
  | none => .error .indexError
  | some f =>
    match s.items.getLast? with
    | none => .error .indexError
    | some x =>
      if f.t ≠ x.t then .error .exception
      else .ok (.many ((fc n).map (fun v => [(label, v)])))

/-- the same call on a view of a series, as `evaluate` makes it (forecasters.py 60-83) -/
def arimaView (fit : TSeries) (label : String) (fc : ℕ → List ℚ) : VPredictor := fun v =>
  match fit.items.getLast? with
  | none => .error .indexError
  | some f =>
    match v.getAt (-1) with
    | .error e => .error e
    | .ok x =>
      if f.t ≠ x.t then .error .exception
      else .ok (.many ((fc 1).map (fun v => [(label, v)])))

/-- `predict` on the very series the model was fitted on: `self.fit_series` *is* `series`
(forecasters.py 715, 774: the series is kept, not copied) -/
def arimaOnFit (label : String) (fc : ℕ → List ℚ) : FPredictor := fun s n => arimaPredict s label fc s n

/-- what can happen after the fit: the model is applied to a copy of a series, to another series in
place, to the fitted series in place, or the owner of the fitted series appends to it -/
inductive ArimaCall where
  | copy (s : TSeries) (n : ℕ)
  | other (s : TSeries) (n : ℕ)
  | onFit (n : ℕ)
  | grow (x : Item)

/-- one call: the series the model was fitted on afterwards, and the series applied to or returned, with
the outcome -/
def arimaStep (cal : Calendar) (c : FCfg) (label : String) (fc : ℕ → List ℚ) (fit : TSeries) :
    ArimaCall → TSeries × Except PyErr TSeries
  | .copy s n => (fit, forecastApply cal c (arimaPredict fit label fc) s n)
  | .other s n =>
    match forecastInplace cal c (arimaPredict fit label fc) s n with
    | (_, .error e) => (fit, .error e)
    | (s', .ok ()) => (fit, .ok s')
  | .onFit n =>
    match forecastInplace cal c (arimaOnFit label fc) fit n with
    | (s', .error e) => (s', .error e)
    | (s', .ok ()) => (s', .ok s')
  | .grow x =>
    match fit.append x with
    | (s', .error e) => (s', .error e)
    | (s', .ok ()) => (s', .ok s')

/-- a history of calls: the series the model was fitted on afterwards -/
def arimaRun (cal : Calendar) (c : FCfg) (label : String) (fc : ℕ → List ℚ) : TSeries → List ArimaCall → TSeries
  | fit, [] => fit
  | fit, a :: r => arimaRun cal c label fc (arimaStep cal c label fc fit a).1 r

/-! ## Saving -/

/-- A fitted model of these classes: what `self.data` holds, and the engine, an attribute of the object
which `fit` sets (`self.prophet_model`, `self.model_res`, `self.model`). -/
structure StatModel where
  state : MState (Dict PVal)
  engine : Option FPredictor

/-- `predict` of these classes: without the attribute, an `AttributeError` -/
def StatModel.predictor (m : StatModel) : FPredictor := fun s n =>
  match m.engine with
  | none => .error .attributeError
  | some p => p s n

/-- `load(path)`: the class has no `load` of its own, so the one of the base class (base.py 87-109) makes a
new object and gives it the data -/
def loadStat (c : UnitCodec) (d : Disk) (path : String) : Except PyErr StatModel :=
  match loadModel c d path with
  | .error e => .error e
  | .ok st => .ok ⟨st, none⟩

end Timeseria
