import Verif.Model.Forecast
import Verif.Model.Access

/-! # The evaluation of a forecaster (forecasters.py 195-433) -/

namespace Timeseria

/-- the aggregated error metrics (forecasters.py 245) -/
inductive Metric where
  | mse | rmse | mae | hae | mape | hape | male | hale
  deriving DecidableEq, Repr

/-- the name used in the arguments and in the results -/
def Metric.name : Metric → String
  | .mse => "MSE" | .rmse => "RMSE" | .mae => "MAE" | .hae => "HAE"
  | .mape => "MAPE" | .hape => "HAPE" | .male => "MALE" | .hale => "HALE"

/-- all of them, in the order in which they are computed (333-379) -/
def allMetrics : List Metric := [.mse, .rmse, .mae, .hae, .mape, .hape, .male, .hale]

/-- the metric of a name (244-246) -/
def readMetric (n : String) : Option Metric := allMetrics.find? (fun m => m.name = n)

/-- `math.sqrt` and `math.log` (external): arbitrary functions -/
structure MathLib where
  sqrt : ℚ → ℚ
  ln : ℚ → ℚ

/-- `log(a/p)`: division by zero, or `math domain error` -/
def logRatio (r : MathLib) (a p : ℚ) : Except PyErr ℚ :=
  if p = 0 then .error .zeroDivision
  else if a / p ≤ 0 then .error .valueError
  else .ok (r.ln (a / p))

/-- `(a-p)/a` -/
def relError (a p : ℚ) : Except PyErr ℚ := if a = 0 then .error .zeroDivision else .ok ((a - p) / a)

/-- `mean_absolute_log_error` (utilities.py 268-275) on pairs of actual and predicted values -/
def maleOf (r : MathLib) (ps : List (ℚ × ℚ)) : Except PyErr ℚ :=
  match mapE (fun x => logRatio r x.1 x.2) ps with
  | .error e => .error e
  | .ok l => if ps.length = 0 then .error .zeroDivision else .ok ((l.map (fun x => |x|)).sum / ps.length)

/-- `max_absolute_log_error` (utilities.py 278-290) -/
def haleOf (r : MathLib) (ps : List (ℚ × ℚ)) : Except PyErr (Option ℚ) :=
  match mapE (fun x => logRatio r x.1 x.2) ps with
  | .error e => .error e
  | .ok l => .ok ((l.map (fun x => |x|)).foldl maxStep none)

/-- the value of a metric (333-379); `None` for the maximum of no values -/
def metricValue (r : MathLib) (m : Metric) (ps : List (ℚ × ℚ)) : Except PyErr (Option ℚ) :=
  match m with
  | .mse => (Timeseria.mse (ps.map Prod.fst) (ps.map Prod.snd)).map some
  | .rmse => (Timeseria.mse (ps.map Prod.fst) (ps.map Prod.snd)).map (fun x => some (r.sqrt x))
  | .mae => (Timeseria.mae (ps.map Prod.fst) (ps.map Prod.snd)).map some
  | .hae => maxAe (ps.map Prod.fst) (ps.map Prod.snd)
  | .mape => (Timeseria.mape (ps.map Prod.fst) (ps.map Prod.snd)).map some
  | .hape => maxApe (ps.map Prod.fst) (ps.map Prod.snd)
  | .male => (maleOf r ps).map some
  | .hale => haleOf r ps

/-- the arguments of `evaluate` (196-197); `metrics = none` is `'auto'`.  The plots are left out. -/
structure EvalArgs where
  steps : Int := 1
  metrics : Option (List String) := none
  punctual : List String := []
  giveSeries : Bool := false

/-- The entries of `self.data` read by `evaluate`: `target_data_labels` (empty: missing),
`minimized_error_metric`, and `window` (outer `none`: the key is missing). -/
structure EvalModel where
  targets : List String := []
  minimized : Option String := none
  window : Option (Option ℕ) := none

/-- `if not self.data['window']: start_i = 0` (274-280): zero, `None` and a missing key are the same -/
def EvalModel.startAt (m : EvalModel) : ℕ := (m.window.getD none).getD 0

/-- the names of the metrics asked for (234-241) -/
def metricNames (m : EvalModel) (a : EvalArgs) : List String :=
  match a.metrics with
  | some l => l
  | none => match m.minimized with
    | some n => [n]
    | none => ["RMSE", "MAE"]

/-- the check of the names (243-252) -/
def checkMetrics (names punctual : List String) : Outcome :=
  if names.all (fun n => (readMetric n).isSome) then
    if punctual.all (fun n => decide (n = "E" ∨ n = "PE" ∨ n = "LE")) then .ok () else .error .valueError
  else .error .valueError

/-- One step of the part computed for each label (325-420): a metric added to the results, or a column added to the
results series. -/
inductive EvalStep where
  | metric (m : Metric)
  | column (suffix : String) (f : ℚ → ℚ → Except PyErr ℚ)

/-- the steps of a metric: itself, then the column of the single errors for three of them (339-341, 357-359, 374-376) -/
def metricSteps (r : MathLib) (gen : Bool) (m : Metric) : List EvalStep :=
  .metric m :: (if gen then
    match m with
    | .mae => [.column "AE" (fun a p => .ok |a - p|)]
    | .mape => [.column "APE" (fun a p => (relError a p).map (fun x => |x|))]
    | .male => [.column "ALE" (fun a p => (logRatio r a p).map (fun x => |x|))]
    | _ => []
  else [])

/-- the steps for the punctual errors (382-420) -/
def punctualSteps (r : MathLib) (gen : Bool) (punctual : List String) : List EvalStep :=
  if gen then
    (if "E" ∈ punctual then [.column "E" (fun a p => .ok (a - p))] else []) ++
    (if "PE" ∈ punctual then [.column "PE" relError] else []) ++
    (if "LE" ∈ punctual then [.column "LE" (logRatio r)] else [])
  else []

/-- all the steps of a label, in order -/
def evalSteps (r : MathLib) (ms : List Metric) (gen : Bool) (punctual : List String) : List EvalStep :=
  (if gen then [.column "pred" (fun _ p => .ok p)] else []) ++
  (allMetrics.filter (fun m => m ∈ ms)).flatMap (metricSteps r gen) ++ punctualSteps r gen punctual

/-- `item.data[name] = v` -/
def putValue (name : String) (v : ℚ) (x : Item) : Except PyErr Item :=
  match x.data with
  | some (.dict d) => .ok { x with data := some (.dict (d.set name v)) }
  | some _ => .error .typeError
  | none => .error .attributeError

/-- a column of the results series: the `i`-th pair for the `i`-th item -/
def putColumn (name : String) (f : ℚ → ℚ → Except PyErr ℚ) : List (ℚ × ℚ) → List Item → Except PyErr (List Item)
  | [], l => .ok l
  | _ :: _, [] => .error .indexError
  | p :: ps, x :: l =>
    match f p.1 p.2 with
    | .error e => .error e
    | .ok v =>
      match putValue name v x with
      | .error e => .error e
      | .ok y =>
        match putColumn name f ps l with
        | .error e => .error e
        | .ok l' => .ok (y :: l')

/-- what `evaluate` is building: the results and the items of the results series -/
structure EvalState where
  results : Dict (Option ℚ) := []
  items : List Item := []

def runStep (r : MathLib) (k : String) (ps : List (ℚ × ℚ)) (st : EvalState) : EvalStep → Except PyErr EvalState
  | .metric m =>
    match metricValue r m ps with
    | .error e => .error e
    | .ok v => .ok { st with results := st.results.set (k ++ "_" ++ m.name) v }
  | .column s f =>
    match putColumn (k ++ "_" ++ s) f ps st.items with
    | .error e => .error e
    | .ok l => .ok { st with items := l }

def runSteps (r : MathLib) (k : String) (ps : List (ℚ × ℚ)) : List EvalStep → EvalState → Except PyErr EvalState
  | [], st => .ok st
  | a :: l, st =>
    match runStep r k ps st a with
    | .error e => .error e
    | .ok st' => runSteps r k ps l st'

/-- the loop over the labels (323-420) -/
def runLabels (r : MathLib) (steps : List EvalStep) : List (String × List (ℚ × ℚ)) → EvalState → Except PyErr EvalState
  | [], st => .ok st
  | (k, ps) :: l, st =>
    match runSteps r k ps steps st with
    | .error e => .error e
    | .ok st' => runLabels r steps l st'

/-- the results series (261-268): a duplicate, without the items of the window; `self.data['window']` is read without
protection -/
def resultsSeries (m : EvalModel) (gen : Bool) (s : TSeries) : Except PyErr (List Item) :=
  if gen then
    match s.duplicate with
    | .error e => .error e
    | .ok s1 =>
      match m.window with
      | none => .error .keyError
      | some none => .ok s1.items
      | some (some 0) => .ok s1.items
      | some (some w) => (s1.getSlice (some w) none).map TSeries.items
  else .ok []

/-- the labels evaluated (285), `ks` being `series.data_labels()` -/
def evalLabels (m : EvalModel) (ks : List String) : List String := if m.targets.isEmpty then ks else m.targets

/-- what `evaluate` returns: the results and, if asked for, the items of the results series -/
structure EvalOut where
  results : Dict (Option ℚ)
  series : Option (List Item)
  deriving DecidableEq, Repr

/-- `if results: return results` (428-430): nothing at all otherwise -/
def evalOut (gen : Bool) (st : EvalState) : Option EvalOut :=
  if st.results.isEmpty && !gen then none else some ⟨st.results, if gen then some st.items else none⟩

/-- `evaluate(series, …)` (195-433) after the checks of the base class, for a series with labels `ks`. -/
def evaluateForecaster (r : MathLib) (m : EvalModel) (pred : VPredictor) (a : EvalArgs) (ks : List String) (s : TSeries) :
    Except PyErr (Option EvalOut) :=
  if s.items.isEmpty then .error .valueError
  else if a.steps > 1 then .error .notImplemented
  else
    match checkMetrics (metricNames m a) a.punctual with
    | .error e => .error e
    | .ok _ =>
      if a.giveSeries = true ∧ a.steps ≠ 1 then .error .valueError
      else
        match resultsSeries m a.giveSeries s with
        | .error e => .error e
        | .ok items =>
          match mapE (fun k => (evalPairs pred m.startAt s k).map (fun ps => (k, ps))) (evalLabels m ks) with
          | .error e => .error e
          | .ok l =>
            match runLabels r (evalSteps r ((metricNames m a).filterMap readMetric) a.giveSeries a.punctual) l ⟨[], items⟩ with
            | .error e => .error e
            | .ok st => .ok (evalOut a.giveSeries st)

end Timeseria
