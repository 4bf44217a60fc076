import Verif.Model.Access
import Verif.Model.Ops

/-! # The life cycle of a model (models/base.py 37-447)

A concrete model class brings the bodies of its `fit`, `predict`, `apply` and `evaluate` methods; the
checks around them, the saving and the cross validation are those of the base class. -/

namespace Timeseria

/-- A time series handed to a model: a plain series, or a view of one (datastructures.py 1797-1915).
Truth value, resolution and data labels of a view are those of the whole series (1881-1905), the items
are those between its bounds. -/
structure MSeries where
  whole : TSeries
  items : List Item
  deriving DecidableEq, Repr

/-- a plain series -/
def MSeries.ofSeries (s : TSeries) : MSeries := ⟨s, s.items⟩

/-- `TimeSeriesView(series=series, from_i=a, to_i=b)` with `0 ≤ a ≤ b ≤ len(series)` -/
def MSeries.view (m : MSeries) (a b : ℕ) : MSeries := ⟨m.whole, (m.items.drop a).take (b - a)⟩

/-- `series.data_labels()` -/
def MSeries.labels (m : MSeries) : Except PyErr (List String) :=
  match m.whole.items with
  | [] => .error .typeError
  | x :: _ => m.whole.labelsFrom x

/-- what is passed as the series: something that is not a `TimeSeries`, or a time series -/
inductive MArg where
  | other
  | series (m : MSeries)

/-- `_check_timeseries(series)` (utilities.py 804-818) -/
def checkTimeSeries (m : MSeries) : Outcome :=
  if m.whole.items.isEmpty then .error .valueError
  else if m.whole.res = .varying then .error .valueError
  else .ok ()

/-- The state of a model: the `fitted` flag, the entries `resolution` and `data_labels` of
`self.data` (missing before the first fit), and everything else the class stores (`params`).  The
model id and the `fitted_at` timestamp are left out. -/
structure MState (P : Type) where
  fitted : Bool
  resolution : Option Res
  labels : Option (List String)
  params : P
  deriving DecidableEq, Repr

/-- A model class: `hasParams` when `self.data` is set before the base constructor (base.py 52-69),
`hasFit` when `fit` is implemented with the decorator (149-158), `window` is `self.window` if any, and
the bodies of the methods.  A body of `fit` may change the parameters before raising.  `fitUpdate` is
`none` when the class has no such method. -/
structure MKind (P R E : Type) where
  hasParams : Bool
  hasFit : Bool
  init : P
  window : MState P → Option ℕ
  fitBody : MState P → MSeries → P × Outcome
  fitUpdate : Option (MState P → MSeries → P × Outcome)
  predictBody : MState P → MSeries → Except PyErr R
  applyBody : MState P → MSeries → Except PyErr TSeries
  evaluateBody : MState P → MSeries → Except PyErr E

variable {P R E : Type}

/-- `_is_parametric()` (base.py 52-69, 160-165) -/
def MKind.parametric (K : MKind P R E) : Bool := K.hasParams || K.hasFit

/-- a model just created (base.py 52-77) -/
def MKind.new (K : MKind P R E) : MState P := ⟨false, none, none, K.init⟩

/-- `_check_resolution(series, self.data['resolution'])` (utilities.py 821-848): equality of time units
(their comparison by seconds, tried next, agrees with it: hours and minutes are seconds here). -/
def checkRes (st : MState P) (m : MSeries) : Outcome :=
  match st.resolution with
  | none => .error .keyError
  | some r => if r = m.whole.res then .ok () else .error .valueError

/-- `_check_data_labels(series, self.data['data_labels'])` (utilities.py 850-857) -/
def checkLabels (st : MState P) (m : MSeries) : Outcome :=
  match st.labels with
  | none => .error .keyError
  | some ls =>
    match m.labels with
    | .error e => .error e
    | .ok l => if l = ls then .ok () else .error .valueError

/-- the checks on the series made by `do_predict`, `do_apply` and `do_evaluate` once the model is known
to be fitted (base.py 218-231, 258-271, 292-305).  The exception for a point series with one item is
not there: `isinstance(series.item_type, Point)` compares a class with its instances and is false. -/
def MKind.checks (K : MKind P R E) (st : MState P) (m : MSeries) : Outcome :=
  match checkTimeSeries m with
  | .error e => .error e
  | .ok () =>
    if K.parametric then
      match checkRes st m with
      | .error e => .error e
      | .ok () => checkLabels st m
    else .ok ()

/-- A method behind the decorators (base.py 204-242, 244-276, 278-310). Context data is not modelled. -/
def MKind.guarded {α : Type} (K : MKind P R E) (body : MState P → MSeries → Except PyErr α)
    (st : MState P) (a : MArg) : Except PyErr α :=
  if K.hasFit && !st.fitted then .error .notFitted
  else
    match a with
    | .other => .error .typeError
    | .series m =>
      match K.checks st m with
      | .error e => .error e
      | .ok () => body st m

def MKind.predict (K : MKind P R E) := K.guarded K.predictBody
def MKind.apply (K : MKind P R E) := K.guarded K.applyBody
def MKind.evaluate (K : MKind P R E) := K.guarded K.evaluateBody

/-- the resolution is stored before the body of `fit` runs (base.py 182-186) -/
def MState.setRes (st : MState P) (m : MSeries) : MState P := { st with resolution := some m.whole.res }

/-- the labels are stored next (base.py 188-192): an `AttributeError` is ignored, other exceptions
pass -/
def MState.setLabels (st : MState P) (m : MSeries) : MState P × Outcome :=
  match m.labels with
  | .ok ls => ({ st with labels := some ls }, .ok ())
  | .error e => if e = .attributeError then (st, .ok ()) else (st, .error e)

/-- the body of `fit`, then the flag (base.py 194-200) -/
def MKind.runFit (K : MKind P R E) (st : MState P) (m : MSeries) : MState P × Outcome :=
  match K.fitBody st m with
  | (p, .error e) => ({ st with params := p }, .error e)
  | (p, .ok ()) => ({ st with params := p, fitted := true }, .ok ())

/-- `fit(series)` (base.py 167-207) -/
def MKind.fit (K : MKind P R E) (st : MState P) (a : MArg) : MState P × Outcome :=
  if !K.hasFit then (st, .error .notImplemented)
  else
    match a with
    | .other => (st, .error .typeError)
    | .series m =>
      match checkTimeSeries m with
      | .error e => (st, .error e)
      | .ok () =>
        match (st.setRes m).setLabels m with
        | (st', .error e) => (st', .error e)
        | (st', .ok ()) => K.runFit st' m

/-! ## Cross validation (base.py 316-447) -/

/-- positions from `lo` (included) to `hi` (excluded) -/
structure Chunk where
  lo : ℕ
  hi : ℕ
  deriving DecidableEq, Repr

/-- number of positions of a chunk -/
def Chunk.len (c : Chunk) : ℕ := c.hi - c.lo

/-- One round: the chunk to fit on, the other chunk if any, and the chunk to validate on (base.py
367-421), for a series of `n` items and `k` items per round. -/
def cvRound (n k i : ℕ) : Chunk × Option Chunk × Chunk :=
  if k * i = 0 then (⟨k * i + k, n⟩, none, ⟨k * i, k * i + k⟩)
  else if k * i + k ≥ n then (⟨0, k * i⟩, none, ⟨k * i, k * i + k⟩)
  else if k * i > n - (k * i + k) then (⟨0, k * i⟩, some ⟨k * i + k, n⟩, ⟨k * i, k * i + k⟩)
  else (⟨k * i + k, n⟩, some ⟨0, k * i⟩, ⟨k * i, k * i + k⟩)

/-- the view of a chunk of the series -/
def MSeries.chunk (m : MSeries) (c : Chunk) : MSeries := m.view c.lo c.hi

/-- `model_window and len < model_window`: the second chunk is too short for the window (base.py
394-395, 413-414) -/
def tooShort (w : Option ℕ) (len : ℕ) : Bool :=
  match w with
  | none => false
  | some w => w ≠ 0 && len < w

/-- the update on the second chunk: a missing method (`AttributeError`) or a `NotImplementedError` are
ignored (base.py 397-403, 416-423) -/
def MKind.tryUpdate (K : MKind P R E) (st : MState P) (m : MSeries) : MState P × Outcome :=
  match K.fitUpdate with
  | none => (st, .ok ())
  | some f =>
    match f st m with
    | (p, .ok ()) => ({ st with params := p }, .ok ())
    | (p, .error e) =>
      if e = .attributeError ∨ e = .notImplemented then ({ st with params := p }, .ok ())
      else ({ st with params := p }, .error e)

/-- the second chunk of a round -/
def MKind.second (K : MKind P R E) (st : MState P) (m : MSeries) (c : Option Chunk) : MState P × Outcome :=
  match c with
  | none => (st, .ok ())
  | some c => if tooShort (K.window st) c.len then (st, .ok ()) else K.tryUpdate st (m.chunk c)

/-- one round of fit and evaluate (base.py 367-427) -/
def MKind.round (K : MKind P R E) (st : MState P) (m : MSeries) (k i : ℕ) : MState P × Except PyErr E :=
  match K.fit st (.series (m.chunk (cvRound m.items.length k i).1)) with
  | (st1, .error e) => (st1, .error e)
  | (st1, .ok ()) =>
    match K.second st1 m (cvRound m.items.length k i).2.1 with
    | (st2, .error e) => (st2, .error e)
    | (st2, .ok ()) =>
      match K.evaluate st2 (.series (m.chunk (cvRound m.items.length k i).2.2)) with
      | .error e => (st2, .error e)
      | .ok v => ({ st2 with fitted := false }, .ok v)

/-- the rounds `i, i+1, …` for `j` rounds (base.py 366-428) -/
def MKind.rounds (K : MKind P R E) (m : MSeries) (k : ℕ) :
    ℕ → ℕ → MState P → MState P × Except PyErr (List E)
  | 0, _, st => (st, .ok [])
  | j + 1, i, st =>
    match K.round st m k i with
    | (st', .error e) => (st', .error e)
    | (st', .ok v) =>
      match K.rounds m k j (i + 1) st' with
      | (st'', .error e) => (st'', .error e)
      | (st'', .ok l) => (st'', .ok (v :: l))

/-- `cross_validate(series, rounds)` up to the list of the evaluations (base.py 316-428).  The number
of items per round is `int(len(series)/rounds)`. -/
def MKind.crossEvaluations (K : MKind P R E) (st : MState P) (a : MArg) (rounds : ℕ) :
    MState P × Except PyErr (List E) :=
  if st.fitted then (st, .error .notImplemented)
  else
    match a with
    | .other => (st, .error .typeError)
    | .series m =>
      match checkTimeSeries m with
      | .error e => (st, .error e)
      | .ok () =>
        if rounds = 0 then (st, .error .zeroDivision)
        else K.rounds m (m.items.length / rounds) rounds 0 st

/-- the values of one metric over the evaluations (base.py 431-443): a missing one is an `Exception` -/
def metricScores (q : String) : List (Dict ℚ) → Except PyErr (List ℚ)
  | [] => .ok []
  | d :: r =>
    match d.get? q with
    | none => .error .exception
    | some v => match metricScores q r with
      | .ok l => .ok (v :: l)
      | .error e => .error e

/-- `statistics.mean` and `statistics.stdev` (base.py 445-449) of the scores of one metric, the second
given as its square (the sample variance); fewer than two scores are a `StatisticsError`, a subclass of
`ValueError`. -/
def meanVar (l : List ℚ) : Except PyErr (ℚ × ℚ) :=
  if l.length < 2 then .error .valueError
  else
    let a := l.sum / l.length
    .ok (a, (l.map (fun x => (x - a) ^ 2)).sum / (l.length - 1))

/-- mean and variance of each metric -/
def metricResults (evs : List (Dict ℚ)) : List String → Except PyErr (List (String × ℚ × ℚ))
  | [] => .ok []
  | q :: r =>
    match metricScores q evs with
    | .error e => .error e
    | .ok l =>
      match meanVar l with
      | .error e => .error e
      | .ok v => match metricResults evs r with
        | .ok t => .ok ((q, v) :: t)
        | .error e => .error e

/-- the metrics are those of the first evaluation (base.py 431) -/
def crossResults (evs : List (Dict ℚ)) : Except PyErr (List (String × ℚ × ℚ)) :=
  match evs with
  | [] => .error .indexError
  | d :: _ => metricResults evs d.keys

/-- `cross_validate(series, rounds)` (base.py 316-450).  Simplification: the scores of all the metrics
are collected before any mean is computed; only the exception raised can differ. -/
def MKind.crossValidate (K : MKind P R (Dict ℚ)) (st : MState P) (a : MArg) (rounds : ℕ) :
    MState P × Except PyErr (List (String × ℚ × ℚ)) :=
  match K.crossEvaluations st a rounds with
  | (st', .error e) => (st', .error e)
  | (st', .ok evs) => (st', crossResults evs)

/-! ## Saving and loading (base.py 87-147) -/

/-- A key of a Python dictionary kept by a model: the periodicity indexes are integers. -/
inductive PKey where
  | int (n : ℕ)
  | str (s : String)
  deriving DecidableEq, Repr

/-- `json.dumps` writes every key as a string -/
def PKey.trip : PKey → PKey
  | .int n => .str (strNat n)
  | .str s => .str s

/-- The values kept in `self.data` by the models of the package (nested as deep as they are);
`object` stands for an object that JSON cannot represent. -/
inductive PVal where
  | num (x : ℚ)
  | bool (b : Bool)
  | none
  | str (s : String)
  | nums (l : List ℚ)
  | strs (l : List String)
  | table (l : List (PKey × ℚ))
  | tables (l : List (String × List (PKey × ℚ)))
  | object
  deriving DecidableEq, Repr

/-- the keys of a table after writing and reading JSON -/
def tripTable (l : List (PKey × ℚ)) : List (PKey × ℚ) := l.map (fun e => (e.1.trip, e.2))

/-- one value written and read back as JSON: `none` is the `TypeError` of `json.dumps`.  (Keys that
become equal, as `1` and `"1"`, are kept apart.) -/
def PVal.trip : PVal → Option PVal
  | .table l => some (.table (tripTable l))
  | .tables l => some (.tables (l.map (fun e => (e.1, tripTable e.2))))
  | .object => Option.none
  | v => some v

/-- a dictionary of values written and read back -/
def tripDict : Dict PVal → Option (Dict PVal)
  | [] => some []
  | (k, v) :: r =>
    match v.trip, tripDict r with
    | some v', some r' => some ((k, v') :: r')
    | _, _ => none

/-- How a resolution is written and read (`str(TimeUnit)` and `TimeUnit(text)`, external). -/
structure UnitCodec where
  write : TUnit → String
  read : String → Option TUnit
  law : ∀ u, read (write u) = some u
  none_law : read "None" = none

/-- `str(resolution)`: the resolution of a fitted model is a time unit or `None` (base.py 129-131) -/
def UnitCodec.writeRes (c : UnitCodec) : Res → String
  | .unit u => c.write u
  | .unset => "None"
  | .varying => "variable"

/-- `data.json`: the resolution if any, the labels if any, the rest; `none` when the writing failed -/
structure MFile where
  res : Option String
  labels : Option (List String)
  params : Dict PVal
  deriving DecidableEq, Repr

/-- the directories of saved models: a path with its `data.json`, or with an unusable one -/
abbrev Disk := List (String × Option MFile)

/-- `save(path)` (base.py 111-147): the state is not changed (the resolution is put back on every
path).  A path exists when it is one of the directories. -/
def MKind.save {R E : Type} (K : MKind (Dict PVal) R E) (c : UnitCodec) (st : MState (Dict PVal)) (d : Disk)
    (path : String) : Disk × Outcome :=
  if !K.parametric then (d, .error .typeError)
  else if K.hasFit && !st.fitted then (d, .error .notFitted)
  else if path = "" then (d, .error .valueError)
  else if d.any (fun e => e.1 = path) then (d, .error .valueError)
  else
    match tripDict st.params with
    | none => ((path, none) :: d, .error .typeError)
    | some q => ((path, some ⟨st.resolution.map c.writeRes, st.labels, q⟩) :: d, .ok ())

/-- the resolution read back (base.py 106-107) -/
def UnitCodec.readRes (c : UnitCodec) : Option String → Except PyErr (Option Res)
  | none => .ok none
  | some s => match c.read s with
    | some u => .ok (some (.unit u))
    | none => .error .valueError

/-- `load(path)` of the base class (base.py 87-109) -/
def loadModel (c : UnitCodec) (d : Disk) (path : String) : Except PyErr (MState (Dict PVal)) :=
  match List.lookup path d with
  | none => .error .ioError
  | some none => .error .valueError
  | some (some f) =>
    match c.readRes f.res with
    | .error e => .error e
    | .ok r => .ok ⟨true, r, f.labels, f.params⟩

end Timeseria
