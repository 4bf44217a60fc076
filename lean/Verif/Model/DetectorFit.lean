import Verif.Model.Anomaly

/-! # Fitting, saving and loading the model-based anomaly detector (models/anomaly_detectors.py 136-435)

The inner predictive model and the fitting of the error distribution (library `fitter`) are arbitrary
functions.  The choice among several distributions, the p-value warning, the summary and the progress output
are not modelled. -/

namespace Timeseria

/-- The predictive model class used by a detector, and the distributions:

* `recon` is `issubclass(model_class, Reconstructor)`;
* `fit target m` is `model_class(...)` followed by `fit(series)`, with the target label and the context when a
  label is given: what the model has become (also when the fit raises) and the outcome;
* `window` is the attribute `window` of the fitted model, if any;
* `predict x ctx l i k` is lines 218-248 for the fitted model `x`: the prediction of label `k` of item `i`;
* `distFit`, `density`, `loc`, `findX` are those of the error distribution, `sqrt` the square root. -/
structure InnerKind (I D : Type) where
  recon : Bool
  fit : Option String → MSeries → I × Outcome
  window : I → Option ℕ
  predict : I → Bool → List Item → ℕ → String → Except PyErr ℚ
  distFit : List ℚ → Except PyErr D
  density : D → ℚ → ℚ
  loc : D → ℚ
  findX : D → ℚ → Except PyErr ℚ
  sqrt : ℚ → ℚ

variable {I D : Type}

/-- What a detector keeps in `self.data` (and `self.model`, `self.models`); the entries not there yet are
`none`.  The ids of the inner models and the statistics of the distributions are left out. -/
structure DetData (I D : Type) where
  inner : Option I := none
  inners : Dict I := []
  window : Option ℕ := none
  context : Option Bool := none
  metric : Option String := none
  actual : Option (Dict (List ℚ)) := none
  predicted : Option (Dict (List ℚ)) := none
  errors : Option (Dict (List ℚ)) := none
  stdevs : Option (Dict ℚ) := none
  dists : Option (Dict D) := none

/-- the arguments of `fit` -/
structure FitArgs where
  context : Bool := false
  metric : String := "PE"
  store : Bool := true
  deriving DecidableEq, Repr

/-- the loop fitting one model per label (281-299) -/
def fitContext (K : InnerKind I D) (m : MSeries) : List String → DetData I D → DetData I D × Outcome
  | [], d => (d, .ok ())
  | k :: r, d =>
    match K.fit (some k) m with
    | (x, .error e) => ({ d with inners := d.inners.set k x }, .error e)
    | (x, .ok ()) =>
      match d.window, K.window x with
      | none, none => ({ d with inners := d.inners.set k x }, .error .attributeError)
      | none, some w => fitContext K m r { d with inners := d.inners.set k x, window := some w }
      | some _, _ => fitContext K m r { d with inners := d.inners.set k x }

/-- fitting the predictive model, or models (273-313) -/
def fitInner (K : InnerKind I D) (a : FitArgs) (m : MSeries) (ks : List String) (d : DetData I D) :
    DetData I D × Outcome :=
  if a.context then
    if ks.length ≤ 1 then (d, .error .valueError)
    else fitContext K m ks { d with inners := [] }
  else
    match K.fit none m with
    | (x, .error e) => ({ d with inner := some x }, .error e)
    | (x, .ok ()) =>
      match K.window x with
      | none => ({ d with inner := some x }, .error .attributeError)
      | some w => ({ d with inner := some x, window := some w }, .ok ())

/-- the metrics accepted by the check (323-324) -/
def acceptedMetric (s : String) : Bool := s == "E" || s == "AE" || s == "PE" || s == "APE" || s == "SLE"

/-- `_get_predicted_value` (218-248) of the detector.  A reconstructor is always read from `self.model`, which
exists only after a fit without context. -/
def DetData.predictedValue (K : InnerKind I D) (d : DetData I D) (ctx : Bool) (l : List Item) (i : ℕ) (k : String) :
    Except PyErr ℚ :=
  if ctx && !K.recon then
    match d.inners.get? k with
    | none => .error .keyError
    | some x => K.predict x true l i k
  else
    match d.inner with
    | none => .error .attributeError
    | some x => K.predict x false l i k

/-- actual value, predicted value and error of a label of an item (364-383) -/
structure Evaluated where
  actual : ℚ
  predicted : ℚ
  error : ℚ
  deriving DecidableEq, Repr

/-- the evaluation of the item `i` (362-384) -/
def evalItem (K : InnerKind I D) (d : DetData I D) (a : FitArgs) (l : List Item) (k : String) (i : ℕ) :
    Except PyErr Evaluated :=
  match l[i]? with
  | none => .error .indexError
  | some x =>
    match itemValue x k with
    | .error e => .error e
    | .ok v =>
      match d.predictedValue K a.context l i k with
      | .error e => .error e
      | .ok p =>
        match predictionError a.metric v p with
        | .error e => .error e
        | .ok pe => .ok ⟨v, p, pe⟩

/-- the loop over the items (347-384): `continue` within the window, `break` in the last window of a
reconstructor -/
def evalItems (K : InnerKind I D) (d : DetData I D) (a : FitArgs) (l : List Item) (w : ℕ) (k : String) :
    List ℕ → List Evaluated → Except PyErr (List Evaluated)
  | [], acc => .ok acc
  | i :: r, acc =>
    if i ≤ w then evalItems K d a l w k r acc
    else if K.recon && decide ((l.length : Int) - w - 1 < i) then .ok acc
    else
      match evalItem K d a l k i with
      | .error e => .error e
      | .ok v => evalItems K d a l w k r (acc ++ [v])

/-- the evaluation of a label, with the label -/
def evalLabel (K : InnerKind I D) (d : DetData I D) (a : FitArgs) (l : List Item) (w : ℕ) (k : String) :
    Except PyErr (String × List Evaluated) :=
  match evalItems K d a l w k (List.range l.length) [] with
  | .error e => .error e
  | .ok r => .ok (k, r)

/-- `stdev` of the module `statistics`: it needs two values -/
def stdevOf (sqrt : ℚ → ℚ) (l : List ℚ) : Except PyErr ℚ :=
  if l.length < 2 then .error .valueError
  else .ok (sqrt ((l.map (fun x => (x - l.sum / l.length) ^ 2)).sum / (l.length - 1)))

/-- the distributions, label by label (394-420): what has been stored when a label fails stays -/
def fitDists (K : InnerKind I D) : List (String × List Evaluated) → Dict D → Dict ℚ → (Dict D × Dict ℚ) × Outcome
  | [], ds, ss => ((ds, ss), .ok ())
  | (k, ev) :: r, ds, ss =>
    match K.distFit (ev.map Evaluated.error) with
    | .error e => ((ds, ss), .error e)
    | .ok f =>
      match stdevOf K.sqrt (ev.map Evaluated.error) with
      | .error e => ((ds.set k f, ss), .error e)
      | .ok s => fitDists K r (ds.set k f) (ss.set k s)

/-- a column of the evaluations, by label -/
def column (f : Evaluated → ℚ) (evs : List (String × List Evaluated)) : Dict (List ℚ) :=
  evs.map (fun e => (e.1, e.2.map f))

/-- the values are stored at the end (422-425), if asked -/
def DetData.storeValues (d : DetData I D) (store : Bool) (evs : List (String × List Evaluated)) : DetData I D :=
  if store then { d with actual := some (column Evaluated.actual evs),
                         predicted := some (column Evaluated.predicted evs),
                         errors := some (column Evaluated.error evs) }
  else d

/-- the dictionaries are emptied before the evaluation (328-336) -/
def DetData.reset (d : DetData I D) (a : FitArgs) : DetData I D :=
  { d.storeValues a.store [] with metric := some a.metric, stdevs := some [], dists := some [] }

/-- the evaluation and the distributions (338-425), on a detector with window `w` -/
def evaluateInner (K : InnerKind I D) (a : FitArgs) (l : List Item) (ks : List String) (d : DetData I D) (w : ℕ) :
    DetData I D × Outcome :=
  match mapE (evalLabel K d a l w) ks with
  | .error e => (d, .error e)
  | .ok evs =>
    match fitDists K evs [] [] with
    | ((ds, ss), .error e) => ({ d with dists := some ds, stdevs := some ss }, .error e)
    | ((ds, ss), .ok ()) => ({ d with dists := some ds, stdevs := some ss }.storeValues a.store evs, .ok ())

/-- the body of `fit` (253-427) -/
def detFit (K : InnerKind I D) (a : FitArgs) (d : DetData I D) (m : MSeries) : DetData I D × Outcome :=
  match m.labels with
  | .error e => (d, .error e)
  | .ok ks =>
    match fitInner K a m ks d with
    | (d', .error e) => (d', .error e)
    | (d', .ok ()) =>
      if acceptedMetric a.metric then
        match d'.window with
        | none => ({ d' with context := some a.context }.reset a, .error .keyError)
        | some w => evaluateInner K a m.items ks ({ d' with context := some a.context }.reset a) w
      else ({ d' with context := some a.context }, .error .valueError)

/-- the fitted detector as `apply` and `preprocess` read it: an entry that is missing is a `KeyError`; the
parameters of the distributions are read for the labels that have one (checked before, see `detApply`) -/
def DetData.view (K : InnerKind I D) (d : DetData I D) : Except PyErr Detector :=
  match d.window, d.context, d.metric, d.dists, d.stdevs with
  | some w, some ctx, some metric, some dists, some stdevs =>
    .ok { window := w, recon := K.recon, metric := metric
          dist := fun k x => match dists.get? k with
            | some f => K.density f x
            | none => 0
          loc := fun k => match dists.get? k with
            | some f => K.loc f
            | none => 0
          stdev := fun k => (stdevs.get? k).getD 0
          errors := d.errors
          findX := fun k y => match dists.get? k with
            | some f => K.findX f y
            | none => .error .keyError
          predict := fun l i k => d.predictedValue K ctx l i k }
  | _, _, _, _, _ => .error .keyError

/-- `apply(series)` (518-774) after the checks of the base class: a label without a distribution is a
`KeyError` (584-586) -/
def detApply (K : InnerKind I D) (lg : ℚ → ℚ) (c : AnomCfg) (d : DetData I D) (s : TSeries) : Except PyErr TSeries :=
  match d.view K with
  | .error e => .error e
  | .ok v =>
    match (MSeries.ofSeries s).labels with
    | .error e => .error e
    | .ok ks =>
      if ks.all (fun k => ((d.dists.getD []).get? k).isSome) then anomApply lg v c none s
      else .error .keyError

/-- the detector as a model of the package: `fit` behind the decorator of the base class -/
def detKind (K : InnerKind I D) (lg : ℚ → ℚ) (a : FitArgs) (c : AnomCfg) : MKind (DetData I D) Unit Unit where
  hasParams := false
  hasFit := true
  init := {}
  window := fun st => st.params.window
  fitBody := fun st m => detFit K a st.params m
  fitUpdate := none
  predictBody := fun _ _ => .error .notImplemented
  applyBody := fun st m => detApply K lg c st.params { m.whole with items := m.items }
  evaluateBody := fun _ _ => .error .notImplemented

/-! ## Saving and loading (190-216) -/

/-- What is under a directory: `data.json` of the detector, or nothing readable when its writing failed, and
the inner models saved next to it, by the name of their directory.  An inner model whose saving failed has
nothing readable either. -/
structure DetDir (I D : Type) where
  json : Option (DetData Unit D × Option Res × Option (List String))
  models : List (String × Option I)

/-- the directories on the disk -/
abbrev DetDisk (I D : Type) := List (String × DetDir I D)

/-- How the inner models are saved and loaded: `saved x` is what can be read back, or the exception raised
while saving; `loads y` is the loaded model. -/
structure InnerCodec (I D : Type) where
  saved : I → Except PyErr I
  loads : I → Except PyErr I
  json : DetData Unit D → Except PyErr (DetData Unit D)

/-- the part of `self.data` written in `data.json`: everything but the inner models -/
def DetData.jsonPart (d : DetData I D) : DetData Unit D where
  inner := none
  inners := []
  window := d.window
  context := d.context
  metric := d.metric
  actual := d.actual
  predicted := d.predicted
  errors := d.errors
  stdevs := d.stdevs
  dists := d.dists

/-- saving the models of the labels one after the other (210-213); the failure of one leaves the previous ones
on the disk -/
def saveInners (C : InnerCodec I D) : Dict I → List (String × Option I) × Outcome
  | [] => ([], .ok ())
  | (k, x) :: r =>
    match C.saved x with
    | .error e => ([(k ++ "_model", none)], .error e)
    | .ok y =>
      match saveInners C r with
      | (l, o) => ((k ++ "_model", some y) :: l, o)

/-- saving the inner models (209-215) -/
def saveModels (C : InnerCodec I D) (d : DetData I D) : List (String × Option I) × Outcome :=
  match d.context with
  | none => ([], .error .keyError)
  | some true => saveInners C d.inners
  | some false =>
    match d.inner with
    | none => ([], .error .attributeError)
    | some x =>
      match C.saved x with
      | .error e => ([("model", none)], .error e)
      | .ok y => ([("model", some y)], .ok ())

/-- `save(path)` of the detector (204-215), with `save` of the base class (base.py 111-147): the detector
itself is not changed -/
def detSave (C : InnerCodec I D) (st : MState (DetData I D)) (disk : DetDisk I D) (path : String) :
    DetDisk I D × Outcome :=
  if !st.fitted then (disk, .error .notFitted)
  else if path = "" then (disk, .error .valueError)
  else if disk.any (fun e => e.1 = path) then (disk, .error .valueError)
  else
    match C.json st.params.jsonPart with
    | .error e => ((path, ⟨none, []⟩) :: disk, .error e)
    | .ok j =>
      match saveModels C st.params with
      | (l, o) => ((path, ⟨some (j, st.resolution, st.labels), l⟩) :: disk, o)

/-- loading the model in a directory -/
def loadInner (C : InnerCodec I D) (dir : DetDir I D) (name : String) : Except PyErr I :=
  match dir.models.lookup name with
  | none => .error .ioError
  | some none => .error .valueError
  | some (some y) => C.loads y

/-- the model of a label -/
def loadLabel (C : InnerCodec I D) (dir : DetDir I D) (k : String) : Except PyErr (String × I) :=
  match loadInner C dir (k ++ "_model") with
  | .error e => .error e
  | .ok x => .ok (k, x)

/-- the inner models of a loaded detector (196-202) -/
def loadModels (C : InnerCodec I D) (dir : DetDir I D) (j : DetData Unit D) (labels : Option (List String)) :
    Except PyErr (Option I × Dict I) :=
  match j.context with
  | none => .error .keyError
  | some true =>
    match labels with
    | none => .error .keyError
    | some ks =>
      match mapE (loadLabel C dir) ks with
      | .error e => .error e
      | .ok xs => .ok (none, xs)
  | some false =>
    match loadInner C dir "model" with
    | .error e => .error e
    | .ok x => .ok (some x, [])

/-- a detector with its inner models put in place -/
def DetData.withModels (j : DetData Unit D) (xs : Option I × Dict I) : DetData I D where
  inner := xs.1
  inners := xs.2
  window := j.window
  context := j.context
  metric := j.metric
  actual := j.actual
  predicted := j.predicted
  errors := j.errors
  stdevs := j.stdevs
  dists := j.dists

/-- `load(path)` (191-202) on a class whose `model_class` is set in the class (`fixedClass`) or was given to
the constructor: `cls()` raises `ValueError` in the second case (172-176, base.py 96).  The resolution is kept
as it is (writing and reading it is in `Models`). -/
def detLoad (C : InnerCodec I D) (fixedClass : Bool) (disk : DetDisk I D) (path : String) :
    Except PyErr (MState (DetData I D)) :=
  if !fixedClass then .error .valueError
  else
    match disk.lookup path with
    | none => .error .ioError
    | some dir =>
      match dir.json with
      | none => .error .valueError
      | some (j, res, labels) =>
        match loadModels C dir j labels with
        | .error e => .error e
        | .ok xs => .ok ⟨true, res, labels, j.withModels xs⟩

end Timeseria
