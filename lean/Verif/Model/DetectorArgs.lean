import Verif.Model.Basic
import Verif.Model.Ops

/-! # Arguments of an anomaly detector and of its predictive model

Which arguments given to a detector (models/anomaly_detectors.py 171-188) and to its `fit` (254-313) reach the predictive model, and when a call is refused because of its arguments.  What the models do with
them is in `DetectorFit`. -/

namespace Timeseria

/-- a class of predictive models: the parameters of its constructor and those of its `fit` after the series, and whether `fit` takes any other by name (`**kwargs`).  For instance
forecasters.py 451 and 473, 811 and 843, 745. -/
structure PredClass where
  name : String
  init : List String
  fit : List String
  fitAny : Bool := false
  deriving DecidableEq

/-- an argument: a class, a number or a text -/
inductive ArgVal where
  | cls (c : PredClass)
  | num (v : ℚ)
  | text (s : String)
  deriving DecidableEq

/-- Python's `bool` -/
def ArgVal.truthy : ArgVal → Bool
  | .cls _ => true
  | .num v => v ≠ 0
  | .text s => s ≠ ""

/-- a Python call: the positional arguments are for the parameters in order, the others by name; too many, unknown or repeated ones are a `TypeError` -/
def pyBind (params : List String) (any : Bool) (args : List ArgVal) (kw : Dict ArgVal) : Except PyErr (Dict ArgVal) :=
  if args.length > params.length then .error .typeError
  else if kw.any (fun p => decide (p.1 ∈ params.take args.length)) then .error .typeError
  else if !any && kw.any (fun p => decide (p.1 ∉ params)) then .error .typeError
  else .ok (params.zip args ++ kw)

/-- a detector: the class of its predictive models and the arguments for it (`predictive_model_args`, `predictive_model_kwargs`) -/
structure DetObj where
  predictor : PredClass
  args : List ArgVal
  kw : Dict ArgVal
  deriving DecidableEq

/-- `__init__(model_class=None, *args, **kwargs)` (models/anomaly_detectors.py 171-188): `own` is the `model_class` of the class of the detector, if it has one (789-812) -/
def detInit (own : Option PredClass) (modelClass : Option ArgVal) (args : List ArgVal) (kw : Dict ArgVal) : Except PyErr DetObj :=
  let given := modelClass.any ArgVal.truthy
  match own with
  | none => if !given then .error .valueError
      else match modelClass with
        | some (.cls c) => .ok { predictor := c, args := args, kw := kw }
        | _ => .error .typeError     -- kept by the code, and refused when it is used as a class
  | some c => if given then .error .valueError else .ok { predictor := c, args := args, kw := kw }

/-- the call which creates a detector, `Detector(*args, **kw)`: the first positional argument is for `model_class` -/
def detNew (own : Option PredClass) (args : List ArgVal) (kw : Dict ArgVal) : Except PyErr DetObj :=
  match args, kw.get? "model_class" with
  | _ :: _, some _ => .error .typeError
  | a :: r, none => detInit own (some a) r kw
  | [], some c => detInit own (some c) [] (kw.filter (fun p => p.1 ≠ "model_class"))
  | [], none => detInit own none [] kw

/-- `load` (models/base.py 95-96): the object is created without arguments -/
def detReload (own : Option PredClass) : Except PyErr DetObj := detNew own [] []

/-- one of the predictive models: the arguments with which it was created and fitted -/
structure PredCall where
  init : Dict ArgVal
  fit : Dict ArgVal
  deriving DecidableEq

/-- creating and fitting one predictive model (290-302, 304-313): `extra` are the arguments added by the detector -/
def predCall (d : DetObj) (kw extra : Dict ArgVal) : Except PyErr PredCall :=
  match pyBind d.predictor.init false d.args d.kw with
  | .error e => .error e
  | .ok i =>
    if kw.any (fun p => decide (p.1 ∈ extra.keys)) then .error .typeError   -- given twice in the call
    else match pyBind d.predictor.fit d.predictor.fitAny [] (kw ++ extra) with
      | .error e => .error e
      | .ok f => .ok { init := i, fit := f }

/-- the predictive models of `fit(series, with_context, verbose, **kwargs)` (276-313) on a series with these labels: one for each label with context, else one under the name `""` -/
def detFitCalls (d : DetObj) (labels : List String) (context : Bool) (verbose : ℚ) (kw : Dict ArgVal) : Except PyErr (List (String × PredCall)) :=
  if context then
    if labels.length ≤ 1 then .error .valueError
    else mapE (fun k => tag k (predCall d kw [("target", .text k), ("with_context", .num 1), ("verbose", .num verbose)])) labels
  else mapE (fun k => tag k (predCall d kw [("verbose", .num verbose)])) [""]

end Timeseria
