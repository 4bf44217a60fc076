import Verif.Model.Anomaly

/-! # The arguments of a detection which may be functions

`index_type` and `multivariate_index_strategy` (models/anomaly_detectors.py 518-519) may be texts or functions.  `Anomaly` has the texts which are known; here are all of them, on the errors of the items: what
is before (the predictions) and after (the copies of the items, the details) does not depend on these arguments. -/

namespace Timeseria

/-- `index_type`: a text, or a function of `x, y, x_start, x_end, y_start, y_end` -/
inductive IndexArg where
  | text (k : IndexKind)
  | func (f : ℚ → ℚ → ℚ → ℚ → ℚ → ℚ → Except PyErr ℚ)

/-- `multivariate_index_strategy`: one of the known texts, a function of the list of the indexes, another text -/
inductive StrategyArg where
  | named (s : Strategy)
  | func (f : List ℚ → Except PyErr ℚ)
  | otherText

/-- the error of a label of an item: its range (581-607), the error `x` and its density `y` (712-713) -/
structure LabelError where
  range : IndexRange
  x : ℚ
  y : ℚ
  deriving DecidableEq

/-- the index of a label before the threshold (715-729) -/
def argIndex (lg : ℚ → ℚ) (a : IndexArg) (e : LabelError) : Except PyErr ℚ :=
  if e.x ≤ e.range.xs then .ok 0
  else if e.x ≥ e.range.xe then .ok 1
  else match a with
    | .text k => rawIndex lg k e.range e.x e.y
    | .func f => f e.x e.y e.range.xs e.range.xe e.range.ys e.range.ye

/-- the index of a label (715-735) -/
def argScore (lg : ℚ → ℚ) (a : IndexArg) (threshold : Option ℚ) (e : LabelError) : Except PyErr ℚ :=
  match argIndex lg a e with
  | .error er => .error er
  | .ok v => .ok (withThreshold threshold v)

/-- the index of an item (757-768): with one label the strategy is not looked at; a text which is not known is called as a function, a `TypeError` -/
def argCombine (st : StrategyArg) (l : List ℚ) : Except PyErr ℚ :=
  if l.length = 1 then combineIndexes .max l
  else match st with
    | .named s => combineIndexes s l
    | .func f => f l
    | .otherText => .error .typeError

/-- the index of an item from the errors of its labels -/
def argItem (lg : ℚ → ℚ) (a : IndexArg) (threshold : Option ℚ) (st : StrategyArg) (es : List LabelError) : Except PyErr ℚ :=
  match mapE (argScore lg a threshold) es with
  | .error er => .error er
  | .ok vs => argCombine st vs

/-- the indexes of the items which are examined, in order; the first exception ends the call.  Simplification: the check on the logarithms of the bounds (608-623), made
before for `'log'`, is in `Anomaly`. -/
def argApply (lg : ℚ → ℚ) (a : IndexArg) (threshold : Option ℚ) (st : StrategyArg) (items : List (List LabelError)) : Except PyErr (List ℚ) :=
  mapE (argItem lg a threshold st) items

end Timeseria
