import Verif.Model.Interp
import Verif.Model.Windows
import Verif.Model.Utilities

/-! # Reconstructors (models/reconstructors.py) -/

namespace Timeseria

/-- What the `predict` of a reconstructor returns: a dictionary of lists, a list of dictionaries, or
something else. -/
inductive Prediction where
  | lists (d : Dict (List ℚ))
  | dicts (l : List (Dict ℚ))
  | other
  deriving DecidableEq, Repr

/-- `self.predict(series, from_i, to_i)` on the items the series has at that moment -/
abbrev Predictor := List Item → ℕ → ℕ → Except PyErr Prediction

/-- `item.data_loss is not None and item.data_loss >= data_loss_threshold` (reconstructors.py 57, the
property being datastructures.py 255-261, 554-560); items without data have no `data_loss`. -/
def lossyE (th : ℚ) (x : Item) : Except PyErr Bool :=
  match x.data with
  | none => .error .attributeError
  | some _ =>
    match x.idx.get? "data_loss" with
    | some (some v) => .ok (decide (v ≥ th))
    | _ => .ok false

/-- `series.data_labels()`: the labels of the first item -/
def headLabelsR (l : List Item) : Except PyErr (List String) :=
  match l with
  | [] => .error .typeError
  | x :: _ =>
    match x.data with
    | none => .error .attributeError
    | some d => labelsOf d

/-- `d[label][n]` for a dictionary of lists -/
def listEntry (d : Dict (List ℚ)) (n : ℕ) (k : String) : Except PyErr ℚ :=
  match d.get? k with
  | none => .error .keyError
  | some l =>
    match l[n]? with
    | none => .error .indexError
    | some v => .ok v

/-- the data predicted for the `n`-th item of the gap (reconstructors.py 100-110) -/
def predictedAt (p : Prediction) (cur : List Item) (n : ℕ) : Except PyErr (Dict ℚ) :=
  match p with
  | .lists d =>
    match headLabelsR cur with
    | .error e => .error e
    | .ok ks => perLabelDict ks (listEntry d n)
  | .dicts l =>
    match l[n]? with
    | none => .error .indexError
    | some d => .ok d
  | .other => .error .typeError

/-- `item.data_indexes['data_reconstructed'] = v` -/
def Item.markRec (x : Item) (v : ℚ) : Item := { x with idx := x.idx.set "data_reconstructed" (some v) }

/-- `series[j]._data = item_data` and the mark (reconstructors.py 112-115) -/
def Item.rebuilt (x : Item) (d : Dict ℚ) : Item := { x with data := some (.dict d) }.markRec 1

/-- the loop of `_reconstruct` over the items of the gap (reconstructors.py 93-115), `n` items being
left from `j` on; the series as it is when the loop ends or raises -/
def fillLossGap (p : Prediction) (g : ℕ) : ℕ → ℕ → List Item → List Item × Outcome
  | 0, _, cur => (cur, .ok ())
  | n + 1, j, cur =>
    match predictedAt p cur (j - g) with
    | .error e => (cur, .error e)
    | .ok d =>
      match cur[j]? with
      | none => (cur, .error .indexError)
      | some x => fillLossGap p g n (j + 1) (cur.set j (x.rebuilt d))

/-- `_reconstruct(series, from_i=g, to_i=h, inplace=True)` (reconstructors.py 84-126) -/
def reconstructGap (pred : Predictor) (cur : List Item) (g h : ℕ) : List Item × Outcome :=
  match pred cur g h with
  | .error e => (cur, .error e)
  | .ok p => fillLossGap p g (h + 1 - g) g cur

/-- the loop of `apply` (reconstructors.py 53-79), `n` items being left from `i` on, `gap` being
`gap_start_i` -/
def recLoop (pred : Predictor) (th : ℚ) : ℕ → ℕ → Option ℕ → List Item → List Item × Outcome
  | 0, _, none, cur => (cur, .ok ())
  | 0, i, some g, cur => reconstructGap pred cur g (i - 1)
  | n + 1, i, gap, cur =>
    match cur[i]? with
    | none => (cur, .ok ())
    | some x =>
      match lossyE th x with
      | .error e => (cur, .error e)
      | .ok true => recLoop pred th n (i + 1) (some (gap.getD i)) cur
      | .ok false =>
        match gap with
        | none => recLoop pred th n (i + 1) none (cur.modify i (fun x => x.markRec 0))
        | some g =>
          match reconstructGap pred cur g (i - 1) with
          | (cur', .error e) => (cur', .error e)
          | (cur', .ok ()) => recLoop pred th n (i + 1) none (cur'.modify i (fun x => x.markRec 0))

/-- `Reconstructor.apply(series, data_loss_threshold, inplace=True)` (reconstructors.py 45-82): the
items afterwards and the outcome -/
def reconstructInplace (pred : Predictor) (th : ℚ) (l : List Item) : List Item × Outcome :=
  recLoop pred th l.length 0 none l

/-- `Reconstructor.apply(series, data_loss_threshold)`: the same on a duplicate, which is returned.
The attributes of the duplicate other than the items are not touched. -/
def reconstructApply (pred : Predictor) (th : ℚ) (s : TSeries) : Except PyErr TSeries :=
  match s.duplicate with
  | .error e => .error e
  | .ok c =>
    match reconstructInplace pred th c.items with
    | (_, .error e) => .error e
    | (l, .ok ()) => .ok { c with items := l }

/-! ## The linear interpolation reconstructor (reconstructors.py 298-347) -/

/-- the dictionary of an item -/
def Item.dictData (x : Item) : Dict ℚ :=
  match x.data with
  | some (.dict d) => d
  | _ => []

/-- an item as the interpolator reads it: `item.t` and `item.data[label]` -/
def Item.vpoint (x : Item) : VPoint where
  t := x.t
  vf := x.t
  vt := x.t
  data := x.dictData

/-- the window checks of the reconstructors (reconstructors.py 327-330, 414-417), the window being 1 -/
def windowCheck (n g h : ℕ) : Outcome :=
  if (g : Int) - 1 < 0 then .error .valueError
  else if (h : Int) + 1 > (n : Int) - 1 then .error .valueError
  else .ok ()

/-- `evaluate(at=series[i].t, prev_i=from_i-1, next_i=to_i+1)` (reconstructors.py 338-344) -/
def linearStep (cur : List Item) (ks : List String) (g h : ℕ) (i : ℕ) : Except PyErr (Dict ℚ) :=
  match cur[i]? with
  | none => .error .indexError
  | some x => linearEval (cur.map Item.vpoint) ks x.t (some ((g : Int) - 1)) (some ((h : Int) + 1))

/-- `LinearInterpolationReconstructor.predict(series, from_i, to_i)` (reconstructors.py 324-347): a new
interpolator on every call (`interpolator_initialize` is never set); dictionary data. -/
def linearPredict : Predictor := fun cur g h =>
  match windowCheck cur.length g h with
  | .error e => .error e
  | .ok () =>
    match headLabelsR cur with
    | .error e => .error e
    | .ok ks =>
      match mapE (linearStep cur ks g h) (List.range' g (h + 1 - g)) with
      | .error e => .error e
      | .ok ds => .ok (.dicts ds)

/-! ## Evaluation (reconstructors.py 128-290) -/

/-- does some item of the list, looked at in order, reach the threshold? -/
def anyLossy (th : ℚ) : List Item → Except PyErr Bool
  | [] => .ok false
  | x :: r =>
    match lossyE th x with
    | .error e => .error e
    | .ok true => .ok true
    | .ok false => anyLossy th r

/-- the items from `a` on, `n` of them: `[series[j] for j in range(a, a+n)]` -/
def span (l : List Item) (a n : ℕ) : List Item := (l.drop a).take n

/-- can the model be evaluated on the `s` items from `i` on (reconstructors.py 190-235)?  The window
before, the window after, then the gap itself are looked at. -/
def areaGood (l : List Item) (W : ℕ) (th : ℚ) (s i : ℕ) : Except PyErr Bool :=
  if i < W then .ok false
  else
    match anyLossy th (span l (i - W) W) with
    | .error e => .error e
    | .ok true => .ok false
    | .ok false =>
      if i + s + W ≥ l.length then .ok false
      else
        match anyLossy th (span l (i + s) W) with
        | .error e => .error e
        | .ok true => .ok false
        | .ok false =>
          match anyLossy th (span l i s) with
          | .error e => .error e
          | .ok b => .ok (!b)

/-- `predicted_values[data_label]` (reconstructors.py 245): a list is not indexed by strings -/
def predictedValues (p : Prediction) (k : String) : Except PyErr (List ℚ) :=
  match p with
  | .lists d => match d.get? k with | some l => .ok l | none => .error .keyError
  | .dicts _ => .error .typeError
  | .other => .error .typeError

/-- one evaluated area (reconstructors.py 237-247): predicted and actual values -/
def evalArea (pred : Predictor) (l : List Item) (k : String) (s i : ℕ) : Except PyErr (List ℚ × List ℚ) :=
  match pred l i (i + s - 1) with
  | .error e => .error e
  | .ok p =>
    match mapE (fun x => x.raw k) (span l i s) with
    | .error e => .error e
    | .ok act =>
      match predictedValues p k with
      | .error e => .error e
      | .ok v => .ok (v, act)

/-- `limit is not None and processed_samples >= limit` -/
def limitReachedR (limit : Option ℕ) (n : ℕ) : Bool :=
  match limit with
  | none => false
  | some m => decide (n ≥ m)

/-- the loop over the positions (reconstructors.py 180-248): overall predicted and actual values -/
def evalLoop (pred : Predictor) (l : List Item) (k : String) (W : ℕ) (th : ℚ) (limit : Option ℕ) (s : ℕ) :
    List ℕ → ℕ → List ℚ → List ℚ → Except PyErr (List ℚ × List ℚ)
  | [], _, pv, av => .ok (pv, av)
  | i :: r, n, pv, av =>
    if limitReachedR limit n then .ok (pv, av)
    else
      match areaGood l W th s i with
      | .error e => .error e
      | .ok false => evalLoop pred l k W th limit s r n pv av
      | .ok true =>
        match evalArea pred l k s i with
        | .error e => .error e
        | .ok (p, a) => evalLoop pred l k W th limit s r (n + 1) (pv ++ p) (av ++ a)

/-- the collected values for `s` steps; none at all is a `NotEnoughDataError` (reconstructors.py
250-254), here an `exception` -/
def evalValues (pred : Predictor) (l : List Item) (k : String) (W : ℕ) (th : ℚ) (limit : Option ℕ) (s : ℕ) :
    Except PyErr (List ℚ × List ℚ) :=
  match evalLoop pred l k W th limit s (List.range l.length) 0 [] [] with
  | .error e => .error e
  | .ok (pv, av) => if pv.isEmpty then .error .exception else .ok (pv, av)

/-- the scores: the metric functions are called with the predicted values first (reconstructors.py
256-262).  `RMSE` is kept as the mean squared error under the root. -/
structure RecScore where
  mse : ℚ
  mae : ℚ
  mape : ℚ
  deriving DecidableEq, Repr

/-- the scores for `s` steps -/
def evalScore (pv av : List ℚ) : Except PyErr RecScore :=
  match mse pv av with
  | .error e => .error e
  | .ok a =>
    match mae pv av with
    | .error e => .error e
    | .ok b =>
      match mape pv av with
      | .error e => .error e
      | .ok c => .ok ⟨a, b, c⟩

/-- `evaluate(series, steps=steps, limit=limit, data_loss_threshold=th, metrics=['RMSE','MAE','MAPE'],
details=True)` for a list of steps (reconstructors.py 128-262): the scores of each.  `W` is
`self.window`.  The overall scores are the means of these. -/
def recEvaluate (pred : Predictor) (l : List Item) (W : ℕ) (th : ℚ) (limit : Option ℕ) (steps : List ℕ) :
    Except PyErr (List RecScore) :=
  match headLabelsR l with
  | .error e => .error e
  | .ok ks =>
    match ks with
    | [k] => mapE (fun s => bindE (evalValues pred l k W th limit s) (fun v => evalScore v.1 v.2)) steps
    | [] => .ok []
    | _ => .error .notImplemented

end Timeseria
