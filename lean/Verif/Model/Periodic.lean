import Verif.Model.Reconstruct

/-! # Periodic average models (reconstructors.py 354-465, forecasters.py 428-588)

Resolutions are given in seconds (`resolution.as_seconds(item.dt)` for a unit without calendar parts). -/

namespace Timeseria

/-- What the periodicity index depends on: the resolution in seconds, the periodicity, and the daylight
saving offset at each time (`none` when `dst_affected` is not set). -/
structure PeriodCfg where
  res : ℚ
  period : ℕ
  dst : ℚ → Option ℚ

/-- `_get_periodicity_index(item, resolution, periodicity, dst_affected)` (utilities.py 866-913) -/
def PeriodCfg.index (c : PeriodCfg) (t : ℚ) : Except PyErr ℕ :=
  if c.period = 0 then .error .zeroDivision
  else
    match periodicityIndex t c.res c.period (c.dst t) with
    | .error e => .error e
    | .ok z => .ok z.toNat

/-- `sums[i] += v; totals[i] += 1`, or the first value and 1 (reconstructors.py 403-408) -/
def addAt (acc : List (ℕ × ℚ × ℕ)) (i : ℕ) (v : ℚ) : List (ℕ × ℚ × ℕ) :=
  match acc with
  | [] => [(i, v, 1)]
  | (j, s, n) :: r => if j = i then (j, s + v, n + 1) :: r else (j, s, n) :: addAt r i v

/-- the loop over the items for one label (reconstructors.py 399-409, forecasters.py 501-512) -/
def sumLoop (c : PeriodCfg) (limit : Option ℚ) (k : String) :
    List Item → List (ℕ × ℚ × ℕ) → Except PyErr (List (ℕ × ℚ × ℕ))
  | [], acc => .ok acc
  | x :: r, acc =>
    match lossReaches limit x with
    | .error e => .error e
    | .ok true => sumLoop c limit k r acc
    | .ok false =>
      match c.index x.t with
      | .error e => .error e
      | .ok i =>
        match x.raw k with
        | .error e => .error e
        | .ok v => sumLoop c limit k r (addAt acc i v)

/-- the averages by periodicity index (reconstructors.py 411-414, forecasters.py 517-520) -/
abbrev Averages := List (PKey × ℚ)

def toAverages (acc : List (ℕ × ℚ × ℕ)) : Averages := acc.map (fun e => (.int e.1, e.2.1 / (e.2.2 : ℚ)))

/-- `averages[periodicity_index]` -/
def avgAt (a : Averages) (i : ℕ) : Except PyErr ℚ :=
  match List.lookup (PKey.int i) a with
  | some v => .ok v
  | none => .error .keyError

/-! ## The reconstructor -/

/-- The parameters of the reconstructor: `averages`, and the periodicity configuration -/
structure PRec where
  cfg : PeriodCfg
  averages : Averages

/-- `PeriodicAverageReconstructor.fit(series, periodicity=…, data_loss_limit=limit)` (reconstructors.py
362-416): the averages.  The detection of the periodicity is not modelled. -/
def recFit (c : PeriodCfg) (limit : Option ℚ) (l : List Item) : Except PyErr Averages :=
  match headLabelsR l with
  | .error e => .error e
  | .ok ks =>
    match ks with
    | [k] => match sumLoop c limit k l [] with
      | .ok acc => .ok (toAverages acc)
      | .error e => .error e
    -- no label: `sums` is not assigned
    | [] => .error .exception
    | _ => .error .notImplemented

/-- the difference between an item and its average (reconstructors.py 436-439, forecasters.py 560-566) -/
def avgDiff (c : PeriodCfg) (a : Averages) (k : String) (x : Item) : Except PyErr ℚ :=
  match x.raw k with
  | .error e => .error e
  | .ok v =>
    match c.index x.t with
    | .error e => .error e
    | .ok i =>
      match avgAt a i with
      | .error e => .error e
      | .ok w => .ok (v - w)

/-- the predicted value at a time: average plus offset (reconstructors.py 444-447) -/
def avgPlus (c : PeriodCfg) (a : Averages) (off t : ℚ) : Except PyErr ℚ :=
  match c.index t with
  | .error e => .error e
  | .ok i =>
    match avgAt a i with
    | .error e => .error e
    | .ok w => .ok (w + off)

/-- the items before and after the gap (reconstructors.py 435) -/
def gapOffset (m : PRec) (k : String) (cur : List Item) (g h : ℕ) : Except PyErr ℚ :=
  match pyGet cur ((g : Int) - 1), pyGet cur ((h : Int) + 1) with
  | .ok x, .ok y =>
    match avgDiff m.cfg m.averages k x with
    | .error e => .error e
    | .ok d =>
      match avgDiff m.cfg m.averages k y with
      | .error e => .error e
      | .ok d' => .ok ((d + d') / 2)
  | .error e, _ => .error e
  | _, .error e => .error e

/-- one predicted value of the gap -/
def gapValue (m : PRec) (off : ℚ) (cur : List Item) (i : ℕ) : Except PyErr ℚ :=
  match cur[i]? with
  | none => .error .indexError
  | some x => avgPlus m.cfg m.averages off x.t

/-- `PeriodicAverageReconstructor.predict(series, from_i, to_i)` (reconstructors.py 418-449), for the first
label -/
def PRec.predict (m : PRec) : Predictor := fun cur g h =>
  match windowCheck cur.length g h with
  | .error e => .error e
  | .ok () =>
    match headLabelsR cur with
    | .error e => .error e
    | .ok ks =>
      match ks with
      | [] => .error .indexError
      | k :: _ =>
        match gapOffset m k cur g h with
        | .error e => .error e
        | .ok off =>
          match mapE (gapValue m off cur) (List.range' g (h + 1 - g)) with
          | .error e => .error e
          | .ok vs => .ok (.lists [(k, vs)])

/-- the model saved and loaded by the base class (base.py 87-147): JSON turns the keys of the averages
into strings -/
def PRec.reloaded (m : PRec) : PRec := { m with averages := tripTable m.averages }

/-! ## The forecaster -/

/-- The parameters of the forecaster, by label; `window` is the maximum of the windows. -/
structure PFor where
  res : ℚ
  dst : ℚ → Option ℚ
  labels : List String
  periods : Dict ℕ
  windows : Dict ℕ
  averages : Dict Averages
  window : ℕ

/-- the periodicity configuration for a label -/
def PFor.cfg (m : PFor) (p : ℕ) : PeriodCfg := ⟨m.res, p, m.dst⟩

/-- `max(...)` of a list, `ValueError` when empty -/
def pyMax : List ℕ → Except PyErr ℕ
  | [] => .error .valueError
  | a :: r => .ok (r.foldl max a)

/-- the state of the loop over the labels: the periodicity in use (`none` while it is `'auto'`), and what
has been stored -/
structure FitState where
  period : Option ℕ
  periods : Dict ℕ
  windows : Dict ℕ
  averages : Dict Averages
  deriving DecidableEq, Repr

/-- the periodicity for a label: `periodicity = detect_periodicity(series[data_label])` replaces the
argument `'auto'`, so that the next labels use it too (forecasters.py 487-489) -/
def fitPeriod (detect : String → ℕ) (st : FitState) (k : String) : ℕ :=
  match st.period with
  | some p => p
  | none => detect k

/-- One label of `fit` (forecasters.py 485-520).  With a window given to the constructor the sums are
not computed: `processed` is not assigned and reading it raises (an `UnboundLocalError`, here
`exception`).  On the second label it would still be there from the first one, but the first one has
raised. -/
def fitLabel (res : ℚ) (dst : ℚ → Option ℚ) (detect : String → ℕ) (window : Option ℕ) (limit : Option ℚ)
    (l : List Item) (st : FitState) (k : String) : Except PyErr FitState :=
  match window with
  | some _ => .error .exception
  | none =>
    let p := fitPeriod detect st k
    match sumLoop ⟨res, p, dst⟩ limit k l [] with
    | .error e => .error e
    | .ok acc =>
      if acc.isEmpty then .error .valueError
      else .ok ⟨some p, st.periods.set k p, st.windows.set k p, st.averages.set k (toAverages acc)⟩

/-- the loop over the labels -/
def fitLabels (res : ℚ) (dst : ℚ → Option ℚ) (detect : String → ℕ) (window : Option ℕ) (limit : Option ℚ)
    (l : List Item) : FitState → List String → Except PyErr FitState
  | st, [] => .ok st
  | st, k :: r =>
    match fitLabel res dst detect window limit l st k with
    | .error e => .error e
    | .ok st' => fitLabels res dst detect window limit l st' r

/-- `PeriodicAverageForecaster(window).fit(series, periodicity, dst_affected, data_loss_limit)`
(forecasters.py 469-523); `detect` is `detect_periodicity` on a label (external), `period` is `none` for
`'auto'`. -/
def forFit (res : ℚ) (dst : ℚ → Option ℚ) (detect : String → ℕ) (period window : Option ℕ) (limit : Option ℚ)
    (l : List Item) : Except PyErr PFor :=
  match headLabelsR l with
  | .error e => .error e
  | .ok ks =>
    match fitLabels res dst detect window limit l ⟨period, [], [], []⟩ ks with
    | .error e => .error e
    | .ok st =>
      match pyMax (st.windows.map Prod.snd) with
      | .error e => .error e
      | .ok w => .ok ⟨res, dst, ks, st.periods, st.windows, st.averages, w⟩

/-- the sum of the differences over the window (forecasters.py 557-566): the items at positions
`len - 1 - window + j` for `j` from 0 to `window - 1`, negative ones counting from the end -/
def windowDiffs (c : PeriodCfg) (a : Averages) (k : String) (l : List Item) (w : ℕ) : List ℕ → Except PyErr ℚ
  | [] => .ok 0
  | j :: r =>
    match pyGet l ((l.length : Int) - 1 - w + j) with
    | .error e => .error e
    | .ok x =>
      match avgDiff c a k x with
      | .error e => .error e
      | .ok d =>
        match windowDiffs c a k l w r with
        | .error e => .error e
        | .ok s => .ok (d + s)

/-- `offset = diffs/j` (forecasters.py 569) with the last value of the loop variable: `window - 1`; with an
empty window `j` is not assigned -/
def windowOffset (c : PeriodCfg) (a : Averages) (k : String) (l : List Item) (w : ℕ) : Except PyErr ℚ :=
  match windowDiffs c a k l w (List.range w) with
  | .error e => .error e
  | .ok s => if w = 0 then .error .exception else pyDiv s ((w : ℚ) - 1)

/-- the forecast of a label at a time (forecasters.py 551-577) -/
def PFor.valueAt (m : PFor) (l : List Item) (t : ℚ) (k : String) : Except PyErr ℚ :=
  match m.periods.get? k, m.windows.get? k, m.averages.get? k with
  | some p, some w, some a =>
    match windowOffset (m.cfg p) a k l w with
    | .error e => .error e
    | .ok off => avgPlus (m.cfg p) a off t
  | _, _, _ => .error .keyError

/-- the time of the `i`-th step (forecasters.py 535-548): from the end of the last slot, or one
resolution after the last point -/
def forecastTime (res : ℚ) (last : Item) (i : ℕ) : ℚ :=
  match last.slot with
  | some (e, _) => e + i * res
  | none => last.t + (i + 1) * res

/-- `PeriodicAverageForecaster.predict(series, steps)` (forecasters.py 525-583) -/
def PFor.predict (m : PFor) (l : List Item) (steps : ℕ) : Except PyErr (List (Dict ℚ)) :=
  if l.length < m.window then .error .valueError
  else
    match l.getLast? with
    | none => .error .indexError
    | some last => mapE (fun i => perLabelDict m.labels (m.valueAt l (forecastTime m.res last i))) (List.range steps)

/-- `{int(key): value …}` (forecasters.py 459-464) -/
def unTrip (a : Averages) : Averages :=
  a.map (fun e => (match e.1 with
    | .int n => .int n
    | .str s => match readNat s with | some n => .int n | none => .str s, e.2))

/-- the forecaster saved and loaded: its `load` turns the keys back into integers -/
def PFor.reloaded (m : PFor) : PFor := { m with averages := m.averages.map (fun e => (e.1, unTrip (tripTable e.2))) }

end Timeseria
