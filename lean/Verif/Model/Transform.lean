import Verif.Model.Interp
import Verif.Model.Series
import Mathlib.Data.Rat.Floor
import Mathlib.Algebra.Order.Floor.Ring

/-! # Transformations: dense views, resampling, aggregation (transformations.py) -/

namespace Timeseria

/-! ## The dense view (transformations.py 23-161) -/

/-- validity of the point filling the gap between `p` and `q`, clipped to the interval of the view if there is
one (85-95) -/
def gapFrom (f : Option ℚ) (p : VPoint) : ℚ :=
  match f with
  | some x => if p.vt < x then x else p.vt
  | none => p.vt
def gapTo (t : Option ℚ) (q : VPoint) : ℚ :=
  match t with
  | some x => if q.vf > x then x else q.vf
  | none => q.vf

/-- the interpolated point of a gap (83-120): `LinearInterpolator.evaluate` at the middle of the gap, with the
two neighbours given -/
def gapPoint (ks : List String) (f t : Option ℚ) (p q : VPoint) : Except PyErr VPoint :=
  let a := gapFrom f p
  let b := gapTo t q
  let x := a + (b - a) / 2
  if p.t < x ∧ x < q.t then
    match perLabelDict ks (linearValue p q x) with
    | .error e => .error e
    | .ok d => .ok { t := x, vf := a, vt := b, data := d, idx := [], interp := true }
  else .error .valueError

/-- The points yielded by iterating over a dense view whose original points are `ps` (`__next__`, 61-129).
Simplification: the iterator object (counter, `prev_was_new`, cache of the new points) is replaced by the list
of the points it yields; an exception anywhere is an exception of the whole iteration. -/
def denseList (ks : List String) (f t : Option ℚ) : List VPoint → Except PyErr (List VPoint)
  | [] => .ok []
  | [p] => .ok [p]
  | p :: q :: r =>
    match denseList ks f t (q :: r) with
    | .error e => .error e
    | .ok rest =>
      if p.vt < q.vf then
        match gapPoint ks f t p q with
        | .error e => .error e
        | .ok g => .ok (p :: g :: rest)
      else .ok (p :: rest)

/-! ## The loop producing the slots (transformations.py 517-684) -/

/-- The time unit on the time axis: `next t` is `t + unit` in the time zone of the series (propertime, external),
`round` and `ceil` are `unit.round(t)` and `unit.round(t, how='ceil')`, `secs` is `unit.as_seconds()` (only
used for points, whose units have no calendar components).  Assumed of the external calendar: adding the unit
moves time forward by at least a positive amount, and rounding up gives a time on the grid, not before `t` and
not after any later time on the grid (whether a time on the grid is left alone or moved on is not assumed). -/
structure Grid where
  next : ℚ → ℚ
  delta : ℚ
  hdelta : 0 < delta
  hnext : ∀ t, t + delta ≤ next t
  onGrid : ℚ → Bool
  ceil : ℚ → ℚ
  secs : ℚ
  hceil : ∀ t, t ≤ ceil t ∧ onGrid (ceil t) = true
  hceil' : ∀ t e, onGrid e = true → t < e → ceil t ≤ e

inductive Target where
  | points | slots
  deriving DecidableEq, Repr

/-- `if from_t:` / `if to_t:`: a given value of zero counts as not given (434, 464) -/
def givenTime : Option ℚ → Option ℚ
  | some x => if x = 0 then none else some x
  | none => none

/-- the start of the process (433-461); only numeric `start` values -/
def processFrom (g : Grid) (tg : Target) (start : Option ℚ) (t0 : ℚ) : Except PyErr ℚ :=
  match givenTime start with
  | some s => if g.onGrid s then .ok s else .error .valueError
  | none =>
    match tg with
    | .points => .ok (g.ceil (t0 - g.secs / 2) + g.secs / 2)
    | .slots => .ok (if g.onGrid t0 then t0 else g.ceil t0)

/-- the end of the process (463-490) -/
def processTo (g : Grid) (stop : Option ℚ) (tl : ℚ) : Except PyErr ℚ :=
  match givenTime stop with
  | some s => if g.onGrid s then .ok s else .error .valueError
  | none => .ok tl

/-- One call of `_compute_new` (641-657): the interval `[a, b)`, the indexes of the points before and after it,
those of the first and last point in it, and whether it is the first call. -/
structure Job where
  a : ℚ
  b : ℚ
  prev : Option ℕ
  next : ℕ
  first : Option ℕ
  last : Option ℕ
  isFirst : Bool
  deriving DecidableEq, Repr

/-- the state of the loop; `stop` is `slot_end_t`, which starts as `from_t` (551-553) -/
structure LoopState where
  start : Option ℚ := none
  stop : ℚ
  prev : Option ℕ := none
  ended : Bool := false
  jobs : List Job := []
  deriving DecidableEq, Repr

/-- timestamp at an index, the negative index -1 being the last one (`series[slot_next_point_i-1]`, 626) -/
def stampAt (ts : List ℚ) (i : Int) : ℚ :=
  match pyGet ts i with
  | .ok t => t
  | .error _ => 0

/-- `x >= slot_start_t and x < slot_end_t` -/
def inSlot (a b x : ℚ) : Bool := a ≤ x ∧ x < b

/-- first and last point of the slot (601-629) -/
def slotEnds (ts : List ℚ) (a b : ℚ) (prev : Option ℕ) (i : ℕ) : Option ℕ × Option ℕ :=
  match prev with
  | some p =>
    if ((i : Int) - p).natAbs = 1 then (none, none)
    else (if inSlot a b (stampAt ts (p + 1 : ℕ)) then some (p + 1) else none,
      if inSlot a b (stampAt ts ((i : Int) - 1)) then some (i - 1) else none)
  | none => (some 0, if inSlot a b (stampAt ts ((i : Int) - 1)) then some (i - 1) else none)

/-- one round of the `while` loop (582-676) for the point with index `i` -/
def advance (g : Grid) (ts : List ℚ) (i : ℕ) (s : LoopState) : LoopState :=
  let jobs := match s.start with
    | none => s.jobs
    | some a => s.jobs ++ [{ a := a, b := s.stop, prev := s.prev, next := i, first := (slotEnds ts a s.stop s.prev i).1,
                             last := (slotEnds ts a s.stop s.prev i).2, isFirst := s.jobs.isEmpty }]
  { start := some s.stop
    stop := g.next s.stop
    prev := if 0 < i ∧ stampAt ts ((i : Int) - 1) < s.stop then some (i - 1) else s.prev
    ended := s.ended
    jobs := jobs }

/-- the `while slot_end_t <= point.t` loop (582), with a bound on the number of rounds -/
def spin (g : Grid) (ts : List ℚ) (i : ℕ) (t : ℚ) : ℕ → LoopState → LoopState
  | 0, s => s
  | k + 1, s => if s.stop ≤ t then spin g ts i t k (advance g ts i s) else s

/-- a sufficient number of rounds (see `spin_done`) -/
def rounds (g : Grid) (s : LoopState) (t : ℚ) : ℕ := (⌊(t - s.stop) / g.delta⌋ + 1).toNat

/-- the body of the loop over the points (539-684) -/
def pointStep (g : Grid) (ts : List ℚ) (fromT toT : ℚ) (i : ℕ) (t : ℚ) (s : LoopState) : LoopState :=
  if t < fromT then { s with prev := some i }
  else if t ≥ toT ∧ s.ended then s
  else if t ≥ s.stop then
    let s' := spin g ts i t (rounds g s t) s
    { s' with ended := if t ≥ toT then true else s'.ended }
  else s

/-- the loop over the points, `rest` starting at index `i` -/
def pointsLoop (g : Grid) (ts : List ℚ) (fromT toT : ℚ) : ℕ → List ℚ → LoopState → LoopState
  | _, [], s => s
  | i, t :: r, s => pointsLoop g ts fromT toT (i + 1) r (pointStep g ts fromT toT i t s)

/-- the calls of `_compute_new` made by `process` -/
def processJobs (g : Grid) (ts : List ℚ) (fromT toT : ℚ) : List Job :=
  (pointsLoop g ts fromT toT 0 ts { stop := fromT }).jobs

/-! ## Computing a new item (transformations.py 164-371) -/

/-- weight of a point of the view (203-219) -/
def weightOf (a b : ℚ) (p : VPoint) : ℚ :=
  if p.vt < a then 0
  else if p.vf ≥ b then 0
  else (clipTo b p.vt - clipFrom a p.vf) / (b - a)

/-- weighted sum of the values of one label, over a view -/
def weightedSum (a b : ℚ) (k : String) : List VPoint → Except PyErr ℚ
  | [] => .ok 0
  | p :: r =>
    match p.data.get? k with
    | none => .error .keyError
    | some v =>
      match weightedSum a b k r with
      | .error e => .error e
      | .ok s => .ok (v * weightOf a b p + s)

/-- `avg(view)` (operations.py 127-188) on a view whose points all carry weights -/
def avgView (ks : List String) (a b : ℚ) (view : List VPoint) : Except PyErr (Dict ℚ) :=
  let tot := (view.map (weightOf a b)).sum
  perLabelDict ks (fun k =>
    match weightedSum a b k view with
    | .error e => .error e
    | .ok s => if tot = 1 then .ok s else if tot = 0 then .error .zeroDivision else .ok (s / tot))

/-- new value of a data index other than the data loss (327-368): average of the values present, by weight -/
def indexSums (a b : ℚ) (name : String) : List VPoint → ℚ × ℚ
  | [] => (0, 0)
  | p :: r =>
    let s := indexSums a b name r
    match p.idx.get? name with
    | some (some v) => (s.1 + v * weightOf a b p, s.2 + weightOf a b p)
    | _ => s
def indexValue (a b : ℚ) (name : String) (view : List VPoint) : Option ℚ :=
  let s := indexSums a b name view
  if s.2 > 0 then some (s.1 / s.2) else none

/-- the data indexes of the new item: `data_loss` set by the constructor, then the others (314-368) -/
def newIdx (names : List String) (loss : ℚ) (a b : ℚ) (view : List VPoint) : Idx :=
  (names.filter (fun n => n ≠ "data_loss")).foldl (fun d n => d.set n (indexValue a b n view)) [("data_loss", some loss)]

/-- An aggregation operation: name, whether it supports weights, and what it computes from the points of a view
and the interval. -/
structure SlotOp where
  name : String
  weighted : Bool
  run : List String → ℚ → ℚ → List VPoint → Except PyErr (Dict ℚ)

/-- the settings of a transformation -/
structure Settings where
  ks : List String            -- `series.data_labels()`
  si : ℚ                      -- the validity (sampling interval)
  hasRes : Bool               -- `series.resolution is not None`
  names : List String := []   -- `series._all_data_indexes()`
  forceLoss : Option ℚ := none
  fillWith : Option ℚ := none
  tz : String := "UTC"

/-- the points `from_i .. to_i-1` -/
def idxSlice (ps : List VPoint) (i j : ℕ) : List VPoint := (ps.drop i).take (j - i)

/-- index of the first point of the extended view: the previous point or, if there is none, the first of the slot
(183-184) -/
def Job.viewStart (j : Job) : ℕ := j.prev.getD (j.first.getD 0)

/-- the extended dense view (187-188) -/
def jobView (c : Settings) (ps : List VPoint) (j : Job) : Except PyErr (List VPoint) :=
  denseList c.ks (some j.a) (some j.b) (idxSlice ps j.viewStart (j.next + 1))

/-- The state on which `_compute_new` acts: the points of the input series, and the `weight` attributes left on
them. -/
structure Work where
  ps : List VPoint
  ws : List (Option ℚ)

/-- weights written on the points of the series in the view (201-219) -/
def writeWeights (w : Work) (j : Job) : List (Option ℚ) :=
  w.ws.mapIdx (fun i x =>
    if j.viewStart ≤ i ∧ i < j.next + 1 then (w.ps[i]?).map (weightOf j.a j.b) else x)

/-- new point of a resampling (`target='point'`) -/
def computePoint (c : Settings) (w : Work) (j : Job) : Except PyErr (Item × Work) :=
  match jobView c w.ps j with
  | .error e => .error e
  | .ok view =>
    match dataLossOf view c.hasRes j.isFirst c.si j.a j.b with
    | .error e => .error e
    | .ok loss =>
      match avgView c.ks j.a j.b view with
      | .error e => .error e
      | .ok d =>
        .ok ({ t := j.a + (j.b - j.a) / 2, slot := none, tz := c.tz, data := some (.dict d)
               idx := newIdx c.names (c.forceLoss.getD loss) j.a j.b view },
             { w with ws := writeWeights w j })

/-- the write `point.data[label] += point.data[label]*point.weight` on one point (250) -/
def scaleData (ks : List String) (a b : ℚ) (p : VPoint) : VPoint :=
  { p with data := p.data.map (fun kv => if kv.1 ∈ ks then (kv.1, kv.2 + kv.2 * weightOf a b p) else kv) }

/-- The points belonging to the slot, as seen by the operations not supporting weights, together with the extended
view and the series after the writes of the "upsampling" branch (221-262). -/
def slotView (c : Settings) (ps : List VPoint) (j : Job) (loss : ℚ) (view : List VPoint) :
    Except PyErr (List VPoint × List VPoint × List VPoint) :=
  match j.first, j.last with
  | none, none =>
    if loss = 1 then
      -- 231-241: exactly one interpolated point is expected
      match view.filter (fun p => p.interp) with
      | [p] => .ok ([p], view, ps)
      | _ => .error .exception
    else
      -- 244-252: a point with zeros; the data of the points in the view are overwritten
      .ok ([{ t := (j.b - j.a) / 2, vf := 0, vt := 0, data := c.ks.map (fun k => (k, 0)) }],
           view.map (scaleData c.ks j.a j.b),
           ps.mapIdx (fun i p => if j.viewStart ≤ i ∧ i < j.next + 1 then scaleData c.ks j.a j.b p else p))
  | some f, some l =>
    match denseList c.ks (some j.a) (some j.b) (idxSlice ps f (l + 1)) with
    | .error e => .error e
    | .ok v => .ok (v, view, ps)
  | some _, none => .error .typeError     -- `slot_last_point_i+1` with None
  | none, some _ => .error .typeError     -- `self.count + self.from_i` with None

/-- `if fill_with` (275): a filling value of zero counts as not given -/
def fillTruthy : Option ℚ → Bool
  | some f => decide (f ≠ 0)
  | none => false

/-- the data of the new slot (275-307) -/
def slotData (c : Settings) (ops : List SlotOp) (a b : ℚ) (loss : ℚ) (view inner : List VPoint) : Except PyErr (Dict ℚ) :=
  if loss = 1 ∧ fillTruthy c.fillWith = true then
    .ok ((c.ks.flatMap (fun k => ops.map (fun o => (k ++ "_" ++ o.name, c.fillWith.getD 0)))))
  else
    ops.foldl (fun acc o =>
      match acc with
      | .error e => .error e
      | .ok d =>
        match o.run c.ks a b (if o.weighted then view else inner) with
        | .error e => .error e
        | .ok r => .ok (r.foldl (fun d kv => d.set (kv.1 ++ "_" ++ o.name) kv.2) d)) (.ok [])

/-- new slot of an aggregation (`target='slot'`) -/
def computeSlot (c : Settings) (unit : TUnit) (ops : List SlotOp) (w : Work) (j : Job) : Except PyErr (Item × Work) :=
  match jobView c w.ps j with
  | .error e => .error e
  | .ok view =>
    match dataLossOf view c.hasRes j.isFirst c.si j.a j.b with
    | .error e => .error e
    | .ok loss =>
      match slotView c w.ps j loss view with
      | .error e => .error e
      | .ok (inner, view', ps') =>
        match slotData c ops j.a j.b loss view' inner with
        | .error e => .error e
        | .ok d =>
          if d.isEmpty then .error .exception
          else
            .ok ({ t := j.a, slot := some (j.b, unit), tz := c.tz, data := some (.dict d)
                   idx := newIdx c.names (c.forceLoss.getD loss) j.a j.b view' },
                 { ps := ps', ws := writeWeights w j })

/-- all the calls, one after the other, each result being appended to the new series -/
def runJobs (f : Work → Job → Except PyErr (Item × Work)) : List Job → Work → List Item → Except PyErr (List Item × Work)
  | [], w, out => .ok (out, w)
  | j :: r, w, out =>
    match f w j with
    | .error e => .error e
    | .ok (x, w') => runJobs f r w' (out ++ [x])

/-- attaching the validity regions (506, 548-549) -/
def attach (ps : List VPoint) (rs : List Region) : List VPoint :=
  List.zipWith (fun p r => { p with vf := r.a, vt := r.b }) ps rs

/-- `Transformation.process` (385-694) for a non-empty series of points with dictionary data, with the sampling
interval (validity) already known; returns the items appended to the new series, and the input series after
the call. -/
def process (g : Grid) (tg : Target) (c : Settings) (unit : TUnit) (ops : List SlotOp) (start stop : Option ℚ)
    (ps : List VPoint) : Except PyErr (List Item × Work) :=
  match ps.head?, ps.getLast? with
  | some p0, some pl =>
    match processFrom g tg start p0.t, processTo g stop pl.t with
    | .error e, _ => .error e
    | .ok _, .error e => .error e
    | .ok fromT, .ok toT =>
      let ts := ps.map VPoint.t
      let ps' := attach ps (regionsLoop c.si none none false none ts)
      runJobs (match tg with | .points => computePoint c | .slots => computeSlot c unit ops)
        (processJobs g ts fromT toT) { ps := ps', ws := ps.map (fun _ => none) } []
  | _, _ => .error .valueError

/-- the `avg` operation as used by the aggregator by default -/
def avgSlotOp : SlotOp := { name := "avg", weighted := true, run := avgView }

end Timeseria
