import Verif.Model.Transform
import Verif.Model.AnyData

/-! # Transformations of series whose data are lists (transformations.py 164-371, 385-694)

The code for dictionaries (`Model/Transform`) is followed once more for points which carry a list of numbers.  What changes is every place where data are read or written:
`data_labels()` gives the positions as text (datastructures.py 262-269), `_data_by_label` turns the text back into a position (271-278), while the interpolators write
`interpolated_data[label]` and read `next_point.data[label]` with the text itself (interpolators.py 51-75), and so does the branch of `_compute_new` which writes
`point.data[data_label]` (transformations.py 248-250).  The data of the new items are always a dictionary (263-307). -/

namespace Timeseria

/-- a point with a list of numbers, its validity region and its indexes -/
structure LPoint where
  t : ℚ
  vf : ℚ := 0
  vt : ℚ := 0
  data : List ℚ
  idx : Idx := []
  deriving DecidableEq, Repr, Inhabited

/-- what does not depend on the data: times and indexes -/
def LPoint.bare (p : LPoint) : VPoint := { t := p.t, vf := p.vf, vt := p.vt, data := [], idx := p.idx }

/-- `data_labels()` of a point with `n` values (datastructures.py 262-269) -/
def listLabels (n : ℕ) : List String := (List.range n).map strNat

/-- the point put in a gap (transformations.py 83-120) by the linear interpolator, the default one (interpolators.py 36-77): outside of the interval between the neighbours a
`ValueError`, otherwise a list is read with a text between square brackets, a `TypeError`.  (There is at least one label here: see `computePointL`.) -/
def listGap (f t : Option ℚ) (p q : LPoint) : PyErr :=
  let a := gapFrom f p.bare
  let b := gapTo t q.bare
  let x := a + (b - a) / 2
  if p.t < x ∧ x < q.t then .typeError else .valueError

/-- the points given by the iteration of a dense view (transformations.py 61-129): an exception at the first gap -/
def denseListL (f t : Option ℚ) : List LPoint → Except PyErr (List LPoint)
  | [] => .ok []
  | [p] => .ok [p]
  | p :: q :: r =>
    if p.vt < q.vf then .error (listGap f t p q)
    else
      match denseListL f t (q :: r) with
      | .error e => .error e
      | .ok rest => .ok (p :: rest)

/-- the points `from_i .. to_i-1` -/
def idxSliceL (ps : List LPoint) (i j : ℕ) : List LPoint := (ps.drop i).take (j - i)

/-- the extended dense view (187-188) -/
def jobViewL (ps : List LPoint) (j : Job) : Except PyErr (List LPoint) :=
  denseListL (some j.a) (some j.b) (idxSliceL ps j.viewStart (j.next + 1))

/-- weighted sum of the values under one label, read by `_data_by_label` (operations.py 147-156) -/
def weightedSumL (a b : ℚ) (k : String) : List LPoint → Except PyErr ℚ
  | [] => .ok 0
  | p :: r =>
    match (AnyData.list p.data).byLabel k with
    | .error e => .error e
    | .ok v =>
      match weightedSumL a b k r with
      | .error e => .error e
      | .ok s => .ok (v * weightOf a b p.bare + s)

/-- `avg(view)` (operations.py 127-188) on a view whose points all carry weights -/
def avgViewL (ks : List String) (a b : ℚ) (view : List LPoint) : Except PyErr (Dict ℚ) :=
  let tot := (view.map (fun p => weightOf a b p.bare)).sum
  perLabelDict ks (fun k =>
    match weightedSumL a b k view with
    | .error e => .error e
    | .ok s => if tot = 1 then .ok s else if tot = 0 then .error .zeroDivision else .ok (s / tot))

/-- A new point (`target='point'`, 180-314).  `data_labels()` comes first: with empty lists the reference of the series counts as missing, a `TypeError`
(datastructures.py 889-890). -/
def computePointL (c : Settings) (ps : List LPoint) (j : Job) : Except PyErr Item :=
  if c.ks = [] then .error .typeError
  else match jobViewL ps j with
  | .error e => .error e
  | .ok view =>
    match dataLossOf (view.map LPoint.bare) c.hasRes j.isFirst c.si j.a j.b with
    | .error e => .error e
    | .ok loss =>
      match avgViewL c.ks j.a j.b view with
      | .error e => .error e
      | .ok d =>
        .ok { t := j.a + (j.b - j.a) / 2, slot := none, tz := c.tz, data := some (.dict d)
              idx := newIdx c.names (c.forceLoss.getD loss) j.a j.b (view.map LPoint.bare) }

/-- The points belonging to the slot (221-262): without any, a fully missing slot finds no interpolated point (those are never made), a `ConsistencyException`, and
otherwise `point.data[data_label] += …` is a `TypeError`. -/
def slotViewL (ps : List LPoint) (j : Job) (loss : ℚ) : Except PyErr (List LPoint) :=
  match j.first, j.last with
  | none, none => .error (if loss = 1 then .exception else .typeError)
  | some f, some l => denseListL (some j.a) (some j.b) (idxSliceL ps f (l + 1))
  | some _, none => .error .typeError
  | none, some _ => .error .typeError

/-- A new slot (`target='slot'`, 180-320) of an aggregation with the average, the default operation, which supports weights and is therefore given the extended
view. -/
def computeSlotL (c : Settings) (unit : TUnit) (ps : List LPoint) (j : Job) : Except PyErr Item :=
  if c.ks = [] then .error .typeError
  else match jobViewL ps j with
  | .error e => .error e
  | .ok view =>
    match dataLossOf (view.map LPoint.bare) c.hasRes j.isFirst c.si j.a j.b with
    | .error e => .error e
    | .ok loss =>
      match slotViewL ps j loss with
      | .error e => .error e
      | .ok _ =>
        let data : Except PyErr (Dict ℚ) :=
          if loss = 1 ∧ fillTruthy c.fillWith = true then .ok (c.ks.map (fun k => (k ++ "_avg", c.fillWith.getD 0)))
          else match avgViewL c.ks j.a j.b view with
            | .error e => .error e
            | .ok r => .ok (r.foldl (fun d kv => d.set (kv.1 ++ "_avg") kv.2) [])
        match data with
        | .error e => .error e
        | .ok d =>
          .ok { t := j.a, slot := some (j.b, unit), tz := c.tz, data := some (.dict d)
                idx := newIdx c.names (c.forceLoss.getD loss) j.a j.b (view.map LPoint.bare) }

/-- all the calls, one after the other -/
def runJobsL (f : Job → Except PyErr Item) : List Job → List Item → Except PyErr (List Item)
  | [], out => .ok out
  | j :: r, out =>
    match f j with
    | .error e => .error e
    | .ok x => runJobsL f r (out ++ [x])

/-- attaching the validity regions (506, 548-549) -/
def attachL (ps : List LPoint) (rs : List Region) : List LPoint :=
  List.zipWith (fun p r => { p with vf := r.a, vt := r.b }) ps rs

/-- `Transformation.process` (385-694) for a non-empty series of points with lists: the items of the new series.  The labels are those of the first point. -/
def processL (g : Grid) (tg : Target) (c : Settings) (unit : TUnit) (start stop : Option ℚ) (ps : List LPoint) :
    Except PyErr (List Item) :=
  match ps.head?, ps.getLast? with
  | some p0, some pl =>
    match processFrom g tg start p0.t, processTo g stop pl.t with
    | .error e, _ => .error e
    | .ok _, .error e => .error e
    | .ok fromT, .ok toT =>
      let ts := ps.map LPoint.t
      let c' := { c with ks := listLabels p0.data.length }
      let ps' := attachL ps (regionsLoop c.si none none false none ts)
      runJobsL (match tg with | .points => computePointL c' ps' | .slots => computeSlotL c' unit ps')
        (processJobs g ts fromT toT) []
  | _, _ => .error .valueError

end Timeseria
