import Verif.Model.Transform

/-! # Resampling with another interpolator: `Resampler(unit, interpolator_class=UniformInterpolator)` (transformations.py 701-719)

The dense view asks the interpolator of the class given for the value in the middle of a gap, with the positions of the two neighbours in the series (83-120); all the
rest is as in `Model/Transform`. -/

namespace Timeseria

/-- the point put in the gap between `p`, the point of index `i` of the series `all`, and the next one `q` (83-120) -/
def gapPointU (all : List VPoint) (ks : List String) (f t : Option ℚ) (i : ℕ) (p q : VPoint) : Except PyErr VPoint :=
  let a := gapFrom f p
  let b := gapTo t q
  let x := a + (b - a) / 2
  match uniformEval all ks x (some (i : Int)) (some ((i + 1 : ℕ) : Int)) with
  | .error e => .error e
  | .ok d => .ok { t := x, vf := a, vt := b, data := d, idx := [], interp := true }

/-- the points given by the iteration of a dense view on the points of `all` from the index `i` on (61-129; simplified as `denseList`) -/
def denseListU (all : List VPoint) (ks : List String) (f t : Option ℚ) : ℕ → List VPoint → Except PyErr (List VPoint)
  | _, [] => .ok []
  | _, [p] => .ok [p]
  | i, p :: q :: r =>
    match denseListU all ks f t (i + 1) (q :: r) with
    | .error e => .error e
    | .ok rest =>
      if p.vt < q.vf then
        match gapPointU all ks f t i p q with
        | .error e => .error e
        | .ok g => .ok (p :: g :: rest)
      else .ok (p :: rest)

/-- the extended dense view (187-188) -/
def jobViewU (c : Settings) (ps : List VPoint) (j : Job) : Except PyErr (List VPoint) :=
  denseListU ps c.ks (some j.a) (some j.b) j.viewStart (idxSlice ps j.viewStart (j.next + 1))

/-- a new point (`target='point'`, 180-368; as `computePoint`) -/
def computePointU (c : Settings) (w : Work) (j : Job) : Except PyErr (Item × Work) :=
  match jobViewU c w.ps j with
  | .error e => .error e
  | .ok view =>
    match dataLossOf view c.hasRes j.isFirst c.si j.a j.b with
    | .error e => .error e
    | .ok loss =>
      match avgView c.ks j.a j.b view with
      | .error e => .error e
      | .ok d =>
        .ok ({ t := j.a + (j.b - j.a) / 2, slot := none, tz := c.tz, data := some (.dict d)
               idx := newIdx c.names (c.forceLoss.getD loss) j.a j.b view },
             { w with ws := writeWeights w j })

/-- `Resampler(unit, UniformInterpolator).process` (385-694, 716-718), as `process` -/
def resampleU (g : Grid) (c : Settings) (start stop : Option ℚ) (ps : List VPoint) : Except PyErr (List Item × Work) :=
  match ps.head?, ps.getLast? with
  | some p0, some pl =>
    match processFrom g .points start p0.t, processTo g stop pl.t with
    | .error e, _ => .error e
    | .ok _, .error e => .error e
    | .ok fromT, .ok toT =>
      let ts := ps.map VPoint.t
      let ps' := attach ps (regionsLoop c.si none none false none ts)
      runJobs (computePointU c) (processJobs g ts fromT toT) { ps := ps', ws := ps.map (fun _ => none) } []
  | _, _ => .error .valueError

end Timeseria
