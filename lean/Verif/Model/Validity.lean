import Verif.Model.Item

/-! # Validity regions, coverage and data loss (utilities.py 592-801) -/

namespace Timeseria

/-- The validity region of a point: `validity_segments[t] = [a, b]`. -/
structure Region where
  t : ℚ
  a : ℚ
  b : ℚ
  deriving DecidableEq, Repr, Inhabited

/-- `x is not None and c x` -/
def optTest (x : Option ℚ) (c : ℚ → Bool) : Bool :=
  match x with
  | some v => c v
  | none => false

/-- `if cut and from_t is not None and a < from_t: a = from_t` (utilities.py 631-633) -/
def cutFrom (cut : Bool) (fromT : Option ℚ) (a : ℚ) : ℚ :=
  if cut then (match fromT with | some f => if a < f then f else a | none => a) else a

/-- `if cut and to_t is not None and b > to_t: b = to_t` (utilities.py 634-635) -/
def cutTo (cut : Bool) (toT : Option ℚ) (b : ℚ) : ℚ :=
  if cut then (match toT with | some f => if f < b then f else b | none => b) else b

/-- The loop of `_compute_validity_regions` (utilities.py 613-652) on the timestamps of the points.
The region of the previous point, the only one that can still change, is carried separately.
Simplification: the dictionary keyed by timestamp is a list in insertion order (the timestamps are
distinct in a time series). -/
def regionsLoop (D : ℚ) (fromT toT : Option ℚ) (cut : Bool) : Option Region → List ℚ → List Region
  | prev, [] => prev.toList
  | prev, t :: r =>
    let a := t - D / 2
    let b := t + D / 2
    if optTest fromT (fun f => b ≤ f) then regionsLoop D fromT toT cut prev r
    else if optTest toT (fun f => a > f) then prev.toList
    else
      let a' := cutFrom cut fromT a
      let b' := cutTo cut toT b
      match prev with
      | none => regionsLoop D fromT toT cut (some ⟨t, a', b'⟩) r
      | some p =>
        if a' < p.b then
          let mid := (p.b + a') / 2
          { p with b := mid } :: regionsLoop D fromT toT cut (some ⟨t, mid, b'⟩) r
        else p :: regionsLoop D fromT toT cut (some ⟨t, a', b'⟩) r

/-- `_compute_validity_regions(series, from_t, to_t, sampling_interval, cut)` (utilities.py 592-654).
`auto` is `series._autodetected_sampling_interval`. -/
def validityRegions (auto : Except PyErr ℚ) (ts : List ℚ) (fromT toT : Option ℚ) (si : Option ℚ)
    (cut : Bool) : Except PyErr (List Region) :=
  if ts.length = 1 ∧ si = none then .error .valueError
  else
    match si with
    | some d =>
      if d ≠ 0 then .ok (regionsLoop d fromT toT cut none ts)
      else auto.map (fun D => regionsLoop D fromT toT cut none ts)
    | none => auto.map (fun D => regionsLoop D fromT toT cut none ts)

/-- A point with its validity region attached (`valid_from`, `valid_to`) and the mark of
interpolated points (transformations.py 548-549, 110-113).  Data are dictionaries of numbers. -/
structure VPoint where
  t : ℚ
  vf : ℚ
  vt : ℚ
  data : Dict ℚ := []
  idx : Idx := []
  interp : Bool := false
  deriving DecidableEq, Repr, Inhabited

/-- lower and upper end of the part of the region within the interval (utilities.py 702-703, also
transformations.py 214-215) -/
def clipFrom (fromT : ℚ) (vf : ℚ) : ℚ := if vf ≥ fromT then vf else fromT
def clipTo (toT : ℚ) (vt : ℚ) : ℚ := if vt < toT then vt else toT

/-- the sum computed by the loop of `_compute_coverage` (utilities.py 687-709) -/
def coverageSum (fromT toT : ℚ) : List VPoint → ℚ
  | [] => 0
  | p :: r =>
    if p.vt < fromT then coverageSum fromT toT r
    else if p.vf ≥ toT then 0
    else if p.interp then coverageSum fromT toT r
    else (clipTo toT p.vt - clipFrom fromT p.vf) + coverageSum fromT toT r

/-- `_compute_coverage(series, from_t, to_t)` (utilities.py 657-719); all the points have validity
regions. -/
def coverage (ps : List VPoint) (fromT toT : ℚ) : Except PyErr ℚ :=
  if fromT ≥ toT then .error .valueError
  else if ps.isEmpty then .ok 0
  else .ok (coverageSum fromT toT ps / (toT - fromT))

/-- `point.data_loss`: the `data_loss` index, `None` when missing (datastructures.py 262-269) -/
def VPoint.dataLoss (p : VPoint) : Option ℚ := (p.idx.get? "data_loss").join

/-- contribution of the previously computed data loss of one point (utilities.py 758-790) -/
def lossTerm (si fromT toT : ℚ) (p : VPoint) : ℚ :=
  match p.dataLoss with
  | none => 0
  | some l =>
    if l = 0 then 0
    else
      let a := p.t - si / 2
      let b := p.t + si / 2
      if b < fromT then 0
      else if a ≥ toT then 0
      else
        let c := if a < fromT then |fromT - b| else if b ≥ toT then |toT - a| else si
        l * (c / (toT - fromT))

/-- sum over the points of `lossTerm` (utilities.py 756-790) -/
def lossSum (si fromT toT : ℚ) (ps : List VPoint) : ℚ := (ps.map (lossTerm si fromT toT)).sum

/-- `_compute_data_loss(series, from_t, to_t, force, sampling_interval)` (utilities.py 722-801);
`hasRes` is `series.resolution is not None`, the sampling interval is given and not zero (its
autodetection is modelled separately). -/
def dataLossOf (ps : List VPoint) (hasRes force : Bool) (si fromT toT : ℚ) : Except PyErr ℚ :=
  match coverage ps fromT toT with
  | .error e => .error e
  | .ok c => .ok ((1 - c) + (if hasRes || force then lossSum si fromT toT ps else 0))

end Timeseria
