import Verif.Model.DetectorFit

/-! # Inspecting a fitted anomaly detector (models/anomaly_detectors.py 429-482)

What is printed and plotted is the result.  The drawing itself, and the printing of the distributions (442-444), are not
modelled. -/

namespace Timeseria

variable {I D : Type}

/-- the arguments of `inspect` (429); `none` is `'auto'` -/
structure InspectArgs where
  plot : Bool := true
  xMin : Option ℚ := none
  xMax : Option ℚ := none
  series : Bool := false
  deriving DecidableEq, Repr

/-- what is printed for a label (438-440), and the range of the plot (458) -/
structure LabelReport where
  label : String
  avg : ℚ
  least : ℚ
  most : ℚ
  range : Option (ℚ × ℚ)
  deriving DecidableEq, Repr

/-- `min` of a list -/
def pyMinOf : List ℚ → Except PyErr ℚ
  | [] => .error .valueError
  | x :: r => .ok (r.foldl (fun m y => if y < m then y else m) x)

/-- `max` of a list -/
def pyMaxOf : List ℚ → Except PyErr ℚ
  | [] => .error .valueError
  | x :: r => .ok (r.foldl (fun m y => if y > m then y else m) x)

/-- a bound of the plot (448-451): given, or computed from the errors of this label -/
def plotBound (f : List ℚ → Except PyErr ℚ) (l : List ℚ) : Option ℚ → Except PyErr ℚ
  | some v => .ok v
  | none => f l

/-- the report on a label (434-458).  The bounds of the plot are kept in the arguments `plot_x_min` and `plot_x_max`
themselves (449, 451), so the next label finds them given. -/
def labelReport (k : String) (errs : List ℚ) (a : InspectArgs) : Except PyErr (LabelReport × InspectArgs) :=
  -- 438: the average of no errors
  if errs.length = 0 then .error .zeroDivision
  else
    match pyMinOf (errs.map (fun x => |x|)), pyMaxOf (errs.map (fun x => |x|)) with
    | .ok lo, .ok hi =>
      if a.plot then
        match plotBound pyMinOf errs a.xMin, plotBound pyMaxOf errs a.xMax with
        | .ok x, .ok y =>
          .ok (⟨k, (errs.map (fun x => |x|)).sum / errs.length, lo, hi, some (x, y)⟩, { a with xMin := some x, xMax := some y })
        | .error e, _ => .error e
        | _, .error e => .error e
      else .ok (⟨k, (errs.map (fun x => |x|)).sum / errs.length, lo, hi, none⟩, a)
    | .error e, _ => .error e
    | _, .error e => .error e

/-- `d[k][i]` for a dictionary of lists -/
def valueAtPos (d : Dict (List ℚ)) (k : String) (i : ℕ) : Except PyErr ℚ :=
  match d.get? k with
  | none => .error .keyError
  | some l =>
    match l[i]? with
    | none => .error .indexError
    | some v => .ok v

/-- the data of the point `i` (475-479) -/
def fitPointData (act pred err : Dict (List ℚ)) (i : ℕ) : List String → Dict ℚ → Except PyErr (Dict ℚ)
  | [], acc => .ok acc
  | k :: r, acc =>
    match valueAtPos act k i with
    | .error e => .error e
    | .ok a =>
      match valueAtPos pred k i with
      | .error e => .error e
      | .ok p =>
        match valueAtPos err k i with
        | .error e => .error e
        | .ok v => fitPointData act pred err i r (((acc.set k a).set (k ++ "_pred") p).set (k ++ "_err") v)

/-- the point `i` (480) -/
def fitPoint (act pred err : Dict (List ℚ)) (i : ℕ) : Except PyErr Item :=
  match fitPointData act pred err i act.keys [] with
  | .error e => .error e
  | .ok d => .ok { t := i, data := some (.dict d) }

/-- the series of the fit (470-481) -/
def fitSeries (act pred err : Dict (List ℚ)) : Except PyErr TSeries :=
  match act with
  | [] => .error .indexError
  | (_, l) :: _ =>
    match mapE (fitPoint act pred err) (List.range l.length) with
    | .error e => .error e
    | .ok its => TSeries.build its

/-- the series of the detector, if asked (467-482); the check at 468-469 comes after the errors have been read -/
def DetData.seriesOfFit (d : DetData I D) : Except PyErr TSeries :=
  match d.errors with
  | none => .error .valueError
  | some err =>
    match d.actual, d.predicted with
    | some act, some pred => fitSeries act pred err
    | _, _ => .error .keyError

/-- the loop over the labels (432-482) -/
def DetData.inspectLoop (d : DetData I D) : InspectArgs → List String → Except PyErr (List (LabelReport × Option TSeries))
  | _, [] => .ok []
  | a, k :: r =>
    match d.errors with
    | none => .error .keyError
    | some err =>
      match err.get? k with
      | none => .error .keyError
      | some l =>
        match labelReport k l a with
        | .error e => .error e
        | .ok (rep, a') =>
          if a.series then
            match d.seriesOfFit with
            | .error e => .error e
            | .ok s => (d.inspectLoop a' r).map (fun t => (rep, some s) :: t)
          else (d.inspectLoop a' r).map (fun t => (rep, none) :: t)

/-- `inspect(plot, plot_x_min, plot_x_max, series)` (429-482) -/
def DetData.inspect (d : DetData I D) (a : InspectArgs) : Except PyErr (List (LabelReport × Option TSeries)) :=
  match d.dists with
  | none => .error .keyError
  | some ds => d.inspectLoop a ds.keys

end Timeseria
