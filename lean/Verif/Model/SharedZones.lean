import Verif.Model.Create

/-! # Time zones of series which share their points

Slicing (operations.py 964-990), `head`, `tail`, index slicing and `copy` give series with the very same points, not copies of them; `change_tz` changes the points.  Here the points are objects at
addresses (`Points`, as in `Create`). -/

namespace Timeseria

/-- a series of points: the addresses of its points and `_tz`, once set -/
structure ZSeries where
  items : List ℕ
  tz : Option String := none
  deriving DecidableEq

/-- `for time_point in self: time_point.change_tz(tz)` (datastructures.py 1379-1380) -/
def zoneLoop (z : String) : Points → List ℕ → Points
  | ps, [] => ps
  | ps, a :: r => zoneLoop z (ps.changeTz a z) r

/-- `TimeSeries.change_tz` (datastructures.py 1377-1381): without points the name `time_point` is not bound -/
def ZSeries.changeTz (ps : Points) (s : ZSeries) (z : String) : Points × ZSeries × Outcome :=
  if s.items.isEmpty then (ps, s, .error .exception) else (zoneLoop z ps s.items, { s with tz := some z }, .ok ())

/-- the zone of a point -/
def Points.zone (ps : Points) (a : ℕ) : Option String := (ps[a]?).map Prod.snd

/-- detecting the zone (datastructures.py 1366-1375) -/
def zoneDetect (ps : Points) : Option String → List ℕ → Option String
  | z, [] => z
  | none, a :: r => zoneDetect ps (ps.zone a) r
  | some z, a :: r => if ps.zone a ≠ some z then some "UTC" else zoneDetect ps (some z) r

/-- `series.tz` (datastructures.py 1358-1375) -/
def ZSeries.getTz (ps : Points) (s : ZSeries) : Option String :=
  match s.tz with
  | some z => some z
  | none => zoneDetect ps none s.items

/-- a slice by positions (operations.py 976-990): a new series, with the same points -/
def ZSeries.slice (s : ZSeries) (i j : ℕ) : ZSeries := { items := (s.items.take j).drop i }

/-- `as_tz` (datastructures.py 1383-1387): a deep copy, moved -/
def ZSeries.asTz (ps : Points) (s : ZSeries) (z : String) : Points × ZSeries × Outcome :=
  ZSeries.changeTz (ps ++ s.items.map (fun a => (ps[a]?).getD (0, "UTC"))) { s with items := List.range' ps.length s.items.length } z

/-- calls of `change_tz` on series with these points, one after the other -/
def zoneCalls : Points → List (List ℕ × String) → Points
  | ps, [] => ps
  | ps, c :: r => zoneCalls (zoneLoop c.2 ps c.1) r

end Timeseria
