import Verif.Model.Transform
import Verif.SpecValidity

/-! # Specification vocabulary for transformations -/

namespace Timeseria

/-- the `k`-th boundary of the grid starting at `from` -/
def edge (g : Grid) (fromT : ℚ) : ℕ → ℚ
  | 0 => fromT
  | k + 1 => g.next (edge g fromT k)

/-- number of timestamps before `x`; for an ordered series the index of the first point not before `x` -/
def below (ts : List ℚ) (x : ℚ) : ℕ := (ts.filter (fun t => decide (t < x))).length

/-- index of the last point before `x` -/
def lastBefore (ts : List ℚ) (x : ℚ) : Option ℕ := if below ts x = 0 then none else some (below ts x - 1)

/-- The item expected for the interval `[a, b)`: computed from exactly the points falling in it (those with index
from `below a` to `below b - 1`), the last point before it and the first one after it. -/
def expectedJob (ts : List ℚ) (a b : ℚ) (isFirst : Bool) : Job where
  a := a
  b := b
  prev := lastBefore ts a
  next := below ts b
  first := if below ts a = below ts b then none else some (below ts a)
  last := if below ts a = below ts b then none else some (below ts b - 1)
  isFirst := isFirst

/-- the items expected on the first `K` intervals of the grid -/
def expectedJobs (g : Grid) (ts : List ℚ) (fromT : ℚ) (K : ℕ) : List Job :=
  (List.range K).map (fun k => expectedJob ts (edge g fromT k) (edge g fromT (k + 1)) (k == 0))

/-- A series that can be transformed: not empty, in time order, made of measured points all having the labels. -/
structure InputSeries (ks : List String) (ps : List VPoint) : Prop where
  ne : ps ≠ []
  sorted : (ps.map VPoint.t).Pairwise (· < ·)
  measured : ∀ p ∈ ps, p.interp = false
  labels : ∀ p ∈ ps, ∀ k ∈ ks, ∃ v, p.data.get? k = some v

/-- timestamp of the first and of the last point -/
def firstT (ps : List VPoint) : ℚ := (ps.head?.map VPoint.t).getD 0
def lastT (ps : List VPoint) : ℚ := (ps.getLast?.map VPoint.t).getD 0

/-- `p` is in the interval `[a, b)` or is the last point before it or the first one after it: no other point lies
between `p` and the interval. -/
def Involved (ps : List VPoint) (a b : ℚ) (p : VPoint) : Prop :=
  p ∈ ps ∧ (∀ q ∈ ps, q.t < a → q.t ≤ p.t) ∧ (∀ q ∈ ps, b ≤ q.t → p.t ≤ q.t)

/-- the points with the validity regions they get for the sampling interval `D` -/
def withRegions (D : ℚ) (ps : List VPoint) : List VPoint := attach ps (expectedRegions D none (ps.map VPoint.t))

/-- A physical unit of `u` seconds: adding it adds `u`, and the grid is closed under it. -/
structure Grid.Physical (g : Grid) (u : ℚ) : Prop where
  pos : 0 < u
  next : ∀ t, g.next t = t + u
  secs : g.secs = u
  step : ∀ t, g.onGrid t = true → g.onGrid (t + u) = true

end Timeseria
