import Verif.Model.Validity

/-! # Specification vocabulary for validity regions -/

namespace Timeseria

/-- where the region of the point `t` begins and ends, given the neighbour on that side -/
def leftEnd (D : ℚ) (prev : Option ℚ) (t : ℚ) : ℚ :=
  match prev with
  | some p => max (t - D / 2) ((p + t) / 2)
  | none => t - D / 2
def rightEnd (D : ℚ) (next : Option ℚ) (t : ℚ) : ℚ :=
  match next with
  | some n => min (t + D / 2) ((t + n) / 2)
  | none => t + D / 2

/-- The regions one expects, point by point: half a sampling interval on either side, but never
beyond the middle between the point and its neighbour. -/
def expectedRegions (D : ℚ) : Option ℚ → List ℚ → List Region
  | _, [] => []
  | prev, t :: r =>
    { t := t
      a := leftEnd D prev t
      b := rightEnd D r.head? t }
      :: expectedRegions D (some t) r

/-- regions are in order and do not overlap -/
def DisjointRegions (l : List Region) : Prop := l.Pairwise (fun p q => p.b ≤ q.a)

/-- points whose validity regions are well formed, in order and do not overlap -/
structure OrderedRegions (ps : List VPoint) : Prop where
  wf : ∀ p ∈ ps, p.vf ≤ p.vt
  ord : ps.Pairwise (fun p q => p.vt ≤ q.vf)

/-- length of the part of `[a, b]` within `[f, t]` -/
def overlap (a b f t : ℚ) : ℚ := max 0 (min b t - max a f)

end Timeseria
