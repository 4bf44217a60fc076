import Verif.Model.Basic
import Mathlib.Data.Real.Basic

/-! # Distribution functions (utilities.py 392-449)

The density and the cumulative distribution of `scipy.stats` are arbitrary functions of the real numbers; `optimize.bisect`
is modelled by its algorithm, with exact arithmetic. -/

namespace Timeseria

open Classical in
/-- the loop of `scipy.optimize.bisect`: the interval starts at `a` and is `dm` long (possibly negative), `sa` is the value
at the first end; each step halves it and keeps the half at whose ends the signs differ.  It stops on a zero or when the
interval is shorter than the tolerance, and raises (`RuntimeError`) after `n` steps. -/
noncomputable def bisectLoop (f : ℝ → ℝ) (sa xtol rtol : ℝ) : ℕ → ℝ → ℝ → Except PyErr ℝ
  | 0, _, _ => .error .exception
  | n + 1, a, dm =>
    let x := a + dm / 2
    if f x = 0 ∨ |dm / 2| < xtol + rtol * |x| then .ok x
    else bisectLoop f sa xtol rtol n (if 0 ≤ f x * sa then x else a) (dm / 2)

open Classical in
/-- `scipy.optimize.bisect(f, a, b)`: the values at the ends must not have the same sign -/
noncomputable def bisect (f : ℝ → ℝ) (xtol rtol : ℝ) (maxiter : ℕ) (a b : ℝ) : Except PyErr ℝ :=
  if f a = 0 then .ok a
  else if f b = 0 then .ok b
  else if 0 < f a * f b then .error .valueError
  else bisectLoop f (f a) xtol rtol maxiter a (b - a)

/-- the tolerances and the number of steps of the library -/
structure BisectCfg where
  xtol : ℝ
  rtol : ℝ
  maxiter : ℕ

/-- `DistributionFunction` (392-403): density, cumulative distribution and the parameters `loc` and `scale` -/
structure DistFn where
  pdf : ℝ → ℝ
  cdf : ℝ → ℝ
  loc : ℝ
  scale : ℝ

/-- `adherence(x)` (429-431) -/
noncomputable def DistFn.adherence (d : DistFn) (x : ℝ) : ℝ := 2 * (1 - d.cdf |x|)

/-- the end of the interval searched by `find_x` (436-442) -/
noncomputable def DistFn.searchEnd (d : DistFn) (wideness : ℝ) (side : String) : Except PyErr ℝ :=
  if side = "right" then .ok (d.scale * wideness)
  else if side = "left" then .ok (-(d.scale * wideness))
  else .error .valueError

/-- `find_x(y, wideness, side)` (433-449) -/
noncomputable def DistFn.findX (d : DistFn) (c : BisectCfg) (y wideness : ℝ) (side : String) : Except PyErr ℝ :=
  match d.searchEnd wideness side with
  | .error e => .error e
  | .ok e => bisect (fun x => d.pdf x - y) c.xtol c.rtol c.maxiter d.loc e

end Timeseria
