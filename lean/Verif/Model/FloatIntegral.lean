import Verif.Model.FloatOps

/-! # Integrals in floating point

Continues `Verif.Model.FloatOps`. -/

namespace Timeseria

namespace Rounding

variable (R : Rounding)

/-- the turns of the loop after the first item (operations.py 446-475), for a label and a constant resolution: `p` is the component before, `acc` the value before, the list has the values of the series from the one before on -/
def integFrom (s : ℚ) : ℚ → ℚ → List ℚ → List ℚ
  | _, _, [] => []
  | p, acc, u :: r => R.add acc (R.mul (R.sub (R.mul u 2) p) s) :: integFrom s (R.sub (R.mul u 2) p) (R.add acc (R.mul (R.sub (R.mul u 2) p) s)) r

/-- the integral of a series of one label and of constant resolution (operations.py 355-511), from the constant `c`: the first value is zero plus the constant -/
def integral (s c : ℚ) : List ℚ → List ℚ
  | [] => []
  | v :: r => R.add (R.mul 0 s) c :: R.integFrom s v (R.add (R.mul 0 s) c) (v :: r).dropLast

end Rounding

end Timeseria
