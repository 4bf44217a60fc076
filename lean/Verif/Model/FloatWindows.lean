import Verif.Model.FloatOps

/-! # Moving averages in floating point

Continues `Verif.Model.FloatOps`. -/

namespace Timeseria

namespace Rounding

variable (R : Rounding)

/-- `mavg` of a label (operations.py 748-803): from the item `window - 1` on, the values of the window are summed from zero (783-785), and the sum is divided by the window (786).  An invalid window
runs into `''.frmat(...)` (754) -/
def mavg (window : Int) (vs : List ℚ) : Except PyErr (List ℚ) :=
  if window < 1 then .error .attributeError
  else mapE (fun j => R.div (R.sum ((vs.drop j).take window.toNat)) window.toNat) (List.range (vs.length + 1 - window.toNat))

end Rounding

end Timeseria
