import Verif.Model.CsumOffset

/-! # The options of `derivative` and `integral`: `normalize` and `diffs` (operations.py 213-511) -/

namespace Timeseria

/-- what the values are normalized by: nothing, or the resolution (operations.py 239-255, 373-389) -/
def TSeries.normOpt (cal : Calendar) (s : TSeries) (auto : ℚ) (normalize : Bool) : Except PyErr (Option (Bool × ℚ)) :=
  if normalize then
    match s.normInfo cal auto with
    | .error e => .error e
    | .ok ni => .ok (some ni)
  else .ok none

/-- `derivative(series, normalize=normalize, diffs=diffs)` (operations.py 213-352).  The postfix of the labels depends on `normalize`
(253-255), skipping the first item on `diffs` (270-271). -/
def TSeries.derivativeWith (cal : Calendar) (s : TSeries) (auto : ℚ) (normalize diffs : Bool) : Except PyErr TSeries :=
  match s.opPrep with
  | .error e => .error e
  | .ok (proto, ks) =>
    if s.items.length = 1 then .error .valueError
    else match s.normOpt cal auto normalize with
      | .error e => .error e
      | .ok norm =>
        finish (itemLoop cal proto ks (fun k => withPostfix k (if normalize then "derivative" else "diff")) true
          (fun i _ k => derivVal s.items norm diffs i k) (fun i => diffs && decide (i = 0)) 0 s.items)

/-- `integral(series, normalize=normalize, c=c, offset=o)` (operations.py 355-511); the postfix of the labels depends on `normalize`
(387-389) -/
def TSeries.integralWith (cal : Calendar) (back : TUnit → String → ℚ → ℚ) (s : TSeries) (auto : ℚ) (normalize : Bool)
    (c o : NumOrDict) : Except PyErr TSeries :=
  match s.opPrep with
  | .error e => .error e
  | .ok (proto, ks) =>
    match s.normOpt cal auto normalize with
    | .error e => .error e
    | .ok norm =>
      let post := if normalize then "integral" else "csum"
      if o.truthy then s.fromOffset cal back norm proto post ks o
      else finish (intLoop cal s.items norm c proto post ks 0 {} s.items)

end Timeseria
