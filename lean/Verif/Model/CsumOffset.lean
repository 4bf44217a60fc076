import Verif.Model.Ops

/-! # Cumulative sums and integrals starting from an offset (operations.py 396-432) -/

namespace Timeseria

/-- the truth value of the offset: zero and the empty dictionary count as no offset (operations.py 399) -/
def NumOrDict.truthy : NumOrDict → Bool
  | .num x => decide (x ≠ 0)
  | .dict d => !d.isEmpty

/-- the values of the item created for the offset (operations.py 403-418): one for each label.  A number is indexed by
the label when the data is a list (418), which raises `TypeError`. -/
def offsetPairs (proto : Data) (ks : List String) (post : String) : NumOrDict → Except PyErr (List (String × ℚ))
  | .dict o => mapE (fun k => match o.get? k with
      | some v => .ok (withPostfix k post, v)
      | none => .error .keyError) ks
  | .num x => match proto with
    | .dict _ => .ok (ks.map (fun k => (withPostfix k post, x)))
    | _ => if ks.isEmpty then .ok [] else .error .typeError

/-- the item created for the offset (operations.py 420-429), one resolution before the first point (`item.t - series.resolution`:
the resolution of a series of points has no calendar components, `None` raises `TypeError`) or one unit before the first slot (`item.start - item.unit`, the time `back unit zone start`). -/
def offsetItem (cal : Calendar) (back : TUnit → String → ℚ → ℚ) (s : TSeries) (x : Item) (d : Data) : Except PyErr Item :=
  match x.slot with
  | none => match s.res with
    | .unit u => .ok { t := x.t - u.secs, slot := none, tz := x.tz, data := some d, idx := [("data_loss", some 0)] }
    | _ => .error .typeError
  | some (_, u) =>
    let t0 := back u x.tz x.t
    .ok { t := t0, slot := some (cal.shift u x.tz t0, u), tz := x.tz, data := some d, idx := [("data_loss", some 0)] }

/-- The loop of `Integral` with an offset (operations.py 396-507): the item for the offset comes first, and the offset is also
the constant the sums start from (432). -/
def TSeries.fromOffset (cal : Calendar) (back : TUnit → String → ℚ → ℚ) (s : TSeries) (norm : Option (Bool × ℚ)) (proto : Data)
    (post : String) (ks : List String) (o : NumOrDict) : Except PyErr TSeries :=
  match s.items.head? with
  | none => .error .valueError
  | some x =>
    match offsetPairs proto ks post o with
    | .error e => .error e
    | .ok kvs => match offsetItem cal back s x (makeData proto kvs) with
      | .error e => .error e
      | .ok p => match intLoop cal s.items norm o proto post ks 0 {} s.items with
        | .error e => .error e
        | .ok ys => TSeries.build (p :: ys)

/-- `csum(series, offset=o)` (operations.py 522-527 and 355-511 with `normalize=False`); `none` is `None` -/
def TSeries.csumFrom (cal : Calendar) (back : TUnit → String → ℚ → ℚ) (s : TSeries) (o : Option NumOrDict) : Except PyErr TSeries :=
  if s.items.isEmpty then .error .valueError
  else if s.res = .varying then .error .valueError
  else match s.opPrep with
    | .error e => .error e
    | .ok (proto, ks) => match o with
      | none => finish (intLoop cal s.items none (.num 0) proto "csum" ks 0 {} s.items)
      | some o => if o.truthy then s.fromOffset cal back none proto "csum" ks o
        else finish (intLoop cal s.items none (.num 0) proto "csum" ks 0 {} s.items)

/-- `integral(series, c=c, offset=o)` (operations.py 355-511) -/
def TSeries.integralFrom (cal : Calendar) (back : TUnit → String → ℚ → ℚ) (s : TSeries) (auto : ℚ) (c o : NumOrDict) :
    Except PyErr TSeries :=
  match s.opPrep with
  | .error e => .error e
  | .ok (proto, ks) =>
    match s.normInfo cal auto with
    | .error e => .error e
    | .ok ni => if o.truthy then s.fromOffset cal back (some ni) proto "integral" ks o
      else finish (intLoop cal s.items (some ni) c proto "integral" ks 0 {} s.items)

end Timeseria
