import Verif.Model.SlotOps

/-! # User-defined operations of an aggregation (transformations.py 275-307)

"User-defined operations can be even simple functions": what a function returns is a dictionary of values or a single value. -/

namespace Timeseria

/-- what a user-defined operation returns: one value, or a dictionary (transformations.py 301-305) -/
inductive OpResult where
  | value (v : ℚ)
  | dict (d : Dict ℚ)

/-- A user-defined function as an operation: it has no `_supports_weights` (transformations.py 278-283), so it is given the points of
the slot; a dictionary is stored label by label, a single value under the first label (301-305). -/
def userOp (name : String) (g : List String → List VPoint → Except PyErr OpResult) : SlotOp where
  name := name
  weighted := false
  run := fun ks _ _ v =>
    match g ks v with
    | .error e => .error e
    | .ok (.dict d) => .ok d
    | .ok (.value x) =>
      match ks with
      | [] => .error .indexError
      | k :: _ => .ok [(k, x)]

/-- A function computing the statistic `f` of the values of the labels: for a series with one label it may return the value itself
(`bare`), otherwise it returns a dictionary. -/
def statistic (f : List ℚ → ℚ) (bare : Bool) (ks : List String) (v : List VPoint) : Except PyErr OpResult :=
  match perLabelDict ks (fun k =>
    match viewValues k v with
    | .error e => .error e
    | .ok l => .ok (f l)) with
  | .error e => .error e
  | .ok d =>
    match bare, d with
    | true, [(_, x)] => .ok (.value x)
    | _, _ => .ok (.dict d)

/-- the statistic of the first label only, as a value, whatever the labels of the series -/
def firstOnly (f : List ℚ → ℚ) (ks : List String) (v : List VPoint) : Except PyErr OpResult :=
  match ks with
  | [] => .error .indexError
  | k :: _ =>
    match viewValues k v with
    | .error e => .error e
    | .ok l => .ok (.value (f l))

end Timeseria
