import Verif.Model.Storage
/-!
Storing series some values of which are NaN.
-/
namespace Timeseria

/-- the text of a value (`str(value)`, storages.py 778-781): a NaN is written `nan` -/
def nanCell (cd : Codec) (hole : Bool) (v : ℚ) : Text := if hole then "nan".toList else cd.fmt v

/-- The line of an item (storages.py 775-786), as `itemLine`, where the values of the labels `k` with `hole x k` are NaN
(the number given by the item for them does not matter). -/
def nanLine (cd : Codec) (hole : Item → String → Bool) (labels indexes : List String) (x : Item) : Except PyErr Text :=
  match mapE (fun k => x.byLabel k) labels with
  | .error e => .error e
  | .ok vs =>
    match mapE (fun n => match x.idx.get? n with | some v => .ok v | none => .error .keyError) indexes with
    | .error e => .error e
    | .ok is => .ok (joinSep ',' ((cd.fmt x.t :: List.zipWith (fun k v => nanCell cd (hole x k) v) labels vs) ++ is.map (fmtIndex cd)) ++ ['\n'])

/-- the file written for a series with the given labels (storages.py 748-786), if nothing raises -/
def nanPut (cd : Codec) (n : Notes) (hole : Item → String → Bool) (labels : List String) (l : List Item) : Except PyErr (List Text) :=
  match mapE (nanLine cd hole labels (allDataIndexes l)) l with
  | .error e => .error e
  | .ok lines => .ok (noteLines n ++ headerLine labels (allDataIndexes l) :: lines)

end Timeseria
