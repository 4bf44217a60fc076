import Verif.Model.Ops

/-! # Items with any kind of data

The rest of the model has lists, key-value data and numbers.  Here are also tuples, numpy arrays and numbers of different types, for the parts of
the code which look at the data of an item: the checks when appending (datastructures.py 642-699), the labels (262-278, 885-894), and what the operations
do with them.  Text is not modelled. -/

namespace Timeseria

/-- what is given as `data` to an item: a list, a tuple, a dictionary, a numpy array of one dimension, or an object which is none of these, with its
type and, as its value, a number (zero for the objects which are false, as `None`) -/
inductive AnyData where
  | list (l : List ℚ)
  | tuple (l : List ℚ)
  | dict (d : Dict ℚ)
  | array (l : List ℚ)
  | scalar (type : String) (v : ℚ)
  deriving DecidableEq

/-- Python's `type(data)` -/
def AnyData.type : AnyData → String
  | .list _ => "list"
  | .tuple _ => "tuple"
  | .dict _ => "dict"
  | .array _ => "ndarray"
  | .scalar ty _ => ty

/-- Python's `bool(data)`: the truth value of an array with more than one element is ambiguous, a `ValueError` (an array without elements is false, with
a deprecation warning) -/
def AnyData.truth : AnyData → Except PyErr Bool
  | .list l => .ok !l.isEmpty
  | .tuple l => .ok !l.isEmpty
  | .dict d => .ok !d.isEmpty
  | .array [] => .ok false
  | .array [v] => .ok (v != 0)
  | .array _ => .error .valueError
  | .scalar _ v => .ok (v != 0)

/-- a point with its time and its data -/
structure AnyItem where
  t : ℚ
  data : AnyData
  deriving DecidableEq

/-- a series of such points, and its `_item_data_reference` (datastructures.py 626-632) -/
structure AnySeries where
  items : List AnyItem := []
  ref : AnyData := .scalar "NoneType" 0
  deriving DecidableEq

/-- the comparison of the data with the reference (datastructures.py 680-688) -/
def AnyData.check (r d : AnyData) : Outcome :=
  if r.type ≠ d.type then .error .typeError
  else match r, d with
    | .list a, .list b => if a.length ≠ b.length then .error .valueError else .ok ()
    | .dict a, .dict b => if a.sameKeys b then .ok () else .error .valueError
    | _, _ => .ok ()

/-- `append` (datastructures.py 642-699, and the order of times in 1222-1310) -/
def AnySeries.append (s : AnySeries) (x : AnyItem) : AnySeries × Outcome :=
  match s.items.getLast? with
  | none => ({ items := [x], ref := x.data }, .ok ())
  | some last =>
    if x.t ≤ last.t then (s, .error .valueError)
    else match s.ref.truth with
      | .error e => (s, .error e)
      | .ok false => ({ items := s.items ++ [x], ref := x.data }, .ok ())
      | .ok true => match s.ref.check x.data with
        | .error e => (s, .error e)
        | .ok _ => ({ s with items := s.items ++ [x] }, .ok ())

/-- several calls of `append`, stopping at the first which raises -/
def AnySeries.build : AnySeries → List AnyItem → Except PyErr AnySeries
  | s, [] => .ok s
  | s, x :: l => match s.append x with
    | (s', .ok _) => s'.build l
    | (_, .error e) => .error e

/-- `item.data_labels()` (datastructures.py 262-269) -/
def AnyData.labels : AnyData → Except PyErr (List String)
  | .dict d => .ok (sortStr d.keys)
  | .list l => .ok ((List.range l.length).map strNat)
  | .tuple l => .ok ((List.range l.length).map strNat)
  | .array l => .ok ((List.range l.length).map strNat)
  | .scalar _ _ => .error .typeError

/-- a position given as text -/
def atText (l : List ℚ) (k : String) : Except PyErr ℚ :=
  match readNat k with
  | none => .error .valueError
  | some n => match l[n]? with | some v => .ok v | none => .error .indexError

/-- `_data_by_label` (datastructures.py 271-278): lists and tuples raise `TypeError` for a text between square brackets and are then read by position; arrays raise
`IndexError`, which is not caught.  The text of a negative number is not modelled, as in `dataByLabel`. -/
def AnyData.byLabel : AnyData → String → Except PyErr ℚ
  | .dict d, k => match d.get? k with | some v => .ok v | none => .error .keyError
  | .list l, k => atText l k
  | .tuple l, k => atText l k
  | .array _, _ => .error .indexError
  | .scalar _ _, _ => .error .typeError

/-- the checks made by an operation and the labels it works on: not empty (operations.py 47), `data_labels()` (datastructures.py 885-894) with a `TypeError` for data
without labels (utilities.py 860-864) -/
def AnySeries.opLabels (s : AnySeries) : Except PyErr (List String) :=
  match s.items with
  | [] => .error .valueError
  | x :: _ => match s.ref.truth with
    | .error e => .error e
    | .ok false => .error .typeError
    | .ok true => x.data.labels

/-- the values of all the items under a label -/
def AnySeries.values (s : AnySeries) (k : String) : Except PyErr (List ℚ) := mapE (fun x => x.data.byLabel k) s.items

/-- the operations which return a value for each label: `f` is the fold of `max`, `min`, `sum` (operations.py 73-124, 191-207), with the loops over items and labels
interchanged as in `perLabel` -/
def AnySeries.scalarOp {β : Type} (f : List ℚ → β) (s : AnySeries) : Except PyErr (Dict β) :=
  match s.opLabels with
  | .error e => .error e
  | .ok ks => mapE (fun k => tag k (match s.values k with | .ok vs => .ok (f vs) | .error e => .error e)) ks

/-- `avg` without weights (operations.py 174-188) -/
def AnySeries.avgOp (s : AnySeries) : Except PyErr (Dict ℚ) := s.scalarOp (fun vs => vs.foldl (· + ·) 0 / s.items.length)

/-- whether `data[label]` works for the first label: `data_is_keyvalue` (operations.py 627-633); only `TypeError` is caught.  Data without labels have been refused before,
and a series has no first label only if its first item is empty: an `IndexError`. -/
def AnyData.isKeyValue (d : AnyData) (ks : List String) : Except PyErr Bool :=
  match ks with
  | [] => .error .indexError
  | k :: _ => match d with
    | .dict a => match a.get? k with | some _ => .ok true | none => .error .keyError
    | .list _ => .ok false
    | .tuple _ => .ok false
    | .array _ => .error .indexError
    | .scalar _ _ => .error .typeError

/-- `data.__class__()` with the new values, set by label or appended (operations.py 638, 650-655): a tuple has no `append` -/
def AnyData.remake (d : AnyData) (kvs : List (String × ℚ)) : Except PyErr AnyData :=
  match d with
  | .dict _ => .ok (.dict (kvs.foldl (fun d p => Dict.set d p.1 p.2) []))
  | .list _ => .ok (.list (kvs.map Prod.snd))
  | .tuple _ => if kvs.isEmpty then .ok (.tuple []) else .error .attributeError
  | .array _ => .error .typeError
  | .scalar _ _ => .error .typeError

/-- the loop of `rescale` and `offset` on items: `g` is what is done to a value (operations.py 635-674, 699-739) -/
def anyLoop (g : String → ℚ → ℚ) (proto : AnyData) (ks : List String) : AnySeries → List AnyItem → Except PyErr AnySeries
  | acc, [] => .ok acc
  | acc, x :: r => match mapE (fun k => tag k (bindE (x.data.byLabel k) (fun v => .ok (g k v)))) ks with
    | .error e => .error e
    | .ok kvs => match proto.remake kvs with
      | .error e => .error e
      | .ok d => match acc.append { t := x.t, data := d } with
        | (_, .error e) => .error e
        | (acc', .ok _) => anyLoop g proto ks acc' r

/-- `rescale` and `offset`, returning a series (operations.py 616-677, 680-742) -/
def AnySeries.mapOp (g : String → ℚ → ℚ) (s : AnySeries) : Except PyErr AnySeries :=
  match s.opLabels with
  | .error e => .error e
  | .ok ks => match s.items with
    | [] => .error .valueError
    | x :: _ => match x.data.isKeyValue ks with
      | .error e => .error e
      | .ok _ => anyLoop g x.data ks {} s.items

/-! ## What an operation is called on (operations.py 35-62) -/

/-- the argument of an operation: a series, an iterable of objects of which some are series, or something which cannot be iterated -/
inductive OpArg where
  | series (s : AnySeries)
  | iterable (l : List (Option AnySeries))
  | other

/-- `operation(argument)` for the operations on one series: `call` is the logic of the operation on a series; on anything else its first check is
`series.item_type` (utilities.py 855-858), an `AttributeError` -/
def opCall {β : Type} (call : AnySeries → Except PyErr β) : OpArg → Except PyErr β
  | .series s => if s.items.isEmpty then .error .valueError else call s
  | .iterable l => if l.any (fun x => match x with | some s => s.items.isEmpty | none => false) then .error .valueError else .error .attributeError
  | .other => .error .typeError

end Timeseria
