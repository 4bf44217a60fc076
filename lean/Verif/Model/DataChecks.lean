import Verif.Model.Series

/-! # The warnings about the data of a series (datastructures.py 642-692, 1222-1249; utilities.py 1033-1074)

Here the data of an item is any container of any values: the checks look only at lengths, subscripts and at whether
1 can be added.  Points only. -/

namespace Timeseria

/-- a value inside the data of an item; an array is a numpy array of numbers -/
inductive RawCell where
  | num (v : ℚ)
  | bool (b : Bool)
  | none
  | text (s : String)
  | list (n : ℕ)
  | array (n : ℕ)
  deriving DecidableEq, Repr

/-- whether `value + 1` succeeds -/
def RawCell.addsOne : RawCell → Bool
  | .num _ | .bool _ | .array _ => true
  | .none | .text _ | .list _ => false

/-- a key of a dictionary -/
inductive RawKey where
  | int (i : ℤ)
  | text (s : String)
  deriving DecidableEq, Repr

/-- the data of an item: a list, a tuple, a text, a dictionary, a set, or an object with no length which cannot be iterated over, as a
number or `None`.  Arrays are in `AnyData`; whole numbers and floats are not told apart -/
inductive RawData where
  | list (l : List RawCell)
  | tuple (l : List RawCell)
  | text (l : List Char)
  | dict (d : List (RawKey × RawCell))
  | set (l : List RawCell)
  | scalar (v : RawCell)
  deriving DecidableEq, Repr

/-- `len(data)` -/
def RawData.len : RawData → Option ℕ
  | .list l | .tuple l | .set l => some l.length
  | .text l => some l.length
  | .dict d => some d.length
  | .scalar _ => .none

/-- `data[i]`, for `i` from 0 on; `none` when it raises -/
def RawData.at (d : RawData) (i : ℕ) : Option RawCell :=
  match d with
  | .list l | .tuple l => l[i]?
  | .text l => (l[i]?).map (fun c => RawCell.text (String.ofList [c]))
  | .dict d => d.lookup (.int i)
  | .set _ | .scalar _ => .none

/-- what `[data[key] for key in data]` reads, `none` for the reading which raises; `none` when it is not iterable.  Only used for what is not index based -/
def RawData.byKeys : RawData → Option (List (Option RawCell))
  | .dict d => some (d.map (fun e => d.lookup e.1))
  | .set l => some (l.map (fun _ => Option.none))
  | .list l | .tuple l => some (l.map (fun _ => Option.none))
  | .text l => some (l.map (fun _ => Option.none))
  | .scalar _ => .none

/-- `_is_index_based` (utilities.py 1033-1040) -/
def RawData.indexBased (d : RawData) : Bool :=
  match d.len with
  | .none => false
  | some n => (List.range n).all (fun i => (d.at i).isSome)

/-- `_is_key_based` (utilities.py 1043-1052) -/
def RawData.keyBased (d : RawData) : Bool :=
  if d.indexBased then false
  else match d.byKeys with
    | .none => false
    | some l => l.all Option.isSome

/-- whether adding 1 to what was read succeeds: reading it may already raise -/
def readAdds : Option RawCell → Bool
  | .none => false
  | some c => c.addsOne

/-- `_has_numerical_values` (utilities.py 1055-1074) -/
def RawData.numerical (d : RawData) : Except PyErr Bool :=
  if d.indexBased then .ok ((List.range (d.len.getD 0)).all (fun i => readAdds (d.at i)))
  else if d.keyBased then .ok ((d.byKeys.getD []).all readAdds)
  else .error .valueError

/-- the warnings of `append` (datastructures.py 653-666) -/
inductive DataWarning where
  /-- "no (or not only) numerical values" -/
  | notNumerical
  /-- "neither index-based nor in key-value format" -/
  | noFormat
  deriving DecidableEq, Repr

/-- what the first item appended to a series makes it warn about (datastructures.py 653-666) -/
def firstWarning (d : RawData) : Except PyErr (Option DataWarning) :=
  if d.indexBased then d.numerical.map (fun b => if b then none else some .notNumerical)
  else if d.keyBased then d.numerical.map (fun b => if b then none else some .notNumerical)
  else .ok (some .noFormat)

/-- the Python type of the data -/
def RawData.type : RawData → String
  | .list _ => "list"
  | .tuple _ => "tuple"
  | .text _ => "str"
  | .dict _ => "dict"
  | .set _ => "set"
  | .scalar (.num _) => "float"
  | .scalar (.bool _) => "bool"
  | .scalar _ => "NoneType"

/-- its truth value -/
def RawData.truth : RawData → Bool
  | .list l | .tuple l | .set l => !l.isEmpty
  | .text l => !l.isEmpty
  | .dict d => !d.isEmpty
  | .scalar (.num v) => v != 0
  | .scalar (.bool b) => b
  | .scalar _ => false

/-- the comparison of the data with the reference (datastructures.py 681-688) -/
def RawData.check (r d : RawData) : Outcome :=
  if r.type ≠ d.type then .error .typeError
  else match r, d with
    | .list a, .list b => if a.length ≠ b.length then .error .valueError else .ok ()
    | .dict a, .dict b =>
      if (a.map Prod.fst).all (fun k => (b.map Prod.fst).contains k) && (b.map Prod.fst).all (fun k => (a.map Prod.fst).contains k) then .ok ()
      else .error .valueError
    | _, _ => .ok ()

/-- a series of points with such data, its `prev_t` and its `_item_data_reference`, and the warnings written so far -/
structure RawSeries where
  items : List (ℚ × RawData) := []
  prevT : Option ℚ := .none
  ref : RawData := .scalar .none
  warnings : List DataWarning := []
  deriving DecidableEq

/-- the checks of `append` once the time and the type are right, and the item added (datastructures.py 680-696) -/
def RawSeries.add (s : RawSeries) (t : ℚ) (d : RawData) : RawSeries × Outcome :=
  if !s.items.isEmpty && s.ref.truth then
    match s.ref.check d with
    | .error e => (s, .error e)
    | .ok _ => ({ s with items := s.items ++ [(t, d)] }, .ok ())
  else ({ s with items := s.items ++ [(t, d)], ref := d }, .ok ())

/-- `append` of a point: the time, and `prev_t` set whatever happens (datastructures.py 1239-1273), then the warnings for the first item (650-666), the
order (668-678) and the rest -/
def RawSeries.append (s : RawSeries) (t : ℚ) (d : RawData) : RawSeries × Outcome :=
  match s.items.getLast? with
  | some last =>
    if s.prevT.any (fun p => decide (t ≤ p)) then ({ s with prevT := some t }, .error .valueError)
    else if t ≤ last.1 then ({ s with prevT := some t }, .error .valueError)
    else { s with prevT := some t }.add t d
  | .none =>
    match firstWarning d with
    | .error e => ({ s with prevT := some t }, .error e)
    | .ok w => { s with prevT := some t, warnings := s.warnings ++ w.toList }.add t d

/-- a program appending points, going on when a point is refused -/
def RawSeries.appendAll (s : RawSeries) (l : List (ℚ × RawData)) : RawSeries := l.foldl (fun s p => (s.append p.1 p.2).1) s

end Timeseria
