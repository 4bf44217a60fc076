import Verif.Model.SourceRange
import Verif.Model.RemoveIndex

/-! # Sessions: any sequence of the calls changing a time series

The methods of `TimeSeries` which change the series they are called on, put together in one machine.  The reference
`_item_data_reference` is the data object of the item appended first, so that changing the data in place changes it as
long as that item is in the series, and not afterwards: the new reference is a parameter of the call, and anything proved
holds for every choice of it. -/

namespace Timeseria

/-- the operations with `inplace=True` -/
inductive InplaceCall where
  | rescale (v : NumOrDict)
  | offset (v : NumOrDict)
  | normalize (a b : ℚ)
  | derivative (auto : ℚ)
  | integral (auto : ℚ) (c : NumOrDict)
  | csum

/-- the items left by an operation with `inplace=True`, and its outcome (operations.py 213-742) -/
def TSeries.inplaceCall (cal : Calendar) (s : TSeries) : InplaceCall → List Item × Outcome
  | .rescale v => s.rescaleLeft v
  | .offset v => s.offsetLeft v
  | .normalize a b => s.normalizeLeft a b
  | .derivative auto => s.derivativeLeft cal auto
  | .integral auto c => s.integralLeft cal auto c
  | .csum => s.csumLeft

/-- a loop changing the data of each item in turn; an exception leaves the items changed so far (datastructures.py 900-902,
908-910).  Each item has its own data object. -/
def editData (f : Data → Except PyErr Data) : List Item → List Item × Outcome
  | [] => ([], .ok ())
  | x :: r => match x.data with
    | none => (x :: r, .error .attributeError)
    | some d => match f d with
      | .error e => (x :: r, .error e)
      | .ok d' => match editData f r with
        | (r', o) => ({ x with data := some d' } :: r', o)

/-- the check on the data reference made before the loops (898, 906, 914, 921) -/
def TSeries.refMissing (s : TSeries) : Bool :=
  !s.items.isEmpty && (match s.ref with | some d => !d.truthy | none => true)

/-- a call changing the series -/
inductive SessionCall where
  /-- `append`, `insert`, `remove`, `pop`, `clear`, or going on with a duplicate -/
  | basic (op : Op)
  /-- an operation with `inplace=True` -/
  | inplace (c : InplaceCall) (ref : Option Data)
  /-- `rename_data_label(old, new)` (896-902) -/
  | rename (old new : String) (ref : Option Data)
  /-- `remove_data_label(label)` (904-910) -/
  | removeLabel (k : String) (ref : Option Data)
  /-- `remove_data_index(name)` (912-917), and `remove_data_loss()` (919-924) -/
  | removeIndex (n : String)
  /-- `change_tz(tz)` (1377-1381) -/
  | changeTz (z : String)

/-- the series after a call, whether it raised or not -/
def TSeries.sessionStep (cal : Calendar) (s : TSeries) : SessionCall → TSeries
  | .basic op => s.step op
  | .inplace c ref => { s with items := (s.inplaceCall cal c).1, ref := ref }
  | .rename old new ref =>
    if s.refMissing then s else { s with items := (editData (renameKey old new) s.items).1, ref := ref }
  | .removeLabel k ref =>
    if s.refMissing then s else { s with items := (editData (removeKey k) s.items).1, ref := ref }
  | .removeIndex n =>
    if s.refMissing then s else { s with items := s.items.map (fun x => { x with idx := x.idx.erase n }) }
  | .changeTz z => (s.changeTz z).1

/-- the series after a session -/
def TSeries.session (cal : Calendar) (s : TSeries) (calls : List SessionCall) : TSeries :=
  calls.foldl (fun s c => s.sessionStep cal c) s

end Timeseria
