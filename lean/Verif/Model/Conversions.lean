import Verif.Model.Text
import Verif.Model.Ops

/-! # Conversions of time series: dictionaries, JSON and data frames (datastructures.py 1525-1745) -/

namespace Timeseria

/-- What is used of the datetime functions and of `float`.  Datetimes have a resolution of one microsecond: `micro` is
the timestamp of `dt_from_s(t)`.  Datetimes are taken as an instant and the name of a time zone. -/
structure DtCodec where
  micro : ℚ → ℚ
  micro_whole : ∀ n : ℤ, micro ((n : ℚ) / 1000000) = (n : ℚ) / 1000000
  /-- `float(key)` -/
  float : Text → Option ℚ
  /-- `s_from_dt(dt_from_str(key))` -/
  stamp : Text → Option ℚ
  /-- `str_from_dt(dt)` -/
  text : ℚ → String → Text
  float_text : ∀ t tz, float (text t tz) = none
  stamp_text : ∀ (n : ℤ) tz, stamp (text ((n : ℚ) / 1000000) tz) = some ((n : ℚ) / 1000000)

/-- keys of a dictionary passed to `from_dict`; other types are refused (1549) -/
inductive DKey where
  | dt (t : ℚ) (tz : String)
  | num (t : ℚ)
  | str (s : Text)
  | other
  deriving DecidableEq, Repr

/-- equality of keys: datetimes are equal if they are the same instant (simplification: also for ambiguous local times) -/
def DKey.same : DKey → DKey → Bool
  | .dt t _, .dt t' _ => t = t'
  | .num t, .num t' => t = t'
  | .str s, .str s' => s = s'
  | _, _ => false

/-- `d[key] = value`: an equal key stays as it is -/
def dictPut (d : List (DKey × Data)) (k : DKey) (v : Data) : List (DKey × Data) :=
  match d with
  | [] => [(k, v)]
  | (k', v') :: r => if k'.same k then (k', v) :: r else (k', v') :: dictPut r k v

/-- the loops of `to_dict` (1567-1572) and `to_json` (1582-1587), which differ in the keys; an item without data is an
`AttributeError` -/
def dumpItems (key : Item → DKey) : List Item → List (DKey × Data) → Except PyErr (List (DKey × Data))
  | [], d => .ok d
  | x :: r, d =>
    match x.data with
    | none => .error .attributeError
    | some v => dumpItems key r (dictPut d (key x) v)

/-- `to_dict` (1567-1572) -/
def toDict (dc : DtCodec) (s : TSeries) : Except PyErr (List (DKey × Data)) :=
  dumpItems (fun x => .dt (dc.micro x.t) x.tz) s.items []

/-- `to_json` (1582-1587), as the dictionary which is encoded -/
def toJson (dc : DtCodec) (s : TSeries) : Except PyErr (List (DKey × Data)) :=
  dumpItems (fun x => .str (dc.text (dc.micro x.t) x.tz)) s.items []

/-- timestamp and time zone of a key (1532-1549) -/
def keyStamp (dc : DtCodec) : DKey → Except PyErr (ℚ × String)
  | .dt t tz => .ok (t, tz)
  | .num t => .ok (t, "UTC")
  | .str s =>
    match dc.float s with
    | some t => .ok (t, "UTC")
    | none =>
      match dc.stamp s with
      | some t => .ok (t, "UTC")
      | none => .error .valueError
  | .other => .error .valueError

/-- scalars are wrapped (1551-1552) -/
def wrapData : Data → Data
  | .num x => .dict [("value", x)]
  | d => d

/-- the item (1555-1563) -/
def convItem (cal : Calendar) (u : Option TUnit) (t : ℚ) (tz : String) (d : Data) : Item :=
  { t := t, slot := u.map (fun u => (cal.shift u tz t, u)), tz := tz, data := some d }

/-- the loop of `from_dict` (1531-1563) -/
def loadItems (dc : DtCodec) (cal : Calendar) (u : Option TUnit) : List (DKey × Data) → TSeries → Except PyErr TSeries
  | [], s => .ok s
  | (k, v) :: r, s =>
    match keyStamp dc k with
    | .error e => .error e
    | .ok (t, tz) =>
      match (s.append (convItem cal u t tz (wrapData v))).2 with
      | .error e => .error e
      | .ok _ => loadItems dc cal u r (s.append (convItem cal u t tz (wrapData v))).1

/-- `from_dict` (1525-1565), and `from_json` (1575-1579) on the decoded dictionary -/
def fromDict (dc : DtCodec) (cal : Calendar) (u : Option TUnit) (d : List (DKey × Data)) : Except PyErr TSeries :=
  loadItems dc cal u d TSeries.empty

/-! ## Data frames -/

/-- a data frame with a timestamp index; `none` for a missing value -/
structure Frame where
  columns : List String
  rows : List ((ℚ × String) × List (Option ℚ))
  deriving DecidableEq, Repr

/-- `item.data_loss` (254-261) -/
def Item.lossOf (x : Item) : Option ℚ := (x.idx.get? "data_loss").getD none

/-- `item.data[label]` with a text label (1738): a `TypeError` on lists and numbers -/
def frameValue (x : Item) (k : String) : Except PyErr (Option ℚ) :=
  match x.data with
  | some (.dict d) =>
    match d.get? k with
    | some v => .ok (some v)
    | none => .error .keyError
  | some _ => .error .typeError
  | none => .error .attributeError

/-- the row of an item (1737-1742); `loss` tells if the data loss is one of the columns -/
def frameRow (dc : DtCodec) (labels : List String) (loss : Bool) (x : Item) : Except PyErr ((ℚ × String) × List (Option ℚ)) :=
  match mapE (fun k => frameValue x k) labels with
  | .error e => .error e
  | .ok vs => .ok ((dc.micro x.t, x.tz), vs ++ (if loss then [x.lossOf] else []))

/-- `to_df` (1721-1745); the columns of a data frame with a repeated name are not told apart -/
def toFrame (dc : DtCodec) (s : TSeries) : Except PyErr Frame :=
  match s.items with
  | [] => .error .typeError
  | f :: _ =>
    match s.labelsFrom f with
    | .error e => .error e
    | .ok labels =>
      match mapE (frameRow dc labels (s.items.any (fun x => x.lossOf.isSome))) s.items with
      | .error e => .error e
      | .ok rows => .ok { columns := labels ++ (if s.items.any (fun x => x.lossOf.isSome) then ["data_loss"] else []), rows := rows }

/-- the values of a row by label (1672-1674, 1700-1702); a missing value (NaN) is not modelled -/
def frameData : List String → List (Option ℚ) → Dict ℚ → Except PyErr (Dict ℚ)
  | [], _, d => .ok d
  | _ :: _, [], _ => .error .indexError
  | k :: ks, some v :: vs, d => frameData ks vs (Dict.set d k v)
  | _ :: _, none :: _, _ => .error .exception

/-- the item of a row -/
def frameItem (cal : Calendar) (u : Option TUnit) (columns : List String) (r : (ℚ × String) × List (Option ℚ)) : Except PyErr Item :=
  match frameData columns r.2 [] with
  | .error e => .error e
  | .ok d => .ok (convItem cal u r.1.1 r.1.2 (.dict d))

/-- the items of a data frame (1648-1717), points or slots according to the unit found by `from_df`; the constructor
then appends them (1199-1219) -/
def fromFrame (cal : Calendar) (u : Option TUnit) (f : Frame) : Except PyErr TSeries :=
  match mapE (frameItem cal u f.columns) f.rows with
  | .error e => .error e
  | .ok items => TSeries.build items

end Timeseria
