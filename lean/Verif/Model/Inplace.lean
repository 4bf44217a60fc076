import Verif.Model.Ops

/-! # In-place operations (operations.py, `inplace=True`)

The items of a series are taken to be distinct objects with distinct data objects (sharing is the
subject of `Verif.Model.Heap`).  When an exception is raised only the exception is kept. -/

namespace Timeseria

/-- `item.data[label] = value` for dictionaries (with the label already renamed),
`item.data[int(label)] = value` for lists (operations.py 327-331, 659-662) -/
def writeLabel (ren : String → String) (d : Data) (k : String) (v : ℚ) : Except PyErr Data :=
  match d with
  | .dict d => .ok (.dict (d.set (ren k) v))
  | .list l => match readNat k with
    | none => .error .valueError
    | some n => if n < l.length then .ok (.list (l.set n v)) else .error .indexError
  | .num _ => .error .typeError

/-- writing into the item at position `i` -/
def writeAt (ren : String → String) (l : List Item) (i : ℕ) (k : String) (v : ℚ) :
    Except PyErr (List Item) :=
  match l[i]? with
  | none => .error .indexError
  | some x => match x.data with
    | none => .error .attributeError
    | some d => match writeLabel ren d k v with
      | .error e => .error e
      | .ok d' => .ok (l.set i { x with data := some d' })

/-- the label loop: each value is computed from the series as it is at that moment -/
def inplaceLabels {σ : Type} (ren : String → String)
    (f : σ → List Item → ℕ → String → Except PyErr (σ × ℚ)) (i : ℕ) :
    σ → List Item → List String → Except PyErr (σ × List Item)
  | st, l, [] => .ok (st, l)
  | st, l, k :: ks => match f st l i k with
    | .error e => .error e
    | .ok (st', v) => match writeAt ren l i k v with
      | .error e => .error e
      | .ok l' => inplaceLabels ren f i st' l' ks

/-- `series.data_labels()`: the labels of the first item as it is at that moment -/
def headLabels (l : List Item) : Except PyErr (List String) :=
  match l with
  | [] => .error .typeError
  | x :: _ => match x.data with
    | none => .error .attributeError
    | some d => labelsOf d

/-- the item loop, over the positions in `is`; the labels are asked again for each item -/
def inplaceLoop {σ : Type} (ren : String → String)
    (f : σ → List Item → ℕ → String → Except PyErr (σ × ℚ)) :
    σ → List Item → List ℕ → Except PyErr (List Item)
  | _, l, [] => .ok l
  | st, l, i :: is => match headLabels l with
    | .error e => .error e
    | .ok ks => match inplaceLabels ren f i st l ks with
      | .error e => .error e
      | .ok (st', l') => inplaceLoop ren f st' l' is

/-- the series after the items have been changed; the data reference is the data object of the first
item -/
def TSeries.withItems (s : TSeries) (l : List Item) : TSeries :=
  { s with items := l, ref := l.head?.bind Item.data }

/-- run an in-place loop on a series -/
def TSeries.inplaceOp {σ : Type} (s : TSeries) (ren : String → String)
    (f : σ → List Item → ℕ → String → Except PyErr (σ × ℚ)) (st : σ) : Except PyErr TSeries :=
  match s.opPrep with
  | .error e => .error e
  | .ok _ => match inplaceLoop ren f st s.items (List.range s.items.length) with
    | .error e => .error e
    | .ok l => .ok (s.withItems l)

/-- a computation on the value of the label in the item itself -/
def ownValue (g : String → ℚ → Except PyErr ℚ) :
    Unit → List Item → ℕ → String → Except PyErr (Unit × ℚ) :=
  fun _ l i k => match bindE (valAt l i k) (g k) with
    | .ok v => .ok ((), v)
    | .error e => .error e

/-- `rescale(series, value, inplace=True)` (operations.py 634-662) -/
def TSeries.rescaleInplace (s : TSeries) (v : NumOrDict) : Except PyErr TSeries :=
  s.inplaceOp id (ownValue (fun k x => .ok (rescaleVal v k x))) ()

/-- `offset(series, value, inplace=True)` (operations.py 698-726) -/
def TSeries.offsetInplace (s : TSeries) (v : NumOrDict) : Except PyErr TSeries :=
  s.inplaceOp id (ownValue (fun k x => .ok (offsetVal v k x))) ()

/-- `normalize(series, range=[a, b], inplace=True)` (operations.py 535-600).  The labels are read once
(547) in the code; they do not change. -/
def TSeries.normalizeInplace (s : TSeries) (a b : ℚ) : Except PyErr TSeries :=
  let range := if a = 0 ∧ b = 1 then none else some (a, b)
  match s.opPrep with
  | .error e => .error e
  | .ok (_, ks) =>
    match perLabel s ks minMaxLoop with
    | .error e => .error e
    | .ok mms => s.inplaceOp id (ownValue (normOf mms range)) ()

/-- `derivative(series, inplace=True)` (operations.py 213-331) -/
def TSeries.derivativeInplace (cal : Calendar) (s : TSeries) (auto : ℚ) : Except PyErr TSeries :=
  match s.opPrep with
  | .error e => .error e
  | .ok _ =>
    if s.items.length = 1 then .error .valueError
    else match s.normInfo cal auto with
      | .error e => .error e
      | .ok ni => s.inplaceOp (fun k => withPostfix k "derivative")
          (fun (_ : Unit) l i k => match derivVal l (some ni) false i k with
            | .ok v => .ok ((), v)
            | .error e => .error e) ()

/-- `integral(series, c=c, inplace=True)` (operations.py 355-491) -/
def TSeries.integralInplace (cal : Calendar) (s : TSeries) (auto : ℚ) (c : NumOrDict) :
    Except PyErr TSeries :=
  match s.opPrep with
  | .error e => .error e
  | .ok _ => match s.normInfo cal auto with
    | .error e => .error e
    | .ok ni => s.inplaceOp (fun k => withPostfix k "integral")
        (fun st l i k => intStep l (some ni) c i st k) {}

/-- `csum(series, inplace=True)` (operations.py 522-527, 355-491) -/
def TSeries.csumInplace (s : TSeries) : Except PyErr TSeries :=
  if s.items.isEmpty then .error .valueError
  else if s.res = .varying then .error .valueError
  else s.inplaceOp (fun k => withPostfix k "csum")
    (fun st l i k => intStep l none (.num 0) i st k) {}

end Timeseria
