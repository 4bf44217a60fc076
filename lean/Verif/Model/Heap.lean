import Verif.Model.Ops

/-! # Objects and sharing

In the other modules data and data indexes are values.  Here they are objects at addresses, so that two
items can share them: the operations pass `item.data_indexes` of the old item to the new one
(operations.py 337-346, 596-606, 665-674, 730-739), filtering makes shallow copies (865), slicing
appends the very same items (986), and a series keeps the data object of its first item as
reference (datastructures.py 692-694). -/

namespace Timeseria

/-- the objects created so far; addresses are positions -/
structure Heap where
  data : List Data := []
  idx : List Idx := []
  deriving DecidableEq, Repr, Inhabited

/-- an item whose data and data indexes are objects -/
structure HItem where
  t : ℚ
  slot : Option (ℚ × TUnit) := none
  tz : String := "UTC"
  dA : ℕ
  iA : ℕ
  deriving DecidableEq, Repr, Inhabited

/-- the item as it reads at this moment -/
def Heap.read (h : Heap) (x : HItem) : Item :=
  { t := x.t, slot := x.slot, tz := x.tz, data := h.data[x.dA]?, idx := (h.idx[x.iA]?).getD [] }

/-- the items as they read at this moment -/
def Heap.reads (h : Heap) (l : List HItem) : List Item := l.map h.read

/-- a new data object -/
def Heap.alloc (h : Heap) (d : Data) : Heap := { h with data := h.data ++ [d] }

/-- a new data indexes object -/
def Heap.allocIdx (h : Heap) (i : Idx) : Heap := { h with idx := h.idx ++ [i] }

/-- changing a data object -/
def Heap.store (h : Heap) (a : ℕ) (f : Data → Data) : Heap := { h with data := h.data.modify a f }

/-- changing a data indexes object -/
def Heap.storeIdx (h : Heap) (a : ℕ) (f : Idx → Idx) : Heap := { h with idx := h.idx.modify a f }

/-- `data[label] = value` or `data.append(value)` (operations.py 317-321, 583-587, 653-657) -/
def putLabel (k : String) (v : ℚ) : Data → Data
  | .dict d => .dict (d.set k v)
  | .list l => .list (l ++ [v])
  | .num x => .num x

/-- `series[0].data.__class__()` -/
def emptyLike : Data → Data
  | .dict _ => .dict []
  | _ => .list []

/-- the label loop: every value is computed with the objects as they are then, and stored in the object
at `a` -/
def fillLoop (a : ℕ) (ren : String → String) (g : Heap → String → Except PyErr ℚ) :
    Heap → List String → Except PyErr Heap
  | h, [] => .ok h
  | h, k :: r => match g h k with
    | .error e => .error e
    | .ok v => fillLoop a ren g (h.store a (putLabel (ren k) v)) r

/-- the new item: same place, new data object, the indexes object of the old item (`keep`) or a new
empty one -/
def remakeH (cal : Calendar) (x : HItem) (a i : ℕ) : HItem :=
  match x.slot with
  | none => { t := x.t, slot := none, tz := x.tz, dA := a, iA := i }
  | some (_, u) => { t := x.t, slot := some (cal.shift u x.tz x.t, u), tz := x.tz, dA := a, iA := i }

/-- the item loop of the operations (compare `itemLoop`) -/
def heapLoop (cal : Calendar) (proto : Data) (ks : List String) (ren : String → String) (keep : Bool)
    (f : Heap → ℕ → HItem → String → Except PyErr ℚ) (skip : ℕ → Bool) :
    Heap → ℕ → List HItem → Except PyErr (Heap × List HItem)
  | h, _, [] => .ok (h, [])
  | h, i, x :: r =>
    if skip i then heapLoop cal proto ks ren keep f skip h (i + 1) r
    else match fillLoop h.data.length ren (fun h k => f h i x k) (h.alloc (emptyLike proto)) ks with
      | .error e => .error e
      | .ok h1 =>
        let h2 := if keep then h1 else h1.allocIdx []
        let y := remakeH cal x h.data.length (if keep then x.iA else h1.idx.length)
        match heapLoop cal proto ks ren keep f skip h2 (i + 1) r with
        | .error e => .error e
        | .ok (h3, ys) => .ok (h3, y :: ys)

/-- a series whose items are objects: the attributes are those of a series, the reference is the address
of a data object -/
structure HSeries where
  attrs : TSeries := {}
  items : List HItem := []
  refA : Option ℕ := none
  deriving DecidableEq, Repr, Inhabited

/-- the series as it reads at this moment -/
def HSeries.view (h : Heap) (s : HSeries) : TSeries :=
  { s.attrs with items := h.reads s.items, ref := s.refA.bind (fun a => h.data[a]?) }

/-- the new series, one `append` at a time -/
def finishH : Except PyErr (Heap × List HItem) → Except PyErr (Heap × HSeries)
  | .error e => .error e
  | .ok (h, l) => match TSeries.build (h.reads l) with
    | .error e => .error e
    | .ok s => .ok (h, { attrs := s, items := l, refA := l.head?.map HItem.dA })

/-- operations mapping each value on its own: `rescale`, `offset` and `normalize` (operations.py
530-742) -/
def HSeries.mapOp (cal : Calendar) (g : String → ℚ → Except PyErr ℚ) (h : Heap) (s : HSeries) :
    Except PyErr (Heap × HSeries) :=
  match (s.view h).opPrep with
  | .error e => .error e
  | .ok (proto, ks) => finishH (heapLoop cal proto ks id true
      (fun h _ x k => bindE ((h.read x).byLabel k) (g k)) (fun _ => false) h 0 s.items)

/-- `derivative(series)` (operations.py 213-352) -/
def HSeries.derivativeOp (cal : Calendar) (auto : ℚ) (h : Heap) (s : HSeries) :
    Except PyErr (Heap × HSeries) :=
  match (s.view h).opPrep with
  | .error e => .error e
  | .ok (proto, ks) =>
    if s.items.length = 1 then .error .valueError
    else match (s.view h).normInfo cal auto with
      | .error e => .error e
      | .ok ni => finishH (heapLoop cal proto ks (fun k => withPostfix k "derivative") true
          (fun h i _ k => derivVal (h.reads s.items) (some ni) false i k) (fun _ => false) h 0 s.items)

/-- `mavg(series, window)` (operations.py 745-803): new indexes -/
def HSeries.mavgOp (cal : Calendar) (w : Int) (h : Heap) (s : HSeries) :
    Except PyErr (Heap × HSeries) :=
  match (s.view h).opPrep with
  | .error e => .error e
  | .ok (proto, ks) =>
    if w < 1 then .error .attributeError
    else finishH (heapLoop cal proto ks (fun k => withPostfix k ("mavg_" ++ strNat w.toNat)) false
      (fun h i _ k => match windowSum (h.reads s.items) k (i + 1 - w.toNat) w.toNat 0 with
        | .ok v => pyDiv v w.toNat
        | .error e => .error e)
      (fun i => decide (i + 1 < w.toNat)) h 0 s.items)

/-- the loop of `filter` (operations.py 864-867): a shallow copy of the item with a new dictionary -/
def filterLoop (labels : List String) : Heap → List HItem → Except PyErr (Heap × List HItem)
  | h, [] => .ok (h, [])
  | h, x :: r =>
    match mapE (fun k => tag k ((h.read x).byLabel k)) labels with
    | .error e => .error e
    | .ok kvs =>
      match filterLoop labels (h.alloc (.dict (kvs.foldl (fun d p => Dict.set d p.1 p.2) []))) r with
      | .error e => .error e
      | .ok (h', ys) => .ok (h', { x with dA := h.data.length } :: ys)

/-- `filter(series, *labels)` (operations.py 851-878) -/
def HSeries.filterOp (labels : List String) (h : Heap) (s : HSeries) :
    Except PyErr (Heap × HSeries) :=
  match (s.view h).opPrep with
  | .error e => .error e
  | .ok (proto, _) => match proto with
    | .dict _ => finishH (filterLoop labels h s.items)
    | _ => .error .typeError

/-- `series[a:b]` by position with `0 ≤ a ≤ b` (operations.py 974-986): the same items -/
def HSeries.sliceOp (a b : ℕ) (h : Heap) (s : HSeries) : Except PyErr (Heap × HSeries) :=
  finishH (.ok (h, (s.items.drop a).take (b - a)))

/-! ## Label management (datastructures.py 896-910) -/

/-- `data[new] = data.pop(old)` -/
def renameKey (old new : String) : Data → Except PyErr Data
  | .dict d => match d.get? old with
    | none => .error .keyError
    | some v => .ok (.dict ((d.erase old).set new v))
  | .list _ => .error .typeError
  | .num _ => .error .attributeError

/-- `data.pop(label, None)` -/
def removeKey (k : String) : Data → Except PyErr Data
  | .dict d => .ok (.dict (d.erase k))
  | .list _ => .error .typeError
  | .num _ => .error .attributeError

/-- a loop changing the data object of each item in turn; an exception leaves the objects changed so
far -/
def dataLoop (f : Data → Except PyErr Data) : Heap → List HItem → Heap × Outcome
  | h, [] => (h, .ok ())
  | h, x :: r => match h.data[x.dA]? with
    | none => (h, .error .attributeError)
    | some d => match f d with
      | .error e => (h, .error e)
      | .ok d' => dataLoop f (h.store x.dA (fun _ => d')) r

/-- the check at the start of the two methods -/
def HSeries.refOk (h : Heap) (s : HSeries) : Bool :=
  s.items.isEmpty || (match s.refA.bind (fun a => h.data[a]?) with
    | some d => d.truthy
    | none => false)

/-- `series.rename_data_label(old, new)` -/
def HSeries.rename (old new : String) (h : Heap) (s : HSeries) : Heap × Outcome :=
  if s.refOk h then dataLoop (renameKey old new) h s.items else (h, .error .typeError)

/-- `series.remove_data_label(label)` -/
def HSeries.removeLabel (k : String) (h : Heap) (s : HSeries) : Heap × Outcome :=
  if s.refOk h then dataLoop (removeKey k) h s.items else (h, .error .typeError)

/-- `series.append(item)` for an existing item object: the checks are those of the series as it reads;
the reference is set where `baseAppend` sets it (first item, or a falsy reference). -/
def HSeries.append (h : Heap) (s : HSeries) (x : HItem) : HSeries × Outcome :=
  match (s.view h).append (h.read x) with
  | (s', .error e) => ({ s with attrs := s' }, .error e)
  | (s', .ok _) => ({ attrs := s', items := s.items ++ [x]
                      refA := if s.items.isEmpty || !s.refOk h then some x.dA else s.refA }, .ok ())

/-- `series.pop(0)` or `series.pop()` (datastructures.py 794-812): the reference is left -/
def HSeries.popFirst (s : HSeries) : HSeries := { s with items := s.items.tail }
def HSeries.popLast (s : HSeries) : HSeries := { s with items := s.items.dropLast }

end Timeseria
