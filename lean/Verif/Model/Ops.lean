import Verif.Model.Access

/-! # Operations on series (operations.py)

All the operations below are the non in-place ones (`inplace=False`); in-place variants are in
`Verif.Model.Inplace`. -/

namespace Timeseria

/-- a `for` loop computing one result per element, stopping at the first exception -/
def mapE {α β : Type} (f : α → Except PyErr β) : List α → Except PyErr (List β)
  | [] => .ok []
  | x :: r =>
    match f x with
    | .error e => .error e
    | .ok y => match mapE f r with
      | .error e => .error e
      | .ok ys => .ok (y :: ys)

/-- an exception raised by the first computation ends the second -/
def bindE {α β : Type} (r : Except PyErr α) (f : α → Except PyErr β) : Except PyErr β :=
  match r with
  | .ok v => f v
  | .error e => .error e

/-- a computed value together with its label -/
def tag {α : Type} (k : String) (r : Except PyErr α) : Except PyErr (String × α) :=
  match r with
  | .ok v => .ok (k, v)
  | .error e => .error e

/-- Python division -/
def pyDiv (a b : ℚ) : Except PyErr ℚ := if b = 0 then .error .zeroDivision else .ok (a / b)

/-- `str(i)` for a list position -/
def strNat (i : ℕ) : String := String.ofList (natStr i)

/-- `int(label)` for a label made of decimal digits (other spellings accepted by Python's `int` are
not modelled) -/
def readNat (k : String) : Option ℕ := if k.toList = [] then none else readDigits 0 k.toList

/-- `item.data_labels()` (datastructures.py 262-269, 561-568): sorted keys, or positions as strings;
`len` of a number is a `TypeError`. -/
def labelsOf : Data → Except PyErr (List String)
  | .dict d => .ok (sortStr d.keys)
  | .list l => .ok ((List.range l.length).map strNat)
  | .num _ => .error .typeError

/-- `_data_by_label` (datastructures.py 271-278, 570-577).  Simplification: the text of a negative number is not a
position here and a number always gives `TypeError`; the exact function is `dataByLabelPy` in `Create`.  The
operations only pass labels of the series, for which the two agree. -/
def dataByLabel : Data → String → Except PyErr ℚ
  | .dict d, k => match d.get? k with | some v => .ok v | none => .error .keyError
  | .list l, k => match readNat k with
    | none => .error .valueError
    | some n => match l[n]? with | some v => .ok v | none => .error .indexError
  | .num _, _ => .error .typeError

/-- `item._data_by_label(label)` -/
def Item.byLabel (x : Item) (k : String) : Except PyErr ℚ :=
  match x.data with
  | none => .error .attributeError
  | some d => dataByLabel d k

/-- `series.data_labels()` on a non-empty series with first item `x` (datastructures.py 885-894) -/
def TSeries.labelsFrom (s : TSeries) (x : Item) : Except PyErr (List String) :=
  match s.ref with
  | none => .error .typeError
  | some r => if !r.truthy then .error .typeError else
    match x.data with
    | none => .error .attributeError
    | some d => labelsOf d

/-- The checks made by every operation: not empty (operations.py 47), items with data
(`_check_series_of_points_or_slots`), indexed data (`_check_indexed_data`, utilities.py 856-863).
Gives the first item's data and the labels. -/
def TSeries.opPrep (s : TSeries) : Except PyErr (Data × List String) :=
  match s.items with
  | [] => .error .valueError
  | x :: _ =>
    match x.data with
    | none => .error .typeError
    | some d =>
      match s.labelsFrom x with
      | .error e => .error e
      | .ok ks => .ok (d, ks)

/-! ## Operations returning scalars -/

/-- the loops of `Max` (operations.py 73-98): `None` is replaced by the first value -/
def maxLoop (vs : List ℚ) : Option ℚ :=
  vs.foldl (fun acc v => match acc with
    | none => some v
    | some m => if v > m then some v else some m) none

/-- the loops of `Min` (operations.py 101-124) -/
def minLoop (vs : List ℚ) : Option ℚ :=
  vs.foldl (fun acc v => match acc with
    | none => some v
    | some m => if v < m then some v else some m) none

/-- Runs a per-label fold.  The code loops over the items outside and over the labels inside,
updating one entry of the result dictionary at a time; as the entries do not interact the two loops
are interchanged here (this may only change which exception is raised first). -/
def perLabel (s : TSeries) (ks : List String) (f : List ℚ → α) : Except PyErr (Dict α) :=
  mapE (fun k => match mapE (fun x => x.byLabel k) s.items with
    | .error e => .error e
    | .ok vs => .ok (k, f vs)) ks

/-- `max(series)` -/
def TSeries.maxOp (s : TSeries) : Except PyErr (Dict (Option ℚ)) :=
  match s.opPrep with
  | .error e => .error e
  | .ok (_, ks) => perLabel s ks maxLoop

/-- `min(series)` -/
def TSeries.minOp (s : TSeries) : Except PyErr (Dict (Option ℚ)) :=
  match s.opPrep with
  | .error e => .error e
  | .ok (_, ks) => perLabel s ks minLoop

/-- `sum(series)` (operations.py 191-206) -/
def TSeries.sumOp (s : TSeries) : Except PyErr (Dict ℚ) :=
  match s.opPrep with
  | .error e => .error e
  | .ok (_, ks) => perLabel s ks (fun vs => vs.foldl (· + ·) 0)

/-- the sum started from `None` used by `Avg` (operations.py 153-181) -/
def sumFromNone (vs : List ℚ) : Option ℚ :=
  vs.foldl (fun acc v => match acc with | none => some v | some m => some (m + v)) none

/-- `avg(series)` for items without weights (operations.py 174-182) -/
def TSeries.avgOp (s : TSeries) : Except PyErr (Dict ℚ) :=
  match s.opPrep with
  | .error e => .error e
  | .ok (_, ks) =>
    match perLabel s ks sumFromNone with
    | .error e => .error e
    | .ok sums => mapE (fun p => match p.2 with
      | none => .error .typeError
      | some v => match pyDiv v s.items.length with
        | .ok r => .ok (p.1, r)
        | .error e => .error e) sums

/-- `avg(series)` for items which all carry a weight (operations.py 150-173); `ws` are the weights, one
per item. -/
def TSeries.avgWeighted (s : TSeries) (ws : List ℚ) : Except PyErr (Dict ℚ) :=
  match s.opPrep with
  | .error e => .error e
  | .ok (_, ks) =>
    match perLabel s ks (fun vs => sumFromNone (List.zipWith (· * ·) vs ws)) with
    | .error e => .error e
    | .ok sums =>
      let total := ws.foldl (· + ·) 0
      mapE (fun p => match p.2 with
        | none => .error .typeError
        | some v =>
          if total = 1 then .ok (p.1, v)
          else match pyDiv v total with
            | .ok r => .ok (p.1, r)
            | .error e => .error e) sums

/-- `avg(series)` on items of which some carry a `weight` attribute (operations.py 139-146): the weights are used
if all the items have one, else they are ignored -/
def TSeries.avgAttr (s : TSeries) (ws : List (Option ℚ)) : Except PyErr (Dict ℚ) :=
  if ws.all Option.isSome then s.avgWeighted (ws.map (fun w => w.getD 0)) else s.avgOp

/-! ## Operations returning series -/

/-- `series[0].data.__class__()` filled with `data[label] = value` or `data.append(value)` -/
def makeData (proto : Data) (kvs : List (String × ℚ)) : Data :=
  match proto with
  | .dict _ => .dict (kvs.foldl (fun d p => Dict.set d p.1 p.2) [])
  | _ => .list (kvs.map Prod.snd)

/-- a new item of the class of the first one: points keep `t` and `tz`, slots are re-created from
their start and unit (so that the end is computed again) -/
def remake (cal : Calendar) (x : Item) (d : Data) (idx : Idx) : Item :=
  match x.slot with
  | none => { t := x.t, slot := none, tz := x.tz, data := some d, idx := idx }
  | some (_, u) => { t := x.t, slot := some (cal.shift u x.tz x.t, u), tz := x.tz, data := some d, idx := idx }

/-- label with a postfix, `'{}_{}'.format(label, postfix)` -/
def withPostfix (k post : String) : String := k ++ "_" ++ post

/-- The common loop of the operations working item by item: for the item at position `i` and each
label the value `f i x label`, stored under the label `ren label`. -/
def itemLoop (cal : Calendar) (proto : Data) (ks : List String) (ren : String → String)
    (keepIdx : Bool) (f : ℕ → Item → String → Except PyErr ℚ) (skip : ℕ → Bool) :
    ℕ → List Item → Except PyErr (List Item)
  | _, [] => .ok []
  | i, x :: r =>
    if skip i then itemLoop cal proto ks ren keepIdx f skip (i + 1) r
    else
      match mapE (fun k => tag (ren k) (f i x k)) ks with
      | .error e => .error e
      | .ok kvs =>
        match itemLoop cal proto ks ren keepIdx f skip (i + 1) r with
        | .error e => .error e
        | .ok ys => .ok (remake cal x (makeData proto kvs) (if keepIdx then x.idx else []) :: ys)

/-- new series from the items produced, one `append` at a time -/
def finish : Except PyErr (List Item) → Except PyErr TSeries
  | .error e => .error e
  | .ok l => TSeries.build l

/-- a number or a per-label dictionary of numbers -/
inductive NumOrDict where
  | num (x : ℚ)
  | dict (d : Dict ℚ)

/-- the factor of a label in `Rescale` (operations.py 642-648): labels not in the dictionary are left
alone -/
def rescaleVal (v : NumOrDict) (k : String) (x : ℚ) : ℚ :=
  match v with
  | .num c => x * c
  | .dict d => match d.get? k with | some c => x * c | none => x

/-- the shift of a label in `Offset` (operations.py 706-712) -/
def offsetVal (v : NumOrDict) (k : String) (x : ℚ) : ℚ :=
  match v with
  | .num c => x + c
  | .dict d => match d.get? k with | some c => x + c | none => x

/-- operations mapping each value on its own, keeping the labels -/
def TSeries.mapOp (cal : Calendar) (s : TSeries) (g : String → ℚ → Except PyErr ℚ) :
    Except PyErr TSeries :=
  match s.opPrep with
  | .error e => .error e
  | .ok (proto, ks) =>
    finish (itemLoop cal proto ks id true
      (fun _ x k => bindE (x.byLabel k) (g k))
      (fun _ => false) 0 s.items)

/-- `rescale(series, value)` (operations.py 616-677) -/
def TSeries.rescaleOp (cal : Calendar) (s : TSeries) (v : NumOrDict) : Except PyErr TSeries :=
  s.mapOp cal (fun k x => .ok (rescaleVal v k x))

/-- `offset(series, value)` (operations.py 680-742) -/
def TSeries.offsetOp (cal : Calendar) (s : TSeries) (v : NumOrDict) : Except PyErr TSeries :=
  s.mapOp cal (fun k x => .ok (offsetVal v k x))

/-- the minimum and maximum per label computed by `Normalize` (operations.py 556-566): initialised
with the first item -/
def minMaxLoop : List ℚ → Option (ℚ × ℚ)
  | [] => none
  | v :: r => some (r.foldl (fun (p : ℚ × ℚ) v => (if v < p.1 then v else p.1, if v > p.2 then v else p.2)) (v, v))

/-- the normalized value (operations.py 584-587); `range = none` is the default `[0, 1]` -/
def normVal (range : Option (ℚ × ℚ)) (mm : ℚ × ℚ) (x : ℚ) : Except PyErr ℚ :=
  match pyDiv (x - mm.1) (mm.2 - mm.1) with
  | .error e => .error e
  | .ok q => match range with
    | none => .ok q
    | some (a, b) => .ok (q * (b - a) + a)

/-- the normalized value of a label, given the extremes of all labels -/
def normOf (mms : Dict (Option (ℚ × ℚ))) (range : Option (ℚ × ℚ)) (k : String) (x : ℚ) :
    Except PyErr ℚ :=
  match mms.get? k with
  | some (some mm) => normVal range mm x
  | _ => .error .keyError

/-- `normalize(series, range=[a, b])` (operations.py 530-613), without a source range -/
def TSeries.normalizeOp (cal : Calendar) (s : TSeries) (a b : ℚ) : Except PyErr TSeries :=
  let range := if a = 0 ∧ b = 1 then none else some (a, b)
  match s.opPrep with
  | .error e => .error e
  | .ok (_, ks) =>
    match perLabel s ks minMaxLoop with
    | .error e => .error e
    | .ok mms =>
      s.mapOp cal (normOf mms range)

/-- `series[j]._data_by_label(label)` for a position `j ≥ 0` -/
def valAt (l : List Item) (j : ℕ) (k : String) : Except PyErr ℚ :=
  match l[j]? with
  | none => .error .indexError
  | some x => x.byLabel k

/-- `series[j].t` -/
def tAt (l : List Item) (j : ℕ) : Except PyErr ℚ :=
  match l[j]? with
  | none => .error .indexError
  | some x => .ok x.t

/-- sum of the values at positions `j, j+1, ..., j+n-1` (inner loop of `MAvg`, operations.py 777-779) -/
def windowSum (l : List Item) (k : String) : ℕ → ℕ → ℚ → Except PyErr ℚ
  | _, 0, acc => .ok acc
  | j, n + 1, acc => match valAt l j k with
    | .error e => .error e
    | .ok v => windowSum l k (j + 1) n (acc + v)

/-- `mavg(series, window)` (operations.py 745-803).  An invalid window runs into `''.frmat(...)`, which
is an `AttributeError` (753). -/
def TSeries.mavgOp (cal : Calendar) (s : TSeries) (w : Int) : Except PyErr TSeries :=
  match s.opPrep with
  | .error e => .error e
  | .ok (proto, ks) =>
    if w < 1 then .error .attributeError
    else
      let n := w.toNat
      finish (itemLoop cal proto ks (fun k => withPostfix k ("mavg_" ++ strNat n)) false
        (fun i _ k => match windowSum s.items k (i + 1 - n) n 0 with
          | .ok v => pyDiv v n
          | .error e => .error e)
        (fun i => decide (i + 1 < n)) 0 s.items)

/-- The value computed by `Derivative` and `Diff` for the item at position `i` (operations.py
262-307).  `norm = none` when not normalizing, otherwise `(variable resolution?, sampling
interval)`. -/
def derivVal (l : List Item) (norm : Option (Bool × ℚ)) (diffs : Bool) (i : ℕ) (k : String) :
    Except PyErr ℚ :=
  match valAt l i k with
  | .error e => .error e
  | .ok v =>
    -- the increments
    let left : Except PyErr ℚ := match valAt l (i - 1) k with
      | .ok u => .ok (v - u)
      | .error e => .error e
    let right : Except PyErr ℚ := match valAt l (i + 1) k with
      | .ok u => .ok (u - v)
      | .error e => .error e
    if diffs then
      match left with
      | .error e => .error e
      | .ok d => match norm with
        | some (_, si) => pyDiv d si
        | none => .ok d
    else if i = 0 then
      match right with
      | .error e => .error e
      | .ok d => match norm with
        | some (_, si) => pyDiv d si
        | none => .ok d
    else if i + 1 = l.length then
      match left with
      | .error e => .error e
      | .ok d => match norm with
        | some (_, si) => pyDiv d si
        | none => .ok d
    else
      match left, right with
      | .error e, _ => .error e
      | _, .error e => .error e
      | .ok dl, .ok dr =>
        match norm with
        | none => .ok ((dl + dr) / 2)
        | some (false, si) => pyDiv ((dl + dr) / 2) si
        | some (true, _) =>
          match tAt l (i - 1), tAt l i, tAt l (i + 1) with
          | .ok t0, .ok t1, .ok t2 =>
            match pyDiv dl (t1 - t0), pyDiv dr (t2 - t1) with
            | .ok a, .ok b => .ok ((a + b) / 2)
            | .error e, _ => .error e
            | _, .error e => .error e
          | _, _, _ => .error .indexError

/-- `series.resolution.as_seconds(series[0].dt)` for a time unit: the length of the unit starting at
the first item -/
def asSeconds (cal : Calendar) (u : TUnit) (x : Item) : ℚ := cal.shift u x.tz x.t - x.t

/-- the variable resolution flag and the sampling interval used for normalizing (operations.py 240-253,
374-387); `auto` is the autodetected sampling interval.  Without a resolution the interval is `None`
and using it raises `TypeError`. -/
def TSeries.normInfo (cal : Calendar) (s : TSeries) (auto : ℚ) : Except PyErr (Bool × ℚ) :=
  match s.res, s.items with
  | .varying, _ => .ok (true, auto)
  | .unit u, x :: _ => .ok (false, asSeconds cal u x)
  | _, _ => .error .typeError

/-- `derivative(series)` (operations.py 213-352); `auto` stands for the autodetected sampling
interval, used with variable resolutions only. -/
def TSeries.derivativeOp (cal : Calendar) (s : TSeries) (auto : ℚ) : Except PyErr TSeries :=
  match s.opPrep with
  | .error e => .error e
  | .ok (proto, ks) =>
    if s.items.length = 1 then .error .valueError
    else match s.normInfo cal auto with
      | .error e => .error e
      | .ok ni =>
        finish (itemLoop cal proto ks (fun k => withPostfix k "derivative") true
          (fun i _ k => derivVal s.items (some ni) false i k) (fun _ => false) 0 s.items)

/-- `diff(series)` (operations.py 514-519 and 213-352 with `normalize=False, diffs=True`).  The check on
the resolution (516) comes before those on the data. -/
def TSeries.diffOp (cal : Calendar) (s : TSeries) : Except PyErr TSeries :=
  if s.items.isEmpty then .error .valueError
  else if s.res = .varying then .error .valueError
  else match s.opPrep with
    | .error e => .error e
    | .ok (proto, ks) =>
      if s.items.length = 1 then .error .valueError
      else finish (itemLoop cal proto ks (fun k => withPostfix k "diff") true
        (fun i _ k => derivVal s.items none true i k) (fun i => decide (i = 0)) 0 s.items)

/-- The variables kept by `Integral` across the loops: `prev_right_component`, *one for all the
labels*, and the last value of each label. -/
structure IntState where
  prc : Option ℚ := none
  last : Dict ℚ := []

/-- `value + c[label]`, falling back to `value + c` (operations.py 467-472) -/
def addC (c : NumOrDict) (k : String) (v : ℚ) : Except PyErr ℚ :=
  match c with
  | .num x => .ok (v + x)
  | .dict d => match d.get? k with
    | some x => .ok (v + x)
    | none => .error .typeError        -- number + dictionary

/-- one turn of the label loop of `Integral` (operations.py 434-487) -/
def intStep (l : List Item) (norm : Option (Bool × ℚ)) (c : NumOrDict) (i : ℕ) (st : IntState)
    (k : String) : Except PyErr (IntState × ℚ) :=
  -- the value and the new right component
  let raw : Except PyErr (ℚ × Option ℚ) :=
    match norm with
    | none => match valAt l i k with
      | .ok v => .ok (v, st.prc)
      | .error e => .error e
    | some _ =>
      if i = 0 then
        match valAt l i k with
        | .ok v => .ok (0, some v)
        | .error e => .error e
      else
        match valAt l (i - 1) k, st.prc with
        | .ok u, some p => .ok (u * 2 - p, some (u * 2 - p))
        | .error e, _ => .error e
        | _, none => .error .exception
  match raw with
  | .error e => .error e
  | .ok (v, prc) =>
    let scaled : Except PyErr ℚ :=
      match norm with
      | none => .ok v
      | some (false, si) => .ok (v * si)
      | some (true, si) =>
        if i = 0 then .ok (v * si)
        else match tAt l i, tAt l (i - 1) with
          | .ok t1, .ok t0 => .ok (v * (t1 - t0))
          | _, _ => .error .indexError
    match scaled with
    | .error e => .error e
    | .ok v =>
      let total : Except PyErr ℚ := match st.last.get? k with
        | some p => .ok (p + v)
        | none => addC c k v
      match total with
      | .error e => .error e
      | .ok v => .ok ({ prc := prc, last := st.last.set k v }, v)

/-- the label loop -/
def intLabels (l : List Item) (norm : Option (Bool × ℚ)) (c : NumOrDict) (i : ℕ) :
    IntState → List String → Except PyErr (IntState × List (String × ℚ))
  | st, [] => .ok (st, [])
  | st, k :: r =>
    match intStep l norm c i st k with
    | .error e => .error e
    | .ok (st', v) => match intLabels l norm c i st' r with
      | .error e => .error e
      | .ok (st'', kvs) => .ok (st'', (k, v) :: kvs)

/-- the item loop of `Integral` (operations.py 396-507), with `offset=0` (no previous point is
created) -/
def intLoop (cal : Calendar) (l : List Item) (norm : Option (Bool × ℚ)) (c : NumOrDict) (proto : Data)
    (post : String) (ks : List String) : ℕ → IntState → List Item → Except PyErr (List Item)
  | _, _, [] => .ok []
  | i, st, x :: r =>
    match intLabels l norm c i st ks with
    | .error e => .error e
    | .ok (st', kvs) =>
      match intLoop cal l norm c proto post ks (i + 1) st' r with
      | .error e => .error e
      | .ok ys =>
        .ok (remake cal x (makeData proto (kvs.map (fun p => (withPostfix p.1 post, p.2)))) x.idx :: ys)

/-- `integral(series, c=c)` (operations.py 355-511) -/
def TSeries.integralOp (cal : Calendar) (s : TSeries) (auto : ℚ) (c : NumOrDict) :
    Except PyErr TSeries :=
  match s.opPrep with
  | .error e => .error e
  | .ok (proto, ks) =>
    match s.normInfo cal auto with
    | .error e => .error e
    | .ok ni => finish (intLoop cal s.items (some ni) c proto "integral" ks 0 {} s.items)

/-- `csum(series)` (operations.py 522-527 and 355-511 with `normalize=False`) -/
def TSeries.csumOp (cal : Calendar) (s : TSeries) : Except PyErr TSeries :=
  if s.items.isEmpty then .error .valueError
  else if s.res = .varying then .error .valueError
  else match s.opPrep with
    | .error e => .error e
    | .ok (proto, ks) => finish (intLoop cal s.items none (.num 0) proto "csum" ks 0 {} s.items)

/-- `filter(series, *labels)` (operations.py 851-878): key-value data only; the new items are shallow
copies of the old ones. -/
def TSeries.filterOp (s : TSeries) (labels : List String) : Except PyErr TSeries :=
  match s.opPrep with
  | .error e => .error e
  | .ok (proto, _) =>
    match proto with
    | .dict _ =>
      finish (mapE (fun x =>
        bindE (mapE (fun k => tag k (x.byLabel k)) labels) (fun kvs =>
          .ok { x with data := some (.dict (kvs.foldl (fun d p => Dict.set d p.1 p.2) [])) }))
        s.items)
    | _ => .error .typeError

/-- the loop of `select` (operations.py 1177-1187) for the condition `label=value`: `None` if nothing
matches -/
def TSeries.selectOp (s : TSeries) (k : String) (v : ℚ) : Except PyErr (Option (List Item)) :=
  match s.opPrep with
  | .error e => .error e
  | .ok _ =>
    match mapE (fun x => match x.byLabel k with
      | .ok u => .ok (if u = v then [x] else [])
      | .error e => .error e) s.items with
    | .error e => .error e
    | .ok ls => .ok (if ls.flatten.isEmpty then none else some ls.flatten)

end Timeseria
