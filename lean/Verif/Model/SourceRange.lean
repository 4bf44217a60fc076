import Verif.Model.Inplace

/-! # Normalizing with a given source range (operations.py 535-613), and what a failed in-place operation leaves -/

namespace Timeseria

/-- operations.py 549-551: the extremes read from the source range, a label which is not there raising `KeyError` -/
def sourceExtremes (src : Dict (ℚ × ℚ)) (ks : List String) : Except PyErr (Dict (Option (ℚ × ℚ))) :=
  mapE (fun k => match src.get? k with
    | some p => .ok (k, some p)
    | none => .error .keyError) ks

/-- `normalize(series, range=[a, b], source_range=src)` (operations.py 530-613); an empty source range counts as none (549) -/
def TSeries.normalizeFrom (cal : Calendar) (s : TSeries) (a b : ℚ) (src : Dict (ℚ × ℚ)) : Except PyErr TSeries :=
  if src.isEmpty then s.normalizeOp cal a b
  else match s.opPrep with
    | .error e => .error e
    | .ok (_, ks) => match sourceExtremes src ks with
      | .error e => .error e
      | .ok mms => s.mapOp cal (normOf mms (if a = 0 ∧ b = 1 then none else some (a, b)))

/-- the same with `inplace=True` -/
def TSeries.normalizeFromInplace (s : TSeries) (a b : ℚ) (src : Dict (ℚ × ℚ)) : Except PyErr TSeries :=
  if src.isEmpty then s.normalizeInplace a b
  else match s.opPrep with
    | .error e => .error e
    | .ok (_, ks) => match sourceExtremes src ks with
      | .error e => .error e
      | .ok mms => s.inplaceOp id (ownValue (normOf mms (if a = 0 ∧ b = 1 then none else some (a, b)))) ()

/-- the label loop of an in-place operation (`inplaceLabels`), keeping the items as they are when it stops -/
def leftLabels {σ : Type} (ren : String → String) (f : σ → List Item → ℕ → String → Except PyErr (σ × ℚ)) (i : ℕ) :
    σ → List Item → List String → List Item × Except PyErr σ
  | st, l, [] => (l, .ok st)
  | st, l, k :: ks => match f st l i k with
    | .error e => (l, .error e)
    | .ok (st', v) => match writeAt ren l i k v with
      | .error e => (l, .error e)
      | .ok l' => leftLabels ren f i st' l' ks

/-- the item loop of an in-place operation (`inplaceLoop`), keeping the items as they are when it stops -/
def leftLoop {σ : Type} (ren : String → String) (f : σ → List Item → ℕ → String → Except PyErr (σ × ℚ)) :
    σ → List Item → List ℕ → List Item × Outcome
  | _, l, [] => (l, .ok ())
  | st, l, i :: is => match headLabels l with
    | .error e => (l, .error e)
    | .ok ks => match leftLabels ren f i st l ks with
      | (l', .error e) => (l', .error e)
      | (l', .ok st') => leftLoop ren f st' l' is

/-- an in-place operation with the items it leaves, also when it raises -/
def TSeries.leftBy {σ : Type} (s : TSeries) (ren : String → String)
    (f : σ → List Item → ℕ → String → Except PyErr (σ × ℚ)) (st : σ) : List Item × Outcome :=
  match s.opPrep with
  | .error e => (s.items, .error e)
  | .ok _ => leftLoop ren f st s.items (List.range s.items.length)

/-- `normalize(series, range=[a, b], inplace=True)` (operations.py 535-600) with the items it leaves -/
def TSeries.normalizeLeft (s : TSeries) (a b : ℚ) : List Item × Outcome :=
  match s.opPrep with
  | .error e => (s.items, .error e)
  | .ok (_, ks) => match perLabel s ks minMaxLoop with
    | .error e => (s.items, .error e)
    | .ok mms => s.leftBy id (ownValue (normOf mms (if a = 0 ∧ b = 1 then none else some (a, b)))) ()

/-- `rescale(series, value, inplace=True)` (operations.py 634-662) with the items it leaves -/
def TSeries.rescaleLeft (s : TSeries) (v : NumOrDict) : List Item × Outcome :=
  s.leftBy id (ownValue (fun k x => .ok (rescaleVal v k x))) ()

/-- `offset(series, value, inplace=True)` (operations.py 698-726) with the items it leaves -/
def TSeries.offsetLeft (s : TSeries) (v : NumOrDict) : List Item × Outcome :=
  s.leftBy id (ownValue (fun k x => .ok (offsetVal v k x))) ()

/-- `integral(series, c=c, inplace=True)` (operations.py 355-491) with the items it leaves -/
def TSeries.integralLeft (cal : Calendar) (s : TSeries) (auto : ℚ) (c : NumOrDict) : List Item × Outcome :=
  match s.opPrep with
  | .error e => (s.items, .error e)
  | .ok _ => match s.normInfo cal auto with
    | .error e => (s.items, .error e)
    | .ok ni => s.leftBy (fun k => withPostfix k "integral") (fun st l i k => intStep l (some ni) c i st k) {}

/-- `derivative(series, inplace=True)` (operations.py 213-331) with the items it leaves -/
def TSeries.derivativeLeft (cal : Calendar) (s : TSeries) (auto : ℚ) : List Item × Outcome :=
  match s.opPrep with
  | .error e => (s.items, .error e)
  | .ok _ =>
    if s.items.length = 1 then (s.items, .error .valueError)
    else match s.normInfo cal auto with
      | .error e => (s.items, .error e)
      | .ok ni => s.leftBy (fun k => withPostfix k "derivative")
          (fun (_ : Unit) l i k => match derivVal l (some ni) false i k with
            | .ok v => .ok ((), v)
            | .error e => .error e) ()

/-- `csum(series, inplace=True)` (operations.py 522-527, 355-491) with the items it leaves -/
def TSeries.csumLeft (s : TSeries) : List Item × Outcome :=
  if s.items.isEmpty then (s.items, .error .valueError)
  else if s.res = .varying then (s.items, .error .valueError)
  else s.leftBy (fun k => withPostfix k "csum") (fun st l i k => intStep l none (.num 0) i st k) {}

end Timeseria
