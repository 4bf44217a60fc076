import Verif.Model.UniformTransform

/-! # Aggregating with another interpolator: `Aggregator(unit, operations, interpolator_class=UniformInterpolator)` (transformations.py 726-760)

Both dense views of a slot, the extended one (187-188) and the one of the points of the slot (258-259), ask the interpolator of the class given for the values in the middle
of the gaps; all the rest is as in `Model/Transform`. -/

namespace Timeseria

/-- the points belonging to the slot, as seen by the operations not supporting weights, with the extended view and the series after the writes
of the "upsampling" branch (221-262; as `slotView`) -/
def slotViewU (c : Settings) (ps : List VPoint) (j : Job) (loss : ℚ) (view : List VPoint) :
    Except PyErr (List VPoint × List VPoint × List VPoint) :=
  match j.first, j.last with
  | none, none =>
    if loss = 1 then
      match view.filter (fun p => p.interp) with
      | [p] => .ok ([p], view, ps)
      | _ => .error .exception
    else
      .ok ([{ t := (j.b - j.a) / 2, vf := 0, vt := 0, data := c.ks.map (fun k => (k, 0)) }],
           view.map (scaleData c.ks j.a j.b),
           ps.mapIdx (fun i p => if j.viewStart ≤ i ∧ i < j.next + 1 then scaleData c.ks j.a j.b p else p))
  | some f, some l =>
    match denseListU ps c.ks (some j.a) (some j.b) f (idxSlice ps f (l + 1)) with
    | .error e => .error e
    | .ok v => .ok (v, view, ps)
  | some _, none => .error .typeError
  | none, some _ => .error .typeError

/-- a new slot (`target='slot'`, 180-368; as `computeSlot`) -/
def computeSlotU (c : Settings) (unit : TUnit) (ops : List SlotOp) (w : Work) (j : Job) : Except PyErr (Item × Work) :=
  match jobViewU c w.ps j with
  | .error e => .error e
  | .ok view =>
    match dataLossOf view c.hasRes j.isFirst c.si j.a j.b with
    | .error e => .error e
    | .ok loss =>
      match slotViewU c w.ps j loss view with
      | .error e => .error e
      | .ok (inner, view', ps') =>
        match slotData c ops j.a j.b loss view' inner with
        | .error e => .error e
        | .ok d =>
          if d.isEmpty then .error .exception
          else
            .ok ({ t := j.a, slot := some (j.b, unit), tz := c.tz, data := some (.dict d)
                   idx := newIdx c.names (c.forceLoss.getD loss) j.a j.b view' },
                 { ps := ps', ws := writeWeights w j })

/-- `Aggregator(unit, operations, UniformInterpolator).process` (385-694, 752-760), as `process` -/
def aggregateU (g : Grid) (c : Settings) (unit : TUnit) (ops : List SlotOp) (start stop : Option ℚ) (ps : List VPoint) :
    Except PyErr (List Item × Work) :=
  match ps.head?, ps.getLast? with
  | some p0, some pl =>
    match processFrom g .slots start p0.t, processTo g stop pl.t with
    | .error e, _ => .error e
    | .ok _, .error e => .error e
    | .ok fromT, .ok toT =>
      let ts := ps.map VPoint.t
      let ps' := attach ps (regionsLoop c.si none none false none ts)
      runJobs (computeSlotU c unit ops) (processJobs g ts fromT toT) { ps := ps', ws := ps.map (fun _ => none) } []
  | _, _ => .error .valueError

end Timeseria
