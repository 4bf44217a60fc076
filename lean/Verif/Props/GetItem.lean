import Verif.Model.GetItem
import Verif.Props.Access
import Verif.Props.OpsMap

/-! # C229, C230: the square brackets -/

namespace Timeseria

/-! ## C229 -/

/-- **C229 (a position)**: an integer in the square brackets gives the item at that position, from the end if negative. -/
theorem C229_position_partial (s : TSeries) (i : Int) :
    (∀ h : 0 ≤ i ∧ i < s.items.length, s.getItem (.int i) = .ok (.item (s.items[i.toNat]'(by omega)))) ∧
    (∀ h : -(s.items.length : Int) ≤ i ∧ i < 0,
      s.getItem (.int i) = .ok (.item (s.items[(s.items.length + i).toNat]'(by omega)))) ∧
    (s.items.length ≤ i → s.getItem (.int i) = .error .indexError) := by
  obtain ⟨h1, h2, h3⟩ := C10_integer_indexing s i
  refine ⟨fun h => ?_, fun h => ?_, fun h => ?_⟩
  · simp only [TSeries.getItem, h1 h, gotItem, Except.map]
  · simp only [TSeries.getItem, h2 h, gotItem, Except.map]
  · simp only [TSeries.getItem, h3 h, gotItem, Except.map]

/-- **C229 (a time)**: a float or a datetime in the square brackets gives the item of that timestamp, and a `ValueError`
if there is none. -/
theorem C229_time_partial (s : TSeries) (hne : s.items ≠ []) (ho : StrictlyOrdered s.items) (t : ℚ) :
    (∀ x ∈ s.items, x.t = t → s.getItem (.float t) = .ok (.item x) ∧ s.getItem (.dt t) = .ok (.item x)) ∧
    ((∀ x ∈ s.items, x.t ≠ t) → s.getItem (.float t) = .error .valueError ∧ s.getItem (.dt t) = .error .valueError) := by
  obtain ⟨h1, h2, _⟩ := C13_access_by_t s hne ho t
  refine ⟨fun x hx e => ?_, fun h => ?_⟩
  · simp only [TSeries.getItem, h1 x hx e, gotItem, Except.map]; exact ⟨trivial, trivial⟩
  · simp only [TSeries.getItem, h2 h, gotItem, Except.map]; exact ⟨trivial, trivial⟩

/-- **C229 (a label)**: a label in the square brackets gives the series of the same places with that label only. -/
theorem C229_label_partial {cal : Calendar} {s : TSeries} {ks : List String} (h : OpSeries cal s ks)
    (hdict : ∀ x ∈ s.items, ∃ d, x.data = some (.dict d)) (k : String) (hk : k ∈ ks) :
    ∃ r, s.getItem (.text k) = .ok (.series r) ∧ OpSeries cal r [k] ∧
      Computes s.items r.items 0 [k] id (valueAt s.items) ∧
      (∀ (j : ℕ) (x y : Item), s.items[j]? = some x → r.items[j]? = some y → y.idx = x.idx) := by
  obtain ⟨r, h1, h2, h3, h4⟩ := C30_filter h hdict [k] (by simp) (by simpa using hk) (by simp)
  exact ⟨r, by simp only [TSeries.getItem, h1, gotSeries, Except.map], h2, h3, h4⟩

/-- Specification: the time a bound stands for, none for a missing bound. -/
inductive BoundTime : Bool → SliceBound → Option ℚ → Prop
  | missing (b : Bool) : BoundTime b .none none
  | float (t : ℚ) : BoundTime false (.float t) (some t)
  | dt (t : ℚ) : BoundTime true (.dt t) (some t)

theorem getItem_time {s : TSeries} {a b : SliceBound} {x y : Option ℚ} (st : Option Int) {d : Bool} (ha : BoundTime d a x)
    (hb : BoundTime d b y) (hab : x.isSome ∨ y.isSome) :
    s.getItem (.slice a b st) = gotSeries (s.slice none none x y) := by
  cases ha <;> cases hb <;>
    simp [TSeries.getItem, TSeries.getSliceItem, SliceBound.isInt, SliceBound.isFloat, SliceBound.isDt, SliceBound.asEpoch, SliceBound.asDt, both]
      at hab ⊢

/-- **C229 (a time interval, points)**: two floats, or two datetimes, one of which can be missing, give the points
from the first (included) to the second (excluded). -/
theorem C229_interval_partial (s : TSeries) (hne : s.items ≠ []) (hg : GoodPoints s.items) (a b : SliceBound) (x y : Option ℚ)
    (d : Bool) (ha : BoundTime d a x) (hb : BoundTime d b y) (hab : x.isSome ∨ y.isSome) :
    ∃ r, s.getItem (.slice a b none) = .ok (.series r) ∧
      r.items = s.items.filter (fun z => fromOk x z.t && beforeOk y z.t) := by
  obtain ⟨r, h1, h2⟩ := C12_time_slicing_points s hne hg x y hab
  refine ⟨r, ?_, h2⟩
  rw [getItem_time none ha hb hab, h1]; rfl

/-- **C229 (a time interval, slots)**: for slots, those which start from the first bound on and end by the second. -/
theorem C229_interval_slots_partial (s : TSeries) (hne : s.items ≠ []) (hg : GoodSlots s.items) (hf : SlotsForward s.items)
    (hpos : ∀ x ∈ s.items, x.t < x.endT) (a b : SliceBound) (x y : Option ℚ) (d : Bool)
    (ha : BoundTime d a x) (hb : BoundTime d b y) (hab : x.isSome ∨ y.isSome) :
    ∃ r, s.getItem (.slice a b none) = .ok (.series r) ∧
      r.items = s.items.filter (fun z => fromOk x z.t && untilOk y z.endT) := by
  obtain ⟨r, h1, h2⟩ := C12_time_slicing_slots s hne hg hf hpos x y hab
  refine ⟨r, ?_, h2⟩
  rw [getItem_time none ha hb hab, h1]; rfl

/-- the kind of a bound -/
def SliceBound.kind : SliceBound → ℕ
  | .none => 0 | .int _ => 1 | .float _ => 2 | .dt _ => 3 | .other => 4

/-- **C229 (mixed bounds)**: two bounds of different kinds, or a bound which is neither a number nor a datetime, are
refused by a `ValueError`. -/
theorem C229_mixed_partial (s : TSeries) (a b : SliceBound) (st : Option Int)
    (h : (a.kind ≠ 0 ∧ b.kind ≠ 0 ∧ a.kind ≠ b.kind) ∨ a = .other ∨ b = .other) :
    s.getItem (.slice a b st) = .error .valueError := by
  cases a <;> cases b <;>
    simp [TSeries.getItem, TSeries.getSliceItem, SliceBound.isInt, SliceBound.isFloat, SliceBound.isDt, SliceBound.asEpoch, SliceBound.asDt,
      SliceBound.asIndex, SliceBound.kind, both, gotSeries, Except.map] at h ⊢

/-- **C229 is false**: any other object in the square brackets is meant to be refused by a `ValueError`, and is by an
`AttributeError` instead, the message being built from a bound it does not have. -/
theorem C229_false (s : TSeries) : s.getItem .other = .error .attributeError := rfl

theorem C229_witness : OpSeries physicalCalendar exSeries ["a", "b"] ∧ exSeries.items.length = 3 ∧
    (exSeries.getItem (.slice (.dt 60) .none none)).toOption.isSome = true ∧
    (exSeries.getItem (.text "b")).toOption.isSome = true ∧
    BoundTime true (.dt 60) (some 60) ∧ BoundTime true .none none := by
  refine ⟨C21_witness, by decide +kernel, by decide +kernel, by decide +kernel, .dt 60, .missing true⟩

/-! ## C230 -/

/-- Specification: every `n`-th element from the first, `n` positive. -/
def everyNth {α : Type} (n : ℕ) (l : List α) : List α :=
  (List.range l.length).filterMap (fun i => if i % n = 0 then l[i]? else none)

/-- the positions of a slice -/
def SliceBound.ofOpt : Option Int → SliceBound
  | some i => .int i
  | Option.none => SliceBound.none

/-- the items of a series, or the item alone -/
def gotItems : Got → List Item
  | .item x => [x]
  | .series s => s.items

theorem getItem_ints (s : TSeries) (a b : Option Int) (st : Option Int) :
    s.getItem (.slice (.ofOpt a) (.ofOpt b) st) = gotSeries (s.getSlice a b) := by
  cases a <;> cases b <;>
    simp [TSeries.getItem, TSeries.getSliceItem, SliceBound.isInt, SliceBound.isFloat, SliceBound.isDt,
      SliceBound.asIndex, SliceBound.ofOpt, both, TSeries.getSlice]

/-- **C230 is false**: the step of a slice is silently ignored, whatever it is.  Every other item of three is
all three of them, and the whole slice, without any bound, is refused instead. -/
theorem C230_false : (∀ (s : TSeries) (a b : SliceBound) (st : Option Int),
      s.getItem (.slice a b st) = s.getItem (.slice a b none)) ∧
    (exSeries.getItem (.slice (.int 0) (.int 3) (some 2))).map gotItems = .ok exSeries.items ∧
    everyNth 2 exSeries.items ≠ exSeries.items ∧
    (∀ s : TSeries, s.getItem (.slice .none .none none) = .error .valueError) := by
  refine ⟨fun s a b st => rfl, ?_, ?_, fun s => rfl⟩ <;> decide +kernel

/-- **C230, partial**: with at least one position given and no step, or the step one, a slice is the same slice of the
list of the items.  (Missing: other steps, and the slice without bounds, of which the claim is false.) -/
theorem C230_slices_partial (s : TSeries) (hne : s.items ≠ []) (hg : GoodPoints s.items ∨ GoodSlots s.items)
    (a b : Option Int) (hab : a.isSome ∨ b.isSome) :
    ∃ r, s.getItem (.slice (.ofOpt a) (.ofOpt b) none) = .ok (.series r) ∧
      s.getItem (.slice (.ofOpt a) (.ofOpt b) (some 1)) = .ok (.series r) ∧
      r.items = pyListSlice s.items a b := by
  obtain ⟨r, h1, h2⟩ := C11_index_slicing s hne hg a b hab
  refine ⟨r, ?_, ?_, h2⟩ <;> (rw [getItem_ints, h1]; rfl)

theorem C230_witness : GoodPoints [mkPoint 0 (.num 1), mkPoint 60 (.num 2)] := by
  refine ⟨?_, ?_, ?_, ?_⟩
  · simp [AllPoints, mkPoint, Item.isSlot]
  · simp [mkPoint]; norm_num
  · simp [HasData, mkPoint, Data.truthy]
  · intro x hx y hy d e hd he
    simp at hx hy
    rcases hx with rfl | rfl <;> rcases hy with rfl | rfl <;> (simp [mkPoint] at hd he; subst hd; subst he; simp [SameKind])

end Timeseria
