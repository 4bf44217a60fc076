import Verif.Props.Laws
import Verif.Props.Inspect
import Verif.Props.Merge
import Verif.Props.Plots
import Verif.Props.PeriodicForecast
import Verif.Props.Windows
import Verif.Props.Validity
import Verif.Props.Events
import Verif.Props.ForecastClaims

/-! # Theorems added after testing the others against wrong programs (5) -/

namespace Timeseria

variable {I D : Type}

/-! ## C79: refusals of the in-place variants -/

/-- **C79**, partial (refusals of the cumulative sum): in place as otherwise, the cumulative sum of an empty series, or of a series
whose resolution is variable, is a `ValueError`. -/
theorem C79_csum_refused_partial (s : TSeries) (h : s.items = [] ∨ s.res = .varying) : s.csumInplace = .error .valueError := by
  unfold TSeries.csumInplace
  rcases h with h | h
  · rw [if_pos (by simp [h])]
  · by_cases he : s.items.isEmpty = true
    · rw [if_pos he]
    · rw [if_neg he, if_pos h]

example : ({} : TSeries).csumInplace = .error .valueError := C79_csum_refused_partial _ (.inl rfl)

/-- **C79**, partial (refusals of the derivative): the derivative in place of a series with one item is a `ValueError`. -/
theorem C79_derivative_refused_partial (cal : Calendar) (auto : ℚ) (s : TSeries) (x : Item) (d : Data) (ks : List String)
    (h : s.items = [x]) (hd : x.data = some d) (hk : s.labelsFrom x = .ok ks) : s.derivativeInplace cal auto = .error .valueError := by
  unfold TSeries.derivativeInplace TSeries.opPrep
  simp only [h, hd, hk, List.length_singleton, if_true]

/-- one point -/
def onePointFive : TSeries :=
  match TSeries.build [mkPoint 0 (.dict [("v", 5)])] with
  | .ok s => s
  | .error _ => {}

example : onePointFive.derivativeInplace physicalCalendar 1 = .error .valueError :=
  C79_derivative_refused_partial _ _ _ (mkPoint 0 (.dict [("v", 5)])) (.dict [("v", 5)]) ["v"] (by decide +kernel) (by decide +kernel) (by decide +kernel)

/-! ## C31: refusals of the merge -/

/-- **C31 (nothing to merge)**: merging no series at all is a `TypeError`, an empty first series is a `ValueError` and an empty second
series an `IndexError` if the resolution of the first is not defined, and a `ValueError` if it is. -/
theorem C31_empty (cal : Calendar) (a b : TSeries) (rest : List TSeries) (hb : b.items = [] ∧ b.res = .unset) :
    mergeOp cal [] = .error .typeError ∧ mergeOp cal (b :: rest) = .error .valueError ∧
    (a.items ≠ [] → a.res = .unset → mergeOp cal (a :: b :: rest) = .error .indexError) ∧
    (∀ u, a.items ≠ [] → a.res = .unit u → mergeOp cal (a :: b :: rest) = .error .valueError) := by
  refine ⟨rfl, ?_, ?_, ?_⟩
  · unfold mergeOp
    simp [hb.1]
  · intro hne hr
    obtain ⟨x, r, hx⟩ := List.exists_cons_of_ne_nil hne
    simp [mergeOp, hx, mergeCheck, hr, hb.1, hb.2]
  · intro u hne hr
    obtain ⟨x, r, hx⟩ := List.exists_cons_of_ne_nil hne
    simp [mergeOp, hx, mergeCheck, hr, hb.1, hb.2]

example : mergeOp physicalCalendar [onePointFive, {}] = .error .indexError :=
  (C31_empty physicalCalendar onePointFive {} [] ⟨rfl, rfl⟩).2.2.1 (by decide +kernel) (by decide +kernel)
example : mergeOp physicalCalendar [exSeries, {}] = .error .valueError := by decide +kernel

/-- two points at the same minute, two minutes apart, and the same shifted by half a minute -/
def everyMinute (t : ℚ) (d : Data) : TSeries :=
  match TSeries.build [mkPoint t d, mkPoint (t + 60) d, mkPoint (t + 120) d] with
  | .ok s => s
  | .error _ => {}

/-- **C31 (not aligned)**: two series with the same resolution whose points fall at different instants are refused with a `KeyError`,
list data with a `TypeError`. -/
theorem C31_not_aligned :
    mergeOp physicalCalendar [everyMinute 0 (.dict [("v", 1)]), everyMinute 30 (.dict [("v", 1)])] = .error .keyError ∧
    mergeOp physicalCalendar [everyMinute 0 (.list [1]), everyMinute 0 (.list [1])] = .error .typeError := by
  constructor <;> decide +kernel

/-! ## C35, C37: choices of the sampling interval -/

/-- **C35 (no interval given)**: an interval of 0 is the same as none for more than one point: the autodetected one is used. -/
theorem C35_zero (D : ℚ) (hD : D ≠ 0) (ts : List ℚ) (f g : Option ℚ) (cut : Bool) (h2 : ts.length ≠ 1) :
    validityRegions (.ok D) ts f g (some 0) cut = validityRegions (.ok 0) ts f g (some D) cut ∧
    validityRegions (.ok D) ts f g none cut = validityRegions (.ok 0) ts f g (some D) cut ∧
    (∀ e, validityRegions (.error e) ts f g (some 0) cut = .error e) := by
  unfold validityRegions
  simp [h2, hD, Except.map]

example : validityRegions (.ok 60) [0, 100] none none (some 0) false = .ok [⟨0, -30, 30⟩, ⟨100, 70, 130⟩] := by decide +kernel

/-- **C37 (series without a resolution)**: unless forced, the losses recorded in the points are left out when the series has no
resolution: the data loss is what is not covered. -/
theorem C37_unresolved (ps : List VPoint) (si f t : ℚ) (h : OrderedRegions ps) (hft : f < t) :
    dataLossOf ps false false si f t = .ok (1 - coveredLength f t ps / (t - f)) := by
  have h1 := C36_coverage ps h f t hft
  obtain ⟨c, hc, hce, _⟩ := h1
  unfold dataLossOf
  rw [hc]
  simp [hce]

/-! ## C118: enough items for the window -/

/-- **C118 (window)**, partial: a series shorter than the window is refused with `ValueError`; one with exactly as many items is not, as long
as the values can be computed. -/
theorem C118_enough_partial (m : PFor) (l : List Item) (steps : ℕ) :
    (l.length < m.window → m.predict l steps = .error .valueError) ∧
    (∀ (last : Item) (v : ℕ → Dict ℚ), l.length = m.window → l.getLast? = some last →
      (∀ i < steps, perLabelDict m.labels (m.valueAt l (forecastTime m.res last i)) = .ok (v i)) →
      m.predict l steps = .ok ((List.range steps).map v)) := by
  constructor
  · intro h
    unfold PFor.predict
    rw [if_pos h]
  · intro last v h hl hv
    unfold PFor.predict
    rw [if_neg (by omega), hl]
    exact mapE_ok (fun i hi => hv i (by simpa using hi))

/-! ## C111: enough items for the window -/

/-- **C111 (window)**: the neural network forecaster refuses with `ValueError` a series shorter than its window, whatever is asked. -/
theorem C111_short (m : Lstm) (net : List (List ℚ) → List ℚ) (ps : List FPoint) (steps : ℕ) (h : ps.length < m.window) :
    m.predict net ps steps = .error .valueError := by
  unfold Lstm.predict
  rw [if_pos h]

/-- **C111 (ranges)**: normalised fits need data: no data is a `ValueError`, a label missing from the first of the data a `KeyError`. -/
theorem C111_range_refused (k : String) (d : Dict ℚ) (r : List (Dict ℚ)) (h : d.get? k = none) :
    rangeOf k [] = .error .valueError ∧ rangeOf k (d :: r) = .error .keyError := by
  refine ⟨rfl, ?_⟩
  cases r with
  | nil => simp [rangeOf, h]
  | cons a b => simp [rangeOf, h]

/-- **C111 (labels)**: a window with a label the fit has not seen is refused with `KeyError` by a normalised model, and so is an output
for such a label. -/
theorem C111_unknown (m : Lstm) (rg : Dict (ℚ × ℚ)) (k : String) (v y : ℚ) (r : Dict ℚ) (hrg : m.ranges = some rg) (h : rg.get? k = none) :
    normalizeDict rg ((k, v) :: r) = .error .keyError ∧ m.output k y = .error .keyError := by
  constructor
  · simp [normalizeDict, h]
  · simp [Lstm.output, hrg, h]

/-! ## C61: targets the items do not have -/

/-- **C61 (targets)**: a target label missing from the data of an item is a `KeyError`, on list data a `TypeError`. -/
theorem C61_targets (x : Item) (k : String) :
    (∀ d, x.data = some (.dict d) → d.get? k = none → x.raw k = .error .keyError) ∧
    (∀ l, x.data = some (.list l) → x.raw k = .error .typeError) := by
  constructor
  · intro d h hk
    simp [Item.raw, h, hk]
  · intro l h
    simp [Item.raw, h]

/-! ## C233, C235, C236: inspections which are refused -/

/-- **C233 (not fitted)**: inspecting a detector which was not fitted is a `KeyError`. -/
theorem C233_not_fitted (d : DetData I D) (a : InspectArgs) (h : d.dists = none) : d.inspect a = .error .keyError := by
  unfold DetData.inspect
  rw [h]

/-- **C235**, partial (not stored): without the stored errors, or without those of a label, the inspection of a detector with labels is a
`KeyError`. -/
theorem C235_missing_partial (d : DetData I D) (a : InspectArgs) (k : String) (f : D) (r : Dict D) (h : d.dists = some ((k, f) :: r))
    (he : d.errors = none ∨ ∃ err, d.errors = some err ∧ err.get? k = none) : d.inspect a = .error .keyError := by
  unfold DetData.inspect
  rw [h]
  simp only [Dict.keys, List.map_cons, DetData.inspectLoop]
  rcases he with he | ⟨err, he, hk⟩
  · rw [he]
  · rw [he]
    simp only [hk]

/-- **C236**, partial (series which are not stored): asking for the series of the fit of a detector without stored errors is a `ValueError`;
without the stored actual values or predictions a `KeyError`; without labels an `IndexError`. -/
theorem C236_missing_partial (d : DetData I D) :
    (d.errors = none → d.seriesOfFit = .error .valueError) ∧
    (∀ err, d.errors = some err → d.actual = none ∨ d.predicted = none → d.seriesOfFit = .error .keyError) ∧
    (∀ err pred, d.errors = some err → d.predicted = some pred → d.actual = some [] → d.seriesOfFit = .error .indexError) := by
  unfold DetData.seriesOfFit
  refine ⟨fun h => by rw [h], fun err h ho => ?_, fun err pred h hp ha => ?_⟩
  · rw [h]
    rcases ho with ho | ho
    · simp only [ho]
    · cases d.actual <;> simp only [ho]
  · rw [h, hp, ha]
    rfl

/-- **C236**, partial (lists which do not fit): a point of the series whose values are missing in one of the lists is an `IndexError`, in one
of the dictionaries a `KeyError`. -/
theorem C236_lists_partial (d : Dict (List ℚ)) (k : String) (i : ℕ) :
    (d.get? k = none → valueAtPos d k i = .error .keyError) ∧
    (∀ l, d.get? k = some l → l.length ≤ i → valueAtPos d k i = .error .indexError) := by
  unfold valueAtPos
  refine ⟨fun h => by rw [h], fun l h hi => ?_⟩
  rw [h]
  simp only [List.getElem?_eq_none hi]

/-! ## C65, C124: forecasts which cannot be built -/

/-- **C65 (refusals)**: from an empty series an `IndexError`; after a point a prediction cannot be placed if the resolution is missing or
variable (`TypeError`). -/
theorem C65_refused (cal : Calendar) (c : FCfg) (s : TSeries) (p : FPred) (tz : Option String) (last : Item) (d : Dict ℚ) :
    (s.items = [] → itemsFrom cal c s p = .error .indexError) ∧
    forecastPoint tz .unset last d = .error .typeError ∧ forecastPoint tz .varying last d = .error .typeError := by
  refine ⟨fun h => by simp [itemsFrom, h], rfl, rfl⟩

/-- **C124 (no prediction)**: a predictor answering with an empty list makes the evaluation an `IndexError`, one which leaves out the
label a `KeyError`. -/
theorem C124_missing (k : String) (d : Dict ℚ) (r : List (Dict ℚ)) (h : d.get? k = none) :
    predictedValue k (.many []) = .error .indexError ∧ predictedValue k (.many (d :: r)) = .error .keyError ∧
    predictedValue k (.one d) = .error .keyError := by
  refine ⟨rfl, ?_, ?_⟩ <;> simp [predictedValue, lookupE, h]

/-! ## C149, C151: plots -/

/-- **C149**, partial (no labels): leaving out the labels only works for numerical data: a first item with lists or dictionaries is a
`TypeError`. -/
theorem C149_not_numbers_partial (x : Item) (r : List Item) (s : TSeries) (hs : s.items = x :: r) (d : Data) (hd : x.data = some d)
    (hn : ∀ v, d ≠ .num v) : dygraphsPlot { labels := .nothing } s = .error .typeError := by
  have hv : plotValue x none = .error .typeError := by
    unfold plotValue
    rw [hd]
    cases d with
    | num v => exact absurd rfl (hn v)
    | dict d => rfl
    | list l => rfl
  unfold dygraphsPlot
  rw [hs]
  dsimp only [plotLabels, plotIndexes]
  rw [hd]
  dsimp only
  unfold toDgData
  have : mapE (plotPt [] (allDataIndexes (x :: r))) (x :: r) = .error .typeError := by
    unfold mapE plotPt
    simp [loopLabels, mapE, hv]
  rw [this]

example : dygraphsPlot { labels := .nothing } exSeries = .error .typeError := by
  obtain ⟨x, r, hs⟩ : ∃ x r, exSeries.items = x :: r := List.exists_cons_of_ne_nil (by decide +kernel)
  cases hx : x.data with
  | none =>
    exfalso
    have : (exSeries.items.map Item.data).head? = some (some (.dict [("b", 5), ("a", 1)])) := by decide +kernel
    rw [hs] at this
    simp [hx] at this
  | some d =>
    refine C149_not_numbers_partial x r exSeries hs d hx ?_
    rintro v rfl
    have : ((exSeries.items.map Item.data).head?.map (fun d => match d with | some (.num _) => true | _ => false)) = some false := by
      decide +kernel
    rw [hs] at this
    simp [hx] at this

/-- **C151**, partial (the range): the range drawn is the range asked for with its lower end reduced and its upper end increased by one
hundredth of themselves. -/
theorem C151_widened_partial {c : PlotCfg} {s : TSeries} {p : Plot} {lo hi : ℚ} (h : dygraphsPlot c s = .ok p)
    (hc : c.valueRange = some (lo, hi)) : p.range = (lo - lo / 100, hi + hi / 100) := by
  have hf : forcedRange lo hi = (lo - lo / 100, hi + hi / 100) := by
    unfold forcedRange
    ext <;> ring
  unfold dygraphsPlot at h
  split at h
  · cases h
  split at h
  · cases h
  split at h
  · cases h
  split at h
  · cases h
  split at h
  · cases h
  split at h
  · cases h
    simp only [hc, hf]
  · cases h

/-! ## C128: unknown indexes -/

/-- **C128** is false also for an index which is `None`: marking the events is a `TypeError`. -/
theorem C128_none_false (th : ℚ) (minP : Int) (g : ℕ) (replace : Bool) (l r : List Item) (x : Item)
    (hl : ∀ y ∈ l, ∃ v, y.idx.get? "anomaly" = some (some v)) (hx : x.idx.get? "anomaly" = some none) :
    markEvents th minP g replace (l ++ x :: r) = .error .typeError := by
  have : mapE anomalyOf (l ++ x :: r) = .error .typeError := by
    induction l with
    | nil =>
      rw [List.nil_append]
      unfold mapE
      simp [anomalyOf, hx]
    | cons y l ih =>
      rw [List.cons_append]
      unfold mapE
      obtain ⟨v, hv⟩ := hl y (by simp)
      rw [ih (fun z hz => hl z (by simp [hz]))]
      simp [anomalyOf, hv]
  unfold markEvents
  rw [this]

end Timeseria
