import Verif.Props.Laws
import Verif.Props.Tightened13
import Verif.Props.TransformMore
import Verif.Props.WorldDuplicates
import Verif.Props.Inspect
import Verif.Props.Periodicity
import Verif.Props.ForecastClaims
import Verif.Props.Models
import Verif.Props.Statistical

/-! # Concrete cases for theorems stated elsewhere: their hypotheses are met, and the result is the one expected -/

namespace Timeseria

/-! ## Operations, on the series of three points with the labels `a` and `b` -/

/-- the two dictionaries, label by label, of a series -/
def abTable (s : TSeries) : List (ℚ × Option ℚ × Option ℚ) := s.items.map (fun x => (x.t, x.value? "a", x.value? "b"))

/-- the series used below -/
example : abTable exSeries = [(0, some 1, some 5), (60, some 4, some 7), (120, some 3, some (-2))] := by decide +kernel

/-- **C03** the hypothesis: an item out of order is refused -/
theorem C03_witness : (exSeries.append (mkPoint 60 (.dict [("a", 1), ("b", 1)]))).2 = .error .valueError ∧
    (exSeries.append (mkPoint 60 (.dict [("a", 1), ("b", 1)]))).1.items = exSeries.items ∧ exSeries.items ≠ [] := by
  decide +kernel

/-- **C22** three weights, of total 4 -/
theorem C22_weights_witness : OpSeries physicalCalendar exSeries ["a", "b"] ∧ [(1 : ℚ), 2, 1].length = exSeries.items.length ∧ [(1 : ℚ), 2, 1].sum ≠ 0 ∧
    ((exSeries.avgWeighted [1, 2, 1]).toOption.map (fun r => (Dict.get? r "a", Dict.get? r "b"))) = some (some 3, some (17 / 4)) :=
  ⟨C21_witness, by decide +kernel, by decide +kernel, by decide +kernel⟩

/-- **C25** the cumulative sums of a label, in the whole series and in the series filtered on it -/
theorem C25_csum_witness : OpSeries physicalCalendar exSeries ["a", "b"] ∧ exSeries.res ≠ .varying ∧ AllDicts exSeries.items ∧
    ((exSeries.csumOp physicalCalendar).toOption.map (fun r => r.items.map (fun x => x.value? "a_csum"))) = some [some 1, some 5, some 8] ∧
    ((bindE (exSeries.filterOp ["a"]) (fun f => f.csumOp physicalCalendar)).toOption.map (fun r => r.items.map (fun x => x.value? "a_csum"))) =
      some [some 1, some 5, some 8] :=
  ⟨C21_witness, by decide +kernel, C247_witness.2.1, by decide +kernel, by decide +kernel⟩

/-- **C28** factors and shifts undoing each other, one per label -/
theorem C28_witness : (∀ k ∈ ["a", "b"], (NumOrDict.dict [("a", 2), ("b", 1 / 4)]).factor k * (NumOrDict.dict [("a", 1 / 2), ("b", 4)]).factor k = 1) ∧
    (∀ k ∈ ["a", "b"], (NumOrDict.dict [("a", 2)]).shift k + (NumOrDict.dict [("a", -2)]).shift k = 0) ∧
    ((exSeries.rescaleOp physicalCalendar (.dict [("a", 2), ("b", 1 / 4)])).toOption.map abTable) =
      some [(0, some 2, some (5 / 4)), (60, some 8, some (7 / 4)), (120, some 6, some (-1 / 2))] ∧
    ((exSeries.offsetOp physicalCalendar (.dict [("a", 2)])).toOption.map abTable) =
      some [(0, some 3, some 5), (60, some 6, some 7), (120, some 5, some (-2))] := by
  decide +kernel

/-- **C29** a window of two items -/
theorem C29_witness : OpSeries physicalCalendar exSeries ["a", "b"] ∧
    ((exSeries.mavgOp physicalCalendar 2).toOption.map (fun r => r.items.map (fun x => (x.t, x.value? "a_mavg_2", x.value? "b_mavg_2")))) =
      some [(60, some (5 / 2), some 6), (120, some (7 / 2), some (5 / 2))] :=
  ⟨C21_witness, by decide +kernel⟩

/-- **C30** filtering on one label, and on one there is not -/
theorem C30_witness : OpSeries physicalCalendar exSeries ["a", "b"] ∧ AllDicts exSeries.items ∧ (∀ k ∈ ["b"], k ∈ ["a", "b"]) ∧ (["b"] : List String).Nodup ∧
    ((exSeries.filterOp ["b"]).toOption.map abTable) = some [(0, none, some 5), (60, none, some 7), (120, none, some (-2))] ∧
    (∃ k ∈ ["b", "c"], k ∉ ["a", "b"]) ∧ ((exSeries.filterOp ["b", "c"]).map abTable) = .error .keyError :=
  ⟨C21_witness, C247_witness.2.1, by decide, by decide, by decide +kernel, by decide, by decide +kernel⟩

/-- **C32** two of four items, and none -/
theorem C32_witness : ((exSeries.selectOp "a" 4).toOption.map (fun r => r.map (fun l => l.map Item.t))) = some (some [60]) ∧
    ((exSeries.selectOp "a" 7).toOption.map (fun r => r.map (fun l => l.map Item.t))) = some none := by
  decide +kernel

/-- **C33** the smallest and largest values of the two labels -/
theorem C33_witness : ∀ k ∈ ["a", "b"], Extremes exSeries.items k (if k = "a" then 1 else -2) (if k = "a" then 4 else 7) := by
  intro k hk
  have hl : exSeries.items.length = 3 := by decide +kernel
  simp only [List.mem_cons, List.not_mem_nil, or_false] at hk
  rcases hk with rfl | rfl
  · refine ⟨⟨0, by rw [hl]; decide, by decide +kernel⟩, ⟨1, by rw [hl]; decide, by decide +kernel⟩, ?_⟩
    rw [hl]
    decide +kernel
  · refine ⟨⟨2, by rw [hl]; decide, by decide +kernel⟩, ⟨1, by rw [hl]; decide, by decide +kernel⟩, ?_⟩
    rw [hl]
    decide +kernel

/-- **C33** both normalizations of that series -/
example : ((exSeries.normalizeOp physicalCalendar 0 1).toOption.map abTable) = some [(0, some 0, some (7 / 9)), (60, some 1, some 1), (120, some (2 / 3), some 0)] ∧
    ((exSeries.normalizeInplace 0 1).toOption.map abTable) = some [(0, some 0, some (7 / 9)), (60, some 1, some 1), (120, some (2 / 3), some 0)] := by
  decide +kernel

/-! ## Data losses and interpolation, on three points a minute apart with the middle one missing -/

/-- points at 0, 60 and 180: nothing between 90 and 150 -/
def holedPoints : List VPoint := [{ t := 0, vf := -30, vt := 30, data := [("v", 1)] }, { t := 60, vf := 30, vt := 90, data := [("v", 2)] },
  { t := 180, vf := 150, vt := 210, data := [("v", 8)] }]

/-- **C37** the regions are in order, no loss was recorded: a half of the time between 60 and 180 is not covered -/
theorem C37_witness : OrderedRegions holedPoints ∧ NoPreviousLoss holedPoints ∧
    (dataLossOf holedPoints true false 60 60 180).toOption = some (1 / 2) ∧ coveredLength 60 180 holedPoints = 60 :=
  ⟨⟨by decide +kernel, by decide +kernel⟩, by unfold NoPreviousLoss; decide +kernel, by decide +kernel, by decide +kernel⟩

/-- **C42** and **C87** between the second and the third point -/
theorem C42_witness : (linearEval holedPoints ["v"] 80 (some 1) (some 2)).toOption = some [("v", 3)] ∧
    (uniformEval holedPoints ["v"] 80 (some 1) (some 2)).toOption = some [("v", 5)] ∧
    (linearEval holedPoints ["v"] 180 (some 1) (some 2)).toOption = none ∧
    (∀ f, holedPoints.head? = some f → f.t ≤ 60) := by
  refine ⟨by decide +kernel, by decide +kernel, by decide +kernel, ?_⟩
  intro f hf
  simp only [holedPoints, List.head?_cons, Option.some.injEq] at hf
  subst hf
  norm_num

/-! ## Resampling -/

/-- **C48** a physical grid, points in order; the middle point is resampled to itself -/
theorem C48_witness : grid60.Physical 60 ∧ 0 < exSettings.si ∧ InputSeries exSettings.ks exMin ∧
    (process grid60 .points exSettings {} [] none none exMin).toOption.map (fun r => r.1.map (fun x => (x.t, x.value? "v"))) = some [(60, some 1)] :=
  ⟨physGrid_physical 60 (by norm_num), by norm_num [exSettings], exMin_input, by decide +kernel⟩

/-- **C48** (constants) the same points with the value 3 -/
def flatMin : List VPoint := exMin.map (fun p => { p with data := [("v", 3)] })

example : (∀ p ∈ flatMin, p.data.get? "v" = some 3) ∧
    (process grid60 .points exSettings {} [] none none flatMin).toOption.map (fun r => r.1.map (fun x => (x.t, x.value? "v"))) = some [(60, some 3)] := by
  constructor <;> decide +kernel

/-! ## Models -/

/-- **C59** a fitted model, and a directory there already: it is refused; with another name it is saved next to it -/
theorem C59_save_witness (c : UnitCodec) :
    (sampleKind.save c (sampleKind.fit sampleKind.new (.series (.ofSeries hourly))).1 [("old", none)] "old").2 = .error .valueError ∧
    (sampleKind.save c (sampleKind.fit sampleKind.new (.series (.ofSeries hourly))).1 [("old", none)] "new").2 = .ok () ∧
    List.lookup "old" (sampleKind.save c (sampleKind.fit sampleKind.new (.series (.ofSeries hourly))).1 [("old", none)] "new").1 = some none := by
  have h1 : (sampleKind.fit sampleKind.new (.series (.ofSeries hourly))).1.fitted = true := by decide +kernel
  have h2 : tripDict (sampleKind.fit sampleKind.new (.series (.ofSeries hourly))).1.params ≠ none := by decide +kernel
  obtain ⟨q, hq⟩ := Option.ne_none_iff_exists'.1 h2
  refine ⟨?_, ?_, ?_⟩
  · unfold MKind.save
    rw [if_neg (by decide), if_neg (by rw [h1]; decide), if_neg (by decide), if_pos (by decide)]
  · unfold MKind.save
    rw [if_neg (by decide), if_neg (by rw [h1]; decide), if_neg (by decide), if_neg (by decide), hq]
  · unfold MKind.save
    rw [if_neg (by decide), if_neg (by rw [h1]; decide), if_neg (by decide), if_neg (by decide), hq]
    rfl

/-- a forecaster repeating 7 on every view -/
def sevenOnViews : VPredictor := fun _ => .ok (.many [[("v", 7)]])

/-- **C124** the second and third of three points, each with its prediction -/
theorem C124_witness : evalPairs sevenOnViews 1 threeHoursSeries "v" = .ok [(2, 7), (3, 7)] := by decide +kernel

/-- **C217** and **C219**: the spectrum has one peak more than a third stronger than the others, at index 4 of 20: 5 items -/
def onePeak : List ℚ := [0, 1, 2, 3, 40, 3, 2, 20, 2, 1] ++ List.replicate 10 0

theorem C219_witness : periodOf twoPeaks onePeak = .ok 5 ∧ (twoPeaks.spectrum onePeak).length = onePeak.length ∧ (∀ v ∈ twoPeaks.spectrum onePeak, 0 ≤ v) ∧
    twoPeaks.findPeaks (halfSpectrum twoPeaks onePeak) = [4, 7] ∧ (halfSpectrum twoPeaks onePeak)[4]? = some 40 ∧ (halfSpectrum twoPeaks onePeak)[7]? = some 20 := by
  refine ⟨by decide +kernel, by decide +kernel, by decide +kernel, by decide +kernel, by decide +kernel, by decide +kernel⟩

/-- **C233** a detector fitted on a series with two labels, the errors stored: two reports -/
theorem C233_witness : (detFit (firstKind false 1 1 0) { metric := "E" } {} (MSeries.ofSeries twoLabelSeries)).2 = .ok () ∧
    ({ metric := "E" } : FitArgs).store = true ∧
    (twoLabelFit.inspect {}).toOption.map (fun l => l.map (fun r => r.1.label)) = some ["u", "v"] := by
  refine ⟨by decide +kernel, by decide +kernel, by decide +kernel⟩

/-! ## Histories -/

/-- new series, and items added to and removed from others: none changes the first series in place -/
def quietCalls : List WorldCall := [.mavg 0 1, .slice 0 1 2, .appendNew 1 (mkPoint 7200 (.dict [("v", 5)]) "UTC" []), .pop 2 none]

/-- **C332** the calls do what they are said to do, and the first series reads the same -/
theorem C332_witness : (∀ c ∈ quietCalls, c.changed = none ∧ c.reshaped ≠ some 0) ∧ 0 < (World.run physicalCalendar {} worldCalls).entries.length ∧
    ((World.run physicalCalendar {} (worldCalls ++ quietCalls)).valuesOf 1).map List.length = some 3 ∧
    ((World.run physicalCalendar {} (worldCalls ++ quietCalls)).valuesOf 2).map List.length = some 0 ∧
    (World.run physicalCalendar {} (worldCalls ++ quietCalls)).valuesOf 0 = some [(some (.dict [("v", 1)]), []), (some (.dict [("v", 2)]), [])] := by
  refine ⟨?_, by decide +kernel, by decide +kernel, by decide +kernel, by decide +kernel⟩
  intro c hc
  simp only [quietCalls, List.mem_cons, List.not_mem_nil, or_false] at hc
  rcases hc with rfl | rfl | rfl | rfl <;> exact ⟨rfl, by simp [WorldCall.reshaped]⟩

/-- **C343** a program making its own series, changing it and emptying it after one with a series -/
def ownCalls : List WorldCall := [.create twoHourly, .setData 1 0 (putLabel "v" 9), .slice 1 0 1, .removeLabel 2 "v", .pop 1 none]

theorem C343_witness : (∀ c ∈ ownCalls, ∀ k ∈ c.uses, (World.run physicalCalendar {} [.create twoHourly]).entries.length ≤ k) ∧
    (World.run physicalCalendar {} ([.create twoHourly] ++ ownCalls)).valuesOf 1 = some [(some (.dict []), [])] ∧
    (World.run physicalCalendar {} ([.create twoHourly] ++ ownCalls)).valuesOf 0 = some [(some (.dict [("v", 1)]), []), (some (.dict [("v", 2)]), [])] := by
  have hl : (World.run physicalCalendar {} [.create twoHourly]).entries.length = 1 := by decide +kernel
  refine ⟨?_, by decide +kernel, by decide +kernel⟩
  rw [hl]
  intro c hc k hk
  simp only [ownCalls, List.mem_cons, List.not_mem_nil, or_false] at hc
  rcases hc with rfl | rfl | rfl | rfl | rfl <;> simp [WorldCall.uses] at hk <;> omega

end Timeseria
