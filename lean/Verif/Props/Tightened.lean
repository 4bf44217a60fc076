import Verif.Props.OpsScalar
import Verif.Props.OpsDiff
import Verif.Props.TransformMore
import Verif.Props.CsvSlots
import Verif.Props.Plots

/-! # Theorems added because an edited model still satisfied the others (see seeded/LOG.jsonl) -/

namespace Timeseria

/-- **C22** (which weights): if every item carries a weight the average is the weighted mean with those; if some
item has none, the weights are ignored and it is the plain mean. -/
theorem C22_which_weights {cal : Calendar} {s : TSeries} {ks : List String} (h : OpSeries cal s ks)
    (ws : List (Option ℚ)) (hl : ws.length = s.items.length) :
    (∀ vs : List ℚ, ws = vs.map some → vs.sum ≠ 0 →
      ∃ r, s.avgAttr ws = .ok r ∧ ∀ k ∈ ks, r.get? k = some (weightedMean (s.items.map (fun x => x.value k)) vs)) ∧
    (none ∈ ws →
      ∃ r, s.avgAttr ws = .ok r ∧
        ∀ k ∈ ks, r.get? k = some ((s.items.map (fun x => x.value k)).sum / s.items.length)) := by
  constructor
  · intro vs hvs ht
    obtain ⟨r, h1, _, h2⟩ := C22_weighted h vs (by rw [← hl, hvs]; simp) ht
    refine ⟨r, ?_, h2⟩
    unfold TSeries.avgAttr
    have hall : ws.all Option.isSome = true := by rw [hvs]; simp
    rw [if_pos hall]
    have : ws.map (fun w => w.getD 0) = vs := by rw [hvs]; simp [Function.comp_def]
    rw [this, h1]
  · intro hn
    obtain ⟨r, h1, _, h2⟩ := C22_avg h
    refine ⟨r, ?_, h2⟩
    unfold TSeries.avgAttr
    have hall : ¬ ws.all Option.isSome = true := by
      intro ha
      have := List.all_eq_true.1 ha none hn
      simp at this
    rw [if_neg hall, h1]

/-- **C23** (what is refused): the differences of an empty series, of a single item or of a series with a variable
resolution are refused with `ValueError`. -/
theorem C23_diff_refused {cal : Calendar} {s : TSeries}
    (h : s.items = [] ∨ s.res = .varying ∨ (s.items.length = 1 ∧ ∃ p, s.opPrep = .ok p)) :
    s.diffOp cal = .error .valueError := by
  unfold TSeries.diffOp
  rcases h with h | h | ⟨h, p, hp⟩
  · simp [h]
  · simp [h]
  · split
    · rfl
    · split
      · rfl
      · simp only [hp, h, if_true]

/-- three points at irregular distances -/
def irregularThree : TSeries := (TSeries.empty.appendAll
  [mkPoint 0 (.dict [("a", 1)]), mkPoint 60 (.dict [("a", 4)]), mkPoint 180 (.dict [("a", 3)])]).1

/-- a concrete case -/
theorem C23_diff_refused_witness : irregularThree.res = .varying ∧ irregularThree.items.length = 3 ∧
    (irregularThree.diffOp physicalCalendar).toOption.isNone := by
  decide +kernel

/-! ## C161: an explicit start or end which is not on a boundary of the unit -/

/-- **C161** (start): a start which is not zero and not on a boundary of the unit is refused with `ValueError`,
whatever the end. -/
theorem C161_start (g : Grid) (tg : Target) (c : Settings) (unit : TUnit) (ops : List SlotOp) (ps : List VPoint)
    (x : ℚ) (stop : Option ℚ) (hx : x ≠ 0) (hg : g.onGrid x = false) :
    process g tg c unit ops (some x) stop ps = .error .valueError := by
  unfold process
  split
  · next p0 pl _ _ =>
    have : processFrom g tg (some x) p0.t = .error .valueError := by simp [processFrom, givenTime, hx, hg]
    rw [this]
  · rfl

/-- **C161** (end): the same for the end. -/
theorem C161_end (g : Grid) (tg : Target) (c : Settings) (unit : TUnit) (ops : List SlotOp) (ps : List VPoint)
    (x : ℚ) (start : Option ℚ) (hx : x ≠ 0) (hg : g.onGrid x = false) :
    process g tg c unit ops start (some x) ps = .error .valueError := by
  unfold process
  split
  · next p0 pl _ _ =>
    have : processTo g (some x) pl.t = .error .valueError := by simp [processTo, givenTime, hx, hg]
    rw [this]
    have h2 : ∀ e, processFrom g tg start p0.t = .error e → e = .valueError := by
      intro e he
      unfold processFrom at he
      split at he
      · split at he
        · exact absurd he (by simp)
        · injection he with he; exact he.symm
      · split at he <;> exact absurd he (by simp)
    cases h : processFrom g tg start p0.t with
    | error e => rw [h2 e h]
    | ok v => rfl
  · rfl

/-- a concrete case: the same call with a start on the boundary is accepted -/
theorem C161_witness : grid60.onGrid 30 = false ∧
    (process grid60 .slots exSettings {} [avgSlotOp] (some 60) none exMin).toOption.isSome ∧
    (process grid60 .slots exSettings {} [avgSlotOp] (some 30) none exMin).toOption.isNone := by
  decide +kernel

/-! ## C162: the unit of the slots loaded from a file -/

/-- The sampling intervals, in seconds, which a user would call one day (with the changes of daylight saving time),
one month and one year. -/
def dayIntervals : List ℚ := [23 * 3600, 24 * 3600, 25 * 3600]
def monthIntervals : List ℚ := [28 * 86400, 29 * 86400, 30 * 86400, 31 * 86400]
def yearIntervals : List ℚ := [365 * 86400, 366 * 86400]

/-- the unit intended for an interval -/
def IntendedUnit (d : ℚ) (u : TUnit) : Prop :=
  (d ∈ dayIntervals ∧ u = { days := 1 }) ∨ (d ∈ monthIntervals ∧ u = { months := 1 }) ∨
    (d ∈ yearIntervals ∧ u = { years := 1 })

/-- **C162** is false: rows one leap year (366 days) apart, or one February of a leap year (29 days) apart, are loaded
as points, although every other length of a year and of a month gives slots. -/
theorem C162_false :
    IntendedUnit (366 * 86400) { years := 1 } ∧ decideKind none none (.ok (366 * 86400)) = .ok none ∧
    IntendedUnit (29 * 86400) { months := 1 } ∧ decideKind none none (.ok (29 * 86400)) = .ok none ∧
    decideKind none none (.ok (365 * 86400)) = .ok (some { years := 1 }) := by
  unfold IntendedUnit
  decide +kernel

/-- **C162** (partial): for all the other intervals of a day, month or year, slots of that unit are created, also if
slots are asked for, and of the unit asked for if one is; for any interval which is not one of those, points are
created, unless slots are asked for: they then last the detected interval. -/
theorem C162_partial (d : ℚ) (h1 : d ≠ 366 * 86400) (h2 : d ≠ 29 * 86400) (h3 : d ≠ 886400 * 366) (force : Option TUnit) :
    (∀ u, IntendedUnit d u →
      decideKind none force (.ok d) = .ok (some (force.getD u)) ∧
        decideKind (some .slots) force (.ok d) = .ok (some (force.getD u))) ∧
    ((∀ u, ¬ IntendedUnit d u) →
      decideKind none force (.ok d) = .ok none ∧
        decideKind (some .slots) force (.ok d) = .ok (some (force.getD (TUnit.ofSecs d)))) := by
  constructor
  · intro u hu
    have hc : calendarUnit d = some u := by
      rcases hu with ⟨hd, rfl⟩ | ⟨hd, rfl⟩ | ⟨hd, rfl⟩
      · simp only [dayIntervals, List.mem_cons, List.not_mem_nil, or_false] at hd
        rcases hd with rfl | rfl | rfl <;> decide +kernel
      · simp only [monthIntervals, List.mem_cons, List.not_mem_nil, or_false] at hd
        rcases hd with rfl | rfl | rfl | rfl
        · decide +kernel
        · exact absurd rfl h2
        · decide +kernel
        · decide +kernel
      · simp only [yearIntervals, List.mem_cons, List.not_mem_nil, or_false] at hd
        rcases hd with rfl | rfl
        · decide +kernel
        · exact absurd rfl h1
    unfold decideKind
    simp [hc]
  · intro hu
    have hc : calendarUnit d = none := by
      have hd : d ∉ dayIntervals := fun h => hu _ (Or.inl ⟨h, rfl⟩)
      have hm : d ∉ monthIntervals := fun h => hu _ (Or.inr (Or.inl ⟨h, rfl⟩))
      have hy : d ∉ yearIntervals := fun h => hu _ (Or.inr (Or.inr ⟨h, rfl⟩))
      simp only [dayIntervals, monthIntervals, yearIntervals, List.mem_cons, List.not_mem_nil, or_false, not_or] at hd hm hy
      unfold calendarUnit
      rw [if_neg, if_neg, if_neg]
      · rintro (h | h | h) <;> simp_all <;> norm_num at *
      · rintro (h | h | h) <;> simp_all <;> norm_num at *
      · rintro (h | h) <;> simp_all <;> norm_num at *
    unfold decideKind
    simp [hc]

/-- **C162** (points asked for): no unit is detected at all. -/
theorem C162_points_partial (force : Option TUnit) (d : Except PyErr ℚ) :
    decideKind (some .points) force d = .ok none := rfl

/-! ## C148: the titles -/

/-- **C148** (partial, what the titles are): without commas in the labels and index names, the titles of data given by
labels are the labels; those of a list of one value are "value"; those of a list of several values are "value "
and the position; in each case followed by the names of the indexes. -/
theorem C148_titles_partial (indexes : List String) (hi : ∀ n ∈ indexes, ',' ∉ n.toList) :
    (∀ (kv : Dict ℚ) (labels : List String), labels ≠ [] → (∀ k ∈ labels, ',' ∉ k.toList) →
      columnTitles (.dict kv) labels indexes = (labels ++ indexes).map String.toList) ∧
    (∀ (v : List ℚ) (k : String), ',' ∉ k.toList →
      columnTitles (.list v) [k] indexes = "value".toList :: indexes.map String.toList) ∧
    (∀ (v : List ℚ) (labels : List String), 1 < labels.length → (∀ k ∈ labels, ',' ∉ k.toList) →
      columnTitles (.list v) labels indexes =
        labels.map (fun k => ("value " ++ k).toList) ++ indexes.map String.toList) := by
  refine ⟨?_, ?_, ?_⟩
  · intro kv labels hne hl
    rw [(C148_partial hl hi).1]
    simp [intendedTitles, hne, columnName]
  · intro v k hk
    rw [(C148_partial (by simpa using hk) hi).1]
    simp [intendedTitles, columnName]
  · intro v labels hn hl
    have hne : labels ≠ [] := by intro h; rw [h] at hn; simp at hn
    rw [(C148_partial hl hi).1]
    have h1 : labels.length ≠ 1 := by omega
    simp [intendedTitles, hne, columnName, h1]

/-- a concrete case -/
theorem C148_titles_witness : columnTitles (.list [1, 2]) ["0", "1"] ["anomaly"] =
    ["value 0".toList, "value 1".toList, "anomaly".toList] := by decide +kernel

end Timeseria
