import Verif.Model.PlotTime
import Verif.Props.Plots
import Mathlib.Tactic.Linarith
import Mathlib.Tactic.NormNum
import Mathlib.Tactic.IntervalCases

/-! # The time axis of a plot (plots.py 128-135, 276, 344) -/

namespace Timeseria

/-! ## Specification: the wall clock, as a number -/

/-- days before a year, counted from the year 1 (Python `datetime`, `_days_before_year`) -/
def daysBeforeYear (y : ℤ) : ℤ := (y - 1) * 365 + (y - 1) / 4 - (y - 1) / 100 + (y - 1) / 400

/-- days of a year before a month -/
def daysBeforeMonth (y mo : ℤ) : ℤ := ((List.range (mo - 1).toNat).map (fun (k : ℕ) => daysInMonth y (k + 1))).sum

/-- the days from 1 January 1970 to the date -/
def epochDay (f : DtFields) : ℤ := daysBeforeYear f.y + daysBeforeMonth f.y f.mo + f.d - 719163

/-- the microseconds a clock showing these fields has counted since it showed midnight of 1 January 1970 -/
def wallMicros (f : DtFields) : ℤ := (((epochDay f * 24 + f.h) * 60 + f.mi) * 60 + f.s) * 1000000 + f.us

/-- a datetime with a time zone: its fields, its instant in microseconds since the epoch, its offset in seconds -/
structure AwareDt where
  fields : DtFields
  instant : ℤ
  offset : ℤ

/-- its fields are those of a clock set on the offset -/
structure AwareDt.Ok (a : AwareDt) : Prop where
  valid : a.fields.Valid
  wall : wallMicros a.fields = a.instant + a.offset * 1000000

/-! ## The Javascript calendar is the Python one -/

theorem daysBeforeMonth_table (y mo : ℤ) (h : 1 ≤ mo ∧ mo ≤ 12) : daysBeforeMonth y mo = jsMonthStart (leapYear y) (mo - 1) := by
  obtain ⟨h1, h2⟩ := h
  interval_cases mo <;> cases hl : leapYear y <;> simp [daysBeforeMonth, daysInMonth, jsMonthStart, List.range_succ, hl]

theorem jsDay_eq (f : DtFields) (hv : f.Valid) : jsMakeDay f.y (f.mo - 1) f.d = epochDay f := by
  obtain ⟨m1, m2⟩ := hv.mo
  have e1 : (f.mo - 1) / 12 = 0 := by omega
  have e2 : (f.mo - 1) % 12 = f.mo - 1 := by omega
  unfold jsMakeDay epochDay
  simp only [e1, e2, add_zero]
  rw [daysBeforeMonth_table _ _ hv.mo]
  unfold jsDayFromYear daysBeforeYear
  omega

theorem dgMillis_eq (f : DtFields) (hv : f.Valid) (hy : 100 ≤ f.y) : dgMillis f = wallMicros f / 1000 := by
  have hms : jsToInteger ((toDgTime f).ms.getD 0) = f.us / 1000 := by
    obtain ⟨u1, u2⟩ := hv.us
    have key : ∀ n : ℤ, 0 ≤ n → jsToInteger ((n : ℚ) / 1000) = n / 1000 := by
      intro n hn
      unfold jsToInteger
      rw [if_pos (by positivity)]
      have := Rat.floor_intCast_div_natCast n 1000
      simpa using this
    unfold toDgTime
    by_cases h : f.us = 0
    · simp [h, jsToInteger]
    · simp only [ne_eq, h, not_false_eq_true, if_true, Option.getD_some]
      exact key _ u1
  unfold dgMillis UtcCall.eval
  have hno : ¬ (0 ≤ (toDgTime f).year ∧ (toDgTime f).year ≤ 99) := by
    simp only [toDgTime]; omega
  simp only [if_neg hno]
  unfold jsMakeTime
  rw [hms]
  have hd : jsMakeDay (toDgTime f).year (toDgTime f).month (toDgTime f).day = epochDay f := jsDay_eq f hv
  rw [hd]
  unfold wallMicros
  simp only [toDgTime]
  omega

/-! ## C345 -/

/-- **C345**, partial: from the year 100 on the position of an item on the axis is the time its local clock shows, in milliseconds, the microseconds cut. -/
theorem C345_wall_clock_partial (a : AwareDt) (h : a.Ok) (hy : 100 ≤ a.fields.y) :
    dgMillis a.fields = (a.instant + a.offset * 1000000) / 1000 := by
  rw [dgMillis_eq _ h.valid hy, h.wall]

theorem daysBeforeYear_mono {y y' : ℤ} (h : y ≤ y') : daysBeforeYear y ≤ daysBeforeYear y' := by
  unfold daysBeforeYear; omega

theorem year_days (y : ℤ) : daysBeforeYear (y + 1) = daysBeforeYear y + 365 + (if leapYear y then 1 else 0) := by
  unfold daysBeforeYear leapYear
  split_ifs with h <;> simp at h <;> omega

theorem monthStart_step (l : Bool) (y m m' : ℤ) (hl : leapYear y = l) (h1 : 1 ≤ m) (h2 : m < m') (h3 : m' ≤ 12) :
    jsMonthStart l (m - 1) + daysInMonth y m ≤ jsMonthStart l (m' - 1) := by
  unfold daysInMonth
  rw [hl]
  have h4 : m ≤ 11 := by omega
  interval_cases m <;> interval_cases m' <;> cases l <;> simp [jsMonthStart]

theorem monthStart_last (y m : ℤ) (h1 : 1 ≤ m) (h3 : m ≤ 12) :
    jsMonthStart (leapYear y) (m - 1) + daysInMonth y m ≤ 365 + (if leapYear y then 1 else 0) := by
  unfold daysInMonth
  interval_cases m <;> cases leapYear y <;> simp [jsMonthStart]

theorem monthStart_nonneg (l : Bool) (m : ℤ) : 0 ≤ jsMonthStart l m := by
  unfold jsMonthStart
  simp only
  have hc : (0 : ℤ) ≤ (if l = true then 1 else 0) := by cases l <;> simp
  generalize (if l = true then (1 : ℤ) else 0) = c at hc
  repeat' split
  all_goals omega

/-- dates in the order of the calendar have days in the same order -/
theorem epochDay_lt {f g : DtFields} (hf : f.Valid) (hg : g.Valid)
    (h : f.y < g.y ∨ (f.y = g.y ∧ (f.mo < g.mo ∨ (f.mo = g.mo ∧ f.d < g.d)))) : epochDay f < epochDay g := by
  have tf := daysBeforeMonth_table f.y f.mo hf.mo
  have tg := daysBeforeMonth_table g.y g.mo hg.mo
  obtain ⟨d1, d2⟩ := hf.d
  obtain ⟨d3, d4⟩ := hg.d
  obtain ⟨m1, m2⟩ := hf.mo
  obtain ⟨m3, m4⟩ := hg.mo
  unfold epochDay
  rw [tf, tg]
  rcases h with h | ⟨hy, h | ⟨hm, hd⟩⟩
  · have a1 := daysBeforeYear_mono (y := f.y + 1) (y' := g.y) (by omega)
    have a2 := year_days f.y
    have a3 := monthStart_last f.y f.mo m1 m2
    have a4 := monthStart_nonneg (leapYear g.y) (g.mo - 1)
    omega
  · have a1 := monthStart_step (leapYear f.y) f.y f.mo g.mo rfl m1 h m4
    rw [← hy]
    omega
  · rw [← hy, ← hm]
    omega

theorem epochDay_inj {f g : DtFields} (hf : f.Valid) (hg : g.Valid) (h : epochDay f = epochDay g) : f.y = g.y ∧ f.mo = g.mo ∧ f.d = g.d := by
  rcases lt_trichotomy f.y g.y with h1 | h1 | h1
  · have := epochDay_lt hf hg (.inl h1); omega
  · rcases lt_trichotomy f.mo g.mo with h2 | h2 | h2
    · have := epochDay_lt hf hg (.inr ⟨h1, .inl h2⟩); omega
    · rcases lt_trichotomy f.d g.d with h3 | h3 | h3
      · have := epochDay_lt hf hg (.inr ⟨h1, .inr ⟨h2, h3⟩⟩); omega
      · exact ⟨h1, h2, h3⟩
      · have := epochDay_lt hg hf (.inr ⟨h1.symm, .inr ⟨h2.symm, h3⟩⟩); omega
    · have := epochDay_lt hg hf (.inr ⟨h1.symm, .inl h2⟩); omega
  · have := epochDay_lt hg hf (.inl h1); omega

/-- **C345** (reading it back), partial: a clock showing the time of the position shows the date and the time of the item, up to the millisecond: no other
fields have the same position -/
theorem C345_read_back_partial (f g : DtFields) (hf : f.Valid) (hg : g.Valid) (hy : 100 ≤ f.y) (h : dgMillis f = wallMicros g / 1000) :
    g.y = f.y ∧ g.mo = f.mo ∧ g.d = f.d ∧ g.h = f.h ∧ g.mi = f.mi ∧ g.s = f.s ∧ g.us / 1000 = f.us / 1000 := by
  rw [dgMillis_eq f hf hy] at h
  obtain ⟨h1, h2⟩ := hf.h
  obtain ⟨h3, h4⟩ := hf.mi
  obtain ⟨h5, h6⟩ := hf.s
  obtain ⟨h7, h8⟩ := hf.us
  obtain ⟨g1, g2⟩ := hg.h
  obtain ⟨g3, g4⟩ := hg.mi
  obtain ⟨g5, g6⟩ := hg.s
  obtain ⟨g7, g8⟩ := hg.us
  unfold wallMicros at h
  have hd : epochDay f = epochDay g := by omega
  obtain ⟨e1, e2, e3⟩ := epochDay_inj hf hg hd
  refine ⟨e1.symm, e2.symm, e3.symm, ?_, ?_, ?_, ?_⟩ <;> omega

/-- the last day of the year 99 and the first of the year 100 -/
def year99 : DtFields := ⟨99, 12, 31, 0, 0, 0, 0⟩
def year100 : DtFields := ⟨100, 1, 1, 0, 0, 0, 0⟩

/-- **C345 is false** before the year 100: the last day of the year 99 is drawn at the last of 1999, after the first of the year 100 -/
theorem C345_false : dgMillis year99 = wallMicros { year99 with y := 1999 } / 1000 ∧ dgMillis year99 ≠ wallMicros year99 / 1000 ∧
    wallMicros year99 < wallMicros year100 ∧ dgMillis year100 < dgMillis year99 := by decide +kernel

/-- a concrete case: 29 February 2020, 13:45:30.0015 in a zone one hour ahead -/
def leapDay : AwareDt := ⟨⟨2020, 2, 29, 13, 45, 30, 1500⟩, 1582980330001500, 3600⟩

theorem leapDay_ok : leapDay.Ok := by
  refine ⟨⟨?_, ?_, ?_, ?_, ?_, ?_, ?_⟩, ?_⟩ <;> decide +kernel

example : dgMillis leapDay.fields = 1582983930001 := by decide +kernel

/-! ## C346 -/

/-- **C346**, partial: the items of a plot are drawn in the order of their instants as long as the clock is not set back between them, and at different
positions when a millisecond or more passes on the clock -/
theorem C346_order_partial (a b : AwareDt) (ha : a.Ok) (hb : b.Ok) (ya : 100 ≤ a.fields.y) (yb : 100 ≤ b.fields.y) :
    (a.instant ≤ b.instant → a.offset ≤ b.offset → dgMillis a.fields ≤ dgMillis b.fields) ∧
    (a.instant + 1000 ≤ b.instant → a.offset ≤ b.offset → dgMillis a.fields < dgMillis b.fields) ∧
    (dgMillis b.fields < dgMillis a.fields → a.instant < b.instant → b.offset < a.offset) := by
  rw [C345_wall_clock_partial a ha ya, C345_wall_clock_partial b hb yb]
  refine ⟨?_, ?_, ?_⟩ <;> intros <;> omega

/-- 27 October 2019 in Rome: the clock is set back from 3:00 to 2:00 -/
def beforeBack : AwareDt := ⟨⟨2019, 10, 27, 2, 30, 0, 0⟩, 1572136200000000, 7200⟩
def atBack : AwareDt := ⟨⟨2019, 10, 27, 2, 0, 0, 0⟩, 1572138000000000, 3600⟩
def afterBack : AwareDt := ⟨⟨2019, 10, 27, 2, 30, 0, 0⟩, 1572139800000000, 3600⟩

/-- **C346 is false** where the clock is set back: an item half an hour later is drawn half an hour earlier, and one an hour later at the same place -/
theorem C346_false : beforeBack.Ok ∧ atBack.Ok ∧ afterBack.Ok ∧ beforeBack.instant < atBack.instant ∧ atBack.instant < afterBack.instant ∧
    dgMillis atBack.fields < dgMillis beforeBack.fields ∧ dgMillis afterBack.fields = dgMillis beforeBack.fields := by
  refine ⟨⟨⟨?_, ?_, ?_, ?_, ?_, ?_, ?_⟩, ?_⟩, ⟨⟨?_, ?_, ?_, ?_, ?_, ?_, ?_⟩, ?_⟩, ⟨⟨?_, ?_, ?_, ?_, ?_, ?_, ?_⟩, ?_⟩, ?_, ?_, ?_, ?_⟩ <;> decide +kernel

/-! ## C347 -/

/-- the items are at whole milliseconds, the clocks have the offset and show the year 100 or a later one -/
structure MilliItems (loc : LocalFields) (offset : ℤ) (l : List Item) : Prop where
  item : ∀ x ∈ l, ∃ n : ℤ, x.t = (n : ℚ) / 1000 ∧ AwareDt.Ok ⟨loc x.tz x.t, n * 1000, offset⟩ ∧ 100 ≤ (loc x.tz x.t).y

/-- **C347**, partial: when the offset does not change and the items are at whole milliseconds, the axis of a plot without aggregation is that of the series shifted by
the offset: one position per item, the intervals between the items as they are -/
theorem C347_axis_partial (loc : LocalFields) (offset : ℤ) (l : List Item) (h : MilliItems loc offset l) :
    (plotAxis loc l).map (Int.cast : ℤ → ℚ) = l.map (fun x => (x.t + (offset : ℚ)) * 1000) ∧
    (l.Pairwise (fun (x y : Item) => x.t < y.t) → (plotAxis loc l).Pairwise (· < ·)) := by
  have key : ∀ x ∈ l, ((dgMillis (loc x.tz x.t) : ℤ) : ℚ) = (x.t + offset) * 1000 := by
    intro x hx
    obtain ⟨n, hn, hok, hy⟩ := h.item x hx
    have := C345_wall_clock_partial _ hok hy
    simp only at this
    have e : (n * 1000 + offset * 1000000) / 1000 = n + offset * 1000 := by omega
    rw [this, e, hn]
    push_cast
    ring
  constructor
  · unfold plotAxis
    rw [List.map_map]
    exact List.map_congr_left key
  · intro hp
    unfold plotAxis
    rw [List.pairwise_map]
    refine List.Pairwise.imp_of_mem ?_ hp
    intro x y hx hy hxy
    have := key x hx
    have := key y hy
    have : ((dgMillis (loc x.tz x.t) : ℤ) : ℚ) < ((dgMillis (loc y.tz y.t) : ℤ) : ℚ) := by linarith
    exact_mod_cast this

/-- a zone one hour ahead, on two instants -/
def twoInstants : LocalFields := fun _ t => if t = 0 then ⟨1970, 1, 1, 1, 0, 0, 0⟩ else ⟨1970, 1, 1, 1, 0, 1, 500000⟩

/-- two points, a second and a half apart -/
def twoClose : List Item := [mkPoint 0 (.num 1), mkPoint (3 / 2) (.num 2)]

theorem C347_witness : MilliItems twoInstants 3600 twoClose ∧ plotAxis twoInstants twoClose = [3600000, 3601500] := by
  refine ⟨⟨?_⟩, by decide +kernel⟩
  intro x hx
  simp only [twoClose, List.mem_cons, List.not_mem_nil, or_false] at hx
  rcases hx with rfl | rfl
  · refine ⟨0, by norm_num [mkPoint], ⟨⟨?_, ?_, ?_, ?_, ?_, ?_, ?_⟩, ?_⟩, ?_⟩ <;> decide +kernel
  · refine ⟨1500, by norm_num [mkPoint], ⟨⟨?_, ?_, ?_, ?_, ?_, ?_, ?_⟩, ?_⟩, ?_⟩ <;> decide +kernel

end Timeseria
