import Verif.Model.SharedZones
import Mathlib.Tactic

/-! # Time zones of series which share their points -/

namespace Timeseria

theorem zone_changeTz (ps : Points) (a b : ℕ) (z : String) : (ps.changeTz a z).zone b = if a = b ∧ b < ps.length then some z else ps.zone b := by
  unfold Points.zone Points.changeTz
  rw [List.getElem?_modify]
  by_cases h : a = b
  · subst h
    by_cases hl : a < ps.length
    · simp [hl]
    · simp [hl]
  · simp [h]

theorem changeTz_length (ps : Points) (a : ℕ) (z : String) : (ps.changeTz a z).length = ps.length := by unfold Points.changeTz; simp

theorem zoneLoop_length (z : String) (l : List ℕ) (ps : Points) : (zoneLoop z ps l).length = ps.length := by
  induction l generalizing ps with
  | nil => rfl
  | cons a l ih => unfold zoneLoop; rw [ih, changeTz_length]

theorem zone_zoneLoop (z : String) (l : List ℕ) (ps : Points) (b : ℕ) : (zoneLoop z ps l).zone b = if b ∈ l ∧ b < ps.length then some z else ps.zone b := by
  induction l generalizing ps with
  | nil => simp [zoneLoop]
  | cons a l ih =>
    unfold zoneLoop
    rw [ih, changeTz_length, zone_changeTz]
    by_cases h : b < ps.length
    · by_cases h1 : b ∈ l
      · simp [h, h1]
      · by_cases h2 : a = b
        · subst h2; simp [h]
        · simp [h, h1, h2, Ne.symm h2]
    · simp [h]

theorem changeTz_times (ps : Points) (a : ℕ) (z : String) : (ps.changeTz a z).map Prod.fst = ps.map Prod.fst := by
  unfold Points.changeTz
  apply List.ext_getElem? 
  intro i
  rw [List.getElem?_map, List.getElem?_map, List.getElem?_modify]
  by_cases h : a = i <;> simp [h, Function.comp_def]

theorem zoneLoop_times (z : String) (l : List ℕ) (ps : Points) : (zoneLoop z ps l).map Prod.fst = ps.map Prod.fst := by
  induction l generalizing ps with
  | nil => rfl
  | cons a l ih => unfold zoneLoop; rw [ih, changeTz_times]

/-! ## C313 -/

/-- three points in Berlin -/
def berlinPoints : Points := [(0, "Europe/Berlin"), (60, "Europe/Berlin"), (120, "Europe/Berlin")]
/-- a series of them -/
def berlinSeries : ZSeries := { items := [0, 1, 2] }

/-- **C313 is false**: moving a slice to another zone moves the points of the series it was taken from: the series then says it is in UTC, where none of its points is.  Once it has a zone of its own, it
keeps saying that one. -/
theorem C313_false :
    berlinSeries.getTz berlinPoints = some "Europe/Berlin" ∧
    ((berlinSeries.slice 0 2).changeTz berlinPoints "Europe/Rome").2.2 = .ok () ∧
    berlinSeries.items.map (((berlinSeries.slice 0 2).changeTz berlinPoints "Europe/Rome").1).zone = [some "Europe/Rome", some "Europe/Rome", some "Europe/Berlin"] ∧
    berlinSeries.getTz ((berlinSeries.slice 0 2).changeTz berlinPoints "Europe/Rome").1 = some "UTC" ∧
    ({ berlinSeries with tz := some "Europe/Berlin" } : ZSeries).getTz ((berlinSeries.slice 0 3).changeTz berlinPoints "Europe/Rome").1 = some "Europe/Berlin" := by
  refine ⟨?_, ?_, ?_, ?_, ?_⟩ <;> decide +kernel

/-- the zone of a point after calls of `change_tz` on series: that of the last of the calls on a series with the point, or else the one it had -/
def lastZone (a : ℕ) (z0 : Option String) (calls : List (List ℕ × String)) : Option String :=
  match (calls.filter (fun c => decide (a ∈ c.1))).getLast? with
  | some c => some c.2
  | none => z0

/-- **C313, partial (the points)**: after any calls of `change_tz` on series which may share their points, each point is on the zone of the last call on a series it is in, whichever this was, and the
points in none of them are as before; no time changes. -/
theorem C313_points_partial (ps : Points) (calls : List (List ℕ × String)) :
    (∀ a < ps.length, (zoneCalls ps calls).zone a = lastZone a (ps.zone a) calls) ∧ (zoneCalls ps calls).map Prod.fst = ps.map Prod.fst := by
  induction calls generalizing ps with
  | nil => exact ⟨fun a _ => rfl, rfl⟩
  | cons c r ih =>
    obtain ⟨h1, h2⟩ := ih (zoneLoop c.2 ps c.1)
    constructor
    · intro a ha
      unfold zoneCalls
      rw [h1 a (by rw [zoneLoop_length]; exact ha), zone_zoneLoop]
      unfold lastZone
      rw [List.filter_cons]
      by_cases hc : a ∈ c.1
      · simp only [hc, decide_true, if_true, ha, and_self]
        cases hr : (r.filter (fun c => decide (a ∈ c.1))).getLast? with
        | none => rw [List.getLast?_eq_none_iff] at hr; rw [hr]; rfl
        | some d =>
          rw [List.getLast?_cons, hr]; rfl
      · simp only [hc, decide_false, false_and, if_false]
        rfl
    · unfold zoneCalls; rw [h2, zoneLoop_times]

theorem zoneDetect_all (ps : Points) (z : String) (l : List ℕ) (h : ∀ a ∈ l, ps.zone a = some z) : zoneDetect ps (some z) l = some z := by
  induction l with
  | nil => rfl
  | cons a l ih =>
    unfold zoneDetect
    rw [if_neg (by simp [h a (by simp)]), ih (fun b hb => h b (by simp [hb]))]

/-- **C313, partial (the series)**: moving a series puts all its points and the series on the zone asked for, and this stays so through any later calls on series with none of its points. -/
theorem C313_series_partial (ps : Points) (s : ZSeries) (z : String) (hne : s.items ≠ []) (hv : ∀ a ∈ s.items, a < ps.length) (calls : List (List ℕ × String))
    (hc : ∀ c ∈ calls, ∀ a ∈ s.items, a ∉ c.1) :
    (s.changeTz ps z).2.2 = .ok () ∧ ((s.changeTz ps z).2.1).items = s.items ∧
    (∀ a ∈ s.items, (zoneCalls (s.changeTz ps z).1 calls).zone a = some z) ∧ ((s.changeTz ps z).2.1).getTz (zoneCalls (s.changeTz ps z).1 calls) = some z ∧
    ZSeries.getTz (zoneCalls (s.changeTz ps z).1 calls) { items := s.items } = some z := by
  have he : s.changeTz ps z = (zoneLoop z ps s.items, { s with tz := some z }, .ok ()) := by
    unfold ZSeries.changeTz
    rw [if_neg (by simpa using hne)]
  have hz : ∀ a ∈ s.items, (zoneCalls (zoneLoop z ps s.items) calls).zone a = some z := by
    intro a ha
    rw [(C313_points_partial _ calls).1 a (by rw [zoneLoop_length]; exact hv a ha)]
    unfold lastZone
    rw [List.filter_eq_nil_iff.2 (by intro c hc'; simpa using hc c hc' a ha)]
    rw [zone_zoneLoop]
    simp [ha, hv a ha]
  rw [he]
  refine ⟨rfl, rfl, hz, rfl, ?_⟩
  unfold ZSeries.getTz
  dsimp only
  cases hs : s.items with
  | nil => exact absurd hs hne
  | cons a l =>
    rw [hs] at hz
    unfold zoneDetect
    rw [← hs, show (zoneCalls (zoneLoop z ps s.items) calls).zone a = some z from by rw [hs]; exact hz a (by simp)]
    apply zoneDetect_all
    intro b hb
    rw [hs]
    exact hz b (by simp [hb])

/-- **C313, partial (copies)**: `as_tz` changes no point of any series made before: it works on copies. -/
theorem C313_copy_partial (ps : Points) (s : ZSeries) (z : String) (a : ℕ) (ha : a < ps.length) : (s.asTz ps z).1[a]? = ps[a]? := by
  unfold ZSeries.asTz ZSeries.changeTz
  split
  · rw [List.getElem?_append_left ha]
  · have key : ∀ (l : List ℕ) (qs : Points), (∀ b ∈ l, ps.length ≤ b) → qs[a]? = ps[a]? → (zoneLoop z qs l)[a]? = ps[a]? := by
      intro l
      induction l with
      | nil => intro qs _ h; exact h
      | cons b l ih =>
        intro qs hb h
        unfold zoneLoop
        apply ih _ (fun c hc => hb c (by simp [hc]))
        unfold Points.changeTz
        rw [List.getElem?_modify]
        have := hb b (by simp)
        have hn : ¬ b = a := by omega
        simp only [if_neg hn, h]
        simp
    apply key
    · intro b hb
      simp only [List.mem_range'_1] at hb
      exact hb.1
    · rw [List.getElem?_append_left ha]

theorem C313_witness : berlinSeries.items ≠ [] ∧ (∀ a ∈ berlinSeries.items, a < berlinPoints.length) ∧ lastZone 1 (some "UTC") [([0, 1], "Europe/Rome"), ([2], "UTC"), ([1], "Asia/Tokyo")] = some "Asia/Tokyo" := by
  refine ⟨by decide, by decide, by decide +kernel⟩

end Timeseria
