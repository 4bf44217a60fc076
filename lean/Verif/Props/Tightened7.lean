import Verif.Props.Order
import Verif.Props.Access
import Verif.Props.Reconstruct
import Verif.Props.Tightened6

/-! # Theorems added after testing the others against wrong programs (seventh round) -/

namespace Timeseria

/-- **C07 (which exception)**: in any series of slots built by appends, a slot of another unit, or of another time zone, is
refused with a `ValueError` and the series is left as it was. -/
theorem C07_refused (l : List Item) (s : TSeries) (hl : AllSlots l) (hne : l ≠ []) (hb : TSeries.build l = .ok s) (x : Item)
    (hx : x.isSlot = true) (hd : (∃ y ∈ l, y.unit ≠ x.unit) ∨ (∃ y ∈ l, y.tz ≠ x.tz)) :
    s.append x = (s, .error .valueError) := by
  have hit := build_items hb
  obtain ⟨u, z, hu, hz, hall⟩ := (build_slotInv hl hb).noUnit (by rw [hit]; exact hne)
  rw [hit] at hall
  have hpre : s.preSlot x = (s, .error .valueError) := by
    unfold TSeries.preSlot TSeries.getTz
    rw [hz]
    dsimp only
    by_cases hzx : z = x.tz
    · rw [if_neg (by simpa using hzx), hu]
      dsimp only
      rw [if_pos]
      rcases hd with ⟨y, hy, hne⟩ | ⟨y, hy, hne⟩
      · rw [← (hall y hy).1]; exact hne
      · exact absurd ((hall y hy).2.trans hzx) hne
    · rw [if_pos hzx]
  unfold TSeries.append
  rw [if_pos hx, hpre]

/-- an hour slot after two of a minute, and a slot of another zone -/
example : ∃ s, TSeries.build [{ t := 0, slot := some (60, TUnit.ofSecs 60), data := some (.num 1) },
      { t := 60, slot := some (120, TUnit.ofSecs 60), data := some (.num 1) }] = .ok s ∧
    (s.append { t := 120, slot := some (3720, TUnit.ofSecs 3600), data := some (.num 1) }).2 = .error .valueError ∧
    (s.append { t := 120, slot := some (180, TUnit.ofSecs 60), data := some (.num 1), tz := "Europe/Rome" }).2 =
      .error .valueError :=
  ⟨{ items := [{ t := 0, slot := some (60, TUnit.ofSecs 60), data := some (.num 1) },
      { t := 60, slot := some (120, TUnit.ofSecs 60), data := some (.num 1) }], tz := some "UTC",
     res := .unit (TUnit.ofSecs 60), ref := some (.num 1) }, by decide +kernel⟩

/-- **C14 (any bounds)**: the length of a view is the difference of its bounds, whatever they are, and asking for it raises
`ValueError` when they are inverted. -/
theorem C14_len (v : View) : (v.fromI ≤ v.toI → ∃ n : ℕ, v.len = .ok n ∧ (n : Int) = v.toI - v.fromI) ∧
    (v.toI < v.fromI → v.len = .error .valueError) := by
  unfold View.len
  refine ⟨fun h => ⟨(v.toI - v.fromI).toNat, by rw [if_neg (by omega)], by omega⟩, fun h => by rw [if_pos (by omega)]⟩

example : View.len { series := {}, fromI := 3, toI := 1 } = .error .valueError ∧
    View.len { series := {}, fromI := -2, toI := 5 } = .ok 7 := by decide +kernel

/-- **C13 (empty series)**: access by time raises `IndexError`, not `ValueError`, on a series without items. -/
theorem C13_empty (s : TSeries) (t : ℚ) : s.items = [] ↔ s.getAtT t = .error .indexError := by
  unfold TSeries.getAtT
  cases hi : s.items with
  | nil => exact ⟨fun _ => rfl, fun _ => rfl⟩
  | cons x r =>
    rw [if_neg (by simp)]
    refine ⟨fun h => by simp at h, fun h => ?_⟩
    exfalso
    have : ∀ l, findT t l ≠ .error .indexError := by
      intro l
      induction l with
      | nil => simp [findT]
      | cons y r ih => unfold findT; split <;> simp_all
    exact this _ h

/-- **C05/C07 (after `clear`)**: a series of points of varying resolution that is cleared keeps that resolution, and then refuses
every slot with a `ValueError`. -/
theorem C05_cleared_slots (s : TSeries) (hi : s.items = []) (hz : s.tz = none) (hr : s.res = .varying) (x : Item)
    (hx : x.isSlot = true) : (s.append x).2 = .error .valueError ∧ (s.append x).1.items = [] := by
  have hpre : s.preSlot x = ({ s with tz := some x.tz }, .error .valueError) := by
    unfold TSeries.preSlot TSeries.getTz
    rw [hz]
    dsimp only
    rw [hi]
    rw [hr, show detectTz none [] = none from rfl]
  unfold TSeries.append
  rw [if_pos hx, hpre]
  exact ⟨rfl, hi⟩

example : ∃ s, TSeries.build [{ t := 0, data := some (.num 1) }, { t := 60, data := some (.num 1) },
      { t := 200, data := some (.num 1) }] = .ok s ∧ ({ s with items := [] } : TSeries).tz = none ∧ s.res = .varying ∧
    ((({ s with items := [] } : TSeries).append { t := 0, slot := some (60, TUnit.ofSecs 60), data := some (.num 1) }).2 =
      .error .valueError) :=
  ⟨{ items := [{ t := 0, data := some (.num 1) }, { t := 60, data := some (.num 1) }, { t := 200, data := some (.num 1) }],
     prevT := some 200, res := .varying, resS := none, ref := some (.num 1) }, by decide +kernel⟩

/-- **C115 (which exception)**: a model that predicts a list of dictionaries (as the linear interpolation one does) cannot be
evaluated: as soon as an area can be used the evaluation raises `TypeError`. -/
theorem C115_type_false {pred : Predictor} {l : List Item} {k : String} {W : ℕ} {th : ℚ} {s : ℕ}
    (hd : ∀ x ∈ l, ∃ d v, x.data = some (.dict d) ∧ d.get? k = some v)
    (hp : ∀ i, usable l W th s i = true → ∃ ds, pred l i (i + s - 1) = .ok (.dicts ds))
    (hu : ∃ i, i < l.length ∧ usable l W th s i = true) :
    evalValues pred l k W th none s = .error .typeError := by
  have hd' : ∀ x ∈ l, x.data ≠ none := by
    intro x hx
    obtain ⟨d, v, h, _⟩ := hd x hx
    rw [h]; simp
  have harea : ∀ i, usable l W th s i = true → evalArea pred l k s i = .error .typeError := by
    intro i hi
    obtain ⟨ds, h1⟩ := hp i hi
    have hm : mapE (fun x => x.raw k) (span l i s) = .ok ((span l i s).map (fun x => (x.dictData.get? k).getD 0)) := by
      apply mapE_ok
      intro x hx
      obtain ⟨j, _, _, hj⟩ := mem_span hx
      obtain ⟨d, v, e1, e2⟩ := hd x (List.mem_of_getElem? hj)
      unfold Item.raw Item.dictData
      rw [e1]
      simp [e2]
    unfold evalArea
    rw [h1]
    dsimp only
    rw [hm]
    rfl
  have hloop : ∀ (is : List ℕ) (n : ℕ) (pv av : List ℚ), (∃ i ∈ is, usable l W th s i = true) →
      evalLoop pred l k W th none s is n pv av = .error .typeError := by
    intro is
    induction is with
    | nil => intro n pv av h; obtain ⟨i, hi, _⟩ := h; cases hi
    | cons i t ih =>
      intro n pv av h
      rw [evalLoop]
      simp only [limitReachedR, Bool.false_eq_true, if_false]
      rw [areaGood_ok hd' W th s i]
      cases hu : usable l W th s i with
      | false =>
        refine ih _ _ _ ?_
        obtain ⟨j, hj, hj'⟩ := h
        rcases List.mem_cons.mp hj with e | e
        · subst e; rw [hu] at hj'; cases hj'
        · exact ⟨j, e, hj'⟩
      | true =>
        dsimp only
        rw [harea i hu]
  unfold evalValues
  obtain ⟨i, hi, hi'⟩ := hu
  rw [hloop _ _ _ _ ⟨i, List.mem_range.mpr hi, hi'⟩]

/-- the linear interpolation model on five points without losses -/
example : (∃ i, i < 5 ∧ usable ((List.range 5).map (fun i => hourPoint i i 0)) 1 1 1 i = true) ∧
    (∀ i, usable ((List.range 5).map (fun i => hourPoint i i 0)) 1 1 1 i = true → i < 5) := by
  refine ⟨⟨1, by decide +kernel⟩, fun i hi => ?_⟩
  by_contra h
  unfold usable areaGood at hi
  have hi := of_decide_eq_true hi
  split at hi
  · cases hi
  · split at hi
    · cases hi
    · cases hi
    · rw [if_pos (by simp; omega)] at hi
      cases hi

/-- **C193 (unknown index type)**: with an index type that does not exist an anomaly detector scores the items whose errors are
out of the bounds without complaints, and raises `ValueError` on the others. -/
theorem C193_unknown_type {lg : ℚ → ℚ} {d : Detector} {c : AnomCfg} {k : String} {r : IndexRange} {actual predicted pe : ℚ}
    (hc : c.kind = .unknown) (he : predictionError d.metric actual predicted = .ok pe) :
    (r.xs < mirrored (d.loc k) pe ∧ mirrored (d.loc k) pe < r.xe ↔
      scoreValues lg d c k r actual predicted = .error .valueError) ∧
    (mirrored (d.loc k) pe ≤ r.xs → ∃ sc, scoreValues lg d c k r actual predicted = .ok sc ∧
      sc.index = withThreshold c.threshold 0) := by
  unfold scoreValues
  rw [he, hc]
  dsimp only
  unfold rawIndex
  refine ⟨⟨fun h => ?_, fun h => ?_⟩, fun h => ?_⟩
  · rw [if_neg (not_le.mpr h.1), if_neg (not_le.mpr h.2)]
  · by_cases h1 : mirrored (d.loc k) pe ≤ r.xs
    · rw [if_pos h1] at h; cases h
    · by_cases h2 : r.xe ≤ mirrored (d.loc k) pe
      · rw [if_neg h1, if_pos h2] at h; cases h
      · exact ⟨not_le.mp h1, not_le.mp h2⟩
  · rw [if_pos h]
    exact ⟨_, rfl, rfl⟩

/-- **C193 (no labels)**: with nothing to score (a detector whose bounds have no label) the highest and the lowest index of an item
are a `ValueError`, the average one a `ZeroDivisionError`. -/
theorem C193_no_labels {lg : ℚ → ℚ} {d : Detector} {c : AnomCfg} {pre : Option Predictions} {l : List Item} {i : ℕ} {x : Item} :
    scoreItem lg d c pre [] l i x = .error (if c.strategy = .avg then .zeroDivision else .valueError) := by
  unfold scoreItem
  rw [show mapE (scoreLabel lg d c pre l i x) [] = .ok [] from rfl]
  unfold combineIndexes
  cases hs : c.strategy <;> simp [pyMinList, pyMaxList, pyDiv]

end Timeseria
