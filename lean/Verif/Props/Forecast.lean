import Verif.Model.Forecast
import Verif.Lemmas.Duplicate
import Verif.Props.Access
import Verif.Props.Order
import Verif.Props.Reconstruct

/-! # Forecasts (C65, C122-C125) -/

namespace Timeseria

/-! ## Specification -/

/-- the forecasts that follow the timestamp `t` with a spacing of `d` seconds -/
def pointForecasts (tz : String) (t d : ℚ) (ds : List (Dict ℚ)) : List Item :=
  ds.mapIdx (fun k v => mkPoint (t + (k + 1) * d) (.dict v) tz [("forecast", some 1)])

/-- a forecast slot -/
def slotForecast (a b : ℚ) (u : TUnit) (tz : String) (v : Dict ℚ) : Item where
  t := a
  slot := some (b, u)
  tz := tz
  data := some (.dict v)
  idx := [("data_loss", none), ("forecast", some 1)]

/-- the forecasts that follow the slot ending in `e`: each starts where the previous one ends and lasts
one unit of the calendar -/
def slotForecasts (cal : Calendar) (u : TUnit) (tz : String) (e : ℚ) (ds : List (Dict ℚ)) : List Item :=
  ds.mapIdx (fun k v => slotForecast ((cal.shift u tz)^[k] e) ((cal.shift u tz)^[k + 1] e) u tz v)

/-- `ds` is what the forecaster predicts for `n` steps after `l`: at once, or one step at a time if it
does not support several steps, each step being predicted from the series with the earlier forecasts -/
def PredictedBy (pred : FPredictor) (l : List Item) (fs : List Item) (n : ℕ) (ds : List (Dict ℚ)) : Prop :=
  ds.length = n ∧
  ((∃ s, s.items = l ∧ pred s n = .ok (.many ds)) ∨
   (∃ s d, s.items = l ∧ pred s n = .ok (.one d) ∧ ds = [d]) ∨
   ((∃ s, s.items = l ∧ pred s n = .error .notImplemented) ∧
     ∀ k d, ds[(k : ℕ)]? = some d → ∃ s, s.items = l ++ fs.take k ∧ pred s 1 = .ok (.one d)))

/-! ## Proofs -/

theorem pointForecasts_cons (tz : String) (t d : ℚ) (v : Dict ℚ) (ds : List (Dict ℚ)) :
    pointForecasts tz t d (v :: ds) =
      mkPoint (t + d) (.dict v) tz [("forecast", some 1)] :: pointForecasts tz (t + d) d ds := by
  unfold pointForecasts
  rw [List.mapIdx_cons]
  congr 1
  · simp
  · apply List.mapIdx_eq_mapIdx_iff.2
    intro i hi
    congr 1
    push_cast
    ring

theorem slotForecasts_cons (cal : Calendar) (u : TUnit) (tz : String) (e : ℚ) (v : Dict ℚ) (ds : List (Dict ℚ)) :
    slotForecasts cal u tz e (v :: ds) =
      slotForecast e (cal.shift u tz e) u tz v :: slotForecasts cal u tz (cal.shift u tz e) ds := by
  unfold slotForecasts
  rw [List.mapIdx_cons]
  congr 1

/-- the loop over the predictions, for points -/
theorem forecastList_points {cal : Calendar} {z : String} {u : TUnit} : ∀ (ds : List (Dict ℚ)) (last : Item),
    ∃ l, forecastList cal false (some z) (.unit u) last ds = .ok l ∧
      l.map (markForecast 1) = pointForecasts z last.t u.secs ds := by
  intro ds
  induction ds with
  | nil => intro last; exact ⟨[], rfl, rfl⟩
  | cons d r ih =>
    intro last
    obtain ⟨l, hl, hm⟩ := ih (mkPoint (last.t + u.secs) (.dict d) z)
    refine ⟨mkPoint (last.t + u.secs) (.dict d) z :: l, ?_, ?_⟩
    · rw [forecastList]
      simp only [forecastItem, forecastPoint, addRes, Option.getD, Bool.false_eq_true, if_false]
      rw [hl]
    · rw [List.map_cons, hm, pointForecasts_cons]
      rfl

/-- a forecast slot before it is marked -/
def rawSlot (a b : ℚ) (u : TUnit) (tz : String) (v : Dict ℚ) : Item where
  t := a
  slot := some (b, u)
  tz := tz
  data := some (.dict v)
  idx := [("data_loss", none)]

/-- the loop over the predictions, for slots -/
theorem forecastList_slots {cal : Calendar} {tz : Option String} {z : String} {u : TUnit} :
    ∀ (ds : List (Dict ℚ)) (last : Item) (e : ℚ) (w : TUnit), last.slot = some (e, w) → last.tz = z →
    ∃ l, forecastList cal true tz (.unit u) last ds = .ok l ∧
      l.map (markForecast 1) = slotForecasts cal u z e ds := by
  intro ds
  induction ds with
  | nil => intro last e w _ _; exact ⟨[], rfl, rfl⟩
  | cons d r ih =>
    intro last e w hs hz
    obtain ⟨l, hl, hm⟩ := ih (rawSlot e (cal.shift u z e) u z d) _ _ rfl rfl
    refine ⟨rawSlot e (cal.shift u z e) u z d :: l, ?_, ?_⟩
    · rw [forecastList]
      have e1 : forecastItem cal true tz (.unit u) last d = .ok (rawSlot e (cal.shift u z e) u z d) := by
        simp only [forecastItem, forecastSlot, hs, mkTimeSlot, Res.toUnit, hz, if_true]
        rfl
      rw [e1]
      dsimp only
      rw [hl]
    · rw [List.map_cons, hm, slotForecasts_cons]
      rfl

theorem append_ok_items {s s' : TSeries} {x : Item} (h : s.append x = (s', .ok ())) : s'.items = s.items ++ [x] := by
  rcases append_items s x with ⟨e, he, _⟩ | ⟨hok, hi, _⟩
  · rw [h] at he; simp at he
  · rw [h] at hi; exact hi

/-! ### time zones -/

theorem detectTz_snoc : ∀ (l : List Item) (d z : String) (x : Item), detectTz (some d) l = some z → x.tz = z →
    (d = z ∨ ∃ y ∈ l, y.tz ≠ d) → detectTz (some d) (l ++ [x]) = some z := by
  intro l
  induction l with
  | nil =>
    intro d z x h hx _
    simp [detectTz] at h ⊢
    simp [hx, h]
  | cons y r ih =>
    intro d z x h hx hd
    rw [List.cons_append]
    rw [detectTz] at h ⊢
    by_cases hy : y.tz ≠ d
    · rw [if_pos hy] at h ⊢
      exact h
    · rw [if_neg hy] at h ⊢
      refine ih d z x h hx ?_
      rcases hd with hd | ⟨w, hw, hn⟩
      · exact Or.inl hd
      · rcases List.mem_cons.1 hw with rfl | hw
        · exact absurd hn hy
        · exact Or.inr ⟨w, hw, hn⟩

theorem detectTz_of_same : ∀ (l : List Item) (d : String), (∀ y ∈ l, y.tz = d) → detectTz (some d) l = some d := by
  intro l
  induction l with
  | nil => intro d _; rfl
  | cons y r ih =>
    intro d h
    rw [detectTz, if_neg (by simp [h y])]
    exact ih d (fun w hw => h w (by simp [hw]))

theorem getTz_snoc {s s' : TSeries} {x : Item} {z : String} (hz : s.getTz = some z) (hne : s.items ≠ [])
    (hx : x.tz = z) (htz : s'.tz = s.tz) (hi : s'.items = s.items ++ [x]) : s'.getTz = some z := by
  unfold TSeries.getTz at hz ⊢
  rw [htz]
  cases ht : s.tz with
  | some w => rw [ht] at hz; exact hz
  | none =>
    rw [ht] at hz
    dsimp only at hz ⊢
    rw [hi]
    cases hl : s.items with
    | nil => exact absurd hl hne
    | cons y r =>
      rw [hl] at hz
      rw [List.cons_append]
      rw [detectTz] at hz ⊢
      refine detectTz_snoc r y.tz z x hz hx ?_
      by_cases h : ∀ w ∈ r, w.tz = y.tz
      · left
        rw [detectTz_of_same r y.tz h] at hz
        simpa using hz
      · right
        push Not at h
        exact h

theorem append_point_tz {s s' : TSeries} {x : Item} (hx : x.isSlot = false) (h : s.append x = (s', .ok ())) :
    s'.tz = s.tz := by
  have hok : (s.append x).2 = .ok () := by rw [h]
  have hst := append_state_ok s x hok
  have h12 := (append_ok_iff s x).1 hok
  have hpre : s.pre x = s.prePoint x := by simp [TSeries.pre, hx]
  rw [hpre] at hst h12
  rcases baseAppend_spec (s.prePoint x).1 x with ⟨e', h1, _⟩ | ⟨_, hb, _, _, _⟩
  · rw [h12.2] at h1; cases h1
  rw [hb] at hst
  have hs' : s' = (s.append x).1 := by rw [h]
  rw [hs', hst]
  exact prePoint_tz s x

/-! ### one step at a time -/

/-- a point series and the time zone it reports -/
structure PointsAt (s : TSeries) (z : String) : Prop where
  points : s.ofSlots = false
  ne : s.items ≠ []
  tz : s.getTz = some z

theorem pointsAt_append {s s' : TSeries} {z : String} {x : Item} (h : PointsAt s z) (hx : x.isSlot = false)
    (hxz : x.tz = z) (ha : s.append x = (s', .ok ())) : PointsAt s' z := by
  have hi := append_ok_items ha
  refine ⟨?_, by rw [hi]; simp, getTz_snoc h.tz h.ne hxz (append_point_tz hx ha) hi⟩
  have hp := h.points
  unfold TSeries.ofSlots at hp ⊢
  rw [hi]
  cases hl : s.items with
  | nil => exact absurd hl h.ne
  | cons y r => rw [hl] at hp; simpa using hp

theorem forecast_points_one {cal : Calendar} {c : FCfg} {pred : FPredictor} {s : TSeries} {z : String} {u : TUnit}
    {n : ℕ} {x last : Item} (h : PointsAt s z) (hl : s.items.getLast? = some last) (hc : c.resolution = some (.unit u))
    (hf : forecast cal c pred s n = .ok (.one x)) :
    ∃ d, pred s n = .ok (.one d) ∧ markForecast 1 x = mkPoint (last.t + u.secs) (.dict d) z [("forecast", some 1)] := by
  unfold forecast at hf
  split at hf
  · cases hf
  · split at hf
    · cases hf
    · rename_i p hp
      unfold itemsFrom at hf
      rw [hl] at hf
      dsimp only at hf
      cases p with
      | many ds =>
        dsimp only at hf
        split at hf <;> simp at hf
      | one d =>
        refine ⟨d, hp, ?_⟩
        have e : singleRes c s = .ok (.unit u) := by
          unfold singleRes
          rw [h.points, hc]
          rfl
        dsimp only at hf
        rw [e, h.points, h.tz] at hf
        simp only [forecastItem, forecastPoint, addRes, Option.getD] at hf
        simp at hf
        rw [← hf]
        rfl

theorem applyByStep_points {cal : Calendar} {c : FCfg} {pred : FPredictor} {z : String} {u : TUnit}
    (hc : c.resolution = some (.unit u)) : ∀ (n : ℕ) (s s' : TSeries) (last : Item), PointsAt s z →
    s.items.getLast? = some last → applyByStep cal c pred n s = (s', .ok ()) →
    ∃ ds : List (Dict ℚ), ds.length = n ∧ s'.items = s.items ++ pointForecasts z last.t u.secs ds ∧
      ∀ k d, ds[(k : ℕ)]? = some d →
        ∃ q : TSeries, q.items = s.items ++ (pointForecasts z last.t u.secs ds).take k ∧ pred q 1 = .ok (.one d) := by
  intro n
  induction n with
  | zero =>
    intro s s' last _ _ h
    simp [applyByStep] at h
    refine ⟨[], rfl, by rw [← h]; simp [pointForecasts], ?_⟩
    intro k d hk
    simp at hk
  | succ n ih =>
    intro s s' last hp hl h
    rw [applyByStep] at h
    cases hf : forecast cal c pred s 1 with
    | error e => rw [hf] at h; simp at h
    | ok r =>
      rw [hf] at h
      cases r with
      | many l => simp at h
      | one x =>
        dsimp only at h
        obtain ⟨d, hd, hx⟩ := forecast_points_one hp hl hc hf
        rw [hx] at h
        split at h
        · simp at h
        · rename_i s1 ha
          obtain ⟨ds, hlen, hit, hds⟩ := ih s1 s' (mkPoint (last.t + u.secs) (.dict d) z [("forecast", some 1)])
            (pointsAt_append hp rfl rfl ha) (by rw [append_ok_items ha]; simp) h
          refine ⟨d :: ds, by simp [hlen], ?_, ?_⟩
          · rw [hit, append_ok_items ha, pointForecasts_cons, List.append_assoc]
            rfl
          · intro k d' hk
            cases k with
            | zero =>
              simp at hk
              exact ⟨s, by simp, by rw [← hk]; exact hd⟩
            | succ k =>
              simp at hk
              obtain ⟨q, hq, hqp⟩ := hds k d' hk
              refine ⟨q, ?_, hqp⟩
              rw [hq, append_ok_items ha, pointForecasts_cons, List.take_succ_cons, List.append_assoc]
              rfl

theorem markForecast_isSlot (v : ℚ) (x : Item) : (markForecast v x).isSlot = x.isSlot := rfl

theorem prePoint_ni (s : TSeries) (x : Item) : (s.prePoint x).2 ≠ .error .notImplemented := by
  unfold TSeries.prePoint
  dsimp only
  repeat' split
  all_goals simp

theorem preSlot_ni (s : TSeries) (x : Item) : (s.preSlot x).2 ≠ .error .notImplemented := by
  unfold TSeries.preSlot
  dsimp only
  repeat' split
  all_goals simp

theorem checkData_ni (r : Data) (x : Item) : checkData r x ≠ .error .notImplemented := by
  unfold checkData
  repeat' split
  all_goals simp

theorem baseAppend_ni (s : TSeries) (x : Item) : (s.baseAppend x).2 ≠ .error .notImplemented := by
  unfold TSeries.baseAppend
  repeat' split
  all_goals first
    | (simp; done)
    | (rename_i e he
       intro hh
       dsimp only at hh
       exact checkData_ni _ _ (he.trans hh))

theorem append_ni (s : TSeries) (x : Item) : (s.append x).2 ≠ .error .notImplemented := by
  unfold TSeries.append
  dsimp only
  by_cases hx : x.isSlot
  · simp only [hx, if_true]
    split
    · rename_i e he
      have := preSlot_ni s x
      rw [he] at this
      exact this
    · exact baseAppend_ni _ _
  · simp only [hx, Bool.false_eq_true, if_false]
    split
    · rename_i e he
      have := prePoint_ni s x
      rw [he] at this
      exact this
    · exact baseAppend_ni _ _

theorem appendAll_ni : ∀ (l : List Item) (t : TSeries), (t.appendAll l).2 ≠ .error .notImplemented := by
  intro l
  induction l with
  | nil => intro t; simp [TSeries.appendAll]
  | cons x r ih =>
    intro t
    rw [TSeries.appendAll]
    split
    · rename_i e he
      have := append_ni t x
      rw [he] at this
      exact this
    · exact ih _

theorem forecastItem_ni (cal : Calendar) (b : Bool) (tz : Option String) (r : Res) (last : Item) (d : Dict ℚ) :
    forecastItem cal b tz r last d ≠ .error .notImplemented := by
  unfold forecastItem
  split
  · unfold forecastSlot
    cases last.slot with
    | none => simp
    | some q =>
      obtain ⟨e, w⟩ := q
      cases r <;> simp [mkTimeSlot, Res.toUnit]
  · unfold forecastPoint
    cases r <;> simp [addRes]

theorem forecastList_ni (cal : Calendar) : ∀ (ds : List (Dict ℚ)) (b : Bool) (tz : Option String) (r : Res)
    (last : Item), forecastList cal b tz r last ds ≠ .error .notImplemented := by
  intro ds
  induction ds with
  | nil => intro b tz r last; simp [forecastList]
  | cons d ds ih =>
    intro b tz r last
    rw [forecastList]
    split
    · rename_i e he
      intro hh
      injection hh with hh
      exact forecastItem_ni cal b tz r last d (by rw [he, hh])
    · rename_i x hx
      split
      · rename_i e he
        intro hh
        injection hh with hh
        exact ih b tz r x (by rw [he, hh])
      · simp

theorem itemsFrom_ni (cal : Calendar) (c : FCfg) (s : TSeries) (p : FPred) :
    itemsFrom cal c s p ≠ .error .notImplemented := by
  unfold itemsFrom
  split
  · simp
  · split
    · split
      · rename_i e he
        intro hh
        injection hh with hh
        exact forecastList_ni _ _ _ _ _ _ (by rw [he, hh])
      · simp
    · split
      · rename_i e he
        unfold singleRes at he
        split at he
        · cases he
        · split at he <;> simp at he
          rw [← he]; simp
      · split
        · rename_i e he
          intro hh
          injection hh with hh
          exact forecastItem_ni _ _ _ _ _ _ (by rw [he, hh])
        · simp

/-- only the predictor itself leads to the forecasts one step at a time -/
theorem atOnce_ni {cal : Calendar} {c : FCfg} {pred : FPredictor} {s s' : TSeries} {n : ℕ}
    (h : applyAtOnce cal c pred s n = (s', .error .notImplemented)) (hcheck : checkTargets c s = .ok ()) :
    s' = s ∧ pred s n = .error .notImplemented := by
  unfold applyAtOnce at h
  cases hf : forecast cal c pred s n with
  | error e =>
    rw [hf] at h
    simp at h
    refine ⟨h.1.symm, ?_⟩
    unfold forecast at hf
    rw [hcheck] at hf
    dsimp only at hf
    cases hp : pred s n with
    | error e' => rw [hp] at hf; simp at hf; rw [hf, h.2]
    | ok p =>
      exfalso
      rw [hp] at hf
      dsimp only at hf
      rw [h.2] at hf
      exact itemsFrom_ni _ _ _ _ hf
  | ok r =>
    exfalso
    rw [hf] at h
    cases r with
    | one x => dsimp only at h; exact append_ni s _ (by rw [h])
    | many l => dsimp only at h; exact appendAll_ni _ s (by rw [h])

theorem forecast_points_many {cal : Calendar} {c : FCfg} {pred : FPredictor} {s : TSeries} {z : String} {u : TUnit}
    {n : ℕ} {l : List Item} {last : Item} (h : PointsAt s z) (hl : s.items.getLast? = some last) (hu : s.res = .unit u)
    (hf : forecast cal c pred s n = .ok (.many l)) :
    ∃ ds, pred s n = .ok (.many ds) ∧ l.map (markForecast 1) = pointForecasts z last.t u.secs ds := by
  unfold forecast at hf
  split at hf
  · cases hf
  · split at hf
    · cases hf
    · rename_i p hp
      unfold itemsFrom at hf
      rw [hl] at hf
      dsimp only at hf
      cases p with
      | one d =>
        dsimp only at hf
        split at hf
        · cases hf
        · split at hf <;> simp at hf
      | many ds =>
        refine ⟨ds, hp, ?_⟩
        obtain ⟨l', h1, h2⟩ := forecastList_points (cal := cal) (z := z) (u := u) ds last
        dsimp only at hf
        rw [h.points, h.tz, hu, h1] at hf
        simp at hf
        rw [← hf]
        exact h2

theorem pointForecasts_length (tz : String) (t d : ℚ) (ds : List (Dict ℚ)) :
    (pointForecasts tz t d ds).length = ds.length := by
  simp [pointForecasts]

theorem slotForecasts_length (cal : Calendar) (u : TUnit) (tz : String) (e : ℚ) (ds : List (Dict ℚ)) :
    (slotForecasts cal u tz e ds).length = ds.length := by
  simp [slotForecasts]

/-- applying the forecaster in place to a point series -/
theorem inplace_points {cal : Calendar} {c : FCfg} {pred : FPredictor} {s s' : TSeries} {z : String} {u : TUnit}
    {n : ℕ} {last : Item} (hp : PointsAt s z) (hl : s.items.getLast? = some last) (hu : s.res = .unit u)
    (hc : c.resolution = some (.unit u)) (h : forecastInplace cal c pred s n = (s', .ok ())) :
    ∃ ds, s'.items = s.items.map (markForecast 0) ++ pointForecasts z last.t u.secs ds ∧
      PredictedBy pred (s.items.map (markForecast 0)) (pointForecasts z last.t u.secs ds) n ds := by
  unfold forecastInplace at h
  split at h
  · simp at h
  rename_i hcheck
  generalize hs0 : ({ s with items := s.items.map (markForecast 0) } : TSeries) = s0 at h
  have hit0 : s0.items = s.items.map (markForecast 0) := by rw [← hs0]
  have hp0 : PointsAt s0 z := by
    refine ⟨?_, by rw [hit0]; simpa using hp.ne, ?_⟩
    · have := hp.points
      unfold TSeries.ofSlots at this ⊢
      rw [hit0]
      cases hl : s.items with
      | nil => rfl
      | cons y r => rw [hl] at this; simpa [markForecast_isSlot] using this
    · have := hp.tz
      have e : ∀ (l : List Item) (d : Option String), detectTz d (l.map (markForecast 0)) = detectTz d l := by
        intro l
        induction l with
        | nil => intro d; rfl
        | cons y r ih =>
          intro d
          cases d with
          | none => rw [List.map_cons, detectTz, detectTz, ih]; rfl
          | some d => rw [List.map_cons, detectTz, detectTz, ih]; rfl
      unfold TSeries.getTz at this ⊢
      rw [← hs0]
      dsimp only
      rw [e]
      exact this
  have hl0 : s0.items.getLast? = some (markForecast 0 last) := by rw [hit0, List.getLast?_map, hl]; rfl
  have hu0 : s0.res = .unit u := by rw [← hs0]; exact hu
  have hcheck0 : checkTargets c s0 = .ok () := by
    rw [← hcheck]
    unfold checkTargets
    have : (MSeries.ofSeries s0).labels = (MSeries.ofSeries s).labels := by
      unfold MSeries.labels MSeries.ofSeries
      rw [hit0]
      cases s.items with
      | nil => rfl
      | cons y r =>
        rw [List.map_cons]
        dsimp only
        rw [← hs0]
        rfl
    rw [this]
  split at h
  · simp at h
  rename_i s1 hsteps
  split at h
  · simp at h
  rename_i hlen
  simp at h hlen
  subst h
  unfold applySteps at hsteps
  rw [← hit0]
  split at hsteps
  · rename_i s2 e hat
    split at hsteps
    · rename_i he
      rw [he] at hat
      obtain ⟨rfl, hni⟩ := atOnce_ni hat hcheck0
      obtain ⟨ds, hds, hitems, hk⟩ := applyByStep_points hc n s2 s1 _ hp0 hl0 hsteps
      exact ⟨ds, hitems, hds, Or.inr (Or.inr ⟨⟨s2, rfl, hni⟩, hk⟩)⟩
    · simp at hsteps
  · rename_i s2 hat
    simp at hsteps
    subst hsteps
    unfold applyAtOnce at hat
    split at hat
    · simp at hat
    · rename_i x hf
      obtain ⟨d, hd, hx⟩ := forecast_points_one hp0 hl0 hc hf
      rw [hx] at hat
      have hi := append_ok_items hat
      refine ⟨[d], ?_, ?_, Or.inr (Or.inl ⟨s0, d, rfl, hd, rfl⟩)⟩
      · rw [hi, pointForecasts_cons]; rfl
      · rw [hi, hit0] at hlen
        simp at hlen
        simp [hlen]
    · rename_i l hf
      obtain ⟨ds, hd, hx⟩ := forecast_points_many hp0 hl0 hu0 hf
      rw [hx] at hat
      have hi := appendAll_ok_items s0 _ (by rw [hat])
      rw [hat] at hi
      dsimp only at hi
      refine ⟨ds, hi, ?_, Or.inl ⟨s0, rfl, hd⟩⟩
      rw [hi, hit0] at hlen
      simp [pointForecasts_length] at hlen
      exact hlen.symm

/-! ### slots -/

/-- a slot series of unit `u` in the time zone `z` -/
structure SlotsAt (s : TSeries) (z : String) (u : TUnit) : Prop where
  slots : s.ofSlots = true
  ne : s.items ≠ []
  res : s.res = .unit u

theorem preSlot_res {s : TSeries} {x : Item} {u : TUnit} (hu : s.res = .unit u) : (s.preSlot x).1.res = .unit u := by
  unfold TSeries.preSlot
  dsimp only
  simp only [hu]
  repeat' split
  all_goals first | exact hu | rfl

theorem append_slot_res {s s' : TSeries} {x : Item} {u : TUnit} (hx : x.isSlot = true) (hu : s.res = .unit u)
    (h : s.append x = (s', .ok ())) : s'.res = .unit u := by
  have hok : (s.append x).2 = .ok () := by rw [h]
  have hst := append_state_ok s x hok
  have h12 := (append_ok_iff s x).1 hok
  have hpre : s.pre x = s.preSlot x := by simp [TSeries.pre, hx]
  rw [hpre] at hst h12
  rcases baseAppend_spec (s.preSlot x).1 x with ⟨e', h1, _⟩ | ⟨_, hb, _, _, _⟩
  · rw [h12.2] at h1; cases h1
  rw [hb] at hst
  have hs' : s' = (s.append x).1 := by rw [h]
  rw [hs', hst]
  exact preSlot_res hu

theorem slotsAt_append {s s' : TSeries} {z : String} {u : TUnit} {x : Item} (h : SlotsAt s z u) (hx : x.isSlot = true)
    (ha : s.append x = (s', .ok ())) : SlotsAt s' z u := by
  have hi := append_ok_items ha
  refine ⟨?_, by rw [hi]; simp, append_slot_res hx h.res ha⟩
  have hp := h.slots
  unfold TSeries.ofSlots at hp ⊢
  rw [hi]
  cases hl : s.items with
  | nil => exact absurd hl h.ne
  | cons y r => rw [hl] at hp; simpa using hp

theorem forecast_slots_one {cal : Calendar} {c : FCfg} {pred : FPredictor} {s : TSeries} {z : String} {u w : TUnit}
    {n : ℕ} {e : ℚ} {x last : Item} (h : SlotsAt s z u) (hl : s.items.getLast? = some last)
    (hs : last.slot = some (e, w)) (hz : last.tz = z) (hf : forecast cal c pred s n = .ok (.one x)) :
    ∃ d, pred s n = .ok (.one d) ∧ markForecast 1 x = slotForecast e (cal.shift u z e) u z d := by
  unfold forecast at hf
  split at hf
  · cases hf
  · split at hf
    · cases hf
    · rename_i p hp
      unfold itemsFrom at hf
      rw [hl] at hf
      dsimp only at hf
      cases p with
      | many ds =>
        dsimp only at hf
        split at hf <;> simp at hf
      | one d =>
        refine ⟨d, hp, ?_⟩
        have e : singleRes c s = .ok (.unit u) := by
          unfold singleRes
          rw [h.slots, h.res]
          rfl
        dsimp only at hf
        rw [e, h.slots] at hf
        simp only [forecastItem, forecastSlot, hs, hz, mkTimeSlot, Res.toUnit, if_true] at hf
        simp at hf
        rw [← hf]
        rfl

theorem forecast_slots_many {cal : Calendar} {c : FCfg} {pred : FPredictor} {s : TSeries} {z : String} {u w : TUnit}
    {n : ℕ} {e : ℚ} {l : List Item} {last : Item} (h : SlotsAt s z u) (hl : s.items.getLast? = some last)
    (hs : last.slot = some (e, w)) (hz : last.tz = z) (hf : forecast cal c pred s n = .ok (.many l)) :
    ∃ ds, pred s n = .ok (.many ds) ∧ l.map (markForecast 1) = slotForecasts cal u z e ds := by
  unfold forecast at hf
  split at hf
  · cases hf
  · split at hf
    · cases hf
    · rename_i p hp
      unfold itemsFrom at hf
      rw [hl] at hf
      dsimp only at hf
      cases p with
      | one d =>
        dsimp only at hf
        split at hf
        · cases hf
        · split at hf <;> simp at hf
      | many ds =>
        refine ⟨ds, hp, ?_⟩
        obtain ⟨l', h1, h2⟩ := forecastList_slots (cal := cal) (tz := s.getTz) (z := z) (u := u) ds last e w hs hz
        dsimp only at hf
        rw [h.slots, h.res, h1] at hf
        simp at hf
        rw [← hf]
        exact h2

theorem applyByStep_slots {cal : Calendar} {c : FCfg} {pred : FPredictor} {z : String} {u : TUnit} :
    ∀ (n : ℕ) (s s' : TSeries) (last : Item) (e : ℚ) (w : TUnit), SlotsAt s z u →
    s.items.getLast? = some last → last.slot = some (e, w) → last.tz = z →
    applyByStep cal c pred n s = (s', .ok ()) →
    ∃ ds : List (Dict ℚ), ds.length = n ∧ s'.items = s.items ++ slotForecasts cal u z e ds ∧
      ∀ k d, ds[(k : ℕ)]? = some d →
        ∃ q : TSeries, q.items = s.items ++ (slotForecasts cal u z e ds).take k ∧ pred q 1 = .ok (.one d) := by
  intro n
  induction n with
  | zero =>
    intro s s' last e w _ _ _ _ h
    simp [applyByStep] at h
    refine ⟨[], rfl, by rw [← h]; simp [slotForecasts], ?_⟩
    intro k d hk
    simp at hk
  | succ n ih =>
    intro s s' last e w hp hl hs hz h
    rw [applyByStep] at h
    cases hf : forecast cal c pred s 1 with
    | error e => rw [hf] at h; simp at h
    | ok r =>
      rw [hf] at h
      cases r with
      | many l => simp at h
      | one x =>
        dsimp only at h
        obtain ⟨d, hd, hx⟩ := forecast_slots_one hp hl hs hz hf
        rw [hx] at h
        split at h
        · simp at h
        · rename_i s1 ha
          obtain ⟨ds, hlen, hit, hds⟩ := ih s1 s' (slotForecast e (cal.shift u z e) u z d) (cal.shift u z e) u
            (slotsAt_append hp rfl ha) (by rw [append_ok_items ha]; simp) rfl rfl h
          refine ⟨d :: ds, by simp [hlen], ?_, ?_⟩
          · rw [hit, append_ok_items ha, slotForecasts_cons, List.append_assoc]
            rfl
          · intro k d' hk
            cases k with
            | zero =>
              simp at hk
              exact ⟨s, by simp, by rw [← hk]; exact hd⟩
            | succ k =>
              simp at hk
              obtain ⟨q, hq, hqp⟩ := hds k d' hk
              refine ⟨q, ?_, hqp⟩
              rw [hq, append_ok_items ha, slotForecasts_cons, List.take_succ_cons, List.append_assoc]
              rfl

/-- applying the forecaster in place to a slot series -/
theorem inplace_slots {cal : Calendar} {c : FCfg} {pred : FPredictor} {s s' : TSeries} {z : String} {u w : TUnit}
    {n : ℕ} {e : ℚ} {last : Item} (hp : SlotsAt s z u) (hl : s.items.getLast? = some last)
    (hs : last.slot = some (e, w)) (hz : last.tz = z) (h : forecastInplace cal c pred s n = (s', .ok ())) :
    ∃ ds, s'.items = s.items.map (markForecast 0) ++ slotForecasts cal u z e ds ∧
      PredictedBy pred (s.items.map (markForecast 0)) (slotForecasts cal u z e ds) n ds := by
  unfold forecastInplace at h
  split at h
  · simp at h
  rename_i hcheck
  generalize hs0 : ({ s with items := s.items.map (markForecast 0) } : TSeries) = s0 at h
  have hit0 : s0.items = s.items.map (markForecast 0) := by rw [← hs0]
  have hp0 : SlotsAt s0 z u := by
    refine ⟨?_, by rw [hit0]; simpa using hp.ne, by rw [← hs0]; exact hp.res⟩
    have := hp.slots
    unfold TSeries.ofSlots at this ⊢
    rw [hit0]
    cases hl : s.items with
    | nil => rw [hl] at this; simp at this
    | cons y r => rw [hl] at this; simpa [markForecast_isSlot] using this
  have hl0 : s0.items.getLast? = some (markForecast 0 last) := by rw [hit0, List.getLast?_map, hl]; rfl
  have hcheck0 : checkTargets c s0 = .ok () := by
    rw [← hcheck]
    unfold checkTargets
    have : (MSeries.ofSeries s0).labels = (MSeries.ofSeries s).labels := by
      unfold MSeries.labels MSeries.ofSeries
      rw [hit0]
      cases s.items with
      | nil => rfl
      | cons y r =>
        rw [List.map_cons]
        dsimp only
        rw [← hs0]
        rfl
    rw [this]
  split at h
  · simp at h
  rename_i s1 hsteps
  split at h
  · simp at h
  rename_i hlen
  simp at h hlen
  subst h
  unfold applySteps at hsteps
  rw [← hit0]
  split at hsteps
  · rename_i s2 er hat
    split at hsteps
    · rename_i he
      rw [he] at hat
      obtain ⟨rfl, hni⟩ := atOnce_ni hat hcheck0
      obtain ⟨ds, hds, hitems, hk⟩ := applyByStep_slots n s2 s1 _ e w hp0 hl0 hs hz hsteps
      exact ⟨ds, hitems, hds, Or.inr (Or.inr ⟨⟨s2, rfl, hni⟩, hk⟩)⟩
    · simp at hsteps
  · rename_i s2 hat
    simp at hsteps
    subst hsteps
    unfold applyAtOnce at hat
    split at hat
    · simp at hat
    · rename_i x hf
      obtain ⟨d, hd, hx⟩ := forecast_slots_one hp0 hl0 hs hz hf
      rw [hx] at hat
      have hi := append_ok_items hat
      refine ⟨[d], ?_, ?_, Or.inr (Or.inl ⟨s0, d, rfl, hd, rfl⟩)⟩
      · rw [hi, slotForecasts_cons]; rfl
      · rw [hi, hit0] at hlen
        simp at hlen
        simp [hlen]
    · rename_i l hf
      obtain ⟨ds, hd, hx⟩ := forecast_slots_many hp0 hl0 hs hz hf
      rw [hx] at hat
      have hi := appendAll_ok_items s0 _ (by rw [hat])
      rw [hat] at hi
      dsimp only at hi
      refine ⟨ds, hi, ?_, Or.inl ⟨s0, rfl, hd⟩⟩
      rw [hi, hit0] at hlen
      simp [slotForecasts_length] at hlen
      exact hlen.symm

end Timeseria
