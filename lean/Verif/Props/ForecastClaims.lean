import Verif.Props.Forecast
import Verif.Lemmas.SlotBuild

/-! # What a forecaster returns, and when it succeeds (C65) -/

namespace Timeseria

/-- the item carries a dictionary with exactly the labels `ks` -/
def DictOver (ks : List String) (x : Item) : Prop :=
  ∃ d : Dict ℚ, x.data = some (.dict d) ∧ ∀ k, k ∈ d.keys ↔ k ∈ ks

/-- **C65 (points)**: applying a forecaster for `n` steps returns the items of the series, marked as not
forecast, followed by `n` points continuing the timestamps at the resolution of the series, marked as
forecast, whose data are the predictions.  The resolution stored in the model is the one of the series,
otherwise the call is refused (C57). -/
theorem C65_points {cal : Calendar} {c : FCfg} {pred : FPredictor} {l : List Item} {s s' : TSeries} {u : TUnit} {n : ℕ}
    {last : Item} (hp : AllPoints l) (hb : TSeries.build l = .ok s) (hl : l.getLast? = some last)
    (hu : s.res = .unit u) (hc : c.resolution = some (.unit u)) (h : forecastApply cal c pred s n = .ok s') :
    ∃ ds z, s.getTz = some z ∧ ds.length = n ∧
      s'.items = l.map (markForecast 0) ++ pointForecasts z last.t u.secs ds ∧
      PredictedBy pred (l.map (markForecast 0)) (pointForecasts z last.t u.secs ds) n ds := by
  unfold forecastApply at h
  rw [duplicate_build hb] at h
  dsimp only at h
  split at h
  · cases h
  rename_i s1 hin
  injection h with h
  subst h
  have hit := build_items hb
  have hne : l ≠ [] := by rintro rfl; simp at hl
  have hz : ∃ z, s.getTz = some z := by
    unfold TSeries.getTz
    cases ht : s.tz with
    | some z => exact ⟨z, rfl⟩
    | none =>
      dsimp only
      rw [hit]
      have e : ∀ (l : List Item) (d : String), ∃ z, detectTz (some d) l = some z := by
        intro l
        induction l with
        | nil => intro d; exact ⟨d, rfl⟩
        | cons y r ih =>
          intro d
          rw [detectTz]
          split
          · exact ⟨"UTC", rfl⟩
          · exact ih d
      cases l with
      | nil => exact absurd rfl hne
      | cons y r => rw [detectTz]; exact e r y.tz
  obtain ⟨z, hz⟩ := hz
  have hat : PointsAt s z := by
    refine ⟨?_, by rw [hit]; exact hne, hz⟩
    unfold TSeries.ofSlots
    rw [hit]
    cases l with
    | nil => rfl
    | cons y r => exact hp y (by simp)
  obtain ⟨ds, hds, hpred⟩ := inplace_points hat (by rw [hit]; exact hl) hu hc hin
  rw [hit] at hds hpred
  exact ⟨ds, z, hz, hpred.1, hds, hpred⟩

/-- **C65 (slots)**: the same for slots: the forecasts are slots of the unit of the series, each starting
where the previous one ends. -/
theorem C65_slots {cal : Calendar} {c : FCfg} {pred : FPredictor} {l : List Item} {s s' : TSeries} {n : ℕ}
    {last : Item} (hp : AllSlots l) (hb : TSeries.build l = .ok s) (hl : l.getLast? = some last)
    (h : forecastApply cal c pred s n = .ok s') :
    ∃ ds, ds.length = n ∧
      s'.items = l.map (markForecast 0) ++ slotForecasts cal last.unit last.tz last.endT ds ∧
      PredictedBy pred (l.map (markForecast 0)) (slotForecasts cal last.unit last.tz last.endT ds) n ds := by
  unfold forecastApply at h
  rw [duplicate_build hb] at h
  dsimp only at h
  split at h
  · cases h
  rename_i s1 hin
  injection h with h
  subst h
  have hit := build_items hb
  have hne : l ≠ [] := by rintro rfl; simp at hl
  have hmem : last ∈ l := List.mem_of_getLast? hl
  obtain ⟨u, z, hru, _, hall⟩ := (build_slotInv hp hb).noUnit (by rw [hit]; exact hne)
  have hlast := hall last (by rw [hit]; exact hmem)
  have hat : SlotsAt s last.tz last.unit := by
    refine ⟨?_, by rw [hit]; exact hne, by rw [hru, hlast.1]⟩
    unfold TSeries.ofSlots
    rw [hit]
    cases l with
    | nil => exact absurd rfl hne
    | cons y r => exact hp y (by simp)
  have hslot := hp last hmem
  obtain ⟨e, w, hs⟩ : ∃ e w, last.slot = some (e, w) := by
    unfold Item.isSlot at hslot
    cases hq : last.slot with
    | none => rw [hq] at hslot; simp at hslot
    | some q => exact ⟨q.1, q.2, rfl⟩
  have he : last.endT = e := by unfold Item.endT; rw [hs]
  obtain ⟨ds, hds, hpred⟩ := inplace_slots hat (by rw [hit]; exact hl) hs rfl hin
  rw [hit] at hds hpred
  rw [he]
  exact ⟨ds, hpred.1, hds, hpred⟩

/-- **C65 (the mark)**: marking changes nothing but the forecast index. -/
theorem C65_mark (v : ℚ) (x : Item) :
    (markForecast v x).t = x.t ∧ (markForecast v x).slot = x.slot ∧ (markForecast v x).tz = x.tz ∧
    (markForecast v x).data = x.data ∧ (markForecast v x).idx.get? "forecast" = some (some v) ∧
    ∀ k, k ≠ "forecast" → (markForecast v x).idx.get? k = x.idx.get? k := by
  refine ⟨rfl, rfl, rfl, rfl, ?_, ?_⟩
  · unfold markForecast
    simp [Dict.get?_set]
  · intro k hk
    unfold markForecast
    simp [Dict.get?_set, hk, Ne.symm hk]

/-! ## Success -/

theorem DictOver.has {ks : List String} {x : Item} (h : DictOver ks x) (hne : ks ≠ []) : HasData x := by
  obtain ⟨d, hd, hk⟩ := h
  refine ⟨.dict d, hd, ?_⟩
  cases ks with
  | nil => exact absurd rfl hne
  | cons k r =>
    have : k ∈ d.keys := (hk k).2 (by simp)
    cases d with
    | nil => simp [Dict.keys] at this
    | cons => rfl

theorem DictOver.same {ks : List String} {x y : Item} (hx : DictOver ks x) (hy : DictOver ks y) :
    ∀ d e, x.data = some d → y.data = some e → SameKind d e := by
  obtain ⟨d, hd, hdk⟩ := hx
  obtain ⟨e, he, hek⟩ := hy
  intro d' e' hd' he'
  rw [hd] at hd'
  rw [he] at he'
  injection hd' with hd'
  injection he' with he'
  subst hd' he'
  intro k
  rw [hdk, hek]

/-- a series of points ready to be extended -/
structure PointsReady (ks : List String) (s : TSeries) (last : Item) : Prop where
  clean : Clean s
  good : GoodPoints s.items
  over : ∀ x ∈ s.items, DictOver ks x
  inv : DataInv s
  last : s.items.getLast? = some last

theorem pointsReady_append {ks : List String} {s : TSeries} {last : Item} (hne : ks ≠ [])
    (h : PointsReady ks s last) {d : Dict ℚ} (hd : ∀ k, k ∈ d.keys ↔ k ∈ ks) {δ : ℚ} (hδ : 1 / 10000 ≤ δ) (z : String)
    (ix : Idx) :
    ∃ s', s.append (mkPoint (last.t + δ) (.dict d) z ix) = (s', .ok ()) ∧
      PointsReady ks s' (mkPoint (last.t + δ) (.dict d) z ix) := by
  generalize hx : mkPoint (last.t + δ) (.dict d) z ix = x
  have hxt : x.t = last.t + δ := by rw [← hx]; rfl
  have hxs : x.isSlot = false := by rw [← hx]; rfl
  have hxo : DictOver ks x := ⟨d, by rw [← hx]; rfl, hd⟩
  have hg : GoodPoints (s.items ++ [x]) := by
    have hover : ∀ y ∈ s.items ++ [x], DictOver ks y := by
      intro y hy
      rcases List.mem_append.1 hy with hy | hy
      · exact h.over y hy
      · rw [List.mem_singleton.1 hy]; exact hxo
    refine ⟨?_, ?_, fun y hy => (hover y hy).has hne, fun y hy w hw => (hover y hy).same (hover w hw)⟩
    · intro y hy
      rcases List.mem_append.1 hy with hy | hy
      · exact h.good.points y hy
      · rw [List.mem_singleton.1 hy]; exact hxs
    · rw [List.pairwise_append]
      refine ⟨h.good.spaced, by simp, ?_⟩
      intro y hy w hw
      rw [List.mem_singleton.1 hw, hxt]
      have hyl : y.t ≤ last.t := by
        obtain ⟨l', hl'⟩ := List.getLast?_eq_some_iff.1 h.last
        rw [hl'] at hy
        rcases List.mem_append.1 hy with hy | hy
        · have := h.good.spaced
          rw [hl', List.pairwise_append] at this
          have := this.2.2 y hy last (by simp)
          linarith
        · rw [List.mem_singleton.1 hy]
      linarith
  obtain ⟨s', hs'⟩ := accept_point h.clean h.inv hg
  have hit := append_ok_items hs'
  refine ⟨s', hs', (clean_append h.clean hxs hs').1, by rw [hit]; exact hg, ?_, ?_, by rw [hit]; simp⟩
  · intro y hy
    rw [hit] at hy
    rcases List.mem_append.1 hy with hy | hy
    · exact h.over y hy
    · rw [List.mem_singleton.1 hy]; exact hxo
  · have := data_append s x (hxo.has hne) h.inv
    rw [hs'] at this
    exact this

theorem appendAll_forecasts {ks : List String} (hne : ks ≠ []) {δ : ℚ} (hδ : 1 / 10000 ≤ δ) {z : String} :
    ∀ (ds : List (Dict ℚ)) (s : TSeries) (last : Item), PointsReady ks s last →
    (∀ d ∈ ds, ∀ k, k ∈ d.keys ↔ k ∈ ks) →
    ∃ s', s.appendAll (pointForecasts z last.t δ ds) = (s', .ok ()) := by
  intro ds
  induction ds with
  | nil => intro s last _ _; exact ⟨s, rfl⟩
  | cons d r ih =>
    intro s last h hd
    obtain ⟨s1, h1, hr⟩ := pointsReady_append hne h (hd d (by simp)) hδ z [("forecast", some 1)]
    obtain ⟨s2, h2⟩ := ih s1 _ hr (fun d' hd' => hd d' (by simp [hd']))
    refine ⟨s2, ?_⟩
    rw [pointForecasts_cons, TSeries.appendAll, h1]
    exact h2

/-- the series with its items marked -/
theorem marked_ready {ks : List String} {l : List Item} {s : TSeries} {last : Item} (hne : ks ≠ [])
    (hg : GoodPoints l) (ho : ∀ x ∈ l, DictOver ks x) (hb : TSeries.build l = .ok s) (hl : l.getLast? = some last) :
    PointsReady ks { s with items := s.items.map (markForecast 0) } (markForecast 0 last) := by
  have hit := build_items hb
  have hc := build_clean hg.points hb
  have hdi := build_dataInv (fun x hx => (ho x hx).has hne) hb
  have ht : times (s.items.map (markForecast 0)) = times s.items := by
    unfold times
    rw [List.map_map]
    rfl
  have hmem : ∀ y ∈ s.items.map (markForecast 0), ∃ x ∈ l, y = markForecast 0 x := by
    intro y hy
    obtain ⟨x, hx, rfl⟩ := List.mem_map.1 hy
    exact ⟨x, by rw [← hit]; exact hx, rfl⟩
  have hover : ∀ y ∈ s.items.map (markForecast 0), DictOver ks y := by
    intro y hy
    obtain ⟨x, hx, rfl⟩ := hmem y hy
    exact ho x hx
  constructor
  · constructor
    · dsimp only
      rw [List.getLast?_map, Option.map_map]
      exact hc.prev
    · dsimp only; rw [ht]; exact hc.res
    · dsimp only; rw [ht]; exact hc.resS
    · exact hc.tz
    · dsimp only; rw [ht]; exact hc.conv
  · refine ⟨?_, ?_, fun y hy => (hover y hy).has hne, fun y hy w hw => (hover y hy).same (hover w hw)⟩
    · intro y hy
      obtain ⟨x, hx, rfl⟩ := hmem y hy
      exact hg.points x hx
    · dsimp only
      rw [List.pairwise_map, hit]
      exact hg.spaced
  · exact hover
  · refine ⟨fun y hy => (hover y hy).has hne, ?_⟩
    intro hn
    obtain ⟨r, h1, h2, h3⟩ := hdi.ref (by intro h; apply hn; dsimp only; rw [h]; rfl)
    refine ⟨r, h1, h2, ?_⟩
    intro y hy e he
    obtain ⟨x, hx, rfl⟩ := hmem y hy
    exact h3 x (by rw [hit]; exact hx) e he
  · dsimp only
    rw [List.getLast?_map, hit, hl]
    rfl

theorem ofSlots_points {l : List Item} {s : TSeries} (h : AllPoints l) (hi : s.items = l.map (markForecast 0)) :
    s.ofSlots = false := by
  unfold TSeries.ofSlots
  rw [hi]
  cases l with
  | nil => rfl
  | cons y r => exact h y (by simp)

theorem applyByStep_ok {ks : List String} (hne : ks ≠ []) {cal : Calendar} {c : FCfg} {pred : FPredictor} {u : TUnit}
    (hδ : 1 / 10000 ≤ u.secs) (hc : c.resolution = some (.unit u)) (ht : c.targets = [])
    (hpred : ∀ q, ∃ d, pred q 1 = .ok (.one d) ∧ ∀ k, k ∈ d.keys ↔ k ∈ ks) :
    ∀ (n : ℕ) (s : TSeries) (last : Item), PointsReady ks s last →
      ∃ s', applyByStep cal c pred n s = (s', .ok ()) ∧ s'.items.length = s.items.length + n := by
  intro n
  induction n with
  | zero => intro s last _; exact ⟨s, rfl, rfl⟩
  | succ n ih =>
    intro s last h
    obtain ⟨d, hd, hk⟩ := hpred s
    obtain ⟨s1, h1, hr⟩ := pointsReady_append hne h hk hδ (s.getTz.getD "UTC") [("forecast", some 1)]
    obtain ⟨s2, h2, hlen⟩ := ih s1 _ hr
    have hslots : s.ofSlots = false := by
      unfold TSeries.ofSlots
      cases hh : s.items.head? with
      | none => rfl
      | some y => exact h.good.points y (List.mem_of_mem_head? hh)
    refine ⟨s2, ?_, ?_⟩
    · rw [applyByStep]
      have hf : forecast cal c pred s 1 = .ok (.one (mkPoint (last.t + u.secs) (.dict d) (s.getTz.getD "UTC"))) := by
        unfold forecast checkTargets
        rw [ht]
        dsimp only [List.isEmpty_nil]
        rw [if_pos rfl]
        dsimp only
        rw [hd]
        dsimp only
        unfold itemsFrom singleRes
        rw [h.last, hslots, hc]
        simp only [Bool.false_eq_true, if_false, forecastItem, forecastPoint, addRes]
      rw [hf]
      dsimp only
      have e : markForecast 1 (mkPoint (last.t + u.secs) (.dict d) (s.getTz.getD "UTC")) =
          mkPoint (last.t + u.secs) (.dict d) (s.getTz.getD "UTC") [("forecast", some 1)] := rfl
      rw [e, h1]
      exact h2
    · rw [hlen, append_ok_items h1]
      simp
      omega

/-- **C65 (success)**: if the forecaster returns one prediction per step with the labels of the series,
all at once or, when it does not support several steps, one by one, then applying it succeeds. -/
theorem C65_success {ks : List String} (hne : ks ≠ []) {cal : Calendar} {c : FCfg} {pred : FPredictor} {l : List Item}
    {s : TSeries} {u : TUnit} {n : ℕ} {last : Item} (hg : GoodPoints l) (ho : ∀ x ∈ l, DictOver ks x)
    (hb : TSeries.build l = .ok s) (hl : l.getLast? = some last) (hu : s.res = .unit u) (hδ : 1 / 10000 ≤ u.secs)
    (hc : c.resolution = some (.unit u)) (ht : c.targets = [])
    (hpred : (∃ ds, ds.length = n ∧ (∀ q, pred q n = .ok (.many ds)) ∧ ∀ d ∈ ds, ∀ k, k ∈ d.keys ↔ k ∈ ks) ∨
      ((∀ q, pred q n = .error .notImplemented) ∧
        ∀ q, ∃ d, pred q 1 = .ok (.one d) ∧ ∀ k, k ∈ d.keys ↔ k ∈ ks)) :
    ∃ s', forecastApply cal c pred s n = .ok s' := by
  have hit := build_items hb
  have hready := marked_ready hne hg ho hb hl
  generalize hs0 : ({ s with items := s.items.map (markForecast 0) } : TSeries) = s0 at hready
  have hit0 : s0.items = l.map (markForecast 0) := by rw [← hs0, ← hit]
  have hu0 : s0.res = .unit u := by rw [← hs0]; exact hu
  have hslots : s0.ofSlots = false := ofSlots_points hg.points hit0
  have hct : ∀ q, checkTargets c q = .ok () := by intro q; unfold checkTargets; rw [ht]; rfl
  have main : ∃ s', applySteps cal c pred s0 n = (s', .ok ()) ∧ s'.items.length = l.length + n := by
    rcases hpred with ⟨ds, hlen, hp, hk⟩ | ⟨hni, h1⟩
    · obtain ⟨fs, hfs, hm⟩ := forecastList_points (cal := cal) (z := s0.getTz.getD "UTC") (u := u) ds (markForecast 0 last)
      obtain ⟨s', hs'⟩ := appendAll_forecasts hne hδ (z := s0.getTz.getD "UTC") ds s0 _ hready hk
      have htz : forecastList cal false s0.getTz (.unit u) (markForecast 0 last) ds = .ok fs := by
        have e : ∀ (ds : List (Dict ℚ)) (w : Item), forecastList cal false s0.getTz (.unit u) w ds =
            forecastList cal false (some (s0.getTz.getD "UTC")) (.unit u) w ds := by
          intro ds
          induction ds with
          | nil => intro w; rfl
          | cons d r ih =>
            intro w
            rw [forecastList, forecastList]
            simp only [forecastItem, forecastPoint, addRes, Bool.false_eq_true, if_false, Option.getD_some, ih]
        rw [e]
        exact hfs
      refine ⟨s', ?_, ?_⟩
      · unfold applySteps applyAtOnce forecast
        rw [hct]
        dsimp only
        rw [hp]
        dsimp only
        unfold itemsFrom
        rw [hready.last]
        dsimp only
        rw [hslots, hu0, htz]
        dsimp only
        rw [hm, hs']
      · have := appendAll_ok_items s0 _ (by rw [hs'])
        rw [hs'] at this
        dsimp only at this
        rw [this, hit0]
        simp [pointForecasts_length, hlen]
    · obtain ⟨s', hs', hlen⟩ := applyByStep_ok (cal := cal) hne hδ hc ht h1 n s0 _ hready
      refine ⟨s', ?_, by rw [hlen, hit0]; simp⟩
      unfold applySteps applyAtOnce forecast
      rw [hct]
      dsimp only
      rw [hni]
      dsimp only
      rw [if_pos rfl]
      exact hs'
  obtain ⟨s', hs', hlen⟩ := main
  refine ⟨s', ?_⟩
  unfold forecastApply
  rw [duplicate_build hb]
  dsimp only
  unfold forecastInplace
  rw [hct]
  dsimp only
  rw [hs0, hs']
  dsimp only
  rw [hit, hlen]
  simp

/-- the series of the examples: three hourly points -/
def threeHours : List Item := [hourPoint 0 1 0, hourPoint 1 2 0, hourPoint 2 3 0]

/-- a forecaster that repeats 7, all at once -/
def sevenAtOnce : FPredictor := fun _ n => .ok (.many (List.replicate n [("v", 7)]))

/-- the same one step at a time -/
def sevenByStep : FPredictor := fun _ n => if n = 1 then .ok (.one [("v", 7)]) else .error .notImplemented

example : GoodPoints threeHours ∧ (∀ x ∈ threeHours, DictOver ["v"] x) := by
  have ho : ∀ x ∈ threeHours, DictOver ["v"] x := by
    intro x hx
    simp [threeHours] at hx
    rcases hx with rfl | rfl | rfl <;> exact ⟨_, rfl, by simp [Dict.keys]⟩
  refine ⟨⟨?_, ?_, fun x hx => (ho x hx).has (by simp), fun x hx y hy => (ho x hx).same (ho y hy)⟩, ho⟩
  · intro x hx
    simp [threeHours] at hx
    rcases hx with rfl | rfl | rfl <;> rfl
  · simp [threeHours, hourPoint, mkPoint]
    norm_num

/-- the resolution of the example is one hour and both forecasters extend it with 7, 7 -/
example :
    (TSeries.build threeHours).toOption.map (fun s => s.res) = some (.unit (TUnit.ofSecs 3600)) ∧
    ((TSeries.build threeHours).toOption.map (fun s =>
      ((forecastApply physicalCalendar ⟨[], some (.unit (TUnit.ofSecs 3600))⟩ sevenAtOnce s 2).toOption.map
        (fun r => r.items.map (fun x => (x.t, x.val? "v", x.idx.get? "forecast")))))) =
      some (some [(0, some 1, some (some 0)), (3600, some 2, some (some 0)), (7200, some 3, some (some 0)),
        (10800, some 7, some (some 1)), (14400, some 7, some (some 1))]) ∧
    ((TSeries.build threeHours).toOption.map (fun s =>
      ((forecastApply physicalCalendar ⟨[], some (.unit (TUnit.ofSecs 3600))⟩ sevenByStep s 2).toOption.map
        (fun r => r.items.map (fun x => (x.t, x.val? "v")))))) =
      some (some [(0, some 1), (3600, some 2), (7200, some 3), (10800, some 7), (14400, some 7)]) := by
  refine ⟨by decide +kernel, by decide +kernel, by decide +kernel⟩

/-- a slot of an hour -/
def hourSlot (i : ℕ) (v : ℚ) : Item where
  t := i * 3600
  slot := some ((i + 1) * 3600, TUnit.ofSecs 3600)
  tz := "UTC"
  data := some (.dict [("v", v)])
  idx := []

/-- and a slot series -/
example :
    ((TSeries.build [hourSlot 0 1, hourSlot 1 2]).toOption.map (fun s =>
      ((forecastApply physicalCalendar ⟨[], none⟩ sevenByStep s 2).toOption.map
        (fun r => r.items.map (fun x => (x.t, x.endT, x.val? "v")))))) =
      some (some [(0, 3600, some 1), (3600, 7200, some 2), (7200, 10800, some 7), (10800, 14400, some 7)]) := by
  decide +kernel

/-! ## C122: failed forecasts in place -/

/-- **C122 is false**: a forecaster that fails leaves its marks on the series it was applied to in
place, and the forecasts made before the failure stay in it. -/
theorem C122_failed_false : ∃ (s : TSeries) (pred : FPredictor), TSeries.build threeHours = .ok s ∧
    (forecastInplace physicalCalendar ⟨[], some (.unit (TUnit.ofSecs 3600))⟩ pred s 3).2 = .error .valueError ∧
    (forecastInplace physicalCalendar ⟨[], some (.unit (TUnit.ofSecs 3600))⟩ pred s 3).1.items.length = 5 ∧
    s.items.map (fun x => x.idx.get? "forecast") = [none, none, none] ∧
    (forecastInplace physicalCalendar ⟨[], some (.unit (TUnit.ofSecs 3600))⟩ pred s 3).1.items.map
      (fun x => x.idx.get? "forecast") = [some (some 0), some (some 0), some (some 0), some (some 1), some (some 1)] := by
  cases hb : TSeries.build threeHours with
  | error e =>
    have : (TSeries.build threeHours).toOption.isSome = true := by decide +kernel
    rw [hb] at this
    cases this
  | ok s =>
    have hs : s = ⟨threeHours, some 7200, .unit (TUnit.ofSecs 3600), some 3600, none, some (.dict [("v", 1)])⟩ := by
      have : TSeries.build threeHours =
          .ok ⟨threeHours, some 7200, .unit (TUnit.ofSecs 3600), some 3600, none, some (.dict [("v", 1)])⟩ := by
        decide +kernel
      rw [hb] at this
      injection this
    refine ⟨s, fun _ _ => .ok (.many (List.replicate 2 [("v", 7)])), rfl, ?_⟩
    subst hs
    refine ⟨by decide +kernel, by decide +kernel, by decide +kernel, by decide +kernel⟩

theorem applyByStep_items {cal : Calendar} {c : FCfg} {pred : FPredictor} : ∀ (n : ℕ) (s : TSeries),
    ∃ fs, (applyByStep cal c pred n s).1.items = s.items ++ fs := by
  intro n
  induction n with
  | zero => intro s; exact ⟨[], by simp [applyByStep]⟩
  | succ n ih =>
    intro s
    rw [applyByStep]
    split
    · exact ⟨[], by simp⟩
    · exact ⟨[], by simp⟩
    · rename_i x hf
      rcases append_items s (markForecast 1 x) with ⟨e, he, hi, _⟩ | ⟨hok, hi, _⟩
      · have : s.append (markForecast 1 x) = ((s.append (markForecast 1 x)).1, .error e) := Prod.ext rfl he
        rw [this]
        exact ⟨[], by rw [hi]; simp⟩
      · have : s.append (markForecast 1 x) = ((s.append (markForecast 1 x)).1, .ok ()) := Prod.ext rfl hok
        rw [this]
        obtain ⟨fs, hfs⟩ := ih (s.append (markForecast 1 x)).1
        exact ⟨markForecast 1 x :: fs, by dsimp only; rw [hfs, hi, List.append_assoc]; rfl⟩

theorem appendAll_prefix : ∀ (l : List Item) (s : TSeries), ∃ fs, (s.appendAll l).1.items = s.items ++ fs := by
  intro l
  induction l with
  | nil => intro s; exact ⟨[], by simp [TSeries.appendAll]⟩
  | cons x r ih =>
    intro s
    rw [TSeries.appendAll]
    rcases append_items s x with ⟨e, he, hi, _⟩ | ⟨hok, hi, _⟩
    · rw [he]
      exact ⟨[], by dsimp only; rw [hi]; simp⟩
    · rw [hok]
      obtain ⟨fs, hfs⟩ := ih (s.append x).1
      exact ⟨x :: fs, by dsimp only; rw [hfs, hi, List.append_assoc]; rfl⟩

/-- **C122 (part)**: whatever happens, the items that were in the series are still there, changed at most
in their forecast mark, and what is added comes after them. -/
theorem C122_kept_partial (cal : Calendar) (c : FCfg) (pred : FPredictor) (s : TSeries) (n : ℕ) :
    ((forecastInplace cal c pred s n).1 = s ∧ (forecastInplace cal c pred s n).2 ≠ .ok ()) ∨
    ∃ fs, (forecastInplace cal c pred s n).1.items = s.items.map (markForecast 0) ++ fs := by
  unfold forecastInplace
  split
  · left; simp
  · right
    have key : ∃ fs, (applySteps cal c pred { s with items := s.items.map (markForecast 0) } n).1.items =
        s.items.map (markForecast 0) ++ fs := by
      generalize hs0 : ({ s with items := s.items.map (markForecast 0) } : TSeries) = s0
      have hit0 : s0.items = s.items.map (markForecast 0) := by rw [← hs0]
      rw [← hit0]
      have hat : ∃ fs, (applyAtOnce cal c pred s0 n).1.items = s0.items ++ fs := by
        unfold applyAtOnce
        split
        · exact ⟨[], by simp⟩
        · rename_i x _
          have := appendAll_prefix [markForecast 1 x] s0
          rcases append_items s0 (markForecast 1 x) with ⟨e, he, hi, _⟩ | ⟨hok, hi, _⟩
          · exact ⟨[], by rw [hi]; simp⟩
          · exact ⟨[markForecast 1 x], hi⟩
        · exact appendAll_prefix _ s0
      obtain ⟨fs, hfs⟩ := hat
      unfold applySteps
      split
      · rename_i s' e he
        rw [he] at hfs
        dsimp only at hfs
        split
        · obtain ⟨gs, hgs⟩ := applyByStep_items (cal := cal) (c := c) (pred := pred) n s'
          exact ⟨fs ++ gs, by rw [hgs, hfs, List.append_assoc]⟩
        · exact ⟨fs, hfs⟩
      · rename_i s' he
        rw [he] at hfs
        exact ⟨fs, hfs⟩
    obtain ⟨fs, hfs⟩ := key
    split
    · rename_i s' e he
      rw [he] at hfs
      exact ⟨fs, hfs⟩
    · rename_i s' he
      rw [he] at hfs
      split
      · exact ⟨fs, hfs⟩
      · exact ⟨fs, hfs⟩

/-! ## C123: forecasters of one step -/

theorem labels_marked (s : TSeries) :
    (MSeries.ofSeries { s with items := s.items.map (markForecast 0) }).labels = (MSeries.ofSeries s).labels := by
  unfold MSeries.labels MSeries.ofSeries
  dsimp only
  cases s.items with
  | nil => rfl
  | cons y r => rfl

theorem checkTargets_marked (c : FCfg) (s : TSeries) :
    checkTargets c { s with items := s.items.map (markForecast 0) } = checkTargets c s := by
  unfold checkTargets
  rw [labels_marked]

/-- **C123 is false**: a forecaster that raises `NotImplementedError` for several steps and returns the
prediction of one step as a list (which the evaluation accepts) can never be applied. -/
theorem C123_list_false (cal : Calendar) (c : FCfg) (pred : FPredictor) (s : TSeries) (n : ℕ) (hn : 2 ≤ n)
    (hni : ∀ q, pred q n = .error .notImplemented) (h1 : ∀ q, ∃ d, pred q 1 = .ok (.many [d])) :
    ∃ e, (forecastInplace cal c pred s n).2 = .error e := by
  unfold forecastInplace
  cases hc : checkTargets c s with
  | error e => exact ⟨e, rfl⟩
  | ok _ =>
    dsimp only
    generalize hs0 : ({ s with items := s.items.map (markForecast 0) } : TSeries) = s0
    have hc0 : checkTargets c s0 = .ok () := by rw [← hs0, checkTargets_marked, hc]
    have hat : applyAtOnce cal c pred s0 n = (s0, .error .notImplemented) := by
      unfold applyAtOnce forecast
      rw [hc0]
      dsimp only
      rw [hni]
    have hst : ∃ e, applySteps cal c pred s0 n = (s0, .error e) := by
      unfold applySteps
      rw [hat]
      dsimp only
      rw [if_pos rfl]
      obtain ⟨m, rfl⟩ : ∃ m, n = m + 1 := ⟨n - 1, by omega⟩
      rw [applyByStep]
      obtain ⟨d, hd⟩ := h1 s0
      have : ∀ x, forecast cal c pred s0 1 ≠ .ok (.one x) := by
        intro x
        unfold forecast
        rw [hc0]
        dsimp only
        rw [hd]
        dsimp only
        unfold itemsFrom
        split
        · simp
        · dsimp only
          split <;> simp
      cases hf : forecast cal c pred s0 1 with
      | error e => exact ⟨e, rfl⟩
      | ok r =>
        cases r with
        | one x => exact absurd hf (this x)
        | many l => exact ⟨_, rfl⟩
    obtain ⟨e, he⟩ := hst
    rw [he]
    exact ⟨e, rfl⟩

/-- the concrete forecaster of the claim exists -/
example : ∃ pred : FPredictor, (∀ q, pred q 2 = .error .notImplemented) ∧ ∀ q, ∃ d, pred q 1 = .ok (.many [d]) :=
  ⟨fun _ n => if n = 1 then .ok (.many [[("v", 7)]]) else .error .notImplemented, fun _ => rfl, fun _ => ⟨_, rfl⟩⟩

/-- **C123 (part)**: if it returns the prediction of one step as a dictionary it can be applied for any
number of steps. -/
theorem C123_dict_partial {ks : List String} (hne : ks ≠ []) {cal : Calendar} {c : FCfg} {pred : FPredictor}
    {l : List Item} {s : TSeries} {u : TUnit} {n : ℕ} {last : Item} (hg : GoodPoints l) (ho : ∀ x ∈ l, DictOver ks x)
    (hb : TSeries.build l = .ok s) (hl : l.getLast? = some last) (hu : s.res = .unit u) (hδ : 1 / 10000 ≤ u.secs)
    (hc : c.resolution = some (.unit u)) (ht : c.targets = []) (hni : ∀ q, pred q n = .error .notImplemented)
    (h1 : ∀ q, ∃ d, pred q 1 = .ok (.one d) ∧ ∀ k, k ∈ d.keys ↔ k ∈ ks) :
    ∃ s', forecastApply cal c pred s n = .ok s' ∧ s'.items.length = l.length + n := by
  obtain ⟨s', hs'⟩ := C65_success hne hg ho hb hl hu hδ hc ht (Or.inr ⟨hni, h1⟩)
  obtain ⟨ds, z, _, hlen, hit, _⟩ := C65_points hg.points hb hl hu hc hs'
  exact ⟨s', hs', by rw [hit]; simp [pointForecasts_length, hlen]⟩

/-! ## C124, C125: evaluation -/

/-- **C124**: the evaluation compares, in order and once each, the value of every item from the window on
with a prediction for it; items before the window are not compared. -/
theorem C124_pairs {pred : VPredictor} {w : ℕ} {s : TSeries} {k : String} {r : List (ℚ × ℚ)}
    (h : evalPairs pred w s k = .ok r) :
    r.length = s.items.length - w ∧
    ∀ j a v, r[(j : ℕ)]? = some (a, v) → ∃ x, s.items[w + j]? = some x ∧ x.val? k = some a ∧
      ∃ p, pred ⟨s, 0, (w + j : ℕ), 0⟩ = .ok p ∧ predictedValue k p = .ok v := by
  unfold evalPairs at h
  have hf : (List.range s.items.length).filter (fun i => decide (w ≤ i)) =
      (List.range (s.items.length - w)).map (fun j => w + j) := by
    by_cases hw : w ≤ s.items.length
    · obtain ⟨m, hm⟩ : ∃ m, s.items.length = w + m := ⟨s.items.length - w, by omega⟩
      rw [hm, List.range_add, List.filter_append]
      have e1 : (List.range w).filter (fun i => decide (w ≤ i)) = [] := by
        rw [List.filter_eq_nil_iff]
        intro i hi
        simp at hi ⊢
        exact hi
      have e2 : ((List.range m).map (fun x => w + x)).filter (fun i => decide (w ≤ i)) =
          (List.range m).map (fun x => w + x) := by
        rw [List.filter_eq_self]
        intro i hi
        simp at hi ⊢
        obtain ⟨a, _, rfl⟩ := hi
        omega
      rw [e1, e2, List.nil_append]
      congr 2
      omega
    · have e1 : (List.range s.items.length).filter (fun i => decide (w ≤ i)) = [] := by
        rw [List.filter_eq_nil_iff]
        intro i hi
        simp at hi ⊢
        omega
      rw [e1]
      have : s.items.length - w = 0 := by omega
      rw [this]
      rfl
  rw [hf] at h
  have hall := mapE_ok_inv h
  have hlen := hall.length_eq
  simp at hlen
  refine ⟨hlen.symm, ?_⟩
  intro j a v hj
  have hjl : j < r.length := by
    rw [List.getElem?_eq_some_iff] at hj
    exact hj.1
  have hij := (List.forall₂_iff_get.1 hall).2 j (by simp; omega) hjl
  have hrj : r[j] = (a, v) := by
    rw [List.getElem?_eq_some_iff] at hj
    exact hj.2
  simp [hrj] at hij
  unfold evalPair at hij
  split at hij
  · cases hij
  rename_i a' ha
  split at hij
  · cases hij
  rename_i p hp
  split at hij
  · cases hij
  rename_i v' hv
  injection hij with hij
  injection hij with h1 h2
  subst h1 h2
  unfold actualValue at ha
  split at ha
  · cases ha
  rename_i x hx
  refine ⟨x, hx, ?_, p, by exact_mod_cast hp, hv⟩
  unfold itemValue at ha
  unfold Item.val?
  split at ha
  · rename_i d hd
    rw [hd]
    dsimp only
    unfold lookupE at ha
    split at ha
    · cases ha
    · rename_i v hv
      injection ha with ha
      rw [hv, ha]
  · cases ha
  · cases ha

/-- A predictor seen as a program reading the view it is given: at each point it is done, or reads an
item at a position and goes on with what it got. -/
inductive ViewProg where
  | done (r : Except PyErr FPred)
  | read (k : Int) (next : Except PyErr Item → ViewProg)

/-- running the program on a view -/
def ViewProg.run (v : View) : ViewProg → Except PyErr FPred
  | .done r => r
  | .read k next => (next (v.getAt k)).run v

/-- the item of a list at a Python position -/
def pyItem (l : List Item) (k : Int) : Option Item :=
  if 0 ≤ k then l[k.toNat]? else if 0 ≤ l.length + k then l[(l.length + k).toNat]? else none

/-- run on the list `l` the program reads valid positions only -/
inductive ViewProg.InBounds (l : List Item) : ViewProg → Prop
  | done (r : Except PyErr FPred) : ViewProg.InBounds l (.done r)
  | read (k : Int) (next : Except PyErr Item → ViewProg) (x : Item) (hx : pyItem l k = some x)
      (h : ViewProg.InBounds l (next (.ok x))) : ViewProg.InBounds l (.read k next)

theorem view_read {s : TSeries} {i : ℕ} (hi : i ≤ s.items.length) {k : Int} {x : Item}
    (hx : pyItem (s.items.take i) k = some x) : (View.getAt ⟨s, 0, i, 0⟩ k) = .ok x := by
  have hv : View.Valid ⟨s, 0, i, 0⟩ := ⟨le_refl _, by simp, by simpa using hi⟩
  have hsl : View.slice ⟨s, 0, i, 0⟩ = s.items.take i := by
    unfold View.slice
    simp
  obtain ⟨_, _, _, hpos, hneg⟩ := C14_view_reads_like_slice ⟨s, 0, i, 0⟩ hv
  unfold pyItem at hx
  split at hx
  · rename_i hk
    obtain ⟨m, rfl⟩ : ∃ m : ℕ, k = m := ⟨k.toNat, by omega⟩
    simp only [Int.toNat_natCast] at hx
    have hm := (List.getElem?_eq_some_iff.1 hx)
    obtain ⟨hlt, hmx⟩ := hm
    rw [hpos m (by rw [hsl]; exact hlt)]
    simp only [hsl]
    rw [hmx]
  · rename_i hk
    split at hx
    · rename_i hk2
      obtain ⟨m, rfl⟩ : ∃ m : ℕ, k = -(m : Int) := ⟨(-k).toNat, by omega⟩
      obtain ⟨hlt, hmx⟩ := List.getElem?_eq_some_iff.1 hx
      rw [hneg m (by rw [hsl]; constructor <;> omega)]
      simp only [hsl]
      rw [← hmx]
      congr 2
      omega
    · cases hx

/-- **C125 (part)**: a predictor that reads the view only at valid positions (which an empty view does not
have) predicts an item from the items before it only: the item itself and the later ones make no
difference. -/
theorem C125_preceding_partial {s s' : TSeries} {i : ℕ} (hi : i ≤ s.items.length) (hi' : i ≤ s'.items.length)
    (hsame : s.items.take i = s'.items.take i) {p : ViewProg} (hp : p.InBounds (s.items.take i)) :
    p.run ⟨s, 0, i, 0⟩ = p.run ⟨s', 0, i, 0⟩ := by
  induction hp with
  | done r => rfl
  | read k next x hx h ih =>
    rw [ViewProg.run, ViewProg.run, view_read hi hx, view_read hi' (by rw [← hsame]; exact hx)]
    exact ih

/-- predict the value of the last item seen -/
def lastSeen : ViewProg :=
  .read (-1) (fun r => .done (match r with
    | .ok x => .ok (.one [("v", (x.val? "v").getD 0)])
    | .error e => .error e))

example : lastSeen.InBounds (threeHours.take 2) := .read _ _ (hourPoint 1 2 0) rfl (.done _)

/-- **C125 is false**: with no window the first item is predicted from an empty view, whose last item is
the last item of the whole series: the evaluation of the forecaster repeating the last value compares the
first value, 1, with the value 3 of the last item. -/
theorem C125_first_false : ∃ s, TSeries.build threeHours = .ok s ∧
    evalPairs (fun v => lastSeen.run v) 0 s "v" = .ok [(1, 3), (2, 1), (3, 2)] ∧
    evalPairs (fun v => lastSeen.run v) 1 s "v" = .ok [(2, 1), (3, 2)] := by
  refine ⟨⟨threeHours, some 7200, .unit (TUnit.ofSecs 3600), some 3600, none, some (.dict [("v", 1)])⟩,
    by decide +kernel, by decide +kernel, by decide +kernel⟩

/-! ## C126: forecasters without a fit -/

/-- **C126 is false**: a forecaster without a fit that returns the prediction of a step as a dictionary
raises a `KeyError` on any series of points. -/
theorem C126_points_false {cal : Calendar} {pred : FPredictor} {l : List Item} {s : TSeries} {n : ℕ}
    (hp : AllPoints l) (hne : l ≠ []) (hb : TSeries.build l = .ok s) (h : ∀ q, ∃ d, pred q n = .ok (.one d)) :
    forecastApply cal {} pred s n = .error .keyError := by
  have hit := build_items hb
  unfold forecastApply
  rw [duplicate_build hb]
  dsimp only
  unfold forecastInplace
  have hct : ∀ q, checkTargets {} q = .ok () := fun q => rfl
  rw [hct]
  dsimp only
  generalize hs0 : ({ s with items := s.items.map (markForecast 0) } : TSeries) = s0
  have hit0 : s0.items = l.map (markForecast 0) := by rw [← hs0, ← hit]
  have hslots := ofSlots_points hp hit0
  obtain ⟨d, hd⟩ := h s0
  have hf : forecast cal {} pred s0 n = .error .keyError := by
    unfold forecast
    rw [hct]
    dsimp only
    rw [hd]
    dsimp only
    unfold itemsFrom
    cases hl : s0.items.getLast? with
    | none =>
      rw [hit0] at hl
      simp at hl
      exact absurd hl hne
    | some y =>
      dsimp only
      unfold singleRes
      rw [hslots]
      rfl
  have : applySteps cal {} pred s0 n = (s0, .error .keyError) := by
    unfold applySteps applyAtOnce
    rw [hf]
    rfl
  rw [this]

example : forecastApply physicalCalendar {} (fun _ _ => .ok (.one [("v", 7)]))
    ⟨threeHours, some 7200, .unit (TUnit.ofSecs 3600), some 3600, none, some (.dict [("v", 1)])⟩ 1 =
    .error .keyError := by decide +kernel

/-- **C126 (part)**: returning a list it can be applied. -/
theorem C126_list_partial {ks : List String} (hne : ks ≠ []) {cal : Calendar} {pred : FPredictor} {l : List Item}
    {s : TSeries} {u : TUnit} {n : ℕ} {last : Item} (hg : GoodPoints l) (ho : ∀ x ∈ l, DictOver ks x)
    (hb : TSeries.build l = .ok s) (hl : l.getLast? = some last) (hu : s.res = .unit u) (hδ : 1 / 10000 ≤ u.secs)
    {ds : List (Dict ℚ)} (hlen : ds.length = n) (hpred : ∀ q, pred q n = .ok (.many ds))
    (hk : ∀ d ∈ ds, ∀ k, k ∈ d.keys ↔ k ∈ ks) :
    ∃ s', forecastApply cal {} pred s n = .ok s' := by
  obtain ⟨s', hs'⟩ := C65_success (c := ⟨[], some (.unit u)⟩) (cal := cal) hne hg ho hb hl hu hδ rfl rfl
    (Or.inl ⟨ds, hlen, hpred, hk⟩)
  refine ⟨s', ?_⟩
  rw [← hs']
  have hf : ∀ q, forecast cal {} pred q n = forecast cal ⟨[], some (.unit u)⟩ pred q n := by
    intro q
    unfold forecast checkTargets
    dsimp only
    rw [hpred]
    rfl
  unfold forecastApply
  rw [duplicate_build hb]
  dsimp only
  unfold forecastInplace checkTargets
  dsimp only
  have : applySteps cal {} pred { s with items := s.items.map (markForecast 0) } n =
      applySteps cal ⟨[], some (.unit u)⟩ pred { s with items := s.items.map (markForecast 0) } n := by
    have hat : applyAtOnce cal {} pred { s with items := s.items.map (markForecast 0) } n =
      applyAtOnce cal ⟨[], some (.unit u)⟩ pred { s with items := s.items.map (markForecast 0) } n := by
      unfold applyAtOnce
      rw [hf]
    unfold applySteps
    rw [← hat]
    cases hx : applyAtOnce cal {} pred { s with items := s.items.map (markForecast 0) } n with
    | mk a b =>
      cases b with
      | ok _ => rfl
      | error e =>
        dsimp only
        by_cases he : e = .notImplemented
        · exfalso
          subst he
          have := (atOnce_ni hx rfl).2
          rw [hpred] at this
          cases this
        · rw [if_neg he, if_neg he]
  rw [this]

end Timeseria
