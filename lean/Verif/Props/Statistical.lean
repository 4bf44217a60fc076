import Verif.Model.Statistical
import Verif.Props.ForecastClaims
import Verif.Props.Models

/-! # The models around Prophet and ARIMA (C166-C171) -/

namespace Timeseria

/-! ## Lemmas -/

theorem getTz_marked (s : TSeries) (v : ℚ) :
    ({ s with items := s.items.map (markForecast v) } : TSeries).getTz = s.getTz := by
  have e : ∀ (l : List Item) (d : Option String), detectTz d (l.map (markForecast v)) = detectTz d l := by
    intro l
    induction l with
    | nil => intro d; rfl
    | cons y r ih =>
      intro d
      cases d with
      | none => rw [List.map_cons, detectTz, detectTz, ih]; rfl
      | some d => rw [List.map_cons, detectTz, detectTz, ih]; rfl
  unfold TSeries.getTz
  dsimp only
  rw [e]

theorem ofSlots_marked (s : TSeries) (v : ℚ) :
    ({ s with items := s.items.map (markForecast v) } : TSeries).ofSlots = s.ofSlots := by
  unfold TSeries.ofSlots
  dsimp only
  cases s.items with
  | nil => rfl
  | cons y r => rfl

/-- what is appended when the predictor answers with a list -/
theorem inplace_many {cal : Calendar} {c : FCfg} {pred : FPredictor} {s s' : TSeries} {n : ℕ} {last : Item}
    {ds : List (Dict ℚ)} (hl : s.items.getLast? = some last)
    (hm : pred { s with items := s.items.map (markForecast 0) } n = .ok (.many ds))
    (h : forecastInplace cal c pred s n = (s', .ok ())) :
    ds.length = n ∧ ∃ fs, forecastList cal s.ofSlots s.getTz s.res (markForecast 0 last) ds = .ok fs ∧
      s'.items = s.items.map (markForecast 0) ++ fs.map (markForecast 1) := by
  unfold forecastInplace at h
  split at h
  · simp at h
  rename_i hcheck
  have hcheck0 : checkTargets c { s with items := s.items.map (markForecast 0) } = .ok () := by
    rw [checkTargets_marked]; exact hcheck
  have hl0 : ({ s with items := s.items.map (markForecast 0) } : TSeries).items.getLast? = some (markForecast 0 last) := by
    dsimp only
    rw [List.getLast?_map, hl]; rfl
  have htz := getTz_marked s 0
  have hos := ofSlots_marked s 0
  have hres : ({ s with items := s.items.map (markForecast 0) } : TSeries).res = s.res := rfl
  have hit0 : ({ s with items := s.items.map (markForecast 0) } : TSeries).items = s.items.map (markForecast 0) := rfl
  generalize ({ s with items := s.items.map (markForecast 0) } : TSeries) = s0 at h hm hcheck0 hl0 htz hos hres hit0
  have hf : forecast cal c pred s0 n = itemsFrom cal c s0 (.many ds) := by
    unfold forecast
    rw [hcheck0]
    dsimp only
    rw [hm]
  have hi : itemsFrom cal c s0 (.many ds) =
      match forecastList cal s.ofSlots s.getTz s.res (markForecast 0 last) ds with
      | .error e => .error e
      | .ok l => .ok (.many l) := by
    unfold itemsFrom
    rw [hl0, hos, htz, hres]
    dsimp only
    cases forecastList cal s.ofSlots s.getTz s.res (markForecast 0 last) ds <;> rfl
  cases hfl : forecastList cal s.ofSlots s.getTz s.res (markForecast 0 last) ds with
  | error e =>
    exfalso
    rw [hfl] at hi
    dsimp only at hi
    unfold applySteps applyAtOnce at h
    rw [hf, hi] at h
    dsimp only at h
    have hne : e ≠ .notImplemented := by
      rintro rfl
      exact forecastList_ni _ _ _ _ _ _ hfl
    rw [if_neg hne] at h
    simp at h
  | ok fs =>
    rw [hfl] at hi
    dsimp only at hi
    unfold applySteps applyAtOnce at h
    rw [hf, hi] at h
    dsimp only at h
    have hall := appendAll_ok_items s0 (fs.map (markForecast 1))
    have hlen : fs.length = ds.length := by
      have : ∀ (ds : List (Dict ℚ)) (b : Bool) (tz : Option String) (r : Res) (x : Item) (l : List Item),
          forecastList cal b tz r x ds = .ok l → l.length = ds.length := by
        intro ds
        induction ds with
        | nil => intro b tz r x l h; simp [forecastList] at h; simp [← h]
        | cons d r ih =>
          intro b tz re x l h
          rw [forecastList] at h
          split at h
          · cases h
          · split at h
            · cases h
            · rename_i l' hl'
              simp at h
              rw [← h]
              simp [ih _ _ _ _ _ hl']
      exact this _ _ _ _ _ _ hfl
    cases hap : s0.appendAll (fs.map (markForecast 1)) with
    | mk s1 o =>
      rw [hap] at h hall
      cases o with
      | error e =>
        exfalso
        dsimp only at h
        have hne : e ≠ .notImplemented := by
          rintro rfl
          exact appendAll_ni _ _ (by rw [hap])
        rw [if_neg hne] at h
        simp at h
      | ok u =>
        dsimp only at h hall
        have hit := hall rfl
        split at h
        · simp at h
        · rename_i hln
          simp at h hln
          subst h
          rw [hit, hit0] at hln
          simp at hln
          refine ⟨by omega, fs, rfl, by rw [hit, hit0]⟩

/-- when the predictor answers with a list of the right length and labels, the points are appended -/
theorem inplace_many_ok {ks : List String} (hne : ks ≠ []) {cal : Calendar} {c : FCfg} {pred : FPredictor}
    {l : List Item} {s : TSeries} {u : TUnit} {n : ℕ} {last : Item} {ds : List (Dict ℚ)} (hg : GoodPoints l)
    (ho : ∀ x ∈ l, DictOver ks x) (hb : TSeries.build l = .ok s) (hl : l.getLast? = some last)
    (hu : s.res = .unit u) (hδ : 1 / 10000 ≤ u.secs) (ht : c.targets = []) (hlen : ds.length = n)
    (hk : ∀ d ∈ ds, ∀ k, k ∈ d.keys ↔ k ∈ ks)
    (hm : pred { s with items := s.items.map (markForecast 0) } n = .ok (.many ds)) :
    ∃ s', forecastInplace cal c pred s n = (s', .ok ()) := by
  have hit := build_items hb
  have hready := marked_ready hne hg ho hb hl
  have htz := getTz_marked s 0
  generalize hs0 : ({ s with items := s.items.map (markForecast 0) } : TSeries) = s0 at hready hm htz
  have hit0 : s0.items = l.map (markForecast 0) := by rw [← hs0, ← hit]
  have hu0 : s0.res = .unit u := by rw [← hs0]; exact hu
  have hslots : s0.ofSlots = false := ofSlots_points hg.points hit0
  have hct : ∀ q, checkTargets c q = .ok () := by intro q; unfold checkTargets; rw [ht]; rfl
  obtain ⟨fs, hfs, hmk⟩ := forecastList_points (cal := cal) (z := s0.getTz.getD "UTC") (u := u) ds (markForecast 0 last)
  obtain ⟨s', hs'⟩ := appendAll_forecasts hne hδ (z := s0.getTz.getD "UTC") ds s0 _ hready hk
  have htz : forecastList cal false s0.getTz (.unit u) (markForecast 0 last) ds = .ok fs := by
    have e : ∀ (ds : List (Dict ℚ)) (w : Item), forecastList cal false s0.getTz (.unit u) w ds =
        forecastList cal false (some (s0.getTz.getD "UTC")) (.unit u) w ds := by
      intro ds
      induction ds with
      | nil => intro w; rfl
      | cons d r ih =>
        intro w
        rw [forecastList, forecastList]
        simp only [forecastItem, forecastPoint, addRes, Bool.false_eq_true, if_false, Option.getD_some, ih]
    rw [e]
    exact hfs
  have hsteps : applySteps cal c pred s0 n = (s', .ok ()) := by
    unfold applySteps applyAtOnce forecast
    rw [hct]
    dsimp only
    rw [hm]
    dsimp only
    unfold itemsFrom
    rw [hready.last]
    dsimp only
    rw [hslots, hu0, htz]
    dsimp only
    rw [hmk, hs']
  have hl2 : s'.items.length = l.length + n := by
    have := appendAll_ok_items s0 _ (by rw [hs'])
    rw [hs'] at this
    dsimp only at this
    rw [this, hit0]
    simp [pointForecasts_length, hlen]
  refine ⟨s', ?_⟩
  unfold forecastInplace
  rw [hct]
  dsimp only
  rw [hs0, hsteps]
  dsimp only
  rw [hit, hl2]
  simp

theorem pointForecasts_get {z : String} {t d : ℚ} {ds : List (Dict ℚ)} {j : ℕ} {v : Dict ℚ} (h : ds[j]? = some v) :
    (pointForecasts z t d ds)[j]? = some (mkPoint (t + (j + 1) * d) (.dict v) z [("forecast", some 1)]) := by
  unfold pointForecasts
  rw [List.getElem?_mapIdx, h]
  rfl

theorem slotForecasts_get {cal : Calendar} {u : TUnit} {z : String} {e : ℚ} {ds : List (Dict ℚ)} {j : ℕ} {v : Dict ℚ}
    (h : ds[j]? = some v) : (slotForecasts cal u z e ds)[j]? =
      some (slotForecast ((cal.shift u z)^[j] e) ((cal.shift u z)^[j + 1] e) u z v) := by
  unfold slotForecasts
  rw [List.getElem?_mapIdx, h]
  rfl

/-- the spacing of a series of points gives a physical unit -/
theorem build_physical {l : List Item} {s : TSeries} {u : TUnit} (hp : AllPoints l) (hb : TSeries.build l = .ok s)
    (hu : s.res = .unit u) : u.Physical := by
  obtain ⟨h1, h2, _, h4, _⟩ := C04_resolution_is_spacing l s hp hb
  have hlen : 2 ≤ l.length := by
    by_contra hn
    rw [h1 (by omega)] at hu
    cases hu
  obtain ⟨d, hd⟩ := (h2 hlen).2 ⟨u, hu⟩
  obtain ⟨u', hs, hr⟩ := h4 d hd
  rw [hu] at hr
  injection hr with hr
  subst hr
  unfold spacingUnit at hs
  dsimp only at hs
  split at hs
  · cases hs
  · rw [Option.map_eq_some_iff] at hs
    obtain ⟨v, _, hv⟩ := hs
    rw [← hv]
    exact ⟨rfl, rfl, rfl, rfl⟩

theorem prophetAsk_unit (cal : Calendar) (Z : Zones) (tz : String) (u : TUnit) : ∀ (n : ℕ) (t : ℚ),
    ∃ ws, prophetAsk cal Z tz (.unit u) n t = .ok ws ∧ ws.length = n ∧
      ∀ j, j < n → ws[j]? = some (Z.wall tz ((cal.shift u tz)^[j + 1] t)) := by
  intro n
  induction n with
  | zero => intro t; exact ⟨[], rfl, rfl, by omega⟩
  | succ n ih =>
    intro t
    obtain ⟨ws, h1, h2, h3⟩ := ih (cal.shift u tz t)
    refine ⟨Z.wall tz (cal.shift u tz t) :: ws, ?_, by simp [h2], ?_⟩
    · rw [prophetAsk, h1]
    · intro j hj
      cases j with
      | zero => rfl
      | succ j =>
        rw [List.getElem?_cons_succ, h3 j (by omega)]
        rfl

theorem shift_iterate {cal : Calendar} {u : TUnit} (hu : u.Physical) (tz : String) (t : ℚ) (j : ℕ) :
    (cal.shift u tz)^[j] t = t + j * u.secs := by
  induction j with
  | zero => simp
  | succ j ih =>
    rw [Function.iterate_succ_apply', ih, cal.physical _ _ _ hu]
    push_cast
    ring

/-! ## C166: the Prophet forecaster and local time -/

/-- **C166 (training)**: Prophet is fitted on one row per item: the local time of the item, in the zone of
the item, and its value. -/
theorem C166_training {Z : Zones} {E : ProphetEngine} {multi : PyErr} {l : List Item} {s : TSeries} {k : String}
    {v : Item → ℚ} {yhat : ℚ → ℚ} (hb : TSeries.build l = .ok s) (hv : ∀ x ∈ l, x.data = some (.dict [(k, v x)]))
    (h : prophetFit Z E multi s = .ok yhat) : yhat = E (l.map (fun x => (Z.wall x.tz x.t, v x))) := by
  have hit := build_items hb
  unfold prophetFit at h
  split at h
  · cases h
  split at h
  · cases h
  split at h
  · cases h
  rename_i rows hr
  injection h with h
  subst h
  congr 1
  unfold prophetRows at hr
  split at hr
  · cases hr
  rw [hit] at hr
  have : ∀ (m : List Item), (∀ x ∈ m, x.data = some (.dict [(k, v x)])) →
      mapE (prophetRow Z) m = .ok (m.map (fun x => (Z.wall x.tz x.t, v x))) := by
    intro m
    induction m with
    | nil => intro _; rfl
    | cons x r ih =>
      intro hm
      rw [mapE, ih (fun y hy => hm y (by simp [hy]))]
      have : prophetRow Z x = .ok (Z.wall x.tz x.t, v x) := by
        unfold prophetRow firstValue
        rw [hm x (by simp)]
        rfl
      rw [this]
      rfl
  rw [this l hv] at hr
  injection hr with hr
  exact hr.symm

/-- **C166 (points)**: on a series whose points are all in one time zone, every forecast of the Prophet
forecaster carries what Prophet predicts for the local time of that very forecast. -/
theorem C166_points {cal : Calendar} {Z : Zones} {c : FCfg} {k : String} {yhat : ℚ → ℚ} {l : List Item}
    {s s' : TSeries} {u : TUnit} {z : String} {n : ℕ} {last : Item} (hp : AllPoints l)
    (hz : ∀ x ∈ l, x.tz = z) (hb : TSeries.build l = .ok s) (hl : l.getLast? = some last) (hu : s.res = .unit u)
    (h : forecastApply cal c (prophetForecast cal Z k yhat) s n = .ok s') :
    s'.items.length = l.length + n ∧
    ∀ j, j < n → ∃ x, s'.items[l.length + j]? = some x ∧ x.tz = z ∧ x.t = last.t + (j + 1) * u.secs ∧
      x.data = some (.dict [(k, yhat (Z.wall x.tz x.t))]) := by
  have hit := build_items hb
  have hphys := build_physical hp hb hu
  unfold forecastApply at h
  rw [duplicate_build hb] at h
  dsimp only at h
  split at h
  · cases h
  rename_i s1 hin
  injection h with h
  subst h
  obtain ⟨ws, hw, hwl, hwj⟩ := prophetAsk_unit cal Z last.tz u n last.t
  have hm : prophetForecast cal Z k yhat { s with items := s.items.map (markForecast 0) } n =
      .ok (.many (ws.map (fun w => [(k, yhat w)]))) := by
    unfold prophetForecast
    dsimp only
    rw [List.getLast?_map, hit, hl]
    dsimp only [Option.map]
    rw [hu]
    have : prophetAsk cal Z (markForecast 0 last).tz (.unit u) n (markForecast 0 last).t = .ok ws := hw
    rw [this]
  have hlm : last ∈ l := List.mem_of_getLast? hl
  have htz : s.getTz = some z := by
    have hcl := build_clean hp hb
    unfold TSeries.getTz
    have hnt : s.tz = none := hcl.tz
    rw [hnt]
    dsimp only
    rw [hit]
    cases l with
    | nil => simp at hl
    | cons y r =>
      rw [detectTz, hz y (by simp)]
      exact detectTz_of_same r z (fun w hw => hz w (by simp [hw]))
  have hos : s.ofSlots = false := by
    unfold TSeries.ofSlots
    rw [hit]
    cases l with
    | nil => rfl
    | cons y r => exact hp y (by simp)
  obtain ⟨hdl, fs, hfs, hitems⟩ := inplace_many (by rw [hit]; exact hl) hm hin
  rw [hos, htz, hu] at hfs
  obtain ⟨fs', hfs', hmap⟩ := forecastList_points (cal := cal) (z := z) (u := u)
    (ws.map (fun w => [(k, yhat w)])) (markForecast 0 last)
  rw [hfs] at hfs'
  injection hfs' with hfs'
  subst hfs'
  rw [hmap] at hitems
  rw [hit] at hitems
  refine ⟨by rw [hitems]; simp [pointForecasts_length, hwl], ?_⟩
  intro j hj
  have hds : (ws.map (fun w => [(k, yhat w)]))[j]? = some [(k, yhat (Z.wall last.tz ((cal.shift u last.tz)^[j + 1] last.t)))] := by
    rw [List.getElem?_map, hwj j hj]
    rfl
  refine ⟨mkPoint (last.t + (j + 1) * u.secs) (.dict [(k, yhat (Z.wall last.tz ((cal.shift u last.tz)^[j + 1] last.t)))])
    z [("forecast", some 1)], ?_, rfl, rfl, ?_⟩
  · rw [hitems, List.getElem?_append_right (by simp)]
    simp only [List.length_map, Nat.add_sub_cancel_left]
    exact pointForecasts_get hds
  · rw [shift_iterate hphys, hz last hlm]
    simp only [mkPoint, markForecast]
    push_cast
    rfl

/-- **C166 (slots)**: the same for slots, the local time being that of the start of the forecast slot.  The
last slot lasts its unit. -/
theorem C166_slots {cal : Calendar} {Z : Zones} {c : FCfg} {k : String} {yhat : ℚ → ℚ} {l : List Item}
    {s s' : TSeries} {n : ℕ} {last : Item} (hp : AllSlots l) (hb : TSeries.build l = .ok s)
    (hl : l.getLast? = some last) (he : last.endT = cal.shift last.unit last.tz last.t)
    (h : forecastApply cal c (prophetForecast cal Z k yhat) s n = .ok s') :
    s'.items.length = l.length + n ∧
    ∀ j, j < n → ∃ x, s'.items[l.length + j]? = some x ∧ x.tz = last.tz ∧
      x.t = (cal.shift last.unit last.tz)^[j] last.endT ∧
      x.data = some (.dict [(k, yhat (Z.wall x.tz x.t))]) := by
  have hit := build_items hb
  have hne : l ≠ [] := by rintro rfl; simp at hl
  have hmem : last ∈ l := List.mem_of_getLast? hl
  obtain ⟨u, z, hru, _, hall⟩ := (build_slotInv hp hb).noUnit (by rw [hit]; exact hne)
  have hlast := hall last (by rw [hit]; exact hmem)
  have hu : s.res = .unit last.unit := by rw [hru, hlast.1]
  unfold forecastApply at h
  rw [duplicate_build hb] at h
  dsimp only at h
  split at h
  · cases h
  rename_i s1 hin
  injection h with h
  subst h
  obtain ⟨ws, hw, hwl, hwj⟩ := prophetAsk_unit cal Z last.tz last.unit n last.t
  have hm : prophetForecast cal Z k yhat { s with items := s.items.map (markForecast 0) } n =
      .ok (.many (ws.map (fun w => [(k, yhat w)]))) := by
    unfold prophetForecast
    dsimp only
    rw [List.getLast?_map, hit, hl]
    dsimp only [Option.map]
    rw [hu]
    have : prophetAsk cal Z (markForecast 0 last).tz (.unit last.unit) n (markForecast 0 last).t = .ok ws := hw
    rw [this]
  have hos : s.ofSlots = true := by
    unfold TSeries.ofSlots
    rw [hit]
    cases l with
    | nil => exact absurd rfl hne
    | cons y r => exact hp y (by simp)
  have hslot := hp last hmem
  obtain ⟨e, w, hs⟩ : ∃ e w, last.slot = some (e, w) := by
    unfold Item.isSlot at hslot
    cases hq : last.slot with
    | none => rw [hq] at hslot; simp at hslot
    | some q => exact ⟨q.1, q.2, rfl⟩
  have hee : last.endT = e := by unfold Item.endT; rw [hs]
  obtain ⟨hdl, fs, hfs, hitems⟩ := inplace_many (by rw [hit]; exact hl) hm hin
  rw [hos, hu] at hfs
  obtain ⟨fs', hfs', hmap⟩ := forecastList_slots (cal := cal) (tz := s.getTz) (z := last.tz) (u := last.unit)
    (ws.map (fun w => [(k, yhat w)])) (markForecast 0 last) e w hs rfl
  rw [hfs] at hfs'
  injection hfs' with hfs'
  subst hfs'
  rw [hmap, hit] at hitems
  refine ⟨by rw [hitems]; simp [slotForecasts, hwl], ?_⟩
  intro j hj
  have hds : (ws.map (fun w => [(k, yhat w)]))[j]? =
      some [(k, yhat (Z.wall last.tz ((cal.shift last.unit last.tz)^[j + 1] last.t)))] := by
    rw [List.getElem?_map, hwj j hj]
    rfl
  refine ⟨slotForecast ((cal.shift last.unit last.tz)^[j] last.endT) ((cal.shift last.unit last.tz)^[j + 1] last.endT)
    last.unit last.tz [(k, yhat (Z.wall last.tz ((cal.shift last.unit last.tz)^[j + 1] last.t)))], ?_, rfl, rfl, ?_⟩
  · rw [hitems, List.getElem?_append_right (by simp)]
    simp only [List.length_map, Nat.add_sub_cancel_left]
    rw [hee]
    exact slotForecasts_get hds
  · simp only [slotForecast]
    rw [he, ← Function.iterate_succ_apply]

/-- **C166 (success)**: on a series of points with one label and a resolution the Prophet forecaster can be
applied for any number of steps. -/
theorem C166_succeeds {cal : Calendar} {Z : Zones} {c : FCfg} {k : String} {yhat : ℚ → ℚ} {l : List Item}
    {s : TSeries} {u : TUnit} (n : ℕ) {last : Item} (hg : GoodPoints l) (ho : ∀ x ∈ l, DictOver [k] x)
    (hb : TSeries.build l = .ok s) (hl : l.getLast? = some last) (hu : s.res = .unit u) (hδ : 1 / 10000 ≤ u.secs)
    (ht : c.targets = []) :
    ∃ s', forecastApply cal c (prophetForecast cal Z k yhat) s n = .ok s' := by
  have hit := build_items hb
  obtain ⟨ws, hw, hwl, _⟩ := prophetAsk_unit cal Z last.tz u n last.t
  obtain ⟨s', hs'⟩ := inplace_many_ok (ks := [k]) (by simp) (cal := cal) (c := c) (n := n)
    (pred := prophetForecast cal Z k yhat)
    (ds := ws.map (fun w => [(k, yhat w)])) hg ho hb hl hu hδ ht (by simp [hwl])
    (by
      intro d hd q
      obtain ⟨w, _, rfl⟩ := List.mem_map.1 hd
      simp [Dict.keys])
    (by
      unfold prophetForecast
      dsimp only
      rw [List.getLast?_map, hit, hl]
      dsimp only [Option.map]
      rw [hu]
      have : prophetAsk cal Z (markForecast 0 last).tz (.unit u) n (markForecast 0 last).t = .ok ws := hw
      rw [this])
  refine ⟨s', ?_⟩
  unfold forecastApply
  rw [duplicate_build hb]
  dsimp only
  rw [hs']

/-- zones: one hour ahead everywhere but in UTC -/
def hourAhead : Zones where
  off tz _ := if tz = "UTC" then 0 else 3600
  utc := by intro t; simp

/-- a point in a zone whose value is the local time -/
def romePoint (i : ℕ) : Item := mkPoint (i * 3600) (.dict [("v", i * 3600 + 3600)]) "Europe/Rome" []

/-- an engine that has found out that the value is the local time -/
def clockEngine : ProphetEngine := fun _ w => w

/-- the forecaster continues local times correctly -/
example : ((TSeries.build [romePoint 0, romePoint 1]).toOption.map (fun s =>
      ((forecastApply physicalCalendar ⟨[], none⟩ (prophetForecast physicalCalendar hourAhead "v" (clockEngine [])) s 2).toOption.map
        (fun r => r.items.map (fun x => (x.t, x.val? "v")))))) =
      some (some [(0, some 3600), (3600, some 7200), (7200, some 10800), (10800, some 14400)]) := by
  decide +kernel

/-! ## C167: the Prophet reconstructor and local time -/

theorem forall₂_at {α β : Type} {R : α → β → Prop} {l : List α} {r : List β} (h : List.Forall₂ R l r) :
    ∀ {i : ℕ} {a : α}, l[i]? = some a → ∃ b, r[i]? = some b ∧ R a b := by
  induction h with
  | nil => intro i a ha; simp at ha
  | cons hab _ ih =>
    intro i a ha
    cases i with
    | zero => simp at ha; exact ⟨_, rfl, by rw [← ha]; exact hab⟩
    | succ i => simp at ha; simpa using ih ha

/-- the items of a gap get what Prophet predicts for their *UTC* time -/
theorem prophetRec_items {Z : Zones} {yhat : ℚ → ℚ} {th : ℚ} {k : String} {v0 : ℚ} {x0 : Item} {l l' : List Item}
    (h0 : l[0]? = some x0) (hd0 : x0.data = some (.dict [(k, v0)])) (hx0 : ¬ Lossy th x0)
    (h : reconstructInplace (prophetRec Z yhat) th l = (l', .ok ())) {g e : ℕ} (hg : IsGap th l g e) :
    ∀ j x, g ≤ j → j ≤ e → l[j]? = some x → ∃ y, l'[j]? = some y ∧ y.t = x.t ∧ y.tz = x.tz ∧
      y.data = some (.dict [(k, yhat (Z.wall "UTC" x.t))]) := by
  intro j x hgj hje hx
  obtain ⟨hlen, hkept⟩ := C62_items h
  obtain ⟨p, hp, hfill⟩ := C62_data h hg
  have hlabels := C62_labels h h0 hx0
  have hhead : headLabelsR l = .ok [k] := by
    cases l with
    | nil => simp at h0
    | cons a r =>
      simp at h0
      subst h0
      unfold headLabelsR
      dsimp only
      rw [hd0]
      rfl
  obtain ⟨y, hy, hk⟩ := hkept j x hx
  obtain ⟨y', d, hy', hd, hgives⟩ := hfill j hgj hje
  rw [hy] at hy'
  injection hy' with hy'
  subst hy'
  unfold prophetRec at hp
  rw [hlabels, hhead] at hp
  dsimp only at hp
  split at hp
  · cases hp
  rename_i ws hws
  injection hp with hp
  subst hp
  obtain ⟨hks, hget⟩ := hgives
  rw [hlabels, hhead] at hks
  injection hks with hks
  have hwj : ws[j - g]? = some (Z.wall "UTC" x.t) := by
    have hr : (List.range' g (e + 1 - g))[j - g]? = some j := by
      rw [List.getElem?_range' (by omega)]
      congr 1
      omega
    obtain ⟨w, hw, hwv⟩ := forall₂_at (mapE_ok_inv hws) hr
    unfold prophetRecAsk at hwv
    have hcur : (l'.take g ++ l.drop g)[j]? = some x := by
      have hgl : g ≤ l'.length := by
        have : j < l.length := (List.getElem?_eq_some_iff.1 hx).1
        omega
      rw [List.getElem?_append_right (by simp [List.length_take]; omega), List.length_take,
        Nat.min_eq_left hgl, List.getElem?_drop]
      rw [show g + (j - g) = j by omega]
      exact hx
    rw [hcur] at hwv
    injection hwv with hwv
    rw [hw, ← hwv]
  refine ⟨y, hy, hk.t, hk.tz, ?_⟩
  rw [hd]
  match d, hks with
  | [(q, v)], hks =>
    simp [Dict.keys] at hks
    obtain ⟨li, hli, hlv⟩ := hget q v (by simp [Dict.get?])
    rw [← hks] at hli
    simp [Dict.get?] at hli
    subst hli
    rw [List.getElem?_map, hwj] at hlv
    simp at hlv
    rw [← hks, hlv]

/-- **C167 (part)**: in a series in UTC whose first item is not lossy, the reconstructed items carry what
Prophet predicts for their local time, as in the training rows (C166). -/
theorem C167_utc_partial {Z : Zones} {yhat : ℚ → ℚ} {th : ℚ} {k : String} {v0 : ℚ} {x0 : Item} {l l' : List Item}
    (hz : ∀ x ∈ l, x.tz = "UTC")
    (h0 : l[0]? = some x0) (hd0 : x0.data = some (.dict [(k, v0)])) (hx0 : ¬ Lossy th x0)
    (h : reconstructInplace (prophetRec Z yhat) th l = (l', .ok ())) {g e : ℕ} (hg : IsGap th l g e) :
    ∀ j x, g ≤ j → j ≤ e → l[j]? = some x → ∃ y, l'[j]? = some y ∧ y.t = x.t ∧ y.tz = x.tz ∧
      y.data = some (.dict [(k, yhat (Z.wall y.tz y.t))]) := by
  intro j x hgj hje hx
  obtain ⟨y, h1, h2, h3, h4⟩ := prophetRec_items h0 hd0 hx0 h hg j x hgj hje hx
  refine ⟨y, h1, h2, h3, ?_⟩
  rw [h4, h3, h2, hz x (List.mem_of_getElem? hx)]

/-- a point in a zone whose value is the local time, unless it is lost -/
def romeLossy (i : ℕ) (v loss : ℚ) : Item := mkPoint (i * 3600) (.dict [("v", v)]) "Europe/Rome" [("data_loss", some loss)]

/-- three hours whose values are the local times, the second one being lost -/
def romeGap : List Item := [romeLossy 0 3600 0, romeLossy 1 0 1, romeLossy 2 10800 0]

/-- **C167 is false**: the rows Prophet is fitted on have local times, but it is asked for UTC times.  On a
series in another zone whose values are the local times, and with an engine that has understood this, the
lost value 7200 is reconstructed as 3600. -/
theorem C167_false : prophetRows hourAhead romeGap = .ok [(3600, 3600), (7200, 0), (10800, 10800)] ∧
    ((reconstructInplace (prophetRec hourAhead (clockEngine [])) 1 romeGap).2 = .ok ()) ∧
    ((reconstructInplace (prophetRec hourAhead (clockEngine [])) 1 romeGap).1.map (fun x => x.val? "v")) =
      [some 3600, some 3600, some 10800] ∧
    hourAhead.itemWall (romeLossy 1 0 1) = 7200 := by
  refine ⟨by decide +kernel, by decide +kernel, by decide +kernel, by decide +kernel⟩

/-- the same series in UTC is reconstructed -/
example : ((reconstructInplace (prophetRec hourAhead (clockEngine [])) 1
      [hourPoint 0 0 0, hourPoint 1 5 1, hourPoint 2 7200 0]).1.map (fun x => x.val? "v")) =
      [some 0, some 3600, some 7200] ∧
    IsGap 1 [hourPoint 0 0 0, hourPoint 1 5 1, hourPoint 2 7200 0] 1 1 := by
  refine ⟨by decide +kernel, ⟨le_refl _, ?_, ?_, ?_⟩⟩
  · intro j h1 h2
    obtain rfl : j = 1 := by omega
    exact ⟨_, rfl, 1, rfl, le_refl _⟩
  · intro x _ hx
    simp at hx
    subst hx
    rintro ⟨v, hv, h1⟩
    simp [hourPoint, mkPoint, Dict.get?] at hv
    subst hv
    norm_num at h1
  · intro x hx
    simp at hx
    subst hx
    rintro ⟨v, hv, h1⟩
    simp [hourPoint, mkPoint, Dict.get?] at hv
    subst hv
    norm_num at h1

/-! ## C168: ARIMA forecasters refuse a series ending elsewhere -/

/-- **C168 (refused)**: an ARIMA forecaster applied to a series that does not end at the timestamp where
the series of the fit ends is refused. -/
theorem C168_refused {cal : Calendar} {c : FCfg} {fit : TSeries} {label : String} {fc : ℕ → List ℚ} {l : List Item}
    {s : TSeries} {n : ℕ} {last f : Item} (hb : TSeries.build l = .ok s) (hl : l.getLast? = some last)
    (hf : fit.items.getLast? = some f) (hne : f.t ≠ last.t) (ht : c.targets = []) :
    forecastApply cal c (arimaPredict fit label fc) s n = .error .exception := by
  have hit := build_items hb
  have hct : ∀ q, checkTargets c q = .ok () := by intro q; unfold checkTargets; rw [ht]; rfl
  have hm : arimaPredict fit label fc { s with items := s.items.map (markForecast 0) } n = .error .exception := by
    unfold arimaPredict
    rw [hf]
    dsimp only
    rw [List.getLast?_map, hit, hl]
    dsimp only [Option.map]
    rw [if_pos]
    exact hne
  unfold forecastApply
  rw [duplicate_build hb]
  dsimp only
  unfold forecastInplace
  rw [hct]
  dsimp only
  unfold applySteps applyAtOnce forecast
  rw [hct]
  dsimp only
  rw [hm]
  rfl

/-- **C168 (forecasts)**: applied to a series of points ending where the fit ended, it returns the items of
the series followed by the forecasts of the engine, in their order, one resolution apart. -/
theorem C168_forecasts {cal : Calendar} {c : FCfg} {fit : TSeries} {k : String} {fc : ℕ → List ℚ} {l : List Item}
    {s : TSeries} {u : TUnit} {n : ℕ} {last f : Item} (hg : GoodPoints l) (ho : ∀ x ∈ l, DictOver [k] x)
    (hb : TSeries.build l = .ok s) (hl : l.getLast? = some last) (hu : s.res = .unit u) (hδ : 1 / 10000 ≤ u.secs)
    (ht : c.targets = []) (hf : fit.items.getLast? = some f) (he : f.t = last.t) (hn : (fc n).length = n) :
    ∃ s' z, forecastApply cal c (arimaPredict fit k fc) s n = .ok s' ∧ s.getTz = some z ∧
      s'.items = l.map (markForecast 0) ++
        (fc n).mapIdx (fun j v => mkPoint (last.t + (j + 1) * u.secs) (.dict [(k, v)]) z [("forecast", some 1)]) := by
  have hit := build_items hb
  have hm : arimaPredict fit k fc { s with items := s.items.map (markForecast 0) } n =
      .ok (.many ((fc n).map (fun v => [(k, v)]))) := by
    unfold arimaPredict
    rw [hf]
    dsimp only
    rw [List.getLast?_map, hit, hl]
    dsimp only [Option.map]
    rw [if_neg]
    intro hh
    exact hh he
  obtain ⟨s', hs'⟩ := inplace_many_ok (ks := [k]) (by simp) (cal := cal) (c := c) (n := n)
    (pred := arimaPredict fit k fc) (ds := (fc n).map (fun v => [(k, v)])) hg ho hb hl hu hδ ht (by simp [hn])
    (by
      intro d hd q
      obtain ⟨w, _, rfl⟩ := List.mem_map.1 hd
      simp [Dict.keys]) hm
  have hos : s.ofSlots = false := by
    unfold TSeries.ofSlots
    rw [hit]
    cases l with
    | nil => rfl
    | cons y r => exact hg.points y (by simp)
  have hap : forecastApply cal c (arimaPredict fit k fc) s n = .ok s' := by
    unfold forecastApply
    rw [duplicate_build hb]
    dsimp only
    rw [hs']
  obtain ⟨_, z, hz, _⟩ : ∃ w z, s.getTz = some z ∧ w = z := by
    obtain ⟨y, r, hyr⟩ : ∃ y r, l = y :: r := by
      cases l with
      | nil => simp at hl
      | cons y r => exact ⟨y, r, rfl⟩
    have e : ∀ (l : List Item) (d : String), ∃ z, detectTz (some d) l = some z := by
      intro l
      induction l with
      | nil => intro d; exact ⟨d, rfl⟩
      | cons y r ih =>
        intro d
        rw [detectTz]
        split
        · exact ⟨"UTC", rfl⟩
        · exact ih d
    unfold TSeries.getTz
    cases s.tz with
    | some z => exact ⟨z, z, rfl, rfl⟩
    | none =>
      dsimp only
      rw [hit, hyr, detectTz]
      obtain ⟨z, hz⟩ := e r y.tz
      exact ⟨z, z, hz, rfl⟩
  refine ⟨s', z, hap, hz, ?_⟩
  obtain ⟨_, fs, hfs, hitems⟩ := inplace_many (by rw [hit]; exact hl) hm hs'
  rw [hos, hz, hu] at hfs
  obtain ⟨fs', hfs', hmap⟩ := forecastList_points (cal := cal) (z := z) (u := u)
    ((fc n).map (fun v => [(k, v)])) (markForecast 0 last)
  rw [hfs] at hfs'
  injection hfs' with hfs'
  subst hfs'
  rw [hitems, hmap, hit]
  congr 1
  apply List.ext_getElem?
  intro j
  unfold pointForecasts
  rw [List.getElem?_mapIdx, List.getElem?_mapIdx, List.getElem?_map]
  cases (fc n)[j]? with
  | none => rfl
  | some v => rfl

/-- the forecasts of the examples: 10, 20, 30, … -/
def tens : ℕ → List ℚ := fun n => (List.range n).map (fun i => 10 * (i + 1))

/-- three hourly points, as a series -/
def threeHoursSeries : TSeries :=
  ⟨threeHours, some 7200, .unit (TUnit.ofSecs 3600), some 3600, none, some (.dict [("v", 1)])⟩

example : TSeries.build threeHours = .ok threeHoursSeries ∧
    ((forecastApply physicalCalendar ⟨[], none⟩ (arimaPredict threeHoursSeries "v" tens) threeHoursSeries 2).toOption.map
      (fun r => r.items.map (fun x => (x.t, x.val? "v")))) =
      some [(0, some 1), (3600, some 2), (7200, some 3), (10800, some 10), (14400, some 20)] := by
  refine ⟨by decide +kernel, by decide +kernel⟩

/-! ## C169: the fitted series is kept, not copied -/

/-- **C169 is false**: after the forecasts have been added in place to the series of the fit, the model is
still accepted on it, although it now ends two hours after the data of the fit, and it adds the very same
forecasts again. -/
theorem C169_false : TSeries.build threeHours = .ok threeHoursSeries ∧
    ∃ s1 s2, arimaStep physicalCalendar ⟨[], none⟩ "v" tens threeHoursSeries (.onFit 2) = (s1, .ok s1) ∧
      arimaStep physicalCalendar ⟨[], none⟩ "v" tens s1 (.onFit 2) = (s2, .ok s2) ∧
      s2.items.map (fun x => (x.t, x.val? "v")) = [(0, some 1), (3600, some 2), (7200, some 3), (10800, some 10),
        (14400, some 20), (18000, some 10), (21600, some 20)] := by
  refine ⟨by decide +kernel,
    (arimaStep physicalCalendar ⟨[], none⟩ "v" tens threeHoursSeries (.onFit 2)).1,
    (arimaStep physicalCalendar ⟨[], none⟩ "v" tens
      (arimaStep physicalCalendar ⟨[], none⟩ "v" tens threeHoursSeries (.onFit 2)).1 (.onFit 2)).1,
    by decide +kernel, by decide +kernel, by decide +kernel⟩

/-- the call does not touch the series of the fit -/
def ArimaCall.Apart : ArimaCall → Prop
  | .copy _ _ => True
  | .other _ _ => True
  | .onFit _ => False
  | .grow _ => False

theorem arimaRun_apart {cal : Calendar} {c : FCfg} {k : String} {fc : ℕ → List ℚ} : ∀ (h : List ArimaCall) (fit : TSeries),
    (∀ a ∈ h, a.Apart) → arimaRun cal c k fc fit h = fit := by
  intro h
  induction h with
  | nil => intro fit _; rfl
  | cons a r ih =>
    intro fit ha
    rw [arimaRun]
    have h1 : (arimaStep cal c k fc fit a).1 = fit := by
      have := ha a (by simp)
      cases a with
      | copy s n => rfl
      | other s n =>
        unfold arimaStep
        dsimp only
        split <;> rfl
      | onFit n => exact absurd this (by simp [ArimaCall.Apart])
      | grow x => exact absurd this (by simp [ArimaCall.Apart])
    rw [h1]
    exact ih fit (fun b hb => ha b (by simp [hb]))

/-- **C169 (part)**: as long as nobody changes the series of the fit (the model is applied to copies or to
other series, any number of times), the model is refused on every series not ending where the fit ended. -/
theorem C169_apart_partial {cal : Calendar} {c : FCfg} {fit : TSeries} {k : String} {fc : ℕ → List ℚ}
    (h : List ArimaCall) (hh : ∀ a ∈ h, a.Apart) {l : List Item} {s : TSeries} {n : ℕ} {last f : Item}
    (hb : TSeries.build l = .ok s) (hl : l.getLast? = some last) (hf : fit.items.getLast? = some f)
    (hne : f.t ≠ last.t) (ht : c.targets = []) :
    (arimaStep cal c k fc (arimaRun cal c k fc fit h) (.copy s n)).2 = .error .exception := by
  rw [arimaRun_apart h fit hh]
  exact C168_refused hb hl hf hne ht

/-! ## C170: saved models -/

/-- **C170 is false**: saving a fitted model of these classes reports no error, yet the loaded model raises
an `AttributeError` on every series, whatever the engine was. -/
theorem C170_false {R E : Type} (K : MKind (Dict PVal) R E) (c : UnitCodec) (m : StatModel) (d : Disk)
    (path : String) (cal : Calendar) (cfg : FCfg) (ht : cfg.targets = [])
    (hs : (K.save c m.state d path).2 = .ok ()) (m' : StatModel) (hl : loadStat c (K.save c m.state d path).1 path = .ok m')
    {l : List Item} {s : TSeries} (hb : TSeries.build l = .ok s) (n : ℕ) :
    forecastApply cal cfg m'.predictor s n = .error .attributeError := by
  have hm : m'.engine = none := by
    unfold loadStat at hl
    split at hl
    · cases hl
    · injection hl with hl
      rw [← hl]
  have hct : ∀ q, checkTargets cfg q = .ok () := by intro q; unfold checkTargets; rw [ht]; rfl
  have hp : ∀ q, m'.predictor q n = .error .attributeError := by
    intro q
    unfold StatModel.predictor
    rw [hm]
  unfold forecastApply
  rw [duplicate_build hb]
  dsimp only
  unfold forecastInplace
  rw [hct]
  dsimp only
  unfold applySteps applyAtOnce forecast
  rw [hct]
  dsimp only
  rw [hp]
  rfl

/-- **C170 (part)**: the parameters, labels and resolution do come back, and after a new fit (which sets the
engine again) the model predicts. -/
theorem C170_data_partial {R : Type} (K : MKind (Dict PVal) R (Dict ℚ)) (c : UnitCodec) (m : StatModel) (d : Disk)
    (path : String) (u : TUnit) (hf : m.state.fitted = true) (hr : m.state.resolution = some (.unit u))
    (hp : ∀ e ∈ m.state.params, e.2.Plain) (h : (K.save c m.state d path).2 = .ok ()) :
    ∃ m', loadStat c (K.save c m.state d path).1 path = .ok m' ∧ m'.state = m.state ∧
      ∀ p, ({ m' with engine := some p } : StatModel).predictor = p := by
  refine ⟨⟨m.state, none⟩, ?_, rfl, fun p => rfl⟩
  unfold loadStat
  rw [(C201_load_partial K c m.state d path u hf hr hp h).1]

/-- a fitted forecaster of hourly data -/
def hourlyState : MState (Dict PVal) where
  fitted := true
  resolution := some (.unit (TUnit.ofSecs 3600))
  labels := some ["v"]
  params := [("window", .num 0)]

/-- it can be saved -/
example (c : UnitCodec) : (sampleKind.save c hourlyState [] "model").2 = .ok () ∧
    ∀ e ∈ hourlyState.params, e.2.Plain := by
  refine ⟨by simp [MKind.save, MKind.parametric, sampleKind, tripDict, PVal.trip, hourlyState], ?_⟩
  intro e he
  simp [hourlyState] at he
  subst he
  trivial

/-! ## C171: evaluating an ARIMA forecaster -/

/-- **C171 is false**: the evaluation asks for predictions after every item, but the model answers only at
the end of the fit: on any series of at least three items with distinct timestamps it fails. -/
theorem C171_false {fit : TSeries} {k label : String} {fc : ℕ → List ℚ} {l : List Item} {s : TSeries}
    (hb : TSeries.build l = .ok s) (hlen : 3 ≤ l.length)
    (ht : ∀ (i j : ℕ) (x y : Item), i < j → l[i]? = some x → l[j]? = some y → x.t ≠ y.t) (w : ℕ) (hw : w ≤ 1) :
    ∃ e, evalPairs (arimaView fit label fc) w s k = .error e := by
  have hit := build_items hb
  cases hev : evalPairs (arimaView fit label fc) w s k with
  | error e => exact ⟨e, rfl⟩
  | ok r =>
    exfalso
    unfold evalPairs at hev
    have hall := mapE_ok_inv hev
    have key : ∀ i, 1 ≤ i → i < l.length → ∀ f x, fit.items.getLast? = some f → l[i - 1]? = some x → f.t = x.t := by
      intro i h1 h2 f x hf hx
      have hmem : i ∈ (List.range s.items.length).filter (fun i => decide (w ≤ i)) := by
        rw [List.mem_filter, List.mem_range, hit]
        refine ⟨h2, by simp; omega⟩
      obtain ⟨a, ha⟩ := List.mem_iff_getElem?.1 hmem
      obtain ⟨q, _, hq⟩ := forall₂_at hall ha
      unfold evalPair at hq
      split at hq
      · cases hq
      split at hq
      · cases hq
      rename_i p hp
      unfold arimaView at hp
      rw [hf] at hp
      have hread : View.getAt ⟨s, 0, i, 0⟩ (-1) = .ok x := by
        apply view_read (by rw [hit]; omega)
        unfold pyItem
        have hl : (s.items.take i).length = i := by simp [hit]; omega
        rw [if_neg (by omega), if_pos (by rw [hl]; omega), hl]
        rw [show ((i : Int) + -1).toNat = i - 1 by omega, List.getElem?_take_of_lt (by omega), hit]
        exact hx
      dsimp only at hp
      rw [hread] at hp
      dsimp only at hp
      split at hp
      · cases hp
      · rename_i hne
        simpa using hne
    have h0 : l[0]? = some l[0] := List.getElem?_eq_getElem (by omega)
    have h1 : l[1]? = some l[1] := List.getElem?_eq_getElem (by omega)
    cases hf : fit.items.getLast? with
    | none =>
      have hmem : 1 ∈ (List.range s.items.length).filter (fun i => decide (w ≤ i)) := by
        rw [List.mem_filter, List.mem_range, hit]
        refine ⟨by omega, by simp; omega⟩
      obtain ⟨a, ha⟩ := List.mem_iff_getElem?.1 hmem
      obtain ⟨q, _, hq⟩ := forall₂_at hall ha
      unfold evalPair arimaView at hq
      rw [hf] at hq
      dsimp only at hq
      split at hq <;> cases hq
    | some f =>
      have e1 := key 1 (by omega) (by omega) f _ hf h0
      have e2 := key 2 (by omega) (by omega) f _ hf h1
      exact ht 0 1 _ _ (by omega) h0 h1 (by rw [← e1, ← e2])

example : ∃ e, evalPairs (arimaView threeHoursSeries "v" tens) 0 threeHoursSeries "v" = .error e :=
  ⟨.exception, by decide +kernel⟩

/-- **C171 (part)**: the prediction after an item is available exactly for the item following the end of the
fit, and is the first forecast of the engine. -/
theorem C171_end_partial {fit s : TSeries} {k : String} {fc : ℕ → List ℚ} {i : ℕ} {f x : Item} (h1 : 1 ≤ i)
    (hi : i ≤ s.items.length) (hf : fit.items.getLast? = some f) (hx : s.items[i - 1]? = some x) (v : ℚ) (r : List ℚ)
    (hv : fc 1 = v :: r) :
    (f.t = x.t → ∃ p, arimaView fit k fc ⟨s, 0, i, 0⟩ = .ok p ∧ predictedValue k p = .ok v) ∧
    (f.t ≠ x.t → arimaView fit k fc ⟨s, 0, i, 0⟩ = .error .exception) := by
  have hread : View.getAt ⟨s, 0, i, 0⟩ (-1) = .ok x := by
    apply view_read hi
    unfold pyItem
    have hl : (s.items.take i).length = i := by simp; omega
    rw [if_neg (by omega), if_pos (by rw [hl]; omega), hl]
    rw [show ((i : Int) + -1).toNat = i - 1 by omega, List.getElem?_take_of_lt (by omega)]
    exact hx
  unfold arimaView
  rw [hf, hread, hv]
  dsimp only
  constructor
  · intro he
    rw [if_neg (by simpa using he)]
    refine ⟨_, rfl, ?_⟩
    simp [predictedValue, lookupE, Dict.get?]
  · intro hne
    rw [if_pos hne]

end Timeseria
