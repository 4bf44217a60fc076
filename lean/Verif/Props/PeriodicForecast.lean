import Verif.Props.Periodic

/-! # C117-C121: the periodic average forecaster, saving of the periodic average models -/

namespace Timeseria

/-! ## C117: forecasting a periodic series plus a constant -/

/-- the items of the window: the `w` items before the last one, counting from the end if there are not
enough (so that with `w = len` the last item comes first) -/
def windowItem (l : List Item) (w j : ℕ) : Except PyErr Item := pyGet l ((l.length : Int) - 1 - w + j)

theorem windowDiffs_const {c : PeriodCfg} {a : Averages} {k : String} {l : List Item} {w : ℕ} {d : ℚ} :
    ∀ (js : List ℕ), (∀ j ∈ js, ∃ x, windowItem l w j = .ok x ∧ avgDiff c a k x = .ok d) →
    windowDiffs c a k l w js = .ok (js.length * d) := by
  intro js
  induction js with
  | nil => intro _; simp [windowDiffs]
  | cons j r ih =>
    intro h
    obtain ⟨x, h1, h2⟩ := h j (by simp)
    unfold windowItem at h1
    rw [windowDiffs, h1]
    dsimp only
    rw [h2]
    dsimp only
    rw [ih (fun j hj => h j (by simp [hj]))]
    simp
    ring

/-- **C117 (what is forecast)**: for a series that, on the window, is the profile `f` plus a constant `c`,
the forecast is the profile plus `c * w / (w - 1)`: off by `c / (w - 1)`. -/
theorem C117_value_partial {m : PFor} {k : String} {p w : ℕ} {a : Averages} {l : List Item} {idx : ℚ → ℕ}
    {f : ℕ → ℚ} {c t : ℚ} (hp : m.periods.get? k = some p) (hw : m.windows.get? k = some w)
    (ha : m.averages.get? k = some a) (hw2 : 2 ≤ w)
    (hitems : ∀ j, j < w → ∃ x, windowItem l w j = .ok x ∧ CarriesLabels [k] x ∧
      (m.cfg p).index x.t = .ok (idx x.t) ∧ avgAt a (idx x.t) = .ok (f (idx x.t)) ∧ valueOf x k = f (idx x.t) + c)
    (ht : (m.cfg p).index t = .ok (idx t)) (hat : avgAt a (idx t) = .ok (f (idx t))) :
    m.valueAt l t k = .ok (f (idx t) + c * w / (w - 1)) := by
  have hd : windowDiffs (m.cfg p) a k l w (List.range w) = .ok (w * c) := by
    have := windowDiffs_const (c := m.cfg p) (a := a) (k := k) (l := l) (w := w) (d := c) (List.range w) (by
      intro j hj
      rw [List.mem_range] at hj
      obtain ⟨x, h1, h2, h3, h4, h5⟩ := hitems j hj
      refine ⟨x, h1, ?_⟩
      have := avgDiff_ok (m := ⟨m.cfg p, a⟩) (f := f) h2 h3 h4
      rw [h5] at this
      rw [this]
      congr 1
      ring)
    simpa using this
  have hne : (w : ℚ) - 1 ≠ 0 := by
    have : (2 : ℚ) ≤ w := by exact_mod_cast hw2
    intro h; linarith
  unfold PFor.valueAt
  rw [hp, hw, ha]
  dsimp only
  unfold windowOffset
  rw [hd]
  dsimp only
  rw [if_neg (by omega)]
  unfold pyDiv
  rw [if_neg hne]
  dsimp only
  unfold avgPlus
  rw [ht]
  dsimp only
  rw [hat]
  dsimp only
  congr 1
  ring

/-- **C117 (no constant)**: with the window exactly on the profile the forecast is the profile. -/
theorem C117_exact_partial {m : PFor} {k : String} {p w : ℕ} {a : Averages} {l : List Item} {idx : ℚ → ℕ}
    {f : ℕ → ℚ} {t : ℚ} (hp : m.periods.get? k = some p) (hw : m.windows.get? k = some w)
    (ha : m.averages.get? k = some a) (hw2 : 2 ≤ w)
    (hitems : ∀ j, j < w → ∃ x, windowItem l w j = .ok x ∧ CarriesLabels [k] x ∧
      (m.cfg p).index x.t = .ok (idx x.t) ∧ avgAt a (idx x.t) = .ok (f (idx x.t)) ∧ valueOf x k = f (idx x.t))
    (ht : (m.cfg p).index t = .ok (idx t)) (hat : avgAt a (idx t) = .ok (f (idx t))) :
    m.valueAt l t k = .ok (f (idx t)) := by
  have := C117_value_partial (c := 0) hp hw ha hw2 (by simpa using hitems) ht hat
  simpa using this

/-- the forecaster fitted on the series 1, 5, 1, 5 -/
def evenOddForecaster : PFor :=
  ⟨3600, fun _ => none, ["v"], [("v", 2)], [("v", 2)], [("v", [(.int 0, 1), (.int 1, 5)])], 2⟩

/-- **C117 is false**: fitted on 1, 5, 1, 5 and applied to 11, 15, 11, 15 the forecaster predicts 21, 25. -/
theorem C117_constant_false :
    (forFit 3600 (fun _ => none) (fun _ => 2) (some 2) none (some 1) (evenOddSeries 0 4)).toOption.map
      (fun m => m.labels) = some evenOddForecaster.labels ∧
    (forFit 3600 (fun _ => none) (fun _ => 2) (some 2) none (some 1) (evenOddSeries 0 4)).toOption.map
      (fun m => (m.periods, m.windows)) = some (evenOddForecaster.periods, evenOddForecaster.windows) ∧
    (forFit 3600 (fun _ => none) (fun _ => 2) (some 2) none (some 1) (evenOddSeries 0 4)).toOption.map
      (fun m => m.averages) = some evenOddForecaster.averages ∧
    (evenOddSeries 10 6).map (fun x => valueOf x "v") = [11, 15, 11, 15, 11, 15] ∧
    evenOddForecaster.predict (evenOddSeries 10 4) 2 = .ok [[("v", 21)], [("v", 25)]] ∧
    evenOddForecaster.predict (evenOddSeries 0 4) 2 = .ok [[("v", 1)], [("v", 5)]] := by
  refine ⟨by decide +kernel, by decide +kernel, by decide +kernel, by decide +kernel, by decide +kernel,
    by decide +kernel⟩

/-- **C117 is false** for a periodicity of one as well: the forecast raises. -/
theorem C117_one_false : ∃ m : PFor, m.windows = [("v", 1)] ∧
    m.predict ((List.range 4).map (fun i => hourPoint i 7 0)) 1 = .error .zeroDivision := by
  refine ⟨⟨3600, fun _ => none, ["v"], [("v", 1)], [("v", 1)], [("v", [(.int 0, 7)])], 1⟩, rfl, by decide +kernel⟩

/-! ## C118: which items the forecast is based on -/

theorem pyGet_append {l : List Item} {x : Item} {j : ℕ} (hj : j < l.length) :
    pyGet (l ++ [x]) (j : Int) = .ok l[j] := by
  apply pyGet_nat
  rw [List.getElem?_append_left hj, List.getElem?_eq_getElem hj]

theorem windowDiffs_last {c : PeriodCfg} {a : Averages} {k : String} {l : List Item} {x y : Item} {w : ℕ}
    (hw : w ≤ l.length) : ∀ (js : List ℕ), (∀ j ∈ js, j < w) →
    windowDiffs c a k (l ++ [x]) w js = windowDiffs c a k (l ++ [y]) w js := by
  intro js
  induction js with
  | nil => intro _; rfl
  | cons j r ih =>
    intro h
    have hj := h j (by simp)
    rw [windowDiffs, windowDiffs]
    have e : ∀ z : Item, (((l ++ [z]).length : Int) - 1 - w + j) = ((l.length - w + j : ℕ) : Int) := by
      intro z; simp; omega
    rw [e x, e y, pyGet_append (by omega), pyGet_append (by omega), ih (fun j hj => h j (by simp [hj]))]

/-- **C118 is false**: the forecast does not depend on the data of the last item. -/
theorem C118_last_false (m : PFor) (l : List Item) (x y : Item) (hxy : x.t = y.t ∧ x.slot = y.slot)
    (hw : ∀ k w, m.windows.get? k = some w → w ≤ l.length) (steps : ℕ) :
    m.predict (l ++ [x]) steps = m.predict (l ++ [y]) steps := by
  unfold PFor.predict
  have h1 : (l ++ [x]).length = (l ++ [y]).length := by simp
  rw [h1]
  have h2 : (l ++ [x]).getLast? = some x := by simp
  have h3 : (l ++ [y]).getLast? = some y := by simp
  rw [h2, h3]
  have ht : ∀ i, forecastTime m.res x i = forecastTime m.res y i := by
    intro i; unfold forecastTime; rw [hxy.1, hxy.2]
  have hv : ∀ t, m.valueAt (l ++ [x]) t = m.valueAt (l ++ [y]) t := by
    intro t
    funext k
    unfold PFor.valueAt
    cases hp : m.periods.get? k with
    | none => rfl
    | some p =>
      cases hwk : m.windows.get? k with
      | none => rfl
      | some w =>
        cases ha : m.averages.get? k with
        | none => rfl
        | some a =>
          dsimp only
          unfold windowOffset
          rw [windowDiffs_last (hw k w hwk) (List.range w) (by intro j hj; exact List.mem_range.1 hj)]
  simp only [ht, hv]

/-- different last values, same forecast -/
example : evenOddForecaster.predict (evenOddSeries 0 4 ++ [hourPoint 4 1 0]) 1 =
    evenOddForecaster.predict (evenOddSeries 0 4 ++ [hourPoint 4 1000 0]) 1 ∧
    (evenOddForecaster.predict (evenOddSeries 0 4 ++ [hourPoint 4 1 0]) 1).toOption.isSome := by decide +kernel

theorem windowDiffs_congr {c : PeriodCfg} {a : Averages} {k : String} {l l' : List Item} {w : ℕ} :
    ∀ (js : List ℕ), (∀ j ∈ js, windowItem l w j = windowItem l' w j) →
    windowDiffs c a k l w js = windowDiffs c a k l' w js := by
  intro js
  induction js with
  | nil => intro _; rfl
  | cons j r ih =>
    intro h
    have := h j (by simp)
    unfold windowItem at this
    rw [windowDiffs, windowDiffs, this, ih (fun j hj => h j (by simp [hj]))]

/-- **C118 (part)**: the forecast depends only on the place of the last item and on the items of the
window, so that older items do not matter. -/
theorem C118_window_partial (m : PFor) {old old' recent : List Item} {x : Item} (steps : ℕ)
    (h : old.length = old'.length) (hw : ∀ k w, m.windows.get? k = some w → w ≤ recent.length) :
    m.predict (old ++ (recent ++ [x])) steps = m.predict (old' ++ (recent ++ [x])) steps := by
  unfold PFor.predict
  have h1 : (old ++ (recent ++ [x])).length = (old' ++ (recent ++ [x])).length := by simp [h]
  rw [h1]
  have h2 : ∀ o : List Item, (o ++ (recent ++ [x])).getLast? = some x := by intro o; simp
  rw [h2, h2]
  have hv : ∀ t, m.valueAt (old ++ (recent ++ [x])) t = m.valueAt (old' ++ (recent ++ [x])) t := by
    intro t
    funext k
    unfold PFor.valueAt
    cases hp : m.periods.get? k with
    | none => rfl
    | some p =>
      cases hwk : m.windows.get? k with
      | none => rfl
      | some w =>
        cases ha : m.averages.get? k with
        | none => rfl
        | some a =>
          dsimp only
          unfold windowOffset
          rw [windowDiffs_congr (l' := old' ++ (recent ++ [x])) (List.range w)]
          intro j hj
          have hj' := List.mem_range.1 hj
          have hwl := hw k w hwk
          unfold windowItem
          have e : ∀ o : List Item, (((o ++ (recent ++ [x])).length : Int) - 1 - w + j) = ((o.length + (recent.length - w + j) : ℕ) : Int) := by
            intro o; simp; omega
          have g : ∀ o : List Item, (o ++ (recent ++ [x]))[o.length + (recent.length - w + j)]? = some (recent[recent.length - w + j]'(by omega)) := by
            intro o
            rw [List.getElem?_append_right (by omega), show o.length + (recent.length - w + j) - o.length = recent.length - w + j by omega,
              List.getElem?_append_left (by omega), List.getElem?_eq_getElem (by omega)]
          rw [e old, e old', pyGet_nat (g old), pyGet_nat (g old')]
  simp only [hv]

/-! ## C119: fitting with a given window -/

/-- **C119 is false**: a forecaster created with a window can never be fitted. -/
theorem C119_window_false (res : ℚ) (dst : ℚ → Option ℚ) (detect : String → ℕ) (period : Option ℕ) (w : ℕ)
    (limit : Option ℚ) (l : List Item) : ∃ e, forFit res dst detect period (some w) limit l = .error e := by
  unfold forFit
  cases headLabelsR l with
  | error e => exact ⟨e, rfl⟩
  | ok ks =>
    cases ks with
    | nil => exact ⟨.valueError, rfl⟩
    | cons k r => exact ⟨.exception, rfl⟩

/-- the averages of each label after a fit -/
theorem C119_auto_partial {res : ℚ} {dst : ℚ → Option ℚ} {detect : String → ℕ} {period : Option ℕ} {limit : Option ℚ}
    {l : List Item} {k : String} {idx : ℚ → ℕ} (hl : headLabelsR l = .ok [k]) (hk : ∀ x ∈ l, KnownLoss x)
    (hc : ∀ x ∈ l, CarriesLabels [k] x)
    (hi : ∀ x ∈ l, (⟨res, period.getD (detect k), dst⟩ : PeriodCfg).index x.t = .ok (idx x.t))
    (hb : ∃ x ∈ l, BelowLimit limit x) :
    ∃ a, forFit res dst detect period none limit l =
        .ok ⟨res, dst, [k], [(k, period.getD (detect k))], [(k, period.getD (detect k))], [(k, a)], period.getD (detect k)⟩ ∧
      ∀ i, (valuesAt limit idx k l i = [] → avgAt a i = .error .keyError) ∧
      (valuesAt limit idx k l i ≠ [] → avgAt a i = .ok (meanOf (valuesAt limit idx k l i))) := by
  obtain ⟨acc, h1, h2⟩ := sumLoop_spec (limit := limit) l [] hk hc hi
  refine ⟨toAverages acc, ?_, avgAt_spec h2⟩
  have hne : acc.isEmpty = false := by
    obtain ⟨x, hx, hxb⟩ := hb
    cases acc with
    | cons _ _ => rfl
    | nil =>
      exfalso
      have := h2 (idx x.t)
      have hm : valueOf x k ∈ valuesAt limit idx k l (idx x.t) :=
        List.mem_map.2 ⟨x, List.mem_filter.2 ⟨hx, by simp [hxb]⟩, rfl⟩
      cases hv : valuesAt limit idx k l (idx x.t) with
      | nil => rw [hv] at hm; cases hm
      | cons v r => rw [hv] at this; simp [plusValues] at this
  have hper : fitPeriod detect ⟨period, [], [], []⟩ k = period.getD (detect k) := by
    unfold fitPeriod
    cases period <;> rfl
  unfold forFit
  rw [hl]
  dsimp only
  unfold fitLabels fitLabel
  dsimp only
  rw [hper, h1]
  dsimp only
  rw [hne]
  rfl

/-! ## C120: the periodicity of each label -/

theorem fitLabels_period {res : ℚ} {dst : ℚ → Option ℚ} {detect : String → ℕ} {window : Option ℕ} {limit : Option ℚ}
    {l : List Item} {p : ℕ} : ∀ (ks : List String) (st st' : FitState), st.period = some p →
    fitLabels res dst detect window limit l st ks = .ok st' →
    ∀ k, st'.periods.get? k = if k ∈ ks then some p else st.periods.get? k := by
  intro ks
  induction ks with
  | nil =>
    intro st st' _ h k
    simp [fitLabels] at h
    subst h
    simp
  | cons q r ih =>
    intro st st' hp h k
    rw [fitLabels] at h
    split at h
    · cases h
    rename_i st1 h1
    unfold fitLabel at h1
    split at h1
    · cases h1
    dsimp only at h1
    split at h1
    · cases h1
    split at h1
    · cases h1
    simp at h1
    have hfp : fitPeriod detect st q = p := by unfold fitPeriod; rw [hp]
    have := ih st1 st' (by rw [← h1]; simp [hfp]) h k
    rw [this, ← h1]
    simp only [List.mem_cons]
    by_cases e : k ∈ r
    · simp [e]
    · simp only [e, if_false, or_false]
      rw [Dict.get?_set, hfp]
      by_cases e2 : k = q
      · simp [e2]
      · rw [if_neg (fun h => e2 h.symm), if_neg e2]

/-- **C120 is false**: with automatic detection all the labels get the periodicity detected on the first. -/
theorem C120_first_false {res : ℚ} {dst : ℚ → Option ℚ} {detect : String → ℕ} {window : Option ℕ} {limit : Option ℚ}
    {l : List Item} {m : PFor} {k0 : String} {ks : List String} (hl : headLabelsR l = .ok (k0 :: ks))
    (h : forFit res dst detect none window limit l = .ok m) : ∀ k ∈ k0 :: ks, m.periods.get? k = some (detect k0) := by
  unfold forFit at h
  rw [hl] at h
  dsimp only at h
  rw [fitLabels] at h
  split at h
  · cases h
  rename_i st hst
  split at h
  · cases h
  rename_i w hw
  simp at h
  subst h
  dsimp only
  split at hst
  · cases hst
  rename_i st1 h1
  unfold fitLabel at h1
  split at h1
  · cases h1
  dsimp only at h1
  split at h1
  · cases h1
  split at h1
  · cases h1
  simp at h1
  have hfp : fitPeriod detect ⟨none, [], [], []⟩ k0 = detect k0 := rfl
  intro k hk
  have := fitLabels_period ks st1 st (by rw [← h1, hfp]) hst k
  rw [this]
  by_cases e : k ∈ ks
  · simp [e]
  · have : k = k0 := by simpa [e] using hk
    subst this
    rw [if_neg e, ← h1, hfp]
    simp [Dict.set, Dict.get?]

/-- two labels with different periodicities -/
def twoLabels : List Item :=
  (List.range 6).map (fun (i : ℕ) => mkPoint (i * 3600) (.dict [("a", if i % 2 = 0 then 1 else 5), ("b", if i % 3 = 0 then 1 else 5)]))

example : ((forFit 3600 (fun _ => none) (fun k => if k = "a" then 2 else 3) none none (some 1) twoLabels).toOption.map (fun m => m.periods)) =
    some [("a", 2), ("b", 2)] := by decide +kernel

/-- **C120 (part)**: a given periodicity is the one of every label. -/
theorem C120_given_partial {res : ℚ} {dst : ℚ → Option ℚ} {detect : String → ℕ} {window : Option ℕ} {limit : Option ℚ}
    {l : List Item} {m : PFor} {p : ℕ} {ks : List String} (hl : headLabelsR l = .ok ks)
    (h : forFit res dst detect (some p) window limit l = .ok m) : ∀ k ∈ ks, m.periods.get? k = some p := by
  unfold forFit at h
  rw [hl] at h
  dsimp only at h
  split at h
  · cases h
  rename_i st hst
  split at h
  · cases h
  simp at h
  subst h
  dsimp only
  intro k hk
  rw [fitLabels_period ks _ st rfl hst k, if_pos hk]

/-! ## C121: saved and loaded models -/

theorem avgAt_trip (acc : List (ℕ × ℚ × ℕ)) (i : ℕ) : avgAt (tripTable (toAverages acc)) i = .error .keyError := by
  unfold avgAt
  have : List.lookup (PKey.int i) (tripTable (toAverages acc)) = none := by
    unfold tripTable toAverages
    induction acc with
    | nil => rfl
    | cons q r ih =>
      rw [List.map_cons, List.map_cons, List.lookup_cons]
      exact ih
  rw [this]

theorem recFit_averages {c : PeriodCfg} {limit : Option ℚ} {l : List Item} {a : Averages} (h : recFit c limit l = .ok a) :
    ∃ acc, a = toAverages acc := by
  unfold recFit at h
  split at h
  · cases h
  split at h
  · split at h
    · rename_i acc _
      simp at h
      exact ⟨acc, h.symm⟩
    · cases h
  · cases h
  · cases h

/-- **C121 is false**: a periodic average reconstructor, once saved and loaded, never predicts anything:
whatever it was fitted on, every prediction raises. -/
theorem C121_reconstructor_false {c : PeriodCfg} {limit : Option ℚ} {l : List Item} {a : Averages}
    (hf : recFit c limit l = .ok a) (cur : List Item) (g h : ℕ) :
    ∃ e, (PRec.reloaded ⟨c, a⟩).predict cur g h = .error e := by
  obtain ⟨acc, rfl⟩ := recFit_averages hf
  unfold PRec.predict
  cases windowCheck cur.length g h with
  | error e => exact ⟨e, rfl⟩
  | ok _ =>
    dsimp only
    cases headLabelsR cur with
    | error e => exact ⟨e, rfl⟩
    | ok ks =>
      cases ks with
      | nil => exact ⟨_, rfl⟩
      | cons k r =>
        dsimp only
        have : ∃ e, gapOffset (PRec.reloaded ⟨c, toAverages acc⟩) k cur g h = .error e := by
          unfold gapOffset
          cases pyGet cur ((g : Int) - 1) with
          | error e => exact ⟨e, rfl⟩
          | ok x =>
            cases pyGet cur ((h : Int) + 1) with
            | error e => exact ⟨e, rfl⟩
            | ok y =>
              dsimp only
              have : ∃ e, avgDiff (PRec.reloaded ⟨c, toAverages acc⟩).cfg (PRec.reloaded ⟨c, toAverages acc⟩).averages k x = .error e := by
                unfold avgDiff
                cases x.raw k with
                | error e => exact ⟨e, rfl⟩
                | ok v =>
                  dsimp only
                  cases (PRec.reloaded ⟨c, toAverages acc⟩).cfg.index x.t with
                  | error e => exact ⟨e, rfl⟩
                  | ok i =>
                    dsimp only
                    unfold PRec.reloaded
                    dsimp only
                    rw [avgAt_trip]
                    exact ⟨_, rfl⟩
              obtain ⟨e, he⟩ := this
              rw [he]
              exact ⟨e, rfl⟩
        obtain ⟨e, he⟩ := this
        rw [he]
        exact ⟨e, rfl⟩

/-- it did predict before being saved -/
example : (PRec.predict ⟨twoStep, [(.int 0, 1), (.int 1, 5)]⟩ shiftedGap 1 2) = .ok (.lists [("v", [15, 11])]) ∧
    (PRec.reloaded ⟨twoStep, [(.int 0, 1), (.int 1, 5)]⟩).predict shiftedGap 1 2 = .error .keyError := by decide +kernel

theorem unTrip_trip {a : Averages} (h : ∀ e ∈ a, ∃ n, e.1 = .int n) : unTrip (tripTable a) = a := by
  unfold unTrip tripTable
  rw [List.map_map]
  conv_rhs => rw [← List.map_id a]
  apply List.map_congr_left
  intro e he
  obtain ⟨n, hn⟩ := h e he
  obtain ⟨k, v⟩ := e
  simp at hn
  subst hn
  simp [PKey.trip, readNat_strNat]

/-- **C121 (part)**: the forecaster, whose `load` restores the keys, is loaded as it was saved, hence
predicts the same. -/
theorem C121_forecaster_partial {m : PFor} (h : ∀ q ∈ m.averages, ∀ e ∈ q.2, ∃ n, e.1 = PKey.int n) :
    m.reloaded = m ∧ ∀ l steps, m.reloaded.predict l steps = m.predict l steps := by
  have : m.reloaded = m := by
    unfold PFor.reloaded
    have e : m.averages.map (fun e => (e.1, unTrip (tripTable e.2))) = m.averages := by
      conv_rhs => rw [← List.map_id m.averages]
      apply List.map_congr_left
      intro q hq
      rw [unTrip_trip (h q hq)]
      rfl
    rw [e]
  exact ⟨this, fun l steps => by rw [this]⟩

example : ∀ q ∈ evenOddForecaster.averages, ∀ e ∈ q.2, ∃ n, e.1 = PKey.int n := by
  simp [evenOddForecaster]
  rintro a b (⟨rfl, _⟩ | ⟨rfl, _⟩)
  · exact ⟨0, rfl⟩
  · exact ⟨1, rfl⟩

end Timeseria
