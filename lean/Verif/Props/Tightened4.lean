import Verif.Props.Evaluate
import Verif.Props.Statistical
import Verif.Props.SaveLoad
import Verif.Props.ListMethods
import Verif.Props.Create
import Verif.Props.TransformFront
import Verif.Props.DetectorSave

/-! # Theorems added after testing the others against wrong programs (4) -/

namespace Timeseria

variable {I D : Type}

/-! ## C174: positions out of the series -/

/-- **C174**, partial (positions): replacing or deleting an item in a position the series does not have is an `IndexError` and leaves the
series as it was. -/
theorem C174_out_of_range_partial (s : TSeries) (i : Int) (x : Item) (h : i < -(s.items.length : Int) ∨ (s.items.length : Int) ≤ i) :
    s.listOp (.setItem i x) = (s, .error .indexError) ∧ s.listOp (.delItem i) = (s, .error .indexError) := by
  have hp : pyPos s.items.length i = none := by
    unfold pyPos
    rcases h with h | h
    · split_ifs <;> first | rfl | omega
    · split_ifs <;> first | rfl | omega
  unfold TSeries.listOp
  simp only [hp, and_self]

example : twoPoints.listOp (.delItem 2) = (twoPoints, .error .indexError) :=
  (C174_out_of_range_partial twoPoints 2 (mkPoint 0 (.num 1)) (.inr (by decide +kernel))).2

/-! ## C188: labels which are not positions -/

/-- **C188**, partial (signs alone): a sign without digits is not a position; on numerical data a position is a `TypeError`, anything
else a `ValueError`. -/
theorem C188_signs_partial (l : List ℚ) (x : ℚ) (i : ℕ) :
    dataByLabelPy (.list l) "-" = .error .valueError ∧ dataByLabelPy (.list l) "+" = .error .valueError ∧
    dataByLabelPy (.list l) "" = .error .valueError ∧
    dataByLabelPy (.num x) "-" = .error .valueError ∧ dataByLabelPy (.num x) "+" = .error .valueError ∧
    dataByLabelPy (.num x) (strNat i) = .error .typeError := by
  have h1 : pyIntText "-" = none := by decide +kernel
  have h2 : pyIntText "+" = none := by decide +kernel
  have h3 : pyIntText "" = none := by decide +kernel
  refine ⟨by simp only [dataByLabelPy, h1], by simp only [dataByLabelPy, h2], by simp only [dataByLabelPy, h3],
    by simp only [dataByLabelPy, h1], by simp only [dataByLabelPy, h2], ?_⟩
  have h4 : dataByLabelPy (.list []) (strNat i) = .error .indexError := C188_labels_partial.2.1 [] i (by simp)
  unfold dataByLabelPy at h4 ⊢
  dsimp only at h4 ⊢
  cases hp : pyIntText (strNat i) with
  | none => rw [hp] at h4; cases h4
  | some j => rfl

/-! ## C184: data indexes -/

/-- **C184** (data indexes): data indexes which are not a dictionary are refused with `ValueError`, whatever the rest, and nothing is
changed. -/
theorem C184_not_a_dictionary (numeric : String → Bool) (h : Heap) (args : List TArg) (kw : Kwargs) (d : Data)
    (loss : Option (Option ℚ)) : dataTimePoint numeric h args kw (some d) .other loss = (h, .error .valueError) := by
  unfold dataTimePoint itemIndexes
  rfl

/-! ## C166: the Prophet forecaster -/

/-- **C166 (fit)**: a series with one label, whatever its items, can be fitted. -/
theorem C166_fit {Z : Zones} {E : ProphetEngine} {multi : PyErr} {l : List Item} {s : TSeries} {k : String} {v : Item → ℚ}
    (hb : TSeries.build l = .ok s) (hne : l ≠ []) (hv : ∀ x ∈ l, x.data = some (.dict [(k, v x)]))
    (hl : (MSeries.ofSeries s).labels = .ok [k]) :
    prophetFit Z E multi s = .ok (E (l.map (fun x => (Z.wall x.tz x.t, v x)))) := by
  have hit := build_items hb
  have hrows : prophetRows Z s.items = .ok (l.map (fun x => (Z.wall x.tz x.t, v x))) := by
    unfold prophetRows
    rw [hit, if_neg (by simpa using hne)]
    clear hb hit hl hne
    induction l with
    | nil => rfl
    | cons x r ih =>
      rw [mapE, ih (fun y hy => hv y (by simp [hy]))]
      unfold prophetRow firstValue
      rw [hv x (by simp)]
      rfl
  cases hf : prophetFit Z E multi s with
  | error e =>
    unfold prophetFit at hf
    rw [hl] at hf
    dsimp only at hf
    rw [if_neg (by simp), hrows] at hf
    cases hf
  | ok y => rw [C166_training hb hv hf]

/-- **C166 (several labels)**: a series with two labels or more is refused. -/
theorem C166_several {Z : Zones} {E : ProphetEngine} {multi : PyErr} {s : TSeries} {ks : List String}
    (hl : (MSeries.ofSeries s).labels = .ok ks) (h2 : 2 ≤ ks.length) : prophetFit Z E multi s = .error multi := by
  unfold prophetFit
  rw [hl]
  dsimp only
  rw [if_pos (by omega)]

/-- **C166 (no resolution)**: without a resolution, as on a series of one point or of unevenly spaced points, the forecast is a
`TypeError`. -/
theorem C166_no_resolution {cal : Calendar} {Z : Zones} {k : String} {yhat : ℚ → ℚ} {s : TSeries} {last : Item} (n : ℕ)
    (hl : s.items.getLast? = some last) (hr : ∀ u, s.res ≠ .unit u) :
    prophetForecast cal Z k yhat s (n + 1) = .error .typeError := by
  unfold prophetForecast
  rw [hl]
  dsimp only
  unfold prophetAsk
  cases h : s.res with
  | unit u => exact absurd h (hr u)
  | _ => rfl

/-! ## C168: ARIMA on an empty series -/

/-- **C168 (empty)**: if the series of the fit has been emptied, or the series given is empty, the forecast is an `IndexError`. -/
theorem C168_empty {fit s : TSeries} {k : String} {fc : ℕ → List ℚ} (n : ℕ) (h : fit.items = [] ∨ s.items = []) :
    arimaPredict fit k fc s n = .error .indexError := by
  unfold arimaPredict
  rcases h with h | h
  · rw [h]; rfl
  · rw [h]
    cases fit.items.getLast? <;> rfl

/-- the same in an evaluation -/
theorem C171_empty_partial {fit : TSeries} {k : String} {fc : ℕ → List ℚ} (v : View) (h : fit.items = []) :
    arimaView fit k fc v = .error .indexError := by
  unfold arimaView
  rw [h]; rfl

/-! ## C205: no operations -/

/-- **C205 (operations)**: an aggregator without operations is refused with `ValueError`, any other list is accepted. -/
theorem C205_no_operations (ops : List SlotOp) :
    (ops = [] → aggregatorInit ops = .error .valueError) ∧ (ops ≠ [] → aggregatorInit ops = .ok ops) := by
  unfold aggregatorInit
  constructor
  · rintro rfl; rfl
  · intro h
    rw [if_neg (by simpa using h)]

/-! ## C153: which model predicts -/

/-- **C153 (predictions)**: without context the predicted value is the one of the only inner model, called without context; with context,
for a forecaster, the one of the model of the label, called with the context. -/
theorem C153_predictions (K : InnerKind I D) (d : DetData I D) (l : List Item) (i : ℕ) (k : String) :
    (∀ x, d.inner = some x → d.predictedValue K false l i k = K.predict x false l i k) ∧
    (∀ x, K.recon = false → d.inners.get? k = some x → d.predictedValue K true l i k = K.predict x true l i k) := by
  constructor
  · intro x hx
    unfold DetData.predictedValue
    rw [hx]; simp
  · intro x hr hx
    unfold DetData.predictedValue
    rw [hx, hr]; simp

/-! ## C156: applying what is left of a fit -/

/-- **C156**, partial (kind of failure): a detector without one of the entries the fit stores, or without the distribution of a label of
the series, is applied with a `KeyError`. -/
theorem C156_apply_partial (K : InnerKind I D) (lg : ℚ → ℚ) (c : AnomCfg) (d : DetData I D) (s : TSeries) :
    ((d.window = none ∨ d.context = none ∨ d.metric = none ∨ d.dists = none ∨ d.stdevs = none) →
      detApply K lg c d s = .error .keyError) ∧
    (∀ ks ds, (MSeries.ofSeries s).labels = .ok ks → d.window.isSome = true → d.context.isSome = true → d.metric.isSome = true →
      d.dists = some ds → d.stdevs.isSome = true → (∃ k ∈ ks, k ∉ ds.keys) → detApply K lg c d s = .error .keyError) := by
  constructor
  · intro h
    have : d.view K = .error .keyError := by
      unfold DetData.view
      split
      · rename_i h1 h2 h3 h4 h5
        rw [h1, h2, h3, h4, h5] at h
        simp at h
      · rfl
    unfold detApply
    rw [this]
  · intro ks ds hl h1 h2 h3 h4 h5 hk
    obtain ⟨w, hw⟩ := Option.isSome_iff_exists.1 h1
    obtain ⟨ctx, hc⟩ := Option.isSome_iff_exists.1 h2
    obtain ⟨mt, hm⟩ := Option.isSome_iff_exists.1 h3
    obtain ⟨ss, hs⟩ := Option.isSome_iff_exists.1 h5
    obtain ⟨k, hk1, hk2⟩ := hk
    have hv : ∃ v, d.view K = .ok v := by
      unfold DetData.view
      rw [hw, hc, hm, h4, hs]
      exact ⟨_, rfl⟩
    obtain ⟨v, hv⟩ := hv
    unfold detApply
    rw [hv, hl]
    dsimp only
    rw [if_neg]
    intro h
    have := List.all_eq_true.1 h k hk1
    rw [h4] at this
    simp only [Option.getD_some] at this
    obtain ⟨z, hz⟩ := Option.isSome_iff_exists.1 this
    exact hk2 (Dict.get?_isSome.1 ⟨z, hz⟩)

/-! ## C159: loading what a failed save left -/

/-- **C159**, partial (what is left): loading a directory whose `data.json` was not written, or in which the inner model was not, is a
`ValueError`; one which is not there an `IOError`. -/
theorem C159_load_partial (C : InnerCodec I D) (disk : DetDisk I D) (path : String) (dir : DetDir I D) :
    (disk.lookup path = none → detLoad C true disk path = .error .ioError) ∧
    (disk.lookup path = some dir → dir.json = none → detLoad C true disk path = .error .valueError) ∧
    (∀ j res ls, disk.lookup path = some dir → dir.json = some (j, res, ls) → j.context = some false →
      dir.models.lookup "model" = some none → detLoad C true disk path = .error .valueError) ∧
    (∀ j res ls, disk.lookup path = some dir → dir.json = some (j, res, ls) → j.context = some false →
      dir.models.lookup "model" = none → detLoad C true disk path = .error .ioError) := by
  unfold detLoad
  simp only [Bool.not_true, Bool.false_eq_true, if_false]
  refine ⟨?_, ?_, ?_, ?_⟩
  · intro h; rw [h]
  · intro h h'; rw [h]; dsimp only; rw [h']
  · intro j res ls h h' hc hm
    rw [h]; dsimp only; rw [h']; dsimp only
    unfold loadModels loadInner
    rw [hc, hm]
  · intro j res ls h h' hc hm
    rw [h]; dsimp only; rw [h']; dsimp only
    unfold loadModels loadInner
    rw [hc, hm]

/-! ## C163: unreadable metadata -/

/-- **C163 (unreadable)**: a file whose first line is a metadata line which cannot be read is refused with `ValueError`. -/
theorem C163_unreadable (cd : Codec) (uc : UnitCodec) (cal : Calendar) (detect : List ℚ → Except PyErr ℚ) (fuel : ℕ)
    (x : Text) (lines : List Text) (h : readMeta x = none) :
    loadCsv cd uc cal detect fuel ((extraPrefix ++ x) :: lines) = .error .valueError := by
  have : scanMeta ((extraPrefix ++ x) :: lines) none = .error .valueError := by
    rw [scanMeta, if_pos (by rw [extraPrefix_eq]; exact isHash _), if_pos (isPrefixOf_append _ _), List.drop_left, h]
  unfold loadCsv
  rw [this]

/-- `# Extra parameters: {}` is one of them -/
example : readMeta " {}".toList = none := by decide +kernel

/-- **C163 (unknown unit)**: a file of slots whose unit cannot be read is refused with `ValueError`. -/
theorem C163_unknown_unit (cd : Codec) (uc : UnitCodec) (cal : Calendar) (detect : List ℚ → Except PyErr ℚ) (fuel : ℕ)
    (lines : List Text) (m : SMeta) (hm : scanMeta lines none = .ok (some m)) (hk : m.kind = .slots) (hu : uc.read m.res = none) :
    loadCsv cd uc cal detect fuel lines = .error .valueError := by
  unfold loadCsv
  rw [hm]
  dsimp only
  rw [hk]
  dsimp only
  rw [hu]

/-! ## C214: the results series is given -/

/-- `data_loss`-like columns are defined on a pair of values: the percentages if the actual value is not zero, the logarithms if the
ratio is positive -/
def ColumnsDefined (names punctual : List String) (a p : ℚ) : Prop :=
  (("MAPE" ∈ names ∨ "PE" ∈ punctual) → a ≠ 0) ∧ (("MALE" ∈ names ∨ "LE" ∈ punctual) → p ≠ 0 ∧ 0 < a / p)

theorem colFun_total {r : MathLib} {names pu : List String} {a p : ℚ} (h : ColumnsDefined names pu a p) {c : String}
    {f : ℚ → ℚ → Except PyErr ℚ} (hm : EvalStep.column c f ∈ evalSteps r (names.filterMap readMetric) true pu) :
    ∃ v, f a p = .ok v := by
  obtain ⟨e, h'⟩ := column_mem hm
  clear hm
  subst e
  have hrel : a ≠ 0 → relError a p = .ok ((a - p) / a) := by
    intro ha; unfold relError; rw [if_neg ha]
  rcases h' with rfl | ⟨rfl, hm⟩ | ⟨rfl, hm⟩ | ⟨rfl, hm⟩ | ⟨rfl, hm⟩ | ⟨rfl, hm⟩ | ⟨rfl, hm⟩
  · exact ⟨p, rfl⟩
  · exact ⟨_, rfl⟩
  · refine ⟨|(a - p) / a|, ?_⟩
    show (relError a p).map (fun x => |x|) = _
    rw [hrel (h.1 (.inl hm))]; rfl
  · refine ⟨|r.ln (a / p)|, ?_⟩
    show (logRatio r a p).map (fun x => |x|) = _
    rw [logRatio_ok (h.2 (.inl hm)).1 (h.2 (.inl hm)).2]; rfl
  · exact ⟨_, rfl⟩
  · exact ⟨_, hrel (h.1 (.inr hm))⟩
  · exact ⟨_, logRatio_ok (h.2 (.inr hm)).1 (h.2 (.inr hm)).2⟩

/-- every item has dictionary data -/
def AllDict (l : List Item) : Prop := ∀ x ∈ l, ∃ d, x.data = some (.dict d)

theorem putColumn_total {name : String} {f : ℚ → ℚ → Except PyErr ℚ} : ∀ {ps : List (ℚ × ℚ)} {l : List Item},
    ps.length ≤ l.length → AllDict l → (∀ p ∈ ps, ∃ v, f p.1 p.2 = .ok v) →
    ∃ l', putColumn name f ps l = .ok l' ∧ AllDict l' ∧ l'.length = l.length
  | [], l, _, hd, _ => ⟨l, rfl, hd, rfl⟩
  | _ :: _, [], h, _, _ => by simp at h
  | p :: ps, x :: l, h, hd, hf => by
    obtain ⟨v, hv⟩ := hf p (by simp)
    obtain ⟨d, hx⟩ := hd x (by simp)
    obtain ⟨l', h1, h2, h3⟩ := putColumn_total (name := name) (f := f) (ps := ps) (l := l) (by simpa using h)
      (fun y hy => hd y (by simp [hy])) (fun q hq => hf q (by simp [hq]))
    refine ⟨{ x with data := some (.dict (d.set name v)) } :: l', ?_, ?_, by simp [h3]⟩
    · rw [putColumn, hv]
      dsimp only
      unfold putValue
      rw [hx]
      dsimp only
      rw [h1]
    · intro y hy
      rcases List.mem_cons.1 hy with rfl | hy
      · exact ⟨_, rfl⟩
      · exact h2 y hy

theorem runSteps_given {r : MathLib} {k : String} {ps : List (ℚ × ℚ)} : ∀ {steps : List EvalStep} (st : EvalState),
    ps.length ≤ st.items.length → AllDict st.items →
    (∀ a ∈ steps, (∀ m, a = EvalStep.metric m → ∃ v, metricValue r m ps = .ok v) ∧
      (∀ c f, a = EvalStep.column c f → ∀ p ∈ ps, ∃ v, f p.1 p.2 = .ok v)) →
    ∃ st', runSteps r k ps steps st = .ok st' ∧ AllDict st'.items ∧ st'.items.length = st.items.length
  | [], st, _, hd, _ => ⟨st, rfl, hd, rfl⟩
  | .metric m :: l, st, hl, hd, h => by
    obtain ⟨v, hv⟩ := (h _ (by simp)).1 m rfl
    obtain ⟨st', h1, h2, h3⟩ := runSteps_given (r := r) (k := k) (steps := l)
      ({ st with results := st.results.set (k ++ "_" ++ m.name) v } : EvalState) hl hd (fun a ha => h a (by simp [ha]))
    refine ⟨st', ?_, h2, h3⟩
    rw [runSteps]
    unfold runStep
    dsimp only
    rw [hv]
    exact h1
  | .column c f :: l, st, hl, hd, h => by
    obtain ⟨items', g1, g2, g3⟩ := putColumn_total (name := k ++ "_" ++ c) hl hd ((h _ (by simp)).2 c f rfl)
    obtain ⟨st', h1, h2, h3⟩ := runSteps_given (r := r) (k := k) (steps := l)
      ({ st with items := items' } : EvalState) (by show _ ≤ items'.length; omega) g2 (fun a ha => h a (by simp [ha]))
    refine ⟨st', ?_, h2, h3.trans g3⟩
    rw [runSteps]
    unfold runStep
    dsimp only
    rw [g1]
    exact h1

theorem runLabels_given {r : MathLib} {steps : List EvalStep} : ∀ {l : List (String × List (ℚ × ℚ))} (st : EvalState),
    AllDict st.items →
    (∀ k ps, (k, ps) ∈ l → ps.length ≤ st.items.length ∧
      ∀ a ∈ steps, (∀ m, a = EvalStep.metric m → ∃ v, metricValue r m ps = .ok v) ∧
        (∀ c f, a = EvalStep.column c f → ∀ p ∈ ps, ∃ v, f p.1 p.2 = .ok v)) →
    ∃ st', runLabels r steps l st = .ok st'
  | [], st, _, _ => ⟨st, rfl⟩
  | (k, ps) :: l, st, hd, h => by
    obtain ⟨st1, h1, h2, h3⟩ := runSteps_given (r := r) (k := k) st (h k ps (by simp)).1 hd (h k ps (by simp)).2
    obtain ⟨st2, h4⟩ := runLabels_given (r := r) (steps := steps) (l := l) st1 h2 (fun k' ps' h' => by
      rw [h3]; exact h k' ps' (by simp [h']))
    refine ⟨st2, ?_⟩
    rw [runLabels, h1]
    exact h4

theorem resultsSeries_given {m : EvalModel} {l : List Item} {s : TSeries} (hg : GoodPoints l) (hb : TSeries.build l = .ok s)
    {w : Option ℕ} (hw : m.window = some w) (hlen : m.startAt < l.length) :
    resultsSeries m true s = .ok (s.items.drop m.startAt) := by
  have hne : s.items ≠ [] := by
    rw [build_items hb]; intro e; rw [e] at hlen; simp at hlen
  have : ∃ items, resultsSeries m true s = .ok items := by
    unfold resultsSeries
    rw [if_pos rfl, duplicate_build hb]
    dsimp only
    rw [hw]
    cases w with
    | none => exact ⟨_, rfl⟩
    | some w =>
      cases w with
      | zero => exact ⟨_, rfl⟩
      | succ w =>
        obtain ⟨q, hq, _⟩ := C11_index_slicing s hne (.inl (by rw [build_items hb]; exact hg)) (some ((w + 1 : ℕ) : Int)) none (.inl rfl)
        refine ⟨q.items, ?_⟩
        show (s.getSlice (some ((w + 1 : ℕ) : Int)) none).map TSeries.items = _
        rw [hq]; rfl
  obtain ⟨items, hi⟩ := this
  rw [hi, resultsSeries_items hb hne hi]

/-- **C214**, partial (given): on a series of points with dictionary data, longer than the window the model has stored, the results
series is given whenever the predictions are and every metric and error asked for is defined on the values compared. -/
theorem C214_given_partial {r : MathLib} {m : EvalModel} {pred : VPredictor} {a : EvalArgs} {ks : List String} {l : List Item}
    {s : TSeries} {w : Option ℕ} (hg : GoodPoints l) (hd : AllDict l) (hb : TSeries.build l = .ok s)
    (hw : m.window = some w) (hsteps : a.steps = 1) (hgive : a.giveSeries = true)
    (hnames : ∀ n ∈ metricNames m a, ∃ e : Metric, n = e.name) (hpu : ∀ n ∈ a.punctual, n = "E" ∨ n = "PE" ∨ n = "LE")
    (hlen : m.startAt < l.length)
    (hps : ∀ k ∈ evalLabels m ks, ∃ ps, evalPairs pred m.startAt s k = .ok ps ∧
      (∀ e : Metric, e.name ∈ metricNames m a → EvalDefined ps e) ∧
      ∀ p ∈ ps, ColumnsDefined (metricNames m a) a.punctual p.1 p.2) :
    ∃ o, evaluateForecaster r m pred a ks s = .ok (some o) ∧ o.series.isSome = true := by
  have hit := build_items hb
  have hne : s.items ≠ [] := by rw [hit]; intro e; rw [e] at hlen; simp at hlen
  obtain ⟨q, hl⟩ := pairs_total (ks := evalLabels m ks) (fun k hk => (hps k hk).imp (fun ps h => h.1))
  obtain ⟨st, h1⟩ := runLabels_given (r := r) (l := q)
    (steps := evalSteps r ((metricNames m a).filterMap readMetric) true a.punctual) ⟨[], s.items.drop m.startAt⟩
    (by
      intro x hx
      exact hd x (by rw [← hit]; exact List.mem_of_mem_drop hx))
    (by
      intro k ps hk
      obtain ⟨hk1, hk2⟩ := (pairs_mem hl k ps).1 hk
      obtain ⟨ps', h3, h4, h5⟩ := hps k hk1
      rw [hk2] at h3
      cases h3
      have hle := (C124_pairs hk2).1
      refine ⟨by rw [List.length_drop]; omega, ?_⟩
      intro x hx
      constructor
      · rintro e rfl
        have he := metric_requested.1 (metric_mem_steps.1 hx)
        obtain ⟨v, hv, _⟩ := metricValue_ok (r := r) (h4 e he) (fun _ => by
          intro e; subst e; rw [hit] at hle; simp at hle; omega)
        exact ⟨v, hv⟩
      · rintro c f rfl p hp
        exact colFun_total (h5 p hp) hx)
  refine ⟨⟨st.results, some st.items⟩, ?_, rfl⟩
  unfold evaluateForecaster
  rw [if_neg (by simpa using hne), if_neg (by omega), checkMetrics_iff.2 ⟨hnames, hpu⟩]
  dsimp only
  rw [if_neg (fun h => h.2 hsteps), hgive, resultsSeries_given hg hb hw hlen]
  dsimp only
  rw [hl]
  dsimp only
  rw [h1]
  dsimp only
  unfold evalOut
  simp

/-- **C214 is false (percentages)**: a value which is zero makes an evaluation with the punctual percentage errors a
`ZeroDivisionError`. -/
theorem C214_zero_false : evaluateForecaster anyMath winOne twiceLast ⟨1, some ["MAE"], ["PE"], true⟩ ["v"]
      { zeroSeries with res := .unit (TUnit.ofSecs 60) } = .error .zeroDivision ∧
    (evaluateForecaster anyMath winOne twiceLast ⟨1, some ["MAE"], ["PE"], true⟩ ["v"] evalSeries).toOption.isSome = true := by
  refine ⟨by decide +kernel, by decide +kernel⟩

end Timeseria
