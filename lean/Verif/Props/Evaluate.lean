import Verif.Model.Evaluate
import Verif.Props.Metrics
import Verif.Props.ForecastClaims
import Verif.Lemmas.Dict

/-! # The evaluation of a forecaster (C211-C216) -/

namespace Timeseria

/-! ## Specification -/

/-- the mean of a list -/
def Mean (l : List ℚ) (v : Option ℚ) : Prop := l ≠ [] ∧ v = some (l.sum / l.length)

/-- the largest value of a list; `None` for no values -/
def Largest (l : List ℚ) (v : Option ℚ) : Prop := (l = [] ∧ v = none) ∨ ∃ y, v = some y ∧ IsMax y l

/-- what each metric means, on pairs of actual and predicted values -/
def MetricMeans (r : MathLib) (ps : List (ℚ × ℚ)) : Metric → Option ℚ → Prop
  | .mse, v => Mean (ps.map (fun p => (p.1 - p.2) ^ 2)) v
  | .rmse, v => ∃ x, Mean (ps.map (fun p => (p.1 - p.2) ^ 2)) (some x) ∧ v = some (r.sqrt x)
  | .mae, v => Mean (ps.map (fun p => |p.1 - p.2|)) v
  | .hae, v => Largest (ps.map (fun p => |p.1 - p.2|)) v
  | .mape, v => Mean (ps.map (fun p => |(p.1 - p.2) / p.1|)) v
  | .hape, v => Largest (ps.map (fun p => |(p.1 - p.2) / p.1|)) v
  | .male, v => Mean (ps.map (fun p => |r.ln (p.1 / p.2)|)) v
  | .hale, v => Largest (ps.map (fun p => |r.ln (p.1 / p.2)|)) v

/-- the values for which a metric is defined: percentages of values that are not zero, logarithms of positive ratios -/
def EvalDefined (ps : List (ℚ × ℚ)) : Metric → Prop
  | .mse | .rmse | .mae | .hae => True
  | .mape | .hape => ∀ p ∈ ps, p.1 ≠ 0
  | .male | .hale => ∀ p ∈ ps, p.2 ≠ 0 ∧ 0 < p.1 / p.2

/-- `ps` are the values compared for a label: the actual value of each item from the window on, in order, and the one
predicted from the items before it -/
def ComparedFor (pred : VPredictor) (w : ℕ) (s : TSeries) (k : String) (ps : List (ℚ × ℚ)) : Prop :=
  ps.length = s.items.length - w ∧
  ∀ j a v, ps[(j : ℕ)]? = some (a, v) → ∃ x, s.items[w + j]? = some x ∧ x.val? k = some a ∧
    ∃ p, pred ⟨s, 0, (w + j : ℕ), 0⟩ = .ok p ∧ predictedValue k p = .ok v

/-! ## The metrics -/

theorem zipWith_pairs (f : ℚ → ℚ → ℚ) (ps : List (ℚ × ℚ)) :
    List.zipWith f (ps.map Prod.fst) (ps.map Prod.snd) = ps.map (fun p => f p.1 p.2) := by
  induction ps with
  | nil => rfl
  | cons p l ih => simp [ih]

theorem skMean_pairs (f : ℚ → ℚ) (ps : List (ℚ × ℚ)) : skMean f (ps.map Prod.fst) (ps.map Prod.snd) =
    if ps = [] then .error .valueError else .ok ((ps.map (fun p => f (p.1 - p.2))).sum / ps.length) := by
  unfold skMean
  rw [zipWith_pairs]
  by_cases h : ps = []
  · simp [h]
  · have : ¬ ps.length = 0 := by simpa using h
    simp [h]

theorem apeSum_pairs : ∀ ps : List (ℚ × ℚ), (∀ p ∈ ps, p.1 ≠ 0) →
    apeSum (ps.map Prod.fst) (ps.map Prod.snd) = .ok (ps.map (fun p => |(p.1 - p.2) / p.1|)).sum
  | [], _ => rfl
  | p :: l, h => by
    have ih := apeSum_pairs l (fun q hq => h q (by simp [hq]))
    have hp := h p (by simp)
    simp [apeSum, ih, hp, Except.map]

theorem maxApeLoop_pairs : ∀ (ps : List (ℚ × ℚ)) (acc : Option ℚ), (∀ p ∈ ps, p.1 ≠ 0) →
    maxApeLoop acc (ps.map Prod.fst) (ps.map Prod.snd) = .ok ((ps.map (fun p => |(p.1 - p.2) / p.1|)).foldl maxStep acc)
  | [], _, _ => rfl
  | p :: l, acc, h => by
    have ih := maxApeLoop_pairs l (maxStep acc |(p.1 - p.2) / p.1|) (fun q hq => h q (by simp [hq]))
    have hp := h p (by simp)
    simp [maxApeLoop, ih, hp]

theorem maxAeLoop_pairs : ∀ (ps : List (ℚ × ℚ)) (acc : Option ℚ),
    maxAeLoop acc (ps.map Prod.fst) (ps.map Prod.snd) = (ps.map (fun p => |p.1 - p.2|)).foldl maxStep acc
  | [], _ => rfl
  | p :: l, acc => by
    have ih := maxAeLoop_pairs l (maxStep acc |p.1 - p.2|)
    simp [maxAeLoop, ih]

theorem apeSum_undef : ∀ ps : List (ℚ × ℚ), ¬ (∀ p ∈ ps, p.1 ≠ 0) →
    apeSum (ps.map Prod.fst) (ps.map Prod.snd) = .error .zeroDivision
  | [], h => absurd (by simp) h
  | p :: l, h => by
    by_cases hp : p.1 = 0
    · simp [apeSum, hp]
    · have ih := apeSum_undef l (fun h' => h (by
        intro q hq
        rcases List.mem_cons.1 hq with rfl | hq
        · exact hp
        · exact h' q hq))
      simp [apeSum, ih, hp, Except.map]

theorem maxApeLoop_undef : ∀ (ps : List (ℚ × ℚ)) (acc : Option ℚ), ¬ (∀ p ∈ ps, p.1 ≠ 0) →
    maxApeLoop acc (ps.map Prod.fst) (ps.map Prod.snd) = .error .zeroDivision
  | [], _, h => absurd (by simp) h
  | p :: l, acc, h => by
    by_cases hp : p.1 = 0
    · simp [maxApeLoop, hp]
    · have ih := maxApeLoop_undef l (maxStep acc |(p.1 - p.2) / p.1|) (fun h' => h (by
        intro q hq
        rcases List.mem_cons.1 hq with rfl | hq
        · exact hp
        · exact h' q hq))
      simp [maxApeLoop, ih, hp]

theorem logRatio_ok {r : MathLib} {a p : ℚ} (h : p ≠ 0) (h' : 0 < a / p) : logRatio r a p = .ok (r.ln (a / p)) := by
  unfold logRatio
  rw [if_neg h, if_neg (not_le.2 h')]

theorem logRatio_inv {r : MathLib} {a p v : ℚ} (h : logRatio r a p = .ok v) : p ≠ 0 ∧ 0 < a / p ∧ v = r.ln (a / p) := by
  unfold logRatio at h
  by_cases h1 : p = 0
  · rw [if_pos h1] at h; cases h
  · rw [if_neg h1] at h
    by_cases h2 : a / p ≤ 0
    · rw [if_pos h2] at h; cases h
    · rw [if_neg h2] at h
      cases h
      exact ⟨h1, not_le.1 h2, rfl⟩

theorem logs_ok {r : MathLib} : ∀ ps : List (ℚ × ℚ), (∀ p ∈ ps, p.2 ≠ 0 ∧ 0 < p.1 / p.2) →
    mapE (fun x => logRatio r x.1 x.2) ps = .ok (ps.map (fun p => r.ln (p.1 / p.2)))
  | [], _ => rfl
  | p :: l, h => by
    have hp := h p (by simp)
    have ih := logs_ok (r := r) l (fun q hq => h q (by simp [hq]))
    simp [mapE, logRatio_ok hp.1 hp.2, ih]

theorem logs_undef {r : MathLib} : ∀ ps : List (ℚ × ℚ), ¬ (∀ p ∈ ps, p.2 ≠ 0 ∧ 0 < p.1 / p.2) →
    ∃ e, mapE (fun x => logRatio r x.1 x.2) ps = .error e ∧ (e = .zeroDivision ∨ e = .valueError)
  | [], h => absurd (by simp) h
  | p :: l, h => by
    by_cases h1 : p.2 = 0
    · exact ⟨.zeroDivision, by simp [mapE, logRatio, h1], .inl rfl⟩
    · by_cases h2 : p.1 / p.2 ≤ 0
      · refine ⟨.valueError, ?_, .inr rfl⟩
        have : logRatio r p.1 p.2 = .error .valueError := by
          unfold logRatio
          rw [if_neg h1, if_pos h2]
        simp [mapE, this]
      · obtain ⟨e, he, h3⟩ := logs_undef (r := r) l (fun h' => h (by
          intro q hq
          rcases List.mem_cons.1 hq with rfl | hq
          · exact ⟨h1, not_le.1 h2⟩
          · exact h' q hq))
        exact ⟨e, by simp [mapE, logRatio_ok h1 (not_le.1 h2), he], h3⟩

theorem largest_foldl (l : List ℚ) : Largest l (l.foldl maxStep none) := by
  by_cases h : l = []
  · subst h; exact .inl ⟨rfl, rfl⟩
  · obtain ⟨y, hy, hm⟩ := foldl_maxStep_none h
    exact .inr ⟨y, hy, hm⟩

/-- the metrics that need at least one value -/
def Metric.isMean : Metric → Bool
  | .mse | .rmse | .mae | .mape | .male => true
  | .hae | .hape | .hale => false

theorem mean_pairs {ps : List (ℚ × ℚ)} (f : ℚ × ℚ → ℚ) (h : ps ≠ []) :
    Mean (ps.map f) (some ((ps.map f).sum / ps.length)) :=
  ⟨by simpa using h, by rw [List.length_map]⟩

/-- the value computed is what the metric means -/
theorem metricValue_ok {r : MathLib} {m : Metric} {ps : List (ℚ × ℚ)} (hd : EvalDefined ps m)
    (hne : m.isMean = true → ps ≠ []) : ∃ v, metricValue r m ps = .ok v ∧ MetricMeans r ps m v := by
  cases m with
  | mse =>
    have h := hne rfl
    refine ⟨_, ?_, mean_pairs _ h⟩
    show Except.map some (skMean _ _ _) = _
    rw [skMean_pairs, if_neg h]; rfl
  | rmse =>
    have h := hne rfl
    refine ⟨_, ?_, _, mean_pairs _ h, rfl⟩
    show Except.map (fun x => some (r.sqrt x)) (skMean _ _ _) = _
    rw [skMean_pairs, if_neg h]; rfl
  | mae =>
    have h := hne rfl
    refine ⟨_, ?_, mean_pairs _ h⟩
    show Except.map some (skMean _ _ _) = _
    rw [skMean_pairs, if_neg h]; rfl
  | hae =>
    refine ⟨_, ?_, largest_foldl _⟩
    show maxAe _ _ = _
    unfold maxAe
    rw [maxAeLoop_pairs]
    simp
  | mape =>
    have h := hne rfl
    refine ⟨_, ?_, mean_pairs _ h⟩
    show Except.map some (mape _ _) = _
    unfold mape
    rw [apeSum_pairs ps hd]
    have : ¬ ps.length = 0 := by simpa using h
    simp [this, Except.map]
  | hape =>
    refine ⟨_, ?_, largest_foldl _⟩
    show maxApe _ _ = _
    unfold maxApe
    rw [maxApeLoop_pairs ps none hd]
    simp
  | male =>
    have h := hne rfl
    refine ⟨_, ?_, mean_pairs _ h⟩
    show Except.map some (maleOf r ps) = _
    unfold maleOf
    rw [logs_ok ps hd]
    have : ¬ ps.length = 0 := by simpa using h
    simp [Except.map, h, Function.comp_def]
  | hale =>
    refine ⟨_, ?_, largest_foldl _⟩
    show haleOf r ps = _
    unfold haleOf
    rw [logs_ok ps hd]
    simp [List.foldl_map]

/-- if a value is computed then the metric was defined, and it is what the metric means -/
theorem metricValue_inv {r : MathLib} {m : Metric} {ps : List (ℚ × ℚ)} {v : Option ℚ} (h : metricValue r m ps = .ok v) :
    EvalDefined ps m ∧ (m.isMean = true → ps ≠ []) ∧ MetricMeans r ps m v := by
  have key : EvalDefined ps m ∧ (m.isMean = true → ps ≠ []) := by
    cases m with
    | mse =>
      refine ⟨trivial, fun _ e => ?_⟩
      subst e; cases h
    | rmse =>
      refine ⟨trivial, fun _ e => ?_⟩
      subst e; cases h
    | mae =>
      refine ⟨trivial, fun _ e => ?_⟩
      subst e; cases h
    | hae => exact ⟨trivial, fun e => by cases e⟩
    | mape =>
      constructor
      · by_contra hc
        change Except.map some (mape _ _) = _ at h
        unfold mape at h
        rw [apeSum_undef ps hc] at h
        simp [Except.map] at h
      · intro _ e
        subst e; cases h
    | hape =>
      refine ⟨?_, fun e => by cases e⟩
      by_contra hc
      change maxApe _ _ = _ at h
      unfold maxApe at h
      rw [maxApeLoop_undef ps none hc] at h
      simp at h
    | male =>
      constructor
      · by_contra hc
        change Except.map some (maleOf r ps) = _ at h
        unfold maleOf at h
        obtain ⟨e, he, _⟩ := logs_undef (r := r) ps hc
        rw [he] at h
        cases h
      · intro _ e
        subst e; cases h
    | hale =>
      refine ⟨?_, fun e => by cases e⟩
      by_contra hc
      change haleOf r ps = _ at h
      unfold haleOf at h
      obtain ⟨e, he, _⟩ := logs_undef (r := r) ps hc
      rw [he] at h
      cases h
  obtain ⟨v', h1, h2⟩ := metricValue_ok (r := r) key.1 key.2
  rw [h] at h1
  cases h1
  exact ⟨key.1, key.2, h2⟩

/-! ## Names -/

/-- the part after the last underscore -/
theorem append_suffix_inj {l l' n n' : List Char} (h : '_' ∉ n) (h' : '_' ∉ n') (e : l ++ '_' :: n = l' ++ '_' :: n') :
    l = l' ∧ n = n' := by
  rcases List.append_eq_append_iff.1 e with ⟨a, h1, h2⟩ | ⟨a, h1, h2⟩
  · cases a with
    | nil => simp at h1 h2; exact ⟨h1.symm, h2⟩
    | cons c a =>
      simp at h2
      exact absurd (by rw [h2.2]; simp) h
  · cases a with
    | nil => simp at h1 h2; exact ⟨h1, h2.symm⟩
    | cons c a =>
      simp at h2
      exact absurd (by rw [h2.2]; simp) h'

theorem suffixed_inj {k k' n n' : String} (h : '_' ∉ n.toList) (h' : '_' ∉ n'.toList)
    (e : k ++ "_" ++ n = k' ++ "_" ++ n') : k = k' ∧ n = n' := by
  have e1 := congrArg String.toList e
  simp only [String.toList_append] at e1
  have e2 : k.toList ++ '_' :: n.toList = k'.toList ++ '_' :: n'.toList := by
    simpa using e1
  obtain ⟨a, b⟩ := append_suffix_inj h h' e2
  exact ⟨String.toList_injective a, String.toList_injective b⟩

theorem Metric.name_plain (m : Metric) : '_' ∉ m.name.toList := by cases m <;> decide
theorem Metric.name_inj {m m' : Metric} (h : m.name = m'.name) : m = m' := by
  revert h; cases m <;> cases m' <;> decide

theorem readMetric_name (m : Metric) : readMetric m.name = some m := by cases m <;> decide
theorem readMetric_iff {n : String} {m : Metric} : readMetric n = some m ↔ n = m.name := by
  constructor
  · intro h
    have := List.find?_some h
    simpa using (of_decide_eq_true this).symm
  · rintro rfl; exact readMetric_name m

theorem metric_requested {names : List String} {m : Metric} : m ∈ names.filterMap readMetric ↔ m.name ∈ names := by
  rw [List.mem_filterMap]
  constructor
  · rintro ⟨n, h, e⟩
    rw [readMetric_iff] at e
    rwa [e] at h
  · intro h; exact ⟨_, h, readMetric_name m⟩

theorem metric_in_all (m : Metric) : m ∈ allMetrics := by cases m <;> decide

theorem metric_mem_punctual {r : MathLib} {gen : Bool} {pu : List String} {m : Metric} :
    ¬ EvalStep.metric m ∈ punctualSteps r gen pu := by
  unfold punctualSteps
  split
  · intro h
    simp only [List.mem_append] at h
    rcases h with (h | h) | h <;> · split at h <;> simp at h
  · simp

theorem metric_mem_steps {r : MathLib} {ms : List Metric} {gen : Bool} {pu : List String} {m : Metric} :
    EvalStep.metric m ∈ evalSteps r ms gen pu ↔ m ∈ ms := by
  unfold evalSteps
  rw [List.mem_append, List.mem_append, List.mem_flatMap]
  constructor
  · rintro ((h | ⟨m', h1, h2⟩) | h)
    · split at h <;> simp at h
    · have h3 := (List.mem_filter.1 h1).2
      unfold metricSteps at h2
      rcases List.mem_cons.1 h2 with h4 | h4
      · cases h4; simpa using h3
      · split at h4
        · cases m' <;> simp at h4
        · simp at h4
    · exact absurd h metric_mem_punctual
  · intro h
    exact .inl (.inr ⟨m, List.mem_filter.2 ⟨metric_in_all m, by simpa using h⟩, List.mem_cons_self⟩)

/-! ## The results -/

theorem runSteps_results {r : MathLib} {k : String} {ps : List (ℚ × ℚ)} : ∀ {steps : List EvalStep} {st st' : EvalState},
    runSteps r k ps steps st = .ok st' →
    (∀ m, EvalStep.metric m ∈ steps → ∃ v, metricValue r m ps = .ok v ∧ st'.results.get? (k ++ "_" ++ m.name) = some v) ∧
    (∀ key, (∀ m, EvalStep.metric m ∈ steps → key ≠ k ++ "_" ++ m.name) → st'.results.get? key = st.results.get? key)
  | [], st, st', h => by
    cases h
    exact ⟨fun m hm => by simp at hm, fun _ _ => rfl⟩
  | a :: l, st, st', h => by
    rw [runSteps] at h
    cases h1 : runStep r k ps st a with
    | error e => rw [h1] at h; cases h
    | ok st1 =>
      rw [h1] at h
      obtain ⟨i1, i2⟩ := runSteps_results h
      cases a with
      | metric m0 =>
        unfold runStep at h1
        dsimp only at h1
        cases h2 : metricValue r m0 ps with
        | error e => rw [h2] at h1; cases h1
        | ok v =>
          rw [h2] at h1
          cases h1
          constructor
          · intro m hm
            by_cases hl : EvalStep.metric m ∈ l
            · exact i1 m hl
            · rcases List.mem_cons.1 hm with h3 | h3
              · cases h3
                refine ⟨v, h2, ?_⟩
                rw [i2 _ (by
                  intro m' hm' e
                  have := Metric.name_inj (suffixed_inj (Metric.name_plain _) m'.name_plain e).2
                  rw [← this] at hm'
                  exact hl hm'), Dict.get?_set, if_pos rfl]
              · exact absurd h3 hl
          · intro key hk
            rw [i2 key (fun m hm => hk m (by simp [hm])), Dict.get?_set, if_neg (fun e => hk m0 (by simp) e.symm)]
      | column s f =>
        unfold runStep at h1
        dsimp only at h1
        cases h2 : putColumn (k ++ "_" ++ s) f ps st.items with
        | error e => rw [h2] at h1; cases h1
        | ok v =>
          rw [h2] at h1
          cases h1
          constructor
          · intro m hm
            rcases List.mem_cons.1 hm with h3 | h3
            · cases h3
            · exact i1 m h3
          · intro key hk
            rw [i2 key (fun m hm => hk m (by simp [hm]))]

theorem runLabels_results {r : MathLib} {steps : List EvalStep} : ∀ {l : List (String × List (ℚ × ℚ))} {st st' : EvalState},
    (∀ k ps ps', (k, ps) ∈ l → (k, ps') ∈ l → ps = ps') → runLabels r steps l st = .ok st' →
    (∀ k ps m, (k, ps) ∈ l → EvalStep.metric m ∈ steps →
      ∃ v, metricValue r m ps = .ok v ∧ st'.results.get? (k ++ "_" ++ m.name) = some v) ∧
    (∀ key, (∀ k ps m, (k, ps) ∈ l → EvalStep.metric m ∈ steps → key ≠ k ++ "_" ++ m.name) →
      st'.results.get? key = st.results.get? key)
  | [], st, st', _, h => by
    cases h
    exact ⟨fun k ps m hk => by simp at hk, fun _ _ => rfl⟩
  | (k0, ps0) :: l, st, st', hf, h => by
    rw [runLabels] at h
    cases h1 : runSteps r k0 ps0 steps st with
    | error e => rw [h1] at h; cases h
    | ok st1 =>
      rw [h1] at h
      obtain ⟨i1, i2⟩ := runLabels_results (fun k ps ps' a b => hf k ps ps' (by simp [a]) (by simp [b])) h
      obtain ⟨j1, j2⟩ := runSteps_results h1
      constructor
      · intro k ps m hk hm
        by_cases hl : ∃ ps', (k, ps') ∈ l
        · obtain ⟨ps', hl⟩ := hl
          rw [hf k ps ps' hk (by simp [hl])]
          exact i1 k ps' m hl hm
        · rcases List.mem_cons.1 hk with h3 | h3
          · cases h3
            obtain ⟨v, hv, hg⟩ := j1 m hm
            refine ⟨v, hv, ?_⟩
            rw [i2 _ (by
              intro k' ps' m' hk' _ e
              have := (suffixed_inj m.name_plain m'.name_plain e).1
              subst this
              exact hl ⟨_, hk'⟩), hg]
          · exact absurd ⟨_, h3⟩ hl
      · intro key hk
        rw [i2 key (fun k ps m a b => hk k ps m (by simp [a]) b), j2 key (fun m hm => hk k0 ps0 m (by simp) hm)]

/-- the parts of a successful evaluation -/
theorem evaluate_parts {r : MathLib} {m : EvalModel} {pred : VPredictor} {a : EvalArgs} {ks : List String} {s : TSeries}
    {o : Option EvalOut} (h : evaluateForecaster r m pred a ks s = .ok o) :
    s.items ≠ [] ∧ a.steps ≤ 1 ∧ checkMetrics (metricNames m a) a.punctual = .ok () ∧ ¬ (a.giveSeries = true ∧ a.steps ≠ 1) ∧
    ∃ items l st, resultsSeries m a.giveSeries s = .ok items ∧
      mapE (fun k => (evalPairs pred m.startAt s k).map (fun ps => (k, ps))) (evalLabels m ks) = .ok l ∧
      runLabels r (evalSteps r ((metricNames m a).filterMap readMetric) a.giveSeries a.punctual) l ⟨[], items⟩ = .ok st ∧
      o = evalOut a.giveSeries st := by
  unfold evaluateForecaster at h
  by_cases h1 : s.items.isEmpty = true
  · rw [if_pos h1] at h; cases h
  · rw [if_neg h1] at h
    by_cases h2 : a.steps > 1
    · rw [if_pos h2] at h; cases h
    · rw [if_neg h2] at h
      cases h3 : checkMetrics (metricNames m a) a.punctual with
      | error e => rw [h3] at h; cases h
      | ok u =>
        rw [h3] at h
        dsimp only at h
        by_cases h4 : a.giveSeries = true ∧ a.steps ≠ 1
        · rw [if_pos h4] at h; cases h
        · rw [if_neg h4] at h
          refine ⟨by simpa using h1, not_lt.1 h2, rfl, h4, ?_⟩
          cases h5 : resultsSeries m a.giveSeries s with
          | error e => rw [h5] at h; cases h
          | ok items =>
            rw [h5] at h
            dsimp only at h
            cases h6 : mapE (fun k => (evalPairs pred m.startAt s k).map (fun ps => (k, ps))) (evalLabels m ks) with
            | error e => rw [h6] at h; cases h
            | ok l =>
              rw [h6] at h
              dsimp only at h
              cases h7 : runLabels r (evalSteps r ((metricNames m a).filterMap readMetric) a.giveSeries a.punctual) l ⟨[], items⟩ with
              | error e => rw [h7] at h; cases h
              | ok st =>
                rw [h7] at h
                cases h
                exact ⟨items, l, st, rfl, rfl, h7, rfl⟩

theorem mapE_each {α β : Type} {f : α → Except PyErr β} {l : List α} {r : List β} (h : mapE f l = .ok r) :
    ∀ x ∈ l, ∃ y, f x = .ok y := by
  have hf := mapE_ok_inv h
  clear h
  induction hf with
  | nil => simp
  | cons h1 _ ih =>
    intro x hx
    rcases List.mem_cons.1 hx with rfl | hx
    · exact ⟨_, h1⟩
    · exact ih x hx

/-- the pairs of each label -/
theorem pairs_mem {pred : VPredictor} {w : ℕ} {s : TSeries} {ks : List String} {l : List (String × List (ℚ × ℚ))}
    (h : mapE (fun k => (evalPairs pred w s k).map (fun ps => (k, ps))) ks = .ok l) (k : String) (ps : List (ℚ × ℚ)) :
    (k, ps) ∈ l ↔ k ∈ ks ∧ evalPairs pred w s k = .ok ps := by
  have hf := mapE_ok_inv h
  have aux : ∀ k0 (y : String × List (ℚ × ℚ)), (evalPairs pred w s k0).map (fun ps => (k0, ps)) = .ok y →
      y.1 = k0 ∧ evalPairs pred w s k0 = .ok y.2 := by
    intro k0 y hy
    cases he : evalPairs pred w s k0 with
    | error e => rw [he] at hy; cases hy
    | ok q => rw [he] at hy; cases hy; exact ⟨rfl, rfl⟩
  clear h
  induction hf with
  | nil => simp
  | @cons k0 y ks' l' hy _ ih =>
    obtain ⟨e1, e2⟩ := aux _ _ hy
    have ih' : (k, ps) ∈ l' ↔ k ∈ ks' ∧ evalPairs pred w s k = .ok ps := ih
    rw [List.mem_cons, List.mem_cons, ih']
    constructor
    · rintro (h | h)
      · subst h
        dsimp only at e1 e2
        exact ⟨.inl e1, e1 ▸ e2⟩
      · exact ⟨.inr h.1, h.2⟩
    · rintro ⟨h | h, h'⟩
      · subst h
        rw [h'] at e2
        cases e2
        left
        rw [← e1]
      · exact .inr ⟨h, h'⟩

/-! ## C211: the results -/

/-- **C211** For every evaluation that returns, the results have exactly one value for each label evaluated and metric asked for,
under the name of the label, an underscore and the name of the metric, and it is what the metric means on the values compared:
those of the items from the window on and those predicted from the items before them. -/
theorem C211_results {r : MathLib} {m : EvalModel} {pred : VPredictor} {a : EvalArgs} {ks : List String} {s : TSeries}
    {o : EvalOut} (h : evaluateForecaster r m pred a ks s = .ok (some o)) :
    (∀ k ∈ evalLabels m ks, ∀ e : Metric, e.name ∈ metricNames m a →
      ∃ ps v, ComparedFor pred m.startAt s k ps ∧ MetricMeans r ps e v ∧ o.results.get? (k ++ "_" ++ e.name) = some v) ∧
    (∀ key v, o.results.get? key = some v →
      ∃ k ∈ evalLabels m ks, ∃ e : Metric, e.name ∈ metricNames m a ∧ key = k ++ "_" ++ e.name) := by
  obtain ⟨_, _, _, _, items, l, st, _, h6, h7, h8⟩ := evaluate_parts h
  have hp := pairs_mem h6
  obtain ⟨i1, i2⟩ := runLabels_results (by
    intro k ps ps' h1 h2
    have e1 := ((hp k ps).1 h1).2
    rw [((hp k ps').1 h2).2] at e1
    cases e1; rfl) h7
  have ho : o.results = st.results := by
    unfold evalOut at h8
    split at h8
    · cases h8
    · cases h8; rfl
  rw [ho]
  constructor
  · intro k hk e he
    obtain ⟨q, hq1⟩ := mapE_each h6 k hk
    cases hev : evalPairs pred m.startAt s k with
    | error x => rw [hev] at hq1; cases hq1
    | ok ps =>
      obtain ⟨v, hv, hg⟩ := i1 k ps e ((hp k ps).2 ⟨hk, hev⟩) (metric_mem_steps.2 (metric_requested.2 he))
      exact ⟨ps, v, C124_pairs hev, (metricValue_inv hv).2.2, hg⟩
  · intro key v hg
    by_contra hc
    rw [i2 key (by
      intro k ps e hk he hkey
      exact hc ⟨k, ((hp k ps).1 hk).1, e, metric_requested.1 (metric_mem_steps.1 he), hkey⟩)] at hg
    cases hg

theorem runSteps_total {r : MathLib} {k : String} {ps : List (ℚ × ℚ)} : ∀ {steps : List EvalStep} (st : EvalState),
    (∀ a ∈ steps, ∃ m, a = EvalStep.metric m ∧ EvalDefined ps m) → ps ≠ [] →
    ∃ st', runSteps r k ps steps st = .ok st' ∧ st'.items = st.items
  | [], st, _, _ => ⟨st, rfl, rfl⟩
  | a :: l, st, h, hne => by
    obtain ⟨m, e, hd⟩ := h a (by simp)
    subst e
    obtain ⟨v, hv, _⟩ := metricValue_ok (r := r) hd (fun _ => hne)
    obtain ⟨st', h1, h2⟩ := runSteps_total (r := r) (k := k) (steps := l) ({ st with results := st.results.set (k ++ "_" ++ m.name) v } : EvalState)
      (fun a ha => h a (by simp [ha])) hne
    refine ⟨st', ?_, h2⟩
    rw [runSteps]
    unfold runStep
    dsimp only
    rw [hv]
    exact h1

theorem runLabels_total {r : MathLib} {steps : List EvalStep} : ∀ {l : List (String × List (ℚ × ℚ))} (st : EvalState),
    (∀ k ps, (k, ps) ∈ l → (∀ a ∈ steps, ∃ m, a = EvalStep.metric m ∧ EvalDefined ps m) ∧ ps ≠ []) →
    ∃ st', runLabels r steps l st = .ok st' ∧ st'.items = st.items
  | [], st, _ => ⟨st, rfl, rfl⟩
  | (k, ps) :: l, st, h => by
    obtain ⟨st1, h1, h2⟩ := runSteps_total (r := r) (k := k) st (h k ps (by simp)).1 (h k ps (by simp)).2
    obtain ⟨st2, h3, h4⟩ := runLabels_total (r := r) (steps := steps) (l := l) st1 (fun k' ps' h' => h k' ps' (by simp [h']))
    refine ⟨st2, ?_, h4.trans h2⟩
    rw [runLabels, h1]
    exact h3

theorem steps_plain {r : MathLib} {ms : List Metric} {pu : List String} :
    ∀ a ∈ evalSteps r ms false pu, ∃ m, a = EvalStep.metric m ∧ m ∈ ms := by
  intro a ha
  have he : evalSteps r ms false pu = (allMetrics.filter (fun m => m ∈ ms)).flatMap (metricSteps r false) := by
    simp [evalSteps, punctualSteps]
  rw [he] at ha
  obtain ⟨m, h1, h2⟩ := List.mem_flatMap.1 ha
  have h3 := (List.mem_filter.1 h1).2
  simp [metricSteps] at h2
  exact ⟨m, h2, by simpa using h3⟩

theorem checkMetrics_iff {names pu : List String} : checkMetrics names pu = .ok () ↔
    (∀ n ∈ names, ∃ m : Metric, n = m.name) ∧ (∀ n ∈ pu, n = "E" ∨ n = "PE" ∨ n = "LE") := by
  unfold checkMetrics
  by_cases h1 : names.all (fun n => (readMetric n).isSome) = true
  · rw [if_pos h1]
    have h1' : ∀ n ∈ names, ∃ m : Metric, n = m.name := by
      intro n hn
      have := List.all_eq_true.1 h1 n hn
      obtain ⟨m, hm⟩ := Option.isSome_iff_exists.1 this
      exact ⟨m, readMetric_iff.1 hm⟩
    by_cases h2 : pu.all (fun n => decide (n = "E" ∨ n = "PE" ∨ n = "LE")) = true
    · rw [if_pos h2]
      simp only [true_iff]
      exact ⟨h1', fun n hn => by simpa using List.all_eq_true.1 h2 n hn⟩
    · rw [if_neg h2]
      constructor
      · intro h; cases h
      · rintro ⟨_, h⟩
        exact absurd (List.all_eq_true.2 (fun n hn => by simpa using h n hn)) h2
  · rw [if_neg h1]
    constructor
    · intro h; cases h
    · rintro ⟨h, _⟩
      refine absurd (List.all_eq_true.2 (fun n hn => ?_)) h1
      obtain ⟨m, rfl⟩ := h n hn
      rw [readMetric_name]; rfl

theorem checkMetrics_error {names pu : List String} {e : PyErr} (h : checkMetrics names pu = .error e) : e = .valueError := by
  unfold checkMetrics at h
  split at h
  · split at h
    · cases h
    · cases h; rfl
  · cases h; rfl

theorem pairs_total {pred : VPredictor} {w : ℕ} {s : TSeries} : ∀ {ks : List String},
    (∀ k ∈ ks, ∃ ps, evalPairs pred w s k = .ok ps) →
    ∃ l, mapE (fun k => (evalPairs pred w s k).map (fun ps => (k, ps))) ks = .ok l
  | [], _ => ⟨[], rfl⟩
  | k :: ks, h => by
    obtain ⟨ps, hp⟩ := h k (by simp)
    obtain ⟨l, hl⟩ := pairs_total (ks := ks) (fun k' hk => h k' (by simp [hk]))
    refine ⟨(k, ps) :: l, ?_⟩
    rw [mapE, hp, hl]
    rfl

/-- **C213**, partial: without a results series, the metrics are computed when the predictions are and every metric asked for is
defined on the values compared, at least one value being compared. -/
theorem C213_defined_partial {r : MathLib} {m : EvalModel} {pred : VPredictor} {a : EvalArgs} {ks : List String} {s : TSeries}
    (hsteps : a.steps = 1) (hg : a.giveSeries = false)
    (hnames : ∀ n ∈ metricNames m a, ∃ e : Metric, n = e.name) (hpu : ∀ n ∈ a.punctual, n = "E" ∨ n = "PE" ∨ n = "LE")
    (hlen : m.startAt < s.items.length)
    (hps : ∀ k ∈ evalLabels m ks, ∃ ps, evalPairs pred m.startAt s k = .ok ps ∧
      ∀ e : Metric, e.name ∈ metricNames m a → EvalDefined ps e) :
    ∃ o, evaluateForecaster r m pred a ks s = .ok o := by
  obtain ⟨l, hl⟩ := pairs_total (ks := evalLabels m ks) (fun k hk => (hps k hk).imp (fun ps h => h.1))
  obtain ⟨st, h1, _⟩ := runLabels_total (r := r) (l := l)
    (steps := evalSteps r ((metricNames m a).filterMap readMetric) false a.punctual) ⟨[], []⟩ (by
      intro k ps hk
      obtain ⟨hk1, hk2⟩ := (pairs_mem hl k ps).1 hk
      obtain ⟨ps', h3, h4⟩ := hps k hk1
      rw [hk2] at h3
      cases h3
      constructor
      · intro x hx
        obtain ⟨e, h5, h6⟩ := steps_plain x hx
        exact ⟨e, h5, h4 e (metric_requested.1 h6)⟩
      · intro e
        subst e
        have := (C124_pairs hk2).1
        simp at this
        omega)
  refine ⟨evalOut false st, ?_⟩
  have hne : ¬ s.items.isEmpty = true := by
    intro h
    rw [List.isEmpty_iff] at h
    rw [h] at hlen; simp at hlen
  unfold evaluateForecaster
  rw [if_neg hne, if_neg (by omega), checkMetrics_iff.2 ⟨hnames, hpu⟩]
  dsimp only
  rw [if_neg (fun h => h.2 hsteps), hg]
  unfold resultsSeries
  simp only [Bool.false_eq_true, if_false]
  rw [hl]
  dsimp only
  rw [h1]

/-- **C213**, partial, the converse: whenever a result is returned, every metric asked for was defined on the values compared. -/
theorem C213_only_defined_partial {r : MathLib} {m : EvalModel} {pred : VPredictor} {a : EvalArgs} {ks : List String} {s : TSeries}
    {o : Option EvalOut} (h : evaluateForecaster r m pred a ks s = .ok o) :
    ∀ k ∈ evalLabels m ks, ∃ ps, ComparedFor pred m.startAt s k ps ∧
      ∀ e : Metric, e.name ∈ metricNames m a → EvalDefined ps e ∧ (e.isMean = true → ps ≠ []) := by
  obtain ⟨_, _, _, _, items, l, st, _, h6, h7, h8⟩ := evaluate_parts h
  have hp := pairs_mem h6
  obtain ⟨i1, _⟩ := runLabels_results (by
    intro k ps ps' h1 h2
    have e1 := ((hp k ps).1 h1).2
    rw [((hp k ps').1 h2).2] at e1
    cases e1; rfl) h7
  intro k hk
  obtain ⟨q, hq1⟩ := mapE_each h6 k hk
  cases hev : evalPairs pred m.startAt s k with
  | error x => rw [hev] at hq1; cases hq1
  | ok ps =>
    refine ⟨ps, C124_pairs hev, fun e he => ?_⟩
    obtain ⟨v, hv, _⟩ := i1 k ps e ((hp k ps).2 ⟨hk, hev⟩) (metric_mem_steps.2 (metric_requested.2 he))
    exact ⟨(metricValue_inv hv).1, (metricValue_inv hv).2.1⟩

/-! ## C212: the checks -/

/-- **C212**, partial: the arguments refused.  An empty series, several steps, unknown metrics of both kinds. -/
theorem C212_refused_partial (r : MathLib) (m : EvalModel) (pred : VPredictor) (a : EvalArgs) (ks : List String) (s : TSeries) :
    (s.items = [] → evaluateForecaster r m pred a ks s = .error .valueError) ∧
    (s.items ≠ [] → a.steps > 1 → evaluateForecaster r m pred a ks s = .error .notImplemented) ∧
    (s.items ≠ [] → a.steps ≤ 1 → (∃ n ∈ metricNames m a, ∀ e : Metric, n ≠ e.name) →
      evaluateForecaster r m pred a ks s = .error .valueError) ∧
    (s.items ≠ [] → a.steps ≤ 1 → (∃ n ∈ a.punctual, n ≠ "E" ∧ n ≠ "PE" ∧ n ≠ "LE") →
      evaluateForecaster r m pred a ks s = .error .valueError) ∧
    (s.items ≠ [] → a.steps < 1 → a.giveSeries = true → evaluateForecaster r m pred a ks s = .error .valueError) := by
  have bad : s.items ≠ [] → a.steps ≤ 1 → (checkMetrics (metricNames m a) a.punctual ≠ .ok ()) →
      evaluateForecaster r m pred a ks s = .error .valueError := by
    intro h1 h2 h3
    unfold evaluateForecaster
    rw [if_neg (by simpa using h1), if_neg (by omega)]
    cases h4 : checkMetrics (metricNames m a) a.punctual with
    | error e => dsimp only; rw [checkMetrics_error h4]
    | ok u => exact absurd h4 h3
  refine ⟨?_, ?_, ?_, ?_, ?_⟩
  · intro h
    unfold evaluateForecaster
    rw [if_pos (by simp [h])]
  · intro h h2
    unfold evaluateForecaster
    rw [if_neg (by simpa using h), if_pos h2]
  · rintro h h2 ⟨n, hn, hm⟩
    refine bad h h2 (fun h3 => ?_)
    obtain ⟨e, he⟩ := (checkMetrics_iff.1 h3).1 n hn
    exact hm e he
  · rintro h h2 ⟨n, hn, hm⟩
    refine bad h h2 (fun h3 => ?_)
    rcases (checkMetrics_iff.1 h3).2 n hn with h4 | h4 | h4
    · exact hm.1 h4
    · exact hm.2.1 h4
    · exact hm.2.2 h4
  · intro h h2 h3
    unfold evaluateForecaster
    rw [if_neg (by simpa using h), if_neg (by omega)]
    cases h4 : checkMetrics (metricNames m a) a.punctual with
    | error e => dsimp only; rw [checkMetrics_error h4]
    | ok u =>
      dsimp only
      rw [if_pos ⟨h3, by omega⟩]

/-- the same arguments with another number of steps -/
def EvalArgs.withSteps (a : EvalArgs) (n : Int) : EvalArgs := { a with steps := n }

/-- **C212** is false: evaluating on zero or on a negative number of steps is the same as evaluating on one. -/
theorem C212_false (r : MathLib) (m : EvalModel) (pred : VPredictor) (a : EvalArgs) (ks : List String) (s : TSeries) (n : Int)
    (hn : n < 1) (hg : a.giveSeries = false) :
    evaluateForecaster r m pred (a.withSteps n) ks s = evaluateForecaster r m pred (a.withSteps 1) ks s := by
  unfold evaluateForecaster EvalArgs.withSteps
  have e1 : ¬ (n > 1) := by omega
  have e2 : ¬ ((1 : Int) > 1) := by omega
  simp only [hg, e1, e2, if_false, Bool.false_eq_true, false_and, metricNames]

/-! ## C214: the results series -/

/-- the columns added to the results series for a label with actual value `a` and predicted value `p`, and their values: the prediction;
the absolute errors of the means asked for; the punctual errors asked for -/
inductive Column (r : MathLib) (names punctual : List String) (a p : ℚ) : String → ℚ → Prop
  | pred : Column r names punctual a p "pred" p
  | ae : "MAE" ∈ names → Column r names punctual a p "AE" |a - p|
  | ape : "MAPE" ∈ names → Column r names punctual a p "APE" |(a - p) / a|
  | ale : "MALE" ∈ names → Column r names punctual a p "ALE" |r.ln (a / p)|
  | e : "E" ∈ punctual → Column r names punctual a p "E" (a - p)
  | pe : "PE" ∈ punctual → Column r names punctual a p "PE" ((a - p) / a)
  | le : "LE" ∈ punctual → Column r names punctual a p "LE" (r.ln (a / p))

theorem Column.unique {r : MathLib} {names pu : List String} {a p : ℚ} {c : String} {v v' : ℚ}
    (h : Column r names pu a p c v) (h' : Column r names pu a p c v') : v = v' := by
  have aux : ∀ u, Column r names pu a p c u → u = (if c = "pred" then p else if c = "AE" then |a - p| else if c = "APE" then |(a - p) / a|
      else if c = "ALE" then |r.ln (a / p)| else if c = "E" then a - p else if c = "PE" then (a - p) / a else r.ln (a / p)) := by
    intro u hu
    cases hu <;> simp
  rw [aux v h, aux v' h']

/-- the names of the columns have no underscore -/
theorem Column.plain {r : MathLib} {names pu : List String} {a p : ℚ} {c : String} {v : ℚ} (h : Column r names pu a p c v) :
    '_' ∉ c.toList := by
  cases h <;> decide

/-- the function of a column -/
def colFun (r : MathLib) (c : String) : ℚ → ℚ → Except PyErr ℚ :=
  if c = "pred" then fun _ p => .ok p
  else if c = "AE" then fun a p => .ok |a - p|
  else if c = "APE" then fun a p => (relError a p).map (fun x => |x|)
  else if c = "ALE" then fun a p => (logRatio r a p).map (fun x => |x|)
  else if c = "E" then fun a p => .ok (a - p)
  else if c = "PE" then relError
  else logRatio r

theorem column_mem {r : MathLib} {names pu : List String} {c : String} {f : ℚ → ℚ → Except PyErr ℚ}
    (h : EvalStep.column c f ∈ evalSteps r (names.filterMap readMetric) true pu) :
    f = colFun r c ∧ (c = "pred" ∨ (c = "AE" ∧ "MAE" ∈ names) ∨ (c = "APE" ∧ "MAPE" ∈ names) ∨ (c = "ALE" ∧ "MALE" ∈ names) ∨
      (c = "E" ∧ "E" ∈ pu) ∨ (c = "PE" ∧ "PE" ∈ pu) ∨ (c = "LE" ∧ "LE" ∈ pu)) := by
  unfold evalSteps at h
  rw [List.mem_append, List.mem_append, List.mem_flatMap] at h
  rcases h with (h | ⟨m, h1, h2⟩) | h
  · simp at h
    obtain ⟨rfl, rfl⟩ := h
    exact ⟨rfl, .inl rfl⟩
  · have h3 := (List.mem_filter.1 h1).2
    have h4 : m.name ∈ names := metric_requested.1 (by simpa using h3)
    unfold metricSteps at h2
    rcases List.mem_cons.1 h2 with h5 | h5
    · cases h5
    · rw [if_pos rfl] at h5
      cases m with
      | mae => simp at h5; obtain ⟨rfl, rfl⟩ := h5; exact ⟨rfl, .inr (.inl ⟨rfl, h4⟩)⟩
      | mape => simp at h5; obtain ⟨rfl, rfl⟩ := h5; exact ⟨rfl, .inr (.inr (.inl ⟨rfl, h4⟩))⟩
      | male => simp at h5; obtain ⟨rfl, rfl⟩ := h5; exact ⟨rfl, .inr (.inr (.inr (.inl ⟨rfl, h4⟩)))⟩
      | _ => simp at h5
  · unfold punctualSteps at h
    rw [if_pos rfl, List.mem_append, List.mem_append] at h
    rcases h with (h | h) | h
    · split at h
      · rename_i hm
        simp at h; obtain ⟨rfl, rfl⟩ := h; exact ⟨rfl, .inr (.inr (.inr (.inr (.inl ⟨rfl, hm⟩))))⟩
      · simp at h
    · split at h
      · rename_i hm
        simp at h; obtain ⟨rfl, rfl⟩ := h; exact ⟨rfl, .inr (.inr (.inr (.inr (.inr (.inl ⟨rfl, hm⟩)))))⟩
      · simp at h
    · split at h
      · rename_i hm
        simp at h; obtain ⟨rfl, rfl⟩ := h; exact ⟨rfl, .inr (.inr (.inr (.inr (.inr (.inr ⟨rfl, hm⟩)))))⟩
      · simp at h

theorem relError_inv {a p v : ℚ} (h : relError a p = .ok v) : v = (a - p) / a := by
  unfold relError at h
  split at h
  · cases h
  · cases h; rfl

theorem except_map_inv {α β : Type} {f : α → β} {x : Except PyErr α} {y : β} (h : x.map f = .ok y) : ∃ z, x = .ok z ∧ y = f z := by
  cases x with
  | error e => cases h
  | ok z => cases h; exact ⟨z, rfl, rfl⟩

/-- a column of the steps is one of the columns specified -/
theorem column_spec {r : MathLib} {names pu : List String} {c : String} {f : ℚ → ℚ → Except PyErr ℚ} {a p v : ℚ}
    (h : EvalStep.column c f ∈ evalSteps r (names.filterMap readMetric) true pu) (hv : f a p = .ok v) : Column r names pu a p c v := by
  obtain ⟨e, h'⟩ := column_mem h
  clear h
  subst e
  rcases h' with rfl | ⟨rfl, hm⟩ | ⟨rfl, hm⟩ | ⟨rfl, hm⟩ | ⟨rfl, hm⟩ | ⟨rfl, hm⟩ | ⟨rfl, hm⟩
  · cases hv; exact .pred
  · cases hv; exact .ae hm
  · obtain ⟨z, h1, rfl⟩ := except_map_inv (f := fun x : ℚ => |x|) hv
    rw [relError_inv h1]; exact .ape hm
  · obtain ⟨z, h1, rfl⟩ := except_map_inv (f := fun x : ℚ => |x|) hv
    rw [(logRatio_inv h1).2.2]; exact .ale hm
  · cases hv; exact .e hm
  · have := relError_inv (show relError a p = .ok v from hv)
    rw [this]; exact .pe hm
  · have := (logRatio_inv (show logRatio r a p = .ok v from hv)).2.2
    rw [this]; exact .le hm

/-- all the columns specified are among the steps -/
theorem column_exists {r : MathLib} {names pu : List String} {c : String} {a p v : ℚ} (h : Column r names pu a p c v) :
    EvalStep.column c (colFun r c) ∈ evalSteps r (names.filterMap readMetric) true pu := by
  unfold evalSteps
  refine List.mem_append.2 ?_
  rw [List.mem_append, List.mem_flatMap]
  have hm : ∀ m : Metric, m.name ∈ names → m ∈ allMetrics.filter (fun m => m ∈ names.filterMap readMetric) := by
    intro m hm
    exact List.mem_filter.2 ⟨metric_in_all m, by simpa using metric_requested.2 hm⟩
  cases h with
  | pred => exact .inl (.inl (by simp [colFun]))
  | ae h => exact .inl (.inr ⟨.mae, hm .mae h, by simp [metricSteps, colFun]⟩)
  | ape h => exact .inl (.inr ⟨.mape, hm .mape h, by simp [metricSteps, colFun]⟩)
  | ale h => exact .inl (.inr ⟨.male, hm .male h, by simp [metricSteps, colFun]⟩)
  | e h => exact .inr (by simp [punctualSteps, colFun, h])
  | pe h => exact .inr (by simp [punctualSteps, colFun, h])
  | le h => exact .inr (by simp [punctualSteps, colFun, h])

theorem putColumn_at {name : String} {f : ℚ → ℚ → Except PyErr ℚ} : ∀ {ps : List (ℚ × ℚ)} {l l' : List Item},
    putColumn name f ps l = .ok l' → l'.length = l.length ∧
    ∀ i a p, ps[(i : ℕ)]? = some (a, p) → ∃ x d v, l[i]? = some x ∧ x.data = some (.dict d) ∧ f a p = .ok v ∧
      l'[i]? = some { x with data := some (.dict (d.set name v)) }
  | [], l, l', h => by
    cases h
    exact ⟨rfl, fun i a p hi => by simp at hi⟩
  | q :: ps, [], l', h => by cases h
  | q :: ps, x :: l, l', h => by
    rw [putColumn] at h
    cases h1 : f q.1 q.2 with
    | error e => rw [h1] at h; cases h
    | ok v =>
      rw [h1] at h
      dsimp only at h
      cases h2 : putValue name v x with
      | error e => rw [h2] at h; cases h
      | ok y =>
        rw [h2] at h
        dsimp only at h
        cases h3 : putColumn name f ps l with
        | error e => rw [h3] at h; cases h
        | ok l1 =>
          rw [h3] at h
          cases h
          obtain ⟨i1, i2⟩ := putColumn_at h3
          refine ⟨by simp [i1], ?_⟩
          intro i a p hi
          cases i with
          | zero =>
            simp at hi
            subst hi
            unfold putValue at h2
            cases hd : x.data with
            | none => rw [hd] at h2; cases h2
            | some dd =>
              cases dd with
              | dict d =>
                rw [hd] at h2
                cases h2
                exact ⟨x, d, v, rfl, hd, h1, rfl⟩
              | _ => rw [hd] at h2; cases h2
          | succ j =>
            simp at hi
            obtain ⟨x', d, v', e1, e2, e3, e4⟩ := i2 j a p hi
            exact ⟨x', d, v', by simpa using e1, e2, e3, by simpa using e4⟩

theorem runSteps_item {r : MathLib} {k : String} {ps : List (ℚ × ℚ)} {i : ℕ} {a p : ℚ} (hi : ps[i]? = some (a, p)) :
    ∀ {steps : List EvalStep} {st st' : EvalState} {x : Item} {d : Dict ℚ},
    (∀ c f g, EvalStep.column c f ∈ steps → EvalStep.column c g ∈ steps → f = g) →
    runSteps r k ps steps st = .ok st' → st.items[i]? = some x → x.data = some (.dict d) →
    ∃ d', st'.items[i]? = some { x with data := some (.dict d') } ∧
      (∀ c f, EvalStep.column c f ∈ steps → ∃ v, f a p = .ok v ∧ d'.get? (k ++ "_" ++ c) = some v) ∧
      (∀ key, (∀ c f, EvalStep.column c f ∈ steps → key ≠ k ++ "_" ++ c) → d'.get? key = d.get? key)
  | [], st, st', x, d, _, h, hx, hd => by
    cases h
    exact ⟨d, by rw [hx, ← hd], fun c f hc => by simp at hc, fun _ _ => rfl⟩
  | s0 :: l, st, st', x, d, hf, h, hx, hd => by
    rw [runSteps] at h
    cases h1 : runStep r k ps st s0 with
    | error e => rw [h1] at h; cases h
    | ok st1 =>
      rw [h1] at h
      have hf' : ∀ c f g, EvalStep.column c f ∈ l → EvalStep.column c g ∈ l → f = g :=
        fun c f g h1 h2 => hf c f g (by simp [h1]) (by simp [h2])
      cases s0 with
      | metric m0 =>
        unfold runStep at h1
        dsimp only at h1
        cases h2 : metricValue r m0 ps with
        | error e => rw [h2] at h1; cases h1
        | ok v =>
          rw [h2] at h1
          cases h1
          obtain ⟨d', e1, e2, e3⟩ := runSteps_item hi hf' h hx hd
          refine ⟨d', e1, fun c f hc => ?_, fun key hk => e3 key (fun c f hc => hk c f (by simp [hc]))⟩
          rcases List.mem_cons.1 hc with h3 | h3
          · cases h3
          · exact e2 c f h3
      | column c0 f0 =>
        unfold runStep at h1
        dsimp only at h1
        cases h2 : putColumn (k ++ "_" ++ c0) f0 ps st.items with
        | error e => rw [h2] at h1; cases h1
        | ok l1 =>
          rw [h2] at h1
          cases h1
          obtain ⟨x', d0, v, q1, q2, q3, q4⟩ := (putColumn_at h2).2 i a p hi
          rw [hx] at q1
          cases q1
          rw [hd] at q2
          cases q2
          obtain ⟨d', e1, e2, e3⟩ := runSteps_item hi hf' h q4 rfl
          refine ⟨d', e1, ?_, ?_⟩
          · intro c f hc
            by_cases hl : ∃ g, EvalStep.column c g ∈ l
            · obtain ⟨g, hl⟩ := hl
              rw [hf c f g hc (by simp [hl])]
              exact e2 c g hl
            · rcases List.mem_cons.1 hc with h3 | h3
              · cases h3
                refine ⟨v, q3, ?_⟩
                rw [e3 _ (by
                  intro c' f' hc' e
                  have : c0 = c' := by
                    have e' := congrArg String.toList e
                    simp only [String.toList_append, List.append_cancel_left_eq] at e'
                    exact String.toList_injective e'
                  subst this
                  exact hl ⟨_, hc'⟩), Dict.get?_set, if_pos rfl]
              · exact absurd ⟨_, h3⟩ hl
          · intro key hk
            rw [e3 key (fun c f hc => hk c f (by simp [hc])), Dict.get?_set, if_neg (fun e => hk c0 f0 (by simp) e.symm)]

theorem runLabels_item {r : MathLib} {steps : List EvalStep} {i : ℕ}
    (hf : ∀ c f g, EvalStep.column c f ∈ steps → EvalStep.column c g ∈ steps → f = g)
    (hpl : ∀ c f, EvalStep.column c f ∈ steps → '_' ∉ c.toList) :
    ∀ {l : List (String × List (ℚ × ℚ))} {st st' : EvalState} {x : Item} {d : Dict ℚ},
    (∀ k ps ps', (k, ps) ∈ l → (k, ps') ∈ l → ps = ps') → (∀ k ps, (k, ps) ∈ l → ∃ q, ps[i]? = some q) →
    runLabels r steps l st = .ok st' → st.items[i]? = some x → x.data = some (.dict d) →
    ∃ d', st'.items[i]? = some { x with data := some (.dict d') } ∧
      (∀ k ps a p c f, (k, ps) ∈ l → ps[i]? = some (a, p) → EvalStep.column c f ∈ steps →
        ∃ v, f a p = .ok v ∧ d'.get? (k ++ "_" ++ c) = some v) ∧
      (∀ key, (∀ k ps c f, (k, ps) ∈ l → EvalStep.column c f ∈ steps → key ≠ k ++ "_" ++ c) → d'.get? key = d.get? key)
  | [], st, st', x, d, _, _, h, hx, hd => by
    cases h
    exact ⟨d, by rw [hx, ← hd], fun k ps a p c f hk => by simp at hk, fun _ _ => rfl⟩
  | (k0, ps0) :: l, st, st', x, d, hu, hq, h, hx, hd => by
    rw [runLabels] at h
    cases h1 : runSteps r k0 ps0 steps st with
    | error e => rw [h1] at h; cases h
    | ok st1 =>
      rw [h1] at h
      obtain ⟨⟨a0, p0⟩, hq0⟩ := hq k0 ps0 (by simp)
      obtain ⟨d1, j1, j2, j3⟩ := runSteps_item hq0 hf h1 hx hd
      obtain ⟨d', i1, i2, i3⟩ := runLabels_item hf hpl (fun k ps ps' a b => hu k ps ps' (by simp [a]) (by simp [b]))
        (fun k ps hk => hq k ps (by simp [hk])) h j1 rfl
      refine ⟨d', i1, ?_, ?_⟩
      · intro k ps a p c f hk hi hc
        by_cases hl : ∃ ps', (k, ps') ∈ l
        · obtain ⟨ps', hl⟩ := hl
          have := hu k ps ps' hk (by simp [hl])
          subst this
          exact i2 k ps a p c f hl hi hc
        · rcases List.mem_cons.1 hk with h3 | h3
          · cases h3
            rw [hq0] at hi
            cases hi
            obtain ⟨v, hv, hg⟩ := j2 c f hc
            refine ⟨v, hv, ?_⟩
            rw [i3 _ (by
              intro k' ps' c' f' hk' hc' e
              have := (suffixed_inj (hpl c f hc) (hpl c' f' hc') e).1
              subst this
              exact hl ⟨_, hk'⟩), hg]
          · exact absurd ⟨_, h3⟩ hl
      · intro key hk
        rw [i3 key (fun k ps c f a b => hk k ps c f (by simp [a]) b), j3 key (fun c f hc => hk k0 ps0 c f (by simp) hc)]

theorem runSteps_length {r : MathLib} {k : String} {ps : List (ℚ × ℚ)} : ∀ {steps : List EvalStep} {st st' : EvalState},
    runSteps r k ps steps st = .ok st' → st'.items.length = st.items.length
  | [], st, st', h => by cases h; rfl
  | a :: l, st, st', h => by
    rw [runSteps] at h
    cases h1 : runStep r k ps st a with
    | error e => rw [h1] at h; cases h
    | ok st1 =>
      rw [h1] at h
      rw [runSteps_length h]
      cases a with
      | metric m0 =>
        unfold runStep at h1
        dsimp only at h1
        cases h2 : metricValue r m0 ps with
        | error e => rw [h2] at h1; cases h1
        | ok v => rw [h2] at h1; cases h1; rfl
      | column c f =>
        unfold runStep at h1
        dsimp only at h1
        cases h2 : putColumn (k ++ "_" ++ c) f ps st.items with
        | error e => rw [h2] at h1; cases h1
        | ok v => rw [h2] at h1; cases h1; exact (putColumn_at h2).1

theorem runLabels_length {r : MathLib} {steps : List EvalStep} : ∀ {l : List (String × List (ℚ × ℚ))} {st st' : EvalState},
    runLabels r steps l st = .ok st' → st'.items.length = st.items.length
  | [], st, st', h => by cases h; rfl
  | (k, ps) :: l, st, st', h => by
    rw [runLabels] at h
    cases h1 : runSteps r k ps steps st with
    | error e => rw [h1] at h; cases h
    | ok st1 =>
      rw [h1] at h
      rw [runLabels_length h, runSteps_length h1]

theorem resultsSeries_items {m : EvalModel} {l : List Item} {s : TSeries} {items : List Item} (hb : TSeries.build l = .ok s)
    (hne : s.items ≠ []) (h : resultsSeries m true s = .ok items) : items = s.items.drop m.startAt := by
  unfold resultsSeries at h
  rw [if_pos rfl, duplicate_build hb] at h
  dsimp only at h
  unfold EvalModel.startAt
  cases hw : m.window with
  | none => rw [hw] at h; cases h
  | some o =>
    rw [hw] at h
    cases o with
    | none => cases h; rfl
    | some w =>
      cases w with
      | zero => cases h; rfl
      | succ w =>
        obtain ⟨q, hq, rfl⟩ := except_map_inv h
        rw [C197_whenever_it_succeeds_partial s q hne _ _ (.inl rfl) hq]
        show (s.items.drop (pyBound s.items.length ((w + 1 : ℕ) : Int))).take (s.items.length - pyBound s.items.length ((w + 1 : ℕ) : Int)) = s.items.drop (w + 1)
        have hpb : pyBound s.items.length ((w + 1 : ℕ) : Int) = min (w + 1) s.items.length := by
          unfold pyBound
          rw [if_neg (by omega)]
          simp
        rw [hpb]
        rcases le_total (w + 1) s.items.length with hle | hle
        · rw [min_eq_left hle, List.take_of_length_le (by rw [List.length_drop])]
        · rw [min_eq_right hle, List.drop_of_length_le hle]; simp

/-- the column `c` of the label `k` belongs to the item in position `i` of the results series, with value `v` -/
def ColumnAt (r : MathLib) (m : EvalModel) (pred : VPredictor) (a : EvalArgs) (ks : List String) (s : TSeries) (i : ℕ)
    (key : String) (v : ℚ) : Prop :=
  ∃ k ∈ evalLabels m ks, ∃ ps x p c, ComparedFor pred m.startAt s k ps ∧ ps[i]? = some (x, p) ∧
    Column r (metricNames m a) a.punctual x p c v ∧ key = k ++ "_" ++ c

/-- **C214**, partial: whenever an evaluation that is asked for the results series returns, the results series has one item for each item
of the series from the window on, with the same time, zone and indexes; its data are those of the original item plus the predicted value
of every label evaluated and the errors asked for, under the names made of label, underscore and kind of error.  A value of the original
item is replaced only if its label is one of these names. -/
theorem C214_series_partial {r : MathLib} {m : EvalModel} {pred : VPredictor} {a : EvalArgs} {ks : List String} {l0 : List Item}
    {s : TSeries} {o : EvalOut} (hb : TSeries.build l0 = .ok s) (hlab : evalLabels m ks ≠ []) (hg : a.giveSeries = true)
    (h : evaluateForecaster r m pred a ks s = .ok (some o)) :
    ∃ l, o.series = some l ∧ l.length = s.items.length - m.startAt ∧
      ∀ i y, l[(i : ℕ)]? = some y → ∃ x d d', s.items[m.startAt + i]? = some x ∧ x.data = some (.dict d) ∧
        y = { x with data := some (.dict d') } ∧
        ∀ key v, d'.get? key = some v ↔ (ColumnAt r m pred a ks s i key v ∨
          ((∀ v', ¬ ColumnAt r m pred a ks s i key v') ∧ d.get? key = some v)) := by
  obtain ⟨hne, _, _, _, items, l, st, h5, h6, h7, h8⟩ := evaluate_parts h
  rw [hg] at h5 h7 h8
  have hit := resultsSeries_items hb hne h5
  have hp := pairs_mem h6
  have ho : o.series = some st.items := by
    unfold evalOut at h8
    simp at h8
    rw [h8]
  have hu : ∀ k ps ps', (k, ps) ∈ l → (k, ps') ∈ l → ps = ps' := by
    intro k ps ps' h1 h2
    have e1 := ((hp k ps).1 h1).2
    rw [((hp k ps').1 h2).2] at e1
    cases e1; rfl
  have hlen : st.items.length = s.items.length - m.startAt := by
    rw [runLabels_length h7]
    show items.length = _
    rw [hit, List.length_drop]
  refine ⟨st.items, ho, hlen, ?_⟩
  intro i y hy
  have hi : i < s.items.length - m.startAt := by
    have := (List.getElem?_eq_some_iff.1 hy).1
    omega
  have hx : items[i]? = some (s.items[m.startAt + i]'(by omega)) := by
    rw [hit, List.getElem?_drop, List.getElem?_eq_getElem (by omega)]
  have hcmp : ∀ k ps, (k, ps) ∈ l → ComparedFor pred m.startAt s k ps := fun k ps hk => C124_pairs ((hp k ps).1 hk).2
  have hpair : ∀ k ps, (k, ps) ∈ l → ∃ q, ps[i]? = some q := by
    intro k ps hk
    have h1 := (hcmp k ps hk).1
    exact ⟨_, List.getElem?_eq_getElem (by omega)⟩
  have huniq : ∀ k ps ps', ComparedFor pred m.startAt s k ps → ComparedFor pred m.startAt s k ps' → ps = ps' := by
    intro k ps ps' h1 h2
    apply List.ext_getElem?
    intro j
    by_cases hj : j < s.items.length - m.startAt
    · have e1 : ps[j]? = some (ps[j]'(by rw [h1.1]; exact hj)) := List.getElem?_eq_getElem _
      have e2 : ps'[j]? = some (ps'[j]'(by rw [h2.1]; exact hj)) := List.getElem?_eq_getElem _
      obtain ⟨x1, a1, b1, q1, c1, d1⟩ := h1.2 j _ _ e1
      obtain ⟨x2, a2, b2, q2, c2, d2⟩ := h2.2 j _ _ e2
      rw [a1] at a2; cases a2
      rw [b1] at b2
      rw [c1] at c2; cases c2
      rw [d1] at d2
      rw [e1, e2]
      congr 1
      ext1
      · exact Option.some.inj b2
      · exact Except.ok.inj d2
    · rw [List.getElem?_eq_none (by rw [h1.1]; omega), List.getElem?_eq_none (by rw [h2.1]; omega)]
  -- the data of the item
  obtain ⟨k0, hk0⟩ := List.exists_mem_of_ne_nil _ hlab
  have hev : ∀ k ∈ evalLabels m ks, ∃ ps, evalPairs pred m.startAt s k = .ok ps := by
    intro k hk
    obtain ⟨q, hq1⟩ := mapE_each h6 k hk
    cases hev : evalPairs pred m.startAt s k with
    | error x => rw [hev] at hq1; cases hq1
    | ok ps => exact ⟨ps, rfl⟩
  obtain ⟨ps0, hps0⟩ := hev k0 hk0
  have hkp0 := (hp k0 ps0).2 ⟨hk0, hps0⟩
  obtain ⟨⟨a0, p0⟩, hq0⟩ := hpair k0 ps0 hkp0
  obtain ⟨x, hx1, hx2, _⟩ := (hcmp k0 ps0 hkp0).2 i a0 p0 hq0
  have hxx : items[i]? = some x := by rw [hit, List.getElem?_drop]; exact hx1
  have hd : ∃ d, x.data = some (.dict d) := by
    unfold Item.val? at hx2
    cases hd : x.data with
    | none => rw [hd] at hx2; cases hx2
    | some dd =>
      cases dd with
      | dict d => exact ⟨d, rfl⟩
      | _ => rw [hd] at hx2; cases hx2
  obtain ⟨d, hd⟩ := hd
  have hfun : ∀ c f g, EvalStep.column c f ∈ evalSteps r ((metricNames m a).filterMap readMetric) true a.punctual →
      EvalStep.column c g ∈ evalSteps r ((metricNames m a).filterMap readMetric) true a.punctual → f = g := by
    intro c f g h1 h2
    rw [(column_mem h1).1, (column_mem h2).1]
  have hpl : ∀ c f, EvalStep.column c f ∈ evalSteps r ((metricNames m a).filterMap readMetric) true a.punctual → '_' ∉ c.toList := by
    intro c f h1
    rcases (column_mem h1).2 with rfl | ⟨rfl, _⟩ | ⟨rfl, _⟩ | ⟨rfl, _⟩ | ⟨rfl, _⟩ | ⟨rfl, _⟩ | ⟨rfl, _⟩ <;> decide
  obtain ⟨d', e1, e2, e3⟩ := runLabels_item (i := i) hfun hpl hu hpair h7 hxx hd
  rw [hy] at e1
  refine ⟨x, d, d', hx1, hd, Option.some.inj e1, ?_⟩
  -- a column is in the data
  have hin : ∀ key v, ColumnAt r m pred a ks s i key v → d'.get? key = some v := by
    rintro key v ⟨k, hk, ps, x', p, c, hc1, hc2, hc3, rfl⟩
    obtain ⟨ps', hps'⟩ := hev k hk
    have hkp := (hp k ps').2 ⟨hk, hps'⟩
    have := huniq k ps ps' hc1 (hcmp k ps' hkp)
    subst this
    obtain ⟨v', hv1, hv2⟩ := e2 k ps x' p c _ hkp hc2 (column_exists hc3)
    rw [hv2, (column_spec (column_exists hc3) hv1).unique hc3]
  intro key v
  by_cases hc : ∃ v', ColumnAt r m pred a ks s i key v'
  · obtain ⟨v', hc⟩ := hc
    have hv := hin key v' hc
    constructor
    · intro hg'
      rw [hv] at hg'
      cases hg'
      exact .inl hc
    · rintro (h1 | ⟨h1, _⟩)
      · exact hin key v h1
      · exact absurd hc (h1 v')
  · have hnone : d'.get? key = d.get? key := by
      apply e3
      rintro k ps c f hk hcf rfl
      obtain ⟨⟨x', p⟩, hq⟩ := hpair k ps hk
      obtain ⟨v', hv1, _⟩ := e2 k ps x' p c f hk hq hcf
      exact hc ⟨v', k, ((hp k ps).1 hk).1, ps, x', p, c, hcmp k ps hk, hq, column_spec hcf hv1, rfl⟩
    rw [hnone]
    constructor
    · intro h1
      exact .inr ⟨fun v' hv' => hc ⟨v', hv'⟩, h1⟩
    · rintro (h1 | h1)
      · exact absurd ⟨v, h1⟩ hc
      · exact h1.2

/-- **C214** is false: a forecaster that does not store a window cannot give the results
series, whatever the series and the metrics: `KeyError`. -/
theorem C214_false {r : MathLib} {m : EvalModel} {pred : VPredictor} {a : EvalArgs} {ks : List String} {l : List Item} {s : TSeries}
    (hb : TSeries.build l = .ok s) (hne : l ≠ []) (hw : m.window = none) (hg : a.giveSeries = true) (hs : a.steps = 1)
    (hc : (∀ n ∈ metricNames m a, ∃ e : Metric, n = e.name) ∧ (∀ n ∈ a.punctual, n = "E" ∨ n = "PE" ∨ n = "LE")) :
    evaluateForecaster r m pred a ks s = .error .keyError := by
  unfold evaluateForecaster
  rw [if_neg (by rw [build_items hb]; simpa using hne), if_neg (by omega), checkMetrics_iff.2 hc]
  dsimp only
  rw [if_neg (fun h => h.2 hs), hg]
  unfold resultsSeries
  rw [if_pos rfl, duplicate_build hb]
  dsimp only
  rw [hw]

/-! ## C215: what is returned -/

/-- **C215**, partial: when at least one metric and one label are evaluated, or the series is asked for, the evaluation returns a
dictionary. -/
theorem C215_some_partial {r : MathLib} {m : EvalModel} {pred : VPredictor} {a : EvalArgs} {ks : List String} {s : TSeries}
    {o : Option EvalOut} (h : evaluateForecaster r m pred a ks s = .ok o)
    (hsome : a.giveSeries = true ∨ (metricNames m a ≠ [] ∧ evalLabels m ks ≠ [])) :
    ∃ d, o = some d ∧ (d.series.isSome ↔ a.giveSeries = true) := by
  obtain ⟨_, _, hc, _, items, l, st, _, h6, h7, h8⟩ := evaluate_parts h
  subst h8
  unfold evalOut
  rcases hsome with hg | ⟨h1, h2⟩
  · rw [hg]; exact ⟨⟨st.results, some st.items⟩, by simp, by simp⟩
  · have hne : st.results ≠ [] := by
      intro he
      obtain ⟨i1, _⟩ := runLabels_results (by
        intro k ps ps' h1 h2
        have e1 := ((pairs_mem h6 k ps).1 h1).2
        rw [((pairs_mem h6 k ps').1 h2).2] at e1
        cases e1; rfl) h7
      obtain ⟨k, hk⟩ := List.exists_mem_of_ne_nil _ h2
      obtain ⟨n, hn⟩ := List.exists_mem_of_ne_nil _ h1
      obtain ⟨e, rfl⟩ := (checkMetrics_iff.1 hc).1 n hn
      obtain ⟨q, hq1⟩ := mapE_each h6 k hk
      cases hev : evalPairs pred m.startAt s k with
      | error x => rw [hev] at hq1; cases hq1
      | ok ps =>
        obtain ⟨v, _, hv⟩ := i1 k ps e ((pairs_mem h6 k ps).2 ⟨hk, hev⟩) (metric_mem_steps.2 (metric_requested.2 hn))
        rw [he] at hv
        cases hv
    have : st.results.isEmpty = false := by
      cases hst : st.results with
      | nil => exact absurd hst hne
      | cons _ _ => rfl
    rw [this]
    refine ⟨_, rfl, ?_⟩
    cases a.giveSeries <;> simp

theorem runLabels_no_metrics {r : MathLib} : ∀ {l : List (String × List (ℚ × ℚ))} {st : EvalState},
    runLabels r [] l st = .ok st
  | [], _ => rfl
  | (_, _) :: l, st => by
    rw [runLabels, runSteps]
    exact runLabels_no_metrics

/-- **C215** is false: with an empty list of metrics the evaluation does all the predictions and returns nothing (`None`), for every
forecaster whose predictions can be made. -/
theorem C215_false {r : MathLib} {m : EvalModel} {pred : VPredictor} {ks : List String} {s : TSeries}
    (hne : s.items ≠ []) (hps : ∀ k ∈ evalLabels m ks, ∃ ps, evalPairs pred m.startAt s k = .ok ps) :
    evaluateForecaster r m pred ⟨1, some [], [], false⟩ ks s = .ok none := by
  obtain ⟨l, hl⟩ := pairs_total hps
  unfold evaluateForecaster
  rw [if_neg (by simpa using hne), if_neg (by simp)]
  have hc : checkMetrics (metricNames m ⟨1, some [], [], false⟩) [] = .ok () := by rfl
  dsimp only
  rw [hc]
  dsimp only
  rw [if_neg (by simp)]
  unfold resultsSeries
  simp only [Bool.false_eq_true, if_false]
  rw [hl]
  dsimp only
  have he : evalSteps r ((metricNames m ⟨1, some [], [], false⟩).filterMap readMetric) false [] = [] := by
    simp [evalSteps, metricNames, punctualSteps]
  rw [he, runLabels_no_metrics]
  rfl

/-! ## Concrete cases -/

/-- three points, the values being 2, 4 and 8 -/
def evalPoints : List Item := [mkPoint 0 (.dict [("v", 2)]), mkPoint 60 (.dict [("v", 4)]), mkPoint 120 (.dict [("v", 8)])]
def evalSeries : TSeries where
  items := evalPoints
  prevT := some 120
  res := .unit (TUnit.ofSecs 60)
  resS := some 60
  ref := some (.dict [("v", 2)])

/-- a forecaster that predicts twice the last value -/
def twiceLast : VPredictor := fun v => match v.getAt (-1) with
  | .ok x => .ok (.one [("v", 2 * (x.val? "v").getD 0 - 1)])
  | .error e => .error e

def anyMath : MathLib := ⟨fun x => x, fun x => x⟩
def winOne : EvalModel := ⟨[], none, some (some 1)⟩
def wantSeries : EvalArgs := ⟨1, some ["MAE", "HAE"], ["E"], true⟩

/-- the absolute errors of 4 and 8 predicted as 3 and 7 -/
theorem C211_witness : ∃ o, evaluateForecaster anyMath winOne twiceLast wantSeries ["v"] evalSeries = .ok (some o) ∧
    o.results = [("v_MAE", some 1), ("v_HAE", some 1)] ∧
    (o.series.map (fun l => l.map (·.data))) = some [some (.dict [("v", 4), ("v_pred", 3), ("v_AE", 1), ("v_E", 1)]),
      some (.dict [("v", 8), ("v_pred", 7), ("v_AE", 1), ("v_E", 1)])] := by
  refine ⟨⟨[("v_MAE", some 1), ("v_HAE", some 1)], some [mkPoint 60 (.dict [("v", 4), ("v_pred", 3), ("v_AE", 1), ("v_E", 1)]),
    mkPoint 120 (.dict [("v", 8), ("v_pred", 7), ("v_AE", 1), ("v_E", 1)])]⟩, ?_, rfl, rfl⟩
  decide +kernel

/-- the hypotheses of the theorems on this series -/
example : TSeries.build evalPoints = .ok evalSeries ∧ evalLabels winOne ["v"] ≠ [] ∧
    evalPairs twiceLast winOne.startAt evalSeries "v" = .ok [(4, 3), (8, 7)] ∧
    EvalDefined [(4, 3), (8, 7)] .mape ∧ EvalDefined [(4, 3), (8, 7)] .male := by
  refine ⟨by decide +kernel, by decide, by decide +kernel, ?_, ?_⟩
  · unfold EvalDefined; decide +kernel
  · unfold EvalDefined; decide +kernel

/-- the same series, with a zero, and with a negative value -/
def zeroSeries : TSeries := { evalSeries with items := [mkPoint 0 (.dict [("v", 2)]), mkPoint 60 (.dict [("v", 0)])] }
def belowSeries : TSeries := { evalSeries with items := [mkPoint 0 (.dict [("v", 2)]), mkPoint 60 (.dict [("v", -1)])] }
def halfSeries : TSeries := { evalSeries with items := [mkPoint 0 (.dict [("v", 1 / 2)]), mkPoint 60 (.dict [("v", 1)])] }
def askFor (n : String) : EvalArgs := ⟨1, some [n], [], false⟩

/-- **C213** is false: a supported metric on a series the forecaster can predict raises `ZeroDivisionError` (a value that is zero, for
the percentages; a predicted value that is zero, for the logarithms) or `ValueError` (values of opposite sign, for the logarithms). -/
theorem C213_false :
    evaluateForecaster anyMath winOne twiceLast (askFor "MAPE") ["v"] zeroSeries = .error .zeroDivision ∧
    evaluateForecaster anyMath winOne twiceLast (askFor "MALE") ["v"] belowSeries = .error .valueError ∧
    evaluateForecaster anyMath winOne twiceLast (askFor "HALE") ["v"] halfSeries = .error .zeroDivision ∧
    (∀ n ∈ ["MSE", "RMSE", "MAE", "HAE"], (evaluateForecaster anyMath winOne twiceLast (askFor n) ["v"] halfSeries).toOption.isSome = true) := by
  refine ⟨by decide +kernel, by decide +kernel, by decide +kernel, by decide +kernel⟩

/-! ## C216: the values of the series evaluated are kept in the results series -/

/-- **C216**, partial: the results series keeps every value whose label is not made of a label evaluated, an underscore and the
name of a column. -/
theorem C216_kept_partial {r : MathLib} {m : EvalModel} {pred : VPredictor} {a : EvalArgs} {ks : List String} {l0 : List Item}
    {s : TSeries} {o : EvalOut} (hb : TSeries.build l0 = .ok s) (hlab : evalLabels m ks ≠ []) (hg : a.giveSeries = true)
    (h : evaluateForecaster r m pred a ks s = .ok (some o)) {l : List Item} (hl : o.series = some l) {i : ℕ} {x y : Item}
    (hx : s.items[m.startAt + i]? = some x) (hy : l[i]? = some y) {key : String} {v : ℚ} (hv : x.val? key = some v)
    (hk : ∀ k ∈ evalLabels m ks, ∀ c ∈ ["pred", "AE", "APE", "ALE", "E", "PE", "LE"], key ≠ k ++ "_" ++ c) :
    y.val? key = some v := by
  obtain ⟨l', e1, _, e2⟩ := C214_series_partial hb hlab hg h
  rw [hl] at e1
  cases e1
  obtain ⟨x', d, d', q1, q2, q3, q4⟩ := e2 i y hy
  rw [hx] at q1
  cases q1
  have hd : d.get? key = some v := by
    unfold Item.val? at hv
    rw [q2] at hv
    exact hv
  have : d'.get? key = some v := by
    rw [q4]
    refine .inr ⟨?_, hd⟩
    rintro v' ⟨k, hk', ps, x', p, c, _, _, hc, rfl⟩
    exact hk k hk' c (by cases hc <;> simp) rfl
  rw [q3]
  exact this

/-- two labels, the second being the name of the predictions of the first -/
def clashPoints : List Item := [mkPoint 0 (.dict [("v", 2), ("v_pred", 50)]), mkPoint 60 (.dict [("v", 4), ("v_pred", 60)])]
def clashSeries : TSeries where
  items := clashPoints
  prevT := some 60
  res := .unit (TUnit.ofSecs 60)
  resS := some 60
  ref := some (.dict [("v", 2), ("v_pred", 50)])

/-- **C216** is false: a label named as the predictions of another label is replaced by them in the results series: 60 becomes 3. -/
theorem C216_false : TSeries.build clashPoints = .ok clashSeries ∧ ∃ o,
    evaluateForecaster anyMath ⟨["v"], none, some (some 1)⟩ twiceLast ⟨1, some [], [], true⟩ ["v", "v_pred"] clashSeries = .ok (some o) ∧
    (o.series.map (fun l => l.map (·.data))) = some [some (.dict [("v", 4), ("v_pred", 3)])] := by
  refine ⟨by decide +kernel, ⟨[], some [mkPoint 60 (.dict [("v", 4), ("v_pred", 3)])]⟩, by decide +kernel, rfl⟩

end Timeseria
