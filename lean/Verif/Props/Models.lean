import Verif.Model.Models
import Verif.Lemmas.Ops

/-! # The life cycle of models: fitting, saving, cross validation (C57-C60, C104-C108) -/

namespace Timeseria

/-! ## Histories of calls on a model -/

/-- a call on a model object -/
inductive MCall where
  | fit (a : MArg)
  | predict (a : MArg)
  | apply (a : MArg)
  | evaluate (a : MArg)
  | save (path : String)
  | crossValidate (a : MArg) (rounds : ℕ)

variable {R : Type}

/-- The model after a call: only fits and cross validations change it. -/
def MKind.after (K : MKind (Dict PVal) R (Dict ℚ)) (st : MState (Dict PVal)) : MCall → MState (Dict PVal)
  | .fit a => (K.fit st a).1
  | .crossValidate a n => (K.crossValidate st a n).1
  | .predict _ | .apply _ | .evaluate _ | .save _ => st

/-- the model after a history of calls -/
def MKind.history (K : MKind (Dict PVal) R (Dict ℚ)) (st : MState (Dict PVal)) (h : List MCall) :
    MState (Dict PVal) := h.foldl K.after st

/-- In this history no call of `fit` succeeded and no cross validation was interrupted by an
exception. -/
def NoFitSucceeded (K : MKind (Dict PVal) R (Dict ℚ)) : MState (Dict PVal) → List MCall → Prop
  | _, [] => True
  | st, .fit a :: r => (∃ e, (K.fit st a).2 = .error e) ∧ NoFitSucceeded K (K.after st (.fit a)) r
  | st, .crossValidate a n :: r =>
    (∃ v, (K.crossValidate st a n).2 = .ok v) ∧ NoFitSucceeded K (K.after st (.crossValidate a n)) r
  | st, .predict _ :: r | st, .apply _ :: r | st, .evaluate _ :: r | st, .save _ :: r =>
    NoFitSucceeded K st r

/-- a failing fit does not set the flag -/
theorem fit_error_fitted {P R E : Type} (K : MKind P R E) (st : MState P) (a : MArg) (e : PyErr)
    (h : (K.fit st a).2 = .error e) : (K.fit st a).1.fitted = st.fitted := by
  unfold MKind.fit at h ⊢
  split
  · rfl
  · rename_i hf
    simp only [hf] at h
    cases a with
    | other => rfl
    | series m =>
      simp only at h ⊢
      cases hc : checkTimeSeries m with
      | error e' => rfl
      | ok u =>
        simp only [hc] at h ⊢
        unfold MState.setLabels MState.setRes at h ⊢
        cases hl : m.labels with
        | error e' =>
          simp only [hl] at h ⊢
          by_cases he : e' = .attributeError
          · simp only [he, if_true] at h ⊢
            unfold MKind.runFit at h ⊢
            rcases hb : K.fitBody { st with resolution := some m.whole.res } m with ⟨p, o⟩
            cases o with
            | error e2 => simp
            | ok u2 => simp [hb] at h
          · simp [he]
        | ok ls =>
          simp only [hl] at h ⊢
          unfold MKind.runFit at h ⊢
          rcases hb : K.fitBody { st with resolution := some m.whole.res, labels := some ls } m with ⟨p, o⟩
          cases o with
          | error e2 => simp
          | ok u2 => simp [hb] at h

/-- the rounds of a cross validation, when they end, leave the flag off -/
theorem rounds_fitted {P R E : Type} (K : MKind P R E) (m : MSeries) (k : ℕ) :
    ∀ (j i : ℕ) (st : MState P) (l : List E), st.fitted = false →
      (K.rounds m k j i st).2 = .ok l → (K.rounds m k j i st).1.fitted = false := by
  intro j
  induction j with
  | zero => intro i st l h _; simpa [MKind.rounds] using h
  | succ j ih =>
    intro i st l h hr
    unfold MKind.rounds at hr ⊢
    rcases hb : K.round st m k i with ⟨st', o⟩
    cases o with
    | error e => simp [hb] at hr
    | ok v =>
      have hst' : st'.fitted = false := by
        unfold MKind.round at hb
        rcases h1 : K.fit st (.series (m.chunk (cvRound m.items.length k i).1)) with ⟨s1, o1⟩
        rw [h1] at hb
        cases o1 with
        | error e => simp at hb
        | ok u =>
          simp only at hb
          rcases h2 : K.second s1 m (cvRound m.items.length k i).2.1 with ⟨s2, o2⟩
          rw [h2] at hb
          cases o2 with
          | error e => simp at hb
          | ok u =>
            simp only at hb
            cases h3 : K.evaluate s2 (.series (m.chunk (cvRound m.items.length k i).2.2)) with
            | error e => simp [h3] at hb
            | ok v' =>
              rw [h3] at hb
              simp only [Prod.mk.injEq] at hb
              rw [← hb.1]
      simp only [hb] at hr ⊢
      rcases h4 : K.rounds m k j (i + 1) st' with ⟨st'', o'⟩
      cases o' with
      | error e => simp [h4] at hr
      | ok l' =>
        have := ih (i + 1) st' l' hst' (by rw [h4])
        rw [h4] at this
        simpa using this

theorem crossEvaluations_fitted {P R E : Type} (K : MKind P R E) (st : MState P) (a : MArg) (n : ℕ)
    (l : List E) (hr : (K.crossEvaluations st a n).2 = .ok l) :
    (K.crossEvaluations st a n).1.fitted = false := by
  unfold MKind.crossEvaluations at hr ⊢
  by_cases hf : st.fitted = true
  · simp [hf] at hr
  · simp only [hf] at hr ⊢
    cases a with
    | other => simp at hr
    | series m =>
      cases hc : checkTimeSeries m with
      | error e => simp [hc] at hr
      | ok u =>
        by_cases hn : n = 0
        · simp [hc, hn] at hr
        · simp only [hc, hn] at hr ⊢
          exact rounds_fitted K m _ _ _ _ l (by simpa using hf) (by simpa using hr)

theorem crossValidate_fitted {P R : Type} (K : MKind P R (Dict ℚ)) (st : MState P) (a : MArg) (n : ℕ)
    (v : List (String × ℚ × ℚ)) (hr : (K.crossValidate st a n).2 = .ok v) :
    (K.crossValidate st a n).1.fitted = false := by
  unfold MKind.crossValidate at hr ⊢
  rcases h : K.crossEvaluations st a n with ⟨st', o⟩
  cases o with
  | error e => simp [h] at hr
  | ok evs =>
    have := crossEvaluations_fitted K st a n evs (by rw [h])
    rw [h] at this
    simpa using this

theorem noFit_fitted (K : MKind (Dict PVal) R (Dict ℚ)) : ∀ (h : List MCall) (st : MState (Dict PVal)),
    st.fitted = false → NoFitSucceeded K st h → (K.history st h).fitted = false := by
  intro h
  induction h with
  | nil => intro st hs _; simpa [MKind.history] using hs
  | cons c r ih =>
    intro st hs hn
    have key : ∀ st', st'.fitted = false → NoFitSucceeded K st' r → K.after st c = st' →
        (K.history st (c :: r)).fitted = false := by
      intro st' h1 h2 h3
      have := ih st' h1 h2
      simpa [MKind.history, h3] using this
    cases c with
    | fit a =>
      obtain ⟨⟨e, he⟩, hr⟩ := hn
      exact key _ (by simpa [MKind.after, hs] using fit_error_fitted K st a e he) hr rfl
    | crossValidate a n =>
      obtain ⟨⟨v, hv⟩, hr⟩ := hn
      exact key _ (crossValidate_fitted K st a n v hv) hr rfl
    | predict a => exact key st hs hn rfl
    | apply a => exact key st hs hn rfl
    | evaluate a => exact key st hs hn rfl
    | save p => exact key st hs hn rfl

/-- **C57**, first part: whatever the history of calls on a new model that has a `fit`, as long as no
fit succeeded, `predict`, `apply`, `evaluate` and `save` raise `NotFittedError`. -/
theorem C57_not_fitted (K : MKind (Dict PVal) R (Dict ℚ)) (hf : K.hasFit = true) (h : List MCall)
    (hn : NoFitSucceeded K K.new h) (a : MArg) (c : UnitCodec) (d : Disk) (path : String) :
    K.predict (K.history K.new h) a = .error .notFitted ∧
    K.apply (K.history K.new h) a = .error .notFitted ∧
    K.evaluate (K.history K.new h) a = .error .notFitted ∧
    K.save c (K.history K.new h) d path = (d, .error .notFitted) := by
  have hs := noFit_fitted K h K.new rfl hn
  refine ⟨?_, ?_, ?_, ?_⟩
  · simp [MKind.predict, MKind.guarded, hf, hs]
  · simp [MKind.apply, MKind.guarded, hf, hs]
  · simp [MKind.evaluate, MKind.guarded, hf, hs]
  · simp [MKind.save, MKind.parametric, hf, hs]

/-- The series a model fitted on `m0` works on: not empty, not of variable resolution, with the
resolution and the labels of `m0`. -/
def Compatible (m0 m : MSeries) : Prop :=
  m.whole.items ≠ [] ∧ m.whole.res ≠ .varying ∧ m.whole.res = m0.whole.res ∧
  ∃ ls, m0.labels = .ok ls ∧ m.labels = .ok ls

/-- a call that neither fits nor cross validates -/
def MCall.Uses : MCall → Prop
  | .fit _ => False
  | .crossValidate _ _ => False
  | _ => True

/-- a successful fit stores the resolution and the labels -/
theorem fit_ok_state {P R E : Type} (K : MKind P R E) (st : MState P) (m : MSeries) (ls : List String)
    (hl : m.labels = .ok ls) (h : (K.fit st (.series m)).2 = .ok ()) :
    (K.fit st (.series m)).1.fitted = true ∧ (K.fit st (.series m)).1.resolution = some m.whole.res ∧
    (K.fit st (.series m)).1.labels = some ls ∧ K.hasFit = true := by
  unfold MKind.fit at h ⊢
  by_cases hf : K.hasFit = true
  · simp only [hf] at h ⊢
    cases hc : checkTimeSeries m with
    | error e => simp [hc] at h
    | ok u =>
      simp only [hc, MState.setLabels, MState.setRes, hl] at h ⊢
      unfold MKind.runFit at h ⊢
      rcases hb : K.fitBody { st with resolution := some m.whole.res, labels := some ls } m with ⟨p, o⟩
      cases o with
      | error e2 => simp [hb] at h
      | ok u2 => simp
  · simp [hf] at h

theorem guarded_compatible {P R E α : Type} (K : MKind P R E)
    (body : MState P → MSeries → Except PyErr α) (st : MState P) (m0 m : MSeries) (ls : List String)
    (hl : m0.labels = .ok ls) (h1 : st.fitted = true) (h2 : st.resolution = some m0.whole.res)
    (h3 : st.labels = some ls) (hc : Compatible m0 m) :
    K.guarded body st (.series m) = body st m := by
  obtain ⟨ha, hb, hr, ls', hl', hm⟩ := hc
  rw [hl] at hl'
  obtain rfl : ls = ls' := by simpa using hl'
  have hck : K.checks st m = .ok () := by
    unfold MKind.checks
    have : checkTimeSeries m = .ok () := by simp [checkTimeSeries, ha, hb]
    simp [this, checkRes, h2, hr, checkLabels, h3, hm]
  simp [MKind.guarded, h1, hck]

theorem guarded_incompatible {P R E α : Type} (K : MKind P R E)
    (body : MState P → MSeries → Except PyErr α) (st : MState P) (m0 : MSeries) (a : MArg) (ls : List String)
    (hl : m0.labels = .ok ls) (h2 : st.resolution = some m0.whole.res) (h3 : st.labels = some ls)
    (hf : K.hasFit = true) (h1 : st.fitted = true)
    (ha : ∀ m, a = .series m → ¬ Compatible m0 m) :
    ∃ e, K.guarded body st a = .error e ∧ (e = .typeError ∨ e = .valueError ∨ e = .attributeError) := by
  cases a with
  | other => exact ⟨.typeError, by simp [MKind.guarded, h1], Or.inl rfl⟩
  | series m =>
    have hn := ha m rfl
    have hp : K.parametric = true := by simp [MKind.parametric, hf]
    by_cases hi : m.whole.items = []
    · exact ⟨.valueError, by simp [MKind.guarded, h1, MKind.checks, checkTimeSeries, hi], by simp⟩
    by_cases hv : m.whole.res = .varying
    · exact ⟨.valueError, by simp [MKind.guarded, h1, MKind.checks, checkTimeSeries, hi, hv], by simp⟩
    have hct : checkTimeSeries m = .ok () := by simp [checkTimeSeries, hi, hv]
    by_cases hr : m.whole.res = m0.whole.res
    · have hcr : checkRes st m = .ok () := by simp [checkRes, h2, hr]
      cases hm : m.labels with
      | error e =>
        refine ⟨e, by simp [MKind.guarded, h1, MKind.checks, hct, hp, hcr, checkLabels, h3, hm], ?_⟩
        unfold MSeries.labels at hm
        cases hx : m.whole.items with
        | nil => exact absurd hx hi
        | cons x r =>
          rw [hx] at hm
          simp only at hm
          unfold TSeries.labelsFrom at hm
          split at hm
          · cases hm; simp
          · split at hm
            · cases hm; simp
            · split at hm
              · cases hm; simp
              · rename_i d _
                cases d <;> simp [labelsOf] at hm
                subst hm; simp
      | ok l =>
        have hne : l ≠ ls := fun h => hn ⟨hi, hv, hr, ls, hl, by rw [hm, h]⟩
        exact ⟨.valueError, by
          simp [MKind.guarded, h1, MKind.checks, hct, hp, hcr, checkLabels, h3, hm, hne], by simp⟩
    · have hr' : ¬ m0.whole.res = m.whole.res := fun h => hr h.symm
      exact ⟨.valueError, by
        simp [MKind.guarded, h1, MKind.checks, hct, hp, checkRes, h2, hr'], by simp⟩

theorem history_uses (K : MKind (Dict PVal) R (Dict ℚ)) : ∀ (h : List MCall) (st : MState (Dict PVal)),
    (∀ c ∈ h, c.Uses) → K.history st h = st := by
  intro h
  induction h with
  | nil => intro st _; rfl
  | cons c r ih =>
    intro st hu
    have hc := hu c (by simp)
    have : K.after st c = st := by
      cases c <;> simp [MCall.Uses] at hc <;> rfl
    simpa [MKind.history, this] using ih st (fun c hc => hu c (by simp [hc]))

/-- **C57**, second part: after any history ending with a successful fit on `m0` followed by any number
of uses, `predict`, `apply` and `evaluate` run on the compatible series and raise on everything else,
and `save` no longer raises `NotFittedError`. -/
theorem C57_fitted (K : MKind (Dict PVal) R (Dict ℚ)) (pre post : List MCall) (m0 : MSeries)
    (ls : List String) (hl : m0.labels = .ok ls)
    (hfit : (K.fit (K.history K.new pre) (.series m0)).2 = .ok ())
    (hpost : ∀ c ∈ post, c.Uses) :
    (∀ m, Compatible m0 m →
      K.predict (K.history K.new (pre ++ .fit (.series m0) :: post)) (.series m) =
        K.predictBody (K.fit (K.history K.new pre) (.series m0)).1 m ∧
      K.apply (K.history K.new (pre ++ .fit (.series m0) :: post)) (.series m) =
        K.applyBody (K.fit (K.history K.new pre) (.series m0)).1 m ∧
      K.evaluate (K.history K.new (pre ++ .fit (.series m0) :: post)) (.series m) =
        K.evaluateBody (K.fit (K.history K.new pre) (.series m0)).1 m) ∧
    (∀ a, (∀ m, a = .series m → ¬ Compatible m0 m) →
      (∃ e, K.predict (K.history K.new (pre ++ .fit (.series m0) :: post)) a = .error e ∧ e ≠ .notFitted) ∧
      (∃ e, K.apply (K.history K.new (pre ++ .fit (.series m0) :: post)) a = .error e ∧ e ≠ .notFitted) ∧
      (∃ e, K.evaluate (K.history K.new (pre ++ .fit (.series m0) :: post)) a = .error e ∧ e ≠ .notFitted)) ∧
    (∀ c d path, (K.save c (K.history K.new (pre ++ .fit (.series m0) :: post)) d path).2 ≠
      .error .notFitted) := by
  obtain ⟨h1, h2, h3, hf⟩ := fit_ok_state K _ m0 ls hl hfit
  have hst : K.history K.new (pre ++ .fit (.series m0) :: post) =
      (K.fit (K.history K.new pre) (.series m0)).1 := by
    have : K.history K.new (pre ++ .fit (.series m0) :: post) =
        K.history (K.fit (K.history K.new pre) (.series m0)).1 post := by
      simp [MKind.history, MKind.after]
    rw [this, history_uses K post _ hpost]
  rw [hst]
  refine ⟨fun m hm => ⟨?_, ?_, ?_⟩, fun a ha => ⟨?_, ?_, ?_⟩, fun c d path => ?_⟩
  · exact guarded_compatible K _ _ m0 m ls hl h1 h2 h3 hm
  · exact guarded_compatible K _ _ m0 m ls hl h1 h2 h3 hm
  · exact guarded_compatible K _ _ m0 m ls hl h1 h2 h3 hm
  · obtain ⟨e, he, hc⟩ := guarded_incompatible K K.predictBody _ m0 a ls hl h2 h3 hf h1 ha
    exact ⟨e, he, by rcases hc with h | h | h <;> subst h <;> simp⟩
  · obtain ⟨e, he, hc⟩ := guarded_incompatible K K.applyBody _ m0 a ls hl h2 h3 hf h1 ha
    exact ⟨e, he, by rcases hc with h | h | h <;> subst h <;> simp⟩
  · obtain ⟨e, he, hc⟩ := guarded_incompatible K K.evaluateBody _ m0 a ls hl h2 h3 hf h1 ha
    exact ⟨e, he, by rcases hc with h | h | h <;> subst h <;> simp⟩
  · unfold MKind.save
    simp only [MKind.parametric, hf, h1]
    simp only [Bool.or_true, Bool.not_true, Bool.and_false, Bool.false_eq_true, if_false]
    split
    · simp
    · split
      · simp
      · split <;> simp

/-! ### Example models -/

/-- an hourly and a minutely series of two points, and one of a single point -/
def hourly : TSeries where
  items := [mkPoint 0 (.dict [("v", 1)]), mkPoint 3600 (.dict [("v", 2)])]
  prevT := some 3600
  res := .unit (TUnit.ofSecs 3600)
  resS := some 3600
  ref := some (.dict [("v", 1)])
def minutely : TSeries where
  items := [mkPoint 0 (.dict [("v", 5)]), mkPoint 60 (.dict [("v", 6)])]
  prevT := some 60
  res := .unit (TUnit.ofSecs 60)
  resS := some 60
  ref := some (.dict [("v", 5)])
def onePoint : TSeries where
  items := [mkPoint 0 (.dict [("v", 1)])]
  prevT := some 0
  ref := some (.dict [("v", 1)])

/-- they are what the constructor gives -/
example : TSeries.build hourly.items = .ok hourly ∧ TSeries.build minutely.items = .ok minutely ∧
    TSeries.build onePoint.items = .ok onePoint := by decide +kernel

/-- the number stored under a name -/
def storedNum (d : Dict PVal) (k : String) : Except PyErr ℚ :=
  match d.get? k with
  | some (.num x) => .ok x
  | _ => .error .keyError

/-- the sum of the values labelled `v` -/
def sumV (m : MSeries) : Except PyErr ℚ :=
  match mapE (fun x => x.byLabel "v") m.items with
  | .ok l => .ok l.sum
  | .error e => .error e

/-- the body of the fit of the sample model: values adding up to more than ten are refused, after
having emptied the parameters (as the fit of `PeriodicAverageForecaster` does, forecasters.py 479-482) -/
def sampleFit (m : MSeries) : Dict PVal × Outcome :=
  match sumV m with
  | .ok s => if s > 10 then ([], .error .valueError) else ([("sum", .num s)], .ok ())
  | .error e => ([], .error e)

/-- A sample model: it learns the sum of the values and predicts it; it refuses to fit when the sum is
above ten. -/
def sampleKind : MKind (Dict PVal) ℚ (Dict ℚ) where
  hasParams := false
  hasFit := true
  init := []
  window := fun _ => none
  fitBody := fun _ m => sampleFit m
  fitUpdate := none
  predictBody := fun st _ => storedNum st.params "sum"
  applyBody := fun _ m => .ok m.whole
  evaluateBody := fun st _ => match storedNum st.params "sum" with
    | .ok v => .ok [("err", v)]
    | .error e => .error e

/-- non-vacuity of C57: a failing fit leaves the model unfitted, a successful one on the hourly series makes it
predict; the minutely series is refused -/
example : NoFitSucceeded sampleKind sampleKind.new [.fit .other, .fit (.series (.ofSeries minutely)), .save "x"] :=
  ⟨⟨.typeError, by decide +kernel⟩, ⟨.valueError, by decide +kernel⟩, trivial⟩

example : (sampleKind.fit sampleKind.new (.series (.ofSeries hourly))).2 = .ok () ∧
    sampleKind.predict (sampleKind.fit sampleKind.new (.series (.ofSeries hourly))).1
      (.series (.ofSeries hourly)) = .ok 3 ∧
    sampleKind.predict (sampleKind.fit sampleKind.new (.series (.ofSeries hourly))).1
      (.series (.ofSeries minutely)) = .error .valueError := by decide +kernel

example : Compatible (.ofSeries hourly) (.ofSeries hourly) :=
  ⟨by decide, by decide, rfl, ["v"], by decide +kernel, by decide +kernel⟩

/-! ## C58: a failed fit -/

/-- **C58** is false: the model is fitted on the hourly series and predicts on it; a second fit on
another series raises, and then the prediction on the hourly series raises as well. -/
theorem C58_false : ∃ (K : MKind (Dict PVal) ℚ (Dict ℚ)) (a b : MArg) (e : PyErr),
    (K.fit K.new a).2 = .ok () ∧
    (∃ v, K.predict (K.fit K.new a).1 a = .ok v) ∧
    (K.fit (K.fit K.new a).1 b).2 = .error e ∧
    (∃ e', K.predict (K.fit (K.fit K.new a).1 b).1 a = .error e') :=
  ⟨sampleKind, .series (.ofSeries hourly), .series (.ofSeries minutely), .valueError,
   by decide +kernel, ⟨3, by decide +kernel⟩, by decide +kernel, ⟨.valueError, by decide +kernel⟩⟩

/-- **C58**, what holds: a fit refused because its argument is not a time series, is empty or has a
variable resolution leaves the model as it was; any other failing fit does not change whether the
model counts as fitted, so that a model never fitted still refuses to predict.
Missing: the resolution, the labels and the parameters after the other failures (false). -/
theorem C58_refused_partial {P R E : Type} (K : MKind P R E) (st : MState P) (a : MArg) (e : PyErr)
    (h : (K.fit st a).2 = .error e) :
    ((∀ m, a = .series m → m.whole.items = [] ∨ m.whole.res = .varying) → (K.fit st a).1 = st) ∧
    (K.fit st a).1.fitted = st.fitted ∧
    (K.hasFit = true → st.fitted = false → ∀ b, K.predict (K.fit st a).1 b = .error .notFitted) := by
  have hf := fit_error_fitted K st a e h
  refine ⟨fun hm => ?_, hf, fun hk hs b => ?_⟩
  · unfold MKind.fit
    split
    · rfl
    · cases a with
      | other => rfl
      | series m =>
        have : ∃ e, checkTimeSeries m = .error e := by
          unfold checkTimeSeries
          rcases hm m rfl with h1 | h1
          · exact ⟨.valueError, by simp [h1]⟩
          · refine ⟨.valueError, ?_⟩
            split
            · rfl
            · simp [h1]
        obtain ⟨e', he'⟩ := this
        simp [he']
  · simp [MKind.predict, MKind.guarded, hk, hf, hs]

/-! ## C59: saving and loading -/

/-- values that JSON gives back unchanged: no integer keys, no objects JSON cannot represent -/
def PVal.Plain : PVal → Prop
  | .object => False
  | .table l => ∀ e ∈ l, ∃ s, e.1 = .str s
  | .tables l => ∀ t ∈ l, ∀ e ∈ t.2, ∃ s, e.1 = .str s
  | _ => True

theorem tripTable_plain (l : List (PKey × ℚ)) (h : ∀ e ∈ l, ∃ s, e.1 = .str s) : tripTable l = l := by
  induction l with
  | nil => rfl
  | cons e r ih =>
    obtain ⟨s, hs⟩ := h e (by simp)
    have := ih (fun e he => h e (by simp [he]))
    simp only [tripTable, List.map_cons] at this ⊢
    rw [this]
    obtain ⟨k, v⟩ := e
    simp only at hs
    simp [hs, PKey.trip]

theorem trip_plain (v : PVal) (h : v.Plain) : v.trip = some v := by
  cases v with
  | table l => simp [PVal.trip, tripTable_plain l h]
  | tables l =>
    simp only [PVal.trip, Option.some.injEq, PVal.tables.injEq]
    have : l.map (fun e => (e.1, tripTable e.2)) = l.map id := by
      apply List.map_congr_left
      intro e he
      simp [tripTable_plain e.2 (h e he)]
    simpa using this
  | object => exact absurd h id
  | _ => rfl

theorem tripDict_plain (d : Dict PVal) (h : ∀ e ∈ d, e.2.Plain) : tripDict d = some d := by
  induction d with
  | nil => rfl
  | cons e r ih =>
    obtain ⟨k, v⟩ := e
    have h1 := trip_plain v (h (k, v) (by simp))
    have h2 := ih (fun e he => h e (by simp [he]))
    simp [tripDict, h1, h2]

/-- **C59**, saving: it refuses an existing path, and in every case leaves the models saved before as
they are. -/
theorem C59_save_refuses (K : MKind (Dict PVal) R (Dict ℚ)) (c : UnitCodec) (st : MState (Dict PVal))
    (d : Disk) (path : String) (f : Option MFile) (hp : (path, f) ∈ d) :
    (∃ e, (K.save c st d path).2 = .error e) ∧ (K.save c st d path).1 = d := by
  unfold MKind.save
  split
  · exact ⟨⟨_, rfl⟩, rfl⟩
  · split
    · exact ⟨⟨_, rfl⟩, rfl⟩
    · split
      · exact ⟨⟨_, rfl⟩, rfl⟩
      · have : d.any (fun e => e.1 = path) = true := by
          simp only [List.any_eq_true, decide_eq_true_eq]
          exact ⟨_, hp, rfl⟩
        rw [if_pos this]
        exact ⟨⟨_, rfl⟩, rfl⟩

/-- the other saved models are untouched -/
theorem C59_save_others (K : MKind (Dict PVal) R (Dict ℚ)) (c : UnitCodec) (st : MState (Dict PVal))
    (d : Disk) (path q : String) (hq : q ≠ path) :
    List.lookup q (K.save c st d path).1 = List.lookup q d := by
  have hb : (q == path) = false := by simpa using hq
  unfold MKind.save
  split
  · rfl
  · split
    · rfl
    · split
      · rfl
      · split
        · rfl
        · split <;> simp [List.lookup_cons, hb]

/-- **C201**, partial: a model fitted on a series with a resolution, whose parameters JSON can represent
with string keys only, once saved is loaded with the same contents, and then predicts, applies and evaluates
as the saved one on every argument. -/
theorem C201_load_partial (K : MKind (Dict PVal) R (Dict ℚ)) (c : UnitCodec) (st : MState (Dict PVal))
    (d : Disk) (path : String) (u : TUnit) (hf : st.fitted = true) (hr : st.resolution = some (.unit u))
    (hp : ∀ e ∈ st.params, e.2.Plain) (h : (K.save c st d path).2 = .ok ()) :
    loadModel c (K.save c st d path).1 path = .ok st ∧
    ∀ st', loadModel c (K.save c st d path).1 path = .ok st' →
      ∀ a, K.predict st' a = K.predict st a ∧ K.apply st' a = K.apply st a ∧
        K.evaluate st' a = K.evaluate st a := by
  have key : loadModel c (K.save c st d path).1 path = .ok st := by
    unfold MKind.save at h ⊢
    split at h
    · simp at h
    · rename_i h1
      rw [if_neg h1]
      split at h
      · simp at h
      · rename_i h2
        rw [if_neg h2]
        split at h
        · simp at h
        · rename_i h3
          rw [if_neg h3]
          split at h
          · simp at h
          · rename_i h4
            rw [if_neg h4]
            rw [tripDict_plain _ hp]
            obtain ⟨f, r, l, p⟩ := st
            simp only at hf hr
            simp [loadModel, List.lookup_cons, hr, UnitCodec.readRes, UnitCodec.writeRes, c.law, hf]
  refine ⟨key, fun st' h' a => ?_⟩
  rw [key] at h'
  obtain rfl : st = st' := by simpa using h'
  exact ⟨rfl, rfl, rfl⟩

/-- **C201** is false for a model fitted on a single point: it is saved, but loading it raises, its resolution
`None` having been written as text. -/
theorem C201_false (c : UnitCodec) : ∃ (K : MKind (Dict PVal) ℚ (Dict ℚ)) (a : MArg),
    (K.fit K.new a).2 = .ok () ∧ (K.save c (K.fit K.new a).1 [] "model").2 = .ok () ∧
    ∃ e, loadModel c (K.save c (K.fit K.new a).1 [] "model").1 "model" = .error e := by
  refine ⟨sampleKind, .series (.ofSeries onePoint), by decide +kernel, ?_, .valueError, ?_⟩
  · have h1 : (sampleKind.fit sampleKind.new (.series (.ofSeries onePoint))).1 =
        ⟨true, some .unset, some ["v"], [("sum", .num 1)]⟩ := by decide +kernel
    rw [h1]
    simp [MKind.save, MKind.parametric, sampleKind, tripDict, PVal.trip]
  · have h1 : (sampleKind.fit sampleKind.new (.series (.ofSeries onePoint))).1 =
        ⟨true, some .unset, some ["v"], [("sum", .num 1)]⟩ := by decide +kernel
    rw [h1]
    simp [MKind.save, MKind.parametric, sampleKind, tripDict, PVal.trip, loadModel, UnitCodec.readRes,
      UnitCodec.writeRes, c.none_law]

/-! ## C60: cross validation -/

/-- A model that only records: its parameters are the items it has been fitted on (and updated with, if
`upd`), its evaluation reports them together with the items it is evaluated on.  Any class can observe
its calls in this way. -/
def recorder (upd : Bool) (w : Option ℕ) : MKind (List Item) Unit (List Item × List Item) where
  hasParams := false
  hasFit := true
  init := []
  window := fun _ => w
  fitBody := fun _ m => (m.items, .ok ())
  fitUpdate := if upd then some (fun st m => (st.params ++ m.items, .ok ())) else none
  predictBody := fun _ _ => .ok ()
  applyBody := fun _ m => .ok m.whole
  evaluateBody := fun st m => .ok (st.params, m.items)

/-- what a round trains and validates on, `l` being the items of the series -/
def trained (upd : Bool) (w : Option ℕ) (l : List Item) (k i : ℕ) : List Item :=
  (l.drop (cvRound l.length k i).1.lo).take ((cvRound l.length k i).1.hi - (cvRound l.length k i).1.lo) ++
  (match (cvRound l.length k i).2.1 with
   | none => []
   | some c => if tooShort w c.len || !upd then [] else (l.drop c.lo).take (c.hi - c.lo))

theorem recorder_round (upd : Bool) (w : Option ℕ) (m : MSeries) (ls : List String)
    (hc : checkTimeSeries m = .ok ()) (hl : m.labels = .ok ls) (k i : ℕ) (st : MState (List Item)) :
    ∃ st', (recorder upd w).round st m k i =
      (st', .ok (trained upd w m.items k i, (m.items.drop (k * i)).take k)) := by
  have hv : ∀ a b, checkTimeSeries (m.view a b) = .ok () := fun a b => hc
  have hvl : ∀ a b, (m.view a b).labels = .ok ls := fun a b => hl
  have hfit : ∀ (c : Chunk) (s : MState (List Item)), (recorder upd w).fit s (.series (m.chunk c)) =
      (⟨true, some m.whole.res, some ls, (m.items.drop c.lo).take (c.hi - c.lo)⟩, .ok ()) := by
    intro c s
    simp only [MKind.fit, recorder, MSeries.chunk, hv, MState.setRes, MState.setLabels, hvl, MKind.runFit]
    rfl
  have hev : ∀ (c : Chunk) (q : List Item), (recorder upd w).evaluate
      ⟨true, some m.whole.res, some ls, q⟩ (.series (m.chunk c)) =
      .ok (q, (m.items.drop c.lo).take (c.hi - c.lo)) := by
    intro c q
    have hcm : Compatible m (m.chunk c) := by
      refine ⟨?_, ?_, rfl, ls, hl, hl⟩
      · intro h
        have : m.whole.items = [] := h
        simp [checkTimeSeries, this] at hc
      · intro h
        have : m.whole.res = .varying := h
        simp only [checkTimeSeries, this] at hc
        split at hc <;> simp at hc
    have := guarded_compatible (recorder upd w) (recorder upd w).evaluateBody
      ⟨true, some m.whole.res, some ls, q⟩ m (m.chunk c) ls hl rfl rfl rfl hcm
    exact this
  have hval : (cvRound m.items.length k i).2.2 = ⟨k * i, k * i + k⟩ := by
    unfold cvRound; split
    · rfl
    · split
      · rfl
      · split <;> rfl
  refine ⟨⟨false, some m.whole.res, some ls, trained upd w m.items k i⟩, ?_⟩
  unfold MKind.round
  rw [hfit]
  simp only
  have hsec : (recorder upd w).second ⟨true, some m.whole.res, some ls,
        (m.items.drop (cvRound m.items.length k i).1.lo).take
          ((cvRound m.items.length k i).1.hi - (cvRound m.items.length k i).1.lo)⟩ m
        (cvRound m.items.length k i).2.1 =
      (⟨true, some m.whole.res, some ls, trained upd w m.items k i⟩, .ok ()) := by
    unfold MKind.second trained
    cases (cvRound m.items.length k i).2.1 with
    | none => simp
    | some c =>
      simp only [recorder]
      by_cases ht : tooShort w c.len = true
      · simp [ht]
      · simp only [ht]
        cases upd with
        | false => simp [MKind.tryUpdate]
        | true => simp [MKind.tryUpdate, MSeries.chunk, MSeries.view]
  rw [hsec]
  simp only
  rw [hev, hval]
  simp only [Nat.add_sub_cancel_left]

theorem recorder_rounds (upd : Bool) (w : Option ℕ) (m : MSeries) (ls : List String)
    (hc : checkTimeSeries m = .ok ()) (hl : m.labels = .ok ls) (k : ℕ) :
    ∀ (j i : ℕ) (st : MState (List Item)), ∃ st', (recorder upd w).rounds m k j i st =
      (st', .ok ((List.range j).map (fun q =>
        (trained upd w m.items k (i + q), (m.items.drop (k * (i + q))).take k)))) := by
  intro j
  induction j with
  | zero => intro i st; exact ⟨st, rfl⟩
  | succ j ih =>
    intro i st
    obtain ⟨s1, h1⟩ := recorder_round upd w m ls hc hl k i st
    obtain ⟨s2, h2⟩ := ih (i + 1) s1
    refine ⟨s2, ?_⟩
    unfold MKind.rounds
    rw [h1]
    simp only
    rw [h2]
    simp only [List.range_succ_eq_map, List.map_cons, List.map_map]
    congr 3
    apply List.map_congr_left
    intro q _
    simp [Nat.add_assoc, Nat.add_comm 1 q]

/-- what `trained` is, in terms of the items before and after the validated ones -/
theorem trained_cases (upd : Bool) (w : Option ℕ) (l : List Item) (k i : ℕ) :
    trained upd w l k i = l.take (k * i) ∨ trained upd w l k i = l.drop (k * i + k) ∨
    trained upd w l k i = l.take (k * i) ++ l.drop (k * i + k) ∨
    trained upd w l k i = l.drop (k * i + k) ++ l.take (k * i) := by
  have htail : (l.drop (k * i + k)).take (l.length - (k * i + k)) = l.drop (k * i + k) := by
    apply List.take_of_length_le; simp
  have hhead : (l.drop 0).take (k * i - 0) = l.take (k * i) := by simp
  unfold trained cvRound
  split
  · simp only [htail, List.append_nil]; tauto
  · split
    · simp only [hhead, List.append_nil]; tauto
    · split
      · simp only [hhead, htail]
        split <;> simp
      · simp only [hhead, htail]
        split <;> simp

/-- **C60**, in one round: the items of the series are the ones before, the validated ones and the ones
after; the model has been fitted on the items before, on the items after, or on both one after the other, and
never on the validated ones.  In particular the blocks all have the same length. -/
theorem C60_rounds (upd : Bool) (w : Option ℕ) (m : MSeries) (ls : List String) (rounds : ℕ)
    (hr : 1 ≤ rounds) (hc : m.whole.items ≠ [] ∧ m.whole.res ≠ .varying) (hl : m.labels = .ok ls) :
    ∃ st evs, (recorder upd w).crossEvaluations (recorder upd w).new (.series m) rounds = (st, .ok evs) ∧
      evs.length = rounds ∧
      ∀ i train valid, evs[i]? = some (train, valid) →
        ∃ before after, m.items = before ++ valid ++ after ∧
          valid.length = m.items.length / rounds ∧
          before.length = i * (m.items.length / rounds) ∧
          (train = before ∨ train = after ∨ train = before ++ after ∨ train = after ++ before) := by
  have hc' : checkTimeSeries m = .ok () := by simp [checkTimeSeries, hc.1, hc.2]
  obtain ⟨st', h⟩ := recorder_rounds upd w m ls hc' hl (m.items.length / rounds) rounds 0 (recorder upd w).new
  generalize hk : m.items.length / rounds = k at h ⊢
  refine ⟨st', (List.range rounds).map (fun q =>
        (trained upd w m.items k (0 + q), (m.items.drop (k * (0 + q))).take k)),
    ?_, by simp, ?_⟩
  · unfold MKind.crossEvaluations
    have : ((recorder upd w).new).fitted = false := rfl
    have hr0 : rounds ≠ 0 := by omega
    simp only [this, hc', hr0, Bool.false_eq_true, if_false, hk]
    exact h
  · intro i train valid hi
    rw [List.getElem?_map] at hi
    by_cases hlt : i < rounds
    · rw [List.getElem?_range hlt] at hi
      simp only [Option.map_some, Option.some.injEq, Prod.mk.injEq, Nat.zero_add] at hi
      obtain ⟨h1, h2⟩ := hi
      have hle : k * i + k ≤ m.items.length := by
        have h3 : k * rounds ≤ m.items.length := hk ▸ Nat.div_mul_le_self _ _
        have h4 : k * (i + 1) ≤ k * rounds := Nat.mul_le_mul_left _ hlt
        rw [Nat.mul_add, Nat.mul_one] at h4
        omega
      refine ⟨m.items.take (k * i), m.items.drop (k * i + k), ?_, ?_, ?_, ?_⟩
      · rw [← h2]
        have : m.items.drop (k * i + k) = (m.items.drop (k * i)).drop k := by
          rw [List.drop_drop]
        rw [this, List.append_assoc, List.take_append_drop, List.take_append_drop]
      · rw [← h2]; simp only [List.length_take, List.length_drop]; omega
      · simp only [List.length_take]
        rw [Nat.mul_comm i k, Nat.min_eq_left (by omega)]
      · rw [← h1]; exact trained_cases upd w m.items k i
    · have : (List.range rounds)[i]? = none := by simp; omega
      simp [this] at hi

/-- **C60**, over the rounds: the validated blocks, one after the other, are the first items of the series;
what is never validated is shorter than the number of rounds. -/
theorem C60_covers (upd : Bool) (w : Option ℕ) (m : MSeries) (ls : List String) (rounds : ℕ)
    (hr : 1 ≤ rounds) (hc : m.whole.items ≠ [] ∧ m.whole.res ≠ .varying) (hl : m.labels = .ok ls) :
    ∃ st evs rest, (recorder upd w).crossEvaluations (recorder upd w).new (.series m) rounds = (st, .ok evs) ∧
      m.items = (evs.map Prod.snd).flatten ++ rest ∧ rest.length < rounds := by
  have hc' : checkTimeSeries m = .ok () := by simp [checkTimeSeries, hc.1, hc.2]
  obtain ⟨st', h⟩ := recorder_rounds upd w m ls hc' hl (m.items.length / rounds) rounds 0 (recorder upd w).new
  generalize hk : m.items.length / rounds = k at h ⊢
  have hflat : ∀ n, ((List.range n).map (fun q => (m.items.drop (k * q)).take k)).flatten =
      m.items.take (k * n) := by
    intro n
    induction n with
    | zero => simp
    | succ n ih =>
      rw [List.range_succ, List.map_append, List.flatten_append, ih]
      simp only [List.map_cons, List.map_nil, List.flatten_cons, List.flatten_nil, List.append_nil]
      rw [Nat.mul_add, Nat.mul_one]
      exact List.take_add.symm
  refine ⟨st', (List.range rounds).map (fun q =>
        (trained upd w m.items k (0 + q), (m.items.drop (k * (0 + q))).take k)), m.items.drop (k * rounds), ?_, ?_, ?_⟩
  · unfold MKind.crossEvaluations
    have : ((recorder upd w).new).fitted = false := rfl
    have hr0 : rounds ≠ 0 := by omega
    simp only [this, hc', hr0, Bool.false_eq_true, if_false, hk]
    exact h
  · rw [List.map_map]
    have : (Prod.snd ∘ fun q => (trained upd w m.items k (0 + q), (m.items.drop (k * (0 + q))).take k)) =
        fun q => (m.items.drop (k * q)).take k := by
      funext q; simp
    rw [this, hflat, List.take_append_drop]
  · simp only [List.length_drop]
    have := Nat.div_add_mod m.items.length rounds
    rw [hk] at this
    have h2 := Nat.mod_lt m.items.length (show 0 < rounds by omega)
    rw [Nat.mul_comm k rounds]
    omega

/-- non-vacuity: two rounds on the hourly series -/
example : ((recorder false none).crossEvaluations (recorder false none).new (.series (.ofSeries hourly)) 2).2 =
    .ok [([mkPoint 3600 (.dict [("v", 2)])], [mkPoint 0 (.dict [("v", 1)])]),
         ([mkPoint 0 (.dict [("v", 1)])], [mkPoint 3600 (.dict [("v", 2)])])] := by decide +kernel

/-! ## C104: every round has something to train and to validate on -/

/-- **C104** is false: with more rounds than items every round validates on no item at all; with a single
round the model is fitted on no item. -/
theorem C104_false : ∃ (m : MSeries), m.items ≠ [] ∧
    ((recorder false none).crossEvaluations (recorder false none).new (.series m) 3).2 =
      .ok [(m.items, []), (m.items, []), (m.items, [])] ∧
    ((recorder false none).crossEvaluations (recorder false none).new (.series m) 1).2 =
      .ok [([], m.items)] :=
  ⟨.ofSeries hourly, by decide, by decide +kernel, by decide +kernel⟩

/-- **C104**, what holds: with at least two rounds and no more rounds than items, every round trains and
validates on some item. -/
theorem C104_nonempty_partial (upd : Bool) (w : Option ℕ) (m : MSeries) (ls : List String) (rounds : ℕ)
    (hr : 2 ≤ rounds) (hn : rounds ≤ m.items.length)
    (hc : m.whole.items ≠ [] ∧ m.whole.res ≠ .varying) (hl : m.labels = .ok ls) :
    ∃ st evs, (recorder upd w).crossEvaluations (recorder upd w).new (.series m) rounds = (st, .ok evs) ∧
      evs.length = rounds ∧ ∀ e ∈ evs, e.1 ≠ [] ∧ e.2 ≠ [] := by
  have hc' : checkTimeSeries m = .ok () := by simp [checkTimeSeries, hc.1, hc.2]
  obtain ⟨st', h⟩ := recorder_rounds upd w m ls hc' hl (m.items.length / rounds) rounds 0 (recorder upd w).new
  generalize hk : m.items.length / rounds = k at h ⊢
  have hk1 : 1 ≤ k := by rw [← hk]; exact (Nat.one_le_div_iff (by omega)).mpr hn
  have h3 : k * rounds ≤ m.items.length := hk ▸ Nat.div_mul_le_self _ _
  refine ⟨st', (List.range rounds).map (fun q =>
        (trained upd w m.items k (0 + q), (m.items.drop (k * (0 + q))).take k)), ?_, by simp, ?_⟩
  · unfold MKind.crossEvaluations
    have : ((recorder upd w).new).fitted = false := rfl
    have hr0 : rounds ≠ 0 := by omega
    simp only [this, hc', hr0, Bool.false_eq_true, if_false, hk]
    exact h
  · intro e he
    rw [List.mem_map] at he
    obtain ⟨i, hi, rfl⟩ := he
    rw [List.mem_range] at hi
    have h4 : k * (i + 1) ≤ k * rounds := Nat.mul_le_mul_left _ hi
    rw [Nat.mul_add, Nat.mul_one] at h4
    have h5 : k * 2 ≤ k * rounds := Nat.mul_le_mul_left _ hr
    simp only [Nat.zero_add]
    constructor
    · intro hnil
      have hlen : (trained upd w m.items k i).length = 0 := by rw [hnil]; rfl
      unfold trained cvRound at hlen
      split at hlen
      · rename_i h6
        simp only [List.append_nil, List.length_take, List.length_drop] at hlen
        omega
      · rename_i h6
        split at hlen
        · simp only [List.append_nil, List.length_take, List.length_drop] at hlen
          omega
        · split at hlen
          · simp only [List.length_append, List.length_take, List.length_drop] at hlen
            omega
          · simp only [List.length_append, List.length_take, List.length_drop] at hlen
            omega
    · intro hnil
      have hlen := congrArg List.length hnil
      simp only [List.length_take, List.length_drop, List.length_nil] at hlen
      omega

/-! ## C105: the model after a cross validation -/

/-- the evaluation of the failing model: it raises when the first item is later than the epoch -/
def failingEvaluate (m : MSeries) : Except PyErr (Dict ℚ) :=
  match m.items with
  | x :: _ => if x.t > 0 then .error .valueError else .ok [("err", 0)]
  | [] => .error .valueError

/-- a model whose evaluation can raise -/
def failingKind : MKind (Dict PVal) ℚ (Dict ℚ) := { sampleKind with evaluateBody := fun _ m => failingEvaluate m }

/-- **C105** is false: a model never fitted by its user, after a cross validation interrupted by an
exception, predicts (from a fit on one part of the series). -/
theorem C105_false : ∃ (K : MKind (Dict PVal) ℚ (Dict ℚ)) (a : MArg) (e : PyErr),
    (K.crossValidate K.new a 2).2 = .error e ∧
    (∃ v, K.predict (K.crossValidate K.new a 2).1 a = .ok v) ∧
    (K.crossValidate (K.crossValidate K.new a 2).1 a 2).2 = .error .notImplemented :=
  ⟨failingKind, .series (.ofSeries hourly), .valueError, by decide +kernel, ⟨1, by decide +kernel⟩,
   by decide +kernel⟩

/-- **C105**, what holds: a cross validation that returns leaves the model unfitted, so that it still refuses
to predict and can be cross validated again; a refused one leaves it as it was. -/
theorem C105_unfitted_partial {P R : Type} (K : MKind P R (Dict ℚ)) (st : MState P) (a : MArg) (n : ℕ) :
    (∀ v, (K.crossValidate st a n).2 = .ok v → (K.crossValidate st a n).1.fitted = false ∧
      (K.hasFit = true → ∀ b, K.predict (K.crossValidate st a n).1 b = .error .notFitted)) ∧
    (st.fitted = true → K.crossValidate st a n = (st, .error .notImplemented)) ∧
    (st.fitted = false → a = .other → K.crossValidate st a n = (st, .error .typeError)) := by
  refine ⟨fun v hv => ?_, fun h => ?_, fun h1 h2 => ?_⟩
  · have := crossValidate_fitted K st a n v hv
    exact ⟨this, fun hf b => by simp [MKind.predict, MKind.guarded, hf, this]⟩
  · simp [MKind.crossValidate, MKind.crossEvaluations, h]
  · simp [MKind.crossValidate, MKind.crossEvaluations, h1, h2]

/-! ## C106: the results of a cross validation -/

theorem metricScores_ok (q : String) : ∀ (evs : List (Dict ℚ)) (l : List ℚ), metricScores q evs = .ok l →
    evs.map (fun d => d.get? q) = l.map some := by
  intro evs
  induction evs with
  | nil => intro l h; simp [metricScores] at h; subst h; rfl
  | cons d r ih =>
    intro l h
    unfold metricScores at h
    cases hd : d.get? q with
    | none => simp [hd] at h
    | some v =>
      simp only [hd] at h
      cases hr : metricScores q r with
      | error e => simp [hr] at h
      | ok t =>
        simp only [hr, Except.ok.injEq] at h
        subst h
        simp [hd, ih t hr]

theorem metricResults_ok (evs : List (Dict ℚ)) : ∀ (ks : List String) (t : List (String × ℚ × ℚ)),
    metricResults evs ks = .ok t →
    t.map Prod.fst = ks ∧ ∀ e ∈ t, ∃ l : List ℚ, evs.map (fun d => d.get? e.1) = l.map some ∧
      2 ≤ l.length ∧ e.2.1 = l.sum / l.length ∧
      e.2.2 = (l.map (fun x => (x - l.sum / l.length) ^ 2)).sum / (l.length - 1) := by
  intro ks
  induction ks with
  | nil => intro t h; simp [metricResults] at h; subst h; simp
  | cons q r ih =>
    intro t h
    unfold metricResults at h
    cases hs : metricScores q evs with
    | error e => simp [hs] at h
    | ok l =>
      simp only [hs] at h
      cases hm : meanVar l with
      | error e => simp [hm] at h
      | ok v =>
        simp only [hm] at h
        cases hr : metricResults evs r with
        | error e => simp [hr] at h
        | ok t' =>
          simp only [hr, Except.ok.injEq] at h
          subst h
          obtain ⟨h1, h2⟩ := ih t' hr
          refine ⟨by simp [h1], ?_⟩
          intro e he
          rcases List.mem_cons.mp he with rfl | he
          · unfold meanVar at hm
            split at hm
            · simp at hm
            · simp only [Except.ok.injEq] at hm
              subst hm
              exact ⟨l, metricScores_ok q evs l hs, by omega, rfl, rfl⟩
          · exact h2 e he

/-- **C106**: the results of a cross validation are, for each metric of the first evaluation, the mean
and the sample variance (the square of the reported standard deviation) of the scores of the rounds,
one score per round. -/
theorem C106_results {P R : Type} (K : MKind P R (Dict ℚ)) (st : MState P) (a : MArg) (n : ℕ)
    (t : List (String × ℚ × ℚ)) (h : (K.crossValidate st a n).2 = .ok t) :
    ∃ evs d, (K.crossEvaluations st a n).2 = .ok evs ∧ evs.head? = some d ∧ t.map Prod.fst = d.keys ∧
      ∀ e ∈ t, ∃ l : List ℚ, evs.map (fun d => d.get? e.1) = l.map some ∧ 2 ≤ l.length ∧
        e.2.1 = l.sum / l.length ∧
        e.2.2 = (l.map (fun x => (x - l.sum / l.length) ^ 2)).sum / (l.length - 1) := by
  unfold MKind.crossValidate at h
  rcases hc : K.crossEvaluations st a n with ⟨st', o⟩
  rw [hc] at h
  cases o with
  | error e => simp at h
  | ok evs =>
    simp only at h
    cases evs with
    | nil => simp [crossResults] at h
    | cons d r =>
      simp only [crossResults] at h
      obtain ⟨h1, h2⟩ := metricResults_ok _ _ t h
      exact ⟨d :: r, d, rfl, rfl, h1, h2⟩

/-- non-vacuity: the sample model on the hourly series -/
example : (sampleKind.crossValidate sampleKind.new (.series (.ofSeries hourly)) 2).2 =
    .ok [("err", 3 / 2, 1 / 2)] := by decide +kernel

/-! ## C107: models with parameters set by hand -/

/-- a model with parameters given at creation and no `fit` -/
def handKind : MKind (Dict PVal) ℚ (Dict ℚ) :=
  { sampleKind with hasParams := true, hasFit := false, init := [("sum", .num 7)] }

/-- **C107** is false: a model with parameters and no `fit` raises a `KeyError` when predicting on any
series it could work on, since no fit ever stored a resolution. -/
theorem C107_false : ∃ (K : MKind (Dict PVal) ℚ (Dict ℚ)) (m : MSeries),
    K.hasFit = false ∧ K.predictBody K.new m = .ok 7 ∧ K.predict K.new (.series m) = .error .keyError :=
  ⟨handKind, .ofSeries hourly, rfl, by decide +kernel, by decide +kernel⟩

/-- **C107**, what holds: models with neither parameters nor `fit` work on every non-empty series of
fixed resolution. -/
theorem C107_stateless_partial {P R E : Type} (K : MKind P R E) (h1 : K.hasParams = false)
    (h2 : K.hasFit = false) (m : MSeries) (hi : m.whole.items ≠ []) (hv : m.whole.res ≠ .varying) :
    K.predict K.new (.series m) = K.predictBody K.new m ∧
    K.apply K.new (.series m) = K.applyBody K.new m ∧
    K.evaluate K.new (.series m) = K.evaluateBody K.new m := by
  have hck : K.checks K.new m = .ok () := by
    simp [MKind.checks, MKind.parametric, h1, h2, checkTimeSeries, hi, hv]
  refine ⟨?_, ?_, ?_⟩ <;> simp [MKind.predict, MKind.apply, MKind.evaluate, MKind.guarded, h2, hck]

/-! ## C108: series of a single point -/

/-- **C108** is false: a series of one point, with the labels of the fit, is refused for its
resolution. -/
theorem C108_false : ∃ (K : MKind (Dict PVal) ℚ (Dict ℚ)) (a : MArg) (m : MSeries),
    (K.fit K.new a).2 = .ok () ∧ m.items.length = 1 ∧ m.labels = .ok ["v"] ∧
    (K.fit K.new a).1.labels = some ["v"] ∧ K.predict (K.fit K.new a).1 (.series m) = .error .valueError :=
  ⟨sampleKind, .series (.ofSeries hourly), .ofSeries onePoint, by decide +kernel, by decide, by decide +kernel,
   by decide +kernel, by decide +kernel⟩

/-- **C108**, what holds: the point is accepted when it is given as a view of one item of a series with
the resolution of the fit. -/
theorem C108_view_partial (K : MKind (Dict PVal) R (Dict ℚ)) (pre : List MCall) (m0 m : MSeries)
    (ls : List String) (hl : m0.labels = .ok ls) (i : ℕ)
    (hfit : (K.fit (K.history K.new pre) (.series m0)).2 = .ok ()) (hm : Compatible m0 m) :
    K.predict (K.fit (K.history K.new pre) (.series m0)).1 (.series (m.view i (i + 1))) =
      K.predictBody (K.fit (K.history K.new pre) (.series m0)).1 (m.view i (i + 1)) := by
  obtain ⟨h1, h2, h3, hf⟩ := fit_ok_state K _ m0 ls hl hfit
  exact guarded_compatible K _ _ m0 (m.view i (i + 1)) ls hl h1 h2 h3 hm

end Timeseria
