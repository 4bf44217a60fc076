import Verif.Model.DetectorArgs
import Verif.Lemmas.Ops

/-! # Arguments of an anomaly detector and of its predictive model -/

namespace Timeseria

/-- `PeriodicAverageForecaster` (models/forecasters.py 451, 473) -/
def periodicClass : PredClass where
  name := "PeriodicAverageForecaster"
  init := ["window"]
  fit := ["periodicity", "dst_affected", "data_loss_limit", "verbose"]

/-- `LSTMForecaster` (models/forecasters.py 811, 843) -/
def lstmClass : PredClass where
  name := "LSTMForecaster"
  init := ["window", "features", "neurons", "keras_model"]
  fit := ["epochs", "normalize", "target", "with_context", "minimize_error_metric", "data_loss_limit", "reproducible", "verbose"]

/-- the names are those of parameters -/
def Accepts (params : List String) (any : Bool) (kw : Dict ArgVal) : Prop := any = true ∨ ∀ p ∈ kw, p.1 ∈ params

theorem pyBind_kw (params : List String) (any : Bool) (kw : Dict ArgVal) (h : Accepts params any kw) : pyBind params any [] kw = .ok kw := by
  unfold pyBind
  rw [if_neg (by simp), if_neg (by simp), if_neg]
  · simp
  · rcases h with h | h
    · simp [h]
    · simp only [Bool.and_eq_true, List.any_eq_true, not_and, not_exists]
      intro _ p hp
      simpa using h p hp

theorem pyBind_kw_iff (params : List String) (any : Bool) (kw : Dict ArgVal) : (∃ r, pyBind params any [] kw = .ok r) ↔ Accepts params any kw := by
  refine ⟨?_, fun h => ⟨_, pyBind_kw _ _ _ h⟩⟩
  rintro ⟨r, h⟩
  unfold pyBind at h
  rw [if_neg (by simp), if_neg (by simp)] at h
  split at h
  · cases h
  · rename_i hc
    unfold Accepts
    cases any
    · refine .inr fun p hp => ?_
      by_contra hn
      exact hc (by simp only [Bool.not_false, Bool.true_and, List.any_eq_true]; exact ⟨p, hp, by simpa using hn⟩)
    · exact .inl rfl

theorem pyBind_refused (params : List String) (any : Bool) (kw : Dict ArgVal) (h : ¬ Accepts params any kw) : pyBind params any [] kw = .error .typeError := by
  have := mt (pyBind_kw_iff params any kw).1 h
  unfold pyBind at this ⊢
  rw [if_neg (by simp), if_neg (by simp)] at this ⊢
  split
  · rfl
  · rename_i hc
    rw [if_neg hc] at this
    exact absurd ⟨_, rfl⟩ this

/-! ## C314: the arguments of the predictive model -/

/-- **C314, partial (by name)**: the arguments given by name to a detector with a model class of its own are those with which each of its predictive models is created, in a fit with accepted arguments. -/
theorem C314_keywords_partial (c : PredClass) (kw : Dict ArgVal) (hm : "model_class" ∉ kw.keys) (labels : List String) (ctx : Bool) (v : ℚ) (fkw : Dict ArgVal)
    (calls : List (String × PredCall)) (d : DetObj) (hd : detNew (some c) [] kw = .ok d) (h : detFitCalls d labels ctx v fkw = .ok calls) :
    d = { predictor := c, args := [], kw := kw } ∧ ∀ p ∈ calls, p.2.init = kw := by
  have hn : kw.get? "model_class" = none := by
    by_contra hne
    obtain ⟨v, hv⟩ := Option.ne_none_iff_exists'.1 hne
    exact hm (Dict.get?_isSome.1 ⟨v, hv⟩)
  have hd' : detNew (some c) [] kw = .ok { predictor := c, args := [], kw := kw } := by
    unfold detNew
    rw [hn]
    rfl
  rw [hd'] at hd
  cases hd
  refine ⟨rfl, ?_⟩
  have key : ∀ (k : String) (extra : Dict ArgVal) (r : String × PredCall), tag k (predCall { predictor := c, args := [], kw := kw } fkw extra) = .ok r → r.2.init = kw := by
    intro k extra r hr
    unfold predCall at hr
    dsimp only at hr
    by_cases ha : Accepts c.init false kw
    · rw [pyBind_kw _ _ _ ha] at hr
      dsimp only at hr
      split at hr
      · unfold tag at hr; cases hr
      · split at hr
        · unfold tag at hr; cases hr
        · unfold tag at hr; cases hr; rfl
    · rw [pyBind_refused _ _ _ ha] at hr
      unfold tag at hr
      cases hr
  have all : ∀ (f : String → Except PyErr (String × PredCall)) (l : List String) (r : List (String × PredCall)), (∀ k r, f k = .ok r → r.2.init = kw) → mapE f l = .ok r → ∀ p ∈ r, p.2.init = kw := by
    intro f l r hf hr p hp
    have := mapE_ok_inv hr
    clear hr
    induction this with
    | nil => simp at hp
    | cons h1 _ ih =>
      rcases List.mem_cons.1 hp with rfl | hp
      · exact hf _ _ h1
      · exact ih hp
  unfold detFitCalls at h
  split at h
  · split at h
    · cases h
    · exact all _ _ _ (fun k r hr => key k _ r hr) h
  · exact all _ _ _ (fun k r hr => key k _ r hr) h

/-- **C314, partial (by position)**: for a detector given its model class in the call, the other arguments by position are for the parameters of the model in order. -/
theorem C314_positions_partial (c : PredClass) (args : List ArgVal) (hl : args.length ≤ c.init.length) (kw : Dict ArgVal) (hm : kw.get? "model_class" = none)
    (hk : ∀ p ∈ kw, p.1 ∈ c.init ∧ p.1 ∉ c.init.take args.length) (v : ℚ) (hv : "verbose" ∈ c.fit) (labels : List String) :
    ∃ d call, detNew none (.cls c :: args) kw = .ok d ∧ detFitCalls d labels false v [] = .ok [("", call)] ∧ call.init = c.init.zip args ++ kw := by
  have h1 : detNew none (.cls c :: args) kw = .ok { predictor := c, args := args, kw := kw } := by
    unfold detNew
    rw [hm]
    rfl
  have h2 : pyBind c.init false args kw = .ok (c.init.zip args ++ kw) := by
    unfold pyBind
    rw [if_neg (by omega), if_neg, if_neg]
    · simp only [Bool.not_false, Bool.true_and, List.any_eq_true, not_exists, not_and]
      intro p hp; simpa using (hk p hp).1
    · simp only [List.any_eq_true, not_exists, not_and]
      intro p hp; simpa using (hk p hp).2
  refine ⟨_, { init := c.init.zip args ++ kw, fit := [("verbose", .num v)] }, h1, ?_, rfl⟩
  unfold detFitCalls
  rw [if_neg (by simp)]
  unfold mapE predCall
  dsimp only
  rw [h2]
  dsimp only
  rw [if_neg (by simp), List.nil_append, pyBind_kw _ _ _ (.inr (by intro p hp; simp at hp; rw [hp]; exact hv))]
  rfl

/-- **C314 is false**: an argument given by position to a detector with a model class of its own is taken for another model class, and refused with `ValueError`, or left out without telling if it is zero or
an empty text.  Loading a saved detector forgets the arguments: whatever they were, its models are created again without. -/
theorem C314_false (c : PredClass) (a : ArgVal) (args : List ArgVal) (kw : Dict ArgVal) (hm : kw.get? "model_class" = none) :
    (a.truthy = true → detNew (some c) (a :: args) kw = .error .valueError) ∧
    (a.truthy = false → detNew (some c) (a :: args) kw = .ok { predictor := c, args := args, kw := kw }) ∧
    detReload (some c) = .ok { predictor := c, args := [], kw := [] } := by
  refine ⟨?_, ?_, rfl⟩ <;>
  · intro h
    unfold detNew
    rw [hm]
    unfold detInit
    simp [h]

theorem C314_witness :
    (∃ d calls, detNew (some periodicClass) [] [("window", .num 10)] = .ok d ∧ detFitCalls d ["v"] false 0 [("periodicity", .num 24)] = .ok calls ∧
      calls.map (fun p => p.2.init) = [[("window", .num 10)]]) ∧
    detNew (some periodicClass) [.num 10] [] = .error .valueError ∧
    (∃ d calls, detReload (some periodicClass) = .ok d ∧ detFitCalls d ["v"] false 0 [("periodicity", .num 24)] = .ok calls ∧ calls.map (fun p => p.2.init) = [[]]) := by
  refine ⟨⟨_, _, rfl, rfl, rfl⟩, by decide, ⟨_, _, rfl, rfl, rfl⟩⟩

/-! ## C315: detection with context -/

/-- **C315, partial**: a fit with context is accepted exactly if there is more than one label, the model can be created and its `fit` has a target, a context and a verbose argument (besides the ones given);
then each label has a model of its own, with that label as target and the arguments given. -/
theorem C315_partial (d : DetObj) (labels : List String) (v : ℚ) (kw : Dict ArgVal) (i : Dict ArgVal) (hi : pyBind d.predictor.init false d.args d.kw = .ok i)
    (hk : ∀ p ∈ kw, p.1 ∉ ["target", "with_context", "verbose"]) :
    ((∃ calls, detFitCalls d labels true v kw = .ok calls) ↔
      1 < labels.length ∧ Accepts d.predictor.fit d.predictor.fitAny (kw ++ [("target", .text ""), ("with_context", .num 1), ("verbose", .num v)])) ∧
    ∀ calls, detFitCalls d labels true v kw = .ok calls →
      calls = labels.map (fun k => (k, { init := i, fit := kw ++ [("target", .text k), ("with_context", .num 1), ("verbose", .num v)] })) := by
  have hacc : ∀ k k' : String, Accepts d.predictor.fit d.predictor.fitAny (kw ++ [("target", .text k), ("with_context", .num 1), ("verbose", .num v)]) →
      Accepts d.predictor.fit d.predictor.fitAny (kw ++ [("target", .text k'), ("with_context", .num 1), ("verbose", .num v)]) := by
    intro k k' h
    rcases h with h | h
    · exact .inl h
    · refine .inr fun p hp => ?_
      simp only [List.mem_append, List.mem_cons, List.not_mem_nil, or_false] at hp h
      rcases hp with hp | rfl | rfl | rfl
      · exact h p (.inl hp)
      · exact h ("target", .text k) (.inr (.inl rfl))
      · exact h ("with_context", .num 1) (.inr (.inr (.inl rfl)))
      · exact h ("verbose", .num v) (.inr (.inr (.inr rfl)))
  have hone : ∀ k, predCall d kw [("target", .text k), ("with_context", .num 1), ("verbose", .num v)] =
      match pyBind d.predictor.fit d.predictor.fitAny [] (kw ++ [("target", .text k), ("with_context", .num 1), ("verbose", .num v)]) with
      | .error e => .error e
      | .ok f => .ok { init := i, fit := f } := by
    intro k
    unfold predCall
    rw [hi]
    dsimp only
    rw [if_neg (by
      intro hc
      obtain ⟨p, hp, hq⟩ := List.any_eq_true.1 hc
      exact hk p hp (by simpa [Dict.keys] using hq))]
    rfl
  have hok : 1 < labels.length → Accepts d.predictor.fit d.predictor.fitAny (kw ++ [("target", .text ""), ("with_context", .num 1), ("verbose", .num v)]) →
      detFitCalls d labels true v kw = .ok (labels.map (fun k => (k, { init := i, fit := kw ++ [("target", .text k), ("with_context", .num 1), ("verbose", .num v)] }))) := by
    intro hl ha
    unfold detFitCalls
    rw [if_pos rfl, if_neg (by omega)]
    apply mapE_ok
    intro k _
    rw [hone, pyBind_kw _ _ _ (hacc "" k ha)]
    rfl
  have hinv : ∀ calls, detFitCalls d labels true v kw = .ok calls →
      1 < labels.length ∧ Accepts d.predictor.fit d.predictor.fitAny (kw ++ [("target", .text ""), ("with_context", .num 1), ("verbose", .num v)]) := by
    intro calls h
    unfold detFitCalls at h
    rw [if_pos rfl] at h
    split at h
    · cases h
    · rename_i hl
      refine ⟨by omega, ?_⟩
      cases hlab : labels with
      | nil => rw [hlab] at hl; simp at hl
      | cons k l =>
        rw [hlab] at h
        by_contra hn
        unfold mapE at h
        rw [hone, pyBind_refused _ _ _ (fun hc => hn (hacc k "" hc))] at h
        unfold tag at h
        cases h
  refine ⟨⟨fun ⟨calls, h⟩ => hinv calls h, fun ⟨h1, h2⟩ => ⟨_, hok h1 h2⟩⟩, ?_⟩
  intro calls h
  obtain ⟨h1, h2⟩ := hinv calls h
  rw [hok h1 h2] at h
  cases h
  rfl

/-- **C315 is false**: the detector based on periodic averages refuses a fit with context, with `TypeError`, on every series with two or more labels. -/
theorem C315_false (labels : List String) (hl : 1 < labels.length) (v : ℚ) :
    detFitCalls { predictor := periodicClass, args := [], kw := [] } labels true v [] = .error .typeError := by
  unfold detFitCalls
  rw [if_pos rfl, if_neg (by omega)]
  cases labels with
  | nil => simp at hl
  | cons k l =>
    unfold mapE
    have : predCall { predictor := periodicClass, args := [], kw := [] } [] [("target", .text k), ("with_context", .num 1), ("verbose", .num v)] = .error .typeError := by
      unfold predCall
      rw [show pyBind periodicClass.init false [] [] = .ok [] from rfl]
      dsimp only
      rw [if_neg (by simp), List.nil_append, pyBind_refused]
      rintro (h | h)
      · exact absurd h (by decide)
      · exact absurd (h ("target", .text k) (by simp)) (show ¬ "target" ∈ periodicClass.fit by decide)
    rw [this]
    rfl

theorem C315_witness : (detFitCalls { predictor := lstmClass, args := [], kw := [("window", .num 5)] } ["a", "b"] true 0 [("epochs", .num 2)]).toOption.map (fun l => l.map (fun p => (p.1, p.2.fit.get? "target"))) =
    some [("a", some (.text "a")), ("b", some (.text "b"))] := by decide +kernel

end Timeseria
