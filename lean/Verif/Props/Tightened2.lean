import Verif.Props.PeriodicForecast
import Verif.Props.ForecastClaims
import Verif.Props.AnomalyClaims
import Verif.Props.Models
import Verif.Props.Windows
import Verif.Props.Plots
import Verif.Props.Units
import Verif.Props.Items

/-! # More theorems added because an edited model still satisfied the others (see seeded/LOG.jsonl) -/

namespace Timeseria

/-! ## C191: what a round of the cross validation trains on -/

/-- How a model reacts to being updated with further items: it has no such method, it has one which raises
`NotImplementedError`, or it takes them. -/
inductive Updating where
  | missing
  | unsupported
  | works
  deriving DecidableEq, Repr

/-- A model which only remembers the items it has been fitted on and updated with, and whose evaluation returns them
with the items validated: what a round does can be read from it. -/
def learner (u : Updating) (w : Option ℕ) : MKind (List Item) Unit (List Item × List Item) where
  hasParams := false
  hasFit := true
  init := []
  window := fun _ => w
  fitBody := fun _ m => (m.items, .ok ())
  fitUpdate := match u with
    | .missing => none
    | .unsupported => some (fun st _ => (st.params, .error .notImplemented))
    | .works => some (fun st m => (st.params ++ m.items, .ok ()))
  predictBody := fun _ _ => .ok ()
  applyBody := fun _ m => .ok m.whole
  evaluateBody := fun st m => .ok (st.params, m.items)

/-- What a round has to train on, given the items before and after the validated ones and the window of the model, if
it has one: the longer side first (the later one if they are equally long), then the other side, if the model can be
updated and unless this side is shorter than the window. -/
def trainingOf (u : Updating) (w : Option ℕ) (before after : List Item) : List Item :=
  let bigger := if after.length < before.length then before else after
  let smaller := if after.length < before.length then after else before
  if u = .works ∧ ∀ n, w = some n → n ≤ smaller.length then bigger ++ smaller else bigger

theorem learner_second (u : Updating) (w : Option ℕ) (st : MState (List Item)) (m : MSeries) (c : Option Chunk) :
    (learner u w).second st m c = (recorder (u == .works) w).second st m c := by
  cases c with
  | none => rfl
  | some c =>
    unfold MKind.second MKind.tryUpdate
    cases u with
    | missing => rfl
    | works => rfl
    | unsupported =>
      show (if tooShort w c.len then _ else _) = (if tooShort w c.len then _ else _)
      split
      · rfl
      · simp [learner, recorder]

theorem learner_round (u : Updating) (w : Option ℕ) (st : MState (List Item)) (m : MSeries) (k i : ℕ) :
    (learner u w).round st m k i = (recorder (u == .works) w).round st m k i := by
  unfold MKind.round
  have h1 : ∀ st a, (learner u w).fit st a = (recorder (u == .works) w).fit st a := fun _ _ => rfl
  have h2 : ∀ st a, (learner u w).evaluate st a = (recorder (u == .works) w).evaluate st a := fun _ _ => rfl
  simp only [h1, h2, learner_second]

theorem learner_rounds (u : Updating) (w : Option ℕ) (m : MSeries) (k : ℕ) : ∀ (j i : ℕ) (st : MState (List Item)),
    (learner u w).rounds m k j i st = (recorder (u == .works) w).rounds m k j i st := by
  intro j
  induction j with
  | zero => intro i st; rfl
  | succ j ih =>
    intro i st
    unfold MKind.rounds
    rw [learner_round]
    simp only [ih]

theorem trained_training (u : Updating) (w : Option ℕ) (l : List Item) (k i : ℕ) (hk : k * i + k ≤ l.length)
    (hk0 : 0 < k) : trained (u == .works) w l k i = trainingOf u w (l.take (k * i)) (l.drop (k * i + k)) := by
  have htail : (l.drop (k * i + k)).take (l.length - (k * i + k)) = l.drop (k * i + k) := by
    apply List.take_of_length_le; simp
  have hhead : (l.drop 0).take (k * i - 0) = l.take (k * i) := by simp
  have hlb : (l.take (k * i)).length = k * i := by simp; omega
  have hla : (l.drop (k * i + k)).length = l.length - (k * i + k) := by simp
  have hshort : ∀ (n : ℕ), tooShort w n = true ↔ ¬ ∀ q, w = some q → q ≤ n := by
    intro n
    unfold tooShort
    cases w with
    | none => simp
    | some q =>
      simp
      omega
  unfold trained trainingOf
  simp only [hlb, hla]
  unfold cvRound
  by_cases h0 : k * i = 0
  · rw [if_pos h0]
    simp only [htail, List.append_nil]
    have e1 : ¬ (l.length - (k * i + k) < k * i) := by omega
    have e2 : l.take (k * i) = [] := by rw [h0]; rfl
    rw [if_neg e1, if_neg e1, e2, List.append_nil, ite_self]
  · rw [if_neg h0]
    by_cases h1 : k * i + k ≥ l.length
    · rw [if_pos h1]
      simp only [hhead, List.append_nil]
      have e1 : l.length - (k * i + k) < k * i := by omega
      have e2 : l.drop (k * i + k) = [] := List.drop_eq_nil_of_le h1
      rw [if_pos e1, if_pos e1, e2, List.append_nil, ite_self]
    · rw [if_neg h1]
      by_cases h2 : k * i > l.length - (k * i + k)
      · rw [if_pos h2, if_pos h2, if_pos h2]
        simp only [hhead, htail, Chunk.len, hla]
        by_cases h3 : u = .works ∧ ∀ n, w = some n → n ≤ l.length - (k * i + k)
        · rw [if_pos h3, if_neg]
          simp only [Bool.or_eq_true, hshort, not_or, not_not]
          refine ⟨h3.2, ?_⟩
          rw [h3.1]; decide
        · rw [if_neg h3, if_pos, List.append_nil]
          simp only [Bool.or_eq_true, hshort]
          by_cases hu : u = .works
          · left; intro h; exact h3 ⟨hu, h⟩
          · right; cases u <;> first | rfl | exact absurd rfl hu
      · rw [if_neg h2, if_neg h2, if_neg h2]
        simp only [hhead, htail, hlb]
        by_cases h3 : u = .works ∧ ∀ n, w = some n → n ≤ k * i
        · rw [if_pos h3, if_neg]
          simp only [Bool.or_eq_true, hshort, not_or, not_not, Chunk.len, Nat.sub_zero]
          refine ⟨h3.2, ?_⟩
          rw [h3.1]; decide
        · rw [if_neg h3, if_pos, List.append_nil]
          simp only [Bool.or_eq_true, hshort, Chunk.len, Nat.sub_zero]
          by_cases hu : u = .works
          · left; intro h; exact h3 ⟨hu, h⟩
          · right; cases u <;> first | rfl | exact absurd rfl hu

/-- **C191**: with no more rounds than items every round trains on what it has to: the longer of the two sides of the
validated block, then the other one unless the model cannot be updated or that side is shorter than its window; an
update which is not implemented is passed over. -/
theorem C191_training (u : Updating) (w : Option ℕ) (m : MSeries) (ls : List String) (rounds : ℕ)
    (hr : 1 ≤ rounds) (hn : rounds ≤ m.items.length) (hc : m.whole.items ≠ [] ∧ m.whole.res ≠ .varying)
    (hl : m.labels = .ok ls) :
    ∃ st evs, (learner u w).crossEvaluations (learner u w).new (.series m) rounds = (st, .ok evs) ∧
      evs.length = rounds ∧
      ∀ (i : ℕ) (train valid : List Item), evs[i]? = some (train, valid) →
        ∃ before after, m.items = before ++ valid ++ after ∧ valid.length = m.items.length / rounds ∧
          before.length = i * (m.items.length / rounds) ∧ train = trainingOf u w before after := by
  have hc' : checkTimeSeries m = .ok () := by simp [checkTimeSeries, hc.1, hc.2]
  obtain ⟨st', h⟩ := recorder_rounds (u == .works) w m ls hc' hl (m.items.length / rounds) rounds 0 (learner u w).new
  generalize hk : m.items.length / rounds = k at h ⊢
  have hk0 : 0 < k := by rw [← hk]; exact Nat.div_pos hn (by omega)
  refine ⟨st', (List.range rounds).map (fun q =>
        (trained (u == .works) w m.items k (0 + q), (m.items.drop (k * (0 + q))).take k)), ?_, by simp, ?_⟩
  · unfold MKind.crossEvaluations
    have : ((learner u w).new).fitted = false := rfl
    have hr0 : rounds ≠ 0 := by omega
    simp only [this, hc', hr0, Bool.false_eq_true, if_false, hk]
    rw [learner_rounds]
    exact h
  · intro i train valid hi
    rw [List.getElem?_map] at hi
    by_cases hlt : i < rounds
    · rw [List.getElem?_range hlt] at hi
      simp only [Option.map_some, Option.some.injEq, Prod.mk.injEq, Nat.zero_add] at hi
      obtain ⟨h1, h2⟩ := hi
      have hle : k * i + k ≤ m.items.length := by
        have h3 : k * rounds ≤ m.items.length := hk ▸ Nat.div_mul_le_self _ _
        have h4 : k * (i + 1) ≤ k * rounds := Nat.mul_le_mul_left _ hlt
        rw [Nat.mul_add, Nat.mul_one] at h4
        omega
      refine ⟨m.items.take (k * i), m.items.drop (k * i + k), ?_, ?_, ?_, ?_⟩
      · rw [← h2]
        have : m.items.drop (k * i + k) = (m.items.drop (k * i)).drop k := by
          rw [List.drop_drop]
        rw [this, List.append_assoc, List.take_append_drop, List.take_append_drop]
      · rw [← h2]; simp only [List.length_take, List.length_drop]; omega
      · simp only [List.length_take]
        rw [Nat.mul_comm i k, Nat.min_eq_left (by omega)]
      · rw [← h1]; exact trained_training u w m.items k i hle hk0
    · have : (List.range rounds)[i]? = none := by simp; omega
      simp [this] at hi

/-- a concrete case: with a window of one item both sides are used, with a window of two only the longer one -/
def fourHours : MSeries := .ofSeries (TSeries.build
  ((List.range 4).map (fun (i : ℕ) => mkPoint (3600 * (i : ℚ)) (.dict [("v", (i : ℚ))])))).toOption.get!

/-- a concrete case -/
theorem C191_witness : fourHours.items.length = 4 ∧ fourHours.labels = .ok ["v"] ∧ fourHours.whole.res ≠ .varying ∧
    ((((learner .works (some 1)).crossEvaluations (learner .works (some 1)).new (.series fourHours) 4).2.toOption.map
      (fun evs => evs.map (fun e => e.1.map (fun x => x.t))))) =
        some [[3600, 7200, 10800], [7200, 10800, 0], [0, 3600, 10800], [0, 3600, 7200]] ∧
    ((((learner .works (some 2)).crossEvaluations (learner .works (some 2)).new (.series fourHours) 4).2.toOption.map
      (fun evs => evs.map (fun e => e.1.map (fun x => x.t))))) =
        some [[3600, 7200, 10800], [7200, 10800], [0, 3600], [0, 3600, 7200]] := by
  refine ⟨by decide +kernel, by decide +kernel, by decide +kernel, by decide +kernel, by decide +kernel⟩

/-! ## C64: what the forecaster learns -/

theorem set_values {α : Type} (d : Dict α) (k : String) (v : α) : ∀ e ∈ d.set k v, e.2 = v ∨ e ∈ d := by
  induction d with
  | nil => intro e he; simp [Dict.set] at he; left; rw [he]
  | cons a r ih =>
    obtain ⟨k', v'⟩ := a
    intro e he
    unfold Dict.set at he
    split at he
    · rcases List.mem_cons.1 he with h | h
      · left; rw [h]
      · right; exact List.mem_cons_of_mem _ h
    · rcases List.mem_cons.1 he with h | h
      · right; rw [h]; simp
      · rcases ih e h with h' | h'
        · left; exact h'
        · right; exact List.mem_cons_of_mem _ h'

/-- what has been learnt for the label `k` -/
def Learnt (limit : Option ℚ) (idx : ℚ → ℕ) (l : List Item) (p : ℕ) (periods windows : Dict ℕ) (averages : Dict Averages)
    (k : String) : Prop :=
  periods.get? k = some p ∧ windows.get? k = some p ∧ ∃ a, averages.get? k = some a ∧ ∀ i,
    (valuesAt limit idx k l i = [] → avgAt a i = .error .keyError) ∧
    (valuesAt limit idx k l i ≠ [] → avgAt a i = .ok (meanOf (valuesAt limit idx k l i)))

theorem fitLabels_learnt {res : ℚ} {dst : ℚ → Option ℚ} {detect : String → ℕ} {limit : Option ℚ} {l : List Item}
    {p : ℕ} {idx : ℚ → ℕ} (hk : ∀ x ∈ l, KnownLoss x) (hi : ∀ x ∈ l, (PeriodCfg.mk res p dst).index x.t = .ok (idx x.t))
    (hne : ∃ x ∈ l, BelowLimit limit x) : ∀ (ks done : List String) (st : FitState), st.period = some p →
      (∀ k ∈ ks, ∀ x ∈ l, CarriesLabels [k] x) →
      (∀ k ∈ done, Learnt limit idx l p st.periods st.windows st.averages k) → (∀ e ∈ st.windows, e.2 = p) →
      ∃ st', fitLabels res dst detect none limit l st ks = .ok st' ∧ (∀ e ∈ st'.windows, e.2 = p) ∧
        ∀ k, k ∈ done ∨ k ∈ ks → Learnt limit idx l p st'.periods st'.windows st'.averages k := by
  intro ks
  induction ks with
  | nil =>
    intro done st _ _ hd hw
    refine ⟨st, rfl, hw, fun k hk => ?_⟩
    rcases hk with h | h
    · exact hd k h
    · simp at h
  | cons k r ih =>
    intro done st hp hc hd hw
    obtain ⟨acc, h1, h2⟩ := sumLoop_spec (c := ⟨res, p, dst⟩) (limit := limit) l [] hk (hc k (by simp)) hi
    have hacc : acc.isEmpty = false := by
      obtain ⟨x, hx, hb⟩ := hne
      have hm : valueOf x k ∈ valuesAt limit idx k l (idx x.t) :=
        List.mem_map.2 ⟨x, List.mem_filter.2 ⟨hx, by simp [hb]⟩, rfl⟩
      cases acc with
      | cons a b => rfl
      | nil =>
        exfalso
        have := h2 (idx x.t)
        cases hv : valuesAt limit idx k l (idx x.t) with
        | nil => rw [hv] at hm; simp at hm
        | cons v w => rw [hv] at this; simp [plusValues] at this
    have hstep : fitLabel res dst detect none limit l st k =
        .ok ⟨some p, st.periods.set k p, st.windows.set k p, st.averages.set k (toAverages acc)⟩ := by
      unfold fitLabel fitPeriod
      simp only [hp, h1, hacc, Bool.false_eq_true, if_false]
    obtain ⟨st', e1, e2, e3⟩ := ih (k :: done)
      ⟨some p, st.periods.set k p, st.windows.set k p, st.averages.set k (toAverages acc)⟩ rfl
      (fun q hq => hc q (by simp [hq])) (by
        intro q hq
        unfold Learnt
        simp only [Dict.get?_set]
        by_cases he : k = q
        · subst he
          simp only [if_true]
          exact ⟨trivial, trivial, _, rfl, avgAt_spec h2⟩
        · simp only [if_neg he]
          rcases List.mem_cons.1 hq with h | h
          · exact absurd h.symm he
          · exact hd q h) (by
        intro e he
        rcases set_values _ _ _ e he with h | h
        · exact h
        · exact hw e h)
    refine ⟨st', ?_, e2, ?_⟩
    · unfold fitLabels
      rw [hstep]
      exact e1
    · intro q hq
      apply e3
      rcases hq with h | h
      · left; exact List.mem_cons_of_mem _ h
      · rcases List.mem_cons.1 h with h | h
        · left; rw [h]; simp
        · right; exact h

theorem foldl_max_const (p : ℕ) : ∀ (l : List ℕ), (∀ e ∈ l, e = p) → l.foldl max p = p := by
  intro l
  induction l with
  | nil => intro _; rfl
  | cons a r ih =>
    intro h
    rw [List.foldl_cons, h a (by simp), max_self]
    exact ih (fun e he => h e (by simp [he]))

/-- **C64** (forecaster): fitting the periodic average forecaster with a given periodicity on a series of which at
least one item is below the loss limit stores, for every label, that periodicity, a window of that length and the
means by index of the values of that label; the window of the model is that too. -/
theorem C64_forecaster {res : ℚ} {dst : ℚ → Option ℚ} {detect : String → ℕ} {limit : Option ℚ} {l : List Item}
    {p : ℕ} {idx : ℚ → ℕ} {ks : List String} (hl : headLabelsR l = .ok ks) (hks : ks ≠ [])
    (hk : ∀ x ∈ l, KnownLoss x) (hc : ∀ x ∈ l, CarriesLabels ks x)
    (hi : ∀ x ∈ l, (PeriodCfg.mk res p dst).index x.t = .ok (idx x.t)) (hne : ∃ x ∈ l, BelowLimit limit x) :
    ∃ m, forFit res dst detect (some p) none limit l = .ok m ∧ m.labels = ks ∧ m.window = p ∧ m.res = res ∧
      ∀ k ∈ ks, m.periods.get? k = some p ∧ m.windows.get? k = some p ∧ ∃ a, m.averages.get? k = some a ∧ ∀ i,
        (valuesAt limit idx k l i = [] → avgAt a i = .error .keyError) ∧
        (valuesAt limit idx k l i ≠ [] → avgAt a i = .ok (meanOf (valuesAt limit idx k l i))) := by
  obtain ⟨st', h1, h2, h3⟩ := fitLabels_learnt (res := res) (dst := dst) (detect := detect) (limit := limit) (p := p)
    hk hi hne ks [] ⟨some p, [], [], []⟩ rfl
    (fun k hkk x hx => by
      obtain ⟨d, hd, hv⟩ := hc x hx
      exact ⟨d, hd, fun q hq => by rw [List.mem_singleton] at hq; rw [hq]; exact hv k hkk⟩)
    (by simp) (by simp)
  obtain ⟨k0, hk0⟩ := List.exists_mem_of_ne_nil _ hks
  have hw0 := (h3 k0 (Or.inr hk0)).2.1
  have hmax : pyMax (st'.windows.map Prod.snd) = .ok p := by
    have hall : ∀ e ∈ st'.windows.map Prod.snd, e = p := by
      intro e he
      obtain ⟨q, hq, rfl⟩ := List.mem_map.1 he
      exact h2 q hq
    cases hwin : st'.windows.map Prod.snd with
    | nil =>
      have : st'.windows = [] := List.map_eq_nil_iff.1 hwin
      rw [this] at hw0
      simp [Dict.get?] at hw0
    | cons a r =>
      rw [hwin] at hall
      show Except.ok (r.foldl max a) = _
      rw [hall a (by simp), foldl_max_const p r (fun e he => hall e (by simp [he]))]
  refine ⟨⟨res, dst, ks, st'.periods, st'.windows, st'.averages, p⟩, ?_, rfl, rfl, rfl, fun k hkk => h3 k (Or.inr hkk)⟩
  unfold forFit
  rw [hl]
  dsimp only
  rw [h1]
  dsimp only
  rw [hmax]

/-- **C64** (forecaster, nothing to learn from): if no item is below the limit the fit is refused with
`ValueError`. -/
theorem C64_forecaster_refused {res : ℚ} {dst : ℚ → Option ℚ} {detect : String → ℕ} {limit : Option ℚ} {l : List Item}
    {p : ℕ} {idx : ℚ → ℕ} {ks : List String} (hl : headLabelsR l = .ok ks) (hks : ks ≠ [])
    (hk : ∀ x ∈ l, KnownLoss x) (hc : ∀ x ∈ l, CarriesLabels ks x)
    (hi : ∀ x ∈ l, (PeriodCfg.mk res p dst).index x.t = .ok (idx x.t)) (hne : ∀ x ∈ l, ¬ BelowLimit limit x) :
    forFit res dst detect (some p) none limit l = .error .valueError := by
  unfold forFit
  rw [hl]
  dsimp only
  cases ks with
  | nil => exact absurd rfl hks
  | cons k r =>
    obtain ⟨acc, h1, h2⟩ := sumLoop_spec (c := ⟨res, p, dst⟩) (limit := limit) l [] hk (k := k)
      (fun x hx => by
        obtain ⟨d, hd, hv⟩ := hc x hx
        exact ⟨d, hd, fun q hq => by rw [List.mem_singleton] at hq; rw [hq]; exact hv k (by simp)⟩) hi
    have hv : ∀ i, valuesAt limit idx k l i = [] := by
      intro i
      unfold valuesAt
      rw [List.map_eq_nil_iff, List.filter_eq_nil_iff]
      intro x hx
      simp [hne x hx]
    have hacc : acc = [] := by
      cases acc with
      | nil => rfl
      | cons a b =>
        have := h2 a.1
        rw [hv] at this
        simp [plusValues, List.lookup] at this
    unfold fitLabels fitLabel fitPeriod
    simp only [h1, hacc, List.isEmpty_nil, if_true]

/-- a concrete case: two labels -/
def twoTracks : List Item := (List.range 4).map (fun (i : ℕ) =>
  mkPoint (3600 * (i : ℚ)) (.dict [("a", (i : ℚ)), ("b", 10 * ((i : ℚ) + 1))]))

/-- a concrete case -/
theorem C64_forecaster_witness : headLabelsR twoTracks = .ok ["a", "b"] ∧
    (forFit 3600 (fun _ => none) (fun _ => 0) (some 2) none (some 1) twoTracks).toOption.map (fun m => m.averages) =
      some [("a", [(.int 0, 1), (.int 1, 2)]), ("b", [(.int 0, 20), (.int 1, 30)])] := by
  refine ⟨by decide +kernel, by decide +kernel⟩

/-! ## C117: for which times -/

/-- **C117** (partial, the steps): a prediction for `n` steps has `n` elements with the labels of the model, the `i`-th
one computed for the time at which the `i`-th following item is: that many resolutions after the last point, or after
the end of the last slot. -/
theorem C117_steps_partial {m : PFor} {l : List Item} {n : ℕ} {r : List (Dict ℚ)} (h : m.predict l n = .ok r) :
    r.length = n ∧ ∃ last, l.getLast? = some last ∧ ∀ (i : ℕ) (d : Dict ℚ), r[i]? = some d → d.keys = m.labels ∧
      ∀ k v, d.get? k = some v →
        (last.slot = none → m.valueAt l (last.t + (i + 1) * m.res) k = .ok v) ∧
        (∀ e u, last.slot = some (e, u) → m.valueAt l (e + i * m.res) k = .ok v) := by
  unfold PFor.predict at h
  split at h
  · cases h
  split at h
  · cases h
  rename_i last hlast
  have hf := mapE_ok_inv h
  refine ⟨by rw [← hf.length_eq, List.length_range], last, hlast, ?_⟩
  intro i d hd
  have hi : i < n := by
    have := (List.getElem?_eq_some_iff.1 hd).1
    rw [← hf.length_eq, List.length_range] at this
    exact this
  have hr : (List.range n)[i]? = some i := List.getElem?_range hi
  have hstep := forall₂_getElem? hf hr hd
  obtain ⟨e1, e2⟩ := perLabelDict_inv hstep
  refine ⟨e1, fun k v hv => ⟨fun hs => ?_, fun e u hs => ?_⟩⟩
  · have := e2 k v hv
    unfold forecastTime at this
    rw [hs] at this
    exact this
  · have := e2 k v hv
    unfold forecastTime at this
    rw [hs] at this
    exact this

/-! ## C110: values which are missing -/

/-- **C110** (partial, missing values): the values of an item for the labels it does not have are 0. -/
theorem C110_missing_partial (ps : List FPoint) (ks : List String) :
    windowFeatures ps ks ⟨true, false, false⟩ none =
      .ok (ps.map (fun p => ks.map (fun k => (p.data.get? k).getD 0))) := by
  have hrow : ∀ (qs : List FPoint) (i : ℕ) (p : FPoint), featRow qs ks ⟨true, false, false⟩ i p =
      .ok (ks.map (fun k => (p.data.get? k).getD 0)) := by
    intro qs i p
    unfold featRow
    simp only [Bool.false_eq_true, if_false, if_true, List.append_nil]
    congr 1
    apply List.map_congr_left
    intro k _
    unfold featValue
    cases p.data.get? k <;> rfl
  have hrows : ∀ (qs r : List FPoint) (i : ℕ), featRows qs ks ⟨true, false, false⟩ i r =
      .ok (r.map (fun p => ks.map (fun k => (p.data.get? k).getD 0))) := by
    intro qs r
    induction r with
    | nil => intro i; rfl
    | cons p r ih =>
      intro i
      unfold featRows
      rw [hrow]
      dsimp only
      rw [ih]
      rfl
  unfold windowFeatures
  rw [hrows]
  simp

/-! ## C192: the labels of a forecaster -/

/-- **C192**: a forecaster with target labels gives, for a series with exactly these labels in whatever order, the
forecast it gives without target labels; any other series is refused with `ValueError` before predicting. -/
theorem C192_targets (cal : Calendar) (c : FCfg) (pred : FPredictor) (s : TSeries) (n : ℕ) (ls : List String)
    (ht : c.targets ≠ []) (hl : (MSeries.ofSeries s).labels = .ok ls) :
    ((∀ k, k ∈ c.targets ↔ k ∈ ls) → forecast cal c pred s n = forecast cal { c with targets := [] } pred s n) ∧
    ((¬ ∀ k, k ∈ c.targets ↔ k ∈ ls) → forecast cal c pred s n = .error .valueError) := by
  have hne : c.targets.isEmpty = false := by
    cases h : c.targets with
    | nil => exact absurd h ht
    | cons a r => rfl
  have hiff : (c.targets.all (fun k => ls.contains k) && ls.all (fun k => c.targets.contains k)) = true ↔
      ∀ k, k ∈ c.targets ↔ k ∈ ls := by
    simp only [Bool.and_eq_true, List.all_eq_true, List.contains_iff_mem]
    constructor
    · rintro ⟨h1, h2⟩ k
      exact ⟨h1 k, h2 k⟩
    · intro h
      exact ⟨fun k hk => (h k).1 hk, fun k hk => (h k).2 hk⟩
  constructor
  · intro h
    have h0 : checkTargets { c with targets := [] } s = .ok () := rfl
    have h1 : checkTargets c s = .ok () := by
      unfold checkTargets
      simp only [hne, Bool.false_eq_true, if_false, hl, hiff.2 h, if_true]
    unfold forecast
    rw [h0, h1]
    rfl
  · intro h
    have h1 : checkTargets c s = .error .valueError := by
      unfold checkTargets
      simp only [hne, Bool.false_eq_true, if_false, hl, if_neg (mt hiff.1 h)]
    unfold forecast
    rw [h1]

/-- a concrete case: three hourly points with the label `v` -/
theorem C192_witness : (TSeries.build threeHours).toOption.map (fun s => (MSeries.ofSeries s).labels) = some (.ok ["v"]) ∧
    ((TSeries.build threeHours).toOption.map (fun s =>
      (forecast physicalCalendar ⟨["v"], some (.unit (TUnit.ofSecs 3600))⟩ sevenAtOnce s 1).toOption.isSome)) = some true ∧
    ((TSeries.build threeHours).toOption.map (fun s =>
      forecast physicalCalendar ⟨["v", "w"], some (.unit (TUnit.ofSecs 3600))⟩ sevenAtOnce s 1)) = some (.error .valueError) := by
  refine ⟨by decide +kernel, by decide +kernel, by decide +kernel⟩

/-! ## C124: which prediction -/

/-- **C124** (which prediction): when the model predicts a list, the prediction compared with the actual value is the
first one of the list, that is the one for the item following those the model was given. -/
theorem C124_first {pred : VPredictor} {w : ℕ} {s : TSeries} {k : String} {r : List (ℚ × ℚ)}
    (h : evalPairs pred w s k = .ok r) (j : ℕ) (a v : ℚ) (hj : r[j]? = some (a, v)) :
    (∃ d ds, pred ⟨s, 0, (w + j : ℕ), 0⟩ = .ok (.many (d :: ds)) ∧ d.get? k = some v) ∨
    (∃ d, pred ⟨s, 0, (w + j : ℕ), 0⟩ = .ok (.one d) ∧ d.get? k = some v) := by
  have hlook : ∀ d : Dict ℚ, lookupE d k = .ok v → d.get? k = some v := by
    intro d hd
    unfold lookupE at hd
    split at hd
    · cases hd
    · rename_i w hw; injection hd with hd; rw [hw, hd]
  obtain ⟨x, _, _, p, hp, hv⟩ := (C124_pairs h).2 j a v hj
  cases p with
  | many ds =>
    cases ds with
    | nil => simp [predictedValue] at hv
    | cons d ds => exact Or.inl ⟨d, ds, hp, hlook d hv⟩
  | one d => exact Or.inr ⟨d, hp, hlook d hv⟩

/-! ## C193: the named bounds of the anomaly index -/

/-- what a bound given by name stands for: a multiple of the standard deviation, the biggest of the errors of the fit
in absolute value, or their mean -/
def BoundMeans (d : Detector) (k : String) (errs : List ℚ) (b : Bound) (v : ℚ) : Prop :=
  (∀ x, b = .num x → v = x) ∧ (∀ x, b = .sigma x → v = x * d.stdev k) ∧
  (b = .maxErr → (∃ e ∈ errs, v = |e|) ∧ ∀ e ∈ errs, |e| ≤ v) ∧
  (b = .avgErr → v * errs.length = (errs.map (fun e => |e|)).sum) ∧ b ≠ .unknown

theorem foldl_max_is : ∀ (l : List ℚ) (x : ℚ), (l.foldl max x = x ∨ l.foldl max x ∈ l) ∧ x ≤ l.foldl max x ∧
    ∀ y ∈ l, y ≤ l.foldl max x := by
  intro l
  induction l with
  | nil => intro x; simp
  | cons a r ih =>
    intro x
    rw [List.foldl_cons]
    obtain ⟨h1, h2, h3⟩ := ih (max x a)
    refine ⟨?_, le_trans (le_max_left _ _) h2, ?_⟩
    · rcases h1 with h | h
      · rcases max_choice x a with hm | hm
        · left; rw [h, hm]
        · right; rw [h, hm]; simp
      · right; exact List.mem_cons_of_mem _ h
    · intro y hy
      rcases List.mem_cons.1 hy with h | h
      · rw [h]; exact le_trans (le_max_right _ _) h2
      · exact h3 y h

theorem resolveBound_means {d : Detector} {t : Bool} {k : String} {errs : List ℚ} {b : Bound} {v : ℚ}
    (h : resolveBound d t k (errs.map (fun e => |e|)) b = .ok v) : BoundMeans d k errs b v := by
  unfold resolveBound at h
  split at h
  · cases h
  rename_i w hw
  split at h
  · cases h
  injection h with h
  subst h
  unfold boundValue at hw
  cases b with
  | num x => injection hw with hw; exact ⟨by rintro y ⟨⟩; exact hw.symm, by simp, by simp, by simp, by simp⟩
  | sigma x => injection hw with hw; exact ⟨by simp, by rintro y ⟨⟩; exact hw.symm, by simp, by simp, by simp⟩
  | unknown => cases hw
  | adherence x => exact ⟨by simp, by simp, by simp, by simp, by simp⟩
  | maxErr =>
    refine ⟨by simp, by simp, fun _ => ?_, by simp, by simp⟩
    cases errs with
    | nil => cases hw
    | cons e r =>
      dsimp only [pyMaxList, List.map_cons] at hw
      injection hw with hw
      obtain ⟨h1, h2, h3⟩ := foldl_max_is (r.map (fun e => |e|)) |e|
      rw [hw] at h1 h2 h3
      refine ⟨?_, ?_⟩
      · rcases h1 with h | h
        · exact ⟨e, by simp, h⟩
        · obtain ⟨q, hq, he⟩ := List.mem_map.1 h
          exact ⟨q, by simp [hq], he.symm⟩
      · intro q hq
        rcases List.mem_cons.1 hq with h | h
        · rw [h]; exact h2
        · exact h3 _ (List.mem_map.2 ⟨q, h, rfl⟩)
  | avgErr =>
    refine ⟨by simp, by simp, by simp, fun _ => ?_, by simp⟩
    dsimp only [pyDiv] at hw
    split at hw
    · cases hw
    rename_i hne
    injection hw with hw
    rw [← hw]
    rw [List.length_map] at hne ⊢
    exact div_mul_cancel₀ _ hne

/-- **C193**: when a detector is applied, the range of the index of a label goes from the value the lower bound stands
for to the value the upper bound stands for, computed on the errors stored by the fit for that label. -/
theorem C193_bounds {lg : ℚ → ℚ} {d : Detector} {c : AnomCfg} {k : String} {r : IndexRange}
    (h : labelRange lg d c k = .ok r) : ∃ stored errs, d.errors = some stored ∧ stored.get? k = some errs ∧
      BoundMeans d k errs c.lower r.xs ∧ BoundMeans d k errs c.upper r.xe ∧
      r.ys = d.dist k r.xs ∧ r.ye = d.dist k r.xe := by
  unfold labelRange at h
  split at h
  · cases h
  rename_i errs he
  split at h
  · cases h
  rename_i xs hxs
  split at h
  · cases h
  rename_i xe hxe
  have hr : r = ⟨xs, xe, d.dist k xs, d.dist k xe⟩ := by
    unfold checkLogs at h
    split at h
    · split at h
      · injection h with h; exact h.symm
      · cases h
    · injection h with h; exact h.symm
  unfold storedErrors at he
  split at he
  · cases he
  rename_i stored hs
  split at he
  · cases he
  rename_i l hl
  injection he with he
  subst he
  subst hr
  exact ⟨stored, l, hs, hl, resolveBound_means hxs, resolveBound_means hxe, rfl, rfl⟩

/-- **C193** (adherence): the bound `adherence/x` is where the density is its highest value divided by `x`, as found by
the search of the distribution. -/
theorem C193_adherence {lg : ℚ → ℚ} {d : Detector} {c : AnomCfg} {k : String} {r : IndexRange}
    (h : labelRange lg d c k = .ok r) (x : ℚ) (hb : c.upper = .adherence x) :
    x ≠ 0 ∧ d.findX k (d.dist k (d.loc k) / x) = .ok r.xe := by
  unfold labelRange at h
  split at h
  · cases h
  split at h
  · cases h
  rename_i xs hxs
  split at h
  · cases h
  rename_i xe hxe
  have hr : r = ⟨xs, xe, d.dist k xs, d.dist k xe⟩ := by
    unfold checkLogs at h
    split at h
    · split at h
      · injection h with h; exact h.symm
      · cases h
    · injection h with h; exact h.symm
  subst hr
  rw [hb] at hxe
  unfold resolveBound boundValue at hxe
  dsimp only at hxe
  split at hxe
  · cases hxe
  rename_i v hv
  split at hxe
  · cases hxe
  injection hxe with hxe
  subst hxe
  split at hv
  · cases hv
  rename_i y hy
  unfold pyDiv at hy
  split at hy
  · cases hy
  rename_i hne
  injection hy with hy
  rw [hy]
  exact ⟨hne, hv⟩

/-- a concrete case: the errors of the fit were -5 and 3 -/
theorem C193_witness : (labelRange id (tentDetector 1 false "E" 0 (some [("v", [-5, 3])]))
      { lower := .avgErr, upper := .maxErr, kind := .lin } "v").toOption.map (fun r => (r.xs, r.xe)) = some (4, 5) := by
  decide +kernel

/-! ## C194: what is plotted -/

/-- the names selected by the argument: those of the list if one is given, none for `None`, everything for `'all'` -/
def Selects (sel : PlotSel) (everything chosen : List String) : Prop :=
  match sel with
  | .all => chosen = everything
  | .nothing => chosen = []
  | .these ks => chosen = ks ∧ ∀ k ∈ ks, k ∈ everything

/-- **C194** (what is plotted): without aggregation the rows of a plot have, for each item and in the order asked for,
the values of the selected labels and the selected indexes. -/
theorem C194_selected {c : PlotCfg} {s : TSeries} {p : Plot} {x : Item} {r : List Item} {ls : List String}
    (hx : s.items = x :: r) (hls : s.labelsFrom x = .ok ls) (hagg : c.aggregate = some false)
    (h : dygraphsPlot c s = .ok p) :
    ∃ labels indexes, Selects c.labels ls labels ∧ Selects c.indexes (allDataIndexes s.items) indexes ∧
      List.Forall₂ (fun (y : Item) (row : PlotRow) => ∃ vs, mapE (plotValue y) (loopLabels labels) = .ok vs ∧
        row = PlotRow.plain y.t vs (indexes.map (fun n => (y.idx.get? n).join))) s.items p.rows := by
  unfold dygraphsPlot at h
  rw [hx] at h
  dsimp only at h
  rw [← hx] at h
  split at h
  · cases h
  rename_i labels hl
  split at h
  · cases h
  rename_i indexes hi
  split at h
  · cases h
  split at h
  · cases h
  rename_i gmin gmax rows hrows
  have hfac : aggFactor s.items.length c.aggregate c.aggBy = none := by
    unfold aggFactor; rw [hagg]
  rw [hfac] at hrows
  have hC := C146_plain (Or.inl rfl) hrows
  have hp : p.rows = rows := by
    split at h
    · injection h with h; rw [← h]
    · cases h
  refine ⟨labels, indexes, ?_, ?_, by rw [hp]; exact hC⟩
  · unfold plotLabels at hl
    cases hsel : c.labels with
    | all => rw [hsel] at hl; dsimp only at hl; rw [hls] at hl; injection hl with hl; exact hl.symm
    | nothing => rw [hsel] at hl; injection hl with hl; exact hl.symm
    | these ks =>
      rw [hsel] at hl; dsimp only at hl; rw [hls] at hl; dsimp only at hl
      split at hl
      · rename_i hall
        injection hl with hl
        simp only [List.all_eq_true, List.contains_iff_mem] at hall
        exact ⟨hl.symm, hall⟩
      · cases hl
  · unfold plotIndexes at hi
    cases hsel : c.indexes with
    | all => rw [hsel] at hi; injection hi with hi; exact hi.symm
    | nothing => rw [hsel] at hi; injection hi with hi; exact hi.symm
    | these ks =>
      rw [hsel] at hi; dsimp only at hi
      split at hi
      · rename_i hall
        injection hi with hi
        simp only [List.all_eq_true, List.contains_iff_mem] at hall
        exact ⟨hi.symm, hall⟩
      · cases hi

/-- **C194** (labels refused): asking for a label the series does not have is a `ValueError`. -/
theorem C194_unknown_label {c : PlotCfg} {s : TSeries} {x : Item} {r : List Item} {ls ks : List String} {k : String}
    (hx : s.items = x :: r) (hls : s.labelsFrom x = .ok ls) (hsel : c.labels = .these ks) (hk : k ∈ ks) (hn : k ∉ ls) :
    dygraphsPlot c s = .error .valueError := by
  have hall : ¬ (ks.all (fun k => ls.contains k) = true) := by
    simp only [List.all_eq_true, List.contains_iff_mem]
    intro h; exact hn (h k hk)
  unfold dygraphsPlot
  rw [hx]
  dsimp only
  unfold plotLabels
  rw [hsel]
  dsimp only
  rw [hls]
  dsimp only
  rw [if_neg hall]

/-- **C194** (indexes refused): asking for an index no item of the series has is a `ValueError`. -/
theorem C194_unknown_index {c : PlotCfg} {s : TSeries} {x : Item} {r : List Item} {ls qs : List String} {q : String}
    (hx : s.items = x :: r) (hls : s.labelsFrom x = .ok ls) (hlab : c.labels = .all) (hsel : c.indexes = .these qs)
    (hq : q ∈ qs) (hn : ∀ y ∈ s.items, y.idx.get? q = none) : dygraphsPlot c s = .error .valueError := by
  have hn : q ∉ allDataIndexes s.items := by
    rw [(C72_all_data_indexes s.items).2.1]
    rintro ⟨y, hy, hm⟩
    obtain ⟨v, this⟩ := Dict.get?_isSome.2 hm
    rw [hn y hy] at this
    simp at this
  have hall : ¬ (qs.all (fun k => (allDataIndexes s.items).contains k) = true) := by
    simp only [List.all_eq_true, List.contains_iff_mem]
    intro h; exact hn (h q hq)
  unfold dygraphsPlot
  rw [hx]
  dsimp only
  unfold plotLabels plotIndexes
  rw [hlab, hsel]
  dsimp only
  rw [hls]
  dsimp only
  rw [← hx, if_neg hall]

/-- a series with two labels and an index -/
def twoLabelled : List Item :=
  [mkPoint 0 (.dict [("a", 1), ("b", 2)]) "UTC" [("data_loss", some 1), ("x", some 5)],
   mkPoint 60 (.dict [("a", 3), ("b", 4)])]

/-- a concrete case: one label and one index of two -/
theorem C194_witness : ((TSeries.build twoLabelled).toOption.map (fun s =>
      (dygraphsPlot { labels := .these ["b"], indexes := .these ["x"], aggregate := some false } s).toOption.map
        (fun p => p.rows))) = some (some [.plain 0 [2] [some 5], .plain 60 [4] [none]]) ∧
    ((TSeries.build twoLabelled).toOption.map (fun s =>
      (dygraphsPlot { labels := .these ["c"] } s).toOption.isNone)) = some true := by
  constructor <;> decide +kernel

/-! ## C195: the prediction errors -/

/-- **C195**: the error the detector computes for an actual and a predicted value is what is to be added to the
prediction to get the actual value (`E`), its absolute value (`AE`), the same divided by the actual value (`PE`), or
the absolute value of that (`APE`). -/
theorem C195_metrics (a p e : ℚ) :
    (predictionError "E" a p = .ok e ↔ p + e = a) ∧
    (predictionError "AE" a p = .ok e ↔ 0 ≤ e ∧ (p + e = a ∨ p - e = a)) ∧
    (a ≠ 0 → (predictionError "PE" a p = .ok e ↔ p + e * a = a)) ∧
    (a ≠ 0 → (predictionError "APE" a p = .ok e ↔ 0 ≤ e ∧ (p + e * a = a ∨ p - e * a = a))) := by
  have habs : ∀ x y : ℚ, |x| = y ↔ 0 ≤ y ∧ (x = y ∨ x = -y) := by
    intro x y
    constructor
    · intro h
      refine ⟨h ▸ abs_nonneg x, ?_⟩
      rcases abs_choice x with hc | hc
      · left; rw [← h, hc]
      · right; rw [← h, hc, neg_neg]
    · rintro ⟨h0, h | h⟩
      · rw [h, abs_of_nonneg h0]
      · rw [h, abs_neg, abs_of_nonneg h0]
  have hn : ∀ s t : String, s ≠ t → ∀ (x y : Except PyErr ℚ), (if s = t then x else y) = y := by
    intro s t h x y; rw [if_neg h]
  refine ⟨?_, ?_, ?_, ?_⟩
  · unfold predictionError
    rw [if_pos rfl, Except.ok.injEq]
    constructor <;> intro h <;> linarith
  · unfold predictionError
    rw [if_neg (by decide), if_pos rfl, Except.ok.injEq, habs]
    constructor
    · rintro ⟨h0, h | h⟩
      · exact ⟨h0, Or.inl (by linarith)⟩
      · exact ⟨h0, Or.inr (by linarith)⟩
    · rintro ⟨h0, h | h⟩
      · exact ⟨h0, Or.inl (by linarith)⟩
      · exact ⟨h0, Or.inr (by linarith)⟩
  · intro ha
    unfold predictionError
    rw [if_neg (by decide), if_neg (by decide), if_pos rfl]
    unfold pyDiv
    rw [if_neg ha, Except.ok.injEq, div_eq_iff ha]
    constructor <;> intro h <;> linarith
  · intro ha
    unfold predictionError
    rw [if_neg (by decide), if_neg (by decide), if_neg (by decide), if_pos rfl]
    unfold pyDiv
    rw [if_neg ha]
    dsimp only
    rw [Except.ok.injEq, habs, div_eq_iff ha, div_eq_iff ha]
    constructor
    · rintro ⟨h0, h | h⟩
      · exact ⟨h0, Or.inl (by linarith)⟩
      · exact ⟨h0, Or.inr (by linarith)⟩
    · rintro ⟨h0, h | h⟩
      · exact ⟨h0, Or.inl (by linarith)⟩
      · exact ⟨h0, Or.inr (by linarith)⟩

/-- **C195** (percentages of zero): relative errors of an actual value of zero raise. -/
theorem C195_zero (p : ℚ) : predictionError "PE" 0 p = .error .zeroDivision ∧
    predictionError "APE" 0 p = .error .zeroDivision := by
  unfold predictionError pyDiv
  simp

/-! ## C69: units which are lists -/

/-- **C69** (lists): a unit whose value is a list is refused wherever a number is needed; two of them are added by
concatenation. -/
theorem C69_lists (l m : List ℚ) (b : ℚ) :
    unitAdd (.list l) (.num b) = .error .notImplemented ∧ unitSub (.list l) (.num b) = .error .notImplemented ∧
    unitMul (.list l) (.num b) = .error .notImplemented ∧ unitDiv (.list l) (.num b) = .error .notImplemented ∧
    unitAdd (.list l) (.unit (.list m)) = .ok (.list (l ++ m)) ∧
    unitAdd (.list l) (.unit (.num b)) = .error .typeError ∧ unitAdd (.num b) (.unit (.list l)) = .error .typeError :=
  ⟨rfl, rfl, rfl, rfl, rfl, rfl, rfl⟩

end Timeseria
