import Verif.Model.Anomaly
import Verif.Lemmas.BuildLike

/-! # The anomaly index (C67, C129, C131) -/

namespace Timeseria

/-! ## Specification -/

/-- the density of label `k` decreases on the right of `loc` -/
def Detector.DecreasingRight (d : Detector) (k : String) : Prop :=
  ∀ x y, d.loc k ≤ x → x ≤ y → d.dist k y ≤ d.dist k x

/-- a logarithm: strictly increasing on the positive numbers -/
def LogLike (lg : ℚ → ℚ) : Prop := ∀ a b, 0 < a → a < b → lg a < lg b

/-- The range of the index of label `k`: it lies on the right of `loc`, and its two ends have different
densities (which for the logarithmic index must be positive). -/
structure ProperRange (d : Detector) (kind : IndexKind) (k : String) (r : IndexRange) : Prop where
  known : kind = .lin ∨ kind = .log
  right : d.loc k ≤ r.xs
  ys : r.ys = d.dist k r.xs
  ye : r.ye = d.dist k r.xe
  differ : r.xs < r.xe → r.ye < r.ys
  pos : kind = .log → 0 < r.ye

/-! ## Proofs -/

theorem rawIndex_spec {lg : ℚ → ℚ} (hlg : LogLike lg) {d : Detector} {kind : IndexKind} {k : String}
    {r : IndexRange} (hd : d.DecreasingRight k) (hr : ProperRange d kind k r) (x : ℚ) :
    ∃ v, rawIndex lg kind r x (d.dist k x) = .ok v ∧ 0 ≤ v ∧ v ≤ 1 ∧
      (x ≤ r.xs → v = 0) ∧ (r.xs < x → r.xe ≤ x → v = 1) := by
  unfold rawIndex
  by_cases h1 : x ≤ r.xs
  · rw [if_pos h1]
    exact ⟨0, rfl, le_refl _, by norm_num, fun _ => rfl, fun h => absurd h1 (not_le.2 h)⟩
  · rw [if_neg h1]
    by_cases h2 : r.xe ≤ x
    · rw [if_pos h2]
      exact ⟨1, rfl, by norm_num, le_refl _, fun h => absurd h h1, fun _ _ => rfl⟩
    · rw [if_neg h2]
      push Not at h1 h2
      have hyx : d.dist k x ≤ r.ys := by rw [hr.ys]; exact hd _ _ hr.right (le_of_lt h1)
      have hye : r.ye ≤ d.dist k x := by
        rw [hr.ye]; exact hd _ _ (le_trans hr.right (le_of_lt h1)) (le_of_lt h2)
      have hlt := hr.differ (lt_trans h1 h2)
      rcases hr.known with hk | hk
      · subst hk
        dsimp only
        unfold pyDiv
        rw [if_neg (by linarith)]
        dsimp only
        have hpos : 0 < r.ys - r.ye := by linarith
        have hle : (d.dist k x - r.ye) / (r.ys - r.ye) ≤ 1 := by rw [div_le_one hpos]; linarith
        have hge : 0 ≤ (d.dist k x - r.ye) / (r.ys - r.ye) := div_nonneg (by linarith) (le_of_lt hpos)
        exact ⟨_, rfl, by linarith, by linarith, fun h => absurd h (not_le.2 h1),
          fun _ h => absurd h (not_le.2 h2)⟩
      · subst hk
        dsimp only
        have hp := hr.pos rfl
        unfold pyLog
        rw [if_neg (by linarith)]
        dsimp only
        have hll : lg r.ye < lg r.ys := hlg _ _ hp hlt
        have hly : lg r.ye ≤ lg (d.dist k x) := by
          rcases eq_or_lt_of_le hye with h | h
          · rw [h]
          · exact le_of_lt (hlg _ _ hp h)
        have hly2 : lg (d.dist k x) ≤ lg r.ys := by
          rcases eq_or_lt_of_le hyx with h | h
          · rw [h]
          · exact le_of_lt (hlg _ _ (by linarith) h)
        unfold pyDiv
        rw [if_neg (by linarith)]
        have e : (lg (d.dist k x) - lg r.ys) / (lg r.ye - lg r.ys)
            = (lg r.ys - lg (d.dist k x)) / (lg r.ys - lg r.ye) := by
          rw [← neg_div_neg_eq]; ring_nf
        have hpos : 0 < lg r.ys - lg r.ye := by linarith
        refine ⟨_, rfl, ?_, ?_, fun h => absurd h (not_le.2 h1), fun _ h => absurd h (not_le.2 h2)⟩
        · rw [e]
          exact div_nonneg (by linarith) (le_of_lt hpos)
        · rw [e, div_le_one hpos]
          linarith

/-- **C67**: for a density decreasing on the right of its location and bounds on that side, the index of a
label is 0 up to the lower bound, 1 from the upper bound, and always between 0 and 1. -/
theorem C67_label {lg : ℚ → ℚ} (hlg : LogLike lg) {d : Detector} {kind : IndexKind} {k : String}
    {r : IndexRange} (hd : d.DecreasingRight k) (hr : ProperRange d kind k r) (x : ℚ) :
    ∃ v, rawIndex lg kind r x (d.dist k x) = .ok v ∧ 0 ≤ v ∧ v ≤ 1 ∧
      (x ≤ r.xs → v = 0) ∧ (r.xs < x → r.xe ≤ x → v = 1) := rawIndex_spec hlg hd hr x

/-- **C67** (monotone): a bigger error has at least the same index. -/
theorem C67_monotone {lg : ℚ → ℚ} (hlg : LogLike lg) {d : Detector} {kind : IndexKind} {k : String}
    {r : IndexRange} (hd : d.DecreasingRight k) (hr : ProperRange d kind k r) {x x' v v' : ℚ} (hx : x ≤ x')
    (h : rawIndex lg kind r x (d.dist k x) = .ok v) (h' : rawIndex lg kind r x' (d.dist k x') = .ok v') :
    v ≤ v' := by
  obtain ⟨w, hw, hw0, hw1, hws, hwe⟩ := rawIndex_spec hlg hd hr x
  obtain ⟨w', hw', hw0', hw1', hws', hwe'⟩ := rawIndex_spec hlg hd hr x'
  rw [h] at hw; injection hw with hw
  rw [h'] at hw'; injection hw' with hw'
  subst hw; subst hw'
  by_cases h1 : x ≤ r.xs
  · rw [hws h1]; exact hw0'
  by_cases h2 : r.xe ≤ x'
  · rw [hwe' (by linarith [not_le.1 h1]) h2]; exact hw1
  push Not at h1 h2
  have hxs' : ¬ x' ≤ r.xs := by linarith
  unfold rawIndex at h h'
  rw [if_neg (not_le.2 h1), if_neg (by linarith)] at h
  rw [if_neg hxs', if_neg (not_le.2 h2)] at h'
  have hyy : d.dist k x' ≤ d.dist k x := hd _ _ (le_trans hr.right (le_of_lt h1)) hx
  have hye : r.ye ≤ d.dist k x' := by
    rw [hr.ye]; exact hd _ _ (by linarith [hr.right]) (le_of_lt h2)
  have hlt := hr.differ (by linarith)
  rcases hr.known with hk | hk
  · subst hk
    dsimp only at h h'
    unfold pyDiv at h h'
    rw [if_neg (by linarith)] at h h'
    injection h with h
    injection h' with h'
    have hpos : 0 < r.ys - r.ye := by linarith
    have : (d.dist k x' - r.ye) / (r.ys - r.ye) ≤ (d.dist k x - r.ye) / (r.ys - r.ye) :=
      div_le_div_of_nonneg_right (by linarith) (le_of_lt hpos)
    linarith
  · subst hk
    dsimp only at h h'
    have hp := hr.pos rfl
    unfold pyLog at h h'
    rw [if_neg (by linarith)] at h h'
    dsimp only at h h'
    have hll : lg r.ye < lg r.ys := hlg _ _ hp hlt
    have hly : lg (d.dist k x') ≤ lg (d.dist k x) := by
      rcases eq_or_lt_of_le hyy with h | h
      · rw [h]
      · exact le_of_lt (hlg _ _ (by linarith) h)
    unfold pyDiv at h h'
    rw [if_neg (by linarith)] at h h'
    injection h with h
    injection h' with h'
    rw [← h, ← h']
    exact div_le_div_of_nonpos_of_le (by linarith) (by linarith)

theorem withThreshold_unit {t : Option ℚ} {v : ℚ} (h0 : 0 ≤ v) (h1 : v ≤ 1) :
    0 ≤ withThreshold t v ∧ withThreshold t v ≤ 1 := by
  unfold withThreshold
  cases t with
  | none => exact ⟨h0, h1⟩
  | some t =>
    dsimp only
    split <;> norm_num

/-- **C67** (threshold): with a threshold the index is 1 if it reaches the threshold and 0 otherwise. -/
theorem C67_threshold (t v : ℚ) :
    (t ≤ v → withThreshold (some t) v = 1) ∧ (v < t → withThreshold (some t) v = 0) := by
  unfold withThreshold
  constructor
  · intro h
    dsimp only
    rw [if_neg (not_lt.2 h)]
  · intro h
    dsimp only
    rw [if_pos h]

theorem foldl_max_bounds {a b : ℚ} : ∀ (l : List ℚ) (x : ℚ), a ≤ x → x ≤ b → (∀ y ∈ l, a ≤ y ∧ y ≤ b) →
    a ≤ l.foldl max x ∧ l.foldl max x ≤ b := by
  intro l
  induction l with
  | nil => intro x h1 h2 _; exact ⟨h1, h2⟩
  | cons y l ih =>
    intro x h1 h2 h
    exact ih (max x y) (le_trans h1 (le_max_left _ _)) (max_le h2 (h y (by simp)).2)
      (fun z hz => h z (by simp [hz]))

theorem foldl_min_bounds {a b : ℚ} : ∀ (l : List ℚ) (x : ℚ), a ≤ x → x ≤ b → (∀ y ∈ l, a ≤ y ∧ y ≤ b) →
    a ≤ l.foldl min x ∧ l.foldl min x ≤ b := by
  intro l
  induction l with
  | nil => intro x h1 h2 _; exact ⟨h1, h2⟩
  | cons y l ih =>
    intro x h1 h2 h
    exact ih (min x y) (le_min h1 (h y (by simp)).1) (le_trans (min_le_left _ _) h2)
      (fun z hz => h z (by simp [hz]))

theorem sum_unit_bounds : ∀ (l : List ℚ), (∀ y ∈ l, 0 ≤ y ∧ y ≤ 1) → 0 ≤ l.sum ∧ l.sum ≤ l.length := by
  intro l
  induction l with
  | nil => intro _; simp
  | cons y l ih =>
    intro h
    have := ih (fun z hz => h z (by simp [hz]))
    have hy := h y (by simp)
    simp only [List.sum_cons, List.length_cons]
    push_cast
    constructor <;> linarith

theorem foldl_max_mem : ∀ (l : List ℚ) (x : ℚ), l.foldl max x ∈ x :: l ∧ ∀ y ∈ x :: l, y ≤ l.foldl max x := by
  intro l
  induction l with
  | nil => intro x; simp
  | cons y l ih =>
    intro x
    obtain ⟨h1, h2⟩ := ih (max x y)
    rw [List.foldl_cons]
    constructor
    · rcases List.mem_cons.1 h1 with h | h
      · rw [h]
        rcases max_choice x y with hm | hm <;> rw [hm] <;> simp
      · simp [h]
    · intro z hz
      have hm := h2 (max x y) (by simp)
      rcases List.mem_cons.1 hz with h | h
      · rw [h]; exact le_trans (le_max_left _ _) hm
      · rcases List.mem_cons.1 h with h | h
        · rw [h]; exact le_trans (le_max_right _ _) hm
        · exact h2 z (by simp [h])

theorem foldl_min_mem : ∀ (l : List ℚ) (x : ℚ), l.foldl min x ∈ x :: l ∧ ∀ y ∈ x :: l, l.foldl min x ≤ y := by
  intro l
  induction l with
  | nil => intro x; simp
  | cons y l ih =>
    intro x
    obtain ⟨h1, h2⟩ := ih (min x y)
    rw [List.foldl_cons]
    constructor
    · rcases List.mem_cons.1 h1 with h | h
      · rw [h]
        rcases min_choice x y with hm | hm <;> rw [hm] <;> simp
      · simp [h]
    · intro z hz
      have hm := h2 (min x y) (by simp)
      rcases List.mem_cons.1 hz with h | h
      · rw [h]; exact le_trans hm (min_le_left _ _)
      · rcases List.mem_cons.1 h with h | h
        · rw [h]; exact le_trans hm (min_le_right _ _)
        · exact h2 z (by simp [h])

/-- **C67** (multivariate): the index of an item is the maximum, the minimum or the average of those of its
labels, according to the strategy, and is between 0 and 1 if they are. -/
theorem C67_strategy (st : Strategy) (l : List ℚ) (hne : l ≠ []) :
    ∃ v, combineIndexes st l = .ok v ∧
      (st = .max → v ∈ l ∧ ∀ y ∈ l, y ≤ v) ∧ (st = .min → v ∈ l ∧ ∀ y ∈ l, v ≤ y) ∧
      (st = .avg → v * l.length = l.sum) ∧
      ((∀ y ∈ l, 0 ≤ y ∧ y ≤ 1) → 0 ≤ v ∧ v ≤ 1) := by
  unfold combineIndexes
  split
  · rename_i v
    refine ⟨v, rfl, ?_, ?_, ?_, ?_⟩ <;> simp
  · cases l with
    | nil => exact absurd rfl hne
    | cons x r =>
      cases st with
      | min =>
        dsimp only [pyMinList]
        refine ⟨_, rfl, by simp, fun _ => foldl_min_mem r x, by simp, ?_⟩
        intro h
        exact foldl_min_bounds r x (h x (by simp)).1 (h x (by simp)).2 (fun y hy => h y (by simp [hy]))
      | max =>
        dsimp only [pyMaxList]
        refine ⟨_, rfl, fun _ => foldl_max_mem r x, by simp, by simp, ?_⟩
        intro h
        exact foldl_max_bounds r x (h x (by simp)).1 (h x (by simp)).2 (fun y hy => h y (by simp [hy]))
      | avg =>
        dsimp only
        unfold pyDiv
        have hpos : (0 : ℚ) < ((x :: r).length : ℚ) := by
          rw [List.length_cons]; push_cast; positivity
        rw [if_neg (ne_of_gt hpos)]
        refine ⟨_, rfl, by simp, by simp, fun _ => div_mul_cancel₀ _ (ne_of_gt hpos), ?_⟩
        intro h
        obtain ⟨h1, h2⟩ := sum_unit_bounds _ h
        exact ⟨div_nonneg h1 (le_of_lt hpos), by rw [div_le_one hpos]; exact h2⟩

/-- the mirrored error is on the right of the location -/
theorem loc_le_mirrored (loc e : ℚ) : loc ≤ mirrored loc e := by
  unfold mirrored
  split
  · have := abs_nonneg e
    linarith
  · linarith

theorem scoreValues_index {lg : ℚ → ℚ} (hlg : LogLike lg) {d : Detector} {c : AnomCfg} {k : String}
    {r : IndexRange} (hd : d.DecreasingRight k) (hr : ProperRange d c.kind k r) {a p : ℚ} {sc : LabelScore}
    (h : scoreValues lg d c k r a p = .ok sc) : 0 ≤ sc.index ∧ sc.index ≤ 1 := by
  unfold scoreValues at h
  cases hpe : predictionError d.metric a p with
  | error e => rw [hpe] at h; cases h
  | ok pe =>
    rw [hpe] at h
    dsimp only at h
    obtain ⟨v, hv, h0, h1, _⟩ := rawIndex_spec hlg hd hr (mirrored (d.loc k) pe)
    rw [hv] at h
    injection h with h
    rw [← h]
    exact withThreshold_unit h0 h1

/-- an item scored by the detector has an index between 0 and 1 -/
theorem scoreItem_index {lg : ℚ → ℚ} (hlg : LogLike lg) {d : Detector} {c : AnomCfg}
    {pre : Option Predictions} {ranges : List (String × IndexRange)} {l : List Item} {i : ℕ} {x y : Item}
    (hr : ∀ kr ∈ ranges, d.DecreasingRight kr.1 ∧ ProperRange d c.kind kr.1 kr.2)
    (h : scoreItem lg d c pre ranges l i x = .ok y) :
    ∃ v, y.idx.get? "anomaly" = some (some v) ∧ 0 ≤ v ∧ v ≤ 1 := by
  unfold scoreItem at h
  cases hm : mapE (scoreLabel lg d c pre l i x) ranges with
  | error e => rw [hm] at h; cases h
  | ok sc =>
    rw [hm] at h
    dsimp only at h
    have hall : ∀ v ∈ sc.map (fun p => p.2.index), 0 ≤ v ∧ v ≤ 1 := by
      intro v hv
      obtain ⟨p, hp, rfl⟩ := List.mem_map.1 hv
      have hf := mapE_ok_inv hm
      have : ∃ kr ∈ ranges, scoreLabel lg d c pre l i x kr = .ok p := by
        clear hm h hv hr
        induction hf with
        | nil => simp at hp
        | cons h1 _ ih =>
          rcases List.mem_cons.1 hp with h | h
          · exact ⟨_, List.mem_cons_self, by rw [h]; exact h1⟩
          · obtain ⟨kr, hkr, hs⟩ := ih h
            exact ⟨kr, by simp [hkr], hs⟩
      obtain ⟨kr, hkr, hs⟩ := this
      unfold scoreLabel at hs
      split at hs
      · cases hs
      · split at hs
        · cases hs
        · split at hs
          · cases hs
          · rename_i a p' sc' hsc
            injection hs with hs
            rw [← hs]
            exact scoreValues_index hlg (hr kr hkr).1 (hr kr hkr).2 hsc
    cases hc : combineIndexes c.strategy (sc.map (fun p => p.2.index)) with
    | error e => rw [hc] at h; cases h
    | ok v =>
      rw [hc] at h
      injection h with h
      refine ⟨v, ?_, ?_⟩
      · rw [← h]
        simp [scoredItem, Dict.get?_set]
      · by_cases hne : sc.map (fun p => p.2.index) = []
        · rw [hne] at hc
          cases hst : c.strategy <;> rw [hst] at hc <;> simp [combineIndexes, pyMinList, pyMaxList, pyDiv] at hc
        · obtain ⟨w, hw, _, _, _, hb⟩ := C67_strategy c.strategy _ hne
          rw [hc] at hw
          injection hw with hw
          subst hw
          exact hb hall

end Timeseria
