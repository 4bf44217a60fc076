import Verif.Model.IndexArgs
import Verif.Lemmas.Ops
/-!
C327: the anomaly index computed by a function of the user.
C328: unknown index types and strategies are refused.
-/
namespace Timeseria

/-- the error is between the bounds of the index -/
def Between (e : LabelError) : Prop := e.range.xs < e.x ∧ e.x < e.range.xe

/-! ## C327 -/

/-- **C327** (use) the function is called for the errors strictly between the bounds, with the error, its density, and the bounds and their densities; the others have index 0 or 1 -/
theorem C327_use_partial (lg : ℚ → ℚ) (f : ℚ → ℚ → ℚ → ℚ → ℚ → ℚ → Except PyErr ℚ) (e : LabelError) :
    (Between e → argScore lg (.func f) none e = f e.x e.y e.range.xs e.range.xe e.range.ys e.range.ye) ∧
    (e.x ≤ e.range.xs → argScore lg (.func f) none e = .ok 0) ∧
    (e.range.xs < e.x → e.range.xe ≤ e.x → argScore lg (.func f) none e = .ok 1) := by
  unfold argScore argIndex Between
  refine ⟨?_, ?_, ?_⟩
  · rintro ⟨h1, h2⟩
    rw [if_neg (not_le.2 h1), if_neg (not_le.2 h2)]
    dsimp only
    cases f e.x e.y e.range.xs e.range.xe e.range.ys e.range.ye <;> rfl
  · intro h
    rw [if_pos h]; rfl
  · intro h1 h2
    rw [if_neg (not_le.2 h1), if_pos h2]; rfl

theorem ia_foldl_max_le (r : List ℚ) (b : ℚ) : ∀ x : ℚ, (∀ v ∈ x :: r, v ≤ b) → r.foldl max x ≤ b := by
  induction r with
  | nil => intro x h; exact h x (by simp)
  | cons w r ih =>
    intro x h
    refine ih _ ?_
    intro v hv
    rcases List.mem_cons.1 hv with rfl | hv
    · exact max_le (h x (by simp)) (h w (by simp))
    · exact h v (by simp [hv])

theorem foldl_max_ge (r : List ℚ) : ∀ x : ℚ, x ≤ r.foldl max x := by
  induction r with
  | nil => intro x; exact le_refl _
  | cons w r ih => intro x; exact (le_max_left x w).trans (ih _)

theorem foldl_min_ge (r : List ℚ) (b : ℚ) : ∀ x : ℚ, (∀ v ∈ x :: r, b ≤ v) → b ≤ r.foldl min x := by
  induction r with
  | nil => intro x h; exact h x (by simp)
  | cons w r ih =>
    intro x h
    refine ih _ ?_
    intro v hv
    rcases List.mem_cons.1 hv with rfl | hv
    · exact le_min (h x (by simp)) (h w (by simp))
    · exact h v (by simp [hv])

theorem foldl_min_le (r : List ℚ) : ∀ x : ℚ, r.foldl min x ≤ x := by
  induction r with
  | nil => intro x; exact le_refl _
  | cons w r ih => intro x; exact (ih _).trans (min_le_left x w)

theorem ia_sum_bounds (l : List ℚ) (h : ∀ v ∈ l, 0 ≤ v ∧ v ≤ 1) : 0 ≤ l.sum ∧ l.sum ≤ l.length := by
  induction l with
  | nil => simp
  | cons v l ih =>
    obtain ⟨h1, h2⟩ := ih (fun x hx => h x (by simp [hx]))
    have := h v (by simp)
    simp only [List.sum_cons, List.length_cons]
    push_cast
    constructor <;> linarith

/-- indexes of the labels between 0 and 1 give one of the item between 0 and 1, for the known strategies -/
theorem combine_fraction (s : Strategy) (l : List ℚ) (v : ℚ) (h : combineIndexes s l = .ok v) (hl : ∀ w ∈ l, 0 ≤ w ∧ w ≤ 1) : 0 ≤ v ∧ v ≤ 1 := by
  unfold combineIndexes at h
  split at h
  · cases h; exact hl _ (by simp)
  · cases l with
    | nil => cases s <;> simp [pyMinList, pyMaxList, pyDiv] at h
    | cons x r =>
      cases s with
      | min =>
        cases h
        exact ⟨foldl_min_ge r 0 x (fun w hw => (hl w hw).1), (foldl_min_le r x).trans (hl x (by simp)).2⟩
      | max =>
        cases h
        exact ⟨(hl x (by simp)).1.trans (foldl_max_ge r x), ia_foldl_max_le r 1 x (fun w hw => (hl w hw).2)⟩
      | avg =>
        unfold pyDiv at h
        dsimp only at h
        split at h
        · cases h
        · cases h
          obtain ⟨h1, h2⟩ := ia_sum_bounds (x :: r) hl
          have hp : (0 : ℚ) < ((x :: r).length : ℕ) := by rw [List.length_cons]; positivity
          exact ⟨div_nonneg h1 hp.le, (div_le_one hp).2 h2⟩

/-- **C327** (range) if the function gives numbers between 0 and 1, or if a threshold is given, the index of an item, with a known strategy, is between 0 and 1.
Missing: any other function, see `C327_false`. -/
theorem C327_range_partial (lg : ℚ → ℚ) (f : ℚ → ℚ → ℚ → ℚ → ℚ → ℚ → Except PyErr ℚ) (threshold : Option ℚ) (s : Strategy) (es : List LabelError) (v : ℚ)
    (hf : threshold.isSome ∨ ∀ x y a b c d w, f x y a b c d = .ok w → 0 ≤ w ∧ w ≤ 1)
    (h : argItem lg (.func f) threshold (.named s) es = .ok v) : 0 ≤ v ∧ v ≤ 1 := by
  unfold argItem at h
  cases hm : mapE (argScore lg (.func f) threshold) es with
  | error e => rw [hm] at h; cases h
  | ok vs =>
    rw [hm] at h
    dsimp only at h
    have hv : ∀ w ∈ vs, 0 ≤ w ∧ w ≤ 1 := by
      have h2 := mapE_ok_inv hm
      clear h hm
      induction h2 with
      | nil => simp
      | cons hs _ ih =>
        rename_i e w _ _ _
        intro u hu
        rcases List.mem_cons.1 hu with rfl | hu
        · unfold argScore at hs
          cases hi : argIndex lg (.func f) e with
          | error er => rw [hi] at hs; cases hs
          | ok i =>
            rw [hi] at hs
            cases hs
            cases threshold with
            | some t => unfold withThreshold; dsimp only; split_ifs <;> norm_num
            | none =>
              unfold withThreshold
              dsimp only
              unfold argIndex at hi
              split_ifs at hi
              · cases hi; norm_num
              · cases hi; norm_num
              · exact (hf.resolve_left (by simp)) _ _ _ _ _ _ _ hi
        · exact ih u hu
    unfold argCombine at h
    split_ifs at h
    · exact combine_fraction _ _ _ h hv
    · exact combine_fraction _ _ _ h hv

/-- an error half way between its bounds -/
def midError : LabelError where
  range := { xs := 0, xe := 2, ys := 1, ye := 1/2 }
  x := 1
  y := 3/4

/-- **C327** is false: the function is not constrained, so that the index may be above 1 -/
theorem C327_false : argItem id (.func (fun x _ _ _ _ _ => .ok (7 * x))) none (.named .max) [midError] = .ok 7 ∧
    argItem id (.text .lin) none (.func (fun l => .ok (l.sum * 10))) [midError, midError] = .ok 10 := by decide +kernel

example : Between midError ∧ argScore id (.func (fun x _ a b _ _ => .ok ((x - a) / (b - a)))) none midError = .ok (1/2) := by
  unfold Between
  decide +kernel

/-! ## C328 -/

/-- the index type is not one of the known texts, nor a function -/
theorem unknown_score (lg : ℚ → ℚ) (threshold : Option ℚ) (e : LabelError) :
    (Between e → argScore lg (.text .unknown) threshold e = .error .valueError) ∧
    (¬ Between e → ∃ v, argScore lg (.text .unknown) threshold e = .ok v) := by
  unfold argScore argIndex Between
  constructor
  · rintro ⟨h1, h2⟩
    rw [if_neg (not_le.2 h1), if_neg (not_le.2 h2)]
    simp only [rawIndex]
    rw [if_neg (not_le.2 h1), if_neg (not_le.2 h2)]
  · intro h
    by_cases h1 : e.x ≤ e.range.xs
    · rw [if_pos h1]; exact ⟨_, rfl⟩
    · rw [if_neg h1]
      by_cases h2 : e.x ≥ e.range.xe
      · rw [if_pos h2]; exact ⟨_, rfl⟩
      · exact absurd ⟨not_le.1 h1, not_le.1 h2⟩ h

theorem ia_mapE_total {α β : Type} {f : α → Except PyErr β} (l : List α) (h : ∀ a ∈ l, ∃ b, f a = .ok b) : ∃ r, mapE f l = .ok r ∧ r.length = l.length := by
  induction l with
  | nil => exact ⟨[], rfl, rfl⟩
  | cons a l ih =>
    obtain ⟨b, hb⟩ := h a (by simp)
    obtain ⟨r, hr, hl⟩ := ih (fun x hx => h x (by simp [hx]))
    exact ⟨b :: r, by unfold mapE; rw [hb, hr], by simp [hl]⟩

theorem mapE_fails {α β : Type} {f : α → Except PyErr β} {e : PyErr} (l : List α) (h : ∀ a ∈ l, (∃ b, f a = .ok b) ∨ f a = .error e) (hx : ∃ a ∈ l, f a = .error e) :
    mapE f l = .error e := by
  induction l with
  | nil => obtain ⟨a, ha, _⟩ := hx; simp at ha
  | cons a l ih =>
    unfold mapE
    rcases h a (by simp) with ⟨b, hb⟩ | hb
    · rw [hb, ih (fun x hx => h x (by simp [hx]))]
      obtain ⟨a', ha', he⟩ := hx
      rcases List.mem_cons.1 ha' with rfl | ha'
      · rw [hb] at he; cases he
      · exact ⟨a', ha', he⟩
    · rw [hb]

/-- the known strategies give an index for any item with labels -/
theorem combine_total (s : Strategy) (l : List ℚ) (hl : l ≠ []) : ∃ v, combineIndexes s l = .ok v := by
  cases l with
  | nil => exact absurd rfl hl
  | cons x r =>
    unfold combineIndexes
    split
    · exact ⟨_, rfl⟩
    · cases s with
      | min => exact ⟨_, rfl⟩
      | max => exact ⟨_, rfl⟩
      | avg =>
        have : (((x :: r).length : ℕ) : ℚ) ≠ 0 := by rw [List.length_cons]; positivity
        exact ⟨_, by simp only [pyDiv]; rw [if_neg this]⟩

/-- **C328** (index type) an unknown index type is refused, with `ValueError`, exactly when some error of the items examined is strictly between its bounds.
Missing: the other series, see `C328_false`. -/
theorem C328_index_type_partial (lg : ℚ → ℚ) (threshold : Option ℚ) (s : Strategy) (items : List (List LabelError)) (hl : ∀ es ∈ items, es ≠ []) :
    (argApply lg (.text .unknown) threshold (.named s) items = .error .valueError ↔ ∃ es ∈ items, ∃ e ∈ es, Between e) ∧
    ((∀ es ∈ items, ∀ e ∈ es, ¬ Between e) → ∃ r, argApply lg (.text .unknown) threshold (.named s) items = .ok r ∧ r.length = items.length) := by
  have good : ∀ es : List LabelError, es ≠ [] → (∀ e ∈ es, ¬ Between e) → ∃ v, argItem lg (.text .unknown) threshold (.named s) es = .ok v := by
    intro es hne h
    obtain ⟨vs, hvs, hlen⟩ := ia_mapE_total es (fun e he => (unknown_score lg threshold e).2 (h e he))
    have hne' : vs ≠ [] := by
      intro e
      rw [e] at hlen
      exact hne (List.length_eq_zero_iff.1 hlen.symm)
    unfold argItem argCombine
    rw [hvs]
    dsimp only
    split_ifs
    · exact combine_total _ _ hne'
    · exact combine_total _ _ hne'
  have bad : ∀ es : List LabelError, (∃ e ∈ es, Between e) → argItem lg (.text .unknown) threshold (.named s) es = .error .valueError := by
    rintro es ⟨e, he, hb⟩
    unfold argItem
    rw [mapE_fails (e := .valueError) es ?_ ⟨e, he, (unknown_score lg threshold e).1 hb⟩]
    intro e' _
    by_cases h : Between e'
    · exact Or.inr ((unknown_score lg threshold e').1 h)
    · exact Or.inl ((unknown_score lg threshold e').2 h)
  have total : (∀ es ∈ items, ∀ e ∈ es, ¬ Between e) → ∃ r, argApply lg (.text .unknown) threshold (.named s) items = .ok r ∧ r.length = items.length :=
    fun h => ia_mapE_total items (fun es hes => good es (hl es hes) (h es hes))
  refine ⟨⟨?_, ?_⟩, total⟩
  · intro h
    by_contra hn
    obtain ⟨r, hr, _⟩ := total (fun es hes e he hb => hn ⟨es, hes, e, he, hb⟩)
    rw [hr] at h; cases h
  · rintro ⟨es, hes, e, he, hb⟩
    refine mapE_fails items ?_ ⟨es, hes, bad es ⟨e, he, hb⟩⟩
    intro es' hes'
    by_cases h : ∃ e ∈ es', Between e
    · exact Or.inr (bad es' h)
    · exact Or.inl (good es' (hl es' hes') (fun e he hb => h ⟨e, he, hb⟩))

/-- **C328** (strategy) with more than one label an unknown strategy is refused, with `TypeError`, as soon as an item is scored -/
theorem C328_strategy_partial (lg : ℚ → ℚ) (a : IndexArg) (threshold : Option ℚ) (es : List LabelError) (vs : List ℚ)
    (h : mapE (argScore lg a threshold) es = .ok vs) (hl : es.length ≠ 1) : argItem lg a threshold .otherText es = .error .typeError := by
  unfold argItem argCombine
  rw [h]
  dsimp only
  rw [if_neg]
  rw [← (mapE_ok_inv h).length_eq]
  exact hl

/-- an error above its bounds -/
def highError : LabelError where
  range := { xs := 0, xe := 2, ys := 1, ye := 1/2 }
  x := 5
  y := 1/100

/-- **C328** is false: with no error between the bounds any index type is accepted, and with one label any strategy is -/
theorem C328_false : argApply id (.text .unknown) none (.named .max) [[highError], [highError]] = .ok [1, 1] ∧
    argApply id (.text .lin) none .otherText [[midError], [highError]] = .ok [1/2, 1] := by decide +kernel

example : argApply id (.text .unknown) none (.named .max) [[highError], [midError]] = .error .valueError := by decide +kernel

/-- the known texts give the indexes of `Anomaly` -/
theorem C328_known (lg : ℚ → ℚ) (k : IndexKind) (s : Strategy) (e : LabelError) (l : List ℚ) : argIndex lg (.text k) e = rawIndex lg k e.range e.x e.y ∧
    argCombine (.named s) l = combineIndexes s l := by
  constructor
  · unfold argIndex rawIndex
    split_ifs <;> rfl
  · unfold argCombine
    split_ifs with h
    · cases l with
      | nil => cases h
      | cons x r => cases r with
        | nil => rfl
        | cons y r => simp at h
    · rfl

end Timeseria
