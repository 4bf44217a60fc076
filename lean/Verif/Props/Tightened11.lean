import Verif.Props.PlainOps

/-! # Which exceptions: base series and operations on series which are not in time -/

namespace Timeseria

variable {α : Type}

/-- **C294 (what is refused)**: on a series which is not empty, appending an item of another class raises `TypeError`; one of the class in a succession that does not succeed the last one, or compared
with `>` and not greater, raises `ValueError`; nothing changes. -/
theorem C294_refused (C : ItemClass α) (s : BSeries α) (x first last : α) (hf : s.items.head? = some first) (hl : s.items.getLast? = some last) :
    (C.isInst x first = false → s.append C x = (s, .error .typeError)) ∧
    (C.isInst x first = true → (∀ f, C.succ x = some f → f last = false) → (C.succ x = none → C.gt x last = .ok false) → s.append C x = (s, .error .valueError)) := by
  unfold BSeries.append
  rw [hf, hl]
  dsimp only
  constructor
  · intro h; rw [h]; rfl
  · intro h h1 h2
    rw [h]
    have : follows C x last = .error .valueError := by
      unfold follows
      cases hs : C.succ x with
      | some f => dsimp only; rw [h1 f hs]; rfl
      | none => dsimp only; rw [h2 hs]
    rw [this]
    rfl

/-- **C294 (what is refused by the other calls)**: inserting an item of another class raises `TypeError`, removing one that is not there `ValueError`, popping from an empty series or outside of
it `IndexError`; nothing changes. -/
theorem C294_refused_more (C : ItemClass α) (s : BSeries α) :
    (∀ (x first : α) (i : Int), s.items.head? = some first → C.isInst x first = false → s.insert C i x = (s, .error .typeError)) ∧
    (∀ x : α, (∀ y ∈ s.items, C.eq y x = false ∧ C.succ y = none) → s.remove C x = (s, .error .valueError)) ∧
    (s.items = [] → ∀ i, s.pop C i = (s, .error .indexError)) ∧
    (∀ i : Int, (s.items.length : Int) ≤ i ∨ i < -(s.items.length : Int) → (s.pop C (some i)) = (s, .error .indexError)) := by
  refine ⟨?_, ?_, ?_, ?_⟩
  · intro x first i hf h
    obtain ⟨last, hl⟩ : ∃ last, s.items.getLast? = some last := by
      cases hs : s.items with
      | nil => rw [hs] at hf; cases hf
      | cons a l => exact ⟨_, List.getLast?_eq_getLast_of_ne_nil (by simp)⟩
    unfold BSeries.insert
    rw [hf, hl]
    dsimp only
    rw [h]
    rfl
  · intro x h
    unfold BSeries.remove
    have h1 : s.items.head?.any (fun y => (C.succ y).isSome) = false := by
      cases hs : s.items with
      | nil => rfl
      | cons a l =>
        have := (h a (by rw [hs]; simp)).2
        simp [this]
    have h2 : ∀ l : List α, (∀ y ∈ l, C.eq y x = false) → removeB C x l = none := by
      intro l
      induction l with
      | nil => intro _; rfl
      | cons a l ih =>
        intro h
        unfold removeB
        rw [h a (by simp), ih (fun y hy => h y (by simp [hy]))]
        rfl
    rw [h1, h2 _ (fun y hy => (h y hy).1)]
    rfl
  · intro h i
    unfold BSeries.pop
    rw [h]
  · intro i hi
    unfold BSeries.pop
    cases hs : s.items with
    | nil => rfl
    | cons a l =>
      dsimp only
      rw [← hs]
      have : pyPos s.items.length i = none := by
        unfold pyPos
        rw [if_neg (by omega), if_neg (by omega)]
      rw [this]
      dsimp only
      split <;> rfl

/-- **C294 (data)**: on a series of items with lists as data, appending one that follows with a list of another length raises `ValueError`; with dictionaries, one with other labels; one with
data of another kind raises `TypeError`; nothing changes. -/
theorem C294_data (C : ItemClass α) (s : BSeries α) (x first last : α) (hf : s.items.head? = some first) (hl : s.items.getLast? = some last) (hi : C.isInst x first = true)
    (ha : C.After last x) (r d : Data) (hr : s.ref = some r) (ht : r.truthy = true) (hd : C.data x = some d) :
    (∀ a b, r = .list a → d = .list b → (a.length ≠ b.length → s.append C x = (s, .error .valueError)) ∧ (a.length = b.length → s.append C x = ({ s with items := s.items ++ [x] }, .ok ()))) ∧
    (∀ a b, r = .dict a → d = .dict b → ((∃ k, ¬(k ∈ a.keys ↔ k ∈ b.keys)) → s.append C x = (s, .error .valueError)) ∧
      ((∀ k, k ∈ a.keys ↔ k ∈ b.keys) → s.append C x = ({ s with items := s.items ++ [x] }, .ok ()))) ∧
    (∀ a b, r = .list a → d = .dict b → s.append C x = (s, .error .typeError)) ∧
    (∀ a b, r = .dict a → d = .list b → s.append C x = (s, .error .typeError)) := by
  have key : s.append C x = match checkDataB r (some d) with
      | .error e => (s, .error e)
      | .ok _ => ({ s with items := s.items ++ [x] }, .ok ()) := by
    unfold BSeries.append
    rw [hf, hl]
    dsimp only
    rw [hi, follows_of ha, hr]
    dsimp only
    rw [if_pos ht, hd]
    rfl
  refine ⟨?_, ?_, ?_, ?_⟩
  · rintro a b rfl rfl
    refine ⟨fun h => ?_, fun h => ?_⟩
    · rw [key]; unfold checkDataB; dsimp only; rw [if_pos h]
    · rw [key]; unfold checkDataB; dsimp only; rw [if_neg (by simpa using h)]
  · rintro a b rfl rfl
    refine ⟨fun h => ?_, fun h => ?_⟩
    · rw [key]
      unfold checkDataB
      dsimp only
      rw [if_neg]
      intro hc
      obtain ⟨k, hk⟩ := h
      exact hk ((sameKeys_iff _ _).1 hc k)
    · rw [key]
      unfold checkDataB
      dsimp only
      rw [if_pos ((sameKeys_iff _ _).2 h)]
  · rintro a b rfl rfl
    rw [key]; rfl
  · rintro a b rfl rfl
    rw [key]; rfl

/-- **C296 (zero step)**: a slice with step zero raises `ValueError`. -/
theorem C296_zero_step (C : ItemClass α) (s : BSeries α) (a b : Option Int) : s.getSlice C a b (some 0) = .error .valueError := by
  unfold BSeries.getSlice
  rw [if_pos rfl]

/-- **C297 (what is refused)**: on an empty series the operations raise `ValueError`; rescaling and offsetting a series without data `TypeError`; the derivative of a single item `ValueError`. -/
theorem C297_refused (s : BSeries PlainItem) :
    (s.items = [] → (∀ g, s.plainMap g = .error .valueError) ∧ ∀ op, s.timedOp op = .error .valueError) ∧
    (s.items ≠ [] → (s.ref = none ∨ ∃ r, s.ref = some r ∧ r.truthy = false) → ∀ g, s.plainMap g = .error .typeError) ∧
    (s.items.length = 1 → s.timedOp .derivative = .error .valueError) := by
  refine ⟨?_, ?_, ?_⟩
  · intro h
    refine ⟨fun g => ?_, fun op => ?_⟩
    · unfold BSeries.plainMap; rw [h]
    · unfold BSeries.timedOp; rw [h]
  · intro h hr g
    unfold BSeries.plainMap
    cases hs : s.items with
    | nil => exact absurd hs h
    | cons a l =>
      dsimp only
      rcases hr with hr | ⟨r, hr, ht⟩
      · rw [hr]
      · rw [hr]; dsimp only; rw [if_pos (by simp [ht])]
  · intro h
    unfold BSeries.timedOp
    cases hs : s.items with
    | nil => simp [hs] at h
    | cons a l =>
      cases l with
      | nil => rfl
      | cons => rw [hs] at h; simp at h

/-- **C297 (labels)**: an item without one of the labels of the first raises `KeyError`. -/
theorem C297_missing_label (g : String → ℚ → ℚ) (ks : List String) (acc : BSeries PlainItem) (x : PlainItem) (l : List PlainItem) (k : String) (hk : x.data.get? k = none) :
    plainLoop g (k :: ks) acc (x :: l) = .error .keyError := by
  unfold plainLoop mapE plainValue
  rw [hk]

end Timeseria
