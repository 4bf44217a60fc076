import Verif.Model.Series
import Verif.Spec
import Verif.Lemmas.TimeUnitString

/-! Helper lemmas about the series state machine. -/

namespace Timeseria
open TSeries

theorem prePoint_items (s : TSeries) (x : Item) : (s.prePoint x).1.items = s.items := by
  unfold TSeries.prePoint; simp only; repeat' split
  all_goals rfl

theorem prePoint_ref (s : TSeries) (x : Item) : (s.prePoint x).1.ref = s.ref := by
  unfold TSeries.prePoint; simp only; repeat' split
  all_goals rfl

theorem prePoint_tz (s : TSeries) (x : Item) : (s.prePoint x).1.tz = s.tz := by
  unfold TSeries.prePoint; simp only; repeat' split
  all_goals rfl

theorem preSlot_items (s : TSeries) (x : Item) : (s.preSlot x).1.items = s.items := by
  unfold TSeries.preSlot; simp only; repeat' split
  all_goals rfl

theorem preSlot_ref (s : TSeries) (x : Item) : (s.preSlot x).1.ref = s.ref := by
  unfold TSeries.preSlot; simp only; repeat' split
  all_goals rfl

/-- What `Series.append` does to the items: nothing if it raises, add the item otherwise. -/
theorem baseAppend_spec (s : TSeries) (x : Item) :
    (∃ e, (s.baseAppend x).2 = .error e ∧ (s.baseAppend x).1 = s) ∨
    ((s.baseAppend x).2 = .ok () ∧
      (s.baseAppend x).1 = { s with items := s.items ++ [x], ref := (s.baseAppend x).1.ref } ∧
      (∀ f ∈ s.items.head?, x.isInstance f.cls = true) ∧
      (∀ y ∈ s.items.getLast?, (x.isSlot = true → slotSucceeds x y = true) ∧
        (x.isSlot = false → y.t < x.t)) ∧
      ((s.items = [] ∧ (s.baseAppend x).1.ref = x.data) ∨
       (s.items ≠ [] ∧ (∀ r, s.ref = some r → r.truthy = true →
          checkData r x = .ok () ∧ (s.baseAppend x).1.ref = s.ref) ∧
        ((∀ r, s.ref = some r → r.truthy = false) → (s.baseAppend x).1.ref = x.data)))) := by
  unfold TSeries.baseAppend
  cases hl : s.items with
  | nil => right; simp
  | cons a r =>
    have hlast : ∃ y, (a :: r).getLast? = some y := by
      cases h : (a :: r).getLast? with
      | none => simp at h
      | some y => exact ⟨y, rfl⟩
    obtain ⟨y, hy⟩ := hlast
    simp only [List.head?_cons, hy]
    by_cases h1 : (!x.isInstance a.cls) = true
    · left; simp [h1]
    · have h1' : x.isInstance a.cls = true := by simpa using h1
      simp only [h1', Bool.not_true, Bool.false_eq_true, if_false]
      by_cases h2 : (if x.isSlot = true then !slotSucceeds x y else !decide (x.t > y.t)) = true
      · left; simp only [h2, if_true]; exact ⟨_, rfl, trivial⟩
      · simp only [h2, Bool.false_eq_true, if_false]
        have hord : (x.isSlot = true → slotSucceeds x y = true) ∧ (x.isSlot = false → y.t < x.t) := by
          constructor
          · intro hs; simpa [hs] using h2
          · intro hs; simpa [hs] using h2
        cases hr : s.ref with
        | none =>
          right
          simp only
          refine ⟨trivial, trivial, by simpa using h1', by simpa using hord, ?_⟩
          right; simp
        | some q =>
          simp only
          by_cases ht : q.truthy = true
          · simp only [ht, if_true]
            cases hc : checkData q x with
            | error e => left; exact ⟨e, rfl, rfl⟩
            | ok u =>
              right
              refine ⟨rfl, ?_, by simpa using h1', by simpa using hord, ?_⟩
              · simp
              · right
                refine ⟨by simp, ?_, ?_⟩
                · intro r' hr' _
                  injection hr' with hr'; subst hr'
                  cases u; exact ⟨hc, rfl⟩
                · intro h; simp [ht] at h
          · simp only [ht]
            right
            refine ⟨rfl, rfl, by simpa using h1', by simpa using hord, ?_⟩
            right
            refine ⟨by simp, ?_, ?_⟩
            · intro r' hr' h; injection hr' with hr'; subst hr'; exact absurd h ht
            · intro _; rfl

/-- the state after the first half of `append` -/
def TSeries.pre (s : TSeries) (x : Item) : TSeries × Outcome :=
  if x.isSlot then s.preSlot x else s.prePoint x

theorem pre_items (s : TSeries) (x : Item) : (s.pre x).1.items = s.items := by
  unfold TSeries.pre; split
  · exact preSlot_items s x
  · exact prePoint_items s x

theorem pre_ref (s : TSeries) (x : Item) : (s.pre x).1.ref = s.ref := by
  unfold TSeries.pre; split
  · exact preSlot_ref s x
  · exact prePoint_ref s x

theorem append_eq (s : TSeries) (x : Item) :
    s.append x = match (s.pre x).2 with
      | .error e => ((s.pre x).1, .error e)
      | .ok _ => (s.pre x).1.baseAppend x := rfl

theorem append_ok_iff (s : TSeries) (x : Item) :
    (s.append x).2 = .ok () ↔ (s.pre x).2 = .ok () ∧ ((s.pre x).1.baseAppend x).2 = .ok () := by
  rw [append_eq]
  cases h : (s.pre x).2 with
  | error e => simp
  | ok u => simp

theorem append_state_ok (s : TSeries) (x : Item) (h : (s.append x).2 = .ok ()) :
    (s.append x).1 = ((s.pre x).1.baseAppend x).1 := by
  rw [append_ok_iff] at h
  rw [append_eq, h.1]

theorem append_state_error (s : TSeries) (x : Item) {e : PyErr} (h : (s.append x).2 = .error e) :
    (s.append x).1 = (s.pre x).1 := by
  rw [append_eq] at h ⊢
  cases hp : (s.pre x).2 with
  | error e => simp
  | ok u =>
    simp only [hp] at h ⊢
    rcases baseAppend_spec (s.pre x).1 x with ⟨e', h1, h2⟩ | ⟨h1, _⟩
    · exact h2
    · rw [h1] at h; cases h

theorem outcome_cases (o : Outcome) : o = .ok () ∨ ∃ e, o = .error e := by
  cases o with
  | ok u => left; rfl
  | error e => right; exact ⟨e, rfl⟩

/-- items after `append` -/
theorem append_items (s : TSeries) (x : Item) :
    (∃ e, (s.append x).2 = .error e ∧ (s.append x).1.items = s.items ∧ (s.append x).1.ref = s.ref) ∨
    ((s.append x).2 = .ok () ∧ (s.append x).1.items = s.items ++ [x] ∧
      (∀ f ∈ s.items.head?, x.isInstance f.cls = true) ∧
      (∀ y ∈ s.items.getLast?, (x.isSlot = true → slotSucceeds x y = true) ∧
        (x.isSlot = false → y.t < x.t)) ∧
      ((s.items = [] ∧ (s.append x).1.ref = x.data) ∨
       (s.items ≠ [] ∧ (∀ r, s.ref = some r → r.truthy = true →
          checkData r x = .ok () ∧ (s.append x).1.ref = s.ref) ∧
        ((∀ r, s.ref = some r → r.truthy = false) → (s.append x).1.ref = x.data)))) := by
  rcases outcome_cases (s.append x).2 with h | ⟨e, h⟩
  · right
    have hs := append_state_ok s x h
    have h2 := (append_ok_iff s x).1 h
    rcases baseAppend_spec (s.pre x).1 x with ⟨e', h1, _⟩ | ⟨_, hst, hf, hl, hr⟩
    · rw [h2.2] at h1; cases h1
    · rw [pre_items] at hf hl hr
      rw [pre_ref] at hr
      refine ⟨h, ?_, hf, hl, ?_⟩
      · rw [hs, hst]; simp [pre_items]
      · rw [hs]; exact hr
  · left
    have hs := append_state_error s x h
    exact ⟨e, h, by rw [hs, pre_items], by rw [hs, pre_ref]⟩

theorem cls_isInstance_slot {x f : Item} (h : x.isInstance f.cls = true) : x.isSlot = f.isSlot := by
  unfold Item.isInstance Item.cls at h
  cases hf : f.isSlot <;> cases hd : f.data.isSome <;> cases hx : x.isSlot <;> simp_all

/-- a property of lists preserved by accepted appends is preserved by `appendAll` -/
theorem appendAll_inv {P : List Item → Prop} (hstep : ∀ (s : TSeries) (x : Item), P s.items →
      P (s.append x).1.items) (s : TSeries) (l : List Item) (h : P s.items) :
    P (s.appendAll l).1.items := by
  induction l generalizing s with
  | nil => exact h
  | cons x r ih =>
    unfold TSeries.appendAll
    split
    · exact hstep s x h
    · exact ih _ (hstep s x h)

theorem appendAll_append (s : TSeries) (l₁ l₂ : List Item) (h : (s.appendAll l₁).2 = .ok ()) :
    s.appendAll (l₁ ++ l₂) = (s.appendAll l₁).1.appendAll l₂ := by
  induction l₁ generalizing s with
  | nil => rfl
  | cons x r ih =>
    simp only [List.cons_append, TSeries.appendAll] at h ⊢
    cases hx : (s.append x).2 with
    | error e => simp [hx] at h
    | ok u => simp only [hx] at h ⊢; exact ih _ h

theorem appendAll_ok_items (s : TSeries) (l : List Item) (h : (s.appendAll l).2 = .ok ()) :
    (s.appendAll l).1.items = s.items ++ l := by
  induction l generalizing s with
  | nil => simp [TSeries.appendAll]
  | cons x r ih =>
    simp only [TSeries.appendAll] at h ⊢
    cases hx : (s.append x).2 with
    | error e => simp [hx] at h
    | ok u =>
      simp only [hx] at h ⊢
      rw [ih _ h]
      rcases append_items s x with ⟨e, he, _⟩ | ⟨_, hi, _⟩
      · rw [hx] at he; cases he
      · rw [hi]; simp

theorem build_ok_iff (l : List Item) (s : TSeries) :
    TSeries.build l = .ok s ↔ TSeries.empty.appendAll l = (s, .ok ()) := by
  unfold TSeries.build
  cases h : TSeries.empty.appendAll l with
  | mk a b =>
    cases b with
    | error e => simp
    | ok u => simp

theorem build_items {l : List Item} {s : TSeries} (h : TSeries.build l = .ok s) : s.items = l := by
  rw [build_ok_iff] at h
  have := appendAll_ok_items TSeries.empty l (by rw [h])
  rw [h] at this
  simpa [TSeries.empty] using this

/-- unfolding of the build of a list with one more item -/
theorem build_snoc {l : List Item} {x : Item} {s : TSeries}
    (h : TSeries.build (l ++ [x]) = .ok s) :
    ∃ s₀, TSeries.build l = .ok s₀ ∧ s₀.append x = (s, .ok ()) := by
  rw [build_ok_iff] at h
  have key : ∀ (s₁ : TSeries) (l : List Item), s₁.appendAll (l ++ [x]) = (s, .ok ()) →
      ∃ s₀, s₁.appendAll l = (s₀, .ok ()) ∧ s₀.append x = (s, .ok ()) := by
    intro s₁ l
    induction l generalizing s₁ with
    | nil =>
      intro h
      refine ⟨s₁, rfl, ?_⟩
      simp only [List.nil_append, TSeries.appendAll] at h
      cases hx : (s₁.append x).2 with
      | error e => simp [hx] at h
      | ok u =>
        simp only [hx] at h
        simp only [Prod.mk.injEq] at h
        exact Prod.ext h.1 hx
    | cons y r ih =>
      intro h
      simp only [List.cons_append, TSeries.appendAll] at h ⊢
      cases hx : (s₁.append y).2 with
      | error e => simp [hx] at h
      | ok u => simp only [hx] at h ⊢; exact ih _ h
  obtain ⟨s₀, h0, h1⟩ := key _ _ h
  exact ⟨s₀, (build_ok_iff _ _).2 h0, h1⟩

theorem build_snoc_of {l : List Item} {x : Item} {s₀ s : TSeries}
    (h0 : TSeries.build l = .ok s₀) (h1 : s₀.append x = (s, .ok ())) :
    TSeries.build (l ++ [x]) = .ok s := by
  rw [build_ok_iff] at h0 ⊢
  rw [appendAll_append _ _ _ (by rw [h0]), h0]
  simp [TSeries.appendAll, h1]

end Timeseria
