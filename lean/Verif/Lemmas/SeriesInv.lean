import Verif.Lemmas.Series

/-! Invariants of the series state machine. -/

namespace Timeseria
open TSeries

/-! ### kind -/

def KindInv (l : List Item) : Prop := ∀ x ∈ l, ∀ y ∈ l, x.isSlot = y.isSlot

theorem KindInv.sublist {l l' : List Item} (h : KindInv l) (hs : ∀ x ∈ l', x ∈ l) : KindInv l' :=
  fun x hx y hy => h x (hs x hx) y (hs y hy)

theorem kindInv_add {l l' : List Item} {x f : Item} (h : KindInv l) (hf : f ∈ l)
    (hx : x.isInstance f.cls = true) (hl : ∀ y ∈ l', y = x ∨ y ∈ l) : KindInv l' := by
  have hk := cls_isInstance_slot hx
  intro a ha b hb
  rcases hl a ha with rfl | ha <;> rcases hl b hb with rfl | hb
  · rfl
  · rw [hk]; exact h f hf b hb
  · rw [hk]; exact h a ha f hf
  · exact h a ha b hb

theorem kind_append (s : TSeries) (x : Item) (h : KindInv s.items) :
    KindInv (s.append x).1.items := by
  rcases append_items s x with ⟨e, _, hi, _⟩ | ⟨_, hi, hf, _⟩
  · rw [hi]; exact h
  · rw [hi]
    cases hl : s.items with
    | nil => intro a ha b hb; simp at ha hb; rw [ha, hb]
    | cons f r =>
      rw [hl] at hf h
      exact kindInv_add h (List.mem_cons_self) (hf f (by simp)) (by
        intro y hy; simp at hy ⊢; tauto)

theorem removeFirst_sublist (x : Item) (l l' : List Item) (h : removeFirst x l = .ok l') :
    l'.Sublist l := by
  induction l generalizing l' with
  | nil => simp [removeFirst] at h
  | cons y r ih =>
    simp only [removeFirst] at h
    split at h
    · cases h
    · injection h with h; subst h; exact List.sublist_cons_self y r
    · split at h
      · rename_i r' hr'
        injection h with h; subst h
        exact (ih _ hr').cons_cons y
      · cases h

theorem remove_sublist (s : TSeries) (x : Item) : (s.remove x).1.items.Sublist s.items := by
  unfold TSeries.remove
  split
  · exact List.Sublist.refl _
  · split
    · exact List.Sublist.refl _
    · split
      · rename_i h; exact removeFirst_sublist x _ _ h
      · exact List.Sublist.refl _

theorem pop_sublist (s : TSeries) (i : Option Int) : (s.pop i).1.items.Sublist s.items := by
  unfold TSeries.pop
  simp only
  repeat' split
  all_goals first | exact List.Sublist.refl _ | exact List.eraseIdx_sublist ..

theorem mem_insertAt {l : List Item} {k : ℕ} {x y : Item} (h : y ∈ insertAt l k x) :
    y = x ∨ y ∈ l := by
  simp only [insertAt, List.mem_append, List.mem_cons] at h
  rcases h with h | h | h
  · right; exact List.mem_of_mem_take h
  · left; exact h
  · right; exact List.mem_of_mem_drop h

/-- what `insert` does to a non-empty series -/
theorem insert_spec (s : TSeries) (i : Int) (x f : Item) (hf : f ∈ s.items.head?) :
    (∃ e, (s.insert i x).2 = .error e ∧ (s.insert i x).1 = s) ∨
    ((s.insert i x).2 = .ok () ∧
      (s.insert i x).1 = { s with items := insertAt s.items (pyInsertPos s.items.length i) x } ∧
      x.isInstance f.cls = true ∧
      ((i = 0 ∧ (if f.isSlot then slotSucceeds f x else decide (f.t > x.t)) = true) ∨
       (i ≠ 0 ∧ i = s.items.length ∧ ∀ y ∈ s.items.getLast?,
          (if x.isSlot then slotSucceeds x y else decide (x.t > y.t)) = true) ∨
       (i ≠ 0 ∧ i ≠ s.items.length ∧ f.isSlot = false))) := by
  cases hl : s.items with
  | nil => rw [hl] at hf; simp at hf
  | cons a r =>
    rw [hl] at hf; simp at hf; subst hf
    obtain ⟨y, hy⟩ : ∃ y, (a :: r).getLast? = some y := by
      cases h : (a :: r).getLast? with
      | none => simp at h
      | some y => exact ⟨y, rfl⟩
    unfold TSeries.insert
    simp only [hl, List.head?_cons, hy]
    by_cases h1 : x.isInstance a.cls = true
    · simp only [h1, Bool.not_true, Bool.false_eq_true, if_false]
      by_cases hi : i = 0
      · simp only [hi, if_true]
        by_cases hc : (if a.isSlot = true then slotSucceeds a x else decide (a.t > x.t)) = true
        · right; simp only [hc, if_true]; simp
        · left; simp only [hc, Bool.false_eq_true, if_false]; exact ⟨_, rfl, trivial⟩
      · simp only [hi, if_false]
        by_cases hn : i = ((a :: r).length : Int)
        · simp only [hn, if_true]
          by_cases hc : (if x.isSlot = true then slotSucceeds x y else decide (x.t > y.t)) = true
          · right; simp only [hc, if_true]
            refine ⟨trivial, trivial, trivial, ?_⟩
            right; left
            refine ⟨by rw [← hn]; exact hi, trivial, ?_⟩
            intro z hz; simp at hz; subst hz; exact hc
          · left; simp only [hc, Bool.false_eq_true, if_false]; exact ⟨_, rfl, trivial⟩
        · simp only [hn, if_false]
          by_cases hs : a.isSlot = true
          · left; simp only [hs, if_true]; exact ⟨_, rfl, trivial⟩
          · have hs' : a.isSlot = false := by simpa using hs
            simp only [hs', Bool.false_eq_true, if_false]
            repeat' split
            all_goals first
              | (left; exact ⟨_, rfl, rfl⟩)
              | (right; exact ⟨rfl, rfl, trivial, Or.inr (Or.inr ⟨hi, hn, trivial⟩)⟩)
    · left
      have h1' : x.isInstance a.cls = false := by simpa using h1
      simp [h1']

theorem insert_empty (s : TSeries) (i : Int) (x : Item) (h : s.items = []) :
    s.insert i x = s.append x := by
  unfold TSeries.insert; simp [h]

/-- An invariant of the items kept by accepted appends and inserts and by sublists of the allowed
forms is kept by every call. -/
theorem kind_step (s : TSeries) (op : Op) (h : KindInv s.items) : KindInv (s.step op).items := by
  cases op with
  | append x => exact kind_append s x h
  | insert i x =>
    simp only [TSeries.step]
    cases hl : s.items.head? with
    | none =>
      have : s.items = [] := by simpa using hl
      rw [insert_empty s i x this]; exact kind_append s x h
    | some f =>
      have hmem : f ∈ s.items := by
        cases hi : s.items with
        | nil => simp [hi] at hl
        | cons a r => simp [hi] at hl; subst hl; simp
      rcases insert_spec s i x f hl with ⟨e, _, hs⟩ | ⟨_, hs, hx, _⟩
      · rw [hs]; exact h
      · rw [hs]; exact kindInv_add h hmem hx (fun y hy => mem_insertAt hy)
  | remove x => exact h.sublist (fun y hy => (remove_sublist s x).subset hy)
  | pop i => exact h.sublist (fun y hy => (pop_sublist s i).subset hy)
  | clear => intro a ha; simp [TSeries.step, TSeries.clear] at ha
  | duplicate =>
    simp only [TSeries.step]
    split
    · rename_i s' hd
      unfold TSeries.duplicate at hd
      have := appendAll_inv kind_append ({ s with items := [] }) s.items
        (by intro a ha; simp at ha)
      split at hd
      · rename_i s'' _ heq; injection hd with hd; subst hd; rw [heq] at this; exact this
      · cases hd
    · exact h

/-! ### order of points -/

def OrderInv (l : List Item) : Prop := KindInv l ∧ (AllPoints l → StrictlyOrdered l)

theorem OrderInv.sublist {l l' : List Item} (h : OrderInv l) (hs : l'.Sublist l) : OrderInv l' := by
  refine ⟨h.1.sublist (fun x hx => hs.subset hx), fun hp => ?_⟩
  cases l' with
  | nil => exact List.Pairwise.nil
  | cons a r =>
    have ha : a ∈ l := hs.subset (by simp)
    have : AllPoints l := fun x hx => by rw [h.1 x hx a ha]; exact hp a (by simp)
    exact (h.2 this).sublist hs

theorem order_snoc {l : List Item} {x : Item} (h : StrictlyOrdered l)
    (hl : ∀ y ∈ l.getLast?, y.t < x.t) : StrictlyOrdered (l ++ [x]) := by
  unfold StrictlyOrdered at *
  rw [List.pairwise_append]
  refine ⟨h, by simp, ?_⟩
  intro a ha b hb
  simp at hb; subst hb
  revert a
  induction l with
  | nil => intro a ha; simp at ha
  | cons c r ih =>
    intro a ha
    cases hr : r with
    | nil =>
      subst hr; simp at ha; subst ha; exact hl a (by simp)
    | cons d r' =>
      have hlast : ∀ y ∈ r.getLast?, y.t < b.t := by
        intro y hy; apply hl; rw [hr] at hy ⊢; simpa using hy
      rw [List.pairwise_cons] at h
      have ih := ih h.2 hlast
      rcases List.mem_cons.1 ha with rfl | ha
      · have h1 : a.t < d.t := h.1 d (by rw [hr]; simp)
        have h2 : d.t < b.t := ih d (by rw [hr]; simp)
        linarith
      · exact ih a ha

theorem order_append (s : TSeries) (x : Item) (h : OrderInv s.items) :
    OrderInv (s.append x).1.items := by
  refine ⟨kind_append s x h.1, ?_⟩
  rcases append_items s x with ⟨e, _, hi, _⟩ | ⟨_, hi, hf, hl, _⟩
  · rw [hi]; exact h.2
  · rw [hi]
    intro hp
    apply order_snoc
    · exact h.2 (fun y hy => hp y (by simp [hy]))
    · intro y hy
      exact (hl y hy).2 (hp x (by simp))

theorem orderInv_nil : OrderInv [] := ⟨fun x hx => by simp at hx, fun _ => List.Pairwise.nil⟩

theorem duplicate_inv {P : List Item → Prop} (hnil : P [])
    (hstep : ∀ (s : TSeries) (x : Item), P s.items → P (s.append x).1.items)
    {s s' : TSeries} (hd : s.duplicate = .ok s') : P s'.items := by
  unfold TSeries.duplicate at hd
  have := appendAll_inv hstep ({ s with items := [] }) s.items hnil
  split at hd
  · rename_i s'' _ heq; injection hd with hd; subst hd; rw [heq] at this; exact this
  · cases hd

theorem order_step (s : TSeries) (op : Op) (hop : ∀ i x, op ≠ .insert i x) (h : OrderInv s.items) :
    OrderInv (s.step op).items := by
  cases op with
  | append x => exact order_append s x h
  | insert i x => exact absurd rfl (hop i x)
  | remove x => exact h.sublist (remove_sublist s x)
  | pop i => exact h.sublist (pop_sublist s i)
  | clear => exact orderInv_nil
  | duplicate =>
    simp only [TSeries.step]
    split
    · rename_i s' hd; exact duplicate_inv orderInv_nil order_append hd
    · exact h

/-! ### succession of slots -/

theorem isClose_iff (a b : ℚ) : isClose a b = true ↔ CloseTo a b := by
  unfold isClose CloseTo
  have : (0 : ℚ) ≤ 1 / 1000000000 * max |a| |b| := by positivity
  rw [max_eq_left this]; simp

theorem closeTo_self (a : ℚ) : CloseTo a a := by
  unfold CloseTo; simp

theorem slotSucceeds_iff (x y : Item) : slotSucceeds x y = true ↔ CloseTo y.endT x.t := by
  unfold slotSucceeds
  split
  · exact isClose_iff _ _
  · rename_i h
    have h : y.endT = x.t := by simpa using h
    simp [h, closeTo_self]

def SuccInv (l : List Item) : Prop := KindInv l ∧ (AllSlots l → InSuccession l)

theorem succ_nil : SuccInv [] := ⟨fun x hx => by simp at hx, fun _ => List.IsChain.nil⟩

theorem succ_append (s : TSeries) (x : Item) (h : SuccInv s.items) :
    SuccInv (s.append x).1.items := by
  refine ⟨kind_append s x h.1, ?_⟩
  rcases append_items s x with ⟨e, _, hi, _⟩ | ⟨_, hi, hf, hl, _⟩
  · rw [hi]; exact h.2
  · rw [hi]
    intro hp
    unfold InSuccession
    rw [List.isChain_append]
    refine ⟨h.2 (fun y hy => hp y (by simp [hy])), List.IsChain.singleton x, ?_⟩
    intro y hy z hz
    simp at hz; subst hz
    exact (slotSucceeds_iff _ _).1 ((hl y hy).1 (hp x (by simp)))

theorem allSlots_of_sub {l l' : List Item} (hk : KindInv l) (hs : ∀ x ∈ l', x ∈ l) (hne : l' ≠ [])
    (hp : AllSlots l') : AllSlots l := by
  cases l' with
  | nil => exact absurd rfl hne
  | cons a r => exact fun x hx => by rw [hk x hx a (hs a (by simp))]; exact hp a (by simp)

theorem isChain_dropLast {R : Item → Item → Prop} {l : List Item} (h : l.IsChain R) :
    l.dropLast.IsChain R := by
  cases hl : l.reverse with
  | nil => simp at hl; subst hl; exact List.IsChain.nil
  | cons a r =>
    have : l = r.reverse ++ [a] := by
      have := congrArg List.reverse hl; simpa using this
    rw [this] at h ⊢
    rw [List.dropLast_concat]
    exact (List.isChain_append.1 h).1

theorem succ_pop (s : TSeries) (i : Option Int) (h : SuccInv s.items) :
    SuccInv (s.pop i).1.items := by
  refine ⟨h.1.sublist (fun y hy => (pop_sublist s i).subset hy), fun hp => ?_⟩
  by_cases hne : (s.pop i).1.items = []
  · rw [hne]; exact List.IsChain.nil
  have hall : AllSlots s.items :=
    allSlots_of_sub h.1 (fun y hy => (pop_sublist s i).subset hy) hne hp
  have hchain := h.2 hall
  have hpopAt : ∀ (k : ℕ), (k = 0 ∨ k = s.items.length - 1) → InSuccession (s.items.eraseIdx k) := by
    rintro k (rfl | rfl)
    · rw [List.eraseIdx_zero]; exact hchain.tail
    · have : s.items.length ≠ 0 := by
        intro h0
        have h0' : s.items = [] := by simpa using h0
        have := (pop_sublist s i); rw [h0'] at this
        exact hne (List.sublist_nil.1 this)
      rw [List.eraseIdx_eq_dropLast (by omega)]
      exact isChain_dropLast hchain
  unfold TSeries.pop
  cases hl : s.items with
  | nil => simp [hl, InSuccession]
  | cons y r =>
    have hys : y.isSlot = true := hall y (by rw [hl]; simp)
    rw [hl] at hpopAt hchain
    cases i with
    | none =>
      have hpos : pyPos (y :: r).length (-1) = some ((y :: r).length - 1) := by
        unfold pyPos
        have h1 : ¬ ((0 : Int) ≤ -1 ∧ (-1 : Int) < ((y :: r).length : Int)) := by omega
        rw [if_neg h1]
        have h2 : ((-1 : Int) < 0 ∧ 0 ≤ ((y :: r).length : Int) + -1) := by
          simp
        rw [if_pos h2]; simp
      simp only [hpos]
      split
      · simp only [hl]; exact hchain
      · simp only; exact hpopAt _ (Or.inr rfl)
    | some i =>
      simp only
      by_cases hi : i ≠ 0 ∧ i ≠ ((y :: r).length : Int) ∧ y.isSlot = true
      · rw [if_pos hi]; simp only [hl]; exact hchain
      · rw [if_neg hi]
        have hi' : i = 0 ∨ i = ((y :: r).length : Int) := by
          by_contra hc
          push Not at hc
          exact hi ⟨hc.1, hc.2, hys⟩
        rcases hi' with rfl | rfl
        · have hpos : pyPos (y :: r).length 0 = some 0 := by
            unfold pyPos; simp
          simp only [hpos]
          split
          · simp only [hl]; exact hchain
          · simp only; exact hpopAt _ (Or.inl rfl)
        · have hpos : pyPos (y :: r).length ((y :: r).length : Int) = none := by
            unfold pyPos
            rw [if_neg (by omega), if_neg (by omega)]
          simp only [hpos, hl]; exact hchain

theorem head_mem {l : List Item} {f : Item} (h : l.head? = some f) : f ∈ l := by
  cases l with
  | nil => simp at h
  | cons a r => simp at h; subst h; simp

theorem succ_insert (s : TSeries) (i : Int) (x : Item) (h : SuccInv s.items) :
    SuccInv (s.insert i x).1.items := by
  refine ⟨kind_step s (.insert i x) h.1, ?_⟩
  cases hh : s.items.head? with
  | none =>
    have : s.items = [] := by simpa using hh
    rw [insert_empty s i x this]; exact (succ_append s x h).2
  | some f =>
    rcases insert_spec s i x f hh with ⟨e, _, hs⟩ | ⟨_, hs, hx, hcase⟩
    · rw [hs]; exact h.2
    · rw [hs]
      intro hp
      simp only at hp ⊢
      have hfs : f.isSlot = true := by
        have hfm := head_mem hh
        rw [← cls_isInstance_slot hx]; exact hp x (by simp [insertAt])
      have hxs : x.isSlot = true := hp x (by simp [insertAt])
      have hall : AllSlots s.items := fun y hy => by rw [h.1 y hy f (head_mem hh)]; exact hfs
      have hchain := h.2 hall
      rcases hcase with ⟨rfl, hc⟩ | ⟨_, rfl, hc⟩ | ⟨_, _, hc⟩
      · have : pyInsertPos s.items.length 0 = 0 := by simp [pyInsertPos]
        rw [this]; simp only [insertAt, List.take_zero, List.nil_append, List.drop_zero]
        simp only [hfs, if_true] at hc
        unfold InSuccession
        rw [List.isChain_cons]
        refine ⟨?_, hchain⟩
        intro y hy
        rw [hh] at hy; simp at hy; subst hy
        exact (slotSucceeds_iff _ _).1 hc
      · have : pyInsertPos s.items.length (s.items.length : Int) = s.items.length := by
          simp [pyInsertPos]
        rw [this]; simp only [insertAt, List.take_length, List.drop_length]
        unfold InSuccession
        rw [List.isChain_append]
        refine ⟨hchain, List.IsChain.singleton x, ?_⟩
        intro y hy z hz
        simp at hz; subst hz
        have := hc y hy
        simp only [hxs, if_true] at this
        exact (slotSucceeds_iff _ _).1 this
      · rw [hfs] at hc; cases hc

theorem succ_remove (s : TSeries) (x : Item) (h : SuccInv s.items) :
    SuccInv (s.remove x).1.items := by
  refine ⟨h.1.sublist (fun y hy => (remove_sublist s x).subset hy), fun hp => ?_⟩
  by_cases hne : (s.remove x).1.items = []
  · rw [hne]; exact List.IsChain.nil
  have hall : AllSlots s.items :=
    allSlots_of_sub h.1 (fun y hy => (remove_sublist s x).subset hy) hne hp
  unfold TSeries.remove
  split
  · exact h.2 hall
  · rename_i y r hl
    have : y.isSlot = true := hall y (by rw [hl]; simp)
    rw [if_pos this]; exact h.2 hall

theorem succ_step (s : TSeries) (op : Op) (h : SuccInv s.items) : SuccInv (s.step op).items := by
  cases op with
  | append x => exact succ_append s x h
  | insert i x => exact succ_insert s i x h
  | remove x => exact succ_remove s x h
  | pop i => exact succ_pop s i h
  | clear => exact succ_nil
  | duplicate =>
    simp only [TSeries.step]
    split
    · rename_i s' hd; exact duplicate_inv succ_nil succ_append hd
    · exact h

theorem run_inv {P : TSeries → Prop} {Q : Op → Prop}
    (hstep : ∀ s op, Q op → P s → P (s.step op)) (ops : List Op) (hq : ∀ op ∈ ops, Q op)
    (s : TSeries) (h : P s) : P (s.run ops) := by
  unfold TSeries.run
  induction ops generalizing s with
  | nil => exact h
  | cons o r ih =>
    rw [List.foldl_cons]
    exact ih (fun p hp => hq p (by simp [hp])) _ (hstep s o (hq o (by simp)) h)

end Timeseria
