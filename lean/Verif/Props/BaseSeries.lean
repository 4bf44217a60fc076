import Verif.Model.BaseSeries
import Mathlib.Data.List.Chain
import Mathlib.Tactic.Ring
import Mathlib.Tactic.Linarith

/-! # C294-C296: the base class `Series`, for items of any class -/

namespace Timeseria

variable {α : Type}

/-- `y` can come after `x`: it succeeds `x`, if its class has successions, or is greater -/
def ItemClass.After (C : ItemClass α) (x y : α) : Prop :=
  match C.succ y with
  | some f => f x = true
  | none => C.gt y x = .ok true

theorem follows_ok {C : ItemClass α} {x y : α} {u : Unit} (h : follows C y x = .ok u) : C.After x y := by
  unfold follows at h
  unfold ItemClass.After
  cases hs : C.succ y with
  | some f =>
    rw [hs] at h
    dsimp only at h
    split at h
    · assumption
    · cases h
  | none =>
    rw [hs] at h
    dsimp only at h
    cases hg : C.gt y x with
    | error e => rw [hg] at h; cases h
    | ok b =>
      cases b with
      | true => rfl
      | false => rw [hg] at h; cases h

theorem follows_of {C : ItemClass α} {x y : α} (h : C.After x y) : follows C y x = .ok () := by
  unfold ItemClass.After at h
  unfold follows
  cases hs : C.succ y with
  | some f => rw [hs] at h; dsimp only at h ⊢; rw [if_pos h]
  | none => rw [hs] at h; dsimp only at h ⊢; rw [h]

theorem BSeries.append_items (C : ItemClass α) (s : BSeries α) (x : α) :
    (s.append C x).1.items = s.items ∨
      ((s.append C x).1.items = s.items ++ [x] ∧ (s.append C x).2 = .ok () ∧ (∀ y ∈ s.items.getLast?, C.After y x) ∧
        (∀ y ∈ s.items.head?, C.isInst x y = true)) := by
  unfold BSeries.append
  split
  · rename_i first last hf hl
    rw [hf, hl]
    split
    · left; rfl
    · rename_i hi
      have hi' : C.isInst x first = true := by simpa using hi
      split
      · left; rfl
      · rename_i hfo
        have ha := follows_ok hfo
        have k1 : ∀ y ∈ some last, C.After y x := by intro y hy; cases hy; exact ha
        have k2 : ∀ y ∈ some first, C.isInst x y = true := by intro y hy; cases hy; exact hi'
        split
        · split
          · split
            · left; rfl
            · right; exact ⟨rfl, rfl, k1, k2⟩
          · right; exact ⟨rfl, rfl, k1, k2⟩
        · right; exact ⟨rfl, rfl, k1, k2⟩
  · rename_i hn
    right
    have he : s.items = [] := by
      cases hi : s.items with
      | nil => rfl
      | cons a r => exact absurd (List.getLast?_eq_some_getLast (l := a :: r) (by simp)) (fun hl => hn a _ (by rw [hi]; rfl) (by rw [hi]; exact hl))
    refine ⟨rfl, rfl, ?_, ?_⟩ <;> (rw [he]; intro y hy; cases hy)

theorem insertB_zero (l : List α) (x : α) : insertB l 0 x = x :: l := by simp [insertB]
theorem insertB_end (l : List α) (x : α) : insertB l l.length x = l ++ [x] := by simp [insertB]

theorem isChain_snoc {R : α → α → Prop} {l : List α} {x : α} (h : l.IsChain R) (hx : ∀ y ∈ l.getLast?, R y x) : (l ++ [x]).IsChain R := by
  rw [List.isChain_append]
  refine ⟨h, List.isChain_singleton x, ?_⟩
  intro y hy z hz
  simp only [List.head?_cons, Option.mem_def, Option.some.injEq] at hz
  subst hz
  exact hx y hy

theorem isChain_front {R : α → α → Prop} {l : List α} {x : α} (h : l.IsChain R) (hx : ∀ y ∈ l.head?, R x y) : (x :: l).IsChain R := by
  rw [List.isChain_cons]
  exact ⟨hx, h⟩

/-- what one call can do to the items -/
theorem BSeries.step_items (C : ItemClass α) (s : BSeries α) (op : BOp α) :
    (s.step C op).items = s.items ∨
    (∃ x, (op = .append x ∨ ∃ i, op = .insert i x) ∧ (s.step C op).items = s.items ++ [x] ∧ (∀ y ∈ s.items.getLast?, C.After y x) ∧ (∀ y ∈ s.items.head?, C.isInst x y = true)) ∨
    (∃ x, op = .insert 0 x ∧ (s.step C op).items = x :: s.items ∧ (∀ y ∈ s.items.head?, C.After x y) ∧ (∀ y ∈ s.items.head?, C.isInst x y = true)) ∨
    (∃ i x first y k, op = .insert i x ∧ s.items.head? = some first ∧ C.succ first = none ∧ C.isInst x first = true ∧ k + 1 < s.items.length ∧ pyInsertPos s.items.length i = k + 1 ∧
      s.items[k]? = some y ∧ C.gt x y = .ok true ∧ (s.step C op).items = insertB s.items (k + 1) x) ∨
    (∃ x, op = .remove x ∧ s.items.head?.any (fun y => (C.succ y).isSome) = false ∧ (s.step C op).items.Sublist s.items) ∨
    (∃ k, op = .pop (some k) ∧ s.items.head?.any (fun y => (C.succ y).isSome) = false ∧ (s.step C op).items.Sublist s.items) ∨
    (s.step C op).items = s.items.tail ∨ (s.step C op).items = s.items.dropLast ∨ (s.step C op).items = [] := by
  cases op with
  | append x =>
    rcases s.append_items C x with h | ⟨h1, _, h2, h3⟩
    · exact Or.inl h
    · exact Or.inr (Or.inl ⟨x, Or.inl rfl, h1, h2, h3⟩)
  | insert i x =>
    have happ : ∀ hn : s.items = [], (s.append C x).1.items = s.items ++ [x] := by
      intro hn
      unfold BSeries.append
      rw [hn]
      rfl
    simp only [BSeries.step]
    unfold BSeries.insert
    split
    · rename_i first last hf hl
      dsimp only
      split
      · exact Or.inl rfl
      rename_i hi
      have hi' : C.isInst x first = true := by simpa using hi
      have k2 : ∀ y ∈ s.items.head?, C.isInst x y = true := by rw [hf]; intro y hy; cases hy; exact hi'
      split
      · rename_i h0
        subst h0
        split
        · exact Or.inl rfl
        · rename_i hfo
          refine Or.inr (Or.inr (Or.inl ⟨x, rfl, ?_, ?_, k2⟩))
          · simp [pyInsertPos, insertB]
          · rw [hf]; intro y hy; cases hy; exact follows_ok hfo
      · split
        · rename_i h0 hn
          split
          · exact Or.inl rfl
          · rename_i hfo
            refine Or.inr (Or.inl ⟨x, Or.inr ⟨i, rfl⟩, ?_, ?_, k2⟩)
            · have : pyInsertPos s.items.length i = s.items.length := by
                unfold pyInsertPos; rw [if_neg (by omega)]; omega
              rw [this]
              exact insertB_end _ _
            · rw [hl]; intro y hy; cases hy; exact follows_ok hfo
        · rename_i h0 hn
          split
          · exact Or.inl rfl
          · rename_i hsc
            split
            · exact Or.inl rfl
            · rename_i y hy
              split
              · exact Or.inl rfl
              · rename_i hg
                obtain ⟨k, hk, hky⟩ := Option.bind_eq_some_iff.1 hy
                have hpos : k + 1 < s.items.length ∧ pyInsertPos s.items.length i = k + 1 := by
                  unfold pyPos at hk
                  unfold pyInsertPos
                  split at hk
                  · cases hk
                    rw [if_neg (by omega)]
                    omega
                  · split at hk
                    · cases hk
                      rw [if_pos (by omega)]
                      omega
                    · cases hk
                refine Or.inr (Or.inr (Or.inr (Or.inl ⟨i, x, first, y, k, rfl, rfl.trans hf, hsc, hi', hpos.1, hpos.2, hky, hg, ?_⟩)))
                rw [hpos.2]
              · exact Or.inl rfl
    · rename_i hn
      rcases s.append_items C x with h | ⟨h1, _, h2, h3⟩
      · exact Or.inl h
      · exact Or.inr (Or.inl ⟨x, Or.inr ⟨i, rfl⟩, h1, h2, h3⟩)
  | remove x =>
    simp only [BSeries.step]
    unfold BSeries.remove
    split
    · exact Or.inl rfl
    · rename_i hh
      have hsub : ∀ (l l' : List α), removeB C x l = some l' → l'.Sublist l := by
        intro l
        induction l with
        | nil => intro l' h; cases h
        | cons a r ih =>
          intro l' h
          unfold removeB at h
          split at h
          · cases h; exact List.sublist_cons_self _ _
          · obtain ⟨r', hr', rfl⟩ := Option.map_eq_some_iff.1 h
            exact (ih r' hr').cons_cons a
      split
      · rename_i l hl
        exact Or.inr (Or.inr (Or.inr (Or.inr (Or.inl ⟨x, rfl, by simpa using hh, hsub _ _ hl⟩))))
      · exact Or.inl rfl
  | pop i =>
    simp only [BSeries.step]
    unfold BSeries.pop
    split
    · exact Or.inl rfl
    · rename_i y r hs
      dsimp only
      have hlast : pyPos s.items.length (-1) = some (s.items.length - 1) := by
        unfold pyPos
        rw [hs]
        simp
      cases i with
      | none =>
        dsimp only
        rw [hlast]
        dsimp only
        split
        · exact Or.inl rfl
        · refine Or.inr (Or.inr (Or.inr (Or.inr (Or.inr (Or.inr (Or.inr (Or.inl ?_)))))))
          dsimp only
          rw [List.dropLast_eq_take, List.eraseIdx_eq_take_drop_succ]
          rw [show s.items.length - 1 + 1 = s.items.length by rw [hs]; simp]
          simp
      | some i =>
        dsimp only
        split
        · exact Or.inl rfl
        · rename_i hcond
          by_cases h0 : i = 0
          · subst h0
            have : pyPos s.items.length 0 = some 0 := by
              unfold pyPos; rw [hs]; simp
            rw [this]
            dsimp only
            rw [hs]
            simp
          · by_cases hn : i = s.items.length
            · have : pyPos s.items.length i = none := by
                unfold pyPos; rw [if_neg (by omega), if_neg (by omega)]
              rw [this]
              exact Or.inl rfl
            · have hsc : (C.succ y).isSome = false := by
                cases hsy : (C.succ y).isSome with
                | false => rfl
                | true => exact absurd ⟨h0, hn, hsy⟩ hcond
              refine Or.inr (Or.inr (Or.inr (Or.inr (Or.inr (Or.inl ⟨i, rfl, by rw [hs]; simpa using hsc, ?_⟩)))))
              split
              · exact List.Sublist.refl _
              · split
                · exact List.Sublist.refl _
                · exact List.eraseIdx_sublist _ _
  | clear => exact Or.inr (Or.inr (Or.inr (Or.inr (Or.inr (Or.inr (Or.inr (Or.inr rfl)))))))

/-! ## C294: order and succession -/

/-- each item succeeds the one before it -/
def ItemClass.Succession (C : ItemClass α) (l : List α) : Prop :=
  ∀ (i : ℕ) (x y : α), l[i]? = some x → l[i + 1]? = some y → ∃ f, C.succ y = some f ∧ f x = true

theorem succession_of {C : ItemClass α} (hs : ∀ x, (C.succ x).isSome = true) {l : List α} (h : l.IsChain C.After) : C.Succession l := by
  intro i x y hx hy
  obtain ⟨hi, hx⟩ := List.getElem?_eq_some_iff.1 hx
  obtain ⟨hj, hy⟩ := List.getElem?_eq_some_iff.1 hy
  have := (List.isChain_iff_getElem.1 h) i hj
  rw [hx, hy] at this
  unfold ItemClass.After at this
  obtain ⟨f, hf⟩ := Option.isSome_iff_exists.1 (hs y)
  rw [hf] at this
  exact ⟨f, hf, this⟩

theorem after_chain (C : ItemClass α) (hs : ∀ x, (C.succ x).isSome = true) (ops : List (BOp α)) : ∀ s : BSeries α, s.items.IsChain C.After →
    (ops.foldl (fun s o => s.step C o) s).items.IsChain C.After := by
  induction ops with
  | nil => intro s h; exact h
  | cons op r ih =>
    intro s h
    rw [List.foldl_cons]
    apply ih
    have hno : ∀ {y : α}, s.items.head? = some y → s.items.head?.any (fun y => (C.succ y).isSome) ≠ false := by
      intro y hy
      rw [hy]
      simp [hs y]
    have hempty : s.items.head?.any (fun y => (C.succ y).isSome) = false → s.items = [] := by
      intro ha
      cases hi : s.items with
      | nil => rfl
      | cons a b => exact absurd ha (hno (y := a) (by rw [hi]; rfl))
    rcases s.step_items C op with e | ⟨x, _, e, h1, _⟩ | ⟨x, _, e, h1, _⟩ | ⟨i, x, first, y, k, _, hf, hn, _⟩ | ⟨x, _, ha, e⟩ | ⟨k, _, ha, e⟩ | e | e | e
    · rw [e]; exact h
    · rw [e]; exact isChain_snoc h h1
    · rw [e]; exact isChain_front h h1
    · have := hs first
      rw [hn] at this
      cases this
    · rw [hempty ha] at e
      rw [List.sublist_nil.1 e]
      exact List.isChain_nil
    · rw [hempty ha] at e
      rw [List.sublist_nil.1 e]
      exact List.isChain_nil
    · rw [e]; exact h.tail
    · rw [e]; exact h.infix (List.dropLast_prefix _).isInfix
    · rw [e]; exact List.isChain_nil

/-- **C294 (succession)**: for every class of items with a `__succedes__` method, whatever it does, after every history of `append`, `insert`, `remove`,
`pop` and `clear`, accepted or refused, on a new series, each item succeeds the one before it. -/
theorem C294_succession (C : ItemClass α) (hs : ∀ x, (C.succ x).isSome = true) (ops : List (BOp α)) :
    C.Succession (BSeries.after C ops).items :=
  succession_of hs (after_chain C hs ops {} List.isChain_nil)

/-- strictly increasing -/
def ItemClass.Ordered (C : ItemClass α) (l : List α) : Prop := l.Pairwise (fun x y => C.gt y x = .ok true)

/-- items compared with `>`, transitively -/
structure ItemClass.Comparing (C : ItemClass α) : Prop where
  plain : ∀ x, C.succ x = none
  trans : ∀ x y z, C.gt z y = .ok true → C.gt y x = .ok true → C.gt z x = .ok true

/-- a history in which an item is never inserted just before one which is not greater -/
def SafeInserts (C : ItemClass α) : BSeries α → List (BOp α) → Prop
  | _, [] => True
  | s, op :: r => (∀ i x y, op = .insert i x → s.items[pyInsertPos s.items.length i]? = some y → C.gt y x = .ok true) ∧
      SafeInserts C (s.step C op) r

theorem ordered_chain {C : ItemClass α} (h : C.Comparing) {l : List α} (hl : l.IsChain C.After) : C.Ordered l := by
  have : IsTrans α (fun x y => C.gt y x = .ok true) := ⟨fun x y z a b => h.trans x y z b a⟩
  unfold ItemClass.Ordered
  rw [← List.isChain_iff_pairwise]
  refine hl.imp ?_
  intro x y hxy
  unfold ItemClass.After at hxy
  rw [h.plain] at hxy
  exact hxy

theorem chain_ordered {C : ItemClass α} (h : C.Comparing) {l : List α} (hl : C.Ordered l) : l.IsChain C.After := by
  refine (List.Pairwise.isChain hl).imp ?_
  intro x y hxy
  unfold ItemClass.After
  rw [h.plain]
  exact hxy

theorem after_ordered (C : ItemClass α) (hc : C.Comparing) (ops : List (BOp α)) : ∀ s : BSeries α, C.Ordered s.items → SafeInserts C s ops →
    C.Ordered (ops.foldl (fun s o => s.step C o) s).items := by
  induction ops with
  | nil => intro s h _; exact h
  | cons op r ih =>
    intro s h hsafe
    rw [List.foldl_cons]
    refine ih _ ?_ hsafe.2
    have hch := chain_ordered hc h
    rcases s.step_items C op with e | ⟨x, _, e, h1, _⟩ | ⟨x, _, e, h1, _⟩ | ⟨i, x, first, y, k, rfl, hf, hn, _, hk, hpos, hy, hg, e⟩ | ⟨x, _, ha, e⟩ | ⟨k, _, ha, e⟩ | e | e | e
    · rw [e]; exact h
    · rw [e]; exact ordered_chain hc (isChain_snoc hch h1)
    · rw [e]; exact ordered_chain hc (isChain_front hch h1)
    · rw [e]
      apply ordered_chain hc
      have hz : ∀ z, s.items[k + 1]? = some z → C.gt z x = .ok true := by
        intro z hz
        exact hsafe.1 i x z rfl (by rw [hpos]; exact hz)
      unfold insertB
      rw [List.isChain_append]
      refine ⟨hch.infix (List.take_prefix _ _).isInfix, ?_, ?_⟩
      · rw [List.isChain_cons]
        refine ⟨?_, hch.infix (List.drop_suffix _ _).isInfix⟩
        intro z hz'
        rw [List.head?_drop] at hz'
        unfold ItemClass.After
        rw [hc.plain]
        exact hz z hz'
      · intro a ha b hb
        cases hb
        have : (s.items.take (k + 1)).getLast? = some y := by
          rw [List.getLast?_eq_getElem?, List.length_take, List.getElem?_take]
          rw [show min (k + 1) s.items.length - 1 = k by omega, if_pos (by omega)]
          exact hy
        rw [this] at ha
        cases ha
        unfold ItemClass.After
        rw [hc.plain]
        exact hg
    · exact h.sublist e
    · exact h.sublist e
    · rw [e]; exact h.sublist (List.tail_sublist _)
    · rw [e]; exact h.sublist (List.dropLast_sublist _)
    · rw [e]; exact List.Pairwise.nil

/-- **C294 (order), partial**: for items compared with `>`, transitively, after every history of calls, accepted or refused, on a new series, the items are
strictly increasing, if no insertion puts an item just before one which is not greater.  Missing: the other insertions, which the series accepts (`C294_false`). -/
theorem C294_order_partial (C : ItemClass α) (hc : C.Comparing) (ops : List (BOp α)) (h : SafeInserts C {} ops) :
    C.Ordered (BSeries.after C ops).items :=
  after_ordered C hc ops {} List.Pairwise.nil h

/-- integers -/
def intClass : ItemClass Int where
  isInst _ _ := true
  succ _ := none
  gt x y := .ok (decide (x > y))
  eq x y := decide (x = y)
  data _ := none

theorem intClass_comparing : intClass.Comparing := by
  refine ⟨fun _ => rfl, ?_⟩
  intro x y z h1 h2
  simp only [intClass, Except.ok.injEq, decide_eq_true_eq] at *
  omega

/-- integers in a succession (`other + 1 == self`) -/
def stepClass : ItemClass Int where
  isInst _ _ := true
  succ x := some (fun y => decide (y + 1 = x))
  gt x y := .ok (decide (x > y))
  eq x y := decide (x = y)
  data _ := none

/-- **C294 is false**: 5 is inserted between 1 and 3. -/
theorem C294_false : (BSeries.after intClass [.append 1, .append 3, .insert 1 5]).items = [1, 5, 3] ∧
    (BSeries.insert intClass (BSeries.after intClass [.append 1, .append 3]) 1 5).2 = .ok () := by decide +kernel

theorem C294_witness : (∀ x, (stepClass.succ x).isSome = true) ∧
    (BSeries.after stepClass [.append 5, .append 6, .insert 0 4, .append 9, .insert 1 5, .remove 5, .pop (some 0), .insert 2 7]).items = [5, 6, 7] ∧
    SafeInserts intClass {} [.append 1, .append 9, .insert 1 5, .insert 0 (-2), .append 3, .remove 1] ∧
    (BSeries.after intClass [.append 1, .append 9, .insert 1 5, .insert 0 (-2), .append 3, .remove 1]).items = [-2, 5, 9] := by
  refine ⟨fun _ => rfl, by decide +kernel, ?_, by decide +kernel⟩
  simp only [SafeInserts]
  refine ⟨?_, ?_, ?_, ?_, ?_, ?_, trivial⟩
  · intro i x y e; cases e
  · intro i x y e; cases e
  · intro i x y e hy
    cases e
    have h2 : some y = some 9 := hy.symm.trans (by decide +kernel)
    cases h2
    decide
  · intro i x y e hy
    cases e
    have h2 : some y = some 1 := hy.symm.trans (by decide +kernel)
    cases h2
    decide
  · intro i x y e; cases e
  · intro i x y e; cases e

/-! ## C295: items of the same class -/

/-- all the items are of one class -/
def ItemClass.OneClass (C : ItemClass α) (l : List α) : Prop := ∀ x ∈ l, ∀ y ∈ l, C.isInst x y = true

/-- classes which do not derive from each other: being an instance of the class of another is an equivalence -/
structure ItemClass.NoSubclasses (C : ItemClass α) : Prop where
  refl : ∀ x, C.isInst x x = true
  symm : ∀ x y, C.isInst x y = true → C.isInst y x = true
  trans : ∀ x y z, C.isInst x y = true → C.isInst y z = true → C.isInst x z = true

theorem oneClass_add {C : ItemClass α} (hc : C.NoSubclasses) {l l' : List α} {x : α} (hl : C.OneClass l) (hx : ∀ y ∈ l.head?, C.isInst x y = true)
    (hsub : ∀ y ∈ l', y ∈ l ∨ y = x) : C.OneClass l' := by
  have hall : ∀ y ∈ l, C.isInst x y = true := by
    intro y hy
    cases hd : l.head? with
    | none => rw [List.head?_eq_none_iff.1 hd] at hy; cases hy
    | some z => exact hc.trans x z y (hx z hd) (hl z (List.mem_of_mem_head? hd) y hy)
  intro a ha b hb
  rcases hsub a ha with ha | rfl <;> rcases hsub b hb with hb | rfl
  · exact hl a ha b hb
  · exact hc.symm _ _ (hall a ha)
  · exact hall b hb
  · exact hc.refl _

/-- **C295, partial**: after every history of calls on a new series all the items are of the same class, if no class derives from another.  Missing: subclasses, of
which the series accepts instances (`C295_false`). -/
theorem C295_same_class_partial (C : ItemClass α) (hc : C.NoSubclasses) (ops : List (BOp α)) : C.OneClass (BSeries.after C ops).items := by
  have key : ∀ (ops : List (BOp α)) (s : BSeries α), C.OneClass s.items → C.OneClass (ops.foldl (fun s o => s.step C o) s).items := by
    intro ops
    induction ops with
    | nil => intro s h; exact h
    | cons op r ih =>
      intro s h
      rw [List.foldl_cons]
      apply ih
      have sub : ∀ {l : List α}, l.Sublist s.items → C.OneClass l := fun hl a ha b hb => h a (hl.subset ha) b (hl.subset hb)
      rcases s.step_items C op with e | ⟨x, _, e, _, h2⟩ | ⟨x, _, e, _, h2⟩ | ⟨i, x, first, y, k, _, hf, _, hi, _, _, _, _, e⟩ | ⟨x, _, ha, e⟩ | ⟨k, _, ha, e⟩ | e | e | e
      · rw [e]; exact h
      · rw [e]; exact oneClass_add hc h h2 (by intro y hy; simpa using hy)
      · rw [e]; exact oneClass_add hc h h2 (by intro y hy; rw [List.mem_cons] at hy; exact hy.symm)
      · rw [e]
        refine oneClass_add hc h (x := x) (by rw [hf]; intro y hy; cases hy; exact hi) ?_
        intro z hz
        unfold insertB at hz
        rw [List.mem_append, List.mem_cons] at hz
        rcases hz with hz | hz | hz
        · exact Or.inl (List.mem_of_mem_take hz)
        · exact Or.inr hz
        · exact Or.inl (List.mem_of_mem_drop hz)
      · exact sub e
      · exact sub e
      · rw [e]; exact sub (List.tail_sublist _)
      · rw [e]; exact sub (List.dropLast_sublist _)
      · rw [e]; intro a ha; cases ha
  exact key ops {} (fun a ha => by cases ha)

/-! ## C296: slices -/

/-- the data of the items can be in one series, whichever comes first -/
def ItemClass.DataAlike (C : ItemClass α) (l : List α) : Prop :=
  ∀ x ∈ l, ∀ y ∈ l, ∀ r, C.data x = some r → r.truthy = true → checkDataB r (C.data y) = .ok ()

theorem bappend_good {C : ItemClass α} {s : BSeries α} {x : α} (hi : ∀ y ∈ s.items.head?, C.isInst x y = true)
    (hr : ∀ r, s.ref = some r → r.truthy = true → checkDataB r (C.data x) = .ok ()) (hne : s.items ≠ []) :
    (∀ y ∈ s.items.getLast?, C.After y x) ∧ (∃ s', s.append C x = (s', .ok ()) ∧ s'.items = s.items ++ [x] ∧ (s'.ref = s.ref ∨ s'.ref = C.data x)) ∨
    (∃ y e, s.items.getLast? = some y ∧ ¬ C.After y x ∧ follows C x y = .error e ∧ s.append C x = (s, .error e)) := by
  obtain ⟨first, hf⟩ : ∃ f, s.items.head? = some f := by
    cases h : s.items with
    | nil => exact absurd h hne
    | cons a r => exact ⟨a, rfl⟩
  obtain ⟨last, hl⟩ : ∃ f, s.items.getLast? = some f := ⟨_, List.getLast?_eq_some_getLast hne⟩
  have hi' : C.isInst x first = true := hi first hf
  unfold BSeries.append
  rw [hf, hl]
  dsimp only
  rw [if_neg (by simp [hi'])]
  cases hfo : follows C x last with
  | error e =>
    right
    refine ⟨last, e, rfl, ?_, hfo, rfl⟩
    intro ha
    rw [follows_of ha] at hfo
    cases hfo
  | ok u =>
    left
    refine ⟨by intro y hy; cases hy; exact follows_ok hfo, ?_⟩
    dsimp only
    cases hrf : s.ref with
    | none => exact ⟨_, rfl, rfl, Or.inr rfl⟩
    | some r =>
      dsimp only
      by_cases ht : r.truthy = true
      · rw [if_pos ht, hr r hrf ht]
        exact ⟨_, rfl, rfl, Or.inl rfl⟩
      · rw [if_neg ht]
        exact ⟨_, rfl, rfl, Or.inr rfl⟩

/-- the loop of appends: it gives exactly the items, if each can come after the one before; otherwise the error of the first which cannot -/
theorem buildFrom_good {C : ItemClass α} {all : List α} (hi : C.OneClass all) (hd : C.DataAlike all) : ∀ (l : List α) (s : BSeries α),
    (∀ x ∈ l, x ∈ all) → (∀ x ∈ s.items, x ∈ all) → (s.items ≠ [] → ∀ r, s.ref = some r → ∃ x ∈ all, C.data x = some r) → s.items.IsChain C.After →
    ((s.items ++ l).IsChain C.After ∧ ∃ r, BSeries.buildFrom C s l = .ok r ∧ r.items = s.items ++ l) ∨
    (¬ (s.items ++ l).IsChain C.After ∧ ∃ x ∈ l, ∃ y ∈ s.items ++ l, ∃ e, ¬ C.After y x ∧ follows C x y = .error e ∧ BSeries.buildFrom C s l = .error e) := by
  intro l
  induction l with
  | nil => intro s _ _ _ hc; left; exact ⟨by simpa using hc, s, rfl, by simp⟩
  | cons x l ih =>
    intro s hl hs href hc
    have hx : x ∈ all := hl x (by simp)
    have hstep : ((s.items ++ [x]).IsChain C.After ∧ ∃ s', s.append C x = (s', .ok ()) ∧ s'.items = s.items ++ [x] ∧ ∀ r, s'.ref = some r → ∃ x ∈ all, C.data x = some r) ∨
        (∃ y e, s.items.getLast? = some y ∧ ¬ C.After y x ∧ follows C x y = .error e ∧ (s.append C x).2 = .error e) := by
      by_cases hne : s.items = []
      · left
        refine ⟨by rw [hne]; exact List.isChain_singleton x, { items := s.items ++ [x], ref := C.data x }, ?_, rfl, fun r hr => ⟨x, hx, hr⟩⟩
        unfold BSeries.append
        rw [hne]
        rfl
      · rcases bappend_good (C := C) (s := s) (x := x)
          (fun y hy => hi x hx y (hs y (List.mem_of_mem_head? hy)))
          (fun r hr ht => by
            obtain ⟨y, hy, hyd⟩ := href hne r hr
            exact hd y hy x hx r hyd ht) hne with ⟨h1, s', h2, h3, h4⟩ | ⟨y, e, h0, h2, h3, h4⟩
        · left
          refine ⟨isChain_snoc hc h1, s', h2, h3, ?_⟩
          intro r hr
          rcases h4 with h4 | h4
          · exact href hne r (h4 ▸ hr)
          · exact ⟨x, hx, h4 ▸ hr⟩
        · right
          exact ⟨y, e, h0, h2, h3, by rw [h4]⟩
    rcases hstep with ⟨hc', s', hap, hit, hrf⟩ | ⟨y, e, h0, h1, h2, h3⟩
    · have := ih s' (fun z hz => hl z (by simp [hz])) (by rw [hit]; intro z hz; rw [List.mem_append, List.mem_singleton] at hz; rcases hz with hz | rfl; exact hs z hz; exact hx)
        (fun _ => hrf) (by rw [hit]; exact hc')
      rw [hit] at this
      unfold BSeries.buildFrom
      rw [hap]
      dsimp only
      rw [List.append_assoc, List.singleton_append] at this
      rcases this with h | ⟨h1, x', hx', y', hy', r⟩
      · exact Or.inl h
      · exact Or.inr ⟨h1, x', List.mem_cons_of_mem _ hx', y', hy', r⟩
    · right
      refine ⟨?_, x, by simp, y, List.mem_append_left _ (List.mem_of_getLast? h0), e, h1, h2, ?_⟩
      · intro hch
        rw [List.isChain_append] at hch
        exact h1 (hch.2.2 y h0 x rfl)
      unfold BSeries.buildFrom
      split
      · rename_i hap
        rw [hap] at h3
        cases h3
        rfl
      · rename_i hap
        rw [hap] at h3
        cases h3

theorem build_good_iff {C : ItemClass α} {l : List α} (hi : C.OneClass l) (hd : C.DataAlike l) :
    (l.IsChain C.After ∧ ∃ r, BSeries.buildFrom C {} l = .ok r ∧ r.items = l) ∨
    (¬ l.IsChain C.After ∧ ∃ x ∈ l, ∃ y ∈ l, ∃ e, ¬ C.After y x ∧ follows C x y = .error e ∧ BSeries.buildFrom C {} l = .error e) := by
  have := buildFrom_good (C := C) (all := l) hi hd l {} (fun _ h => h) (fun _ h => by cases h) (fun h => absurd rfl h) List.isChain_nil
  simpa using this

theorem pyRange_up {a b c : Int} (hc : 0 < c) (j : ℕ) : (pyRange a b c)[j]? = if a + c * j < b then some (a + c * j) else none := by
  unfold pyRange
  rw [if_pos hc, List.getElem?_map]
  have key : j < ((b - a + c - 1) / c).toNat ↔ a + c * j < b := by
    constructor
    · intro h
      have h1 : (j : Int) + 1 ≤ (b - a + c - 1) / c := by omega
      have h2 := (Int.le_ediv_iff_mul_le hc).1 h1
      nlinarith
    · intro h
      have h1 : (j : Int) + 1 ≤ (b - a + c - 1) / c := (Int.le_ediv_iff_mul_le hc).2 (by nlinarith)
      omega
  by_cases h : a + c * j < b
  · rw [if_pos h, List.getElem?_range (key.2 h)]
    rfl
  · rw [if_neg h, List.getElem?_eq_none (by rw [List.length_range]; exact Nat.le_of_not_lt (fun h' => h (key.1 h')))]
    rfl

theorem pyRange_down {a b c : Int} (hc : c < 0) (j : ℕ) : (pyRange a b c)[j]? = if b < a + c * j then some (a + c * j) else none := by
  unfold pyRange
  rw [if_neg (by omega), List.getElem?_map]
  have hc' : 0 < -c := by omega
  have key : j < ((a - b + (-c) - 1) / (-c)).toNat ↔ b < a + c * j := by
    constructor
    · intro h
      have h1 : (j : Int) + 1 ≤ (a - b + (-c) - 1) / (-c) := by omega
      have h2 := (Int.le_ediv_iff_mul_le hc').1 h1
      nlinarith
    · intro h
      have h1 : (j : Int) + 1 ≤ (a - b + (-c) - 1) / (-c) := (Int.le_ediv_iff_mul_le hc').2 (by nlinarith)
      omega
  by_cases h : b < a + c * j
  · rw [if_pos h, List.getElem?_range (key.2 h)]
    rfl
  · rw [if_neg h, List.getElem?_eq_none (by rw [List.length_range]; exact Nat.le_of_not_lt (fun h' => h (key.1 h')))]
    rfl

theorem filterMap_getElem? {β γ : Type} (f : β → Option γ) : ∀ (l : List β), (∀ x ∈ l, (f x).isSome = true) → ∀ j : ℕ, (l.filterMap f)[j]? = l[j]?.bind f
  | [], _, j => by simp
  | x :: l, h, j => by
    obtain ⟨y, hy⟩ := Option.isSome_iff_exists.1 (h x (by simp))
    rw [List.filterMap_cons_some hy]
    cases j with
    | zero => simp [hy]
    | succ j =>
      rw [List.getElem?_cons_succ, List.getElem?_cons_succ]
      exact filterMap_getElem? f l (fun z hz => h z (by simp [hz])) j

/-- where a slice of `n` items with a positive step starts: a missing bound is the beginning, a negative one is counted from the end -/
def sliceFrom (n : ℕ) : Option Int → ℕ
  | none => 0
  | some i => if 0 ≤ i then min i.toNat n else (n + i).toNat

/-- where it stops -/
def sliceTo (n : ℕ) : Option Int → ℕ
  | none => n
  | some i => if 0 ≤ i then min i.toNat n else (n + i).toNat

theorem sliceBounds_up (n : ℕ) (a b : Option Int) {c : Int} (hc : 0 < c) : sliceBounds n a b c = ((sliceFrom n a : Int), (sliceTo n b : Int)) := by
  have hb : ∀ i : Int, clampBound n 0 n i = ((if 0 ≤ i then min i.toNat n else (n + i).toNat : ℕ) : Int) := by
    intro i
    unfold clampBound
    dsimp only
    split <;> split <;> (try split) <;> (try split) <;> omega
  unfold sliceBounds
  rw [if_neg (by omega), if_neg (by omega)]
  dsimp only
  refine Prod.ext ?_ ?_
  · cases a with
    | none => simp [sliceFrom]; omega
    | some i => exact hb i
  · cases b with
    | none => simp [sliceTo]; omega
    | some i => exact hb i

theorem sliceTo_le (n : ℕ) (b : Option Int) : sliceTo n b ≤ n := by
  cases b with
  | none => exact le_refl _
  | some i => simp only [sliceTo]; split <;> omega

/-- the items a slice with a positive step goes through -/
theorem slice_items (l : List α) (a b : Option Int) {c : Int} (hc : 0 < c) (j : ℕ) :
    ((pyRange (sliceFrom l.length a) (sliceTo l.length b) c).filterMap (fun i => l[i.toNat]?))[j]? =
      if (sliceFrom l.length a : Int) + c * j < sliceTo l.length b then l[((sliceFrom l.length a : Int) + c * j).toNat]? else none := by
  rw [filterMap_getElem?]
  · rw [pyRange_up hc]
    split <;> rfl
  · intro x hx
    obtain ⟨k, hk⟩ := List.mem_iff_getElem?.1 hx
    rw [pyRange_up hc] at hk
    split at hk
    · cases hk
      have := sliceTo_le l.length b
      rename_i hlt
      have h0 : 0 ≤ c * k := by positivity
      rw [Option.isSome_iff_exists]
      exact ⟨_, List.getElem?_eq_getElem (by omega)⟩
    · cases hk

theorem ItemClass.OneClass.of_mem {C : ItemClass α} {l m : List α} (h : C.OneClass l) (hm : ∀ x ∈ m, x ∈ l) : C.OneClass m :=
  fun x hx y hy => h x (hm x hx) y (hm y hy)

theorem ItemClass.DataAlike.of_mem {C : ItemClass α} {l m : List α} (h : C.DataAlike l) (hm : ∀ x ∈ m, x ∈ l) : C.DataAlike m :=
  fun x hx y hy => h x (hm x hx) y (hm y hy)

/-- **C296 (items compared with `>`), partial**: on an ordered series of items of one class with data of one kind, `series[a:b:c]` with a positive `c` gives a series
with exactly the items in positions `from`, `from + c`, `from + 2c`, … below `to`, as a slice of a list: missing bounds are the beginning and the end, negative
ones are counted from the end.  Missing: negative steps and items in a succession (`C296_false`, `C296_false_step`). -/
theorem C296_step_partial (C : ItemClass α) (hc : C.Comparing) (s : BSeries α) (ho : C.Ordered s.items) (hi : C.OneClass s.items) (hd : C.DataAlike s.items)
    (a b : Option Int) (c : Int) (hpos : 0 < c) :
    ∃ r, s.getSlice C a b (some c) = .ok r ∧ ∀ j : ℕ, r.items[j]? =
      if (sliceFrom s.items.length a : Int) + c * j < sliceTo s.items.length b then s.items[((sliceFrom s.items.length a : Int) + c * j).toNat]? else none := by
  have hit := slice_items s.items a b hpos
  generalize hl : (pyRange (sliceFrom s.items.length a) (sliceTo s.items.length b) c).filterMap (fun i => s.items[i.toNat]?) = l at hit
  have hm : ∀ x ∈ l, x ∈ s.items := by
    intro x hx
    rw [← hl, List.mem_filterMap] at hx
    obtain ⟨i, _, h⟩ := hx
    exact List.mem_of_getElem? h
  have hord : C.Ordered l := by
    unfold ItemClass.Ordered
    rw [List.pairwise_iff_getElem]
    intro i j hi' hj' hij
    have h1 := hit i
    have h2 := hit j
    rw [List.getElem?_eq_getElem hi'] at h1
    rw [List.getElem?_eq_getElem hj'] at h2
    split at h1
    · split at h2
      · obtain ⟨k1, e1⟩ := List.getElem?_eq_some_iff.1 h1.symm
        obtain ⟨k2, e2⟩ := List.getElem?_eq_some_iff.1 h2.symm
        rw [← e1, ← e2]
        refine (List.pairwise_iff_getElem.1 ho) _ _ k1 k2 ?_
        have h3 : (i : Int) + 1 ≤ j := by omega
        have h4 : 0 ≤ c * (i : Int) := by positivity
        have h5 : c * (i : Int) < c * j := by nlinarith
        omega
      · cases h2
    · cases h1
  rcases build_good_iff (hi.of_mem hm) (hd.of_mem hm) with ⟨_, r, hr, hri⟩ | ⟨h1, _⟩
  · refine ⟨r, ?_, by rw [hri]; exact hit⟩
    unfold BSeries.getSlice
    rw [if_neg (by simp; omega)]
    dsimp only [Option.getD_some]
    rw [sliceBounds_up _ _ _ hpos]
    dsimp only
    rw [hl]
    exact hr
  · exact absurd (chain_ordered hc hord) h1

/-- **C296 (consecutive items), partial**: `series[a:b]` of a series in order or in succession, of items of one class with data of one kind, gives a series with exactly
the items from `a` to `b`. -/
theorem C296_consecutive_partial (C : ItemClass α) (s : BSeries α) (ho : (C.Comparing ∧ C.Ordered s.items) ∨ s.items.IsChain C.After) (hi : C.OneClass s.items)
    (hd : C.DataAlike s.items) (a b : Option Int) :
    ∃ r, s.getSlice C a b none = .ok r ∧ r.items = (s.items.take (sliceTo s.items.length b)).drop (sliceFrom s.items.length a) := by
  have hch : s.items.IsChain C.After := ho.elim (fun h => chain_ordered h.1 h.2) id
  have hit := slice_items s.items a b (c := 1) (by omega)
  generalize hl : (pyRange (sliceFrom s.items.length a) (sliceTo s.items.length b) 1).filterMap (fun i => s.items[i.toNat]?) = l at hit
  have he : l = (s.items.take (sliceTo s.items.length b)).drop (sliceFrom s.items.length a) := by
    apply List.ext_getElem?
    intro j
    rw [hit j, List.getElem?_drop, List.getElem?_take]
    have e : ((sliceFrom s.items.length a : Int) + 1 * j).toNat = sliceFrom s.items.length a + j := by omega
    rw [e]
    by_cases h : sliceFrom s.items.length a + j < sliceTo s.items.length b
    · rw [if_pos (by omega), if_pos h]
    · rw [if_neg (by omega), if_neg h]
  have hinf : l <:+: s.items := by
    rw [he]
    exact (List.drop_suffix _ _).isInfix.trans (List.take_prefix _ _).isInfix
  have hm : ∀ x ∈ l, x ∈ s.items := fun x hx => hinf.subset hx
  rcases build_good_iff (hi.of_mem hm) (hd.of_mem hm) with ⟨_, r, hr, hri⟩ | ⟨h1, _⟩
  · refine ⟨r, ?_, by rw [hri, he]⟩
    unfold BSeries.getSlice
    rw [if_neg (by simp)]
    dsimp only [Option.getD_none]
    rw [sliceBounds_up _ _ _ (by omega)]
    dsimp only
    rw [hl]
    exact hr
  · exact absurd (hch.infix hinf) h1

/-- **C296 is false**: `series[::-1]` is refused with `ValueError` for every ordered series of at least two items compared with `>`. -/
theorem C296_false (C : ItemClass α) (hc : C.Comparing) (hb : ∀ x y, C.gt x y = .ok true ∨ C.gt x y = .ok false) (hirr : ∀ x, C.gt x x = .ok false)
    (s : BSeries α) (ho : C.Ordered s.items) (hi : C.OneClass s.items) (hd : C.DataAlike s.items)
    (h2 : 2 ≤ s.items.length) : s.getSlice C none none (some (-1)) = .error .valueError := by
  obtain ⟨x, y, r, hs⟩ : ∃ x y r, s.items.reverse = x :: y :: r := by
    have hlen : s.items.reverse.length = s.items.length := List.length_reverse
    cases h : s.items.reverse with
    | nil => rw [h] at hlen; simp at hlen; omega
    | cons x t =>
      cases t with
      | nil => rw [h] at hlen; simp at hlen; omega
      | cons y r => exact ⟨x, y, r, rfl⟩
  have hrev : (pyRange ((s.items.length : Int) - 1) (-1) (-1)).filterMap (fun i => s.items[i.toNat]?) = s.items.reverse := by
    apply List.ext_getElem?
    intro j
    rw [filterMap_getElem?, pyRange_down (by omega)]
    · by_cases hj : j < s.items.length
      · rw [if_pos (by omega), List.getElem?_reverse hj]
        simp only [Option.bind_some]
        congr 1
        omega
      · rw [if_neg (by omega), List.getElem?_eq_none (by rw [List.length_reverse]; omega)]
        rfl
    · intro z hz
      obtain ⟨k, hk⟩ := List.mem_iff_getElem?.1 hz
      rw [pyRange_down (by omega)] at hk
      split at hk
      · cases hk
        rw [Option.isSome_iff_exists]
        exact ⟨_, List.getElem?_eq_getElem (by omega)⟩
      · cases hk
  have hm : ∀ z ∈ s.items.reverse, z ∈ s.items := fun z hz => by simpa using hz
  have hgt : C.gt x y = .ok true := by
    have : (s.items.reverse).Pairwise (fun a b => C.gt a b = .ok true) := List.pairwise_reverse.2 ho
    rw [hs] at this
    exact (List.pairwise_cons.1 this).1 y (by simp)
  unfold BSeries.getSlice
  rw [if_neg (by simp)]
  have hbo : sliceBounds s.items.length none none (-1) = ((s.items.length : Int) - 1, -1) := rfl
  dsimp only [Option.getD_some]
  rw [hbo]
  dsimp only
  rw [hrev]
  rcases build_good_iff (hi.of_mem hm) (hd.of_mem hm) with ⟨h1, _⟩ | ⟨_, a, _, b, _, e, _, h4, h5⟩
  · exfalso
    rw [hs, List.isChain_cons_cons] at h1
    have ha := h1.1
    unfold ItemClass.After at ha
    rw [hc.plain] at ha
    have := hc.trans x y x hgt ha
    rw [hirr x] at this
    cases this
  · rw [h5]
    unfold follows at h4
    rw [hc.plain] at h4
    dsimp only at h4
    rcases hb a b with hb | hb
    · rw [hb] at h4; cases h4
    · rw [hb] at h4; cases h4; rfl

/-- **C296 is false** for items in a succession: every second item of 4, 5, 6. -/
theorem C296_false_step : (BSeries.after stepClass [.append 4, .append 5, .append 6]).items = [4, 5, 6] ∧
    ((BSeries.after stepClass [.append 4, .append 5, .append 6]).getSlice stepClass none none (some 2)).toOption.isNone = true := by decide +kernel

theorem C296_witness : intClass.Ordered [1, 3, 4, 8, 9] ∧ intClass.OneClass [1, 3, 4, 8, 9] ∧ intClass.DataAlike [1, 3, 4, 8, 9] ∧
    (BSeries.getSlice intClass { items := [1, 3, 4, 8, 9] } (some (-4)) none (some 2)).toOption.map BSeries.items = some [3, 8] ∧
    (BSeries.getSlice intClass { items := [1, 3, 4, 8, 9] } (some 1) (some (-1)) none).toOption.map BSeries.items = some [3, 4, 8] ∧
    (∀ x y, intClass.gt x y = .ok true ∨ intClass.gt x y = .ok false) ∧ (∀ x, intClass.gt x x = .ok false) := by
  refine ⟨?_, fun _ _ _ _ => rfl, fun _ _ _ _ r h => (by cases h), by decide +kernel, by decide +kernel, ?_, ?_⟩
  · unfold ItemClass.Ordered
    decide
  · intro x y
    simp only [intClass, Except.ok.injEq, decide_eq_true_eq, decide_eq_false_iff_not]
    exact Classical.em _
  · intro x
    simp [intClass]

/-- items of two classes, 1 deriving from 0 -/
def derivedClass : ItemClass (ℕ × Int) where
  isInst x y := decide (x.1 = y.1 ∨ y.1 = 0)
  succ _ := none
  gt x y := .ok (decide (x.2 > y.2))
  eq x y := decide (x = y)
  data _ := none

/-- **C295 is false**: with a class deriving from another a series can start with an instance of the subclass and go on with one of the other class: slicing all of it, or
appending again what it already holds the class of, is refused with `TypeError`. -/
theorem C295_false : (BSeries.after derivedClass [.append (0, 1), .append (1, 2), .append (0, 3), .pop (some 0)]).items = [(1, 2), (0, 3)] ∧
    derivedClass.isInst (0, 3) (1, 2) = false ∧
    ((BSeries.after derivedClass [.append (0, 1), .append (1, 2), .append (0, 3), .pop (some 0)]).getSlice derivedClass none none none).toOption.isNone = true ∧
    ((BSeries.after derivedClass [.append (0, 1), .append (1, 2), .append (0, 3), .pop (some 0)]).append derivedClass (0, 4)).2 = .error .typeError := by
  refine ⟨?_, ?_, ?_, ?_⟩ <;> decide +kernel

example : intClass.NoSubclasses := ⟨fun _ => rfl, fun _ _ _ => rfl, fun _ _ _ _ _ => rfl⟩

end Timeseria
