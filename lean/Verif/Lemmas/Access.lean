import Verif.Lemmas.SlotBuild
import Verif.Model.Access
import Verif.Spec

/-! # Lemmas on indexing and slicing -/

namespace Timeseria

theorem getPos_lt {n : ℕ} {i : Int} {k : ℕ} (h : getPos n i = some k) : k < n := by
  unfold getPos pyPos at h
  split at h <;> split at h
  · simp at h; omega
  · split at h <;> simp at h; omega
  · simp at h; omega
  · split at h <;> simp at h; omega

theorem getPos_nonneg {n : ℕ} {i : Int} (h0 : 0 ≤ i) (h1 : i < n) : getPos n i = some i.toNat := by
  unfold getPos pyPos
  rw [if_pos h0, if_pos ⟨h0, h1⟩]

theorem getAt_nonneg {s : TSeries} {i : Int} (h0 : 0 ≤ i) (h1 : i < s.items.length) :
    ∃ x, s.getAt i = .ok x ∧ s.items[i.toNat]? = some x := by
  have hlt : i.toNat < s.items.length := by omega
  unfold TSeries.getAt
  rw [getPos_nonneg h0 h1]
  simp only [List.getElem?_eq_getElem hlt]
  exact ⟨_, rfl, rfl⟩

/-- past the lower bound the index loop is a `take` -/
theorem sliceIndexLoop_take (a : Option Int) (b : Option Int) (l : List Item) :
    ∀ i : Int, (∀ x, a = some x → x ≤ i) →
    sliceIndexLoop a b i l = match b with | some b => l.take (b - i).toNat | none => l := by
  induction l with
  | nil => intro i _; cases b <;> simp [sliceIndexLoop]
  | cons x r ih =>
    intro i ha
    unfold sliceIndexLoop
    have h1 : belowFrom a i = false := by
      cases a with
      | none => rfl
      | some a => simpa [belowFrom] using ha a rfl
    rw [h1]
    simp only [Bool.false_eq_true, if_false]
    rw [ih (i + 1) (fun y hy => le_trans (ha y hy) (by omega))]
    cases b with
    | none => simp [beyondIdx]
    | some b =>
      simp only [beyondIdx]
      by_cases hb : i ≥ b
      · simp [hb, show (b - i).toNat = 0 by omega]
      · simp only [ge_iff_le, hb, decide_false, Bool.false_eq_true, if_false]
        rw [show (b - i).toNat = (b - (i + 1)).toNat + 1 by omega]
        rfl

/-- before the lower bound it is a `drop` -/
theorem sliceIndexLoop_drop (a : Int) (b : Option Int) (l : List Item) :
    ∀ i : Int, i ≤ a → (∀ x, b = some x → a < x) →
    sliceIndexLoop (some a) b i l =
      match b with
      | some b => (l.drop (a - i).toNat).take (b - a).toNat
      | none => l.drop (a - i).toNat := by
  induction l with
  | nil => intro i _ _; cases b <;> simp [sliceIndexLoop]
  | cons x r ih =>
    intro i hi hb
    rcases lt_or_eq_of_le hi with hlt | heq
    · unfold sliceIndexLoop
      simp only [belowFrom, hlt, decide_true, if_true]
      rw [ih (i + 1) (by omega) hb, show (a - i).toNat = (a - (i + 1)).toNat + 1 by omega]
      cases b <;> rfl
    · subst heq
      rw [sliceIndexLoop_take (some i) b (x :: r) i (by simp)]
      cases b <;> simp

theorem sliceItems_index (l : List Item) (hne : l ≠ []) (a b : Option Int)
    (hab : a.isSome ∨ b.isSome) :
    sliceItems l a b none none = .ok (pyListSlice l a b) := by
  have hlen : 0 < l.length := List.length_pos_iff.2 hne
  unfold sliceItems
  rw [if_neg (by simpa using hne)]
  simp only [Option.isSome_none, Bool.and_false, Bool.or_self, Bool.false_eq_true, if_false]
  cases a with
  | none =>
    cases b with
    | none => simp at hab
    | some b =>
      simp only [normIdx, inverted, Option.isSome_none, Option.isSome_some, Bool.or_true, if_true,
        Bool.false_eq_true, if_false]
      rw [sliceIndexLoop_take none _ l 0 (by simp)]
      simp only [pyListSlice, List.drop_zero, pyBound, Nat.sub_zero]
      congr 1
      split
      · rename_i hb
        rw [abs_of_neg hb]
        congr 1; omega
      · rename_i hb
        rcases le_total b.toNat l.length with h | h
        · rw [min_eq_left h]; simp
        · rw [min_eq_right h, List.take_length, List.take_of_length_le]; omega
  | some a =>
    simp only [normIdx]
    set A : Int := if a < 0 then (l.length : Int) - |a| else a with hA
    have hAb : pyBound l.length a = min A.toNat l.length := by
      unfold pyBound
      rw [hA]
      split
      · rename_i h; rw [abs_of_neg h]
        rw [min_eq_left (by omega)]; congr 1; omega
      · rfl
    have hdropA : l.drop (min A.toNat l.length) = l.drop A.toNat := by
      rcases le_total A.toNat l.length with h | h
      · rw [min_eq_left h]
      · rw [min_eq_right h, List.drop_eq_nil_of_le (le_refl _), List.drop_eq_nil_of_le h]
    cases b with
    | none =>
      simp only [inverted, Option.isSome_none, Option.isSome_some, Bool.or_false, if_true,
        Bool.false_eq_true, if_false]
      simp only [pyListSlice, hAb]
      rw [List.take_of_length_le (by rw [List.length_drop]), hdropA]
      congr 1
      by_cases h0 : 0 ≤ A
      · rw [sliceIndexLoop_drop A none l 0 h0 (by simp)]; simp
      · rw [sliceIndexLoop_take (some A) none l 0 (by intro x hx; simp at hx; omega)]
        rw [show A.toNat = 0 by omega]; rfl
    | some b =>
      simp only [Option.isSome_some, Bool.or_self, if_true]
      set B : Int := if b < 0 then (l.length : Int) - |b| else b with hB
      have hBb : pyBound l.length b = min B.toNat l.length := by
        unfold pyBound
        rw [hB]
        split
        · rename_i h; rw [abs_of_neg h]
          rw [min_eq_left (by omega)]; congr 1; omega
        · rfl
      simp only [pyListSlice, hAb, hBb]
      by_cases hAB : A ≥ B
      · simp only [inverted, ← hA, hAB, decide_true, if_true, Bool.false_eq_true, if_false]
        have : min B.toNat l.length - min A.toNat l.length = 0 := by omega
        rw [this]; simp
      · simp only [inverted, ← hA, hAB, decide_false, Bool.false_eq_true, if_false]
        congr 1
        have htake : ∀ k m : ℕ, (l.drop m).take (min k l.length - m) = (l.drop m).take (k - m) := by
          intro k m
          rcases le_total k l.length with h | h
          · rw [min_eq_left h]
          · rw [min_eq_right h, List.take_of_length_le (by rw [List.length_drop]),
              List.take_of_length_le (by rw [List.length_drop]; omega)]
        by_cases h0 : 0 ≤ A
        · rw [sliceIndexLoop_drop A (some B) l 0 h0 (by intro x hx; simp at hx; omega)]
          simp only [sub_zero]
          rcases le_total A.toNat l.length with h | h
          · rw [min_eq_left h, htake, show (B - A).toNat = B.toNat - A.toNat by omega]
          · rw [min_eq_right h, List.drop_eq_nil_of_le h, List.drop_eq_nil_of_le (le_refl _)]; simp
        · rw [sliceIndexLoop_take (some A) (some B) l 0 (by intro x hx; simp at hx; omega)]
          rw [show A.toNat = 0 by omega]
          simp only [Nat.zero_min, List.drop_zero, Nat.sub_zero, sub_zero]
          have := htake B.toNat 0
          simp only [List.drop_zero, Nat.sub_zero] at this
          exact this.symm

theorem pyListSlice_infix {α : Type} (l : List α) (a b : Option Int) : pyListSlice l a b <:+: l := by
  unfold pyListSlice
  exact (List.take_prefix _ _).isInfix.trans (List.drop_suffix _ _).isInfix

/-- time slicing of points in order is a filter -/
theorem sliceTimeLoop_points (a b : Option ℚ) (l : List Item) (hp : AllPoints l)
    (ho : StrictlyOrdered l) :
    sliceTimeLoop a b l = l.filter (fun x => fromOk a x.t && beforeOk b x.t) := by
  induction l with
  | nil => rfl
  | cons x r ih =>
    have hx : x.slot = none := by simpa [Item.isSlot] using hp x (by simp)
    have ihr := ih (fun y hy => hp y (by simp [hy])) (List.pairwise_cons.1 ho).2
    have hrest := (List.pairwise_cons.1 ho).1
    unfold sliceTimeLoop
    rw [List.filter_cons, ihr]
    by_cases hA : belowFrom a x.t = true
    · rw [if_pos hA, if_neg]
      cases a with
      | none => simp [belowFrom] at hA
      | some a => simp [belowFrom, fromOk] at hA ⊢; intro h; linarith
    · rw [if_neg hA]
      have hA' : fromOk a x.t = true := by
        cases a with
        | none => rfl
        | some a => simp [belowFrom, fromOk] at hA ⊢; exact hA
      rw [hA']
      cases b with
      | none => simp [beyondTo, beforeOk]
      | some b =>
        simp only [beyondTo, hx, beforeOk]
        by_cases hB : x.t ≥ b
        · simp only [hB, decide_true, if_true, Bool.true_and]
          rw [if_neg (by simpa using hB)]
          symm
          rw [List.filter_eq_nil_iff]
          intro y hy
          have := hrest y hy
          simp only [Bool.and_eq_true, decide_eq_true_eq, not_and, not_lt]
          intro _; linarith
        · simp only [hB, decide_false, Bool.false_eq_true, if_false, Bool.true_and]
          rw [if_pos (by simpa using hB)]

/-- time slicing of slots whose ends are in order is a filter -/
theorem sliceTimeLoop_slots (a b : Option ℚ) (l : List Item) (hp : AllSlots l)
    (ho : l.Pairwise (fun x y => x.endT ≤ y.endT)) :
    sliceTimeLoop a b l = l.filter (fun x => fromOk a x.t && untilOk b x.endT) := by
  induction l with
  | nil => rfl
  | cons x r ih =>
    have hx : ∃ e u, x.slot = some (e, u) := by
      obtain ⟨⟨e, u⟩, h⟩ := Option.isSome_iff_exists.1 (hp x (by simp)); exact ⟨e, u, h⟩
    obtain ⟨e, u, hx⟩ := hx
    have he : x.endT = e := by simp [Item.endT, hx]
    have ihr := ih (fun y hy => hp y (by simp [hy])) (List.pairwise_cons.1 ho).2
    have hrest := (List.pairwise_cons.1 ho).1
    unfold sliceTimeLoop
    rw [List.filter_cons, ihr]
    by_cases hA : belowFrom a x.t = true
    · rw [if_pos hA, if_neg]
      cases a with
      | none => simp [belowFrom] at hA
      | some a => simp [belowFrom, fromOk] at hA ⊢; intro h; linarith
    · rw [if_neg hA]
      have hA' : fromOk a x.t = true := by
        cases a with
        | none => rfl
        | some a => simp [belowFrom, fromOk] at hA ⊢; exact hA
      rw [hA']
      cases b with
      | none => simp [beyondTo, untilOk]
      | some b =>
        simp only [beyondTo, hx, untilOk]
        by_cases hB : e > b
        · simp only [hB, decide_true, if_true, Bool.true_and]
          rw [if_neg (by simpa [he] using hB)]
          symm
          rw [List.filter_eq_nil_iff]
          intro y hy
          have := hrest y hy
          simp only [Bool.and_eq_true, decide_eq_true_eq, not_and, not_le]
          intro _; linarith
        · simp only [hB, decide_false, Bool.false_eq_true, if_false, Bool.true_and]
          rw [if_pos (by simpa [he] using hB)]

theorem sliceTimeLoop_sublist (a b : Option ℚ) (l : List Item) : (sliceTimeLoop a b l).Sublist l := by
  induction l with
  | nil => exact List.Sublist.refl _
  | cons x r ih =>
    unfold sliceTimeLoop
    split
    · exact ih.cons _
    · split
      · exact List.nil_sublist _
      · exact ih.cons_cons _

/-- with starts and ends in order, a time slice is a contiguous part of the list -/
theorem filter_infix_of_ordered (P Q : Item → Bool) (l : List Item)
    (hP : l.Pairwise (fun x y => P x = true → P y = true))
    (hQ : l.Pairwise (fun x y => Q y = true → Q x = true)) :
    l.filter (fun x => P x && Q x) <:+: l := by
  have hQp : ∀ l : List Item, l.Pairwise (fun x y => Q y = true → Q x = true) →
      l.filter Q <+: l := by
    intro l
    induction l with
    | nil => intro _; simp
    | cons x r ih =>
      intro h
      rw [List.filter_cons]
      obtain ⟨h1, h2⟩ := List.pairwise_cons.1 h
      split
      · exact (List.prefix_cons_inj x).2 (ih h2)
      · rename_i hx
        have : r.filter Q = [] := by
          rw [List.filter_eq_nil_iff]
          intro y hy hq; exact hx (h1 y hy hq)
        rw [this]; exact List.nil_prefix
  have hPs : ∀ l : List Item, l.Pairwise (fun x y => P x = true → P y = true) →
      l.filter P <:+ l := by
    intro l
    induction l with
    | nil => intro _; simp
    | cons x r ih =>
      intro h
      rw [List.filter_cons]
      obtain ⟨h1, h2⟩ := List.pairwise_cons.1 h
      split
      · rename_i hx
        have : r.filter P = r := by
          rw [List.filter_eq_self]; intro y hy; exact h1 y hy hx
        rw [this]
      · exact (ih h2).trans (List.suffix_cons x r)
  have : l.filter (fun x => P x && Q x) = (l.filter P).filter Q := by
    rw [List.filter_filter]; congr 1; funext x; exact Bool.and_comm _ _
  rw [this]
  exact (hQp _ (hQ.sublist List.filter_sublist)).isInfix.trans (hPs l hP).isInfix

end Timeseria
