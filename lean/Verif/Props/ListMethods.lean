import Verif.Model.ListMethods
import Verif.Props.Items
import Verif.Lemmas.SeriesInv

/-! # Properties C172 - C178: what a series inherits from `list` -/

namespace Timeseria

/-- Specification: the two items are of the same kind, at the same time (start and end for slots) and
carry the same data. -/
def SameItem (a b : Item) : Prop :=
  a.isSlot = b.isSlot ∧ a.t = b.t ∧ a.endT = b.endT ∧
    (match a.data, b.data with
     | some d, some e => SameData d e
     | none, none => True
     | _, _ => False)

/-- Specification: the two items can be compared: same kind, both with data or both without, and the
data are legal Python objects. -/
def Comparable (a b : Item) : Prop :=
  a.isSlot = b.isSlot ∧ a.data.isSome = b.data.isSome ∧ a.WFData ∧ b.WFData

theorem endT_point {a : Item} (h : a.isSlot = false) : a.endT = a.t := by
  have : a.slot = none := by simpa [Item.isSlot] using h
  simp [Item.endT, this]

theorem itemEq_same {a b : Item} (h : Comparable a b) :
    (SameItem a b → itemEq a b = .ok true) ∧ (¬ SameItem a b → itemEq a b = .ok false) := by
  obtain ⟨hk, hd, hwa, hwb⟩ := h
  have hw := C18_when_equal a b hk hwa hwb
  have ht : itemEq a b = .ok true ↔ SameItem a b := by
    have hend : (a.t = b.t ∧ (a.isSlot = true → a.endT = b.endT)) ↔ (a.t = b.t ∧ a.endT = b.endT) := by
      cases hs : a.isSlot with
      | true => simp
      | false =>
        rw [endT_point hs, endT_point (hk ▸ hs)]
        simp
    cases ha : a.data with
    | none =>
      have hb : b.data = none := by rw [ha] at hd; simpa using hd.symm
      rw [hw.2 ha hb, hend]
      simp [SameItem, ha, hb, hk]
    | some d =>
      obtain ⟨e, hb⟩ : ∃ e, b.data = some e := by
        rw [ha] at hd; exact Option.isSome_iff_exists.1 hd.symm
      rw [hw.1 d e ha hb, ← and_assoc, hend]
      simp [SameItem, ha, hb, hk, and_assoc]
  refine ⟨ht.2, fun hn => ?_⟩
  obtain ⟨r, hr⟩ := C152_comparable_partial a b (by
    cases hs : a.isSlot with
    | false => exact Or.inl rfl
    | true => exact Or.inr ⟨hk ▸ hs, hd⟩)
  cases r with
  | false => exact hr
  | true => exact absurd (ht.1 hr) hn

theorem findEq_spec (x : Item) (l : List Item) (k : ℕ) (hc : ∀ y ∈ l, Comparable y x) :
    (∃ j y, l[j]? = some y ∧ SameItem y x ∧ (∀ i z, i < j → l[i]? = some z → ¬ SameItem z x) ∧
      findEq x l k = .ok (k + j)) ∨
    ((∀ y ∈ l, ¬ SameItem y x) ∧ findEq x l k = .error .valueError) := by
  induction l generalizing k with
  | nil => exact Or.inr ⟨by simp, rfl⟩
  | cons y r ih =>
    have hy := itemEq_same (hc y (by simp))
    by_cases hs : SameItem y x
    · refine Or.inl ⟨0, y, by simp, hs, fun i z hi => absurd hi (by omega), ?_⟩
      simp [findEq, hy.1 hs]
    · have he : findEq x (y :: r) k = findEq x r (k + 1) := by simp [findEq, hy.2 hs]
      rcases ih (k + 1) (fun z hz => hc z (by simp [hz])) with ⟨j, z, hj, hz, hf, hr⟩ | ⟨hn, hr⟩
      · refine Or.inl ⟨j + 1, z, by simpa using hj, hz, ?_, ?_⟩
        · intro i w hi hw
          cases i with
          | zero => simp at hw; subst hw; exact hs
          | succ i => exact hf i w (by omega) (by simpa using hw)
        · rw [he, hr]; congr 1; omega
      · refine Or.inr ⟨?_, by rw [he, hr]⟩
        intro z hz
        simp at hz
        rcases hz with rfl | hz
        · exact hs
        · exact hn z hz

/-! ## C172 -/

/-- **C172** is false: whatever the series, the item and the bounds, the position is never returned; and
with the documented defaults the call always raises `TypeError`. -/
theorem C172_false (s : TSeries) (x : Item) (a b : Option Int) :
    (∀ k, s.index x a b ≠ .ok (some k)) ∧ s.index x none none = .error .typeError := by
  refine ⟨?_, rfl⟩
  intro k
  unfold TSeries.index
  split
  · dsimp only
    split <;> simp
  · simp

/-- the item searched here is in the series -/
example : (TSeries.empty.run [.append (mkPoint 0 (.num 1)), .append (mkPoint 60 (.num 1))]).index
    (mkPoint 60 (.num 1)) (some 0) (some 2) = .ok none := by decide +kernel

/-- **C172, partial**: with both bounds given, `index` raises `ValueError` if no item of the slice
`series[start:end]` is the same as `x`, and otherwise returns without raising.  Missing: the position is
not returned, and the bounds cannot be left out (`C172_false`). -/
theorem C172_missing_partial (s : TSeries) (x : Item) (a b : Int) (hc : ∀ y ∈ s.items, Comparable y x) :
    ((∀ y ∈ pyListSlice s.items (some a) (some b), ¬ SameItem y x) →
      s.index x (some a) (some b) = .error .valueError) ∧
    ((∃ y ∈ pyListSlice s.items (some a) (some b), SameItem y x) →
      s.index x (some a) (some b) = .ok none) := by
  have hsl : (s.items.drop (pyInsertPos s.items.length a)).take
      (pyInsertPos s.items.length b - pyInsertPos s.items.length a) =
      pyListSlice s.items (some a) (some b) := rfl
  unfold TSeries.index
  dsimp only
  rw [hsl]
  have hmem : ∀ y ∈ pyListSlice s.items (some a) (some b), Comparable y x := fun y hy =>
    hc y (List.mem_of_mem_drop (List.mem_of_mem_take hy))
  rcases findEq_spec x _ (pyInsertPos s.items.length a) hmem with ⟨j, y, hj, hy, _, hr⟩ | ⟨hn, hr⟩
  · rw [hr]
    exact ⟨fun h => absurd hy (h y (List.mem_of_getElem? hj)), fun _ => rfl⟩
  · rw [hr]
    exact ⟨fun _ => rfl, fun ⟨y, hy, h⟩ => absurd h (hn y hy)⟩

/-! ## C173 -/

/-- **C173** is false: `copy()`, and likewise `series + items`, never give back a series. -/
theorem C173_false (s : TSeries) (l : List Item) :
    (¬ ∃ s', s.copy = .series s') ∧ ¬ ∃ s', s.plus l = .series s' := by
  simp [TSeries.copy, TSeries.plus]

/-- **C173, partial**: what `copy()` gives back holds the items of the series, in order, and
`series + items` the items of the series followed by the others.  Missing: the result is not a series
(`C173_false`). -/
theorem C173_contents_partial (s : TSeries) (l : List Item) :
    s.copy.contents = s.items ∧ (s.plus l).contents = s.items ++ l := ⟨rfl, rfl⟩

/-! ## C174 -/

/-- two points in the wrong order -/
def twoPoints : TSeries := TSeries.empty.run [.append (mkPoint 0 (.num 1)), .append (mkPoint 60 (.num 1))]

/-- three slots in succession -/
def threeSlots : TSeries := TSeries.empty.run
  [.append { t := 0, slot := some (60, TUnit.ofSecs 60), data := some (.num 1) },
   .append { t := 60, slot := some (120, TUnit.ofSecs 60), data := some (.num 1) },
   .append { t := 120, slot := some (180, TUnit.ofSecs 60), data := some (.num 1) }]

/-- **C174** is false: assigning to a position, `+=` and `*=` put items out of order, a slot in a series
of points or data with other labels, and `del` takes a slot out of the middle; all without an error. -/
theorem C174_false :
    ((twoPoints.listOp (.setItem 0 (mkPoint 90 (.num 1)))).2 = .ok () ∧
      ¬ StrictlyOrdered (twoPoints.listOp (.setItem 0 (mkPoint 90 (.num 1)))).1.items) ∧
    ((twoPoints.listOp (.extendBy [mkPoint 30 (.num 1)])).2 = .ok () ∧
      ¬ StrictlyOrdered (twoPoints.listOp (.extendBy [mkPoint 30 (.num 1)])).1.items) ∧
    ((twoPoints.listOp (.repeatBy 2)).2 = .ok () ∧
      ¬ StrictlyOrdered (twoPoints.listOp (.repeatBy 2)).1.items) ∧
    ((twoPoints.listOp (.extendBy threeSlots.items)).2 = .ok () ∧
      ¬ AllPoints (twoPoints.listOp (.extendBy threeSlots.items)).1.items ∧
      ¬ AllSlots (twoPoints.listOp (.extendBy threeSlots.items)).1.items) ∧
    ((threeSlots.listOp (.delItem 1)).2 = .ok () ∧
      ¬ InSuccession (threeSlots.listOp (.delItem 1)).1.items) := by
  unfold StrictlyOrdered AllPoints AllSlots InSuccession CloseTo
  decide +kernel

/-- an operator after which the order of the points is kept: deleting, or replacing an item by one
between its neighbours -/
def KeepsOrder (s : TSeries) : ListOp → Prop
  | .setItem i x => x.isSlot = false ∧ ∀ k, pyPos s.items.length i = some k →
      (∀ (j : ℕ) (y : Item), s.items[j]? = some y → j < k → y.t < x.t) ∧
      (∀ (j : ℕ) (y : Item), s.items[j]? = some y → k < j → x.t < y.t)
  | .delItem _ => True
  | .extendBy l => AllPoints l ∧ StrictlyOrdered (s.items ++ l)
  | .repeatBy n => n ≤ 1

theorem pairwise_set {l : List Item} {k : ℕ} {x : Item} (h : StrictlyOrdered l)
    (h1 : ∀ (j : ℕ) (y : Item), l[j]? = some y → j < k → y.t < x.t)
    (h2 : ∀ (j : ℕ) (y : Item), l[j]? = some y → k < j → x.t < y.t) : StrictlyOrdered (l.set k x) := by
  unfold StrictlyOrdered at *
  rw [List.pairwise_iff_getElem] at *
  intro i j hi hj hij
  rw [List.length_set] at hi hj
  rw [List.getElem_set, List.getElem_set]
  split
  · rename_i hki
    rw [if_neg (by omega)]
    exact h2 j _ (List.getElem?_eq_getElem hj) (by omega)
  · split
    · exact h1 i _ (List.getElem?_eq_getElem hi) (by omega)
    · exact h i j hi hj hij

theorem listOp_order (s : TSeries) (op : ListOp) (hp : AllPoints s.items) (ho : StrictlyOrdered s.items)
    (hk : KeepsOrder s op) : AllPoints (s.listOp op).1.items ∧ StrictlyOrdered (s.listOp op).1.items := by
  cases op with
  | setItem i x =>
    unfold TSeries.listOp
    dsimp only
    cases hpos : pyPos s.items.length i with
    | none => exact ⟨hp, ho⟩
    | some k =>
      dsimp only
      obtain ⟨hx, hb⟩ := hk
      refine ⟨?_, pairwise_set ho (hb k hpos).1 (hb k hpos).2⟩
      intro y hy
      rcases List.mem_or_eq_of_mem_set hy with h | h
      · exact hp y h
      · rw [h]; exact hx
  | delItem i =>
    unfold TSeries.listOp
    dsimp only
    cases hpos : pyPos s.items.length i with
    | none => exact ⟨hp, ho⟩
    | some k =>
      exact ⟨fun y hy => hp y (List.mem_of_mem_eraseIdx hy), ho.sublist (List.eraseIdx_sublist ..)⟩
  | extendBy l =>
    refine ⟨?_, hk.2⟩
    intro y hy
    rcases List.mem_append.1 hy with h | h
    · exact hp y h
    · exact hk.1 y h
  | repeatBy n =>
    have hn : n = 0 ∨ n = 1 := by have : n ≤ 1 := hk; omega
    rcases hn with rfl | rfl
    · exact ⟨by simp [TSeries.listOp, AllPoints], by simp [TSeries.listOp, StrictlyOrdered]⟩
    · simpa [TSeries.listOp] using ⟨hp, ho⟩

/-- **C174, partial**: a point series in order stays a point series in order under the inherited
operators exactly as far as their arguments respect the order: deleting, replacing an item by a point
lying strictly between its neighbours, extending by points which come after.  Missing: nothing is
checked, so any other argument breaks the series (`C174_false`). -/
theorem C174_order_partial (s : TSeries) (op : ListOp) (hp : AllPoints s.items)
    (ho : StrictlyOrdered s.items) (hk : KeepsOrder s op) :
    AllPoints (s.listOp op).1.items ∧ StrictlyOrdered (s.listOp op).1.items :=
  listOp_order s op hp ho hk

/-- replacing the first of the two points by one at 30 s -/
example : AllPoints twoPoints.items ∧ StrictlyOrdered twoPoints.items ∧
    KeepsOrder twoPoints (.delItem 0) ∧ (twoPoints.listOp (.delItem 0)).2 = .ok () := by
  refine ⟨?_, ?_, trivial, by decide +kernel⟩
  · unfold AllPoints; decide +kernel
  · unfold StrictlyOrdered; decide +kernel

/-! ## C175 -/

/-- Specification: position `i` of a Python list of length `n`, negative positions counting from the
end: `k` is the place it stands for. -/
def StandsFor (n : ℕ) (i : Int) (k : ℕ) : Prop := k < n ∧ (i = k ∨ i = (k : Int) - n)

theorem pyPos_standsFor (n : ℕ) (i : Int) (k : ℕ) : pyPos n i = some k ↔ StandsFor n i k := by
  unfold pyPos StandsFor
  split
  · simp only [Option.some.injEq]; omega
  · split
    · simp only [Option.some.injEq]; omega
    · simp only [reduceCtorEq, false_iff]; omega

/-- **C175** `pop()` gives the last item and takes out exactly that one; `pop(i)` on a series of points
gives the item in position `i`, negative positions counting from the end, and takes out exactly that
one; `pop(0)` does so on a series of slots too.  The other items stay as they are. -/
theorem C175_pop (s : TSeries) :
    (∀ (l : List Item) (z : Item), s.items = l ++ [z] →
      (s.pop none).2 = .ok z ∧ (s.pop none).1.items = l) ∧
    (∀ (l m : List Item) (z : Item) (i : Int), s.items = l ++ z :: m → StandsFor s.items.length i l.length →
      (AllPoints s.items ∨ i = 0) → (s.pop (some i)).2 = .ok z ∧ (s.pop (some i)).1.items = l ++ m) := by
  have hmain : ∀ (l m : List Item) (z : Item) (i : Int), s.items = l ++ z :: m →
      StandsFor s.items.length i l.length → pyPos s.items.length i = some l.length ∧
      s.items[l.length]? = some z ∧ s.items.eraseIdx l.length = l ++ m := by
    intro l m z i hs hi
    refine ⟨(pyPos_standsFor _ _ _).2 hi, by rw [hs]; simp, ?_⟩
    rw [hs, List.eraseIdx_append_of_length_le (Nat.le_refl _)]; simp
  constructor
  · intro l z hs
    obtain ⟨h1, h2, h3⟩ := hmain l [] z (-1) hs ⟨by rw [hs]; simp, Or.inr (by rw [hs]; simp)⟩
    unfold TSeries.pop
    cases hl : s.items with
    | nil => rw [hl] at hs; simp at hs
    | cons y r =>
      rw [hl] at h1 h2 h3
      simp only [h1, h2, h3, List.append_nil, and_self]
  · intro l m z i hs hi hk
    obtain ⟨h1, h2, h3⟩ := hmain l m z i hs hi
    unfold TSeries.pop
    cases hl : s.items with
    | nil => rw [hl] at hs; simp at hs
    | cons y r =>
      have hc : ¬ (i ≠ 0 ∧ i ≠ ((y :: r).length : Int) ∧ y.isSlot = true) := by
        rcases hk with hp | h0
        · rw [hp y (by rw [hl]; simp)]; simp
        · simp [h0]
      rw [hl] at h1 h2 h3
      dsimp only
      rw [if_neg hc]
      simp only [h1, h2, h3, and_self]

/-- **C175, refusals**: `pop` on an empty series, at a position which does not exist, or in a series of
slots at a position other than the first, raises `IndexError` and leaves the series as it was. -/
theorem C175_pop_refused (s : TSeries) :
    (∀ i, s.items = [] → s.pop i = (s, .error .indexError)) ∧
    (∀ i : Int, (∀ k, ¬ StandsFor s.items.length i k) → s.pop (some i) = (s, .error .indexError)) ∧
    (∀ i : Int, i ≠ 0 → AllSlots s.items → s.pop (some i) = (s, .error .indexError)) := by
  have hnone : ∀ i : Int, (∀ k, ¬ StandsFor s.items.length i k) → pyPos s.items.length i = none := by
    intro i h
    cases hp : pyPos s.items.length i with
    | none => rfl
    | some k => exact absurd ((pyPos_standsFor _ _ _).1 hp) (h k)
  have hpopnone : ∀ i : Int, pyPos s.items.length i = none → s.pop (some i) = (s, .error .indexError) := by
    intro i h
    unfold TSeries.pop
    cases hl : s.items with
    | nil => rfl
    | cons y r =>
      rw [hl] at h
      dsimp only
      split
      · rfl
      · rw [h]
  refine ⟨?_, fun i h => hpopnone i (hnone i h), ?_⟩
  · intro i h
    unfold TSeries.pop
    rw [h]
  · intro i h0 hs
    by_cases hn : i = (s.items.length : Int)
    · refine hpopnone i (hnone i ?_)
      intro k hk
      obtain ⟨hk, h | h⟩ := hk <;> omega
    · unfold TSeries.pop
      cases hl : s.items with
      | nil => rfl
      | cons y r =>
        dsimp only
        rw [if_pos ⟨h0, by rw [hl] at hn; exact hn, hs y (by rw [hl]; simp)⟩]

/-- popping the second of two points, and the last of three slots -/
example : (twoPoints.pop (some (-1))).2 = .ok (mkPoint 60 (.num 1)) ∧
    StandsFor twoPoints.items.length (-1) 1 ∧ (threeSlots.pop none).1.items.length = 2 ∧
    (threeSlots.pop (some 2)).2 = .error .indexError := by
  unfold StandsFor; decide +kernel

/-! ## C176 -/

theorem removeFirst_spec (x : Item) (l : List Item) (hc : ∀ y ∈ l, Comparable y x) :
    (∀ (a b : List Item) (y : Item), l = a ++ y :: b → SameItem y x → (∀ z ∈ a, ¬ SameItem z x) →
      removeFirst x l = .ok (a ++ b)) ∧
    ((∀ y ∈ l, ¬ SameItem y x) → removeFirst x l = .error .valueError) := by
  induction l with
  | nil => exact ⟨fun a b y h => absurd h (by simp), fun _ => rfl⟩
  | cons w r ih =>
    have hw := itemEq_same (hc w (by simp))
    have ih := ih (fun y hy => hc y (by simp [hy]))
    constructor
    · intro a b y hl hy ha
      cases a with
      | nil =>
        simp at hl
        obtain ⟨rfl, rfl⟩ := hl
        simp [removeFirst, hw.1 hy]
      | cons c a =>
        simp at hl
        obtain ⟨rfl, rfl⟩ := hl
        have := ih.1 a b y rfl hy (fun z hz => ha z (by simp [hz]))
        simp [removeFirst, hw.2 (ha w (by simp)), this]
    · intro h
      have := ih.2 (fun y hy => h y (by simp [hy]))
      simp [removeFirst, hw.2 (h w (by simp)), this]

/-- **C176** `remove(x)` on a series of points takes out the first item which is the same as `x` (same
time and same data) and no other, raises `ValueError` and changes nothing if there is none, and on a
series of slots raises `NotImplementedError` and changes nothing. -/
theorem C176_remove (s : TSeries) (x : Item) :
    (AllPoints s.items → (∀ y ∈ s.items, Comparable y x) →
      (∀ (a b : List Item) (y : Item), s.items = a ++ y :: b → SameItem y x → (∀ z ∈ a, ¬ SameItem z x) →
        (s.remove x).2 = .ok () ∧ (s.remove x).1.items = a ++ b) ∧
      ((∀ y ∈ s.items, ¬ SameItem y x) → s.remove x = (s, .error .valueError))) ∧
    (AllSlots s.items → s.items ≠ [] → s.remove x = (s, .error .notImplemented)) := by
  constructor
  · intro hp hc
    have hr := removeFirst_spec x s.items hc
    constructor
    · intro a b y hs hy ha
      have := hr.1 a b y hs hy ha
      unfold TSeries.remove
      cases hl : s.items with
      | nil => rw [hl] at hs; simp at hs
      | cons w r =>
        dsimp only
        rw [hp w (by rw [hl]; simp), if_neg (by simp), ← hl, this]
        simp
    · intro h
      have := hr.2 h
      unfold TSeries.remove
      cases hl : s.items with
      | nil => rfl
      | cons w r =>
        dsimp only
        rw [hp w (by rw [hl]; simp), if_neg (by simp), ← hl, this]
  · intro hs hne
    unfold TSeries.remove
    cases hl : s.items with
    | nil => exact absurd hl hne
    | cons w r =>
      dsimp only
      rw [hs w (by rw [hl]; simp), if_pos rfl]

/-- removing the first of the two points -/
example : (twoPoints.remove (mkPoint 0 (.num 1))).1.items = [mkPoint 60 (.num 1)] ∧
    (twoPoints.remove (mkPoint 0 (.num 2))).2 = .error .valueError := by decide +kernel

/-! ## C177 -/

theorem listEqItems_spec (l m : List Item) (hlen : l.length = m.length)
    (hc : ∀ x ∈ l, ∀ y ∈ m, Comparable x y) :
    ((List.Forall₂ SameItem l m) → listEqItems l m = .ok true) ∧
    ((¬ List.Forall₂ SameItem l m) → listEqItems l m = .ok false) := by
  induction l generalizing m with
  | nil =>
    cases m with
    | nil => simp [listEqItems]
    | cons y m => simp at hlen
  | cons x l ih =>
    cases m with
    | nil => simp at hlen
    | cons y m =>
      have hxy := itemEq_same (hc x (by simp) y (by simp))
      have ih := ih m (by simpa using hlen) (fun a ha b hb => hc a (by simp [ha]) b (by simp [hb]))
      rw [List.forall₂_cons]
      by_cases hs : SameItem x y
      · simp only [listEqItems, hxy.1 hs, hs, true_and]
        exact ih
      · simp only [listEqItems, hxy.2 hs, hs, false_and, not_false_eq_true, true_implies,
          false_implies, and_self]

/-- **C177** Two series are equal exactly when they have the same number of items and, one by one, the
same items (same kind, times and data); an item is in a series exactly when some item of the series is
the same; for items which can be compared no exception is raised. -/
theorem C177_equality (a b : TSeries) (hc : ∀ x ∈ a.items, ∀ y ∈ b.items, Comparable x y) :
    ((List.Forall₂ SameItem a.items b.items) → a.equals b = .ok true) ∧
    ((¬ List.Forall₂ SameItem a.items b.items) → a.equals b = .ok false) := by
  unfold TSeries.equals
  by_cases hl : a.items.length = b.items.length
  · rw [if_neg (by simpa using hl)]
    exact listEqItems_spec _ _ hl hc
  · rw [if_pos hl]
    exact ⟨fun h => absurd h.length_eq hl, fun _ => rfl⟩

/-- **C177, membership**. -/
theorem C177_membership (s : TSeries) (x : Item) (hc : ∀ y ∈ s.items, Comparable y x) :
    ((∃ y ∈ s.items, SameItem y x) → s.contains x = .ok true) ∧
    ((∀ y ∈ s.items, ¬ SameItem y x) → s.contains x = .ok false) := by
  unfold TSeries.contains
  rcases findEq_spec x s.items 0 hc with ⟨j, y, hj, hy, _, hr⟩ | ⟨hn, hr⟩
  · rw [hr]
    exact ⟨fun _ => rfl, fun h => absurd hy (h y (List.mem_of_getElem? hj))⟩
  · rw [hr]
    exact ⟨fun ⟨y, hy, h⟩ => absurd h (hn y hy), fun _ => rfl⟩

/-- two equal series, of which one has another time zone, and a missing item -/
example : twoPoints.equals (TSeries.empty.run [.append (mkPoint 0 (.num 1) "Europe/Rome"),
      .append (mkPoint 60 (.num 1) "Europe/Rome")]) = .ok true ∧
    twoPoints.contains (mkPoint 60 (.num 1)) = .ok true ∧
    twoPoints.contains (mkPoint 60 (.num 2)) = .ok false := by decide +kernel

/-! ## C178 -/

/-- **C178** is false: changing the time zone of an empty series, or taking it on another zone, raises. -/
theorem C178_false (z : String) :
    (TSeries.empty.changeTz z).2 = .error .exception ∧ TSeries.empty.asTz z = .error .exception :=
  ⟨rfl, rfl⟩

/-- **C178, partial**: for every non-empty series built by appends, `as_tz(z)` gives a series with the
same items in the same order, all of them (and the series) on the zone `z`, with the same times, data,
data indexes and resolution.  Missing: empty series (`C178_false`). -/
theorem C178_as_tz_partial (l : List Item) (s : TSeries) (z : String) (hb : TSeries.build l = .ok s)
    (hne : l ≠ []) :
    ∃ s', s.asTz z = .ok s' ∧ s'.getTz = some z ∧ s'.res = s.res ∧
      List.Forall₂ (fun x y => y.tz = z ∧ y.t = x.t ∧ y.slot = x.slot ∧ y.data = x.data ∧ y.idx = x.idx)
        s.items s'.items := by
  have hd := duplicate_build hb
  have hi : s.items ≠ [] := by rw [build_items hb]; exact hne
  refine ⟨(s.changeTz z).1, ?_, ?_, ?_, ?_⟩
  · unfold TSeries.asTz
    rw [hd]
    dsimp only
    rw [(C19_change_tz s z hi).1]
  · exact (C19_change_tz s z hi).2.1
  · unfold TSeries.changeTz; rw [if_neg (by simpa using hi)]
  · unfold TSeries.changeTz
    rw [if_neg (by simpa using hi)]
    dsimp only
    induction s.items with
    | nil => exact List.Forall₂.nil
    | cons x r ih => exact List.Forall₂.cons ⟨rfl, rfl, rfl, rfl, rfl⟩ ih

/-- a series of two points on another zone -/
example : ∃ s', twoPoints.asTz "Europe/Rome" = .ok s' ∧
    TSeries.build [mkPoint 0 (.num 1), mkPoint 60 (.num 1)] = .ok twoPoints := by
  have hs : TSeries.build [mkPoint 0 (.num 1), mkPoint 60 (.num 1)] = .ok twoPoints := by decide +kernel
  obtain ⟨s', h, _⟩ := C178_as_tz_partial _ twoPoints "Europe/Rome" hs (by simp)
  exact ⟨s', h, hs⟩

end Timeseria
