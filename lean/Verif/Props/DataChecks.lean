import Verif.Model.DataChecks
import Mathlib.Data.List.Range
import Mathlib.Data.List.Nodup
import Mathlib.Data.List.Perm.Subperm
import Mathlib.Tactic.Linarith

/-! # The warnings about the data of a series (datastructures.py 642-692; utilities.py 1033-1074) -/

namespace Timeseria

/-! ## Specification -/

/-- the values in the data: the elements of a list or a tuple, the characters of a text, the values of a dictionary; a number, `None` or a set have none to read
(nothing can be read of an empty set) -/
def RawData.values : RawData → Option (List RawCell)
  | .list l | .tuple l => some l
  | .text l => some (l.map (fun c => RawCell.text (String.ofList [c])))
  | .dict d => some (d.map Prod.snd)
  | .set [] => some []
  | .set _ => none
  | .scalar _ => none

/-- the values one can add 1 to -/
def RawCell.IsNumber : RawCell → Prop
  | .num _ | .bool _ | .array _ => True
  | .none | .text _ | .list _ => False

/-- the keys of a dictionary are different -/
def RawData.Wf : RawData → Prop
  | .dict d => (d.map Prod.fst).Nodup
  | _ => True

theorem addsOne_iff (c : RawCell) : c.addsOne = true ↔ c.IsNumber := by
  cases c <;> simp [RawCell.addsOne, RawCell.IsNumber]

theorem readAdds_iff (c : Option RawCell) : readAdds c = true ↔ ∃ x, c = some x ∧ x.IsNumber := by
  cases c with
  | none => simp [readAdds]
  | some x => simp [readAdds, addsOne_iff]

/-! ## Subscripts and keys -/

theorem range_all_getElem (l : List RawCell) : (List.range l.length).all (fun i => (l[i]?).isSome) = true := by
  rw [List.all_eq_true]
  intro i hi
  rw [List.getElem?_eq_getElem (List.mem_range.1 hi)]
  rfl

theorem range_all_adds (l : List RawCell) : (List.range l.length).all (fun i => readAdds l[i]?) = true ↔ ∀ c ∈ l, c.IsNumber := by
  rw [List.all_eq_true]
  constructor
  · intro h c hc
    obtain ⟨i, hi, rfl⟩ := List.getElem_of_mem hc
    have := h i (List.mem_range.2 hi)
    rw [List.getElem?_eq_getElem hi] at this
    exact (addsOne_iff _).1 this
  · intro h i hi
    rw [List.getElem?_eq_getElem (List.mem_range.1 hi)]
    exact (addsOne_iff _).2 (h _ (List.getElem_mem _))

theorem rawLookup_of_mem {d : List (RawKey × RawCell)} (hn : (d.map Prod.fst).Nodup) {k : RawKey} {c : RawCell} (h : (k, c) ∈ d) : d.lookup k = some c := by
  induction d with
  | nil => simp at h
  | cons e r ih =>
    obtain ⟨k', c'⟩ := e
    rw [List.map_cons, List.nodup_cons] at hn
    rw [List.lookup_cons]
    rcases List.mem_cons.1 h with h | h
    · cases h; simp
    · have hne : k ≠ k' := by
        intro hkk
        exact hn.1 (List.mem_map.2 ⟨_, h, hkk⟩)
      have hb : (k == k') = false := by simpa using hne
      rw [hb]
      exact ih hn.2 h

theorem rawMem_of_lookup {d : List (RawKey × RawCell)} {k : RawKey} {c : RawCell} (h : d.lookup k = some c) : (k, c) ∈ d := by
  induction d with
  | nil => simp at h
  | cons e r ih =>
    obtain ⟨k', c'⟩ := e
    rw [List.lookup_cons] at h
    by_cases hk : k = k'
    · subst hk; simp at h; simp [h]
    · have hb : (k == k') = false := by simpa using hk
      rw [hb] at h
      exact List.mem_cons_of_mem _ (ih h)

/-- a dictionary is read by positions only if its keys are 0, 1, 2, ...: all its values are then read -/
theorem positions_cover {d : List (RawKey × RawCell)} (h : ∀ i < d.length, (d.lookup (.int i)).isSome = true) :
    ∀ e ∈ d, ∃ i < d.length, e.1 = .int i := by
  have hsub : (List.range d.length).map (fun (i : ℕ) => RawKey.int i) ⊆ d.map Prod.fst := by
    intro k hk
    obtain ⟨i, hi, rfl⟩ := List.mem_map.1 hk
    have := h i (List.mem_range.1 hi)
    obtain ⟨c, hc⟩ := Option.isSome_iff_exists.1 this
    exact List.mem_map.2 ⟨_, rawMem_of_lookup hc, rfl⟩
  have hnd : ((List.range d.length).map (fun (i : ℕ) => RawKey.int i)).Nodup := by
    refine List.Nodup.map ?_ List.nodup_range
    intro a b hab
    simpa using hab
  have hp : ((List.range d.length).map (fun (i : ℕ) => RawKey.int i)).Perm (d.map Prod.fst) :=
    (List.subperm_of_subset hnd hsub).perm_of_length_le (by simp)
  intro e he
  have := hp.symm.subset (List.mem_map_of_mem (f := Prod.fst) he)
  obtain ⟨i, hi, h2⟩ := List.mem_map.1 this
  exact ⟨i, List.mem_range.1 hi, h2.symm⟩

/-! ## C348 -/

/-- what a series should say of the data of its first item -/
inductive Expected (d : RawData) : Option DataWarning → Prop where
  /-- nothing can be read by position or by key -/
  | noFormat (h : d.values = none) : Expected d (some .noFormat)
  /-- some value is not a number -/
  | notNumerical (l : List RawCell) (h : d.values = some l) (c : RawCell) (hc : c ∈ l) (hn : ¬ c.IsNumber) : Expected d (some .notNumerical)
  /-- every value is a number -/
  | fine (l : List RawCell) (h : d.values = some l) (ha : ∀ c ∈ l, c.IsNumber) : Expected d none

theorem expected_of {d : RawData} {l : List RawCell} (h : d.values = some l) {b : Bool} (hb : b = true ↔ ∀ c ∈ l, c.IsNumber) :
    Expected d (if b then none else some .notNumerical) := by
  cases b with
  | true => exact .fine l h (hb.1 rfl)
  | false =>
    have : ¬ ∀ c ∈ l, c.IsNumber := fun hc => by simpa using hb.2 hc
    push Not at this
    obtain ⟨c, hc, hn⟩ := this
    exact .notNumerical l h c hc hn

/-- **C348** the check of the first item never raises, and warns exactly when the data are neither a sequence nor a dictionary, or have a value which is not a number -/
theorem C348_first_item (d : RawData) (hw : d.Wf) : ∃ w, firstWarning d = .ok w ∧ Expected d w := by
  have seq : ∀ (d : RawData) (l : List RawCell), d.len = some l.length → (∀ i, d.at i = l[i]?) → d.values = some l →
      ∃ w, firstWarning d = .ok w ∧ Expected d w := by
    intro d l h1 h2 h3
    have hib : d.indexBased = true := by
      unfold RawData.indexBased
      rw [h1]
      simp only [h2]
      exact range_all_getElem l
    refine ⟨_, ?_, expected_of h3 (range_all_adds l)⟩
    unfold firstWarning RawData.numerical
    rw [if_pos hib, if_pos hib, h1]
    simp only [Except.map, Option.getD_some, h2]
  cases d with
  | list l => exact seq _ l rfl (fun _ => rfl) rfl
  | tuple l => exact seq _ l rfl (fun _ => rfl) rfl
  | text l =>
    refine seq _ (l.map (fun c => RawCell.text (String.ofList [c]))) (by simp [RawData.len]) ?_ rfl
    intro i
    simp [RawData.at]
  | scalar v => exact ⟨_, rfl, .noFormat rfl⟩
  | set l =>
    cases l with
    | nil => exact ⟨none, rfl, .fine [] rfl (by simp)⟩
    | cons a r =>
      refine ⟨some .noFormat, ?_, .noFormat rfl⟩
      have h1 : (RawData.set (a :: r)).indexBased = false := by
        simp only [RawData.indexBased, RawData.len, RawData.at, Option.isSome_none, List.all_eq_false, List.length_cons]
        exact ⟨0, by simp, by simp⟩
      have h2 : (RawData.set (a :: r)).keyBased = false := by
        simp [RawData.keyBased, h1, RawData.byKeys]
      unfold firstWarning
      rw [h1, h2]
      rfl
  | dict d =>
    have hn : (d.map Prod.fst).Nodup := hw
    by_cases hib : (RawData.dict d).indexBased = true
    · have hall : ∀ i < d.length, (d.lookup (.int i)).isSome = true := by
        intro i hi
        have := List.all_eq_true.1 (show (List.range d.length).all (fun i => (d.lookup (.int i)).isSome) = true from hib) i (List.mem_range.2 hi)
        exact this
      have hb : (List.range d.length).all (fun i => readAdds (d.lookup (.int i))) = true ↔ ∀ c ∈ d.map Prod.snd, c.IsNumber := by
        rw [List.all_eq_true]
        constructor
        · intro h c hc
          obtain ⟨e, he, rfl⟩ := List.mem_map.1 hc
          obtain ⟨i, hi, h2⟩ := positions_cover hall e he
          have h3 := h i (List.mem_range.2 hi)
          rw [rawLookup_of_mem hn (show (RawKey.int i, e.2) ∈ d by rw [← h2]; exact he)] at h3
          exact (addsOne_iff _).1 h3
        · intro h i hi
          obtain ⟨c, hc⟩ := Option.isSome_iff_exists.1 (hall i (List.mem_range.1 hi))
          rw [hc]
          exact (addsOne_iff _).2 (h c (List.mem_map.2 ⟨_, rawMem_of_lookup hc, rfl⟩))
      refine ⟨_, ?_, expected_of rfl hb⟩
      unfold firstWarning RawData.numerical
      rw [if_pos hib, if_pos hib]
      rfl
    · have hkeys : ∀ e ∈ d, d.lookup e.1 = some e.2 := fun e he => rawLookup_of_mem hn he
      have hkb : (RawData.dict d).keyBased = true := by
        unfold RawData.keyBased
        rw [if_neg hib]
        simp only [RawData.byKeys, List.all_eq_true, List.mem_map]
        rintro x ⟨e, he, rfl⟩
        rw [hkeys e he]
        rfl
      have hb : (d.map (fun e => d.lookup e.1)).all readAdds = true ↔ ∀ c ∈ d.map Prod.snd, c.IsNumber := by
        rw [List.all_eq_true]
        simp only [List.mem_map]
        constructor
        · rintro h c ⟨e, he, rfl⟩
          have := h _ ⟨e, he, rfl⟩
          rw [hkeys e he] at this
          exact (addsOne_iff _).1 this
        · rintro h x ⟨e, he, rfl⟩
          rw [hkeys e he]
          exact (addsOne_iff _).2 (h _ ⟨e, he, rfl⟩)
      refine ⟨_, ?_, expected_of rfl hb⟩
      unfold firstWarning RawData.numerical
      rw [if_neg hib, if_pos hkb, if_neg hib, if_pos hkb]
      rfl

/-! ## C349 -/

theorem add_warnings (s : RawSeries) (t : ℚ) (d : RawData) : (s.add t d).1.warnings = s.warnings ∧
    (((s.add t d).1.items = s.items ∧ s.items ≠ []) ∨ (s.add t d).1.items = s.items ++ [(t, d)]) := by
  unfold RawSeries.add
  by_cases h : (!s.items.isEmpty && s.ref.truth) = true
  · rw [if_pos h]
    have hne : s.items ≠ [] := by
      intro e; rw [e] at h; simp at h
    cases s.ref.check d with
    | error e => exact ⟨rfl, .inl ⟨rfl, hne⟩⟩
    | ok _ => exact ⟨rfl, .inr rfl⟩
  · rw [if_neg h]; exact ⟨rfl, .inr rfl⟩

theorem append_later (s : RawSeries) (t : ℚ) (d : RawData) (hne : s.items ≠ []) :
    (s.append t d).1.warnings = s.warnings ∧ (s.append t d).1.items ≠ [] ∧ (s.append t d).1.items.head? = s.items.head? := by
  obtain ⟨last, hl⟩ : ∃ last, s.items.getLast? = some last := by
    cases hh : s.items.getLast? with
    | none => exact absurd (List.getLast?_eq_none_iff.1 hh) hne
    | some x => exact ⟨x, rfl⟩
  unfold RawSeries.append
  rw [hl]
  simp only
  by_cases c1 : s.prevT.any (fun p => decide (t ≤ p)) = true
  · rw [if_pos c1]; exact ⟨rfl, hne, rfl⟩
  rw [if_neg c1]
  by_cases c2 : t ≤ last.1
  · rw [if_pos c2]; exact ⟨rfl, hne, rfl⟩
  rw [if_neg c2]
  obtain ⟨h1, h2⟩ := add_warnings { s with prevT := some t } t d
  refine ⟨h1, ?_, ?_⟩
  · rcases h2 with ⟨h2, _⟩ | h2
    · rw [h2]; exact hne
    · rw [h2]; simp
  · rcases h2 with ⟨h2, _⟩ | h2
    · rw [h2]
    · rw [h2]
      cases hi : s.items with
      | nil => exact absurd hi hne
      | cons a r => rfl

theorem appendAll_later (l : List (ℚ × RawData)) (s : RawSeries) (hne : s.items ≠ []) :
    (s.appendAll l).warnings = s.warnings ∧ (s.appendAll l).items.head? = s.items.head? := by
  induction l generalizing s with
  | nil => exact ⟨rfl, rfl⟩
  | cons p l ih =>
    obtain ⟨h1, h2, h3⟩ := append_later s p.1 p.2 hne
    obtain ⟨h4, h5⟩ := ih _ h2
    exact ⟨h4.trans h1, h5.trans h3⟩

/-- **C349**, partial: whatever is appended to a new series, whether it is refused or not, the first item is the first appended, and the series has warned
about the data of that item and of no other: at most once -/
theorem C349_first_only_partial (t : ℚ) (d : RawData) (l : List (ℚ × RawData)) (hw : d.Wf) :
    ∃ w, Expected d w ∧ (RawSeries.appendAll {} ((t, d) :: l)).warnings = w.toList ∧
      (RawSeries.appendAll {} ((t, d) :: l)).items.head? = some (t, d) := by
  obtain ⟨w, h1, h2⟩ := C348_first_item d hw
  refine ⟨w, h2, ?_⟩
  have hs : (RawSeries.append {} t d).1.warnings = w.toList ∧ (RawSeries.append {} t d).1.items = [(t, d)] := by
    unfold RawSeries.append
    simp only [List.getLast?_nil, h1]
    unfold RawSeries.add
    simp
  have hne : (RawSeries.append {} t d).1.items ≠ [] := by rw [hs.2]; simp
  obtain ⟨h3, h4⟩ := appendAll_later l _ hne
  exact ⟨h3.trans hs.1, h4.trans (by rw [hs.2]; rfl)⟩

/-- three points with the label `v`: the second has a text, the third `None` -/
def textLater : List (ℚ × RawData) := [(0, .dict [(.text "v", .num 1)]), (60, .dict [(.text "v", .text "off")]), (120, .dict [(.text "v", .none)])]

/-- **C349 is false** for the other items: all three are accepted, without a warning -/
theorem C349_false : (RawSeries.appendAll {} textLater).items = textLater ∧ (RawSeries.appendAll {} textLater).warnings = [] ∧
    (∃ p ∈ textLater, ∃ l, p.2.values = some l ∧ ∃ c ∈ l, ¬ c.IsNumber) ∧
    (RawSeries.appendAll {} (textLater.drop 1)).warnings = [.notNumerical] := by
  refine ⟨by decide +kernel, by decide +kernel, ?_, by decide +kernel⟩
  exact ⟨(60, .dict [(.text "v", .text "off")]), by simp [textLater], _, rfl, .text "off", by simp, by simp [RawCell.IsNumber]⟩

/-- concrete cases: the kinds of data, one after the other -/
example : [RawData.list [.num 1, .bool true], .tuple [.num 1, .none], .text ['a'], .dict [(.text "v", .num 1)], .dict [(.int 0, .num 1), (.int 1, .text "x")],
    .dict [(.int 5, .num 1)], .set [.num 1], .scalar (.num 3), .list []].map (fun d => (firstWarning d).toOption) =
    [some none, some (some .notNumerical), some (some .notNumerical), some none, some (some .notNumerical), some none, some (some .noFormat), some (some .noFormat),
      some none] := by decide +kernel

end Timeseria
