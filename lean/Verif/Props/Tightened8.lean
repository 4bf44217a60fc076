import Verif.Props.Heap
import Verif.Props.Reconstruct
import Verif.Props.Tightened7

/-! # Theorems added after testing the others against wrong programs (eighth round) -/

namespace Timeseria

/-- **C34 (filters)**: filtering data that is not labelled raises `TypeError`. -/
theorem C34_filter_type {labels : List String} {h : Heap} {s : HSeries} {proto : Data} {ks : List String}
    (hp : (s.view h).opPrep = .ok (proto, ks)) (hnd : ∀ d, proto ≠ .dict d) : s.filterOp labels h = .error .typeError := by
  unfold HSeries.filterOp
  rw [hp]
  cases proto with
  | num v => rfl
  | list l => rfl
  | dict d => exact absurd rfl (hnd d)

/-- **C34 (slices)**: the slice by positions, in the model with objects, reads like the one on values. -/
theorem C34_slice_agrees {a b : ℕ} (hab : a < b) {h : Heap} {s : HSeries} (hs : s.Valid h) (hne : s.items ≠ []) :
    match s.sliceOp a b h with
    | .ok (h', r) => ∃ r0, (s.view h).slice (some a) (some b) none none = .ok r0 ∧ (r.view h').items = r0.items ∧ r.Valid h'
    | .error e => (s.view h).slice (some a) (some b) none none = .error e := by
  have hsl : (s.view h).slice (some a) (some b) none none = TSeries.build (((s.view h).items.drop a).take (b - a)) := by
    unfold TSeries.slice sliceItems
    rw [if_neg (by simpa [view_items, Heap.reads] using hne)]
    rw [if_neg (by simp), if_neg (by simp)]
    dsimp only [normIdx]
    rw [if_neg (by simp [inverted]), if_neg (by simp [inverted]; omega), if_neg (by simp), if_pos (by simp)]
    dsimp only
    rw [if_neg (by omega), if_neg (by omega), sliceIndexLoop_drop _ _ _ 0 (by omega) (by intro x hx; cases hx; omega)]
    simp
  rw [hsl]
  have hreads : ((s.view h).items.drop a).take (b - a) = h.reads ((s.items.drop a).take (b - a)) := by
    rw [view_items]
    unfold Heap.reads
    rw [List.map_take, List.map_drop]
  rw [hreads]
  have := finish_reads (p := .ok (h, (s.items.drop a).take (b - a))) (q := .ok (h.reads ((s.items.drop a).take (b - a))))
    ⟨rfl, fun y hy => hs.items y (List.mem_of_mem_drop (List.mem_of_mem_take hy))⟩
  unfold HSeries.sliceOp
  exact this

example : exH.Valid exHeap ∧ exH.items ≠ [] := by
  refine ⟨⟨by decide +kernel, by decide +kernel⟩, by decide +kernel⟩

/-! ## C08: the exception -/

/-- number, list or dictionary -/
inductive DataType where
  | number | list | dictionary
  deriving DecidableEq

/-- which of them some data is -/
def Data.type : Data → DataType
  | .num _ => .number
  | .list _ => .list
  | .dict _ => .dictionary

theorem checkData_spec (r : Data) (x : Item) (d : Data) : (SameKind r d → checkData r { x with data := some d } = .ok ()) ∧
    (r.type = d.type → ¬ SameKind r d → checkData r { x with data := some d } = .error .valueError) ∧
    (r.type ≠ d.type → checkData r { x with data := some d } = .error .typeError) := by
  cases r <;> cases d <;> simp [checkData, SameKind, Data.type]
  rename_i a b
  have hs : (∀ k, k ∈ Dict.keys a ↔ k ∈ Dict.keys b) ↔ Dict.sameKeys a b = true := (sameKeys_iff a b).symm
  constructor
  · exact hs.mp
  · intro k hk
    by_contra h
    exact hk (hs.mpr (by simpa using h) k)

/-- what `append` does with an item which is in its place: only the data is left to look at -/
theorem append_data {s : TSeries} {r : Data} (hr : s.ref = some r) (ht : r.truthy = true) (hne : s.items ≠ []) {x : Item} {d : Data}
    (hok : (s.append { x with data := some d }).2 = .ok ()) (d' : Data) :
    (s.append { x with data := some d' }).2 = checkData r { x with data := some d' } := by
  obtain ⟨first, hf⟩ : ∃ y, s.items.head? = some y := by cases h : s.items with
    | nil => exact absurd h hne
    | cons a b => exact ⟨a, rfl⟩
  obtain ⟨last, hl⟩ : ∃ y, s.items.getLast? = some y := ⟨_, List.getLast?_eq_getLast_of_ne_nil hne⟩
  have hpre : (if ({ x with data := some d' } : Item).isSlot then s.preSlot { x with data := some d' } else s.prePoint { x with data := some d' }) =
      (if ({ x with data := some d } : Item).isSlot then s.preSlot { x with data := some d } else s.prePoint { x with data := some d }) := rfl
  have hkeep : (if ({ x with data := some d } : Item).isSlot then s.preSlot { x with data := some d } else s.prePoint { x with data := some d }).1.items = s.items ∧
      (if ({ x with data := some d } : Item).isSlot then s.preSlot { x with data := some d } else s.prePoint { x with data := some d }).1.ref = s.ref := by
    constructor <;> unfold TSeries.preSlot TSeries.prePoint <;> dsimp only <;> (repeat' split) <;> rfl
  unfold TSeries.append at hok ⊢
  dsimp only at hok ⊢
  rw [hpre]
  generalize (if ({ x with data := some d } : Item).isSlot then s.preSlot { x with data := some d } else s.prePoint { x with data := some d }) = p at hok hkeep ⊢
  obtain ⟨s1, o⟩ := p
  dsimp only at hok hkeep ⊢
  cases o with
  | error e => cases hok
  | ok u =>
    dsimp only at hok ⊢
    unfold TSeries.baseAppend at hok ⊢
    rw [hkeep.1, hf, hl, hkeep.2, hr] at hok
    rw [hkeep.1, hf, hl, hkeep.2, hr]
    dsimp only at hok ⊢
    have hi : ({ x with data := some d' } : Item).isInstance first.cls = ({ x with data := some d } : Item).isInstance first.cls := rfl
    have hs : (if ({ x with data := some d' } : Item).isSlot then !slotSucceeds { x with data := some d' } last else !decide (x.t > last.t)) =
        (if ({ x with data := some d } : Item).isSlot then !slotSucceeds { x with data := some d } last else !decide (x.t > last.t)) := rfl
    rw [hi, hs]
    by_cases h1 : (!({ x with data := some d } : Item).isInstance first.cls) = true
    · rw [if_pos h1] at hok; cases hok
    · rw [if_neg h1] at hok ⊢
      by_cases h2 : (if ({ x with data := some d } : Item).isSlot then !slotSucceeds { x with data := some d } last else !decide (x.t > last.t)) = true
      · rw [if_pos h2] at hok; cases hok
      · rw [if_neg h2, if_pos ht]
        cases checkData r { x with data := some d' } <;> rfl

/-- **C08 (the exception)**: appending to a series with (non-zero, non-empty) data an item which would be accepted with other data raises
`TypeError` if its data is of another type (a number, a list, a dictionary), `ValueError` if it is a list of another length or a dictionary with
other labels, and is accepted otherwise. -/
theorem C08_exception {l : List Item} {s : TSeries} (hb : TSeries.build l = .ok s) (hl : ∀ y ∈ l, HasData y) {y : Item} {r : Data}
    (hy : y ∈ s.items) (hr : y.data = some r) {x : Item} {d : Data} (hok : (s.append { x with data := some d }).2 = .ok ()) (d' : Data) :
    (SameKind r d' → (s.append { x with data := some d' }).2 = .ok ()) ∧
    (r.type = d'.type → ¬ SameKind r d' → (s.append { x with data := some d' }).2 = .error .valueError) ∧
    (r.type ≠ d'.type → (s.append { x with data := some d' }).2 = .error .typeError) := by
  have hD := build_dataInv hl hb
  have hne := List.ne_nil_of_mem hy
  obtain ⟨q, hq, hqt, hqk⟩ := hD.ref hne
  have hk := hqk y hy r hr
  rw [append_data hq hqt hne hok d']
  obtain ⟨h1, h2, h3⟩ := checkData_spec q x d'
  have htype : ∀ {a b : Data}, SameKind a b → a.type = b.type := by
    intro a b h
    cases a <;> cases b <;> first | rfl | cases h
  refine ⟨fun h => h1 (hk.trans h), fun h hn => h2 ((htype hk).trans h) (fun h' => hn (hk.symm.trans h')), fun h => h3 (by rw [htype hk]; exact h)⟩

example : (∃ s, TSeries.build [mkPoint 0 (.dict [("a", 1)])] = .ok s ∧ (s.append { mkPoint 60 (.num 1) with data := some (.dict [("a", 2)]) }).2 = .ok () ∧
    (s.append { mkPoint 60 (.num 1) with data := some (.num 2) }).2 = .error .typeError ∧
    (s.append { mkPoint 60 (.num 1) with data := some (.dict [("b", 2)]) }).2 = .error .valueError) :=
  ⟨_, rfl, by decide +kernel, by decide +kernel, by decide +kernel⟩

/-! ## C62: predictions which are too short -/

/-- **C62 (short predictions)**: a model which predicts less data than the gap has items, or something which is not a list nor a dictionary of lists,
makes the call raise, `IndexError` in the first case and `TypeError` in the second. -/
theorem C62_short {p : Prediction} {ds : List (Dict ℚ)} {cur : List Item} {n : ℕ} :
    (p = .dicts ds → ds.length ≤ n → predictedAt p cur n = .error .indexError) ∧ (p = .other → predictedAt p cur n = .error .typeError) := by
  refine ⟨?_, ?_⟩
  · rintro rfl h
    unfold predictedAt
    dsimp only
    rw [List.getElem?_eq_none h]
  · rintro rfl; rfl

/-- **C62 (short predictions)**: so the reconstruction of a gap of the items from `g` to `h` from a shorter list ends with `IndexError`. -/
theorem C62_short_gap {pred : Predictor} {ds : List (Dict ℚ)} {cur : List Item} {g h : ℕ} (hp : pred cur g h = .ok (.dicts ds)) (hg : g ≤ h)
    (hh : h < cur.length) (hds : ds.length < h + 1 - g) : (reconstructGap pred cur g h).2 = .error .indexError := by
  unfold reconstructGap
  rw [hp]
  dsimp only
  have key : ∀ (n j : ℕ) (cur : List Item), g ≤ j → j + n ≤ cur.length → ds.length < j - g + n → (fillLossGap (.dicts ds) g n j cur).2 = .error .indexError ∨ ds.length < j - g := by
    intro n
    induction n with
    | zero => intro j cur _ _ h; exact .inr (by omega)
    | succ n ih =>
      intro j cur hj hl hd
      by_cases hs : ds.length ≤ j - g
      · left
        rw [fillLossGap, (C62_short (p := .dicts ds) (ds := ds) (cur := cur)).1 rfl hs]
      · rcases ih (j + 1) (cur.set j ((cur[j]'(by omega)).rebuilt (ds[j - g]'(by omega)))) (by omega) (by rw [List.length_set]; omega) (by omega) with h | h
        · left
          rw [fillLossGap]
          have : predictedAt (.dicts ds) cur (j - g) = .ok (ds[j - g]'(by omega)) := by
            unfold predictedAt
            dsimp only
            rw [List.getElem?_eq_getElem (by omega)]
          rw [this]
          dsimp only
          rw [List.getElem?_eq_getElem (by omega)]
          exact h
        · omega
  rcases key (h + 1 - g) g cur (le_refl _) (by omega) (by omega) with h | h
  · exact h
  · omega

example : (reconstructGap (fun _ _ _ => .ok (.dicts [[("v", 5)]])) fivePoints 1 2).2 = .error .indexError :=
  C62_short_gap rfl (by decide) (by decide) (by decide)

/-! ## C193: errors which are not there, densities which are not positive -/

/-- **C193**: without the errors of the fit, for the label or at all, the bounds raise `KeyError`, whatever they are. -/
theorem C193_not_stored {lg : ℚ → ℚ} {d : Detector} {c : AnomCfg} {k : String} (h : d.errors = none ∨ ∃ e, d.errors = some e ∧ e.get? k = none) :
    labelRange lg d c k = .error .keyError := by
  unfold labelRange storedErrors
  rcases h with h | ⟨e, h, h'⟩
  · rw [h]
  · rw [h]
    dsimp only
    rw [h']

/-- **C193**: a logarithmic index cannot have a bound given as a number where the density is not positive: `ValueError`. -/
theorem C193_log_bound {lg : ℚ → ℚ} {d : Detector} {c : AnomCfg} {k : String} {errs : List ℚ} {a b : ℚ} (he : storedErrors d k = .ok errs)
    (hk : c.kind = .log) (ha : c.lower = .num a) (hb : c.upper = .num b) (h0 : d.dist k a ≤ 0 ∨ d.dist k b ≤ 0) :
    labelRange lg d c k = .error .valueError := by
  unfold labelRange
  rw [he, ha, hb]
  simp only [resolveBound, boundValue, Bound.isStr, Bool.and_false, Bool.false_eq_true, if_false]
  unfold checkLogs pyLog
  rw [if_pos hk]
  rcases h0 with h | h
  · rw [if_pos h]
  · dsimp only
    rw [if_pos h]
    split <;> first | rfl | (rename_i h1 h2; cases h2)

example : labelRange id (tentDetector 1 false "E" 0 (some [("v", [1, 2])])) { lower := .num 1, upper := .num 20 } "v" = .error .valueError :=
  C193_log_bound (errs := [1, 2]) rfl rfl rfl rfl (.inr (by decide +kernel))
example : labelRange id (tentDetector 1 false "E" 0 (some [("v", [1, 2])])) {} "w" = .error .keyError :=
  C193_not_stored (.inr ⟨_, rfl, by decide +kernel⟩)

/-! ## C131: metrics which are not there -/

/-- **C131 (unknown metrics)**: a detector with an error metric which is not one of the four cannot be applied: `KeyError`, whatever the series. -/
theorem C131_unknown {lg : ℚ → ℚ} {d : Detector} (h : d.metric ≠ "E" ∧ d.metric ≠ "AE" ∧ d.metric ≠ "PE" ∧ d.metric ≠ "APE") (c : AnomCfg)
    (pre : Option Predictions) (s : TSeries) : anomApply lg d c pre s = .error .keyError := by
  unfold anomApply knownMetric
  rw [if_neg (by simp [h])]

example : anomApply id (tentDetector 1 false "MSE" 0 none) {} none exSeries = .error .keyError := C131_unknown (by decide) _ _ _

end Timeseria
