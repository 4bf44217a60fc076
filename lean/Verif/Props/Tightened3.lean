import Verif.Props.DetectorFitClaims
import Verif.Props.Text
import Verif.Props.Plots
import Verif.Props.InplaceMore
import Verif.Props.Labels
import Verif.Props.Units
import Verif.Props.Create
import Verif.Props.Models
import Verif.Props.Heap
import Verif.Props.Access
import Verif.Props.Reconstruct

/-! # Theorems added after testing the others against wrong programs (3) -/

namespace Timeseria

variable {I D : Type}

/-! ## C153: the standard deviations -/

theorem fitDists_stdev {K : InnerKind I D} {k : String} {ev : List Evaluated} {x : ℚ}
    (hx : stdevOf K.sqrt (ev.map Evaluated.error) = .ok x) :
    ∀ {evs : List (String × List Evaluated)} {ds ds' : Dict D} {ss ss' : Dict ℚ},
    fitDists K evs ds ss = ((ds', ss'), .ok ()) → (∀ e ∈ evs, e.1 = k → e.2 = ev) →
    ((k, ev) ∈ evs ∨ ss.get? k = some x) → ss'.get? k = some x := by
  intro evs
  induction evs with
  | nil =>
    intro ds ds' ss ss' h _ hm
    simp only [fitDists, Prod.mk.injEq] at h
    rcases hm with hm | hm
    · simp at hm
    · rw [← h.1.2]; exact hm
  | cons e evs ih =>
    intro ds ds' ss ss' h hu hm
    obtain ⟨k', ev'⟩ := e
    unfold fitDists at h
    split at h
    · cases h
    · split at h
      · cases h
      · rename_i f _ s hs
        refine ih h (fun e he => hu e (by simp [he])) ?_
        by_cases hk : k' = k
        · subst hk
          have : ev' = ev := hu (k', ev') (by simp) rfl
          subst this
          rw [hx] at hs
          injection hs with hs
          right
          rw [Dict.get?_set, if_pos rfl, hs]
        · rcases hm with hm | hm
          · rcases List.mem_cons.1 hm with hm | hm
            · cases hm; exact absurd rfl hk
            · exact .inl hm
          · right
            rw [Dict.get?_set, if_neg hk]; exact hm

/-- **C153** (the standard deviations): after a successful fit which stores the errors, the standard deviation kept
for a label is the square root of the sample variance of its errors: the sum of the squared distances from the mean,
divided by their number minus one. -/
theorem C153_stdev {K : InnerKind I D} {a : FitArgs} {d d' : DetData I D} {m : MSeries}
    (h : detFit K a d m = (d', .ok ())) (hs : a.store = true) :
    ∃ ks ev ss, m.labels = .ok ks ∧ d'.errors = some ev ∧ d'.stdevs = some ss ∧
      ∀ k ∈ ks, ∃ (le : List ℚ) (mean var : ℚ), ev.get? k = some le ∧ 2 ≤ le.length ∧
        mean * le.length = le.sum ∧ var * (le.length - 1) = (le.map (fun x => (x - mean) ^ 2)).sum ∧
        ss.get? k = some (K.sqrt var) := by
  obtain ⟨ks, w, d1, evs, ds, ss, hd⟩ := detFit_ok h
  have hst : d'.errors = some (column Evaluated.error evs) ∧ d'.stdevs = some ss := by
    rw [hd.result]
    unfold DetData.storeValues
    rw [hs]
    exact ⟨rfl, rfl⟩
  refine ⟨ks, _, ss, hd.labels, hst.1, hst.2, ?_⟩
  intro k hk
  obtain ⟨ev, h1, h2, h3⟩ := hd.label hk
  have h2l := fitDists_two hd.dists _ h1
  simp only at h2l
  have hlen : (2 : ℚ) ≤ ev.length := by exact_mod_cast h2l
  have hsd : stdevOf K.sqrt (ev.map Evaluated.error) = .ok (K.sqrt
      (((ev.map Evaluated.error).map (fun x => (x - (ev.map Evaluated.error).sum / (ev.map Evaluated.error).length) ^ 2)).sum /
        ((ev.map Evaluated.error).length - 1))) := by
    unfold stdevOf
    rw [if_neg (by rw [List.length_map]; omega)]
  refine ⟨ev.map Evaluated.error, (ev.map Evaluated.error).sum / (ev.map Evaluated.error).length,
    ((ev.map Evaluated.error).map (fun x => (x - (ev.map Evaluated.error).sum / (ev.map Evaluated.error).length) ^ 2)).sum /
        ((ev.map Evaluated.error).length - 1), h2 _, by simpa using h2l, ?_, ?_, ?_⟩
  rotate_left 2
  · refine fitDists_stdev hsd hd.dists ?_ (.inl h1)
    intro e he hek
    obtain ⟨k1, _, h4⟩ := mapE_mem hd.evals _ he
    obtain ⟨k2, _, h5⟩ := mapE_mem hd.evals _ h1
    have h6 := (evalLabel_ok h4).1
    have h7 := (evalLabel_ok h5).1
    have : k1 = k2 := by rw [← h6, ← h7]; exact hek
    subst this
    rw [h4] at h5
    injection h5 with h5
    rw [h5]
  · rw [div_mul_cancel₀]
    rw [List.length_map]
    intro h0
    rw [h0] at hlen
    norm_num at hlen
  · rw [div_mul_cancel₀]
    rw [List.length_map]
    intro h0
    linarith

/-- **C154** (which metrics are let through): once the inner model is fitted, a metric which is not one of the five names
is refused with a `ValueError`, and the metric of an earlier fit stays; with one of the five it becomes the metric of
the detector.  (With "SLE" the fit fails later, see `C154_supported`.) -/
theorem C154_accepted_metrics {K : InnerKind I D} {a : FitArgs} {d d1 : DetData I D} {m : MSeries} {ks : List String}
    (hl : m.labels = .ok ks) (hf : fitInner K a m ks d = (d1, .ok ())) :
    (a.metric ∉ ["E", "AE", "PE", "APE", "SLE"] →
      (detFit K a d m).2 = .error .valueError ∧ (detFit K a d m).1.metric = d1.metric) ∧
    (a.metric ∈ ["E", "AE", "PE", "APE", "SLE"] → (detFit K a d m).1.metric = some a.metric) := by
  have hacc : acceptedMetric a.metric = decide (a.metric ∈ ["E", "AE", "PE", "APE", "SLE"]) := by
    unfold acceptedMetric
    simp only [List.mem_cons, List.not_mem_nil, or_false, Bool.decide_or, or_assoc]
    simp only [Bool.or_assoc]
    rfl
  unfold detFit
  rw [hl]
  dsimp only
  rw [hf]
  dsimp only
  rw [hacc]
  constructor
  · intro hm
    rw [if_neg (by simpa using hm)]
    exact ⟨rfl, rfl⟩
  · intro hm
    rw [if_pos (by simpa using hm)]
    have hr : (({ d1 with context := some a.context } : DetData I D).reset a).metric = some a.metric := rfl
    split
    · exact hr
    · unfold evaluateInner
      split
      · exact hr
      · split
        · exact hr
        · unfold DetData.storeValues
          split_ifs <;> exact hr

/-- the hypotheses of the two are met -/
theorem C153_C154_metric_witness :
    (detFit (firstKind false 1 1 0) { metric := "E" } {} fiveSeries).1.stdevs = some [("v", 349 / 3)] ∧
    (detFit (firstKind false 1 1 0) { metric := "EE" } {} fiveSeries).2 = .error .valueError ∧
    (detFit (firstKind false 1 1 0) { metric := "APE" } {} fiveSeries).1.metric = some "APE" := by
  decide +kernel

/-! ## C147: the height -/

/-- **C147** (partial, the `height` argument): a height other than zero takes the place of the maximum, and zero counts as
not given; so the values up to the height, if it is above the minimum, are within the range. -/
theorem C147_height_partial (lo hi h : ℚ) :
    autoRange lo hi (some 0) = autoRange lo hi none ∧
    (h ≠ 0 → autoRange lo hi (some h) = autoRange lo h none) ∧
    (h ≠ 0 → lo < h → ∀ v, lo ≤ v → v ≤ h → (autoRange lo hi (some h)).1 ≤ v ∧ v ≤ (autoRange lo hi (some h)).2) := by
  refine ⟨by simp [autoRange], fun hh => by simp [autoRange, hh], ?_⟩
  intro hh hlt v h1 h2
  have : autoRange lo hi (some h) = (lo - (h - lo) * (1 / 10), h + (h - lo) * (1 / 10)) := by
    simp only [autoRange, if_neg hh]
    rw [if_pos hlt.ne']
  rw [this]
  constructor <;> simp only <;> linarith

/-- a concrete case -/
theorem C147_height_witness : autoRange 1 100 (some 11) = (0, 12) := by decide +kernel

/-! ## C73: which characters are blanks -/

/-- **C73** (blanks): the characters removed around a text are the space, the tabulations, the line feed, the carriage
return and the form feed, and no other. -/
theorem C73_which_blanks (pl : List Text) (c : Char) :
    (c ∈ [' ', '\t', '\n', '\r', '\x0b', '\x0c'] → ∀ s : Text, sanitize pl (c :: (s ++ [c])) = sanitize pl s) ∧
    (c ∉ [' ', '\t', '\n', '\r', '\x0b', '\x0c', '\'', '"'] → ∀ s : Text,
      (∀ e ∈ s, e ∉ [' ', '\t', '\n', '\r', '\x0b', '\x0c', '\'', '"']) → placeholderKey (c :: (s ++ [c])) ∉ pl →
      sanitize pl (c :: (s ++ [c])) = some (c :: (s ++ [c]))) := by
  have hb : ∀ e : Char, isBlank e = true ↔ e ∈ [' ', '\t', '\n', '\r', '\x0b', '\x0c'] := by
    intro e
    unfold isBlank
    simp [or_assoc]
  have hq : ∀ e : Char, e ∉ [' ', '\t', '\n', '\r', '\x0b', '\x0c', '\'', '"'] → isBlank e = false ∧ isQuote e = false := by
    intro e he
    simp only [List.mem_cons, List.not_mem_nil, or_false, not_or] at he
    constructor
    · rw [← Bool.not_eq_true, hb]; simp [he]
    · simp [isQuote, he]
  constructor
  · intro hc s
    have h1 : ∀ e ∈ [c], isBlank e = true := by intro e he; simp at he; subst he; exact (hb e).2 hc
    exact C73_outer_blanks_removed pl [c] s [c] h1 h1
  · intro hc s hs hp
    refine C73_plain_text_unchanged pl _ ?_ hp
    intro e he
    simp only [List.mem_cons, List.mem_append, List.not_mem_nil, or_false] at he
    rcases he with rfl | he | rfl
    · exact hq _ hc
    · exact hq e (hs e he)
    · exact hq _ hc

/-! ## C88: neighbours given -/

/-- **C88** (partial, the neighbours given): with the indexes `p ≥ 1` and `n` of the items before and after, the value of each
label is half way between those of the two items; a timestamp which is not between the two raises `ValueError`. -/
theorem C88_given_partial {ps : List VPoint} {ks : List String} {p n : ℕ} (hp : 1 ≤ p) {a b : VPoint}
    (ha : ps[p]? = some a) (hb : ps[n]? = some b)
    (hd : ∀ k ∈ ks, (a.data.get? k).isSome ∧ (b.data.get? k).isSome) (x : ℚ) :
    (a.t < x ∧ x < b.t → ∃ d, uniformEval ps ks x (some p) (some n) = .ok d ∧ d.keys = ks ∧
      ∀ k ∈ ks, ∀ u v, a.data.get? k = some u → b.data.get? k = some v → d.get? k = some ((u + v) / 2)) ∧
    (¬ (a.t < x ∧ x < b.t) → uniformEval ps ks x (some p) (some n) = .error .valueError) := by
  have ht : truthyIdx (some (p : Int)) = true := by
    unfold truthyIdx
    simp
    omega
  obtain ⟨hlp, hga⟩ := List.getElem?_eq_some_iff.1 ha
  obtain ⟨hln, hgb⟩ := List.getElem?_eq_some_iff.1 hb
  have ga : pyGet ps (p : Int) = .ok a := by simp [pyGet, hlp, hga]
  have gb : pyGet ps (n : Int) = .ok b := by simp [pyGet, hln, hgb]
  have key : uniformEval ps ks x (some p) (some n) =
      if a.t < x ∧ x < b.t then perLabelDict ks (uniformValue a b) else .error .valueError := by
    unfold uniformEval
    rw [if_neg (by simp), if_neg (by simp), if_neg (by simp [ht])]
    simp only [ga, gb, uniformBetween]
  rw [key]
  constructor
  · intro hx
    rw [if_pos hx]
    have hv : ∀ k ∈ ks, ∃ v, uniformValue a b k = .ok v := by
      intro k hk
      obtain ⟨h1, h2⟩ := hd k hk
      obtain ⟨u, hu⟩ := Option.isSome_iff_exists.1 h1
      obtain ⟨v, hv⟩ := Option.isSome_iff_exists.1 h2
      exact ⟨u + (v - u) / 2, by simp only [uniformValue, hu, hv]⟩
    obtain ⟨d, hd1⟩ : ∃ d, perLabelDict ks (uniformValue a b) = .ok d := by
      clear key
      induction ks with
      | nil => exact ⟨[], rfl⟩
      | cons k r ih =>
        obtain ⟨v, hv1⟩ := hv k (by simp)
        obtain ⟨d, hd1⟩ := ih (fun k hk => hd k (by simp [hk])) (fun k hk => hv k (by simp [hk]))
        exact ⟨(k, v) :: d, by simp only [perLabelDict, hv1, hd1]⟩
    obtain ⟨hkeys, hvals⟩ := perLabelDict_inv hd1
    refine ⟨d, hd1, hkeys, ?_⟩
    intro k hk u v hu hv1
    obtain ⟨w, hw2⟩ : ∃ w, d.get? k = some w := by
      cases hg : d.get? k with
      | none => exact absurd (hkeys ▸ hk) (Dict.get?_eq_none.1 hg)
      | some w => exact ⟨w, rfl⟩
    have hw1 := hvals k w hw2
    simp only [uniformValue, hu, hv1] at hw1
    injection hw1 with hw1
    rw [hw2, ← hw1]
    congr 1
    ring
  · intro hx
    rw [if_neg hx]

/-- three points -/
def exThreeV : List VPoint := exInterp ++ [{ t := 200, vf := 200, vt := 200, data := [("v", 50)] }]

/-- a concrete case -/
theorem C88_given_witness : uniformEval exThreeV ["v"] 150 (some 1) (some 2) = .ok [("v", 35)] ∧
    uniformEval exThreeV ["v"] 5000 (some 1) (some 2) = .error .valueError := by decide +kernel

/-! ## C200 with objects -/

/-- **C200 is false** also for the operation on objects (`Verif.Model.Heap`). -/
theorem C200_heap_false {cal : Calendar} {h : Heap} {s : HSeries} {ks : List String} (hs : OpSeries cal (s.view h) ks)
    (w : Int) (hw : w < 1) : s.mavgOp cal w h = .error .attributeError := by
  obtain ⟨x, r, d, kk, hi, hd, hkk, hp, hprep⟩ := hs.opPrep
  unfold HSeries.mavgOp
  rw [hprep]
  dsimp only
  rw [if_pos hw]

/-! ## Exceptions -/

/-- **C71** (nothing to rename): on a series whose reference data is an empty list or dictionary, renaming and removing a
label raise `TypeError` and change nothing. -/
theorem C71_empty_data {h : Heap} {s : HSeries} {a : ℕ} {d : Data} (hne : s.items ≠ []) (hr : s.refA = some a)
    (ha : h.data[a]? = some d) (hd : d.truthy = false) (k k' : String) :
    s.removeLabel k h = (h, .error .typeError) ∧ s.rename k k' h = (h, .error .typeError) := by
  have hok : s.refOk h = false := by
    unfold HSeries.refOk
    rw [hr]
    simp only [Option.bind_some, ha, hd, Bool.or_false]
    cases hh : s.items
    · exact absurd hh hne
    · rfl
  unfold HSeries.removeLabel HSeries.rename
  simp [hok]

/-- **C197** is false: the slice without bounds, which for a list is a copy, raises `ValueError` for every series. -/
theorem C197_unbounded_false (s : TSeries) : s.getSlice none none = .error .valueError := rfl

/-- **C141** (partial, both arguments): with `seconds` given as well, a number given as `value` takes its place, and a text is a
`TypeError`. -/
theorem C141_both_partial (fmt : ℚ → String) (x y : ℚ) (s : String) :
    timeUnitInit fmt { value := some (.seconds x), secs := some y } = .ok (.component (some x)) ∧
    timeUnitInit fmt { value := some (.text s), secs := some y } = .error .typeError := ⟨rfl, rfl⟩

/-- **C74** (the exceptions): what is refused for a slot in any number of dimensions is refused with a `ValueError`. -/
theorem C74_generic_refused (a b : Coords) (h : a.length ≠ b.length ∨ a = b) : mkGenericSlot a b = .error .valueError := by
  unfold mkGenericSlot
  by_cases h1 : a.length = b.length
  · rw [if_neg (by simpa using h1)]
    rcases h with h | h
    · exact absurd h1 h
    · rw [if_pos h]
  · rw [if_pos h1]

/-- **C182** (partial, slots): a slot cannot be created without a start, a `t` or a `dt`. -/
theorem C182_slot_partial (cal : Calendar) (numeric : String → Bool) (stop : Option TPoint) (unit : Option TUnit) (kw : Kwargs)
    (ht : kw.t = none ∨ kw.t = some .other) (hd : kw.dt = none) :
    timeSlot cal numeric none stop unit kw = .error .typeError := by
  unfold timeSlot
  rcases ht with ht | ht <;> simp only [ht, hd]

/-- **C201** (partial, failures): a path that is not there is an `IOError`, a `data.json` whose writing failed a `ValueError`; and a
model which is not parametric is not saved, with a `TypeError`. -/
theorem C201_failures_partial {R E : Type} (c : UnitCodec) (d : Disk) (path : String) (K : MKind (Dict PVal) R E)
    (st : MState (Dict PVal)) :
    ((∀ e ∈ d, e.1 ≠ path) → loadModel c d path = .error .ioError) ∧
    (List.lookup path d = some none → loadModel c d path = .error .valueError) ∧
    (K.hasParams = false → K.hasFit = false → K.save c st d path = (d, .error .typeError)) := by
  refine ⟨?_, ?_, ?_⟩
  · intro h
    have : List.lookup path d = none := by
      rw [List.lookup_eq_none_iff]
      intro p hp
      have := h p hp
      simp [Ne.symm this]
    simp only [loadModel, this]
  · intro h
    simp only [loadModel, h]
  · intro h1 h2
    unfold MKind.save MKind.parametric
    simp [h1, h2]

end Timeseria
