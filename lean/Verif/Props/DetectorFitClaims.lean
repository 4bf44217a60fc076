import Verif.Props.DetectorFit

/-! # Claims on fitting, saving and loading the anomaly detector (C155-C160) -/

namespace Timeseria

variable {I D : Type}

/-! ## A concrete inner model -/

/-- An inner model with its window, which predicts the first value of the series it was fitted on; the
window is `w` without context and `w'` with it.  The distribution is the triangular one around `loc`. -/
def firstKind (recon : Bool) (w w' : ℕ) (loc : ℚ) : InnerKind (ℕ × ℚ) ℚ where
  recon := recon
  fit := fun target m =>
    (((if target.isSome then w' else w), ((m.items.head?).bind (fun x => x.val? "v")).getD 0), .ok ())
  window := fun x => some x.1
  predict := fun x _ _ _ _ => .ok x.2
  distFit := fun _ => .ok loc
  density := tent
  loc := id
  findX := fun _ _ => .ok 0
  sqrt := id

/-- a series of two labels -/
def twoLabelSeries : TSeries := aSeries
  [mkPoint 0 (.dict [("u", 1), ("v", 10)]), mkPoint 3600 (.dict [("u", 2), ("v", 11)]),
   mkPoint 7200 (.dict [("u", 1), ("v", 10)]), mkPoint 10800 (.dict [("u", 1), ("v", 13)]),
   mkPoint 14400 (.dict [("u", 3), ("v", 30)]), mkPoint 18000 (.dict [("u", 3), ("v", 12)])]

/-- the five points, as handed to a model -/
def fiveSeries : MSeries := MSeries.ofSeries (aSeries fivePoints)

/-- other five points, growing more slowly -/
def otherSeries : MSeries :=
  MSeries.ofSeries (aSeries [aPoint 0 10, aPoint 1 11, aPoint 2 12, aPoint 3 13, aPoint 4 13])

/-- the hypotheses of C153 and C154 are met by a concrete fit, with the values expected -/
theorem C153_C154_witness :
    ((detFit (firstKind false 1 1 0) { metric := "E" } {} fiveSeries).2.toOption.isSome ∧
      (detFit (firstKind false 1 1 0) { metric := "E" } {} fiveSeries).1.errors = some [("v", [0, 3, 20])] ∧
      (detFit (firstKind false 1 1 0) { metric := "E" } {} fiveSeries).1.actual = some [("v", [10, 13, 30])]) ∧
    (detFit (firstKind true 1 1 0) { metric := "E" } {} fiveSeries).1.errors = some [("v", [0, 3])] ∧
    (detFit (firstKind false 1 1 0) { metric := "SLE" } {} fiveSeries).2.toOption.isNone := by
  decide +kernel

/-! ## C155: the last fit only -/

theorem evalLabel_congr {K : InnerKind I D} {d d' : DetData I D} {a : FitArgs} (l : List Item) (w : ℕ)
    (hc : a.context = false) (hi : d.inner = d'.inner) (k : String) :
    evalLabel K d a l w k = evalLabel K d' a l w k := by
  have h1 : ∀ i, evalItem K d a l k i = evalItem K d' a l k i := by
    intro i
    unfold evalItem DetData.predictedValue
    rw [hc, hi]
    rfl
  have h2 : ∀ (is : List ℕ) (acc : List Evaluated), evalItems K d a l w k is acc = evalItems K d' a l w k is acc := by
    intro is
    induction is with
    | nil => intro acc; rfl
    | cons i is ih =>
      intro acc
      unfold evalItems
      rw [h1 i]
      simp only [ih]
  unfold evalLabel
  rw [h2]

/-- a fit without context which stores the errors, from any state -/
theorem detFit_fresh {K : InnerKind I D} {a : FitArgs} (d : DetData I D) {m : MSeries} (hc : a.context = false)
    (hs : a.store = true) :
    (detFit K a d m).2 = (detFit K a {} m).2 ∧
    ((detFit K a d m).2 = .ok () → (detFit K a d m).1 = { (detFit K a {} m).1 with inners := d.inners }) := by
  unfold detFit
  cases hl : m.labels with
  | error e => exact ⟨rfl, by intro h; cases h⟩
  | ok ks =>
    dsimp only
    unfold fitInner
    rw [hc]
    simp only [Bool.false_eq_true, if_false]
    cases hf : K.fit none m with
    | mk x o =>
      cases o with
      | error e => exact ⟨rfl, by intro h; cases h⟩
      | ok u =>
        cases u
        dsimp only
        cases hw : K.window x with
        | none => exact ⟨rfl, by intro h; cases h⟩
        | some w =>
          dsimp only
          cases hm : acceptedMetric a.metric with
          | false => exact ⟨rfl, by intro h; cases h⟩
          | true =>
            simp only [if_true]
            unfold evaluateInner
            have : evalLabel K (DetData.reset { d with inner := some x, window := some w, context := some false } a) a m.items w =
                evalLabel K (DetData.reset { inner := some x, window := some w, context := some false : DetData I D} a) a m.items w := by
              funext k
              apply evalLabel_congr _ _ hc
              simp [DetData.reset, DetData.storeValues, hs]
            simp only [DetData.reset, DetData.storeValues, hs, if_true] at this ⊢
            rw [this]
            generalize mapE _ ks = r
            cases r with
            | error e => exact ⟨rfl, by intro h; cases h⟩
            | ok evs =>
              dsimp only
              generalize fitDists K evs [] [] = q
              obtain ⟨⟨ds, ss⟩, o⟩ := q
              cases o with
              | error e => exact ⟨rfl, by intro h; cases h⟩
              | ok u =>
                cases u
                exact ⟨rfl, fun _ => rfl⟩

theorem detApply_congr {K : InnerKind I D} (lg : ℚ → ℚ) (c : AnomCfg) {d d' : DetData I D} (s : TSeries)
    (h1 : d.window = d'.window) (h2 : d.context = d'.context) (h3 : d.metric = d'.metric) (h4 : d.errors = d'.errors)
    (h5 : d.stdevs = d'.stdevs) (h6 : d.dists = d'.dists)
    (h7 : ∀ ctx, d.context = some ctx → ∀ l i k, d.predictedValue K ctx l i k = d'.predictedValue K ctx l i k) :
    detApply K lg c d s = detApply K lg c d' s := by
  have hv : d.view K = d'.view K := by
    unfold DetData.view
    rw [← h1, ← h2, ← h3, ← h4, ← h5, ← h6]
    cases hw : d.window with
    | none => rfl
    | some w =>
      cases hc : d.context with
      | none => rfl
      | some ctx =>
        cases d.metric <;> cases d.dists <;> cases d.stdevs <;> try rfl
        dsimp only
        congr 2
        funext l i k
        exact h7 ctx hc l i k
  unfold detApply
  rw [hv, h6]

/-- **C155** is false: after a fit with `store_errors=False` the bounds are computed with the errors of an
earlier fit: a new detector refuses to be applied, one fitted before on another series gives indexes (and
other ones if it had been fitted on a third series). -/
theorem C155_false :
    (detApply (firstKind false 1 1 0) id { kind := .lin }
      (detFit (firstKind false 1 1 0) { metric := "E", store := false } {} fiveSeries).1 (aSeries fivePoints)).toOption.isNone ∧
    indexesOf (detApply (firstKind false 1 1 0) id { kind := .lin }
      (detFit (firstKind false 1 1 0) { metric := "E", store := false }
        (detFit (firstKind false 1 1 0) { metric := "E" } {} otherSeries).1 fiveSeries).1 (aSeries fivePoints)) =
      some [some (some 0), some (some 1), some (some 1)] ∧
    indexesOf (detApply (firstKind false 1 1 0) id { kind := .lin }
      (detFit (firstKind false 1 1 0) { metric := "E", store := false }
        (detFit (firstKind false 1 1 0) { metric := "E" } {} fiveSeries).1 fiveSeries).1 (aSeries fivePoints)) =
      some [some (some 0), some (some 0), some (some 1)] := by
  decide +kernel

/-- **C155** is false with context too: the window of an earlier fit is kept. -/
theorem C155_false_window :
    (detFit (firstKind false 1 2 0) { metric := "E", context := true } {} (MSeries.ofSeries twoLabelSeries)).1.window = some 2 ∧
    (detFit (firstKind false 1 2 0) { metric := "E", context := true }
      (detFit (firstKind false 1 2 0) { metric := "E" } {} (MSeries.ofSeries twoLabelSeries)).1
      (MSeries.ofSeries twoLabelSeries)).1.window = some 1 ∧
    (detFit (firstKind false 1 2 0) { metric := "E", context := true }
      (detFit (firstKind false 1 2 0) { metric := "E" } {} (MSeries.ofSeries twoLabelSeries)).1
      (MSeries.ofSeries twoLabelSeries)).2.toOption.isSome := by
  decide +kernel

/-- **C155** (partial): a fit without context which stores the errors has the same outcome, and then gives the
same detections with all arguments, whatever was done with the detector before. -/
theorem C155_partial {K : InnerKind I D} {a : FitArgs} (d : DetData I D) {m : MSeries} (hc : a.context = false)
    (hs : a.store = true) :
    (detFit K a d m).2 = (detFit K a {} m).2 ∧
    ((detFit K a d m).2 = .ok () → ∀ lg c s,
      detApply K lg c (detFit K a d m).1 s = detApply K lg c (detFit K a {} m).1 s) := by
  obtain ⟨h1, h2⟩ := detFit_fresh (K := K) (a := a) d (m := m) hc hs
  refine ⟨h1, ?_⟩
  intro h lg c s
  have hctx : (detFit K a {} m).1.context = some false := by
    rw [h1] at h
    obtain ⟨ks, w, d1, evs, ds, ss, hd⟩ := detFit_ok (show detFit K a {} m = ((detFit K a {} m).1, .ok ()) by
      rw [← h])
    rw [hd.window'.2.1, hc]
  rw [h2 h]
  refine detApply_congr lg c s ?_ ?_ ?_ ?_ ?_ ?_ ?_ <;> try rfl
  intro ctx hcx l i k
  simp only at hcx
  rw [hctx] at hcx
  injection hcx with hcx
  subst hcx
  rfl

/-! ## C156: a failed fit -/

/-- **C156** is false: a fit with an unknown metric raises, but the inner model is already the new one, and the
detection on the series of the first fit is different. -/
theorem C156_false :
    (detFit (firstKind false 1 1 0) { metric := "MAPE" }
      (detFit (firstKind false 1 1 0) { metric := "E" } {} fiveSeries).1
      (MSeries.ofSeries (aSeries [aPoint 0 26, aPoint 1 27, aPoint 2 26]))).2.toOption.isNone ∧
    indexesOf (detApply (firstKind false 1 1 0) id { kind := .lin }
      (detFit (firstKind false 1 1 0) { metric := "E" } {} fiveSeries).1 (aSeries fivePoints)) =
      some [some (some 0), some (some 0), some (some 1)] ∧
    indexesOf (detApply (firstKind false 1 1 0) id { kind := .lin }
      (detFit (firstKind false 1 1 0) { metric := "MAPE" }
        (detFit (firstKind false 1 1 0) { metric := "E" } {} fiveSeries).1
        (MSeries.ofSeries (aSeries [aPoint 0 26, aPoint 1 27, aPoint 2 26]))).1 (aSeries fivePoints)) ≠
      some [some (some 0), some (some 0), some (some 1)] := by
  decide +kernel

theorem fitContext_kept {K : InnerKind I D} {m : MSeries} : ∀ (ks : List String) (d : DetData I D),
    (fitContext K m ks d).1.metric = d.metric ∧ (fitContext K m ks d).1.errors = d.errors ∧
    (fitContext K m ks d).1.actual = d.actual ∧ (fitContext K m ks d).1.predicted = d.predicted ∧
    (fitContext K m ks d).1.dists = d.dists ∧ (fitContext K m ks d).1.stdevs = d.stdevs ∧
    (fitContext K m ks d).1.context = d.context ∧ (fitContext K m ks d).1.inner = d.inner := by
  intro ks
  induction ks with
  | nil => intro d; exact ⟨rfl, rfl, rfl, rfl, rfl, rfl, rfl, rfl⟩
  | cons k ks ih =>
    intro d
    unfold fitContext
    split
    · exact ⟨rfl, rfl, rfl, rfl, rfl, rfl, rfl, rfl⟩
    · split
      · exact ⟨rfl, rfl, rfl, rfl, rfl, rfl, rfl, rfl⟩
      · exact ih _
      · exact ih _

/-- **C156** (partial): asking for the context on a series with a single label is refused and changes nothing;
a fit in which the fit of an inner model raises leaves the metric, the stored values and the distributions as
they were. -/
theorem C156_partial {K : InnerKind I D} {a : FitArgs} {d : DetData I D} {m : MSeries} {ks : List String}
    (hks : m.labels = .ok ks) :
    (a.context = true → ks.length ≤ 1 → detFit K a d m = (d, .error .valueError)) ∧
    ((fitInner K a m ks d).2 ≠ .ok () →
      (detFit K a d m).2 = (fitInner K a m ks d).2 ∧
      (detFit K a d m).1.metric = d.metric ∧ (detFit K a d m).1.errors = d.errors ∧
      (detFit K a d m).1.actual = d.actual ∧ (detFit K a d m).1.predicted = d.predicted ∧
      (detFit K a d m).1.dists = d.dists ∧ (detFit K a d m).1.stdevs = d.stdevs ∧
      (detFit K a d m).1.context = d.context) := by
  constructor
  · intro hc hl
    unfold detFit
    rw [hks]
    dsimp only
    unfold fitInner
    rw [if_pos hc, if_pos hl]
  · intro hne
    have hkept : (fitInner K a m ks d).1.metric = d.metric ∧ (fitInner K a m ks d).1.errors = d.errors ∧
        (fitInner K a m ks d).1.actual = d.actual ∧ (fitInner K a m ks d).1.predicted = d.predicted ∧
        (fitInner K a m ks d).1.dists = d.dists ∧ (fitInner K a m ks d).1.stdevs = d.stdevs ∧
        (fitInner K a m ks d).1.context = d.context := by
      unfold fitInner
      split
      · split
        · exact ⟨rfl, rfl, rfl, rfl, rfl, rfl, rfl⟩
        · obtain ⟨h1, h2, h3, h4, h5, h6, h7, _⟩ := fitContext_kept (K := K) (m := m) ks { d with inners := [] }
          exact ⟨h1, h2, h3, h4, h5, h6, h7⟩
      · split
        · exact ⟨rfl, rfl, rfl, rfl, rfl, rfl, rfl⟩
        · split
          · exact ⟨rfl, rfl, rfl, rfl, rfl, rfl, rfl⟩
          · exact ⟨rfl, rfl, rfl, rfl, rfl, rfl, rfl⟩
    have : detFit K a d m = fitInner K a m ks d := by
      unfold detFit
      rw [hks]
      dsimp only
      generalize hq : fitInner K a m ks d = q at hne
      obtain ⟨d', o⟩ := q
      cases o with
      | error e => rfl
      | ok u => cases u; exact absurd rfl hne
    rw [this]
    exact ⟨rfl, hkept⟩

/-- a concrete case: the context asked on a single label -/
theorem C156_partial_witness : fiveSeries.labels = .ok ["v"] ∧
    (detFit (firstKind false 1 1 0) { context := true } {} fiveSeries).2 = .error .valueError := by
  decide +kernel

/-! ## C160: the first item with a full window -/

/-- **C160** is false: the item right after the first window, which has all the items the model needs before it,
is never returned (for every detector based on a forecaster and every series in time order). -/
theorem C160_false {lg : ℚ → ℚ} {d : Detector} {c : AnomCfg} {pre : Option Predictions} {s r : TSeries}
    (hrec : d.recon = false) (h : anomApply lg d c pre s = .ok r)
    (hord : s.items.Pairwise (fun x y => x.t < y.t)) {x : Item} (hx : s.items[d.window]? = some x) :
    ∀ y ∈ r.items, y.t ≠ x.t := by
  obtain ⟨h1, h2⟩ := C68_forecaster hrec h
  intro y hy
  obtain ⟨j, hj, hjy⟩ := List.getElem_of_mem hy
  rw [h1] at hj
  obtain ⟨z, hz⟩ : ∃ z, s.items[d.window + 1 + j]? = some z :=
    ⟨s.items[d.window + 1 + j]'(by omega), List.getElem?_eq_getElem _⟩
  obtain ⟨y', hy', hs⟩ := h2 j z hz
  have hyy : y' = y := by
    rw [List.getElem?_eq_getElem (by omega), hjy] at hy'
    injection hy' with hy'
    exact hy'.symm
  subst hyy
  rw [hs.t]
  have h3 : s.items[d.window]'(List.getElem?_eq_some_iff.1 hx).1 = x := (List.getElem?_eq_some_iff.1 hx).2
  have h4 : s.items[d.window + 1 + j]'(by omega) = z := (List.getElem?_eq_some_iff.1 hz).2
  have := List.pairwise_iff_getElem.1 hord d.window (d.window + 1 + j)
    (List.getElem?_eq_some_iff.1 hx).1 (by omega) (by omega)
  rw [h3, h4] at this
  exact ne_of_gt this

/-- **C160** (partial): every later item is returned, with an index unless it is lossy or has a lossy window. -/
theorem C160_partial {lg : ℚ → ℚ} {d : Detector} {c : AnomCfg} {pre : Option Predictions} {s r : TSeries}
    (hrec : d.recon = false) (h : anomApply lg d c pre s = .ok r) {i : ℕ} (hi : d.window < i) {x : Item}
    (hx : s.items[i]? = some x) (hne : ¬ Excused c.lossThreshold d.window s.items i) :
    ∃ y ∈ r.items, y.t = x.t ∧ ∃ v, y.idx.get? "anomaly" = some (some v) := by
  obtain ⟨_, h2⟩ := C68_forecaster hrec h
  obtain ⟨y, hy, hs⟩ := h2 (i - (d.window + 1)) x (by rw [show d.window + 1 + (i - (d.window + 1)) = i by omega]; exact hx)
  rw [show d.window + 1 + (i - (d.window + 1)) = i by omega] at hs
  exact ⟨y, List.mem_of_getElem? hy, hs.t, hs.scored hne⟩

/-- a concrete case: the window is one item and the second item is not among those returned -/
theorem C160_witness : (anomApply id (tentDetector 1 false "E" 0 (some [("v", [1, -2, 3])])) linBounds none
    (aSeries fivePoints)).toOption.map (fun r => r.items.map Item.t) = some [7200, 10800, 14400] := by
  decide +kernel

end Timeseria
