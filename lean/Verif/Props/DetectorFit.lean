import Verif.Model.DetectorFit
import Verif.Props.AnomalyClaims

/-! # Fitting, saving and loading the anomaly detector (C153-C160) -/

namespace Timeseria

variable {I D : Type}

/-! ## The evaluation loop -/

/-- the end of the items evaluated: all of them for a forecaster, up to the last window for a reconstructor -/
def evalEnd (recon : Bool) (w n : ℕ) : ℕ := if recon then n - w else n

theorem evalItems_ok {K : InnerKind I D} {d : DetData I D} {a : FitArgs} {l : List Item} {w : ℕ} {k : String} :
    ∀ (len i : ℕ) (acc r : List Evaluated), i + len = l.length →
      evalItems K d a l w k (List.range' i len) acc = .ok r →
      ∃ t, r = acc ++ t ∧ List.Forall₂ (fun j v => evalItem K d a l k j = .ok v)
        (List.range' (max i (w + 1)) (evalEnd K.recon w l.length - max i (w + 1))) t := by
  intro len
  induction len with
  | zero =>
    intro i acc r hi h
    simp only [List.range'_zero, evalItems] at h
    injection h with h
    refine ⟨[], by simp [h], ?_⟩
    have : evalEnd K.recon w l.length - max i (w + 1) = 0 := by
      unfold evalEnd; split <;> omega
    rw [this]
    exact .nil
  | succ len ih =>
    intro i acc r hi h
    rw [List.range'_succ] at h
    unfold evalItems at h
    split at h
    · rename_i hle
      obtain ⟨t, h1, h2⟩ := ih (i + 1) acc r (by omega) h
      refine ⟨t, h1, ?_⟩
      rw [show max (i + 1) (w + 1) = max i (w + 1) by omega] at h2
      exact h2
    · rename_i hle
      split at h
      · rename_i hst
        injection h with h
        refine ⟨[], by simp [h], ?_⟩
        have : evalEnd K.recon w l.length - max i (w + 1) = 0 := by
          simp only [Bool.and_eq_true, decide_eq_true_eq] at hst
          unfold evalEnd
          rw [if_pos hst.1]
          omega
        rw [this]
        exact .nil
      · rename_i hst
        split at h
        · cases h
        · rename_i v hv
          obtain ⟨t, h1, h2⟩ := ih (i + 1) _ r (by omega) h
          refine ⟨v :: t, by rw [h1]; simp, ?_⟩
          have hm : max i (w + 1) = i := by omega
          have hm' : max (i + 1) (w + 1) = i + 1 := by omega
          rw [hm'] at h2
          rw [hm]
          have hlt : i < evalEnd K.recon w l.length := by
            unfold evalEnd
            split
            · rename_i hr
              simp only [hr, Bool.true_and, decide_eq_true_eq] at hst
              omega
            · omega
          rw [show evalEnd K.recon w l.length - i = (evalEnd K.recon w l.length - (i + 1)) + 1 by omega,
            List.range'_succ]
          exact .cons hv h2

theorem evalLabel_ok {K : InnerKind I D} {d : DetData I D} {a : FitArgs} {l : List Item} {w : ℕ} {k : String}
    {r : String × List Evaluated} (h : evalLabel K d a l w k = .ok r) :
    r.1 = k ∧ List.Forall₂ (fun j v => evalItem K d a l k j = .ok v)
      (List.range' (w + 1) (evalEnd K.recon w l.length - (w + 1))) r.2 := by
  unfold evalLabel at h
  split at h
  · cases h
  · rename_i t ht
    injection h with h
    subst h
    rw [List.range_eq_range'] at ht
    obtain ⟨t', h1, h2⟩ := evalItems_ok l.length 0 [] t (by omega) ht
    rw [show max 0 (w + 1) = w + 1 by omega] at h2
    simp only [List.nil_append] at h1
    subst h1
    exact ⟨rfl, h2⟩

/-- what a successful fit has done -/
structure FitDone (K : InnerKind I D) (a : FitArgs) (d d' : DetData I D) (m : MSeries) (ks : List String)
    (w : ℕ) (d1 : DetData I D) (evs : List (String × List Evaluated)) (ds : Dict D) (ss : Dict ℚ) : Prop where
  labels : m.labels = .ok ks
  inner : fitInner K a m ks d = (d1, .ok ())
  accepted : acceptedMetric a.metric = true
  window : d1.window = some w
  evals : mapE (evalLabel K ({ d1 with context := some a.context }.reset a) a m.items w) ks = .ok evs
  dists : fitDists K evs [] [] = ((ds, ss), .ok ())
  result : d' = { ({ d1 with context := some a.context }.reset a) with dists := some ds, stdevs := some ss }.storeValues
    a.store evs

theorem detFit_ok {K : InnerKind I D} {a : FitArgs} {d d' : DetData I D} {m : MSeries}
    (h : detFit K a d m = (d', .ok ())) : ∃ ks w d1 evs ds ss, FitDone K a d d' m ks w d1 evs ds ss := by
  unfold detFit at h
  split at h
  · cases h
  · rename_i ks hks
    split at h
    · cases h
    · rename_i d1 hd1
      split at h
      · rename_i hm
        split at h
        · cases h
        · rename_i w hw
          unfold evaluateInner at h
          split at h
          · cases h
          · rename_i evs hevs
            split at h
            · cases h
            · rename_i ds ss hds
              injection h with h _
              exact ⟨ks, w, d1, evs, ds, ss, hks, hd1, hm, hw, hevs, hds, h.symm⟩
      · cases h

theorem FitDone.window' {K : InnerKind I D} {a : FitArgs} {d d' : DetData I D} {m : MSeries} {ks : List String}
    {w : ℕ} {d1 : DetData I D} {evs : List (String × List Evaluated)} {ds : Dict D} {ss : Dict ℚ}
    (h : FitDone K a d d' m ks w d1 evs ds ss) :
    d'.window = some w ∧ d'.context = some a.context ∧ d'.metric = some a.metric ∧ d'.dists = some ds ∧
    d'.stdevs = some ss ∧ d'.inner = d1.inner ∧ d'.inners = d1.inners := by
  rw [h.result]
  have := h.window
  unfold DetData.storeValues DetData.reset DetData.storeValues
  cases a.store <;> simp [this]

theorem FitDone.predicted' {K : InnerKind I D} {a : FitArgs} {d d' : DetData I D} {m : MSeries} {ks : List String}
    {w : ℕ} {d1 : DetData I D} {evs : List (String × List Evaluated)} {ds : Dict D} {ss : Dict ℚ}
    (h : FitDone K a d d' m ks w d1 evs ds ss) (ctx : Bool) (l : List Item) (i : ℕ) (k : String) :
    ({ d1 with context := some a.context }.reset a).predictedValue K ctx l i k = d'.predictedValue K ctx l i k := by
  obtain ⟨_, _, _, _, _, h1, h2⟩ := h.window'
  unfold DetData.predictedValue
  rw [h1, h2]
  unfold DetData.reset DetData.storeValues
  cases a.store <;> rfl

theorem column_find (evs : List (String × List Evaluated)) (k : String) (h : ∃ e ∈ evs, e.1 = k) :
    ∃ ev, (k, ev) ∈ evs ∧ ∀ f, (column f evs).get? k = some (ev.map f) := by
  induction evs with
  | nil => simp at h
  | cons e evs ih =>
    by_cases he : e.1 = k
    · refine ⟨e.2, by rw [show (k, e.2) = e by rw [← he]]; simp, ?_⟩
      intro f
      simp only [column, List.map_cons]
      rw [Dict.get?_cons, if_pos he]
    · obtain ⟨ev, h1, h2⟩ := ih (by
        obtain ⟨e', h1, h2⟩ := h
        rcases List.mem_cons.1 h1 with h3 | h3
        · subst h3; exact absurd h2 he
        · exact ⟨e', h3, h2⟩)
      refine ⟨ev, by simp [h1], ?_⟩
      intro f
      simp only [column, List.map_cons]
      rw [Dict.get?_cons, if_neg he]
      exact h2 f

theorem FitDone.label {K : InnerKind I D} {a : FitArgs} {d d' : DetData I D} {m : MSeries} {ks : List String}
    {w : ℕ} {d1 : DetData I D} {evs : List (String × List Evaluated)} {ds : Dict D} {ss : Dict ℚ}
    (h : FitDone K a d d' m ks w d1 evs ds ss) {k : String} (hk : k ∈ ks) :
    ∃ ev, (k, ev) ∈ evs ∧ (∀ f, (column f evs).get? k = some (ev.map f)) ∧
      List.Forall₂ (fun j v => evalItem K ({ d1 with context := some a.context }.reset a) a m.items k j = .ok v)
        (List.range' (w + 1) (evalEnd K.recon w m.items.length - (w + 1))) ev := by
  have hf := mapE_ok_inv h.evals
  obtain ⟨e, he, hee⟩ : ∃ e ∈ evs, evalLabel K ({ d1 with context := some a.context }.reset a) a m.items w k = .ok e := by
    generalize evs = evs' at hf
    clear h
    induction hf with
    | nil => simp at hk
    | cons h1 _ ih =>
      rcases List.mem_cons.1 hk with h2 | h2
      · subst h2; exact ⟨_, by simp, h1⟩
      · obtain ⟨e, h3, h4⟩ := ih h2
        exact ⟨e, by simp [h3], h4⟩
  obtain ⟨ev, h1, h2⟩ := column_find evs k ⟨e, he, (evalLabel_ok hee).1⟩
  refine ⟨ev, h1, h2, ?_⟩
  obtain ⟨k', _, h4⟩ := mapE_mem h.evals _ h1
  have h5 := evalLabel_ok h4
  obtain ⟨h6, h7⟩ := h5
  simp only at h6 h7
  subst h6
  exact h7

/-! ## C153 -/

/-- the error metrics, as documented: the error is `e` for the actual value `a` and the predicted value `p` -/
def IsError (metric : String) (a p e : ℚ) : Prop :=
  (metric = "E" ∧ e = a - p) ∨ (metric = "AE" ∧ e = |a - p|) ∨
  (metric = "PE" ∧ a ≠ 0 ∧ e * a = a - p) ∨ (metric = "APE" ∧ a ≠ 0 ∧ e * |a| = |a - p|)

theorem predictionError_isError {m : String} {a p e : ℚ} (h : predictionError m a p = .ok e) : IsError m a p e := by
  unfold predictionError pyDiv at h
  unfold IsError
  split at h
  · rename_i h1; injection h with h; exact .inl ⟨h1, h.symm⟩
  · split at h
    · rename_i h1; injection h with h; exact .inr (.inl ⟨h1, h.symm⟩)
    · split at h
      · rename_i h1
        split at h
        · cases h
        · rename_i h2
          injection h with h
          exact .inr (.inr (.inl ⟨h1, h2, by rw [← h]; field_simp⟩))
      · split at h
        · rename_i h1
          by_cases h2 : a = 0
          · simp [h2] at h
          · rw [if_neg h2] at h
            injection h with h
            refine .inr (.inr (.inr ⟨h1, h2, ?_⟩))
            rw [← h, ← abs_mul]
            congr 1
            field_simp
        · cases h

/-- **C153**: after a successful fit which stores the errors, for each label of the series the stored actual
values, predicted values and errors have one entry for each item after the window (not among the last ones, if
the model is a reconstructor): the value of the item, what the fitted inner model predicts for it, and their
error in the metric. -/
theorem C153_stored {K : InnerKind I D} {a : FitArgs} {d d' : DetData I D} {m : MSeries}
    (h : detFit K a d m = (d', .ok ())) (hs : a.store = true) :
    ∃ w ks av pv ev, d'.window = some w ∧ m.labels = .ok ks ∧ d'.actual = some av ∧ d'.predicted = some pv ∧
      d'.errors = some ev ∧ av.keys = ks ∧ pv.keys = ks ∧ ev.keys = ks ∧
      ∀ k ∈ ks, ∃ la lp le, av.get? k = some la ∧ pv.get? k = some lp ∧ ev.get? k = some le ∧
        la.length = evalEnd K.recon w m.items.length - (w + 1) ∧ lp.length = la.length ∧ le.length = la.length ∧
        ∀ j < la.length, ∃ x v p e, m.items[w + 1 + j]? = some x ∧ la[j]? = some v ∧ lp[j]? = some p ∧
          le[j]? = some e ∧ x.val? k = some v ∧ d'.predictedValue K a.context m.items (w + 1 + j) k = .ok p ∧
          IsError a.metric v p e := by
  obtain ⟨ks, w, d1, evs, ds, ss, hd⟩ := detFit_ok h
  have hw := hd.window'.1
  have hst : d'.actual = some (column Evaluated.actual evs) ∧ d'.predicted = some (column Evaluated.predicted evs) ∧
      d'.errors = some (column Evaluated.error evs) := by
    rw [hd.result]
    unfold DetData.storeValues
    rw [hs]
    exact ⟨rfl, rfl, rfl⟩
  have hkeys : ∀ f, (column f evs).keys = ks := by
    intro f
    have hf := mapE_ok_inv hd.evals
    unfold column Dict.keys
    rw [List.map_map]
    clear hd hst h
    induction hf with
    | nil => rfl
    | cons h1 _ ih => simp only [List.map_cons, Function.comp]; rw [(evalLabel_ok h1).1]; congr 1
  refine ⟨w, ks, _, _, _, hw, hd.labels, hst.1, hst.2.1, hst.2.2, hkeys _, hkeys _, hkeys _, ?_⟩
  intro k hk
  obtain ⟨ev, h1, h2, h3⟩ := hd.label hk
  have hlen : ev.length = evalEnd K.recon w m.items.length - (w + 1) := by
    rw [← h3.length_eq, List.length_range']
  refine ⟨_, _, _, h2 _, h2 _, h2 _, by simp [hlen], by simp, by simp, ?_⟩
  intro j hj
  simp only [List.length_map] at hj
  have hj' : (List.range' (w + 1) (evalEnd K.recon w m.items.length - (w + 1)))[j]? = some (w + 1 + j) := by
    rw [List.getElem?_range' (by omega)]
    simp
  have he := forall₂_getElem? h3 hj' (List.getElem?_eq_getElem hj)
  unfold evalItem at he
  split at he
  · cases he
  · rename_i x hx
    split at he
    · cases he
    · rename_i v hv
      split at he
      · cases he
      · rename_i p hp
        split at he
        · cases he
        · rename_i pe hpe
          injection he with he
          refine ⟨x, v, p, pe, hx, ?_, ?_, ?_, itemValue_val? hv, ?_, predictionError_isError hpe⟩
          · rw [List.getElem?_map, List.getElem?_eq_getElem hj, ← he]; rfl
          · rw [List.getElem?_map, List.getElem?_eq_getElem hj, ← he]; rfl
          · rw [List.getElem?_map, List.getElem?_eq_getElem hj, ← he]; rfl
          · rw [← hd.predicted']; exact hp

/-! ## C154 -/

theorem fitDists_two {K : InnerKind I D} : ∀ {evs : List (String × List Evaluated)} {ds ds' : Dict D} {ss ss' : Dict ℚ},
    fitDists K evs ds ss = ((ds', ss'), .ok ()) → ∀ e ∈ evs, 2 ≤ e.2.length := by
  intro evs
  induction evs with
  | nil => intro _ _ _ _ _ e he; simp at he
  | cons x evs ih =>
    intro ds ds' ss ss' h e he
    obtain ⟨k, ev⟩ := x
    unfold fitDists at h
    split at h
    · cases h
    · split at h
      · cases h
      · rename_i f _ s hs
        rcases List.mem_cons.1 he with h1 | h1
        · subst h1
          unfold stdevOf at hs
          split at hs
          · cases hs
          · rename_i hl
            simp at hl
            exact hl
        · exact ih h e h1

/-- **C154**: a fit succeeds only with one of the four supported error metrics, and on a series with at least
two items to evaluate. -/
theorem C154_supported {K : InnerKind I D} {a : FitArgs} {d d' : DetData I D} {m : MSeries}
    (h : detFit K a d m = (d', .ok ())) {ks : List String} (hks : m.labels = .ok ks) (hne : ks ≠ []) :
    (a.metric = "E" ∨ a.metric = "AE" ∨ a.metric = "PE" ∨ a.metric = "APE") ∧
    ∃ w, d'.window = some w ∧ w + 3 ≤ evalEnd K.recon w m.items.length := by
  obtain ⟨ks', w, d1, evs, ds, ss, hd⟩ := detFit_ok h
  have : ks' = ks := by
    have := hd.labels
    rw [hks] at this
    injection this with this
    exact this.symm
  subst this
  obtain ⟨k, hk⟩ := List.exists_mem_of_ne_nil _ hne
  obtain ⟨ev, h1, _, h3⟩ := hd.label hk
  have hlen : ev.length = evalEnd K.recon w m.items.length - (w + 1) := by
    rw [← h3.length_eq, List.length_range']
  have h2 := fitDists_two hd.dists _ h1
  simp only at h2
  refine ⟨?_, w, hd.window'.1, by omega⟩
  cases ev with
  | nil => simp at h2
  | cons v ev =>
    have h4 := forall₂_mem_right h3 (b := v) (by simp)
    obtain ⟨j, _, h4⟩ := h4
    unfold evalItem at h4
    split at h4
    · cases h4
    · split at h4
      · cases h4
      · split at h4
        · cases h4
        · split at h4
          · cases h4
          · rename_i hpe
            rcases predictionError_isError hpe with h5 | h5 | h5 | h5
            · exact .inl h5.1
            · exact .inr (.inl h5.1)
            · exact .inr (.inr (.inl h5.1))
            · exact .inr (.inr (.inr h5.1))

end Timeseria
