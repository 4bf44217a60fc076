import Verif.Props.Anomaly

/-! # Claims on the anomaly detector (C129-C138) -/

namespace Timeseria

/-! ## A concrete detector -/

/-- a triangular density of width 10 around `c` -/
def tent (c x : ℚ) : ℚ := if |x - c| ≤ 10 then (10 - |x - c|) / 100 else 0

/-- a detector with that density, whose model always predicts 10 -/
def tentDetector (w : ℕ) (recon : Bool) (metric : String) (loc : ℚ) (errors : Option (Dict (List ℚ))) : Detector where
  window := w
  recon := recon
  metric := metric
  dist := fun _ x => tent loc x
  loc := fun _ => loc
  stdev := fun _ => 2
  errors := errors
  findX := fun _ _ => .ok 0
  predict := fun _ _ _ => .ok 10

/-- a point of hour `i` -/
def aPoint (i : ℕ) (v : ℚ) (loss : Option ℚ := none) : Item :=
  mkPoint (i * 3600) (.dict [("v", v)]) "UTC" [("data_loss", loss)]

/-- the series with these items -/
def aSeries (l : List Item) : TSeries := (TSeries.empty.appendAll l).1

/-- the anomaly indexes of the result -/
def indexesOf (r : Except PyErr TSeries) : Option (List (Option (Option ℚ))) :=
  r.toOption.map (fun s => s.items.map (fun x => x.idx.get? "anomaly"))

/-- five points, the last one far from the prediction -/
def fivePoints : List Item := [aPoint 0 10, aPoint 1 11, aPoint 2 10, aPoint 3 13, aPoint 4 30]

/-- lower bound 1, upper bound 5, linear -/
def linBounds : AnomCfg := { lower := .num 1, upper := .num 5, kind := .lin }

theorem tent_decreasing (c : ℚ) : ∀ x y, c ≤ x → x ≤ y → tent c y ≤ tent c x := by
  intro x y h1 h2
  unfold tent
  rw [abs_of_nonneg (by linarith), abs_of_nonneg (by linarith)]
  split
  · rw [if_pos (by linarith)]
    linarith
  · split
    · linarith
    · exact le_refl _

theorem logLike_id : LogLike id := fun _ _ _ h => h

theorem fivePoints_cases {P : Item → Prop} (h : P (aPoint 0 10) ∧ P (aPoint 1 11) ∧ P (aPoint 2 10) ∧
    P (aPoint 3 13) ∧ P (aPoint 4 30)) : ∀ x ∈ fivePoints, P x := by
  intro x hx
  simp only [fivePoints, List.mem_cons, List.not_mem_nil, or_false] at hx
  rcases hx with rfl | rfl | rfl | rfl | rfl
  · exact h.1
  · exact h.2.1
  · exact h.2.2.1
  · exact h.2.2.2.1
  · exact h.2.2.2.2

/-- the hypotheses of C67 and C68 can be met, and there the indexes are as expected -/
example : DetectorReady id (tentDetector 1 false "E" 0 (some [("v", [1, -2, 3])])) linBounds (aSeries fivePoints) ["v"] ∧
    indexesOf (anomApply id (tentDetector 1 false "E" 0 (some [("v", [1, -2, 3])])) linBounds none (aSeries fivePoints)) =
      some [some (some 0), some (some (1 / 2)), some (some 1)] := by
  have hitems : (aSeries fivePoints).items = fivePoints := by decide +kernel
  have hrange : ∀ k r, labelRange id (tentDetector 1 false "E" 0 (some [("v", [1, -2, 3])])) linBounds k = .ok r →
      r = ⟨1, 5, 9 / 100, 5 / 100⟩ := by
    intro k r h
    unfold labelRange at h
    split at h
    · cases h
    · have e1 : tent 0 1 = 9 / 100 := by decide +kernel
      have e5 : tent 0 5 = 5 / 100 := by decide +kernel
      simp [resolveBound, boundValue, linBounds, Bound.isStr, checkLogs, tentDetector, e1, e5] at h
      exact h.symm
  constructor
  · refine ⟨logLike_id, Or.inl rfl, by decide +kernel, by simp, fun _ => tent_decreasing 0, ?_, ?_, Or.inl rfl, ?_, ?_⟩
    · intro k hk
      simp only [List.mem_singleton] at hk
      subst hk
      exact ⟨⟨1, 5, 9 / 100, 5 / 100⟩, by decide +kernel⟩
    · intro k r h
      rw [hrange k r h]
      refine ⟨by show (0 : ℚ) ≤ 1; norm_num, fun _ => ?_⟩
      show tent 0 5 < tent 0 1
      decide +kernel
    · rw [hitems]
      apply fivePoints_cases
      refine ⟨?_, ?_, ?_, ?_, ?_⟩ <;> intro k hk <;> simp only [List.mem_singleton] at hk <;> subst hk
      · exact ⟨10, by decide +kernel⟩
      · exact ⟨11, by decide +kernel⟩
      · exact ⟨10, by decide +kernel⟩
      · exact ⟨13, by decide +kernel⟩
      · exact ⟨30, by decide +kernel⟩
    · intro i k _ _ _
      exact ⟨10, rfl⟩
  · decide +kernel

/-! ## C129: bounds on the wrong side of the location -/

/-- **C129** is false: if the lower bound is on the left of the location of the density, the index can be
negative (here -4). -/
theorem C129_false :
    indexesOf (anomApply id (tentDetector 1 false "E" 5 (some [("v", [5])]))
      { lower := .num 1, upper := .num 10, kind := .lin } none
      (aSeries [aPoint 0 15, aPoint 1 15, aPoint 2 15])) = some [some (some (-4))] := by
  decide +kernel

/-- **C129** (partial): whatever the side of the bounds, if the upper one has a lower density than the lower
one the index never exceeds 1 for the error the detector computes. -/
theorem C129_partial {lg : ℚ → ℚ} (hlg : LogLike lg) {d : Detector} {k : String} {r : IndexRange}
    (hd : d.DecreasingRight k) (kind : IndexKind) (hys : r.ys = d.dist k r.xs) (hye : r.ye = d.dist k r.xe)
    (hlt : r.ye < r.ys) (hpos : 0 < r.ye) (e v : ℚ)
    (h : rawIndex lg kind r (mirrored (d.loc k) e) (d.dist k (mirrored (d.loc k) e)) = .ok v) : v ≤ 1 := by
  have hx := loc_le_mirrored (d.loc k) e
  generalize mirrored (d.loc k) e = x at h hx
  unfold rawIndex at h
  split at h
  · injection h with h; rw [← h]; norm_num
  · rename_i h1
    split at h
    · injection h with h; rw [← h]
    · rename_i h2
      push Not at h1 h2
      have hyx : r.ye ≤ d.dist k x := by rw [hye]; exact hd _ _ hx (le_of_lt h2)
      cases kind with
      | lin =>
        dsimp only at h
        unfold pyDiv at h
        rw [if_neg (by linarith)] at h
        injection h with h
        have : 0 ≤ (d.dist k x - r.ye) / (r.ys - r.ye) := div_nonneg (by linarith) (by linarith)
        linarith
      | log =>
        dsimp only at h
        unfold pyLog at h
        rw [if_neg (by linarith)] at h
        dsimp only at h
        have hll : lg r.ye < lg r.ys := hlg _ _ hpos hlt
        have hly : lg r.ye ≤ lg (d.dist k x) := by
          rcases eq_or_lt_of_le hyx with h | h
          · rw [h]
          · exact le_of_lt (hlg _ _ hpos h)
        unfold pyDiv at h
        rw [if_neg (by linarith)] at h
        injection h with h
        rw [← h, ← neg_div_neg_eq, div_le_one (by linarith)]
        linarith
      | unknown => cases h

/-! ## C130: detectors based on a reconstructor -/

/-- **C130** is false: with a window of 1, the lossy item 4 of a seven-item series ends the whole loop when
the item 3 is examined: the item 2 only is returned, and 4 and 5 never. -/
theorem C130_false :
    indexesOf (anomApply id (tentDetector 1 true "E" 0 (some [("v", [5])])) linBounds none
      (aSeries [aPoint 0 10 (some 0), aPoint 1 10 (some 0), aPoint 2 10 (some 0), aPoint 3 10 (some 0),
        aPoint 4 10 (some 1), aPoint 5 10 (some 0), aPoint 6 10 (some 0)])) = some [some (some 0)] ∧
    indexesOf (anomApply id (tentDetector 1 true "E" 0 (some [("v", [5])])) linBounds none
      (aSeries [aPoint 0 10 (some 0), aPoint 1 10 (some 0), aPoint 2 10 (some 0), aPoint 3 10 (some 0),
        aPoint 4 10 (some 0), aPoint 5 10 (some 0), aPoint 6 10 (some 0)])) =
      some [some (some 0), some (some 0), some (some 0), some (some 0)] := by
  constructor <;> decide +kernel

/-- **C130** is false also without a window, where everything raises. -/
theorem C130_no_window_false (lg : ℚ → ℚ) (d : Detector) (c : AnomCfg) (pre : Option Predictions) (s : TSeries)
    (hw : d.window = 0) (hr : d.recon = true) (hlen : 2 ≤ s.items.length)
    (hloss : ∀ x ∈ s.items, lossOf x = none) : ∃ e, anomApply lg d c pre s = .error e := by
  cases h : anomApply lg d c pre s with
  | error e => exact ⟨e, rfl⟩
  | ok r =>
    exfalso
    obtain ⟨_, ks, ranges, _, _, ys, hys, _⟩ := anomApply_ok h
    match hl : s.items with
    | [] => rw [hl] at hlen; simp at hlen
    | [_] => rw [hl] at hlen; simp at hlen
    | x :: y :: l =>
      rw [hl] at hys hloss
      have h0 : stepAt d c.lossThreshold (x :: y :: l) 0 = .ok .skip := by
        unfold stepAt; rw [if_pos (by omega)]
      have h1 : stepAt d c.lossThreshold (x :: y :: l) 1 = .error .exception := by
        unfold stepAt
        rw [if_neg (by omega), if_neg (by simp [hr, hw])]
        have hy : lossAt (x :: y :: l) 1 = none := by
          have := hloss y (by simp)
          simpa [lossAt] using this
        rw [hy]
        simp [tooLossy, hw, hr, farCheck]
      unfold anomOuts at hys
      rw [h0] at hys
      dsimp only at hys
      unfold anomOuts at hys
      rw [h1] at hys
      cases hys

/-- **C130** (partial): if the window is not empty and no item has a data loss, or all have one below the
threshold, a detector based on a reconstructor returns one scored item for each item between the two
windows. -/
theorem C130_partial {lg : ℚ → ℚ} {d : Detector} {c : AnomCfg} {pre : Option Predictions} {s r : TSeries}
    (hrec : d.recon = true) (hw : d.window ≠ 0)
    (hloss : (∀ x ∈ s.items, lossOf x = none) ∨ (∀ x ∈ s.items, ∃ v, lossOf x = some v ∧ v < c.lossThreshold))
    (h : anomApply lg d c pre s = .ok r) :
    r.items.length = s.items.length - d.window - (d.window + 1) ∧
    ∀ (j : ℕ) (x : Item), d.window + 1 + j + d.window < s.items.length → s.items[d.window + 1 + j]? = some x →
      ∃ y v, r.items[j]? = some y ∧ y.t = x.t ∧ y.idx.get? "anomaly" = some (some v) ∧
        (∀ n, n ≠ "anomaly" → y.idx.get? n = x.idx.get? n) ∧ (c.details = .no → y.data = x.data) := by
  have hat : ∀ j, lossAt s.items j = none ∨ ∃ v, lossAt s.items j = some v ∧ v < c.lossThreshold := by
    intro j
    unfold lossAt
    cases hj : s.items[j]? with
    | none => exact Or.inl rfl
    | some x =>
      rcases hloss with h | h
      · left; exact h x (List.mem_of_getElem? hj)
      · right; exact h x (List.mem_of_getElem? hj)
  have hfar : d.recon = true → ∀ i, d.window < i → i + d.window < s.items.length →
      passes c.lossThreshold d.window s.items i = false → farCheck d c.lossThreshold s.items i = .ok .score := by
    intro _ i hi hlt _
    unfold farCheck
    rw [if_neg hw]
    have h1 : s.items[i - d.window]? = some (s.items[i - d.window]'(by omega)) := List.getElem?_eq_getElem _
    have h2 : s.items[i + d.window]? = some (s.items[i + d.window]'hlt) := List.getElem?_eq_getElem _
    unfold lossAt
    rw [h1, h2]
    simp only [Option.bind_some]
    rcases hloss with h | h
    · rw [h _ (List.getElem_mem _)]
    · obtain ⟨v, hv, _⟩ := h _ (List.getElem_mem (h := show i - d.window < s.items.length by omega))
      obtain ⟨v', hv', hlt'⟩ := h _ (List.getElem_mem hlt)
      rw [hv, hv']
      dsimp only
      rw [if_neg (not_le.2 hlt')]
  obtain ⟨h1, h2⟩ := apply_shape hfar h
  have hse : scopeEnd d s.items.length = s.items.length - d.window := by simp [scopeEnd, hrec]
  rw [hse] at h1 h2
  refine ⟨h1, ?_⟩
  intro j x hj hx
  obtain ⟨y, hy, hs⟩ := h2 j x (by omega) hx
  have hne : ¬ Excused c.lossThreshold d.window s.items (d.window + 1 + j) := by
    rintro ⟨q, z, _, _, hz, v, hv, hle⟩
    have hlz : lossAt s.items q = some v := by
      unfold lossAt
      rw [hz]
      simp [lossOf, hv]
    rcases hat q with h | ⟨v', hv', hlt⟩
    · rw [hlz] at h; cases h
    · rw [hlz] at hv'
      injection hv' with hv'
      linarith
  obtain ⟨v, hv⟩ := hs.scored hne
  exact ⟨y, v, hy, hs.t, hv, hs.others, hs.data⟩

/-! ## C131: errors on the left of the location -/

/-- **C131** is false: for a distribution located in 5, the errors 4 and 6, equally distant from it, have
indexes 1/2 (as if the error were 9) and 0 (below the lower bound). -/
theorem C131_false :
    (scoreValues id (tentDetector 1 false "E" 5 none) linBounds "v" ⟨7, 11, tent 5 7, tent 5 11⟩ 14 10).toOption.map
      (fun sc => sc.index) = some (1 / 2) ∧
    (scoreValues id (tentDetector 1 false "E" 5 none) linBounds "v" ⟨7, 11, tent 5 7, tent 5 11⟩ 16 10).toOption.map
      (fun sc => sc.index) = some 0 ∧ tent 5 4 = tent 5 6 := by
  refine ⟨by decide +kernel, by decide +kernel, by decide +kernel⟩

/-- **C131** (partial): for a distribution located in 0, opposite errors have the same index. -/
theorem C131_partial (lg : ℚ → ℚ) (d : Detector) (c : AnomCfg) (k : String) (r : IndexRange) (p e : ℚ)
    (hm : d.metric = "E") (hloc : d.loc k = 0) :
    (scoreValues lg d c k r (p + e) p).toOption.map (fun sc => (sc.index, sc.err)) =
    (scoreValues lg d c k r (p - e) p).toOption.map (fun sc => (sc.index, sc.err)) := by
  have hpe : ∀ a, predictionError d.metric a p = .ok (a - p) := by
    intro a
    unfold predictionError
    rw [if_pos hm]
  have hmir : mirrored 0 e = mirrored 0 (-e) := by
    unfold mirrored
    rcases lt_trichotomy e 0 with h | h | h
    · rw [if_pos h, if_neg (by linarith), abs_of_neg h]; ring
    · rw [h]; simp
    · rw [if_neg (by linarith), if_pos (by linarith), abs_neg, abs_of_pos h]; ring
  unfold scoreValues
  rw [hpe, hpe]
  dsimp only
  rw [hloc, show p + e - p = e by ring, show p - e - p = -e by ring, hmir]

/-! ## C132, C133: the details -/

/-- **C132** is false: with the details, a lossy item in the middle makes `apply` raise (the item passed
through does not have the labels of the details). -/
theorem C132_false :
    (anomApply id (tentDetector 1 false "E" 0 (some [("v", [5])])) { linBounds with details := .all } none
      (aSeries [aPoint 0 10 (some 0), aPoint 1 10 (some 0), aPoint 2 10 (some 0), aPoint 3 10 (some 1)])).toOption.isNone = true ∧
    (anomApply id (tentDetector 1 false "E" 0 (some [("v", [5])])) { linBounds with details := .no } none
      (aSeries [aPoint 0 10 (some 0), aPoint 1 10 (some 0), aPoint 2 10 (some 0), aPoint 3 10 (some 1)])).toOption.isSome = true := by
  constructor <;> decide +kernel

/-- the names of the details, as written by the code -/
def detailNames : Details → List String
  | .no => []
  | .all => ["_pred", "_err", "_adh"]
  | .some l => (if l.contains "pred" then ["_pred"] else []) ++ (if l.contains "err" then ["_err"] else []) ++
      (if l.contains "adh" then ["_adh)"] else [])

theorem mem_keys_addDetails (details : Details) (dd : Dict ℚ) (ks : String × LabelScore) (k : String) :
    k ∈ (addDetails details dd ks).keys ↔ k ∈ dd.keys ∨ ∃ n ∈ detailNames details, k = ks.1 ++ n := by
  cases details with
  | no => simp [addDetails, detailNames]
  | all =>
    simp [addDetails, detailNames, Dict.mem_keys_set]
    tauto
  | some l =>
    simp only [addDetails, detailNames]
    by_cases h1 : l.contains "pred" = true <;> by_cases h2 : l.contains "err" = true <;>
      by_cases h3 : l.contains "adh" = true <;> simp only [h1, h2, h3, if_true, Bool.false_eq_true, if_false] <;>
      simp [Dict.mem_keys_set] <;> tauto

theorem mem_keys_details (details : Details) (sc : List (String × LabelScore)) (dd : Dict ℚ) (k : String) :
    k ∈ (sc.foldl (addDetails details) dd).keys ↔
      k ∈ dd.keys ∨ ∃ q ∈ sc.map Prod.fst, ∃ n ∈ detailNames details, k = q ++ n := by
  induction sc generalizing dd with
  | nil => simp
  | cons p sc ih =>
    rw [List.foldl_cons, ih, mem_keys_addDetails]
    simp only [List.map_cons, List.mem_cons, exists_eq_or_imp]
    rw [or_assoc]

theorem scoreLabels_fst {lg : ℚ → ℚ} {d : Detector} {c : AnomCfg} {pre : Option Predictions}
    {l : List Item} {i : ℕ} {x : Item} {ranges : List (String × IndexRange)} {sc : List (String × LabelScore)}
    (h : mapE (scoreLabel lg d c pre l i x) ranges = .ok sc) : sc.map Prod.fst = ranges.map Prod.fst := by
  have hf := mapE_ok_inv h
  clear h
  induction hf with
  | nil => rfl
  | cons h1 _ ih =>
    simp only [List.map_cons]
    rw [ih]
    congr 1
    unfold scoreLabel at h1
    split at h1
    · cases h1
    · split at h1
      · cases h1
      · split at h1
        · cases h1
        · injection h1 with h1
          rw [← h1]

/-- the labels of a scored item: its own and those of the details -/
theorem outAt_keys {lg : ℚ → ℚ} {d : Detector} {c : AnomCfg} {pre : Option Predictions}
    {ranges : List (String × IndexRange)} {l : List Item} {p : Item × ℕ} {y : Item} {dd : Dict ℚ}
    (hp : passes c.lossThreshold d.window l p.2 = false) (hd : p.1.data = some (.dict dd))
    (h : outAt lg d c pre ranges l p = .ok y) :
    ∃ ee, y.data = some (.dict ee) ∧ ∀ k, k ∈ ee.keys ↔
      k ∈ dd.keys ∨ ∃ q ∈ ranges.map Prod.fst, ∃ n ∈ detailNames c.details, k = q ++ n := by
  unfold outAt at h
  rw [hp] at h
  simp only [Bool.false_eq_true, if_false] at h
  obtain ⟨sc, v, h1, _, h3⟩ := scoreItem_shape h
  subst h3
  refine ⟨sc.foldl (addDetails c.details) dd, by simp [scoredItem, detailedData, hd], ?_⟩
  intro k
  rw [mem_keys_details, scoreLabels_fst h1]

theorem ranges_fst {lg : ℚ → ℚ} {d : Detector} {c : AnomCfg} {ks : List String}
    {ranges : List (String × IndexRange)} (h : mapE (labelWithRange lg d c) ks = .ok ranges) :
    ranges.map Prod.fst = ks := by
  have hf := mapE_ok_inv h
  clear h
  induction hf with
  | nil => rfl
  | cons h1 _ ih =>
    simp only [List.map_cons]
    rw [ih]
    congr 1
    unfold labelWithRange at h1
    split at h1
    · cases h1
    · injection h1 with h1
      rw [← h1]

/-- **C132** (partial): if no item nor its window is too lossy, `apply` with details raises nothing, and
each returned item has its own labels and, for each label, those of the details. -/
theorem C132_partial {lg : ℚ → ℚ} {d : Detector} {c : AnomCfg} {s : TSeries} {ks : List String}
    (h : DetectorReady lg d c s ks) (hrec : d.recon = false)
    (hok : ∀ i, d.window < i → i < s.items.length → ¬ Excused c.lossThreshold d.window s.items i)
    (hdict : ∀ x ∈ s.items, ∃ dd, x.data = some (.dict dd) ∧ ∀ k, k ∈ dd.keys ↔ k ∈ ks)
    (hg : GoodPoints s.items ∨ GoodSlots s.items) (htz : ∀ x ∈ s.items, ∀ y ∈ s.items, x.tz = y.tz) :
    ∃ r, anomApply lg d c none s = .ok r ∧ ∀ y ∈ r.items, ∃ ee, y.data = some (.dict ee) ∧
      ∀ k, k ∈ ee.keys ↔ k ∈ ks ∨ ∃ q ∈ ks, ∃ n ∈ detailNames c.details, k = q ++ n := by
  obtain ⟨ranges, hr, ys, hys⟩ := h.outs
  have hkeys : ∀ y ∈ ys, ∃ ee, y.data = some (.dict ee) ∧
      ∀ k, k ∈ ee.keys ↔ k ∈ ks ∨ ∃ q ∈ ks, ∃ n ∈ detailNames c.details, k = q ++ n := by
    intro y hy
    obtain ⟨p, hp, ho⟩ := mapE_mem hys y hy
    obtain ⟨h1, h2, h3⟩ := mem_scopeItems hp
    obtain ⟨dd, hdd, hk⟩ := hdict p.1 (List.mem_of_getElem? h1)
    have hlt := (List.getElem?_eq_some_iff.1 h1).1
    have hpass : passes c.lossThreshold d.window s.items p.2 = false := by
      cases hpp : passes c.lossThreshold d.window s.items p.2 with
      | false => rfl
      | true => exact absurd ((passes_iff h2).1 hpp) (hok p.2 h2 hlt)
    obtain ⟨ee, h4, h5⟩ := outAt_keys hpass hdd ho
    refine ⟨ee, h4, ?_⟩
    intro k
    rw [h5 k, hk k, ranges_fst hr]
  obtain ⟨r, hr', hri⟩ := runs_of h (by intro hr; rw [hrec] at hr; cases hr) hg htz hr hys
    (by
      intro y hy
      obtain ⟨ee, h1, h2⟩ := hkeys y hy
      refine ⟨.dict ee, h1, ?_⟩
      unfold Data.truthy
      cases ee with
      | nil =>
        obtain ⟨k, hk⟩ := List.exists_mem_of_ne_nil _ h.ne
        have := (h2 k).2 (Or.inl hk)
        simp [Dict.keys] at this
      | cons _ _ => rfl)
    (by
      intro x hx y hy a b ha hb
      obtain ⟨ea, h1, h2⟩ := hkeys x hx
      obtain ⟨eb, h3, h4⟩ := hkeys y hy
      rw [h1] at ha
      rw [h3] at hb
      injection ha with ha
      injection hb with hb
      subst ha; subst hb
      intro k
      rw [h2 k, h4 k])
  exact ⟨r, hr', by rw [hri]; exact hkeys⟩

/-- **C133** is false: asking for the adherence in the list of the details, it is not stored under the
documented name, but under one with a parenthesis at the end. -/
theorem C133_false :
    ((anomApply id (tentDetector 1 false "E" 0 (some [("v", [5])])) { linBounds with details := .some ["adh"] } none
      (aSeries fivePoints)).toOption.map (fun r => r.items.map (fun x => (x.val? "v_adh", x.val? "v_adh)")))) =
      some [(none, some 1), (none, some (7 / 10)), (none, some 0)] ∧
    ((anomApply id (tentDetector 1 false "E" 0 (some [("v", [5])])) { linBounds with details := .all } none
      (aSeries fivePoints)).toOption.map (fun r => r.items.map (fun x => (x.val? "v_adh", x.val? "v_adh)")))) =
      some [(some 1, none), (some (7 / 10), none), (some 0, none)] := by
  constructor <;> decide +kernel

theorem append_ne {a b c : String} (h : b ≠ c) : a ++ b ≠ a ++ c := by
  intro he
  apply h
  have := congrArg String.toList he
  rw [String.toList_append, String.toList_append, List.append_cancel_left_eq] at this
  exact String.toList_injective this

/-- **C133** (partial): for a series with one label and `details=True`, a scored item has the prediction,
the error and the adherence under the documented names, and the anomaly index of that error. -/
theorem C133_partial {lg : ℚ → ℚ} {d : Detector} {c : AnomCfg} {l : List Item} {i : ℕ} {x y : Item} {k : String}
    {rg : IndexRange} {dd : Dict ℚ} (hdet : c.details = .all) (hd : x.data = some (.dict dd))
    (h : scoreItem lg d c none [(k, rg)] l i x = .ok y) :
    ∃ a p e v, x.val? k = some a ∧ d.predict l i k = .ok p ∧ predictionError d.metric a p = .ok e ∧
      rawIndex lg c.kind rg (mirrored (d.loc k) e) (d.dist k (mirrored (d.loc k) e)) = .ok v ∧
      y.idx.get? "anomaly" = some (some (withThreshold c.threshold v)) ∧
      y.val? (k ++ "_pred") = some p ∧ y.val? (k ++ "_err") = some (mirrored (d.loc k) e) ∧
      y.val? (k ++ "_adh") = some (d.dist k (mirrored (d.loc k) e) / d.dist k (d.loc k)) := by
  obtain ⟨sc, v, h1, h2, h3⟩ := scoreItem_shape h
  have hf := mapE_ok_inv h1
  match sc, hf with
  | [q], .cons hq .nil =>
    unfold scoreLabel at hq
    dsimp only at hq
    split at hq
    · cases hq
    · rename_i a ha
      split at hq
      · cases hq
      · rename_i p hp
        split at hq
        · cases hq
        · rename_i sc' hsc
          injection hq with hq
          subst hq
          unfold scoreValues at hsc
          split at hsc
          · cases hsc
          · rename_i e he
            split at hsc
            · cases hsc
            · rename_i w hw
              injection hsc with hsc
              subst hsc
              simp only [List.map_cons, List.map_nil, combineIndexes] at h2
              injection h2 with h2
              subst h3
              refine ⟨a, p, e, w, itemValue_val? ha, hp, he, hw, ?_, ?_, ?_, ?_⟩
              · simp [scoredItem, Dict.get?_set, ← h2]
              · simp only [Item.val?, scoredItem, detailedData, hd, hdet, List.foldl_cons, List.foldl_nil,
                  addDetails, Dict.get?_set]
                rw [if_neg (append_ne (by decide)), if_neg (append_ne (by decide)), if_pos trivial]
              · simp only [Item.val?, scoredItem, detailedData, hd, hdet, List.foldl_cons, List.foldl_nil,
                  addDetails, Dict.get?_set]
                rw [if_neg (append_ne (by decide)), if_pos trivial]
              · simp only [Item.val?, scoredItem, detailedData, hd, hdet, List.foldl_cons, List.foldl_nil,
                  addDetails, Dict.get?_set]
                rw [if_pos trivial]

/-! ## C134: percentage errors of zero values -/

/-- **C134** is false: with the default percentage error, a value of zero raises a `ZeroDivisionError`. -/
theorem C134_false :
    anomApply id (tentDetector 1 false "PE" 0 (some [("v", [5])])) linBounds none
      (aSeries [aPoint 0 10, aPoint 1 10, aPoint 2 0]) = .error .zeroDivision := by
  decide +kernel

/-- **C134** (partial): with the errors not in percentage, or without zero values, nothing is raised. -/
theorem C134_partial {lg : ℚ → ℚ} {d : Detector} {c : AnomCfg} {s : TSeries} {ks : List String}
    (h : DetectorReady lg d c s ks) (hrec : d.recon = false) (hdet : c.details = .no)
    (hg : GoodPoints s.items ∨ GoodSlots s.items) (htz : ∀ x ∈ s.items, ∀ y ∈ s.items, x.tz = y.tz) :
    ∃ r, anomApply lg d c none s = .ok r := C68_runs h hrec hdet hg htz

/-! ## C135: bounds in a tuple -/

/-- **C135** is false: the bounds in a tuple, as documented, raise a `TypeError` if given as names. -/
theorem C135_false :
    anomApply id (tentDetector 1 false "E" 0 (some [("v", [5])])) { tuple := true } none (aSeries fivePoints) =
      .error .typeError ∧
    (anomApply id (tentDetector 1 false "E" 0 (some [("v", [5])])) { tuple := false } none
      (aSeries fivePoints)).toOption.isSome = true := by
  constructor <;> decide +kernel

theorem labelRange_tuple (lg : ℚ → ℚ) (d : Detector) (c : AnomCfg) (a b : ℚ)
    (hl : c.lower = .num a) (hu : c.upper = .num b) (k : String) :
    labelRange lg d { c with tuple := true } k = labelRange lg d { c with tuple := false } k := by
  unfold labelRange resolveBound
  rw [hl, hu]
  simp [boundValue, Bound.isStr]

/-- **C135** (partial): two numbers can be given as a tuple or as a list alike. -/
theorem C135_partial (lg : ℚ → ℚ) (d : Detector) (c : AnomCfg) (pre : Option Predictions) (s : TSeries) (a b : ℚ)
    (hl : c.lower = .num a) (hu : c.upper = .num b) :
    anomApply lg d { c with tuple := true } pre s = anomApply lg d { c with tuple := false } pre s := by
  have h1 : labelWithRange lg d { c with tuple := true } = labelWithRange lg d { c with tuple := false } := by
    funext k
    unfold labelWithRange
    rw [labelRange_tuple lg d c a b hl hu k]
  have h2 : ∀ (ranges : List (String × IndexRange)) (l r : List Item) (i : ℕ) (acc : TSeries),
      anomLoop lg d { c with tuple := true } pre ranges l r i acc =
        anomLoop lg d { c with tuple := false } pre ranges l r i acc := by
    intro ranges l r
    induction r with
    | nil => intro i acc; rfl
    | cons x r ih =>
      intro i acc
      unfold anomLoop
      simp only [ih]
      rfl
  unfold anomApply
  rw [h1]
  simp only [h2]

/-! ## C136: not storing the errors -/

/-- **C136** is false: without the stored errors, `apply` raises a `KeyError` whatever the bounds. -/
theorem C136_false (lg : ℚ → ℚ) (d : Detector) (c : AnomCfg) (pre : Option Predictions) (s : TSeries)
    (k : String) (ks : List String) (he : d.errors = none) (hm : knownMetric d.metric = true)
    (hks : (MSeries.ofSeries s).labels = .ok (k :: ks)) :
    anomApply lg d c pre s = .error .keyError := by
  unfold anomApply
  rw [if_pos hm, hks]
  dsimp only
  have : mapE (labelWithRange lg d c) (k :: ks) = .error .keyError := by
    unfold mapE labelWithRange labelRange storedErrors
    rw [he]
  rw [this]

/-- **C136** (partial): with numeric bounds the stored errors have no influence, as long as there are
some for each label. -/
theorem C136_partial (lg : ℚ → ℚ) (d : Detector) (c : AnomCfg) (s : TSeries) (a b : ℚ)
    (hl : c.lower = .num a) (hu : c.upper = .num b) (e e' : Dict (List ℚ))
    (hkeys : ∀ k, (∃ l, e.get? k = some l) ↔ ∃ l, e'.get? k = some l) (k : String) :
    labelRange lg { d with errors := some e } c k = labelRange lg { d with errors := some e' } c k := by
  unfold labelRange storedErrors resolveBound
  rw [hl, hu]
  dsimp only
  cases h : e.get? k with
  | none =>
    have h' : e'.get? k = none := by
      cases h' : e'.get? k with
      | none => rfl
      | some l =>
        obtain ⟨l, hl⟩ := (hkeys k).2 ⟨l, h'⟩
        rw [h] at hl
        cases hl
    rw [h']
  | some l =>
    obtain ⟨l', hl'⟩ := (hkeys k).1 ⟨l, h⟩
    rw [hl']
    rfl

/-! ## C137, C138: pre-processing -/

theorem storedPrediction_mapE {d : Detector} {l : List Item} {ks : List String} : ∀ {is : List ℕ} {p : Predictions},
    mapE (predictItem d l ks) is = .ok p → ∀ {i : ℕ}, i ∈ is → ∀ {k : String}, k ∈ ks →
    storedPrediction p i k = d.predict l i k := by
  have hitem : ∀ {i : ℕ} {q : ℕ × Dict ℚ}, predictItem d l ks i = .ok q →
      q.1 = i ∧ ∀ {k : String}, k ∈ ks → lookupE q.2 k = d.predict l i k := by
    intro i q h
    unfold predictItem at h
    split at h
    · cases h
    · rename_i pr hpr
      injection h with h
      subst h
      refine ⟨rfl, ?_⟩
      have hf := mapE_ok_inv hpr
      clear hpr
      dsimp only
      induction hf with
      | nil => intro k hk; simp at hk
      | @cons k' kv ks' pr' h1 _ ih =>
        intro k hk
        unfold predictPair at h1
        split at h1
        · cases h1
        · rename_i v hv
          injection h1 with h1
          subst h1
          unfold lookupE
          rw [Dict.get?_cons]
          by_cases hkk : k' = k
          · subst hkk
            simp [hv]
          · rcases List.mem_cons.1 hk with h2 | h2
            · exact absurd h2.symm hkk
            · have := ih h2
              unfold lookupE at this
              simp [hkk, Ne.symm hkk]
              exact this
  intro is p h
  have hf := mapE_ok_inv h
  clear h
  induction hf with
  | nil => intro i hi; simp at hi
  | @cons j q is' p' h1 _ ih =>
    intro i hi k hk
    obtain ⟨h2, h3⟩ := hitem h1
    unfold storedPrediction
    obtain ⟨q1, q2⟩ := q
    dsimp only at h2 h3
    subst h2
    rw [List.lookup_cons]
    by_cases hij : i = q1
    · subst hij
      simp
      exact h3 hk
    · have hb : (i == q1) = false := by simp [hij]
      rw [hb]
      rcases List.mem_cons.1 hi with h4 | h4
      · exact absurd h4 hij
      · exact ih h4 hk

theorem scoreItem_congr {lg : ℚ → ℚ} {d d' : Detector} {c : AnomCfg} {pre : Option Predictions}
    {ranges : List (String × IndexRange)} {l : List Item} {i : ℕ} {x : Item}
    (hm : d'.metric = d.metric) (hdist : d'.dist = d.dist) (hloc : d'.loc = d.loc)
    (h : ∀ kr ∈ ranges, predictedFor d pre l i kr.1 = predictedFor d' none l i kr.1) :
    scoreItem lg d c pre ranges l i x = scoreItem lg d' c none ranges l i x := by
  have : mapE (scoreLabel lg d c pre l i x) ranges = mapE (scoreLabel lg d' c none l i x) ranges := by
    induction ranges with
    | nil => rfl
    | cons kr ranges ih =>
      have h1 : scoreLabel lg d c pre l i x kr = scoreLabel lg d' c none l i x kr := by
        unfold scoreLabel scoreValues
        rw [h kr (by simp), hm, hdist, hloc]
      unfold mapE
      rw [h1, ih (fun q hq => h q (by simp [hq]))]
  unfold scoreItem
  rw [this]

theorem stepAt_score_inScope {d : Detector} {thr : ℚ} {l : List Item} {i : ℕ}
    (h : stepAt d thr l i = .ok .score) : inScope d l.length i = true := by
  unfold stepAt at h
  unfold inScope
  split at h
  · cases h
  · rename_i h1
    split at h
    · cases h
    · rename_i h2
      simp only [Bool.not_eq_true] at h2
      simp only [h1, decide_false, Bool.not_false, Bool.true_and, h2]

/-- the loop on the stored predictions of `d`, and the loop of a detector with the same settings that
predicts the same on the items in scope -/
theorem anomLoop_pre {lg : ℚ → ℚ} {d d' : Detector} {c : AnomCfg} {p : Predictions}
    {ranges : List (String × IndexRange)} {l : List Item}
    (hw : d'.window = d.window) (hrec : d'.recon = d.recon)
    (hm : d'.metric = d.metric) (hdist : d'.dist = d.dist) (hloc : d'.loc = d.loc)
    (h : ∀ i, i < l.length → inScope d l.length i = true → ∀ kr ∈ ranges, storedPrediction p i kr.1 = d'.predict l i kr.1) :
    ∀ (r : List Item) (i : ℕ) (acc : TSeries), i + r.length = l.length →
    anomLoop lg d' c (some p) ranges l r i acc = anomLoop lg d' c none ranges l r i acc := by
  have hst : ∀ i, stepAt d' c.lossThreshold l i = stepAt d c.lossThreshold l i := by
    intro i
    unfold stepAt farCheck
    rw [hw, hrec]
  intro r
  induction r with
  | nil => intro i acc _; rfl
  | cons x r ih =>
    intro i acc hlen
    rw [List.length_cons] at hlen
    unfold anomLoop
    cases hs : stepAt d' c.lossThreshold l i with
    | error e => rfl
    | ok st =>
      cases st with
      | skip => exact ih _ _ (by omega)
      | stop => rfl
      | pass =>
        dsimp only
        cases appendE acc x with
        | error e => rfl
        | ok acc' => exact ih _ _ (by omega)
      | score =>
        dsimp only
        have hsc : scoreItem lg d' c (some p) ranges l i x = scoreItem lg d' c none ranges l i x := by
          apply scoreItem_congr rfl rfl rfl
          intro kr hkr
          unfold predictedFor
          exact h i (by omega) (stepAt_score_inScope (by rw [← hst i]; exact hs)) kr hkr
        rw [hsc]
        cases scoreItem lg d' c none ranges l i x with
        | error e => rfl
        | ok y =>
          dsimp only
          cases appendE acc y with
          | error e => rfl
          | ok acc' => exact ih _ _ (by omega)

/-- stored predictions of `d` used by `d'` -/
theorem apply_pre {lg : ℚ → ℚ} {d d' : Detector} {c : AnomCfg} {s : TSeries} {p : Predictions}
    (hw : d'.window = d.window) (hrec : d'.recon = d.recon)
    (hm : d'.metric = d.metric) (hdist : d'.dist = d.dist) (hloc : d'.loc = d.loc)
    (hp : preprocess d s = .ok p)
    (hpred : ∀ i k, i < s.items.length → inScope d s.items.length i = true → d'.predict s.items i k = d.predict s.items i k) :
    anomApply lg d' c (some p) s = anomApply lg d' c none s := by
  unfold preprocess at hp
  unfold anomApply
  cases hk : (MSeries.ofSeries s).labels with
  | error e => rfl
  | ok ks =>
    rw [hk] at hp
    dsimp only at hp ⊢
    cases hr : mapE (labelWithRange lg d' c) ks with
    | error e => rfl
    | ok ranges =>
      dsimp only
      rw [anomLoop_pre hw hrec hm hdist hloc]
      · intro i hi hsc kr hkr
        rw [hpred i kr.1 hi hsc]
        refine storedPrediction_mapE hp (by simp [hi, hsc]) ?_
        obtain ⟨k, hk, hkr'⟩ := mapE_mem hr kr hkr
        unfold labelWithRange at hkr'
        split at hkr'
        · cases hkr'
        · injection hkr' with hkr'
          rw [← hkr']
          exact hk
      · simp

/-- **C137**: applying a detector to a series pre-processed by it gives the same as applying it to the
series, exceptions included. -/
theorem C137_preprocess {lg : ℚ → ℚ} {d : Detector} {c : AnomCfg} {s : TSeries} {p : Predictions}
    (hp : preprocess d s = .ok p) : anomApply lg d c (some p) s = anomApply lg d c none s :=
  apply_pre rfl rfl rfl rfl rfl hp (fun _ _ _ _ => rfl)

/-- **C138** is false: after a new fit (which keeps the id of the detector) the series pre-processed before
is scored with the old predictions, and after an append to it `apply` raises a `KeyError`. -/
theorem C138_false :
    ∃ p, preprocess (tentDetector 1 false "E" 0 (some [("v", [5])])) (aSeries fivePoints) = .ok p ∧
      indexesOf (anomApply id { tentDetector 1 false "E" 0 (some [("v", [5])]) with predict := fun _ _ _ => .ok 30 }
        linBounds (some p) (aSeries fivePoints)) = some [some (some 0), some (some (1 / 2)), some (some 1)] ∧
      indexesOf (anomApply id { tentDetector 1 false "E" 0 (some [("v", [5])]) with predict := fun _ _ _ => .ok 30 }
        linBounds none (aSeries fivePoints)) = some [some (some 1), some (some 1), some (some 0)] ∧
      anomApply id (tentDetector 1 false "E" 0 (some [("v", [5])])) linBounds (some p)
        (aSeries (fivePoints ++ [aPoint 5 10])) = .error .keyError := by
  refine ⟨[(2, [("v", 10)]), (3, [("v", 10)]), (4, [("v", 10)])], by decide +kernel, by decide +kernel,
    by decide +kernel, by decide +kernel⟩

/-- **C138** (partial): pre-processing remains valid as long as the model predicts the same. -/
theorem C138_partial {lg : ℚ → ℚ} {d : Detector} {c : AnomCfg} {s : TSeries} {p : Predictions}
    (hp : preprocess d s = .ok p) (pred : List Item → ℕ → String → Except PyErr ℚ)
    (hpred : ∀ i k, i < s.items.length → inScope d s.items.length i = true → pred s.items i k = d.predict s.items i k) :
    anomApply lg { d with predict := pred } c (some p) s = anomApply lg { d with predict := pred } c none s :=
  apply_pre (d := d) rfl rfl rfl rfl rfl hp hpred

end Timeseria
