import Verif.Lemmas.Ops
import Mathlib.Algebra.Order.BigOperators.Group.List
import Mathlib.Algebra.BigOperators.Group.List.Basic

/-! # C21, C22: min, max, sum, avg -/

namespace Timeseria

/-! ## folds -/

theorem maxLoop_fold (vs : List ℚ) (m : ℚ) :
    ∃ r, vs.foldl (fun acc v => match acc with
      | none => some v
      | some m => if v > m then some v else some m) (some m) = some r ∧
      (r = m ∨ r ∈ vs) ∧ m ≤ r ∧ ∀ v ∈ vs, v ≤ r := by
  induction vs generalizing m with
  | nil => exact ⟨m, rfl, .inl rfl, le_refl _, by simp⟩
  | cons a l ih =>
    rw [List.foldl_cons]
    by_cases h : a > m
    · obtain ⟨r, h1, h2, h3, h4⟩ := ih a
      simp only [if_pos h]
      refine ⟨r, h1, ?_, by linarith, ?_⟩
      · rcases h2 with rfl | h2
        · right; simp
        · right; simp [h2]
      · intro v hv
        rcases List.mem_cons.1 hv with rfl | hv
        · exact h3
        · exact h4 v hv
    · obtain ⟨r, h1, h2, h3, h4⟩ := ih m
      simp only [if_neg h]
      refine ⟨r, h1, ?_, h3, ?_⟩
      · rcases h2 with rfl | h2
        · left; rfl
        · right; simp [h2]
      · intro v hv
        rcases List.mem_cons.1 hv with rfl | hv
        · linarith [not_lt.1 h]
        · exact h4 v hv

theorem minLoop_fold (vs : List ℚ) (m : ℚ) :
    ∃ r, vs.foldl (fun acc v => match acc with
      | none => some v
      | some m => if v < m then some v else some m) (some m) = some r ∧
      (r = m ∨ r ∈ vs) ∧ r ≤ m ∧ ∀ v ∈ vs, r ≤ v := by
  induction vs generalizing m with
  | nil => exact ⟨m, rfl, .inl rfl, le_refl _, by simp⟩
  | cons a l ih =>
    rw [List.foldl_cons]
    by_cases h : a < m
    · obtain ⟨r, h1, h2, h3, h4⟩ := ih a
      simp only [if_pos h]
      refine ⟨r, h1, ?_, by linarith, ?_⟩
      · rcases h2 with rfl | h2
        · right; simp
        · right; simp [h2]
      · intro v hv
        rcases List.mem_cons.1 hv with rfl | hv
        · exact h3
        · exact h4 v hv
    · obtain ⟨r, h1, h2, h3, h4⟩ := ih m
      simp only [if_neg h]
      refine ⟨r, h1, ?_, h3, ?_⟩
      · rcases h2 with rfl | h2
        · left; rfl
        · right; simp [h2]
      · intro v hv
        rcases List.mem_cons.1 hv with rfl | hv
        · linarith [not_lt.1 h]
        · exact h4 v hv

theorem foldl_add (vs : List ℚ) (a : ℚ) : vs.foldl (· + ·) a = a + vs.sum := by
  induction vs generalizing a with
  | nil => simp
  | cons b l ih => simp [ih, add_assoc]

theorem sumFromNone_fold (vs : List ℚ) (a : ℚ) :
    vs.foldl (fun acc v => match acc with | none => some v | some m => some (m + v)) (some a) =
      some (a + vs.sum) := by
  induction vs generalizing a with
  | nil => simp
  | cons b l ih => simp [ih, add_assoc]

theorem sumFromNone_eq {vs : List ℚ} (h : vs ≠ []) : sumFromNone vs = some vs.sum := by
  cases vs with
  | nil => exact absurd rfl h
  | cons a r =>
    unfold sumFromNone
    rw [List.foldl_cons]
    exact (sumFromNone_fold r a).trans (by simp)

/-- the per-label loops compute the fold of the values of each label -/
theorem perLabel_ok {α : Type} {cal : Calendar} {s : TSeries} {ks kk : List String}
    (h : OpSeries cal s ks) (hp : kk.Perm ks) (f : List ℚ → α) :
    perLabel s kk f = .ok (kk.map (fun k => (k, f (s.items.map (fun x => x.value k))))) := by
  unfold perLabel
  apply mapE_ok
  intro k hk
  rw [mapE_ok (g := fun x => x.value k) (fun x hx => (h.lab x hx).byLabel (hp.subset hk))]

theorem OpSeries.nodup {cal : Calendar} {s : TSeries} {ks : List String} (h : OpSeries cal s ks) :
    ks.Nodup := by
  cases hi : s.items with
  | nil => exact absurd hi h.ne
  | cons x r => obtain ⟨_, _, _, hn, _⟩ := h.lab x (by rw [hi]; simp); exact hn

theorem get?_table {α : Type} {kk : List String} (g : String → α) {k : String}
    (hk : k ∈ kk) : Dict.get? (kk.map (fun k => (k, g k))) k = some (g k) := by
  induction kk with
  | nil => simp at hk
  | cons a r ih =>
    rw [List.map_cons, Dict.get?_cons]
    by_cases h : a = k
    · subst h; simp
    · rw [if_neg h]
      rcases List.mem_cons.1 hk with h1 | h1
      · exact absurd h1.symm h
      · exact ih h1

theorem keys_table {α : Type} (kk : List String) (g : String → α) :
    Dict.keys (kk.map (fun k => (k, g k))) = kk := by simp [Dict.keys, Function.comp_def]

/-! ## C21 -/

/-- **C21 (max)**: for every series with indexed data `max` gives, for each label and for no other,
a value of the series which bounds all the values of that label from above. -/
theorem C21_max {cal : Calendar} {s : TSeries} {ks : List String} (h : OpSeries cal s ks) :
    ∃ r, s.maxOp = .ok r ∧ r.keys.Perm ks ∧ ∀ k ∈ ks, ∃ v, r.get? k = some (some v) ∧
      (∃ x ∈ s.items, x.value? k = some v) ∧ ∀ x ∈ s.items, ∀ w, x.value? k = some w → w ≤ v := by
  obtain ⟨x, r, d, kk, hi, hd, hkk, hp, hprep⟩ := h.opPrep
  refine ⟨_, by unfold TSeries.maxOp; rw [hprep]; exact perLabel_ok h hp _, ?_, ?_⟩
  · rw [keys_table]; exact hp
  · intro k hk
    rw [get?_table _ (hp.symm.subset hk)]
    obtain ⟨v, h1, h2, h3, h4⟩ := maxLoop_fold (r.map (fun x => x.value k)) (x.value k)
    refine ⟨v, ?_, ?_, ?_⟩
    · rw [hi]
      unfold maxLoop
      rw [List.map_cons, List.foldl_cons]
      exact congrArg some h1
    · rcases h2 with rfl | h2
      · exact ⟨x, by rw [hi]; simp, (h.lab x (by rw [hi]; simp)).lookup hk⟩
      · obtain ⟨y, hy, rfl⟩ := List.mem_map.1 h2
        exact ⟨y, by rw [hi]; simp [hy], (h.lab y (by rw [hi]; simp [hy])).lookup hk⟩
    · intro y hy w hw
      rw [(h.lab y hy).lookup hk] at hw
      cases hw
      rw [hi] at hy
      rcases List.mem_cons.1 hy with rfl | hy
      · exact h3
      · exact h4 _ (List.mem_map.2 ⟨y, hy, rfl⟩)

/-- **C21 (min)**: symmetric. -/
theorem C21_min {cal : Calendar} {s : TSeries} {ks : List String} (h : OpSeries cal s ks) :
    ∃ r, s.minOp = .ok r ∧ r.keys.Perm ks ∧ ∀ k ∈ ks, ∃ v, r.get? k = some (some v) ∧
      (∃ x ∈ s.items, x.value? k = some v) ∧ ∀ x ∈ s.items, ∀ w, x.value? k = some w → v ≤ w := by
  obtain ⟨x, r, d, kk, hi, hd, hkk, hp, hprep⟩ := h.opPrep
  refine ⟨_, by unfold TSeries.minOp; rw [hprep]; exact perLabel_ok h hp _, ?_, ?_⟩
  · rw [keys_table]; exact hp
  · intro k hk
    rw [get?_table _ (hp.symm.subset hk)]
    obtain ⟨v, h1, h2, h3, h4⟩ := minLoop_fold (r.map (fun x => x.value k)) (x.value k)
    refine ⟨v, ?_, ?_, ?_⟩
    · rw [hi]
      unfold minLoop
      rw [List.map_cons, List.foldl_cons]
      exact congrArg some h1
    · rcases h2 with rfl | h2
      · exact ⟨x, by rw [hi]; simp, (h.lab x (by rw [hi]; simp)).lookup hk⟩
      · obtain ⟨y, hy, rfl⟩ := List.mem_map.1 h2
        exact ⟨y, by rw [hi]; simp [hy], (h.lab y (by rw [hi]; simp [hy])).lookup hk⟩
    · intro y hy w hw
      rw [(h.lab y hy).lookup hk] at hw
      cases hw
      rw [hi] at hy
      rcases List.mem_cons.1 hy with rfl | hy
      · exact h3
      · exact h4 _ (List.mem_map.2 ⟨y, hy, rfl⟩)

/-- **C21 (sum)**: `sum` gives, for each label and for no other, the sum of its values. -/
theorem C21_sum {cal : Calendar} {s : TSeries} {ks : List String} (h : OpSeries cal s ks) :
    ∃ r, s.sumOp = .ok r ∧ r.keys.Perm ks ∧
      ∀ k ∈ ks, r.get? k = some ((s.items.map (fun x => x.value k)).sum) := by
  obtain ⟨x, r, d, kk, hi, hd, hkk, hp, hprep⟩ := h.opPrep
  refine ⟨_, by unfold TSeries.sumOp; rw [hprep]; exact perLabel_ok h hp _, ?_, ?_⟩
  · rw [keys_table]; exact hp
  · intro k hk
    rw [get?_table _ (hp.symm.subset hk), foldl_add, zero_add]

/-! ## C22 -/

/-- **C22 (unweighted)**: the average is the sum divided by the number of items. -/
theorem C22_avg {cal : Calendar} {s : TSeries} {ks : List String} (h : OpSeries cal s ks) :
    ∃ r, s.avgOp = .ok r ∧ r.keys.Perm ks ∧
      ∀ k ∈ ks, r.get? k = some ((s.items.map (fun x => x.value k)).sum / s.items.length) := by
  obtain ⟨x, r, d, kk, hi, hd, hkk, hp, hprep⟩ := h.opPrep
  have hlen : (s.items.length : ℚ) ≠ 0 := by
    rw [hi]; simp only [List.length_cons]; positivity
  refine ⟨kk.map (fun k => (k, (s.items.map (fun x => x.value k)).sum / s.items.length)), ?_, ?_, ?_⟩
  · unfold TSeries.avgOp
    rw [hprep]
    simp only [perLabel_ok h hp]
    rw [mapE_ok (g := fun p => (p.1, (s.items.map (fun x => x.value p.1)).sum / s.items.length))]
    · simp [Function.comp_def]
    · intro p hpm
      obtain ⟨k, hk, rfl⟩ := List.mem_map.1 hpm
      rw [sumFromNone_eq (by simpa using h.ne)]
      simp [pyDiv, hlen]
  · rw [keys_table]; exact hp
  · intro k hk
    rw [get?_table _ (hp.symm.subset hk)]

theorem zipWith_bound (lo hi : ℚ) : ∀ (vs ws : List ℚ), vs.length = ws.length → (∀ w ∈ ws, 0 ≤ w) →
    (∀ p ∈ vs.zip ws, p.2 ≠ 0 → lo ≤ p.1 ∧ p.1 ≤ hi) →
    lo * ws.sum ≤ (List.zipWith (· * ·) vs ws).sum ∧
      (List.zipWith (· * ·) vs ws).sum ≤ hi * ws.sum
  | [], [], _, _, _ => by simp
  | v :: vs, w :: ws, hl, hw, hb => by
    have hw0 : 0 ≤ w := hw w (by simp)
    obtain ⟨h1, h2⟩ := zipWith_bound lo hi vs ws (by simpa using hl)
      (fun a ha => hw a (by simp [ha])) (fun p hp => hb p (by simp [hp]))
    have h3 := hb (v, w) (by simp)
    simp only [List.zipWith_cons_cons, List.sum_cons]
    rcases eq_or_lt_of_le hw0 with h0 | h0
    · rw [← h0]; simp; exact ⟨h1, h2⟩
    · obtain ⟨h4, h5⟩ := h3 (ne_of_gt h0)
      simp only at h4 h5
      constructor <;> nlinarith
  | [], _ :: _, hl, _, _ => by simp at hl
  | _ :: _, [], hl, _, _ => by simp at hl

/-- **C22 (weighted)**: with one weight per item and non-zero total, the average of each label is the
weighted mean. -/
theorem C22_weighted {cal : Calendar} {s : TSeries} {ks : List String} (h : OpSeries cal s ks)
    (ws : List ℚ) (hl : ws.length = s.items.length) (ht : ws.sum ≠ 0) :
    ∃ r, s.avgWeighted ws = .ok r ∧ r.keys.Perm ks ∧
      ∀ k ∈ ks, r.get? k = some (weightedMean (s.items.map (fun x => x.value k)) ws) := by
  obtain ⟨x, r, d, kk, hi, hd, hkk, hp, hprep⟩ := h.opPrep
  refine ⟨kk.map (fun k => (k, weightedMean (s.items.map (fun x => x.value k)) ws)), ?_, ?_, ?_⟩
  · unfold TSeries.avgWeighted
    rw [hprep]
    simp only [perLabel_ok h hp, foldl_add, zero_add]
    rw [mapE_ok (g := fun p => (p.1, weightedMean (s.items.map (fun x => x.value p.1)) ws))]
    · simp [Function.comp_def]
    · intro p hpm
      obtain ⟨k, hk, rfl⟩ := List.mem_map.1 hpm
      have hne : List.zipWith (· * ·) (s.items.map (fun x => x.value k)) ws ≠ [] := by
        rw [hi] at hl ⊢
        cases ws with
        | nil => simp at hl
        | cons w ws => simp
      rw [sumFromNone_eq hne]
      simp only [pyDiv, ht, if_false, weightedMean]
      split
      · rename_i h1; rw [h1]; simp
      · rfl
  · rw [keys_table]; exact hp
  · intro k hk
    rw [get?_table _ (hp.symm.subset hk)]

/-- **C22 (bounds)**: with non-negative weights of positive total the weighted average of a label
lies between any bounds of the values of the items with non-zero weight. -/
theorem C22_weighted_between {cal : Calendar} {s : TSeries} {ks : List String} (h : OpSeries cal s ks)
    (ws : List ℚ) (hl : ws.length = s.items.length) (hw : ∀ w ∈ ws, 0 ≤ w) (ht : 0 < ws.sum)
    (k : String) (hk : k ∈ ks) (lo hi : ℚ)
    (hb : ∀ p ∈ s.items.zip ws, p.2 ≠ 0 → lo ≤ p.1.value k ∧ p.1.value k ≤ hi) :
    ∃ r v, s.avgWeighted ws = .ok r ∧ r.get? k = some v ∧ lo ≤ v ∧ v ≤ hi := by
  obtain ⟨r, h1, _, h2⟩ := C22_weighted h ws hl (ne_of_gt ht)
  refine ⟨r, _, h1, h2 k hk, ?_⟩
  obtain ⟨h3, h4⟩ := zipWith_bound lo hi (s.items.map (fun x => x.value k)) ws (by simp [hl]) hw (by
    intro p hp hne
    rw [List.zip_map_left] at hp
    obtain ⟨q, hq, rfl⟩ := List.mem_map.1 hp
    exact hb q hq hne)
  unfold weightedMean
  rw [le_div_iff₀ ht, div_le_iff₀ ht]
  exact ⟨h3, h4⟩

/-- **C22 (scaling)**: multiplying all the weights by the same non-zero number changes nothing. -/
theorem C22_weighted_scale {cal : Calendar} {s : TSeries} {ks : List String} (h : OpSeries cal s ks)
    (ws : List ℚ) (hl : ws.length = s.items.length) (ht : ws.sum ≠ 0) (c : ℚ) (hc : c ≠ 0) :
    ∃ r r', s.avgWeighted ws = .ok r ∧ s.avgWeighted (ws.map (c * ·)) = .ok r' ∧
      ∀ k ∈ ks, r.get? k = r'.get? k := by
  have hs : (ws.map (c * ·)).sum = c * ws.sum := by
    clear hl ht
    induction ws with
    | nil => simp
    | cons w ws ih => simp [ih]; ring
  obtain ⟨r, h1, _, h2⟩ := C22_weighted h ws hl ht
  obtain ⟨r', h1', _, h2'⟩ := C22_weighted h (ws.map (c * ·)) (by simpa using hl) (by
    rw [hs]; exact mul_ne_zero hc ht)
  refine ⟨r, r', h1, h1', ?_⟩
  intro k hk
  rw [h2 k hk, h2' k hk]
  congr 1
  unfold weightedMean
  rw [hs]
  have : (List.zipWith (· * ·) (s.items.map (fun x => x.value k)) (ws.map (c * ·))).sum =
      c * (List.zipWith (· * ·) (s.items.map (fun x => x.value k)) ws).sum := by
    generalize s.items.map (fun x => x.value k) = vs
    clear hs h2' h1' h2 h1 ht hl
    induction vs generalizing ws with
    | nil => simp
    | cons v vs ih =>
      cases ws with
      | nil => simp
      | cons w ws => simp [ih ws]; ring
  rw [this, mul_div_mul_left _ _ hc]

/-! ## A series meeting the hypotheses -/

/-- three points with two labels -/
def exSeries : TSeries :=
  match TSeries.build [mkPoint 0 (.dict [("b", 5), ("a", 1)]), mkPoint 60 (.dict [("a", 4), ("b", 7)]),
      mkPoint 120 (.dict [("a", 3), ("b", -2)])] with
  | .ok s => s
  | .error _ => {}

/-- two slots with list data -/
def exSlots : TSeries :=
  match TSeries.build
    [{ t := 0, slot := some (60, TUnit.ofSecs 60), tz := "UTC", data := some (.list [1, 2]) },
     { t := 60, slot := some (120, TUnit.ofSecs 60), tz := "UTC", data := some (.list [3, 5]) }] with
  | .ok s => s
  | .error _ => {}

theorem C21_witness : OpSeries physicalCalendar exSeries ["a", "b"] := by
  refine ⟨by decide +kernel, by decide +kernel, by decide +kernel, ?_, .inl ⟨?_, ?_⟩⟩
  · have : exSeries.items = [mkPoint 0 (.dict [("b", 5), ("a", 1)]),
        mkPoint 60 (.dict [("a", 4), ("b", 7)]), mkPoint 120 (.dict [("a", 3), ("b", -2)])] := by
      decide +kernel
    rw [this]
    intro x hx
    simp only [List.mem_cons, List.not_mem_nil, or_false] at hx
    rcases hx with rfl | rfl | rfl <;>
      exact ⟨_, rfl, by decide, by decide, by intro v h; cases h⟩
  · unfold AllPoints; decide +kernel
  · decide +kernel

theorem C21_witness_slots : OpSeries physicalCalendar exSlots ["0", "1"] := by
  have hit : exSlots.items =
    [{ t := 0, slot := some (60, TUnit.ofSecs 60), tz := "UTC", data := some (.list [1, 2]) },
     { t := 60, slot := some (120, TUnit.ofSecs 60), tz := "UTC", data := some (.list [3, 5]) }] := by
    decide +kernel
  refine ⟨by decide +kernel, by decide +kernel, by decide +kernel, ?_, .inr ⟨?_, ?_⟩⟩
  · rw [hit]
    intro x hx
    simp only [List.mem_cons, List.not_mem_nil, or_false] at hx
    rcases hx with rfl | rfl <;>
      exact ⟨_, rfl, by decide, by decide, by intro v h; cases h⟩
  · unfold AllSlots; decide +kernel
  · rw [hit]
    intro x hx e u hs
    simp only [List.mem_cons, List.not_mem_nil, or_false] at hx
    rcases hx with rfl | rfl <;>
      (simp only [Option.some.injEq, Prod.mk.injEq] at hs; obtain ⟨rfl, rfl⟩ := hs
       simp [physicalCalendar, TUnit.ofSecs]; try norm_num)

end Timeseria
