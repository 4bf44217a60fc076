import Verif.Lemmas.OpsRun
import Verif.Props.OpsMap

/-! # C23-C26, C29: differences, cumulative sums, derivatives, integrals, moving averages -/

namespace Timeseria

/-! ## C29 -/

/-- the sum of the `n` values of a label starting at position `j` -/
def sumFrom (l : List Item) (k : String) (j : ℕ) : ℕ → ℚ
  | 0 => 0
  | n + 1 => sumFrom l k j n + valueAt l (j + n) k

theorem sumFrom_succ' (l : List Item) (k : String) (j n : ℕ) :
    sumFrom l k j (n + 1) = valueAt l j k + sumFrom l k (j + 1) n := by
  induction n with
  | zero => simp [sumFrom]
  | succ n ih =>
    rw [sumFrom, ih]
    conv_rhs => rw [sumFrom]
    rw [show j + 1 + n = j + (n + 1) by omega]
    ring

theorem windowSum_eq {cal : Calendar} {s : TSeries} {ks : List String} (h : OpSeries cal s ks)
    {k : String} (hk : k ∈ ks) (n j : ℕ) (acc : ℚ) (hj : j + n ≤ s.items.length) :
    windowSum s.items k j n acc = .ok (acc + sumFrom s.items k j n) := by
  induction n generalizing j acc with
  | zero => simp [windowSum, sumFrom]
  | succ n ih =>
    unfold windowSum
    rw [h.valAt (by omega) hk]
    simp only
    rw [ih (j + 1) _ (by omega), sumFrom_succ', add_assoc]

theorem itemLoop_skip (cal : Calendar) (d0 : Data) (kk : List String) (ren : String → String)
    (keep : Bool) (f : ℕ → Item → String → Except PyErr ℚ) (skip : ℕ → Bool) (i : ℕ)
    (l : List Item) (h : ∀ j < l.length, skip (i + j) = true) :
    itemLoop cal d0 kk ren keep f skip i l = .ok [] := by
  induction l generalizing i with
  | nil => rfl
  | cons x r ih =>
    unfold itemLoop
    rw [if_pos (by simpa using h 0 (by simp))]
    apply ih
    intro j hj
    have := h (j + 1) (by simpa using hj)
    rwa [show i + 1 + j = i + (j + 1) by omega]

/-- **C29**: for a window of `w ≥ 1` items the moving average has one item
for each original item from the `w`-th on, in the same place; its value for a label is the mean of
the `w` values ending there.  (With more than `length` items in the window the result is empty.) -/
theorem C29_mavg {cal : Calendar} {s : TSeries} {ks : List String} (h : OpSeries cal s ks)
    (w : ℕ) (hw : 1 ≤ w) :
    ∃ r, s.mavgOp cal w = .ok r ∧
      Computes s.items r.items (w - 1) ks (resultLabel s.items ("mavg_" ++ toString w))
        (fun i k => sumFrom s.items k (i + 1 - w) w / w) := by
  have hwq : (w : ℚ) ≠ 0 := by positivity
  have hskip : (fun i : ℕ => decide (i + 1 < w)) = (fun i : ℕ => decide (i < w - 1)) := by
    funext i; rw [decide_eq_decide]; omega
  by_cases hlen : w - 1 < s.items.length
  · obtain ⟨x, r0, d, kk, r, hi, hd, hprep, hp, hfin, hop, hcomp, _, _⟩ := itemOp_spec h
      (fun k => withPostfix k ("mavg_" ++ strNat w)) (fun a b hab => withPostfix_inj hab) false
      (fun i _ k => match windowSum s.items k (i + 1 - w) w 0 with
          | .ok v => pyDiv v w
          | .error e => .error e)
      (fun i k => sumFrom s.items k (i + 1 - w) w / w) (w - 1) hlen (by
        intro i x hx hm k hk
        have := valAt_lt hx
        rw [windowSum_eq h hk w (i + 1 - w) 0 (by omega)]
        simp [pyDiv, hwq])
    refine ⟨r, ?_, ?_⟩
    · unfold TSeries.mavgOp
      rw [hprep]
      simp only
      rw [if_neg (by omega)]
      simp only [Int.toNat_natCast, hskip]
      exact hfin
    · rw [lab_eq_resultLabel hi hd, strNat_eq] at hcomp
      exact hcomp
  · obtain ⟨x, r, d, kk, hi, hd, hkk, hp, hprep⟩ := h.opPrep
    refine ⟨TSeries.empty, ?_, ?_⟩
    · unfold TSeries.mavgOp
      rw [hprep]
      simp only
      rw [if_neg (by omega)]
      simp only [Int.toNat_natCast]
      rw [itemLoop_skip]
      · rfl
      · intro j hj
        simp only [decide_eq_true_eq]
        omega
    · refine ⟨?_, ?_, ?_, ?_⟩
      · simp only [TSeries.empty, List.length_nil]; omega
      · intro j x y _ hy; simp [TSeries.empty] at hy
      · intro y hy; simp [TSeries.empty] at hy
      · intro j y hy; simp [TSeries.empty] at hy

/-- **C200 is false**: windows below one item raise `AttributeError`, not `ValueError`. -/
theorem C200_false {cal : Calendar} {s : TSeries} {ks : List String} (h : OpSeries cal s ks)
    (w : Int) (hw : w < 1) : s.mavgOp cal w = .error .attributeError := by
  obtain ⟨x, r, d, kk, hi, hd, hkk, hp, hprep⟩ := h.opPrep
  unfold TSeries.mavgOp
  rw [hprep]
  simp only
  rw [if_pos hw]

/-! ## differences and derivatives -/

theorem isDict_of_prep {cal : Calendar} {s : TSeries} {ks : List String} (h : OpSeries cal s ks) :
    s.res ≠ .varying → s.items.isEmpty = false := by
  intro _
  have := h.ne
  cases hh : s.items <;> simp_all

/-- `diff` of a constant-resolution series with at least two items -/
theorem diff_spec {cal : Calendar} {s : TSeries} {ks : List String} (h : OpSeries cal s ks)
    (hres : s.res ≠ .varying) (hl : 2 ≤ s.items.length) :
    ∃ r, s.diffOp cal = .ok r ∧ OpSeries cal r (ks.map (resultLabel s.items "diff")) ∧
      Computes s.items r.items 1 ks (resultLabel s.items "diff")
        (fun i k => valueAt s.items i k - valueAt s.items (i - 1) k) ∧
      (∀ (j : ℕ) (x y : Item), s.items[1 + j]? = some x → r.items[j]? = some y → y.idx = x.idx) := by
  obtain ⟨x, r0, d, kk, r, hi, hd, hprep, hp, hfin, hop, hcomp, hidx, _⟩ := itemOp_spec h
      (fun k => withPostfix k "diff") (fun a b hab => withPostfix_inj hab) true
      (fun i _ k => derivVal s.items none true i k)
      (fun i k => valueAt s.items i k - valueAt s.items (i - 1) k) 1 (by omega) (by
        intro i x hx hm k hk
        have := valAt_lt hx
        unfold derivVal
        rw [h.valAt this hk, h.valAt (show i - 1 < s.items.length by omega) hk]
        simp)
  rw [lab_eq_resultLabel hi hd] at hcomp hop
  refine ⟨r, ?_, hop, hcomp, fun j x y hx hy => by simpa using hidx j x y hx hy⟩
  unfold TSeries.diffOp
  rw [isDict_of_prep h hres]
  simp only [Bool.false_eq_true, if_false, hres]
  rw [hprep]
  simp only
  rw [if_neg (by omega)]
  have : (fun i : ℕ => decide (i = 0)) = (fun i : ℕ => decide (i < 1)) := by
    funext i; rw [decide_eq_decide]; omega
  rw [this]
  exact hfin

/-! ## the loops of Integral -/

theorem intLoop_table (cal : Calendar) (l : List Item) (norm : Option (Bool × ℚ)) (c : NumOrDict)
    (d0 : Data) (post : String) (kk : List String) (v : ℕ → String → ℚ) (Inv : ℕ → IntState → Prop)
    (hstep : ∀ i st, i < l.length → Inv i st → ∃ st', intLabels l norm c i st kk =
      .ok (st', kk.map (fun k => (k, v i k))) ∧ Inv (i + 1) st')
    (i : ℕ) (st : IntState) (hinv : Inv i st) (r : List Item) (hr : i + r.length ≤ l.length) :
    intLoop cal l norm c d0 post kk i st r =
      .ok ((r.zipIdx i).map (fun p =>
        remake cal p.1 (makeData d0 (kk.map fun k => (withPostfix k post, v p.2 k))) p.1.idx)) := by
  induction r generalizing i st with
  | nil => rfl
  | cons x r ih =>
    unfold intLoop
    simp only [List.length_cons] at hr
    obtain ⟨st', h1, h2⟩ := hstep i st (by omega) hinv
    rw [h1]
    simp only
    rw [ih (i + 1) st' h2 (by omega)]
    simp [List.zipIdx_cons, List.map_map, Function.comp_def]

/-- what `csum` and `integral` produce, given the invariant of the loop -/
theorem intOp_spec {cal : Calendar} {s : TSeries} {ks : List String} (h : OpSeries cal s ks)
    (norm : Option (Bool × ℚ)) (c : NumOrDict) (post : String) (v : ℕ → String → ℚ)
    (Inv : List String → ℕ → IntState → Prop) (h0 : ∀ kk, Inv kk 0 {})
    (hstep : ∀ kk, kk.Perm ks → ∀ i st, i < s.items.length → Inv kk i st →
      ∃ st', intLabels s.items norm c i st kk = .ok (st', kk.map (fun k => (k, v i k))) ∧
        Inv kk (i + 1) st') :
    ∃ d kk r, s.opPrep = .ok (d, kk) ∧
      finish (intLoop cal s.items norm c d post kk 0 {} s.items) = .ok r ∧
      OpSeries cal r (ks.map (resultLabel s.items post)) ∧
      Computes s.items r.items 0 ks (resultLabel s.items post) v ∧
      (∀ (j : ℕ) (x y : Item), s.items[j]? = some x → r.items[j]? = some y → y.idx = x.idx) := by
  obtain ⟨x, r0, d, kk, hi, hd, hkk, hp, hprep⟩ := h.opPrep
  have hpos : 0 < s.items.length := List.length_pos_iff.2 h.ne
  obtain ⟨r, h1, h2, h3, h4, h5⟩ := table_build h hkk hp (ren := fun k => withPostfix k post)
    (fun a b hab => withPostfix_inj hab) true v 0 hpos
  refine ⟨d, kk, r, hprep, ?_, ?_, ?_, ?_⟩
  · rw [intLoop_table cal s.items norm c d post kk v (Inv kk) (hstep kk hp) 0 {} (h0 kk) s.items
      (by omega)]
    exact h1
  · rw [← lab_eq_resultLabel hi hd]; exact h2
  · rw [← lab_eq_resultLabel hi hd]
    refine ⟨h3, fun j x y hx hy => (h4 j x y hx hy).1, h2.lab, ?_⟩
    intro j y hy k hk
    have hj : 0 + j < s.items.length := by
      have := valAt_lt hy
      omega
    exact (h4 j _ y (List.getElem?_eq_getElem hj) hy).2.2 k hk
  · intro j x y hx hy
    simpa using (h4 j x y (by simpa using hx) hy).2.1

/-- the sum of the values of a label up to and including a position -/
def runningSum (l : List Item) (k : String) : ℕ → ℚ
  | 0 => valueAt l 0 k
  | i + 1 => runningSum l k i + valueAt l (i + 1) k

/-- the label loop of `csum` -/
theorem csum_labels {cal : Calendar} {s : TSeries} {ks : List String} (h : OpSeries cal s ks)
    (i : ℕ) (hi : i < s.items.length) (kk : List String) (hn : kk.Nodup) (hsub : ∀ k ∈ kk, k ∈ ks)
    (st : IntState)
    (hst : ∀ k ∈ kk, st.last.get? k = if i = 0 then none else some (runningSum s.items k (i - 1))) :
    ∃ st', intLabels s.items none (.num 0) i st kk =
        .ok (st', kk.map (fun k => (k, runningSum s.items k i))) ∧
      (∀ k ∈ kk, st'.last.get? k = some (runningSum s.items k i)) ∧
      (∀ k, k ∉ kk → st'.last.get? k = st.last.get? k) := by
  induction kk generalizing st with
  | nil => exact ⟨st, rfl, by simp, by simp⟩
  | cons k r ih =>
    have hval : intStep s.items none (.num 0) i st k = .ok
        ({ prc := st.prc, last := st.last.set k (runningSum s.items k i) }, runningSum s.items k i) := by
      unfold intStep
      simp only [h.valAt hi (hsub k (by simp)), hst k (by simp)]
      cases i with
      | zero => simp [addC, runningSum]
      | succ i => simp [runningSum]
    have hk : k ∉ r := (List.nodup_cons.1 hn).1
    obtain ⟨st', h1, h2, h3⟩ := ih (List.nodup_cons.1 hn).2 (fun a ha => hsub a (by simp [ha]))
      { prc := st.prc, last := st.last.set k (runningSum s.items k i) } (by
        intro a ha
        have hak : k ≠ a := fun he => hk (by rw [he]; exact ha)
        rw [Dict.get?_set, if_neg hak]
        exact hst a (by simp [ha]))
    refine ⟨st', ?_, ?_, ?_⟩
    · unfold intLabels
      rw [hval]
      simp only
      rw [h1]
      simp
    · intro a ha
      by_cases hak : a ∈ r
      · exact h2 a hak
      · have : a = k := by
          rcases List.mem_cons.1 ha with h | h
          · exact h
          · exact absurd h hak
        subst this
        rw [h3 _ hk, Dict.get?_set, if_pos rfl]
    · intro a ha
      have hak : k ≠ a := fun he => ha (by simp [he])
      rw [h3 a (fun h => ha (by simp [h])), Dict.get?_set, if_neg hak]

/-- `csum` of a constant-resolution series: the running sums -/
theorem csum_spec {cal : Calendar} {s : TSeries} {ks : List String} (h : OpSeries cal s ks)
    (hres : s.res ≠ .varying) :
    ∃ r, s.csumOp cal = .ok r ∧ OpSeries cal r (ks.map (resultLabel s.items "csum")) ∧
      Computes s.items r.items 0 ks (resultLabel s.items "csum")
        (fun i k => runningSum s.items k i) ∧
      (∀ (j : ℕ) (x y : Item), s.items[j]? = some x → r.items[j]? = some y → y.idx = x.idx) := by
  obtain ⟨d, kk, r, hprep, hfin, hop, hcomp, hidx⟩ := intOp_spec h none (.num 0) "csum"
    (fun i k => runningSum s.items k i)
    (fun kk i st => ∀ k ∈ kk, st.last.get? k =
      if i = 0 then none else some (runningSum s.items k (i - 1)))
    (fun kk k _ => rfl) (by
      intro kk hp i st hi hinv
      obtain ⟨st', h1, h2, _⟩ := csum_labels h i hi kk (hp.nodup_iff.2 h.nodup)
        (fun k hk => hp.subset hk) st hinv
      exact ⟨st', h1, fun k hk => by simpa using h2 k hk⟩)
  refine ⟨r, ?_, hop, hcomp, hidx⟩
  unfold TSeries.csumOp
  rw [isDict_of_prep h hres]
  simp only [Bool.false_eq_true, if_false, hres, hprep]
  exact hfin

theorem spacings_drop_one (l : List ℚ) : ∀ v ∈ spacings (l.drop 1), v ∈ spacings l := by
  rcases l with _ | ⟨a, _ | ⟨b, r⟩⟩
  · simp [spacings]
  · simp [spacings]
  · intro v hv
    simp only [List.drop_succ_cons, List.drop_zero] at hv
    simp [spacings, hv]

theorem specRes_varying_iff (sp : List ℚ) : (specRes sp = .varying → ∃ d ds, sp = d :: ds ∧ ¬ ∀ z ∈ ds, z = d) := by
  intro h
  rcases sp with _ | ⟨d, ds⟩
  · simp [specRes] at h
  · refine ⟨d, ds, rfl, ?_⟩
    intro hall
    unfold specRes at h
    simp only at h
    rw [if_pos hall] at h
    split at h <;> cases h

/-- dropping the first item does not make a constant resolution variable -/
theorem computes_res_one {cal : Calendar} {s r : TSeries} {ks ks' : List String}
    (hs : OpSeries cal s ks) (hr : OpSeries cal r ks') {nl : String → String} {v : ℕ → String → ℚ}
    (hc : Computes s.items r.items 1 ks nl v) (hres : s.res ≠ .varying) : r.res ≠ .varying := by
  have hlen := hc.length
  have hslot : ∀ y ∈ r.items, ∃ x ∈ s.items, y.isSlot = x.isSlot := by
    intro y hy
    obtain ⟨j, hj, rfl⟩ := List.getElem_of_mem hy
    have h1 : 1 + j < s.items.length := by omega
    refine ⟨s.items[1 + j], List.getElem_mem h1, ?_⟩
    have := hc.place j _ _ (List.getElem?_eq_getElem h1) (List.getElem?_eq_getElem hj)
    simp [Item.isSlot, this.2.1]
  rcases hs.shape with ⟨h1, _⟩ | ⟨h1, _⟩
  · have hp' : AllPoints r.items := by
      intro y hy
      obtain ⟨x, hx, he⟩ := hslot y hy
      rw [he]; exact h1 x hx
    rw [hs.res_points h1] at hres
    rw [hr.res_points hp', hc.times]
    intro hv
    obtain ⟨d, ds, hd, hne⟩ := specRes_varying_iff _ hv
    apply hne
    intro z hz
    have hsub := spacings_drop_one (times s.items)
    rw [show (times s.items).drop 1 = times (s.items.drop 1) by simp [times], hd] at hsub
    have m1 := hsub z (by simp [hz])
    have m2 := hsub d (by simp)
    cases hsp : spacings (times s.items) with
    | nil => rw [hsp] at m1; simp at m1
    | cons e es =>
      rw [hsp] at m1 m2 hres
      have hall : ∀ x ∈ es, x = e := by
        by_contra hn
        exact hres (specRes_variable hn)
      have f : ∀ x ∈ e :: es, x = e := by
        intro x hx
        rcases List.mem_cons.1 hx with h | h
        · exact h
        · exact hall x h
      rw [f z m1, f d m2]
  · have hp' : AllSlots r.items := by
      intro y hy
      obtain ⟨x, hx, he⟩ := hslot y hy
      rw [he]; exact h1 x hx
    exact (build_slotInv hp' hr.built).novar

/-! ## C23 -/

/-- **C23 (diff after csum)**: on a constant-resolution series with at least two items, the
differences of the cumulative sums are the original values, first item dropped. -/
theorem C23_diff_csum {cal : Calendar} {s : TSeries} {ks : List String} (h : OpSeries cal s ks)
    (hres : s.res ≠ .varying) (hl : 2 ≤ s.items.length) :
    ∃ c r, s.csumOp cal = .ok c ∧ c.diffOp cal = .ok r ∧
      c.items.length = s.items.length ∧ r.items.length = s.items.length - 1 ∧
      Computes s.items r.items 1 ks
        (resultLabel c.items "diff" ∘ resultLabel s.items "csum") (valueAt s.items) := by
  obtain ⟨c, h1, h2, h3, _⟩ := csum_spec h hres
  have hlc : c.items.length = s.items.length := by simpa using h3.length
  have hrc : c.res ≠ .varying := by rw [computes_res h h2 h3]; exact hres
  obtain ⟨r, h4, _, h6, _⟩ := diff_spec h2 hrc (by omega)
  have hcomp := h3.trans h6 rfl
  rw [Nat.zero_add] at hcomp
  refine ⟨c, r, h1, h4, hlc, by rw [h6.length, hlc], hcomp.congr ?_⟩
  intro i hi h1i k hk
  have e1 := h3.valueAt (j := i) (by omega) hk
  have e2 := h3.valueAt (j := i - 1) (by omega) hk
  simp only [Nat.zero_add, Nat.sub_zero] at e1 e2 ⊢
  rw [e1, e2]
  obtain ⟨j, rfl⟩ : ∃ j, i = j + 1 := ⟨i - 1, by omega⟩
  simp [runningSum]

/-- **C23 (csum after diff)**: adding the first value of each label to the cumulative sums of the
differences gives back the original values, first item dropped. -/
theorem C23_csum_diff {cal : Calendar} {s : TSeries} {ks : List String} (h : OpSeries cal s ks)
    (hres : s.res ≠ .varying) (hl : 2 ≤ s.items.length) :
    ∃ d r, s.diffOp cal = .ok d ∧ d.csumOp cal = .ok r ∧
      d.items.length = s.items.length - 1 ∧ r.items.length = d.items.length ∧
      Computes s.items r.items 1 ks
        (resultLabel d.items "csum" ∘ resultLabel s.items "diff")
        (fun i k => valueAt s.items i k - valueAt s.items 0 k) := by
  obtain ⟨d, h1, h2, h3, _⟩ := diff_spec h hres hl
  have hrd : d.res ≠ .varying := computes_res_one h h2 h3 hres
  obtain ⟨r, h4, _, h6, _⟩ := csum_spec h2 hrd
  refine ⟨d, r, h1, h4, h3.length, by simpa using h6.length, ?_⟩
  have hcomp := h3.trans h6 rfl
  rw [Nat.add_zero] at hcomp
  refine hcomp.congr ?_
  intro i hi h1i k hk
  obtain ⟨j, rfl⟩ : ∃ j, i = j + 1 := ⟨i - 1, by omega⟩
  simp only [Nat.add_sub_cancel]
  have hlen := h3.length
  clear h1i
  induction j with
  | zero =>
    have := h3.valueAt (j := 0) (by omega) hk
    simp only [runningSum]
    rw [this]
  | succ j ih =>
    have := h3.valueAt (j := j + 1) (by omega) hk
    simp only [runningSum]
    rw [ih (by omega), this]
    rw [show 1 + (j + 1) = j + 2 by omega, show j + 2 - 1 = j + 1 by omega, show j + 1 + 1 = j + 2 by omega]
    ring


/-! ## C24, C25, C26 -/

/-- the derivative of a series with constant resolution `d` seconds -/
theorem deriv_spec {cal : Calendar} {s : TSeries} {ks : List String} (h : OpSeries cal s ks)
    {d : ℚ} (hd : d ≠ 0) (hres : s.res = .unit (TUnit.ofSecs d)) (hl : 2 ≤ s.items.length)
    (auto : ℚ) :
    ∃ r, s.derivativeOp cal auto = .ok r ∧ OpSeries cal r (ks.map (resultLabel s.items "derivative")) ∧
      Computes s.items r.items 0 ks (resultLabel s.items "derivative")
        (fun i k =>
          if i = 0 then (valueAt s.items 1 k - valueAt s.items 0 k) / d
          else if i + 1 = s.items.length then (valueAt s.items i k - valueAt s.items (i - 1) k) / d
          else (valueAt s.items (i + 1) k - valueAt s.items (i - 1) k) / 2 / d) ∧
      (∀ (j : ℕ) (x y : Item), s.items[j]? = some x → r.items[j]? = some y → y.idx = x.idx) := by
  obtain ⟨x, r0, d0, kk, hi, hd0, hkk, hp, hprep⟩ := h.opPrep
  have hni : s.normInfo cal auto = .ok (false, d) := by
    unfold TSeries.normInfo
    rw [hres, hi]
    simp only [asSeconds]
    rw [cal.physical _ _ _ ⟨rfl, rfl, rfl, rfl⟩]
    simp [TUnit.ofSecs]
  obtain ⟨x, r0, d1, kk, r, hi, hd1, hprep, hp, hfin, hop, hcomp, hidx, _⟩ := itemOp_spec h
      (fun k => withPostfix k "derivative") (fun a b hab => withPostfix_inj hab) true
      (fun i _ k => derivVal s.items (some (false, d)) false i k)
      (fun i k =>
          if i = 0 then (valueAt s.items 1 k - valueAt s.items 0 k) / d
          else if i + 1 = s.items.length then (valueAt s.items i k - valueAt s.items (i - 1) k) / d
          else (valueAt s.items (i + 1) k - valueAt s.items (i - 1) k) / 2 / d) 0 (by omega) (by
        intro i x hx _ k hk
        have := valAt_lt hx
        unfold derivVal
        rw [h.valAt this hk, h.valAt (show i - 1 < s.items.length by omega) hk]
        simp only [Bool.false_eq_true, if_false]
        by_cases h0 : i = 0
        · subst h0
          rw [h.valAt (show 0 + 1 < s.items.length by omega) hk]
          simp [pyDiv, hd]
        · rw [if_neg h0, if_neg h0]
          by_cases h1 : i + 1 = s.items.length
          · rw [if_pos h1, if_pos h1]
            simp [pyDiv, hd]
          · rw [if_neg h1, if_neg h1, h.valAt (show i + 1 < s.items.length by omega) hk]
            simp only [pyDiv, hd, if_false]
            congr 2
            ring)
  rw [lab_eq_resultLabel hi hd1] at hcomp hop
  refine ⟨r, ?_, hop, hcomp, fun j x y hx hy => by simpa using hidx j x y (by simpa using hx) hy⟩
  unfold TSeries.derivativeOp
  rw [hprep]
  simp only [hni]
  rw [if_neg (by omega)]
  have : (fun _ : ℕ => false) = (fun i : ℕ => decide (i < 0)) := by funext i; simp
  rw [this]
  exact hfin

/-- **C26 (constant resolution)**: on a series of at least two items every `d` seconds (with that
resolution), whose values are an affine function of time, the derivative is the slope at every
item. -/
theorem C26_uniform_partial {cal : Calendar} {s : TSeries} {ks : List String} (h : OpSeries cal s ks)
    {d : ℚ} (hd : d ≠ 0) (hres : s.res = .unit (TUnit.ofSecs d)) (hl : 2 ≤ s.items.length)
    (hev : EverySecs d s.items) (auto : ℚ) (a b : String → ℚ)
    (hline : ∀ i < s.items.length, ∀ k ∈ ks, valueAt s.items i k = a k * timeAt s.items i + b k) :
    ∃ r, s.derivativeOp cal auto = .ok r ∧
      Computes s.items r.items 0 ks (resultLabel s.items "derivative") (fun _ k => a k) := by
  obtain ⟨r, h1, _, h3, _⟩ := deriv_spec h hd hres hl auto
  refine ⟨r, h1, h3.congr ?_⟩
  intro i hi _ k hk
  have step : ∀ j, j + 1 < s.items.length → valueAt s.items (j + 1) k - valueAt s.items j k = a k * d := by
    intro j hj
    rw [hline _ hj k hk, hline _ (by omega) k hk, ← hev j hj]; ring
  by_cases h0 : i = 0
  · rw [if_pos h0, step 0 (by omega)]; field_simp
  · rw [if_neg h0]
    obtain ⟨j, rfl⟩ : ∃ j, i = j + 1 := ⟨i - 1, by omega⟩
    simp only [Nat.add_sub_cancel]
    have s1 := step j (by omega)
    by_cases hlast : j + 1 + 1 = s.items.length
    · rw [if_pos hlast, s1]; field_simp
    · rw [if_neg hlast]
      have s2 := step (j + 1) (by omega)
      rw [show valueAt s.items (j + 1 + 1) k - valueAt s.items j k = 2 * (a k * d) by linarith]
      field_simp

/-- The same for variable resolutions, at the items which are neither first nor last. -/
theorem C26_interior_partial {cal : Calendar} {s : TSeries} {ks : List String} (h : OpSeries cal s ks)
    (hord : StrictlyOrdered s.items) (auto : ℚ) (a b : String → ℚ)
    (hline : ∀ i < s.items.length, ∀ k ∈ ks, valueAt s.items i k = a k * timeAt s.items i + b k)
    (i : ℕ) (hi0 : 0 < i) (hi : i + 1 < s.items.length) (k : String) (hk : k ∈ ks) :
    derivVal s.items (some (true, auto)) false i k = .ok (a k) := by
  have ht : ∀ j, j + 1 < s.items.length → timeAt s.items (j + 1) - timeAt s.items j ≠ 0 := by
    intro j hj
    have h1 := List.pairwise_iff_getElem.1 hord j (j + 1) (by omega) hj (by omega)
    rw [timeAt_of (List.getElem?_eq_getElem hj), timeAt_of (List.getElem?_eq_getElem (by omega : j < s.items.length))]
    intro h0
    linarith
  obtain ⟨j, rfl⟩ : ∃ j, i = j + 1 := ⟨i - 1, by omega⟩
  unfold derivVal
  rw [h.valAt (show j + 1 < s.items.length by omega) hk,
    h.valAt (show j + 1 - 1 < s.items.length by omega) hk, h.valAt hi hk,
    tAt_eq (show j + 1 - 1 < s.items.length by omega), tAt_eq (show j + 1 < s.items.length by omega),
    tAt_eq hi]
  simp only [Bool.false_eq_true, if_false]
  rw [if_neg (by omega), if_neg (by omega)]
  simp only [Nat.add_sub_cancel, pyDiv, ht j (by omega), ht (j + 1) hi, if_false]
  rw [hline _ hi k hk, hline j (by omega) k hk, hline (j + 1) (by omega) k hk]
  have e1 : (a k * timeAt s.items (j + 1) + b k - (a k * timeAt s.items j + b k)) /
      (timeAt s.items (j + 1) - timeAt s.items j) = a k := by
    rw [div_eq_iff (ht j (by omega))]; ring
  have e2 : (a k * timeAt s.items (j + 1 + 1) + b k - (a k * timeAt s.items (j + 1) + b k)) /
      (timeAt s.items (j + 1 + 1) - timeAt s.items (j + 1)) = a k := by
    rw [div_eq_iff (ht (j + 1) hi)]; ring
  rw [e1, e2]
  congr 1
  ring

/-- `v(t) = t` at the times 0, 1 and 3 -/
def exLine : TSeries :=
  match TSeries.build [mkPoint 0 (.dict [("v", 0)]), mkPoint 1 (.dict [("v", 1)]),
      mkPoint 3 (.dict [("v", 3)])] with
  | .ok s => s
  | .error _ => {}

/-- the value of label `k` of the last item of a computed series -/
def lastVal (r : Except PyErr TSeries) (k : String) : Option ℚ :=
  match r with
  | .ok s => s.items.getLast?.bind (fun x => x.value? k)
  | .error _ => none

def firstVal (r : Except PyErr TSeries) (k : String) : Option ℚ :=
  match r with
  | .ok s => s.items.head?.bind (fun x => x.value? k)
  | .error _ => none

/-- **C26 is false at the ends of a variable-resolution series**: whatever sampling interval is
autodetected, the derivative of `v(t) = t` at the times 0, 1, 3 is not 1 at both ends, as both end
increments are divided by the same interval. -/
theorem C26_false (auto : ℚ) :
    ¬ (firstVal (exLine.derivativeOp physicalCalendar auto) "v_derivative" = some 1 ∧
       lastVal (exLine.derivativeOp physicalCalendar auto) "v_derivative" = some 1) := by
  have hprep : exLine.opPrep = .ok (.dict [("v", 0)], ["v"]) := by decide +kernel
  have hit : exLine.items = [mkPoint 0 (.dict [("v", 0)]), mkPoint 1 (.dict [("v", 1)]),
      mkPoint 3 (.dict [("v", 3)])] := by decide +kernel
  have hres : exLine.res = .varying := by decide +kernel
  have hop : OpSeries physicalCalendar exLine ["v"] := by
    refine ⟨by decide +kernel, by decide +kernel, by decide +kernel, ?_, .inl ⟨?_, ?_⟩⟩
    · rw [hit]
      intro x hx
      simp only [List.mem_cons, List.not_mem_nil, or_false] at hx
      rcases hx with rfl | rfl | rfl <;>
        exact ⟨_, rfl, by decide, by decide, by intro v h; cases h⟩
    · unfold AllPoints; decide +kernel
    · decide +kernel
  by_cases ha : auto = 0
  · subst ha; decide +kernel
  · obtain ⟨x, r0, d1, kk, r, hi, hd1, hprep', hp, hfin, _, hcomp, _, _⟩ := itemOp_spec hop
      (fun k => withPostfix k "derivative") (fun a b hab => withPostfix_inj hab) true
      (fun i _ k => derivVal exLine.items (some (true, auto)) false i k)
      (fun i _ => if i = 0 then 1 / auto else if i = 1 then 1 else 2 / auto) 0
      (by rw [hit]; simp) (by
        intro i x hx _ k hk
        have hlt := valAt_lt hx
        rw [hit] at hlt
        simp only [List.length_cons, List.length_nil] at hlt
        have hk' : k = "v" := by simpa using hk
        subst hk'
        have hv : ∀ j < 3, valAt exLine.items j "v" = .ok (([0, 1, 3] : List ℚ)[j]!) := by decide +kernel
        unfold derivVal
        interval_cases i
        · rw [hv 0 (by omega), hv (0 + 1) (by omega)]
          simp [pyDiv, ha]
        · rw [hv 1 (by omega), hv (1 - 1) (by omega), hv (1 + 1) (by omega)]
          rw [hit]
          simp [pyDiv, tAt, mkPoint]
          norm_num
        · rw [hv 2 (by omega), hv (2 - 1) (by omega), hit]
          simp [pyDiv, ha]
          norm_num)
    rw [hprep] at hprep'
    cases hprep'
    have hr : exLine.derivativeOp physicalCalendar auto = .ok r := by
      unfold TSeries.derivativeOp
      rw [hprep]
      simp only
      rw [if_neg (by rw [hit]; simp)]
      unfold TSeries.normInfo
      rw [hres]
      simp only
      have : (fun _ : ℕ => false) = (fun i : ℕ => decide (i < 0)) := by funext i; simp
      rw [this]
      exact hfin
    have hlen : r.items.length = 3 := by
      have := hcomp.length; rw [hit] at this; simpa using this
    have v0 := hcomp.values 0 _ (List.getElem?_eq_getElem (by omega)) "v" (by simp)
    have v2 := hcomp.values 2 _ (List.getElem?_eq_getElem (by omega)) "v" (by simp)
    rw [hr]
    rintro ⟨h1, h2⟩
    have hlab : lab (.dict [("v", 0)]) (fun k => withPostfix k "derivative") "v" = "v_derivative" := by
      decide
    rw [hlab] at v0 v2
    have hf : r.items.head? = some r.items[0] := by
      rw [List.head?_eq_getElem?]; exact List.getElem?_eq_getElem (by omega)
    have hla : r.items.getLast? = some r.items[2] := by
      rw [List.getLast?_eq_getElem?]
      have : r.items.length - 1 = 2 := by omega
      simp only [this]
      exact List.getElem?_eq_getElem (by omega)
    simp only [firstVal, hf, Option.bind_some, v0] at h1
    simp only [lastVal, hla, Option.bind_some, v2] at h2
    simp at h1 h2
    rw [h1] at h2
    norm_num at h2

/-- **C26 is false for some uniform series too**: points every 1.05 seconds are given a resolution of
15 seconds (C20), and the derivative of `v(t) = t` is 0.07 instead of 1. -/
theorem C26_false_uniform : (match TSeries.build [mkPoint 0 (.dict [("v", 0)]),
      mkPoint (21 / 20) (.dict [("v", 21 / 20)])] with
    | .ok s => firstVal (s.derivativeOp physicalCalendar 1) "v_derivative"
    | .error _ => none) = some (7 / 100) := by decide +kernel

/-- the label loop of `integral` with a single label, at constant resolution -/
theorem int_single {cal : Calendar} {s : TSeries} {k : String} (h : OpSeries cal s [k])
    (d c : ℚ) (inc : ℕ → ℚ)
    (hinc0 : inc 1 = valueAt s.items 0 k)
    (hinc : ∀ i, 1 ≤ i → i < s.items.length → inc (i + 1) = valueAt s.items i k * 2 - inc i)
    (V : ℕ → ℚ) (hV0 : V 0 = c) (hV : ∀ i, i + 1 < s.items.length → V (i + 1) = V i + inc (i + 1) * d)
    (i : ℕ) (st : IntState) (hi : i < s.items.length)
    (hst : if i = 0 then st.last.get? k = none
      else (st.prc = some (if i = 1 then valueAt s.items 0 k else inc (i - 1)) ∧
        st.last.get? k = some (V (i - 1)))) :
    ∃ st', intLabels s.items (some (false, d)) (.num c) i st [k] = .ok (st', [(k, V i)]) ∧
      st'.prc = some (if i = 0 then valueAt s.items 0 k else inc i) ∧
      st'.last.get? k = some (V i) := by
  have hk : k ∈ [k] := by simp
  cases i with
  | zero =>
    simp only [if_true] at hst
    refine ⟨{ prc := some (valueAt s.items 0 k), last := st.last.set k (V 0) }, ?_, ?_, ?_⟩
    · unfold intLabels intStep
      simp only [h.valAt hi hk, hst, addC, if_true, intLabels]
      simp [hV0]
    · rfl
    · simp [Dict.get?_set]
  | succ i =>
    simp only [Nat.succ_ne_zero, if_false, Nat.add_sub_cancel] at hst
    obtain ⟨h1, h2⟩ := hst
    have hincs : valueAt s.items i k * 2 - (if i + 1 = 1 then valueAt s.items 0 k else inc i) =
        inc (i + 1) := by
      by_cases h0 : i = 0
      · subst h0; simp [hinc0]; ring
      · rw [if_neg (by omega), hinc i (by omega) (by omega)]
    refine ⟨{ prc := some (inc (i + 1)), last := st.last.set k (V (i + 1)) }, ?_, ?_, ?_⟩
    · unfold intLabels intStep
      simp only [Nat.add_sub_cancel, h.valAt (show i < s.items.length by omega) hk, h1, h2, intLabels,
        Nat.succ_ne_zero, if_false, hincs, ← hV i hi]
    · rfl
    · simp [Dict.get?_set]

/-- `integral` of a single-label series with constant resolution `d` -/
theorem integral_single {cal : Calendar} {s : TSeries} {k : String} (h : OpSeries cal s [k])
    {d : ℚ} (hres : s.res = .unit (TUnit.ofSecs d)) (auto c : ℚ) (inc V : ℕ → ℚ)
    (hinc0 : inc 1 = valueAt s.items 0 k)
    (hinc : ∀ i, 1 ≤ i → i < s.items.length → inc (i + 1) = valueAt s.items i k * 2 - inc i)
    (hV0 : V 0 = c) (hV : ∀ i, i + 1 < s.items.length → V (i + 1) = V i + inc (i + 1) * d) :
    ∃ r, s.integralOp cal auto (.num c) = .ok r ∧
      Computes s.items r.items 0 [k] (resultLabel s.items "integral") (fun i _ => V i) := by
  obtain ⟨d0, kk, r, hprep, hfin, hop, hcomp, hidx⟩ := intOp_spec h (some (false, d)) (.num c)
    "integral" (fun i _ => V i)
    (fun _ i st => if i = 0 then st.last.get? k = none
      else (st.prc = some (if i = 1 then valueAt s.items 0 k else inc (i - 1)) ∧
        st.last.get? k = some (V (i - 1))))
    (fun kk => by simp [Dict.get?]) (by
      intro kk hp i st hi hinv
      have : kk = [k] := List.perm_singleton.1 hp
      subst this
      obtain ⟨st', h1, h2, h3⟩ := int_single h d c inc hinc0 hinc V hV0 hV i st hi hinv
      refine ⟨st', h1, ?_⟩
      rw [if_neg (by omega)]
      simp only [Nat.add_sub_cancel]
      refine ⟨?_, h3⟩
      rw [h2]
      by_cases h0 : i = 0
      · subst h0; simp
      · rw [if_neg h0, if_neg (by omega)])
  refine ⟨r, ?_, hcomp⟩
  obtain ⟨x, r0, d1, kk1, hi, hd1, hkk1, hp1, hprep1⟩ := h.opPrep
  have hni : s.normInfo cal auto = .ok (false, d) := by
    unfold TSeries.normInfo
    rw [hres, hi]
    simp only [asSeconds]
    rw [cal.physical _ _ _ ⟨rfl, rfl, rfl, rfl⟩]
    simp [TUnit.ofSecs]
  unfold TSeries.integralOp
  simp only [hprep, hni]
  exact hfin

/-- **C24**: for a single-label series with constant resolution `d` seconds and at least two items,
integrating the derivative, with the first value as constant, gives back the original values, in the
same places. -/
theorem C24_integral_derivative {cal : Calendar} {s : TSeries} {k : String} (h : OpSeries cal s [k])
    {d : ℚ} (hd : d ≠ 0) (hres : s.res = .unit (TUnit.ofSecs d)) (hl : 2 ≤ s.items.length)
    (auto auto' : ℚ) :
    ∃ r q, s.derivativeOp cal auto = .ok r ∧
      r.integralOp cal auto' (.num (valueAt s.items 0 k)) = .ok q ∧
      r.items.length = s.items.length ∧
      Computes s.items q.items 0 [k]
        (resultLabel r.items "integral" ∘ resultLabel s.items "derivative") (valueAt s.items) := by
  obtain ⟨r, h1, h2, h3, _⟩ := deriv_spec h hd hres hl auto
  have hlen : r.items.length = s.items.length := by simpa using h3.length
  have hres' : r.res = .unit (TUnit.ofSecs d) := by rw [computes_res h h2 h3]; exact hres
  have hk : k ∈ [k] := by simp
  have hv : ∀ i < s.items.length, valueAt r.items i (resultLabel s.items "derivative" k) =
      if i = 0 then (valueAt s.items 1 k - valueAt s.items 0 k) / d
          else if i + 1 = s.items.length then (valueAt s.items i k - valueAt s.items (i - 1) k) / d
          else (valueAt s.items (i + 1) k - valueAt s.items (i - 1) k) / 2 / d := by
    intro i hi
    simpa using h3.valueAt (j := i) (by omega) hk
  -- the integrand between two items is the slope of the original series there
  let inc : ℕ → ℚ := fun i =>
    if i < s.items.length then (valueAt s.items i k - valueAt s.items (i - 1) k) / d
    else 2 * valueAt r.items (i - 1) (resultLabel s.items "derivative" k) -
      (valueAt s.items (i - 1) k - valueAt s.items (i - 1 - 1) k) / d
  obtain ⟨q, h4, h5⟩ := integral_single (s := r) (k := resultLabel s.items "derivative" k) h2 hres' auto'
    (valueAt s.items 0 k) inc (valueAt s.items · k)
    (by simp only [inc]; rw [if_pos (by omega), hv 0 (by omega)]; simp)
    (by
      intro i hi1 hi2
      rw [hlen] at hi2
      simp only [inc]
      rw [if_pos hi2]
      by_cases hlast : i + 1 < s.items.length
      · rw [if_pos hlast, hv i hi2, if_neg (by omega), if_neg (by omega)]
        simp only [Nat.add_sub_cancel]
        field_simp
        ring
      · rw [if_neg hlast]
        simp only [Nat.add_sub_cancel]
        ring)
    rfl
    (by
      intro i hi
      rw [hlen] at hi
      simp only [inc]
      rw [if_pos hi]
      simp only [Nat.add_sub_cancel]
      field_simp
      ring)
  refine ⟨r, q, h1, h4, hlen, ?_⟩
  have hcomp := h3.trans h5 (by simp)
  rw [Nat.add_zero] at hcomp
  refine hcomp.congr ?_
  intro i hi _ k' hk'
  have : k' = k := by simpa using hk'
  subst this
  rfl

/-- a single-label series meeting the hypotheses of `C24_integral_derivative` -/
def exSingle : TSeries :=
  match TSeries.build [mkPoint 0 (.dict [("v", 5)]), mkPoint 60 (.dict [("v", 7)]),
      mkPoint 120 (.dict [("v", 1)])] with
  | .ok s => s
  | .error _ => {}

theorem C24_witness : OpSeries physicalCalendar exSingle ["v"] ∧
    exSingle.res = .unit (TUnit.ofSecs 60) ∧ 2 ≤ exSingle.items.length := by
  have hit : exSingle.items = [mkPoint 0 (.dict [("v", 5)]), mkPoint 60 (.dict [("v", 7)]),
      mkPoint 120 (.dict [("v", 1)])] := by decide +kernel
  refine ⟨⟨by decide +kernel, by decide +kernel, by decide +kernel, ?_, .inl ⟨?_, ?_⟩⟩,
    by decide +kernel, by decide +kernel⟩
  · rw [hit]
    intro x hx
    simp only [List.mem_cons, List.not_mem_nil, or_false] at hx
    rcases hx with rfl | rfl | rfl <;>
      exact ⟨_, rfl, by decide, by decide, by intro v h; cases h⟩
  · unfold AllPoints; decide +kernel
  · decide +kernel

/-- two labels, one of them constantly zero -/
def exTwo : TSeries :=
  match TSeries.build [mkPoint 0 (.dict [("a", 1), ("b", 0)]), mkPoint 1 (.dict [("a", 1), ("b", 0)])] with
  | .ok s => s
  | .error _ => {}

/-- **C199 is false**: the integral of `a` is 1 when `a` is alone but 2 when the series has a second
label `b`, because the last right component is shared by all the labels. -/
theorem C199_false :
    lastVal (exTwo.integralOp physicalCalendar 1 (.num 0)) "a_integral" = some 2 ∧
    lastVal (bindE (exTwo.filterOp ["a"]) (fun f => f.integralOp physicalCalendar 1 (.num 0)))
      "a_integral" = some 1 := by
  decide +kernel

/-- **C25**: without normalization (`csum`) the labels are independent: the cumulative
sums of a label are those of the series filtered on it. -/
theorem C25_csum {cal : Calendar} {s : TSeries} {ks : List String} (h : OpSeries cal s ks)
    (hres : s.res ≠ .varying) (hdict : ∀ x ∈ s.items, ∃ d, x.data = some (.dict d))
    (k : String) (hk : k ∈ ks) :
    ∃ c f cf, s.csumOp cal = .ok c ∧ s.filterOp [k] = .ok f ∧ f.csumOp cal = .ok cf ∧
      c.items.length = cf.items.length ∧ ∀ i < s.items.length,
        ∃ x y v, c.items[i]? = some x ∧ cf.items[i]? = some y ∧ SamePlace x y ∧
          x.value? (k ++ "_csum") = some v ∧ y.value? (k ++ "_csum") = some v := by
  obtain ⟨c, h1, h2, h3, _⟩ := csum_spec h hres
  obtain ⟨f, g1, g2, g3, _⟩ := C30_filter h hdict [k] (by simp) (by simpa using hk) (by simp)
  have hfr : f.res ≠ .varying := by rw [computes_res' h g2 g3]; exact hres
  obtain ⟨cf, e1, e2, e3, _⟩ := csum_spec g2 hfr
  have l1 := h3.length
  have l2 := g3.length
  have l3 := e3.length
  refine ⟨c, f, cf, h1, g1, e1, by omega, ?_⟩
  intro i hi
  have i1 : i < c.items.length := by omega
  have i2 : i < cf.items.length := by omega
  have i3 : i < f.items.length := by omega
  have hlab1 : resultLabel s.items "csum" k = k ++ "_csum" := by
    cases hs : s.items with
    | nil => rw [hs] at hi; simp at hi
    | cons x r =>
      obtain ⟨d, hd⟩ := hdict x (by rw [hs]; simp)
      simp [resultLabel, newLabel, hd, String.append_assoc]
  have hlab2 : resultLabel f.items "csum" k = k ++ "_csum" := by
    have hfd := filter_dict hdict g1
    cases hs : f.items with
    | nil => rw [hs] at i3; simp at i3
    | cons x r =>
      obtain ⟨d, hd⟩ := hfd x (by rw [hs]; simp)
      simp [resultLabel, newLabel, hd, String.append_assoc]
  have v1 := h3.values i _ (List.getElem?_eq_getElem i1) k hk
  have v2 := e3.values i _ (List.getElem?_eq_getElem i2) k (by simp)
  rw [hlab1] at v1
  rw [hlab2] at v2
  simp only [Nat.zero_add] at v1 v2
  have p1 := h3.place i _ _ (by rw [Nat.zero_add]; exact List.getElem?_eq_getElem hi)
    (List.getElem?_eq_getElem i1)
  have p2 := g3.place i _ _ (by rw [Nat.zero_add]; exact List.getElem?_eq_getElem hi)
    (List.getElem?_eq_getElem i3)
  have p3 := e3.place i _ _ (by rw [Nat.zero_add]; exact List.getElem?_eq_getElem i3)
    (List.getElem?_eq_getElem i2)
  refine ⟨_, _, _, List.getElem?_eq_getElem i1, List.getElem?_eq_getElem i2, ?_, v1, ?_⟩
  · exact ⟨(p3.1.trans p2.1).trans p1.1.symm, (p3.2.1.trans p2.2.1).trans p1.2.1.symm,
      (p3.2.2.trans p2.2.2).trans p1.2.2.symm⟩
  · rw [v2]
    congr 1
    clear v1 v2 p1 p2 p3 i1 i2
    have hval : ∀ j < s.items.length, valueAt f.items j k = valueAt s.items j k := by
      intro j hj
      simpa using g3.valueAt (j := j) (by omega) (by simp : k ∈ [k])
    induction i with
    | zero => simp only [runningSum]; exact hval 0 hi
    | succ j ih => simp only [runningSum]; rw [ih (by omega) (by omega), hval (j + 1) hi]

end Timeseria
