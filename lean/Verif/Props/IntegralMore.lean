import Verif.Props.OpsDiff

/-! # What the integral of a series with several labels is (C199), its constant (C224), and a single point (C225) -/

namespace Timeseria

/-- the constant of integration of a label: the number given, or the entry of the label in the dictionary given -/
def ConstOf (c : NumOrDict) (k : String) (v : ℚ) : Prop := c = .num v ∨ ∃ d, c = .dict d ∧ d.get? k = some v

/-- the length of the step ending at the item `i`: the sampling interval, or, with a variable resolution, the time since
the item before -/
def stepLen (l : List Item) (vary : Bool) (si : ℚ) (i : ℕ) : ℚ :=
  if vary then timeAt l i - timeAt l (i - 1) else si

/-- the right components as the code computes them: one sequence for all the labels together -/
def sharedInc (l : List Item) (kk : List String) : ℕ → ℚ
  | 0 => valueAt l 0 (kk.getD 0 "")
  | m + 1 => if m + 1 < kk.length then valueAt l 0 (kk.getD (m + 1) "")
    else valueAt l ((m + 1) / kk.length - 1) (kk.getD ((m + 1) % kk.length) "") * 2 - sharedInc l kk m

/-- the values accumulated -/
def sharedVal (l : List Item) (kk : List String) (vary : Bool) (si : ℚ) (c0 : String → ℚ) : ℕ → String → ℚ
  | 0, k => c0 k
  | i + 1, k => sharedVal l kk vary si c0 i k +
      sharedInc l kk ((i + 1) * kk.length + kk.idxOf k) * stepLen l vary si (i + 1)

theorem sharedInc_first {l : List Item} {kk : List String} {j : ℕ} {k : String} (h : kk[j]? = some k) :
    sharedInc l kk j = valueAt l 0 k := by
  obtain ⟨hj, hk⟩ := List.getElem?_eq_some_iff.1 h
  cases j with
  | zero => simp [sharedInc, List.getD_eq_getElem?_getD, h]
  | succ j => simp [sharedInc, List.getD_eq_getElem?_getD, hj, hk]

theorem sharedInc_next {l : List Item} {kk : List String} {i j : ℕ} {k : String} (h : kk[j]? = some k) (hi : 1 ≤ i) :
    sharedInc l kk (i * kk.length + j) = valueAt l (i - 1) k * 2 - sharedInc l kk (i * kk.length + j - 1) := by
  obtain ⟨hj, hk⟩ := List.getElem?_eq_some_iff.1 h
  have hpos : 0 < kk.length := by omega
  have hge : kk.length ≤ i * kk.length := Nat.le_mul_of_pos_left _ (by omega)
  obtain ⟨m, hm⟩ : ∃ m, i * kk.length + j = m + 1 := ⟨i * kk.length + j - 1, by omega⟩
  have hdiv : (m + 1) / kk.length = i := by
    rw [← hm, Nat.add_comm, Nat.add_mul_div_right _ _ hpos, Nat.div_eq_of_lt hj]; omega
  have hmod : (m + 1) % kk.length = j := by
    rw [← hm, Nat.add_comm, Nat.add_mul_mod_self_right, Nat.mod_eq_of_lt hj]
  rw [hm]
  simp only [sharedInc, Nat.add_sub_cancel]
  rw [if_neg (by omega), hdiv, hmod, List.getD_eq_getElem?_getD, h]
  rfl

theorem addC_const {c : NumOrDict} {k : String} {v : ℚ} (h : ConstOf c k v) (x : ℚ) : addC c k x = .ok (x + v) := by
  rcases h with rfl | ⟨d, rfl, hd⟩
  · rfl
  · simp [addC, hd]

/-- the label loop at the first item -/
theorem intLabels_first {cal : Calendar} {s : TSeries} {ks : List String} (h : OpSeries cal s ks) (ni : Bool × ℚ)
    (c : NumOrDict) (c0 : String → ℚ) (hc : ∀ k ∈ ks, ConstOf c k (c0 k)) :
    ∀ (rest : List String) (st : IntState), rest.Nodup → (∀ k ∈ rest, k ∈ ks) → (∀ k ∈ rest, st.last.get? k = none) →
    ∃ st', intLabels s.items (some ni) c 0 st rest = .ok (st', rest.map (fun k => (k, c0 k))) ∧
      (∀ k, rest.getLast? = some k → st'.prc = some (valueAt s.items 0 k)) ∧
      (rest = [] → st'.prc = st.prc) ∧
      (∀ k ∈ rest, st'.last.get? k = some (c0 k)) ∧ (∀ k, k ∉ rest → st'.last.get? k = st.last.get? k) := by
  have hlen : 0 < s.items.length := List.length_pos_iff.2 h.ne
  intro rest
  induction rest with
  | nil => intro st _ _ _; exact ⟨st, rfl, by simp, by simp, by simp, by simp⟩
  | cons k r ih =>
    intro st hn hsub hst
    have hk : k ∉ r := (List.nodup_cons.1 hn).1
    have hstep : intStep s.items (some ni) c 0 st k = .ok
        ({ prc := some (valueAt s.items 0 k), last := st.last.set k (c0 k) }, c0 k) := by
      obtain ⟨vary, si⟩ := ni
      unfold intStep
      simp only [h.valAt hlen (hsub k (by simp)), hst k (by simp), if_true, addC_const (hc k (hsub k (by simp)))]
      cases vary <;> simp
    obtain ⟨st', h1, h2, h3, h4, h5⟩ := ih
      { prc := some (valueAt s.items 0 k), last := st.last.set k (c0 k) } (List.nodup_cons.1 hn).2
      (fun a ha => hsub a (by simp [ha])) (by
        intro a ha
        have hak : k ≠ a := fun he => hk (by rw [he]; exact ha)
        rw [Dict.get?_set, if_neg hak]
        exact hst a (by simp [ha]))
    refine ⟨st', ?_, ?_, by simp, ?_, ?_⟩
    · unfold intLabels
      rw [hstep]
      dsimp only
      rw [h1]
      rfl
    · intro a ha
      cases r with
      | nil =>
        simp at ha
        subst ha
        exact h3 rfl
      | cons b r => exact h2 a (by rw [← ha]; simp [List.getLast?_cons_cons])
    · intro a ha
      by_cases hak : a ∈ r
      · exact h4 a hak
      · rcases List.mem_cons.1 ha with rfl | h'
        · rw [h5 _ hk, Dict.get?_set, if_pos rfl]
        · exact absurd h' hak
    · intro a ha
      simp only [List.mem_cons, not_or] at ha
      rw [h5 _ ha.2, Dict.get?_set, if_neg (fun h => ha.1 h.symm)]

/-- the label loop at a later item -/
theorem intLabels_later {cal : Calendar} {s : TSeries} {ks kk : List String} (h : OpSeries cal s ks) (vary : Bool) (si : ℚ)
    (c : NumOrDict) (c0 : String → ℚ) (hkn : kk.Nodup) (hkk : ∀ k ∈ kk, k ∈ ks) {i : ℕ} (hi : 1 ≤ i)
    (hil : i < s.items.length) :
    ∀ (rest pre : List String) (st : IntState), kk = pre ++ rest →
    st.prc = some (sharedInc s.items kk (i * kk.length + pre.length - 1)) →
    (∀ k ∈ rest, st.last.get? k = some (sharedVal s.items kk vary si c0 (i - 1) k)) →
    ∃ st', intLabels s.items (some (vary, si)) c i st rest =
        .ok (st', rest.map (fun k => (k, sharedVal s.items kk vary si c0 i k))) ∧
      st'.prc = some (sharedInc s.items kk (i * kk.length + kk.length - 1)) ∧
      (∀ k ∈ rest, st'.last.get? k = some (sharedVal s.items kk vary si c0 i k)) ∧
      (∀ k, k ∉ rest → st'.last.get? k = st.last.get? k) := by
  intro rest
  induction rest with
  | nil =>
    intro pre st hk hp _
    refine ⟨st, rfl, ?_, by simp, by simp⟩
    rw [hp, hk]
    simp
  | cons k r ih =>
    intro pre st hk hp hst
    have hj : kk[pre.length]? = some k := by rw [hk]; simp
    have hkr : k ∉ r := by
      rw [hk] at hkn
      exact (List.nodup_cons.1 (List.nodup_append.1 hkn).2.1).1
    have hidx : kk.idxOf k = pre.length := by
      obtain ⟨hlt, hg⟩ := List.getElem?_eq_some_iff.1 hj
      rw [← hg]
      exact hkn.idxOf_getElem _ hlt
    have hin : k ∈ ks := hkk k (by rw [hk]; simp)
    have hval : sharedVal s.items kk vary si c0 i k = sharedVal s.items kk vary si c0 (i - 1) k +
        sharedInc s.items kk (i * kk.length + pre.length) * stepLen s.items vary si i := by
      obtain ⟨m, rfl⟩ : ∃ m, i = m + 1 := ⟨i - 1, by omega⟩
      simp only [sharedVal, Nat.add_sub_cancel, hidx]
    have hstep : intStep s.items (some (vary, si)) c i st k = .ok
        ({ prc := some (sharedInc s.items kk (i * kk.length + pre.length)),
           last := st.last.set k (sharedVal s.items kk vary si c0 i k) }, sharedVal s.items kk vary si c0 i k) := by
      unfold intStep
      have h0 : i ≠ 0 := by omega
      simp only [if_neg h0, h.valAt (show i - 1 < s.items.length by omega) hin, hp, hst k (by simp),
        ← sharedInc_next (l := s.items) hj hi]
      have t1 : tAt s.items i = .ok (timeAt s.items i) := by
        unfold tAt timeAt; rw [List.getElem?_eq_getElem hil]
      have t0 : tAt s.items (i - 1) = .ok (timeAt s.items (i - 1)) := by
        unfold tAt timeAt; rw [List.getElem?_eq_getElem (show i - 1 < s.items.length by omega)]
      rw [hval]
      cases vary <;> simp [t1, t0, stepLen]
    obtain ⟨st', h1, h2, h3, h4⟩ := ih (pre ++ [k])
      { prc := some (sharedInc s.items kk (i * kk.length + pre.length)),
        last := st.last.set k (sharedVal s.items kk vary si c0 i k) } (by rw [hk]; simp) (by
          have : i * kk.length + (pre ++ [k]).length - 1 = i * kk.length + pre.length := by simp
          rw [this]) (by
        intro a ha
        have hak : k ≠ a := fun he => hkr (by rw [he]; exact ha)
        rw [Dict.get?_set, if_neg hak]
        exact hst a (by simp [ha]))
    refine ⟨st', ?_, h2, ?_, ?_⟩
    · unfold intLabels
      rw [hstep]
      dsimp only
      rw [h1]
      rfl
    · intro a ha
      by_cases hak : a ∈ r
      · exact h3 a hak
      · rcases List.mem_cons.1 ha with rfl | h'
        · rw [h4 _ hkr, Dict.get?_set, if_pos rfl]
        · exact absurd h' hak
    · intro a ha
      simp only [List.mem_cons, not_or] at ha
      rw [h4 _ ha.2, Dict.get?_set, if_neg (fun h => ha.1 h.symm)]

/-- the loop of `integral`, in terms of the sequences above -/
theorem integral_loop {cal : Calendar} {s : TSeries} {ks : List String} (h : OpSeries cal s ks) {vary : Bool}
    {si : ℚ} {c : NumOrDict} {c0 : String → ℚ} (hc : ∀ k ∈ ks, ConstOf c k (c0 k)) {kk : List String} (hp : kk.Perm ks) (d : Data)
    (post : String) :
    intLoop cal s.items (some (vary, si)) c d post kk 0 {} s.items =
      .ok ((s.items.zipIdx 0).map (fun p =>
        remake cal p.1 (makeData d (kk.map fun k => (withPostfix k post, sharedVal s.items kk vary si c0 p.2 k))) p.1.idx)) := by
  have hks : ks.Nodup := h.nodup
  have hkn : kk.Nodup := hp.nodup_iff.2 hks
  have hsub : ∀ k ∈ kk, k ∈ ks := fun k hk => hp.mem_iff.1 hk
  have hkne : kk ≠ [] := by
    intro h0; rw [h0] at hp; exact h.ksne (List.nil_perm.1 hp)
  exact intLoop_table cal s.items (some (vary, si)) c d post kk (sharedVal s.items kk vary si c0)
    (fun i st => if i = 0 then (∀ k ∈ kk, st.last.get? k = none)
      else st.prc = some (sharedInc s.items kk (i * kk.length - 1)) ∧
        ∀ k ∈ kk, st.last.get? k = some (sharedVal s.items kk vary si c0 (i - 1) k)) (by
      intro i st hil hinv
      by_cases h0 : i = 0
      · subst h0
        simp only [if_true] at hinv
        obtain ⟨st', h1, h2, _, h4, _⟩ := intLabels_first h (vary, si) c c0 hc kk st hkn hsub hinv
        refine ⟨st', h1, ?_⟩
        rw [if_neg (by omega)]
        refine ⟨?_, h4⟩
        obtain ⟨k, hk⟩ : ∃ k, kk.getLast? = some k := by
          cases hg : kk.getLast? with
          | none => exact absurd (List.getLast?_eq_none_iff.1 hg) hkne
          | some k => exact ⟨k, rfl⟩
        rw [h2 k hk]
        have : kk[kk.length - 1]? = some k := by rw [← hk, List.getLast?_eq_getElem?]
        rw [show (0 + 1) * kk.length - 1 = kk.length - 1 by simp, sharedInc_first this]
      · rw [if_neg h0] at hinv
        obtain ⟨st', h1, h2, h3, _⟩ := intLabels_later h vary si c c0 hkn hsub (i := i) (by omega) hil kk [] st rfl
          (by simpa using hinv.1) hinv.2
        refine ⟨st', h1, ?_⟩
        rw [if_neg (by omega)]
        refine ⟨?_, h3⟩
        rw [h2]
        congr 3
        ring) 0 {} (by simp [Dict.get?]) s.items (by omega)

/-- what `integral` computes, in terms of the sequences above -/
theorem integral_runs_full {cal : Calendar} {s : TSeries} {ks : List String} (h : OpSeries cal s ks) {auto : ℚ} {vary : Bool}
    {si : ℚ} (hni : s.normInfo cal auto = .ok (vary, si)) {c : NumOrDict} {c0 : String → ℚ}
    (hc : ∀ k ∈ ks, ConstOf c k (c0 k)) :
    ∃ x d kk r, x ∈ s.items ∧ x.data = some d ∧ labelsOf d = .ok kk ∧ kk.Perm ks ∧ s.integralOp cal auto c = .ok r ∧
      OpSeries cal r (ks.map (resultLabel s.items "integral")) ∧
      (∀ (j : ℕ) (x y : Item), s.items[j]? = some x → r.items[j]? = some y → y.idx = x.idx) ∧
      Computes s.items r.items 0 ks (resultLabel s.items "integral") (sharedVal s.items kk vary si c0) := by
  obtain ⟨x, r0, d, kk, hi, hd, hkk, hp, hprep⟩ := h.opPrep
  have hks : ks.Nodup := by obtain ⟨_, _, _, hn, _⟩ := h.lab x (by rw [hi]; simp); exact hn
  have hkn : kk.Nodup := hp.nodup_iff.2 hks
  have hsub : ∀ k ∈ kk, k ∈ ks := fun k hk => hp.mem_iff.1 hk
  have hkne : kk ≠ [] := by
    intro h0; rw [h0] at hp; exact h.ksne (List.nil_perm.1 hp)
  have hpos : 0 < s.items.length := List.length_pos_iff.2 h.ne
  have hloop := integral_loop h (vary := vary) (si := si) hc hp d "integral"
  obtain ⟨r, h1, h2, h3, h4, h5⟩ := table_build h hkk hp (ren := fun k => withPostfix k "integral")
    (fun a b hab => withPostfix_inj hab) true (sharedVal s.items kk vary si c0) 0 hpos
  refine ⟨x, d, kk, r, by rw [hi]; simp, hd, hkk, hp, ?_, by rw [← lab_eq_resultLabel hi hd]; exact h2, ?_, ?_⟩
  · unfold TSeries.integralOp
    rw [hprep]
    dsimp only
    rw [hni]
    dsimp only
    rw [hloop]
    exact h1
  · intro j x y hx hy
    simpa using (h4 j x y (by simpa using hx) hy).2.1
  · rw [← lab_eq_resultLabel hi hd]
    refine ⟨h3, fun j x y hx hy => (h4 j x y hx hy).1, h2.lab, ?_⟩
    intro j y hy k hk
    have hj : 0 + j < s.items.length := by
      have := valAt_lt hy
      omega
    exact (h4 j _ y (List.getElem?_eq_getElem hj) hy).2.2 k hk

theorem integral_runs {cal : Calendar} {s : TSeries} {ks : List String} (h : OpSeries cal s ks) {auto : ℚ} {vary : Bool}
    {si : ℚ} (hni : s.normInfo cal auto = .ok (vary, si)) {c : NumOrDict} {c0 : String → ℚ}
    (hc : ∀ k ∈ ks, ConstOf c k (c0 k)) :
    ∃ kk r, kk.Perm ks ∧ s.integralOp cal auto c = .ok r ∧
      Computes s.items r.items 0 ks (resultLabel s.items "integral") (sharedVal s.items kk vary si c0) := by
  obtain ⟨_, _, kk, r, _, _, _, h1, h2, _, _, h3⟩ := integral_runs_full h hni hc
  exact ⟨kk, r, h1, h2, h3⟩

/-- **C199** (partial): what the integral of a series with any number of labels is.  There are an order `kk` of the
labels and *one* sequence of components `inc` for all of them, such that the value of a label starts at its constant and
grows by the component of the label times the length of the step, each component being twice the value at the item before
minus the component before it in the sequence, which with several labels is that of another label (`C199_false`); with a
single label it is that of the same label. -/
theorem C199_computes_partial {cal : Calendar} {s : TSeries} {ks : List String} (h : OpSeries cal s ks) {auto : ℚ}
    {vary : Bool} {si : ℚ} (hni : s.normInfo cal auto = .ok (vary, si)) {c : NumOrDict} {c0 : String → ℚ}
    (hc : ∀ k ∈ ks, ConstOf c k (c0 k)) :
    ∃ (kk : List String) (inc : ℕ → ℚ) (V : ℕ → String → ℚ) (r : TSeries), kk.Perm ks ∧
      s.integralOp cal auto c = .ok r ∧
      Computes s.items r.items 0 ks (resultLabel s.items "integral") V ∧
      (∀ k ∈ ks, V 0 k = c0 k) ∧
      (∀ (j : ℕ) (k : String), kk[j]? = some k → inc j = valueAt s.items 0 k) ∧
      (∀ (i j : ℕ) (k : String), kk[j]? = some k → 1 ≤ i →
        inc (i * kk.length + j) = valueAt s.items (i - 1) k * 2 - inc (i * kk.length + j - 1)) ∧
      (∀ (i j : ℕ) (k : String), kk[j]? = some k →
        V (i + 1) k = V i k + inc ((i + 1) * kk.length + j) *
          (if vary then timeAt s.items (i + 1) - timeAt s.items i else si)) := by
  obtain ⟨kk, r, hp, hr, hcomp⟩ := integral_runs h hni hc
  have hkn : kk.Nodup := by
    cases hi : s.items with
    | nil => exact absurd hi h.ne
    | cons x r => obtain ⟨_, _, _, hn, _⟩ := h.lab x (by rw [hi]; simp); exact hp.nodup_iff.2 hn
  refine ⟨kk, sharedInc s.items kk, sharedVal s.items kk vary si c0, r, hp, hr, hcomp, fun _ _ => rfl,
    fun j k hk => sharedInc_first hk, fun i j k hk hi => sharedInc_next hk hi, ?_⟩
  intro i j k hk
  have hidx : kk.idxOf k = j := by
    obtain ⟨hlt, hg⟩ := List.getElem?_eq_some_iff.1 hk
    rw [← hg]
    exact hkn.idxOf_getElem _ hlt
  simp only [sharedVal, hidx, stepLen, Nat.add_sub_cancel]

/-! ## C224: the constant of integration -/

/-- **C224**: the integral of a series whose resolution is known succeeds, and its first value is, for each label, the
constant of integration of the label: the number given, or the entry of the dictionary given. -/
theorem C224_starts_from_constant {cal : Calendar} {s : TSeries} {ks : List String} (h : OpSeries cal s ks) {auto : ℚ}
    {ni : Bool × ℚ} (hni : s.normInfo cal auto = .ok ni) {c : NumOrDict} {c0 : String → ℚ}
    (hc : ∀ k ∈ ks, ConstOf c k (c0 k)) :
    ∃ r y, s.integralOp cal auto c = .ok r ∧ r.items.head? = some y ∧
      ∀ k ∈ ks, y.value? (resultLabel s.items "integral" k) = some (c0 k) := by
  obtain ⟨vary, si⟩ := ni
  obtain ⟨kk, r, _, hr, hcomp⟩ := integral_runs h hni hc
  have hpos : 0 < s.items.length := List.length_pos_iff.2 h.ne
  have hlen := hcomp.length
  have hg : r.items[0]? = some r.items[0] := List.getElem?_eq_getElem (by omega)
  refine ⟨r, r.items[0], hr, by rw [List.head?_eq_getElem?]; exact hg, ?_⟩
  intro k hk
  exact hcomp.values 0 _ hg k hk

theorem intLabels_missing {cal : Calendar} {s : TSeries} {ks : List String} (h : OpSeries cal s ks) (ni : Bool × ℚ)
    (d : Dict ℚ) : ∀ (rest : List String) (st : IntState), rest.Nodup → (∀ k ∈ rest, k ∈ ks) →
      (∀ k ∈ rest, st.last.get? k = none) → (∃ k ∈ rest, d.get? k = none) →
      intLabels s.items (some ni) (.dict d) 0 st rest = .error .typeError := by
  have hlen : 0 < s.items.length := List.length_pos_iff.2 h.ne
  intro rest
  induction rest with
  | nil => intro st _ _ _ ⟨k, hk, _⟩; simp at hk
  | cons k r ih =>
    intro st hn hsub hst hm
    have hk : k ∉ r := (List.nodup_cons.1 hn).1
    unfold intLabels
    cases hd : d.get? k with
    | none =>
      have : intStep s.items (some ni) (.dict d) 0 st k = .error .typeError := by
        obtain ⟨vary, si⟩ := ni
        unfold intStep
        simp only [h.valAt hlen (hsub k (by simp)), hst k (by simp), if_true]
        cases vary <;> simp [addC, hd]
      rw [this]
    | some v =>
      have : intStep s.items (some ni) (.dict d) 0 st k = .ok
          ({ prc := some (valueAt s.items 0 k), last := st.last.set k v }, v) := by
        obtain ⟨vary, si⟩ := ni
        unfold intStep
        simp only [h.valAt hlen (hsub k (by simp)), hst k (by simp), if_true]
        cases vary <;> simp [addC, hd]
      rw [this]
      dsimp only
      have := ih { prc := some (valueAt s.items 0 k), last := st.last.set k v } (List.nodup_cons.1 hn).2
        (fun a ha => hsub a (by simp [ha])) (by
          intro a ha
          have hak : k ≠ a := fun he => hk (by rw [he]; exact ha)
          rw [Dict.get?_set, if_neg hak]
          exact hst a (by simp [ha])) (by
          obtain ⟨b, hb, hbd⟩ := hm
          rcases List.mem_cons.1 hb with rfl | hb
          · rw [hd] at hbd; cases hbd
          · exact ⟨b, hb, hbd⟩)
      rw [this]

/-- **C224**, the other way: a dictionary without a constant for some label is refused, with a `TypeError`. -/
theorem C224_missing_constant {cal : Calendar} {s : TSeries} {ks : List String} (h : OpSeries cal s ks) {auto : ℚ}
    {ni : Bool × ℚ} (hni : s.normInfo cal auto = .ok ni) {d : Dict ℚ} {k : String} (hk : k ∈ ks) (hd : d.get? k = none) :
    s.integralOp cal auto (.dict d) = .error .typeError := by
  obtain ⟨x, r0, d0, kk, hi, hd0, hkk, hp, hprep⟩ := h.opPrep
  have hks : ks.Nodup := by obtain ⟨_, _, _, hn, _⟩ := h.lab x (by rw [hi]; simp); exact hn
  have := intLabels_missing h ni d kk {} (hp.nodup_iff.2 hks) (fun k hk => hp.mem_iff.1 hk)
    (by intro k _; simp [Dict.get?]) ⟨k, hp.mem_iff.2 hk, hd⟩
  unfold TSeries.integralOp
  rw [hprep]
  dsimp only
  rw [hni]
  dsimp only
  unfold intLoop
  rw [hi] at this ⊢
  dsimp only
  rw [this]
  rfl

/-! ## C225: a single item -/

/-- the resolution of a series of one item: none for a point, the unit for a slot -/
theorem single_res {s : TSeries} {x : Item} (h : TSeries.build s.items = .ok s) (hs : s.items = [x]) :
    (x.slot = none → s.res = .unset) ∧ (∀ e u, x.slot = some (e, u) → s.res = .unit u) := by
  rw [hs] at h
  unfold TSeries.build at h
  split at h
  · rename_i s' u hb
    injection h with h
    subst h
    unfold TSeries.appendAll TSeries.append TSeries.baseAppend TSeries.preSlot TSeries.prePoint TSeries.empty at hb
    constructor
    · intro hx
      simp [Item.isSlot, hx, TSeries.appendAll] at hb
      rw [← hb]
    · intro e u hx
      have hg : TSeries.getTz {} = none := rfl
      simp [Item.isSlot, hx, TSeries.appendAll, hg, Item.unit] at hb
      rw [← hb]
  · cases h

/-- **C225** is false for points: the integral of a single point fails with a `TypeError`. -/
theorem C225_false {cal : Calendar} {s : TSeries} {ks : List String} (h : OpSeries cal s ks) {x : Item}
    (hs : s.items = [x]) (hx : x.slot = none) (auto : ℚ) (c : NumOrDict) :
    s.integralOp cal auto c = .error .typeError := by
  obtain ⟨x', r0, d0, kk, hi, hd0, hkk, hp, hprep⟩ := h.opPrep
  unfold TSeries.integralOp
  rw [hprep]
  dsimp only
  unfold TSeries.normInfo
  rw [(single_res h.built hs).1 hx]

/-- **C225** (partial): the integral of a single slot is one slot with the constants.  Missing: single points, see
`C225_false`. -/
theorem C225_slot_partial {cal : Calendar} {s : TSeries} {ks : List String} (h : OpSeries cal s ks) {x : Item}
    (hs : s.items = [x]) (hx : x.slot ≠ none) (auto : ℚ) {c : NumOrDict} {c0 : String → ℚ}
    (hc : ∀ k ∈ ks, ConstOf c k (c0 k)) :
    ∃ r y, s.integralOp cal auto c = .ok r ∧ r.items = [y] ∧ SamePlace x y ∧
      ∀ k ∈ ks, y.value? (resultLabel s.items "integral" k) = some (c0 k) := by
  obtain ⟨⟨e, u⟩, hx⟩ := Option.ne_none_iff_exists'.1 hx
  have hni : s.normInfo cal auto = .ok (false, asSeconds cal u x) := by
    unfold TSeries.normInfo; rw [(single_res h.built hs).2 e u hx, hs]
  obtain ⟨kk, r, _, hr, hcomp⟩ := integral_runs h hni hc
  have hlen := hcomp.length
  rw [hs] at hlen
  obtain ⟨y, hy⟩ : ∃ y, r.items = [y] := List.length_eq_one_iff.1 (by simpa using hlen)
  refine ⟨r, y, hr, hy, hcomp.place 0 x y (by rw [hs]; rfl) (by rw [hy]; rfl), ?_⟩
  intro k hk
  exact hcomp.values 0 y (by rw [hy]; rfl) k hk

/-- a point alone and a slot alone -/
def exAlone : List Item := [mkPoint 0 (.dict [("v", 3)])]
def exAloneSlot : List Item := [{ t := 0, slot := some (3600, TUnit.ofSecs 3600), tz := "UTC", data := some (.dict [("v", 3)]) }]

/-- the built series -/
def builtOf (l : List Item) : TSeries := match TSeries.build l with | .ok s => s | .error _ => TSeries.empty

/-- concrete cases: a single point, a single slot, and a two-label series with a dictionary of constants -/
theorem C224_C225_witness :
    (builtOf exAlone).res = .unset ∧ (builtOf exAlone).items = exAlone ∧
    (builtOf exAlone).integralOp physicalCalendar 1 (.num 5) = .error .typeError ∧
    lastVal ((builtOf exAloneSlot).integralOp physicalCalendar 1 (.num 5)) "v_integral" = some 5 ∧
    (builtOf exAloneSlot).res = .unit (TUnit.ofSecs 3600) ∧
    firstVal (exTwo.integralOp physicalCalendar 1 (.dict [("a", 7), ("b", 8)])) "b_integral" = some 8 ∧
    exTwo.integralOp physicalCalendar 1 (.dict [("a", 7)]) = .error .typeError := by decide +kernel

end Timeseria
