import Verif.Lemmas.OpsRun
import Verif.Props.OpsScalar

/-! # C27, C28, C30, C32: normalize, rescale, offset, filter, select -/

namespace Timeseria

/-! ## C28 -/

/-- the factor of `rescale` for a label: the number given, or the dictionary entry, 1 if missing -/
def NumOrDict.factor (v : NumOrDict) (k : String) : ℚ :=
  match v with
  | .num c => c
  | .dict d => (d.get? k).getD 1

/-- the shift of `offset` for a label: the number given, or the dictionary entry, 0 if missing -/
def NumOrDict.shift (v : NumOrDict) (k : String) : ℚ :=
  match v with
  | .num c => c
  | .dict d => (d.get? k).getD 0

theorem rescaleVal_eq (v : NumOrDict) (k : String) (x : ℚ) : rescaleVal v k x = x * v.factor k := by
  unfold rescaleVal NumOrDict.factor
  cases v with
  | num c => rfl
  | dict d => cases h : d.get? k <;> simp [h]

theorem offsetVal_eq (v : NumOrDict) (k : String) (x : ℚ) : offsetVal v k x = x + v.shift k := by
  unfold offsetVal NumOrDict.shift
  cases v with
  | num c => rfl
  | dict d => cases h : d.get? k <;> simp [h]

/-- **C28 (rescale)**: every value of a label is multiplied by the factor of that label (1 for the
labels not mentioned); items, places, labels and indexes are kept. -/
theorem C28_rescale {cal : Calendar} {s : TSeries} {ks : List String} (h : OpSeries cal s ks)
    (v : NumOrDict) :
    ∃ r, s.rescaleOp cal v = .ok r ∧ OpSeries cal r ks ∧
      Computes s.items r.items 0 ks id (fun i k => valueAt s.items i k * v.factor k) ∧
      (∀ (j : ℕ) (x y : Item), s.items[j]? = some x → r.items[j]? = some y → y.idx = x.idx) := by
  obtain ⟨r, h1, h2, h3, h4⟩ := mapOp_spec h (fun k x => .ok (rescaleVal v k x))
    (fun k x => x * v.factor k) (fun k _ x _ => by rw [rescaleVal_eq])
  exact ⟨r, h1, h2, h3, h4⟩

/-- **C28 (offset)**: every value of a label is shifted by the amount of that label (0 for the
labels not mentioned); items, places, labels and indexes are kept. -/
theorem C28_offset {cal : Calendar} {s : TSeries} {ks : List String} (h : OpSeries cal s ks)
    (v : NumOrDict) :
    ∃ r, s.offsetOp cal v = .ok r ∧ OpSeries cal r ks ∧
      Computes s.items r.items 0 ks id (fun i k => valueAt s.items i k + v.shift k) ∧
      (∀ (j : ℕ) (x y : Item), s.items[j]? = some x → r.items[j]? = some y → y.idx = x.idx) := by
  obtain ⟨r, h1, h2, h3, h4⟩ := mapOp_spec h (fun k x => .ok (offsetVal v k x))
    (fun k x => x + v.shift k) (fun k _ x _ => by rw [offsetVal_eq])
  exact ⟨r, h1, h2, h3, h4⟩

/-- **C28 (inverse)**: rescaling by `v` and then by `w`, the two factors of each label being inverse
of each other, gives back the values of the original series. -/
theorem C28_rescale_inverse {cal : Calendar} {s : TSeries} {ks : List String} (h : OpSeries cal s ks)
    (v w : NumOrDict) (hvw : ∀ k ∈ ks, v.factor k * w.factor k = 1) :
    ∃ r r', s.rescaleOp cal v = .ok r ∧ r.rescaleOp cal w = .ok r' ∧
      Computes s.items r'.items 0 ks id (valueAt s.items) := by
  obtain ⟨r, h1, h2, h3, _⟩ := C28_rescale h v
  obtain ⟨r', h1', _, h3', _⟩ := C28_rescale h2 w
  refine ⟨r, r', h1, h1', ?_⟩
  have := h3.trans h3' (by simp)
  refine Computes.congr this ?_
  intro i hi _ k hk
  have hl := h3.length
  have := h3.valueAt (j := i) (by omega) hk
  simp only [id, Nat.sub_zero, Nat.zero_add] at this ⊢
  rw [this, mul_assoc, hvw k hk, mul_one]

/-- **C28 (inverse)**: shifting by `v` and then back gives the values of the original series. -/
theorem C28_offset_inverse {cal : Calendar} {s : TSeries} {ks : List String} (h : OpSeries cal s ks)
    (v w : NumOrDict) (hvw : ∀ k ∈ ks, v.shift k + w.shift k = 0) :
    ∃ r r', s.offsetOp cal v = .ok r ∧ r.offsetOp cal w = .ok r' ∧
      Computes s.items r'.items 0 ks id (valueAt s.items) := by
  obtain ⟨r, h1, h2, h3, _⟩ := C28_offset h v
  obtain ⟨r', h1', _, h3', _⟩ := C28_offset h2 w
  refine ⟨r, r', h1, h1', ?_⟩
  have := h3.trans h3' (by simp)
  refine Computes.congr this ?_
  intro i hi _ k hk
  have hl := h3.length
  have := h3.valueAt (j := i) (by omega) hk
  simp only [id, Nat.sub_zero, Nat.zero_add] at this ⊢
  rw [this, add_assoc, hvw k hk, add_zero]

/-! ## C27 -/

theorem minMax_fold (vs : List ℚ) (p : ℚ × ℚ) :
    let q := vs.foldl (fun (p : ℚ × ℚ) v => (if v < p.1 then v else p.1, if v > p.2 then v else p.2)) p
    (q.1 = p.1 ∨ q.1 ∈ vs) ∧ (q.2 = p.2 ∨ q.2 ∈ vs) ∧ q.1 ≤ p.1 ∧ p.2 ≤ q.2 ∧
      ∀ v ∈ vs, q.1 ≤ v ∧ v ≤ q.2 := by
  induction vs generalizing p with
  | nil => exact ⟨.inl rfl, .inl rfl, le_refl _, le_refl _, by simp⟩
  | cons a l ih =>
    simp only [List.foldl_cons]
    have := ih (if a < p.1 then a else p.1, if a > p.2 then a else p.2)
    simp only at this
    obtain ⟨h1, h2, h3, h4, h5⟩ := this
    refine ⟨?_, ?_, ?_, ?_, ?_⟩
    · rcases h1 with h1 | h1
      · rw [h1]; split
        · right; simp
        · left; rfl
      · right; simp [h1]
    · rcases h2 with h2 | h2
      · rw [h2]; split
        · right; simp
        · left; rfl
      · right; simp [h2]
    · refine le_trans h3 ?_
      split <;> linarith
    · refine le_trans ?_ h4
      split <;> linarith
    · intro v hv
      rcases List.mem_cons.1 hv with rfl | hv
      · refine ⟨le_trans h3 ?_, le_trans ?_ h4⟩
        · split <;> linarith
        · split <;> linarith
      · exact h5 v hv

/-- `mn` and `mx` are the least and the greatest value of the label `k` -/
structure Extremes (l : List Item) (k : String) (mn mx : ℚ) : Prop where
  lo : ∃ i < l.length, valueAt l i k = mn
  hi : ∃ i < l.length, valueAt l i k = mx
  le : ∀ i < l.length, mn ≤ valueAt l i k ∧ valueAt l i k ≤ mx

theorem minMaxLoop_spec {l : List Item} (hl : l ≠ []) (k : String) :
    ∃ mn mx, minMaxLoop (l.map (fun x => x.value k)) = some (mn, mx) ∧ Extremes l k mn mx := by
  cases l with
  | nil => exact absurd rfl hl
  | cons x r =>
    have := minMax_fold (r.map (fun x => x.value k)) (x.value k, x.value k)
    simp only at this
    obtain ⟨h1, h2, h3, h4, h5⟩ := this
    refine ⟨_, _, by unfold minMaxLoop; rfl, ?_, ?_, ?_⟩
    · rcases h1 with h1 | h1
      · exact ⟨0, by simp, by rw [h1]; rfl⟩
      · obtain ⟨y, hy, he⟩ := List.mem_map.1 h1
        obtain ⟨i, hi, rfl⟩ := List.getElem_of_mem hy
        exact ⟨i + 1, by simpa using hi, by rw [← he]; simp [valueAt, hi]⟩
    · rcases h2 with h2 | h2
      · exact ⟨0, by simp, by rw [h2]; rfl⟩
      · obtain ⟨y, hy, he⟩ := List.mem_map.1 h2
        obtain ⟨i, hi, rfl⟩ := List.getElem_of_mem hy
        exact ⟨i + 1, by simpa using hi, by rw [← he]; simp [valueAt, hi]⟩
    · intro i hi
      cases i with
      | zero => exact ⟨h3, h4⟩
      | succ i =>
        simp only [List.length_cons, Nat.add_lt_add_iff_right] at hi
        have := h5 (r[i].value k) (List.mem_map.2 ⟨r[i], List.getElem_mem hi, rfl⟩)
        simpa [valueAt, hi] using this

theorem Extremes.unique {l : List Item} {k : String} {a b c d : ℚ} (h : Extremes l k a b)
    (h' : Extremes l k c d) : a = c ∧ b = d := by
  obtain ⟨i, hi, hi'⟩ := h.lo
  obtain ⟨j, hj, hj'⟩ := h.hi
  obtain ⟨i2, hi2, hi2'⟩ := h'.lo
  obtain ⟨j2, hj2, hj2'⟩ := h'.hi
  constructor
  · apply le_antisymm
    · rw [← hi2']; exact (h.le i2 hi2).1
    · rw [← hi']; exact (h'.le i hi).1
  · apply le_antisymm
    · rw [← hj']; exact (h'.le j hj).2
    · rw [← hj2']; exact (h.le j2 hj2).2

theorem normVal_eq (a b : ℚ) (mm : ℚ × ℚ) (x : ℚ) (h : mm.1 ≠ mm.2) :
    normVal (if a = 0 ∧ b = 1 then none else some (a, b)) mm x =
      .ok ((x - mm.1) / (mm.2 - mm.1) * (b - a) + a) := by
  have h0 : mm.2 - mm.1 ≠ 0 := fun h' => h (by linarith)
  unfold normVal
  rw [show pyDiv (x - mm.1) (mm.2 - mm.1) = .ok ((x - mm.1) / (mm.2 - mm.1)) by simp [pyDiv, h0]]
  simp only
  split
  · rename_i heq
    split at heq
    · rename_i hab; rw [hab.1, hab.2]; simp
    · cases heq
  · rename_i a' b' heq
    split at heq
    · cases heq
    · cases heq; rfl

/-- **C27 (values)**: normalizing a series without constant labels succeeds and maps the value `x` of
a label with extremes `mn < mx` to `(x - mn) / (mx - mn) * (b - a) + a`. -/
theorem C27_normalize {cal : Calendar} {s : TSeries} {ks : List String} (h : OpSeries cal s ks)
    (a b : ℚ) (mn mx : String → ℚ) (hext : ∀ k ∈ ks, Extremes s.items k (mn k) (mx k))
    (hlt : ∀ k ∈ ks, mn k < mx k) :
    ∃ r, s.normalizeOp cal a b = .ok r ∧ OpSeries cal r ks ∧
      Computes s.items r.items 0 ks id
        (fun i k => (valueAt s.items i k - mn k) / (mx k - mn k) * (b - a) + a) ∧
      (∀ (j : ℕ) (x y : Item), s.items[j]? = some x → r.items[j]? = some y → y.idx = x.idx) := by
  obtain ⟨x, r, d, kk, hi, hd, hkk, hp, hprep⟩ := h.opPrep
  obtain ⟨r, h1, h2, h3, h4⟩ := mapOp_spec h
    (normOf (kk.map (fun k => (k, minMaxLoop (s.items.map (fun x => x.value k)))))
      (if a = 0 ∧ b = 1 then none else some (a, b)))
    (fun k x => (x - mn k) / (mx k - mn k) * (b - a) + a) (by
      intro k hk x hx
      unfold normOf
      rw [get?_table _ (hp.symm.subset hk)]
      obtain ⟨c, d, hcd, hex⟩ := minMaxLoop_spec h.ne k
      obtain ⟨e1, e2⟩ := hex.unique (hext k hk)
      simp only [hcd]
      rw [normVal_eq]
      · simp [e1, e2]
      · simp only [e1, e2]; exact ne_of_lt (hlt k hk))
  refine ⟨r, ?_, h2, h3, h4⟩
  unfold TSeries.normalizeOp
  simp only [hprep, perLabel_ok h hp]
  exact h1

theorem norm_mono {mn mx a b x y : ℚ} (h : mn < mx) (hab : a ≤ b) (hxy : x ≤ y) :
    (x - mn) / (mx - mn) * (b - a) + a ≤ (y - mn) / (mx - mn) * (b - a) + a := by
  have h1 : (x - mn) / (mx - mn) ≤ (y - mn) / (mx - mn) :=
    (div_le_div_iff_of_pos_right (by linarith)).2 (by linarith)
  have := mul_le_mul_of_nonneg_right h1 (sub_nonneg.2 hab)
  linarith

/-- **C27 (range)**: normalizing to `[a, b]`, `a < b`, a series without constant labels: every value
is in `[a, b]`, items with the smallest (largest) value of the label get `a` (`b`), and the order
between values is kept. -/
theorem C27_range {cal : Calendar} {s : TSeries} {ks : List String} (h : OpSeries cal s ks)
    (a b : ℚ) (hab : a < b) (mn mx : String → ℚ)
    (hext : ∀ k ∈ ks, Extremes s.items k (mn k) (mx k)) (hlt : ∀ k ∈ ks, mn k < mx k) :
    ∃ r, s.normalizeOp cal a b = .ok r ∧ r.items.length = s.items.length ∧ ∀ k ∈ ks,
      Extremes r.items k a b ∧
      (∀ i < s.items.length, valueAt s.items i k = mn k → valueAt r.items i k = a) ∧
      (∀ i < s.items.length, valueAt s.items i k = mx k → valueAt r.items i k = b) ∧
      (∀ i < s.items.length, ∀ j < s.items.length,
        (valueAt s.items i k < valueAt s.items j k ↔ valueAt r.items i k < valueAt r.items j k)) := by
  obtain ⟨r, h1, h2, h3, h4⟩ := C27_normalize h a b mn mx hext hlt
  have hl : r.items.length = s.items.length := by simpa using h3.length
  refine ⟨r, h1, hl, ?_⟩
  intro k hk
  have hv : ∀ i < s.items.length, valueAt r.items i k =
      (valueAt s.items i k - mn k) / (mx k - mn k) * (b - a) + a := by
    intro i hi
    simpa using h3.valueAt (j := i) (by omega) hk
  have hd : mx k - mn k ≠ 0 := by have := hlt k hk; intro h0; linarith
  have hmn : ∀ i < s.items.length, valueAt s.items i k = mn k → valueAt r.items i k = a := by
    intro i hi he; rw [hv i hi, he]; simp
  have hmx : ∀ i < s.items.length, valueAt s.items i k = mx k → valueAt r.items i k = b := by
    intro i hi he; rw [hv i hi, he, div_self hd]; ring
  refine ⟨⟨?_, ?_, ?_⟩, hmn, hmx, ?_⟩
  · obtain ⟨i, hi, he⟩ := (hext k hk).lo
    exact ⟨i, by omega, hmn i hi he⟩
  · obtain ⟨i, hi, he⟩ := (hext k hk).hi
    exact ⟨i, by omega, hmx i hi he⟩
  · intro i hi
    rw [hl] at hi
    rw [hv i hi]
    have hle := (hext k hk).le i hi
    constructor
    · have := norm_mono (hlt k hk) hab.le hle.1
      simpa using this
    · have := norm_mono (hlt k hk) hab.le hle.2
      rw [div_self hd] at this
      linarith
  · intro i hi j hj
    rw [hv i hi, hv j hj]
    constructor
    · intro hxy
      have h1 : (valueAt s.items i k - mn k) / (mx k - mn k) <
          (valueAt s.items j k - mn k) / (mx k - mn k) :=
        (div_lt_div_iff_of_pos_right (by linarith [hlt k hk])).2 (by linarith)
      have := mul_lt_mul_of_pos_right h1 (sub_pos.2 hab)
      linarith
    · intro hxy
      by_contra hn
      have := norm_mono (hlt k hk) hab.le (not_lt.1 hn)
      linarith

/-- **C27 (idempotence)**: normalizing again to the same range changes no value. -/
theorem C27_idempotent {cal : Calendar} {s : TSeries} {ks : List String} (h : OpSeries cal s ks)
    (a b : ℚ) (hab : a < b) (mn mx : String → ℚ)
    (hext : ∀ k ∈ ks, Extremes s.items k (mn k) (mx k)) (hlt : ∀ k ∈ ks, mn k < mx k) :
    ∃ r r', s.normalizeOp cal a b = .ok r ∧ r.normalizeOp cal a b = .ok r' ∧
      Computes r.items r'.items 0 ks id (valueAt r.items) := by
  obtain ⟨r, h1, h2, _, _⟩ := C27_normalize h a b mn mx hext hlt
  obtain ⟨r1, h1', _, hk⟩ := C27_range h a b hab mn mx hext hlt
  rw [h1] at h1'
  cases h1'
  obtain ⟨r', h3, _, h5, _⟩ := C27_normalize h2 a b (fun _ => a) (fun _ => b)
    (fun k hk' => (hk k hk').1) (fun _ _ => hab)
  refine ⟨r, r', h1, h3, h5.congr ?_⟩
  intro i _ _ k _
  have : b - a ≠ 0 := by intro h0; linarith
  rw [div_mul_cancel₀ _ this]; ring

theorem mapE_error_of {α β : Type} {f : α → Except PyErr β} {l : List α} {e : PyErr}
    (h : ∀ a ∈ l, (∃ b, f a = .ok b) ∨ f a = .error e) (he : ∃ a ∈ l, f a = .error e) :
    mapE f l = .error e := by
  induction l with
  | nil => obtain ⟨a, ha, _⟩ := he; simp at ha
  | cons x r ih =>
    unfold mapE
    rcases h x (by simp) with ⟨b, hb⟩ | hb
    · rw [hb]
      have : ∃ a ∈ r, f a = .error e := by
        obtain ⟨a, ha, hae⟩ := he
        rcases List.mem_cons.1 ha with rfl | ha
        · rw [hb] at hae; cases hae
        · exact ⟨a, ha, hae⟩
      rw [ih (fun a ha => h a (by simp [ha])) this]
    · rw [hb]

/-- **C27 (constant label)**: if a label is constant, normalizing raises `ZeroDivisionError`. -/
theorem C27_constant {cal : Calendar} {s : TSeries} {ks : List String} (h : OpSeries cal s ks)
    (a b : ℚ) (k₀ : String) (hk₀ : k₀ ∈ ks) (c : ℚ)
    (hc : ∀ i < s.items.length, valueAt s.items i k₀ = c) :
    s.normalizeOp cal a b = .error .zeroDivision := by
  obtain ⟨x, r, d, kk, hi, hd, hkk, hp, hprep⟩ := h.opPrep
  have hx : x ∈ s.items := by rw [hi]; simp
  unfold TSeries.normalizeOp
  simp only [hprep, perLabel_ok h hp]
  unfold TSeries.mapOp
  simp only [hprep]
  have hloop : mapE (fun k => tag (id k) (bindE (x.byLabel k)
      (normOf (kk.map (fun k => (k, minMaxLoop (s.items.map (fun x : Item => x.value k)))))
      (if a = 0 ∧ b = 1 then none else some (a, b)) k))) kk = .error .zeroDivision := by
    have hval : ∀ k ∈ kk, ∃ mn mx, Extremes s.items k mn mx ∧
        bindE (x.byLabel k)
          (normOf (kk.map (fun k => (k, minMaxLoop (s.items.map (fun x : Item => x.value k)))))
          (if a = 0 ∧ b = 1 then none else some (a, b)) k) =
        normVal (if a = 0 ∧ b = 1 then none else some (a, b)) (mn, mx) (x.value k) := by
      intro k hk
      obtain ⟨mn, mx, h1, h2⟩ := minMaxLoop_spec h.ne k
      refine ⟨mn, mx, h2, ?_⟩
      rw [(h.lab x hx).byLabel (hp.subset hk)]
      simp only [bindE, normOf]
      rw [get?_table _ hk]
      simp only [h1]
    have hzero : ∀ z mm, mm.1 = mm.2 →
        normVal (if a = 0 ∧ b = 1 then none else some (a, b)) mm z = .error .zeroDivision := by
      intro z mm hm
      unfold normVal
      rw [show pyDiv (z - mm.1) (mm.2 - mm.1) = .error .zeroDivision by simp [pyDiv, hm]]
    apply mapE_error_of
    · intro k hk
      obtain ⟨mn, mx, _, he⟩ := hval k hk
      rw [he]
      by_cases hm : mn = mx
      · right; rw [hzero _ _ hm]; rfl
      · left; rw [normVal_eq a b _ _ hm]; exact ⟨_, rfl⟩
    · refine ⟨k₀, hp.symm.subset hk₀, ?_⟩
      obtain ⟨mn, mx, hex, he⟩ := hval k₀ (hp.symm.subset hk₀)
      rw [he, hzero]
      · rfl
      obtain ⟨i, hi1, hi2⟩ := hex.lo
      obtain ⟨j, hj1, hj2⟩ := hex.hi
      simp only
      rw [← hi2, ← hj2, hc i hi1, hc j hj1]
  rw [hi]
  unfold itemLoop
  rw [if_neg (by simp)]
  rw [← hi, hloop]
  rfl

/-! ## C30 -/

/-- **C30**: filtering a dictionary series on a non-empty list of its labels keeps all the items with
their places and indexes, and exactly those labels with their values. -/
theorem C30_filter {cal : Calendar} {s : TSeries} {ks : List String} (h : OpSeries cal s ks)
    (hdict : ∀ x ∈ s.items, ∃ d, x.data = some (.dict d)) (labels : List String)
    (hne : labels ≠ []) (hsub : ∀ k ∈ labels, k ∈ ks) (hnd : labels.Nodup) :
    ∃ r, s.filterOp labels = .ok r ∧ OpSeries cal r labels ∧
      Computes s.items r.items 0 labels id (valueAt s.items) ∧
      (∀ (j : ℕ) (x y : Item), s.items[j]? = some x → r.items[j]? = some y → y.idx = x.idx) := by
  obtain ⟨x, r, d, kk, hi, hd, hkk, hp, hprep⟩ := h.opPrep
  obtain ⟨dd, hdd⟩ := hdict x (by rw [hi]; simp)
  rw [hd] at hdd
  cases hdd
  let upd : Item → Item := fun x =>
    { x with data := some (.dict (labels.map (fun k => (k, x.value k)))) }
  have hpairs : ∀ x : Item, (Data.dict (labels.map (fun k => (k, x.value k)))).pairs.map Prod.fst =
      labels := fun x => keys_table labels (fun k => x.value k)
  have hl : ∀ y ∈ s.items.map upd, LabelledBy y labels := by
    intro y hy
    obtain ⟨z, hz, rfl⟩ := List.mem_map.1 hy
    refine ⟨_, rfl, ?_, hnd, by intro v hv; cases hv⟩
    rw [hpairs z]
  obtain ⟨r, hr1, hr2, hr3⟩ := rebuild (l := s.items.map upd) (m := 0) h (by simpa using h.ne)
    (by simp) (by
      intro j x y hx hy
      rw [Nat.zero_add] at hx
      rw [List.getElem?_map, hx] at hy
      simp only [Option.map_some, Option.some.injEq] at hy
      subst hy
      exact ⟨rfl, rfl, rfl⟩) hne hl (by
      intro x hx y hy d e hdx hdy
      obtain ⟨z, hz, rfl⟩ := List.mem_map.1 hx
      obtain ⟨w, hw, rfl⟩ := List.mem_map.1 hy
      simp only [upd, Option.some.injEq] at hdx hdy
      subst hdx; subst hdy
      intro k
      rw [keys_table, keys_table])
  refine ⟨r, ?_, hr3, ?_, ?_⟩
  · unfold TSeries.filterOp
    rw [hprep]
    simp only
    rw [mapE_ok (g := upd)]
    · exact hr1
    · intro z hz
      rw [mapE_ok (g := fun k => (k, z.value k)) (fun k hk => by
        rw [(h.lab z hz).byLabel (hsub k hk)]; rfl)]
      simp only [bindE]
      rw [foldl_set_nodup _ _ (by rw [List.nil_append, keys_table]; exact hnd)]
      rfl
  · refine ⟨by simp [hr2], ?_, by rw [hr2, List.map_id]; exact hl, ?_⟩
    · intro j x y hx hy
      rw [Nat.zero_add] at hx
      rw [hr2, List.getElem?_map, hx] at hy
      simp only [Option.map_some, Option.some.injEq] at hy
      subst hy
      exact ⟨rfl, rfl, rfl⟩
    · intro j y hy k hk
      rw [hr2, List.getElem?_map] at hy
      cases hx : s.items[j]? with
      | none => rw [hx] at hy; cases hy
      | some z =>
        rw [hx] at hy
        simp only [Option.map_some, Option.some.injEq] at hy
        subst hy
        rw [Nat.zero_add, valueAt_of hx]
        exact get?_table (fun k => z.value k) hk
  · intro j x y hx hy
    rw [hr2, List.getElem?_map, hx] at hy
    simp only [Option.map_some, Option.some.injEq] at hy
    subst hy
    rfl

/-- a filtered series has dictionary data -/
theorem filter_dict {s f : TSeries} {labels : List String}
    (_hdict : ∀ x ∈ s.items, ∃ d, x.data = some (.dict d)) (h : s.filterOp labels = .ok f) :
    ∀ x ∈ f.items, ∃ d, x.data = some (.dict d) := by
  unfold TSeries.filterOp at h
  split at h
  · cases h
  · split at h
    · unfold finish at h
      split at h
      · cases h
      · rename_i l hm
        have hf := build_items h
        rw [hf]
        have hinv := mapE_ok_inv hm
        intro x hx
        obtain ⟨i, hi, rfl⟩ := List.getElem_of_mem hx
        have := hinv.get (i := i) (by rw [hinv.length_eq]; exact hi) hi
        unfold bindE at this
        split at this
        · simp only [Except.ok.injEq, List.get_eq_getElem] at this
          rw [← this]
          exact ⟨_, rfl⟩
        · cases this
    · cases h

/-- **C30 (missing label)**: asking for a label the series does not have raises `KeyError`. -/
theorem C30_missing {cal : Calendar} {s : TSeries} {ks : List String} (h : OpSeries cal s ks)
    (hdict : ∀ x ∈ s.items, ∃ d, x.data = some (.dict d)) (labels : List String)
    (hmiss : ∃ k ∈ labels, k ∉ ks) : s.filterOp labels = .error .keyError := by
  obtain ⟨x, r, d, kk, hi, hd, hkk, hp, hprep⟩ := h.opPrep
  have hx : x ∈ s.items := by rw [hi]; simp
  obtain ⟨dd, hdd⟩ := hdict x hx
  rw [hd] at hdd
  cases hdd
  unfold TSeries.filterOp
  rw [hprep]
  simp only
  have hrow : mapE (fun k => tag k (x.byLabel k)) labels = .error .keyError := by
    apply mapE_error_of
    · intro k _
      unfold Item.byLabel
      rw [hd]
      simp only [dataByLabel]
      cases hg : dd.get? k with
      | none => right; rfl
      | some v => left; exact ⟨_, rfl⟩
    · obtain ⟨k, hk, hkn⟩ := hmiss
      refine ⟨k, hk, ?_⟩
      unfold Item.byLabel
      rw [hd]
      simp only [dataByLabel]
      have : dd.get? k = none := by
        rw [Dict.get?_eq_none]
        obtain ⟨d', hd', hp', _, _⟩ := h.lab x hx
        rw [hd] at hd'
        cases hd'
        intro hm
        exact hkn (hp'.subset hm)
      rw [this]; rfl
  rw [hi]
  unfold mapE
  rw [hrow]
  rfl

/-! ## C32 -/

/-- **C32**: `select('label=value')` returns exactly the items whose value for the label is the given
one, in order; `None` (not the empty list) if there is none. -/
theorem C32_select {cal : Calendar} {s : TSeries} {ks : List String} (h : OpSeries cal s ks)
    (k : String) (hk : k ∈ ks) (v : ℚ) :
    s.selectOp k v = .ok (let sel := s.items.filter (fun x => x.value? k = some v)
                          if sel = [] then none else some sel) := by
  obtain ⟨x, r, d, kk, hi, hd, hkk, hp, hprep⟩ := h.opPrep
  unfold TSeries.selectOp
  rw [hprep]
  simp only
  rw [mapE_ok (g := fun x => if x.value k = v then [x] else []) (fun x hx => by
    rw [(h.lab x hx).byLabel hk])]
  simp only
  have : (s.items.map (fun x => if x.value k = v then [x] else [])).flatten =
      s.items.filter (fun x => x.value? k = some v) := by
    have hlab := h.lab
    generalize s.items = l at hlab
    induction l with
    | nil => rfl
    | cons y r ih =>
      have hy := (hlab y (by simp)).lookup hk
      rw [List.map_cons, List.flatten_cons, ih (fun z hz => hlab z (by simp [hz])), List.filter_cons]
      by_cases hv : y.value k = v
      · simp [hy, hv]
      · simp [hy, hv]
  rw [this]
  simp only [List.isEmpty_iff]

/-- **C32 (missing label)**: selecting on a label the series does not have raises an exception. -/
theorem C32_missing {cal : Calendar} {s : TSeries} {ks : List String} (h : OpSeries cal s ks)
    (hdict : ∀ x ∈ s.items, ∃ d, x.data = some (.dict d)) (k : String) (hk : k ∉ ks) (v : ℚ) :
    s.selectOp k v = .error .keyError := by
  obtain ⟨x, r, d, kk, hi, hd, hkk, hp, hprep⟩ := h.opPrep
  have hx : x ∈ s.items := by rw [hi]; simp
  obtain ⟨dd, hdd⟩ := hdict x hx
  rw [hd] at hdd
  cases hdd
  unfold TSeries.selectOp
  rw [hprep]
  simp only
  rw [hi]
  unfold mapE
  have : x.byLabel k = .error .keyError := by
    unfold Item.byLabel
    rw [hd]
    simp only [dataByLabel]
    have : dd.get? k = none := by
      rw [Dict.get?_eq_none]
      obtain ⟨d', hd', hp', _, _⟩ := h.lab x hx
      rw [hd] at hd'
      cases hd'
      intro hm
      exact hk (hp'.subset hm)
    rw [this]
  rw [this]

/-- the hypotheses of the theorems above are met by `exSeries` (and `exSlots`) -/
theorem C27_witness : Extremes exSeries.items "a" 1 4 ∧ Extremes exSeries.items "b" (-2) 7 := by
  have hl : exSeries.items.length = 3 := by decide +kernel
  have ha : ∀ i < 3, valueAt exSeries.items i "a" = ([1, 4, 3] : List ℚ)[i]! := by decide +kernel
  have hb : ∀ i < 3, valueAt exSeries.items i "b" = ([5, 7, -2] : List ℚ)[i]! := by decide +kernel
  refine ⟨⟨⟨0, by omega, by rw [ha 0 (by omega)]; rfl⟩, ⟨1, by omega, by rw [ha 1 (by omega)]; rfl⟩, ?_⟩,
    ⟨⟨2, by omega, by rw [hb 2 (by omega)]; rfl⟩, ⟨1, by omega, by rw [hb 1 (by omega)]; rfl⟩, ?_⟩⟩
  · rw [hl]; decide +kernel
  · rw [hl]; decide +kernel

end Timeseria
