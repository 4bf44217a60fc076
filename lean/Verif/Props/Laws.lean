import Verif.Props.Pipeline

/-! # C244 – C247: how the operations go together -/

namespace Timeseria

/-! ## Operations computing items from a position on -/

/-- `op` gives, for the series `s` with labels `ks`, the series `r`: an operation which renames labels by `nl`, starts at the
item `m` and computes the values `v`; the index data are kept, or emptied. -/
structure Runs (cal : Calendar) (op : TSeries → Except PyErr TSeries) (s : TSeries) (ks : List String) (nl : String → String) (m : ℕ)
    (keep : Bool) (v : ℕ → String → ℚ) (r : TSeries) : Prop where
  run : op s = .ok r
  good : OpSeries cal r (ks.map nl)
  comp : Computes s.items r.items m ks nl v
  idx : ∀ (j : ℕ) (x y : Item), s.items[m + j]? = some x → r.items[j]? = some y → y.idx = if keep then x.idx else []

/-- two series computed from the same one with the same values have the same content -/
theorem sameContent_comp {l a b : List Item} {m : ℕ} {ks : List String} {nl : String → String} {v v' : ℕ → String → ℚ}
    (ha : Computes l a m ks nl v) (hb : Computes l b m ks nl v') (hv : ∀ i < l.length, m ≤ i → ∀ k ∈ ks, v i k = v' i k)
    (hidx : ∀ (j : ℕ) (z x y : Item), l[m + j]? = some z → a[j]? = some x → b[j]? = some y → y.idx = x.idx) :
    SameContent (ks.map nl) a b := by
  have h1 := ha.length
  have h2 := hb.length
  refine ⟨by omega, ?_⟩
  intro j x y hx hy
  have hj := valAt_lt hx
  have hz : m + j < l.length := by omega
  have hz' := List.getElem?_eq_getElem hz
  have p1 := ha.place j _ x hz' hx
  have p2 := hb.place j _ y hz' hy
  refine ⟨⟨by rw [p2.1, p1.1], by rw [p2.2.1, p1.2.1], by rw [p2.2.2, p1.2.2]⟩, hidx j _ x y hz' hx hy,
    ha.labels x (List.mem_of_getElem? hx), hb.labels y (List.mem_of_getElem? hy), ?_⟩
  intro k hk
  obtain ⟨k0, hk0, rfl⟩ := List.mem_map.1 hk
  rw [ha.values j x hx k0 hk0, hb.values j y hy k0 hk0, hv (m + j) hz (by omega) k0 hk0]

/-- the items made by an operation on values are of the kind of those of the series -/
theorem resultLabel_of_kind {l r : List Item} (hl : l ≠ []) (hr : r ≠ [])
    (h : ∀ x ∈ l, ∀ y ∈ r, (∃ d, x.data = some (.dict d)) ↔ ∃ d, y.data = some (.dict d)) (post : String) :
    resultLabel r post = resultLabel l post := by
  cases l with
  | nil => exact absurd rfl hl
  | cons x l =>
    cases r with
    | nil => exact absurd rfl hr
    | cons y r =>
      have h := h x (by simp) y (by simp)
      funext k
      unfold resultLabel newLabel
      simp only [List.head?_cons]
      split
      · rename_i d hd
        obtain ⟨e, he⟩ := h.2 ⟨d, hd⟩
        rw [he]
      · rename_i hn
        split
        · rename_i d hd
          obtain ⟨e, he⟩ := h.1 ⟨d, hd⟩
          exact absurd he (hn e)
        · rfl

/-! ## The operations -/

theorem runs_rescale {cal : Calendar} {s : TSeries} {ks : List String} (h : OpSeries cal s ks) (v : NumOrDict) :
    ∃ r, Runs cal (fun s => s.rescaleOp cal v) s ks id 0 true (fun i k => valueAt s.items i k * v.factor k) r := by
  obtain ⟨r, h1, h2, h3, h4⟩ := C28_rescale h v
  exact ⟨r, h1, by simpa using h2, h3, fun j x y hx hy => h4 j x y (by simpa using hx) hy⟩

theorem runs_offset {cal : Calendar} {s : TSeries} {ks : List String} (h : OpSeries cal s ks) (v : NumOrDict) :
    ∃ r, Runs cal (fun s => s.offsetOp cal v) s ks id 0 true (fun i k => valueAt s.items i k + v.shift k) r := by
  obtain ⟨r, h1, h2, h3, h4⟩ := C28_offset h v
  exact ⟨r, h1, by simpa using h2, h3, fun j x y hx hy => h4 j x y (by simpa using hx) hy⟩

theorem runs_diff {cal : Calendar} {s : TSeries} {ks : List String} (h : OpSeries cal s ks) (hres : s.res ≠ .varying)
    (hl : 2 ≤ s.items.length) : ∃ r, Runs cal (fun s => s.diffOp cal) s ks (resultLabel s.items "diff") 1 true
      (fun i k => valueAt s.items i k - valueAt s.items (i - 1) k) r := by
  obtain ⟨r, h1, h2, h3, h4⟩ := diff_spec h hres hl
  exact ⟨r, h1, h2, h3, h4⟩

theorem runs_csum {cal : Calendar} {s : TSeries} {ks : List String} (h : OpSeries cal s ks) (hres : s.res ≠ .varying) :
    ∃ r, Runs cal (fun s => s.csumOp cal) s ks (resultLabel s.items "csum") 0 true (fun i k => runningSum s.items k i) r := by
  obtain ⟨r, h1, h2, h3, h4⟩ := csum_spec h hres
  exact ⟨r, h1, h2, h3, fun j x y hx hy => h4 j x y (by simpa using hx) hy⟩

theorem runs_mavg {cal : Calendar} {s : TSeries} {ks : List String} (h : OpSeries cal s ks) (w : ℕ) (hw : 1 ≤ w)
    (hlen : w ≤ s.items.length) : ∃ r, Runs cal (fun s => s.mavgOp cal w) s ks (resultLabel s.items ("mavg_" ++ toString w)) (w - 1) false
      (fun i k => sumFrom s.items k (i + 1 - w) w / w) r := by
  have hwq : (w : ℚ) ≠ 0 := by positivity
  have hskip : (fun i : ℕ => decide (i + 1 < w)) = (fun i : ℕ => decide (i < w - 1)) := by
    funext i; rw [decide_eq_decide]; omega
  obtain ⟨x, r0, d, kk, r, hi, hd, hprep, hp, hfin, hop, hcomp, hidx, _⟩ := itemOp_spec h
    (fun k => withPostfix k ("mavg_" ++ strNat w)) (fun a b hab => withPostfix_inj hab) false
    (fun i _ k => match windowSum s.items k (i + 1 - w) w 0 with
        | .ok v => pyDiv v w
        | .error e => .error e)
    (fun i k => sumFrom s.items k (i + 1 - w) w / w) (w - 1) (by omega) (by
      intro i x hx hm k hk
      have := valAt_lt hx
      rw [windowSum_eq h hk w (i + 1 - w) 0 (by omega)]
      simp [pyDiv, hwq])
  rw [lab_eq_resultLabel hi hd, strNat_eq] at hcomp hop
  refine ⟨r, ?_, hop, hcomp, hidx⟩
  unfold TSeries.mavgOp
  rw [hprep]
  simp only
  rw [if_neg (by omega)]
  simp only [Int.toNat_natCast, hskip]
  exact hfin

/-- the derivative at an item: the increment over the interval at the ends; inside, half the increment between the items around it
over the interval, or with a variable resolution the mean of the slopes on the two sides -/
def slopeAt (l : List Item) (vary : Bool) (si : ℚ) (i : ℕ) (k : String) : ℚ :=
  if i = 0 then (valueAt l 1 k - valueAt l 0 k) / si
  else if i + 1 = l.length then (valueAt l i k - valueAt l (i - 1) k) / si
  else if vary then ((valueAt l i k - valueAt l (i - 1) k) / (timeAt l i - timeAt l (i - 1)) +
    (valueAt l (i + 1) k - valueAt l i k) / (timeAt l (i + 1) - timeAt l i)) / 2
  else (valueAt l (i + 1) k - valueAt l (i - 1) k) / 2 / si

theorem varying_times {cal : Calendar} {s : TSeries} {ks : List String} (h : OpSeries cal s ks) (hv : s.res = .varying) (i : ℕ)
    (hi : i + 1 < s.items.length) : timeAt s.items i < timeAt s.items (i + 1) := by
  rcases h.shape with ⟨_, hp⟩ | ⟨hs, _⟩
  · rw [List.pairwise_iff_getElem] at hp
    have := hp i (i + 1) (by omega) hi (by omega)
    rw [timeAt_of (List.getElem?_eq_getElem (by omega : i < s.items.length)), timeAt_of (List.getElem?_eq_getElem hi)]
    linarith
  · obtain ⟨u, w, hu, _, _⟩ := (build_slotInv hs h.built).noUnit h.ne
    rw [hu] at hv; cases hv

theorem normInfo_vary {cal : Calendar} {s : TSeries} {auto : ℚ} {si : ℚ} (h : s.normInfo cal auto = .ok (true, si)) : s.res = .varying := by
  unfold TSeries.normInfo at h
  split at h
  · assumption
  · cases h
  · cases h

theorem runs_derivative {cal : Calendar} {s : TSeries} {ks : List String} (h : OpSeries cal s ks) {auto : ℚ} {vary : Bool} {si : ℚ}
    (hni : s.normInfo cal auto = .ok (vary, si)) (hsi : si ≠ 0) (hl : 2 ≤ s.items.length) :
    ∃ r, Runs cal (fun s => s.derivativeOp cal auto) s ks (resultLabel s.items "derivative") 0 true (slopeAt s.items vary si) r := by
  obtain ⟨x, r0, d1, kk, r, hi, hd1, hprep, hp, hfin, hop, hcomp, hidx, _⟩ := itemOp_spec h
      (fun k => withPostfix k "derivative") (fun a b hab => withPostfix_inj hab) true
      (fun i _ k => derivVal s.items (some (vary, si)) false i k) (slopeAt s.items vary si) 0 (by omega) (by
        intro i x hx _ k hk
        have hlt := valAt_lt hx
        unfold derivVal slopeAt
        rw [h.valAt hlt hk, h.valAt (show i - 1 < s.items.length by omega) hk]
        simp only [Bool.false_eq_true, if_false]
        by_cases h0 : i = 0
        · subst h0
          rw [h.valAt (show 0 + 1 < s.items.length by omega) hk]
          simp [pyDiv, hsi]
        · rw [if_neg h0, if_neg h0]
          by_cases h1 : i + 1 = s.items.length
          · rw [if_pos h1, if_pos h1]
            simp [pyDiv, hsi]
          · rw [if_neg h1, if_neg h1, h.valAt (show i + 1 < s.items.length by omega) hk]
            cases vary with
            | false =>
              simp only [pyDiv, hsi, if_false, Bool.false_eq_true]
              congr 2
              ring
            | true =>
              have hv := normInfo_vary hni
              have t1 := varying_times h hv (i - 1) (by omega)
              have t2 := varying_times h hv i (by omega)
              rw [show i - 1 + 1 = i by omega] at t1
              have ht : ∀ j < s.items.length, tAt s.items j = .ok (timeAt s.items j) := by
                intro j hj
                unfold tAt
                rw [timeAt_of (List.getElem?_eq_getElem hj), List.getElem?_eq_getElem hj]
              simp only [ht _ (show i - 1 < s.items.length by omega), ht _ hlt, ht _ (show i + 1 < s.items.length by omega)]
              have e1 : timeAt s.items i - timeAt s.items (i - 1) ≠ 0 := by linarith
              have e2 : timeAt s.items (i + 1) - timeAt s.items i ≠ 0 := by linarith
              simp [pyDiv, e1, e2])
  rw [lab_eq_resultLabel hi hd1] at hcomp hop
  refine ⟨r, ?_, hop, hcomp, hidx⟩
  unfold TSeries.derivativeOp
  rw [hprep]
  simp only [hni]
  rw [if_neg (by omega)]
  have : (fun _ : ℕ => false) = (fun i : ℕ => decide (i < 0)) := by funext i; simp
  rw [this]
  exact hfin

theorem labelsOf_same {d e : Data} {kk kk' : List String} (h : labelsOf d = .ok kk) (h' : labelsOf e = .ok kk') (hp : kk.Perm kk')
    (hk : (∃ a, d = .dict a) ↔ ∃ b, e = .dict b) : kk = kk' := by
  cases d with
  | num v => cases h
  | dict a =>
    obtain ⟨b, rfl⟩ := hk.1 ⟨a, rfl⟩
    cases h; cases h'
    have : (sortStr a.keys).Perm (sortStr b.keys) := hp
    exact sortStr_congr ((sortStr_perm _).symm.trans (this.trans (sortStr_perm _)))
  | list a =>
    cases e with
    | num v => cases h'
    | dict b => obtain ⟨a', h0⟩ := hk.2 ⟨b, rfl⟩; cases h0
    | list b =>
      cases h; cases h'
      have := hp.length_eq
      simp at this
      rw [this]

/-! ## Operations on values and the rest -/

/-- `q` is `s` with every value of a label `k` replaced by `g k` of it; everything else is the same -/
structure ValueMap (cal : Calendar) (s q : TSeries) (ks : List String) (g : String → ℚ → ℚ) : Prop where
  src : ∃ ks0, OpSeries cal s ks0 ∧ ∀ k ∈ ks, k ∈ ks0
  dst : OpSeries cal q ks
  comp : Computes s.items q.items 0 ks id (fun i k => g k (valueAt s.items i k))
  idx : ∀ (j : ℕ) (x y : Item), s.items[j]? = some x → q.items[j]? = some y → y.idx = x.idx
  label : ∀ post, resultLabel q.items post = resultLabel s.items post
  kind : ∀ x ∈ s.items, ∀ y ∈ q.items, (∃ d, x.data = some (.dict d)) ↔ ∃ d, y.data = some (.dict d)

namespace ValueMap

variable {cal : Calendar} {s q : TSeries} {ks : List String} {g : String → ℚ → ℚ}

theorem len (h : ValueMap cal s q ks g) : q.items.length = s.items.length := by simpa using h.comp.length

theorem value (h : ValueMap cal s q ks g) {i : ℕ} (hi : i < s.items.length) {k : String} (hk : k ∈ ks) :
    valueAt q.items i k = g k (valueAt s.items i k) := by
  have := h.comp.valueAt (j := i) (by rw [h.len]; exact hi) hk
  simpa using this

theorem time (h : ValueMap cal s q ks g) {i : ℕ} (hi : i < s.items.length) : timeAt q.items i = timeAt s.items i := by
  have := h.comp.timeAt (j := i) (by rw [h.len]; exact hi)
  simpa using this

theorem res (h : ValueMap cal s q ks g) : q.res = s.res := by
  obtain ⟨_, h0, _⟩ := h.src
  exact computes_res' h0 h.dst h.comp

theorem normInfo (h : ValueMap cal s q ks g) (auto : ℚ) : q.normInfo cal auto = s.normInfo cal auto := by
  have h1 := h.res
  have h2 := h.comp.place 0
  unfold TSeries.normInfo
  rw [h1]
  cases hq : q.items with
  | nil => exact absurd hq h.dst.ne
  | cons y q' =>
    cases hs : s.items with
    | nil => exact absurd hs (by obtain ⟨_, h0, _⟩ := h.src; exact h0.ne)
    | cons x s' =>
      rw [hq, hs] at h2
      obtain ⟨a, b, c⟩ := h2 x y rfl rfl
      cases s.res <;> simp [asSeconds, a, c]

end ValueMap

theorem valueMap_mapOp {cal : Calendar} {s : TSeries} {ks : List String} (h : OpSeries cal s ks) (f : String → ℚ → Except PyErr ℚ)
    (g : String → ℚ → ℚ) (hf : ∀ k ∈ ks, ∀ x ∈ s.items, f k (x.value k) = .ok (g k (x.value k))) :
    ∃ q, s.mapOp cal f = .ok q ∧ ValueMap cal s q ks g := by
  obtain ⟨q, h1, h2, h3, h4⟩ := mapOp_spec h f g hf
  suffices hkind : ∀ x ∈ s.items, ∀ y ∈ q.items, (∃ d, x.data = some (.dict d)) ↔ ∃ d, y.data = some (.dict d) from
    ⟨q, h1, ⟨_, h, fun _ hk => hk⟩, h2, h3, h4, fun post => resultLabel_of_kind h.ne h2.ne hkind post, hkind⟩
  have hs : ∀ x ∈ s.items, (∃ d, x.data = some (.dict d)) ↔ ∃ d, (s.items.head h.ne).data = some (.dict d) := by
    intro x hx
    obtain ⟨rf, _, _, hr⟩ := h.dataInv.ref h.ne
    obtain ⟨d, hd, _, _, _⟩ := h.lab x hx
    obtain ⟨e, he, _, _, _⟩ := h.lab _ (List.head_mem h.ne)
    have := (hr x hx d hd).symm.trans (hr _ (List.head_mem h.ne) e he)
    rw [hd, he]
    cases d <;> cases e <;> simp_all [SameKind]
  obtain ⟨x, r0, d, kk, hi, hd, hkk, hp, hprep⟩ := h.opPrep
  unfold TSeries.mapOp at h1
  rw [hprep] at h1
  dsimp only at h1
  unfold finish at h1
  split at h1
  · cases h1
  · rename_i l hl
    intro z hz y hy
    rw [build_items h1] at hy
    obtain ⟨kvs, hk⟩ := itemLoop_kind _ _ _ hl y hy
    rw [hs z hz]
    simp only [hi, List.head_cons, hd, hk]
    obtain ⟨d', hd', _, _, hnum⟩ := h.lab x (by rw [hi]; simp)
    rw [hd] at hd'
    cases hd'
    cases d with
    | num v => exact absurd rfl (hnum v)
    | list l => simp [makeData]
    | dict d0 => exact ⟨fun _ => ⟨_, rfl⟩, fun _ => ⟨d0, rfl⟩⟩

theorem valueMap_rescale {cal : Calendar} {s : TSeries} {ks : List String} (h : OpSeries cal s ks) (v : NumOrDict) :
    ∃ q, s.rescaleOp cal v = .ok q ∧ ValueMap cal s q ks (fun k x => x * v.factor k) :=
  valueMap_mapOp h _ _ (fun k _ x _ => by rw [rescaleVal_eq])

theorem valueMap_offset {cal : Calendar} {s : TSeries} {ks : List String} (h : OpSeries cal s ks) (v : NumOrDict) :
    ∃ q, s.offsetOp cal v = .ok q ∧ ValueMap cal s q ks (fun k x => x + v.shift k) :=
  valueMap_mapOp h _ _ (fun k _ x _ => by rw [offsetVal_eq])

/-- both calls succeed, and give series with the same places, index data, labels and values -/
def SameResult (ks : List String) (x y : Except PyErr TSeries) : Prop :=
  ∃ a b, x = .ok a ∧ y = .ok b ∧ SameContent ks a.items b.items

/-- An operation before or after one on the values: if what it computes from the changed values is the change of what it computes
from the values, the order does not matter. -/
theorem commute {cal : Calendar} {s q d : TSeries} {ks : List String} {g g' : String → ℚ → ℚ} (hq : ValueMap cal s q ks g)
    {op op' : TSeries → Except PyErr TSeries} {nl : String → String} {m : ℕ} {keep : Bool} {v v' : ℕ → String → ℚ} {d' : TSeries}
    (hd : Runs cal op s ks nl m keep v d) (hd' : Runs cal op q ks nl m keep v' d')
    (hop : ∃ e, op' d = .ok e ∧ ValueMap cal d e (ks.map nl) g')
    (hv : ∀ i < s.items.length, m ≤ i → ∀ k ∈ ks, v' i k = g' (nl k) (v i k)) :
    SameResult (ks.map nl) (op q) (bindE (op s) op') := by
  obtain ⟨e, he, hve⟩ := hop
  refine ⟨d', e, hd'.run, by rw [hd.run]; exact he, ?_⟩
  have c1 := hq.comp.trans hd'.comp (by simp)
  have c2 := hd.comp.trans hve.comp rfl
  simp only [Nat.zero_add] at c1
  simp only [Nat.add_zero] at c2
  refine sameContent_comp (m := m) (v := fun i k => v' i k) (v' := fun i k => g' (nl k) (v i k)) (l := s.items) ?_ ?_ hv ?_
  · refine Computes.congr (v := fun i k => v' (i - 0) (id k)) c1 ?_
    intro i _ _ k _; rfl
  · refine Computes.congr (v := fun i k => g' (nl k) (valueAt d.items (i - m) (nl k))) c2 ?_
    intro i hi hm k hk
    have hl := hd.comp.length
    rw [hd.comp.valueAt (by omega) hk, show m + (i - m) = i by omega]
  · intro j z x y hz hx hy
    have hl := hd.comp.length
    have hl2 := hve.len
    have hj : j < d.items.length := by have := valAt_lt hy; omega
    have hzl := valAt_lt hz
    have hj' : m + j < q.items.length := by rw [hq.len]; exact hzl
    have e1 := hve.idx j _ y (List.getElem?_eq_getElem hj) hy
    have e2 := hd.idx j z _ hz (List.getElem?_eq_getElem hj)
    have e3 := hd'.idx j _ x (List.getElem?_eq_getElem hj') hx
    have e4 := hq.idx (m + j) z _ hz (List.getElem?_eq_getElem hj')
    rw [e1, e2, e3, e4]

/-! ## C244: sums, averages and extremes of rescaled and shifted series -/

theorem ValueMap.sum {cal : Calendar} {s q : TSeries} {ks : List String} {g : String → ℚ → ℚ} (h : ValueMap cal s q ks g) {k : String}
    (hk : k ∈ ks) : (q.items.map (fun x => x.value k)).sum = ((s.items.map (fun x => x.value k)).map (g k)).sum := by
  congr 1
  apply List.ext_getElem
  · simp [h.len]
  · intro i h1 h2
    simp only [List.getElem_map]
    have hi : i < s.items.length := by simpa using h2
    have hq : i < q.items.length := by simpa using h1
    have := h.value hi hk
    rwa [valueAt_of (List.getElem?_eq_getElem hi), valueAt_of (List.getElem?_eq_getElem hq)] at this

theorem ValueMap.values {cal : Calendar} {s q : TSeries} {ks : List String} {g : String → ℚ → ℚ} (h : ValueMap cal s q ks g) {k : String}
    (hk : k ∈ ks) (w : ℚ) : (∃ y ∈ q.items, y.value? k = some w) ↔ ∃ x ∈ s.items, ∃ u, x.value? k = some u ∧ w = g k u := by
  constructor
  · rintro ⟨y, hy, hw⟩
    obtain ⟨i, hi, rfl⟩ := List.getElem_of_mem hy
    have hs : i < s.items.length := by rw [← h.len]; exact hi
    have e := h.comp.values i _ (List.getElem?_eq_getElem hi) k hk
    simp only [Nat.zero_add, id] at e
    refine ⟨s.items[i], List.getElem_mem hs, valueAt s.items i k, ?_, ?_⟩
    · obtain ⟨_, h0, hsub⟩ := h.src
      rw [(h0.lab _ (List.getElem_mem hs)).lookup (hsub k hk), valueAt_of (List.getElem?_eq_getElem hs)]
    · rw [e] at hw; exact (Option.some.inj hw).symm
  · rintro ⟨x, hx, u, hu, rfl⟩
    obtain ⟨i, hi, rfl⟩ := List.getElem_of_mem hx
    have hq : i < q.items.length := by rw [h.len]; exact hi
    have e := h.comp.values i _ (List.getElem?_eq_getElem hq) k hk
    simp only [Nat.zero_add, id] at e
    refine ⟨q.items[i], List.getElem_mem hq, ?_⟩
    rw [e, valueAt_of (List.getElem?_eq_getElem hi), value_of_value? hu]

/-- the results of a scalar operation on a series and on another, for a label -/
def Scalars (a b : Except PyErr (Dict ℚ)) (k : String) (f : ℚ → ℚ) : Prop :=
  ∃ x y v, a = .ok x ∧ b = .ok y ∧ x.get? k = some v ∧ y.get? k = some (f v)

/-- the results of two operations on extremes, for a label -/
def Extrema (a b : Except PyErr (Dict (Option ℚ))) (k : String) (f : ℚ → ℚ) : Prop :=
  ∃ x y v, a = .ok x ∧ b = .ok y ∧ x.get? k = some (some v) ∧ y.get? k = some (some (f v))

theorem sums_of {cal : Calendar} {s q : TSeries} {ks : List String} {g : String → ℚ → ℚ} (h : ValueMap cal s q ks g) {k : String}
    (hk : k ∈ ks) (f f' : ℚ → ℚ) (hf : ∀ l : List ℚ, l.length = s.items.length → (l.map (g k)).sum = f l.sum)
    (hf' : ∀ l : List ℚ, l ≠ [] → l.length = s.items.length → (l.map (g k)).sum / l.length = f' (l.sum / l.length)) :
    Scalars s.sumOp q.sumOp k f ∧ Scalars s.avgOp q.avgOp k f' := by
  obtain ⟨_, h0, hsub⟩ := h.src
  obtain ⟨a, a1, _, a3⟩ := C21_sum h0
  obtain ⟨b, b1, _, b3⟩ := C21_sum h.dst
  obtain ⟨c, c1, _, c3⟩ := C22_avg h0
  obtain ⟨d, d1, _, d3⟩ := C22_avg h.dst
  refine ⟨⟨a, b, _, a1, b1, a3 k (hsub k hk), ?_⟩, c, d, _, c1, d1, c3 k (hsub k hk), ?_⟩
  · rw [b3 k hk, h.sum hk, hf _ (by simp)]
  · rw [d3 k hk, h.sum hk, h.len]
    have := hf' (s.items.map (fun x => x.value k)) (by simpa using h0.ne) (by simp)
    simp only [List.length_map] at this
    rw [← this]

theorem extremes_up {cal : Calendar} {s q : TSeries} {ks : List String} {g : String → ℚ → ℚ} (h : ValueMap cal s q ks g) {k : String}
    (hk : k ∈ ks) (hg : ∀ x y, x ≤ y → g k x ≤ g k y) : Extrema s.maxOp q.maxOp k (g k) ∧ Extrema s.minOp q.minOp k (g k) := by
  obtain ⟨_, h0, hsub⟩ := h.src
  obtain ⟨a, a1, _, a3⟩ := C21_max h0
  obtain ⟨b, b1, _, b3⟩ := C21_max h.dst
  obtain ⟨c, c1, _, c3⟩ := C21_min h0
  obtain ⟨d, d1, _, d3⟩ := C21_min h.dst
  obtain ⟨u, hu1, ⟨x1, hx1, hu2⟩, hu3⟩ := a3 k (hsub k hk)
  obtain ⟨v, hv1, hv2, hv3⟩ := b3 k hk
  obtain ⟨w, hw1, ⟨x2, hx2, hw2⟩, hw3⟩ := c3 k (hsub k hk)
  obtain ⟨z, hz1, hz2, hz3⟩ := d3 k hk
  refine ⟨⟨a, b, u, a1, b1, hu1, ?_⟩, c, d, w, c1, d1, hw1, ?_⟩
  · rw [hv1]
    obtain ⟨x, hx, e, he, rfl⟩ := (h.values hk v).1 hv2
    obtain ⟨y, hy, hye⟩ := (h.values hk (g k u)).2 ⟨x1, hx1, u, hu2, rfl⟩
    congr 2
    exact le_antisymm (hg _ _ (hu3 x hx e he)) (hv3 y hy _ hye)
  · rw [hz1]
    obtain ⟨x, hx, e, he, rfl⟩ := (h.values hk z).1 hz2
    obtain ⟨y, hy, hye⟩ := (h.values hk (g k w)).2 ⟨x2, hx2, w, hw2, rfl⟩
    congr 2
    exact le_antisymm (hz3 y hy _ hye) (hg _ _ (hw3 x hx e he))

theorem extremes_down {cal : Calendar} {s q : TSeries} {ks : List String} {g : String → ℚ → ℚ} (h : ValueMap cal s q ks g) {k : String}
    (hk : k ∈ ks) (hg : ∀ x y, x ≤ y → g k y ≤ g k x) : Extrema s.maxOp q.minOp k (g k) ∧ Extrema s.minOp q.maxOp k (g k) := by
  obtain ⟨_, h0, hsub⟩ := h.src
  obtain ⟨a, a1, _, a3⟩ := C21_max h0
  obtain ⟨b, b1, _, b3⟩ := C21_max h.dst
  obtain ⟨c, c1, _, c3⟩ := C21_min h0
  obtain ⟨d, d1, _, d3⟩ := C21_min h.dst
  obtain ⟨u, hu1, ⟨x1, hx1, hu2⟩, hu3⟩ := a3 k (hsub k hk)
  obtain ⟨v, hv1, hv2, hv3⟩ := b3 k hk
  obtain ⟨w, hw1, ⟨x2, hx2, hw2⟩, hw3⟩ := c3 k (hsub k hk)
  obtain ⟨z, hz1, hz2, hz3⟩ := d3 k hk
  refine ⟨⟨a, d, u, a1, d1, hu1, ?_⟩, c, b, w, c1, b1, hw1, ?_⟩
  · rw [hz1]
    obtain ⟨x, hx, e, he, rfl⟩ := (h.values hk z).1 hz2
    obtain ⟨y, hy, hye⟩ := (h.values hk (g k u)).2 ⟨x1, hx1, u, hu2, rfl⟩
    congr 2
    exact le_antisymm (hz3 y hy _ hye) (hg _ _ (hu3 x hx e he))
  · rw [hv1]
    obtain ⟨x, hx, e, he, rfl⟩ := (h.values hk v).1 hv2
    obtain ⟨y, hy, hye⟩ := (h.values hk (g k w)).2 ⟨x2, hx2, w, hw2, rfl⟩
    congr 2
    exact le_antisymm (hg _ _ (hw3 x hx e he)) (hv3 y hy _ hye)

/-- **C244 (rescale)**: the sum and the average of a rescaled series are those of the series times the factor of the label; so are
the largest and the smallest value, which are exchanged if the factor is negative. -/
theorem C244_rescale {cal : Calendar} {s : TSeries} {ks : List String} (h : OpSeries cal s ks) (c : ℚ) :
    ∃ q, s.rescaleOp cal (.num c) = .ok q ∧ ∀ k ∈ ks,
      Scalars s.sumOp q.sumOp k (· * c) ∧ Scalars s.avgOp q.avgOp k (· * c) ∧
      (0 ≤ c → Extrema s.maxOp q.maxOp k (· * c) ∧ Extrema s.minOp q.minOp k (· * c)) ∧
      (c ≤ 0 → Extrema s.maxOp q.minOp k (· * c) ∧ Extrema s.minOp q.maxOp k (· * c)) := by
  obtain ⟨q, h1, h2⟩ := valueMap_rescale h (.num c)
  have hsum : ∀ l : List ℚ, (l.map (fun x => x * c)).sum = l.sum * c := by
    intro l; induction l with
    | nil => simp
    | cons x l ih => simp only [List.map_cons, List.sum_cons, ih]; ring
  refine ⟨q, h1, fun k hk => ?_⟩
  obtain ⟨a1, a2⟩ := sums_of h2 hk (· * c) (· * c) (fun l _ => hsum l) (fun l _ _ => by
    show (l.map (fun x => x * c)).sum / l.length = _
    rw [hsum]; ring)
  exact ⟨a1, a2, fun hc => extremes_up h2 hk (fun x y hxy => mul_le_mul_of_nonneg_right hxy hc),
    fun hc => extremes_down h2 hk (fun x y hxy => mul_le_mul_of_nonpos_right hxy hc)⟩

/-- **C244 (offset)**: the average, the largest and the smallest value of a shifted series are those of the series plus the shift, and
the sum is that of the series plus the shift for each item. -/
theorem C244_offset {cal : Calendar} {s : TSeries} {ks : List String} (h : OpSeries cal s ks) (c : ℚ) :
    ∃ q, s.offsetOp cal (.num c) = .ok q ∧ ∀ k ∈ ks,
      Scalars s.sumOp q.sumOp k (· + s.items.length * c) ∧ Scalars s.avgOp q.avgOp k (· + c) ∧
      Extrema s.maxOp q.maxOp k (· + c) ∧ Extrema s.minOp q.minOp k (· + c) := by
  obtain ⟨q, h1, h2⟩ := valueMap_offset h (.num c)
  have hsum : ∀ l : List ℚ, (l.map (fun x => x + c)).sum = l.sum + l.length * c := by
    intro l; induction l with
    | nil => simp
    | cons x l ih => simp only [List.map_cons, List.sum_cons, ih, List.length_cons]; push_cast; ring
  refine ⟨q, h1, fun k hk => ?_⟩
  obtain ⟨a1, a2⟩ := sums_of h2 hk (· + s.items.length * c) (· + c)
    (fun l hl => by rw [← hl]; exact hsum l) (fun l hl _ => by
    show (l.map (fun x => x + c)).sum / l.length = _
    have : (l.length : ℚ) ≠ 0 := by simpa using hl
    rw [hsum]; field_simp)
  obtain ⟨a3, a4⟩ := extremes_up h2 hk (fun x y hxy => by show x + c ≤ y + c; linarith)
  exact ⟨a1, a2, a3, a4⟩

/-! ## C245: rescaling and shifting before or after -/

/-- values which are multiplied, also outside the series -/
theorem ValueMap.times {cal : Calendar} {s q : TSeries} {ks : List String} {c : ℚ} (h : ValueMap cal s q ks (fun _ x => x * c)) (i : ℕ)
    {k : String} (hk : k ∈ ks) : valueAt q.items i k = valueAt s.items i k * c := by
  by_cases hi : i < s.items.length
  · exact h.value hi hk
  · have hq : ¬ i < q.items.length := by rw [h.len]; exact hi
    unfold valueAt
    rw [List.getElem?_eq_none (by omega), List.getElem?_eq_none (by omega)]
    simp

theorem runningSum_times {l m : List Item} {k : String} {c : ℚ} (h : ∀ i, valueAt m i k = valueAt l i k * c) (i : ℕ) :
    runningSum m k i = runningSum l k i * c := by
  induction i with
  | zero => exact h 0
  | succ i ih => unfold runningSum; rw [ih, h]; ring

theorem sumFrom_times {l m : List Item} {k : String} {c : ℚ} (h : ∀ i, valueAt m i k = valueAt l i k * c) (j n : ℕ) :
    sumFrom m k j n = sumFrom l k j n * c := by
  induction n with
  | zero => simp [sumFrom]
  | succ n ih => unfold sumFrom; rw [ih, h]; ring

theorem sumFrom_plus {l m : List Item} {k : String} {c : ℚ} (j n : ℕ) (h : ∀ i < j + n, valueAt m i k = valueAt l i k + c) :
    sumFrom m k j n = sumFrom l k j n + n * c := by
  induction n with
  | zero => simp [sumFrom]
  | succ n ih => unfold sumFrom; rw [ih (fun i hi => h i (by omega)), h (j + n) (by omega)]; push_cast; ring

/-- **C245 (diff)**: the differences of a rescaled series are the rescaled differences. -/
theorem C245_diff_rescale {cal : Calendar} {s : TSeries} {ks : List String} (h : OpSeries cal s ks) (hres : s.res ≠ .varying)
    (hl : 2 ≤ s.items.length) (c : ℚ) :
    SameResult (ks.map (resultLabel s.items "diff")) (bindE (s.rescaleOp cal (.num c)) (fun q => q.diffOp cal))
      (bindE (s.diffOp cal) (fun d => d.rescaleOp cal (.num c))) := by
  obtain ⟨q, h1, h2⟩ := valueMap_rescale h (.num c)
  obtain ⟨d, hd⟩ := runs_diff h hres hl
  obtain ⟨d', hd'⟩ := runs_diff h2.dst (by rw [h2.res]; exact hres) (by rw [h2.len]; exact hl)
  rw [h2.label] at hd'
  rw [h1]
  refine commute h2 hd hd' (valueMap_rescale hd.good (.num c)) ?_
  intro i hi _ k hk
  rw [h2.times i hk, h2.times (i - 1) hk]
  simp only [NumOrDict.factor]
  ring

/-- **C245 (csum)**: the running sums of a rescaled series are the rescaled running sums. -/
theorem C245_csum_rescale {cal : Calendar} {s : TSeries} {ks : List String} (h : OpSeries cal s ks) (hres : s.res ≠ .varying) (c : ℚ) :
    SameResult (ks.map (resultLabel s.items "csum")) (bindE (s.rescaleOp cal (.num c)) (fun q => q.csumOp cal))
      (bindE (s.csumOp cal) (fun d => d.rescaleOp cal (.num c))) := by
  obtain ⟨q, h1, h2⟩ := valueMap_rescale h (.num c)
  obtain ⟨d, hd⟩ := runs_csum h hres
  obtain ⟨d', hd'⟩ := runs_csum h2.dst (by rw [h2.res]; exact hres)
  rw [h2.label] at hd'
  rw [h1]
  refine commute h2 hd hd' (valueMap_rescale hd.good (.num c)) ?_
  intro i hi _ k hk
  exact runningSum_times (fun i => h2.times i hk) i

/-- **C245 (mavg)**: the moving averages of a rescaled series are the rescaled moving averages. -/
theorem C245_mavg_rescale {cal : Calendar} {s : TSeries} {ks : List String} (h : OpSeries cal s ks) (w : ℕ) (hw : 1 ≤ w)
    (hl : w ≤ s.items.length) (c : ℚ) :
    SameResult (ks.map (resultLabel s.items ("mavg_" ++ toString w))) (bindE (s.rescaleOp cal (.num c)) (fun q => q.mavgOp cal w))
      (bindE (s.mavgOp cal w) (fun d => d.rescaleOp cal (.num c))) := by
  obtain ⟨q, h1, h2⟩ := valueMap_rescale h (.num c)
  obtain ⟨d, hd⟩ := runs_mavg h w hw hl
  obtain ⟨d', hd'⟩ := runs_mavg h2.dst w hw (by rw [h2.len]; exact hl)
  rw [h2.label] at hd'
  rw [h1]
  refine commute h2 hd hd' (valueMap_rescale hd.good (.num c)) ?_
  intro i hi _ k hk
  rw [sumFrom_times (fun i => h2.times i hk)]
  simp only [NumOrDict.factor]
  ring

/-- **C245 (derivative)**: the derivative of a rescaled series is the rescaled derivative, whatever the resolution. -/
theorem C245_derivative_rescale {cal : Calendar} {s : TSeries} {ks : List String} (h : OpSeries cal s ks) {auto : ℚ} {vary : Bool} {si : ℚ}
    (hni : s.normInfo cal auto = .ok (vary, si)) (hsi : si ≠ 0) (hl : 2 ≤ s.items.length) (c : ℚ) :
    SameResult (ks.map (resultLabel s.items "derivative")) (bindE (s.rescaleOp cal (.num c)) (fun q => q.derivativeOp cal auto))
      (bindE (s.derivativeOp cal auto) (fun d => d.rescaleOp cal (.num c))) := by
  obtain ⟨q, h1, h2⟩ := valueMap_rescale h (.num c)
  obtain ⟨d, hd⟩ := runs_derivative h hni hsi hl
  obtain ⟨d', hd'⟩ := runs_derivative h2.dst ((h2.normInfo auto).trans hni) hsi (by rw [h2.len]; exact hl)
  rw [h2.label] at hd'
  rw [h1]
  refine commute h2 hd hd' (valueMap_rescale hd.good (.num c)) ?_
  intro i hi _ k hk
  unfold slopeAt
  simp only [NumOrDict.factor, h2.len]
  have e : ∀ j, valueAt q.items j k = valueAt s.items j k * c := fun j => h2.times j hk
  split_ifs with h3 h4 h5
  · rw [e, e]; ring
  · rw [e, e]; ring
  · rw [e, e, e, h2.time hi, h2.time (show i - 1 < s.items.length by omega), h2.time (show i + 1 < s.items.length by omega)]; ring
  · rw [e, e]; ring

theorem sharedInc_times {l m : List Item} {kk : List String} (hkk : kk ≠ []) {c : ℚ}
    (h : ∀ i, ∀ k ∈ kk, valueAt m i k = valueAt l i k * c) (n : ℕ) : sharedInc m kk n = sharedInc l kk n * c := by
  have hpos : 0 < kk.length := List.length_pos_iff.2 hkk
  have hmem : ∀ j < kk.length, kk.getD j "" ∈ kk := by
    intro j hj
    rw [List.getD_eq_getElem?_getD, List.getElem?_eq_getElem hj]
    exact List.getElem_mem hj
  induction n with
  | zero => exact h 0 _ (hmem 0 hpos)
  | succ n ih =>
    unfold sharedInc
    split_ifs with h1
    · exact h 0 _ (hmem _ h1)
    · rw [ih, h _ _ (hmem _ (Nat.mod_lt _ hpos))]; ring

/-- **C245 (integral)**: the integral of a rescaled series is the rescaled integral, with any labels and any resolution. -/
theorem C245_integral_rescale {cal : Calendar} {s : TSeries} {ks : List String} (h : OpSeries cal s ks) {auto : ℚ} {vary : Bool} {si : ℚ}
    (hni : s.normInfo cal auto = .ok (vary, si)) (c : ℚ) :
    SameResult (ks.map (resultLabel s.items "integral")) (bindE (s.rescaleOp cal (.num c)) (fun q => q.integralOp cal auto (.num 0)))
      (bindE (s.integralOp cal auto (.num 0)) (fun d => d.rescaleOp cal (.num c))) := by
  obtain ⟨q, h1, h2⟩ := valueMap_rescale h (.num c)
  obtain ⟨x, e, kk, d, hx, he, hkk, hp, hd1, hd2, hd3, hd4⟩ := integral_runs_full h hni (c := .num 0) (c0 := fun _ => 0)
    (fun k _ => .inl rfl)
  obtain ⟨x', e', kk', d', hx', he', hkk', hp', hd1', hd2', hd3', hd4'⟩ :=
    integral_runs_full h2.dst ((h2.normInfo auto).trans hni) (c := .num 0) (c0 := fun _ => 0) (fun k _ => .inl rfl)
  have hke : kk = kk' := by
    refine labelsOf_same hkk hkk' (hp.trans hp'.symm) ?_
    have := h2.kind x hx x' hx'
    rw [he, he'] at this
    simpa using this
  subst hke
  rw [h2.label] at hd2' hd4'
  rw [h1]
  refine commute h2 (op := fun s => s.integralOp cal auto (.num 0)) (m := 0) (keep := true)
    ⟨hd1, hd2, hd4, fun j x y hx hy => hd3 j x y (by simpa using hx) hy⟩
    ⟨hd1', hd2', hd4', fun j x y hx hy => hd3' j x y (by simpa using hx) hy⟩ (valueMap_rescale hd2 (.num c)) ?_
  intro i hi _ k hk
  simp only [NumOrDict.factor]
  have hne : kk ≠ [] := by rintro rfl; exact h.ksne (List.nil_perm.1 hp)
  induction i with
  | zero => simp [sharedVal]
  | succ i ih =>
    unfold sharedVal
    rw [ih (by omega) (by omega), sharedInc_times hne (fun j k hk => h2.times j (hp.subset hk))]
    have : stepLen q.items vary si (i + 1) = stepLen s.items vary si (i + 1) := by
      unfold stepLen
      rw [h2.time hi, h2.time (show i + 1 - 1 < s.items.length by omega)]
    rw [this]; ring

/-- An operation which computes the same from the changed values gives the same. -/
theorem unchanged {cal : Calendar} {s q d d' : TSeries} {ks : List String} {g : String → ℚ → ℚ} (hq : ValueMap cal s q ks g)
    {op : TSeries → Except PyErr TSeries} {nl : String → String} {m : ℕ} {keep : Bool} {v v' : ℕ → String → ℚ}
    (hd : Runs cal op s ks nl m keep v d) (hd' : Runs cal op q ks nl m keep v' d')
    (hv : ∀ i < s.items.length, m ≤ i → ∀ k ∈ ks, v' i k = v i k) : SameResult (ks.map nl) (op q) (op s) := by
  refine ⟨d', d, hd'.run, hd.run, ?_⟩
  have c1 := hq.comp.trans hd'.comp (by simp)
  simp only [Nat.zero_add] at c1
  refine sameContent_comp (m := m) (v := fun i k => v' i k) (v' := v) (l := s.items) ?_ hd.comp hv ?_
  · refine Computes.congr (v := fun i k => v' (i - 0) (id k)) c1 ?_
    intro i _ _ k _; rfl
  · intro j z x y hz hx hy
    have hzl := valAt_lt hz
    have hj' : m + j < q.items.length := by rw [hq.len]; exact hzl
    have e2 := hd.idx j z _ hz hy
    have e3 := hd'.idx j _ x (List.getElem?_eq_getElem hj') hx
    have e4 := hq.idx (m + j) z _ hz (List.getElem?_eq_getElem hj')
    rw [e2, e3, e4]

/-- **C245 (diff of offset)**: the differences of a shifted series are those of the series. -/
theorem C245_diff_offset {cal : Calendar} {s : TSeries} {ks : List String} (h : OpSeries cal s ks) (hres : s.res ≠ .varying)
    (hl : 2 ≤ s.items.length) (c : NumOrDict) :
    SameResult (ks.map (resultLabel s.items "diff")) (bindE (s.offsetOp cal c) (fun q => q.diffOp cal)) (s.diffOp cal) := by
  obtain ⟨q, h1, h2⟩ := valueMap_offset h c
  obtain ⟨d, hd⟩ := runs_diff h hres hl
  obtain ⟨d', hd'⟩ := runs_diff h2.dst (by rw [h2.res]; exact hres) (by rw [h2.len]; exact hl)
  rw [h2.label] at hd'
  rw [h1]
  refine unchanged h2 hd hd' ?_
  intro i hi h3 k hk
  rw [h2.value hi hk, h2.value (show i - 1 < s.items.length by omega) hk]
  ring

/-- **C245 (derivative of offset)**: the derivative of a shifted series is that of the series, whatever the resolution. -/
theorem C245_derivative_offset {cal : Calendar} {s : TSeries} {ks : List String} (h : OpSeries cal s ks) {auto : ℚ} {vary : Bool} {si : ℚ}
    (hni : s.normInfo cal auto = .ok (vary, si)) (hsi : si ≠ 0) (hl : 2 ≤ s.items.length) (c : NumOrDict) :
    SameResult (ks.map (resultLabel s.items "derivative")) (bindE (s.offsetOp cal c) (fun q => q.derivativeOp cal auto))
      (s.derivativeOp cal auto) := by
  obtain ⟨q, h1, h2⟩ := valueMap_offset h c
  obtain ⟨d, hd⟩ := runs_derivative h hni hsi hl
  obtain ⟨d', hd'⟩ := runs_derivative h2.dst ((h2.normInfo auto).trans hni) hsi (by rw [h2.len]; exact hl)
  rw [h2.label] at hd'
  rw [h1]
  refine unchanged h2 hd hd' ?_
  intro i hi _ k hk
  unfold slopeAt
  simp only [h2.len]
  have e : ∀ j < s.items.length, valueAt q.items j k = valueAt s.items j k + c.shift k := fun j hj => h2.value hj hk
  split_ifs with h3 h4 h5
  · rw [e _ (by omega), e _ (by omega)]; ring
  · rw [e _ (by omega), e _ (by omega)]; ring
  · rw [e _ (by omega), e _ (by omega), e _ (by omega), h2.time hi, h2.time (show i - 1 < s.items.length by omega),
      h2.time (show i + 1 < s.items.length by omega)]; ring
  · rw [e _ (by omega), e _ (by omega)]; ring

/-- **C245 (mavg of offset)**: the moving averages of a shifted series are the shifted moving averages. -/
theorem C245_mavg_offset {cal : Calendar} {s : TSeries} {ks : List String} (h : OpSeries cal s ks) (w : ℕ) (hw : 1 ≤ w)
    (hl : w ≤ s.items.length) (c : ℚ) :
    SameResult (ks.map (resultLabel s.items ("mavg_" ++ toString w))) (bindE (s.offsetOp cal (.num c)) (fun q => q.mavgOp cal w))
      (bindE (s.mavgOp cal w) (fun d => d.offsetOp cal (.num c))) := by
  obtain ⟨q, h1, h2⟩ := valueMap_offset h (.num c)
  obtain ⟨d, hd⟩ := runs_mavg h w hw hl
  obtain ⟨d', hd'⟩ := runs_mavg h2.dst w hw (by rw [h2.len]; exact hl)
  rw [h2.label] at hd'
  rw [h1]
  refine commute h2 hd hd' (valueMap_offset hd.good (.num c)) ?_
  intro i hi hm k hk
  rw [sumFrom_plus (l := s.items) (c := c) _ _ (fun j hj => h2.value (by omega) hk)]
  simp only [NumOrDict.shift]
  have : (w : ℚ) ≠ 0 := by positivity
  field_simp

/-! ## C246: normalizing -/

/-- **C246**: normalizing a series rescaled by a positive factor, or shifted, gives the same as normalizing the series; with a
negative factor every normalized value `x` becomes `a + b - x`. -/
theorem C246_normalize {cal : Calendar} {s : TSeries} {ks : List String} (h : OpSeries cal s ks) (a b : ℚ)
    (hvar : ∀ k ∈ ks, ∃ i < s.items.length, ∃ j < s.items.length, valueAt s.items i k ≠ valueAt s.items j k) :
    (∀ v : NumOrDict, (∀ k ∈ ks, 0 < v.factor k) →
      SameResult ks (bindE (s.rescaleOp cal v) (fun q => q.normalizeOp cal a b)) (s.normalizeOp cal a b)) ∧
    (∀ v : NumOrDict, SameResult ks (bindE (s.offsetOp cal v) (fun q => q.normalizeOp cal a b)) (s.normalizeOp cal a b)) ∧
    (∀ v : NumOrDict, (∀ k ∈ ks, v.factor k < 0) →
      SameResult ks (bindE (s.rescaleOp cal v) (fun q => q.normalizeOp cal a b))
        (bindE (s.normalizeOp cal a b) (fun n => bindE (n.rescaleOp cal (.num (-1))) (fun m => m.offsetOp cal (.num (a + b)))))) := by
  have hex : ∀ k, ∃ p : ℚ × ℚ, Extremes s.items k p.1 p.2 := by
    intro k
    obtain ⟨mn, mx, _, he⟩ := minMaxLoop_spec h.ne k
    exact ⟨(mn, mx), he⟩
  choose p hp using hex
  have hlt : ∀ k ∈ ks, (p k).1 < (p k).2 := by
    intro k hk
    obtain ⟨i, hi, j, hj, hne⟩ := hvar k hk
    obtain ⟨i1, i2⟩ := (hp k).le i hi
    obtain ⟨j1, j2⟩ := (hp k).le j hj
    rcases lt_or_gt_of_ne hne with h0 | h0 <;> linarith
  obtain ⟨n, hn1, hn2, hn3, hn4⟩ := C27_normalize h a b (fun k => (p k).1) (fun k => (p k).2) (fun k _ => hp k) hlt
  have hn : Runs cal (fun s => s.normalizeOp cal a b) s ks id 0 true _ n :=
    ⟨hn1, by simpa using hn2, hn3, fun j x y hx hy => hn4 j x y (by simpa using hx) hy⟩
  have hup : ∀ (q : TSeries) (c e : String → ℚ), (∀ k ∈ ks, 0 < c k) → ValueMap cal s q ks (fun k x => x * c k + e k) →
      SameResult ks (q.normalizeOp cal a b) (s.normalizeOp cal a b) := by
    intro q c e hc hq
    have hqe : ∀ k ∈ ks, Extremes q.items k ((p k).1 * c k + e k) ((p k).2 * c k + e k) := by
      intro k hk
      obtain ⟨i, hi, hi2⟩ := (hp k).lo
      obtain ⟨j, hj, hj2⟩ := (hp k).hi
      refine ⟨⟨i, by rw [hq.len]; exact hi, by rw [hq.value hi hk, hi2]⟩, ⟨j, by rw [hq.len]; exact hj, by rw [hq.value hj hk, hj2]⟩, ?_⟩
      intro m hm
      rw [hq.len] at hm
      rw [hq.value hm hk]
      obtain ⟨l1, l2⟩ := (hp k).le m hm
      have h0 := (hc k hk).le
      exact ⟨by nlinarith, by nlinarith⟩
    obtain ⟨m, hm1, hm2, hm3, hm4⟩ := C27_normalize hq.dst a b _ _ hqe (fun k hk => by have := hlt k hk; have := hc k hk; nlinarith)
    have hm : Runs cal (fun s => s.normalizeOp cal a b) q ks id 0 true _ m :=
      ⟨hm1, by simpa using hm2, hm3, fun j x y hx hy => hm4 j x y (by simpa using hx) hy⟩
    have := unchanged hq hn hm (by
      intro i hi _ k hk
      rw [hq.value hi hk]
      have h1 : (p k).2 - (p k).1 ≠ 0 := by have := hlt k hk; linarith
      have h2 : c k ≠ 0 := (hc k hk).ne'
      have h3 : (p k).2 * c k + e k - ((p k).1 * c k + e k) = ((p k).2 - (p k).1) * c k := by ring
      have h4 : valueAt s.items i k * c k + e k - ((p k).1 * c k + e k) = (valueAt s.items i k - (p k).1) * c k := by ring
      rw [h3, h4, mul_div_mul_right _ _ h2])
    simpa using this
  refine ⟨?_, ?_, ?_⟩
  · intro v hv
    obtain ⟨q, h1, h2⟩ := valueMap_rescale h v
    rw [h1]
    exact hup q v.factor (fun _ => 0) hv (by simpa using h2)
  · intro v
    obtain ⟨q, h1, h2⟩ := valueMap_offset h v
    rw [h1]
    exact hup q (fun _ => 1) v.shift (fun _ _ => one_pos) (by simpa using h2)
  · intro v hv
    obtain ⟨q, h1, hq⟩ := valueMap_rescale h v
    rw [h1]
    have hqe : ∀ k ∈ ks, Extremes q.items k ((p k).2 * v.factor k) ((p k).1 * v.factor k) := by
      intro k hk
      obtain ⟨i, hi, hi2⟩ := (hp k).lo
      obtain ⟨j, hj, hj2⟩ := (hp k).hi
      refine ⟨⟨j, by rw [hq.len]; exact hj, by rw [hq.value hj hk, hj2]⟩, ⟨i, by rw [hq.len]; exact hi, by rw [hq.value hi hk, hi2]⟩, ?_⟩
      intro m hm
      rw [hq.len] at hm
      rw [hq.value hm hk]
      obtain ⟨l1, l2⟩ := (hp k).le m hm
      have h0 := (hv k hk).le
      exact ⟨by nlinarith, by nlinarith⟩
    obtain ⟨m, hm1, hm2, hm3, hm4⟩ := C27_normalize hq.dst a b _ _ hqe (fun k hk => by have := hlt k hk; have := hv k hk; nlinarith)
    have hm : Runs cal (fun s => s.normalizeOp cal a b) q ks id 0 true _ m :=
      ⟨hm1, by simpa using hm2, hm3, fun j x y hx hy => hm4 j x y (by simpa using hx) hy⟩
    have hop : ∃ e, (fun n : TSeries => bindE (n.rescaleOp cal (.num (-1))) (fun m => m.offsetOp cal (.num (a + b)))) n = .ok e ∧
        ValueMap cal n e (ks.map id) (fun _ x => a + b - x) := by
      obtain ⟨e1, he1, hv1⟩ := valueMap_rescale hn2 (.num (-1))
      obtain ⟨e2, he2, hv2⟩ := valueMap_offset hv1.dst (.num (a + b))
      rw [List.map_id]
      refine ⟨e2, by simp only [he1]; exact he2, ⟨_, hn2, fun _ hk => hk⟩, hv2.dst, ?_, ?_, fun post => (hv2.label post).trans (hv1.label post), ?_⟩
      · have := hv1.comp.trans hv2.comp (by simp)
        refine Computes.congr this ?_
        intro i hi _ k hk
        simp only [id, Nat.sub_zero]
        rw [hv1.value hi hk]
        simp only [NumOrDict.factor, NumOrDict.shift]
        ring
      · intro j x y hx hy
        have hj : j < e1.items.length := by rw [hv1.len]; exact valAt_lt hx
        rw [hv2.idx j _ y (List.getElem?_eq_getElem hj) hy, hv1.idx j x _ hx (List.getElem?_eq_getElem hj)]
      · intro x hx y hy
        rw [hv1.kind x hx _ (List.head_mem hv1.dst.ne), hv2.kind _ (List.head_mem hv1.dst.ne) y hy]
    have := commute hq (g' := fun _ x => a + b - x)
      (op' := fun n : TSeries => bindE (n.rescaleOp cal (.num (-1))) (fun m => m.offsetOp cal (.num (a + b)))) hn hm hop (by
      intro i hi _ k hk
      rw [hq.value hi hk]
      have h1 : (p k).2 - (p k).1 ≠ 0 := by have := hlt k hk; linarith
      have h2 : v.factor k ≠ 0 := (hv k hk).ne
      have h3 : (p k).1 * v.factor k - (p k).2 * v.factor k = ((p k).2 - (p k).1) * -v.factor k := by ring
      have h4 : valueAt s.items i k * v.factor k - (p k).2 * v.factor k = ((p k).2 - valueAt s.items i k) * -v.factor k := by ring
      rw [h3, h4, mul_div_mul_right _ _ (neg_ne_zero.2 h2)]
      field_simp
      ring)
    rw [List.map_id] at this
    exact this

/-! ## C247: filtering before or after -/

/-- the items of the result are made from dictionaries -/
theorem dicts_of_finish {e : Except PyErr (List Item)} {r : TSeries} {d : Dict ℚ} (h : finish e = .ok r)
    (hm : ∀ l, e = .ok l → ∀ y ∈ l, ∃ kvs, y.data = some (makeData (.dict d) kvs)) : ∀ y ∈ r.items, ∃ d, y.data = some (.dict d) := by
  unfold finish at h
  split at h
  · cases h
  · rename_i l
    intro y hy
    rw [build_items h] at hy
    obtain ⟨kvs, hk⟩ := hm l rfl y hy
    exact ⟨_, hk⟩

/-- all the items have dictionaries -/
def AllDicts (l : List Item) : Prop := ∀ x ∈ l, ∃ d, x.data = some (.dict d)

theorem opPrep_dict {cal : Calendar} {s : TSeries} {ks : List String} (h : OpSeries cal s ks) (hd : AllDicts s.items) :
    ∃ d kk, s.opPrep = .ok (.dict d, kk) := by
  obtain ⟨x, r0, d, kk, hi, hd0, hkk, hp, hprep⟩ := h.opPrep
  obtain ⟨e, he⟩ := hd x (by rw [hi]; simp)
  rw [hd0] at he
  cases he
  exact ⟨e, kk, hprep⟩

theorem dicts_mapOp {cal : Calendar} {s r : TSeries} {ks : List String} (h : OpSeries cal s ks) (hd : AllDicts s.items)
    {g : String → ℚ → Except PyErr ℚ} (hr : s.mapOp cal g = .ok r) : AllDicts r.items := by
  obtain ⟨d, kk, hp⟩ := opPrep_dict h hd
  unfold TSeries.mapOp at hr
  rw [hp] at hr
  exact dicts_of_finish hr (fun l hl => itemLoop_kind _ _ _ hl)

theorem dicts_normalize {cal : Calendar} {s r : TSeries} {ks : List String} (h : OpSeries cal s ks) (hd : AllDicts s.items) {a b : ℚ}
    (hr : s.normalizeOp cal a b = .ok r) : AllDicts r.items := by
  unfold TSeries.normalizeOp at hr
  dsimp only at hr
  split at hr
  · cases hr
  · split at hr
    · cases hr
    · exact dicts_mapOp h hd hr

theorem dicts_diff {cal : Calendar} {s r : TSeries} {ks : List String} (h : OpSeries cal s ks) (hd : AllDicts s.items)
    (hr : s.diffOp cal = .ok r) : AllDicts r.items := by
  obtain ⟨d, kk, hp⟩ := opPrep_dict h hd
  unfold TSeries.diffOp at hr
  rw [hp] at hr
  split at hr
  · cases hr
  · split at hr
    · cases hr
    · dsimp only at hr
      split at hr
      · cases hr
      · exact dicts_of_finish hr (fun l hl => itemLoop_kind _ _ _ hl)

theorem dicts_csum {cal : Calendar} {s r : TSeries} {ks : List String} (h : OpSeries cal s ks) (hd : AllDicts s.items)
    (hr : s.csumOp cal = .ok r) : AllDicts r.items := by
  obtain ⟨d, kk, hp⟩ := opPrep_dict h hd
  unfold TSeries.csumOp at hr
  rw [hp] at hr
  split at hr
  · cases hr
  · split at hr
    · cases hr
    · exact dicts_of_finish hr (fun l hl => intLoop_kind _ _ _ _ hl)

theorem dicts_mavg {cal : Calendar} {s r : TSeries} {ks : List String} (h : OpSeries cal s ks) (hd : AllDicts s.items) {w : Int}
    (hr : s.mavgOp cal w = .ok r) : AllDicts r.items := by
  obtain ⟨d, kk, hp⟩ := opPrep_dict h hd
  unfold TSeries.mavgOp at hr
  rw [hp] at hr
  dsimp only at hr
  split at hr
  · cases hr
  · exact dicts_of_finish hr (fun l hl => itemLoop_kind _ _ _ hl)

theorem dicts_derivative {cal : Calendar} {s r : TSeries} {ks : List String} (h : OpSeries cal s ks) (hd : AllDicts s.items) {auto : ℚ}
    (hr : s.derivativeOp cal auto = .ok r) : AllDicts r.items := by
  obtain ⟨d, kk, hp⟩ := opPrep_dict h hd
  unfold TSeries.derivativeOp at hr
  rw [hp] at hr
  dsimp only at hr
  split at hr
  · cases hr
  · split at hr
    · cases hr
    · exact dicts_of_finish hr (fun l hl => itemLoop_kind _ _ _ hl)

theorem valueMap_filter {cal : Calendar} {s : TSeries} {ks : List String} (h : OpSeries cal s ks) (hd : AllDicts s.items)
    (labels : List String) (hne : labels ≠ []) (hsub : ∀ k ∈ labels, k ∈ ks) (hnd : labels.Nodup) :
    ∃ f, s.filterOp labels = .ok f ∧ ValueMap cal s f labels (fun _ x => x) := by
  obtain ⟨f, h1, h2, h3, h4⟩ := C30_filter h hd labels hne hsub hnd
  have hk : ∀ x ∈ s.items, ∀ y ∈ f.items, (∃ d, x.data = some (.dict d)) ↔ ∃ d, y.data = some (.dict d) :=
    fun x hx y hy => ⟨fun _ => filter_dict hd h1 y hy, fun _ => hd x hx⟩
  exact ⟨f, h1, ⟨_, h, hsub⟩, h2, h3, h4, fun post => resultLabel_of_kind h.ne h2.ne hk post, hk⟩

/-- the labels of a part of the series after renaming -/
theorem renamed_nodup {cal : Calendar} {d : TSeries} {ks labels : List String} {nl : String → String} (h : OpSeries cal d (ks.map nl))
    (hsub : ∀ k ∈ labels, k ∈ ks) (hnd : labels.Nodup) : (labels.map nl).Nodup := by
  obtain ⟨_, _, _, hn, _⟩ := h.lab _ (List.head_mem h.ne)
  exact hnd.map_on (fun a ha b hb hab => List.inj_on_of_nodup_map hn (hsub a ha) (hsub b hb) hab)

theorem filter_commute {cal : Calendar} {s f d d' : TSeries} {ks labels : List String} (hq : ValueMap cal s f labels (fun _ x => x))
    (hne : labels ≠ []) (hsub : ∀ k ∈ labels, k ∈ ks) (hnd : labels.Nodup) {op : TSeries → Except PyErr TSeries} {nl : String → String} {m : ℕ}
    {keep : Bool} {v v' : ℕ → String → ℚ} (hd : Runs cal op s ks nl m keep v d) (hdd : AllDicts d.items)
    (hd' : Runs cal op f labels nl m keep v' d') (hv : ∀ i < s.items.length, m ≤ i → ∀ k ∈ labels, v' i k = v i k) :
    SameResult (labels.map nl) (op f) (bindE (op s) (fun d => d.filterOp (labels.map nl))) := by
  obtain ⟨e, he, hve⟩ := valueMap_filter hd.good hdd (labels.map nl) (by simpa using hne)
    (fun k hk => by
      obtain ⟨k0, h0, rfl⟩ := List.mem_map.1 hk
      exact List.mem_map.2 ⟨k0, hsub k0 h0, rfl⟩) (renamed_nodup hd.good hsub hnd)
  refine ⟨d', e, hd'.run, by rw [hd.run]; exact he, ?_⟩
  have hl := hd.comp.length
  have hl2 := hve.len
  have c1 := hq.comp.trans hd'.comp (by simp)
  simp only [Nat.zero_add] at c1
  refine sameContent_comp (m := m) (v := fun i k => v' i k) (v' := v) (l := s.items) ?_ ?_ hv ?_
  · refine Computes.congr (v := fun i k => v' (i - 0) (id k)) c1 ?_
    intro i _ _ k _; rfl
  · have hlab := hve.comp.labels
    rw [List.map_id] at hlab
    refine ⟨by omega, ?_, hlab, ?_⟩
    · intro j x y hx hy
      have hj : j < d.items.length := by have := valAt_lt hy; omega
      have p1 := hd.comp.place j x _ hx (List.getElem?_eq_getElem hj)
      have p2 := hve.comp.place j _ y (by rw [Nat.zero_add]; exact List.getElem?_eq_getElem hj) hy
      exact ⟨p2.1.trans p1.1, p2.2.1.trans p1.2.1, p2.2.2.trans p1.2.2⟩
    · intro j y hy k hk
      have hj : j < d.items.length := by have := valAt_lt hy; omega
      have := hve.comp.values j y hy (nl k) (List.mem_map.2 ⟨k, hk, rfl⟩)
      simp only [Nat.zero_add, id] at this
      rw [this, hd.comp.valueAt hj (hsub k hk)]
  · intro j z x y hz hx hy
    have hj : j < d.items.length := by have := valAt_lt hy; omega
    have hj' : m + j < f.items.length := by rw [hq.len]; exact valAt_lt hz
    rw [hve.idx j _ y (List.getElem?_eq_getElem hj) hy, hd.idx j z _ hz (List.getElem?_eq_getElem hj),
      hd'.idx j _ x (List.getElem?_eq_getElem hj') hx, hq.idx (m + j) z _ hz (List.getElem?_eq_getElem hj')]

theorem ValueMap.same {cal : Calendar} {s q : TSeries} {ks : List String} (h : ValueMap cal s q ks (fun _ x => x)) (i : ℕ)
    {k : String} (hk : k ∈ ks) : valueAt q.items i k = valueAt s.items i k := by
  by_cases hi : i < s.items.length
  · exact h.value hi hk
  · have hq : ¬ i < q.items.length := by rw [h.len]; exact hi
    unfold valueAt
    rw [List.getElem?_eq_none (by omega), List.getElem?_eq_none (by omega)]

/-- the renaming of the labels by an operation on a series of dictionaries -/
theorem resultLabel_dicts {l : List Item} (hne : l ≠ []) (hd : AllDicts l) (post : String) :
    resultLabel l post = fun k => k ++ "_" ++ post := by
  cases l with
  | nil => exact absurd rfl hne
  | cons x l =>
    obtain ⟨d, hd⟩ := hd x (by simp)
    funext k
    unfold resultLabel newLabel
    simp only [List.head?_cons, hd]

/-- **C247**: filtering some labels of a series of dictionaries and then rescaling, shifting, normalizing, or taking differences,
running sums, moving averages or derivatives, gives the same as doing it on all the labels and then filtering the resulting ones. -/
theorem C247_filter_partial {cal : Calendar} {s : TSeries} {ks : List String} (h : OpSeries cal s ks) (hd : AllDicts s.items)
    (labels : List String) (hne : labels ≠ []) (hsub : ∀ k ∈ labels, k ∈ ks) (hnd : labels.Nodup) :
    (∀ v : NumOrDict, SameResult labels (bindE (s.filterOp labels) (fun f => f.rescaleOp cal v))
      (bindE (s.rescaleOp cal v) (fun d => d.filterOp labels))) ∧
    (∀ v : NumOrDict, SameResult labels (bindE (s.filterOp labels) (fun f => f.offsetOp cal v))
      (bindE (s.offsetOp cal v) (fun d => d.filterOp labels))) ∧
    (∀ a b : ℚ, (∀ k ∈ ks, ∃ i < s.items.length, ∃ j < s.items.length, valueAt s.items i k ≠ valueAt s.items j k) →
      SameResult labels (bindE (s.filterOp labels) (fun f => f.normalizeOp cal a b))
        (bindE (s.normalizeOp cal a b) (fun d => d.filterOp labels))) ∧
    (s.res ≠ .varying → 2 ≤ s.items.length →
      SameResult (labels.map (· ++ "_diff")) (bindE (s.filterOp labels) (fun f => f.diffOp cal))
        (bindE (s.diffOp cal) (fun d => d.filterOp (labels.map (· ++ "_diff"))))) ∧
    (s.res ≠ .varying →
      SameResult (labels.map (· ++ "_csum")) (bindE (s.filterOp labels) (fun f => f.csumOp cal))
        (bindE (s.csumOp cal) (fun d => d.filterOp (labels.map (· ++ "_csum"))))) ∧
    (∀ w : ℕ, 1 ≤ w → w ≤ s.items.length →
      SameResult (labels.map (· ++ "_" ++ ("mavg_" ++ toString w))) (bindE (s.filterOp labels) (fun f => f.mavgOp cal w))
        (bindE (s.mavgOp cal w) (fun d => d.filterOp (labels.map (· ++ "_" ++ ("mavg_" ++ toString w)))))) ∧
    (∀ (auto si : ℚ) (vary : Bool), s.normInfo cal auto = .ok (vary, si) → si ≠ 0 → 2 ≤ s.items.length →
      SameResult (labels.map (· ++ "_derivative")) (bindE (s.filterOp labels) (fun f => f.derivativeOp cal auto))
        (bindE (s.derivativeOp cal auto) (fun d => d.filterOp (labels.map (· ++ "_derivative"))))) := by
  obtain ⟨f, hf, hq⟩ := valueMap_filter h hd labels hne hsub hnd
  have hpost : ∀ post, resultLabel s.items post = fun k => k ++ "_" ++ post := resultLabel_dicts h.ne hd
  have hassoc : ∀ post, labels.map (fun k => k ++ "_" ++ post) = labels.map (· ++ ("_" ++ post)) := by
    intro post; simp only [String.append_assoc]
  rw [hf]
  refine ⟨?_, ?_, ?_, ?_, ?_, ?_, ?_⟩
  · intro v
    obtain ⟨d, h1⟩ := runs_rescale h v
    obtain ⟨d', h2⟩ := runs_rescale hq.dst v
    have := filter_commute hq hne hsub hnd h1 (dicts_mapOp h hd h1.run) h2 (fun i _ _ k hk => by rw [hq.same i hk])
    rwa [List.map_id] at this
  · intro v
    obtain ⟨d, h1⟩ := runs_offset h v
    obtain ⟨d', h2⟩ := runs_offset hq.dst v
    have := filter_commute hq hne hsub hnd h1 (dicts_mapOp h hd h1.run) h2 (fun i _ _ k hk => by rw [hq.same i hk])
    rwa [List.map_id] at this
  · intro a b hvar
    have hex : ∀ k, ∃ p : ℚ × ℚ, Extremes s.items k p.1 p.2 := by
      intro k
      obtain ⟨mn, mx, _, he⟩ := minMaxLoop_spec h.ne k
      exact ⟨(mn, mx), he⟩
    choose p hp using hex
    have hlt : ∀ k ∈ ks, (p k).1 < (p k).2 := by
      intro k hk
      obtain ⟨i, hi, j, hj, hne⟩ := hvar k hk
      obtain ⟨i1, i2⟩ := (hp k).le i hi
      obtain ⟨j1, j2⟩ := (hp k).le j hj
      rcases lt_or_gt_of_ne hne with h0 | h0 <;> linarith
    obtain ⟨n, hn1, hn2, hn3, hn4⟩ := C27_normalize h a b (fun k => (p k).1) (fun k => (p k).2) (fun k _ => hp k) hlt
    have hn : Runs cal (fun s => s.normalizeOp cal a b) s ks id 0 true _ n :=
      ⟨hn1, by simpa using hn2, hn3, fun j x y hx hy => hn4 j x y (by simpa using hx) hy⟩
    have hpf : ∀ k ∈ labels, Extremes f.items k (p k).1 (p k).2 := by
      intro k hk
      obtain ⟨⟨i, i1, i2⟩, ⟨j, j1, j2⟩, l⟩ := hp k
      exact ⟨⟨i, by rw [hq.len]; exact i1, by rw [hq.same i hk]; exact i2⟩, ⟨j, by rw [hq.len]; exact j1, by rw [hq.same j hk]; exact j2⟩,
        fun m hm => by rw [hq.same m hk]; exact l m (by rw [hq.len] at hm; exact hm)⟩
    obtain ⟨m, hm1, hm2, hm3, hm4⟩ := C27_normalize hq.dst a b (fun k => (p k).1) (fun k => (p k).2) hpf (fun k hk => hlt k (hsub k hk))
    have hm : Runs cal (fun s => s.normalizeOp cal a b) f labels id 0 true _ m :=
      ⟨hm1, by simpa using hm2, hm3, fun j x y hx hy => hm4 j x y (by simpa using hx) hy⟩
    have := filter_commute hq hne hsub hnd hn (dicts_normalize h hd hn1) hm (fun i _ _ k hk => by rw [hq.same i hk])
    rwa [List.map_id] at this
  · intro hres hl
    obtain ⟨d, h1⟩ := runs_diff h hres hl
    obtain ⟨d', h2⟩ := runs_diff hq.dst (by rw [hq.res]; exact hres) (by rw [hq.len]; exact hl)
    rw [hq.label] at h2
    have := filter_commute hq hne hsub hnd h1 (dicts_diff h hd h1.run) h2 (fun i _ _ k hk => by rw [hq.same i hk, hq.same (i - 1) hk])
    rw [hpost, hassoc] at this
    exact this
  · intro hres
    obtain ⟨d, h1⟩ := runs_csum h hres
    obtain ⟨d', h2⟩ := runs_csum hq.dst (by rw [hq.res]; exact hres)
    rw [hq.label] at h2
    have := filter_commute hq hne hsub hnd h1 (dicts_csum h hd h1.run) h2 (fun i _ _ k hk => by
      have := runningSum_times (l := s.items) (c := 1) (fun j => by rw [hq.same j hk, mul_one]) i
      rw [this, mul_one])
    rw [hpost, hassoc] at this
    exact this
  · intro w hw hl
    obtain ⟨d, h1⟩ := runs_mavg h w hw hl
    obtain ⟨d', h2⟩ := runs_mavg hq.dst w hw (by rw [hq.len]; exact hl)
    rw [hq.label] at h2
    have := filter_commute hq hne hsub hnd h1 (dicts_mavg h hd h1.run) h2 (fun i _ _ k hk => by
      rw [sumFrom_times (l := s.items) (c := 1) (fun j => by rw [hq.same j hk, mul_one]), mul_one])
    rw [hpost] at this
    exact this
  · intro auto si vary hni hsi hl
    obtain ⟨d, h1⟩ := runs_derivative h hni hsi hl
    obtain ⟨d', h2⟩ := runs_derivative hq.dst ((hq.normInfo auto).trans hni) hsi (by rw [hq.len]; exact hl)
    rw [hq.label] at h2
    have := filter_commute hq hne hsub hnd h1 (dicts_derivative h hd h1.run) h2 (fun i hi _ k hk => by
      unfold slopeAt
      simp only [hq.len, hq.same _ hk]
      split_ifs with h3 h4 h5
      · rfl
      · rfl
      · rw [hq.time hi, hq.time (show i - 1 < s.items.length by omega), hq.time (show i + 1 < s.items.length by omega)]
      · rfl)
    rw [hpost, hassoc] at this
    exact this

/-- **C247 is false of the integral**: that of `a` is 1 if the other label is filtered out first, and 2 if it is filtered out after. -/
theorem C247_false :
    lastVal (bindE (exTwo.filterOp ["a"]) (fun f => f.integralOp physicalCalendar 1 (.num 0))) "a_integral" = some 1 ∧
    lastVal (bindE (exTwo.integralOp physicalCalendar 1 (.num 0)) (fun d => d.filterOp ["a_integral"])) "a_integral" = some 2 := by
  decide +kernel

/-! ## C248: slicing before or after -/

theorem sliceTime_rel {R : Item → Item → Prop} (hR : ∀ x y, R x y → SamePlace x y) (a b : Option ℚ) {l m : List Item}
    (h : List.Forall₂ R l m) : List.Forall₂ R (sliceTimeLoop a b l) (sliceTimeLoop a b m) := by
  induction h with
  | nil => exact .nil
  | cons hxy _ ih =>
    rename_i x y l m _
    obtain ⟨e1, e2, _⟩ := hR _ _ hxy
    unfold sliceTimeLoop
    have hb : beyondTo b y = beyondTo b x := by cases b <;> simp only [beyondTo, e1, e2]
    rw [e1, hb]
    split
    · exact ih
    · split
      · exact .nil
      · exact .cons hxy ih

theorem sliceIndex_rel {R : Item → Item → Prop} (a b : Option Int) {l m : List Item} (h : List.Forall₂ R l m) :
    ∀ i, List.Forall₂ R (sliceIndexLoop a b i l) (sliceIndexLoop a b i m) := by
  induction h with
  | nil => intro i; exact .nil
  | cons hxy _ ih =>
    intro i
    unfold sliceIndexLoop
    split
    · exact ih _
    · split
      · exact .nil
      · exact .cons hxy (ih _)

theorem sliceItems_rel {R : Item → Item → Prop} (hR : ∀ x y, R x y → SamePlace x y) (a b : Option Int) (c d : Option ℚ) {l m u : List Item}
    (h : List.Forall₂ R l m) (hu : sliceItems l a b c d = .ok u) : ∃ w, sliceItems m a b c d = .ok w ∧ List.Forall₂ R u w := by
  have hlen := h.length_eq
  have he : m.isEmpty = l.isEmpty := by cases h <;> rfl
  unfold sliceItems at hu ⊢
  rw [he, ← hlen]
  dsimp only at hu ⊢
  split at hu
  · cases hu
  · split at hu
    · cases hu
    · split at hu
      · cases hu
      · rename_i g1 g2 g3
        rw [if_neg g1, if_neg g2, if_neg g3]
        split at hu
        · rename_i g4
          rw [if_pos g4]
          cases hu; exact ⟨_, rfl, .nil⟩
        · rename_i g4
          rw [if_neg g4]
          split at hu
          · rename_i g5
            rw [if_pos g5]
            cases hu; exact ⟨_, rfl, .nil⟩
          · rename_i g5
            rw [if_neg g5]
            split at hu
            · rename_i g6
              rw [if_pos g6]
              cases hu; exact ⟨_, rfl, sliceTime_rel hR c d h⟩
            · rename_i g6
              rw [if_neg g6]
              split at hu
              · rename_i g7
                rw [if_pos g7]
                cases hu; exact ⟨_, rfl, sliceIndex_rel _ _ h 0⟩
              · rename_i g7
                rw [if_neg g7]
                cases hu; exact ⟨_, rfl, h⟩

theorem sliceTime_sublist (a b : Option ℚ) (l : List Item) : (sliceTimeLoop a b l).Sublist l := by
  induction l with
  | nil => exact .slnil
  | cons x l ih =>
    unfold sliceTimeLoop
    split
    · exact ih.cons _
    · split
      · exact List.nil_sublist _
      · exact ih.cons_cons _

theorem sliceIndex_sublist (a b : Option Int) (l : List Item) : ∀ i, (sliceIndexLoop a b i l).Sublist l := by
  induction l with
  | nil => intro i; exact .slnil
  | cons x l ih =>
    intro i
    unfold sliceIndexLoop
    split
    · exact (ih _).cons _
    · split
      · exact List.nil_sublist _
      · exact (ih _).cons_cons _

theorem sliceItems_sublist {a b : Option Int} {c d : Option ℚ} {l u : List Item} (hu : sliceItems l a b c d = .ok u) : u.Sublist l := by
  unfold sliceItems at hu
  dsimp only at hu
  split_ifs at hu
  all_goals (simp only [Except.ok.injEq] at hu; subst hu)
  · exact List.nil_sublist _
  · exact List.nil_sublist _
  · exact sliceTime_sublist _ _ _
  · exact sliceIndex_sublist _ _ _ _
  · exact List.Sublist.refl _

/-- a slice which is not empty is again a series on which operations work -/
theorem slice_good {cal : Calendar} {s e : TSeries} {ks : List String} (h : OpSeries cal s ks) {a b : Option Int} {c d : Option ℚ}
    (he : s.slice a b c d = .ok e) (hne : e.items ≠ []) : OpSeries cal e ks := by
  unfold TSeries.slice at he
  split at he
  · cases he
  · rename_i l hl
    have hsub := sliceItems_sublist hl
    have hit := build_items he
    rw [← hit] at hsub he
    refine ⟨he, hne, h.ksne, fun x hx => h.lab x (hsub.subset hx), ?_⟩
    rcases h.shape with ⟨h1, h2⟩ | ⟨h1, h2⟩
    · exact .inl ⟨fun x hx => h1 x (hsub.subset hx), h2.sublist hsub⟩
    · exact .inr ⟨fun x hx => h1 x (hsub.subset hx), fun x hx => h2 x (hsub.subset hx)⟩

theorem ValueMap.forall₂ {cal : Calendar} {s q : TSeries} {ks : List String} {g : String → ℚ → ℚ} (h : ValueMap cal s q ks g) :
    List.Forall₂ (fun x y => SamePlace x y ∧ y.idx = x.idx ∧ LabelledBy y ks ∧ y ∈ q.items ∧
      ∀ k ∈ ks, y.value? k = some (g k (x.value k))) s.items q.items := by
  rw [List.forall₂_iff_get]
  refine ⟨h.len.symm, ?_⟩
  intro i h1 h2
  have e1 : s.items[i]? = some (s.items.get ⟨i, h1⟩) := List.getElem?_eq_getElem h1
  have e2 : q.items[i]? = some (q.items.get ⟨i, h2⟩) := List.getElem?_eq_getElem h2
  refine ⟨h.comp.place i _ _ (by rw [Nat.zero_add]; exact e1) e2, h.idx i _ _ e1 e2, h.dst.lab _ (List.getElem_mem h2),
    List.getElem_mem h2, ?_⟩
  intro k hk
  have := h.comp.values i _ e2 k hk
  simp only [Nat.zero_add, id] at this
  rw [this, valueAt_of e1]

theorem slice_commute {cal : Calendar} {s q e : TSeries} {ks : List String} {g : String → ℚ → ℚ} (hs : OpSeries cal s ks)
    (hq : ValueMap cal s q ks g) {a b : Option Int} {c d : Option ℚ} (he : s.slice a b c d = .ok e) (hne : e.items ≠ [])
    {op : TSeries → Except PyErr TSeries} (hop : ∀ s', OpSeries cal s' ks → ∃ q', op s' = .ok q' ∧ ValueMap cal s' q' ks g) :
    SameResult ks (q.slice a b c d) (op e) := by
  have hge := slice_good hs he hne
  obtain ⟨w, hw, hve⟩ := hop e hge
  unfold TSeries.slice at he
  split at he
  · cases he
  · rename_i l hl
    have hit := build_items he
    obtain ⟨m, hm1, hm2⟩ := sliceItems_rel (fun x y h => h.1) a b c d hq.forall₂ hl
    rw [← hit] at hm2
    have hmlen := hm2.length_eq
    have hget : ∀ (j : ℕ) (x y : Item), e.items[j]? = some x → m[j]? = some y → SamePlace x y ∧ y.idx = x.idx ∧ LabelledBy y ks ∧
        y ∈ q.items ∧ ∀ k ∈ ks, y.value? k = some (g k (x.value k)) := by
      intro j x y hx hy
      have h1 := valAt_lt hx
      have h2 := valAt_lt hy
      have := (List.forall₂_iff_get.1 hm2).2 j h1 h2
      rw [List.getElem?_eq_getElem h1] at hx
      rw [List.getElem?_eq_getElem h2] at hy
      cases hx; cases hy
      exact this
    have hmem : ∀ y ∈ m, LabelledBy y ks ∧ y ∈ q.items := by
      intro y hy
      obtain ⟨j, hj, rfl⟩ := List.getElem_of_mem hy
      have := hget j _ _ (List.getElem?_eq_getElem (show j < e.items.length by omega)) (List.getElem?_eq_getElem hj)
      exact ⟨this.2.2.1, this.2.2.2.1⟩
    obtain ⟨r, hr1, hr2, hr3⟩ := rebuild (l := m) (m := 0) hge (by intro h0; rw [h0] at hmlen; simp at hmlen; exact hne hmlen)
      (by omega) (fun j x y hx hy => (hget j x y (by simpa using hx) hy).1) hs.ksne (fun y hy => (hmem y hy).1) (by
        intro x hx y hy d1 d2 hd1 hd2
        obtain ⟨rf, _, _, hr⟩ := hq.dst.dataInv.ref hq.dst.ne
        exact (hr x (hmem x hx).2 d1 hd1).symm.trans (hr y (hmem y hy).2 d2 hd2))
    refine ⟨r, w, by unfold TSeries.slice; rw [hm1]; exact hr1, hw, ?_⟩
    have := sameContent_comp (l := e.items) (a := r.items) (b := w.items) (m := 0) (ks := ks) (nl := id)
      (v := fun i k => g k (valueAt e.items i k)) (v' := fun i k => g k (valueAt e.items i k)) (by
        rw [hr2]
        refine ⟨by omega, fun j x y hx hy => (hget j x y (by simpa using hx) hy).1, by rw [List.map_id]; exact fun y hy => (hmem y hy).1, ?_⟩
        intro j y hy k hk
        have hj : j < e.items.length := by have := valAt_lt hy; omega
        have := (hget j _ y (List.getElem?_eq_getElem hj) hy).2.2.2.2 k hk
        simp only [id, Nat.zero_add]
        rw [this, valueAt_of (List.getElem?_eq_getElem hj)]) hve.comp (fun _ _ _ _ _ => rfl) (by
        intro j z x y hz hx hy
        rw [Nat.zero_add] at hz
        rw [hr2] at hx
        rw [hve.idx j z y hz hy, (hget j z x hz hx).2.1])
    rwa [List.map_id] at this

/-- **C248**: slicing a rescaled or shifted series, by positions or by time, gives the same as rescaling or shifting the slice, if there
is something in it. -/
theorem C248_slice_partial {cal : Calendar} {s e : TSeries} {ks : List String} (h : OpSeries cal s ks) (a b : Option Int) (c d : Option ℚ)
    (he : s.slice a b c d = .ok e) (hne : e.items ≠ []) (v : NumOrDict) :
    SameResult ks (bindE (s.rescaleOp cal v) (fun q => q.slice a b c d)) (bindE (s.slice a b c d) (fun e => e.rescaleOp cal v)) ∧
    SameResult ks (bindE (s.offsetOp cal v) (fun q => q.slice a b c d)) (bindE (s.slice a b c d) (fun e => e.offsetOp cal v)) := by
  constructor
  · obtain ⟨q, h1, h2⟩ := valueMap_rescale h v
    rw [h1, he]
    exact slice_commute h h2 he hne (fun s' hs' => valueMap_rescale hs' v)
  · obtain ⟨q, h1, h2⟩ := valueMap_offset h v
    rw [h1, he]
    exact slice_commute h h2 he hne (fun s' hs' => valueMap_offset hs' v)

/-- **C248 is false of empty slices**: the empty slice of a rescaled series is an empty series, but the empty slice cannot be rescaled. -/
theorem C248_false :
    (bindE (exSeries.rescaleOp physicalCalendar (.num 2)) (fun q => q.slice (some 5) none none none)).toOption.map (fun r => r.items.length) = some 0 ∧
    (match bindE (exSeries.slice (some 5) none none none) (fun e => e.rescaleOp physicalCalendar (.num 2)) with
      | .error e => some e | .ok _ => none) = some .valueError := by
  decide +kernel

/-! ## The hypotheses are met -/

theorem C244_witness : OpSeries physicalCalendar exSeries ["a", "b"] := C21_witness

theorem C245_witness : OpSeries physicalCalendar exSeries ["a", "b"] ∧ exSeries.res ≠ .varying ∧ 2 ≤ exSeries.items.length ∧
    (exSeries.normInfo physicalCalendar 1).toOption = some (false, 60) :=
  ⟨C21_witness, by decide +kernel, by decide +kernel, by decide +kernel⟩

theorem C246_witness : OpSeries physicalCalendar exSeries ["a", "b"] ∧
    ∀ k ∈ ["a", "b"], ∃ i < exSeries.items.length, ∃ j < exSeries.items.length, valueAt exSeries.items i k ≠ valueAt exSeries.items j k :=
  ⟨C21_witness, by decide +kernel⟩

theorem C247_witness : OpSeries physicalCalendar exSeries ["a", "b"] ∧ AllDicts exSeries.items ∧ "a" ∈ ["a", "b"] := by
  refine ⟨C21_witness, ?_, by decide⟩
  have : exSeries.items = [mkPoint 0 (.dict [("b", 5), ("a", 1)]),
      mkPoint 60 (.dict [("a", 4), ("b", 7)]), mkPoint 120 (.dict [("a", 3), ("b", -2)])] := by decide +kernel
  rw [this]
  intro x hx
  simp only [List.mem_cons, List.not_mem_nil, or_false] at hx
  rcases hx with rfl | rfl | rfl <;> exact ⟨_, rfl⟩

theorem C248_witness : (exSeries.slice (some 1) none none none).toOption.map (fun e => e.items.length) = some 2 ∧
    (exSeries.slice none none (some 60) none).toOption.map (fun e => e.items.length) = some 2 := by
  decide +kernel

end Timeseria
