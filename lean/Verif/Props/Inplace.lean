import Verif.Model.Inplace
import Verif.Props.OpsDiff

/-! # C33: in-place operations -/

namespace Timeseria

theorem toString_nat_inj {i j : ℕ} (h : toString i = toString j) : i = j := by
  rw [← strNat_eq, ← strNat_eq] at h; exact strNat_inj h

theorem set_same {α : Type*} {l : List α} {i : ℕ} {x : α} (h : l[i]? = some x) : l.set i x = l := by
  obtain ⟨hi, rfl⟩ := List.getElem?_eq_some_iff.1 h
  exact List.set_getElem_self hi

/-- writing a label the data has -/
theorem writeLabel_id {d : Data} (hn : (d.pairs.map Prod.fst).Nodup) {k : String}
    (hk : k ∈ d.pairs.map Prod.fst) (v : ℚ) :
    ∃ d', writeLabel id d k v = .ok d' ∧ d'.pairs.map Prod.fst = d.pairs.map Prod.fst ∧
      (∀ k', d'.pairs.lookup k' = if k = k' then some v else d.pairs.lookup k') ∧
      (∀ z, d' ≠ .num z) ∧ SameKind d d' ∧ labelsOf d' = labelsOf d := by
  cases d with
  | num x => simp [Data.pairs] at hk
  | dict d =>
    have hk' : k ∈ Dict.keys d := hk
    refine ⟨.dict (d.set k v), rfl, Dict.keys_set_of_mem v hk', fun k' => Dict.get?_set d k k' v,
      (by intro z h; cases h), ?_, ?_⟩
    · intro k'
      rw [Dict.keys_set_of_mem v hk']
    · simp only [labelsOf]; rw [Dict.keys_set_of_mem v hk']
  | list l =>
    have hk' := hk
    rw [pairs_list, List.mem_map] at hk'
    obtain ⟨n, hn', rfl⟩ := hk'
    have hn'' : n < l.length := by simpa using hn'
    refine ⟨.list (l.set n v), ?_, ?_, ?_, (by intro z h; cases h), by simp [SameKind],
      by simp [labelsOf]⟩
    · simp [writeLabel, readNat_strNat, hn'']
    · rw [pairs_list, pairs_list, List.length_set]
    · intro k'
      by_cases hm : k' ∈ (Data.list l).pairs.map Prod.fst
      · rw [pairs_list, List.mem_map] at hm
        obtain ⟨m, hm', rfl⟩ := hm
        have e1 := lookup_map_pos (l.set n v) 0 m
        have e2 := lookup_map_pos l 0 m
        simp only [Nat.zero_add] at e1 e2
        rw [show (Data.list (l.set n v)).pairs = (l.set n v).mapIdx (fun j v => (toString j, v)) from rfl,
          show (Data.list l).pairs = l.mapIdx (fun j v => (toString j, v)) from rfl,
          strNat_eq, strNat_eq, e1, e2, List.getElem?_set]
        by_cases hnm : n = m
        · subst hnm; simp [hn'']
        · have : ¬ toString n = toString m := fun h => hnm (toString_nat_inj h)
          rw [if_neg hnm, if_neg this]
      · have hne : ¬ strNat n = k' := by
          intro he
          exact hm (he ▸ hk)
        rw [if_neg hne]
        have hnone : ∀ l' : List ℚ, l'.length = l.length →
            (Data.list l').pairs.lookup k' = none := by
          intro l' hl'
          rw [List.lookup_eq_none_iff]
          intro p hp
          rw [bne_iff_ne]
          intro he
          apply hm
          rw [pairs_list, ← hl', ← pairs_list]
          exact List.mem_map.2 ⟨p, hp, he.symm⟩
        rw [hnone _ (by simp), hnone l rfl]

theorem LabelledBy.mem_pairs {x : Item} {ks : List String} (h : LabelledBy x ks) {d : Data}
    (hd : x.data = some d) : (d.pairs.map Prod.fst).Perm ks ∧ (d.pairs.map Prod.fst).Nodup := by
  obtain ⟨d', hd', hp, hn, _⟩ := h
  rw [hd] at hd'
  cases hd'
  exact ⟨hp, hp.nodup_iff.2 hn⟩

/-- the label loop of an in-place operation on single values -/
theorem inplaceLabels_own {ks : List String} (g : String → ℚ → Except PyErr ℚ) (w : String → ℚ → ℚ)
    (kk : List String) (hn : kk.Nodup) (hsub : ∀ k ∈ kk, k ∈ ks) (i : ℕ) (l : List Item) (x : Item)
    (hx : l[i]? = some x) (hl : LabelledBy x ks)
    (hg : ∀ k ∈ kk, g k (x.value k) = .ok (w k (x.value k))) :
    ∃ x', inplaceLabels id (ownValue g) i () l kk = .ok ((), l.set i x') ∧ SamePlace x x' ∧
      x'.idx = x.idx ∧ LabelledBy x' ks ∧
      (∀ d, x.data = some d → ∃ d', x'.data = some d' ∧ SameKind d d' ∧ labelsOf d' = labelsOf d) ∧
      ∀ k, x'.value? k = if k ∈ kk then some (w k (x.value k)) else x.value? k := by
  induction kk generalizing l x with
  | nil =>
    refine ⟨x, ?_, ⟨rfl, rfl, rfl⟩, rfl, hl, ?_, by simp⟩
    · rw [set_same hx]; rfl
    · intro d hd; exact ⟨d, hd, SameKind.refl d, rfl⟩
  | cons k r ih =>
    have hks : k ∈ ks := hsub k (by simp)
    have hil : i < l.length := valAt_lt hx
    obtain ⟨d, hd⟩ : ∃ d, x.data = some d := by obtain ⟨d, hd, _⟩ := hl; exact ⟨d, hd⟩
    obtain ⟨hperm, hnd⟩ := hl.mem_pairs hd
    obtain ⟨d', hw, hlab, hlook, hnum, hsame, hlo⟩ := writeLabel_id hnd (hperm.symm.subset hks)
      (w k (x.value k))
    have hx' : (l.set i { x with data := some d' })[i]? = some { x with data := some d' } := by
      rw [List.getElem?_set_self hil]
    have hkr : k ∉ r := (List.nodup_cons.1 hn).1
    have hval : ∀ k', Item.value? { x with data := some d' } k' =
        if k = k' then some (w k (x.value k)) else x.value? k' := by
      intro k'
      simp only [Item.value?, hd]
      exact hlook k'
    have hvr : ∀ k' ∈ r, Item.value { x with data := some d' } k' = x.value k' := by
      intro k' hk'
      have hne : k ≠ k' := fun he => hkr (he ▸ hk')
      unfold Item.value
      rw [hval k', if_neg hne]
    obtain ⟨x', h1, h2, h3, h4, h5, h6⟩ := ih (List.nodup_cons.1 hn).2
      (fun a ha => hsub a (by simp [ha])) _ _ hx'
      ⟨d', rfl, by rw [hlab]; exact hperm, (hperm.nodup_iff).1 hnd, hnum⟩
      (by
        intro k' hk'
        rw [hvr k' hk']
        exact hg k' (by simp [hk']))
    refine ⟨x', ?_, ⟨h2.1, h2.2.1, h2.2.2⟩, h3, h4, ?_, ?_⟩
    · unfold inplaceLabels ownValue
      have : valAt l i k = .ok (x.value k) := by
        unfold valAt; rw [hx]; exact hl.byLabel hks
      rw [this]
      simp only [bindE, hg k (by simp)]
      unfold writeAt
      rw [hx]
      simp only [hd, hw]
      rw [List.set_set] at h1
      exact h1
    · intro d1 hd1
      rw [hd] at hd1
      cases hd1
      obtain ⟨d2, h7, h8, h9⟩ := h5 d' rfl
      exact ⟨d2, h7, hsame.trans h8, h9.trans hlo⟩
    · intro k'
      rw [h6 k']
      by_cases hk' : k' ∈ r
      · rw [if_pos hk', if_pos (by simp [hk']), hvr k' hk']
      · rw [if_neg hk', hval k']
        by_cases he : k = k'
        · rw [if_pos he, if_pos (by simp [he]), he]
        · rw [if_neg he, if_neg (by simp [hk', Ne.symm he])]

/-- the item loop of an in-place operation on single values -/
theorem inplaceLoop_own {cal : Calendar} {s : TSeries} {ks kk : List String} (h : OpSeries cal s ks)
    (g : String → ℚ → Except PyErr ℚ) (w : String → ℚ → ℚ)
    (hkk : ∀ d, (∃ x, s.items.head? = some x ∧ x.data = some d) → labelsOf d = .ok kk)
    (hp : kk.Perm ks)
    (hg : ∀ k ∈ ks, ∀ x ∈ s.items, g k (x.value k) = .ok (w k (x.value k)))
    (n i : ℕ) (hin : i + n = s.items.length) (l : List Item) (hlen : l.length = s.items.length)
    (hdone : ∀ (j : ℕ) (x y : Item), j < i → s.items[j]? = some x → l[j]? = some y →
      SamePlace x y ∧ y.idx = x.idx ∧ LabelledBy y ks ∧
      (∀ d, x.data = some d → ∃ d', y.data = some d' ∧ SameKind d d' ∧ labelsOf d' = labelsOf d) ∧
      ∀ k ∈ ks, y.value? k = some (w k (x.value k)))
    (htodo : ∀ j, i ≤ j → l[j]? = s.items[j]?) :
    ∃ l', inplaceLoop id (ownValue g) () l (List.range' i n) = .ok l' ∧
      l'.length = s.items.length ∧
      ∀ (j : ℕ) (x y : Item), s.items[j]? = some x → l'[j]? = some y →
        SamePlace x y ∧ y.idx = x.idx ∧ LabelledBy y ks ∧
        (∀ d, x.data = some d → ∃ d', y.data = some d' ∧ SameKind d d' ∧ labelsOf d' = labelsOf d) ∧
        ∀ k ∈ ks, y.value? k = some (w k (x.value k)) := by
  induction n generalizing i l with
  | zero =>
    refine ⟨l, rfl, hlen, ?_⟩
    intro j x y hx hy
    exact hdone j x y (by have := valAt_lt hx; omega) hx hy
  | succ n ih =>
    have hi : i < s.items.length := by omega
    have hxi : s.items[i]? = some s.items[i] := List.getElem?_eq_getElem hi
    have hli : l[i]? = some s.items[i] := by rw [htodo i (le_refl _), hxi]
    have hmem : s.items[i] ∈ s.items := List.getElem_mem hi
    -- the labels of the first item
    have hhead : headLabels l = .ok kk := by
      have h0 : 0 < s.items.length := by omega
      have hs0 : s.items.head? = some s.items[0] := by
        rw [List.head?_eq_getElem?]; exact List.getElem?_eq_getElem h0
      obtain ⟨d, hd, _⟩ := h.lab _ (List.getElem_mem h0)
      have hk0 := hkk d ⟨_, hs0, hd⟩
      have h0' : 0 < l.length := by omega
      have key : ∃ d', l[0].data = some d' ∧ labelsOf d' = .ok kk := by
        by_cases hi0 : 0 < i
        · obtain ⟨_, _, _, hh, _⟩ := hdone 0 _ _ hi0 (List.getElem?_eq_getElem h0)
            (List.getElem?_eq_getElem h0')
          obtain ⟨d', h1, _, h2⟩ := hh d hd
          exact ⟨d', h1, h2.trans hk0⟩
        · have := htodo 0 (by omega)
          rw [List.getElem?_eq_getElem h0, List.getElem?_eq_getElem h0'] at this
          rw [Option.some.inj this]
          exact ⟨d, hd, hk0⟩
      obtain ⟨d', h1, h2⟩ := key
      rcases hl0 : l with _ | ⟨y, r⟩
      · rw [hl0] at h0'; simp at h0'
      · simp only [hl0, List.getElem_cons_zero] at h1
        simp [headLabels, h1, h2]
    obtain ⟨x', e1, e2, e3, e4, e5, e6⟩ := inplaceLabels_own g w kk (hp.nodup_iff.2 h.nodup)
      (fun k hk => hp.subset hk) i l _ hli (h.lab _ hmem)
      (fun k hk => hg k (hp.subset hk) _ hmem)
    obtain ⟨l', f1, f2, f3⟩ := ih (i + 1) (by omega) (l.set i x') (by simpa using hlen)
      (by
        intro j x y hj hx hy
        by_cases hji : j = i
        · subst hji
          rw [hxi] at hx
          cases hx
          rw [List.getElem?_set_self (by omega)] at hy
          cases hy
          refine ⟨e2, e3, e4, e5, ?_⟩
          intro k hk
          rw [e6 k, if_pos (hp.symm.subset hk)]
        · rw [List.getElem?_set_ne (Ne.symm hji)] at hy
          exact hdone j x y (by omega) hx hy)
      (by
        intro j hj
        rw [List.getElem?_set_ne (by omega)]
        exact htodo j (by omega))
    refine ⟨l', ?_, f2, f3⟩
    rw [List.range'_succ]
    unfold inplaceLoop
    rw [hhead]
    simp only [e1]
    exact f1

/-- an in-place operation on single values -/
theorem inplaceOp_own {cal : Calendar} {s : TSeries} {ks : List String} (h : OpSeries cal s ks)
    (g : String → ℚ → Except PyErr ℚ) (w : String → ℚ → ℚ)
    (hg : ∀ k ∈ ks, ∀ x ∈ s.items, g k (x.value k) = .ok (w k (x.value k))) :
    ∃ r, s.inplaceOp id (ownValue g) () = .ok r ∧
      Computes s.items r.items 0 ks id (fun i k => w k (valueAt s.items i k)) ∧
      (∀ (j : ℕ) (x y : Item), s.items[j]? = some x → r.items[j]? = some y → y.idx = x.idx) := by
  obtain ⟨x0, r0, d, kk, hi, hd, hkk, hp, hprep⟩ := h.opPrep
  obtain ⟨l', f1, f2, f3⟩ := inplaceLoop_own h g w (kk := kk) (by
      rintro d' ⟨x, hx, hd'⟩
      rw [hi] at hx
      simp only [List.head?_cons, Option.some.injEq] at hx
      subst hx
      rw [hd] at hd'
      cases hd'
      exact hkk) hp hg s.items.length 0 (by omega) s.items rfl
    (fun j x y hj => by omega) (fun j _ => rfl)
  refine ⟨s.withItems l', ?_, ⟨by simpa [TSeries.withItems] using f2, ?_, ?_, ?_⟩, ?_⟩
  · unfold TSeries.inplaceOp
    rw [hprep]
    simp only [List.range_eq_range', f1]
  · intro j x y hx hy
    exact (f3 j x y (by simpa using hx) hy).1
  · intro y hy
    rw [List.map_id]
    obtain ⟨j, hj, rfl⟩ := List.getElem_of_mem hy
    have hj' : j < s.items.length := by
      have : (s.withItems l').items.length = s.items.length := f2
      omega
    exact (f3 j _ _ (List.getElem?_eq_getElem hj') (List.getElem?_eq_getElem hj)).2.2.1
  · intro j y hy k hk
    have hj' : j < s.items.length := by
      have h1 := valAt_lt hy
      have : (s.withItems l').items.length = s.items.length := f2
      omega
    have := (f3 j _ y (List.getElem?_eq_getElem hj') hy).2.2.2.2 k hk
    rw [Nat.zero_add, valueAt_of (List.getElem?_eq_getElem hj')]
    exact this
  · intro j x y hx hy
    exact (f3 j x y hx hy).2.1

/-- two series with the same items, label by label -/
def SameContent (ks : List String) (a b : List Item) : Prop :=
  a.length = b.length ∧ ∀ (j : ℕ) (x y : Item), a[j]? = some x → b[j]? = some y →
    SamePlace x y ∧ y.idx = x.idx ∧ LabelledBy x ks ∧ LabelledBy y ks ∧
      ∀ k ∈ ks, x.value? k = y.value? k

theorem sameContent_of {l a b : List Item} {ks : List String} {v : ℕ → String → ℚ}
    (ha : Computes l a 0 ks id v) (hb : Computes l b 0 ks id v)
    (hai : ∀ (j : ℕ) (x y : Item), l[j]? = some x → a[j]? = some y → y.idx = x.idx)
    (hbi : ∀ (j : ℕ) (x y : Item), l[j]? = some x → b[j]? = some y → y.idx = x.idx) :
    SameContent ks a b := by
  have h1 := ha.length
  have h2 := hb.length
  refine ⟨by omega, ?_⟩
  intro j x y hx hy
  have hj : j < l.length := by have := valAt_lt hx; omega
  have hz : l[j]? = some l[j] := List.getElem?_eq_getElem hj
  have p1 := ha.place j _ _ (by rw [Nat.zero_add]; exact hz) hx
  have p2 := hb.place j _ _ (by rw [Nat.zero_add]; exact hz) hy
  have l1 := ha.labels x (List.mem_of_getElem? hx)
  have l2 := hb.labels y (List.mem_of_getElem? hy)
  rw [List.map_id] at l1 l2
  refine ⟨⟨p2.1.trans p1.1.symm, p2.2.1.trans p1.2.1.symm, p2.2.2.trans p1.2.2.symm⟩,
    (hbi j _ _ hz hy).trans (hai j _ _ hz hx).symm, l1, l2, ?_⟩
  intro k hk
  have a1 := ha.values j x hx k hk
  have b1 := hb.values j y hy k hk
  exact a1.trans b1.symm

/-- **C33 (rescale)**: the in-place variant leaves the series with the items the returning variant
returns. -/
theorem C33_rescale {cal : Calendar} {s : TSeries} {ks : List String} (h : OpSeries cal s ks)
    (v : NumOrDict) :
    ∃ r r', s.rescaleOp cal v = .ok r ∧ s.rescaleInplace v = .ok r' ∧
      SameContent ks r.items r'.items := by
  obtain ⟨r, h1, _, h3, h4⟩ := C28_rescale h v
  obtain ⟨r', g1, g2, g3⟩ := inplaceOp_own h (fun k x => .ok (rescaleVal v k x))
    (fun k x => x * v.factor k) (fun k _ x _ => by rw [rescaleVal_eq])
  exact ⟨r, r', h1, g1, sameContent_of h3 g2 h4 g3⟩

/-- **C33 (offset)** -/
theorem C33_offset {cal : Calendar} {s : TSeries} {ks : List String} (h : OpSeries cal s ks)
    (v : NumOrDict) :
    ∃ r r', s.offsetOp cal v = .ok r ∧ s.offsetInplace v = .ok r' ∧
      SameContent ks r.items r'.items := by
  obtain ⟨r, h1, _, h3, h4⟩ := C28_offset h v
  obtain ⟨r', g1, g2, g3⟩ := inplaceOp_own h (fun k x => .ok (offsetVal v k x))
    (fun k x => x + v.shift k) (fun k _ x _ => by rw [offsetVal_eq])
  exact ⟨r, r', h1, g1, sameContent_of h3 g2 h4 g3⟩

/-- **C33 (normalize)**, for series without constant labels -/
theorem C33_normalize {cal : Calendar} {s : TSeries} {ks : List String}
    (h : OpSeries cal s ks) (a b : ℚ) (mn mx : String → ℚ)
    (hext : ∀ k ∈ ks, Extremes s.items k (mn k) (mx k)) (hlt : ∀ k ∈ ks, mn k < mx k) :
    ∃ r r', s.normalizeOp cal a b = .ok r ∧ s.normalizeInplace a b = .ok r' ∧
      SameContent ks r.items r'.items := by
  obtain ⟨r, h1, _, h3, h4⟩ := C27_normalize h a b mn mx hext hlt
  obtain ⟨x, r0, d, kk, hi, hd, hkk, hp, hprep⟩ := h.opPrep
  obtain ⟨r', g1, g2, g3⟩ := inplaceOp_own h
    (normOf (kk.map (fun k => (k, minMaxLoop (s.items.map (fun x => x.value k)))))
      (if a = 0 ∧ b = 1 then none else some (a, b)))
    (fun k x => (x - mn k) / (mx k - mn k) * (b - a) + a) (by
      intro k hk x hx
      unfold normOf
      rw [get?_table _ (hp.symm.subset hk)]
      obtain ⟨c, d, hcd, hex⟩ := minMaxLoop_spec h.ne k
      obtain ⟨e1, e2⟩ := hex.unique (hext k hk)
      simp only [hcd]
      rw [normVal_eq]
      · simp [e1, e2]
      · simp only [e1, e2]; exact ne_of_lt (hlt k hk))
  refine ⟨r, r', h1, ?_, sameContent_of h3 g2 h4 g3⟩
  unfold TSeries.normalizeInplace
  simp only [hprep, perLabel_ok h hp]
  exact g1

/-! ## Derivatives, integrals and cumulative sums in place are different -/

/-- three points with one label -/
def exThree : TSeries :=
  match TSeries.build [mkPoint 0 (.dict [("v", 0)]), mkPoint 1 (.dict [("v", 2)]),
      mkPoint 2 (.dict [("v", 6)])] with
  | .ok s => s
  | .error _ => {}

/-- the same values as lists -/
def exThreeList : TSeries :=
  match TSeries.build [mkPoint 0 (.list [0]), mkPoint 1 (.list [2]), mkPoint 2 (.list [6])] with
  | .ok s => s
  | .error _ => {}

/-- outcome of a call: nothing or the exception -/
def raised (r : Except PyErr TSeries) : Option PyErr :=
  match r with
  | .ok _ => none
  | .error e => some e

/-- the value at a position of a returned series -/
def nthVal (r : Except PyErr TSeries) (i : ℕ) (k : String) : Option ℚ :=
  match r with
  | .ok s => s.items[i]?.bind (fun x => x.value? k)
  | .error _ => none

/-- **C79 is false for `derivative`**: on three points with dictionary data the in-place variant raises
`KeyError` where the other one succeeds, because the labels are asked again after the first item got
its new label.  With list data it succeeds but computes other values (here the second is 2 instead
of 3), because it overwrites the values it still needs. -/
theorem C79_false_derivative :
    raised (exThree.derivativeOp physicalCalendar 1) = none ∧
    raised (exThree.derivativeInplace physicalCalendar 1) = some .keyError ∧
    nthVal (exThreeList.derivativeOp physicalCalendar 1) 1 "0" = some 3 ∧
    nthVal (exThreeList.derivativeInplace physicalCalendar 1) 1 "0" = some 2 := by
  decide +kernel

/-- **C79 is false for `integral` and `csum`**: the in-place variants add a second label, computed from
the one just added, to every item but the first; the items do not have the same labels any more. -/
theorem C79_false_integral :
    lastVal (exThree.integralInplace physicalCalendar 1 (.num 0)) "v_integral_integral" ≠ none ∧
    firstVal (exThree.integralInplace physicalCalendar 1 (.num 0)) "v_integral_integral" = none ∧
    lastVal exThree.csumInplace "v_csum_csum" ≠ none ∧
    firstVal exThree.csumInplace "v_csum_csum" = none := by
  decide +kernel

end Timeseria
