import Verif.Lemmas.Ops

/-! # The operations running over a whole series -/

namespace Timeseria

/-- an item-by-item operation on a series -/
theorem itemOp_spec {cal : Calendar} {s : TSeries} {ks : List String} (h : OpSeries cal s ks)
    (ren : String → String) (hren : ∀ a b, ren a = ren b → a = b) (keep : Bool)
    (f : ℕ → Item → String → Except PyErr ℚ) (v : ℕ → String → ℚ) (m : ℕ) (hm : m < s.items.length)
    (hf : ∀ (i : ℕ) (x : Item), s.items[i]? = some x → m ≤ i → ∀ k ∈ ks, f i x k = .ok (v i k)) :
    ∃ x r0 d kk r, s.items = x :: r0 ∧ x.data = some d ∧ s.opPrep = .ok (d, kk) ∧ kk.Perm ks ∧
      finish (itemLoop cal d kk ren keep f (fun i => decide (i < m)) 0 s.items) = .ok r ∧
      OpSeries cal r (ks.map (lab d ren)) ∧
      Computes s.items r.items m ks (lab d ren) v ∧
      (∀ (j : ℕ) (x y : Item), s.items[m + j]? = some x → r.items[j]? = some y →
        y.idx = if keep then x.idx else []) ∧
      (∀ y ∈ r.items, ∃ e, y.data = some e ∧ ((∃ e', e = .dict e') ↔ ∃ e', d = .dict e')) := by
  obtain ⟨x, r0, d, kk, hi, hd, hkk, hp, hprep⟩ := h.opPrep
  obtain ⟨r, h1, h2, h3, h4, h5⟩ := table_build h hkk hp hren keep v m hm
  refine ⟨x, r0, d, kk, r, hi, hd, hprep, hp, ?_, h2, ?_, ?_, h5⟩
  · rw [itemLoop_table cal d kk ren keep f v m 0]
    · exact h1
    · intro p hpm hm k hk
      rw [List.mem_zipIdx_iff_getElem?] at hpm
      exact hf p.2 p.1 hpm hm k (hp.subset hk)
  · refine ⟨h3, fun j x y hx hy => (h4 j x y hx hy).1, h2.lab, ?_⟩
    intro j y hy k hk
    have hj : m + j < s.items.length := by
      have := (List.getElem?_eq_some_iff.1 hy).1
      omega
    exact (h4 j _ y (List.getElem?_eq_getElem hj) hy).2.2 k hk
  · intro j x y hx hy
    exact (h4 j x y hx hy).2.1

theorem lab_eq_resultLabel {l r0 : List Item} {x : Item} {d : Data} (hi : l = x :: r0)
    (hd : x.data = some d) (post : String) :
    lab d (fun k => withPostfix k post) = resultLabel l post := by
  funext k
  subst hi
  simp only [resultLabel, List.head?_cons, newLabel, hd, lab, withPostfix]
  cases d <;> rfl

theorem lab_id (d : Data) : lab d id = id := by
  funext k; cases d <;> rfl

theorem OpSeries.valAt {cal : Calendar} {s : TSeries} {ks : List String} (h : OpSeries cal s ks)
    {j : ℕ} (hj : j < s.items.length) {k : String} (hk : k ∈ ks) :
    valAt s.items j k = .ok (valueAt s.items j k) := by
  unfold Timeseria.valAt valueAt
  rw [List.getElem?_eq_getElem hj]
  exact (h.lab _ (List.getElem_mem hj)).byLabel hk

theorem tAt_eq {l : List Item} {j : ℕ} (hj : j < l.length) : tAt l j = .ok (timeAt l j) := by
  unfold tAt timeAt
  rw [List.getElem?_eq_getElem hj]

theorem valueAt_of {l : List Item} {i : ℕ} {x : Item} (h : l[i]? = some x) (k : String) :
    valueAt l i k = x.value k := by
  unfold valueAt; rw [h]

theorem timeAt_of {l : List Item} {i : ℕ} {x : Item} (h : l[i]? = some x) :
    timeAt l i = x.t := by
  unfold timeAt; rw [h]

theorem valAt_lt {l : List Item} {i : ℕ} {x : Item} (h : l[i]? = some x) : i < l.length :=
  (List.getElem?_eq_some_iff.1 h).1

theorem value_of_value? {x : Item} {k : String} {v : ℚ} (h : x.value? k = some v) : x.value k = v := by
  unfold Item.value; rw [h]; rfl

theorem Computes.valueAt {l r : List Item} {m : ℕ} {ks : List String} {nl : String → String}
    {v : ℕ → String → ℚ} (h : Computes l r m ks nl v) {j : ℕ} (hj : j < r.length) {k : String}
    (hk : k ∈ ks) : valueAt r j (nl k) = v (m + j) k := by
  rw [valueAt_of (List.getElem?_eq_getElem hj)]
  exact value_of_value? (h.values j _ (List.getElem?_eq_getElem hj) k hk)

theorem Computes.timeAt {l r : List Item} {m : ℕ} {ks : List String} {nl : String → String}
    {v : ℕ → String → ℚ} (h : Computes l r m ks nl v) {j : ℕ} (hj : j < r.length) :
    timeAt r j = timeAt l (m + j) := by
  have hl := h.length
  have h2 : m + j < l.length := by omega
  rw [timeAt_of (List.getElem?_eq_getElem hj), timeAt_of (List.getElem?_eq_getElem h2)]
  exact (h.place j _ _ (List.getElem?_eq_getElem h2) (List.getElem?_eq_getElem hj)).1

theorem Computes.times {l r : List Item} {m : ℕ} {ks : List String} {nl : String → String}
    {v : ℕ → String → ℚ} (h : Computes l r m ks nl v) : times r = times (l.drop m) := by
  unfold Timeseria.times
  apply List.ext_getElem
  · simp [h.length]
  · intro j h1 h2
    simp only [List.getElem_map, List.getElem_drop]
    simp only [List.length_map, List.length_drop] at h1 h2
    have h3 : m + j < l.length := by omega
    exact (h.place j _ _ (List.getElem?_eq_getElem h3) (List.getElem?_eq_getElem h1)).1

/-- the resolution of a series is determined by the places of its items -/
theorem OpSeries.res_points {cal : Calendar} {s : TSeries} {ks : List String}
    (h : OpSeries cal s ks) (hp : AllPoints s.items) : s.res = specRes (spacings (times s.items)) :=
  (build_clean hp h.built).res

theorem computes_res' {cal : Calendar} {s r : TSeries} {ks ks' ks'' : List String}
    (hs : OpSeries cal s ks) (hr : OpSeries cal r ks') {nl : String → String} {v : ℕ → String → ℚ}
    (hc : Computes s.items r.items 0 ks'' nl v) : r.res = s.res := by
  have hlen : r.items.length = s.items.length := by simpa using hc.length
  have hpl : ∀ j (h1 : j < s.items.length) (h2 : j < r.items.length),
      SamePlace s.items[j] r.items[j] := fun j h1 h2 => hc.place j _ _
    (by rw [Nat.zero_add]; exact List.getElem?_eq_getElem h1) (List.getElem?_eq_getElem h2)
  rcases hs.shape with ⟨h1, _⟩ | ⟨h1, _⟩
  · have hp' : AllPoints r.items := by
      intro y hy
      obtain ⟨j, hj, rfl⟩ := List.getElem_of_mem hy
      have := h1 _ (List.getElem_mem (by omega : j < s.items.length))
      simpa [Item.isSlot, (hpl j (by omega) hj).2.1] using this
    rw [hs.res_points h1, hr.res_points hp', hc.times]; rfl
  · have hp' : AllSlots r.items := by
      intro y hy
      obtain ⟨j, hj, rfl⟩ := List.getElem_of_mem hy
      have := h1 _ (List.getElem_mem (by omega : j < s.items.length))
      simpa [Item.isSlot, (hpl j (by omega) hj).2.1] using this
    obtain ⟨u, z, hu, _, hall⟩ := (build_slotInv h1 hs.built).noUnit hs.ne
    obtain ⟨u', z', hu', _, hall'⟩ := (build_slotInv hp' hr.built).noUnit hr.ne
    rw [hu, hu']
    have h0 : 0 < s.items.length := by
      have := hs.ne; rcases hh : s.items with _ | ⟨a, b⟩ <;> simp_all
    have hu1 := (hall _ (List.getElem_mem h0)).1
    have hu2 := (hall' _ (List.getElem_mem (by omega : 0 < r.items.length))).1
    rw [← hu1, ← hu2]
    simp [Item.unit, (hpl 0 h0 (by omega)).2.1]

theorem computes_res {cal : Calendar} {s r : TSeries} {ks ks' : List String}
    (hs : OpSeries cal s ks) (hr : OpSeries cal r ks') {nl : String → String} {v : ℕ → String → ℚ}
    (hc : Computes s.items r.items 0 ks nl v) : r.res = s.res := computes_res' hs hr hc

/-- Items in the same places as those of a series (from a position on), with data of one kind, are
accepted as a series. -/
theorem rebuild {cal : Calendar} {s : TSeries} {ks ks' : List String} (h : OpSeries cal s ks)
    {l : List Item} {m : ℕ} (hne : l ≠ []) (hlen : l.length = s.items.length - m)
    (hpl : ∀ (j : ℕ) (x y : Item), s.items[m + j]? = some x → l[j]? = some y → SamePlace x y)
    (hk : ks' ≠ []) (hlab : ∀ y ∈ l, LabelledBy y ks')
    (hsame : ∀ x ∈ l, ∀ y ∈ l, ∀ d e, x.data = some d → y.data = some e → SameKind d e) :
    ∃ r, TSeries.build l = .ok r ∧ r.items = l ∧ OpSeries cal r ks' := by
  have hhas : ∀ y ∈ l, HasData y := fun y hy => (hlab y hy).hasData hk
  have hskel : ∀ y ∈ l, ∃ x ∈ s.items, SamePlace x y := by
    intro y hy
    obtain ⟨j, hj, rfl⟩ := List.getElem_of_mem hy
    have h2 : m + j < s.items.length := by omega
    exact ⟨s.items[m + j], List.getElem_mem h2,
      hpl j _ _ (List.getElem?_eq_getElem h2) (List.getElem?_eq_getElem hj)⟩
  have hmap : ∀ {α : Type} (f : Item → α) (_ : ∀ x y, SamePlace x y → f y = f x),
      l.map f = (s.items.drop m).map f := by
    intro α f hf
    apply List.ext_getElem
    · simp [hlen]
    · intro j h1 h2
      simp only [List.getElem_map, List.getElem_drop]
      simp only [List.length_map, List.length_drop] at h1 h2
      have h3 : m + j < s.items.length := by omega
      exact hf _ _ (hpl j _ _ (List.getElem?_eq_getElem h3) (List.getElem?_eq_getElem h1))
  rcases h.good with hg | ⟨hg, hreg⟩
  · have hg' : GoodPoints l := by
      refine ⟨?_, ?_, hhas, hsame⟩
      · intro y hy
        obtain ⟨x, hx, hp⟩ := hskel y hy
        have := hg.points x hx
        simpa [Item.isSlot, hp.2.1] using this
      · have h1 : ((s.items.drop m).map Item.t).Pairwise (fun a b => a + 1 / 10000 ≤ b) :=
          List.pairwise_map.2 (hg.spaced.sublist (List.drop_sublist _ _))
        rw [← hmap Item.t (fun _ _ hp => hp.1)] at h1
        exact List.pairwise_map.1 h1
    obtain ⟨r, hr1, hr2, _⟩ := build_good hg'
    refine ⟨r, hr1, hr2, by rw [hr2]; exact hr1, by rw [hr2]; exact hne, hk, by rw [hr2]; exact hlab,
      .inl ?_⟩
    rw [hr2]
    exact ⟨hg'.points, hg'.spaced⟩
  · have hg' : GoodSlots l := by
      refine ⟨?_, ?_, ?_, ?_, hhas, hsame⟩
      · intro y hy
        obtain ⟨x, hx, hp⟩ := hskel y hy
        have := hg.slots x hx
        simpa [Item.isSlot, hp.2.1] using this
      · have h1 : (s.items.drop m).IsChain (fun a b => CloseTo a.endT b.t) :=
          hg.chain.infix (List.drop_suffix _ _).isInfix
        have h2 : ((s.items.drop m).map (fun x => (x.t, x.endT))).IsChain
            (fun a b => CloseTo a.2 b.1) := by
          rw [List.isChain_map]; exact h1
        rw [← hmap (fun x => (x.t, x.endT)) (fun x y hp => by simp [Item.endT, hp.1, hp.2.1]),
          List.isChain_map] at h2
        exact h2
      · intro a ha b hb
        obtain ⟨x, hx, hpx⟩ := hskel a ha
        obtain ⟨y, hy, hpy⟩ := hskel b hb
        have := hg.unit x hx y hy
        simpa [Item.unit, hpx.2.1, hpy.2.1] using this
      · intro a ha b hb
        obtain ⟨x, hx, hpx⟩ := hskel a ha
        obtain ⟨y, hy, hpy⟩ := hskel b hb
        rw [hpx.2.2, hpy.2.2]
        exact hg.tz x hx y hy
    obtain ⟨r, hr1, hr2, _⟩ := build_good_slots hg'
    refine ⟨r, hr1, hr2, by rw [hr2]; exact hr1, by rw [hr2]; exact hne, hk, by rw [hr2]; exact hlab,
      .inr ?_⟩
    rw [hr2]
    refine ⟨hg'.slots, ?_⟩
    intro y hy e u hs
    obtain ⟨x, hx, hpx⟩ := hskel y hy
    rw [hpx.2.1] at hs
    rw [hpx.2.2, hpx.1]
    exact hreg x hx e u hs

/-- operations on single values -/
theorem mapOp_spec {cal : Calendar} {s : TSeries} {ks : List String} (h : OpSeries cal s ks)
    (g : String → ℚ → Except PyErr ℚ) (w : String → ℚ → ℚ)
    (hg : ∀ k ∈ ks, ∀ x ∈ s.items, g k (x.value k) = .ok (w k (x.value k))) :
    ∃ r, s.mapOp cal g = .ok r ∧ OpSeries cal r ks ∧
      Computes s.items r.items 0 ks id (fun i k => w k (valueAt s.items i k)) ∧
      (∀ (j : ℕ) (x y : Item), s.items[j]? = some x → r.items[j]? = some y → y.idx = x.idx) := by
  have h0 : 0 < s.items.length := List.length_pos_iff.2 h.ne
  obtain ⟨x, r0, d, kk, r, hi, hd, hprep, hp, hfin, hop, hcomp, hidx, _⟩ := itemOp_spec h id
    (fun a b hab => hab) true
    (fun _ x k => bindE (x.byLabel k) (g k))
    (fun i k => w k (valueAt s.items i k)) 0 h0 (by
      intro i x hx _ k hk
      have hm := List.mem_of_getElem? hx
      simp only [(h.lab x hm).byLabel hk, bindE, hg k hk x hm, valueAt_of hx])
  rw [lab_id] at hop hcomp
  rw [List.map_id] at hop
  refine ⟨r, ?_, hop, hcomp, ?_⟩
  · unfold TSeries.mapOp
    rw [hprep]
    simp only
    have : (fun _ : ℕ => false) = (fun i : ℕ => decide (i < 0)) := by funext i; simp
    rw [this]
    exact hfin
  · intro j x y hx hy
    simpa using hidx j x y (by simpa using hx) hy

theorem Computes.congr {l r : List Item} {m : ℕ} {ks : List String} {nl : String → String}
    {v v' : ℕ → String → ℚ} (h : Computes l r m ks nl v)
    (hv : ∀ i < l.length, m ≤ i → ∀ k ∈ ks, v i k = v' i k) : Computes l r m ks nl v' := by
  refine ⟨h.length, h.place, h.labels, ?_⟩
  intro j y hy k hk
  have := valAt_lt hy
  have := h.length
  rw [h.values j y hy k hk, hv (m + j) (by omega) (by omega) k hk]

/-- composing two computations -/
theorem Computes.trans {l r q : List Item} {m m' : ℕ} {ks ks' : List String}
    {nl nl' : String → String} {v v' : ℕ → String → ℚ} (h : Computes l r m ks nl v)
    (h' : Computes r q m' ks' nl' v') (hks : ks' = ks.map nl) :
    Computes l q (m + m') ks (nl' ∘ nl) (fun i k => v' (i - m) (nl k)) := by
  have hl := h.length
  have hl' := h'.length
  refine ⟨by omega, ?_, ?_, ?_⟩
  · intro j x y hx hy
    have h1 := valAt_lt hy
    have h2 : m' + j < r.length := by omega
    have p1 := h.place (m' + j) x _ (by rw [← Nat.add_assoc]; exact hx) (List.getElem?_eq_getElem h2)
    have p2 := h'.place j _ y (List.getElem?_eq_getElem h2) hy
    exact ⟨p2.1.trans p1.1, p2.2.1.trans p1.2.1, p2.2.2.trans p1.2.2⟩
  · intro y hy
    have := h'.labels y hy
    rw [hks, List.map_map] at this
    exact this
  · intro j y hy k hk
    have := h'.values j y hy (nl k) (by rw [hks]; exact List.mem_map.2 ⟨k, hk, rfl⟩)
    rw [Function.comp, this]
    congr 2
    omega

end Timeseria
