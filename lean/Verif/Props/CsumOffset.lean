import Verif.Model.CsumOffset
import Verif.Props.IntegralMore

/-! # C238: cumulative sums starting from an offset; restoring a series from its differences -/

namespace Timeseria

/-! ## Specification -/

/-- the starting value given for a label: the number, or the entry of the dictionary -/
def NumOrDict.startOf : NumOrDict → String → Option ℚ
  | .num x, _ => some x
  | .dict d, k => d.get? k

/-- the item at `t0` is just before the item `x`: for points on the same zone, for slots ending (as computed from its unit) where `x` starts -/
def JustBefore (cal : Calendar) (x p : Item) : Prop :=
  p.tz = x.tz ∧ match x.slot with
    | none => p.slot = none ∧ p.t + 1 / 10000 ≤ x.t
    | some (_, u) => p.slot = some (cal.shift u x.tz p.t, u) ∧ CloseTo (cal.shift u x.tz p.t) x.t

/-! ## The series with an item added in front -/

theorem extend_front {cal : Calendar} {s : TSeries} {ks : List String} (h : OpSeries cal s ks) {x p : Item} {r : List Item}
    (hi : s.items = x :: r) (hp : JustBefore cal x p) (hd : p.data = x.data) :
    ∃ s', OpSeries cal s' ks ∧ s'.items = p :: s.items := by
  have hlab : ∀ y ∈ p :: s.items, LabelledBy y ks := by
    intro y hy
    rcases List.mem_cons.1 hy with rfl | hy
    · obtain ⟨d, e1, e2⟩ := h.lab x (by rw [hi]; simp)
      exact ⟨d, by rw [hd, e1], e2⟩
    · exact h.lab y hy
  have hhas : ∀ y ∈ p :: s.items, HasData y := fun y hy => (hlab y hy).hasData h.ksne
  have hgood := h.good
  have hs0 : ∀ a ∈ s.items, ∀ b ∈ s.items, ∀ d e, a.data = some d → b.data = some e → SameKind d e := by
    rcases hgood with g | ⟨g, _⟩
    · exact g.same
    · exact g.same
  have hsame : ∀ a ∈ p :: s.items, ∀ b ∈ p :: s.items, ∀ d e, a.data = some d → b.data = some e → SameKind d e := by
    have k : ∀ a ∈ p :: s.items, ∃ a' ∈ s.items, a.data = a'.data := by
      intro a ha
      rcases List.mem_cons.1 ha with h1 | h1
      · exact ⟨x, by rw [hi]; simp, by rw [h1, hd]⟩
      · exact ⟨a, h1, rfl⟩
    intro a ha b hb d e e1 e2
    obtain ⟨a', ha', ea⟩ := k a ha
    obtain ⟨b', hb', eb⟩ := k b hb
    exact hs0 a' ha' b' hb' d e (ea ▸ e1) (eb ▸ e2)
  rcases hgood with g | ⟨g, hreg⟩
  · have hxs : x.slot = none := by
      have := g.points x (by rw [hi]; simp)
      simpa [Item.isSlot] using this
    obtain ⟨htz, hp⟩ := hp
    rw [hxs] at hp
    obtain ⟨hp1, hp2⟩ := hp
    have hpts : AllPoints (p :: s.items) := by
      intro y hy
      rcases List.mem_cons.1 hy with rfl | hy
      · simp [Item.isSlot, hp1]
      · exact g.points y hy
    have hsp : (p :: s.items).Pairwise (fun a b => a.t + 1 / 10000 ≤ b.t) := by
      refine List.pairwise_cons.2 ⟨?_, g.spaced⟩
      intro y hy
      rw [hi] at hy
      rcases List.mem_cons.1 hy with rfl | hy
      · exact hp2
      · have := g.spaced
        rw [hi] at this
        have := (List.pairwise_cons.1 this).1 y hy
        linarith
    obtain ⟨s', b1, b2, _⟩ := build_good (l := p :: s.items) ⟨hpts, hsp, hhas, hsame⟩
    refine ⟨s', ⟨by rw [b2]; exact b1, by rw [b2]; simp, h.ksne, by rw [b2]; exact hlab, by rw [b2]; exact .inl ⟨hpts, hsp⟩⟩, b2⟩
  · have hxs : x.isSlot = true := g.slots x (by rw [hi]; simp)
    obtain ⟨htz, hp⟩ := hp
    cases hsl : x.slot with
    | none => simp [Item.isSlot, hsl] at hxs
    | some q =>
      obtain ⟨e, u⟩ := q
      rw [hsl] at hp
      obtain ⟨hp1, hp2⟩ := hp
      have hxu : x.unit = u := by simp [Item.unit, hsl]
      have hpu : p.unit = u := by simp [Item.unit, hp1]
      have hpe : p.endT = cal.shift u x.tz p.t := by simp [Item.endT, hp1]
      have hslots : AllSlots (p :: s.items) := by
        intro y hy
        rcases List.mem_cons.1 hy with rfl | hy
        · simp [Item.isSlot, hp1]
        · exact g.slots y hy
      have hx : x ∈ s.items := by rw [hi]; simp
      have hgs : GoodSlots (p :: s.items) := by
        refine ⟨hslots, ?_, ?_, ?_, hhas, hsame⟩
        · have := g.chain
          unfold InSuccession at this ⊢
          rw [hi] at this ⊢
          rw [List.isChain_cons_cons]
          exact ⟨by rw [hpe]; exact hp2, this⟩
        · intro a ha b hb
          have k : ∀ a ∈ p :: s.items, a.unit = u := by
            intro a ha
            rcases List.mem_cons.1 ha with rfl | ha
            · exact hpu
            · rw [← hxu]; exact g.unit a ha x hx
          rw [k a ha, k b hb]
        · intro a ha b hb
          have k : ∀ a ∈ p :: s.items, a.tz = x.tz := by
            intro a ha
            rcases List.mem_cons.1 ha with rfl | ha
            · exact htz
            · exact g.tz a ha x hx
          rw [k a ha, k b hb]
      have hreg' : RegularSlots cal.shift (p :: s.items) := by
        intro y hy e' u' he
        rcases List.mem_cons.1 hy with rfl | hy
        · rw [hp1] at he
          simp only [Option.some.injEq, Prod.mk.injEq] at he
          obtain ⟨rfl, rfl⟩ := he
          rw [htz]
        · exact hreg y hy e' u' he
      obtain ⟨s', b1, b2, _⟩ := build_good_slots hgs
      refine ⟨s', ⟨by rw [b2]; exact b1, by rw [b2]; simp, h.ksne, by rw [b2]; exact hlab, by rw [b2]; exact .inr ⟨hslots, hreg'⟩⟩, b2⟩

/-! ## The loops -/

/-- the label loop of `csum` with starting values -/
theorem csum_labels_from {cal : Calendar} {s : TSeries} {ks : List String} (h : OpSeries cal s ks) (o : NumOrDict) (c : String → ℚ)
    (hc : ∀ k ∈ ks, o.startOf k = some (c k)) (i : ℕ) (hi : i < s.items.length) (kk : List String) (hn : kk.Nodup)
    (hsub : ∀ k ∈ kk, k ∈ ks) (st : IntState)
    (hst : ∀ k ∈ kk, st.last.get? k = if i = 0 then none else some (c k + runningSum s.items k (i - 1))) :
    ∃ st', intLabels s.items none o i st kk = .ok (st', kk.map (fun k => (k, c k + runningSum s.items k i))) ∧
      (∀ k ∈ kk, st'.last.get? k = some (c k + runningSum s.items k i)) ∧
      (∀ k, k ∉ kk → st'.last.get? k = st.last.get? k) := by
  induction kk generalizing st with
  | nil => exact ⟨st, rfl, by simp, by simp⟩
  | cons k r ih =>
    have hval : intStep s.items none o i st k = .ok
        ({ prc := st.prc, last := st.last.set k (c k + runningSum s.items k i) }, c k + runningSum s.items k i) := by
      unfold intStep
      simp only [h.valAt hi (hsub k (by simp)), hst k (by simp)]
      cases i with
      | zero =>
        have := hc k (hsub k (by simp))
        cases o with
        | num y =>
          simp only [NumOrDict.startOf, Option.some.injEq] at this
          simp [addC, runningSum, this, add_comm]
        | dict d =>
          simp only [NumOrDict.startOf] at this
          simp [addC, runningSum, this, add_comm]
      | succ i => simp [runningSum, add_assoc]
    have hk : k ∉ r := (List.nodup_cons.1 hn).1
    obtain ⟨st', h1, h2, h3⟩ := ih (List.nodup_cons.1 hn).2 (fun a ha => hsub a (by simp [ha]))
      { prc := st.prc, last := st.last.set k (c k + runningSum s.items k i) } (by
        intro a ha
        have hak : k ≠ a := fun he => hk (by rw [he]; exact ha)
        rw [Dict.get?_set, if_neg hak]
        exact hst a (by simp [ha]))
    refine ⟨st', ?_, ?_, ?_⟩
    · unfold intLabels
      rw [hval]
      simp only
      rw [h1]
      simp
    · intro a ha
      by_cases hak : a ∈ r
      · exact h2 a hak
      · have : a = k := by
          rcases List.mem_cons.1 ha with h | h
          · exact h
          · exact absurd h hak
        subst this
        rw [h3 _ hk, Dict.get?_set, if_pos rfl]
    · intro a ha
      have hak : k ≠ a := fun he => ha (by simp [he])
      rw [h3 a (fun h => ha (by simp [h])), Dict.get?_set, if_neg hak]

theorem offsetPairs_ok {proto : Data} {ks : List String} {post : String} {o : NumOrDict} {c : String → ℚ}
    (hc : ∀ k ∈ ks, o.startOf k = some (c k)) (hnum : ∀ y, o = .num y → ∃ d, proto = .dict d) :
    offsetPairs proto ks post o = .ok (ks.map (fun k => (withPostfix k post, c k))) := by
  cases o with
  | dict d =>
    unfold offsetPairs
    apply mapE_ok
    intro k hk
    have : d.get? k = some (c k) := hc k hk
    rw [this]
  | num y =>
    obtain ⟨d, rfl⟩ := hnum y rfl
    unfold offsetPairs
    simp only
    congr 1
    apply List.map_congr_left
    intro k hk
    have := hc k hk
    simp only [NumOrDict.startOf, Option.some.injEq] at this
    rw [this]

/-- the item created for the offset, with its data -/
def offsetAt (t0 : ℚ) (sl : Option (ℚ × TUnit)) (z : String) (d : Data) : Item :=
  { t := t0, slot := sl, tz := z, data := some d, idx := [("data_loss", some 0)] }

theorem zipIdx_one {α : Type} (l : List α) : l.zipIdx 1 = l.zipIdx.map (fun p => (p.1, p.2 + 1)) := by
  rw [List.zipIdx_eq_map_add]
  apply List.map_congr_left
  intro p _
  rw [Nat.add_comm]

theorem csumFrom_spec {cal : Calendar} {s : TSeries} {ks : List String} (h : OpSeries cal s ks) (hres : s.res ≠ .varying)
    (back : TUnit → String → ℚ → ℚ) {o : NumOrDict} {c : String → ℚ} (hc : ∀ k ∈ ks, o.startOf k = some (c k))
    (htr : o.truthy = true) (hnum : ∀ y, o = .num y → ∀ x ∈ s.items, ∃ d, x.data = some (.dict d))
    {x : Item} (hx : s.items.head? = some x) {t0 : ℚ} {sl : Option (ℚ × TUnit)}
    (hoff : ∀ d, offsetItem cal back s x d = .ok (offsetAt t0 sl x.tz d)) (hj : ∀ d, JustBefore cal x (offsetAt t0 sl x.tz d)) :
    ∃ r p q, s.csumFrom cal back (some o) = .ok r ∧ OpSeries cal r (ks.map (resultLabel s.items "csum")) ∧ r.items = p :: q ∧
      p.t = t0 ∧ p.slot = sl ∧ p.tz = x.tz ∧ p.idx = [("data_loss", some 0)] ∧
      (∀ k ∈ ks, p.value? (resultLabel s.items "csum" k) = some (c k)) ∧
      Computes s.items q 0 ks (resultLabel s.items "csum") (fun i k => c k + runningSum s.items k i) ∧
      (∀ (j : ℕ) (x y : Item), s.items[j]? = some x → q[j]? = some y → y.idx = x.idx) := by
  obtain ⟨x', r0, d, kk, hi, hd, hkk, hp, hprep⟩ := h.opPrep
  have : x' = x := by rw [hi] at hx; simpa using hx
  subst this
  -- the extended series
  obtain ⟨s', hs', hi'⟩ := extend_front h hi (hj d) (by simp [offsetAt, hd])
  have hpos : 0 < s'.items.length := by rw [hi']; simp
  obtain ⟨r, h1, h2, h3, h4, _⟩ := table_build hs' hkk hp (ren := fun k => withPostfix k "csum")
    (fun a b hab => withPostfix_inj hab) true (fun i k => if i = 0 then c k else c k + runningSum s.items k (i - 1)) 0 hpos
  rw [lab_eq_resultLabel hi hd] at h2 h4
  have hshape : AllPoints s'.items ∨ RegularSlots cal.shift s'.items := by
    rcases hs'.shape with ⟨q, _⟩ | ⟨_, q⟩
    · exact .inl q
    · exact .inr q
  have htab : table cal s'.items d kk (fun k => withPostfix k "csum") true
      (fun i k => if i = 0 then c k else c k + runningSum s.items k (i - 1)) 0 =
      offsetAt t0 sl x'.tz (makeData d (kk.map (fun k => (withPostfix k "csum", c k)))) ::
        (s.items.zipIdx 0).map (fun p => remake cal p.1 (makeData d (kk.map fun k => (withPostfix k "csum",
          c k + runningSum s.items k p.2))) p.1.idx) := by
    unfold table
    rw [List.drop_zero]
    conv_lhs => rw [hi']
    rw [List.zipIdx_cons, List.map_cons, zipIdx_one, List.map_map]
    congr 1
    simp only
    rw [remake_place hshape (by rw [hi']; simp)]
    simp [offsetAt]
  have hloop : intLoop cal s.items none o d "csum" kk 0 {} s.items = .ok ((s.items.zipIdx 0).map (fun p =>
      remake cal p.1 (makeData d (kk.map fun k => (withPostfix k "csum", c k + runningSum s.items k p.2))) p.1.idx)) := by
    refine intLoop_table cal s.items none o d "csum" kk (fun i k => c k + runningSum s.items k i)
      (fun i st => ∀ k ∈ kk, st.last.get? k = if i = 0 then none else some (c k + runningSum s.items k (i - 1))) ?_ 0 {} (fun k _ => rfl)
      s.items (by omega)
    intro i st hlt hinv
    obtain ⟨st', e1, e2, _⟩ := csum_labels_from h o c hc i hlt kk (hp.nodup_iff.2 h.nodup) (fun k hk => hp.subset hk) st hinv
    exact ⟨st', e1, fun k hk => by simpa using e2 k hk⟩
  have hri := build_items h1
  rw [htab] at hri
  refine ⟨r, _, _, ?_, h2, hri, rfl, rfl, rfl, rfl, ?_, ?_, ?_⟩
  · unfold TSeries.csumFrom
    rw [isDict_of_prep h hres]
    simp only [Bool.false_eq_true, if_false, hres, hprep, htr, if_true]
    unfold TSeries.fromOffset
    rw [hx]
    simp only
    rw [offsetPairs_ok (fun k hk => hc k (hp.subset hk)) (by
      intro y hy
      obtain ⟨e, he⟩ := hnum y hy x' (by rw [hi]; simp)
      rw [hd] at he
      exact ⟨e, by simpa using he⟩)]
    simp only [hoff]
    rw [hloop]
    simp only
    rw [htab] at h1
    exact h1
  · intro k hk
    have := (h4 0 _ _ (by rw [hi']; rfl) (by rw [hri]; rfl)).2.2 k hk
    simpa using this
  · refine ⟨by simp, ?_, ?_, ?_⟩
    · intro j a b ha hb
      exact (h4 (j + 1) a b (by rw [hi']; simpa using ha) (by rw [hri]; simpa using hb)).1
    · intro y hy
      exact h2.lab y (by rw [hri]; exact List.mem_cons_of_mem _ hy)
    · intro j y hy k hk
      have hjl : j < s.items.length := by
        have := valAt_lt hy
        simpa using this
      have := (h4 (j + 1) s.items[j] y (by rw [hi']; simp [hjl]) (by rw [hri]; simpa using hy)).2.2 k hk
      simpa using this
  · intro j a b ha hb
    have := (h4 (j + 1) a b (by rw [hi']; simpa using ha) (by rw [hri]; simpa using hb)).2.1
    simpa using this

/-! ## C238 -/

/-- The items of `r` are those of the cumulative sums of `l` from the starting values `c`: first an item at `t0` with the
starting values and no data loss, then one item for each item of `l`, in the same place and with the same indexes, whose
values are the starting values plus the sums of the values up to there. -/
structure SumsFrom (l r : List Item) (t0 : ℚ) (sl : Option (ℚ × TUnit)) (z : String) (ks : List String) (nl : String → String)
    (c : String → ℚ) : Prop where
  split : ∃ p q, r = p :: q ∧ p.t = t0 ∧ p.slot = sl ∧ p.tz = z ∧ p.idx = [("data_loss", some 0)] ∧
    (∀ k ∈ ks, p.value? (nl k) = some (c k)) ∧
    Computes l q 0 ks nl (fun i k => c k + ((l.take (i + 1)).map (fun x => x.value k)).sum) ∧
    (∀ (j : ℕ) (x y : Item), l[j]? = some x → q[j]? = some y → y.idx = x.idx)

theorem runningSum_eq_sum (l : List Item) (k : String) (i : ℕ) (hi : i < l.length) :
    runningSum l k i = ((l.take (i + 1)).map (fun x => x.value k)).sum := by
  induction i with
  | zero =>
    rw [List.take_succ_eq_append_getElem hi]
    simp [runningSum, valueAt, List.getElem?_eq_getElem hi]
  | succ i ih =>
    rw [runningSum, ih (by omega), List.take_succ_eq_append_getElem hi, List.map_append, List.sum_append]
    simp [valueAt, List.getElem?_eq_getElem hi]

/-- **C238** for points (`c k` being the starting value of the label `k`): a series of points with a resolution, a
starting value for each label, not a number zero nor, for lists of values, a number.  Missing: the number zero, numbers for series of lists, a single
point (`C238_false`). -/
theorem C238_points_partial {cal : Calendar} {s : TSeries} {ks : List String} (h : OpSeries cal s ks) (hp : AllPoints s.items)
    (back : TUnit → String → ℚ → ℚ) {u : TUnit} (hres : s.res = .unit u) (hu : 1 / 10000 ≤ u.secs)
    {o : NumOrDict} {c : String → ℚ} (hc : ∀ k ∈ ks, o.startOf k = some (c k)) (h0 : o ≠ .num 0)
    (hnum : ∀ y, o = .num y → ∀ x ∈ s.items, ∃ d, x.data = some (.dict d)) {x : Item} (hx : s.items.head? = some x) :
    ∃ r, s.csumFrom cal back (some o) = .ok r ∧
      SumsFrom s.items r.items (x.t - u.secs) none x.tz ks (resultLabel s.items "csum") c := by
  have hxs : x.slot = none := by
    have := hp x (head_mem hx)
    simpa [Item.isSlot] using this
  have htr : o.truthy = true := by
    cases o with
    | num y => simp [NumOrDict.truthy]; intro e; exact h0 (by rw [e])
    | dict d =>
      cases d with
      | nil =>
        obtain ⟨k, hk⟩ := List.exists_mem_of_ne_nil _ h.ksne
        have := hc k hk
        simp [NumOrDict.startOf, Dict.get?] at this
      | cons a b => rfl
  obtain ⟨r, p, q, a1, a2, a3, a4, a5, a6, a7, a8, a9, a10⟩ := csumFrom_spec h (by rw [hres]; simp) back hc htr hnum hx
    (t0 := x.t - u.secs) (sl := none) (fun d => by unfold offsetItem; rw [hxs, hres]; rfl)
    (fun d => by
      refine ⟨rfl, ?_⟩
      rw [hxs]
      exact ⟨rfl, by simp only [offsetAt]; linarith⟩)
  refine ⟨r, a1, ⟨p, q, a3, a4, a5, a6, a7, a8, a9.congr ?_, a10⟩⟩
  intro i hi _ k _
  rw [runningSum_eq_sum _ _ _ hi]

/-- **C238** for slots: the new item is the slot one unit before the first, provided that going back by the unit and forward again gives the start
of the first slot (as for all units without calendar components).  Missing: as for points. -/
theorem C238_slots_partial {cal : Calendar} {s : TSeries} {ks : List String} (h : OpSeries cal s ks) (hp : AllSlots s.items)
    (back : TUnit → String → ℚ → ℚ) {o : NumOrDict} {c : String → ℚ} (hc : ∀ k ∈ ks, o.startOf k = some (c k)) (h0 : o ≠ .num 0)
    (hnum : ∀ y, o = .num y → ∀ x ∈ s.items, ∃ d, x.data = some (.dict d)) {x : Item} (hx : s.items.head? = some x)
    (hb : cal.shift x.unit x.tz (back x.unit x.tz x.t) = x.t) :
    ∃ r, s.csumFrom cal back (some o) = .ok r ∧
      SumsFrom s.items r.items (back x.unit x.tz x.t) (some (x.t, x.unit)) x.tz ks (resultLabel s.items "csum") c := by
  have hxs : x.isSlot = true := hp x (head_mem hx)
  have htr : o.truthy = true := by
    cases o with
    | num y => simp [NumOrDict.truthy]; intro e; exact h0 (by rw [e])
    | dict d =>
      cases d with
      | nil =>
        obtain ⟨k, hk⟩ := List.exists_mem_of_ne_nil _ h.ksne
        have := hc k hk
        simp [NumOrDict.startOf, Dict.get?] at this
      | cons a b => rfl
  obtain ⟨⟨e, u⟩, hsl⟩ : ∃ q, x.slot = some q := by
    cases hsl : x.slot with
    | none => simp [Item.isSlot, hsl] at hxs
    | some q => exact ⟨q, rfl⟩
  have hxu : x.unit = u := by simp [Item.unit, hsl]
  rw [hxu] at hb ⊢
  obtain ⟨r, p, q, a1, a2, a3, a4, a5, a6, a7, a8, a9, a10⟩ := csumFrom_spec h (build_slotInv hp h.built).novar back hc htr hnum hx
    (t0 := back u x.tz x.t) (sl := some (x.t, u)) (fun d => by unfold offsetItem; rw [hsl]; simp only [hb]; rfl)
    (fun d => by
      refine ⟨rfl, ?_⟩
      rw [hsl]
      simp only [offsetAt, hb]
      exact ⟨trivial, closeTo_self _⟩)
  refine ⟨r, a1, ⟨p, q, a3, a4, a5, a6, a7, a8, a9.congr ?_, a10⟩⟩
  intro i hi _ k _
  rw [runningSum_eq_sum _ _ _ hi]

/-! ## C239 -/

theorem restored {cal : Calendar} {s : TSeries} {ks : List String} (h : OpSeries cal s ks) (hres : s.res ≠ .varying)
    (hl : 2 ≤ s.items.length) (back : TUnit → String → ℚ → ℚ) {o : NumOrDict}
    (hc : ∀ k ∈ ks, o.startOf (resultLabel s.items "diff" k) = some (valueAt s.items 0 k)) (htr : o.truthy = true)
    (hnum : ∀ y, o = .num y → ∀ x ∈ s.items, ∃ d, x.data = some (.dict d))
    {d : TSeries} (hd : s.diffOp cal = .ok d) {x0 x1 y1 : Item} (hx0 : s.items[0]? = some x0) (hx1 : s.items[1]? = some x1)
    (hy1 : d.items.head? = some y1) (hz : x0.tz = x1.tz)
    (hoff : ∀ e, offsetItem cal back d y1 e = .ok (offsetAt x0.t x0.slot x0.tz e))
    (hj : ∀ e, JustBefore cal y1 (offsetAt x0.t x0.slot x0.tz e)) :
    ∃ r, d.csumFrom cal back (some o) = .ok r ∧
      Computes s.items r.items 0 ks (resultLabel d.items "csum" ∘ resultLabel s.items "diff") (valueAt s.items) := by
  obtain ⟨d', h1, h2, h3, _⟩ := diff_spec h hres hl
  have : d' = d := by rw [h1] at hd; simpa using hd
  subst this
  have hrd : d'.res ≠ .varying := computes_res_one h h2 h3 hres
  have hy1' : d'.items[0]? = some y1 := by rw [← hy1]; cases d'.items <;> rfl
  have hpl := h3.place 0 x1 y1 (by simpa using hx1) hy1'
  have hy1z : y1.tz = x0.tz := by rw [hpl.2.2, hz]
  have hdict : ∀ y, o = .num y → ∀ x ∈ d'.items, ∃ e, x.data = some (.dict e) := by
    intro y hy x hx
    obtain ⟨xf, r0, dd, kk, r, hi, hdd, hprep, hp, hfin, hop, hcomp, hidx, hdata⟩ := itemOp_spec h
      (fun k => withPostfix k "diff") (fun a b hab => withPostfix_inj hab) true
      (fun i _ k => derivVal s.items none true i k)
      (fun i k => valueAt s.items i k - valueAt s.items (i - 1) k) 1 (by omega) (by
        intro i x hx hm k hk
        have := valAt_lt hx
        unfold derivVal
        rw [h.valAt this hk, h.valAt (show i - 1 < s.items.length by omega) hk]
        simp)
    have hr : r = d' := by
      have e : s.diffOp cal = .ok r := by
        unfold TSeries.diffOp
        rw [isDict_of_prep h hres]
        simp only [Bool.false_eq_true, if_false, hres]
        rw [hprep]
        simp only
        rw [if_neg (by omega)]
        have : (fun i : ℕ => decide (i = 0)) = (fun i : ℕ => decide (i < 1)) := by
          funext i; rw [decide_eq_decide]; omega
        rw [this]
        exact hfin
      rw [h1] at e
      simpa using e.symm
    subst hr
    obtain ⟨e, e1, e2⟩ := hdata x hx
    obtain ⟨e', he'⟩ := hnum y hy xf (by rw [hi]; simp)
    rw [hdd] at he'
    obtain ⟨w, hw⟩ := e2.2 ⟨e', by simpa using he'⟩
    exact ⟨w, by rw [e1, hw]⟩
  obtain ⟨r, p, q, a1, a2, a3, a4, a5, a6, a7, a8, a9, a10⟩ := csumFrom_spec h2 hrd back (o := o)
    (c := fun k' => (o.startOf k').getD 0) (by
      intro k' hk'
      obtain ⟨k, hk, rfl⟩ := List.mem_map.1 hk'
      rw [hc k hk]
      rfl) htr hdict hy1 (t0 := x0.t) (sl := x0.slot) (by rw [hy1z]; exact hoff) (by rw [hy1z]; exact hj)
  have hcomp := h3.trans a9 rfl
  rw [Nat.add_zero] at hcomp
  have hcomp' : Computes s.items q 1 ks (resultLabel d'.items "csum" ∘ resultLabel s.items "diff") (valueAt s.items) := by
    refine hcomp.congr ?_
    intro i hi h1i k hk
    obtain ⟨j, rfl⟩ : ∃ j, i = j + 1 := ⟨i - 1, by omega⟩
    simp only [Nat.add_sub_cancel]
    rw [hc k hk]
    simp only [Option.getD_some]
    have hlen := h3.length
    clear h1i
    induction j with
    | zero =>
      have := h3.valueAt (j := 0) (by omega) hk
      simp only [runningSum]
      rw [this]
      simp
    | succ j ih =>
      have := h3.valueAt (j := j + 1) (by omega) hk
      simp only [runningSum]
      rw [this]
      have ih' := ih (by omega)
      rw [show 1 + (j + 1) = j + 2 by omega, show j + 2 - 1 = j + 1 by omega, show j + 1 + 1 = j + 2 by omega]
      linarith
  refine ⟨r, a1, ?_, ?_, ?_, ?_⟩
  · rw [a3, List.length_cons, hcomp'.length]; omega
  · intro j x y hx hy
    rw [a3] at hy
    cases j with
    | zero =>
      have e1 : x = x0 := by
        have : s.items[0]? = some x := by simpa using hx
        rw [hx0] at this; simpa using this.symm
      have e2 : p = y := by simpa using hy
      subst e1; subst e2
      exact ⟨a4, a5, by rw [a6, hy1z]⟩
    | succ j =>
      exact hcomp'.place j x y (by rw [show 1 + j = 0 + (j + 1) by omega]; exact hx) (by simpa using hy)
  · intro y hy
    have := a2.lab y hy
    rwa [List.map_map] at this
  · intro j y hy k hk
    rw [a3] at hy
    cases j with
    | zero =>
      have e2 : p = y := by simpa using hy
      subst e2
      have := a8 _ (List.mem_map.2 ⟨k, hk, rfl⟩)
      rw [hc k hk] at this
      exact this
    | succ j =>
      have := hcomp'.values j y (by simpa using hy) k hk
      rw [show 0 + (j + 1) = 1 + j by omega]
      exact this

theorem truthy_of_start {o : NumOrDict} {k : String} {v : ℚ} (h : o.startOf k = some v) (h0 : o ≠ .num 0) : o.truthy = true := by
  cases o with
  | num y => simp [NumOrDict.truthy]; intro e; exact h0 (by rw [e])
  | dict d =>
    cases d with
    | nil => simp [NumOrDict.startOf, Dict.get?] at h
    | cons a b => rfl

/-- **C239** for points: the differences of an evenly spaced series of at least three points (whose resolution is its spacing, and whose first two points are on the
same zone), summed from the first values, have the times and the values of the series; the starting values being given in a
dictionary, or as a number other than zero if all labels start there and the data is in dictionaries.  Missing: two points, the number zero,
numbers for lists (`C239_false`). -/
theorem C239_points_partial {cal : Calendar} {s : TSeries} {ks : List String} (h : OpSeries cal s ks) (hp : AllPoints s.items)
    (back : TUnit → String → ℚ → ℚ) {D : ℚ} (hD : UniformBy D s.items) (hres : s.res = .unit (TUnit.ofSecs D))
    (hl : 3 ≤ s.items.length) (hz : ∀ x ∈ s.items[0]?, ∀ y ∈ s.items[1]?, x.tz = y.tz) {o : NumOrDict}
    (hc : ∀ k ∈ ks, o.startOf (resultLabel s.items "diff" k) = some (valueAt s.items 0 k)) (h0 : o ≠ .num 0)
    (hnum : ∀ y, o = .num y → ∀ x ∈ s.items, ∃ d, x.data = some (.dict d)) :
    ∃ d r, s.diffOp cal = .ok d ∧ d.csumFrom cal back (some o) = .ok r ∧
      Computes s.items r.items 0 ks (resultLabel d.items "csum" ∘ resultLabel s.items "diff") (valueAt s.items) := by
  have hrv : s.res ≠ .varying := by rw [hres]; simp
  obtain ⟨d, h1, h2, h3, _⟩ := diff_spec h hrv (by omega)
  obtain ⟨k, hk⟩ := List.exists_mem_of_ne_nil _ h.ksne
  obtain ⟨x0, x1, x2, rest, hi⟩ : ∃ x0 x1 x2 rest, s.items = x0 :: x1 :: x2 :: rest := by
    match hs : s.items with
    | [] => rw [hs] at hl; simp at hl
    | [a] => rw [hs] at hl; simp at hl
    | [a, b] => rw [hs] at hl; simp at hl
    | a :: b :: c :: r => exact ⟨a, b, c, r, rfl⟩
  have hspc : x1.t - x0.t = D := hD.2 _ (by rw [hi]; simp [times, spacings])
  obtain ⟨y1, rd, hdi⟩ : ∃ y1 rd, d.items = y1 :: rd := by
    cases hdi : d.items with
    | nil => have := h3.length; rw [hdi, hi] at this; simp at this
    | cons a b => exact ⟨a, b, rfl⟩
  have hpl := h3.place 0 x1 y1 (by rw [hi]; rfl) (by rw [hdi]; rfl)
  have hslot : ∀ y ∈ d.items, y.isSlot = false := by
    intro y hy
    obtain ⟨j, hj, rfl⟩ := List.getElem_of_mem hy
    have hlen := h3.length
    have h1' : 1 + j < s.items.length := by omega
    have := h3.place j _ _ (List.getElem?_eq_getElem h1') (List.getElem?_eq_getElem hj)
    have h2' := hp _ (List.getElem_mem h1')
    simp only [Item.isSlot] at h2' ⊢
    rw [this.2.1]; exact h2'
  have hdres : d.res = .unit (TUnit.ofSecs D) := by
    have hu : specRes (spacings (times s.items)) = .unit (TUnit.ofSecs D) := by rw [← h.res_points hp]; exact hres
    have hsp : spacingUnit D = some (TUnit.ofSecs D) := by
      cases hsp : spacings (times s.items) with
      | nil => rw [hsp] at hu; simp [specRes] at hu
      | cons a b =>
        have ha : a = D := hD.2 a (by rw [hsp]; simp)
        rw [hsp] at hu
        unfold specRes at hu
        simp only at hu
        split at hu
        · rw [ha] at hu
          split at hu
          · rename_i heq; rw [heq]; simpa using hu
          · cases hu
        · cases hu
    rw [h2.res_points hslot, h3.times]
    cases hsp2 : spacings (times (s.items.drop 1)) with
    | nil => rw [hi] at hsp2; simp [times, spacings] at hsp2
    | cons a b =>
      have hall : ∀ z ∈ a :: b, z = D := by
        intro z hz
        refine hD.2 z (spacings_drop_one _ z ?_)
        rw [show (times s.items).drop 1 = times (s.items.drop 1) by simp [times], hsp2]
        exact hz
      have ha := hall a (by simp)
      rw [ha]
      refine specRes_uniform (fun z hz => ?_) hsp
      exact hall z (by simp [hz])
  have hx0s : x0.slot = none := by
    have := hp x0 (by rw [hi]; simp)
    simpa [Item.isSlot] using this
  have hy1s : y1.slot = none := by
    have := hslot y1 (by rw [hdi]; simp)
    simpa [Item.isSlot] using this
  have hz' : x0.tz = x1.tz := hz x0 (by rw [hi]; simp) x1 (by rw [hi]; simp)
  have hsp0 : x0.t + 1 / 10000 ≤ x1.t := by
    rcases h.shape with ⟨_, q⟩ | ⟨q, _⟩
    · rw [hi] at q
      exact (List.pairwise_cons.1 q).1 x1 (by simp)
    · have := q x0 (by rw [hi]; simp)
      simp [Item.isSlot, hx0s] at this
  obtain ⟨r, e1, e2⟩ := restored h hrv (by omega) back hc (truthy_of_start (hc k hk) h0) hnum h1 (x0 := x0) (x1 := x1) (y1 := y1)
    (by rw [hi]; rfl) (by rw [hi]; rfl) (by rw [hdi]; rfl) hz' (by
      intro e
      unfold offsetItem
      rw [hy1s, hdres]
      simp only [offsetAt, hx0s, TUnit.ofSecs, hpl.1, hpl.2.2, ← hz']
      rw [show x1.t - D = x0.t by linarith]) (by
      intro e
      refine ⟨by simp only [offsetAt]; rw [hpl.2.2, hz'], ?_⟩
      rw [hy1s]
      refine ⟨hx0s, ?_⟩
      simp only [offsetAt]
      rw [hpl.1]; exact hsp0)
  exact ⟨d, r, h1, e1, e2⟩

/-- **C239** for slots: the same, with at least two slots, if going back from the second slot by the unit gives the start of
the first. -/
theorem C239_slots_partial {cal : Calendar} {s : TSeries} {ks : List String} (h : OpSeries cal s ks) (hp : AllSlots s.items)
    (back : TUnit → String → ℚ → ℚ) {x0 x1 : Item} (hx0 : s.items[0]? = some x0) (hx1 : s.items[1]? = some x1)
    (hb : back x1.unit x1.tz x1.t = x0.t) {o : NumOrDict}
    (hc : ∀ k ∈ ks, o.startOf (resultLabel s.items "diff" k) = some (valueAt s.items 0 k)) (h0 : o ≠ .num 0)
    (hnum : ∀ y, o = .num y → ∀ x ∈ s.items, ∃ d, x.data = some (.dict d)) :
    ∃ d r, s.diffOp cal = .ok d ∧ d.csumFrom cal back (some o) = .ok r ∧
      Computes s.items r.items 0 ks (resultLabel d.items "csum" ∘ resultLabel s.items "diff") (valueAt s.items) := by
  have hl : 2 ≤ s.items.length := by have := valAt_lt hx1; omega
  have hrv : s.res ≠ .varying := (build_slotInv hp h.built).novar
  obtain ⟨d, h1, h2, h3, _⟩ := diff_spec h hrv hl
  obtain ⟨k, hk⟩ := List.exists_mem_of_ne_nil _ h.ksne
  obtain ⟨rest, hi⟩ : ∃ rest, s.items = x0 :: x1 :: rest := by
    match hs : s.items with
    | [] => rw [hs] at hl; simp at hl
    | [a] => rw [hs] at hl; simp at hl
    | a :: b :: r =>
      rw [hs] at hx0 hx1
      simp only [List.getElem?_cons_zero, List.getElem?_cons_succ, Option.some.injEq] at hx0 hx1
      exact ⟨r, by rw [hx0, hx1]⟩
  obtain ⟨y1, rd, hdi⟩ : ∃ y1 rd, d.items = y1 :: rd := by
    cases hdi : d.items with
    | nil => have := h3.length; rw [hdi, hi] at this; simp at this
    | cons a b => exact ⟨a, b, rfl⟩
  have hpl := h3.place 0 x1 y1 (by rw [hi]; rfl) (by rw [hdi]; rfl)
  have hg : GoodSlots s.items ∧ RegularSlots cal.shift s.items := by
    rcases h.good with g | g
    · have a := g.points x0 (by rw [hi]; simp)
      have b := hp x0 (by rw [hi]; simp)
      rw [a] at b; simp at b
    · exact g
  have hm0 : x0 ∈ s.items := by rw [hi]; simp
  have hm1 : x1 ∈ s.items := by rw [hi]; simp
  obtain ⟨⟨e0, u⟩, hs0⟩ : ∃ q, x0.slot = some q := by
    have := hp x0 hm0
    cases hsl : x0.slot with
    | none => simp [Item.isSlot, hsl] at this
    | some q => exact ⟨q, rfl⟩
  obtain ⟨⟨e1, u1⟩, hs1⟩ : ∃ q, x1.slot = some q := by
    have := hp x1 hm1
    cases hsl : x1.slot with
    | none => simp [Item.isSlot, hsl] at this
    | some q => exact ⟨q, rfl⟩
  have hu1 : x1.unit = u1 := by simp [Item.unit, hs1]
  have hu0 : x0.unit = u := by simp [Item.unit, hs0]
  have huu : u1 = u := by rw [← hu1, ← hu0]; exact hg.1.unit x1 hm1 x0 hm0
  subst huu
  have hz' : x0.tz = x1.tz := hg.1.tz x0 hm0 x1 hm1
  have he0 : e0 = cal.shift u1 x0.tz x0.t := hg.2 x0 hm0 e0 u1 hs0
  have hcl : CloseTo e0 x1.t := by
    have := hg.1.chain
    unfold InSuccession at this
    rw [hi, List.isChain_cons_cons] at this
    have := this.1
    simpa [Item.endT, hs0] using this
  have hy1s : y1.slot = some (e1, u1) := by rw [hpl.2.1, hs1]
  rw [hu1] at hb
  obtain ⟨r, f1, f2⟩ := restored h hrv hl back hc (truthy_of_start (hc k hk) h0) hnum h1 (x0 := x0) (x1 := x1) (y1 := y1)
    hx0 hx1 (by rw [hdi]; rfl) hz' (by
      intro e
      unfold offsetItem
      rw [hy1s]
      simp only [offsetAt, hs0, hpl.1, hpl.2.2, ← hz']
      rw [hz', hb, ← hz', ← he0]) (by
      intro e
      refine ⟨by simp only [offsetAt]; rw [hpl.2.2, hz'], ?_⟩
      rw [hy1s]
      simp only [offsetAt]
      rw [hpl.2.2, ← hz', ← he0, hpl.1]
      exact ⟨hs0, hcl⟩)
  exact ⟨d, r, h1, f1, f2⟩

/-! ## Examples and counterexamples -/

/-- what is read from the sums of the differences: times and values -/
def backAndForth (l : List Item) (o : NumOrDict) : Except PyErr (List (ℚ × Option Data)) :=
  bindE (bindE (bindE (TSeries.build l) (fun s => s.diffOp physicalCalendar)) (fun d =>
    d.csumFrom physicalCalendar (fun u _ t => t - u.secs) (some o))) (fun r => .ok (r.items.map (fun x => (x.t, x.data))))

def tenTwelve : List Item := [mkPoint 0 (.dict [("v", 10)]), mkPoint 60 (.dict [("v", 12)]), mkPoint 120 (.dict [("v", 15)])]
def fromZero : List Item := [mkPoint 0 (.dict [("v", 0)]), mkPoint 60 (.dict [("v", 2)]), mkPoint 120 (.dict [("v", 5)])]
def inLists : List Item := [mkPoint 0 (.list [10]), mkPoint 60 (.list [12]), mkPoint 120 (.list [15])]

def tenSeries : TSeries :=
  match TSeries.build tenTwelve with
  | .ok s => s
  | .error _ => {}

theorem tenSeries_op : OpSeries physicalCalendar tenSeries ["v"] where
  built := by decide +kernel
  ne := by decide +kernel
  ksne := by decide
  lab := by
    have e : tenSeries.items = tenTwelve := by decide +kernel
    rw [e]
    intro x hx
    simp only [tenTwelve, List.mem_cons, List.not_mem_nil, or_false] at hx
    rcases hx with rfl | rfl | rfl
    all_goals exact ⟨_, rfl, by simp [Data.pairs], by simp, by intro v; simp⟩
  shape := by
    have e : tenSeries.items = tenTwelve := by decide +kernel
    rw [e]
    refine .inl ⟨?_, by decide +kernel⟩
    intro x hx
    simp only [tenTwelve, List.mem_cons, List.not_mem_nil, or_false] at hx
    rcases hx with rfl | rfl | rfl <;> rfl

theorem C238_C239_witness : OpSeries physicalCalendar tenSeries ["v"] ∧ UniformBy 60 tenSeries.items ∧
    tenSeries.res = .unit (TUnit.ofSecs 60) ∧ (NumOrDict.num 10).startOf (resultLabel tenSeries.items "diff" "v") = some (valueAt tenSeries.items 0 "v") ∧
    backAndForth tenTwelve (.num 10) = .ok [(0, some (.dict [("v_diff_csum", 10)])), (60, some (.dict [("v_diff_csum", 12)])),
      (120, some (.dict [("v_diff_csum", 15)]))] := by
  refine ⟨tenSeries_op, ⟨by decide +kernel, by decide +kernel⟩, by decide +kernel, ?_, by decide +kernel⟩
  have : valueAt tenSeries.items 0 "v" = 10 := by decide +kernel
  rw [this]
  rfl

/-- **C238 is false** for an offset of zero, which is ignored (no item is added), for a number as offset of a series of
lists (`TypeError`) and for a series of one point (`TypeError`). -/
theorem C238_false :
    (bindE (TSeries.build tenTwelve) (fun s => s.csumFrom physicalCalendar (fun u _ t => t - u.secs) (some (.num 0)))).map
      (fun r => r.items.map Item.t) = .ok [0, 60, 120] ∧
    (bindE (TSeries.build inLists) (fun s => s.csumFrom physicalCalendar (fun u _ t => t - u.secs) (some (.num 1)))).map
      (fun r => r.items.map Item.t) = .error .typeError ∧
    (bindE (TSeries.build [mkPoint 0 (.dict [("v", 10)])]) (fun s => s.csumFrom physicalCalendar (fun u _ t => t - u.secs) (some (.num 1)))).map
      (fun r => r.items.map Item.t) = .error .typeError := by
  decide +kernel

/-- **C239 is false** for a series beginning with zero (the first item is missing: the offset is ignored), for a series of two
points and for a series of lists. -/
theorem C239_false :
    backAndForth fromZero (.num 0) = .ok [(60, some (.dict [("v_diff_csum", 2)])), (120, some (.dict [("v_diff_csum", 5)]))] ∧
    backAndForth fromZero (.dict [("v_diff", 0)]) = .ok [(0, some (.dict [("v_diff_csum", 0)])), (60, some (.dict [("v_diff_csum", 2)])),
      (120, some (.dict [("v_diff_csum", 5)]))] ∧
    backAndForth (tenTwelve.take 2) (.num 10) = .error .typeError ∧
    backAndForth inLists (.num 10) = .error .typeError := by
  decide +kernel

end Timeseria
