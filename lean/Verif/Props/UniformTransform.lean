import Verif.Model.UniformTransform
import Verif.Props.TransformClaims

/-! # C352: resampling with the uniform interpolator -/

namespace Timeseria

/-- a point without its data -/
def VPoint.bare (p : VPoint) : VPoint := { p with data := [] }
/-- an item without its data -/
def Item.bare (x : Item) : Item := { x with data := none }

/-- the mean of the two values of a gap, or bounds in general: what the points of the uniform view have -/
structure UniformView (ks : List String) (l view viewU : List VPoint) : Prop where
  bare : viewU.map VPoint.bare = view.map VPoint.bare
  values : ∀ y ∈ viewU, ∀ k ∈ ks, ∃ v, y.data.get? k = some v ∧
    ∀ lo hi, (∀ p ∈ l, ∀ x, p.data.get? k = some x → lo ≤ x ∧ x ≤ hi) → lo ≤ v ∧ v ≤ hi

theorem uniformGap_ok {all : List VPoint} {ks : List String} {f t : Option ℚ} {i : ℕ} {p q g : VPoint} (hp : all[i]? = some p) (hq : all[i + 1]? = some q)
    (hh : ∀ f, all.head? = some f → f.t ≤ p.t) (h1 : HasLabels ks p) (h2 : HasLabels ks q) (hg : IsGapPoint ks f t p q g) :
    ∃ d, gapPointU all ks f t i p q = .ok { g with data := d } ∧ d.keys = ks ∧
      ∀ k ∈ ks, ∀ x y, p.data.get? k = some x → q.data.get? k = some y → d.get? k = some ((x + y) / 2) := by
  choose! va hva using h1
  choose! vb hvb using h2
  have hx : gapFrom f p + (gapTo t q - gapFrom f p) / 2 = g.t := by
    rw [hg.mid, hg.vf, hg.vt]; ring
  obtain ⟨d, d1, d2, d3⟩ := C87_uniform hp hq hh va vb hva hvb g.t hg.left hg.right
  refine ⟨d, ?_, d2, ?_⟩
  · unfold gapPointU
    simp only [hx]
    rw [d1]
    simp only [← hg.vf, ← hg.vt, ← hg.interp, ← hg.idx]
  · intro k hk x y h3 h4
    rw [hva k hk] at h3
    rw [hvb k hk] at h4
    cases h3; cases h4
    exact d3 k hk

theorem denseListU_ok {all : List VPoint} {ks : List String} {f t : Option ℚ} {l view : List VPoint} (h : DenseRel ks f t l view) :
    ∀ i : ℕ, (∀ m p, l[m]? = some p → all[i + m]? = some p) → (∀ p ∈ l, HasLabels ks p) →
      (∀ f, all.head? = some f → ∀ p ∈ l, f.t ≤ p.t) →
      ∃ viewU, denseListU all ks f t i l = .ok viewU ∧ UniformView ks l view viewU ∧ (∀ q r, l = q :: r → ∃ r', viewU = q :: r') := by
  induction h with
  | nil => exact fun i _ _ _ => ⟨[], rfl, ⟨rfl, by simp⟩, by simp⟩
  | single p =>
    intro i _ hl _
    refine ⟨[p], rfl, ⟨rfl, ?_⟩, ?_⟩
    · intro y hy k hk
      rw [List.mem_singleton] at hy
      subst hy
      obtain ⟨v, hv⟩ := hl y (by simp) k hk
      exact ⟨v, hv, fun lo hi hb => hb y (by simp) v hv⟩
    · intro q r he; cases he; exact ⟨_, rfl⟩
  | gap p q r rest g hg hgp h ih =>
    intro i ha hl hh
    obtain ⟨vU, h1, h2, h3⟩ := ih (i + 1) (fun m x hx => by have := ha (m + 1) x (by simpa using hx); rwa [Nat.add_assoc, Nat.add_comm 1 m])
      (fun x hx => hl x (List.mem_cons_of_mem _ hx)) (fun f hf x hx => hh f hf x (List.mem_cons_of_mem _ hx))
    obtain ⟨d, d1, d2, d3⟩ := uniformGap_ok (by simpa using ha 0 p (by simp)) (ha 1 q (by simp)) (fun f hf => hh f hf p (by simp))
      (hl p (by simp)) (hl q (by simp)) hgp
    refine ⟨p :: { g with data := d } :: vU, ?_, ⟨?_, ?_⟩, ?_⟩
    · rw [denseListU, h1]
      simp only [hg, if_true, d1]
    · rw [List.map_cons, List.map_cons, h2.bare]; rfl
    · intro y hy k hk
      rcases List.mem_cons.1 hy with rfl | hy
      · obtain ⟨v, hv⟩ := hl y (by simp) k hk
        exact ⟨v, hv, fun lo hi hb => hb y (by simp) v hv⟩
      · rcases List.mem_cons.1 hy with rfl | hy
        · obtain ⟨x, hx⟩ := hl p (by simp) k hk
          obtain ⟨z, hz⟩ := hl q (by simp) k hk
          refine ⟨_, d3 k hk x z hx hz, ?_⟩
          intro lo hi hb
          have b1 := hb p (by simp) x hx
          have b2 := hb q (by simp) z hz
          constructor <;> linarith
        · obtain ⟨v, hv, hb⟩ := h2.values y hy k hk
          exact ⟨v, hv, fun lo hi hb' => hb lo hi (fun p hp => hb' p (List.mem_cons_of_mem _ hp))⟩
    · intro q r he; cases he; exact ⟨_, rfl⟩
  | nogap p q r rest hg h ih =>
    intro i ha hl hh
    obtain ⟨vU, h1, h2, h3⟩ := ih (i + 1) (fun m x hx => by have := ha (m + 1) x (by simpa using hx); rwa [Nat.add_assoc, Nat.add_comm 1 m])
      (fun x hx => hl x (List.mem_cons_of_mem _ hx)) (fun f hf x hx => hh f hf x (List.mem_cons_of_mem _ hx))
    refine ⟨p :: vU, ?_, ⟨?_, ?_⟩, ?_⟩
    · rw [denseListU, h1]
      simp only [hg, if_false]
    · rw [List.map_cons, h2.bare]; rfl
    · intro y hy k hk
      rcases List.mem_cons.1 hy with rfl | hy
      · obtain ⟨v, hv⟩ := hl y (by simp) k hk
        exact ⟨v, hv, fun lo hi hb => hb y (by simp) v hv⟩
      · obtain ⟨v, hv, hb⟩ := h2.values y hy k hk
        exact ⟨v, hv, fun lo hi hb' => hb lo hi (fun p hp => hb' p (List.mem_cons_of_mem _ hp))⟩
    · intro q r he; cases he; exact ⟨_, rfl⟩

/-! what is computed from times and indexes only -/

theorem weights_bare (a b : ℚ) (l : List VPoint) : l.map (weightOf a b) = (l.map VPoint.bare).map (weightOf a b) := by
  rw [List.map_map]; rfl

theorem dataLoss_bare (l : List VPoint) (hr fo : Bool) (si a b : ℚ) :
    dataLossOf l hr fo si a b = dataLossOf (l.map VPoint.bare) hr fo si a b := by
  have e1 : ∀ l : List VPoint, coverageSum a b l = coverageSum a b (l.map VPoint.bare) := by
    intro l
    induction l with
    | nil => rfl
    | cons p r ih => rw [List.map_cons, coverageSum, coverageSum, ih]; rfl
  have e2 : lossSum si a b l = lossSum si a b (l.map VPoint.bare) := by
    unfold lossSum; rw [List.map_map]; rfl
  unfold dataLossOf coverage
  rw [e1, e2]
  simp only [List.isEmpty_map]

theorem newIdx_data (names : List String) (loss a b : ℚ) (l : List VPoint) :
    newIdx names loss a b l = newIdx names loss a b (l.map VPoint.bare) := by
  have e : ∀ (n : String) (l : List VPoint), indexSums a b n l = indexSums a b n (l.map VPoint.bare) := by
    intro n l
    induction l with
    | nil => rfl
    | cons p r ih => rw [List.map_cons, indexSums, indexSums, ih]; rfl
  unfold newIdx indexValue
  have : ∀ n, indexSums a b n l = indexSums a b n (l.map VPoint.bare) := fun n => e n l
  simp only [this]

/-- what a point resampled with the uniform interpolator is, next to the one of the linear interpolator -/
structure UniformPoint (c : Settings) (ps : List VPoint) (a b : ℚ) (x y : Item) : Prop where
  time : y.t = a + (b - a) / 2
  same : y.bare = x.bare
  value : ∃ d, y.data = some (.dict d) ∧ d.keys = c.ks ∧ ∀ k ∈ c.ks, ∃ v, d.get? k = some v ∧
    ∀ lo hi, (∀ p, Involved ps a b p → ∀ z, p.data.get? k = some z → lo ≤ z ∧ z ≤ hi) → lo ≤ v ∧ v ≤ hi
  exact : ∃ d viewU, y.data = some (.dict d) ∧
    denseListU (withRegions c.si ps) c.ks (some a) (some b) (below (ps.map VPoint.t) a - 1) (involved (ps.map VPoint.t) (withRegions c.si ps) a b) = .ok viewU ∧
    ∀ k ∈ c.ks, d.get? k = some ((viewU.map (fun p => (p.data.get? k).getD 0 * weightOf a b p)).sum / (viewU.map (weightOf a b)).sum)

theorem computePointU_spec {c : Settings} (hsi : 0 < c.si) {ps : List VPoint} (hps : InputSeries c.ks ps) {a b : ℚ}
    (hg : GoodInterval (ps.map VPoint.t) a b) {fst : Bool} {w w1 : Work} (hw : w.ps = withRegions c.si ps) (hw1 : w1.ps = withRegions c.si ps) :
    ∃ x y w' w1', computePoint c w (expectedJob (ps.map VPoint.t) a b fst) = .ok (x, w') ∧ w'.ps = withRegions c.si ps ∧
      computePointU c w1 (expectedJob (ps.map VPoint.t) a b fst) = .ok (y, w1') ∧ w1'.ps = withRegions c.si ps ∧ UniformPoint c ps a b x y := by
  have hprep := attach_prepared hsi hps.sorted hps.measured
  rw [regionsLoop_none _ _ hps.sorted] at hprep
  obtain ⟨view, v1, v2, v3, v4, v5, v6, v7⟩ := job_view (c := c) hprep hg (withRegions_labels hsi hps)
    (j := expectedJob (ps.map VPoint.t) a b fst) rfl rfl (viewStart_expected _ _ _ _) rfl
  have hqs : attach ps (expectedRegions c.si none (ps.map VPoint.t)) = withRegions c.si ps := rfl
  rw [hqs] at hprep
  have hlab : ∀ p ∈ involved (ps.map VPoint.t) (withRegions c.si ps) a b, HasLabels c.ks p := by
    intro q hq
    obtain ⟨m, _, _, hm⟩ := idxSlice_mem hq
    exact withRegions_labels hsi hps q (List.mem_of_getElem? hm)
  obtain ⟨viewU, u1, u2, _⟩ := denseListU_ok (all := withRegions c.si ps) v2 (below (ps.map VPoint.t) a - 1) (by
      intro m p hm
      unfold involved at hm
      rw [hqs, idxSlice_getElem?] at hm
      split_ifs at hm
      exact hm) hlab (by
      intro f hf q hq
      obtain ⟨m, _, _, hm⟩ := idxSlice_mem hq
      rw [List.head?_eq_getElem?] at hf
      rcases Nat.eq_zero_or_pos m with rfl | hm0
      · have : some f = some q := hf.symm.trans hm
        cases this; exact le_refl _
      · exact (hprep.lt hf hm hm0).1.le)
  have hweq : viewU.map (weightOf a b) = view.map (weightOf a b) := by rw [weights_bare, weights_bare a b view, u2.bare]
  have hlU : ∀ p ∈ viewU, HasLabels c.ks p := fun p hp k hk => by
    obtain ⟨v, hv, _⟩ := u2.values p hp k hk; exact ⟨v, hv⟩
  obtain ⟨d, d1, d2, d3⟩ := avgView_ok v3 v5
  obtain ⟨d', d1', d2', d3'⟩ := avgView_ok hlU (by rw [hweq]; exact v5)
  obtain ⟨l, hl⟩ := dataLossOf_ok (ps := involved (ps.map VPoint.t) (withRegions c.si ps) a b) (si := c.si)
    (hr := c.hasRes) (fo := fst) hg.lt
  have v7' : dataLossOf view c.hasRes fst c.si a b = .ok l := v7.trans hl
  have v7U : dataLossOf viewU c.hasRes fst c.si a b = .ok l := by
    rw [dataLoss_bare, u2.bare, ← dataLoss_bare]; exact v7'
  have e1 : (expectedJob (ps.map VPoint.t) a b fst).a = a := rfl
  have e2 : (expectedJob (ps.map VPoint.t) a b fst).b = b := rfl
  have e3 : (expectedJob (ps.map VPoint.t) a b fst).isFirst = fst := rfl
  refine ⟨{ t := a + (b - a) / 2, slot := none, tz := c.tz, data := some (.dict d),
            idx := newIdx c.names (c.forceLoss.getD l) a b view },
    { t := a + (b - a) / 2, slot := none, tz := c.tz, data := some (.dict d'),
            idx := newIdx c.names (c.forceLoss.getD l) a b viewU },
    { w with ws := writeWeights w (expectedJob (ps.map VPoint.t) a b fst) },
    { w1 with ws := writeWeights w1 (expectedJob (ps.map VPoint.t) a b fst) }, ?_, hw, ?_, hw1, ?_⟩
  · unfold computePoint
    rw [hw]
    have v1' : jobView c (withRegions c.si ps) (expectedJob (ps.map VPoint.t) a b fst) = .ok view := v1
    rw [v1']
    simp only [e1, e2, e3, v7', d1]
  · unfold computePointU
    rw [hw1]
    have v1' : jobViewU c (withRegions c.si ps) (expectedJob (ps.map VPoint.t) a b fst) = .ok viewU := by
      unfold jobViewU
      rw [viewStart_expected]
      exact u1
    rw [v1']
    simp only [e1, e2, e3, v7U, d1']
  · refine ⟨rfl, ?_, ⟨d', rfl, d2', ?_⟩, ⟨d', viewU, rfl, u1, d3'⟩⟩
    · unfold Item.bare
      simp only
      rw [newIdx_data, u2.bare, ← newIdx_data]
    · intro k hk
      refine ⟨_, d3' k hk, ?_⟩
      intro lo hi hb
      apply avg_bounds
      · intro x hx
        have : weightOf a b x ∈ viewU.map (weightOf a b) := List.mem_map.2 ⟨x, hx, rfl⟩
        rw [hweq] at this
        obtain ⟨z, hz, he⟩ := List.mem_map.1 this
        rw [← he]; exact v4 z hz
      · rw [hweq]; exact v5
      · intro p hp
        obtain ⟨v, hv, hvb⟩ := u2.values p hp k hk
        refine ⟨v, hv, hvb lo hi ?_⟩
        intro q hq y hy
        obtain ⟨p, hp, hpd, _⟩ := involved_mem hsi hps hq
        exact hb p hp y (hpd ▸ hy)

theorem runJobs_pair {f f1 : Work → Job → Except PyErr (Item × Work)} {P : List VPoint} {Q : Job → Item → Item → Prop} (jobs : List Job)
    (h : ∀ j ∈ jobs, ∀ w w1 : Work, w.ps = P → w1.ps = P → ∃ x y w' w1', f w j = .ok (x, w') ∧ w'.ps = P ∧ f1 w1 j = .ok (y, w1') ∧ w1'.ps = P ∧ Q j x y) :
    ∀ (w w1 : Work) (out out1 : List Item), w.ps = P → w1.ps = P → ∃ items items1 w' w1', runJobs f jobs w out = .ok (out ++ items, w') ∧
      runJobs f1 jobs w1 out1 = .ok (out1 ++ items1, w1') ∧ List.Forall₂ (fun j xy => Q j (Prod.fst xy) (Prod.snd xy)) jobs (items.zip items1) ∧
      items.length = jobs.length ∧ items1.length = jobs.length := by
  induction jobs with
  | nil => intro w w1 out out1 _ _; exact ⟨[], [], w, w1, by simp [runJobs], by simp [runJobs], .nil, rfl, rfl⟩
  | cons j r ih =>
    intro w w1 out out1 hw hw1
    obtain ⟨x, y, w', w1', h1, h2, h3, h4, h5⟩ := h j (by simp) w w1 hw hw1
    obtain ⟨items, items1, w2, w3, h6, h7, h8, h9, h10⟩ := ih (fun j hj => h j (by simp [hj])) w' w1' (out ++ [x]) (out1 ++ [y]) h2 h4
    refine ⟨x :: items, y :: items1, w2, w3, ?_, ?_, .cons h5 h8, by simp [h9], by simp [h10]⟩
    · rw [runJobs, h1]
      simp only [h6, List.append_assoc, List.cons_append, List.nil_append]
    · rw [runJobs, h3]
      simp only [h7, List.append_assoc, List.cons_append, List.nil_append]

theorem resampleU_run (g : Grid) (c : Settings) (unit : TUnit) (ops : List SlotOp) (ps : List VPoint) (hsi : 0 < c.si)
    (hps : InputSeries c.ks ps) (start stop : Option ℚ) (f toT : ℚ)
    (hf : processFrom g .points start (firstT ps) = .ok f) (ht : processTo g stop (lastT ps) = .ok toT)
    (hfirst : firstT ps < g.next f) :
    ∃ items w itemsU wU, process g .points c unit ops start stop ps = .ok (items, w) ∧ resampleU g c start stop ps = .ok (itemsU, wU) ∧
      itemsU.length = items.length ∧
      ∀ (k : ℕ) (x y : Item), items[k]? = some x → itemsU[k]? = some y → UniformPoint c ps (edge g f k) (edge g f (k + 1)) x y := by
  obtain ⟨p0, hp0, hp0t, hp00⟩ := firstT_get hps.ne
  obtain ⟨pl, hpl, hplt, _⟩ := lastT_get hps.ne
  obtain ⟨K, hK, hlast, hgood⟩ := processJobs_last (g := g) (toT := toT) hps.sorted (f := f) (by
    intro t h0
    rw [List.getElem?_map, hp00] at h0
    simp only [Option.map_some, Option.some.injEq] at h0
    rw [← h0, hp0t]
    exact hfirst)
  obtain ⟨items, itemsU, w, wU, h1, h2, h3, h4, h5⟩ := runJobs_pair (f := computePoint c) (f1 := computePointU c) (P := withRegions c.si ps)
    (Q := fun j x y => UniformPoint c ps j.a j.b x y) (expectedJobs g (ps.map VPoint.t) f K) (by
      intro j hj w w1 hw hw1
      obtain ⟨k, hk, rfl⟩ := List.mem_map.1 hj
      exact computePointU_spec hsi hps (hgood k (List.mem_range.1 hk)) hw hw1)
    { ps := withRegions c.si ps, ws := ps.map (fun _ => none) } { ps := withRegions c.si ps, ws := ps.map (fun _ => none) } [] [] rfl rfl
  have e : attach ps (expectedRegions c.si none (ps.map VPoint.t)) = withRegions c.si ps := rfl
  refine ⟨items, w, itemsU, wU, ?_, ?_, by rw [h4, h5], ?_⟩
  · unfold process
    rw [hp0, hpl]
    simp only [hp0t, hplt, hf, ht, hK, regionsLoop_none _ _ hps.sorted]
    rw [e, h1]
    rfl
  · unfold resampleU
    rw [hp0, hpl]
    simp only [hp0t, hplt, hf, ht, hK, regionsLoop_none _ _ hps.sorted]
    rw [e, h2]
    rfl
  · intro k x y hx hy
    obtain ⟨hk, hxe⟩ := List.getElem?_eq_some_iff.1 hx
    obtain ⟨hk1, hye⟩ := List.getElem?_eq_some_iff.1 hy
    have hk' : k < (expectedJobs g (ps.map VPoint.t) f K).length := by rw [← h4]; exact hk
    have hz : k < (items.zip itemsU).length := by rw [List.length_zip]; omega
    have := (List.forall₂_iff_get.1 h3).2 k hk' hz
    rw [List.get_eq_getElem, List.get_eq_getElem, List.getElem_zip, hxe, hye] at this
    simpa [expectedJobs, expectedJob] using this

/-- the value in a gap: an interval with no part of it within half a sampling interval of a point -/
theorem uniform_in_gap {c : Settings} (hsi : 0 < c.si) {ps : List VPoint} (hps : InputSeries c.ks ps) {a b : ℚ} (hab : a < b) {x y : Item}
    (h : UniformPoint c ps a b x y) {i : ℕ} {p q : VPoint} (hp : ps[i]? = some p) (hq : ps[i + 1]? = some q) (h1 : p.t + c.si / 2 ≤ a)
    (h2 : b ≤ q.t - c.si / 2) {k : String} (hk : k ∈ c.ks) {va vb : ℚ} (hva : p.data.get? k = some va) (hvb : q.data.get? k = some vb) :
    ∃ d, y.data = some (.dict d) ∧ d.get? k = some ((va + vb) / 2) := by
  obtain ⟨d, viewU, hd, hv, hval⟩ := h.exact
  refine ⟨d, hd, ?_⟩
  have hprep := attach_prepared hsi hps.sorted hps.measured
  rw [regionsLoop_none _ _ hps.sorted] at hprep
  have hqs : attach ps (expectedRegions c.si none (ps.map VPoint.t)) = withRegions c.si ps := rfl
  rw [hqs] at hprep
  have htp : (ps.map VPoint.t)[i]? = some p.t := by rw [List.getElem?_map, hp]; rfl
  have htq : (ps.map VPoint.t)[i + 1]? = some q.t := by rw [List.getElem?_map, hq]; rfl
  have hba : below (ps.map VPoint.t) a = i + 1 := by
    have b1 := (below_iff hps.sorted htp).2 (show p.t < a by linarith)
    have b2 : ¬ i + 1 < below (ps.map VPoint.t) a := fun hh => by have := (below_iff hps.sorted htq).1 hh; linarith
    omega
  have hbb : below (ps.map VPoint.t) b = i + 1 := by
    have b1 := (below_iff hps.sorted htp).2 (show p.t < b by linarith)
    have b2 : ¬ i + 1 < below (ps.map VPoint.t) b := fun hh => by have := (below_iff hps.sorted htq).1 hh; linarith
    omega
  -- the two points with their regions
  have hl : (expectedRegions c.si none (ps.map VPoint.t)).length = ps.length := by
    have := (expectedRegions_spec c.si hsi (ps.map VPoint.t) none hps.sorted (by simp)).1
    simpa using congrArg List.length this
  obtain ⟨r, hr, hpr⟩ := attach_getElem? hl hp
  obtain ⟨r', hr', hqr⟩ := attach_getElem? hl hq
  rw [hqs] at hpr hqr
  have htimes := (expectedRegions_spec c.si hsi (ps.map VPoint.t) none hps.sorted (by simp)).1
  have hrt : r.t = p.t := by
    have := congrArg (fun l => l[i]?) htimes
    simp only [List.getElem?_map, hr, hp, Option.map_some, Option.some.injEq] at this
    exact this
  have hrt' : r'.t = q.t := by
    have := congrArg (fun l => l[i + 1]?) htimes
    simp only [List.getElem?_map, hr', hq, Option.map_some, Option.some.injEq] at this
    exact this
  have w1 := expectedRegions_within c.si (ps.map VPoint.t) none r (List.mem_of_getElem? hr)
  have w2 := expectedRegions_within c.si (ps.map VPoint.t) none r' (List.mem_of_getElem? hr')
  have hend : r.b ≤ a := by have := w1.2; rw [hrt] at this; linarith
  have hbeg : b ≤ r'.a := by have := w2.1; rw [hrt'] at this; linarith
  set p' : VPoint := { p with vf := r.a, vt := r.b } with hp'
  set q' : VPoint := { q with vf := r'.a, vt := r'.b } with hq'
  have hinv : involved (ps.map VPoint.t) (withRegions c.si ps) a b = [p', q'] := by
    unfold involved
    rw [hba, hbb]
    have hlen : (withRegions c.si ps).length = ps.length := by rw [← hqs]; exact attach_length hl
    have hi2 : i + 1 < (withRegions c.si ps).length := (List.getElem?_eq_some_iff.1 hqr).1
    apply List.ext_getElem?
    intro m
    rw [idxSlice_getElem?]
    match m with
    | 0 => rw [if_pos (by omega)]; simpa using hpr
    | 1 => rw [if_pos (by omega)]; simpa using hqr
    | m + 2 => rw [if_neg (by omega)]; rfl
  have regp := hprep.region p' (List.mem_of_getElem? hpr)
  have regq := hprep.region q' (List.mem_of_getElem? hqr)
  have hlab := withRegions_labels hsi hps
  have hgap : p'.vt < q'.vf := lt_of_le_of_lt hend (lt_of_lt_of_le hab hbeg)
  have hadj : Adj (some a) (some b) p' q' := by
    have hpt : p'.t = p.t := rfl
    have hqt : q'.t = q.t := rfl
    refine ⟨regp.2, hgap.le, regq.1, ?_, ?_⟩
    · intro z hz; cases hz; rw [hqt]; linarith
    · intro z hz; cases hz; rw [hpt]; linarith
  obtain ⟨g, _, hg⟩ := gapPoint_ok (ks := c.ks) hadj hgap (hlab p' (List.mem_of_getElem? hpr)) (hlab q' (List.mem_of_getElem? hqr))
  obtain ⟨dg, g1, g2, g3⟩ := uniformGap_ok (all := withRegions c.si ps) (i := i) hpr hqr (by
      intro f hf
      rw [List.head?_eq_getElem?] at hf
      rcases Nat.eq_zero_or_pos i with rfl | hi0
      · have : some f = some p' := hf.symm.trans hpr
        cases this; exact le_refl _
      · exact (hprep.lt hf hpr hi0).1.le)
    (hlab p' (List.mem_of_getElem? hpr)) (hlab q' (List.mem_of_getElem? hqr)) hg
  have hview : viewU = [p', { g with data := dg }, q'] := by
    rw [hinv, hba] at hv
    simp only [Nat.add_sub_cancel, denseListU, hgap, if_true, g1, Except.ok.injEq] at hv
    exact hv.symm
  have gvf : g.vf = a := by
    rw [hg.vf]
    simp only [gapFrom]
    split_ifs with hc
    · rfl
    · exact le_antisymm hend (not_lt.1 hc)
  have gvt : g.vt = b := by
    rw [hg.vt]
    simp only [gapTo]
    split_ifs with hc
    · rfl
    · exact le_antisymm (not_lt.1 hc) hbeg
  have wp : weightOf a b p' = 0 := by
    rw [weightOf_eq hab (by linarith [regp.1, regp.2]), show overlap p'.vf p'.vt a b = 0 from by
      unfold overlap
      apply max_eq_left
      have := min_le_left p'.vt b
      have := le_max_right p'.vf a
      have : p'.vt ≤ a := hend
      linarith, zero_div]
  have wq : weightOf a b q' = 0 := by
    rw [weightOf_eq hab (by linarith [regq.1, regq.2]), overlap_zero_right hbeg, zero_div]
  have wg : weightOf a b { g with data := dg } = 1 := by
    rw [weightOf_eq hab (by show g.vf ≤ g.vt; rw [gvf, gvt]; exact hab.le)]
    show overlap g.vf g.vt a b / (b - a) = 1
    rw [gvf, gvt]
    unfold overlap
    rw [min_self, max_self, max_eq_right (by linarith)]
    exact div_self (by linarith)
  rw [hval k hk, hview]
  simp only [List.map_cons, List.map_nil, List.sum_cons, List.sum_nil, wp, wq, wg, mul_zero, zero_add, mul_one, add_zero, div_one]
  rw [g3 k hk va vb hva hvb]
  rfl

/-- **C352** (what is common with linear interpolation): resampling with the uniform interpolator succeeds whenever it does with the linear one, and gives points at
the same times, with the same data loss and the same other indexes; the values are within any bounds of the values of the points involved. -/
theorem C352_resampled (g : Grid) (u : ℚ) (hu : g.Physical u) (c : Settings) (unit : TUnit) (ops : List SlotOp) (ps : List VPoint) (hsi : 0 < c.si)
    (hps : InputSeries c.ks ps) :
    ∃ items w itemsU wU, process g .points c unit ops none none ps = .ok (items, w) ∧ resampleU g c none none ps = .ok (itemsU, wU) ∧
      itemsU.map Item.bare = items.map Item.bare ∧
      ∀ y ∈ itemsU, ∃ d, y.data = some (.dict d) ∧ d.keys = c.ks ∧ ∀ k ∈ c.ks, ∃ v, d.get? k = some v ∧
        ∀ lo hi, (∀ p, Involved ps (y.t - u / 2) (y.t + u / 2) p → ∀ z, p.data.get? k = some z → lo ≤ z ∧ z ≤ hi) → lo ≤ v ∧ v ≤ hi := by
  obtain ⟨f, hf, _, hf2, _⟩ := resample_from g hu (firstT ps)
  obtain ⟨items, w, itemsU, wU, h1, h2, h3, h4⟩ := resampleU_run g c unit ops ps hsi hps none none f (lastT ps) hf rfl hf2
  refine ⟨items, w, itemsU, wU, h1, h2, ?_, ?_⟩
  · apply List.ext_getElem (by simp [h3])
    intro k hk hk'
    rw [List.getElem_map, List.getElem_map]
    rw [List.length_map] at hk hk'
    exact (h4 k _ _ (List.getElem?_eq_getElem hk') (List.getElem?_eq_getElem hk)).same
  · intro y hy
    obtain ⟨k, hk, rfl⟩ := List.getElem_of_mem hy
    have h5 := h4 k _ _ (List.getElem?_eq_getElem (h3 ▸ hk)) (List.getElem?_eq_getElem hk)
    have ht := h5.time
    rw [edge_physical hu, edge_physical hu] at ht
    have e1 : itemsU[k].t - u / 2 = edge g f k := by rw [ht, edge_physical hu]; push_cast; ring
    have e2 : itemsU[k].t + u / 2 = edge g f (k + 1) := by rw [ht, edge_physical hu]; push_cast; ring
    rw [e1, e2]
    exact h5.value

/-- **C352** (in a gap): the points resampled with the uniform interpolator for units falling entirely in a gap between two consecutive points `p` and `q` (no part of the
unit within half a sampling interval of a point) all have the same value, the mean of those of `p` and `q`. -/
theorem C352_gap (g : Grid) (u : ℚ) (hu : g.Physical u) (c : Settings) (ps : List VPoint) (hsi : 0 < c.si) (hps : InputSeries c.ks ps) :
    ∃ itemsU wU, resampleU g c none none ps = .ok (itemsU, wU) ∧
      ∀ y ∈ itemsU, ∀ (i : ℕ) (p q : VPoint), ps[i]? = some p → ps[i + 1]? = some q → p.t + c.si / 2 ≤ y.t - u / 2 → y.t + u / 2 ≤ q.t - c.si / 2 →
        ∀ k ∈ c.ks, ∀ va vb, p.data.get? k = some va → q.data.get? k = some vb → ∃ d, y.data = some (.dict d) ∧ d.get? k = some ((va + vb) / 2) := by
  obtain ⟨f, hf, _, hf2, _⟩ := resample_from g hu (firstT ps)
  obtain ⟨items, w, itemsU, wU, h1, h2, h3, h4⟩ := resampleU_run g c (.ofSecs 60) [] ps hsi hps none none f (lastT ps) hf rfl hf2
  refine ⟨itemsU, wU, h2, ?_⟩
  intro y hy i p q hp hq hpa hqb k hk va vb hva hvb
  obtain ⟨m, hm, rfl⟩ := List.getElem_of_mem hy
  have h5 := h4 m _ _ (List.getElem?_eq_getElem (h3 ▸ hm)) (List.getElem?_eq_getElem hm)
  have ht := h5.time
  rw [edge_physical hu, edge_physical hu] at ht
  have e1 : itemsU[m].t - u / 2 = edge g f m := by rw [ht, edge_physical hu]; push_cast; ring
  have e2 : itemsU[m].t + u / 2 = edge g f (m + 1) := by rw [ht, edge_physical hu]; push_cast; ring
  rw [e1] at hpa
  rw [e2] at hqb
  have hlt : edge g f m < edge g f (m + 1) := by rw [edge_physical hu, edge_physical hu]; push_cast; linarith [hu.pos]
  exact uniform_in_gap hsi hps hlt h5 hp hq hpa hqb hk hva hvb

/-- five minutes with a gap of three, one value growing -/
def gapPoints352 : List VPoint := [{ t := 0, vf := 0, vt := 0, data := [("v", 0)] }, { t := 60, vf := 0, vt := 0, data := [("v", 60)] },
  { t := 300, vf := 0, vt := 0, data := [("v", 300)] }, { t := 360, vf := 0, vt := 0, data := [("v", 360)] }]
def settings352 : Settings := { ks := ["v"], si := 60, hasRes := false }

/-- **C352**: a series with a gap, and its two resamplings: on a line with linear interpolation, constant with the uniform one, the same losses -/
theorem C352_witness : grid60.Physical 60 ∧ 0 < settings352.si ∧ InputSeries settings352.ks gapPoints352 ∧
    (process grid60 .points settings352 (.ofSecs 60) [] none none gapPoints352).toOption.map (fun r => r.1.map (fun x => (x.t, x.value? "v", x.idx))) =
      some [(60, some 60, [("data_loss", some 0)]), (120, some 120, [("data_loss", some 1)]), (180, some 180, [("data_loss", some 1)]),
        (240, some 240, [("data_loss", some 1)]), (300, some 300, [("data_loss", some 0)])] ∧
    (resampleU grid60 settings352 none none gapPoints352).toOption.map (fun r => r.1.map (fun x => (x.t, x.value? "v", x.idx))) =
      some [(60, some 60, [("data_loss", some 0)]), (120, some 180, [("data_loss", some 1)]), (180, some 180, [("data_loss", some 1)]),
        (240, some 180, [("data_loss", some 1)]), (300, some 300, [("data_loss", some 0)])] := by
  refine ⟨physGrid_physical 60 (by norm_num), by norm_num [settings352], ⟨by simp [gapPoints352], by decide +kernel, by decide +kernel, ?_⟩, by decide +kernel, by decide +kernel⟩
  intro p hp k hk
  simp only [settings352, List.mem_singleton] at hk
  subst hk
  simp only [gapPoints352, List.mem_cons, List.not_mem_nil, or_false] at hp
  rcases hp with rfl | rfl | rfl | rfl <;> exact ⟨_, rfl⟩

end Timeseria
