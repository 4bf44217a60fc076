import Verif.Model.UniformAggregate
import Verif.Props.UniformTransform
import Verif.Props.TransformMore

/-! # C353: aggregating with the uniform interpolator -/

namespace Timeseria

/-- whenever the linear dense view exists, the uniform one does, with the same points apart from the values of those interpolated -/
theorem denseListU_of_ok {all : List VPoint} {ks : List String} {f t : Option ℚ} : ∀ (l view : List VPoint) (i : ℕ), denseList ks f t l = .ok view →
    (∀ m p, l[m]? = some p → all[i + m]? = some p) → (∀ p ∈ l, HasLabels ks p) → (∀ f, all.head? = some f → ∀ p ∈ l, f.t ≤ p.t) →
      ∃ viewU, denseListU all ks f t i l = .ok viewU ∧ UniformView ks l view viewU
  | [], view, i, h, _, _, _ => by
    cases h; exact ⟨[], rfl, ⟨rfl, by simp⟩⟩
  | [p], view, i, h, _, hl, _ => by
    cases h
    refine ⟨[p], rfl, ⟨rfl, ?_⟩⟩
    intro y hy k hk
    rw [List.mem_singleton] at hy
    subst hy
    obtain ⟨v, hv⟩ := hl y (by simp) k hk
    exact ⟨v, hv, fun lo hi hb => hb y (by simp) v hv⟩
  | p :: q :: r, view, i, h, ha, hl, hh => by
    rw [denseList] at h
    cases hd : denseList ks f t (q :: r) with
    | error e => rw [hd] at h; cases h
    | ok rest =>
      rw [hd] at h
      obtain ⟨vU, h1, h2⟩ := denseListU_of_ok (q :: r) rest (i + 1) hd (fun m x hx => by
        have := ha (m + 1) x (by simpa using hx); rwa [Nat.add_assoc, Nat.add_comm 1 m])
        (fun x hx => hl x (List.mem_cons_of_mem _ hx)) (fun f hf x hx => hh f hf x (List.mem_cons_of_mem _ hx))
      by_cases hg : p.vt < q.vf
      · simp only [hg, if_true] at h
        cases hgp : gapPoint ks f t p q with
        | error e => rw [hgp] at h; cases h
        | ok g =>
          rw [hgp] at h
          cases h
          -- the time of the point is between the two
          unfold gapPoint at hgp
          simp only at hgp
          split_ifs at hgp with hx
          cases hpl : perLabelDict ks (linearValue p q (gapFrom f p + (gapTo t q - gapFrom f p) / 2)) with
          | error e => rw [hpl] at hgp; cases hgp
          | ok dl =>
            rw [hpl] at hgp
            cases hgp
            have h3 := hl p (by simp)
            have h4 := hl q (by simp)
            choose! va hva using h3
            choose! vb hvb using h4
            obtain ⟨d, d1, d2, d3⟩ := C87_uniform (by simpa using ha 0 p (by simp)) (ha 1 q (by simp)) (fun f hf => hh f hf p (by simp)) va vb hva hvb _ hx.1 hx.2
            have hgU : gapPointU all ks f t i p q = .ok { t := gapFrom f p + (gapTo t q - gapFrom f p) / 2, vf := gapFrom f p, vt := gapTo t q, data := d, idx := [], interp := true } := by
              unfold gapPointU
              simp only
              rw [d1]
            refine ⟨p :: { t := gapFrom f p + (gapTo t q - gapFrom f p) / 2, vf := gapFrom f p, vt := gapTo t q, data := d, idx := [], interp := true } :: vU, ?_, ⟨?_, ?_⟩⟩
            · rw [denseListU, h1]
              simp only [hg, if_true, hgU]
            · rw [List.map_cons, List.map_cons, h2.bare]; rfl
            · intro y hy k hk
              rcases List.mem_cons.1 hy with rfl | hy
              · exact ⟨_, hva k hk, fun lo hi hb => hb y (by simp) _ (hva k hk)⟩
              · rcases List.mem_cons.1 hy with rfl | hy
                · refine ⟨_, d3 k hk, ?_⟩
                  intro lo hi hb
                  have b1 := hb p (by simp) _ (hva k hk)
                  have b2 := hb q (by simp) _ (hvb k hk)
                  constructor <;> linarith
                · obtain ⟨v, hv, hb⟩ := h2.values y hy k hk
                  exact ⟨v, hv, fun lo hi hb' => hb lo hi (fun p hp => hb' p (List.mem_cons_of_mem _ hp))⟩
      · simp only [hg, if_false, Except.ok.injEq] at h
        subst h
        refine ⟨p :: vU, ?_, ⟨?_, ?_⟩⟩
        · rw [denseListU, h1]
          simp only [hg, if_false]
        · rw [List.map_cons, h2.bare]; rfl
        · intro y hy k hk
          rcases List.mem_cons.1 hy with rfl | hy
          · obtain ⟨v, hv⟩ := hl y (by simp) k hk
            exact ⟨v, hv, fun lo hi hb => hb y (by simp) v hv⟩
          · obtain ⟨v, hv, hb⟩ := h2.values y hy k hk
            exact ⟨v, hv, fun lo hi hb' => hb lo hi (fun p hp => hb' p (List.mem_cons_of_mem _ hp))⟩

theorem filter_bare (l l' : List VPoint) (h : l'.map VPoint.bare = l.map VPoint.bare) :
    (l'.filter (fun p => p.interp)).map VPoint.bare = (l.filter (fun p => p.interp)).map VPoint.bare := by
  have e : ∀ m : List VPoint, (m.filter (fun p => p.interp)).map VPoint.bare = (m.map VPoint.bare).filter (fun p => p.interp) := by
    intro m
    rw [List.filter_map]
    rfl
  rw [e, e, h]

theorem computeSlotU_spec {c : Settings} (hsi : 0 < c.si) {ps : List VPoint} (hps : InputSeries c.ks ps)
    (hn : NoPreviousLoss ps) (hks : c.ks ≠ []) {unit : TUnit} {ops : List SlotOp} (hops : ops ≠ [])
    (htot : ∀ o ∈ ops, OpTotal c.ks o) {a b : ℚ}
    (hg : GoodInterval (ps.map VPoint.t) a b) {fst : Bool} {w : Work} (hw : Shape c.ks (withRegions c.si ps) w.ps) :
    ∃ x y w', computeSlot c unit ops w (expectedJob (ps.map VPoint.t) a b fst) = .ok (x, w') ∧
      computeSlotU c unit ops w (expectedJob (ps.map VPoint.t) a b fst) = .ok (y, w') ∧ Shape c.ks (withRegions c.si ps) w'.ps ∧
      y.bare = x.bare ∧ AggregatedSlot c unit ops ps a b x ∧
      (∃ d loss view inner, y.data = some (.dict d) ∧ d ≠ [] ∧ slotData c ops a b loss view inner = .ok d) ∧
      (((∃ p ∈ ps, a ≤ p.t ∧ p.t < b) ∨ coveredLength a b (withRegions c.si ps) = 0) → w'.ps = w.ps ∧
        ∃ viewU inner loss d, denseListU w.ps c.ks (some a) (some b) (below (ps.map VPoint.t) a - 1) (involved (ps.map VPoint.t) w.ps a b) = .ok viewU ∧
          (∀ y ∈ viewU, ∀ k ∈ c.ks, ∃ v, y.data.get? k = some v ∧
            ∀ lo hi, (∀ p ∈ involved (ps.map VPoint.t) w.ps a b, ∀ x, p.data.get? k = some x → lo ≤ x ∧ x ≤ hi) → lo ≤ v ∧ v ≤ hi) ∧
          (∀ p ∈ viewU, 0 ≤ weightOf a b p) ∧ 0 < (viewU.map (weightOf a b)).sum ∧ y.data = some (.dict d) ∧
          slotData c ops a b loss viewU inner = .ok d) := by
  obtain ⟨x, w', h1, h2, h3, h4⟩ := computeSlot_spec hsi hps hn hks (unit := unit) hops htot hg (fst := fst) hw
  have hprep0 : Prepared (ps.map VPoint.t) (withRegions c.si ps) := by
    have := attach_prepared hsi hps.sorted hps.measured
    rwa [regionsLoop_none _ _ hps.sorted] at this
  have hprep := hw.prepared hprep0
  have hab := hg.lt
  obtain ⟨view, v1, v2, v3, v4, v5, v6, v7⟩ := job_view (c := c) hprep hg hw.labels
    (j := expectedJob (ps.map VPoint.t) a b fst) rfl rfl (viewStart_expected _ _ _ _) rfl
  have ejob1 : (expectedJob (ps.map VPoint.t) a b fst).a = a := rfl
  have ejob2 : (expectedJob (ps.map VPoint.t) a b fst).b = b := rfl
  have hhead : ∀ i j : ℕ, ∀ f, w.ps.head? = some f → ∀ p ∈ idxSlice w.ps i j, f.t ≤ p.t := by
    intro i j f hf q hq
    obtain ⟨m, _, _, hm⟩ := idxSlice_mem hq
    rw [List.head?_eq_getElem?] at hf
    rcases Nat.eq_zero_or_pos m with rfl | hm0
    · have : some f = some q := hf.symm.trans hm
      cases this; exact le_refl _
    · exact (hprep.lt hf hm hm0).1.le
  have hslab : ∀ i j : ℕ, ∀ p ∈ idxSlice w.ps i j, HasLabels c.ks p := by
    intro i j q hq
    obtain ⟨m, _, _, hm⟩ := idxSlice_mem hq
    exact hw.labels q (List.mem_of_getElem? hm)
  have hpos : ∀ i j m : ℕ, ∀ p, (idxSlice w.ps i j)[m]? = some p → w.ps[i + m]? = some p := by
    intro i j m p hm
    rw [idxSlice_getElem?] at hm
    split_ifs at hm
    exact hm
  have v1' : denseList c.ks (some a) (some b) (involved (ps.map VPoint.t) w.ps a b) = .ok view := by
    have := v1
    unfold jobView at this
    rw [viewStart_expected] at this
    exact this
  obtain ⟨viewU, u1, u2⟩ := denseListU_of_ok (all := w.ps) _ _ (below (ps.map VPoint.t) a - 1) v1' (hpos _ _) (hslab _ _) (hhead _ _)
  have hjU : jobViewU c w.ps (expectedJob (ps.map VPoint.t) a b fst) = .ok viewU := by
    unfold jobViewU
    rw [viewStart_expected]
    exact u1
  have hweq : viewU.map (weightOf a b) = view.map (weightOf a b) := by rw [weights_bare, weights_bare a b view, u2.bare]
  have hlU : ∀ p ∈ viewU, HasLabels c.ks p := fun p hp k hk => by
    obtain ⟨v, hv, _⟩ := u2.values p hp k hk; exact ⟨v, hv⟩
  have hlossU : dataLossOf viewU c.hasRes (expectedJob (ps.map VPoint.t) a b fst).isFirst c.si a b =
      dataLossOf view c.hasRes (expectedJob (ps.map VPoint.t) a b fst).isFirst c.si a b := by
    rw [dataLoss_bare, u2.bare, ← dataLoss_bare]
  have hvne : viewU ≠ [] := by
    intro h
    rw [← hweq, h] at v5
    simp at v5
  have hwpos : ∀ p ∈ viewU, 0 ≤ weightOf a b p := by
    intro p hp
    have : weightOf a b p ∈ viewU.map (weightOf a b) := List.mem_map.2 ⟨p, hp, rfl⟩
    rw [hweq] at this
    obtain ⟨z, hz, he⟩ := List.mem_map.1 this
    rw [← he]; exact v4 z hz
  -- the data loss
  have hloss : dataLossOf view c.hasRes (expectedJob (ps.map VPoint.t) a b fst).isFirst c.si a b =
      .ok (1 - coveredLength a b (withRegions c.si ps) / (b - a)) := by
    have hinv : (involved (ps.map VPoint.t) w.ps a b).map strip = (involved (ps.map VPoint.t) (withRegions c.si ps) a b).map strip := hw.slice _ _
    rw [v7, ← dataLossOf_strip, hinv, dataLossOf_strip]
    have hor : OrderedRegions (involved (ps.map VPoint.t) (withRegions c.si ps) a b) := by
      constructor
      · intro p hp
        obtain ⟨m, _, _, hm⟩ := idxSlice_mem hp
        have := hprep0.region p (List.mem_of_getElem? hm)
        linarith
      · unfold involved idxSlice
        exact (hprep0.ord.sublist (List.drop_sublist _ _)).sublist (List.take_sublist _ _)
    have hnp : NoPreviousLoss (involved (ps.map VPoint.t) (withRegions c.si ps) a b) := by
      intro p hp
      obtain ⟨m, _, _, hm⟩ := idxSlice_mem hp
      exact withRegions_idx (P := fun i => (i.get? "data_loss").join = none ∨ (i.get? "data_loss").join = some 0) hn p
        (List.mem_of_getElem? hm)
    obtain ⟨l, hl1, hl2, _⟩ := C37_fresh _ hor hnp c.hasRes (expectedJob (ps.map VPoint.t) a b fst).isFirst c.si a b hab
    rw [hl1, hl2, not_involved_overlap hprep0 hg]
  -- what the linear aggregation computed
  have hc := h1
  unfold computeSlot at hc
  rw [v1] at hc
  simp only [ejob1, ejob2] at hc
  cases hl : dataLossOf view c.hasRes (expectedJob (ps.map VPoint.t) a b fst).isFirst c.si a b with
  | error e => rw [hl] at hc; cases hc
  | ok loss =>
    rw [hl] at hc
    simp only at hc
    cases hsv : slotView c w.ps (expectedJob (ps.map VPoint.t) a b fst) loss view with
    | error e => rw [hsv] at hc; cases hc
    | ok t =>
      obtain ⟨inner, view', ps'⟩ := t
      rw [hsv] at hc
      simp only at hc
      cases hsd : slotData c ops a b loss view' inner with
      | error e => rw [hsd] at hc; cases hc
      | ok d =>
        rw [hsd] at hc
        simp only at hc
        split_ifs at hc with hde
        cases hc
        -- the same view for the uniform one
        have key : ∃ innerU viewU', slotViewU c w.ps (expectedJob (ps.map VPoint.t) a b fst) loss viewU = .ok (innerU, viewU', ps') ∧
            innerU ≠ [] ∧ (∀ p ∈ innerU, HasLabels c.ks p) ∧ viewU'.map VPoint.bare = view'.map VPoint.bare ∧
            viewU'.map (weightOf a b) = viewU.map (weightOf a b) ∧ (∀ p ∈ viewU', HasLabels c.ks p) ∧ viewU' ≠ [] ∧
            (((∃ p ∈ ps, a ≤ p.t ∧ p.t < b) ∨ coveredLength a b (withRegions c.si ps) = 0) → loss = 1 ∨ below (ps.map VPoint.t) a ≠ below (ps.map VPoint.t) b →
              viewU' = viewU) := by
          by_cases he : below (ps.map VPoint.t) a = below (ps.map VPoint.t) b
          · have hf1 : (expectedJob (ps.map VPoint.t) a b fst).first = none := by simp [expectedJob, he]
            have hf2 : (expectedJob (ps.map VPoint.t) a b fst).last = none := by simp [expectedJob, he]
            unfold slotView at hsv
            unfold slotViewU
            rw [hf1, hf2] at hsv ⊢
            simp only at hsv ⊢
            by_cases hl1 : loss = 1
            · rw [if_pos hl1] at hsv ⊢
              have hfb := filter_bare view viewU u2.bare
              cases hvf : view.filter (fun p => p.interp) with
              | nil => rw [hvf] at hsv; cases hsv
              | cons gp tl =>
                cases tl with
                | cons _ _ => rw [hvf] at hsv; cases hsv
                | nil =>
                  rw [hvf] at hsv hfb
                  simp only [Except.ok.injEq, Prod.mk.injEq] at hsv
                  obtain ⟨_, rfl, rfl⟩ := hsv
                  cases hvu : viewU.filter (fun p => p.interp) with
                  | nil => rw [hvu] at hfb; simp at hfb
                  | cons gpU tlU =>
                    cases tlU with
                    | cons _ _ => rw [hvu] at hfb; simp at hfb
                    | nil =>
                      have hm : gpU ∈ viewU := by
                        have : gpU ∈ viewU.filter (fun p => p.interp) := by rw [hvu]; simp
                        exact (List.mem_filter.1 this).1
                      exact ⟨[gpU], viewU, rfl, by simp, by simpa using hlU gpU hm, u2.bare, rfl, hlU, hvne, fun _ _ => rfl⟩
            · rw [if_neg hl1] at hsv ⊢
              simp only [Except.ok.injEq, Prod.mk.injEq] at hsv
              obtain ⟨_, rfl, rfl⟩ := hsv
              refine ⟨_, _, rfl, by simp, ?_, ?_, ?_, ?_, ?_, ?_⟩
              · intro p hp
                rw [List.mem_singleton] at hp
                subst hp
                exact fun k hk => ⟨0, table_get? (fun _ => 0) hk⟩
              · simp only [List.map_map]
                have e : ∀ l : List VPoint, l.map (VPoint.bare ∘ scaleData c.ks (expectedJob (ps.map VPoint.t) a b fst).a (expectedJob (ps.map VPoint.t) a b fst).b) =
                    l.map VPoint.bare := fun l => rfl
                rw [e, e]
                exact u2.bare
              · rw [List.map_map]; rfl
              · intro p hp
                obtain ⟨q, hq, rfl⟩ := List.mem_map.1 hp
                exact scaleData_labels (hlU q hq)
              · simpa using hvne
              · rintro _ (h | h)
                · exact absurd h hl1
                · exact absurd he h
          · have hf1 : (expectedJob (ps.map VPoint.t) a b fst).first = some (below (ps.map VPoint.t) a) := by simp [expectedJob, he]
            have hf2 : (expectedJob (ps.map VPoint.t) a b fst).last = some (below (ps.map VPoint.t) b - 1) := by simp [expectedJob, he]
            have hlt : below (ps.map VPoint.t) a < below (ps.map VPoint.t) b := lt_of_le_of_ne (below_mono hab.le) he
            unfold slotView at hsv
            unfold slotViewU
            rw [hf1, hf2] at hsv ⊢
            simp only [ejob1, ejob2] at hsv ⊢
            cases hdl : denseList c.ks (some a) (some b) (idxSlice w.ps (below (ps.map VPoint.t) a) (below (ps.map VPoint.t) b - 1 + 1)) with
            | error e => rw [hdl] at hsv; cases hsv
            | ok v =>
              rw [hdl] at hsv
              simp only [Except.ok.injEq, Prod.mk.injEq] at hsv
              obtain ⟨rfl, rfl, rfl⟩ := hsv
              obtain ⟨innerU, i1, i2⟩ := denseListU_of_ok (all := w.ps) _ _ (below (ps.map VPoint.t) a) hdl (hpos _ _) (hslab _ _) (hhead _ _)
              rw [i1]
              refine ⟨innerU, viewU, rfl, ?_, ?_, u2.bare, rfl, hlU, hvne, fun _ _ => rfl⟩
              · rintro rfl
                -- the slice is not empty
                have hlen : below (ps.map VPoint.t) a < w.ps.length := by
                  have := hprep.length
                  have := hg.after
                  omega
                have hs : (idxSlice w.ps (below (ps.map VPoint.t) a) (below (ps.map VPoint.t) b - 1 + 1)) ≠ [] := by
                  intro h0
                  have : (idxSlice w.ps (below (ps.map VPoint.t) a) (below (ps.map VPoint.t) b - 1 + 1))[0]? = some w.ps[below (ps.map VPoint.t) a] := by
                    rw [idxSlice_getElem?, if_pos (by omega)]
                    exact List.getElem?_eq_getElem hlen
                  rw [h0] at this
                  cases this
                generalize (idxSlice w.ps (below (ps.map VPoint.t) a) (below (ps.map VPoint.t) b - 1 + 1)) = L at i1 hs
                match L, hs with
                | [_], _ => cases i1
                | p :: q :: r, _ =>
                  rw [denseListU] at i1
                  split at i1
                  · cases i1
                  · split at i1
                    · split at i1 <;> cases i1
                    · cases i1
              · intro p hp k hk
                obtain ⟨v, hv, _⟩ := i2.values p hp k hk
                exact ⟨v, hv⟩
        obtain ⟨innerU, viewU', k1, k2, k3, k4, k5, k6, k7, k8⟩ := key
        obtain ⟨dU, hd1, hd2⟩ := slotData_ok (c := c) (a := a) (b := b) (loss := loss) (view := viewU') (inner := innerU) hops hks (by
          intro o ho
          cases how : o.weighted with
          | true => simpa using htot o ho a b viewU' k7 k6 (fun _ => by rw [k5, hweq]; exact v5)
          | false => simpa using htot o ho a b innerU k2 k3 (by simp [how]))
        have hcs : computeSlotU c unit ops w (expectedJob (ps.map VPoint.t) a b fst) =
            .ok ({ t := a, slot := some (b, unit), tz := c.tz, data := some (.dict dU),
                   idx := newIdx c.names (c.forceLoss.getD loss) a b viewU' },
                 { ps := ps', ws := writeWeights w (expectedJob (ps.map VPoint.t) a b fst) }) := by
          unfold computeSlotU
          rw [hjU]
          simp only [ejob1, ejob2, hlossU, hl, k1, hd1]
          rw [if_neg (by simpa using hd2)]
        refine ⟨_, _, _, h1, hcs, h2, ?_, h3, ⟨dU, loss, viewU', innerU, rfl, hd2, hd1⟩, ?_⟩
        · unfold Item.bare
          simp only
          rw [newIdx_data, k4, ← newIdx_data]
        · intro hclean
          obtain ⟨e1, _⟩ := h4 hclean
          refine ⟨e1, viewU, innerU, loss, dU, u1, u2.values, hwpos, by rw [hweq]; exact v5, rfl, ?_⟩
          have : viewU' = viewU := by
            apply k8 hclean
            rcases hclean with h | h
            · right
              intro hbe
              obtain ⟨p, hp, hpa⟩ := h
              exact (below_eq_iff_empty hps.sorted hab.le).1 hbe p.t (List.mem_map.2 ⟨p, hp, rfl⟩) hpa
            · left
              have : loss = 1 - coveredLength a b (withRegions c.si ps) / (b - a) := by
                have := hl.symm.trans hloss
                cases this; rfl
              rw [this, h]; simp
          rw [← this]
          exact hd1

theorem runJobs_pair_state {f f1 : Work → Job → Except PyErr (Item × Work)} {I : Work → Prop} {Q : Job → Item → Item → Prop} (jobs : List Job)
    (h : ∀ j ∈ jobs, ∀ w : Work, I w → ∃ x y w', f w j = .ok (x, w') ∧ f1 w j = .ok (y, w') ∧ I w' ∧ Q j x y) :
    ∀ (w : Work) (out out1 : List Item), I w → ∃ items items1 w', runJobs f jobs w out = .ok (out ++ items, w') ∧
      runJobs f1 jobs w out1 = .ok (out1 ++ items1, w') ∧ items.length = jobs.length ∧ items1.length = jobs.length ∧
      ∀ (k : ℕ) j x y, jobs[k]? = some j → items[k]? = some x → items1[k]? = some y → Q j x y := by
  induction jobs with
  | nil => intro w out out1 _; exact ⟨[], [], w, by simp [runJobs], by simp [runJobs], rfl, rfl, by simp⟩
  | cons j r ih =>
    intro w out out1 hw
    obtain ⟨x, y, w', h1, h2, h3, h4⟩ := h j (by simp) w hw
    obtain ⟨items, items1, w2, h5, h6, h7, h8, h9⟩ := ih (fun j hj => h j (by simp [hj])) w' (out ++ [x]) (out1 ++ [y]) h3
    refine ⟨x :: items, y :: items1, w2, ?_, ?_, by simp [h7], by simp [h8], ?_⟩
    · rw [runJobs, h1]
      simp only [h5, List.append_assoc, List.cons_append, List.nil_append]
    · rw [runJobs, h2]
      simp only [h6, List.append_assoc, List.cons_append, List.nil_append]
    · intro k j' x' y' hj hx hy
      cases k with
      | zero =>
        simp only [List.getElem?_cons_zero, Option.some.injEq] at hj hx hy
        subst hj hx hy; exact h4
      | succ k =>
        simp only [List.getElem?_cons_succ] at hj hx hy
        exact h9 k j' x' y' hj hx hy

theorem aggregateU_run (g : Grid) (c : Settings) (unit : TUnit) (ops : List SlotOp) (ps : List VPoint) (hsi : 0 < c.si)
    (hps : InputSeries c.ks ps) (hn : NoPreviousLoss ps) (hks : c.ks ≠ []) (hops : ops ≠ [])
    (htot : ∀ o ∈ ops, OpTotal c.ks o) (start stop : Option ℚ) (f toT : ℚ)
    (hf : processFrom g .slots start (firstT ps) = .ok f) (ht : processTo g stop (lastT ps) = .ok toT)
    (hfirst : firstT ps < g.next f) :
    ∃ items itemsU w, process g .slots c unit ops start stop ps = .ok (items, w) ∧ aggregateU g c unit ops start stop ps = .ok (itemsU, w) ∧
      itemsU.map Item.bare = items.map Item.bare ∧ (∀ x ∈ items, ∃ a b, AggregatedSlot c unit ops ps a b x) ∧
      ∀ y ∈ itemsU, ∃ a b, ∃ d loss view inner, y.data = some (.dict d) ∧ d ≠ [] ∧ slotData c ops a b loss view inner = .ok d := by
  obtain ⟨p0, hp0, hp0t, hp00⟩ := firstT_get hps.ne
  obtain ⟨pl, hpl, hplt, _⟩ := lastT_get hps.ne
  obtain ⟨K, hK, hlast, hgood⟩ := processJobs_last (g := g) (toT := toT) hps.sorted (f := f) (by
    intro t h0
    rw [List.getElem?_map, hp00] at h0
    simp only [Option.map_some, Option.some.injEq] at h0
    rw [← h0, hp0t]
    exact hfirst)
  obtain ⟨items, itemsU, w, h1, h2, h3, h4, h5⟩ := runJobs_pair_state (f := computeSlot c unit ops) (f1 := computeSlotU c unit ops)
    (I := fun w => Shape c.ks (withRegions c.si ps) w.ps)
    (Q := fun j x y => y.bare = x.bare ∧ AggregatedSlot c unit ops ps j.a j.b x ∧
      ∃ d loss view inner, y.data = some (.dict d) ∧ d ≠ [] ∧ slotData c ops j.a j.b loss view inner = .ok d) (expectedJobs g (ps.map VPoint.t) f K) (by
      intro j hj w hw
      obtain ⟨k, hk, rfl⟩ := List.mem_map.1 hj
      obtain ⟨x, y, w', a1, a2, a3, a4, a5, a6, _⟩ := computeSlotU_spec hsi hps hn hks (unit := unit) hops htot
        (hgood k (List.mem_range.1 hk)) (fst := (k == 0)) hw
      exact ⟨x, y, w', a1, a2, a3, a4, a5, a6⟩)
    { ps := withRegions c.si ps, ws := ps.map (fun _ => none) } [] [] ⟨rfl, withRegions_labels hsi hps⟩
  have e : attach ps (expectedRegions c.si none (ps.map VPoint.t)) = withRegions c.si ps := rfl
  have hget : ∀ (k : ℕ) (hk : k < items.length) (hkU : k < itemsU.length) (hj : k < (expectedJobs g (ps.map VPoint.t) f K).length), _ :=
    fun k hk hkU hj => h5 k _ _ _ (List.getElem?_eq_getElem hj) (List.getElem?_eq_getElem hk) (List.getElem?_eq_getElem hkU)
  refine ⟨items, itemsU, w, ?_, ?_, ?_, ?_, ?_⟩
  · unfold process
    rw [hp0, hpl]
    simp only [hp0t, hplt, hf, ht, hK, regionsLoop_none _ _ hps.sorted]
    rw [e, h1]
    rfl
  · unfold aggregateU
    rw [hp0, hpl]
    simp only [hp0t, hplt, hf, ht, hK, regionsLoop_none _ _ hps.sorted]
    rw [e, h2]
    rfl
  · apply List.ext_getElem (by simp [h3, h4])
    intro k hk hk'
    rw [List.getElem_map, List.getElem_map]
    rw [List.length_map] at hk hk'
    exact (hget k hk' hk (by omega)).1
  · intro x hx
    obtain ⟨k, hk, rfl⟩ := List.getElem_of_mem hx
    exact ⟨_, _, (hget k hk (by omega) (by omega)).2.1⟩
  · intro y hy
    obtain ⟨k, hk, rfl⟩ := List.getElem_of_mem hy
    exact ⟨_, _, (hget k (by omega) hk (by omega)).2.2⟩

/-- **C353** (what is common with linear interpolation): aggregating with the uniform interpolator succeeds whenever it does with the linear one, gives the same slots with
the same data losses and other indexes and the same labels, and leaves the input series in the same state. -/
theorem C353_aggregated (g : Grid) (c : Settings) (unit : TUnit) (ops : List SlotOp) (ps : List VPoint) (hsi : 0 < c.si)
    (hps : InputSeries c.ks ps) (hn : NoPreviousLoss ps) (hks : c.ks ≠ []) (hops : ops ≠ []) (htot : ∀ o ∈ ops, OpTotal c.ks o)
    (hk : ∀ o ∈ ops, ∀ a b v d, o.run c.ks a b v = .ok d → d.keys = c.ks) :
    ∃ items itemsU w, process g .slots c unit ops none none ps = .ok (items, w) ∧ aggregateU g c unit ops none none ps = .ok (itemsU, w) ∧
      itemsU.map Item.bare = items.map Item.bare ∧
      ∀ y ∈ itemsU, ∃ d, y.data = some (.dict d) ∧ ∀ k, k ∈ d.keys ↔ ∃ o ∈ ops, ∃ l ∈ c.ks, k = l ++ "_" ++ o.name := by
  obtain ⟨f, hf, _, _, hf3, _⟩ := aggregate_from g (firstT ps)
  obtain ⟨items, itemsU, w, h1, h2, h3, h4, h5⟩ := aggregateU_run g c unit ops ps hsi hps hn hks hops htot none none f (lastT ps) hf rfl hf3
  refine ⟨items, itemsU, w, h1, h2, h3, ?_⟩
  intro y hy
  obtain ⟨a, b, d, loss, view, inner, d1, _, d3⟩ := h5 y hy
  exact ⟨d, d1, slotData_keys hk d3⟩

/-- the average of a slot aggregated with the uniform interpolator -/
theorem uniform_slot_avg {c : Settings} (hsi : 0 < c.si) {ps : List VPoint} (hps : InputSeries c.ks ps) (hnd : c.ks.Nodup) (hfill : c.fillWith = none) {a b : ℚ}
    {w : Work} (hw : w.ps = withRegions c.si ps) {y : Item} {viewU inner : List VPoint} {loss : ℚ} {d : Dict ℚ}
    (h1 : denseListU w.ps c.ks (some a) (some b) (below (ps.map VPoint.t) a - 1) (involved (ps.map VPoint.t) w.ps a b) = .ok viewU)
    (h2 : ∀ y ∈ viewU, ∀ k ∈ c.ks, ∃ v, y.data.get? k = some v ∧
      ∀ lo hi, (∀ p ∈ involved (ps.map VPoint.t) w.ps a b, ∀ x, p.data.get? k = some x → lo ≤ x ∧ x ≤ hi) → lo ≤ v ∧ v ≤ hi)
    (h3 : ∀ p ∈ viewU, 0 ≤ weightOf a b p) (h4 : 0 < (viewU.map (weightOf a b)).sum) (_h5 : y.data = some (.dict d))
    (h6 : slotData c [avgSlotOp] a b loss viewU inner = .ok d) :
    ∃ y' : Item, UniformPoint c ps a b y' y' ∧ ∃ r, y'.data = some (.dict r) ∧ r.keys = c.ks ∧ ∀ k ∈ c.ks, d.get? (k ++ "_avg") = r.get? k := by
  have hl : ∀ p ∈ viewU, HasLabels c.ks p := fun p hp k hk => by
    obtain ⟨v, hv, _⟩ := h2 p hp k hk; exact ⟨v, hv⟩
  obtain ⟨r, r1, r2, r3⟩ := avgView_ok hl h4
  have hsd' : d = r.foldl (fun d kv => Dict.set d (kv.1 ++ "_avg") kv.2) [] := by
    unfold slotData at h6
    rw [if_neg (by simp [hfill, fillTruthy])] at h6
    simp only [List.foldl_cons, List.foldl_nil, avgSlotOp, if_true, r1, Except.ok.injEq] at h6
    rw [← h6]
    congr 1
    funext d kv
    rw [String.append_assoc]
    rfl
  refine ⟨{ t := a + (b - a) / 2, slot := none, tz := c.tz, data := some (.dict r), idx := [] }, ⟨rfl, rfl, ⟨r, rfl, r2, ?_⟩, ⟨r, viewU, rfl, ?_, r3⟩⟩, r, rfl, r2, ?_⟩
  · intro k hk
    refine ⟨_, r3 k hk, ?_⟩
    intro lo hi hb
    apply avg_bounds h3 h4
    intro p hp
    obtain ⟨v, hv, hvb⟩ := h2 p hp k hk
    refine ⟨v, hv, hvb lo hi ?_⟩
    intro q hq z hz
    rw [hw] at hq
    obtain ⟨p, hp, hpd, _⟩ := involved_mem hsi hps hq
    exact hb p hp z (hpd ▸ hz)
  · rw [hw] at h1
    exact h1
  · intro k hk
    rw [hsd']
    exact (foldl_set_suffix r [] k).2 (by rw [r2]; exact hnd) (by rw [r2]; exact hk)

theorem aggregateU_clean (g : Grid) (c : Settings) (unit : TUnit) (ps : List VPoint) (hsi : 0 < c.si)
    (hps : InputSeries c.ks ps) (hn : NoPreviousLoss ps) (hks : c.ks ≠ []) (hnd : c.ks.Nodup) (hfill : c.fillWith = none)
    (f : ℚ) (hf : processFrom g .slots none (firstT ps) = .ok f) (hnp : NoPartialSlot g c.si ps f) :
    ∃ itemsU w, aggregateU g c unit [avgSlotOp] none none ps = .ok (itemsU, w) ∧ ∀ y ∈ itemsU, y.t < y.endT ∧
      ∃ d, y.data = some (.dict d) ∧ ∃ y' : Item, UniformPoint c ps y.t y.endT y' y' ∧ ∃ r, y'.data = some (.dict r) ∧ r.keys = c.ks ∧
        ∀ k ∈ c.ks, d.get? (k ++ "_avg") = r.get? k := by
  obtain ⟨f', hf', _, _, hf3, _⟩ := aggregate_from g (firstT ps)
  have hff : f = f' := by rw [hf] at hf'; cases hf'; rfl
  subst hff
  obtain ⟨p0, hp0, hp0t, hp00⟩ := firstT_get hps.ne
  obtain ⟨pl, hpl, hplt, _⟩ := lastT_get hps.ne
  obtain ⟨K, hK, hlast, hgood⟩ := processJobs_last (g := g) (toT := lastT ps) hps.sorted (f := f) (by
    intro t h0
    rw [List.getElem?_map, hp00] at h0
    simp only [Option.map_some, Option.some.injEq] at h0
    rw [← h0, hp0t]
    exact hf3)
  obtain ⟨items, itemsU, w, h1, h2, h3, h4, h5⟩ := runJobs_pair_state (f := computeSlot c unit [avgSlotOp]) (f1 := computeSlotU c unit [avgSlotOp])
    (I := fun w => w.ps = withRegions c.si ps)
    (Q := fun j _ y => y.t < y.endT ∧
      ∃ d, y.data = some (.dict d) ∧ ∃ y' : Item, UniformPoint c ps y.t y.endT y' y' ∧ ∃ r, y'.data = some (.dict r) ∧ r.keys = c.ks ∧
        ∀ k ∈ c.ks, d.get? (k ++ "_avg") = r.get? k) (expectedJobs g (ps.map VPoint.t) f K) (by
      intro j hj w hw
      obtain ⟨k, hk, rfl⟩ := List.mem_map.1 hj
      have hkK := List.mem_range.1 hk
      have hgd := hgood k hkK
      obtain ⟨x, y, w', a1, a2, a3, a4, a5, a6, a7⟩ := computeSlotU_spec hsi hps hn hks (unit := unit) (ops := [avgSlotOp]) (by simp)
        (by intro o ho; rw [List.mem_singleton.1 ho]; exact avgSlotOp_total hks) hgd (fst := (k == 0)) (w := w) ⟨by rw [hw], by rw [hw]; exact withRegions_labels hsi hps⟩
      have hclean := hnp k (by
        obtain ⟨v, hv, hv1⟩ := hlast.reached (by omega)
        have h6 := sorted_le_last hps.ne hps.sorted v hv
        have h7 : edge g f (k + 1) ≤ edge g f K := edge_mono g f (by omega)
        linarith)
      obtain ⟨b1, viewU, inner, loss, d, b2, b3, b4, b5, b6, b7⟩ := a7 hclean
      refine ⟨x, y, w', a1, a2, b1.trans hw, ?_⟩
      have hyt : y.t = edge g f k := by
        have : y.bare.t = x.bare.t := by rw [a4]
        exact this.trans a5.start
      have hye : y.endT = edge g f (k + 1) := by
        have h9 : y.bare.slot = x.bare.slot := by rw [a4]
        have h10 : y.slot = x.slot := h9
        simp [Item.endT, h10, a5.slot]
      rw [hyt, hye]
      obtain ⟨y', c1, c2⟩ := uniform_slot_avg hsi hps hnd hfill hw b2 b3 b4 b5 b6 b7
      exact ⟨hgd.lt, d, b6, y', c1, c2⟩)
    { ps := withRegions c.si ps, ws := ps.map (fun _ => none) } [] [] rfl
  have e : attach ps (expectedRegions c.si none (ps.map VPoint.t)) = withRegions c.si ps := rfl
  refine ⟨itemsU, w, ?_, ?_⟩
  · unfold aggregateU
    rw [hp0, hpl]
    have : processTo g none (lastT ps) = .ok (lastT ps) := rfl
    simp only [hp0t, hplt, hf, this, hK, regionsLoop_none _ _ hps.sorted]
    rw [e, h2]
    rfl
  · intro y hy
    obtain ⟨k, hk, rfl⟩ := List.getElem_of_mem hy
    exact h5 k _ _ _ (List.getElem?_eq_getElem (show k < (expectedJobs g (ps.map VPoint.t) f K).length by omega))
      (List.getElem?_eq_getElem (show k < items.length by omega)) (List.getElem?_eq_getElem hk)

/-- **C353** (averages): when each slot has a point in it or no part of it covered by the validity of a point, the averages of the slots are within any bounds of the values
of the points involved, and in a slot entirely in a gap between two consecutive points `p` and `q` (no part of it within half a sampling interval of a point) they are
the means of the values of `p` and `q`. -/
theorem C353_average (g : Grid) (c : Settings) (unit : TUnit) (ps : List VPoint) (hsi : 0 < c.si)
    (hps : InputSeries c.ks ps) (hn : NoPreviousLoss ps) (hks : c.ks ≠ []) (hnd : c.ks.Nodup) (hfill : c.fillWith = none)
    (f : ℚ) (hf : processFrom g .slots none (firstT ps) = .ok f) (hnp : NoPartialSlot g c.si ps f) :
    ∃ itemsU w, aggregateU g c unit [avgSlotOp] none none ps = .ok (itemsU, w) ∧ ∀ y ∈ itemsU, ∃ d, y.data = some (.dict d) ∧
      (∀ k ∈ c.ks, ∃ v, d.get? (k ++ "_avg") = some v ∧
        ∀ lo hi, (∀ p, Involved ps y.t y.endT p → ∀ z, p.data.get? k = some z → lo ≤ z ∧ z ≤ hi) → lo ≤ v ∧ v ≤ hi) ∧
      ∀ (i : ℕ) (p q : VPoint), ps[i]? = some p → ps[i + 1]? = some q → p.t + c.si / 2 ≤ y.t → y.endT ≤ q.t - c.si / 2 →
        ∀ k ∈ c.ks, ∀ va vb, p.data.get? k = some va → q.data.get? k = some vb → d.get? (k ++ "_avg") = some ((va + vb) / 2) := by
  obtain ⟨itemsU, w, h1, h2⟩ := aggregateU_clean g c unit ps hsi hps hn hks hnd hfill f hf hnp
  refine ⟨itemsU, w, h1, ?_⟩
  intro y hy
  obtain ⟨hlt, d, hd, y', hu, r, hr, hrk, hdr⟩ := h2 y hy
  refine ⟨d, hd, ?_, ?_⟩
  · intro k hk
    obtain ⟨r', e1, _, e3⟩ := hu.value
    rw [hr] at e1
    cases e1
    obtain ⟨v, hv, hb⟩ := e3 k hk
    exact ⟨v, (hdr k hk).trans hv, hb⟩
  · intro i p q hp hq h3 h4 k hk va vb hva hvb
    obtain ⟨r', e1, e2⟩ := uniform_in_gap hsi hps hlt hu hp hq h3 h4 hk hva hvb
    rw [hr] at e1
    cases e1
    exact (hdr k hk).trans e2

/-- points at each minute with a gap of eight minutes, one value growing -/
def gapPoints353 : List VPoint := [{ t := 0, vf := 0, vt := 0, data := [("v", 0)] }, { t := 60, vf := 0, vt := 0, data := [("v", 60)] },
  { t := 540, vf := 0, vt := 0, data := [("v", 540)] }, { t := 600, vf := 0, vt := 0, data := [("v", 600)] }]

theorem partial353 : NoPartialSlot grid120 60 gapPoints353 0 := by
  intro k hk
  have h := edge_physical (physGrid_physical 120 (by norm_num)) 0 (k + 1)
  have hl : lastT gapPoints353 = 600 := by decide +kernel
  have hk' : edge grid120 0 (k + 1) = 0 + ((k + 1 : ℕ) : ℚ) * 120 := h
  rw [hl, hk'] at hk
  have hk4 : k ≤ 4 := by
    by_contra hc
    have : (5 : ℚ) ≤ k := by exact_mod_cast (show 5 ≤ k by omega)
    push_cast at hk
    linarith
  have hor : k = 0 ∨ k = 1 ∨ k = 2 ∨ k = 3 ∨ k = 4 := by omega
  rcases hor with rfl | rfl | rfl | rfl | rfl
  · left; exact ⟨{ t := 0, vf := 0, vt := 0, data := [("v", 0)] }, by simp [gapPoints353], by decide +kernel, by decide +kernel⟩
  · right; decide +kernel
  · right; decide +kernel
  · right; decide +kernel
  · left
    refine ⟨{ t := 540, vf := 0, vt := 0, data := [("v", 540)] }, by simp [gapPoints353], by decide +kernel, by decide +kernel⟩

/-- **C353**: a series meeting the hypotheses, and its two aggregations: in the gap a line with linear interpolation, the mean of the two ends with the uniform one -/
theorem C353_witness : NoPartialSlot grid120 settings352.si gapPoints353 0 ∧ processFrom grid120 .slots none (firstT gapPoints353) = .ok 0 ∧
    InputSeries settings352.ks gapPoints353 ∧ NoPreviousLoss gapPoints353 ∧ OpTotal settings352.ks avgSlotOp ∧
    (process grid120 .slots settings352 (.ofSecs 120) [avgSlotOp] none none gapPoints353).toOption.map (fun r => r.1.map (fun x => (x.t, x.value? "v_avg", x.idx))) =
      some [(0, some (225 / 4), [("data_loss", some (1 / 4))]), (120, some 180, [("data_loss", some 1)]), (240, some 300, [("data_loss", some 1)]),
        (360, some 420, [("data_loss", some 1)]), (480, some (2175 / 4), [("data_loss", some (1 / 4))])] ∧
    (aggregateU grid120 settings352 (.ofSecs 120) [avgSlotOp] none none gapPoints353).toOption.map (fun r => r.1.map (fun x => (x.t, x.value? "v_avg", x.idx))) =
      some [(0, some 105, [("data_loss", some (1 / 4))]), (120, some 300, [("data_loss", some 1)]), (240, some 300, [("data_loss", some 1)]),
        (360, some 300, [("data_loss", some 1)]), (480, some 495, [("data_loss", some (1 / 4))])] := by
  refine ⟨partial353, by decide +kernel, ⟨by simp [gapPoints353], by decide +kernel, by decide +kernel, ?_⟩, ?_, avgSlotOp_total (by decide +kernel), by decide +kernel, by decide +kernel⟩
  · intro p hp k hk
    simp only [settings352, List.mem_singleton] at hk
    subst hk
    simp only [gapPoints353, List.mem_cons, List.not_mem_nil, or_false] at hp
    rcases hp with rfl | rfl | rfl | rfl <;> exact ⟨_, rfl⟩
  · intro p hp
    simp only [gapPoints353, List.mem_cons, List.not_mem_nil, or_false] at hp
    rcases hp with rfl | rfl | rfl | rfl <;> exact .inl rfl

end Timeseria
