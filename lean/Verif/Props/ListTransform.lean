import Verif.Model.ListTransform
import Verif.Props.Transform
import Verif.Props.TransformMore

/-! # C351: transformations of series whose data are lists -/

namespace Timeseria

/-- the same point with the numbers under the keys `"0"`, `"1"`, … -/
def LPoint.asDict (p : LPoint) : VPoint :=
  { t := p.t, vf := p.vf, vt := p.vt, data := (listLabels p.data.length).zip p.data, idx := p.idx }

theorem lookup_zip_labels (i : ℕ) : ∀ (l : List ℚ) (m : ℕ),
    (((List.range' m l.length).map strNat).zip l).lookup (strNat (m + i)) = l[i]? := by
  induction i with
  | zero =>
    intro l m
    cases l with
    | nil => rfl
    | cons v r => simp [List.range'_succ]
  | succ i ih =>
    intro l m
    cases l with
    | nil => rfl
    | cons v r =>
      have hne : (strNat (m + (i + 1)) == strNat m) = false := by
        rw [beq_eq_false_iff_ne]
        intro h
        have := strNat_inj h
        omega
      simp only [List.length_cons, List.range'_succ, List.map_cons, List.zip_cons_cons, List.lookup, hne]
      have e : m + (i + 1) = m + 1 + i := by omega
      rw [e, ih r (m + 1)]
      simp

/-- reading by label is reading the dictionary -/
theorem byLabel_asDict (p : LPoint) {n : ℕ} (hn : p.data.length = n) {k : String} (hk : k ∈ listLabels n) :
    ∃ v, (AnyData.list p.data).byLabel k = .ok v ∧ p.asDict.data.get? k = some v := by
  unfold listLabels at hk
  obtain ⟨i, hi, rfl⟩ := List.mem_map.1 hk
  rw [List.mem_range] at hi
  have hv : p.data[i]? = some (p.data[i]'(by omega)) := List.getElem?_eq_getElem _
  refine ⟨p.data[i]'(by omega), ?_, ?_⟩
  · simp only [AnyData.byLabel, atText, readNat_strNat, hv]
  · have := lookup_zip_labels i p.data 0
    rw [Nat.zero_add, ← List.range_eq_range'] at this
    unfold LPoint.asDict listLabels Dict.get?
    rw [this, hv]

theorem weightedSumL_eq {a b : ℚ} {k : String} {n : ℕ} (hk : k ∈ listLabels n) (view : List LPoint)
    (h : ∀ p ∈ view, p.data.length = n) : weightedSumL a b k view = weightedSum a b k (view.map LPoint.asDict) := by
  induction view with
  | nil => rfl
  | cons p r ih =>
    obtain ⟨v, h1, h2⟩ := byLabel_asDict p (h p (by simp)) hk
    rw [weightedSumL, h1, List.map_cons, weightedSum, h2, ih (fun q hq => h q (by simp [hq]))]
    rfl

theorem perLabelDict_congr {ks : List String} {f g : String → Except PyErr ℚ} (h : ∀ k ∈ ks, f k = g k) :
    perLabelDict ks f = perLabelDict ks g := by
  induction ks with
  | nil => rfl
  | cons k r ih => rw [perLabelDict, perLabelDict, h k (by simp), ih (fun x hx => h x (by simp [hx]))]

theorem avgViewL_eq {a b : ℚ} {n : ℕ} {view : List LPoint} (h : ∀ p ∈ view, p.data.length = n) :
    avgViewL (listLabels n) a b view = avgView (listLabels n) a b (view.map LPoint.asDict) := by
  unfold avgViewL avgView
  have e : (view.map LPoint.asDict).map (weightOf a b) = view.map (fun p => weightOf a b p.bare) := by
    rw [List.map_map]; rfl
  rw [e]
  exact perLabelDict_congr (fun k hk => by rw [weightedSumL_eq hk view h]; cases weightedSum a b k (view.map LPoint.asDict) <;> rfl)

theorem denseListL_ok {f t : Option ℚ} {l v : List LPoint} (h : denseListL f t l = .ok v) :
    v = l ∧ ∀ ks, denseList ks f t (l.map LPoint.asDict) = .ok (l.map LPoint.asDict) := by
  induction l generalizing v with
  | nil => rw [denseListL] at h; cases h; exact ⟨rfl, fun _ => rfl⟩
  | cons p r ih =>
    cases r with
    | nil => rw [denseListL] at h; cases h; exact ⟨rfl, fun _ => rfl⟩
    | cons q r =>
      rw [denseListL] at h
      by_cases hg : p.vt < q.vf
      · rw [if_pos hg] at h; cases h
      · rw [if_neg hg] at h
        cases hr : denseListL f t (q :: r) with
        | error e => rw [hr] at h; cases h
        | ok rest =>
          rw [hr] at h
          cases h
          obtain ⟨rfl, h2⟩ := ih hr
          refine ⟨rfl, fun ks => ?_⟩
          have := h2 ks
          rw [List.map_cons] at this
          rw [List.map_cons, List.map_cons, denseList, this]
          exact if_neg hg

theorem denseListL_noGap {f t : Option ℚ} {l : List LPoint} (h : l.IsChain (fun p q => q.vf ≤ p.vt)) :
    denseListL f t l = .ok l := by
  induction l with
  | nil => rfl
  | cons p r ih =>
    cases r with
    | nil => rfl
    | cons q r =>
      rw [List.isChain_cons_cons] at h
      rw [denseListL, if_neg (not_lt.2 h.1), ih h.2]

theorem idxSliceL_asDict (ps : List LPoint) (i j : ℕ) :
    (idxSliceL ps i j).map LPoint.asDict = idxSlice (ps.map LPoint.asDict) i j := by
  unfold idxSliceL idxSlice
  rw [List.map_take, List.map_drop]

theorem idxSliceL_mem {ps : List LPoint} {i j : ℕ} {p : LPoint} (h : p ∈ idxSliceL ps i j) : p ∈ ps :=
  List.mem_of_mem_drop (List.mem_of_mem_take h)

theorem jobViewL_ok {c : Settings} {ps v : List LPoint} {j : Job} (h : jobViewL ps j = .ok v) :
    v = idxSliceL ps j.viewStart (j.next + 1) ∧ jobView c (ps.map LPoint.asDict) j = .ok (v.map LPoint.asDict) := by
  unfold jobViewL at h
  obtain ⟨rfl, h2⟩ := denseListL_ok h
  refine ⟨rfl, ?_⟩
  unfold jobView
  rw [← idxSliceL_asDict]
  exact h2 _

theorem dataLossOf_bare (l : List LPoint) (hr fo : Bool) (si a b : ℚ) :
    dataLossOf (l.map LPoint.bare) hr fo si a b = dataLossOf (l.map LPoint.asDict) hr fo si a b := by
  have e1 : ∀ l : List LPoint, coverageSum a b (l.map LPoint.bare) = coverageSum a b (l.map LPoint.asDict) := by
    intro l
    induction l with
    | nil => rfl
    | cons p r ih => rw [List.map_cons, List.map_cons, coverageSum, coverageSum, ih]; rfl
  have e2 : lossSum si a b (l.map LPoint.bare) = lossSum si a b (l.map LPoint.asDict) := by
    unfold lossSum; rw [List.map_map, List.map_map]; rfl
  unfold dataLossOf coverage
  rw [e1, e2]
  simp only [List.isEmpty_map]

theorem newIdx_bare (names : List String) (loss a b : ℚ) (l : List LPoint) :
    newIdx names loss a b (l.map LPoint.bare) = newIdx names loss a b (l.map LPoint.asDict) := by
  have e : ∀ (n : String) (l : List LPoint), indexSums a b n (l.map LPoint.bare) = indexSums a b n (l.map LPoint.asDict) := by
    intro n l
    induction l with
    | nil => rfl
    | cons p r ih => rw [List.map_cons, List.map_cons, indexSums, indexSums, ih]; rfl
  unfold newIdx indexValue
  simp only [e]

theorem computePointL_ok {c : Settings} {n : ℕ} (hks : c.ks = listLabels n) {ps : List LPoint} (hps : ∀ p ∈ ps, p.data.length = n) {j : Job}
    {x : Item} (h : computePointL c ps j = .ok x) (w : Work) (hw : w.ps = ps.map LPoint.asDict) :
    computePoint c w j = .ok (x, { w with ws := writeWeights w j }) := by
  unfold computePointL at h
  split at h
  · cases h
  · cases hv : jobViewL ps j with
    | error e => rw [hv] at h; cases h
    | ok v =>
      rw [hv] at h
      obtain ⟨hv1, hv2⟩ := jobViewL_ok (c := c) hv
      have hlen : ∀ p ∈ v, p.data.length = n := fun p hp => hps p (idxSliceL_mem (by rw [← hv1]; exact hp))
      simp only [dataLossOf_bare, newIdx_bare] at h
      unfold computePoint
      rw [hw, hv2]
      simp only
      cases hd : dataLossOf (v.map LPoint.asDict) c.hasRes j.isFirst c.si j.a j.b with
      | error e => rw [hd] at h; cases h
      | ok loss =>
        rw [hd] at h
        simp only at h ⊢
        rw [hks] at h ⊢
        rw [avgViewL_eq hlen] at h
        cases ha : avgView (listLabels n) j.a j.b (v.map LPoint.asDict) with
        | error e => rw [ha] at h; cases h
        | ok d =>
          rw [ha] at h
          cases h
          rfl

theorem foldl_set_nonempty (o : String) (l : Dict ℚ) (d : Dict ℚ) (h : l ≠ [] ∨ d ≠ []) :
    (l.foldl (fun d kv => d.set (kv.1 ++ o) kv.2) d).isEmpty = false := by
  induction l generalizing d with
  | nil =>
    rcases h with h | h
    · exact absurd rfl h
    · simpa using h
  | cons kv r ih =>
    rw [List.foldl_cons]
    apply ih
    right
    intro he
    have := Dict.get?_set d (kv.1 ++ o) (kv.1 ++ o) kv.2
    rw [he] at this
    simp [Dict.get?] at this

theorem computeSlotL_ok {c : Settings} {n : ℕ} (hks : c.ks = listLabels n) {unit : TUnit} {ps : List LPoint}
    (hps : ∀ p ∈ ps, p.data.length = n) {j : Job}
    {x : Item} (h : computeSlotL c unit ps j = .ok x) (w : Work) (hw : w.ps = ps.map LPoint.asDict) :
    computeSlot c unit [avgSlotOp] w j = .ok (x, { w with ws := writeWeights w j }) := by
  unfold computeSlotL at h
  split at h
  · cases h
  · rename_i hne
    cases hv : jobViewL ps j with
    | error e => rw [hv] at h; cases h
    | ok v =>
      rw [hv] at h
      obtain ⟨hv1, hv2⟩ := jobViewL_ok (c := c) hv
      have hlen : ∀ p ∈ v, p.data.length = n := fun p hp => hps p (idxSliceL_mem (by rw [← hv1]; exact hp))
      simp only [dataLossOf_bare, newIdx_bare] at h
      unfold computeSlot
      rw [hw, hv2]
      simp only
      cases hd : dataLossOf (v.map LPoint.asDict) c.hasRes j.isFirst c.si j.a j.b with
      | error e => rw [hd] at h; cases h
      | ok loss =>
        rw [hd] at h
        simp only at h ⊢
        have hsv : ∃ inner, slotView c (ps.map LPoint.asDict) j loss (v.map LPoint.asDict) = .ok (inner, v.map LPoint.asDict, ps.map LPoint.asDict) := by
          unfold slotViewL at h
          unfold slotView
          cases hf : j.first with
          | none =>
            cases hl : j.last with
            | none => rw [hf, hl] at h; cases h
            | some l => rw [hf, hl] at h; cases h
          | some f =>
            cases hl : j.last with
            | none => rw [hf, hl] at h; cases h
            | some l =>
              rw [hf, hl] at h
              simp only at h ⊢
              cases hi : denseListL (some j.a) (some j.b) (idxSliceL ps f (l + 1)) with
              | error e => rw [hi] at h; cases h
              | ok i =>
                obtain ⟨rfl, h2⟩ := denseListL_ok hi
                rw [← idxSliceL_asDict, h2 c.ks]
                exact ⟨_, rfl⟩
        obtain ⟨inner, hsv⟩ := hsv
        rw [hsv]
        simp only
        cases hs : slotViewL ps j loss with
        | error e => rw [hs] at h; cases h
        | ok i =>
          rw [hs] at h
          simp only at h
          unfold slotData
          by_cases hfill : loss = 1 ∧ fillTruthy c.fillWith = true
          · rw [if_pos hfill] at h ⊢
            simp only at h ⊢
            have e : c.ks.flatMap (fun k => [avgSlotOp].map (fun o => (k ++ "_" ++ o.name, c.fillWith.getD 0))) =
                c.ks.map (fun k => (k ++ "_avg", c.fillWith.getD 0)) := by
              rw [← List.flatMap_singleton' (c.ks.map _), List.flatMap_map]
              congr 1
              funext k
              simp only [List.map_cons, List.map_nil, avgSlotOp, String.append_assoc]
              rfl
            rw [e]
            rw [if_neg (by simp [hne])]
            cases h
            rfl
          · rw [if_neg hfill] at h ⊢
            rw [hks] at h ⊢
            rw [avgViewL_eq hlen] at h
            simp only [List.foldl_cons, List.foldl_nil, avgSlotOp, if_true]
            cases ha : avgView (listLabels n) j.a j.b (v.map LPoint.asDict) with
            | error e => rw [ha] at h; cases h
            | ok d =>
              rw [ha] at h
              simp only at h ⊢
              have hdk : d ≠ [] := by
                intro he
                have := perLabelDict_keys (by unfold avgView at ha; exact ha)
                rw [he] at this
                apply hne
                rw [hks, ← this]; rfl
              have e : (d.foldl (fun (d : Dict ℚ) (kv : String × ℚ) => d.set (kv.1 ++ "_" ++ "avg") kv.2) ([] : Dict ℚ)) =
                  d.foldl (fun (d : Dict ℚ) (kv : String × ℚ) => d.set (kv.1 ++ "_avg") kv.2) [] := by
                congr 1
                funext d kv
                rw [String.append_assoc]
                rfl
              rw [e, foldl_set_nonempty "_avg" d [] (Or.inl hdk)]
              simp only [Bool.false_eq_true, if_false]
              cases h
              rfl

theorem runJobsL_ok {fl : Job → Except PyErr Item} {f : Work → Job → Except PyErr (Item × Work)} {P : List VPoint}
    (h : ∀ j x, fl j = .ok x → ∀ w : Work, w.ps = P → ∃ ws, f w j = .ok (x, { w with ws := ws })) :
    ∀ (jobs : List Job) (out items : List Item) (w : Work), w.ps = P → runJobsL fl jobs out = .ok items →
      ∃ w', runJobs f jobs w out = .ok (items, w') := by
  intro jobs
  induction jobs with
  | nil => intro out items w _ hr; rw [runJobsL] at hr; cases hr; exact ⟨w, rfl⟩
  | cons j r ih =>
    intro out items w hw hr
    rw [runJobsL] at hr
    cases hj : fl j with
    | error e => rw [hj] at hr; cases hr
    | ok x =>
      rw [hj] at hr
      obtain ⟨ws, h1⟩ := h j x hj w hw
      obtain ⟨w', h2⟩ := ih (out ++ [x]) items { w with ws := ws } hw hr
      exact ⟨w', by rw [runJobs, h1]; exact h2⟩

theorem attachL_asDict (ps : List LPoint) (rs : List Region) :
    (attachL ps rs).map LPoint.asDict = attach (ps.map LPoint.asDict) rs := by
  unfold attachL attach
  rw [List.map_zipWith, List.zipWith_map_left]
  rfl

theorem attachL_length {ps : List LPoint} {rs : List Region} {n : ℕ} (h : ∀ p ∈ ps, p.data.length = n) :
    ∀ p ∈ attachL ps rs, p.data.length = n := by
  intro p hp
  unfold attachL at hp
  rw [List.zipWith_eq_zipWith_take_min] at hp
  obtain ⟨i, hi, rfl⟩ := List.getElem_of_mem hp
  rw [List.getElem_zipWith]
  have : (List.take (min ps.length rs.length) ps)[i]'(by rw [List.length_zipWith] at hi; omega) ∈ ps := List.mem_of_mem_take (List.getElem_mem _)
  have h2 := h _ this
  exact h2

/-- a list has no gaps for the sampling interval: consecutive points are at most that far apart -/
def NoGaps (si : ℚ) (ps : List LPoint) : Prop := (ps.map LPoint.t).IsChain (fun a b => b - a ≤ si)

instance (si : ℚ) (ps : List LPoint) : Decidable (NoGaps si ps) := by unfold NoGaps; infer_instance

/-- **C351** (when it succeeds): if a resampling, or an aggregation with the average, of a series of lists succeeds, then the same transformation of the same numbers
under the keys `"0"`, `"1"`, … succeeds and gives the same items. -/
theorem C351_same_partial (g : Grid) (tg : Target) (c : Settings) (unit : TUnit) (start stop : Option ℚ) (ps : List LPoint) (n : ℕ)
    (hps : ∀ p ∈ ps, p.data.length = n) (items : List Item) (h : processL g tg c unit start stop ps = .ok items) :
    ∃ w, process g tg { c with ks := listLabels n } unit [avgSlotOp] start stop (ps.map LPoint.asDict) = .ok (items, w) := by
  unfold processL at h
  unfold process
  rw [List.head?_map, List.getLast?_map]
  cases hh : ps.head? with
  | none => rw [hh] at h; cases h
  | some p0 =>
    cases hl : ps.getLast? with
    | none => rw [hh, hl] at h; cases h
    | some pl =>
      rw [hh, hl] at h
      simp only [Option.map_some] at h ⊢
      have ht0 : p0.asDict.t = p0.t := rfl
      have htl : pl.asDict.t = pl.t := rfl
      rw [ht0, htl]
      cases hf : processFrom g tg start p0.t with
      | error e => rw [hf] at h; cases h
      | ok fromT =>
        rw [hf] at h
        cases hto : processTo g stop pl.t with
        | error e => rw [hto] at h; cases h
        | ok toT =>
          rw [hto] at h
          simp only at h ⊢
          have ets : (ps.map LPoint.asDict).map VPoint.t = ps.map LPoint.t := by rw [List.map_map]; rfl
          have e0 : p0.data.length = n := hps p0 (List.mem_of_mem_head? hh)
          rw [ets, ← attachL_asDict]
          rw [e0] at h
          have hlen := attachL_length (rs := regionsLoop c.si none none false none (ps.map LPoint.t)) hps
          cases tg with
          | points =>
            exact runJobsL_ok (fun j x hj w hw => ⟨_, computePointL_ok rfl hlen hj w hw⟩) _ _ _ _ rfl h
          | slots =>
            exact runJobsL_ok (fun j x hj w hw => ⟨_, computeSlotL_ok rfl hlen hj w hw⟩) _ _ _ _ rfl h

theorem attachL_chain {si : ℚ} (hsi : 0 < si) {ps : List LPoint} (hs : (ps.map LPoint.t).Pairwise (· < ·)) (hg : NoGaps si ps) :
    (attachL ps (regionsLoop si none none false none (ps.map LPoint.t))).IsChain (fun p q => q.vf ≤ p.vt) := by
  rw [regionsLoop_none si _ hs]
  obtain ⟨h1, _, h3⟩ := expectedRegions_spec si hsi (ps.map LPoint.t) none hs (by simp)
  set rs := expectedRegions si none (ps.map LPoint.t) with hrs
  have hl : rs.length = ps.length := by simpa using congrArg List.length h1
  unfold NoGaps at hg
  rw [List.isChain_iff_getElem] at hg h3 ⊢
  intro i hi
  have hi' : i + 1 < ps.length := by
    unfold attachL at hi
    rw [List.length_zipWith] at hi
    omega
  have g1 := hg i (by rw [List.length_map]; exact hi')
  have g2 := h3 i (by rw [hl]; exact hi')
  have ht : ∀ (k : ℕ) (hk : k < ps.length), (rs[k]'(by rw [hl]; exact hk)).t = ps[k].t := by
    intro k hk
    have : (rs.map Region.t)[k]? = (ps.map LPoint.t)[k]? := by rw [h1]
    rw [List.getElem?_map, List.getElem?_map, List.getElem?_eq_getElem hk, List.getElem?_eq_getElem (by rw [hl]; exact hk)] at this
    simpa using this
  have e := g2.2.1 (by rw [ht _ hi', ht i (by omega)]; simpa using g1)
  unfold attachL
  have hz : ∀ (k : ℕ) (hk : k < (List.zipWith (fun (p : LPoint) (r : Region) => ({ p with vf := r.a, vt := r.b } : LPoint)) ps rs).length),
      ∃ (h1 : k < rs.length), (List.zipWith (fun (p : LPoint) (r : Region) => ({ p with vf := r.a, vt := r.b } : LPoint)) ps rs)[k].vf = rs[k].a ∧
        (List.zipWith (fun (p : LPoint) (r : Region) => ({ p with vf := r.a, vt := r.b } : LPoint)) ps rs)[k].vt = rs[k].b := by
    intro k hk
    refine ⟨by rw [List.length_zipWith] at hk; omega, ?_, ?_⟩ <;> rw [List.getElem_zipWith]
  obtain ⟨_, a1, _⟩ := hz (i + 1) hi
  obtain ⟨_, _, a2⟩ := hz i (by unfold attachL at hi; omega)
  rw [a1, a2]
  exact le_of_eq e.symm

theorem computePointL_eq {c : Settings} {n : ℕ} (hn : n ≠ 0) (hks : c.ks = listLabels n) {ps : List LPoint} (hps : ∀ p ∈ ps, p.data.length = n)
    (hch : ps.IsChain (fun p q => q.vf ≤ p.vt)) {j : Job} (w : Work) (hw : w.ps = ps.map LPoint.asDict) :
    computePointL c ps j = (computePoint c w j).map Prod.fst ∧ ∀ x w', computePoint c w j = .ok (x, w') → w'.ps = w.ps := by
  have hne : c.ks ≠ [] := by
    rw [hks]
    unfold listLabels
    simpa using hn
  have hv : jobViewL ps j = .ok (idxSliceL ps j.viewStart (j.next + 1)) := by
    unfold jobViewL
    apply denseListL_noGap
    unfold idxSliceL
    exact (hch.drop _).take _
  obtain ⟨_, hv2⟩ := jobViewL_ok (c := c) hv
  have hlen : ∀ p ∈ idxSliceL ps j.viewStart (j.next + 1), p.data.length = n := fun p hp => hps p (idxSliceL_mem hp)
  unfold computePointL computePoint
  rw [if_neg hne, hv, hw, hv2]
  simp only [dataLossOf_bare, newIdx_bare]
  cases hd : dataLossOf ((idxSliceL ps j.viewStart (j.next + 1)).map LPoint.asDict) c.hasRes j.isFirst c.si j.a j.b with
  | error e => exact ⟨rfl, fun x w' h => by cases h⟩
  | ok loss =>
    simp only
    rw [hks, avgViewL_eq hlen]
    cases ha : avgView (listLabels n) j.a j.b ((idxSliceL ps j.viewStart (j.next + 1)).map LPoint.asDict) with
    | error e => exact ⟨rfl, fun x w' h => by cases h⟩
    | ok d => exact ⟨rfl, fun x w' h => by cases h; rw [← hw]⟩

theorem runJobsL_eq {fl : Job → Except PyErr Item} {f : Work → Job → Except PyErr (Item × Work)} {P : List VPoint}
    (h : ∀ j (w : Work), w.ps = P → fl j = (f w j).map Prod.fst ∧ ∀ x w', f w j = .ok (x, w') → w'.ps = w.ps) :
    ∀ (jobs : List Job) (out : List Item) (w : Work), w.ps = P → runJobsL fl jobs out = (runJobs f jobs w out).map Prod.fst := by
  intro jobs
  induction jobs with
  | nil => intro out w _; rfl
  | cons j r ih =>
    intro out w hw
    obtain ⟨h1, h2⟩ := h j w hw
    rw [runJobsL, runJobs, h1]
    cases hf : f w j with
    | error e => rfl
    | ok y =>
      obtain ⟨x, w'⟩ := y
      exact ih (out ++ [x]) w' (by rw [h2 x w' hf, hw])

/-- **C351** (series without gaps): resampling a series of lists (not empty) whose consecutive points are no further apart than the sampling interval is exactly
resampling the same numbers under the keys `"0"`, `"1"`, …, whatever the unit, the start and the end: the same items, or the same exception. -/
theorem C351_resample_partial (g : Grid) (c : Settings) (unit : TUnit) (start stop : Option ℚ) (ps : List LPoint) (n : ℕ) (hn : n ≠ 0)
    (hps : ∀ p ∈ ps, p.data.length = n) (hs : (ps.map LPoint.t).Pairwise (· < ·)) (hsi : 0 < c.si) (hg : NoGaps c.si ps) :
    processL g .points c unit start stop ps =
      (process g .points { c with ks := listLabels n } unit [avgSlotOp] start stop (ps.map LPoint.asDict)).map Prod.fst := by
  unfold processL process
  rw [List.head?_map, List.getLast?_map]
  cases hh : ps.head? with
  | none => rfl
  | some p0 =>
    cases hl : ps.getLast? with
    | none => rfl
    | some pl =>
      simp only [Option.map_some]
      have ht0 : p0.asDict.t = p0.t := rfl
      have htl : pl.asDict.t = pl.t := rfl
      rw [ht0, htl]
      cases hf : processFrom g .points start p0.t with
      | error e => rfl
      | ok fromT =>
        cases hto : processTo g stop pl.t with
        | error e => rfl
        | ok toT =>
          simp only
          have ets : (ps.map LPoint.asDict).map VPoint.t = ps.map LPoint.t := by rw [List.map_map]; rfl
          have e0 : p0.data.length = n := hps p0 (List.mem_of_mem_head? hh)
          rw [ets, ← attachL_asDict, e0]
          exact runJobsL_eq (fun j w hw => computePointL_eq hn rfl (attachL_length hps) (attachL_chain hsi hs hg) w hw) _ _ _ rfl

/-- **C351** (resampling without gaps): resampling such a series to a unit of `u` seconds always succeeds; the points are at the middles of consecutive units, and
each carries a dictionary with the positions of the list as keys, never a list. -/
theorem C351_succeeds_partial (g : Grid) (u : ℚ) (hu : g.Physical u) (c : Settings) (unit : TUnit) (ps : List LPoint) (n : ℕ) (hn : n ≠ 0) (hne : ps ≠ [])
    (hps : ∀ p ∈ ps, p.data.length = n) (hs : (ps.map LPoint.t).Pairwise (· < ·)) (hsi : 0 < c.si) (hg : NoGaps c.si ps) :
    ∃ items s, processL g .points c unit none none ps = .ok items ∧
      items.map Item.t = (List.range items.length).map (fun k => s + (k : ℕ) * u) ∧
      ∀ x ∈ items, x.slot = none ∧ ∃ d, x.data = some (.dict d) ∧ d.keys = (List.range n).map strNat := by
  have hin : InputSeries (listLabels n) (ps.map LPoint.asDict) := by
    refine ⟨by simpa using hne, ?_, ?_, ?_⟩
    · rw [List.map_map]; exact hs
    · intro p hp
      obtain ⟨q, _, rfl⟩ := List.mem_map.1 hp
      rfl
    · intro p hp k hk
      obtain ⟨q, hq, rfl⟩ := List.mem_map.1 hp
      obtain ⟨v, _, h2⟩ := byLabel_asDict q (hps q hq) hk
      exact ⟨v, h2⟩
  obtain ⟨items, w, s, h1, _, _, _, h5, h6, _⟩ := C46_resampling g u hu { c with ks := listLabels n } unit [avgSlotOp] (ps.map LPoint.asDict) hsi hin
  have h7 := C351_resample_partial g c unit none none ps n hn hps hs hsi hg
  rw [h1] at h7
  refine ⟨items, s, h7, h5, ?_⟩
  intro x hx
  refine ⟨(h6 x hx).2.1, ?_⟩
  -- every item is the result of `computePointL`
  have key : ∀ (jobs : List Job) (fl : Job → Except PyErr Item), (∀ j x, fl j = .ok x → ∃ d, x.data = some (.dict d) ∧ d.keys = (List.range n).map strNat) →
      ∀ out items, (∀ x ∈ out, ∃ d, x.data = some (.dict d) ∧ d.keys = (List.range n).map strNat) → runJobsL fl jobs out = .ok items →
      ∀ x ∈ items, ∃ d, x.data = some (.dict d) ∧ d.keys = (List.range n).map strNat := by
    intro jobs fl hfl
    induction jobs with
    | nil => intro out items ho hr; rw [runJobsL] at hr; cases hr; exact ho
    | cons j r ih =>
      intro out items ho hr
      rw [runJobsL] at hr
      cases hj : fl j with
      | error e => rw [hj] at hr; cases hr
      | ok y =>
        rw [hj] at hr
        refine ih (out ++ [y]) items ?_ hr
        intro z hz
        rw [List.mem_append, List.mem_singleton] at hz
        rcases hz with hz | rfl
        · exact ho z hz
        · exact hfl j z hj
  have h8 : processL g .points c unit none none ps = .ok items := h7
  unfold processL at h8
  cases hh : ps.head? with
  | none => rw [hh] at h8; cases h8
  | some p0 =>
    cases hl : ps.getLast? with
    | none => rw [hh, hl] at h8; cases h8
    | some pl =>
      rw [hh, hl] at h8
      simp only at h8
      cases hf : processFrom g .points none p0.t with
      | error e => rw [hf] at h8; cases h8
      | ok fromT =>
        rw [hf] at h8
        cases hto : processTo g none pl.t with
        | error e => rw [hto] at h8; cases h8
        | ok toT =>
          rw [hto] at h8
          simp only at h8
          have e0 : p0.data.length = n := hps p0 (List.mem_of_mem_head? hh)
          rw [e0] at h8
          refine key _ _ ?_ [] items (by simp) h8 x hx
          intro j y hy
          unfold computePointL at hy
          split at hy
          · cases hy
          · cases hv : jobViewL (attachL ps (regionsLoop c.si none none false none (ps.map LPoint.t))) j with
            | error e => rw [hv] at hy; cases hy
            | ok v =>
              rw [hv] at hy
              simp only at hy
              cases hd : dataLossOf (v.map LPoint.bare) c.hasRes j.isFirst c.si j.a j.b with
              | error e => rw [hd] at hy; cases hy
              | ok loss =>
                rw [hd] at hy
                simp only at hy
                cases ha : avgViewL (listLabels n) j.a j.b v with
                | error e => rw [ha] at hy; cases hy
                | ok d =>
                  rw [ha] at hy
                  cases hy
                  exact ⟨d, rfl, perLabelDict_keys (by unfold avgViewL at ha; exact ha)⟩

/-- points of a series of lists with two values, each half a minute, and the same with some missing -/
def fullLists : List LPoint :=
  [⟨0, 0, 0, [1, 10], []⟩, ⟨30, 0, 0, [2, 20], []⟩, ⟨60, 0, 0, [3, 30], []⟩, ⟨90, 0, 0, [4, 40], []⟩, ⟨120, 0, 0, [5, 50], []⟩, ⟨150, 0, 0, [6, 60], []⟩]
def gapLists : List LPoint :=
  [⟨0, 0, 0, [1, 10], []⟩, ⟨30, 0, 0, [2, 20], []⟩, ⟨120, 0, 0, [5, 50], []⟩, ⟨150, 0, 0, [6, 60], []⟩]
def listSettings : Settings := { ks := [], si := 30, hasRes := true }

/-- **C351** is false with gaps: the missing points must be interpolated, and that fails on lists, with a `TypeError`, when the same numbers in dictionaries are
resampled. -/
theorem C351_false : processL grid60 .points listSettings (.ofSecs 60) none none gapLists = .error .typeError ∧
    ((process grid60 .points { listSettings with ks := ["0", "1"] } (.ofSecs 60) [avgSlotOp] none none (gapLists.map LPoint.asDict)).toOption.map
      (fun r => r.1.map (fun x => (x.t, x.data)))) = some [(60, some (.dict [("0", 47/16), ("1", 235/8)])), (120, some (.dict [("0", 81/16), ("1", 405/8)]))] := by
  decide +kernel

/-- **C351**: a series of lists without gaps, as the theorems ask for, and what resampling gives -/
theorem C351_witness : (∀ p ∈ fullLists, p.data.length = 2) ∧ (fullLists.map LPoint.t).Pairwise (· < ·) ∧ 0 < listSettings.si ∧ NoGaps listSettings.si fullLists ∧
    grid60.Physical 60 ∧ ¬ NoGaps listSettings.si gapLists ∧
    ((processL grid60 .points listSettings (.ofSecs 60) none none fullLists).toOption.map (fun l => l.map (fun x => (x.t, x.data)))) =
      some [(60, some (.dict [("0", 3), ("1", 30)])), (120, some (.dict [("0", 5), ("1", 50)]))] ∧
    ((processL grid60 .slots listSettings (.ofSecs 60) none none fullLists).toOption.map (fun l => l.map (fun x => (x.t, x.data)))) =
      some [(0, some (.dict [("0_avg", 2), ("1_avg", 20)])), (60, some (.dict [("0_avg", 4), ("1_avg", 40)]))] := by
  refine ⟨by decide +kernel, by decide +kernel, by decide +kernel, by decide +kernel, physGrid_physical _ _, by decide +kernel, by decide +kernel, ?_⟩
  decide +kernel

end Timeseria
