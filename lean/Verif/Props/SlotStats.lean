import Verif.Model.SlotOps
import Verif.Props.MeanValues
import Verif.Props.Evaluate

/-! # Aggregations with operations other than the average: C279 to C282 -/

namespace Timeseria

/-! ## What a slot is computed from -/

theorem computeSlot_inv {c : Settings} {unit : TUnit} {ops : List SlotOp} {w w' : Work} {j : Job} {x : Item}
    (h : computeSlot c unit ops w j = .ok (x, w')) :
    ∃ view loss inner view' ps' d, jobView c w.ps j = .ok view ∧
      dataLossOf view c.hasRes j.isFirst c.si j.a j.b = .ok loss ∧
      slotView c w.ps j loss view = .ok (inner, view', ps') ∧ slotData c ops j.a j.b loss view' inner = .ok d ∧ d ≠ [] ∧
      x = { t := j.a, slot := some (j.b, unit), tz := c.tz, data := some (.dict d),
            idx := newIdx c.names (c.forceLoss.getD loss) j.a j.b view' } ∧
      w' = { ps := ps', ws := writeWeights w j } := by
  unfold computeSlot at h
  split at h
  · cases h
  next view hv =>
    split at h
    · cases h
    next loss hl =>
      split at h
      · cases h
      next inner view' ps' hsv =>
        split at h
        · cases h
        next d hd =>
          split at h
          · cases h
          next hne =>
            cases h
            exact ⟨view, loss, inner, view', ps', d, hv, hl, hsv, hd, by simpa using hne, rfl, rfl⟩

/-! ## The data of a slot, operation by operation -/

/-- no name of an operation has an underscore in it, and operations with the same name are the same -/
def ClearNames (ops : List SlotOp) : Prop :=
  (∀ o ∈ ops, '_' ∉ o.name.toList) ∧ ∀ o ∈ ops, ∀ o' ∈ ops, o.name = o'.name → o = o'

theorem ClearNames.apart {ops : List SlotOp} (h : ClearNames ops) {o o' : SlotOp} (ho : o ∈ ops) (ho' : o' ∈ ops) {k k' : String}
    (e : k' ++ "_" ++ o'.name = k ++ "_" ++ o.name) : o' = o ∧ k' = k := by
  obtain ⟨a, b⟩ := suffixed_inj (h.1 o' ho') (h.1 o ho) e
  exact ⟨h.2 o' ho' o ho b, a⟩

theorem foldl_set_other (l : Dict ℚ) (f : String → String) (K : String) (h : ∀ k, f k ≠ K) : ∀ d : Dict ℚ,
    Dict.get? (l.foldl (fun d kv => Dict.set d (f kv.1) kv.2) d) K = d.get? K := by
  induction l with
  | nil => intro d; rfl
  | cons x r ih =>
    intro d
    rw [List.foldl_cons, ih, Dict.get?_set, if_neg]
    exact fun e => h _ e

/-- what one operation adds to the data of a slot -/
def addOp (c : Settings) (a b : ℚ) (view inner : List VPoint) (acc : Except PyErr (Dict ℚ)) (o : SlotOp) : Except PyErr (Dict ℚ) :=
  match acc with
  | .error e => .error e
  | .ok d =>
    match o.run c.ks a b (if o.weighted then view else inner) with
    | .error e => .error e
    | .ok r => .ok (r.foldl (fun d kv => d.set (kv.1 ++ "_" ++ o.name) kv.2) d)

theorem addOp_error {c : Settings} {a b : ℚ} {view inner : List VPoint} (ops : List SlotOp) (e : PyErr) :
    ops.foldl (addOp c a b view inner) (.error e) = .error e := by
  induction ops with
  | nil => rfl
  | cons o r ih => exact ih

theorem slotData_addOp {c : Settings} {ops : List SlotOp} {a b loss : ℚ} {view inner : List VPoint} (hf : c.fillWith = none) :
    slotData c ops a b loss view inner = ops.foldl (addOp c a b view inner) (.ok []) := by
  unfold slotData
  rw [if_neg (by simp [hf, fillTruthy])]
  rfl

theorem slotOps_get {c : Settings} {a b : ℚ} {view inner : List VPoint} {o : SlotOp} {k : String} {r : Dict ℚ}
    (hnd : c.ks.Nodup) (hk : k ∈ c.ks) (hr : o.run c.ks a b (if o.weighted then view else inner) = .ok r) (hrk : r.keys = c.ks)
    (ops : List SlotOp) (hap : ∀ o' ∈ ops, ∀ k', k' ++ "_" ++ o'.name = k ++ "_" ++ o.name → o' = o) :
    ∀ acc d : Dict ℚ, ops.foldl (addOp c a b view inner) (.ok acc) = .ok d →
      (o ∈ ops → d.get? (k ++ "_" ++ o.name) = r.get? k) ∧ (o ∉ ops → d.get? (k ++ "_" ++ o.name) = acc.get? (k ++ "_" ++ o.name)) := by
  induction ops with
  | nil =>
    intro acc d h
    cases h
    exact ⟨fun h => by simp at h, fun _ => rfl⟩
  | cons o1 os ih =>
    intro acc d h
    rw [List.foldl_cons] at h
    have ih := ih (fun o' ho' => hap o' (by simp [ho']))
    by_cases e : o1 = o
    · subst e
      rw [show addOp c a b view inner (.ok acc) o1 = .ok (r.foldl (fun d kv => d.set (kv.1 ++ "_" ++ o1.name) kv.2) acc) by
        unfold addOp; dsimp only; rw [hr]] at h
      have hi := ih _ _ h
      have h1 : Dict.get? (r.foldl (fun d kv => d.set (kv.1 ++ "_" ++ o1.name) kv.2) acc) (k ++ "_" ++ o1.name) = r.get? k := by
        have := (foldl_set_suffix (s := "_" ++ o1.name) r acc k).2 (hrk ▸ hnd) (hrk ▸ hk)
        simpa only [String.append_assoc] using this
      refine ⟨fun _ => ?_, fun hn => by simp at hn⟩
      by_cases hm : o1 ∈ os
      · exact hi.1 hm
      · rw [hi.2 hm, h1]
    · cases hr1 : o1.run c.ks a b (if o1.weighted then view else inner) with
      | error e =>
        rw [show addOp c a b view inner (.ok acc) o1 = .error e by unfold addOp; dsimp only; rw [hr1], addOp_error] at h
        cases h
      | ok r1 =>
        rw [show addOp c a b view inner (.ok acc) o1 = .ok (r1.foldl (fun d kv => d.set (kv.1 ++ "_" ++ o1.name) kv.2) acc) by
          unfold addOp; dsimp only; rw [hr1]] at h
        have hi := ih _ _ h
        have h1 := foldl_set_other r1 (fun x => x ++ "_" ++ o1.name) (k ++ "_" ++ o.name)
          (fun k' e' => e (hap o1 (by simp) k' e')) acc
        constructor
        · intro hm
          rcases List.mem_cons.1 hm with hm | hm
          · exact absurd hm.symm e
          · exact hi.1 hm
        · intro hm
          rw [hi.2 (fun h => hm (by simp [h]))]
          exact h1

theorem slotOps_runs {c : Settings} {a b : ℚ} {view inner : List VPoint} (ops : List SlotOp) :
    ∀ acc d : Dict ℚ, ops.foldl (addOp c a b view inner) (.ok acc) = .ok d →
      ∀ o ∈ ops, ∃ r, o.run c.ks a b (if o.weighted then view else inner) = .ok r := by
  induction ops with
  | nil => intro acc d _ o ho; simp at ho
  | cons o1 os ih =>
    intro acc d h o ho
    rw [List.foldl_cons] at h
    cases hr1 : o1.run c.ks a b (if o1.weighted then view else inner) with
    | error e =>
      rw [show addOp c a b view inner (.ok acc) o1 = .error e by unfold addOp; dsimp only; rw [hr1], addOp_error] at h
      cases h
    | ok r1 =>
      rcases List.mem_cons.1 ho with ho | ho
      · subst ho; exact ⟨r1, hr1⟩
      · rw [show addOp c a b view inner (.ok acc) o1 = .ok (r1.foldl (fun d kv => d.set (kv.1 ++ "_" ++ o1.name) kv.2) acc) by
          unfold addOp; dsimp only; rw [hr1]] at h
        exact ih _ _ h o ho

/-- the value of the operation `o` in a slot computed with several -/
theorem slotData_get {c : Settings} {ops : List SlotOp} {a b loss : ℚ} {view inner : List VPoint} {d : Dict ℚ}
    (hf : c.fillWith = none) (hnd : c.ks.Nodup) (hcn : ClearNames ops)
    (hkeys : ∀ o ∈ ops, ∀ a b v d, o.run c.ks a b v = .ok d → d.keys = c.ks)
    (h : slotData c ops a b loss view inner = .ok d) {o : SlotOp} (ho : o ∈ ops) :
    ∃ r, o.run c.ks a b (if o.weighted then view else inner) = .ok r ∧ ∀ k ∈ c.ks, d.get? (k ++ "_" ++ o.name) = r.get? k := by
  rw [slotData_addOp hf] at h
  obtain ⟨r, hr⟩ := slotOps_runs ops _ _ h o ho
  refine ⟨r, hr, fun k hk => ?_⟩
  exact (slotOps_get hnd hk hr (hkeys o ho _ _ _ _ hr) ops (fun o' ho' k' e => (hcn.apart ho ho' e).1) _ _ h).1 ho

/-! ## One operation at a time -/

/-- two slots at the same place, with the same indexes and the same values of one operation -/
structure SameOpValue (ks : List String) (name : String) (x y : Item) : Prop where
  time : y.t = x.t
  slot : y.slot = x.slot
  zone : y.tz = x.tz
  idx : y.idx = x.idx
  value : ∀ k ∈ ks, y.value? (k ++ "_" ++ name) = x.value? (k ++ "_" ++ name)

theorem dict_value? {x : Item} {d : Dict ℚ} (h : x.data = some (.dict d)) (k : String) : x.value? k = d.get? k := by
  unfold Item.value?
  rw [h]
  rfl

theorem computeSlot_one {c : Settings} {unit : TUnit} {ops : List SlotOp} {w w' : Work} {j : Job} {x : Item}
    (hf : c.fillWith = none) (hnd : c.ks.Nodup) (hks : c.ks ≠ []) (hcn : ClearNames ops)
    (hkeys : ∀ o ∈ ops, ∀ a b v d, o.run c.ks a b v = .ok d → d.keys = c.ks) {o : SlotOp} (ho : o ∈ ops)
    (h : computeSlot c unit ops w j = .ok (x, w')) :
    ∃ y, computeSlot c unit [o] w j = .ok (y, w') ∧ SameOpValue c.ks o.name x y := by
  obtain ⟨view, loss, inner, view', ps', d, h1, h2, h3, h4, _, rfl, rfl⟩ := computeSlot_inv h
  obtain ⟨r, hr, hd⟩ := slotData_get hf hnd hcn hkeys h4 ho
  have hrk := hkeys o ho _ _ _ _ hr
  have hone : slotData c [o] j.a j.b loss view' inner = .ok (r.foldl (fun d kv => d.set (kv.1 ++ "_" ++ o.name) kv.2) []) := by
    rw [slotData_addOp hf, List.foldl_cons, List.foldl_nil]
    unfold addOp
    dsimp only
    rw [hr]
  have hne : r.foldl (fun d kv => Dict.set d (kv.1 ++ "_" ++ o.name) kv.2) [] ≠ [] := by
    have := foldl_set_ne_nil (l := r) (s := "_" ++ o.name) [] (.inl (by rintro rfl; exact hks (by simpa [Dict.keys] using hrk.symm)))
    simpa [String.append_assoc] using this
  refine ⟨{ t := j.a, slot := some (j.b, unit), tz := c.tz,
            data := some (.dict (r.foldl (fun d kv => d.set (kv.1 ++ "_" ++ o.name) kv.2) [])),
            idx := newIdx c.names (c.forceLoss.getD loss) j.a j.b view' }, ?_, rfl, rfl, rfl, rfl, ?_⟩
  · unfold computeSlot
    rw [h1]
    dsimp only
    rw [h2]
    dsimp only
    rw [h3]
    dsimp only
    rw [hone]
    dsimp only
    rw [if_neg (by simpa using hne)]
  · intro k hk
    rw [dict_value? rfl, dict_value? rfl, hd k hk]
    have := (foldl_set_suffix (s := "_" ++ o.name) r [] k).2 (hrk ▸ hnd) (hrk ▸ hk)
    simpa only [String.append_assoc] using this

theorem runJobs_one {c : Settings} {unit : TUnit} {ops : List SlotOp} (hf : c.fillWith = none) (hnd : c.ks.Nodup) (hks : c.ks ≠ [])
    (hcn : ClearNames ops) (hkeys : ∀ o ∈ ops, ∀ a b v d, o.run c.ks a b v = .ok d → d.keys = c.ks) {o : SlotOp} (ho : o ∈ ops)
    (jobs : List Job) : ∀ (w w' : Work) (out out2 res : List Item), List.Forall₂ (SameOpValue c.ks o.name) out out2 →
      runJobs (computeSlot c unit ops) jobs w out = .ok (res, w') →
      ∃ res2, runJobs (computeSlot c unit [o]) jobs w out2 = .ok (res2, w') ∧ List.Forall₂ (SameOpValue c.ks o.name) res res2 := by
  induction jobs with
  | nil =>
    intro w w' out out2 res hR h
    cases h
    exact ⟨out2, rfl, hR⟩
  | cons j r ih =>
    intro w w' out out2 res hR h
    rw [runJobs] at h
    cases hx : computeSlot c unit ops w j with
    | error e => rw [hx] at h; cases h
    | ok xw =>
      obtain ⟨x, w1⟩ := xw
      rw [hx] at h
      obtain ⟨y, hy, hxy⟩ := computeSlot_one hf hnd hks hcn hkeys ho hx
      obtain ⟨res2, h1, h2⟩ := ih w1 w' (out ++ [x]) (out2 ++ [y]) res
        (List.rel_append hR (List.Forall₂.cons hxy List.Forall₂.nil)) h
      refine ⟨res2, ?_, h2⟩
      rw [runJobs, hy]
      exact h1

theorem process_one {g : Grid} {c : Settings} {unit : TUnit} {ops : List SlotOp} {start stop : Option ℚ} {ps : List VPoint}
    (hf : c.fillWith = none) (hnd : c.ks.Nodup) (hks : c.ks ≠ [])
    (hcn : ClearNames ops) (hkeys : ∀ o ∈ ops, ∀ a b v d, o.run c.ks a b v = .ok d → d.keys = c.ks) {o : SlotOp} (ho : o ∈ ops)
    {items : List Item} {w : Work} (h : process g .slots c unit ops start stop ps = .ok (items, w)) :
    ∃ items2, process g .slots c unit [o] start stop ps = .ok (items2, w) ∧ List.Forall₂ (SameOpValue c.ks o.name) items items2 := by
  unfold process at h ⊢
  cases h0 : ps.head? with
  | none => rw [h0] at h; cases h
  | some p0 =>
    cases hl : ps.getLast? with
    | none => rw [h0, hl] at h; cases h
    | some pl =>
      rw [h0, hl] at h
      dsimp only at h ⊢
      cases h1 : processFrom g .slots start p0.t with
      | error e => rw [h1] at h; cases h
      | ok fromT =>
        cases h2 : processTo g stop pl.t with
        | error e => rw [h1, h2] at h; cases h
        | ok toT =>
          rw [h1, h2] at h
          dsimp only at h ⊢
          exact runJobs_one hf hnd hks hcn hkeys ho _ _ _ _ _ _ List.Forall₂.nil h

/-- the labels an operation gives results for are those of the series, whatever it computes -/
def KeepsLabels (o : SlotOp) : Prop := ∀ ks a b v d, o.run ks a b v = .ok d → d.keys = ks

/-- **C281**: aggregating a series without data losses with several operations (whose names have no underscores and are different)
gives, slot by slot, the values that each of them gives on its own, with the same slots and the same data indexes. -/
theorem C281_operations_partial (clk : String → Grid) (n : ℕ) (z : String) (l : List Item) (s : TSeries) (h : DataSeries z l s)
    (hl : Lossless l) (hnd : LabelsOnce l) (unit : TUnit) (ops : List SlotOp) (hcn : ClearNames ops)
    (htot : ∀ ks, ks ≠ [] → ∀ o ∈ ops, OpTotal ks o) (hk : ∀ o ∈ ops, KeepsLabels o) (D : ℚ) (hpos : 0 < D)
    (hv : frontValidity n none (times l) = some (.ok D)) (o : SlotOp) (ho : o ∈ ops) :
    ∃ r q, s.aggregate clk n unit ops = some (.ok r) ∧ s.aggregate clk n unit [o] = some (.ok q) ∧
      q.items.length = r.items.length ∧
      ∀ (i : ℕ) (x y : Item), r.items[i]? = some x → q.items[i]? = some y →
        y.t = x.t ∧ y.endT = x.endT ∧ y.tz = x.tz ∧ y.idx = x.idx ∧
        ∀ k, SeriesLabel l k → ∃ v, y.value? (k ++ "_" ++ o.name) = some v ∧ x.value? (k ++ "_" ++ o.name) = some v := by
  have hops : ops ≠ [] := List.ne_nil_of_mem ho
  obtain ⟨ks, ps, hs⟩ := h.seen
  have hv' : frontValidity n none (ps.map VPoint.t) = some (.ok D) := by rw [hs.times]; exact hv
  generalize hc : frontSettings s ks z {} D = c
  have hcsi : c.si = D := by rw [← hc]; rfl
  have hcks : c.ks = ks := by rw [← hc]; rfl
  have hcf : c.fillWith = none := by rw [← hc]; rfl
  have hinp : InputSeries c.ks ps := hcks ▸ hs.input
  have hsi' : 0 < c.si := hcsi ▸ hpos
  have hks : c.ks ≠ [] := hcks ▸ hs.nonempty
  have hn : NoPreviousLoss ps := by
    intro p hp
    obtain ⟨y, hy, _, _, hyi⟩ := hs.from_items p hp
    unfold VPoint.dataLoss
    rw [hyi]
    exact hl y hy
  have run : ∀ os : List SlotOp, os ≠ [] → (∀ o ∈ os, o ∈ ops) → ∃ items w r, process (clk z) .slots c unit os none none ps = .ok (items, w) ∧
      TSeries.build items = .ok r ∧ r.items = items ∧ s.aggregate clk n unit os = some (.ok r) := by
    intro os hos hsub
    obtain ⟨items, w, r, b1, b2, b3, _⟩ := C96_aggregated (clk z) c unit os ps hsi' hinp hn hks hos
      (fun o ho => htot _ hks o (hsub o ho)) (fun o ho a b v d hr => hk o (hsub o ho) _ a b v d hr)
    refine ⟨items, w, r, b1, b2, b3, ?_⟩
    unfold TSeries.aggregate aggregatorInit
    rw [if_neg (by simpa using hos)]
    dsimp only
    rw [hs.front]
    exact front_default hs.input.ne hv' (hc ▸ b1) b2
  obtain ⟨items, w, r, a1, _, a3, a4⟩ := run ops hops (fun o ho => ho)
  obtain ⟨items2, w2, q, b1, _, b3, b4⟩ := run [o] (by simp) (fun o' ho' => by rw [List.mem_singleton.1 ho']; exact ho)
  obtain ⟨items3, c1, c2⟩ := process_one hcf (hcks ▸ hs.nodup hnd) hks hcn (fun o ho a b v d hr => hk o ho _ a b v d hr) ho a1
  rw [b1] at c1
  simp only [Except.ok.injEq, Prod.mk.injEq] at c1
  obtain ⟨rfl, rfl⟩ := c1
  obtain ⟨q', e1, e2, _⟩ := aggregated_of (clk := clk) h hl (unit := unit) (ops := [o]) (by simp)
    (fun ks hks o' ho' => by rw [List.mem_singleton.1 ho']; exact htot ks hks o ho)
    (fun ks o' ho' a b v d hr => by rw [List.mem_singleton.1 ho'] at hr; exact hk o ho _ a b v d hr) hpos hv
  rw [b4] at e1
  cases e1
  refine ⟨r, q, a4, b4, by rw [a3, b3]; exact c2.length_eq.symm, ?_⟩
  intro i x y hx hy
  rw [a3] at hx
  rw [b3] at hy
  have hi : i < items.length := (List.getElem?_eq_some_iff.1 hx).1
  have hi2 : i < items2.length := (List.getElem?_eq_some_iff.1 hy).1
  have hR := (List.forall₂_iff_get.1 c2).2 i hi hi2
  rw [show items.get ⟨i, hi⟩ = x from (List.getElem?_eq_some_iff.1 hx).2,
    show items2.get ⟨i, hi2⟩ = y from (List.getElem?_eq_some_iff.1 hy).2] at hR
  refine ⟨hR.time, by unfold Item.endT; rw [hR.slot, hR.time], hR.zone, hR.idx, ?_⟩
  intro k hkl
  obtain ⟨d, hd, hd'⟩ := e2.data y (by rw [b3]; exact List.mem_of_getElem? hy)
  have hmem : k ++ "_" ++ o.name ∈ d.keys := (hd' _).2 ⟨o, by simp, k, hkl, rfl⟩
  obtain ⟨v, hv⟩ := Dict.get?_isSome.2 hmem
  refine ⟨v, by rw [dict_value? hd]; exact hv, ?_⟩
  rw [← hR.value k (by rw [hcks]; exact (hs.labels k).2 hkl), dict_value? hd]
  exact hv

/-! ## The built-in operations -/

/-- the operations a user finds in the library: `avg`, `max`, `min` and `sum` -/
def builtinOps : List SlotOp := [avgSlotOp, maxSlotOp, minSlotOp, sumSlotOp]

theorem viewValues_ok {k : String} {ks : List String} (hk : k ∈ ks) : ∀ {view : List VPoint}, (∀ p ∈ view, HasLabels ks p) →
    viewValues k view = .ok (view.map (VPoint.val k)) := by
  intro view
  induction view with
  | nil => intro _; rfl
  | cons p r ih =>
    intro h
    obtain ⟨v, hv⟩ := h p (by simp) k hk
    rw [viewValues, hv]
    dsimp only
    rw [ih (fun q hq => h q (by simp [hq]))]
    simp [VPoint.val, hv]

theorem extremeView_ok {step : ℚ → ℚ → ℚ} {ks : List String} {p : VPoint} {r : List VPoint} (h : ∀ q ∈ p :: r, HasLabels ks q) :
    extremeView step ks (p :: r) = .ok (ks.map (fun k => (k, (r.map (VPoint.val k)).foldl step (p.val k)))) := by
  unfold extremeView
  apply perLabelDict_ok
  intro k hk
  rw [viewValues_ok hk h]
  rfl

theorem sumView_ok {ks : List String} {view : List VPoint} (hne : view ≠ []) (h : ∀ q ∈ view, HasLabels ks q) :
    sumView ks view = .ok (ks.map (fun k => (k, (view.map (VPoint.val k)).sum))) := by
  unfold sumView
  rw [if_neg (by simpa using hne)]
  apply perLabelDict_ok
  intro k hk
  rw [viewValues_ok hk h]
  simp [List.sum_eq_foldl]

theorem builtin_total {ks : List String} (hks : ks ≠ []) : ∀ o ∈ builtinOps, OpTotal ks o := by
  intro o ho
  have hm : ∀ g : String → ℚ, ks.map (fun k => (k, g k)) ≠ [] := fun g => by simpa using hks
  simp only [builtinOps, List.mem_cons, List.not_mem_nil, or_false] at ho
  rcases ho with rfl | rfl | rfl | rfl
  · exact avgSlotOp_total hks
  · intro a b view hne hl _
    obtain ⟨p, r, rfl⟩ := List.exists_cons_of_ne_nil hne
    exact ⟨_, extremeView_ok hl, hm _⟩
  · intro a b view hne hl _
    obtain ⟨p, r, rfl⟩ := List.exists_cons_of_ne_nil hne
    exact ⟨_, extremeView_ok hl, hm _⟩
  · intro a b view hne hl _
    exact ⟨_, sumView_ok hne hl, hm _⟩

theorem builtin_labels : ∀ o ∈ builtinOps, KeepsLabels o := by
  intro o ho ks a b v d h
  simp only [builtinOps, List.mem_cons, List.not_mem_nil, or_false] at ho
  rcases ho with rfl | rfl | rfl | rfl
  · exact C96_avg_labels ks a b v d h
  · exact perLabelDict_keys (show extremeView slotMaxStep ks v = .ok d from h)
  · exact perLabelDict_keys (show extremeView slotMinStep ks v = .ok d from h)
  · have h' : sumView ks v = .ok d := h
    unfold sumView at h'
    split at h'
    · cases h'
    · exact perLabelDict_keys h'

theorem builtin_names : ClearNames builtinOps := by
  refine ⟨fun o ho => ?_, fun o ho o' ho' e => ?_⟩
  · simp only [builtinOps, List.mem_cons, List.not_mem_nil, or_false] at ho
    rcases ho with rfl | rfl | rfl | rfl <;> decide
  · simp only [builtinOps, List.mem_cons, List.not_mem_nil, or_false] at ho ho'
    rcases ho with rfl | rfl | rfl | rfl <;> rcases ho' with rfl | rfl | rfl | rfl <;> first | rfl | exact absurd e (by decide)

theorem ClearNames.sub {ops os : List SlotOp} (h : ClearNames ops) (hs : ∀ o ∈ os, o ∈ ops) : ClearNames os :=
  ⟨fun o ho => h.1 o (hs o ho), fun o ho o' ho' => h.2 o (hs o ho) o' (hs o' ho')⟩

/-- **C281 (built-in operations)**: any list of them. -/
theorem C281_builtin (clk : String → Grid) (n : ℕ) (z : String) (l : List Item) (s : TSeries) (h : DataSeries z l s)
    (hl : Lossless l) (hnd : LabelsOnce l) (unit : TUnit) (ops : List SlotOp) (hb : ∀ o ∈ ops, o ∈ builtinOps) (D : ℚ) (hpos : 0 < D)
    (hv : frontValidity n none (times l) = some (.ok D)) (o : SlotOp) (ho : o ∈ ops) :
    ∃ r q, s.aggregate clk n unit ops = some (.ok r) ∧ s.aggregate clk n unit [o] = some (.ok q) ∧
      q.items.length = r.items.length ∧
      ∀ (i : ℕ) (x y : Item), r.items[i]? = some x → q.items[i]? = some y →
        y.t = x.t ∧ y.endT = x.endT ∧ y.tz = x.tz ∧ y.idx = x.idx ∧
        ∀ k, SeriesLabel l k → ∃ v, y.value? (k ++ "_" ++ o.name) = some v ∧ x.value? (k ++ "_" ++ o.name) = some v :=
  C281_operations_partial clk n z l s h hl hnd unit ops (builtin_names.sub hb) (fun _ hks o ho => builtin_total hks o (hb o ho))
    (fun o ho => builtin_labels o (hb o ho)) D hpos hv o ho

/-! ## The points of a slot -/

theorem slice_between {a b : ℚ} (hab : a ≤ b) : ∀ (ps : List VPoint), (ps.map VPoint.t).Pairwise (· < ·) →
    idxSlice ps (below (ps.map VPoint.t) a) (below (ps.map VPoint.t) b) = ps.filter (fun p => decide (a ≤ p.t ∧ p.t < b))
  | [], _ => rfl
  | p :: r, hs => by
    rw [List.map_cons, List.pairwise_cons] at hs
    have ih := slice_between hab r hs.2
    have hzero : ∀ x : ℚ, x ≤ p.t → below (r.map VPoint.t) x = 0 := by
      intro x hx
      unfold below
      rw [List.length_eq_zero_iff, List.filter_eq_nil_iff]
      intro t ht
      have := hs.1 t ht
      simp only [decide_eq_true_eq]
      linarith
    have hcons : ∀ x : ℚ, below ((p :: r).map VPoint.t) x = if p.t < x then below (r.map VPoint.t) x + 1 else 0 := by
      intro x
      by_cases hx : p.t < x
      · rw [if_pos hx]
        unfold below
        rw [List.map_cons, List.filter_cons, if_pos (by simpa using hx)]
        rfl
      · rw [if_neg hx]
        have := hzero x (not_lt.1 hx)
        unfold below at this ⊢
        rw [List.map_cons, List.filter_cons, if_neg (by simpa using hx)]
        exact this
    rw [hcons, hcons]
    by_cases h1 : p.t < a
    · have h2 : p.t < b := lt_of_lt_of_le h1 hab
      rw [if_pos h1, if_pos h2, List.filter_cons, if_neg (by simp; intro h; linarith), ← ih]
      unfold idxSlice
      rw [List.drop_succ_cons]
      congr 1
      omega
    · rw [if_neg h1]
      by_cases h2 : p.t < b
      · rw [if_pos h2, List.filter_cons, if_pos (by simp; exact ⟨not_lt.1 h1, h2⟩), ← ih, hzero a (not_lt.1 h1)]
        unfold idxSlice
        simp
      · rw [if_neg h2, List.filter_cons, if_neg (by simp; intro h; exact not_lt.1 h2), ← ih]
        rw [hzero b (not_lt.1 h2)]
        unfold idxSlice
        simp

/-- the points of the series within a slot -/
def inSlotOf (x y : Item) : Bool := decide (x.t ≤ y.t ∧ y.t < x.endT)

theorem forall₂_filter {α β : Type} {R : α → β → Prop} {P : α → Bool} {Q : β → Bool} : ∀ {l : List α} {m : List β},
    List.Forall₂ R l m → (∀ x y, R x y → P x = Q y) → List.Forall₂ R (l.filter P) (m.filter Q)
  | [], [], _, _ => .nil
  | x :: l, y :: m, .cons h hr, hPQ => by
    have ih := forall₂_filter hr hPQ
    rw [List.filter_cons, List.filter_cons, ← hPQ x y h]
    split
    · exact .cons h ih
    · exact ih

/-! ## What the operations that do not support weights are given -/

/-- the points of the slot with the gaps between them filled or, if it has none, the one point in the gap it is in -/
structure InnerView (ks : List String) (ts : List ℚ) (qs : List VPoint) (a b : ℚ) (inner : List VPoint) : Prop where
  points : below ts a ≠ below ts b → DenseRel ks (some a) (some b) (idxSlice qs (below ts a) (below ts b)) inner
  missing : below ts a = below ts b → ∃ p q g, involved ts qs a b = [p, q] ∧ p.vt < q.vf ∧ IsGapPoint ks (some a) (some b) p q g ∧
    inner = [g]

theorem denseList_sub {ts : List ℚ} {qs : List VPoint} (hprep : Prepared ts qs) {a b : ℚ} (hg : GoodInterval ts a b) :
    (idxSlice qs (below ts a) (below ts b)).IsChain (Adj (some a) (some b)) := by
  have hch := involved_chain hprep hg
  rw [List.isChain_iff_getElem] at hch ⊢
  intro m hm
  have e1 : (idxSlice qs (below ts a) (below ts b))[m]? = some (idxSlice qs (below ts a) (below ts b))[m] :=
    List.getElem?_eq_getElem (by omega)
  have e2 : (idxSlice qs (below ts a) (below ts b))[m + 1]? = some (idxSlice qs (below ts a) (below ts b))[m + 1] :=
    List.getElem?_eq_getElem (by omega)
  generalize (idxSlice qs (below ts a) (below ts b))[m] = p at e1
  generalize (idxSlice qs (below ts a) (below ts b))[m + 1] = q at e2
  rw [idxSlice_getElem?] at e1 e2
  split_ifs at e1 with h1
  split_ifs at e2 with h2
  set s := below ts a - (below ts a - 1) with hs
  have i1 : (involved ts qs a b)[m + s]? = some p := by
    unfold involved
    rw [idxSlice_getElem?, if_pos (by omega)]
    have : below ts a - 1 + (m + s) = below ts a + m := by omega
    rw [this]; exact e1
  have i2 : (involved ts qs a b)[m + s + 1]? = some q := by
    unfold involved
    rw [idxSlice_getElem?, if_pos (by omega)]
    have : below ts a - 1 + (m + s + 1) = below ts a + (m + 1) := by omega
    rw [this]; exact e2
  obtain ⟨j1, j2⟩ := List.getElem?_eq_some_iff.1 i1
  obtain ⟨k1, k2⟩ := List.getElem?_eq_some_iff.1 i2
  have := hch (m + s) k1
  rwa [j2, k2] at this

theorem slot_inner {c : Settings} (hsi : 0 < c.si) {ps : List VPoint} (hps : InputSeries c.ks ps)
    (hn : NoPreviousLoss ps) (hks : c.ks ≠ []) (hforce : c.forceLoss = none) {unit : TUnit} {ops : List SlotOp} (hops : ops ≠ [])
    (htot : ∀ o ∈ ops, OpTotal c.ks o) {a b : ℚ}
    (hg : GoodInterval (ps.map VPoint.t) a b) {fst : Bool} {w : Work} (hw : w.ps = withRegions c.si ps)
    (hcov : (∃ p ∈ ps, a ≤ p.t ∧ p.t < b) ∨ coveredLength a b (withRegions c.si ps) = 0) :
    ∃ x w', computeSlot c unit ops w (expectedJob (ps.map VPoint.t) a b fst) = .ok (x, w') ∧ w'.ps = withRegions c.si ps ∧
      AggregatedSlot c unit ops ps a b x ∧
      ∃ view inner d loss, x.data = some (.dict d) ∧ slotData c ops a b loss view inner = .ok d ∧
        InnerView c.ks (ps.map VPoint.t) (withRegions c.si ps) a b inner := by
  obtain ⟨x, w', h1, _, h3, h4⟩ := computeSlot_spec hsi hps hn hks (unit := unit) hops htot hg (fst := fst) (w := w)
    (by rw [hw]; exact ⟨rfl, withRegions_labels hsi hps⟩)
  obtain ⟨h5, _⟩ := h4 hcov
  refine ⟨x, w', h1, by rw [h5, hw], h3, ?_⟩
  obtain ⟨view, loss, inner, view', ps', d, i1, i2, i3, i4, _, rfl, _⟩ := computeSlot_inv h1
  have hprep := prepared_of hsi hps
  obtain ⟨view2, v1, v2, _, _, _, _, _⟩ := job_view (c := c) hprep hg (withRegions_labels hsi hps)
    (j := expectedJob (ps.map VPoint.t) a b fst) rfl rfl (viewStart_expected _ _ _ _) rfl
  rw [hw] at i1 i3
  rw [v1] at i1
  cases i1
  have hloss : loss = 1 - coveredLength a b (withRegions c.si ps) / (b - a) := by
    have := h3.loss
    rw [newIdx_loss, hforce] at this
    simpa using this
  refine ⟨view', inner, d, loss, rfl, i4, ?_⟩
  by_cases he : below (ps.map VPoint.t) a = below (ps.map VPoint.t) b
  · have hno : ¬ ∃ p ∈ ps, a ≤ p.t ∧ p.t < b := by
      have := (below_eq_iff_empty hps.sorted hg.lt.le).1 he
      simpa using this
    have hl1 : loss = 1 := by
      rcases hcov with h | h
      · exact absurd h hno
      · rw [hloss, h]; simp
    refine ⟨fun h => absurd he h, fun _ => ?_⟩
    have hf1 : (expectedJob (ps.map VPoint.t) a b fst).first = none := by simp [expectedJob, he]
    have hf2 : (expectedJob (ps.map VPoint.t) a b fst).last = none := by simp [expectedJob, he]
    unfold slotView at i3
    rw [hf1, hf2] at i3
    simp only [hl1, if_true] at i3
    obtain ⟨p, q, hpq⟩ := involved_empty hprep hg he
    have hm : ∀ y ∈ involved (ps.map VPoint.t) (withRegions c.si ps) a b, y.interp = false := by
      intro y hy
      obtain ⟨m, _, _, hm⟩ := idxSlice_mem hy
      exact hprep.measured y (List.mem_of_getElem? hm)
    rw [hpq] at v2
    have hpm := hm p (by simp [hpq])
    have hqm := hm q (by simp [hpq])
    cases v2 with
    | gap _ _ _ rest g hgap hgp h =>
      cases h
      rw [show ([p, g, q] : List VPoint).filter (fun p => p.interp) = [g] by simp [hpm, hqm, hgp.interp]] at i3
      simp only [Except.ok.injEq, Prod.mk.injEq] at i3
      exact ⟨p, q, g, hpq, hgap, hgp, i3.1.symm⟩
    | nogap _ _ _ rest hgap h =>
      cases h
      rw [show ([p, q] : List VPoint).filter (fun p => p.interp) = [] by simp [hpm, hqm]] at i3
      cases i3
  · refine ⟨fun _ => ?_, fun h => absurd h he⟩
    have hlt : below (ps.map VPoint.t) a < below (ps.map VPoint.t) b := lt_of_le_of_ne (below_mono hg.lt.le) he
    have hf1 : (expectedJob (ps.map VPoint.t) a b fst).first = some (below (ps.map VPoint.t) a) := by simp [expectedJob, he]
    have hf2 : (expectedJob (ps.map VPoint.t) a b fst).last = some (below (ps.map VPoint.t) b - 1) := by simp [expectedJob, he]
    unfold slotView at i3
    rw [hf1, hf2] at i3
    dsimp only at i3
    rw [show below (ps.map VPoint.t) b - 1 + 1 = below (ps.map VPoint.t) b by omega] at i3
    obtain ⟨inner2, in1, in2⟩ := denseList_rel _ (fun p hp => by
      obtain ⟨m, _, _, hm⟩ := idxSlice_mem hp
      exact withRegions_labels hsi hps p (List.mem_of_getElem? hm)) (denseList_sub hprep hg)
    rw [show (expectedJob (ps.map VPoint.t) a b fst).a = a from rfl, show (expectedJob (ps.map VPoint.t) a b fst).b = b from rfl,
      in1] at i3
    simp only [Except.ok.injEq, Prod.mk.injEq] at i3
    rw [← i3.1]
    exact in2

/-! ## The values of those points -/

/-- how the regions of a point and of the next one end and start -/
def NextRegion (D : ℚ) (p q : VPoint) : Prop := p.vt = rightEnd D (some q.t) p.t ∧ q.vf = leftEnd D (some p.t) q.t

theorem regions_chain (D : ℚ) : ∀ (ps : List VPoint) (prev : Option ℚ),
    (attach ps (expectedRegions D prev (ps.map VPoint.t))).IsChain (NextRegion D)
  | [], _ => by simp [attach]
  | [p], _ => by simp [attach, expectedRegions]
  | p :: q :: r, prev => by
    have ih := regions_chain D (q :: r) (some p.t)
    simp only [List.map_cons, expectedRegions, attach, List.zipWith_cons_cons] at ih ⊢
    exact .cons_cons ⟨rfl, rfl⟩ ih

theorem NextRegion.gap {D : ℚ} {p q : VPoint} (h : NextRegion D p q) :
    (p.vt < q.vf ↔ D < q.t - p.t) ∧ (D < q.t - p.t → p.vt = p.t + D / 2 ∧ q.vf = q.t - D / 2) := by
  obtain ⟨h1, h2⟩ := h
  simp only [rightEnd, leftEnd] at h1 h2
  by_cases hc : D < q.t - p.t
  · rw [min_eq_left (by linarith)] at h1
    rw [max_eq_left (by linarith)] at h2
    exact ⟨⟨fun _ => hc, fun _ => by rw [h1, h2]; linarith⟩, fun _ => ⟨h1, h2⟩⟩
  · rw [min_eq_right (by linarith)] at h1
    rw [max_eq_right (by linarith)] at h2
    exact ⟨⟨fun h => by rw [h1, h2] at h; exact absurd h (lt_irrefl _), fun h => absurd h hc⟩, fun h => absurd h hc⟩

/-- The values of label `k` of some items, in order; between two more than `D` apart there is also the middle one of their values. -/
def withMiddles (D : ℚ) (k : String) : List Item → List ℚ
  | [] => []
  | [x] => [x.value k]
  | x :: y :: r =>
    if D < y.t - x.t then x.value k :: (x.value k + y.value k) / 2 :: withMiddles D k (y :: r)
    else x.value k :: withMiddles D k (y :: r)

theorem lineThrough_middle {t v t' v' : ℚ} (h : t < t') : lineThrough t v t' v' ((t + t') / 2) = (v + v') / 2 := by
  have : t' - t ≠ 0 := by linarith
  unfold lineThrough
  field_simp
  ring

theorem DenseRel.middles {ks : List String} {a b D : ℚ} (hD : 0 < D) {k : String} (hk : k ∈ ks) {qs inner : List VPoint}
    (h : DenseRel ks (some a) (some b) qs inner) : ∀ (l : List Item),
    List.Forall₂ (fun (x : Item) (p : VPoint) => p.t = x.t ∧ x.data = some (.dict p.data)) l qs →
    qs.IsChain (NextRegion D) → (∀ p ∈ qs, HasLabels ks p) → (∀ p ∈ qs, a ≤ p.t ∧ p.t < b) →
    inner.map (VPoint.val k) = withMiddles D k l := by
  have hv : ∀ {x : Item} {p : VPoint}, x.data = some (.dict p.data) → x.value k = p.val k := by
    intro x p h
    unfold Item.value Item.value?
    rw [h]
    rfl
  induction h with
  | nil => intro l hl _ _ _; cases hl; rfl
  | single p =>
    intro l hl _ _ _
    cases hl with
    | cons h1 h2 => cases h2; simp [withMiddles, hv h1.2]
  | gap p q r rest g hgap hgp h ih =>
    intro l hl hc hlab hin
    cases hl with
    | @cons x _ l' _ h1 hl =>
      have ihl := ih l' hl hc.tail (fun y hy => hlab y (List.mem_cons_of_mem _ hy)) (fun y hy => hin y (List.mem_cons_of_mem _ hy))
      cases hl with
      | @cons y _ l' _ h2 hl =>
        obtain ⟨e1, e2⟩ := (List.isChain_cons_cons.1 hc).1.gap
        have hd := e1.1 hgap
        obtain ⟨e3, e4⟩ := e2 hd
        rw [withMiddles, if_pos (by rw [← h1.1, ← h2.1]; exact hd), ← ihl, List.map_cons, List.map_cons, hv h1.2, hv h2.2]
        congr 2
        have hp := hin p (by simp)
        have hq := hin q (by simp)
        have f1 : g.vf = p.t + D / 2 := by rw [hgp.vf, gapFrom, if_neg (by rw [e3]; linarith [hp.1]), e3]
        have f2 : g.vt = q.t - D / 2 := by rw [hgp.vt, gapTo, if_neg (by rw [e4]; linarith [hq.2]), e4]
        obtain ⟨v, hv1⟩ := hlab p (by simp) k hk
        obtain ⟨v', hv2⟩ := hlab q (by simp) k hk
        have hgd := hgp.data k hk v v' hv1 hv2
        unfold VPoint.val
        rw [hgd, hv1, hv2, hgp.mid, f1, f2, show (p.t + D / 2 + (q.t - D / 2)) / 2 = (p.t + q.t) / 2 by ring]
        exact lineThrough_middle (by linarith)
  | nogap p q r rest hgap h ih =>
    intro l hl hc hlab hin
    cases hl with
    | @cons x _ l' _ h1 hl =>
      have ihl := ih l' hl hc.tail (fun y hy => hlab y (List.mem_cons_of_mem _ hy)) (fun y hy => hin y (List.mem_cons_of_mem _ hy))
      cases hl with
      | @cons y _ l' _ h2 hl =>
        obtain ⟨e1, e2⟩ := (List.isChain_cons_cons.1 hc).1.gap
        rw [withMiddles, if_neg (by rw [← h1.1, ← h2.1]; exact fun h => hgap (e1.2 h)), ← ihl, List.map_cons, hv h1.2]

theorem withRegions_items {D : ℚ} {l : List Item} {ps : List VPoint}
    (hz : List.Forall₂ (fun (x : Item) (p : VPoint) => p.t = x.t ∧ x.data = some (.dict p.data)) l ps) (prev : Option ℚ) :
    List.Forall₂ (fun (x : Item) (p : VPoint) => p.t = x.t ∧ x.data = some (.dict p.data)) l
      (attach ps (expectedRegions D prev (ps.map VPoint.t))) := by
  induction hz generalizing prev with
  | nil => exact .nil
  | @cons x p l ps h1 hz ih =>
    simp only [List.map_cons, expectedRegions, attach, List.zipWith_cons_cons]
    exact .cons h1 (ih _)

/-- the values the operations are given for a slot with points -/
theorem InnerView.values {D : ℚ} (hD : 0 < D) {ks : List String} {l : List Item} {ps : List VPoint} (hps : InputSeries ks ps)
    (hz : List.Forall₂ (fun (x : Item) (p : VPoint) => p.t = x.t ∧ x.data = some (.dict p.data)) l ps) {a b : ℚ} (hab : a < b)
    {inner : List VPoint} (hi : InnerView ks (ps.map VPoint.t) (withRegions D ps) a b inner) {k : String} (hk : k ∈ ks)
    (hin : ∃ y ∈ l, a ≤ y.t ∧ y.t < b) :
    inner.map (VPoint.val k) = withMiddles D k (l.filter (fun y => decide (a ≤ y.t ∧ y.t < b))) := by
  have htimes : (withRegions D ps).map VPoint.t = ps.map VPoint.t := (prepared_of hD hps).times
  have hne : below (ps.map VPoint.t) a ≠ below (ps.map VPoint.t) b := by
    intro he
    obtain ⟨y, hy, h1, h2⟩ := hin
    obtain ⟨i, hi, rfl⟩ := List.getElem_of_mem hy
    have hi' : i < ps.length := by rw [← hz.length_eq]; exact hi
    have hR := (List.forall₂_iff_get.1 hz).2 i hi hi'
    have := (below_eq_iff_empty hps.sorted hab.le).1 he (ps[i].t) (List.mem_map_of_mem (List.getElem_mem hi'))
    simp only [List.get_eq_getElem] at hR
    rw [hR.1] at this
    exact this ⟨h1, h2⟩
  have hd := hi.points hne
  have hsl := slice_between hab.le (withRegions D ps) (by rw [htimes]; exact hps.sorted)
  rw [htimes] at hsl
  rw [hsl] at hd
  have hz' := withRegions_items (D := D) hz none
  refine hd.middles hD hk _ (forall₂_filter hz' (fun x p h => by rw [h.1])) ?_ ?_ ?_
  · have := regions_chain D ps none
    rw [← hsl]
    unfold idxSlice
    exact (this.drop _).take _
  · intro p hp
    exact withRegions_labels hD hps p (List.mem_of_mem_filter hp)
  · intro p hp
    simpa using (List.mem_filter.1 hp).2

/-- the value the operations are given for a slot away from all points -/
theorem InnerView.line {D : ℚ} (hD : 0 < D) {ks : List String} {l : List Item} {ps : List VPoint} (hps : InputSeries ks ps)
    (hz : List.Forall₂ (fun (x : Item) (p : VPoint) => p.t = x.t ∧ x.data = some (.dict p.data)) l ps) {a b : ℚ}
    (hg : GoodInterval (ps.map VPoint.t) a b)
    {inner : List VPoint} (hi : InnerView ks (ps.map VPoint.t) (withRegions D ps) a b inner) {k : String} (hk : k ∈ ks)
    (hout : ∀ y ∈ l, y.t + D / 2 ≤ a ∨ b ≤ y.t - D / 2) :
    ∃ (i : ℕ) (y y' : Item), l[i]? = some y ∧ l[i + 1]? = some y' ∧ y.t < a ∧ b ≤ y'.t ∧
      inner.map (VPoint.val k) = [lineThrough y.t (y.value k) y'.t (y'.value k) ((a + b) / 2)] := by
  have hv : ∀ {x : Item} {p : VPoint}, x.data = some (.dict p.data) → x.value k = p.val k := by
    intro x p h
    unfold Item.value Item.value?
    rw [h]
    rfl
  have hab := hg.lt
  have hz' := withRegions_items (D := D) hz none
  have hprep := prepared_of hD hps
  have he : below (ps.map VPoint.t) a = below (ps.map VPoint.t) b := by
    rw [below_eq_iff_empty hps.sorted hab.le]
    intro t ht
    obtain ⟨p, hp, rfl⟩ := List.mem_map.1 ht
    obtain ⟨i, hi, rfl⟩ := List.getElem_of_mem hp
    have hi' : i < l.length := by rw [hz.length_eq]; exact hi
    have hR := (List.forall₂_iff_get.1 hz).2 i hi' hi
    simp only [List.get_eq_getElem] at hR
    rw [hR.1]
    rintro ⟨h1, h2⟩
    rcases hout _ (List.getElem_mem hi') with h | h <;> linarith
  obtain ⟨p, q, g, hpq, hgap, hgp, rfl⟩ := hi.missing he
  have hb := hg.before
  have haf := hg.after
  have e1 : (involved (ps.map VPoint.t) (withRegions D ps) a b)[0]? = some p := by rw [hpq]; rfl
  have e2 : (involved (ps.map VPoint.t) (withRegions D ps) a b)[1]? = some q := by rw [hpq]; rfl
  unfold involved at e1 e2
  rw [idxSlice_getElem?, if_pos (by omega)] at e1 e2
  rw [Nat.add_zero] at e1
  set m := below (ps.map VPoint.t) a - 1 with hm
  have item : ∀ (i : ℕ) (p : VPoint), (withRegions D ps)[i]? = some p → ∃ y, l[i]? = some y ∧ p.t = y.t ∧
      y.data = some (.dict p.data) := by
    intro i p hp
    obtain ⟨hi, rfl⟩ := List.getElem?_eq_some_iff.1 hp
    have hi' : i < l.length := by rw [hz'.length_eq]; exact hi
    have hR := (List.forall₂_iff_get.1 hz').2 i hi' hi
    exact ⟨l[i], List.getElem?_eq_getElem hi', hR⟩
  obtain ⟨y, y1, y2, y3⟩ := item _ _ e1
  obtain ⟨y', z1, z2, z3⟩ := item _ _ e2
  have hchain : (withRegions D ps).IsChain (NextRegion D) := regions_chain D ps none
  have hnr : NextRegion D p q := by
    rw [List.isChain_iff_getElem] at hchain
    obtain ⟨j1, j2⟩ := List.getElem?_eq_some_iff.1 e1
    obtain ⟨k1, k2⟩ := List.getElem?_eq_some_iff.1 e2
    have := hchain m k1
    rwa [j2, k2] at this
  obtain ⟨g1, g2⟩ := hnr.gap
  obtain ⟨g3, g4⟩ := g2 (g1.1 hgap)
  have tm : ∀ (i : ℕ) (p : VPoint), (withRegions D ps)[i]? = some p → (ps.map VPoint.t)[i]? = some p.t := by
    intro i p hp
    rw [← hprep.times, List.getElem?_map, hp]
    rfl
  have hpa : p.t < a := (below_iff hps.sorted (tm _ _ e1)).1 (by omega)
  have hqb : b ≤ q.t := by
    by_contra hc
    have := (below_iff hps.sorted (tm _ _ e2)).2 (not_le.1 hc)
    omega
  have hpv : p.t + D / 2 ≤ a := by
    rcases hout y (List.mem_of_getElem? y1) with h | h
    · rw [y2]; exact h
    · rw [← y2] at h; linarith
  have hqv : b ≤ q.t - D / 2 := by
    rcases hout y' (List.mem_of_getElem? z1) with h | h
    · rw [← z2] at h; linarith
    · rw [z2]; exact h
  have f1 : g.vf = a := by
    rw [hgp.vf, gapFrom, g3]
    split_ifs with h <;> linarith
  have f2 : g.vt = b := by
    rw [hgp.vt, gapTo, g4]
    split_ifs with h <;> linarith
  refine ⟨m, y, y', y1, z1, by rw [← y2]; exact hpa, by rw [← z2]; exact hqb, ?_⟩
  obtain ⟨v, hv1⟩ := withRegions_labels hD hps p (List.mem_of_getElem? e1) k hk
  obtain ⟨v', hv2⟩ := withRegions_labels hD hps q (List.mem_of_getElem? e2) k hk
  have hgd := hgp.data k hk v v' hv1 hv2
  rw [List.map_cons, List.map_nil, hv y3, hv z3, ← y2, ← z2]
  unfold VPoint.val
  rw [hgd, hv1, hv2, hgp.mid, f1, f2]
  rfl

/-! ## The slots of an aggregation -/

theorem aggregate_inner (g : Grid) (c : Settings) (unit : TUnit) (ops : List SlotOp) (ps : List VPoint) (hsi : 0 < c.si)
    (hps : InputSeries c.ks ps) (hn : NoPreviousLoss ps) (hks : c.ks ≠ []) (hforce : c.forceLoss = none) (hops : ops ≠ [])
    (htot : ∀ o ∈ ops, OpTotal c.ks o) (start stop : Option ℚ) (f toT : ℚ)
    (hf : processFrom g .slots start (firstT ps) = .ok f) (ht : processTo g stop (lastT ps) = .ok toT)
    (hfirst : firstT ps < g.next f) (hnp : NoPartialSlot g c.si ps f) :
    ∃ items w, process g .slots c unit ops start stop ps = .ok (items, w) ∧
      ∀ (k : ℕ) (x : Item), items[k]? = some x → AggregatedSlot c unit ops ps (edge g f k) (edge g f (k + 1)) x ∧
        GoodInterval (ps.map VPoint.t) (edge g f k) (edge g f (k + 1)) ∧
        ∃ view inner d loss, x.data = some (.dict d) ∧
          slotData c ops (edge g f k) (edge g f (k + 1)) loss view inner = .ok d ∧
          InnerView c.ks (ps.map VPoint.t) (withRegions c.si ps) (edge g f k) (edge g f (k + 1)) inner := by
  obtain ⟨p0, hp0, hp0t, hp00⟩ := firstT_get hps.ne
  obtain ⟨pl, hpl, hplt, _⟩ := lastT_get hps.ne
  obtain ⟨K, hK, hlast, hgood⟩ := processJobs_last (g := g) (toT := toT) hps.sorted (f := f) (by
    intro t h0
    rw [List.getElem?_map, hp00] at h0
    simp only [Option.map_some, Option.some.injEq] at h0
    rw [← h0, hp0t]
    exact hfirst)
  obtain ⟨items, w, h1, h2, h3⟩ := runJobs_spec (f := computeSlot c unit ops)
    (I := fun w => w.ps = withRegions c.si ps)
    (Q := fun j x => AggregatedSlot c unit ops ps j.a j.b x ∧ GoodInterval (ps.map VPoint.t) j.a j.b ∧
        ∃ view inner d loss, x.data = some (.dict d) ∧ slotData c ops j.a j.b loss view inner = .ok d ∧
          InnerView c.ks (ps.map VPoint.t) (withRegions c.si ps) j.a j.b inner) (expectedJobs g (ps.map VPoint.t) f K) (by
      intro j hj w hw
      obtain ⟨k, hk, rfl⟩ := List.mem_map.1 hj
      have hk' := List.mem_range.1 hk
      have hle : edge g f (k + 1) ≤ lastT ps := by
        obtain ⟨v, hv, hv1⟩ := hlast.reached (by omega)
        have h6 := sorted_le_last hps.ne hps.sorted v hv
        have h7 : edge g f (k + 1) ≤ edge g f K := edge_mono g f (by omega)
        linarith
      obtain ⟨x, w', a1, a2, a3, a4⟩ := slot_inner hsi hps hn hks hforce (unit := unit) hops htot
        (hgood k hk') (fst := (k == 0)) (w := w) hw (hnp k hle)
      exact ⟨x, w', a1, a2, a3, hgood k hk', a4⟩)
    { ps := withRegions c.si ps, ws := ps.map (fun _ => none) } [] rfl
  refine ⟨items, w, ?_, ?_⟩
  · unfold process
    rw [hp0, hpl]
    simp only [hp0t, hplt, hf, ht, hK, regionsLoop_none _ _ hps.sorted]
    have e : attach ps (expectedRegions c.si none (ps.map VPoint.t)) = withRegions c.si ps := rfl
    rw [e, h1]
    rfl
  · intro k x hx
    have hk : k < items.length := (List.getElem?_eq_some_iff.1 hx).1
    have hk' : k < (expectedJobs g (ps.map VPoint.t) f K).length := by rw [h3.length_eq]; exact hk
    have := (List.forall₂_iff_get.1 h3).2 k hk' hk
    have hxe : items.get ⟨k, hk⟩ = x := (List.getElem?_eq_some_iff.1 hx).2
    rw [hxe] at this
    simpa [expectedJobs, expectedJob] using this

/-- each slot has a point of the series in it, or no point within half a sampling interval of it -/
def PointsOrAway (D : ℚ) (l out : List Item) : Prop :=
  ∀ x ∈ out, (∃ y ∈ l, x.t ≤ y.t ∧ y.t < x.endT) ∨ ∀ y ∈ l, y.t + D / 2 ≤ x.t ∨ x.endT ≤ y.t - D / 2

/-- what the operations not supporting weights are computed from, in a slot of the result -/
theorem aggregated_inner (clk : String → Grid) (n : ℕ) (z : String) (l : List Item) (s : TSeries) (h : DataSeries z l s)
    (hl : Lossless l) (hnd : LabelsOnce l) (unit : TUnit) (ops : List SlotOp) (hops : ops ≠ []) (hcn : ClearNames ops)
    (htot : ∀ ks, ks ≠ [] → ∀ o ∈ ops, OpTotal ks o) (hkl : ∀ o ∈ ops, KeepsLabels o) (D : ℚ) (hpos : 0 < D)
    (hv : frontValidity n none (times l) = some (.ok D)) :
    ∃ r ks, s.aggregate clk n unit ops = some (.ok r) ∧ AggregatedTo (clk z) unit ops z l r.items ∧
      (∀ k, k ∈ ks ↔ SeriesLabel l k) ∧
      (PointsOrAway D l r.items → ∀ x ∈ r.items, ∃ inner, inner ≠ [] ∧ (∀ p ∈ inner, HasLabels ks p) ∧
        (∀ o ∈ ops, o.weighted = false → ∃ res, o.run ks x.t x.endT inner = .ok res ∧
          ∀ k ∈ ks, x.value? (k ++ "_" ++ o.name) = res.get? k) ∧
        ((∃ y ∈ l, x.t ≤ y.t ∧ y.t < x.endT) → ∀ k ∈ ks, inner.map (VPoint.val k) = withMiddles D k (l.filter (inSlotOf x))) ∧
        ((∀ y ∈ l, y.t + D / 2 ≤ x.t ∨ x.endT ≤ y.t - D / 2) → ∀ k ∈ ks,
          ∃ (i : ℕ) (y y' : Item), l[i]? = some y ∧ l[i + 1]? = some y' ∧ y.t < x.t ∧ x.endT ≤ y'.t ∧
            inner.map (VPoint.val k) = [lineThrough y.t (y.value k) y'.t (y'.value k) ((x.t + x.endT) / 2)])) := by
  obtain ⟨r, a1, a2, a3, _, _⟩ := aggregated_of (clk := clk) h hl (unit := unit) (ops := ops) hops htot
    (fun ks o ho a b v d hr => hkl o ho ks a b v d hr) hpos hv
  obtain ⟨ks, ps, hs⟩ := h.seen
  refine ⟨r, ks, a1, a2, hs.labels, ?_⟩
  intro hin
  have hv' : frontValidity n none (ps.map VPoint.t) = some (.ok D) := by rw [hs.times]; exact hv
  generalize hc : frontSettings s ks z {} D = c
  have hcsi : c.si = D := by rw [← hc]; rfl
  have hcks : c.ks = ks := by rw [← hc]; rfl
  have hcf : c.fillWith = none := by rw [← hc]; rfl
  have hcl : c.forceLoss = none := by rw [← hc]; rfl
  have hinp : InputSeries c.ks ps := hcks ▸ hs.input
  have hsi' : 0 < c.si := hcsi ▸ hpos
  have hks : c.ks ≠ [] := hcks ▸ hs.nonempty
  have htot' := htot c.ks hks
  have hn : NoPreviousLoss ps := by
    intro p hp
    obtain ⟨y, hy, _, _, hyi⟩ := hs.from_items p hp
    unfold VPoint.dataLoss
    rw [hyi]
    exact hl y hy
  obtain ⟨f, hf, _, hf2, hf3, _⟩ := aggregate_from (clk z) (firstT ps)
  obtain ⟨items, w, K, h1, h2, h3, _, h5⟩ := aggregate_run (clk z) c unit ops ps hsi' hinp hn hks hops htot' none none f
    (lastT ps) hf rfl hf3
  obtain ⟨items2, w2, r2, b1, b2, b3, _⟩ := C96_aggregated (clk z) c unit ops ps hsi' hinp hn hks hops htot'
    (fun o ho a b v d hr => hkl o ho _ a b v d hr)
  rw [h1] at b1
  simp only [Except.ok.injEq, Prod.mk.injEq] at b1
  obtain ⟨rfl, rfl⟩ := b1
  have hrr : r = r2 := by
    have : s.aggregate clk n unit ops = some (.ok r2) := by
      unfold TSeries.aggregate aggregatorInit
      rw [if_neg (by simpa using hops)]
      dsimp only
      rw [hs.front]
      exact front_default hs.input.ne hv' (hc ▸ h1) b2
    rw [this] at a1
    cases a1; rfl
  subst hrr
  have hall := h3.all (fun u hu hle v hv => le_trans (sorted_le_last hinp.ne hinp.sorted v hv) hle) _ (lastT_mem hinp.ne)
  have hnp : NoPartialSlot (clk z) c.si ps f := by
    intro k hk
    have hkK : k < items.length := by
      rw [h2]
      by_contra hcon
      have : edge (clk z) f (K + 1) ≤ edge (clk z) f (k + 1) := edge_mono _ f (by omega)
      linarith
    have hr := h5 k _ (List.getElem?_eq_getElem hkK)
    have he : (items[k]).endT = edge (clk z) f (k + 1) := by simp [Item.endT, hr.slot]
    rcases hin items[k] (by rw [b3]; exact List.getElem_mem hkK) with ⟨y, hy, hy1, hy2⟩ | hno
    swap
    · right
      rw [he, hr.start] at hno
      have hlt : edge (clk z) f k < edge (clk z) f (k + 1) := edge_strictMono _ f (by omega)
      have := C49_nothing hsi' hinp.sorted (a := edge (clk z) f k) (b := edge (clk z) f (k + 1)) (by
        intro p hp
        obtain ⟨y, hy, hyt, _, _⟩ := hs.from_items p hp
        rw [hyt, hcsi]
        exact hno y hy)
      have h0 : coveredLength (edge (clk z) f k) (edge (clk z) f (k + 1)) (withRegions c.si ps) /
          (edge (clk z) f (k + 1) - edge (clk z) f k) = 0 := by linarith
      rcases div_eq_zero_iff.1 h0 with h0 | h0
      · exact h0
      · linarith
    left
    rw [he] at hy2
    rw [hr.start] at hy1
    have : y.t ∈ ps.map VPoint.t := by rw [hs.times]; exact List.mem_map_of_mem hy
    obtain ⟨p, hp, hpt⟩ := List.mem_map.1 this
    exact ⟨p, hp, by rw [hpt]; exact hy1, by rw [hpt]; exact hy2⟩
  obtain ⟨items3, w3, c1, c3⟩ := aggregate_inner (clk z) c unit ops ps hsi' hinp hn hks hcl hops htot' none none f
    (lastT ps) hf rfl hf3 hnp
  rw [h1] at c1
  simp only [Except.ok.injEq, Prod.mk.injEq] at c1
  obtain ⟨rfl, rfl⟩ := c1
  intro x hx
  rw [b3] at hx
  obtain ⟨i, hi, rfl⟩ := List.getElem_of_mem hx
  obtain ⟨hr, hg, view, inner, d, loss, hd, hsd, hiv⟩ := c3 i _ (List.getElem?_eq_getElem hi)
  have he : (items[i]).endT = edge (clk z) f (i + 1) := by simp [Item.endT, hr.slot]
  have hab := hg.lt
  rw [← he, ← hr.start] at hg hsd hiv hab
  rw [hcsi] at hiv
  rw [hcks] at hiv hinp
  have hlab : ∀ p ∈ withRegions D ps, HasLabels ks p := withRegions_labels hpos hinp
  have hbase : inner ≠ [] ∧ ∀ p ∈ inner, HasLabels ks p := by
    by_cases hb : below (ps.map VPoint.t) items[i].t = below (ps.map VPoint.t) items[i].endT
    · obtain ⟨p, q, g, hpq, _, hgp, rfl⟩ := hiv.missing hb
      refine ⟨by simp, ?_⟩
      have hm : ∀ y ∈ involved (ps.map VPoint.t) (withRegions D ps) items[i].t items[i].endT, HasLabels ks y := by
        intro y hy
        obtain ⟨m, _, _, hm⟩ := idxSlice_mem hy
        exact hlab y (List.mem_of_getElem? hm)
      intro y hy k hk
      rw [List.mem_singleton.1 hy]
      obtain ⟨v, hv⟩ := hm p (by simp [hpq]) k hk
      obtain ⟨v', hv'⟩ := hm q (by simp [hpq]) k hk
      exact ⟨_, hgp.data k hk v v' hv hv'⟩
    · have hdr := hiv.points hb
      refine ⟨?_, hdr.hasLabels (fun p hp => by
        obtain ⟨m, _, _, hm⟩ := idxSlice_mem hp
        exact hlab p (List.mem_of_getElem? hm))⟩
      rintro rfl
      have hlt : below (ps.map VPoint.t) items[i].t < below (ps.map VPoint.t) items[i].endT :=
        lt_of_le_of_ne (below_mono hab.le) hb
      have hlen := hg.after
      rw [List.length_map] at hlen
      have hw : (withRegions D ps).length = ps.length := by
        have := congrArg List.length (prepared_of hpos hinp).times
        simpa using this
      generalize hls : idxSlice (withRegions D ps) (below (ps.map VPoint.t) items[i].t) (below (ps.map VPoint.t) items[i].endT) = ls at hdr
      cases hdr
      have := congrArg List.length hls
      unfold idxSlice at this
      rw [List.length_take, List.length_drop] at this
      simp only [List.length_nil] at this
      omega
  refine ⟨inner, hbase.1, hbase.2, ?_, ?_, ?_⟩
  · intro o ho how
    obtain ⟨res, r1, r2⟩ := slotData_get hcf (hcks ▸ hs.nodup hnd) hcn (fun o ho a b v d hr => hkl o ho _ a b v d hr) hsd ho
    rw [hcks, how] at r1
    refine ⟨res, by simpa using r1, fun k hk => ?_⟩
    rw [dict_value? hd]
    exact r2 k (hcks ▸ hk)
  · intro hpt k hk
    exact hiv.values hpos hinp hs.values hab hk hpt
  · intro hout k hk
    exact hiv.line hpos hinp hs.values hg hk hout

theorem opLabel (k n : String) : k ++ "_" ++ n = k ++ ("_" ++ n) := String.append_assoc

/-! ## Maxima and minima -/

theorem foldl_max (r : List ℚ) : ∀ v : ℚ, (r.foldl slotMaxStep v ∈ v :: r) ∧ ∀ w ∈ v :: r, w ≤ r.foldl slotMaxStep v := by
  induction r with
  | nil => intro v; simp
  | cons u r ih =>
    intro v
    obtain ⟨h1, h2⟩ := ih (slotMaxStep v u)
    rw [List.foldl_cons]
    have hm : slotMaxStep v u = v ∨ slotMaxStep v u = u := by unfold slotMaxStep; split_ifs <;> simp
    have hv : v ≤ slotMaxStep v u ∧ u ≤ slotMaxStep v u := by unfold slotMaxStep; split_ifs with h <;> constructor <;> linarith
    constructor
    · rcases List.mem_cons.1 h1 with h | h
      · rw [h]; rcases hm with e | e <;> rw [e] <;> simp
      · simp [h]
    · intro w hw
      have h0 := h2 (slotMaxStep v u) (by simp)
      simp only [List.mem_cons] at hw
      rcases hw with rfl | rfl | hw
      · exact le_trans hv.1 h0
      · exact le_trans hv.2 h0
      · exact h2 w (by simp [hw])

theorem foldl_min (r : List ℚ) : ∀ v : ℚ, (r.foldl slotMinStep v ∈ v :: r) ∧ ∀ w ∈ v :: r, r.foldl slotMinStep v ≤ w := by
  induction r with
  | nil => intro v; simp
  | cons u r ih =>
    intro v
    obtain ⟨h1, h2⟩ := ih (slotMinStep v u)
    rw [List.foldl_cons]
    have hm : slotMinStep v u = v ∨ slotMinStep v u = u := by unfold slotMinStep; split_ifs <;> simp
    have hv : slotMinStep v u ≤ v ∧ slotMinStep v u ≤ u := by unfold slotMinStep; split_ifs with h <;> constructor <;> linarith
    constructor
    · rcases List.mem_cons.1 h1 with h | h
      · rw [h]; rcases hm with e | e <;> rw [e] <;> simp
      · simp [h]
    · intro w hw
      have h0 := h2 (slotMinStep v u) (by simp)
      simp only [List.mem_cons] at hw
      rcases hw with rfl | rfl | hw
      · exact le_trans h0 hv.1
      · exact le_trans h0 hv.2
      · exact h2 w (by simp [hw])

theorem middles_has {D : ℚ} {k : String} : ∀ {m : List Item} {y : Item}, y ∈ m → y.value k ∈ withMiddles D k m
  | [], _, h => by simp at h
  | [x], y, h => by rw [List.mem_singleton.1 h]; simp [withMiddles]
  | x :: w :: r, y, h => by
    rw [withMiddles]
    rcases List.mem_cons.1 h with rfl | h
    · split_ifs <;> simp
    · have := middles_has (D := D) (k := k) h
      split_ifs <;> simp [this]

theorem middles_within {D : ℚ} {k : String} {lo hi : ℚ} : ∀ {m : List Item}, (∀ y ∈ m, lo ≤ y.value k ∧ y.value k ≤ hi) →
    ∀ v ∈ withMiddles D k m, lo ≤ v ∧ v ≤ hi
  | [], _, v, hv => by simp [withMiddles] at hv
  | [x], h, v, hv => by
    simp only [withMiddles, List.mem_singleton] at hv
    rw [hv]; exact h x (by simp)
  | x :: w :: r, h, v, hv => by
    have ih := middles_within (D := D) (k := k) (lo := lo) (hi := hi) (m := w :: r) (fun y hy => h y (by simp at hy ⊢; tauto))
    have hx := h x (by simp)
    have hw := h w (by simp)
    rw [withMiddles] at hv
    split_ifs at hv
    · simp only [List.mem_cons] at hv
      rcases hv with rfl | rfl | hv
      · exact hx
      · constructor <;> linarith [hx.1, hx.2, hw.1, hw.2]
      · exact ih v hv
    · simp only [List.mem_cons] at hv
      rcases hv with rfl | hv
      · exact hx
      · exact ih v hv

/-- some item has the largest value, some item the smallest -/
theorem extreme_items {k : String} : ∀ {m : List Item}, m ≠ [] →
    (∃ y ∈ m, ∀ w ∈ m, w.value k ≤ y.value k) ∧ ∃ y ∈ m, ∀ w ∈ m, y.value k ≤ w.value k
  | [], h => absurd rfl h
  | [x], _ => ⟨⟨x, by simp, by simp⟩, ⟨x, by simp, by simp⟩⟩
  | x :: w :: r, _ => by
    obtain ⟨⟨y, hy, h1⟩, ⟨y', hy', h2⟩⟩ := extreme_items (k := k) (m := w :: r) (by simp)
    constructor
    · rcases le_total (x.value k) (y.value k) with h | h
      · exact ⟨y, by simp at hy ⊢; tauto, fun v hv => by
          rcases List.mem_cons.1 hv with rfl | hv
          · exact h
          · exact h1 v hv⟩
      · exact ⟨x, by simp, fun v hv => by
          rcases List.mem_cons.1 hv with rfl | hv
          · exact le_refl _
          · exact le_trans (h1 v hv) h⟩
    · rcases le_total (x.value k) (y'.value k) with h | h
      · exact ⟨x, by simp, fun v hv => by
          rcases List.mem_cons.1 hv with rfl | hv
          · exact le_refl _
          · exact le_trans h (h2 v hv)⟩
      · exact ⟨y', by simp at hy' ⊢; tauto, fun v hv => by
          rcases List.mem_cons.1 hv with rfl | hv
          · exact h
          · exact h2 v hv⟩

/-- `v` is the value for label `k`, halfway through the slot `x`, of the line through the points before and after the slot -/
def LineInSlot (l : List Item) (x : Item) (k : String) (v : ℚ) : Prop :=
  ∃ (i : ℕ) (y y' : Item), l[i]? = some y ∧ l[i + 1]? = some y' ∧ y.t < x.t ∧ x.endT ≤ y'.t ∧
    v = lineThrough y.t (y.value k) y'.t (y'.value k) ((x.t + x.endT) / 2)

/-- **C279**, partial: aggregating a series without data losses with the built-in operations, the maximum (minimum) of a slot is the largest
(smallest) of the values of the points in the slot; if no point is within half a sampling interval of the slot, it is the value, halfway
through it, of the line through the points before and after it.  Missing: the other slots without points, for which it is false
(`C279_false`). -/
theorem C279_extremes_partial (clk : String → Grid) (n : ℕ) (z : String) (l : List Item) (s : TSeries) (h : DataSeries z l s)
    (hl : Lossless l) (hnd : LabelsOnce l) (unit : TUnit) (ops : List SlotOp) (hops : ops ≠ []) (hb : ∀ o ∈ ops, o ∈ builtinOps)
    (D : ℚ) (hpos : 0 < D) (hv : frontValidity n none (times l) = some (.ok D)) :
    ∃ r, s.aggregate clk n unit ops = some (.ok r) ∧ AggregatedTo (clk z) unit ops z l r.items ∧
      (PointsOrAway D l r.items → ∀ x ∈ r.items, ∀ k, SeriesLabel l k →
        (maxSlotOp ∈ ops → ∃ v, x.value? (k ++ "_max") = some v ∧
          ((∃ y ∈ l, x.t ≤ y.t ∧ y.t < x.endT) → (∃ y ∈ l, (x.t ≤ y.t ∧ y.t < x.endT) ∧ v = y.value k) ∧
            ∀ y ∈ l, x.t ≤ y.t → y.t < x.endT → y.value k ≤ v) ∧
          ((∀ y ∈ l, y.t + D / 2 ≤ x.t ∨ x.endT ≤ y.t - D / 2) → LineInSlot l x k v)) ∧
        (minSlotOp ∈ ops → ∃ v, x.value? (k ++ "_min") = some v ∧
          ((∃ y ∈ l, x.t ≤ y.t ∧ y.t < x.endT) → (∃ y ∈ l, (x.t ≤ y.t ∧ y.t < x.endT) ∧ v = y.value k) ∧
            ∀ y ∈ l, x.t ≤ y.t → y.t < x.endT → v ≤ y.value k) ∧
          ((∀ y ∈ l, y.t + D / 2 ≤ x.t ∨ x.endT ≤ y.t - D / 2) → LineInSlot l x k v))) := by
  obtain ⟨r, ks, a1, a2, a3, a4⟩ := aggregated_inner clk n z l s h hl hnd unit ops hops (builtin_names.sub hb)
    (fun _ hks o ho => builtin_total hks o (hb o ho)) (fun o ho => builtin_labels o (hb o ho)) D hpos hv
  refine ⟨r, a1, a2, ?_⟩
  intro hin x hx k hk
  have hk' := (a3 k).2 hk
  obtain ⟨inner, b1, b2, b3, b4, b5⟩ := a4 hin x hx
  obtain ⟨p, rest, rfl⟩ := List.exists_cons_of_ne_nil b1
  have hmem : ∀ y, y ∈ l.filter (inSlotOf x) ↔ y ∈ l ∧ x.t ≤ y.t ∧ y.t < x.endT := by
    intro y; simp [inSlotOf, List.mem_filter]
  have hline : ∀ step : ℚ → ℚ → ℚ, (∀ y ∈ l, y.t + D / 2 ≤ x.t ∨ x.endT ≤ y.t - D / 2) →
      LineInSlot l x k ((rest.map (VPoint.val k)).foldl step (p.val k)) := by
    intro step hout
    obtain ⟨i, y, y', c1, c2, c3, c4, c5⟩ := b5 hout k hk'
    refine ⟨i, y, y', c1, c2, c3, c4, ?_⟩
    rw [List.map_cons] at c5
    obtain ⟨c6, c7⟩ := List.cons.inj c5
    rw [c7, c6]
    rfl
  have hval : ∀ (o : SlotOp) (step : ℚ → ℚ → ℚ), o ∈ ops → o.weighted = false →
      (∀ ks a b v, o.run ks a b v = extremeView step ks v) →
      x.value? (k ++ "_" ++ o.name) = some ((rest.map (VPoint.val k)).foldl step (p.val k)) := by
    intro o step ho how hrun
    obtain ⟨res, r1, r2⟩ := b3 o ho how
    rw [hrun, extremeView_ok b2] at r1
    cases r1
    rw [r2 k hk']
    exact table_get? (fun k => (rest.map (VPoint.val k)).foldl step (p.val k)) hk'
  constructor
  · intro ho
    have hx := hval maxSlotOp slotMaxStep ho rfl (fun _ _ _ _ => rfl)
    rw [opLabel] at hx
    refine ⟨_, hx, ?_, hline _⟩
    intro hpt
    have hvals := b4 hpt k hk'
    rw [List.map_cons] at hvals
    obtain ⟨m1, m2⟩ := foldl_max (rest.map (VPoint.val k)) (p.val k)
    rw [hvals] at m1 m2
    obtain ⟨y0, hy0⟩ := hpt
    obtain ⟨⟨y, hy, hy1⟩, ⟨y', _, hy2⟩⟩ := extreme_items (k := k) (m := l.filter (inSlotOf x))
      (List.ne_nil_of_mem ((hmem y0).2 ⟨hy0.1, hy0.2⟩))
    have hw := middles_within (D := D) (fun w hw => ⟨hy2 w hw, hy1 w hw⟩) _ m1
    refine ⟨⟨y, ((hmem y).1 hy).1, ((hmem y).1 hy).2, le_antisymm hw.2 (m2 _ (middles_has hy))⟩, ?_⟩
    intro w w1 w2 w3
    exact m2 _ (middles_has ((hmem w).2 ⟨w1, w2, w3⟩))
  · intro ho
    have hx := hval minSlotOp slotMinStep ho rfl (fun _ _ _ _ => rfl)
    rw [opLabel] at hx
    refine ⟨_, hx, ?_, hline _⟩
    intro hpt
    have hvals := b4 hpt k hk'
    rw [List.map_cons] at hvals
    obtain ⟨m1, m2⟩ := foldl_min (rest.map (VPoint.val k)) (p.val k)
    rw [hvals] at m1 m2
    obtain ⟨y0, hy0⟩ := hpt
    obtain ⟨⟨y, _, hy1⟩, ⟨y', hy', hy2⟩⟩ := extreme_items (k := k) (m := l.filter (inSlotOf x))
      (List.ne_nil_of_mem ((hmem y0).2 ⟨hy0.1, hy0.2⟩))
    have hw := middles_within (D := D) (fun w hw => ⟨hy2 w hw, hy1 w hw⟩) _ m1
    refine ⟨⟨y', ((hmem y').1 hy').1, ((hmem y').1 hy').2, le_antisymm (m2 _ (middles_has hy')) hw.1⟩, ?_⟩
    intro w w1 w2 w3
    exact m2 _ (middles_has ((hmem w).2 ⟨w1, w2, w3⟩))

/-! ## Sums -/

/-- **C280**, partial: the sum of a slot with points is the sum of their values, plus the middle one of the values of any two consecutive
points of the slot that are more than the sampling interval apart; if no point is within half a sampling interval of the slot, it is
the value, halfway through it, of the line through the points before and after it.  Missing: that it is the sum of the values of the
points of the slot, which is false (`C280_false`). -/
theorem C280_sums_partial (clk : String → Grid) (n : ℕ) (z : String) (l : List Item) (s : TSeries) (h : DataSeries z l s)
    (hl : Lossless l) (hnd : LabelsOnce l) (unit : TUnit) (ops : List SlotOp) (hb : ∀ o ∈ ops, o ∈ builtinOps)
    (ho : sumSlotOp ∈ ops) (D : ℚ) (hpos : 0 < D) (hv : frontValidity n none (times l) = some (.ok D)) :
    ∃ r, s.aggregate clk n unit ops = some (.ok r) ∧ AggregatedTo (clk z) unit ops z l r.items ∧
      (PointsOrAway D l r.items → ∀ x ∈ r.items, ∀ k, SeriesLabel l k → ∃ v, x.value? (k ++ "_sum") = some v ∧
          ((∃ y ∈ l, x.t ≤ y.t ∧ y.t < x.endT) → v = (withMiddles D k (l.filter (inSlotOf x))).sum) ∧
          ((∀ y ∈ l, y.t + D / 2 ≤ x.t ∨ x.endT ≤ y.t - D / 2) → LineInSlot l x k v)) := by
  obtain ⟨r, ks, a1, a2, a3, a4⟩ := aggregated_inner clk n z l s h hl hnd unit ops (List.ne_nil_of_mem ho) (builtin_names.sub hb)
    (fun _ hks o ho => builtin_total hks o (hb o ho)) (fun o ho => builtin_labels o (hb o ho)) D hpos hv
  refine ⟨r, a1, a2, ?_⟩
  intro hin x hx k hk
  have hk' := (a3 k).2 hk
  obtain ⟨inner, b1, b2, b3, b4, b5⟩ := a4 hin x hx
  obtain ⟨res, r1, r2⟩ := b3 sumSlotOp ho rfl
  have hrun : sumSlotOp.run ks x.t x.endT inner = sumView ks inner := rfl
  rw [hrun, sumView_ok b1 b2] at r1
  cases r1
  refine ⟨(inner.map (VPoint.val k)).sum, ?_, ?_, ?_⟩
  · have := r2 k hk'
    rw [table_get? (fun k => (inner.map (VPoint.val k)).sum) hk', opLabel] at this
    exact this
  · intro hpt
    rw [b4 hpt k hk']
  · intro hout
    obtain ⟨i, y, y', c1, c2, c3, c4, c5⟩ := b5 hout k hk'
    exact ⟨i, y, y', c1, c2, c3, c4, by rw [c5]; simp⟩

theorem middles_plain {D : ℚ} {k : String} : ∀ {m : List Item}, (times m).IsChain (fun a b => b - a ≤ D) →
    withMiddles D k m = m.map (fun y => y.value k)
  | [], _ => rfl
  | [x], _ => rfl
  | x :: y :: r, h => by
    simp only [times, List.map_cons, List.isChain_cons_cons] at h
    rw [withMiddles, if_neg (by linarith [h.1]), middles_plain (m := y :: r) h.2]
    rfl

/-- the items from `a` to `b` are consecutive ones -/
theorem between_chain {R : ℚ → ℚ → Prop} {a b : ℚ} : ∀ {l : List Item}, (times l).Pairwise (· < ·) → (times l).IsChain R →
    (times (l.filter (fun y => decide (a ≤ y.t ∧ y.t < b)))).IsChain R
  | [], _, _ => by simp [times]
  | [x], _, _ => by
    rw [List.filter_cons]
    split_ifs <;> simp [times]
  | x :: y :: r, hs, hc => by
    simp only [times, List.map_cons] at hs
    have hs' := (List.pairwise_cons.1 hs).2
    have ih := between_chain (R := R) (a := a) (b := b) (l := y :: r) (by simpa [times] using hs')
      (by simp only [times, List.map_cons, List.isChain_cons_cons] at hc; simpa [times] using hc.2)
    rw [List.filter_cons]
    split_ifs with hx
    · simp only [decide_eq_true_eq] at hx
      have hxy : x.t < y.t := (List.pairwise_cons.1 hs).1 _ (by simp)
      by_cases hy : y.t < b
      · rw [List.filter_cons, if_pos (by simp only [decide_eq_true_eq]; exact ⟨by linarith, hy⟩)] at ih ⊢
        simp only [times, List.map_cons, List.isChain_cons_cons] at hc ih ⊢
        exact ⟨hc.1, ih⟩
      · have : (y :: r).filter (fun y => decide (a ≤ y.t ∧ y.t < b)) = [] := by
          rw [List.filter_eq_nil_iff]
          intro w hw
          have hyw : y.t ≤ w.t := by
            rcases List.mem_cons.1 hw with rfl | hw
            · exact le_refl _
            · exact ((List.pairwise_cons.1 hs').1 _ (List.mem_map_of_mem hw)).le
          simp only [decide_eq_true_eq, not_and]
          intro _; linarith
        rw [this]
        simp [times]
    · exact ih

/-- **C280 (no gaps)**: if no two consecutive points are more than the sampling interval apart, the sum of a slot with points is the sum
of their values. -/
theorem C280_plain_partial (clk : String → Grid) (n : ℕ) (z : String) (l : List Item) (s : TSeries) (h : DataSeries z l s)
    (hl : Lossless l) (hnd : LabelsOnce l) (unit : TUnit) (ops : List SlotOp) (hb : ∀ o ∈ ops, o ∈ builtinOps)
    (ho : sumSlotOp ∈ ops) (D : ℚ) (hpos : 0 < D) (hv : frontValidity n none (times l) = some (.ok D))
    (hnog : (times l).IsChain (fun a b => b - a ≤ D)) :
    ∃ r, s.aggregate clk n unit ops = some (.ok r) ∧ AggregatedTo (clk z) unit ops z l r.items ∧
      ((∀ x ∈ r.items, ∃ y ∈ l, x.t ≤ y.t ∧ y.t < x.endT) → ∀ x ∈ r.items, ∀ k, SeriesLabel l k →
        x.value? (k ++ "_sum") = some ((l.filter (inSlotOf x)).map (fun y => y.value k)).sum) := by
  obtain ⟨r, a1, a2, a3⟩ := C280_sums_partial clk n z l s h hl hnd unit ops hb ho D hpos hv
  refine ⟨r, a1, a2, ?_⟩
  intro hin x hx k hk
  obtain ⟨v, v1, v2, _⟩ := a3 (fun x hx => .inl (hin x hx)) x hx k hk
  rw [v1, v2 (hin x hx)]
  rw [middles_plain]
  exact between_chain (by unfold times; exact List.pairwise_map.2 h.good.ordered) hnog

/-- in an evenly spaced series there is a point in each slot of the result, if slots are not shorter than the spacing -/
theorem even_slots {g : Grid} {unit : TUnit} {ops : List SlotOp} {z : String} {l out : List Item} {D : ℚ} (hne : l ≠ [])
    (hD : UniformBy D l) (hDu : ∀ t, t + D ≤ g.next t) (a2 : AggregatedTo g unit ops z l out) :
    ∀ x ∈ out, ∃ y ∈ l, x.t ≤ y.t ∧ y.t < x.endT := by
  have hc := chain_eq_of_spacings hD.2
  have hfirst : ∀ x ∈ out, firstTime l ≤ x.t := by
    obtain ⟨s0, _, h1, _, h2, _⟩ := a2.start
    have hch := a2.chain
    have hd := g.hdelta
    have gen : ∀ (out : List Item), out.IsChain (fun x y => y.t = g.next x.t) → (∀ x ∈ out.head?, firstTime l ≤ x.t) →
        ∀ x ∈ out, firstTime l ≤ x.t := by
      intro out
      induction out with
      | nil => simp
      | cons y r ih =>
        intro hc hh x hx
        rcases List.mem_cons.1 hx with rfl | hx
        · exact hh x (by simp)
        · cases r with
          | nil => simp at hx
          | cons w r =>
            rw [List.isChain_cons_cons] at hc
            refine ih hc.2 ?_ x hx
            intro v hv
            simp at hv; subst hv
            rw [hc.1]
            have := g.hnext y.t
            have := hh y (by simp)
            linarith
    exact gen _ hch (fun x hx => by rw [h2 x hx]; exact h1)
  intro x hx
  obtain ⟨m1, m2, _⟩ := a2.item x hx
  have he : x.endT = g.next x.t := by simp [Item.endT, m1]
  have hx1 := hfirst x hx
  have hx2 := hDu x.t
  have gen2 : ∀ (l : List Item), (times l).IsChain (fun x y => y - x = D) → l ≠ [] → firstTime l ≤ x.t → x.endT ≤ lastTime l →
      ∃ y ∈ l, x.t ≤ y.t ∧ y.t < x.endT := by
    intro l
    induction l with
    | nil => intro _ h; exact absurd rfl h
    | cons y r ih =>
      intro hc _ h1 h2
      have e : firstTime (y :: r) = y.t := by simp [firstTime, times]
      rw [e] at h1
      cases r with
      | nil =>
        have e2 : lastTime [y] = y.t := by simp [lastTime, times]
        rw [e2] at h2
        have := g.hnext x.t
        have := g.hdelta
        rw [he] at h2
        linarith
      | cons w r =>
        simp only [times, List.map_cons, List.isChain_cons_cons] at hc
        have e3 : lastTime (y :: w :: r) = lastTime (w :: r) := by simp [lastTime, times]
        have e4 : firstTime (w :: r) = w.t := by simp [firstTime, times]
        rw [e3] at h2
        rcases le_or_gt w.t x.t with hw | hw
        · obtain ⟨v, hv, hv'⟩ := ih hc.2 (by simp) (by rw [e4]; exact hw) h2
          exact ⟨v, by simp at hv ⊢; tauto, hv'⟩
        · rcases lt_or_eq_of_le h1 with h3 | h3
          · refine ⟨w, by simp, hw.le, ?_⟩
            rw [he]
            linarith [hc.1]
          · refine ⟨y, by simp, h3.ge, ?_⟩
            rw [he]
            have := g.hnext x.t
            have := g.hdelta
            linarith
  exact gen2 l hc hne hx1 (by rw [he]; exact m2)

theorem filter_sum_split {f : Item → ℚ} {a b c : ℚ} (hab : a ≤ b) (hbc : b ≤ c) (l : List Item) :
    ((l.filter (fun y => decide (a ≤ y.t ∧ y.t < b))).map f).sum + ((l.filter (fun y => decide (b ≤ y.t ∧ y.t < c))).map f).sum =
      ((l.filter (fun y => decide (a ≤ y.t ∧ y.t < c))).map f).sum := by
  induction l with
  | nil => simp
  | cons y r ih =>
    have e : ∀ (u v : ℚ), (((y :: r).filter (fun y => decide (u ≤ y.t ∧ y.t < v))).map f).sum =
        (if u ≤ y.t ∧ y.t < v then f y else 0) + ((r.filter (fun y => decide (u ≤ y.t ∧ y.t < v))).map f).sum := by
      intro u v
      rw [List.filter_cons]
      by_cases h : u ≤ y.t ∧ y.t < v
      · rw [if_pos (by simpa using h), if_pos h, List.map_cons, List.sum_cons]
      · rw [if_neg (by simpa using h), if_neg h, zero_add]
    rw [e, e, e, ← ih]
    have : (if a ≤ y.t ∧ y.t < c then f y else 0) = (if a ≤ y.t ∧ y.t < b then f y else 0) + (if b ≤ y.t ∧ y.t < c then f y else 0) := by
      by_cases h2 : y.t < b
      · have h4 : ¬ b ≤ y.t := not_le.2 h2
        have h3 : y.t < c := lt_of_lt_of_le h2 hbc
        simp [h2, h3, h4]
      · have h4 : b ≤ y.t := not_lt.1 h2
        have h1 : a ≤ y.t := le_trans hab h4
        simp [h1, h2, h4]
    rw [this]
    ring

theorem slots_total {g : Grid} {k : String} {l : List Item} {unit : TUnit} : ∀ (out : List Item),
    (∀ x ∈ out, x.slot = some (g.next x.t, unit)) → out.IsChain (fun x y => y.t = g.next x.t) →
    (∀ x ∈ out, x.value? (k ++ "_sum") = some ((l.filter (inSlotOf x)).map (fun y => y.value k)).sum) →
    ∀ x ∈ out.head?, ∀ y ∈ out.getLast?, x.t ≤ y.endT ∧
      (out.map (fun w => w.value (k ++ "_sum"))).sum =
        ((l.filter (fun w => decide (x.t ≤ w.t ∧ w.t < y.endT))).map (fun w => w.value k)).sum
  | [], _, _, _, x, hx => by simp at hx
  | [w], hs, _, hv, x, hx => by
    intro y hy
    simp at hx hy
    subst hx hy
    have h1 := hv w (by simp)
    have he : w.endT = g.next w.t := by simp [Item.endT, hs w (by simp)]
    have hn := g.hnext w.t
    have hd := g.hdelta
    refine ⟨by rw [he]; linarith, ?_⟩
    simp only [List.map_cons, List.map_nil, List.sum_cons, List.sum_nil, add_zero]
    unfold Item.value at h1 ⊢
    rw [h1, Option.getD_some]
    rfl
  | w :: w' :: r, hs, hc, hv, x, hx => by
    intro y hy
    simp only [List.head?_cons, Option.mem_def, Option.some.injEq] at hx
    subst hx
    rw [List.isChain_cons_cons] at hc
    obtain ⟨i1, i2⟩ := slots_total (w' :: r) (fun x hx => hs x (by simp at hx ⊢; tauto)) hc.2
      (fun x hx => hv x (by simp at hx ⊢; tauto)) w' (by simp) y (by simpa [List.getLast?_cons_cons] using hy)
    have h1 := hv w (by simp)
    have he : w.endT = g.next w.t := by simp [Item.endT, hs w (by simp)]
    have hn := g.hnext w.t
    have hd := g.hdelta
    have hlt : w.t < w.endT := by rw [he]; linarith
    refine ⟨by rw [hc.1, ← he] at i1; linarith, ?_⟩
    rw [hc.1, ← he] at i1
    rw [List.map_cons, List.sum_cons, i2, hc.1, ← he]
    have : w.value (k ++ "_sum") = ((l.filter (inSlotOf w)).map (fun y => y.value k)).sum := by
      rw [Item.value, h1, Option.getD_some]
    rw [this]
    exact filter_sum_split hlt.le i1 l

/-- **C282**: for an evenly spaced series without data losses and slots not shorter than its spacing, the sum of each slot is the sum of
the values of its points, and the sums of all slots add up to the sum of the values of all the points in the time of the slots. -/
theorem C282_total (clk : String → Grid) (n : ℕ) (z : String) (l : List Item) (s : TSeries) (h : DataSeries z l s)
    (hl : Lossless l) (hnd : LabelsOnce l) (unit : TUnit) (ops : List SlotOp) (hb : ∀ o ∈ ops, o ∈ builtinOps)
    (ho : sumSlotOp ∈ ops) (D : ℚ) (hD : UniformBy D l) (hDu : ∀ t, t + D ≤ (clk z).next t) :
    ∃ r, s.aggregate clk (n + 1) unit ops = some (.ok r) ∧ AggregatedTo (clk z) unit ops z l r.items ∧
      (∀ x ∈ r.items, ∀ k, SeriesLabel l k →
        x.value? (k ++ "_sum") = some ((l.filter (inSlotOf x)).map (fun y => y.value k)).sum) ∧
      ∀ x ∈ r.items.head?, ∀ y ∈ r.items.getLast?, ∀ k, SeriesLabel l k →
        (r.items.map (fun w => w.value (k ++ "_sum"))).sum =
          ((l.filter (fun w => decide (x.t ≤ w.t ∧ w.t < y.endT))).map (fun w => w.value k)).sum := by
  have hv := validity_even (ts := times l) (by rw [times_length]; exact h.two) hD.2 n
  have hpos := even_pos h.good.ordered hD
  have hc := chain_eq_of_spacings hD.2
  obtain ⟨r, a1, a2, a3⟩ := C280_plain_partial clk (n + 1) z l s h hl hnd unit ops hb ho D hpos hv
    (hc.imp (fun _ _ h => h.le))
  have hne : l ≠ [] := by rintro rfl; have := h.two; simp at this
  have hin := even_slots hne hD hDu a2
  refine ⟨r, a1, a2, a3 hin, ?_⟩
  intro x hx y hy k hk
  exact (slots_total r.items (fun w hw => (a2.item w hw).1) a2.chain (fun w hw => a3 hin w hw k hk) x hx y hy).2

/-! ## Concrete cases -/

/-- what a slot of an aggregation shows -/
def statsOf (ks : List String) (r : Option (Except PyErr TSeries)) : Option (Option (List (ℚ × List (Option ℚ)))) :=
  r.map (fun r => r.toOption.map (fun q => q.items.map (fun x => (x.t, ks.map x.value?))))

/-- slots of a minute, the second with a gap inside -/
def clock60b : String → Grid := fun _ => physGrid 60 (by norm_num)

theorem gapLossless : Lossless gapPoints ∧ LabelsOnce gapPoints := by
  refine ⟨by unfold Lossless; decide +kernel, ?_⟩
  intro x hx d hd
  fin_cases hx <;> cases hd <;> decide

theorem romeLossless : Lossless exRome ∧ LabelsOnce exRome := by
  refine ⟨by unfold Lossless; decide +kernel, ?_⟩
  intro x hx d hd
  fin_cases hx <;> cases hd <;> decide

/-- slots with points, and one in the middle of a gap -/
theorem C279_witness : DataSeries "UTC" gapPoints gapSeries ∧ Lossless gapPoints ∧ LabelsOnce gapPoints ∧
    (frontValidity 5 none (times gapPoints)).map (fun r => r.toOption) = some (some 10) ∧
    statsOf ["v_max", "v_min"] (gapSeries.aggregate clock30 5 (TUnit.ofSecs 30) [maxSlotOp, minSlotOp]) =
      some (some [(0, [some 4, some 1]), (30, [some 9, some 9]), (60, [some 14, some 3])]) ∧
    ((gapSeries.aggregate clock30 5 (TUnit.ofSecs 30) [maxSlotOp, minSlotOp]).map (fun r => r.toOption.map (fun q =>
      decide (∀ x ∈ q.items, (∃ y ∈ gapPoints, x.t ≤ y.t ∧ y.t < x.endT) ∨
        ∀ y ∈ gapPoints, y.t + 10 / 2 ≤ x.t ∨ x.endT ≤ y.t - 10 / 2)))) = some (some true) :=
  ⟨gapSeries_data, gapLossless.1, gapLossless.2, by decide +kernel, by decide +kernel, by decide +kernel⟩

/-- **C279 is false** for slots without points that are partly covered: in slots of 30 s, points every minute with positive values give
maxima and minima of zero. -/
theorem C279_false : DataSeries "Europe/Rome" exRome exRomeSeries ∧ Lossless exRome ∧ LabelsOnce exRome ∧ UniformBy 60 exRome ∧
    (∀ y ∈ exRome, 1 ≤ y.value "v") ∧
    statsOf ["v_max", "v_min"] (exRomeSeries.aggregate clock30 1 (TUnit.ofSecs 30) [maxSlotOp, minSlotOp]) =
      some (some [(60, [some 1, some 1]), (90, [some 0, some 0]), (120, [some 6, some 6]), (150, [some 0, some 0]),
        (180, [some 10, some 10]), (210, [some 0, some 0])]) :=
  ⟨exRome_data, romeLossless.1, romeLossless.2, ⟨by decide +kernel, by decide +kernel⟩, by decide +kernel, by decide +kernel⟩

/-- the slot from 0 to 180 has points 50 s apart, so also the value in the middle of the gap is counted -/
theorem C280_witness : DataSeries "UTC" gapPoints gapSeries ∧ Lossless gapPoints ∧ LabelsOnce gapPoints ∧
    sumSlotOp ∈ [sumSlotOp] ∧
    (frontValidity 5 none (times gapPoints)).map (fun r => r.toOption) = some (some 10) ∧
    statsOf ["v_sum"] (gapSeries.aggregate clock30 5 (TUnit.ofSecs 30) [sumSlotOp]) =
      some (some [(0, [some 7]), (30, [some 9]), (60, [some 17])]) ∧
    withMiddles 10 "v" gapPoints = [1, 2, 4, 9, 14, 3, 5, 7] :=
  ⟨gapSeries_data, gapLossless.1, gapLossless.2, by simp, by decide +kernel, by decide +kernel, by decide +kernel⟩

/-- points 10 s apart, with a gap within the first slot of 60 s -/
def holePoints : List Item :=
  [mkPoint 0 (.dict [("v", 1)]) "UTC" [], mkPoint 10 (.dict [("v", 2)]) "UTC" [], mkPoint 20 (.dict [("v", 4)]) "UTC" [],
   mkPoint 50 (.dict [("v", 10)]) "UTC" [], mkPoint 60 (.dict [("v", 3)]) "UTC" []]
def holeSeries : TSeries := ((TSeries.build holePoints).toOption).getD {}

/-- **C280 is false** as the sum of the values of the points of the slot: an interpolated value is added for a gap. -/
theorem C280_false : (TSeries.build holePoints).toOption = some holeSeries ∧
    (frontValidity 5 none (times holePoints)).map (fun r => r.toOption) = some (some 10) ∧
    statsOf ["v_sum"] (holeSeries.aggregate clock60b 5 (TUnit.ofSecs 60) [sumSlotOp]) = some (some [(0, [some 24])]) ∧
    ((holePoints.filter (fun y => decide (0 ≤ y.t ∧ y.t < 60))).map (fun y => y.value "v")).sum = 17 :=
  ⟨by decide +kernel, by decide +kernel, by decide +kernel, by decide +kernel⟩

/-- operations named as in the library do not get in each other's way -/
theorem C281_witness : DataSeries "UTC" gapPoints gapSeries ∧ Lossless gapPoints ∧ LabelsOnce gapPoints ∧
    (∀ o ∈ builtinOps, o ∈ builtinOps) ∧
    statsOf ["v_avg", "v_max", "v_min", "v_sum"] (gapSeries.aggregate clock30 5 (TUnit.ofSecs 30) builtinOps) =
      some (some [(0, [some (37 / 12), some 4, some 1, some 7]), (30, [some 9, some 9, some 9, some 9]),
        (60, [some (103 / 12), some 14, some 3, some 17])]) :=
  ⟨gapSeries_data, gapLossless.1, gapLossless.2, fun _ h => h, by decide +kernel⟩

/-- a series with the labels `x` and `x_y` -/
def underPoints : List Item :=
  [mkPoint 0 (.dict [("x", 1), ("x_y", 5)]) "UTC" [], mkPoint 30 (.dict [("x", 2), ("x_y", 6)]) "UTC" [],
   mkPoint 60 (.dict [("x", 3), ("x_y", 7)]) "UTC" []]
def underSeries : TSeries := ((TSeries.build underPoints).toOption).getD {}
/-- a user-defined operation (a function) named `y_max`, that gives the minimum -/
def underOp : SlotOp := { minSlotOp with name := "y_max" }

/-- **C281 is false** for operations with underscores in their names: the maximum of `x_y`, and the operation `y_max` for `x`, have the
same label, and only the one computed last is there. -/
theorem C281_false : (TSeries.build underPoints).toOption = some underSeries ∧
    statsOf ["x_y_max"] (underSeries.aggregate clock60b 5 (TUnit.ofSecs 60) [maxSlotOp]) = some (some [(0, [some 6])]) ∧
    statsOf ["x_y_max"] (underSeries.aggregate clock60b 5 (TUnit.ofSecs 60) [underOp]) = some (some [(0, [some 1])]) ∧
    statsOf ["x_max", "x_y_max", "x_y_y_max"] (underSeries.aggregate clock60b 5 (TUnit.ofSecs 60) [maxSlotOp, underOp]) =
      some (some [(0, [some 2, some 1, some 5])]) ∧
    statsOf ["x_max", "x_y_max", "x_y_y_max"] (underSeries.aggregate clock60b 5 (TUnit.ofSecs 60) [underOp, maxSlotOp]) =
      some (some [(0, [some 2, some 6, some 5])]) :=
  ⟨by decide +kernel, by decide +kernel, by decide +kernel, by decide +kernel, by decide +kernel⟩

/-- points every minute in slots of two and three minutes -/
theorem C282_witness : DataSeries "Europe/Rome" exRome exRomeSeries ∧ Lossless exRome ∧ LabelsOnce exRome ∧ UniformBy 60 exRome ∧
    (∀ t, t + 60 ≤ (clock60b "Europe/Rome").next t) ∧
    statsOf ["v_sum"] (exRomeSeries.aggregate clock60b 1 (TUnit.ofSecs 60) [sumSlotOp]) =
      some (some [(60, [some 1]), (120, [some 3]), (180, [some 5])]) :=
  ⟨exRome_data, romeLossless.1, romeLossless.2, ⟨by decide +kernel, by decide +kernel⟩, fun t => by show t + 60 ≤ t + 60; linarith,
    by decide +kernel⟩

end Timeseria
