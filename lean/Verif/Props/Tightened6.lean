import Verif.Props.Heap
import Verif.Props.Anomaly
import Verif.Props.DetectorFit
import Verif.Props.DetectorSave
import Verif.Props.Order
import Verif.Props.Access
import Verif.Props.Labels

/-! # Theorems added after testing the others against wrong programs (sixth round) -/

namespace Timeseria

/-! ## C34: the model with objects agrees with the model with values, for the other operations -/

/-- **C34 (the model with objects agrees with the model with values)**: moving averages give a series that reads like the one computed on
values, or raise the same exception. -/
theorem C34_mavg_agrees {cal : Calendar} {w : Int} {h : Heap} {s : HSeries} (hs : s.Valid h) :
    match s.mavgOp cal w h with
    | .ok (h', r) => ∃ r0, (s.view h).mavgOp cal w = .ok r0 ∧ (r.view h').items = r0.items ∧ r.Valid h'
    | .error e => (s.view h).mavgOp cal w = .error e := by
  unfold HSeries.mavgOp TSeries.mavgOp
  cases hp : (s.view h).opPrep with
  | error e => rfl
  | ok p =>
    obtain ⟨proto, ks⟩ := p
    dsimp only
    by_cases hw : w < 1
    · rw [if_pos hw, if_pos hw]
    · rw [if_neg hw, if_neg hw]
      exact finish_reads (heapLoop_reads (f' := fun i _ k => match windowSum (s.view h).items k (i + 1 - w.toNat) w.toNat 0 with
          | .ok v => pyDiv v w.toNat
          | .error e => .error e)
        s.items hs.items (fun h' i x k hk hx => by rw [view_items, hk.reads hs.items]; rfl) (Heap.Kept.refl h) 0)

/-- the item a filter makes, on values -/
def filteredItem (labels : List String) (x : Item) : Except PyErr Item :=
  bindE (mapE (fun k => tag k (x.byLabel k)) labels) (fun kvs =>
    .ok { x with data := some (.dict (kvs.foldl (fun d p => Dict.set d p.1 p.2) [])) })

theorem filterLoop_reads {labels : List String} {h0 : Heap} (l : List HItem) (hl : ∀ x ∈ l, x.dA < h0.data.length ∧ x.iA < h0.idx.length)
    {h : Heap} (hk : h0.Kept h) :
    match filterLoop labels h l with
    | .ok (h', ys) => mapE (filteredItem labels) (h0.reads l) = .ok (h'.reads ys) ∧
        (∀ y ∈ ys, y.dA < h'.data.length ∧ y.iA < h'.idx.length) ∧ h.Kept h'
    | .error e => mapE (filteredItem labels) (h0.reads l) = .error e := by
  induction l generalizing h with
  | nil => exact ⟨rfl, by simp, Heap.Kept.refl h⟩
  | cons x r ih =>
    have hx := hl x (by simp)
    have hread : h.read x = h0.read x := hk.read hx.1 hx.2
    rw [show h0.reads (x :: r) = h0.read x :: h0.reads r from rfl]
    have e1 : mapE (filteredItem labels) (h0.read x :: h0.reads r) = match filteredItem labels (h0.read x) with
      | .error e => .error e
      | .ok y => match mapE (filteredItem labels) (h0.reads r) with
        | .error e => .error e
        | .ok ys => .ok (y :: ys) := by
      conv_lhs => unfold mapE
      cases filteredItem labels (h0.read x) with
      | error e => rfl
      | ok y => cases mapE (filteredItem labels) (h0.reads r) <;> rfl
    rw [e1]
    conv =>
      pattern filterLoop labels h (x :: r)
      unfold filterLoop
    rw [hread]
    cases hm : mapE (fun k => tag k ((h0.read x).byLabel k)) labels with
    | error e =>
      have hfi : filteredItem labels (h0.read x) = .error e := by unfold filteredItem; rw [hm]; rfl
      rw [hfi]
    | ok kvs =>
      have hfi : filteredItem labels (h0.read x) =
          .ok { h0.read x with data := some (.dict (kvs.foldl (fun d p => Dict.set d p.1 p.2) [])) } := by unfold filteredItem; rw [hm]; rfl
      rw [hfi]
      dsimp only
      have hk2 := hk.trans (Heap.Kept.alloc h (.dict (kvs.foldl (fun d p => Dict.set d p.1 p.2) [])))
      have := ih (fun y hy => hl y (by simp [hy])) hk2
      cases hf : filterLoop labels (h.alloc (.dict (kvs.foldl (fun d p => Dict.set d p.1 p.2) []))) r with
      | error e =>
        rw [hf] at this
        dsimp only at this ⊢
        rw [this]
      | ok p =>
        obtain ⟨h', ys⟩ := p
        rw [hf] at this
        dsimp only at this ⊢
        obtain ⟨e1, e2, e3⟩ := this
        rw [e1]
        have hkk := (Heap.Kept.alloc h (.dict (kvs.foldl (fun d p => Dict.set d p.1 p.2) []))).trans e3
        have hd : h'.data[h.data.length]? = some (.dict (kvs.foldl (fun d p => Dict.set d p.1 p.2) [])) := by
          rw [e3.data _ (by simp [Heap.alloc])]
          simp [Heap.alloc]
        have hi : h'.idx[x.iA]? = h0.idx[x.iA]? := (hk.trans hkk).idx _ hx.2
        refine ⟨?_, ?_, hkk⟩
        · simp only [Except.ok.injEq, Heap.reads, List.map_cons, List.cons.injEq, and_true]
          unfold Heap.read
          simp only [hd, hi]
        · intro y hy
          rcases List.mem_cons.1 hy with rfl | hy
          · refine ⟨?_, ?_⟩
            · have := e3.data_le
              simp only [Heap.alloc, List.length_append, List.length_cons, List.length_nil] at this
              dsimp only
              omega
            · exact lt_of_lt_of_le hx.2 (hk.trans hkk).idx_le
          · exact e2 y hy

/-- **C34 (the model with objects agrees with the model with values)**: filtering. -/
theorem C34_filter_agrees {labels : List String} {h : Heap} {s : HSeries} (hs : s.Valid h) :
    match s.filterOp labels h with
    | .ok (h', r) => ∃ r0, (s.view h).filterOp labels = .ok r0 ∧ (r.view h').items = r0.items ∧ r.Valid h'
    | .error e => (s.view h).filterOp labels = .error e := by
  unfold HSeries.filterOp TSeries.filterOp
  cases hp : (s.view h).opPrep with
  | error e => rfl
  | ok p =>
    obtain ⟨proto, ks⟩ := p
    cases proto with
    | num v => rfl
    | list v => rfl
    | dict d =>
      dsimp only
      apply finish_reads
      have := filterLoop_reads (labels := labels) s.items hs.items (Heap.Kept.refl h)
      cases hf : filterLoop labels h s.items with
      | error e => rw [hf] at this; exact this
      | ok p =>
        obtain ⟨h', ys⟩ := p
        rw [hf] at this
        exact ⟨this.1, this.2.1⟩

/-- the two operations on the series of two points of C34 -/
theorem C34_agrees_witness : exH.Valid exHeap ∧
    (match exH.mavgOp physicalCalendar 2 exHeap with
      | .ok (h', r) => (r.view h').items.map (fun x => (x.t, x.data))
      | .error _ => []) = [(60, some (.dict [("v_mavg_2", 3 / 2)]))] ∧
    (match exH.filterOp ["v"] exHeap with
      | .ok (h', r) => (r.view h').items.map (fun x => (x.t, x.data))
      | .error _ => []) = [(0, some (.dict [("v", 1)])), (60, some (.dict [("v", 2)]))] :=
  ⟨C34_witness.1, by decide +kernel, by decide +kernel⟩

/-! ## C229: bounds of different kinds -/

/-- **C229**: slicing from a position to a time, or from a time to a position, and giving both on one side, is a `ValueError`. -/
theorem C229_slice_refused (s : TSeries) (hne : s.items ≠ []) (fromI toI : Option Int) (fromT toT : Option ℚ)
    (h : (fromI.isSome ∧ fromT.isSome) ∨ (toI.isSome ∧ toT.isSome) ∨ (fromI.isSome ∧ toT.isSome) ∨ (toI.isSome ∧ fromT.isSome)) :
    s.slice fromI toI fromT toT = .error .valueError := by
  unfold TSeries.slice sliceItems
  have : s.items.isEmpty = false := by cases hl : s.items with
    | nil => exact absurd hl hne
    | cons a b => rfl
  rw [this]
  simp only [Bool.false_eq_true, if_false]
  cases fromI <;> cases toI <;> cases fromT <;> cases toT <;> simp_all

example : exSeries.slice (some 0) none none (some 60) = .error .valueError := C229_slice_refused _ (by decide +kernel) _ _ _ _ (by simp)

/-! ## C193: bounds which stand for nothing -/

/-- **C193**: a bound with a name which is not one of those is a `ValueError`. -/
theorem C193_unknown {lg : ℚ → ℚ} {d : Detector} {c : AnomCfg} {k : String} {errs : List ℚ} (he : storedErrors d k = .ok errs)
    (hl : c.lower = .unknown) : labelRange lg d c k = .error .valueError := by
  unfold labelRange
  rw [he, hl]
  rfl

/-- **C193**: the greatest error of a label without errors is a `ValueError`. -/
theorem C193_no_errors {lg : ℚ → ℚ} {d : Detector} {c : AnomCfg} {k : String} (he : storedErrors d k = .ok [])
    (hl : c.lower = .maxErr) : labelRange lg d c k = .error .valueError := by
  unfold labelRange
  rw [he, hl]
  rfl

/-! ## C129: logarithms of a zero density -/

/-- **C129 is false** also where the density is zero: between the bounds the logarithmic index is a `ValueError`. -/
theorem C129_log_false {lg : ℚ → ℚ} {r : IndexRange} {x y : ℚ} (h1 : r.xs < x) (h2 : x < r.xe) (hy : y ≤ 0) :
    rawIndex lg .log r x y = .error .valueError := by
  unfold rawIndex
  rw [if_neg (by linarith), if_neg (by linarith)]
  unfold pyLog
  rw [if_pos hy]

/-! ## C154: one evaluated item -/

/-- **C154**: the exception for less than two evaluated items is a `ValueError`, if the distribution can be fitted at all. -/
theorem C154_few {I D : Type} (K : InnerKind I D) (k : String) (ev : List Evaluated) (r : List (String × List Evaluated)) (ds : Dict D) (ss : Dict ℚ)
    {f : D} (hf : K.distFit (ev.map Evaluated.error) = .ok f) (h : ev.length < 2) :
    (fitDists K ((k, ev) :: r) ds ss).2 = .error .valueError := by
  unfold fitDists stdevOf
  rw [hf]
  simp [h]

/-! ## C71: lists have no labels -/

/-- **C71**: on a series of lists, renaming and removing a label is a `TypeError` and changes nothing. -/
theorem C71_lists {h : Heap} {s : HSeries} {x : HItem} {r : List HItem} {l : List ℚ} (hok : s.refOk h = true) (hx : s.items = x :: r)
    (hd : h.data[x.dA]? = some (.list l)) (old new k : String) :
    s.rename old new h = (h, .error .typeError) ∧ s.removeLabel k h = (h, .error .typeError) := by
  unfold HSeries.rename HSeries.removeLabel
  rw [if_pos hok, if_pos hok, hx]
  constructor <;>
  · unfold dataLoop
    rw [hd]
    rfl

/-- **C71**: on a series of lists neither method changes anything: a concrete case -/
def listHeap : Heap := { data := [.list [1, 2]], idx := [[]] }
def listH : HSeries := { attrs := {}, items := [⟨0, none, "UTC", 0, 0⟩], refA := some 0 }
example : listH.refOk listHeap = true ∧ listH.rename "0" "a" listHeap = (listHeap, .error .typeError) :=
  ⟨by decide, (C71_lists (r := []) (l := [1, 2]) (by decide) rfl rfl "0" "a" "").1⟩

/-! ## C02: inserting something else -/

/-- **C02**: inserting an item of another kind than those of the series is a `TypeError`, and the series is as before. -/
theorem C02_other_kind {s : TSeries} {first : Item} (hf : s.items.head? = some first) (i : Int) {x : Item} (hx : x.isInstance first.cls = false) :
    s.insert i x = (s, .error .typeError) := by
  unfold TSeries.insert
  cases hl : s.items with
  | nil => rw [hl] at hf; cases hf
  | cons a l =>
    rw [hl] at hf
    simp only [List.head?_cons, Option.some.injEq] at hf
    subst hf
    obtain ⟨z, hz⟩ : ∃ z, (a :: l).getLast? = some z := ⟨_, List.getLast?_eq_getLast_of_ne_nil (by simp)⟩
    simp only [List.head?_cons, hz, hx, Bool.not_false, if_true]

/-! ## C159: no path -/

/-- **C159**: saving without a path is a `ValueError` and leaves nothing behind. -/
theorem C159_no_path {I D : Type} (C : InnerCodec I D) (st : MState (DetData I D)) (hst : st.fitted = true) (disk : DetDisk I D) :
    detSave C st disk "" = (disk, .error .valueError) := by
  unfold detSave
  simp [hst]

end Timeseria
