import Verif.Model.RemoveIndex
import Verif.Props.Heap

/-! # C231, C232: removing a data index -/

namespace Timeseria

/-- Specification: the item without the index. -/
structure WithoutIndex (name : String) (x y : Item) : Prop where
  t : y.t = x.t
  slot : y.slot = x.slot
  tz : y.tz = x.tz
  data : y.data = x.data
  gone : y.idx.get? name = none
  kept : ∀ k, k ≠ name → y.idx.get? k = x.idx.get? k

theorem dict_erase_erase {α : Type} (d : Dict α) (k : String) : (d.erase k).erase k = d.erase k := by
  induction d with
  | nil => rfl
  | cons p r ih =>
    obtain ⟨a, v⟩ := p
    simp only [Dict.erase] at ih ⊢
    by_cases h : a = k <;> simp [h] at ih ⊢ <;> try exact ih

theorem popIndexLoop_data (name : String) (l : List HItem) (h : Heap) : (popIndexLoop name h l).data = h.data := by
  induction l generalizing h with
  | nil => rfl
  | cons x r ih => rw [popIndexLoop, ih]; rfl

theorem popIndexLoop_idx (name : String) (l : List HItem) (h : Heap) (i : ℕ) :
    (popIndexLoop name h l).idx[i]? =
      if (∃ x ∈ l, x.iA = i) then (h.idx[i]?).map (fun d => d.erase name) else h.idx[i]? := by
  induction l generalizing h with
  | nil => simp [popIndexLoop]
  | cons x r ih =>
    rw [popIndexLoop, ih]
    have hs : (h.storeIdx x.iA (fun i => i.erase name)).idx[i]? =
        if x.iA = i then (h.idx[i]?).map (fun d => d.erase name) else h.idx[i]? := by
      unfold Heap.storeIdx
      rw [List.getElem?_modify]
      by_cases e : x.iA = i
      · rw [if_pos e]; simp [e]
      · rw [if_neg e]; simp [e]
    rw [hs]
    by_cases e : x.iA = i
    · rw [if_pos e, if_pos (⟨x, by simp, e⟩ : ∃ y ∈ x :: r, y.iA = i)]
      by_cases h2 : ∃ y ∈ r, y.iA = i
      · rw [if_pos h2]
        cases h.idx[i]? with
        | none => rfl
        | some d => simp [dict_erase_erase]
      · rw [if_neg h2]
    · rw [if_neg e]
      by_cases h2 : ∃ y ∈ r, y.iA = i
      · obtain ⟨y, hy, hyi⟩ := h2
        rw [if_pos ⟨y, hy, hyi⟩, if_pos ⟨y, by simp [hy], hyi⟩]
      · rw [if_neg h2, if_neg]
        rintro ⟨y, hy, hyi⟩
        rcases List.mem_cons.1 hy with rfl | hy
        · exact e hyi
        · exact h2 ⟨y, hy, hyi⟩

theorem popIndexLoop_read (name : String) (l : List HItem) (h : Heap) (x : HItem) (hx : ∃ y ∈ l, y.iA = x.iA) :
    WithoutIndex name (h.read x) ((popIndexLoop name h l).read x) := by
  have hi := popIndexLoop_idx name l h x.iA
  rw [if_pos hx] at hi
  have hr : ((popIndexLoop name h l).read x).idx = ((h.read x).idx).erase name := by
    unfold Heap.read
    simp only [hi]
    cases h.idx[x.iA]? with
    | none => rfl
    | some d => rfl
  refine ⟨rfl, rfl, rfl, ?_, ?_, ?_⟩
  · unfold Heap.read; simp only [popIndexLoop_data]
  · rw [hr, Dict.get?_erase, if_pos rfl]
  · intro k hk
    rw [hr, Dict.get?_erase, if_neg hk]

theorem removeIndex_ok {name : String} {h h' : Heap} {s : HSeries} (hr : s.removeIndex name h = (h', .ok ())) :
    h' = popIndexLoop name h s.items := by
  unfold HSeries.removeIndex at hr
  split_ifs at hr
  · exact (Prod.mk.inj hr).1.symm
  · cases (Prod.mk.inj hr).2

/-! ## C231 -/

/-- **C231**: after removing a data index no item of the series has it, whether it had it before or not; the times, the
time zones, the data and every other index of every item are as they were. -/
theorem C231_removed {name : String} {h h' : Heap} {s : HSeries} (hr : s.removeIndex name h = (h', .ok ())) :
    List.Forall₂ (WithoutIndex name) (s.view h).items (s.view h').items := by
  have e := removeIndex_ok hr
  subst e
  rw [view_items, view_items]
  unfold Heap.reads
  rw [List.forall₂_map_left_iff, List.forall₂_map_right_iff]
  exact List.forall₂_same.2 (fun x hx => popIndexLoop_read name s.items h x ⟨x, hx, rfl⟩)

/-- **C231 (data loss)**: removing the data loss is removing the data index of that name. -/
theorem C231_loss (h : Heap) (s : HSeries) : s.removeLoss h = s.removeIndex "data_loss" h := rfl

/-- **C231 (nothing to remove)**: removing an index twice is the same as once, and the second time is not refused. -/
theorem C231_twice {name : String} {h h' : Heap} {s : HSeries} (hr : s.removeIndex name h = (h', .ok ())) :
    s.removeIndex name h' = (h', .ok ()) := by
  have e := removeIndex_ok hr
  have hd : h'.data = h.data := by rw [e]; exact popIndexLoop_data name s.items h
  have href : s.refOk h = true := by
    unfold HSeries.removeIndex at hr
    by_contra hc
    rw [if_neg hc] at hr
    cases (Prod.mk.inj hr).2
  have href' : s.refOk h' = true := by
    rw [← href]; unfold HSeries.refOk; rw [hd]
  unfold HSeries.removeIndex
  rw [if_pos href']
  have hsame : popIndexLoop name h' s.items = h' := by
    have h1 : (popIndexLoop name h' s.items).data = h'.data := popIndexLoop_data _ _ _
    have h2 : (popIndexLoop name h' s.items).idx = h'.idx := by
      apply List.ext_getElem?
      intro i
      rw [popIndexLoop_idx]
      by_cases hx : ∃ x ∈ s.items, x.iA = i
      · rw [if_pos hx, e, popIndexLoop_idx, if_pos hx]
        cases h.idx[i]? with
        | none => rfl
        | some d => simp [dict_erase_erase]
      · rw [if_neg hx]
    cases hh : popIndexLoop name h' s.items with
    | mk a b =>
      rw [hh] at h1 h2
      simp only at h1 h2
      subst h1; subst h2; rfl
  rw [hsame]

/-- **C231 (accepted)**: it is refused, by a `TypeError` and without any effect, exactly for a non-empty series whose
items carry no data. -/
theorem C231_refused (name : String) (h : Heap) (s : HSeries) :
    (s.refOk h = true → ∃ h', s.removeIndex name h = (h', .ok ())) ∧
    (s.refOk h = false → s.removeIndex name h = (h, .error .typeError)) := by
  unfold HSeries.removeIndex
  refine ⟨fun hr => ⟨_, by rw [if_pos hr]⟩, fun hr => by rw [if_neg (by simp [hr])]⟩

theorem C231_witness : exH.refOk exHeap = true ∧ firstLoss exHeap exH = some (some 0) ∧
    (exH.removeIndex "data_loss" exHeap).2 = .ok () ∧
    firstLoss (exH.removeIndex "data_loss" exHeap).1 exH = none := by
  decide +kernel

/-! ## C232 -/

/-- the data loss of the first item of the input after removing the one of the result -/
def lossAfterRemoval (p : Except PyErr (Heap × HSeries)) (s : HSeries) : Option (Option (Option ℚ)) :=
  match p with
  | .ok (h', r) => some (firstLoss (r.removeLoss h').1 s)
  | .error _ => none

/-- **C232 is false**: the data loss of the first item of a series is 0; removing the data loss of the rescaled, derived,
filtered or sliced series removes it from the series it was computed from too. -/
theorem C232_false : firstLoss exHeap exH = some (some 0) ∧
    lossAfterRemoval (exH.mapOp physicalCalendar (fun _ v => .ok (v * 2)) exHeap) exH = some none ∧
    lossAfterRemoval (exH.derivativeOp physicalCalendar 1 exHeap) exH = some none ∧
    lossAfterRemoval (exH.filterOp ["v"] exHeap) exH = some none ∧
    lossAfterRemoval (exH.sliceOp 0 1 exHeap) exH = some none := by
  decide +kernel

/-- **C232, partial**: a series none of whose items shares its data indexes with an item of the changed series reads
exactly as before.  (Missing: the sharing series, of which the claim is false.) -/
theorem C232_unshared_partial {name : String} {h h' : Heap} {s r : HSeries} {o : Outcome}
    (hr : r.removeIndex name h = (h', o)) (hsep : ∀ x ∈ s.items, ∀ y ∈ r.items, x.iA ≠ y.iA) :
    s.view h' = s.view h := by
  unfold HSeries.removeIndex at hr
  split_ifs at hr with hc
  · obtain ⟨e, _⟩ := Prod.mk.inj hr
    subst e
    have hreads : ∀ x ∈ s.items, (popIndexLoop name h r.items).read x = h.read x := by
      intro x hx
      unfold Heap.read
      rw [popIndexLoop_data, popIndexLoop_idx, if_neg]
      rintro ⟨y, hy, e⟩
      exact hsep x hx y hy e.symm
    unfold HSeries.view Heap.reads
    rw [popIndexLoop_data, List.map_congr_left hreads]
  · obtain ⟨e, _⟩ := Prod.mk.inj hr
    rw [e]

/-- **C232, partial (moving average)**: removing an index from a moving average leaves the series it was computed from. -/
theorem C232_mavg_partial {cal : Calendar} {w : Int} {name : String} {h h' h'' : Heap} {s r : HSeries} {o : Outcome}
    (hs : s.Valid h) (hop : s.mavgOp cal w h = .ok (h', r)) (hr : r.removeIndex name h' = (h'', o)) :
    s.view h'' = s.view h := by
  unfold HSeries.mavgOp at hop
  cases hp : (s.view h).opPrep with
  | error e => simp [hp] at hop
  | ok p =>
    obtain ⟨proto, ks⟩ := p
    rw [hp] at hop
    simp only at hop
    split at hop
    · cases hop
    · have hl := finishH_inv hop
      obtain ⟨k, _, _⟩ := heapLoop_kept _ hl
      have hn := heapLoop_newIdx _ hl
      have h1 := C232_unshared_partial (s := s) hr (fun x hx y hy => by
        have := (hs.items x hx).2
        have := hn y hy
        omega)
      rw [h1]
      exact k.view hs

/-- the items of a series and of another one which share an index object lose the index together -/
theorem C232_shared_partial {name : String} {h h' : Heap} {s r : HSeries} (hr : r.removeIndex name h = (h', .ok ()))
    (x : HItem) (_hx : x ∈ s.items) (hsh : ∃ y ∈ r.items, y.iA = x.iA) :
    WithoutIndex name (h.read x) (h'.read x) := by
  rw [removeIndex_ok hr]
  exact popIndexLoop_read name r.items h x hsh

end Timeseria
