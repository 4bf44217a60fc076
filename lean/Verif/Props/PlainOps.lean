import Verif.Model.PlainOps
import Verif.Props.BaseSeries
import Verif.Lemmas.Ops
import Verif.Props.OpsMap

/-! # C297: operations on series which are not in time -/

namespace Timeseria

/-- a series of data points or slots all with the labels `ks`, as appending them one by one gives -/
structure PlainSeries (s : BSeries PlainItem) (ks : List String) : Prop where
  ne : s.items ≠ []
  ksne : ks ≠ []
  labels : ∀ x ∈ s.items, x.data.keys.Perm ks
  once : ks.Nodup
  built : BSeries.buildFrom plainClass {} s.items = .ok s

theorem buildFrom_ref {l : List PlainItem} (hl : ∀ x ∈ l, x.data ≠ []) : ∀ {s r : BSeries PlainItem}, BSeries.buildFrom plainClass s l = .ok r →
    (∃ d : Data, s.ref = some d ∧ d.truthy = true) ∨ (s.items = [] ∧ l ≠ []) → ∃ d, r.ref = some d ∧ d.truthy = true := by
  induction l with
  | nil =>
    intro s r h hs
    cases h
    rcases hs with hs | ⟨_, hs⟩
    · exact hs
    · exact absurd rfl hs
  | cons x l ih =>
    intro s r h hs
    have htr : (Data.dict x.data).truthy = true := by
      have := hl x (by simp)
      cases hx : x.data with
      | nil => exact absurd hx this
      | cons a b => rfl
    unfold BSeries.buildFrom at h
    split at h
    · cases h
    · rename_i s' u hap
      refine ih (fun y hy => hl y (by simp [hy])) h (Or.inl ?_)
      unfold BSeries.append at hap
      split at hap
      · rename_i first last hf hla
        split at hap
        · cases hap
        split at hap
        · cases hap
        split at hap
        · rename_i d hd
          split at hap
          · rename_i ht
            split at hap
            · cases hap
            · cases hap; exact ⟨d, hd, ht⟩
          · cases hap; exact ⟨_, rfl, htr⟩
        · cases hap; exact ⟨_, rfl, htr⟩
      · cases hap; exact ⟨_, rfl, htr⟩

theorem PlainSeries.front {s : BSeries PlainItem} {ks : List String} (h : PlainSeries s ks) (g : String → ℚ → ℚ) :
    s.plainMap g = plainLoop g (sortStr ks) {} s.items := by
  have hne : ∀ x ∈ s.items, x.data ≠ [] := by
    intro x hx e
    have := (h.labels x hx).length_eq
    rw [e] at this
    exact h.ksne (List.length_eq_zero_iff.1 (by simpa [Dict.keys] using this.symm))
  obtain ⟨d, hd, ht⟩ := buildFrom_ref hne h.built (Or.inr ⟨rfl, h.ne⟩)
  unfold BSeries.plainMap
  cases hs : s.items with
  | nil => exact absurd hs h.ne
  | cons x r =>
    dsimp only
    rw [hd]
    dsimp only
    rw [if_neg (by simp [ht]), sortStr_congr (h.labels x (by rw [hs]; simp))]

theorem plain_values {x : PlainItem} {ks : List String} (hx : x.data.keys.Perm ks) (g : String → ℚ → ℚ) :
    mapE (plainValue g x) (sortStr ks) =
      .ok ((sortStr ks).map (fun k => (k, g k ((x.data.get? k).getD 0)))) := by
  apply mapE_ok
  intro k hk
  have hk' : k ∈ x.data.keys := hx.symm.subset ((sortStr_perm ks).subset hk)
  obtain ⟨v, hv⟩ := Dict.get?_isSome.2 hk'
  unfold plainValue
  rw [hv]
  rfl

/-- **C297 is false**: on every series of data points which are not in time, `rescale` and `offset` raise `AttributeError`, whatever the value; so do `derivative` (with at
least two points), `diff`, `integral` and `csum`, on points and slots. -/
theorem C297_false (s : BSeries PlainItem) (ks : List String) (h : PlainSeries s ks) :
    ((∀ x ∈ s.items, x.slot = none) → ∀ v, s.plainMap (rescaleVal v) = .error .attributeError ∧ s.plainMap (offsetVal v) = .error .attributeError) ∧
    s.timedOp .diff = .error .attributeError ∧ s.timedOp .integral = .error .attributeError ∧ s.timedOp .csum = .error .attributeError ∧
    (2 ≤ s.items.length → s.timedOp .derivative = .error .attributeError) := by
  have key : ∀ g, (∀ x ∈ s.items, x.slot = none) → s.plainMap g = .error .attributeError := by
    intro g hp
    rw [h.front]
    cases hs : s.items with
    | nil => exact absurd hs h.ne
    | cons x r =>
      unfold plainLoop
      rw [plain_values (h.labels x (by rw [hs]; simp))]
      dsimp only
      unfold remakePlain
      rw [hp x (by rw [hs]; simp)]
  refine ⟨fun hp v => ⟨key _ hp, key _ hp⟩, ?_⟩
  unfold BSeries.timedOp
  cases hs : s.items with
  | nil => exact absurd hs h.ne
  | cons x r =>
    refine ⟨?_, ?_, ?_, ?_⟩
    · cases r <;> rfl
    · cases r <;> rfl
    · cases r <;> rfl
    · intro h2
      cases r with
      | nil => simp at h2
      | cons => rfl

/-- the slot with other data -/
def PlainItem.mapped (g : String → ℚ → ℚ) (ks : List String) (x : PlainItem) : PlainItem :=
  { x with data := (sortStr ks).map (fun k => (k, g k ((x.data.get? k).getD 0))) }

theorem loop_build {g : String → ℚ → ℚ} {ks : List String} (hn : ks.Nodup) : ∀ (l : List PlainItem) (acc : BSeries PlainItem), (∀ x ∈ l, x.data.keys.Perm ks) →
    (∀ x ∈ l, ∃ u, x.slot = some (x.start + u, u)) →
    plainLoop g (sortStr ks) acc l = BSeries.buildFrom plainClass acc (l.map (PlainItem.mapped g ks)) := by
  intro l
  induction l with
  | nil => intro acc _ _; rfl
  | cons x l ih =>
    intro acc hl hs
    obtain ⟨u, hu⟩ := hs x (by simp)
    have hnd : (Dict.keys ([] ++ (sortStr ks).map (fun k => (k, g k ((x.data.get? k).getD 0))))).Nodup := by
      rw [List.nil_append, Dict.keys, List.map_map]
      rw [show (Prod.fst ∘ fun k => (k, g k ((x.data.get? k).getD 0))) = id from rfl, List.map_id]
      exact (sortStr_perm ks).nodup_iff.2 hn
    unfold plainLoop
    rw [plain_values (hl x (by simp))]
    dsimp only
    rw [foldl_set_nodup _ _ hnd, List.nil_append, List.map_cons]
    have : remakePlain x ((sortStr ks).map (fun k => (k, g k ((x.data.get? k).getD 0)))) = .ok (x.mapped g ks) := by
      unfold remakePlain PlainItem.mapped
      rw [hu]
    rw [this]
    dsimp only
    rw [BSeries.buildFrom]
    split
    · rename_i h1; rw [h1]
    · rename_i h1; rw [h1]; exact ih _ (fun y hy => hl y (by simp [hy])) (fun y hy => hs y (by simp [hy]))

theorem plain_slots (s : BSeries PlainItem) (ks : List String) (h : PlainSeries s ks) (hs : ∀ x ∈ s.items, ∃ u, x.slot = some (x.start + u, u)) (g : String → ℚ → ℚ) :
    ∃ r, s.plainMap g = .ok r ∧ r.items.length = s.items.length ∧ ∀ (i : ℕ) (x y : PlainItem), s.items[i]? = some x → r.items[i]? = some y →
      y.start = x.start ∧ y.slot = x.slot ∧ y.idx = x.idx ∧ ∀ k, y.data.get? k = (x.data.get? k).map (g k) := by
  have hkeys : ∀ x : PlainItem, (x.mapped g ks).data.keys = sortStr ks := by
    intro x
    unfold PlainItem.mapped
    simp only [Dict.keys, List.map_map]
    rw [show (Prod.fst ∘ fun k => (k, g k ((x.data.get? k).getD 0))) = id from rfl, List.map_id]
  have hch : s.items.IsChain plainClass.After := by
    have hone : plainClass.OneClass s.items := by
      intro x hx y hy
      obtain ⟨u, hu⟩ := hs x hx
      obtain ⟨w, hw⟩ := hs y hy
      simp [plainClass, hu, hw]
    have hdat : plainClass.DataAlike s.items := by
      intro x hx y hy r hr ht
      simp only [plainClass, Option.some.injEq] at hr
      subst hr
      simp only [plainClass, checkDataB]
      rw [if_pos]
      rw [sameKeys_iff]
      intro k
      exact ((h.labels x hx).trans (h.labels y hy).symm).mem_iff
    rcases build_good_iff hone hdat with ⟨h1, _⟩ | ⟨_, x, _, y, _, e, _, _, h5⟩
    · exact h1
    · rw [h.built] at h5; cases h5
  have hone : plainClass.OneClass (s.items.map (PlainItem.mapped g ks)) := by
    intro x hx y hy
    obtain ⟨x', hx', rfl⟩ := List.mem_map.1 hx
    obtain ⟨y', hy', rfl⟩ := List.mem_map.1 hy
    obtain ⟨u, hu⟩ := hs x' hx'
    obtain ⟨w, hw⟩ := hs y' hy'
    simp [plainClass, PlainItem.mapped, hu, hw]
  have hdat : plainClass.DataAlike (s.items.map (PlainItem.mapped g ks)) := by
    intro x hx y hy r hr ht
    obtain ⟨x', hx', rfl⟩ := List.mem_map.1 hx
    obtain ⟨y', hy', rfl⟩ := List.mem_map.1 hy
    simp only [plainClass, Option.some.injEq] at hr
    subst hr
    simp only [plainClass, checkDataB]
    rw [if_pos]
    rw [sameKeys_iff]
    intro k
    rw [hkeys, hkeys]
  have hch' : (s.items.map (PlainItem.mapped g ks)).IsChain plainClass.After := by
    rw [List.isChain_map]
    refine hch.imp (fun a b hab => ?_)
    unfold ItemClass.After at hab ⊢
    obtain ⟨sa, la, da, ia⟩ := a
    obtain ⟨sb, lb, db, ib⟩ := b
    cases lb <;> exact hab
  rcases build_good_iff hone hdat with ⟨_, r, hr, hri⟩ | ⟨h1, _⟩
  · refine ⟨r, ?_, by rw [hri]; simp, ?_⟩
    · rw [h.front, loop_build h.once _ _ h.labels hs]
      exact hr
    · intro i x y hx hy
      rw [hri, List.getElem?_map, hx] at hy
      cases hy
      refine ⟨rfl, rfl, rfl, ?_⟩
      intro k
      have hx' := List.mem_of_getElem? hx
      by_cases hk : k ∈ ks
      · obtain ⟨w, hw⟩ := Dict.get?_isSome.2 ((h.labels x hx').symm.subset hk)
        unfold PlainItem.mapped
        dsimp only
        rw [get?_table (fun k => g k ((x.data.get? k).getD 0)) ((sortStr_perm ks).symm.subset hk), hw]
        rfl
      · have h1 : x.data.get? k = none := by
          rw [Option.eq_none_iff_forall_ne_some]
          exact fun v hv => hk ((h.labels x hx').subset (Dict.get?_isSome.1 ⟨v, hv⟩))
        have h2 : (x.mapped g ks).data.get? k = none := by
          rw [Option.eq_none_iff_forall_ne_some]
          intro v hv
          have := Dict.get?_isSome.1 ⟨v, hv⟩
          rw [hkeys] at this
          exact hk ((sortStr_perm ks).subset this)
        rw [h1, h2]
        rfl
  · exact absurd hch' h1

/-- **C297 (slots), partial**: on every series of data slots which are not in time, each as long as its unit, `rescale` and `offset` give a series with the same slots, the
same labels and the indexes, each value being rescaled or shifted.  Missing: points, and the operations depending on the resolution (`C297_false`). -/
theorem C297_slots_partial (s : BSeries PlainItem) (ks : List String) (h : PlainSeries s ks) (hs : ∀ x ∈ s.items, ∃ u, x.slot = some (x.start + u, u)) (v : NumOrDict) :
    (∃ r, s.plainMap (rescaleVal v) = .ok r ∧ r.items.length = s.items.length ∧ ∀ (i : ℕ) (x y : PlainItem), s.items[i]? = some x → r.items[i]? = some y →
      y.start = x.start ∧ y.slot = x.slot ∧ y.idx = x.idx ∧ ∀ k, y.data.get? k = (x.data.get? k).map (· * v.factor k)) ∧
    (∃ r, s.plainMap (offsetVal v) = .ok r ∧ r.items.length = s.items.length ∧ ∀ (i : ℕ) (x y : PlainItem), s.items[i]? = some x → r.items[i]? = some y →
      y.start = x.start ∧ y.slot = x.slot ∧ y.idx = x.idx ∧ ∀ k, y.data.get? k = (x.data.get? k).map (· + v.shift k)) := by
  refine ⟨?_, ?_⟩
  · have := plain_slots s ks h hs (rescaleVal v)
    simpa only [funext (rescaleVal_eq v _)] using this
  · have := plain_slots s ks h hs (offsetVal v)
    simpa only [funext (offsetVal_eq v _)] using this

/-- two points and two slots on a line -/
def plainPoints : List PlainItem := [{ start := 1, data := [("a", 3)] }, { start := 4, data := [("a", 5)] }]
def plainSlots : List PlainItem := [{ start := 1, slot := some (3, 2), data := [("a", 3)] }, { start := 3, slot := some (5, 2), data := [("a", 5)] }]

theorem C297_witness : PlainSeries { items := plainPoints, ref := some (.dict [("a", 3)]) } ["a"] ∧ PlainSeries { items := plainSlots, ref := some (.dict [("a", 3)]) } ["a"] ∧
    (∀ x ∈ plainSlots, ∃ u, x.slot = some (x.start + u, u)) := by
  refine ⟨⟨by decide, by decide, ?_, by decide, ?_⟩, ⟨by decide, by decide, ?_, by decide, ?_⟩, ?_⟩
  · intro x hx
    simp only [plainPoints, List.mem_cons, List.not_mem_nil, or_false] at hx
    rcases hx with rfl | rfl <;> exact List.Perm.refl _
  · rfl
  · intro x hx
    simp only [plainSlots, List.mem_cons, List.not_mem_nil, or_false] at hx
    rcases hx with rfl | rfl <;> exact List.Perm.refl _
  · rfl
  · intro x hx
    simp only [plainSlots, List.mem_cons, List.not_mem_nil, or_false] at hx
    rcases hx with rfl | rfl
    · exact ⟨2, by norm_num⟩
    · exact ⟨2, by norm_num⟩

end Timeseria
