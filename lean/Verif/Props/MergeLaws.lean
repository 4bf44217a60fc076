import Verif.Props.Merge

/-! # C257-C259: laws of merging -/

namespace Timeseria

/-- the same times, and at each of them the same values and the same indexes (which are set) -/
structure SameReadings (l r : List Item) : Prop where
  times : times l = times r
  values : ∀ (j : ℕ) (x y : Item), l[j]? = some x → r[j]? = some y → ∀ k, x.value? k = y.value? k
  indexes : ∀ (j : ℕ) (x y : Item), l[j]? = some x → r[j]? = some y → ∀ n, (Dict.get? x.idx n).join = (Dict.get? y.idx n).join

theorem mean?_perm {a b : List ℚ} (h : a.Perm b) : mean? a = mean? b := by
  unfold mean?
  rw [h.sum_eq, h.length_eq]
  by_cases hb : b = []
  · have : a = [] := by subst hb; exact h.eq_nil
    rw [if_pos this, if_pos hb]
  · have : a ≠ [] := by rintro rfl; exact hb h.symm.eq_nil
    rw [if_neg this, if_neg hb]

theorem Mergeable.perm {cal : Calendar} {ss ss' : List TSeries} (h : Mergeable cal ss) (hp : ss.Perm ss') : Mergeable cal ss' := by
  have hm : ∀ s, s ∈ ss' ↔ s ∈ ss := fun s => hp.mem_iff.symm
  obtain ⟨r, hr, hall⟩ := h.res
  refine ⟨?_, fun s hs => h.each s ((hm s).1 hs), fun s hs => h.dict s ((hm s).1 hs), fun s hs => h.ordered s ((hm s).1 hs),
    ⟨r, hr, fun s hs => hall s ((hm s).1 hs)⟩, ?_, fun s hs => h.idx s ((hm s).1 hs)⟩
  · rintro rfl; exact h.ne hp.eq_nil
  · intro a ha b hb x hx hc
    exact h.aligned a ((hm a).1 ha) b ((hm b).1 hb) x hx (fun c hc' => hc c ((hm c).2 hc'))

theorem times_get {l r : List Item} (h : times l = times r) {j : ℕ} {x y : Item} (hx : l[j]? = some x) (hy : r[j]? = some y) : x.t = y.t := by
  have := congrArg (fun z : List ℚ => z[j]?) h
  simpa [times, hx, hy] using this

/-- **C257**: the order in which series are given to `merge` does not matter for the times, the values and the indexes of the result. -/
theorem C257_order {cal : Calendar} {ss ss' : List TSeries} (h : Mergeable cal ss) (hp : ss.Perm ss') :
    ∃ r r', mergeOp cal ss = .ok r ∧ mergeOp cal ss' = .ok r' ∧ SameReadings r.items r'.items := by
  obtain ⟨r, h1, h2, h3, h4⟩ := C31_merge h
  obtain ⟨r', g1, g2, g3, g4⟩ := C31_merge (h.perm hp)
  have ht : times r.items = times r'.items := by
    apply sorted_ext
    · exact List.pairwise_map.2 h2
    · exact List.pairwise_map.2 g2
    · intro t
      rw [h3, g3]
      exact ⟨fun hh s hs => hh s (hp.mem_iff.2 hs), fun hh s hs => hh s (hp.mem_iff.1 hs)⟩
  refine ⟨r, r', h1, g1, ht, ?_, ?_⟩
  · intro j x y hx hy k
    rw [(h4 x (List.mem_of_getElem? hx)).1 k, (g4 y (List.mem_of_getElem? hy)).1 k, times_get ht hx hy]
    exact mean?_perm (hp.filterMap _)
  · intro j x y hx hy n
    rw [(h4 x (List.mem_of_getElem? hx)).2 n, (g4 y (List.mem_of_getElem? hy)).2 n, times_get ht hx hy]
    exact mean?_perm (hp.filterMap _)

/-- two series which overlap in two times, in both orders -/
theorem C257_witness : Mergeable physicalCalendar [exSeries, exLater] ∧ [exSeries, exLater].Perm [exLater, exSeries] ∧
    (mergeOp physicalCalendar [exLater, exSeries]).toOption.map (fun r => r.items.map (fun x => (x.t, x.value? "a", x.value? "b", x.value? "c"))) =
      some [(60, some 3, some 7, some 1), (120, some 4, some (-2), some 7)] :=
  ⟨C31_witness, List.Perm.swap _ _ _, by decide +kernel⟩

/-! ## Equal readings have equal means -/

theorem mean?_const {l : List ℚ} {v : ℚ} (hne : l ≠ []) (h : ∀ x ∈ l, x = v) : mean? l = some v := by
  unfold mean?
  rw [if_neg hne]
  have : l = List.replicate l.length v := List.eq_replicate_of_mem h
  have hl : (l.length : ℚ) ≠ 0 := by
    have := List.length_pos_iff.2 hne
    exact_mod_cast this.ne'
  rw [this, List.sum_replicate, List.length_replicate, nsmul_eq_mul]
  congr 1
  field_simp

/-- a label which is not one of those of an item has no value -/
theorem LabelledBy.value?_none {x : Item} {ks : List String} (h : LabelledBy x ks) {k : String} (hk : k ∉ ks) : x.value? k = none := by
  obtain ⟨d, hd, hp, _, _⟩ := h
  unfold Item.value?
  rw [hd]
  dsimp only
  rw [List.lookup_eq_none_iff]
  intro p hp'
  rw [bne_iff_ne]
  intro heq
  apply hk
  rw [heq]
  exact hp.subset (List.mem_map_of_mem hp')

/-- what a filtered series holds, at a position -/
theorem filter_readings {cal : Calendar} {s : TSeries} {ks : List String} (h : OpSeries cal s ks)
    (hdict : ∀ x ∈ s.items, ∃ d, x.data = some (.dict d)) {p : List String} (hp : p ≠ [] ∧ p.Nodup ∧ ∀ k ∈ p, k ∈ ks) :
    ∃ f, s.filterOp p = .ok f ∧ OpSeries cal f p ∧ f.res = s.res ∧ (∀ x ∈ f.items, ∃ d, x.data = some (.dict d)) ∧
      f.items.length = s.items.length ∧ times f.items = times s.items ∧
      (∀ (j : ℕ) (x y : Item), s.items[j]? = some x → f.items[j]? = some y →
        y.idx = x.idx ∧ ∀ k, y.value? k = if k ∈ p then x.value? k else none) := by
  obtain ⟨f, h1, h2, h3, h4⟩ := C30_filter h hdict p hp.1 hp.2.2 hp.2.1
  refine ⟨f, h1, h2, computes_res' h h2 h3, filter_dict hdict h1, by simpa using h3.length, by simpa using h3.times, ?_⟩
  intro j x y hx hy
  refine ⟨h4 j x y hx hy, fun k => ?_⟩
  by_cases hk : k ∈ p
  · rw [if_pos hk]
    have := h3.values j y hy k hk
    simp only [id, Nat.zero_add] at this
    rw [this, (h.lab x (List.mem_of_getElem? hx)).lookup (hp.2.2 k hk)]
    unfold valueAt
    rw [hx]
  · rw [if_neg hk]
    exact (h2.lab y (List.mem_of_getElem? hy)).value?_none hk

theorem mapE_forall {α β : Type} {f : α → Except PyErr β} {l : List α} {P : α → β → Prop} (h : ∀ a ∈ l, ∃ b, f a = .ok b ∧ P a b) :
    ∃ r, mapE f l = .ok r ∧ List.Forall₂ P l r := by
  induction l with
  | nil => exact ⟨[], rfl, .nil⟩
  | cons a l ih =>
    obtain ⟨b, hb, hP⟩ := h a (by simp)
    obtain ⟨r, hr, hF⟩ := ih (fun x hx => h x (by simp [hx]))
    refine ⟨b :: r, ?_, .cons hP hF⟩
    unfold mapE
    rw [hb, hr]

theorem merged_right {α β : Type} {P : α → β → Prop} {l : List α} {r : List β} (h : List.Forall₂ P l r) : ∀ b ∈ r, ∃ a ∈ l, P a b := by
  induction h with
  | nil => intro b hb; simp at hb
  | cons h1 _ ih =>
    intro b hb
    rcases List.mem_cons.1 hb with rfl | hb
    · exact ⟨_, by simp, h1⟩
    · obtain ⟨a, ha, hp⟩ := ih b hb
      exact ⟨a, by simp [ha], hp⟩

theorem merged_left {α β : Type} {P : α → β → Prop} {l : List α} {r : List β} (h : List.Forall₂ P l r) : ∀ a ∈ l, ∃ b ∈ r, P a b :=
  merged_right h.flip

theorem itemAt_get {l : List Item} (h : StrictlyOrdered l) {j : ℕ} {y : Item} (hy : l[j]? = some y) : itemAt l y.t = some y :=
  itemAt_of_mem h (List.mem_of_getElem? hy)

/-- **C258**: splitting a series by its labels, each in one or more parts, and merging the parts gives the series back: its times, its values
and its indexes which are set. -/
theorem C258_split_merge {cal : Calendar} {s : TSeries} {ks : List String} (h : OpSeries cal s ks) (hord : StrictlyOrdered s.items)
    (hres : s.res ≠ .varying) (hdict : ∀ x ∈ s.items, ∃ d, x.data = some (.dict d)) (hidx : ∀ x ∈ s.items, Dict.WF x.idx)
    (parts : List (List String)) (hpart : ∀ p ∈ parts, p ≠ [] ∧ p.Nodup ∧ ∀ k ∈ p, k ∈ ks) (hcover : ∀ k ∈ ks, ∃ p ∈ parts, k ∈ p) :
    ∃ fs r, mapE (fun p => s.filterOp p) parts = .ok fs ∧ mergeOp cal fs = .ok r ∧ SameReadings r.items s.items := by
  obtain ⟨fs, hfs, hF⟩ := mapE_forall (fun p hp => filter_readings h hdict (hpart p hp))
  have hback := merged_right hF
  have hforth := merged_left hF
  have hordf : ∀ f ∈ fs, StrictlyOrdered f.items := by
    intro f hf
    obtain ⟨p, _, _, _, _, _, ht, _⟩ := hback f hf
    have : (times f.items).Pairwise (· < ·) := by rw [ht]; exact List.pairwise_map.2 hord
    exact List.pairwise_map.1 this
  -- at a position
  have hpos : ∀ f ∈ fs, ∀ (j : ℕ) (x : Item), s.items[j]? = some x → ∃ p ∈ parts, ∃ y, f.items[j]? = some y ∧ itemAt f.items x.t = some y ∧
      y.idx = x.idx ∧ ∀ k, y.value? k = if k ∈ p then x.value? k else none := by
    intro f hf j x hx
    obtain ⟨p, hp, _, _, _, hl, ht, hr⟩ := hback f hf
    have hj : j < f.items.length := by rw [hl]; exact (List.getElem?_eq_some_iff.1 hx).1
    have hy := List.getElem?_eq_getElem hj
    obtain ⟨h1, h2⟩ := hr j x _ hx hy
    refine ⟨p, hp, _, hy, ?_, h1, h2⟩
    rw [← times_get ht hy hx]
    exact itemAt_get (hordf f hf) hy
  have hne : fs ≠ [] := by
    obtain ⟨k, hk⟩ := List.exists_mem_of_ne_nil _ h.ksne
    obtain ⟨p, hp, _⟩ := hcover k hk
    obtain ⟨f, hf, _⟩ := hforth p hp
    exact List.ne_nil_of_mem hf
  have hm : Mergeable cal fs := by
    refine ⟨hne, ?_, ?_, hordf, ⟨s.res, hres, ?_⟩, ?_, ?_⟩
    · intro f hf
      obtain ⟨p, _, ho, _⟩ := hback f hf
      exact ⟨p, ho⟩
    · intro f hf
      obtain ⟨p, _, _, _, hd, _⟩ := hback f hf
      exact hd
    · intro f hf
      obtain ⟨p, _, _, hr, _⟩ := hback f hf
      exact hr
    · intro a ha b hb x hx _
      obtain ⟨_, _, _, _, _, _, hta, _⟩ := hback a ha
      obtain ⟨_, _, _, _, _, _, htb, _⟩ := hback b hb
      have : x.t ∈ times b.items := by rw [htb, ← hta]; exact List.mem_map_of_mem hx
      obtain ⟨y, hy, e⟩ := List.mem_map.1 this
      exact ⟨y, hy, e⟩
    · intro f hf x hx
      obtain ⟨_, _, _, _, _, hl, _, hr⟩ := hback f hf
      obtain ⟨j, hj, rfl⟩ := List.getElem_of_mem hx
      have hj' : j < s.items.length := by omega
      have := (hr j _ _ (List.getElem?_eq_getElem hj') (List.getElem?_eq_getElem hj)).1
      rw [this]
      exact hidx _ (List.getElem_mem hj')
  obtain ⟨r, h1, h2, h3, h4⟩ := C31_merge hm
  have ht : times r.items = times s.items := by
    apply sorted_ext
    · exact List.pairwise_map.2 h2
    · exact List.pairwise_map.2 hord
    · intro t
      rw [h3]
      constructor
      · intro hh
        obtain ⟨f, hf⟩ := List.exists_mem_of_ne_nil _ hne
        obtain ⟨_, _, _, _, _, _, htf, _⟩ := hback f hf
        rw [← htf]; exact hh f hf
      · intro hh f hf
        obtain ⟨_, _, _, _, _, _, htf, _⟩ := hback f hf
        rw [htf]; exact hh
  refine ⟨fs, r, hfs, h1, ht, ?_, ?_⟩
  · intro j y x hy hx k
    rw [(h4 y (List.mem_of_getElem? hy)).1 k, times_get ht hy hx]
    have hlab := h.lab x (List.mem_of_getElem? hx)
    by_cases hk : k ∈ ks
    · rw [hlab.lookup hk]
      apply mean?_const
      · obtain ⟨p, hp, hkp⟩ := hcover k hk
        obtain ⟨f, hf, _, _, _, hl, htf, hr⟩ := hforth p hp
        have hj : j < f.items.length := by rw [hl]; exact (List.getElem?_eq_some_iff.1 hx).1
        have hz := List.getElem?_eq_getElem hj
        obtain ⟨_, g2⟩ := hr j x _ hx hz
        apply List.ne_nil_of_mem (a := x.value k)
        refine List.mem_filterMap.2 ⟨f, hf, ?_⟩
        rw [← times_get htf hz hx, itemAt_get (hordf f hf) hz]
        rw [Option.bind_some, g2 k, if_pos hkp, hlab.lookup hk]
      · intro v hv
        obtain ⟨f, hf, hv⟩ := List.mem_filterMap.1 hv
        obtain ⟨p, hp, z, _, hz, _, hval⟩ := hpos f hf j x hx
        rw [hz, Option.bind_some, hval k] at hv
        split at hv
        · rw [hlab.lookup hk] at hv
          exact (Option.some.inj hv).symm
        · cases hv
    · rw [hlab.value?_none hk]
      have : fs.filterMap (fun s => (itemAt s.items x.t).bind (fun x => x.value? k)) = [] := by
        rw [List.filterMap_eq_nil_iff]
        intro f hf
        obtain ⟨p, hp, z, _, hz, _, hval⟩ := hpos f hf j x hx
        rw [hz, Option.bind_some, hval k, if_neg (fun hkp => hk ((hpart p hp).2.2 k hkp))]
      rw [this]
      rfl
  · intro j y x hy hx n
    rw [(h4 y (List.mem_of_getElem? hy)).2 n, times_get ht hy hx]
    have hsame : ∀ f ∈ fs, (itemAt f.items x.t).bind (fun x => (x.idx.get? n).join) = (Dict.get? x.idx n).join := by
      intro f hf
      obtain ⟨p, hp, z, _, hz, hi, _⟩ := hpos f hf j x hx
      rw [hz, Option.bind_some, hi]
    rw [List.filterMap_congr hsame]
    cases hv : (Dict.get? x.idx n).join with
    | none =>
      have : fs.filterMap (fun _ => (none : Option ℚ)) = [] := by simp
      rw [this]; rfl
    | some v =>
      apply mean?_const
      · obtain ⟨f, hf⟩ := List.exists_mem_of_ne_nil _ hne
        exact List.ne_nil_of_mem (List.mem_filterMap.2 ⟨f, hf, rfl⟩)
      · intro w hw
        obtain ⟨_, _, hw⟩ := List.mem_filterMap.1 hw
        exact (Option.some.inj hw).symm

/-- the labels a and b of a series of three points, b in both parts -/
theorem C258_witness : OpSeries physicalCalendar exSeries ["a", "b"] ∧ StrictlyOrdered exSeries.items ∧ exSeries.res ≠ .varying ∧
    (∀ p ∈ [["b"], ["a", "b"]], p ≠ [] ∧ p.Nodup ∧ ∀ k ∈ p, k ∈ ["a", "b"]) ∧ (∀ k ∈ ["a", "b"], ∃ p ∈ [["b"], ["a", "b"]], k ∈ p) ∧
    (match mapE (fun p => exSeries.filterOp p) [["b"], ["a", "b"]] with
      | .ok fs => (mergeOp physicalCalendar fs).toOption.map (fun r => r.items.map (fun x => (x.t, x.value? "a", x.value? "b")))
      | .error _ => none) = some (exSeries.items.map (fun x => (x.t, x.value? "a", x.value? "b"))) := by
  refine ⟨C21_witness, ?_, by decide +kernel, by decide, by decide, by decide +kernel⟩
  unfold StrictlyOrdered; decide +kernel

/-! ## Merging in steps -/

theorem specRes_prefix {a b : List ℚ} (h2 : 2 ≤ a.length) (hv : specRes (spacings (a ++ b)) ≠ .varying) :
    specRes (spacings a) = specRes (spacings (a ++ b)) := by
  match a, h2 with
  | x :: y :: r, _ =>
    have e : spacings (x :: y :: r ++ b) = (y - x) :: spacings (y :: r ++ b) := rfl
    have e' : spacings (x :: y :: r) = (y - x) :: spacings (y :: r) := rfl
    rw [e] at hv ⊢
    rw [e']
    have hall : ∀ z ∈ spacings (y :: r ++ b), z = y - x := by
      by_contra hn
      exact hv (specRes_variable hn)
    have hall' : ∀ z ∈ spacings (y :: r), z = y - x := fun z hz => hall z (spacings_prefix _ _ z hz)
    simp only [specRes]
    rw [if_pos hall, if_pos hall']

theorem two_le_of_mem {l : List ℚ} {a b : ℚ} (ha : a ∈ l) (hb : b ∈ l) (hab : a ≠ b) : 2 ≤ l.length := by
  match l with
  | [] => simp at ha
  | [x] =>
    simp only [List.mem_cons, List.not_mem_nil, or_false] at ha hb
    exact absurd (ha.trans hb.symm) hab
  | _ :: _ :: _ => simp

/-- The result of a merge with at least two items can be merged again: the operations work on it, and it has the resolution of the series. -/
theorem merge_again {cal : Calendar} {ss : List TSeries} (h : Mergeable cal ss) {t t' : ℚ} (htt : t ≠ t')
    (hc : ∀ s ∈ ss, t ∈ times s.items ∧ t' ∈ times s.items) :
    ∃ m, mergeOp cal ss = .ok m ∧ StrictlyOrdered m.items ∧
      (∀ t, t ∈ times m.items ↔ ∀ s ∈ ss, t ∈ times s.items) ∧
      (∀ y ∈ m.items,
        (∀ k, y.value? k = mean? (ss.filterMap (fun s => (itemAt s.items y.t).bind (fun x => x.value? k)))) ∧
        (∀ n, (Dict.get? y.idx n).join =
          mean? (ss.filterMap (fun s => (itemAt s.items y.t).bind (fun x => (x.idx.get? n).join))))) ∧
      (∃ ks, OpSeries cal m ks) ∧ (∀ x ∈ m.items, ∃ d, x.data = some (.dict d)) ∧ (∀ x ∈ m.items, Dict.WF x.idx) ∧
      ∀ s ∈ ss, m.res = s.res := by
  obtain ⟨m, h1, h2, h3, h4, ref, hrm, pre, hpre, hb, hF⟩ := merge_full h
  have ht1 : t ∈ times m.items := (h3 t).2 (fun s hs => (hc s hs).1)
  have ht2 : t' ∈ times m.items := (h3 t').2 (fun s hs => (hc s hs).2)
  have hlen : 2 ≤ m.items.length := by
    have := two_le_of_mem ht1 ht2 htt
    simpa [times] using this
  have hback := merged_right hF
  have hsub : ∀ x ∈ pre, x ∈ ref.items := fun x hx => hpre.subset hx
  have hne : m.items ≠ [] := by intro he; rw [he] at hlen; simp at hlen
  obtain ⟨kr, hor⟩ := h.each ref hrm
  have htimes : times m.items = times pre := by
    unfold times
    have : List.Forall₂ (fun x y : Item => x.t = y.t) pre m.items := hF.imp (fun _ _ hh => hh.t.symm)
    have := (List.forall₂_map_left_iff (f := Item.t) (R := fun (a : ℚ) (y : Item) => a = y.t)).2 this
    have := (List.forall₂_map_right_iff (f := Item.t) (R := fun (a b : ℚ) => a = b)).2 this
    exact (List.forall₂_eq_eq_eq ▸ this).symm
  obtain ⟨y0, hy0⟩ := List.exists_mem_of_ne_nil _ hne
  obtain ⟨x0, hx0, hm0⟩ := hback y0 hy0
  obtain ⟨d0, hd0, hw0, hk0⟩ := hm0.dict
  have hlab : ∀ y ∈ m.items, LabelledBy y d0.keys := by
    intro y hy
    obtain ⟨x, hx, hm⟩ := hback y hy
    obtain ⟨d, hd, hw, hk⟩ := hm.dict
    refine ⟨_, hd, ?_, hw0, by intro v hv; cases hv⟩
    have : d.keys.Perm d0.keys := (List.perm_ext_iff_of_nodup hw hw0).2 (fun k => by rw [hk, hk0])
    exact this
  have hksne : d0.keys ≠ [] := by
    obtain ⟨k, hk⟩ := List.exists_mem_of_ne_nil _ hor.ksne
    have hx0' := hsub x0 hx0
    exact List.ne_nil_of_mem ((hk0 k).2 ⟨ref, hrm, x0, hx0', _, (hor.lab x0 hx0').lookup hk⟩)
  have hslots : ∀ y ∈ m.items, ∃ x ∈ ref.items, MergedFrom ss x y := by
    intro y hy
    obtain ⟨x, hx, hm⟩ := hback y hy
    exact ⟨x, hsub x hx, hm⟩
  have hop : OpSeries cal m d0.keys := by
    refine ⟨hb, hne, hksne, hlab, ?_⟩
    rcases hor.shape with ⟨hp, hsp⟩ | ⟨hp, hreg⟩
    · left
      constructor
      · intro y hy
        obtain ⟨x, hx, hm⟩ := hslots y hy
        have := hp x hx
        simpa [Item.isSlot, hm.slot] using this
      · have hsp' := hsp.sublist hpre.sublist
        have : (times pre).Pairwise (fun a b => a + 1 / 10000 ≤ b) := List.pairwise_map.2 hsp'
        rw [← htimes] at this
        exact List.pairwise_map.1 this
    · right
      constructor
      · intro y hy
        obtain ⟨x, hx, hm⟩ := hslots y hy
        have := hp x hx
        simpa [Item.isSlot, hm.slot] using this
      · intro y hy e u hs
        obtain ⟨x, hx, hm⟩ := hslots y hy
        rw [hm.slot] at hs
        rw [hm.t, hm.tz (by rw [hs]; simp)]
        exact hreg x hx e u hs
  refine ⟨m, h1, h2, h3, h4, ⟨_, hop⟩, fun y hy => ?_, fun y hy => ?_, ?_⟩
  · obtain ⟨x, _, hm⟩ := hslots y hy
    obtain ⟨d, hd, _⟩ := hm.dict
    exact ⟨d, hd⟩
  · obtain ⟨x, _, hm⟩ := hslots y hy
    exact hm.idx
  · obtain ⟨q, hq, hall⟩ := h.res
    have href : m.res = ref.res := by
      rcases hor.shape with ⟨hp, _⟩ | ⟨hp, _⟩
      · have hp' : AllPoints m.items := by
          intro y hy
          obtain ⟨x, hx, hm⟩ := hslots y hy
          have := hp x hx
          simpa [Item.isSlot, hm.slot] using this
        have hv := hall ref hrm
        rw [hor.res_points hp] at hv
        rw [hop.res_points hp', hor.res_points hp, htimes]
        obtain ⟨q', hq'⟩ := hpre
        rw [← hq'] at hv ⊢
        simp only [times, List.map_append] at hv ⊢
        apply specRes_prefix
        · have : (times pre).length = m.items.length := by rw [← htimes]; simp [times]
          simp only [times] at this
          omega
        · rw [hv]; exact hq
      · have hp' : AllSlots m.items := by
          intro y hy
          obtain ⟨x, hx, hm⟩ := hslots y hy
          have := hp x hx
          simpa [Item.isSlot, hm.slot] using this
        obtain ⟨u, z, hu, _, hall1⟩ := (build_slotInv hp hor.built).noUnit hor.ne
        obtain ⟨u', z', hu', _, hall2⟩ := (build_slotInv hp' hop.built).noUnit hop.ne
        obtain ⟨x, hx, hm⟩ := hslots y0 hy0
        rw [hu, hu', ← (hall1 x hx).1, ← (hall2 y0 hy0).1]
        simp [Item.unit, hm.slot]
    intro s hs
    rw [href, hall ref hrm, hall s hs]

/-- a label (or an index) which the items of only one of two groups of series have -/
def OnlyOne (ss ts : List TSeries) (f : Item → Option ℚ) : Prop :=
  (∀ s ∈ ss, ∀ x ∈ s.items, f x = none) ∨ (∀ s ∈ ts, ∀ x ∈ s.items, f x = none)

theorem itemAt_mem {l : List Item} {t : ℚ} {x : Item} (h : itemAt l t = some x) : x ∈ l := List.mem_of_find?_eq_some h

theorem gathered_none {ss : List TSeries} {f : Item → Option ℚ} (h : ∀ s ∈ ss, ∀ x ∈ s.items, f x = none) (t : ℚ) :
    ss.filterMap (fun s => (itemAt s.items t).bind f) = [] := by
  rw [List.filterMap_eq_nil_iff]
  intro s hs
  cases hi : itemAt s.items t with
  | none => rfl
  | some x => exact h s hs x (itemAt_mem hi)

theorem mean?_toList (o : Option ℚ) : mean? o.toList = o := by
  cases o with
  | none => rfl
  | some v => exact mean?_const (by simp) (by simp)

/-- **C259**, partial: when the series of the first group have at least two times in common, merging the result of their merge with other series
gives the times of merging all of them at once, and the same values and indexes for the labels and the indexes not shared by the two groups.
Missing: labels in both groups, and less than two common times (`C259_false`). -/
theorem C259_steps_partial {cal : Calendar} {ss ts : List TSeries} (hss : Mergeable cal ss) (h : Mergeable cal (ss ++ ts)) {t t' : ℚ} (htt : t ≠ t')
    (hc : ∀ s ∈ ss, t ∈ times s.items ∧ t' ∈ times s.items) :
    ∃ m r r', mergeOp cal ss = .ok m ∧ mergeOp cal (m :: ts) = .ok r ∧ mergeOp cal (ss ++ ts) = .ok r' ∧
      times r.items = times r'.items ∧
      ∀ (j : ℕ) (x y : Item), r.items[j]? = some x → r'.items[j]? = some y →
        (∀ k, OnlyOne ss ts (fun x => x.value? k) → x.value? k = y.value? k) ∧
        (∀ n, OnlyOne ss ts (fun x => (Dict.get? x.idx n).join) → (Dict.get? x.idx n).join = (Dict.get? y.idx n).join) := by
  obtain ⟨q, hq, hall⟩ := h.res
  have hin : ∀ s ∈ ss, s ∈ ss ++ ts := fun s hs => List.mem_append_left _ hs
  have hin' : ∀ s ∈ ts, s ∈ ss ++ ts := fun s hs => List.mem_append_right _ hs
  obtain ⟨m, m1, m2, m3, m4, m5, m6, m7, m8⟩ := merge_again hss htt hc
  obtain ⟨s0, hs0⟩ := List.exists_mem_of_ne_nil _ hss.ne
  have hwide : ∀ t, Common (m :: ts) t → Common (ss ++ ts) t := by
    intro t hct c hcm
    rcases List.mem_append.1 hcm with hcs | hcs
    · obtain ⟨⟨y, hy, hyt⟩, ⟨z, hz, hzt⟩⟩ := hct m (by simp)
      obtain ⟨y', hy', e1⟩ := List.mem_map.1 ((m3 y.t).1 (List.mem_map_of_mem hy) c hcs)
      obtain ⟨z', hz', e2⟩ := List.mem_map.1 ((m3 z.t).1 (List.mem_map_of_mem hz) c hcs)
      exact ⟨⟨y', hy', by rw [e1]; exact hyt⟩, ⟨z', hz', by rw [e2]; exact hzt⟩⟩
    · exact hct c (by simp [hcs])
  have hm : Mergeable cal (m :: ts) := by
    refine ⟨by simp, ?_, ?_, ?_, ⟨q, hq, ?_⟩, ?_, ?_⟩
    · intro s hs
      rcases List.mem_cons.1 hs with rfl | hs
      · exact m5
      · exact h.each s (hin' s hs)
    · intro s hs
      rcases List.mem_cons.1 hs with rfl | hs
      · exact m6
      · exact h.dict s (hin' s hs)
    · intro s hs
      rcases List.mem_cons.1 hs with rfl | hs
      · exact m2
      · exact h.ordered s (hin' s hs)
    · intro s hs
      rcases List.mem_cons.1 hs with rfl | hs
      · rw [m8 s0 hs0]; exact hall s0 (hin s0 hs0)
      · exact hall s (hin' s hs)
    · intro a ha b hb x hx hcx
      have hcx' := hwide _ hcx
      -- a series of the whole list with the same time
      have hax : ∃ a' ∈ ss ++ ts, ∃ x' ∈ a'.items, x'.t = x.t := by
        rcases List.mem_cons.1 ha with rfl | ha
        · obtain ⟨x', hx', e⟩ := List.mem_map.1 ((m3 x.t).1 (List.mem_map_of_mem hx) s0 hs0)
          exact ⟨s0, hin s0 hs0, x', hx', e⟩
        · exact ⟨a, hin' a ha, x, hx, rfl⟩
      obtain ⟨a', ha', x', hx', e⟩ := hax
      have hcx'' : Common (ss ++ ts) x'.t := by rw [e]; exact hcx'
      rcases List.mem_cons.1 hb with rfl | hb
      · have : x.t ∈ times b.items := by
          rw [m3]
          intro s hs
          obtain ⟨y, hy, e'⟩ := h.aligned a' ha' s (hin s hs) x' hx' hcx''
          rw [← e, ← e']
          exact List.mem_map_of_mem hy
        obtain ⟨y, hy, e'⟩ := List.mem_map.1 this
        exact ⟨y, hy, e'⟩
      · obtain ⟨y, hy, e'⟩ := h.aligned a' ha' b (hin' b hb) x' hx' hcx''
        exact ⟨y, hy, e'.trans e⟩
    · intro s hs
      rcases List.mem_cons.1 hs with rfl | hs
      · exact m7
      · exact h.idx s (hin' s hs)
  obtain ⟨r, r1, r2, r3, r4⟩ := C31_merge hm
  obtain ⟨r', g1, g2, g3, g4⟩ := C31_merge h
  have ht : times r.items = times r'.items := by
    apply sorted_ext
    · exact List.pairwise_map.2 r2
    · exact List.pairwise_map.2 g2
    · intro t
      rw [r3, g3]
      constructor
      · intro hh s hs
        rcases List.mem_append.1 hs with hs | hs
        · exact (m3 t).1 (hh m (by simp)) s hs
        · exact hh s (by simp [hs])
      · intro hh s hs
        rcases List.mem_cons.1 hs with rfl | hs
        · exact (m3 t).2 (fun c hcs => hh c (hin c hcs))
        · exact hh s (hin' s hs)
  have key : ∀ (f : Item → Option ℚ), OnlyOne ss ts f →
      (∀ y ∈ m.items, f y = mean? (ss.filterMap (fun s => (itemAt s.items y.t).bind f))) → ∀ t, t ∈ times m.items →
      mean? ((m :: ts).filterMap (fun s => (itemAt s.items t).bind f)) = mean? ((ss ++ ts).filterMap (fun s => (itemAt s.items t).bind f)) := by
    intro f hone hf t htm
    obtain ⟨y, hy, e⟩ := List.mem_map.1 htm
    have hi : itemAt m.items t = some y := by rw [← e]; exact itemAt_of_mem m2 hy
    rw [List.filterMap_append]
    rcases hone with hone | hone
    · rw [gathered_none hone, List.nil_append, List.filterMap_cons, hi, Option.bind_some, hf y hy, gathered_none hone]
      rfl
    · rw [gathered_none hone, List.append_nil]
      have : (m :: ts).filterMap (fun s => (itemAt s.items t).bind f) = (f y).toList := by
        rw [List.filterMap_cons, hi, Option.bind_some, gathered_none hone]
        cases f y <;> rfl
      rw [this, mean?_toList, hf y hy, e]
  refine ⟨m, r, r', m1, r1, g1, ht, ?_⟩
  intro j x y hx hy
  have hxm := List.mem_of_getElem? hx
  have hxt : x.t ∈ times m.items := (r3 x.t).1 (List.mem_map_of_mem hxm) m (by simp)
  constructor
  · intro k hk
    rw [(r4 x hxm).1 k, (g4 y (List.mem_of_getElem? hy)).1 k, ← times_get ht hx hy]
    exact key _ hk (fun z hz => (m4 z hz).1 k) _ hxt
  · intro n hn
    rw [(r4 x hxm).2 n, (g4 y (List.mem_of_getElem? hy)).2 n, ← times_get ht hx hy]
    exact key _ hn (fun z hz => (m4 z hz).2 n) _ hxt

/-- two points, with another label -/
def exOther : TSeries :=
  match TSeries.build [mkPoint 60 (.dict [("d", 1)]), mkPoint 120 (.dict [("d", 2)])] with
  | .ok s => s
  | .error _ => {}

/-- three series of two points, with the same label -/
def exFlat (v : ℚ) : TSeries :=
  match TSeries.build [mkPoint 0 (.dict [("a", v)]), mkPoint 60 (.dict [("a", v)])] with
  | .ok s => s
  | .error _ => {}

/-- points at 60 and 120 -/
def exFlatLater (v : ℚ) : TSeries :=
  match TSeries.build [mkPoint 60 (.dict [("a", v)]), mkPoint 120 (.dict [("a", v)])] with
  | .ok s => s
  | .error _ => {}

def mergeTwice (cal : Calendar) (ss : List TSeries) (f : TSeries → List TSeries) : Except PyErr TSeries :=
  match mergeOp cal ss with
  | .ok m => mergeOp cal (f m)
  | .error e => .error e

/-- **C259 is false** of labels which are in both groups: 0, 0 and 3 have mean 1, but merging 3 with the merge of 0 and 0 gives 3/2, the mean of
the means.  And when two series have a single time in common their merge has no resolution: merging a third series with it raises ValueError,
while merging the three at once works. -/
theorem C259_false :
    (mergeOp physicalCalendar [exFlat 0, exFlat 0, exFlat 3]).toOption.map (fun r => r.items.map (fun x => x.value? "a")) = some [some 1, some 1] ∧
    (mergeTwice physicalCalendar [exFlat 0, exFlat 0] (fun m => [m, exFlat 3])).toOption.map (fun r => r.items.map (fun x => x.value? "a")) =
      some [some (3 / 2), some (3 / 2)] ∧
    (mergeTwice physicalCalendar [exFlat 0, exFlatLater 0] (fun m => [exFlat 3, m])).toOption.isNone = true ∧
    (mergeOp physicalCalendar [exFlat 3, exFlat 0, exFlatLater 0]).toOption.map (fun r => r.items.map (fun x => (x.t, x.value? "a"))) =
      some [(60, some 1)] := by
  refine ⟨by decide +kernel, by decide +kernel, by decide +kernel, by decide +kernel⟩

/-- two series sharing a label, then one with another label -/
theorem C259_witness : Mergeable physicalCalendar [exSeries, exLater] ∧ Mergeable physicalCalendar ([exSeries, exLater] ++ [exOther]) ∧
    (∀ s ∈ [exSeries, exLater], (60 : ℚ) ∈ times s.items ∧ (120 : ℚ) ∈ times s.items) ∧
    OnlyOne [exSeries, exLater] [exOther] (fun x => x.value? "a") ∧ OnlyOne [exSeries, exLater] [exOther] (fun x => x.value? "d") ∧
    (mergeTwice physicalCalendar [exSeries, exLater] (fun m => [m, exOther])).toOption.map
        (fun r => r.items.map (fun x => (x.t, x.value? "a", x.value? "d"))) = some [(60, some 3, some 1), (120, some 4, some 2)] := by
  have hl : exOther.items = [mkPoint 60 (.dict [("d", 1)]), mkPoint 120 (.dict [("d", 2)])] := by decide +kernel
  have hop : OpSeries physicalCalendar exOther ["d"] := by
    refine ⟨by decide +kernel, by decide +kernel, by decide +kernel, ?_, .inl ⟨?_, ?_⟩⟩
    · rw [hl]
      intro x hx
      simp only [List.mem_cons, List.not_mem_nil, or_false] at hx
      rcases hx with rfl | rfl <;>
        exact ⟨_, rfl, by decide, by decide, by intro v h; cases h⟩
    · unfold AllPoints; decide +kernel
    · decide +kernel
  have hw := C31_witness
  refine ⟨hw, ⟨by simp, ?_, ?_, ?_, ⟨.unit (TUnit.ofSecs 60), by simp, by decide +kernel⟩, ?_, ?_⟩, by decide +kernel, ?_, ?_, by decide +kernel⟩
  · intro s hs
    rcases List.mem_append.1 hs with hs | hs
    · exact hw.each s hs
    · rw [List.mem_singleton.1 hs]; exact ⟨_, hop⟩
  · intro s hs
    rcases List.mem_append.1 hs with hs | hs
    · exact hw.dict s hs
    · rw [List.mem_singleton.1 hs, hl]; simp [mkPoint]
  · intro s hs
    rcases List.mem_append.1 hs with hs | hs
    · exact hw.ordered s hs
    · rw [List.mem_singleton.1 hs]; unfold StrictlyOrdered; decide +kernel
  · unfold Aligned Common
    decide +kernel
  · intro s hs
    rcases List.mem_append.1 hs with hs | hs
    · exact hw.idx s hs
    · rw [List.mem_singleton.1 hs]; unfold Dict.WF; decide +kernel
  · right; decide +kernel
  · left; decide +kernel

end Timeseria
