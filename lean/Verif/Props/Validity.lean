import Verif.SpecValidity

/-! # C35: validity regions -/

namespace Timeseria

theorem regionsLoop_some (D : ℚ) (p : Region) (t : ℚ) (r : List ℚ) (hp : p.b = p.t + D / 2) (hpt : p.t < t) :
    regionsLoop D none none false (some p) (t :: r) =
      { p with b := min (p.t + D / 2) ((p.t + t) / 2) } ::
        regionsLoop D none none false (some ⟨t, max (t - D / 2) ((p.t + t) / 2), t + D / 2⟩) r := by
  rw [regionsLoop]
  simp only [optTest, cutFrom, cutTo, Bool.false_eq_true, if_false]
  split_ifs with h
  · rw [hp] at h ⊢
    have e : (p.t + D / 2 + (t - D / 2)) / 2 = (p.t + t) / 2 := by ring
    rw [e, min_eq_right (by linarith), max_eq_right (by linarith)]
  · rw [hp] at h
    rw [min_eq_left (by linarith), max_eq_left (by linarith)]
    cases p; simp_all

theorem regionsLoop_expected (D : ℚ) (ts : List ℚ) (t a : ℚ) (pv : Option ℚ)
    (hs : (t :: ts).Pairwise (· < ·))
    (ha : a = leftEnd D pv t) :
    regionsLoop D none none false (some ⟨t, a, t + D / 2⟩) ts = expectedRegions D pv (t :: ts) := by
  induction ts generalizing t a pv with
  | nil => subst ha; simp [regionsLoop, expectedRegions, rightEnd]
  | cons u r ih =>
    have htu : t < u := by
      rw [List.pairwise_cons] at hs
      exact hs.1 u (by simp)
    rw [regionsLoop_some D _ u r rfl htu,
      ih u (max (u - D / 2) ((t + u) / 2)) (some t) (List.pairwise_cons.1 hs).2 rfl]
    subst ha
    simp [expectedRegions, rightEnd]

/-- **C35 (closed form)**: for points in order, the region of a point extends half a sampling interval on
either side, but not beyond the middle towards a neighbour. -/
theorem C35_expected (D : ℚ) (hD : 0 < D) (ts : List ℚ) (hs : ts.Pairwise (· < ·)) (auto : Except PyErr ℚ) :
    validityRegions auto ts none none (some D) false = .ok (expectedRegions D none ts) := by
  unfold validityRegions
  simp only [reduceCtorEq, and_false, if_false, ne_eq, ne_of_gt hD, not_false_eq_true, if_true]
  congr 1
  cases ts with
  | nil => simp [regionsLoop, expectedRegions]
  | cons t r =>
    rw [regionsLoop]
    simp only [optTest, cutFrom, cutTo, Bool.false_eq_true, if_false]
    exact regionsLoop_expected D r t _ none hs rfl

theorem expectedRegions_spec (D : ℚ) (hD : 0 < D) (ts : List ℚ) (pv : Option ℚ)
    (hs : ts.Pairwise (· < ·)) (hpv : ∀ p ∈ pv, ∀ t ∈ ts.head?, p < t) :
    (expectedRegions D pv ts).map Region.t = ts ∧
    (∀ g ∈ expectedRegions D pv ts, g.a < g.t ∧ g.t < g.b ∧ g.b - g.a ≤ D) ∧
    (expectedRegions D pv ts).IsChain (fun p q => p.b ≤ q.a ∧ (q.t - p.t ≤ D → p.b = q.a) ∧
      (D ≤ q.t - p.t → q.a - p.b = q.t - p.t - D)) := by
  induction ts generalizing pv with
  | nil => simp [expectedRegions]
  | cons t r ih =>
    have hr := (List.pairwise_cons.1 hs)
    have hnext : ∀ p ∈ some t, ∀ u ∈ r.head?, p < u := by
      intro p hp u hu
      simp at hp; subst hp
      exact hr.1 u (List.mem_of_mem_head? hu)
    obtain ⟨h1, h2, h3⟩ := ih (some t) hr.2 hnext
    refine ⟨by simp [expectedRegions, h1], ?_, ?_⟩
    · intro g hg
      simp only [expectedRegions, List.mem_cons] at hg
      rcases hg with rfl | hg
      · simp only
        have key1 : ∀ a : ℚ, a = leftEnd D pv t →
            a < t ∧ t - D / 2 ≤ a := by
          intro a ha
          cases pv with
          | none => subst ha; constructor <;> simp only [leftEnd] <;> linarith
          | some p =>
            have := hpv p rfl t rfl
            subst ha
            exact ⟨max_lt (by linarith) (by linarith), le_max_left _ _⟩
        have key2 : ∀ b : ℚ, b = rightEnd D r.head? t →
            t < b ∧ b ≤ t + D / 2 := by
          intro b hb
          rcases hh : r.head? with _ | n
          · rw [hh] at hb; subst hb; constructor <;> simp only [rightEnd] <;> linarith
          · have := hnext t rfl n (by rw [hh]; rfl)
            rw [hh] at hb; subst hb
            exact ⟨lt_min (by linarith) (by linarith), min_le_left _ _⟩
        have k1 := key1 _ rfl
        have k2 := key2 _ rfl
        exact ⟨k1.1, k2.1, by linarith⟩
      · exact h2 g hg
    · cases r with
      | nil => simp [expectedRegions]
      | cons u r' =>
        simp only [expectedRegions, List.head?_cons, leftEnd, rightEnd] at h3 ⊢
        refine List.IsChain.cons_cons ?_ h3
        have htu := hr.1 u (by simp)
        simp only
        refine ⟨?_, ?_, ?_⟩
        · exact le_trans (min_le_right _ _) (le_max_right _ _)
        · intro hd
          rw [min_eq_right (by linarith), max_eq_right (by linarith)]
        · intro hd
          rw [min_eq_left (by linarith), max_eq_left (by linarith)]; ring

theorem chain_pairwise_regions (l : List Region) (hw : ∀ g ∈ l, g.a ≤ g.b) (hc : l.IsChain (fun p q => p.b ≤ q.a)) :
    DisjointRegions l := by
  unfold DisjointRegions
  induction l with
  | nil => simp
  | cons p r ih =>
    rw [List.pairwise_cons]
    have hr := ih (fun g hg => hw g (by simp [hg])) hc.tail
    refine ⟨?_, hr⟩
    intro q hq
    cases r with
    | nil => simp at hq
    | cons u r' =>
      have h1 := (List.isChain_cons_cons.1 hc).1
      rcases List.mem_cons.1 hq with rfl | hq'
      · exact h1
      · have := (List.pairwise_cons.1 hr).1 q hq'
        have := hw u (by simp)
        linarith

/-- **C35**: for points in order and a positive sampling interval there is one region for each point, in
the same order; the regions are disjoint; each contains its own point (in its interior) and is not
longer than the sampling interval; two consecutive points at most one sampling interval apart leave
no gap, and otherwise the gap is what exceeds the sampling interval. -/
theorem C35_validity_regions (D : ℚ) (hD : 0 < D) (ts : List ℚ) (hs : ts.Pairwise (· < ·))
    (auto : Except PyErr ℚ) :
    ∃ l, validityRegions auto ts none none (some D) false = .ok l ∧ l.map Region.t = ts ∧ DisjointRegions l ∧
      (∀ g ∈ l, g.a < g.t ∧ g.t < g.b ∧ g.b - g.a ≤ D) ∧
      l.IsChain (fun p q => (q.t - p.t ≤ D → p.b = q.a) ∧
        (D ≤ q.t - p.t → q.a - p.b = q.t - p.t - D)) := by
  obtain ⟨h1, h2, h3⟩ := expectedRegions_spec D hD ts none hs (by simp)
  refine ⟨_, C35_expected D hD ts hs auto, h1, ?_, h2, ?_⟩
  · exact chain_pairwise_regions _ (fun g hg => by have := h2 g hg; linarith) (h3.imp (fun _ _ h => h.1))
  · exact h3.imp (fun _ _ h => h.2)

/-- **C35 (single point)**: with one point and no sampling interval the call is refused. -/
theorem C35_single_refused (t : ℚ) (auto : Except PyErr ℚ) (f g : Option ℚ) (cut : Bool) :
    validityRegions auto [t] f g none cut = .error .valueError := by
  simp [validityRegions]

/-! ### With an interval and cutting -/

theorem cutFrom_mono {cut : Bool} {f : Option ℚ} {a b : ℚ} (h : a ≤ b) : cutFrom cut f a ≤ cutFrom cut f b := by
  unfold cutFrom
  cases cut <;> cases f <;> simp only [Bool.false_eq_true, if_false, if_true]
  · exact h
  · exact h
  · exact h
  · split_ifs <;> linarith

theorem cutTo_mono {cut : Bool} {f : Option ℚ} {a b : ℚ} (h : a ≤ b) : cutTo cut f a ≤ cutTo cut f b := by
  unfold cutTo
  cases cut <;> cases f <;> simp only [Bool.false_eq_true, if_false, if_true]
  · exact h
  · exact h
  · exact h
  · split_ifs <;> linarith

theorem le_cutFrom (cut : Bool) (f : Option ℚ) (a : ℚ) : a ≤ cutFrom cut f a := by
  unfold cutFrom
  cases cut <;> cases f <;> simp only [Bool.false_eq_true, if_false, if_true, le_refl]
  split_ifs <;> linarith

theorem cutTo_le (cut : Bool) (f : Option ℚ) (a : ℚ) : cutTo cut f a ≤ a := by
  unfold cutTo
  cases cut <;> cases f <;> simp only [Bool.false_eq_true, if_false, if_true, le_refl]
  split_ifs <;> linarith

theorem cutFrom_le_cutTo {cut : Bool} {f g : Option ℚ} {a b : ℚ} (hab : a ≤ b)
    (hfg : ∀ x ∈ f, ∀ y ∈ g, x ≤ y) (h1 : ¬ optTest f (fun v => b ≤ v) = true)
    (h2 : ¬ optTest g (fun v => a > v) = true) : cutFrom cut f a ≤ cutTo cut g b := by
  unfold cutFrom cutTo
  cases cut
  · simpa using hab
  · cases f <;> cases g <;> simp only [optTest, if_true, decide_eq_true_eq, Bool.false_eq_true,
      not_false_eq_true, not_le, not_lt, gt_iff_lt] at h1 h2 ⊢
    · exact hab
    · split_ifs <;> linarith
    · split_ifs <;> linarith
    · have := hfg _ rfl _ rfl
      split_ifs <;> linarith

/-- what is known about one region -/
structure RegionOk (D : ℚ) (fromT toT : Option ℚ) (cut : Bool) (g : Region) : Prop where
  ord : g.a ≤ g.b
  len : g.b - g.a ≤ D
  inside : cut = true → (∀ f ∈ fromT, f ≤ g.a) ∧ (∀ f ∈ toT, g.b ≤ f)
  own : cut = false → g.a < g.t ∧ g.t < g.b

/-- the state of the loop: the pending region of the previous point -/
structure PendingOk (D : ℚ) (fromT toT : Option ℚ) (cut : Bool) (p : Region) : Prop where
  hb : p.b = cutTo cut toT (p.t + D / 2)
  lo : cutFrom cut fromT (p.t - D / 2) ≤ p.a
  mid : p.a ≤ (p.b + cutFrom cut fromT (p.t - D / 2)) / 2
  own : cut = false → p.a < p.t

theorem PendingOk.ok {D : ℚ} {fromT toT : Option ℚ} {cut : Bool} {p : Region} (hD : 0 < D)
    (h : PendingOk D fromT toT cut p) : RegionOk D fromT toT cut p := by
  have h1 := h.hb; have h2 := h.lo; have h3 := h.mid
  have c1 := cutTo_le cut toT (p.t + D / 2)
  have c2 := le_cutFrom cut fromT (p.t - D / 2)
  refine ⟨by linarith, by linarith, ?_, ?_⟩
  · intro hc
    subst hc
    refine ⟨?_, ?_⟩
    · intro f hf
      refine le_trans ?_ h2
      cases hf
      simp only [cutFrom, if_true]; split_ifs <;> linarith
    · intro f hf
      rw [h1]
      cases hf
      simp only [cutTo, if_true]; split_ifs <;> linarith
  · intro hc
    refine ⟨h.own hc, ?_⟩
    rw [h1]; subst hc
    simp only [cutTo, Bool.false_eq_true, if_false]; linarith

theorem regionsLoop_ok (D : ℚ) (hD : 0 < D) (fromT toT : Option ℚ) (cut : Bool)
    (hfg : ∀ x ∈ fromT, ∀ y ∈ toT, x ≤ y) (ts : List ℚ) (prev : Option Region)
    (hs : ts.Pairwise (· < ·)) (hp : ∀ p ∈ prev, PendingOk D fromT toT cut p ∧ ∀ t ∈ ts, p.t < t) :
    let l := regionsLoop D fromT toT cut prev ts
    (∀ g ∈ l, RegionOk D fromT toT cut g) ∧ l.IsChain (fun p q => p.b ≤ q.a) ∧
      (l.map Region.t).Sublist ((prev.map Region.t).toList ++ ts) ∧
      (∀ p ∈ prev, ∃ g, l.head? = some g ∧ g.a = p.a) := by
  induction ts generalizing prev with
  | nil =>
    simp only [regionsLoop]
    cases prev with
    | none => simp
    | some p => simp; exact ((hp p rfl).1.ok hD)
  | cons t r ih =>
    have hsr := List.pairwise_cons.1 hs
    rw [regionsLoop]
    simp only
    by_cases h1 : optTest fromT (fun f => t + D / 2 ≤ f) = true
    · rw [if_pos h1]
      obtain ⟨i1, i2, i3, i4⟩ := ih prev hsr.2 (fun p hp' => ⟨(hp p hp').1, fun u hu => (hp p hp').2 u (by simp [hu])⟩)
      refine ⟨i1, i2, ?_, i4⟩
      refine i3.trans ?_
      exact List.Sublist.append_left (List.sublist_cons_self _ _) _
    rw [if_neg h1]
    by_cases h2 : optTest toT (fun f => t - D / 2 > f) = true
    · rw [if_pos h2]
      cases prev with
      | none => simp
      | some p => simp; exact ((hp p rfl).1.ok hD)
    rw [if_neg h2]
    have hAB : cutFrom cut fromT (t - D / 2) ≤ cutTo cut toT (t + D / 2) :=
      cutFrom_le_cutTo (by linarith) hfg h1 h2
    have hown : cut = false → cutFrom cut fromT (t - D / 2) < t := by
      intro hc; subst hc; simp only [cutFrom, Bool.false_eq_true, if_false]; linarith
    cases prev with
    | none =>
      simp only
      obtain ⟨i1, i2, i3, i4⟩ := ih (some ⟨t, cutFrom cut fromT (t - D / 2), cutTo cut toT (t + D / 2)⟩) hsr.2 (by
        intro p hp'
        cases hp'
        exact ⟨⟨rfl, le_refl _, by simp only; linarith, hown⟩, hsr.1⟩)
      exact ⟨i1, i2, by simpa using i3, by simp⟩
    | some p =>
      simp only
      obtain ⟨hp1, hp2⟩ := hp p rfl
      have hpt := hp2 t (by simp)
      have m1 : cutFrom cut fromT (p.t - D / 2) ≤ cutFrom cut fromT (t - D / 2) := cutFrom_mono (by linarith)
      have m2 : p.b ≤ cutTo cut toT (t + D / 2) := by rw [hp1.hb]; exact cutTo_mono (by linarith)
      have hmid := hp1.mid
      have hlo := hp1.lo
      have pok := hp1.ok hD
      by_cases h3 : cutFrom cut fromT (t - D / 2) < p.b
      · rw [if_pos h3]
        obtain ⟨i1, i2, i3, i4⟩ := ih (some ⟨t, (p.b + cutFrom cut fromT (t - D / 2)) / 2, cutTo cut toT (t + D / 2)⟩) hsr.2 (by
          intro q hq
          cases hq
          refine ⟨⟨rfl, by simp only; linarith, by simp only; linarith, ?_⟩, hsr.1⟩
          intro hc
          have e := hp1.hb
          subst hc
          simp only [cutFrom, cutTo, Bool.false_eq_true, if_false] at e ⊢
          rw [e]; linarith)
        obtain ⟨g, hg1, hg2⟩ := i4 _ rfl
        simp only at hg2
        refine ⟨?_, ?_, ?_, ?_⟩
        · intro x hx
          rcases List.mem_cons.1 hx with rfl | hx
          · refine ⟨by simp only; linarith, ?_, ?_, ?_⟩
            · have := pok.len; simp only; linarith
            · intro hc
              obtain ⟨j1, j2⟩ := pok.inside hc
              exact ⟨j1, fun f hf => by have := j2 f hf; simp only; linarith⟩
            · intro hc
              refine ⟨(pok.own hc).1, ?_⟩
              have e := hp1.hb
              subst hc
              simp only [cutFrom, cutTo, Bool.false_eq_true, if_false] at e ⊢
              rw [e]; linarith
          · exact i1 x hx
        · rcases hl : regionsLoop D fromT toT cut (some ⟨t, (p.b + cutFrom cut fromT (t - D / 2)) / 2, cutTo cut toT (t + D / 2)⟩) r with _ | ⟨u, w⟩
          · simp
          · rw [hl] at i2 hg1
            simp at hg1; subst hg1
            exact List.IsChain.cons_cons (by simp only; exact hg2.ge) i2
        · simpa using i3
        · intro q hq; cases hq; exact ⟨_, rfl, rfl⟩
      · rw [if_neg h3]
        obtain ⟨i1, i2, i3, i4⟩ := ih (some ⟨t, cutFrom cut fromT (t - D / 2), cutTo cut toT (t + D / 2)⟩) hsr.2 (by
          intro q hq
          cases hq
          exact ⟨⟨rfl, le_refl _, by simp only; linarith, hown⟩, hsr.1⟩)
        obtain ⟨g, hg1, hg2⟩ := i4 _ rfl
        simp only at hg2
        refine ⟨?_, ?_, ?_, ?_⟩
        · intro x hx
          rcases List.mem_cons.1 hx with rfl | hx
          · exact pok
          · exact i1 x hx
        · rcases hl : regionsLoop D fromT toT cut (some ⟨t, cutFrom cut fromT (t - D / 2), cutTo cut toT (t + D / 2)⟩) r with _ | ⟨u, w⟩
          · simp
          · rw [hl] at i2 hg1
            simp at hg1; subst hg1
            exact List.IsChain.cons_cons (by rw [hg2]; exact not_lt.1 h3) i2
        · simpa using i3
        · intro q hq; cases hq; exact ⟨_, rfl, rfl⟩

/-- **C35 (within an interval)**: with an interval and with or without cutting, the regions are still those of
some of the points in order, disjoint, not longer than the sampling interval, within the interval when
cutting is requested, and otherwise around their own points. -/
theorem C35_interval (D : ℚ) (hD : 0 < D) (ts : List ℚ) (hs : ts.Pairwise (· < ·)) (fromT toT : Option ℚ)
    (hfg : ∀ x ∈ fromT, ∀ y ∈ toT, x ≤ y) (cut : Bool) (auto : Except PyErr ℚ) :
    ∃ l, validityRegions auto ts fromT toT (some D) cut = .ok l ∧ (l.map Region.t).Sublist ts ∧ DisjointRegions l ∧
      (∀ g ∈ l, g.a ≤ g.b ∧ g.b - g.a ≤ D ∧
        (cut = true → (∀ f ∈ fromT, f ≤ g.a) ∧ (∀ f ∈ toT, g.b ≤ f)) ∧
        (cut = false → g.a < g.t ∧ g.t < g.b)) := by
  obtain ⟨h1, h2, h3, _⟩ := regionsLoop_ok D hD fromT toT cut hfg ts none hs (by simp)
  refine ⟨regionsLoop D fromT toT cut none ts, ?_, by simpa using h3, chain_pairwise_regions _ (fun g hg => (h1 g hg).ord) h2,
    fun g hg => ⟨(h1 g hg).ord, (h1 g hg).len, (h1 g hg).inside, (h1 g hg).own⟩⟩
  unfold validityRegions
  simp [ne_of_gt hD]

/-- a concrete case: three points, the last two closer than the sampling interval -/
theorem C35_witness : validityRegions (.error .valueError) [0, 100, 130] none none (some 60) false =
    .ok [⟨0, -30, 30⟩, ⟨100, 70, 115⟩, ⟨130, 115, 160⟩] := by decide +kernel

/-! ## C36: coverage -/

/-- total length of the parts of the regions of the measured points within the interval -/
def coveredLength (f t : ℚ) (ps : List VPoint) : ℚ :=
  (ps.map (fun p => if p.interp then 0 else overlap p.vf p.vt f t)).sum

theorem clip_overlap {f t vf vt : ℚ} (hft : f < t) (hw : vf ≤ vt) (h1 : ¬ vt < f) (h2 : ¬ vf ≥ t) :
    clipTo t vt - clipFrom f vf = overlap vf vt f t := by
  unfold clipTo clipFrom overlap
  have a1 : (if vt < t then vt else t) = min vt t := by
    split_ifs with h
    · exact (min_eq_left h.le).symm
    · exact (min_eq_right (not_lt.1 h)).symm
  have a2 : (if vf ≥ f then vf else f) = max vf f := by
    split_ifs with h
    · exact (max_eq_left h).symm
    · exact (max_eq_right (by linarith)).symm
  have h0 : 0 ≤ min vt t - max vf f := by
    rw [sub_nonneg]
    exact max_le (le_min hw (by linarith)) (le_min (not_lt.1 h1) hft.le)
  rw [a1, a2, max_eq_right h0]

theorem overlap_zero_left {f t vf vt : ℚ} (h : vt < f) : overlap vf vt f t = 0 := by
  unfold overlap
  apply max_eq_left
  have := min_le_left vt t
  have := le_max_right vf f
  linarith

theorem overlap_zero_right {f t vf vt : ℚ} (h : t ≤ vf) : overlap vf vt f t = 0 := by
  unfold overlap
  apply max_eq_left
  have := min_le_right vt t
  have := le_max_left vf f
  linarith

theorem coverageSum_eq {f t : ℚ} (hft : f < t) {ps : List VPoint} (h : OrderedRegions ps) :
    coverageSum f t ps = coveredLength f t ps := by
  induction ps with
  | nil => simp [coverageSum, coveredLength]
  | cons p r ih =>
    have hr : OrderedRegions r := ⟨fun q hq => h.wf q (by simp [hq]), (List.pairwise_cons.1 h.ord).2⟩
    rw [coverageSum, ih hr]
    have e : coveredLength f t (p :: r) =
        (if p.interp then 0 else overlap p.vf p.vt f t) + coveredLength f t r := by
      simp [coveredLength]
    rw [e]
    by_cases h1 : p.vt < f
    · rw [if_pos h1, overlap_zero_left h1]; simp
    rw [if_neg h1]
    by_cases h2 : p.vf ≥ t
    · rw [if_pos h2, overlap_zero_right h2, ite_self, zero_add]
      symm
      apply List.sum_eq_zero
      intro x hx
      obtain ⟨q, hq, rfl⟩ := List.mem_map.1 hx
      have := (List.pairwise_cons.1 h.ord).1 q hq
      have := h.wf p (by simp)
      rw [overlap_zero_right (by linarith)]; simp
    rw [if_neg h2]
    cases hi : p.interp with
    | true => simp
    | false => simp only [Bool.false_eq_true, if_false]; rw [clip_overlap hft (h.wf p (by simp)) h1 h2]

theorem overlap_nonneg (a b f t : ℚ) : 0 ≤ overlap a b f t := le_max_left _ _

theorem coveredLength_nonneg (f t : ℚ) (ps : List VPoint) : 0 ≤ coveredLength f t ps := by
  apply List.sum_nonneg
  intro x hx
  obtain ⟨q, _, rfl⟩ := List.mem_map.1 hx
  split_ifs
  · exact le_refl _
  · exact overlap_nonneg _ _ _ _

theorem overlap_step {f t vf vt : ℚ} (hw : vf ≤ vt) :
    overlap vf vt f t + max 0 (t - max f vt) ≤ max 0 (t - max f vf) := by
  unfold overlap
  have hx : max vf f = max f vf := max_comm _ _
  rw [hx]
  have hxy : max f vf ≤ max f vt := max_le_max_left f hw
  have hy : vt ≤ max f vt := le_max_right _ _
  rcases le_total t (max f vt) with h | h
  · rw [max_eq_left (a := (0 : ℚ)) (b := t - max f vt) (by linarith), add_zero]
    exact max_le_max_left 0 (by have := min_le_right vt t; linarith)
  · rw [max_eq_right (a := (0 : ℚ)) (b := t - max f vt) (by linarith),
      max_eq_right (a := (0 : ℚ)) (b := t - max f vf) (by linarith)]
    have : max 0 (min vt t - max f vf) ≤ max f vt - max f vf :=
      max_le (by linarith) (by have := min_le_left vt t; linarith)
    linarith

theorem coveredLength_le_aux (f t : ℚ) (ps : List VPoint) (h : OrderedRegions ps) (L : ℚ)
    (hL : ∀ p ∈ ps, L ≤ p.vf) : coveredLength f t ps ≤ max 0 (t - max f L) := by
  induction ps generalizing L with
  | nil => simp [coveredLength]
  | cons p r ih =>
    have hr : OrderedRegions r := ⟨fun q hq => h.wf q (by simp [hq]), (List.pairwise_cons.1 h.ord).2⟩
    have i1 := ih hr p.vt (List.pairwise_cons.1 h.ord).1
    have e : coveredLength f t (p :: r) =
        (if p.interp then 0 else overlap p.vf p.vt f t) + coveredLength f t r := by
      simp [coveredLength]
    rw [e]
    have s1 := overlap_step (f := f) (t := t) (h.wf p (by simp))
    have hLp := hL p (by simp)
    have s2 : max 0 (t - max f p.vf) ≤ max 0 (t - max f L) :=
      max_le_max_left 0 (by have := max_le_max_left f hLp; linarith)
    have : (if p.interp then 0 else overlap p.vf p.vt f t) ≤ overlap p.vf p.vt f t := by
      split_ifs
      · exact overlap_nonneg _ _ _ _
      · exact le_refl _
    linarith

theorem coveredLength_le {f t : ℚ} (hft : f < t) {ps : List VPoint} (h : OrderedRegions ps) :
    coveredLength f t ps ≤ t - f := by
  cases ps with
  | nil => simp [coveredLength]; linarith
  | cons p r =>
    have := coveredLength_le_aux f t (p :: r) h p.vf (by
      intro q hq
      rcases List.mem_cons.1 hq with rfl | hq
      · exact le_refl _
      · have h1 := (List.pairwise_cons.1 h.ord).1 q hq
        have h2 := h.wf p (by simp)
        linarith)
    refine this.trans (max_le (by linarith) (by have := le_max_left f p.vf; linarith))

/-- **C36**: for points with disjoint validity regions in order and a non-empty interval, the coverage is
the total length of the parts of the regions (of points that are not interpolated) within the
interval, divided by the length of the interval; it is between 0 and 1. -/
theorem C36_coverage (ps : List VPoint) (h : OrderedRegions ps) (f t : ℚ) (hft : f < t) :
    ∃ c, coverage ps f t = .ok c ∧ c = coveredLength f t ps / (t - f) ∧ 0 ≤ c ∧ c ≤ 1 := by
  have hpos : 0 < t - f := by linarith
  refine ⟨coveredLength f t ps / (t - f), ?_, rfl, div_nonneg (coveredLength_nonneg _ _ _) hpos.le,
    (div_le_one hpos).2 (coveredLength_le hft h)⟩
  unfold coverage
  rw [if_neg (by linarith)]
  cases ps with
  | nil => simp [coveredLength]
  | cons p r => rw [coverageSum_eq hft h]; simp

theorem tiling_aux (f t : ℚ) (ps : List VPoint) (p : VPoint) (hw : ∀ q ∈ p :: ps, q.vf ≤ q.vt)
    (hi : ∀ q ∈ p :: ps, q.interp = false) (hc : (p :: ps).IsChain (fun x y => x.vt = y.vf))
    (hl : t ≤ ((p :: ps).getLast (by simp)).vt) :
    coveredLength f t (p :: ps) = max 0 (t - max f p.vf) := by
  induction ps generalizing p with
  | nil =>
    simp only [List.getLast_singleton] at hl
    simp only [coveredLength, List.map_cons, List.map_nil, List.sum_cons, List.sum_nil, add_zero,
      hi p (by simp), Bool.false_eq_true, if_false, overlap]
    rw [min_eq_right hl, max_comm p.vf f]
  | cons q r ih =>
    have hcc := List.isChain_cons_cons.1 hc
    have e : coveredLength f t (p :: q :: r) = overlap p.vf p.vt f t + coveredLength f t (q :: r) := by
      simp [coveredLength, hi p (by simp)]
    rw [e, ih q (fun x hx => hw x (by simp at hx ⊢; tauto)) (fun x hx => hi x (by simp at hx ⊢; tauto)) hcc.2
      (by simpa using hl), ← hcc.1]
    apply le_antisymm (overlap_step (hw p (by simp)))
    have hpw := hw p (by simp)
    unfold overlap
    rw [max_comm p.vf f]
    have hxy : max f p.vf ≤ max f p.vt := max_le_max_left f hpw
    rcases le_total t (max f p.vf) with h | h
    · rw [max_eq_left (a := (0 : ℚ)) (b := t - max f p.vf) (by linarith)]
      positivity
    · rw [max_eq_right (a := (0 : ℚ)) (b := t - max f p.vf) (by linarith)]
      rcases le_total f p.vt with h2 | h2
      · rw [max_eq_right h2]
        rcases le_total p.vt t with h3 | h3
        · rw [min_eq_left h3]
          have := le_max_right 0 (p.vt - max f p.vf)
          have := le_max_right 0 (t - p.vt)
          linarith
        · rw [min_eq_right h3]
          have := le_max_right 0 (t - max f p.vf)
          have := le_max_left 0 (t - p.vt)
          linarith
      · rw [max_eq_left h2, max_eq_left (le_trans hpw h2)]
        have := le_max_left 0 (min p.vt t - f)
        have := le_max_right 0 (t - f)
        linarith

/-- **C36 (full)**: if the regions adjoin each other and together include the interval, the coverage is 1. -/
theorem C36_full (p : VPoint) (ps : List VPoint) (f t : ℚ) (hft : f < t) (hw : ∀ q ∈ p :: ps, q.vf ≤ q.vt)
    (hi : ∀ q ∈ p :: ps, q.interp = false) (hc : (p :: ps).IsChain (fun x y => x.vt = y.vf))
    (hf : p.vf ≤ f) (hl : t ≤ ((p :: ps).getLast (by simp)).vt) : coverage (p :: ps) f t = .ok 1 := by
  have ho : OrderedRegions (p :: ps) := by
    refine ⟨hw, ?_⟩
    clear hf hl hi
    induction ps generalizing p with
    | nil => simp
    | cons q r ih =>
      have hcc := List.isChain_cons_cons.1 hc
      have i := ih q (fun x hx => hw x (by simp at hx ⊢; tauto)) hcc.2
      rw [List.pairwise_cons]
      refine ⟨?_, i⟩
      intro x hx
      rcases List.mem_cons.1 hx with rfl | hx
      · exact hcc.1.le
      · have h1 := (List.pairwise_cons.1 i).1 x hx
        have h2 := hw q (by simp)
        have h3 := hcc.1
        linarith
  obtain ⟨c, h1, h2, _⟩ := C36_coverage (p :: ps) ho f t hft
  rw [h1, h2, tiling_aux f t ps p hw hi hc hl, max_eq_left hf, max_eq_right (by linarith),
    div_self (by linarith)]

/-- **C36 (none)**: if no region of a measured point meets the inside of the interval, the coverage is 0. -/
theorem C36_none (ps : List VPoint) (h : OrderedRegions ps) (f t : ℚ) (hft : f < t)
    (hn : ∀ p ∈ ps, p.interp = false → p.vt ≤ f ∨ t ≤ p.vf) : coverage ps f t = .ok 0 := by
  obtain ⟨c, h1, h2, _⟩ := C36_coverage ps h f t hft
  rw [h1, h2]
  have : coveredLength f t ps = 0 := by
    apply List.sum_eq_zero
    intro x hx
    obtain ⟨q, hq, rfl⟩ := List.mem_map.1 hx
    cases hi : q.interp with
    | true => simp
    | false =>
      simp only [Bool.false_eq_true, if_false]
      rcases hn q hq hi with h3 | h3
      · unfold overlap
        apply max_eq_left
        have := min_le_left q.vt t
        have := le_max_right q.vf f
        linarith
      · exact overlap_zero_right h3
  rw [this]; simp

/-- **C36 (inverted interval)** -/
theorem C36_refused (ps : List VPoint) (f t : ℚ) (h : t ≤ f) : coverage ps f t = .error .valueError := by
  simp [coverage, h]

/-- a concrete case: two points covering three quarters of the interval -/
theorem C36_witness :
    OrderedRegions [⟨0, -30, 30, [], [], false⟩, ⟨90, 60, 120, [], [], false⟩] ∧
    coverage [⟨0, -30, 30, [], [], false⟩, ⟨90, 60, 120, [], [], false⟩] 0 120 = .ok (3 / 4) := by
  refine ⟨⟨?_, ?_⟩, by decide +kernel⟩
  · intro p hp; simp at hp; rcases hp with rfl | rfl <;> norm_num
  · simp; norm_num

/-! ## C37: data loss -/

/-- no point carries a data loss from an earlier computation -/
def NoPreviousLoss (ps : List VPoint) : Prop := ∀ p ∈ ps, p.dataLoss = none ∨ p.dataLoss = some 0

theorem lossSum_zero {si f t : ℚ} {ps : List VPoint} (h : NoPreviousLoss ps) : lossSum si f t ps = 0 := by
  apply List.sum_eq_zero
  intro x hx
  obtain ⟨q, hq, rfl⟩ := List.mem_map.1 hx
  unfold lossTerm
  rcases h q hq with h | h <;> simp [h]

/-- **C37**: if no point carries a data loss, the data loss of an interval is the
fraction of it not covered, hence between 0 and 1, whatever the other settings. -/
theorem C37_fresh (ps : List VPoint) (h : OrderedRegions ps) (hn : NoPreviousLoss ps)
    (hasRes force : Bool) (si f t : ℚ) (hft : f < t) :
    ∃ c, dataLossOf ps hasRes force si f t = .ok c ∧ c = 1 - coveredLength f t ps / (t - f) ∧ 0 ≤ c ∧ c ≤ 1 := by
  obtain ⟨c, h1, h2, h3, h4⟩ := C36_coverage ps h f t hft
  refine ⟨1 - c, ?_, by rw [h2], by linarith, by linarith⟩
  unfold dataLossOf
  simp [h1, lossSum_zero hn]

/-- the regions are those of points at least one sampling interval apart, and no region contains the
whole interval -/
structure FullRegions (si f t : ℚ) (ps : List VPoint) : Prop where
  measured : ∀ p ∈ ps, p.interp = false
  region : ∀ p ∈ ps, p.vf = p.t - si / 2 ∧ p.vt = p.t + si / 2
  notWhole : ∀ p ∈ ps, f ≤ p.vf ∨ p.vt ≤ t

theorem lossTerm_full {si f t : ℚ} (hsi : 0 < si) (hft : f < t) {ps : List VPoint} (h : FullRegions si f t ps)
    {p : VPoint} (hp : p ∈ ps) (l : ℚ) (hl : p.dataLoss = some l) :
    lossTerm si f t p = l * (overlap p.vf p.vt f t / (t - f)) := by
  obtain ⟨h1, h2⟩ := h.region p hp
  unfold lossTerm
  rw [hl]
  simp only [← h1, ← h2]
  split_ifs with a1 a2 a3 a4 a5
  · rw [a1]; ring
  · rw [overlap_zero_left a2]; ring
  · rw [overlap_zero_right a3]; ring
  · have hw := h.notWhole p hp
    have : p.vt ≤ t := by
      rcases hw with h | h
      · linarith
      · exact h
    unfold overlap
    rw [min_eq_left this, max_eq_right a4.le, abs_of_nonpos (by linarith),
      max_eq_right (a := (0 : ℚ)) (b := p.vt - f) (by linarith)]
    ring
  · unfold overlap
    rw [min_eq_right a5, max_eq_left (not_lt.1 a4), abs_of_nonneg (by linarith),
      max_eq_right (a := (0 : ℚ)) (b := t - p.vf) (by linarith)]
  · unfold overlap
    rw [min_eq_left (not_le.1 a5).le, max_eq_left (not_lt.1 a4),
      max_eq_right (a := (0 : ℚ)) (b := p.vt - p.vf) (by linarith), h1, h2]
    ring

theorem lossSum_full {si f t : ℚ} (hsi : 0 < si) (hft : f < t) {ps : List VPoint} (h : FullRegions si f t ps)
    (hl : ∀ p ∈ ps, ∀ l, p.dataLoss = some l → 0 ≤ l ∧ l ≤ 1) :
    0 ≤ lossSum si f t ps ∧ lossSum si f t ps ≤ coveredLength f t ps / (t - f) := by
  induction ps with
  | nil => simp [lossSum, coveredLength]
  | cons p r ih =>
    have hr : FullRegions si f t r := ⟨fun q hq => h.measured q (by simp [hq]),
      fun q hq => h.region q (by simp [hq]), fun q hq => h.notWhole q (by simp [hq])⟩
    obtain ⟨i1, i2⟩ := ih hr (fun q hq => hl q (by simp [hq]))
    have e1 : lossSum si f t (p :: r) = lossTerm si f t p + lossSum si f t r := by simp [lossSum]
    have e2 : coveredLength f t (p :: r) / (t - f) =
        overlap p.vf p.vt f t / (t - f) + coveredLength f t r / (t - f) := by
      simp only [coveredLength, List.map_cons, List.sum_cons, h.measured p (by simp),
        Bool.false_eq_true, if_false]
      rw [add_div]
    rw [e1, e2]
    have ho : 0 ≤ overlap p.vf p.vt f t / (t - f) := div_nonneg (overlap_nonneg _ _ _ _) (by linarith)
    cases hd : p.dataLoss with
    | none =>
      have : lossTerm si f t p = 0 := by simp [lossTerm, hd]
      constructor <;> linarith
    | some l =>
      rw [lossTerm_full hsi hft h (by simp) l hd]
      obtain ⟨l1, l2⟩ := hl p (by simp) l hd
      have := mul_nonneg l1 ho
      have : l * (overlap p.vf p.vt f t / (t - f)) ≤ 1 * (overlap p.vf p.vt f t / (t - f)) :=
        mul_le_mul_of_nonneg_right l2 ho
      constructor <;> linarith

/-- **C82**: if the points are at least one sampling interval apart, none of their
regions contains the whole interval and their data losses are between 0 and 1, then so is the data
loss of the interval. -/
theorem C82_spaced_partial (ps : List VPoint) (h : OrderedRegions ps) (hasRes force : Bool) (si f t : ℚ)
    (hsi : 0 < si) (hft : f < t) (hf : FullRegions si f t ps)
    (hl : ∀ p ∈ ps, ∀ l, p.dataLoss = some l → 0 ≤ l ∧ l ≤ 1) :
    ∃ c, dataLossOf ps hasRes force si f t = .ok c ∧ 0 ≤ c ∧ c ≤ 1 := by
  obtain ⟨c, h1, h2, h3, h4⟩ := C36_coverage ps h f t hft
  obtain ⟨g1, g2⟩ := lossSum_full hsi hft hf hl
  unfold dataLossOf
  rw [h1]
  refine ⟨_, rfl, ?_, ?_⟩
  · split_ifs <;> linarith
  · rw [← h2] at g2
    split_ifs <;> linarith

/-- **C82 is false**: (1) an interval inside the region of one point with a data loss (upsampling), and
(2) points closer than the sampling interval, give a data loss above 1. -/
theorem C82_false :
    dataLossOf [⟨0, -300, 300, [], [("data_loss", some (1 / 2))], false⟩] true false 600 60 120 = .ok 2 ∧
    dataLossOf [⟨0, -30, 15, [], [("data_loss", some 1)], false⟩, ⟨30, 15, 60, [], [("data_loss", some 1)], false⟩]
      true false 60 0 30 = .ok 2 := by
  decide +kernel

/-- the hypotheses of the partial theorems are met -/
theorem C82_witness : FullRegions 60 0 90 [⟨0, -30, 30, [], [("data_loss", some 1)], false⟩,
      ⟨60, 30, 90, [], [], false⟩] ∧
    dataLossOf [⟨0, -30, 30, [], [("data_loss", some 1)], false⟩, ⟨60, 30, 90, [], [], false⟩]
      true false 60 0 90 = .ok (1 / 3) := by
  refine ⟨⟨?_, ?_, ?_⟩, by decide +kernel⟩ <;>
  · intro p hp; simp at hp; rcases hp with rfl | rfl <;> norm_num

end Timeseria
