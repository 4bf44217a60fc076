import Verif.Lemmas.Transform
import Verif.Props.Validity

/-! # The dense view: structure of the yielded points -/

namespace Timeseria

/-- every label has a value -/
def HasLabels (ks : List String) (p : VPoint) : Prop := ∀ k ∈ ks, ∃ v, p.data.get? k = some v

/-- two consecutive points: regions contain the points and are in order; the interval (if given) lies to the right
of the first and to the left of the second -/
structure Adj (f t : Option ℚ) (p q : VPoint) : Prop where
  h1 : p.t < p.vt
  h2 : p.vt ≤ q.vf
  h3 : q.vf < q.t
  h4 : ∀ a ∈ f, a ≤ q.t
  h5 : ∀ b ∈ t, p.t < b

/-- the point filling the gap between `p` and `q` -/
structure IsGapPoint (ks : List String) (f t : Option ℚ) (p q g : VPoint) : Prop where
  vf : g.vf = gapFrom f p
  vt : g.vt = gapTo t q
  mid : g.t = (g.vf + g.vt) / 2
  interp : g.interp = true
  idx : g.idx = []
  left : p.t < g.t
  right : g.t < q.t
  data : ∀ k ∈ ks, ∀ x y, p.data.get? k = some x → q.data.get? k = some y →
    g.data.get? k = some (lineThrough p.t x q.t y g.t)
  keys : g.data.keys = ks

inductive DenseRel (ks : List String) (f t : Option ℚ) : List VPoint → List VPoint → Prop
  | nil : DenseRel ks f t [] []
  | single (p) : DenseRel ks f t [p] [p]
  | gap (p q r rest g) (hg : p.vt < q.vf) (hgp : IsGapPoint ks f t p q g) (h : DenseRel ks f t (q :: r) (q :: rest)) :
      DenseRel ks f t (p :: q :: r) (p :: g :: q :: rest)
  | nogap (p q r rest) (hg : ¬ p.vt < q.vf) (h : DenseRel ks f t (q :: r) (q :: rest)) :
      DenseRel ks f t (p :: q :: r) (p :: q :: rest)

theorem gapPoint_ok {ks : List String} {f t : Option ℚ} {p q : VPoint} (h : Adj f t p q) (hpq : p.vt < q.vf)
    (hp : HasLabels ks p) (hq : HasLabels ks q) :
    ∃ g, gapPoint ks f t p q = .ok g ∧ IsGapPoint ks f t p q g := by
  have hfa : p.vt ≤ gapFrom f p ∧ gapFrom f p ≤ q.t := by
    have := h.h3
    cases f with
    | none => simp only [gapFrom]; exact ⟨le_refl _, by linarith⟩
    | some a =>
      have := h.h4 a rfl
      simp only [gapFrom]
      split_ifs with hc
      · exact ⟨hc.le, this⟩
      · exact ⟨le_refl _, by linarith⟩
  have htb : gapTo t q ≤ q.vf ∧ p.t < gapTo t q := by
    have := h.h1
    cases t with
    | none => simp only [gapTo]; exact ⟨le_refl _, by linarith⟩
    | some b =>
      have := h.h5 b rfl
      simp only [gapTo]
      split_ifs with hc
      · exact ⟨hc.le, this⟩
      · exact ⟨le_refl _, by linarith⟩
  have h1 := h.h1
  have h3 := h.h3
  set x := gapFrom f p + (gapTo t q - gapFrom f p) / 2 with hx
  have hx1 : p.t < x := by rw [hx]; linarith [hfa.1, htb.2]
  have hx2 : x < q.t := by rw [hx]; linarith [hfa.2, htb.1]
  have hne : q.t - p.t ≠ 0 := by intro e; linarith
  choose! va hva using hp
  choose! vb hvb using hq
  have hval : ∀ k ∈ ks, linearValue p q x k = .ok (lineThrough p.t (va k) q.t (vb k) x) := by
    intro k hk
    simp only [linearValue, hva k hk, hvb k hk, if_neg hne]
    unfold lineThrough
    congr 1
    field_simp
  have hd := perLabelDict_ok hval
  refine ⟨{ t := x, vf := gapFrom f p, vt := gapTo t q,
            data := ks.map (fun k => (k, lineThrough p.t (va k) q.t (vb k) x)), idx := [], interp := true }, ?_, ?_⟩
  · unfold gapPoint
    simp only [← hx, hx1, hx2, and_self, if_true, hd]
  · refine ⟨rfl, rfl, ?_, rfl, rfl, hx1, hx2, ?_, ?_⟩
    · simp only [hx]; ring
    · intro k hk a b ha hb
      rw [hva k hk] at ha
      rw [hvb k hk] at hb
      cases ha; cases hb
      exact table_get? _ hk
    · simp [Dict.keys, Function.comp_def]

theorem denseList_rel {ks : List String} {f t : Option ℚ} (ps : List VPoint) (hl : ∀ p ∈ ps, HasLabels ks p)
    (hc : ps.IsChain (Adj f t)) : ∃ view, denseList ks f t ps = .ok view ∧ DenseRel ks f t ps view := by
  induction ps with
  | nil => exact ⟨[], rfl, .nil⟩
  | cons p r ih =>
    cases r with
    | nil => exact ⟨[p], rfl, .single p⟩
    | cons q r =>
      have hcc := List.isChain_cons_cons.1 hc
      obtain ⟨rest, h1, h2⟩ := ih (fun x hx => hl x (by simp at hx ⊢; tauto)) hcc.2
      obtain ⟨rest', rfl⟩ : ∃ rest', rest = q :: rest' := by cases h2 <;> exact ⟨_, rfl⟩
      by_cases hg : p.vt < q.vf
      · obtain ⟨g, hg1, hg2⟩ := gapPoint_ok hcc.1 hg (hl p (by simp)) (hl q (by simp))
        refine ⟨p :: g :: q :: rest', ?_, .gap p q r rest' g hg hg2 h2⟩
        rw [denseList, h1]
        simp only [hg, if_true, hg1]
      · refine ⟨p :: q :: rest', ?_, .nogap p q r rest' hg h2⟩
        rw [denseList, h1]
        simp only [hg, if_false]

/-- the original points are the measured ones of the view, in order -/
theorem DenseRel.originals {ks : List String} {f t : Option ℚ} {ps view : List VPoint} (h : DenseRel ks f t ps view)
    (hm : ∀ p ∈ ps, p.interp = false) : view.filter (fun p => !p.interp) = ps := by
  induction h with
  | nil => rfl
  | single p => simp [hm p (by simp)]
  | gap p q r rest g hg hgp h ih =>
    have := ih (fun x hx => hm x (by simp at hx ⊢; tauto))
    rw [List.filter_cons, List.filter_cons, this]
    simp [hm p (by simp), hgp.interp]
  | nogap p q r rest hg h ih =>
    have := ih (fun x hx => hm x (by simp at hx ⊢; tauto))
    rw [List.filter_cons, this]
    simp [hm p (by simp)]

theorem DenseRel.mem {ks : List String} {f t : Option ℚ} {ps view : List VPoint} (h : DenseRel ks f t ps view) :
    ∀ x ∈ view, x ∈ ps ∨ (∃ p ∈ ps, ∃ q ∈ ps, p.vt < q.vf ∧ IsGapPoint ks f t p q x) := by
  induction h with
  | nil => simp
  | single p => simp
  | gap p q r rest g hg hgp h ih =>
    intro x hx
    rcases List.mem_cons.1 hx with rfl | hx
    · left; simp
    · rcases List.mem_cons.1 hx with rfl | hx
      · right; exact ⟨p, by simp, q, by simp, hg, hgp⟩
      · rcases ih x hx with h1 | ⟨p', hp', q', hq', h2⟩
        · left; exact List.mem_cons_of_mem _ h1
        · right; exact ⟨p', List.mem_cons_of_mem _ hp', q', List.mem_cons_of_mem _ hq', h2⟩
  | nogap p q r rest hg h ih =>
    intro x hx
    rcases List.mem_cons.1 hx with rfl | hx
    · left; simp
    · rcases ih x hx with h1 | ⟨p', hp', q', hq', h2⟩
      · left; exact List.mem_cons_of_mem _ h1
      · right; exact ⟨p', List.mem_cons_of_mem _ hp', q', List.mem_cons_of_mem _ hq', h2⟩

/-! ## Weights -/

/-- splitting an interval: the part covered and what is left -/
theorem overlap_split {f t x y : ℚ} (h : x ≤ y) : overlap x y f t + max 0 (t - max f y) = max 0 (t - max f x) := by
  apply le_antisymm (overlap_step h)
  unfold overlap
  rw [max_comm x f]
  have hxy : max f x ≤ max f y := max_le_max_left f h
  rcases le_total t (max f x) with h1 | h1
  · rw [max_eq_left (a := (0 : ℚ)) (b := t - max f x) (by linarith)]
    positivity
  · rw [max_eq_right (a := (0 : ℚ)) (b := t - max f x) (by linarith)]
    rcases le_total f y with h2 | h2
    · rw [max_eq_right h2]
      rcases le_total y t with h3 | h3
      · rw [min_eq_left h3]
        have := le_max_right 0 (y - max f x)
        have := le_max_right 0 (t - y)
        linarith
      · rw [min_eq_right h3]
        have := le_max_right 0 (t - max f x)
        have := le_max_left 0 (t - y)
        linarith
    · rw [max_eq_left h2, max_eq_left (le_trans h h2)]
      have := le_max_left 0 (min y t - f)
      have := le_max_right 0 (t - f)
      linarith

theorem weightOf_eq {a b : ℚ} (hab : a < b) {p : VPoint} (h : p.vf ≤ p.vt) :
    weightOf a b p = overlap p.vf p.vt a b / (b - a) := by
  unfold weightOf
  by_cases h1 : p.vt < a
  · rw [if_pos h1, overlap_zero_left h1, zero_div]
  rw [if_neg h1]
  by_cases h2 : p.vf ≥ b
  · rw [if_pos h2, overlap_zero_right h2, zero_div]
  rw [if_neg h2, clip_overlap hab h h1 h2]

theorem weightOf_gap {ks : List String} {a b : ℚ} (hab : a < b) {p q g : VPoint} (hpq : p.vt < q.vf)
    (h : IsGapPoint ks (some a) (some b) p q g) : weightOf a b g = overlap p.vt q.vf a b / (b - a) := by
  have hvf := h.vf
  have hvt := h.vt
  simp only [gapFrom, gapTo] at hvf hvt
  by_cases hx : q.vf < a
  · -- the gap is before the interval
    rw [overlap_zero_left hx, zero_div]
    have : g.vt = q.vf := by rw [hvt, if_neg (by push Not; linarith)]
    unfold weightOf
    rw [if_pos (by linarith)]
  · push Not at hx
    by_cases hy : b ≤ p.vt
    · rw [overlap_zero_right hy, zero_div]
      have : g.vf = p.vt := by rw [hvf, if_neg (by push Not; linarith)]
      have h2 : g.vt = b := by rw [hvt, if_pos (by linarith)]
      unfold weightOf
      rw [if_neg (by push Not; linarith), if_pos (by linarith)]
    · push Not at hy
      have h1 : g.vf = max p.vt a := by
        rw [hvf]; split_ifs with hc
        · rw [max_eq_right hc.le]
        · rw [max_eq_left (by linarith)]
      have h2 : g.vt = min q.vf b := by
        rw [hvt]; split_ifs with hc
        · rw [min_eq_right hc.le]
        · rw [min_eq_left (by linarith)]
      have h12 : g.vf ≤ g.vt := by
        rw [h1, h2]
        exact max_le (le_min hpq.le hy.le) (le_min hx hab.le)
      rw [weightOf_eq hab h12, h1, h2]
      unfold overlap
      congr 2
      rw [min_assoc, min_self, max_assoc, max_self]

/-- the weights of the points of a dense view add up to the part of the interval after the beginning of the first
region, if the last region reaches the end -/
theorem DenseRel.weights {ks : List String} {a b : ℚ} (hab : a < b) {ps view : List VPoint}
    (h : DenseRel ks (some a) (some b) ps view) (hw : ∀ p ∈ ps, p.vf ≤ p.vt)
    (hc : ps.IsChain (fun p q => p.vt ≤ q.vf)) (p : VPoint) (r : List VPoint) (hps : ps = p :: r)
    (hl : ∀ z ∈ ps.getLast?, b ≤ z.vt) :
    (view.map (weightOf a b)).sum = max 0 (b - max a p.vf) / (b - a) := by
  induction h generalizing p r with
  | nil => simp at hps
  | single p' =>
    cases hps
    simp only [List.map_cons, List.map_nil, List.sum_cons, List.sum_nil, add_zero]
    have hw' := hw p' (by simp)
    have := hl p' (by simp)
    rw [weightOf_eq hab hw']
    have e : overlap p'.vf p'.vt a b = max 0 (b - max a p'.vf) := by
      unfold overlap
      rw [min_eq_right this, max_comm p'.vf a]
    rw [e]
  | gap p' q r' rest g hg hgp h ih =>
    cases hps
    have hcc := List.isChain_cons_cons.1 hc
    have i := ih (fun x hx => hw x (by simp at hx ⊢; tauto)) hcc.2 q r' rfl (by
      intro z hz; exact hl z (by simpa using hz))
    rw [List.map_cons, List.map_cons, List.sum_cons, List.sum_cons, i, weightOf_gap hab hg hgp,
      weightOf_eq hab (hw p' (by simp)), ← overlap_split (hw p' (by simp)), ← overlap_split hg.le]
    ring
  | nogap p' q r' rest hg h ih =>
    cases hps
    have hcc := List.isChain_cons_cons.1 hc
    have i := ih (fun x hx => hw x (by simp at hx ⊢; tauto)) hcc.2 q r' rfl (by
      intro z hz; exact hl z (by simpa using hz))
    have he : p'.vt = q.vf := le_antisymm hcc.1 (not_lt.1 hg)
    rw [List.map_cons, List.sum_cons, i, weightOf_eq hab (hw p' (by simp)), ← he,
      ← overlap_split (f := a) (t := b) (hw p' (by simp))]
    ring

theorem DenseRel.weights_nonneg {ks : List String} {a b : ℚ} (hab : a < b) {ps view : List VPoint}
    (h : DenseRel ks (some a) (some b) ps view) (hw : ∀ p ∈ ps, p.vf ≤ p.vt) : ∀ x ∈ view, 0 ≤ weightOf a b x := by
  intro x hx
  rcases h.mem x hx with h1 | ⟨p, _, q, _, hpq, hg⟩
  · rw [weightOf_eq hab (hw x h1)]
    exact div_nonneg (overlap_nonneg _ _ _ _) (by linarith)
  · rw [weightOf_gap hab hpq hg]
    exact div_nonneg (overlap_nonneg _ _ _ _) (by linarith)

/-! ## Coverage -/

theorem DenseRel.coverageSum_eq {ks : List String} {a b : ℚ} (hab : a < b) {ps view : List VPoint}
    (h : DenseRel ks (some a) (some b) ps view) (hw : ∀ p ∈ ps, p.vf ≤ p.vt)
    (hc : ps.IsChain (fun p q => p.vt ≤ q.vf)) : coverageSum a b view = coverageSum a b ps := by
  induction h with
  | nil => rfl
  | single p => rfl
  | gap p q r rest g hg hgp h ih =>
    have hcc := List.isChain_cons_cons.1 hc
    have i := ih (fun x hx => hw x (by simp at hx ⊢; tauto)) hcc.2
    have hvf := hgp.vf
    have hvt := hgp.vt
    simp only [gapFrom, gapTo] at hvf hvt
    have key : ¬ p.vf ≥ b → coverageSum a b (g :: q :: rest) = coverageSum a b (q :: r) := by
      intro _
      rw [coverageSum]
      by_cases h1 : g.vt < a
      · rw [if_pos h1, i]
      rw [if_neg h1]
      by_cases h2 : g.vf ≥ b
      · rw [if_pos h2]
        -- the gap is after the interval
        have hpb : b ≤ p.vt := by
          by_contra hcon
          push Not at hcon
          split_ifs at hvf <;> linarith
        have hqw := hw q (by simp)
        rw [coverageSum, if_neg (by push Not; linarith), if_pos (by linarith)]
      rw [if_neg h2, hgp.interp, if_pos rfl, i]
    rw [coverageSum]
    conv_rhs => rw [coverageSum]
    by_cases h1 : p.vt < a
    · rw [if_pos h1, if_pos h1]
      have hpw := hw p (by simp)
      exact key (by push Not; linarith)
    rw [if_neg h1, if_neg h1]
    by_cases h2 : p.vf ≥ b
    · rw [if_pos h2, if_pos h2]
    rw [if_neg h2, if_neg h2, key h2]
  | nogap p q r rest hg h ih =>
    have hcc := List.isChain_cons_cons.1 hc
    have i := ih (fun x hx => hw x (by simp at hx ⊢; tauto)) hcc.2
    rw [coverageSum]
    conv_rhs => rw [coverageSum]
    rw [i]

theorem DenseRel.lossSum_eq {ks : List String} {f t : Option ℚ} {si a b : ℚ} {ps view : List VPoint}
    (h : DenseRel ks f t ps view) : lossSum si a b view = lossSum si a b ps := by
  induction h with
  | nil => rfl
  | single p => rfl
  | gap p q r rest g hg hgp h ih =>
    have e : lossTerm si a b g = 0 := by simp [lossTerm, VPoint.dataLoss, hgp.idx, Dict.get?]
    unfold lossSum at ih ⊢
    simp only [List.map_cons, List.sum_cons] at ih ⊢
    linarith
  | nogap p q r rest hg h ih =>
    unfold lossSum at ih ⊢
    simp only [List.map_cons, List.sum_cons] at ih ⊢
    linarith

/-- the data loss computed on the dense view is that of the original points -/
theorem DenseRel.dataLoss_eq {ks : List String} {a b : ℚ} (hab : a < b) {ps view : List VPoint} {hr fo : Bool} {si : ℚ}
    (h : DenseRel ks (some a) (some b) ps view) (hw : ∀ p ∈ ps, p.vf ≤ p.vt)
    (hc : ps.IsChain (fun p q => p.vt ≤ q.vf)) : dataLossOf view hr fo si a b = dataLossOf ps hr fo si a b := by
  have he : view.isEmpty = ps.isEmpty := by cases h <;> rfl
  unfold dataLossOf coverage
  rw [h.coverageSum_eq hab hw hc, h.lossSum_eq, he]

/-! ## Values -/

/-- bounds for the values of the original points hold for all the points of the view -/
theorem DenseRel.values {ks : List String} {f t : Option ℚ} {ps view : List VPoint} (h : DenseRel ks f t ps view)
    (hl : ∀ p ∈ ps, HasLabels ks p) {k : String} (hk : k ∈ ks) {lo hi : ℚ}
    (hb : ∀ p ∈ ps, ∀ x, p.data.get? k = some x → lo ≤ x ∧ x ≤ hi) :
    ∀ p ∈ view, ∃ x, p.data.get? k = some x ∧ lo ≤ x ∧ x ≤ hi := by
  intro p hp
  rcases h.mem p hp with h1 | ⟨u, hu, v, hv, _, hg⟩
  · obtain ⟨x, hx⟩ := hl p h1 k hk
    exact ⟨x, hx, hb p h1 x hx⟩
  · obtain ⟨x, hx⟩ := hl u hu k hk
    obtain ⟨y, hy⟩ := hl v hv k hk
    refine ⟨_, hg.data k hk x y hx hy, ?_⟩
    have h1 := C42_between u.t x v.t y p.t hg.left hg.right
    have hx' := hb u hu x hx
    have hy' := hb v hv y hy
    exact ⟨le_trans (le_min hx'.1 hy'.1) h1.1, le_trans h1.2 (max_le hx'.2 hy'.2)⟩

theorem DenseRel.hasLabels {ks : List String} {f t : Option ℚ} {ps view : List VPoint} (h : DenseRel ks f t ps view)
    (hl : ∀ p ∈ ps, HasLabels ks p) : ∀ p ∈ view, HasLabels ks p := by
  intro p hp
  rcases h.mem p hp with h1 | ⟨u, hu, v, hv, _, hg⟩
  · exact hl p h1
  · intro k hk
    obtain ⟨x, hx⟩ := hl u hu k hk
    obtain ⟨y, hy⟩ := hl v hv k hk
    exact ⟨_, hg.data k hk x y hx hy⟩

/-- the weighted sum of the values -/
theorem weightedSum_ok {a b : ℚ} {k : String} {view : List VPoint} {g : VPoint → ℚ}
    (h : ∀ p ∈ view, p.data.get? k = some (g p)) :
    weightedSum a b k view = .ok ((view.map (fun p => g p * weightOf a b p)).sum) := by
  induction view with
  | nil => rfl
  | cons p r ih =>
    simp only [weightedSum, h p (by simp), ih (fun x hx => h x (by simp [hx])), List.map_cons, List.sum_cons]

theorem sum_bounds {α : Type} {l : List α} {v w : α → ℚ} {lo hi : ℚ} (hw : ∀ x ∈ l, 0 ≤ w x)
    (hv : ∀ x ∈ l, lo ≤ v x ∧ v x ≤ hi) :
    lo * (l.map w).sum ≤ (l.map (fun x => v x * w x)).sum ∧
      (l.map (fun x => v x * w x)).sum ≤ hi * (l.map w).sum := by
  induction l with
  | nil => simp
  | cons x r ih =>
    obtain ⟨h1, h2⟩ := ih (fun y hy => hw y (by simp [hy])) (fun y hy => hv y (by simp [hy]))
    have hwx := hw x (by simp)
    have hvx := hv x (by simp)
    simp only [List.map_cons, List.sum_cons]
    constructor
    · have := mul_le_mul_of_nonneg_right hvx.1 hwx; linarith
    · have := mul_le_mul_of_nonneg_right hvx.2 hwx; linarith

/-- `avg` on a view with labels and a positive total weight: weighted mean of the values -/
theorem avgView_ok {ks : List String} {a b : ℚ} {view : List VPoint} (hl : ∀ p ∈ view, HasLabels ks p)
    (hpos : 0 < (view.map (weightOf a b)).sum) :
    ∃ d, avgView ks a b view = .ok d ∧ d.keys = ks ∧ ∀ k ∈ ks,
      d.get? k = some ((view.map (fun p => (p.data.get? k).getD 0 * weightOf a b p)).sum /
        (view.map (weightOf a b)).sum) := by
  set tot := (view.map (weightOf a b)).sum with htot
  refine ⟨ks.map (fun k => (k, (view.map (fun p => (p.data.get? k).getD 0 * weightOf a b p)).sum / tot)), ?_,
    by simp [Dict.keys, Function.comp_def], fun k hk => table_get? _ hk⟩
  unfold avgView
  apply perLabelDict_ok
  intro k hk
  rw [weightedSum_ok (g := fun p => (p.data.get? k).getD 0)]
  · simp only [← htot]
    by_cases h1 : tot = 1
    · rw [if_pos h1, h1, div_one]
    · rw [if_neg h1, if_neg (ne_of_gt hpos)]
  · intro p hp
    obtain ⟨v, hv⟩ := hl p hp k hk
    rw [hv]; rfl

/-- the weighted mean is within any bounds of the values -/
theorem avg_bounds {a b : ℚ} {view : List VPoint} {k : String} {lo hi : ℚ} (hw : ∀ x ∈ view, 0 ≤ weightOf a b x)
    (hpos : 0 < (view.map (weightOf a b)).sum)
    (hv : ∀ p ∈ view, ∃ x, p.data.get? k = some x ∧ lo ≤ x ∧ x ≤ hi) :
    lo ≤ (view.map (fun p => (p.data.get? k).getD 0 * weightOf a b p)).sum / (view.map (weightOf a b)).sum ∧
    (view.map (fun p => (p.data.get? k).getD 0 * weightOf a b p)).sum / (view.map (weightOf a b)).sum ≤ hi := by
  have := sum_bounds (v := fun p : VPoint => (p.data.get? k).getD 0) (lo := lo) (hi := hi) hw (by
    intro p hp
    obtain ⟨x, hx, h1, h2⟩ := hv p hp
    simp only [hx, Option.getD_some]
    exact ⟨h1, h2⟩)
  exact ⟨(le_div_iff₀ hpos).2 this.1, (div_le_iff₀ hpos).2 this.2⟩

end Timeseria
