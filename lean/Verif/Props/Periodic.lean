import Verif.Model.Periodic
import Verif.Props.Reconstruct
import Verif.Props.Metrics

/-! # C64, C117-C121: periodic average models -/

namespace Timeseria

/-! ## Averages -/

/-- the values of label `k` of the items that count and have index `i` -/
def valuesAt (limit : Option ℚ) (idx : ℚ → ℕ) (k : String) (l : List Item) (i : ℕ) : List ℚ :=
  (l.filter (fun x => decide (BelowLimit limit x) && decide (idx x.t = i))).map (fun x => valueOf x k)

/-- sums and totals after some more values -/
def plusValues (o : Option (ℚ × ℕ)) (vs : List ℚ) : Option (ℚ × ℕ) :=
  match o, vs with
  | none, [] => none
  | none, v :: r => some (v + r.sum, r.length + 1)
  | some (s, n), vs => some (s + vs.sum, n + vs.length)

theorem lookup_addAt (acc : List (ℕ × ℚ × ℕ)) (i j : ℕ) (v : ℚ) :
    List.lookup j (addAt acc i v) =
      if j = i then plusValues (List.lookup i acc) [v] else List.lookup j acc := by
  induction acc with
  | nil =>
    by_cases e : j = i
    · subst e; simp [addAt, plusValues]
    · have : (j == i) = false := by simpa using e
      simp [addAt, List.lookup_cons, e, this]
  | cons q r ih =>
    obtain ⟨m, s, n⟩ := q
    rw [addAt]
    by_cases hm : m = i
    · subst hm
      rw [if_pos rfl]
      by_cases e : j = m
      · subst e; simp [List.lookup_cons, plusValues]
      · have : (j == m) = false := by simpa using e
        simp [List.lookup_cons, this, e]
    · rw [if_neg hm]
      have h1 : (i == m) = false := by simpa using fun h => hm h.symm
      by_cases e : j = m
      · subst e
        have : ¬ j = i := hm
        simp [List.lookup_cons, this]
      · have h2 : (j == m) = false := by simpa using e
        simp only [List.lookup_cons, h2, h1]
        exact ih

theorem plusValues_cons (o : Option (ℚ × ℕ)) (v : ℚ) (vs : List ℚ) :
    plusValues (plusValues o [v]) vs = plusValues o (v :: vs) := by
  cases o with
  | none => simp [plusValues]; omega
  | some q => obtain ⟨s, n⟩ := q; simp [plusValues]; constructor <;> [ring; omega]

theorem sumLoop_spec {c : PeriodCfg} {limit : Option ℚ} {k : String} {idx : ℚ → ℕ} : ∀ (l : List Item)
    (acc : List (ℕ × ℚ × ℕ)), (∀ x ∈ l, KnownLoss x) → (∀ x ∈ l, CarriesLabels [k] x) →
    (∀ x ∈ l, c.index x.t = .ok (idx x.t)) →
    ∃ acc', sumLoop c limit k l acc = .ok acc' ∧
      ∀ i, List.lookup i acc' = plusValues (List.lookup i acc) (valuesAt limit idx k l i) := by
  intro l
  induction l with
  | nil =>
    intro acc _ _ _
    refine ⟨acc, rfl, fun i => ?_⟩
    cases h : List.lookup i acc with
    | none => simp [valuesAt, plusValues]
    | some q => obtain ⟨s, n⟩ := q; simp [valuesAt, plusValues]
  | cons x r ih =>
    intro acc hk hc hi
    have hr := fun acc => ih acc (fun y hy => hk y (by simp [hy])) (fun y hy => hc y (by simp [hy])) (fun y hy => hi y (by simp [hy]))
    rw [sumLoop, lossReaches_known limit x (hk x (by simp))]
    by_cases hb : BelowLimit limit x
    · simp only [hb, not_true_eq_false, decide_false]
      rw [hi x (by simp)]
      dsimp only
      rw [raw_ok [k] x (hc x (by simp)) k (by simp)]
      dsimp only
      obtain ⟨acc', h1, h2⟩ := hr (addAt acc (idx x.t) (valueOf x k))
      refine ⟨acc', h1, fun i => ?_⟩
      rw [h2 i, lookup_addAt]
      by_cases e : i = idx x.t
      · subst e
        rw [if_pos rfl, plusValues_cons]
        simp [valuesAt, hb]
      · rw [if_neg e]
        have : valuesAt limit idx k (x :: r) i = valuesAt limit idx k r i := by
          unfold valuesAt
          rw [List.filter_cons_of_neg]
          simp [Ne.symm e]
        rw [this]
    · simp only [hb, not_false_eq_true, decide_true]
      obtain ⟨acc', h1, h2⟩ := hr acc
      refine ⟨acc', h1, fun i => ?_⟩
      rw [h2 i]
      have : valuesAt limit idx k (x :: r) i = valuesAt limit idx k r i := by
        unfold valuesAt
        rw [List.filter_cons_of_neg]
        simp [hb]
      rw [this]

theorem lookup_toAverages (acc : List (ℕ × ℚ × ℕ)) (i : ℕ) :
    List.lookup (PKey.int i) (toAverages acc) = (List.lookup i acc).map (fun q => q.1 / (q.2 : ℚ)) := by
  induction acc with
  | nil => rfl
  | cons q r ih =>
    obtain ⟨m, s, n⟩ := q
    unfold toAverages at ih ⊢
    rw [List.map_cons, List.lookup_cons, List.lookup_cons]
    by_cases e : i = m
    · subst e; simp
    · have h1 : (i == m) = false := by simpa using e
      have h2 : (PKey.int i == PKey.int m) = false := by simpa using e
      rw [h1]
      simp only [h2]
      exact ih

/-- the mean of a list of values -/
def meanOf (l : List ℚ) : ℚ := l.sum / (l.length : ℚ)

theorem avgAt_spec {limit : Option ℚ} {k : String} {idx : ℚ → ℕ} {l : List Item} {acc : List (ℕ × ℚ × ℕ)}
    (h : ∀ i, List.lookup i acc = plusValues none (valuesAt limit idx k l i)) (i : ℕ) :
    (valuesAt limit idx k l i = [] → avgAt (toAverages acc) i = .error .keyError) ∧
    (valuesAt limit idx k l i ≠ [] → avgAt (toAverages acc) i = .ok (meanOf (valuesAt limit idx k l i))) := by
  unfold avgAt
  rw [lookup_toAverages, h i]
  cases valuesAt limit idx k l i with
  | nil => simp [plusValues]
  | cons v r => simp [plusValues, meanOf]

/-- **C64 (averages)**: fitting a periodic average reconstructor on a series whose items carry one label
and have known losses gives, for each periodicity index, the mean of the values with that index among the
items below the loss limit, and nothing for the indexes without such items. -/
theorem C64_averages {c : PeriodCfg} {limit : Option ℚ} {k : String} {idx : ℚ → ℕ} {l : List Item}
    (hl : headLabelsR l = .ok [k]) (hk : ∀ x ∈ l, KnownLoss x) (hc : ∀ x ∈ l, CarriesLabels [k] x)
    (hi : ∀ x ∈ l, c.index x.t = .ok (idx x.t)) :
    ∃ a, recFit c limit l = .ok a ∧ ∀ i,
      (valuesAt limit idx k l i = [] → avgAt a i = .error .keyError) ∧
      (valuesAt limit idx k l i ≠ [] → avgAt a i = .ok (meanOf (valuesAt limit idx k l i))) := by
  obtain ⟨acc, h1, h2⟩ := sumLoop_spec (limit := limit) l [] hk hc hi
  refine ⟨toAverages acc, ?_, avgAt_spec h2⟩
  unfold recFit
  rw [hl]
  dsimp only
  rw [h1]

/-- the position in the period: whole resolutions since the epoch, modulo the periodicity -/
def phase (res : ℚ) (p : ℕ) (t : ℚ) : ℕ := (⌊t / res⌋ % (p : ℤ)).toNat

/-- without daylight saving the index is the position in the period -/
theorem C64_index {c : PeriodCfg} (hp : 0 < c.period) (hr : 0 < c.res) {t : ℚ} (ht : 0 ≤ t) (hd : c.dst t = none) :
    c.index t = .ok (phase c.res c.period t) := by
  unfold PeriodCfg.index
  rw [if_neg (by omega), hd]
  obtain ⟨i, h1, _, _, h2⟩ := C39_range t c.res c.period hp hr ht
  rw [h1]
  simp [phase, h2]

theorem meanOf_const {l : List ℚ} {v : ℚ} (hne : l ≠ []) (h : ∀ x ∈ l, x = v) : meanOf l = v := by
  have e : l = List.replicate l.length v := List.eq_replicate_iff.2 ⟨rfl, h⟩
  have hpos : (0 : ℚ) < (l.length : ℚ) := by
    have : 0 < l.length := List.length_pos_iff.2 hne
    exact_mod_cast this
  unfold meanOf
  have : l.sum = (l.length : ℚ) * v := by
    conv_lhs => rw [e]
    rw [List.sum_replicate, nsmul_eq_mul]
  rw [this]
  field_simp

/-- the values of the items below the limit repeat the profile `f` exactly -/
def FollowsProfile (limit : Option ℚ) (idx : ℚ → ℕ) (k : String) (f : ℕ → ℚ) (l : List Item) : Prop :=
  ∀ x ∈ l, BelowLimit limit x → valueOf x k = f (idx x.t)

/-- **C64 (periodic series)**: the averages of an exactly periodic series are its profile. -/
theorem C64_profile {c : PeriodCfg} {limit : Option ℚ} {k : String} {idx : ℚ → ℕ} {l : List Item} {f : ℕ → ℚ}
    (hl : headLabelsR l = .ok [k]) (hk : ∀ x ∈ l, KnownLoss x) (hc : ∀ x ∈ l, CarriesLabels [k] x)
    (hi : ∀ x ∈ l, c.index x.t = .ok (idx x.t)) (hf : FollowsProfile limit idx k f l) :
    ∃ a, recFit c limit l = .ok a ∧ ∀ x ∈ l, BelowLimit limit x → avgAt a (idx x.t) = .ok (f (idx x.t)) := by
  obtain ⟨a, h1, h2⟩ := C64_averages (limit := limit) hl hk hc hi
  refine ⟨a, h1, fun x hx hb => ?_⟩
  have hne : valuesAt limit idx k l (idx x.t) ≠ [] := by
    intro e
    have hm : valueOf x k ∈ valuesAt limit idx k l (idx x.t) :=
      List.mem_map.2 ⟨x, List.mem_filter.2 ⟨hx, by simp [hb]⟩, rfl⟩
    rw [e] at hm
    cases hm
  rw [(h2 _).2 hne, meanOf_const hne]
  intro v hv
  obtain ⟨y, hy, rfl⟩ := List.mem_map.1 hv
  rw [List.mem_filter] at hy
  simp at hy
  rw [hf y hy.1 hy.2.1, hy.2.2]

/-! ## Reconstruction -/

/-- the series carries one label, and the model knows the average of the index of each item: `f` -/
structure Known (m : PRec) (idx : ℚ → ℕ) (f : ℕ → ℚ) (k : String) (l : List Item) : Prop where
  labels : headLabelsR l = .ok [k]
  carries : ∀ (i : ℕ) (x : Item), l[i]? = some x → CarriesLabels [k] x
  index : ∀ (i : ℕ) (x : Item), l[i]? = some x → m.cfg.index x.t = .ok (idx x.t)
  avg : ∀ (i : ℕ) (x : Item), l[i]? = some x → avgAt m.averages (idx x.t) = .ok (f (idx x.t))

theorem avgDiff_ok {m : PRec} {idx : ℚ → ℕ} {f : ℕ → ℚ} {k : String} {x : Item} (h1 : CarriesLabels [k] x)
    (h2 : m.cfg.index x.t = .ok (idx x.t)) (h3 : avgAt m.averages (idx x.t) = .ok (f (idx x.t))) :
    avgDiff m.cfg m.averages k x = .ok (valueOf x k - f (idx x.t)) := by
  unfold avgDiff
  rw [raw_ok [k] x h1 k (by simp)]
  dsimp only
  rw [h2]
  dsimp only
  rw [h3]

/-- the offset of a gap: the mean distance of the two neighbours from their averages -/
def gapShift (idx : ℚ → ℕ) (f : ℕ → ℚ) (k : String) (a b : Item) : ℚ :=
  ((valueOf a k - f (idx a.t)) + (valueOf b k - f (idx b.t))) / 2

theorem periodicPredict_ok {m : PRec} {idx : ℚ → ℕ} {f : ℕ → ℚ} {k : String} {cur : List Item}
    (K : Known m idx f k cur) {g h : ℕ} (hg : 1 ≤ g) (hgh : g ≤ h) (hh : h + 1 < cur.length) {a b : Item}
    (ha : cur[g - 1]? = some a) (hb : cur[h + 1]? = some b) :
    ∃ vs, m.predict cur g h = .ok (.lists [(k, vs)]) ∧ vs.length = h + 1 - g ∧
      ∀ (i : ℕ) (x : Item), g ≤ i → i ≤ h → cur[i]? = some x →
        vs[i - g]? = some (f (idx x.t) + gapShift idx f k a b) := by
  have hw : windowCheck cur.length g h = .ok () := by
    unfold windowCheck
    rw [if_neg (by omega), if_neg (by omega)]
  have c1 : ((g : Int) - 1) = ((g - 1 : ℕ) : Int) := by omega
  have c2 : ((h : Int) + 1) = ((h + 1 : ℕ) : Int) := by omega
  have hoff : gapOffset m k cur g h = .ok (gapShift idx f k a b) := by
    unfold gapOffset
    rw [c1, c2, pyGet_nat ha, pyGet_nat hb]
    dsimp only
    rw [avgDiff_ok (K.carries _ _ ha) (K.index _ _ ha) (K.avg _ _ ha)]
    dsimp only
    rw [avgDiff_ok (K.carries _ _ hb) (K.index _ _ hb) (K.avg _ _ hb)]
    rfl
  have key : ∀ i ∈ List.range' g (h + 1 - g), gapValue m (gapShift idx f k a b) cur i =
      .ok (((cur[i]?).map (fun x => f (idx x.t) + gapShift idx f k a b)).getD 0) := by
    intro i hi
    rw [List.mem_range'_1] at hi
    have hx : cur[i]? = some cur[i] := List.getElem?_eq_getElem (by omega)
    generalize cur[i] = x at hx
    unfold gapValue avgPlus
    rw [hx]
    dsimp only
    rw [K.index _ _ hx]
    dsimp only
    rw [K.avg _ _ hx]
    rfl
  refine ⟨(List.range' g (h + 1 - g)).map
    (fun i => ((cur[i]?).map (fun x => f (idx x.t) + gapShift idx f k a b)).getD 0), ?_, ?_, ?_⟩
  · unfold PRec.predict
    rw [hw, K.labels]
    dsimp only
    rw [hoff]
    dsimp only
    rw [mapE_ok key]
  · simp
  · intro i x h1 h2 hx
    rw [List.getElem?_map, List.getElem?_range' (by omega)]
    simp only [Option.map_some]
    rw [show g + 1 * (i - g) = i by omega, hx]
    rfl

theorem PRec.refused (m : PRec) (cur : List Item) (g h : ℕ) (hb : g = 0 ∨ cur.length ≤ h + 1) :
    m.predict cur g h = .error .valueError := by
  have : windowCheck cur.length g h = .error .valueError := by
    unfold windowCheck
    split
    · rfl
    · rw [if_pos (by omega)]
  unfold PRec.predict
  rw [this]

theorem headLabelsR_set {cur : List Item} {j : ℕ} (hj : 1 ≤ j) (y : Item) :
    headLabelsR (cur.set j y) = headLabelsR cur := by
  cases cur with
  | nil => rfl
  | cons a r =>
    obtain ⟨q, rfl⟩ : ∃ q, j = q + 1 := ⟨j - 1, by omega⟩
    rfl

theorem fillLossGap_lists_ok {k : String} {vs : List ℚ} {g : ℕ} (hg : 1 ≤ g) : ∀ (n j : ℕ) (cur : List Item),
    headLabelsR cur = .ok [k] → g ≤ j → j + n ≤ cur.length → j - g + n ≤ vs.length →
    (fillLossGap (.lists [(k, vs)]) g n j cur).2 = .ok () := by
  intro n
  induction n with
  | zero => intro j cur _ _ _ _; rfl
  | succ n ih =>
    intro j cur hl h0 h1 h2
    rw [fillLossGap]
    unfold predictedAt
    dsimp only
    rw [hl]
    dsimp only
    have : listEntry [(k, vs)] (j - g) k = .ok (vs[j - g]'(by omega)) := by
      unfold listEntry
      have : Dict.get? [(k, vs)] k = some vs := by simp [Dict.get?]
      rw [this]
      dsimp only
      rw [List.getElem?_eq_getElem (by omega : j - g < vs.length)]
    rw [perLabelDict, this]
    dsimp only
    rw [perLabelDict]
    dsimp only
    rw [List.getElem?_eq_getElem (by omega : j < cur.length)]
    dsimp only
    exact ih _ _ (by rw [headLabelsR_set (by omega)]; exact hl) (by omega) (by rw [List.length_set]; omega) (by omega)

theorem gives_single {k : String} {vs : List ℚ} {n : ℕ} {d : Dict ℚ} {ks : Except PyErr (List String)}
    (hks : ks = .ok [k]) (h : Gives (.lists [(k, vs)]) ks n d) : ∃ v, d = [(k, v)] ∧ vs[n]? = some v := by
  obtain ⟨h1, h2⟩ := h
  rw [hks] at h1
  simp [Dict.keys] at h1
  cases d with
  | nil => simp at h1
  | cons e r =>
    obtain ⟨k', v⟩ := e
    simp at h1
    obtain ⟨rfl, rfl⟩ := h1
    obtain ⟨l, e1, e2⟩ := h2 k v (by simp [Dict.get?])
    simp [Dict.get?] at e1
    subst e1
    exact ⟨v, rfl, e2⟩

theorem known_of {m : PRec} {idx : ℚ → ℕ} {f : ℕ → ℚ} {k : String} {cur cur' : List Item} (K : Known m idx f k cur)
    (hl : headLabelsR cur' = .ok [k])
    (h : ∀ (i : ℕ) (y : Item), cur'[i]? = some y → ∃ x, cur[i]? = some x ∧ y.t = x.t ∧ CarriesLabels [k] y) :
    Known m idx f k cur' where
  labels := hl
  carries := fun i y hy => by obtain ⟨_, _, _, h3⟩ := h i y hy; exact h3
  index := fun i y hy => by
    obtain ⟨x, h1, h2, _⟩ := h i y hy
    rw [h2]; exact K.index i x h1
  avg := fun i y hy => by
    obtain ⟨x, h1, h2, _⟩ := h i y hy
    rw [h2]; exact K.avg i x h1

theorem periodicGap_ok {m : PRec} {idx : ℚ → ℕ} {f : ℕ → ℚ} {k : String} {cur : List Item}
    (K : Known m idx f k cur) {g h : ℕ} (hg : 1 ≤ g) (hgh : g ≤ h) (hh : h + 1 < cur.length) :
    ∃ cur', reconstructGap m.predict cur g h = (cur', .ok ()) ∧ cur'.length = cur.length ∧
      Known m idx f k cur' ∧ ∀ j : ℕ, (j < g ∨ h < j) → cur'[j]? = cur[j]? := by
  have ha : cur[g - 1]? = some cur[g - 1] := List.getElem?_eq_getElem (by omega)
  have hb : cur[h + 1]? = some cur[h + 1] := List.getElem?_eq_getElem (by omega)
  obtain ⟨vs, h1, h2, h3⟩ := periodicPredict_ok K hg hgh hh ha hb
  have hok : (fillLossGap (.lists [(k, vs)]) g (h + 1 - g) g cur).2 = .ok () :=
    fillLossGap_lists_ok hg _ _ _ K.labels (le_refl _) (by omega) (by omega)
  have hr : reconstructGap m.predict cur g h = ((fillLossGap (.lists [(k, vs)]) g (h + 1 - g) g cur).1, .ok ()) := by
    unfold reconstructGap
    rw [h1]
    dsimp only
    rw [← hok]
  generalize (fillLossGap (.lists [(k, vs)]) g (h + 1 - g) g cur).1 = cur' at hr
  obtain ⟨p, hp, e1, e2, e3⟩ := reconstructGap_spec hgh hr
  have hp' : p = .lists [(k, vs)] := by rw [h1] at hp; simpa using hp.symm
  subst hp'
  have hhead : ∀ j : ℕ, headLabelsR (cur'.take j ++ cur.drop j) = .ok [k] := by
    intro j
    rw [← K.labels]
    have := e2 0 (by omega)
    cases cur with
    | nil => simp at hh
    | cons u r =>
      cases cur' with
      | nil => simp at e1
      | cons u' r' =>
        simp at this
        subst this
        cases j <;> rfl
  have hl' : headLabelsR cur' = .ok [k] := by
    have := hhead cur'.length
    rwa [List.take_length, e1, List.drop_length, List.append_nil] at this
  refine ⟨cur', hr, e1, known_of K hl' ?_, e2⟩
  intro i y hy
  by_cases hi : g ≤ i ∧ i ≤ h
  · obtain ⟨x, d, f1, f2, f3⟩ := e3 i hi.1 hi.2
    rw [hy] at f2
    simp at f2
    subst f2
    refine ⟨x, f1, rfl, ?_⟩
    obtain ⟨v, rfl, _⟩ := gives_single (hhead i) f3
    exact ⟨[(k, v)], rfl, fun k' hk' => ⟨v, by simp at hk'; subst hk'; simp [Dict.get?]⟩⟩
  · rw [e2 i (by omega)] at hy
    exact ⟨y, hy, rfl, K.carries i y hy⟩

theorem innerPredictor_periodic (m : PRec) (idx : ℚ → ℕ) (f : ℕ → ℚ) (k : String) :
    InnerPredictor m.predict (Known m idx f k) where
  refused := m.refused
  gap := fun K _ _ h1 h2 h3 => periodicGap_ok K h1 h2 h3
  mark := by
    intro cur K i
    have hback : ∀ (j : ℕ) (y : Item), (cur.modify i (fun x => x.markRec 0))[j]? = some y →
        ∃ x, cur[j]? = some x ∧ y.t = x.t ∧ y.data = x.data := by
      intro j y hy
      rw [List.getElem?_modify] at hy
      cases hc : cur[j]? with
      | none => rw [hc] at hy; simp at hy
      | some x =>
        rw [hc] at hy
        simp at hy
        refine ⟨x, rfl, ?_⟩
        split at hy <;> subst hy <;> exact ⟨rfl, rfl⟩
    refine known_of K ?_ ?_
    · rw [← K.labels]
      cases cur with
      | nil => cases i <;> simp
      | cons u r => cases i <;> simp [headLabelsR, Item.markRec]
    · intro j y hy
      obtain ⟨x, h1, h2, h3⟩ := hback j y hy
      refine ⟨x, h1, h2, ?_⟩
      obtain ⟨d, e1, e2⟩ := K.carries j x h1
      exact ⟨d, by rw [h3]; exact e1, e2⟩
  loss := by
    intro cur K i x hx th
    obtain ⟨d, hd, _⟩ := K.carries i x hx
    unfold lossyE
    rw [hd]
    dsimp only
    split
    · exact ⟨_, rfl⟩
    · exact ⟨_, rfl⟩

/-- **C64 (outcome)**: reconstructing by periodic averages a series whose indexes are all known to the
model succeeds exactly if neither the first nor the last item is lossy. -/
theorem C64_outcome {m : PRec} {idx : ℚ → ℕ} {f : ℕ → ℚ} {k : String} {l : List Item} (K : Known m idx f k l) (th : ℚ) :
    (LossyBorder th l → (reconstructInplace m.predict th l).2 = .error .valueError) ∧
    (¬ LossyBorder th l → (reconstructInplace m.predict th l).2 = .ok ()) := by
  have hpos : 0 < l.length := by
    cases l with
    | nil => have := K.labels; simp [headLabelsR] at this
    | cons a r => simp
  exact innerLoop_outcome (innerPredictor_periodic m idx f k) l.length 0 none l K hpos (by omega)
    (by intro g hg; simp at hg) (fun _ h => by omega) (fun h => by omega)

/-- **C64 (values)**: after a reconstruction by periodic averages every item of a gap has the average of its
index plus the mean distance of the two neighbours of the gap from their own averages. -/
theorem C64_values {m : PRec} {idx : ℚ → ℕ} {f : ℕ → ℚ} {k : String} {l l' : List Item} (K : Known m idx f k l)
    {th : ℚ} (hr : reconstructInplace m.predict th l = (l', .ok ())) {g h i : ℕ} (hg : IsGap th l g h)
    (h1 : g ≤ i) (h2 : i ≤ h) :
    ∃ a b x y, 0 < g ∧ l[g - 1]? = some a ∧ l[h + 1]? = some b ∧ l[i]? = some x ∧ l'[i]? = some y ∧
      y.data = some (.dict [(k, f (idx x.t) + gapShift idx f k a b)]) := by
  obtain ⟨p, hp, hf⟩ := C62_data hr hg
  obtain ⟨hlen, hkept⟩ := C62_items hr
  have hl0 : ∃ u, l[0]? = some u ∧ ¬ Lossy th u := by
    have hnb : ¬ LossyBorder th l := by
      intro hB
      have := (C64_outcome K th).1 hB
      rw [hr] at this
      cases this
    have hpos : 0 < l.length := by
      cases l with
      | nil => have := K.labels; simp [headLabelsR] at this
      | cons a r => simp
    have h0 : l[0]? = some l[0] := List.getElem?_eq_getElem hpos
    exact ⟨_, h0, fun hh => hnb (Or.inl ⟨_, h0, hh⟩)⟩
  obtain ⟨u, hu, hul⟩ := hl0
  have hlab : ∀ j, headLabelsR (l'.take j ++ l.drop j) = .ok [k] := fun j => by
    rw [C62_labels hr hu hul, K.labels]
  generalize hc : l'.take g ++ l.drop g = cur at hp
  have hclen : cur.length = l.length := by rw [← hc]; simp; omega
  have hin : 1 ≤ g ∧ h + 1 < cur.length := by
    by_contra hne
    rw [m.refused cur g h (by omega)] at hp
    cases hp
  have clow : ∀ j : ℕ, j < g → cur[j]? = l'[j]? := by
    intro j hj
    rw [← hc, List.getElem?_append_left (by simp; omega), List.getElem?_take, if_pos hj]
  have chigh : ∀ j : ℕ, g ≤ j → cur[j]? = l[j]? := by
    intro j hj
    rw [← hc, List.getElem?_append_right (by simp; omega), List.getElem?_drop]
    congr 1
    simp
    omega
  have ha : l[g - 1]? = some l[g - 1] := List.getElem?_eq_getElem (by omega)
  generalize l[g - 1] = a at ha
  have hanl : ¬ Lossy th a := hg.before a (by omega) ha
  obtain ⟨a', ea, ka⟩ := hkept _ _ ha
  have ha' : cur[g - 1]? = some a' := by rw [clow _ (by omega), ea]
  have hb : l[h + 1]? = some l[h + 1] := List.getElem?_eq_getElem (by omega)
  generalize l[h + 1] = b at hb
  have hb' : cur[h + 1]? = some b := by rw [chigh _ (by omega), hb]
  have hx : l[i]? = some l[i] := List.getElem?_eq_getElem (by omega)
  generalize l[i] = x at hx
  obtain ⟨y, d, f1, f2, f3⟩ := hf i h1 h2
  -- the prediction
  have hw : windowCheck cur.length g h = .ok () := by
    unfold windowCheck
    rw [if_neg (by omega), if_neg (by omega)]
  have hdat : valueOf a' k = valueOf a k := by unfold valueOf; rw [ka.data hanl]
  have hca' : CarriesLabels [k] a' := by
    obtain ⟨d, e1, e2⟩ := K.carries _ _ ha
    exact ⟨d, by rw [ka.data hanl]; exact e1, e2⟩
  have c1 : ((g : Int) - 1) = ((g - 1 : ℕ) : Int) := by omega
  have c2 : ((h : Int) + 1) = ((h + 1 : ℕ) : Int) := by omega
  have hoff : gapOffset m k cur g h = .ok (gapShift idx f k a b) := by
    unfold gapOffset
    rw [c1, c2, pyGet_nat ha', pyGet_nat hb']
    dsimp only
    rw [avgDiff_ok hca' (by rw [ka.t]; exact K.index _ _ ha) (by rw [ka.t]; exact K.avg _ _ ha)]
    dsimp only
    rw [avgDiff_ok (K.carries _ _ hb) (K.index _ _ hb) (K.avg _ _ hb), hdat, ka.t]
    rfl
  have hlabc : headLabelsR cur = .ok [k] := by rw [← hc]; exact hlab g
  unfold PRec.predict at hp
  rw [hw, hlabc] at hp
  dsimp only at hp
  rw [hoff] at hp
  dsimp only at hp
  split at hp
  · cases hp
  rename_i vs hvs
  simp at hp
  subst hp
  obtain ⟨v, rfl, hv⟩ := gives_single (hlab i) f3
  refine ⟨a, b, x, y, by omega, ha, hb, hx, f1, ?_⟩
  rw [f2]
  have F := mapE_ok_inv hvs
  have hi : i - g < vs.length := (List.getElem?_eq_some_iff.1 hv).1
  have e := List.Forall₂.get F (i := i - g) (by simp; omega) hi
  simp only [List.get_eq_getElem, List.getElem_range'] at e
  rw [show g + 1 * (i - g) = i by omega] at e
  have f4 : vs[i - g] = v := by
    rw [List.getElem?_eq_getElem hi] at hv
    simpa using hv
  rw [f4] at e
  unfold gapValue avgPlus at e
  rw [chigh i h1, hx] at e
  dsimp only at e
  rw [K.index _ _ hx] at e
  dsimp only at e
  rw [K.avg _ _ hx] at e
  simp at e
  rw [e]

theorem gap_left {th : ℚ} {l : List Item} : ∀ (i : ℕ) (x : Item), l[i]? = some x → Lossy th x →
    ∃ g, g ≤ i ∧ (∀ j, g ≤ j → j ≤ i → ∃ x, l[j]? = some x ∧ Lossy th x) ∧
      ∀ x, 0 < g → l[g - 1]? = some x → ¬ Lossy th x := by
  intro i
  induction i with
  | zero =>
    intro x hx hl
    refine ⟨0, le_refl _, ?_, fun x h => absurd h (by omega)⟩
    intro j _ hj
    obtain rfl : j = 0 := by omega
    exact ⟨x, hx, hl⟩
  | succ i ih =>
    intro x hx hl
    have hi : i < l.length := by have := (List.getElem?_eq_some_iff.1 hx).1; omega
    have hy : l[i]? = some l[i] := List.getElem?_eq_getElem hi
    generalize l[i] = y at hy
    by_cases hyl : Lossy th y
    · obtain ⟨g, h1, h2, h3⟩ := ih y hy hyl
      refine ⟨g, by omega, ?_, h3⟩
      intro j a b
      by_cases e : j = i + 1
      · subst e; exact ⟨x, hx, hl⟩
      · exact h2 j a (by omega)
    · refine ⟨i + 1, le_refl _, ?_, ?_⟩
      · intro j a b
        obtain rfl : j = i + 1 := by omega
        exact ⟨x, hx, hl⟩
      · intro z _ hz
        simp at hz
        rw [hy] at hz
        simp at hz
        subst hz
        exact hyl

theorem gap_right {th : ℚ} {l : List Item} : ∀ (n i : ℕ) (x : Item), l.length - i = n → l[i]? = some x → Lossy th x →
    ∃ h, i ≤ h ∧ (∀ j, i ≤ j → j ≤ h → ∃ x, l[j]? = some x ∧ Lossy th x) ∧
      ∀ x, l[h + 1]? = some x → ¬ Lossy th x := by
  intro n
  induction n with
  | zero =>
    intro i x hn hx hl
    have := (List.getElem?_eq_some_iff.1 hx).1
    omega
  | succ n ih =>
    intro i x hn hx hl
    have single : ∀ j, i ≤ j → j ≤ i → ∃ x, l[j]? = some x ∧ Lossy th x := by
      intro j a b
      obtain rfl : j = i := by omega
      exact ⟨x, hx, hl⟩
    cases hy : l[i + 1]? with
    | none => exact ⟨i, le_refl _, single, fun z hz => by rw [hy] at hz; cases hz⟩
    | some y =>
      by_cases hyl : Lossy th y
      · obtain ⟨h, h1, h2, h3⟩ := ih (i + 1) y (by omega) hy hyl
        refine ⟨h, by omega, ?_, h3⟩
        intro j a b
        by_cases e : j = i
        · subst e; exact ⟨x, hx, hl⟩
        · exact h2 j (by omega) b
      · refine ⟨i, le_refl _, single, fun z hz => ?_⟩
        rw [hy] at hz
        simp at hz
        subst hz
        exact hyl

/-- an item that is lossy is in some gap -/
theorem exists_gap {th : ℚ} {l : List Item} {i : ℕ} {x : Item} (hx : l[i]? = some x) (hl : Lossy th x) :
    ∃ g h, IsGap th l g h ∧ g ≤ i ∧ i ≤ h := by
  obtain ⟨g, a1, a2, a3⟩ := gap_left i x hx hl
  obtain ⟨h, b1, b2, b3⟩ := gap_right _ i x rfl hx hl
  refine ⟨g, h, ⟨by omega, ?_, a3, b3⟩, a1, b1⟩
  intro j c1 c2
  by_cases e : j ≤ i
  · exact a2 j c1 e
  · exact b2 j (by omega) c2

/-- **C64 (periodic series plus a constant)**: a series that is the profile `f` of the model plus a
constant outside its lossy items is that, everywhere, after the reconstruction. -/
theorem C64_restored {m : PRec} {idx : ℚ → ℕ} {f : ℕ → ℚ} {k : String} {l l' : List Item} (K : Known m idx f k l)
    {th c : ℚ} (hv : ∀ x ∈ l, ¬ Lossy th x → valueOf x k = f (idx x.t) + c)
    (hr : reconstructInplace m.predict th l = (l', .ok ())) :
    l'.length = l.length ∧ ∀ (i : ℕ) (y : Item), l'[i]? = some y → valueOf y k = f (idx y.t) + c := by
  obtain ⟨hlen, hkept⟩ := C62_items hr
  refine ⟨hlen, fun i y hy => ?_⟩
  have hi : i < l.length := by rw [← hlen]; exact (List.getElem?_eq_some_iff.1 hy).1
  have hx : l[i]? = some l[i] := List.getElem?_eq_getElem hi
  generalize l[i] = x at hx
  obtain ⟨y', e1, e2⟩ := hkept i x hx
  rw [hy] at e1; simp at e1; subst e1
  by_cases hL : Lossy th x
  · obtain ⟨g, h, hg, h1, h2⟩ := exists_gap hx hL
    obtain ⟨a, b, x', y', p, ha, hb, hx', hy', hd⟩ := C64_values K hr hg h1 h2
    rw [hx] at hx'; simp at hx'; subst hx'
    rw [hy] at hy'; simp at hy'; subst hy'
    have va := hv a (List.mem_of_getElem? ha) (hg.before a p ha)
    have vb := hv b (List.mem_of_getElem? hb) (hg.after b hb)
    have : gapShift idx f k a b = c := by unfold gapShift; rw [va, vb]; ring
    rw [this] at hd
    rw [e2.t]
    unfold valueOf
    rw [hd]
    simp [Dict.get?]
  · have : valueOf y k = valueOf x k := by unfold valueOf; rw [e2.data hL]
    rw [this, e2.t]
    exact hv x (List.mem_of_getElem? hx) hL

/-! ### A concrete case: period 2, profile 1, 5, fitted on four items and applied to a series shifted by 10 -/

def evenOdd : ℕ → ℚ := fun i => if i % 2 = 0 then 1 else 5

def twoStep : PeriodCfg := ⟨3600, 2, fun _ => none⟩

def evenOddSeries (c : ℚ) (n : ℕ) : List Item := (List.range n).map (fun i => hourPoint i (evenOdd i + c) 0)

example : (recFit twoStep (some 1) (evenOddSeries 0 4)) = .ok [(.int 0, 1), (.int 1, 5)] := by decide +kernel

/-- the shifted series with two lossy items -/
def shiftedGap : List Item :=
  [hourPoint 0 11 0, hourPoint 1 0 1, hourPoint 2 0 1, hourPoint 3 15 0]

example : (reconstructInplace (PRec.predict ⟨twoStep, [(.int 0, 1), (.int 1, 5)]⟩) 1 shiftedGap).1.map (fun x => valueOf x "v") =
    [11, 15, 11, 15] := by decide +kernel

example : Known ⟨twoStep, [(.int 0, 1), (.int 1, 5)]⟩ (phase 3600 2) evenOdd "v" shiftedGap := by
  refine ⟨by decide +kernel, ?_, ?_, ?_⟩ <;> intro i x hx <;>
    have hi : i < 4 := (List.getElem?_eq_some_iff.1 hx).1 <;>
    interval_cases i <;> simp [shiftedGap, hourPoint, mkPoint] at hx <;> subst hx
  · exact ⟨_, rfl, by simp [Dict.get?]⟩
  · exact ⟨_, rfl, by simp [Dict.get?]⟩
  · exact ⟨_, rfl, by simp [Dict.get?]⟩
  · exact ⟨_, rfl, by simp [Dict.get?]⟩
  all_goals decide +kernel

end Timeseria
