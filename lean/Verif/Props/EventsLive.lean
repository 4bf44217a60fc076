import Verif.Model.EventsLive
import Verif.Props.Events
import Verif.Props.Heap
import Verif.Props.AnomalyClaims
/-!
C329: in-place and returning variants of mark_events agree.
C330: a failed in-place mark_events leaves the series as it was.
C331: a detection shares nothing with the series examined.
-/
namespace Timeseria

/-! ## The indexes with the marks of the items seen so far -/

/-- the first `k` items have a mark -/
def marked (ds : List Idx) (m : List Bool) (k : ℕ) : List Idx :=
  ds.mapIdx (fun j d => if j < k then d.set eventKey (eventVal ((m[j]?).getD false)) else d)

theorem dict_set_set {α : Type} (d : Dict α) (k : String) (v w : α) : (d.set k v).set k w = d.set k w := by
  induction d with
  | nil => simp [Dict.set]
  | cons p r ih =>
    obtain ⟨k', v'⟩ := p
    by_cases h : k' = k
    · simp [Dict.set, h]
    · simp only [Dict.set, h, if_false]
      rw [ih]

theorem marked_get (ds : List Idx) (m : List Bool) (k j : ℕ) :
    (marked ds m k)[j]? = (ds[j]?).map (fun d => if j < k then d.set eventKey (eventVal ((m[j]?).getD false)) else d) := by
  unfold marked
  rw [List.getElem?_mapIdx]

theorem marked_length (ds : List Idx) (m : List Bool) (k : ℕ) : (marked ds m k).length = ds.length := by
  simp [marked]

theorem markRange_get (lo hi : ℕ) (m : List Bool) (j : ℕ) :
    (markRange lo hi m)[j]? = (m[j]?).map (fun b => b || (decide (lo ≤ j) && decide (j < hi))) := by
  unfold markRange
  rw [List.getElem?_mapIdx]

theorem markRange_length (lo hi : ℕ) (m : List Bool) : (markRange lo hi m).length = m.length := by simp [markRange]

/-- setting one mark -/
theorem marked_modify_one {ds : List Idx} {m : List Bool} {k s : ℕ} (hs : s < k) (hm : s < m.length) :
    (marked ds m k).modify s (fun d => d.set eventKey (some 1)) = marked ds (markRange s (s + 1) m) k := by
  apply List.ext_getElem?
  intro j
  rw [List.getElem?_modify, marked_get, marked_get, markRange_get]
  cases hd : ds[j]? with
  | none => rfl
  | some d =>
    simp only [Option.map_some, Option.map_eq_map]
    by_cases hj : s = j
    · subst hj
      simp only [if_true, hs, dict_set_set, List.getElem?_eq_getElem hm, Option.map_some, Option.getD_some, le_refl, decide_true, Nat.lt_succ_self, Bool.and_true, Bool.or_true]
      rfl
    · rw [if_neg hj]
      congr 2
      cases m[j]? with
      | none => rfl
      | some b =>
        have : (decide (s ≤ j) && decide (j < s + 1)) = false := by
          rw [Bool.and_eq_false_iff]
          by_cases h : s ≤ j
          · right; simp; omega
          · left; simp; omega
        simp [this]

theorem markRange_join (s c : ℕ) (m : List Bool) : markRange (s + 1) (s + 1 + c) (markRange s (s + 1) m) = markRange s (s + (c + 1)) m := by
  apply List.ext_getElem?
  intro j
  rw [markRange_get, markRange_get, markRange_get, Option.map_map]
  congr 1
  funext b
  simp only [Function.comp]
  rw [Bool.or_assoc]
  congr 1
  by_cases h1 : s ≤ j <;> by_cases h2 : j < s + 1 <;> by_cases h3 : j < s + 1 + c <;> by_cases h4 : s + 1 ≤ j <;> simp [h1, h2, h3, h4] <;> omega

theorem markRange_empty (lo hi : ℕ) (m : List Bool) (h : hi ≤ lo) : markRange lo hi m = m := by
  apply List.ext_getElem?
  intro j
  rw [markRange_get]
  cases m[j]? with
  | none => rfl
  | some b =>
    by_cases h1 : lo ≤ j
    · have : ¬ j < hi := by omega
      simp [this]
    · simp [h1]

theorem markLive_ok {ds : List Idx} {k : ℕ} (hk : k ≤ ds.length) :
    ∀ (c : ℕ) (m : List Bool) (s : ℕ), s + c ≤ k → k ≤ m.length → markLive (marked ds m k) s c = (marked ds (markRange s (s + c) m) k, .ok ()) := by
  intro c
  induction c with
  | zero => intro m s _ _; rw [markRange_empty _ _ _ (by omega)]; rfl
  | succ c ih =>
    intro m s h1 h2
    unfold markLive
    rw [if_pos (by rw [marked_length]; omega), marked_modify_one (by omega) (by omega), ih _ _ (by omega) (by rw [markRange_length]; exact h2), markRange_join]

theorem markLive_over {ds : List Idx} :
    ∀ (c : ℕ) (m : List Bool) (s : ℕ), s + c ≤ ds.length → ds.length ≤ m.length →
      markLive (marked ds m ds.length) s (c + 1) = (marked ds (markRange s (s + (c + 1)) m) ds.length, if s + c < ds.length then .ok () else .error .indexError) := by
  intro c
  induction c with
  | zero =>
    intro m s h1 h2
    by_cases h : s < ds.length
    · rw [markLive_ok (le_refl _) _ _ _ (by omega) h2, if_pos (by omega)]
    · unfold markLive
      rw [if_neg (by rw [marked_length]; exact h), if_neg (by omega)]
      congr 1
      apply List.ext_getElem?
      intro j
      rw [marked_get, marked_get]
      cases hd : ds[j]? with
      | none => rfl
      | some d =>
        have hj : j < ds.length := (List.getElem?_eq_some_iff.1 hd).1
        rw [markRange_get]
        have : ¬ s ≤ j := by omega
        cases m[j]? <;> simp [this]
  | succ c ih =>
    intro m s h1 h2
    unfold markLive
    rw [if_pos (by rw [marked_length]; omega), marked_modify_one (by omega) (by omega), ih _ _ (by omega) (by rw [markRange_length]; exact h2), markRange_join]
    congr 1
    have : s + 1 + c = s + (c + 1) := by omega
    rw [this]

/-! ## Reading the anomaly indexes -/

theorem anomalyIn_set (d : Idx) (v : Option ℚ) : anomalyIn (d.set eventKey v) = anomalyIn d := by
  unfold anomalyIn
  rw [Dict.get?_set, if_neg (by decide)]

/-- the first `a.length` items have the anomaly indexes `a` -/
def Readable (ds : List Idx) (a : List ℚ) : Prop := ∀ (j : ℕ) (v : ℚ), a[j]? = some v → ∃ d, ds[j]? = some d ∧ anomalyIn d = .ok v

theorem Readable.length_le {ds : List Idx} {a : List ℚ} (h : Readable ds a) : a.length ≤ ds.length := by
  by_contra hn
  obtain ⟨d, hd, _⟩ := h (a.length - 1) (a[a.length - 1]'(by omega)) (List.getElem?_eq_getElem (by omega))
  have := (List.getElem?_eq_some_iff.1 hd).1
  omega

theorem readAnomaly_marked {ds : List Idx} {a : List ℚ} (h : Readable ds a) (m : List Bool) (k j : ℕ) (v : ℚ) (hj : a[j]? = some v) :
    readAnomaly (marked ds m k) j = .ok v := by
  obtain ⟨d, hd, hv⟩ := h j v hj
  unfold readAnomaly idxAt
  rw [marked_get, hd]
  simp only [Option.map_some]
  split_ifs
  · rw [anomalyIn_set]; exact hv
  · exact hv

theorem gapLoop_eq {ds : List Idx} {a : List ℚ} (h : Readable ds a) (th : ℚ) (m : List Bool) (k : ℕ) :
    ∀ (c j : ℕ) (b : Bool), j + c ≤ a.length →
      gapLoop th (marked ds m k) j c b = .ok (b && (List.range' j c).all (fun p => !anomalousAt th a p)) := by
  intro c
  induction c with
  | zero => intro j b _; simp [gapLoop]
  | succ c ih =>
    intro j b hj
    unfold gapLoop
    have hv : a[j]? = some (a[j]'(by omega)) := List.getElem?_eq_getElem (by omega)
    rw [readAnomaly_marked h m k j _ hv]
    dsimp only
    rw [ih _ _ (by omega), List.range'_succ, List.all_cons]
    congr 1
    have : anomalousAt th a j = decide (th ≤ a[j]'(by omega)) := by unfold anomalousAt; rw [hv]
    rw [this]
    by_cases hc : th ≤ a[j]'(by omega)
    · simp [hc]
    · simp [hc]

theorem gap_eq {th : ℚ} {a : List ℚ} (g i : ℕ) : (List.range' (i - g) (i + 1 - (i - g))).all (fun p => !anomalousAt th a p) = gapExceeded th a g i := by
  rw [Bool.eq_iff_iff]
  unfold gapExceeded
  rw [List.all_eq_true, List.all_eq_true]
  constructor
  · intro h j hj
    rw [List.mem_range] at hj
    by_cases hg : j < i - g
    · simp [hg]
    · have := h j (by rw [List.mem_range'_1]; omega)
      simp only [Bool.or_eq_true]; exact Or.inr this
  · intro h j hj
    rw [List.mem_range'_1] at hj
    have := h j (by rw [List.mem_range]; omega)
    simp only [Bool.or_eq_true, decide_eq_true_eq] at this
    rcases this with h' | h'
    · omega
    · exact h'

/-! ## The loop -/

/-- the state of the loop before the item `i` -/
structure EvOk (n i : ℕ) (st : EvState) : Prop where
  len : st.marks.length = n
  later : ∀ j, i ≤ j → (st.marks[j]?).getD false = false
  before : ∀ s, st.start = some s → s < i

theorem evStep_ok {th : ℚ} {minP : Int} {g i : ℕ} {a : List ℚ} {st : EvState} {n : ℕ} (h : EvOk n i st) : EvOk n (i + 1) (evStep th minP g a st i) := by
  unfold evStep
  split
  · exact ⟨h.len, fun j hj => h.later j (by omega), fun s hs => by cases hs; omega⟩
  · exact ⟨h.len, fun j hj => h.later j (by omega), fun s hs => by have := h.before s hs; omega⟩
  · exact ⟨h.len, fun j hj => h.later j (by omega), fun s hs => by have := h.before s hs; omega⟩
  · rename_i s _ hs
    split_ifs
    · refine ⟨?_, ?_, ?_⟩
      · show (closeEvent minP g i s st.marks).length = n
        unfold closeEvent
        split_ifs
        · exact h.len
        · rw [markRange_length]; exact h.len
      · intro j hj
        show ((closeEvent minP g i s st.marks)[j]?).getD false = false
        unfold closeEvent
        split_ifs
        · exact h.later j (by omega)
        · rw [markRange_get]
          have h1 := h.later j (by omega)
          have h2 : ¬ j < i - g := by omega
          cases hm : st.marks[j]? with
          | none => rfl
          | some b => rw [hm] at h1; simp only [Option.getD_some] at h1; simp [h1, h2]
      · intro s' hs'; cases hs'
    · exact ⟨h.len, fun j hj => h.later j (by omega), fun s hs => by have := h.before s hs; omega⟩

theorem marked_next {ds : List Idx} {m : List Bool} {i : ℕ} (hm : (m[i]?).getD false = false) :
    (marked ds m i).modify i (fun d => d.set eventKey (some 0)) = marked ds m (i + 1) := by
  apply List.ext_getElem?
  intro j
  rw [List.getElem?_modify, marked_get, marked_get]
  cases ds[j]? with
  | none => rfl
  | some d =>
    simp only [Option.map_some, Option.map_eq_map]
    by_cases hj : i = j
    · subst hj
      simp only [lt_irrefl, if_false, if_true, Nat.lt_succ_self, hm]
      rfl
    · rw [if_neg hj]
      have : (j < i) ↔ (j < i + 1) := by omega
      simp only [this]

theorem liveStep_eq {ds : List Idx} {a : List ℚ} (h : Readable ds a) {th : ℚ} {minP : Int} {g i : ℕ} {st : EvState} (hi : i < a.length) (hst : EvOk a.length i st) :
    liveStep th minP g i st.start (marked ds st.marks i) =
      (marked ds (evStep th minP g a st i).marks (i + 1), .ok (evStep th minP g a st i).start) := by
  have hn := h.length_le
  have hv : a[i]? = some (a[i]'hi) := List.getElem?_eq_getElem hi
  unfold liveStep
  rw [marked_next (hst.later i (le_refl _))]
  dsimp only
  rw [readAnomaly_marked h _ _ _ _ hv]
  dsimp only
  have ha : anomalousAt th a i = decide (th ≤ a[i]'hi) := by unfold anomalousAt; rw [hv]
  unfold evStep
  rw [ha]
  by_cases hc : th ≤ a[i]'hi
  · have hnl : ¬ a[i]'hi < th := not_lt.2 hc
    cases hs : st.start with
    | none => simp [hc, hnl]
    | some s => simp [hc, hnl, hs]
  · cases hs : st.start with
    | none => simp [hc, hs]
    | some s =>
      simp only [hc, if_false, decide_false, not_le.1 hc, if_true]
      unfold endLive
      rw [gapLoop_eq h _ _ _ _ _ _ (by omega), gap_eq, Bool.true_and]
      cases hge : gapExceeded th a g i with
      | false => simp [hs]
      | true =>
        dsimp only
        rw [if_pos rfl]
        unfold closeEvent
        by_cases hp : ((i : Int) - g) - s < minP
        · rw [if_pos hp, if_pos hp]
        · rw [if_neg hp, if_neg hp]
          have hlt := hst.before s hs
          rw [markLive_ok (by omega) _ _ _ (by omega) (by rw [hst.len]; omega)]
          dsimp only
          congr 2
          by_cases hsg : s ≤ i - g
          · congr 1; omega
          · rw [markRange_empty _ _ _ (by omega), markRange_empty _ _ _ (by omega)]

/-- the state after the first `i` items -/
def evAfter (th : ℚ) (minP : Int) (g : ℕ) (a : List ℚ) (i : ℕ) : EvState :=
  (List.range i).foldl (evStep th minP g a) ⟨none, List.replicate a.length false⟩

theorem evAfter_succ (th : ℚ) (minP : Int) (g : ℕ) (a : List ℚ) (i : ℕ) : evAfter th minP g a (i + 1) = evStep th minP g a (evAfter th minP g a i) i := by
  unfold evAfter
  rw [List.range_succ, List.foldl_append]; rfl

theorem evAfter_ok (th : ℚ) (minP : Int) (g : ℕ) (a : List ℚ) (i : ℕ) : EvOk a.length i (evAfter th minP g a i) := by
  induction i with
  | zero =>
    refine ⟨by simp [evAfter], ?_, ?_⟩
    · intro j _
      show ((List.replicate a.length false)[j]?).getD false = false
      rw [List.getElem?_replicate]
      split_ifs <;> rfl
    · intro s hs; cases hs
  | succ i ih => rw [evAfter_succ]; exact evStep_ok ih

theorem marked_zero (ds : List Idx) (m : List Bool) : marked ds m 0 = ds := by
  apply List.ext_getElem?
  intro j
  rw [marked_get]
  cases ds[j]? <;> simp

theorem liveLoop_eq {ds : List Idx} {a : List ℚ} (h : Readable ds a) {th : ℚ} {minP : Int} {g : ℕ} (i : ℕ) : ∀ c, i ≤ a.length →
    liveLoop th minP g 0 (i + c) none ds = liveLoop th minP g i c (evAfter th minP g a i).start (marked ds (evAfter th minP g a i).marks i) := by
  induction i with
  | zero =>
    intro c _
    rw [marked_zero, Nat.zero_add]; rfl
  | succ i ih =>
    intro c hi
    have e : i + 1 + c = i + (c + 1) := by omega
    rw [e, ih (c + 1) (by omega)]
    conv_lhs => unfold liveLoop
    rw [liveStep_eq h (by omega) (evAfter_ok _ _ _ _ _)]
    dsimp only
    rw [evAfter_succ]

theorem liveEnd_eq {ds : List Idx} {a : List ℚ} (h : Readable ds a) (hl : a.length = ds.length) (th : ℚ) (m : List Bool) (s : ℕ) : ∀ n, n ≤ a.length →
    liveEnd th (marked ds m ds.length) s n = .ok (lastEnd th a s n) := by
  intro n
  induction n with
  | zero => intro _; unfold liveEnd lastEnd; rw [marked_length, hl]
  | succ i ih =>
    intro hi
    unfold liveEnd lastEnd
    have hv : a[i]? = some (a[i]'(by omega)) := List.getElem?_eq_getElem (by omega)
    rw [readAnomaly_marked h _ _ _ _ hv]
    have ha : anomalousAt th a i = decide (th ≤ a[i]'(by omega)) := by unfold anomalousAt; rw [hv]
    rw [ha, marked_length]
    by_cases h1 : s < i
    · simp only [h1, if_true]
      by_cases hc : th ≤ a[i]'(by omega)
      · simp [hc]
      · simp only [hc, if_false, decide_false]
        rw [ih (by omega)]; rfl
    · simp [h1, hl]

theorem lastEnd_le {th : ℚ} {a : List ℚ} {s : ℕ} : ∀ n, n ≤ a.length → lastEnd th a s n ≤ a.length := by
  intro n
  induction n with
  | zero => intro _; exact le_refl _
  | succ n ih =>
    intro hn
    unfold lastEnd
    split_ifs
    · omega
    · exact ih (by omega)
    · exact le_refl _

theorem lastEnd_ge {th : ℚ} {a : List ℚ} {s : ℕ} (hs : s < a.length) : ∀ n, s < lastEnd th a s n := by
  intro n
  induction n with
  | zero => exact hs
  | succ n ih =>
    unfold lastEnd
    split_ifs
    · assumption
    · exact ih
    · exact hs

/-- the loop of `replace_index` never fails -/
theorem replaceLoop_eq (ds : List Idx) (m : ℕ → Bool) : replaceLoop (ds.mapIdx (fun j d => d.set eventKey (eventVal (m j)))) =
    (ds.mapIdx (fun j d => eventIdx true (m j) d), .ok ()) := by
  induction ds generalizing m with
  | nil => rfl
  | cons d r ih =>
    rw [List.mapIdx_cons, List.mapIdx_cons]
    unfold replaceLoop replaceMark
    rw [Dict.get?_set, if_pos rfl]
    dsimp only
    have := ih (fun j => m (j + 1))
    rw [this]
    rfl

/-- the marks of `Events`, as they are written -/
theorem liveLast_eq {ds : List Idx} {a : List ℚ} (h : Readable ds a) (hl : a.length = ds.length) (th : ℚ) (minP : Int) (st : EvState) (hst : EvOk a.length a.length st) :
    (∃ m, finishEvents th minP a st = .ok m ∧ m.length = a.length ∧ liveLast th minP (marked ds st.marks ds.length) st.start = (marked ds m ds.length, .ok ())) ∨
    (∃ m, finishEvents th minP a st = .error .indexError ∧ m.length = a.length ∧ liveLast th minP (marked ds st.marks ds.length) st.start = (marked ds m ds.length, .error .indexError)) := by
  unfold liveLast finishEvents
  cases hs : st.start with
  | none => exact Or.inl ⟨st.marks, rfl, hst.len, rfl⟩
  | some s =>
    dsimp only
    have hsn := hst.before s hs
    rw [marked_length, ← hl, hl, liveEnd_eq h hl _ _ _ _ (by omega), ← hl]
    dsimp only
    have h1 := lastEnd_le (th := th) (s := s) a.length (le_refl a.length)
    have h2 := lastEnd_ge (th := th) hsn a.length
    generalize lastEnd th a s a.length = E at h1 h2 ⊢
    by_cases hp : ((E : ℕ) : Int) - s < minP
    · rw [if_pos hp, if_pos hp]
      exact Or.inl ⟨st.marks, rfl, hst.len, rfl⟩
    · rw [if_neg hp, if_neg hp]
      have e : E + 1 - s = (E - s) + 1 := by omega
      rw [e, hl, markLive_over _ _ _ (by omega) (by rw [hst.len]; omega), ← hl]
      have e2 : s + (E - s) = E := by omega
      have e3 : s + (E - s + 1) = E + 1 := by omega
      rw [e2, e3]
      by_cases hee : E = a.length
      · rw [if_pos hee, if_neg (by omega)]
        exact Or.inr ⟨_, rfl, by rw [markRange_length]; exact hst.len, rfl⟩
      · rw [if_neg hee, if_pos (by omega)]
        exact Or.inl ⟨_, rfl, by rw [markRange_length]; exact hst.len, rfl⟩

theorem marked_all (ds : List Idx) (m : List Bool) : marked ds m ds.length = ds.mapIdx (fun j d => d.set eventKey (eventVal ((m[j]?).getD false))) := by
  apply List.ext_getElem?
  intro j
  rw [marked_get, List.getElem?_mapIdx]
  cases hd : ds[j]? with
  | none => rfl
  | some d => rw [Option.map_some, if_pos (List.getElem?_eq_some_iff.1 hd).1]; rfl

theorem zip_marks (replace : Bool) (l : List Item) (m : List Bool) (h : m.length = l.length) :
    (List.zipWith (withEvent replace) l m).map Item.idx = (l.map Item.idx).mapIdx (fun j d => eventIdx replace ((m[j]?).getD false) d) := by
  apply List.ext_getElem?
  intro j
  rw [List.getElem?_map, List.getElem?_zipWith, List.getElem?_mapIdx, List.getElem?_map]
  cases hl : l[j]? with
  | none => rfl
  | some x =>
    have hj := (List.getElem?_eq_some_iff.1 hl).1
    have hm : m[j]? = some (m[j]'(by omega)) := List.getElem?_eq_getElem (by omega)
    rw [hm]; rfl

theorem mapE_anomaly_cases (l : List Item) : (∃ a, mapE anomalyOf l = .ok a ∧ a.length = l.length ∧ Readable (l.map Item.idx) a) ∨
    (∃ e a d, mapE anomalyOf l = .error e ∧ a.length < l.length ∧ Readable (l.map Item.idx) a ∧ (l.map Item.idx)[a.length]? = some d ∧ anomalyIn d = .error e) := by
  induction l with
  | nil => exact Or.inl ⟨[], rfl, rfl, fun j v h => by simp at h⟩
  | cons x l ih =>
    unfold mapE
    cases hx : anomalyOf x with
    | error e => exact Or.inr ⟨e, [], x.idx, rfl, by simp, fun j v h => by simp at h, rfl, hx⟩
    | ok v =>
      have ext : ∀ a, Readable (l.map Item.idx) a → Readable ((x :: l).map Item.idx) (v :: a) := by
        intro a ha j w hj
        cases j with
        | zero => simp only [List.getElem?_cons_zero, Option.some.injEq] at hj; subst hj; exact ⟨x.idx, rfl, hx⟩
        | succ j => exact ha j w (by simpa using hj)
      rcases ih with ⟨a, h1, h2, h3⟩ | ⟨e, a, d, h1, h2, h3, h4, h5⟩
      · exact Or.inl ⟨v :: a, by rw [h1], by simp [h2], ext a h3⟩
      · exact Or.inr ⟨e, v :: a, d, by rw [h1], by simpa using h2, ext a h3, by simpa using h4, h5⟩

theorem live_cases (th : ℚ) (minP : Int) (g : ℕ) (replace : Bool) (l : List Item) :
    (∃ m r, markEvents th minP g replace l = .ok r ∧ m.length = l.length ∧ r = List.zipWith (withEvent replace) l m ∧
      liveMark th minP g replace (l.map Item.idx) = (r.map Item.idx, .ok ())) ∨
    (∃ m, markEvents th minP g replace l = .error .indexError ∧ m.length = l.length ∧
      liveMark th minP g replace (l.map Item.idx) = (marked (l.map Item.idx) m l.length, .error .indexError)) ∨
    (∃ e m k d, markEvents th minP g replace l = .error e ∧ k < l.length ∧ (l.map Item.idx)[k]? = some d ∧ anomalyIn d = .error e ∧
      (∀ j, j < k → ∃ d v, (l.map Item.idx)[j]? = some d ∧ anomalyIn d = .ok v) ∧ (m[k]?).getD false = false ∧
      liveMark th minP g replace (l.map Item.idx) = (marked (l.map Item.idx) m (k + 1), .error e)) := by
  unfold markEvents
  rcases mapE_anomaly_cases l with ⟨a, h1, h2, h3⟩ | ⟨e, a, d, h1, h2, h3, h4, h5⟩
  · rw [h1]
    have hl : a.length = (l.map Item.idx).length := by rw [h2, List.length_map]
    have hloop := liveLoop_eq h3 (th := th) (minP := minP) (g := g) a.length 0 (le_refl _)
    rw [Nat.add_zero] at hloop
    have hend : liveLoop th minP g a.length 0 (evAfter th minP g a a.length).start (marked (l.map Item.idx) (evAfter th minP g a a.length).marks a.length) =
        (marked (l.map Item.idx) (evAfter th minP g a a.length).marks a.length, .ok (evAfter th minP g a a.length).start) := rfl
    rw [hend] at hloop
    have hml : liveMark th minP g replace (l.map Item.idx) =
        (match liveLast th minP (marked (l.map Item.idx) (evAfter th minP g a a.length).marks (l.map Item.idx).length) (evAfter th minP g a a.length).start with
        | (l2, .error e) => (l2, .error e)
        | (l2, .ok _) => if replace then replaceLoop l2 else (l2, .ok ())) := by
      unfold liveMark
      rw [← hl, hloop]
      rfl
    dsimp only
    have he : eventMarks th minP g a = finishEvents th minP a (evAfter th minP g a a.length) := rfl
    rw [he]
    rcases liveLast_eq h3 hl th minP _ (evAfter_ok th minP g a a.length) with ⟨m, q1, q2, q3⟩ | ⟨m, q1, q2, q3⟩
    · left
      refine ⟨m, _, by rw [q1], by omega, rfl, ?_⟩
      rw [hml, q3, zip_marks _ _ _ (by omega), marked_all]
      cases replace with
      | false => rfl
      | true => dsimp only; rw [if_pos rfl, replaceLoop_eq]
    · right; left
      refine ⟨m, by rw [q1], by omega, ?_⟩
      rw [hml, q3, List.length_map]
  · right; right
    have hst := evAfter_ok th minP g a a.length
    refine ⟨e, (evAfter th minP g a a.length).marks, a.length, d, by rw [h1], h2, h4, h5, ?_, hst.later _ (le_refl _), ?_⟩
    · intro j hj
      obtain ⟨d, q1, q2⟩ := h3 j (a[j]'hj) (List.getElem?_eq_getElem hj)
      exact ⟨d, _, q1, q2⟩
    · unfold liveMark
      have hc : (l.map Item.idx).length = a.length + ((l.length - a.length - 1) + 1) := by rw [List.length_map]; omega
      rw [hc, liveLoop_eq h3 a.length _ (le_refl _)]
      unfold liveLoop liveStep
      rw [marked_next (hst.later _ (le_refl _))]
      dsimp only
      have hr : readAnomaly (marked (l.map Item.idx) (evAfter th minP g a a.length).marks (a.length + 1)) a.length = .error e := by
        unfold readAnomaly idxAt
        rw [marked_get, h4]
        simp only [Option.map_some]
        rw [if_pos (Nat.lt_succ_self _), anomalyIn_set]
        exact h5
      rw [hr]

/-! ## C329 -/

/-- **C329** the call in place ends as the one which returns a new series, with the same exception if any; when it succeeds the indexes of the items are those of the new series,
whose items have the times, the units, the zones and the data of the old ones. -/
theorem C329_agree (th : ℚ) (minP : Int) (g : ℕ) (replace : Bool) (l : List Item) :
    (liveMark th minP g replace (l.map Item.idx)).2 = (markEvents th minP g replace l).map (fun _ => ()) ∧
    ∀ r, markEvents th minP g replace l = .ok r → (liveMark th minP g replace (l.map Item.idx)).1 = r.map Item.idx ∧
      r.map (fun x => (x.t, x.slot, x.tz, x.data)) = l.map (fun x => (x.t, x.slot, x.tz, x.data)) := by
  rcases live_cases th minP g replace l with ⟨m, r, h1, h2, h3, h4⟩ | ⟨m, h1, _, h4⟩ | ⟨e, m, k, d, h1, _, _, _, _, _, h4⟩
  · rw [h1, h4]
    refine ⟨rfl, ?_⟩
    intro r' hr
    cases hr
    refine ⟨rfl, ?_⟩
    rw [h3]
    apply List.ext_getElem?
    intro j
    rw [List.getElem?_map, List.getElem?_zipWith, List.getElem?_map]
    cases hl : l[j]? with
    | none => rfl
    | some x =>
      have hj := (List.getElem?_eq_some_iff.1 hl).1
      have hm : m[j]? = some (m[j]'(by omega)) := List.getElem?_eq_getElem (by omega)
      rw [hm]; rfl
  · rw [h1, h4]
    exact ⟨rfl, fun r hr => by cases hr⟩
  · rw [h1, h4]
    exact ⟨rfl, fun r hr => by cases hr⟩

/-- items with these anomaly indexes -/
def anomIdxs (l : List ℚ) : List Idx := l.map (fun v => [("anomaly", some v)])

/-- one event of two items is marked, the isolated one is not -/
theorem C329_example : liveMark 1 2 1 false (anomIdxs [0, 1, 1, 0, 0, 1, 0, 0]) =
    ([0, 1, 1, 0, 0, 1, 0, 0].zipWith (fun v m => [("anomaly", some v), ("anomaly_event", some m)]) [0, 1, 1, 0, 0, 0, 0, 0], .ok ()) := by decide +kernel

/-! ## C330 -/

/-- **C330** is false: an item with no anomaly index in the middle, and a last item which alone is anomalous, raise when marks have been written; with the mark of the
event, in the first case, in place of the one of the failed item -/
theorem C330_false :
    liveMark 1 1 0 false (anomIdxs [1, 0] ++ [[]]) = ([[("anomaly", some 1), ("anomaly_event", some 1)], [("anomaly", some 0), ("anomaly_event", some 0)], [("anomaly_event", some 0)]], .error .keyError) ∧
    liveMark 1 1 0 false (anomIdxs [0, 1]) = ([[("anomaly", some 0), ("anomaly_event", some 0)], [("anomaly", some 1), ("anomaly_event", some 1)]], .error .indexError) := by
  decide +kernel

/-- two lists of indexes which differ only in the marks -/
def SameButMarks (l l' : List Idx) : Prop :=
  l.length = l'.length ∧ ∀ (j : ℕ) (d d' : Idx), l[j]? = some d → l'[j]? = some d' → ∀ k, k ≠ "anomaly_event" → d'.get? k = d.get? k

theorem marked_same (ds : List Idx) (m : List Bool) (k : ℕ) : SameButMarks ds (marked ds m k) := by
  refine ⟨(marked_length _ _ _).symm, ?_⟩
  intro j d d' h1 h2 key hk
  rw [marked_get, h1] at h2
  simp only [Option.map_some, Option.some.injEq] at h2
  subst h2
  split_ifs
  · rw [Dict.get?_set, if_neg (fun h => hk (h.symm.trans rfl))]
  · rfl

/-- **C330** (what is left) a failed call changes nothing but the marks, and, when it is an item without anomaly index that makes it fail, only those of this item (set to 0)
and of the ones before: the items after it are as they were, and those before all had an anomaly index.  Missing: the marks, see `C330_false`. -/
theorem C330_partial (th : ℚ) (minP : Int) (g : ℕ) (replace : Bool) (l : List Item) (e : PyErr) (h : (liveMark th minP g replace (l.map Item.idx)).2 = .error e) :
    SameButMarks (l.map Item.idx) (liveMark th minP g replace (l.map Item.idx)).1 ∧
    (e = .indexError ∨ ∃ k, k < l.length ∧ (∀ x, l[k]? = some x → anomalyOf x = .error e ∧
        (liveMark th minP g replace (l.map Item.idx)).1[k]? = some (x.idx.set "anomaly_event" (some 0))) ∧
      (∀ (j : ℕ) (x : Item), j < k → l[j]? = some x → ∃ v, anomalyOf x = .ok v) ∧
      (∀ (j : ℕ), k < j → (liveMark th minP g replace (l.map Item.idx)).1[j]? = (l.map Item.idx)[j]?)) := by
  rcases live_cases th minP g replace l with ⟨m, r, h1, h2, h3, h4⟩ | ⟨m, h1, _, h4⟩ | ⟨e', m, k, d, h1, h2, h3, h5, h6, h7, h4⟩
  · rw [h4] at h; cases h
  · rw [h4] at h ⊢
    cases h
    exact ⟨marked_same _ _ _, Or.inl rfl⟩
  · rw [h4] at h ⊢
    cases h
    refine ⟨marked_same _ _ _, Or.inr ⟨k, h2, ?_, ?_, ?_⟩⟩
    · intro x hx
      rw [List.getElem?_map, hx] at h3
      cases h3
      refine ⟨h5, ?_⟩
      rw [marked_get, List.getElem?_map, hx]
      simp only [Option.map_some]
      rw [if_pos (Nat.lt_succ_self _), h7]
      rfl
    · intro j x hj hx
      obtain ⟨d', v, q1, q2⟩ := h6 j hj
      rw [List.getElem?_map, hx] at q1
      cases q1
      exact ⟨v, q2⟩
    · intro j hj
      rw [marked_get]
      cases (l.map Item.idx)[j]? with
      | none => rfl
      | some d => rw [Option.map_some, if_neg (by omega)]

/-! ## C331 -/

/-- the item at `i`, or one of those in the window before it, is too lossy -/
def NearLoss (d : Detector) (thr : ℚ) (l : List Item) (i : ℕ) : Prop :=
  ∃ j x v, j ≤ d.window ∧ j ≤ i ∧ l[i - j]? = some x ∧ x.idx.get? "data_loss" = some (some v) ∧ thr ≤ v

theorem lossy_of {thr : ℚ} {l : List Item} {p : ℕ} (h : tooLossy thr (lossAt l p) = true) : ∃ x v, l[p]? = some x ∧ x.idx.get? "data_loss" = some (some v) ∧ thr ≤ v := by
  unfold lossAt at h
  cases hx : l[p]? with
  | none => rw [hx] at h; simp [tooLossy] at h
  | some x =>
    rw [hx] at h
    simp only [Option.bind_some] at h
    unfold lossOf at h
    cases hg : x.idx.get? "data_loss" with
    | none => rw [hg] at h; simp [tooLossy] at h
    | some o =>
      cases o with
      | none => rw [hg] at h; simp [tooLossy] at h
      | some v =>
        rw [hg] at h
        exact ⟨x, v, rfl, hg, by simpa [tooLossy] using h⟩

theorem pass_near {d : Detector} {thr : ℚ} {l : List Item} {i : ℕ} (h : stepAt d thr l i = .ok .pass) : NearLoss d thr l i := by
  unfold stepAt at h
  split_ifs at h with h1 h2 h3 h4 h5
  · cases h
  · cases h
  · obtain ⟨x, v, a, b, c⟩ := lossy_of h3
    exact ⟨0, x, v, by omega, by omega, a, b, c⟩
  · rw [List.any_eq_true] at h4
    obtain ⟨j, hj, hl⟩ := h4
    rw [List.mem_range] at hj
    obtain ⟨x, v, a, b, c⟩ := lossy_of hl
    exact ⟨j + 1, x, v, by omega, by omega, by rw [← a]; congr 1, b, c⟩
  · unfold farCheck at h
    split at h
    · cases h
    · split at h
      · cases h
      · split at h
        · cases h
        · split at h <;> cases h
  · cases h

/-- what the loop gives: the objects there were are as they were, each item of the result is either an item of the series, near a loss, or made of new objects -/
theorem heapAnom_kept {d : Detector} {thr : ℚ} {l : List Item} {sc : ℕ → Item → Except PyErr Item} :
    ∀ (xs : List HItem) (h h' : Heap) (i : ℕ) (ys : List HItem), heapAnomLoop d thr l sc h xs i = .ok (h', ys) →
      h.Kept h' ∧ ∀ y ∈ ys, (∃ p, xs[p]? = some y ∧ NearLoss d thr l (i + p)) ∨ (h.data.length ≤ y.dA ∧ h.idx.length ≤ y.iA) := by
  intro xs
  induction xs with
  | nil => intro h h' i ys hr; cases hr; exact ⟨Heap.Kept.refl _, by simp⟩
  | cons x r ih =>
    intro h h' i ys hr
    unfold heapAnomLoop at hr
    have shift : ∀ y, (∃ p, r[p]? = some y ∧ NearLoss d thr l (i + 1 + p)) → ∃ p, (x :: r)[p]? = some y ∧ NearLoss d thr l (i + p) := by
      rintro y ⟨p, q1, q2⟩
      exact ⟨p + 1, by simpa using q1, by rw [show i + (p + 1) = i + 1 + p by omega]; exact q2⟩
    cases hst : stepAt d thr l i with
    | error e => rw [hst] at hr; cases hr
    | ok st =>
      rw [hst] at hr
      cases st with
      | skip =>
        obtain ⟨k, hy⟩ := ih _ _ _ _ hr
        exact ⟨k, fun y hm => (hy y hm).imp (shift y) id⟩
      | stop => cases hr; exact ⟨Heap.Kept.refl _, by simp⟩
      | pass =>
        dsimp only at hr
        cases hg : heapAnomLoop d thr l sc h r (i + 1) with
        | error e => rw [hg] at hr; cases hr
        | ok q =>
          rw [hg] at hr
          obtain ⟨h1, zs⟩ := q
          cases hr
          obtain ⟨k, hy⟩ := ih _ _ _ _ hg
          refine ⟨k, ?_⟩
          intro y hm
          rcases List.mem_cons.1 hm with rfl | hm
          · exact Or.inl ⟨0, rfl, pass_near hst⟩
          · exact (hy y hm).imp (shift y) id
      | score =>
        dsimp only at hr
        cases hsc : sc i (h.read x) with
        | error e => rw [hsc] at hr; cases hr
        | ok y0 =>
          rw [hsc] at hr
          dsimp only at hr
          cases hg : heapAnomLoop d thr l sc ((h.alloc (y0.data.getD (.num 0))).allocIdx y0.idx) r (i + 1) with
          | error e => rw [hg] at hr; cases hr
          | ok q =>
            rw [hg] at hr
            obtain ⟨h1, zs⟩ := q
            cases hr
            obtain ⟨k, hy⟩ := ih _ _ _ _ hg
            have k0 : h.Kept ((h.alloc (y0.data.getD (.num 0))).allocIdx y0.idx) := (Heap.Kept.alloc h _).trans (Heap.Kept.allocIdx _ _)
            refine ⟨k0.trans k, ?_⟩
            intro y hm
            rcases List.mem_cons.1 hm with rfl | hm
            · exact Or.inr ⟨le_refl _, le_refl _⟩
            · refine (hy y hm).imp (shift y) ?_
              rintro ⟨q1, q2⟩
              exact ⟨k0.data_le.trans q1, k0.idx_le.trans q2⟩

/-- changing the data and the indexes of an item -/
def Heap.alter (h : Heap) (y : HItem) (f : Data → Data) (c : Idx → Idx) : Heap := (h.store y.dA f).storeIdx y.iA c

theorem alter_kept {h h' : Heap} (k : h.Kept h') {y : HItem} (hd : h.data.length ≤ y.dA) (hi : h.idx.length ≤ y.iA) (f : Data → Data) (c : Idx → Idx) :
    h.Kept (h'.alter y f c) := by
  refine ⟨(k.store hd f).data, fun i hi' => ?_⟩
  have hne : ¬ y.iA = i := by omega
  have : (h'.idx.modify y.iA c)[i]? = h'.idx[i]? := by
    rw [List.getElem?_modify]; simp [hne]
  exact this.trans (k.idx i hi')

/-- **C331** (input) a detection leaves the series examined as it was, and each item of the result is either the very item of the series at the same place, which is too lossy
or follows one that is, or made of new objects, which can be changed in any way without any effect on the series. -/
theorem C331_items {lg : ℚ → ℚ} {d : Detector} {c : AnomCfg} {pre : Option Predictions} {ranges : List (String × IndexRange)} {h h' : Heap} {s r : HSeries}
    (hs : s.Valid h) (hop : s.detect lg d c pre ranges h = .ok (h', r)) :
    s.view h' = s.view h ∧
    ∀ y ∈ r.items, (∃ p, s.items[p]? = some y ∧ NearLoss d c.lossThreshold (s.view h).items p) ∨ ∀ f g, s.view (h'.alter y f g) = s.view h := by
  obtain ⟨k, hy⟩ := heapAnom_kept _ _ _ _ _ (finishH_inv hop)
  refine ⟨k.view hs, ?_⟩
  intro y hm
  rcases hy y hm with ⟨p, q1, q2⟩ | ⟨q1, q2⟩
  · rw [Nat.zero_add] at q2
    exact Or.inl ⟨p, q1, q2⟩
  · exact Or.inr (fun f g => (alter_kept k q1 q2 f g).view hs)

/-- **C331** (no losses) if no item is too lossy, any sequence of changes to the items of the result leaves the series examined as it was.  Missing: the items which are too lossy and
those which follow them, see `C331_false`. -/
theorem C331_no_losses_partial {lg : ℚ → ℚ} {d : Detector} {c : AnomCfg} {pre : Option Predictions} {ranges : List (String × IndexRange)} {h h' : Heap} {s r : HSeries}
    (hs : s.Valid h) (hop : s.detect lg d c pre ranges h = .ok (h', r))
    (hl : ∀ x ∈ (s.view h).items, ∀ v, x.idx.get? "data_loss" = some (some v) → v < c.lossThreshold)
    (ws : List (HItem × (Data → Data) × (Idx → Idx))) (hw : ∀ w ∈ ws, w.1 ∈ r.items) :
    s.view (ws.foldl (fun h w => h.alter w.1 w.2.1 w.2.2) h') = s.view h := by
  obtain ⟨k, hy⟩ := heapAnom_kept _ _ _ _ _ (finishH_inv hop)
  have : h.Kept (ws.foldl (fun h w => h.alter w.1 w.2.1 w.2.2) h') := by
    clear hop
    induction ws generalizing h' with
    | nil => exact k
    | cons w ws ih =>
      rw [List.foldl_cons]
      refine ih ?_ ?_
      · exact fun w' hm => hw w' (by simp [hm])
      · rcases hy w.1 (hw w (by simp)) with ⟨p, _, j, x, v, _, _, q1, q2, q3⟩ | ⟨q1, q2⟩
        · exact absurd (hl x (List.mem_of_getElem? q1) v q2) (not_lt.2 q3)
        · exact alter_kept k q1 q2 _ _
  exact this.view hs

/-- **C331** (agreement) the detection on objects reads as the detection on values -/
theorem C331_agrees {lg : ℚ → ℚ} {d : Detector} {c : AnomCfg} {pre : Option Predictions} {ranges : List (String × IndexRange)} {h h' : Heap} {s r : HSeries}
    (hs : s.Valid h) (hop : s.detect lg d c pre ranges h = .ok (h', r)) :
    ∃ r0, anomLoop lg d c pre ranges (s.view h).items (s.view h).items 0 {} = .ok r0 ∧ r0.items = (r.view h').items := by
  have key : ∀ (l : List Item) (xs : List HItem) (h h' : Heap) (i : ℕ) (ys : List HItem), (∀ x ∈ xs, x.dA < h.data.length ∧ x.iA < h.idx.length) →
      heapAnomLoop d c.lossThreshold l (scoreItem lg d c pre ranges l) h xs i = .ok (h', ys) →
      anomOuts lg d c pre ranges l (h.reads xs) i = .ok (h'.reads ys) := by
    intro l xs
    induction xs with
    | nil => intro h h' i ys _ hr; cases hr; rfl
    | cons x r ih =>
      intro h h' i ys hv hr
      unfold heapAnomLoop at hr
      show anomOuts lg d c pre ranges l (h.read x :: h.reads r) i = _
      unfold anomOuts
      have hvr : ∀ x ∈ r, x.dA < h.data.length ∧ x.iA < h.idx.length := fun y hy => hv y (by simp [hy])
      cases hst : stepAt d c.lossThreshold l i with
      | error e => rw [hst] at hr; cases hr
      | ok st =>
        rw [hst] at hr
        cases st with
        | skip => exact ih _ _ _ _ hvr hr
        | stop => cases hr; rfl
        | pass =>
          dsimp only at hr ⊢
          cases hg : heapAnomLoop d c.lossThreshold l (scoreItem lg d c pre ranges l) h r (i + 1) with
          | error e => rw [hg] at hr; cases hr
          | ok q =>
            rw [hg] at hr
            obtain ⟨h1, zs⟩ := q
            cases hr
            rw [ih _ _ _ _ hvr hg]
            have k := (heapAnom_kept _ _ _ _ _ hg).1
            show Except.ok (h.read x :: h'.reads zs) = .ok (h'.read x :: h'.reads zs)
            rw [k.read (hv x (by simp)).1 (hv x (by simp)).2]
        | score =>
          dsimp only at hr ⊢
          cases hsc : scoreItem lg d c pre ranges l i (h.read x) with
          | error e => rw [hsc] at hr; cases hr
          | ok y0 =>
            rw [hsc] at hr
            dsimp only at hr ⊢
            cases hg : heapAnomLoop d c.lossThreshold l (scoreItem lg d c pre ranges l) ((h.alloc (y0.data.getD (.num 0))).allocIdx y0.idx) r (i + 1) with
            | error e => rw [hg] at hr; cases hr
            | ok q =>
              rw [hg] at hr
              obtain ⟨h1, zs⟩ := q
              cases hr
              have k0 : h.Kept ((h.alloc (y0.data.getD (.num 0))).allocIdx y0.idx) := (Heap.Kept.alloc h _).trans (Heap.Kept.allocIdx _ _)
              have h2 := ih _ _ _ _ (fun y hy => ⟨lt_of_lt_of_le (hvr y hy).1 k0.data_le, lt_of_lt_of_le (hvr y hy).2 k0.idx_le⟩) hg
              rw [k0.reads hvr] at h2
              rw [h2]
              have k := (heapAnom_kept _ _ _ _ _ hg).1
              show Except.ok (y0 :: h'.reads zs) = .ok (h'.read _ :: h'.reads zs)
              congr 2
              unfold Heap.read
              have e1 := k.data h.data.length (by simp [Heap.alloc, Heap.allocIdx])
              have e2 := k.idx h.idx.length (by simp [Heap.alloc, Heap.allocIdx])
              rw [e1, e2]
              simp only [Heap.alloc, Heap.allocIdx, List.getElem?_concat_length, Option.getD_some]
              unfold scoreItem at hsc
              split at hsc
              · cases hsc
              · split at hsc
                · cases hsc
                · cases hsc
                  have hd : (h.read x).data = some (h.data[x.dA]'(hv x (by simp)).1) := List.getElem?_eq_getElem (hv x (by simp)).1
                  unfold scoredItem
                  rw [hd]
                  cases h.data[x.dA]'(hv x (by simp)).1 <;> rfl
  have hin := finishH_inv hop
  have ho := key _ _ _ _ _ _ hs.items hin
  unfold HSeries.detect at hop
  rw [hin] at hop
  unfold finishH at hop
  dsimp only at hop
  unfold TSeries.build at hop
  cases hb : TSeries.empty.appendAll (h'.reads r.items) with
  | mk r0 o =>
    rw [hb] at hop
    cases o with
    | error e => cases hop
    | ok u =>
      cases u
      refine ⟨r0, (anomLoop_ok _ _ _ _).2 ⟨_, ho, hb⟩, ?_⟩
      have := appendAll_ok_items TSeries.empty (h'.reads r.items) (by rw [hb])
      rw [hb] at this
      rw [this]
      rfl

/-- five points as objects, the fourth of which is lost -/
def lossyHeap : Heap where
  data := [.dict [("v", 10)], .dict [("v", 11)], .dict [("v", 10)], .dict [("v", 13)], .dict [("v", 30)]]
  idx := [[], [], [], [("data_loss", some 1)], []]

/-- the points of the heap -/
def lossyHItems : List HItem := [⟨0, none, "UTC", 0, 0⟩, ⟨3600, none, "UTC", 1, 1⟩, ⟨7200, none, "UTC", 2, 2⟩, ⟨10800, none, "UTC", 3, 3⟩, ⟨14400, none, "UTC", 4, 4⟩]

/-- their series -/
def lossyH : HSeries :=
  { attrs := match TSeries.build (lossyHeap.reads lossyHItems) with
      | .ok s => s
      | .error _ => {}
    items := lossyHItems
    refA := some 0 }

/-- the range of the label -/
def vRange : List (String × IndexRange) := [("v", { xs := 1, xe := 5, ys := tent 0 1, ye := tent 0 5 })]

/-- the anomaly indexes of the input after giving one, 1/2, to every item of the result of the detection with a given threshold for losses -/
def afterMarks (thr : ℚ) : Option (List (Option (Option ℚ))) :=
  match lossyH.detect id (tentDetector 1 false "AE" 0 none) { linBounds with lossThreshold := thr } none vRange lossyHeap with
  | .ok (h', r) => some ((r.items.foldl (fun h y => h.alter y id (fun i => i.set "anomaly" (some (1/2)))) h').reads lossyH.items |>.map (fun x => x.idx.get? "anomaly"))
  | .error _ => none

/-- **C331** is false: setting the anomaly index of the items of the result sets it in the series examined, for the item which is lost and the one after it -/
theorem C331_false : afterMarks 1 = some [none, none, none, some (some (1/2)), some (some (1/2))] := by decide +kernel

/-- the hypotheses are met: with a threshold above the losses nothing is shared -/
theorem C331_example : lossyH.Valid lossyHeap ∧ afterMarks 2 = some [none, none, none, none, none] := by
  refine ⟨⟨by decide, ?_⟩, by decide +kernel⟩
  intro a ha
  simp only [lossyH, Option.some.injEq] at ha
  subst ha
  decide

end Timeseria
