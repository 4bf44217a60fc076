import Verif.Model.Events
import Verif.Props.Reconstruct

/-! # Anomalous events (C66, C127, C128) -/

namespace Timeseria

/-! ## Specification -/

/-- the item `j` has an anomaly index at or above the threshold -/
def AnomalousAt (th : ℚ) (a : List ℚ) (j : ℕ) : Prop := ∃ v, a[j]? = some v ∧ th ≤ v

/-- An event from `s` to `e`: it begins and ends with an anomalous item, inside it there are never more
than `g` consecutive normal items, and before and after it there are more than `g` normal items between
it and any other anomalous item. -/
structure IsEvent (th : ℚ) (a : List ℚ) (g s e : ℕ) : Prop where
  le : s ≤ e
  first : AnomalousAt th a s
  last : AnomalousAt th a e
  inside : ∀ j, s ≤ j → j + g ≤ e → ∃ k, j ≤ k ∧ k ≤ j + g ∧ AnomalousAt th a k
  before : ∀ k, AnomalousAt th a k → k < s → k + g + 1 < s
  after : ∀ k, AnomalousAt th a k → e < k → e + g + 1 < k

/-! ## Proofs -/

theorem anomalousAt_iff {th : ℚ} {a : List ℚ} {j : ℕ} : anomalousAt th a j = true ↔ AnomalousAt th a j := by
  unfold anomalousAt AnomalousAt
  cases a[j]? with
  | none => simp
  | some v => simp

theorem AnomalousAt.lt {th : ℚ} {a : List ℚ} {j : ℕ} (h : AnomalousAt th a j) : j < a.length := by
  obtain ⟨v, hv, _⟩ := h
  exact (List.getElem?_eq_some_iff.1 hv).1

theorem gapExceeded_iff {th : ℚ} {a : List ℚ} {g i : ℕ} :
    gapExceeded th a g i = true ↔ ∀ j, i - g ≤ j → j ≤ i → ¬ AnomalousAt th a j := by
  unfold gapExceeded
  rw [List.all_eq_true]
  constructor
  · intro h j h1 h2 hj
    have := h j (by simp; omega)
    simp at this
    rcases this with h3 | h3
    · omega
    · rw [← anomalousAt_iff] at hj
      rw [hj] at h3
      cases h3
  · intro h j hj
    simp at hj ⊢
    by_cases hlt : j < i - g
    · exact Or.inl hlt
    · right
      have := h j (by omega) (by omega)
      rw [← anomalousAt_iff] at this
      simpa using this

theorem getElem?_markRange {lo hi : ℕ} {m : List Bool} {j : ℕ} :
    (markRange lo hi m)[j]? = some true ↔ j < m.length ∧ (m[j]? = some true ∨ (lo ≤ j ∧ j < hi)) := by
  unfold markRange
  rw [List.getElem?_mapIdx]
  cases h : m[j]? with
  | none =>
    have := List.getElem?_eq_none_iff.1 h
    simp
    intro hlt
    omega
  | some b =>
    have := (List.getElem?_eq_some_iff.1 h).1
    simp [this]

theorem length_markRange {lo hi : ℕ} {m : List Bool} : (markRange lo hi m).length = m.length := by
  simp [markRange]

/-- an event is determined by its end -/
theorem isEvent_unique {th : ℚ} {a : List ℚ} {g s s' e : ℕ} (h : IsEvent th a g s e) (h' : IsEvent th a g s' e) :
    s = s' := by
  by_contra hne
  wlog hlt : s' < s generalizing s s'
  · exact this h' h (Ne.symm hne) (by omega)
  -- the last anomalous item before `s`
  have hex : ∃ k, AnomalousAt th a k ∧ k < s ∧ s' ≤ k ∧ ∀ j, AnomalousAt th a j → j < s → j ≤ k := by
    classical
    let P : ℕ → Prop := fun k => AnomalousAt th a k ∧ k < s
    have hP : P s' := ⟨h'.first, hlt⟩
    obtain ⟨k, hk, hmax⟩ : ∃ k, P k ∧ ∀ j, P j → j ≤ k := by
      refine ⟨Nat.findGreatest P s, ?_, ?_⟩
      · exact Nat.findGreatest_spec (P := P) (le_of_lt hlt) hP
      · intro j hj
        exact Nat.le_findGreatest (le_of_lt hj.2) hj
    exact ⟨k, hk.1, hk.2, hmax s' hP, fun j h1 h2 => hmax j ⟨h1, h2⟩⟩
  obtain ⟨k, hk, hks, hsk, hmax⟩ := hex
  have h1 := h.before k hk hks
  obtain ⟨q, hq1, hq2, hq⟩ := h'.inside (k + 1) (by omega) (by have := h.le; omega)
  have := hmax q hq (by omega)
  omega

/-- what is known after the first `i` items -/
structure EvInv (th : ℚ) (minP : Int) (g : ℕ) (a : List ℚ) (st : EvState) (i : ℕ) : Prop where
  len : st.marks.length = a.length
  closed : st.start = none → ∀ k, k < i → AnomalousAt th a k → k + g + 1 < i
  opened : ∀ s, st.start = some s → s < i ∧ AnomalousAt th a s ∧
    (∀ k, AnomalousAt th a k → k < s → k + g + 1 < s) ∧
    (∀ j, s ≤ j → j + g < i → ∃ k, j ≤ k ∧ k ≤ j + g ∧ AnomalousAt th a k)
  marks : ∀ j, st.marks[(j : ℕ)]? = some true ↔
    ∃ s e, IsEvent th a g s e ∧ e + g + 1 < i ∧ minP ≤ (e : Int) - s + 1 ∧ s ≤ j ∧ j ≤ e

theorem evInv_zero (th : ℚ) (minP : Int) (g : ℕ) (a : List ℚ) :
    EvInv th minP g a ⟨none, List.replicate a.length false⟩ 0 := by
  constructor
  · simp
  · intro _ k hk
    omega
  · intro s hs
    cases hs
  · intro j
    constructor
    · intro h
      rw [List.getElem?_replicate] at h
      split at h <;> simp at h
    · rintro ⟨s, e, _, h, _⟩
      omega

/-- the marks are those of the events closed before `i`: no event is closed exactly by `i` -/
theorem marks_same {th : ℚ} {minP : Int} {g : ℕ} {a : List ℚ} {m : List Bool} {i : ℕ}
    (h : ∀ j, m[(j : ℕ)]? = some true ↔
      ∃ s e, IsEvent th a g s e ∧ e + g + 1 < i ∧ minP ≤ (e : Int) - s + 1 ∧ s ≤ j ∧ j ≤ e)
    (hno : ∀ s e, IsEvent th a g s e → e + g + 1 ≠ i) :
    ∀ j, m[(j : ℕ)]? = some true ↔
      ∃ s e, IsEvent th a g s e ∧ e + g + 1 < i + 1 ∧ minP ≤ (e : Int) - s + 1 ∧ s ≤ j ∧ j ≤ e := by
  intro j
  rw [h]
  constructor
  · rintro ⟨s, e, h1, h2, h3⟩
    exact ⟨s, e, h1, by omega, h3⟩
  · rintro ⟨s, e, h1, h2, h3⟩
    exact ⟨s, e, h1, by have := hno s e h1; omega, h3⟩

theorem evInv_step {th : ℚ} {minP : Int} {g : ℕ} {a : List ℚ} {st : EvState} {i : ℕ}
    (h : EvInv th minP g a st i) : EvInv th minP g a (evStep th minP g a st i) (i + 1) := by
  unfold evStep
  cases ha : anomalousAt th a i with
  | true =>
    have hai := anomalousAt_iff.1 ha
    have hno : ∀ s e, IsEvent th a g s e → e + g + 1 ≠ i := by
      intro s e he hei
      have := he.after i hai (by omega)
      omega
    cases hs : st.start with
    | none =>
      dsimp only
      refine ⟨h.len, (by intro hh; cases hh), ?_, marks_same h.marks hno⟩
      intro s hs'
      injection hs' with hs'
      subst hs'
      refine ⟨by omega, hai, fun k hk hki => h.closed hs k hki hk, ?_⟩
      intro j h1 h2
      exact ⟨i, by omega, by omega, hai⟩
    | some s =>
      dsimp only
      refine ⟨h.len, (by intro hh; rw [hs] at hh; cases hh), ?_, marks_same h.marks hno⟩
      intro s' hs'
      obtain ⟨h1, h2, h3, h4⟩ := h.opened s' hs'
      refine ⟨by omega, h2, h3, ?_⟩
      intro j h5 h6
      by_cases hji : j + g < i
      · exact h4 j h5 hji
      · exact ⟨i, by omega, by omega, hai⟩
  | false =>
    have hai : ¬ AnomalousAt th a i := by rw [← anomalousAt_iff, ha]; simp
    cases hs : st.start with
    | none =>
      dsimp only
      refine ⟨h.len, ?_, (by intro s hs'; rw [hs] at hs'; cases hs'), ?_⟩
      · intro _ k hk hka
        rcases Nat.lt_succ_iff_lt_or_eq.1 hk with hk | hk
        · have := h.closed hs k hk hka
          omega
        · rw [hk] at hka
          exact absurd hka hai
      · refine marks_same h.marks ?_
        intro s e he hei
        have := h.closed hs e (by omega) he.last
        omega
    | some s =>
      dsimp only
      obtain ⟨hsi, hsa, hsb, hsw⟩ := h.opened s hs
      cases hg : gapExceeded th a g i with
      | false =>
        simp only [Bool.false_eq_true, if_false]
        have hex : ∃ k, i - g ≤ k ∧ k ≤ i ∧ AnomalousAt th a k := by
          by_contra hcon
          have : gapExceeded th a g i = true := by
            rw [gapExceeded_iff]
            intro j h1 h2 h3
            exact hcon ⟨j, h1, h2, h3⟩
          rw [hg] at this
          cases this
        obtain ⟨k, hk1, hk2, hk3⟩ := hex
        refine ⟨h.len, (by intro hh; rw [hs] at hh; cases hh), ?_, ?_⟩
        · intro s' hs'
          rw [hs] at hs'
          injection hs' with hs'
          subst hs'
          refine ⟨by omega, hsa, hsb, ?_⟩
          intro j h5 h6
          by_cases hji : j + g < i
          · exact hsw j h5 hji
          · exact ⟨k, by omega, by omega, hk3⟩
        · refine marks_same h.marks ?_
          intro s' e he hei
          have := he.after k hk3 (by omega)
          omega
      | true =>
        simp only [if_true]
        rw [gapExceeded_iff] at hg
        -- the event ends just before the gap
        have hle : s + g + 1 ≤ i := by
          by_contra hcon
          exact hg s (by omega) (by omega) hsa
        obtain ⟨e, he⟩ : ∃ e, i = e + g + 1 := ⟨i - g - 1, by omega⟩
        have hea : AnomalousAt th a e := by
          obtain ⟨k, hk1, hk2, hk3⟩ := hsw e (by omega) (by omega)
          have : k = e := by
            by_contra hne
            exact hg k (by omega) (by omega) hk3
          rw [← this]
          exact hk3
        have hev : IsEvent th a g s e := by
          refine ⟨by omega, hsa, hea, ?_, hsb, ?_⟩
          · intro j h1 h2
            exact hsw j h1 (by omega)
          · intro k hk hke
            by_contra hcon
            exact hg k (by omega) (by omega) hk
        have hmarks : ∀ j, (closeEvent minP g i s st.marks)[(j : ℕ)]? = some true ↔
            ∃ s e, IsEvent th a g s e ∧ e + g + 1 < i + 1 ∧ minP ≤ (e : Int) - s + 1 ∧ s ≤ j ∧ j ≤ e := by
          intro j
          have hig : i - g = e + 1 := by omega
          have hiz : ((i : Int) - g) = e + 1 := by omega
          unfold closeEvent
          rw [hiz, hig]
          split
          · rename_i hlt
            rw [h.marks]
            constructor
            · rintro ⟨s', e', h1, h2, h3⟩
              exact ⟨s', e', h1, by omega, h3⟩
            · rintro ⟨s', e', h1, h2, h3, h4⟩
              refine ⟨s', e', h1, ?_, h3, h4⟩
              by_contra hcon
              have : e' = e := by omega
              subst this
              have := isEvent_unique hev h1
              omega
          · rename_i hge
            rw [getElem?_markRange, h.marks]
            constructor
            · rintro ⟨_, ⟨s', e', h1, h2, h3⟩ | ⟨h1, h2⟩⟩
              · exact ⟨s', e', h1, by omega, h3⟩
              · exact ⟨s, e, hev, by omega, by omega, h1, by omega⟩
            · rintro ⟨s', e', h1, h2, h3, h4, h5⟩
              refine ⟨?_, ?_⟩
              · rw [h.len]
                have := h1.last.lt
                omega
              · by_cases hlt : e' + g + 1 < i
                · exact Or.inl ⟨s', e', h1, hlt, h3, h4, h5⟩
                · right
                  have : e' = e := by omega
                  subst this
                  have := isEvent_unique hev h1
                  omega
        refine ⟨?_, ?_, (by intro s' hs'; cases hs'), hmarks⟩
        · dsimp only
          unfold closeEvent
          split
          · exact h.len
          · rw [length_markRange]; exact h.len
        · intro _ k hk hka
          by_contra hcon
          exact hg k (by omega) (by omega) hka

theorem evInv_loop (th : ℚ) (minP : Int) (g : ℕ) (a : List ℚ) : ∀ n : ℕ,
    EvInv th minP g a ((List.range n).foldl (evStep th minP g a) ⟨none, List.replicate a.length false⟩) n := by
  intro n
  induction n with
  | zero => exact evInv_zero th minP g a
  | succ n ih =>
    rw [List.range_succ, List.foldl_append]
    exact evInv_step ih

/-- **C66**: if the series does not end within an event (its last `g + 1` items are normal), exactly the
items of the events of at least the minimum persistence are marked, and nothing is raised. -/
theorem C66_closed (th : ℚ) (minP : Int) (g : ℕ) (a : List ℚ)
    (hend : ∀ k, AnomalousAt th a k → k + g + 1 < a.length) :
    ∃ m, eventMarks th minP g a = .ok m ∧ m.length = a.length ∧
      ∀ j, m[(j : ℕ)]? = some true ↔
        ∃ s e, IsEvent th a g s e ∧ minP ≤ (e : Int) - s + 1 ∧ s ≤ j ∧ j ≤ e := by
  have h := evInv_loop th minP g a a.length
  unfold eventMarks
  generalize hst : (List.range a.length).foldl (evStep th minP g a) ⟨none, List.replicate a.length false⟩ = st at h
  have hnone : st.start = none := by
    cases hs : st.start with
    | none => rfl
    | some s =>
      exfalso
      obtain ⟨hsi, hsa, _, hsw⟩ := h.opened s hs
      have h1 := hend s hsa
      obtain ⟨k, hk1, hk2, hk3⟩ := hsw (a.length - 1 - g) (by omega) (by omega)
      have := hend k hk3
      omega
  refine ⟨st.marks, ?_, h.len, ?_⟩
  · unfold finishEvents
    rw [hnone]
  · intro j
    rw [h.marks]
    constructor
    · rintro ⟨s, e, h1, _, h3⟩
      exact ⟨s, e, h1, h3⟩
    · rintro ⟨s, e, h1, h3⟩
      exact ⟨s, e, h1, hend e h1.last, h3⟩

theorem mapE_anomalyOf {l : List Item} {a : List ℚ}
    (h : l.map (fun x => x.idx.get? "anomaly") = a.map (fun v => some (some v))) :
    mapE anomalyOf l = .ok a := by
  induction l generalizing a with
  | nil =>
    cases a with
    | nil => rfl
    | cons v a => simp at h
  | cons x l ih =>
    cases a with
    | nil => simp at h
    | cons v a =>
      simp only [List.map_cons, List.cons.injEq] at h
      unfold mapE
      rw [ih h.2]
      simp [anomalyOf, h.1]

/-- **C66** (the series): each item is returned with the same data, time and other indexes, and with an
`anomaly_event` index (or, with `replace`, an `anomaly` index) of 1 if it is in an event of at least the
minimum persistence and 0 otherwise. -/
theorem C66_items (th : ℚ) (minP : Int) (g : ℕ) (l : List Item) (a : List ℚ)
    (hidx : l.map (fun x => x.idx.get? "anomaly") = a.map (fun v => some (some v)))
    (hend : ∀ k, AnomalousAt th a k → k + g + 1 < a.length) (replace : Bool) :
    ∃ r, markEvents th minP g replace l = .ok r ∧ r.length = l.length ∧
      ∀ (j : ℕ) (x : Item), l[j]? = some x → ∃ y, r[j]? = some y ∧
        y.t = x.t ∧ y.slot = x.slot ∧ y.data = x.data ∧ y.tz = x.tz ∧
        (∀ n, n ≠ "anomaly" → n ≠ "anomaly_event" → y.idx.get? n = x.idx.get? n) ∧
        ((∃ s e, IsEvent th a g s e ∧ minP ≤ (e : Int) - s + 1 ∧ s ≤ j ∧ j ≤ e) →
          y.idx.get? (if replace then "anomaly" else "anomaly_event") = some (some 1)) ∧
        ((¬ ∃ s e, IsEvent th a g s e ∧ minP ≤ (e : Int) - s + 1 ∧ s ≤ j ∧ j ≤ e) →
          y.idx.get? (if replace then "anomaly" else "anomaly_event") = some (some 0)) ∧
        (replace = false → y.idx.get? "anomaly" = x.idx.get? "anomaly") ∧
        (replace = true → y.idx.get? "anomaly_event" = none) := by
  obtain ⟨m, hm, hlen, hmark⟩ := C66_closed th minP g a hend
  have hla : l.length = a.length := by simpa using congrArg List.length hidx
  have hread : mapE anomalyOf l = .ok a := mapE_anomalyOf hidx
  refine ⟨List.zipWith (withEvent replace) l m, ?_, ?_, ?_⟩
  · unfold markEvents
    rw [hread]
    dsimp only
    rw [hm]
  · simp [hlen, hla]
  · intro j x hx
    have hj := (List.getElem?_eq_some_iff.1 hx).1
    obtain ⟨b, hb⟩ : ∃ b, m[j]? = some b := ⟨m[j]'(by omega), List.getElem?_eq_getElem _⟩
    refine ⟨withEvent replace x b, ?_, rfl, rfl, rfl, rfl, ?_, ?_, ?_, ?_, ?_⟩
    · rw [List.getElem?_zipWith, hx, hb]
    · intro n h1 h2
      unfold withEvent eventIdx
      cases replace <;> simp [Dict.get?_set, Dict.get?_erase, h1, h2, Ne.symm h1, Ne.symm h2]
    · intro hin
      have := (hmark j).2 hin
      rw [hb] at this
      injection this with this
      subst this
      unfold withEvent eventIdx
      cases replace <;> simp [Dict.get?_set, eventVal]
    · intro hin
      have hbf : b = false := by
        cases b with
        | false => rfl
        | true => exact absurd ((hmark j).1 hb) hin
      subst hbf
      unfold withEvent eventIdx
      cases replace <;> simp [Dict.get?_set, eventVal]
    · intro hr
      subst hr
      simp [withEvent, eventIdx, Dict.get?_set]
    · intro hr
      subst hr
      simp [withEvent, eventIdx, Dict.get?_set, Dict.get?_erase]

theorem lastEnd_found {th : ℚ} {a : List ℚ} {s e : ℕ} (hse : s < e) (he : AnomalousAt th a e) :
    ∀ n, e < n → (∀ k, AnomalousAt th a k → k < n → k ≤ e) → lastEnd th a s n = e := by
  intro n
  induction n with
  | zero => intro h; omega
  | succ n ih =>
    intro hn hmax
    unfold lastEnd
    by_cases hen : e = n
    · subst hen
      rw [if_pos hse, if_pos (anomalousAt_iff.2 he)]
    · have hna : ¬ AnomalousAt th a n := by
        intro h
        have := hmax n h (by omega)
        omega
      rw [if_pos (by omega), if_neg (by rw [anomalousAt_iff]; exact hna)]
      exact ih (by omega) (fun k hk hkn => hmax k hk (by omega))

theorem lastEnd_none {th : ℚ} {a : List ℚ} {s : ℕ} :
    ∀ n, (∀ k, AnomalousAt th a k → k < n → k ≤ s) → lastEnd th a s n = a.length := by
  intro n
  induction n with
  | zero => intro _; rfl
  | succ n ih =>
    intro hmax
    unfold lastEnd
    split
    · rename_i hsn
      have hna : ¬ AnomalousAt th a n := by
        intro h
        have := hmax n h (by omega)
        omega
      rw [if_neg (by rw [anomalousAt_iff]; exact hna)]
      exact ih (fun k hk hkn => hmax k hk (by omega))
    · rfl

/-- the state at the end, if the series ends within an event -/
theorem open_at_end {th : ℚ} {minP : Int} {g : ℕ} {a : List ℚ} {s e : ℕ} {st : EvState}
    (h : EvInv th minP g a st a.length) (hev : IsEvent th a g s e) (hopen : a.length ≤ e + g + 1) :
    st.start = some s ∧ ∀ k, AnomalousAt th a k → k ≤ e := by
  have hmax : ∀ k, AnomalousAt th a k → k ≤ e := by
    intro k hk
    by_contra hlt
    have h1 := hev.after k hk (by omega)
    have h2 := hk.lt
    omega
  refine ⟨?_, hmax⟩
  cases hs : st.start with
  | none =>
    have := h.closed hs e hev.last.lt hev.last
    omega
  | some s' =>
    obtain ⟨h1, h2, h3, h4⟩ := h.opened s' hs
    have hev' : IsEvent th a g s' e := by
      refine ⟨hmax s' h2, h2, hev.last, ?_, h3, ?_⟩
      · intro j h5 h6
        exact h4 j h5 (by have := hev.last.lt; omega)
      · intro k hk hek
        have := hmax k hk
        omega
    rw [isEvent_unique hev' hev]

/-- **C127** (what happens at the end): if the series ends within an event, all the other events are
marked as they should; the last one, if of more than one item, is marked if it is *one item longer* than
the minimum persistence; if it is of one item, nothing is marked or an `IndexError` is raised, according to
the number of items from it to the end. -/
theorem C127_end_partial (th : ℚ) (minP : Int) (g : ℕ) (a : List ℚ) (s e : ℕ)
    (hev : IsEvent th a g s e) (hopen : a.length ≤ e + g + 1) :
    (s = e → minP ≤ (a.length : Int) - s → eventMarks th minP g a = .error .indexError) ∧
    ((s < e ∨ (a.length : Int) - s < minP) → ∃ m, eventMarks th minP g a = .ok m ∧ m.length = a.length ∧
      ∀ j, m[(j : ℕ)]? = some true ↔ ∃ s' e', IsEvent th a g s' e' ∧ s' ≤ j ∧ j ≤ e' ∧
        (if e' = e then minP ≤ (e' : Int) - s' else minP ≤ (e' : Int) - s' + 1)) := by
  have h := evInv_loop th minP g a a.length
  unfold eventMarks
  generalize hst : (List.range a.length).foldl (evStep th minP g a) ⟨none, List.replicate a.length false⟩ = st at h
  obtain ⟨hs, hmax⟩ := open_at_end h hev hopen
  have hel := hev.last.lt
  have hother : ∀ s' e', IsEvent th a g s' e' → e' ≠ e → e' + g + 1 < a.length := by
    intro s' e' h1 h2
    have h3 := hmax e' h1.last
    have := h1.after e hev.last (by omega)
    omega
  unfold finishEvents
  rw [hs]
  dsimp only
  constructor
  · intro hse hlen
    have hl : lastEnd th a s a.length = a.length :=
      lastEnd_none a.length (fun k hk _ => by have := hmax k hk; omega)
    rw [hl, if_neg (by omega), if_pos rfl]
  · intro hcase
    have hold : ∀ j, st.marks[(j : ℕ)]? = some true ↔ ∃ s' e', IsEvent th a g s' e' ∧ s' ≤ j ∧ j ≤ e' ∧
        e' ≠ e ∧ minP ≤ (e' : Int) - s' + 1 := by
      intro j
      rw [h.marks]
      constructor
      · rintro ⟨s', e', h1, h2, h3, h4, h5⟩
        exact ⟨s', e', h1, h4, h5, by omega, h3⟩
      · rintro ⟨s', e', h1, h2, h3, h4, h5⟩
        exact ⟨s', e', h1, hother s' e' h1 h4, h5, h2, h3⟩
    by_cases hse : s = e
    · have hlt : (a.length : Int) - s < minP := by omega
      have hl : lastEnd th a s a.length = a.length :=
        lastEnd_none a.length (fun k hk _ => by have := hmax k hk; omega)
      rw [hl, if_pos hlt]
      refine ⟨st.marks, rfl, h.len, ?_⟩
      intro j
      rw [hold]
      constructor
      · rintro ⟨s', e', h1, h2, h3, h4, h5⟩
        exact ⟨s', e', h1, h2, h3, by rw [if_neg h4]; exact h5⟩
      · rintro ⟨s', e', h1, h2, h3, h4⟩
        by_cases hee : e' = e
        · rw [if_pos hee] at h4
          subst hee
          have := isEvent_unique hev h1
          omega
        · rw [if_neg hee] at h4
          exact ⟨s', e', h1, h2, h3, hee, h4⟩
    · have hlt : s < e := by have := hev.le; omega
      have hl : lastEnd th a s a.length = e :=
        lastEnd_found hlt hev.last a.length hel (fun k hk _ => hmax k hk)
      rw [hl]
      by_cases hp : (e : Int) - s < minP
      · rw [if_pos hp]
        refine ⟨st.marks, rfl, h.len, ?_⟩
        intro j
        rw [hold]
        constructor
        · rintro ⟨s', e', h1, h2, h3, h4, h5⟩
          exact ⟨s', e', h1, h2, h3, by rw [if_neg h4]; exact h5⟩
        · rintro ⟨s', e', h1, h2, h3, h4⟩
          by_cases hee : e' = e
          · rw [if_pos hee] at h4
            subst hee
            have := isEvent_unique hev h1
            omega
          · rw [if_neg hee] at h4
            exact ⟨s', e', h1, h2, h3, hee, h4⟩
      · rw [if_neg hp, if_neg (by omega)]
        refine ⟨_, rfl, by rw [length_markRange]; exact h.len, ?_⟩
        intro j
        rw [getElem?_markRange, hold, h.len]
        constructor
        · rintro ⟨_, ⟨s', e', h1, h2, h3, h4, h5⟩ | ⟨h1, h2⟩⟩
          · exact ⟨s', e', h1, h2, h3, by rw [if_neg h4]; exact h5⟩
          · exact ⟨s, e, hev, h1, by omega, by rw [if_pos rfl]; omega⟩
        · rintro ⟨s', e', h1, h2, h3, h4⟩
          refine ⟨by have := h1.last.lt; omega, ?_⟩
          by_cases hee : e' = e
          · right
            subst hee
            have := isEvent_unique hev h1
            omega
          · left
            rw [if_neg hee] at h4
            exact ⟨s', e', h1, h2, h3, hee, h4⟩

/-- the anomaly index of item `j` -/
theorem anomalousAt_cases {th : ℚ} {a : List ℚ} {j : ℕ} :
    AnomalousAt th a j ↔ (a[j]?).elim False (fun v => th ≤ v) := by
  unfold AnomalousAt
  cases a[j]? <;> simp

/-- **C127** is false: with the default settings, two anomalous items at the end of the series are an event
of persistence 2, and are not marked; and one anomalous item next to the end raises an `IndexError`. -/
theorem C127_false :
    IsEvent 1 [0, 0, 0, 1, 1] 2 3 4 ∧ (2 : Int) ≤ (4 : ℕ) - (3 : ℕ) + 1 ∧
    eventMarks 1 2 2 [0, 0, 0, 1, 1] = .ok [false, false, false, false, false] ∧
    eventMarks 1 2 2 [0, 1, 0] = .error .indexError := by
  have hcases : ∀ k, AnomalousAt 1 [0, 0, 0, 1, 1] k → k = 3 ∨ k = 4 := by
    intro k hk
    have hl : k < 5 := by simpa using hk.lt
    rw [anomalousAt_cases] at hk
    interval_cases k <;> simp at hk <;> simp
    all_goals exact absurd hk (by norm_num)
  have h3 : AnomalousAt 1 [0, 0, 0, 1, 1] 3 := ⟨1, rfl, le_refl _⟩
  have h4 : AnomalousAt 1 [0, 0, 0, 1, 1] 4 := ⟨1, rfl, le_refl _⟩
  refine ⟨⟨by omega, h3, h4, ?_, ?_, ?_⟩, by norm_num, by decide +kernel, by decide +kernel⟩
  · intro j h1 h2
    omega
  · intro k hk hlt
    have := hcases k hk
    omega
  · intro k hk hlt
    have := hcases k hk
    omega

/-- the hypotheses of C66 can be met: an event of persistence 4 with a gap inside, and a lone anomaly -/
example : (∀ k, AnomalousAt 1 [0, 1, 0, 0, 1, 0, 0, 0, 1, 0, 0, 0] k → k + 2 + 1 < 12) ∧
    eventMarks 1 2 2 [0, 1, 0, 0, 1, 0, 0, 0, 1, 0, 0, 0] =
      .ok [false, true, true, true, true, false, false, false, false, false, false, false] := by
  refine ⟨?_, by decide +kernel⟩
  intro k hk
  have hl : k < 12 := by simpa using hk.lt
  rw [anomalousAt_cases] at hk
  interval_cases k <;> first | (norm_num; done) | exact absurd hk (by norm_num)

/-! ## C128: items without an anomaly index -/

/-- **C128** is false: if one item has no `anomaly` index (as the items passed through because of their
data loss), marking the events raises a `KeyError`. -/
theorem C128_false (th : ℚ) (minP : Int) (g : ℕ) (replace : Bool) (l r : List Item) (x : Item)
    (hl : ∀ y ∈ l, ∃ v, y.idx.get? "anomaly" = some (some v)) (hx : x.idx.get? "anomaly" = none) :
    markEvents th minP g replace (l ++ x :: r) = .error .keyError := by
  have : mapE anomalyOf (l ++ x :: r) = .error .keyError := by
    induction l with
    | nil =>
      rw [List.nil_append]
      unfold mapE
      simp [anomalyOf, hx]
    | cons y l ih =>
      rw [List.cons_append]
      unfold mapE
      obtain ⟨v, hv⟩ := hl y (by simp)
      rw [ih (fun z hz => hl z (by simp [hz]))]
      simp [anomalyOf, hv]
  unfold markEvents
  rw [this]

theorem eventMarks_outcome (th : ℚ) (minP : Int) (g : ℕ) (a : List ℚ) :
    (∃ m, eventMarks th minP g a = .ok m ∧ m.length = a.length) ∨ eventMarks th minP g a = .error .indexError := by
  have h := evInv_loop th minP g a a.length
  unfold eventMarks
  generalize hst : (List.range a.length).foldl (evStep th minP g a) ⟨none, List.replicate a.length false⟩ = st at h
  unfold finishEvents
  cases st.start with
  | none => exact Or.inl ⟨_, rfl, h.len⟩
  | some s =>
    dsimp only
    split
    · exact Or.inl ⟨_, rfl, h.len⟩
    · split
      · exact Or.inr rfl
      · exact Or.inl ⟨_, rfl, by rw [length_markRange]; exact h.len⟩

/-- **C128** (partial): if all the items have an anomaly index, only the end of the series can make the
marking fail, and the number of items never changes. -/
theorem C128_partial (th : ℚ) (minP : Int) (g : ℕ) (replace : Bool) (l : List Item)
    (hl : ∀ y ∈ l, ∃ v, y.idx.get? "anomaly" = some (some v)) :
    (∃ r, markEvents th minP g replace l = .ok r ∧ r.length = l.length) ∨
      markEvents th minP g replace l = .error .indexError := by
  obtain ⟨a, ha⟩ : ∃ a : List ℚ, l.map (fun x => x.idx.get? "anomaly") = a.map (fun v => some (some v)) := by
    induction l with
    | nil => exact ⟨[], rfl⟩
    | cons x l ih =>
      obtain ⟨a, ha⟩ := ih (fun y hy => hl y (by simp [hy]))
      obtain ⟨v, hv⟩ := hl x (by simp)
      exact ⟨v :: a, by simp [ha, hv]⟩
  have hla : l.length = a.length := by simpa using congrArg List.length ha
  unfold markEvents
  rw [mapE_anomalyOf ha]
  dsimp only
  rcases eventMarks_outcome th minP g a with ⟨m, hm, hlen⟩ | hm
  · left
    rw [hm]
    exact ⟨_, rfl, by rw [List.length_zipWith]; omega⟩
  · right
    rw [hm]

end Timeseria
