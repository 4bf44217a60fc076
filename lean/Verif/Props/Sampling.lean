import Verif.Model.Utilities
import Verif.Spec

/-! # C38, C83, C84: detection of the sampling interval -/

namespace Timeseria

/-! ## Lemmas on counting -/

theorem countInc_keys (d : Counts) (x : ℚ) :
    (countInc d x).map Prod.fst = if x ∈ d.map Prod.fst then d.map Prod.fst else d.map Prod.fst ++ [x] := by
  induction d with
  | nil => simp [countInc]
  | cons p r ih =>
    obtain ⟨y, c⟩ := p
    simp only [countInc]
    by_cases h : y = x
    · simp [h]
    · rw [if_neg h, List.map_cons, ih]
      by_cases h2 : x ∈ r.map Prod.fst
      · simp [h2]
      · have : x ∉ y :: r.map Prod.fst := by simp [h2]; exact fun e => h e.symm
        rw [if_neg h2, List.map_cons, if_neg this]; simp

/-- `d` counts the elements of `l` -/
structure IsCount (d : Counts) (l : List ℚ) : Prop where
  nodup : (d.map Prod.fst).Nodup
  mem : ∀ x, x ∈ d.map Prod.fst ↔ x ∈ l
  cnt : ∀ x c, (x, c) ∈ d → c = l.count x

theorem countInc_entry (d : Counts) (x y : ℚ) (c : ℕ) (hd : (d.map Prod.fst).Nodup) (h : (y, c) ∈ countInc d x) :
    (y ≠ x ∧ (y, c) ∈ d) ∨ (y = x ∧ ((x ∉ d.map Prod.fst ∧ c = 1) ∨ ∃ c', (x, c') ∈ d ∧ c = c' + 1)) := by
  induction d with
  | nil => simp [countInc] at h; simp [h]
  | cons p r ih =>
    obtain ⟨z, e⟩ := p
    rw [List.map_cons, List.nodup_cons] at hd
    simp only [countInc] at h
    by_cases hz : z = x
    · rw [if_pos hz] at h
      rcases List.mem_cons.1 h with h | h
      · cases h
        right; exact ⟨hz, .inr ⟨e, by simp [hz], rfl⟩⟩
      · by_cases hy : y = x
        · exfalso; apply hd.1; simp only
          rw [hz, ← hy]; exact List.mem_map_of_mem (f := Prod.fst) h
        · left; exact ⟨hy, by simp [h]⟩
    · rw [if_neg hz] at h
      rcases List.mem_cons.1 h with h | h
      · cases h; left; exact ⟨hz, by simp⟩
      · rcases ih hd.2 h with ⟨h1, h2⟩ | ⟨h1, h2⟩
        · left; exact ⟨h1, by simp [h2]⟩
        · right; refine ⟨h1, ?_⟩
          rcases h2 with ⟨h3, h4⟩ | ⟨c', h3, h4⟩
          · left; refine ⟨?_, h4⟩; simp only [List.map_cons, List.mem_cons, not_or]
            exact ⟨fun e => hz e.symm, h3⟩
          · right; exact ⟨c', by simp [h3], h4⟩

theorem IsCount.inc {d : Counts} {l : List ℚ} (h : IsCount d l) (x : ℚ) : IsCount (countInc d x) (l ++ [x]) := by
  refine ⟨?_, ?_, ?_⟩
  · rw [countInc_keys]
    split_ifs with hx
    · exact h.nodup
    · rw [List.nodup_append]
      refine ⟨h.nodup, by simp, ?_⟩
      intro a ha b hb; simp at hb; subst hb
      intro e; subst e; exact hx ha
  · intro y
    rw [countInc_keys]
    split_ifs with hx
    · rw [h.mem y]
      constructor
      · intro hy; simp [hy]
      · intro hy
        rcases List.mem_append.1 hy with hy | hy
        · exact hy
        · simp at hy; subst hy; exact (h.mem y).1 hx
    · simp only [List.mem_append, h.mem y]
  · intro y c hy
    rw [List.count_append, List.count_singleton]
    rcases countInc_entry d x y c h.nodup hy with ⟨h1, h2⟩ | ⟨h1, h2⟩
    · rw [if_neg (by simp; exact fun e => h1 e.symm), h.cnt y c h2]; rfl
    · subst h1
      rcases h2 with ⟨h3, h4⟩ | ⟨c', h3, h4⟩
      · rw [h.mem y] at h3
        rw [List.count_eq_zero_of_not_mem h3, h4]; simp
      · rw [h4, h.cnt y c' h3]; simp

theorem isCount_nil : IsCount [] [] := ⟨by simp, by simp, by simp⟩

theorem diffLoop_some (p : ℚ) (r : List ℚ) (d : Counts) (l : List ℚ) (h : IsCount d l) :
    IsCount (diffLoop (some p) d r) (l ++ spacings (p :: r)) := by
  induction r generalizing p d l with
  | nil => simpa [diffLoop, spacings] using h
  | cons t r ih =>
    have := ih t _ _ (h.inc (t - p))
    simpa [diffLoop, spacings] using this

theorem diffLoop_count (ts : List ℚ) : IsCount (diffLoop none [] ts) (spacings ts) := by
  cases ts with
  | nil => simpa [diffLoop, spacings] using isCount_nil
  | cons t r => simpa [diffLoop] using diffLoop_some t r [] [] isCount_nil

theorem fold_count {α : Type} (f : α → ℚ) (l : List α) (d : Counts) (m : List ℚ) (h : IsCount d m) :
    IsCount (l.foldl (fun acc x => countInc acc (f x)) d) (m ++ l.map f) := by
  induction l generalizing d m with
  | nil => simpa using h
  | cons a r ih => simpa using ih _ _ (h.inc (f a))

theorem mostCommonLoop_spec (d : Counts) (acc : Option ℚ × ℕ) :
    let m := mostCommonLoop acc d
    (m = acc ∨ ∃ x, m.1 = some x ∧ (x, m.2) ∈ d) ∧ acc.2 ≤ m.2 ∧ ∀ x c, (x, c) ∈ d → c ≤ m.2 := by
  induction d generalizing acc with
  | nil => simp [mostCommonLoop]
  | cons p r ih =>
    obtain ⟨x, c⟩ := p
    simp only [mostCommonLoop]
    obtain ⟨i1, i2, i3⟩ := ih (if c > acc.2 then (some x, c) else acc)
    have hle : acc.2 ≤ (if c > acc.2 then (some x, c) else acc).2 ∧ c ≤ (if c > acc.2 then (some x, c) else acc).2 := by
      split_ifs with h
      · exact ⟨le_of_lt h, le_refl _⟩
      · exact ⟨le_refl _, not_lt.1 h⟩
    refine ⟨?_, le_trans hle.1 i2, ?_⟩
    · rcases i1 with i1 | ⟨y, i1, i4⟩
      · by_cases h : c > acc.2
        · rw [if_pos h] at i1
          right
          rw [if_pos h, i1]
          exact ⟨x, rfl, by simp⟩
        · rw [if_neg h] at i1; left; rw [if_neg h]; exact i1
      · right; exact ⟨y, i1, by simp [i4]⟩
    · intro y e hy
      rcases List.mem_cons.1 hy with hy | hy
      · cases hy; exact le_trans hle.2 i2
      · exact i3 y e hy

/-- the outcome when the loop stops with the counts `d` of the list `l` -/
theorem mostCommon_of_count {d : Counts} {l : List ℚ} (h : IsCount d l) (hl : l ≠ []) :
    ∃ x, (mostCommonLoop (none, 0) d).1 = some x ∧ 0 < (mostCommonLoop (none, 0) d).2 ∧ x ∈ l ∧
      (∀ y, l.count y ≤ l.count x) := by
  obtain ⟨h1, _, h3⟩ := mostCommonLoop_spec d (none, 0)
  rcases l with _ | ⟨a, r⟩
  · exact absurd rfl hl
  have ha : a ∈ d.map Prod.fst := (h.mem a).2 (by simp)
  obtain ⟨⟨a', c⟩, hac, e⟩ := List.mem_map.1 ha
  simp only at e; subst e
  have hc := h.cnt _ _ hac
  have hpos : 0 < c := by rw [hc]; exact List.count_pos_iff.2 (by simp)
  have h4 := h3 _ _ hac
  rcases h1 with h1 | ⟨x, h5, h6⟩
  · rw [h1] at h4; simp only at h4; omega
  · refine ⟨x, h5, by omega, ?_, ?_⟩
    · exact (h.mem x).1 (List.mem_map_of_mem (f := Prod.fst) h6)
    · intro y
      by_cases hy : y ∈ (a' :: r)
      · obtain ⟨⟨y', e⟩, hye, e1⟩ := List.mem_map.1 ((h.mem y).2 hy)
        simp only at e1; subst e1
        rw [← h.cnt _ _ hye, ← h.cnt _ _ h6]
        exact h3 _ _ hye
      · rw [List.count_eq_zero_of_not_mem hy]; exact Nat.zero_le _

/-! ## C38 -/

/-- the number of different spacings -/
def distinctSpacings (ts : List ℚ) : ℕ := (spacings ts).dedup.length

theorem IsCount.length {d : Counts} {l : List ℚ} (h : IsCount d l) : d.length = l.dedup.length := by
  have : (d.map Prod.fst).Perm l.dedup := by
    rw [List.perm_ext_iff_of_nodup h.nodup l.nodup_dedup]
    intro x; rw [h.mem x, List.mem_dedup]
  simpa using this.length_eq

theorem spacings_len_le (ts : List ℚ) : (spacings ts).length ≤ ts.length - 1 := by
  induction ts with
  | nil => simp [spacings]
  | cons a r ih =>
    cases r with
    | nil => simp [spacings]
    | cons b r => simp only [spacings, List.length_cons] at ih ⊢; omega

theorem spacings_ne_nil {ts : List ℚ} (h : 2 ≤ ts.length) : spacings ts ≠ [] := by
  rcases ts with _ | ⟨a, _ | ⟨b, r⟩⟩ <;> simp [spacings] at h ⊢

/-- **C38 (most common spacing)**: when the number of different spacings is at most 95% of the number of
points, the detection terminates at once and returns a spacing that occurs in the series, at least as
often as every other one. -/
theorem C38_most_common (ts : List ℚ) (hn : 2 ≤ ts.length)
    (hd : (distinctSpacings ts : ℚ) ≤ 95 / 100 * ts.length) (k : ℕ) :
    ∃ x c, detectSampling (k + 1) ts = some (.ok (some x, c)) ∧ x ∈ spacings ts ∧
      ∀ y, (spacings ts).count y ≤ (spacings ts).count x := by
  have hc := diffLoop_count ts
  obtain ⟨x, h1, h2, h3, h4⟩ := mostCommon_of_count hc (spacings_ne_nil hn)
  have hpos : (0 : ℚ) < ts.length := by
    have : 0 < ts.length := by omega
    exact_mod_cast this
  have hlen : samplingLoop (k + 1) ts.length (diffLoop none [] ts) = some (diffLoop none [] ts) := by
    rw [samplingLoop, if_neg]
    unfold almostEqual
    rw [decide_eq_true_eq]
    rintro ⟨h5, _⟩
    rw [hc.length, lt_div_iff₀ hpos] at h5
    unfold distinctSpacings at hd
    linarith
  unfold detectSampling
  rw [if_neg (by omega), hlen]
  simp only [Option.map_some]
  by_cases hl : (diffLoop none [] ts).length = 1
  · exact ⟨x, 1, by rw [if_pos hl, h1], h3, h4⟩
  · rw [if_neg hl, if_neg (by omega), h1]
    exact ⟨x, _, rfl, h3, h4⟩

theorem spacings_const_dedup {d : ℚ} {l : List ℚ} (hl : l ≠ []) (h : ∀ x ∈ l, x = d) : l.dedup = [d] := by
  have : l = List.replicate l.length d := List.eq_replicate_iff.2 ⟨rfl, h⟩
  rw [this]
  rcases l with _ | ⟨a, r⟩
  · exact absurd rfl hl
  · simp only [List.length_cons]
    rw [List.replicate_dedup (by omega)]

/-- **C38 (uniform series)**: on a series of at least two points with constant spacing the detection returns
that spacing, with confidence 1. -/
theorem C38_uniform (ts : List ℚ) (hn : 2 ≤ ts.length) (d : ℚ) (hu : ∀ x ∈ spacings ts, x = d) (k : ℕ) :
    detectSampling (k + 1) ts = some (.ok (some d, 1)) := by
  have hc := diffLoop_count ts
  have hne := spacings_ne_nil hn
  have hlen : (diffLoop none [] ts).length = 1 := by
    rw [hc.length, spacings_const_dedup hne hu]; rfl
  obtain ⟨x, h1, h2, h3, h4⟩ := mostCommon_of_count hc hne
  have : x = d := hu x h3
  subst this
  unfold detectSampling
  rw [if_neg (by omega), samplingLoop, if_neg]
  · simp only [Option.map_some]
    rw [if_pos hlen, h1]
  · unfold almostEqual
    rw [hlen, decide_eq_true_eq]
    rintro ⟨h5, _⟩
    have h2' : (2 : ℚ) ≤ ts.length := by exact_mod_cast hn
    rw [lt_div_iff₀ (by linarith)] at h5
    push_cast at h5
    linarith

/-- **C38 (too few points)**: an empty series and a series of one point are refused by exceptions. -/
theorem C38_too_few (k : ℕ) (t : ℚ) : detectSampling (k + 1) [] = some (.error .zeroDivision) ∧
    detectSampling (k + 1) [t] = some (.error .zeroDivision) := by
  constructor
  · simp [detectSampling]
  · have h0 : almostEqual 0 1 = false := by decide +kernel
    simp [detectSampling, diffLoop, samplingLoop, h0, mostCommonLoop]

/-- concrete cases -/
theorem C38_witness : detectSampling 1 [0, 60, 120, 200, 260] = some (.ok (some 60, 2 / 3)) ∧
    distinctSpacings [0, 60, 120, 200, 260] = 2 ∧ detectSampling 1 [0, 60, 120] = some (.ok (some 60, 1)) := by
  decide +kernel

/-! ## C83: termination -/

theorem pyRound_int (n : ℤ) : pyRound n = n := by
  simp [pyRound]

theorem roundCounts_count (d : Counts) :
    IsCount (roundCounts d) ((d.map Prod.fst).map (fun x => (pyRound x : ℚ))) := by
  have := fold_count (fun x : ℚ => (pyRound x : ℚ)) (d.map Prod.fst) [] [] isCount_nil
  simpa [roundCounts] using this

/-- rounding keeps the number of differences if they are whole numbers -/
theorem roundCounts_length (d : Counts) (hn : (d.map Prod.fst).Nodup)
    (hi : ∀ x ∈ d.map Prod.fst, ∃ n : ℤ, x = n) :
    (roundCounts d).length = d.length ∧ ((roundCounts d).map Prod.fst).Nodup ∧
      ∀ x ∈ (roundCounts d).map Prod.fst, ∃ n : ℤ, x = n := by
  have hc := roundCounts_count d
  have e : (d.map Prod.fst).map (fun x => (pyRound x : ℚ)) = d.map Prod.fst := by
    conv_rhs => rw [← List.map_id (d.map Prod.fst)]
    apply List.map_congr_left
    intro x hx
    obtain ⟨n, rfl⟩ := hi x hx
    rw [pyRound_int]; rfl
  rw [e] at hc
  refine ⟨?_, hc.nodup, ?_⟩
  · rw [hc.length, hn.dedup]; simp
  · intro x hx; exact hi x ((hc.mem x).1 hx)

theorem samplingLoop_diverges (k n : ℕ) (d : Counts) (hn : (d.map Prod.fst).Nodup)
    (hi : ∀ x ∈ d.map Prod.fst, ∃ m : ℤ, x = m) (ha : almostEqual d.length n = true) :
    samplingLoop k n d = none := by
  induction k generalizing d with
  | zero => rfl
  | succ k ih =>
    obtain ⟨h1, h2, h3⟩ := roundCounts_length d hn hi
    rw [samplingLoop, if_pos ha]
    exact ih _ h2 h3 (by rw [h1]; exact ha)

/-- **C83 is false**: if the number of different spacings is above 95% of the number of points and they are
whole numbers of seconds, the detection never terminates: no number of iterations is enough. -/
theorem C83_false (ts : List ℚ) (hd : (95 : ℚ) / 100 * ts.length < distinctSpacings ts)
    (hi : ∀ x ∈ spacings ts, ∃ n : ℤ, x = n) (k : ℕ) : detectSampling k ts = none := by
  have hc := diffLoop_count ts
  have hlen : distinctSpacings ts < ts.length + 1 ∧ 0 < ts.length := by
    have h1 := spacings_len_le ts
    have h2 : distinctSpacings ts ≤ (spacings ts).length := (List.dedup_sublist _).length_le
    refine ⟨by omega, ?_⟩
    by_contra h0
    have h0 : ts.length = 0 := by omega
    rw [h0] at hd
    have : distinctSpacings ts = 0 := by omega
    rw [this] at hd
    simp at hd
  have hpos : (0 : ℚ) < ts.length := by exact_mod_cast hlen.2
  unfold detectSampling
  rw [if_neg (by omega), samplingLoop_diverges k _ _ hc.nodup]
  · rfl
  · intro x hx; exact hi x ((hc.mem x).1 hx)
  · unfold almostEqual
    rw [decide_eq_true_eq, hc.length]
    refine ⟨by rw [lt_div_iff₀ hpos]; exact hd, ?_⟩
    rw [div_le_iff₀ hpos]
    have : (distinctSpacings ts : ℚ) ≤ ts.length := by
      have := hlen.1
      exact_mod_cast (by omega : distinctSpacings ts ≤ ts.length)
    unfold distinctSpacings at this
    linarith

/-- twenty-two points, each spacing one second longer than the previous one -/
def slowingDown : List ℚ := (List.range 22).map (fun i => ((i * (i + 1) / 2 : ℕ) : ℚ))

/-- such series exist: the detection does not terminate on this one -/
theorem C83_false_witness (k : ℕ) : detectSampling k slowingDown = none := by
  have h : (95 : ℚ) / 100 * slowingDown.length < distinctSpacings slowingDown ∧
      ∀ x ∈ spacings slowingDown, x = ((pyRound x : ℤ) : ℚ) := by decide +kernel
  exact C83_false slowingDown h.1 (fun x hx => ⟨_, h.2 x hx⟩) k

/-- **C83, what holds**: the detection terminates if the different spacings, possibly after rounding them to
whole seconds, are at most 95% of the number of points; in the second case the result is a rounded
spacing. -/
theorem C83_terminates_partial (ts : List ℚ) (hn : 2 ≤ ts.length)
    (hd : (((spacings ts).dedup.map (fun x => (pyRound x : ℚ))).dedup.length : ℚ) ≤ 95 / 100 * ts.length) (k : ℕ) :
    ∃ x c, detectSampling (k + 2) ts = some (.ok (some x, c)) ∧
      (x ∈ spacings ts ∨ ∃ y ∈ spacings ts, x = pyRound y) := by
  by_cases h0 : (distinctSpacings ts : ℚ) ≤ 95 / 100 * ts.length
  · obtain ⟨x, c, h1, h2, _⟩ := C38_most_common ts hn h0 (k + 1)
    exact ⟨x, c, h1, .inl h2⟩
  · have hc := diffLoop_count ts
    have hr := roundCounts_count (diffLoop none [] ts)
    have hpos : (0 : ℚ) < ts.length := by
      have : 0 < ts.length := by omega
      exact_mod_cast this
    have hperm : ((diffLoop none [] ts).map Prod.fst).Perm (spacings ts).dedup := by
      rw [List.perm_ext_iff_of_nodup hc.nodup (List.nodup_dedup _)]
      intro x; rw [hc.mem x, List.mem_dedup]
    have hl2 : (roundCounts (diffLoop none [] ts)).length =
        ((spacings ts).dedup.map (fun x => (pyRound x : ℚ))).dedup.length := by
      rw [hr.length]
      exact ((hperm.map _).dedup).length_eq
    have hne : ((diffLoop none [] ts).map Prod.fst).map (fun x => (pyRound x : ℚ)) ≠ [] := by
      intro e
      have e2 : (diffLoop none [] ts).map Prod.fst = [] := by simpa using e
      rw [e2] at hperm
      have := hperm.nil_eq
      have h3 := spacings_ne_nil hn
      rcases hs : spacings ts with _ | ⟨a, r⟩
      · exact h3 hs
      · have hm : a ∈ (spacings ts).dedup := by rw [List.mem_dedup, hs]; simp
        rw [← this] at hm; simp at hm
    obtain ⟨x, h1, h2, h3, _⟩ := mostCommon_of_count hr hne
    have hx : ∃ y ∈ spacings ts, x = pyRound y := by
      obtain ⟨y, hy, e⟩ := List.mem_map.1 h3
      exact ⟨y, (hc.mem y).1 hy, e.symm⟩
    have hloop : samplingLoop (k + 2) ts.length (diffLoop none [] ts) = some (roundCounts (diffLoop none [] ts)) := by
      have hle : distinctSpacings ts ≤ ts.length := by
        have h1 := spacings_len_le ts
        exact le_trans (List.dedup_sublist _).length_le (by omega)
      rw [samplingLoop, if_pos, samplingLoop, if_neg]
      · unfold almostEqual
        rw [decide_eq_true_eq, hl2]
        rintro ⟨h5, _⟩
        rw [lt_div_iff₀ hpos] at h5
        linarith
      · unfold almostEqual
        rw [decide_eq_true_eq, hc.length]
        refine ⟨by rw [lt_div_iff₀ hpos]; exact not_le.1 h0, ?_⟩
        rw [div_le_iff₀ hpos]
        have : (distinctSpacings ts : ℚ) ≤ ts.length := by exact_mod_cast hle
        unfold distinctSpacings at this
        linarith
    unfold detectSampling
    rw [if_neg (by omega), hloop]
    simp only [Option.map_some]
    by_cases hl : (roundCounts (diffLoop none [] ts)).length = 1
    · exact ⟨x, 1, by rw [if_pos hl, h1], .inr hx⟩
    · rw [if_neg hl, if_neg (by omega), h1]
      exact ⟨x, _, rfl, .inr hx⟩

/-! ## C84: the cached value -/

/-- **C84 is false**: once read, the detected sampling interval never changes, whatever is appended later. -/
theorem C84_false (k : ℕ) (s : CachedSeries) (d : ℚ) (h : (s.query k).2 = some d) (more : List ℚ) :
    ((more.foldl CachedSeries.append (s.query k).1).query k).2 = some d := by
  have hc : (s.query k).1.cache = some d := by
    unfold CachedSeries.query at h ⊢
    cases hs : s.cache with
    | some e => rw [hs] at h; simp only at h ⊢; rw [hs]; exact h
    | none =>
      rw [hs] at h
      simp only at h ⊢
      split at h
      · simp only at h ⊢; exact h
      · simp at h
  have hk : ∀ (l : List ℚ) (c : CachedSeries), c.cache = some d →
      (l.foldl CachedSeries.append c).cache = some d := by
    intro l
    induction l with
    | nil => intro c hc; exact hc
    | cons a r ih => intro c hc; exact ih _ hc
  have := hk more _ hc
  generalize (more.foldl CachedSeries.append (s.query k).1) = c at this ⊢
  unfold CachedSeries.query
  rw [this]

/-- two series with the same points report different sampling intervals -/
theorem C84_false_witness :
    let early := (CachedSeries.query 5 { ts := [0, 60] }).1
    let s := [120 + 600, 720 + 600, 1320 + 600].foldl CachedSeries.append early
    (s.query 5).2 = some 60 ∧ (CachedSeries.query 5 { ts := s.ts }).2 = some 600 := by
  decide +kernel

/-- **C84, what holds**: a series whose sampling interval was never read reports the one detected on its
contents. -/
theorem C84_first_read_partial (k : ℕ) (ts : List ℚ) (x c : ℚ)
    (h : detectSampling k ts = some (.ok (some x, c))) : (CachedSeries.query k { ts := ts }).2 = some x := by
  simp [CachedSeries.query, h]

end Timeseria
