import Verif.SpecTransform
import Verif.Props.Interp
import Mathlib.Tactic

namespace Timeseria

theorem below_iff {ts : List ℚ} (hs : ts.Pairwise (· < ·)) {x : ℚ} {i : ℕ} {t : ℚ} (hi : ts[i]? = some t) :
    i < below ts x ↔ t < x := by
  induction ts generalizing i with
  | nil => simp at hi
  | cons a r ih =>
    rw [List.pairwise_cons] at hs
    rcases i with _ | i
    · simp only [List.getElem?_cons_zero, Option.some.injEq] at hi
      subst hi
      unfold below
      by_cases h : a < x
      · simp [h]
      · simp only [List.filter_cons, h, decide_false, Bool.false_eq_true, if_false, iff_false, not_lt, Nat.le_zero_eq,
          List.length_eq_zero_iff, List.filter_eq_nil_iff, decide_eq_true_eq]
        intro b hb
        have := hs.1 b hb
        push Not at h
        linarith
    · simp only [List.getElem?_cons_succ] at hi
      have ih' := ih hs.2 hi
      have hat : a < t := hs.1 t (List.mem_of_getElem? hi)
      by_cases h : a < x
      · have : below (a :: r) x = below r x + 1 := by simp [below, h]
        rw [this, ← ih']; omega
      · have h0 : below (a :: r) x = below r x := by simp [below, h]
        rw [h0]
        have : ¬ t < x := by linarith
        constructor
        · intro hh
          exact absurd (ih'.1 (by omega)) this
        · intro hh; exact absurd hh this

theorem below_le (ts : List ℚ) (x : ℚ) : below ts x ≤ ts.length := List.length_filter_le _ _

/-- `below` from the two neighbours of a boundary -/
theorem below_eq {ts : List ℚ} (hs : ts.Pairwise (· < ·)) {x : ℚ} {i : ℕ} {t : ℚ} (hi : ts[i]? = some t) (ht : x ≤ t)
    (hp : ∀ j < i, ∀ u, ts[j]? = some u → u < x) : below ts x = i := by
  have h1 : ¬ i < below ts x := fun h => absurd ((below_iff hs hi).1 h) (not_lt.2 ht)
  have h2 : ¬ below ts x < i := by
    intro h
    have hl : i < ts.length := (List.getElem?_eq_some_iff.1 hi).1
    have hb : below ts x < ts.length := by omega
    have hg : ts[below ts x]? = some ts[below ts x] := List.getElem?_eq_getElem hb
    have := (below_iff hs (x := x) hg).2 (hp _ h _ hg)
    omega
  omega

theorem edge_lt (g : Grid) (f : ℚ) (k : ℕ) : edge g f k + g.delta ≤ edge g f (k + 1) := g.hnext _

theorem edge_strictMono (g : Grid) (f : ℚ) : StrictMono (edge g f) :=
  strictMono_nat_of_lt_succ (fun k => by have := edge_lt g f k; have := g.hdelta; linarith)

theorem edge_mono (g : Grid) (f : ℚ) : Monotone (edge g f) := (edge_strictMono g f).monotone

theorem stampAt_nat {ts : List ℚ} {i : ℕ} {t : ℚ} (h : ts[i]? = some t) : stampAt ts (i : Int) = t := by
  unfold stampAt; rw [pyGet_nat h]

theorem expectedJobs_succ (g : Grid) (ts : List ℚ) (f : ℚ) (K : ℕ) :
    expectedJobs g ts f (K + 1) = expectedJobs g ts f K ++ [expectedJob ts (edge g f K) (edge g f (K + 1)) (K == 0)] := by
  simp [expectedJobs, List.range_succ]

theorem expectedJobs_isEmpty (g : Grid) (ts : List ℚ) (f : ℚ) (K : ℕ) : (expectedJobs g ts f K).isEmpty = (K == 0) := by
  cases K with
  | zero => rfl
  | succ n => rw [expectedJobs_succ]; simp

/-- the state of the loop while the `K`-th interval is open -/
def openState (g : Grid) (ts : List ℚ) (f : ℚ) (K : ℕ) (e : Bool) : LoopState where
  start := some (edge g f K)
  stop := edge g f (K + 1)
  prev := lastBefore ts (edge g f K)
  ended := e
  jobs := expectedJobs g ts f K

/-- the first and last point of the slot are found correctly -/
theorem slotEnds_expected {ts : List ℚ} (hs : ts.Pairwise (· < ·)) {a b : ℚ} {i : ℕ} {t : ℚ}
    (hi : ts[i]? = some t) (hb : b ≤ t) (hp : ∀ j < i, ∀ u, ts[j]? = some u → u < b) (hab : a ≤ b)
    (h0 : 0 < i) :
    slotEnds ts a b (lastBefore ts a) i = ((expectedJob ts a b false).first, (expectedJob ts a b false).last) := by
  have hbb : below ts b = i := below_eq hs hi hb hp
  have hil : i < ts.length := (List.getElem?_eq_some_iff.1 hi).1
  have hab' : below ts a ≤ i := by
    by_contra hc
    push Not at hc
    have := (below_iff hs hi).1 hc
    linarith
  -- the last one
  have hlast : ∀ u, ts[i - 1]? = some u → stampAt ts ((i : Int) - 1) = u := by
    intro u hu
    have : ((i : Int) - 1) = ((i - 1 : ℕ) : Int) := by omega
    rw [this]; exact stampAt_nat hu
  obtain ⟨u, hu⟩ : ∃ u, ts[i - 1]? = some u := ⟨_, List.getElem?_eq_getElem (by omega)⟩
  have hub : u < b := hp (i - 1) (by omega) u hu
  have hlu := hlast u hu
  simp only [expectedJob, hbb]
  unfold lastBefore
  by_cases hz : below ts a = 0
  · rw [if_pos hz]
    have hua : a ≤ u := by
      by_contra hc
      push Not at hc
      have := (below_iff hs hu (x := a)).2 hc
      omega
    simp only [slotEnds, hlu]
    have hin : inSlot a b u = true := by simp [inSlot, hua, hub]
    rw [if_pos hin, hz, if_neg (by omega), if_neg (by omega)]
  · rw [if_neg hz]
    simp only [slotEnds, hlu]
    by_cases he : below ts a = i
    · have : ((i : Int) - ((below ts a - 1 : ℕ) : Int)).natAbs = 1 := by omega
      rw [if_pos this, if_pos he, if_pos he]
    · have : ¬ ((i : Int) - ((below ts a - 1 : ℕ) : Int)).natAbs = 1 := by omega
      rw [if_neg this, if_neg he, if_neg he]
      have hsucc : below ts a - 1 + 1 = below ts a := by omega
      rw [hsucc]
      obtain ⟨v, hv⟩ : ∃ v, ts[below ts a]? = some v := ⟨_, List.getElem?_eq_getElem (by omega)⟩
      have hva : a ≤ v := by
        by_contra hc
        push Not at hc
        have := (below_iff hs hv (x := a)).2 hc
        omega
      have hvb : v < b := hp _ (by omega) v hv
      have hua : a ≤ u := by
        by_contra hc
        push Not at hc
        have := (below_iff hs hu (x := a)).2 hc
        omega
      rw [stampAt_nat hv]
      simp [inSlot, hva, hvb, hua, hub]

/-- one round -/
theorem advance_open {g : Grid} {ts : List ℚ} (hs : ts.Pairwise (· < ·)) {f : ℚ} {K : ℕ} {e : Bool} {i : ℕ} {t : ℚ}
    (hi : ts[i]? = some t) (hb : edge g f (K + 1) ≤ t) (h0 : 0 < i)
    (hp : ∀ j < i, ∀ u, ts[j]? = some u → u < edge g f (K + 1)) :
    advance g ts i (openState g ts f K e) = openState g ts f (K + 1) e := by
  have hbb : below ts (edge g f (K + 1)) = i := below_eq hs hi hb hp
  have hab : edge g f K ≤ edge g f (K + 1) := edge_mono g f (by omega)
  have hse := slotEnds_expected hs hi hb hp hab h0
  have hil : i < ts.length := (List.getElem?_eq_some_iff.1 hi).1
  obtain ⟨u, hu⟩ : ∃ u, ts[i - 1]? = some u := ⟨_, List.getElem?_eq_getElem (by omega)⟩
  have hub : u < edge g f (K + 1) := hp (i - 1) (by omega) u hu
  have hlu : stampAt ts ((i : Int) - 1) = u := by
    have : ((i : Int) - 1) = ((i - 1 : ℕ) : Int) := by omega
    rw [this]; exact stampAt_nat hu
  unfold advance openState
  simp only [hse, hlu]
  rw [if_pos ⟨h0, hub⟩]
  simp only [LoopState.mk.injEq, true_and]
  refine ⟨rfl, ?_, ?_⟩
  · unfold lastBefore; rw [hbb, if_neg (by omega)]
  · rw [expectedJobs_succ, expectedJobs_isEmpty]
    congr 1
    simp only [expectedJob, hbb]

theorem spin_open {g : Grid} {ts : List ℚ} (hs : ts.Pairwise (· < ·)) {f : ℚ} {e : Bool} {i : ℕ} {t : ℚ}
    (hi : ts[i]? = some t) (n : ℕ) : ∀ (K : ℕ), edge g f K ≤ t → t < edge g f (K + 1) + n * g.delta →
    (edge g f (K + 1) ≤ t → 0 < i) →
    (∀ j < i, ∀ u, ts[j]? = some u → u < edge g f (K + 1)) →
    ∃ K', K ≤ K' ∧ edge g f K' ≤ t ∧ t < edge g f (K' + 1) ∧
      spin g ts i t n (openState g ts f K e) = openState g ts f K' e := by
  induction n with
  | zero =>
    intro K hK ht h0 hp
    refine ⟨K, le_refl _, hK, by simpa using ht, rfl⟩
  | succ n ih =>
    intro K hK ht h0 hp
    by_cases hc : edge g f (K + 1) ≤ t
    · have h0' := h0 hc
      have hadv := advance_open (e := e) hs hi hc h0' hp
      have hlt := edge_lt g f (K + 1)
      push_cast at ht
      obtain ⟨K', h1, h2, h3, h4⟩ := ih (K + 1) hc (by linarith) (fun _ => h0')
        (fun j hj u hu => lt_of_lt_of_le (hp j hj u hu) (edge_mono g f (by omega)))
      refine ⟨K', by omega, h2, h3, ?_⟩
      have hst : (openState g ts f K e).stop ≤ t := hc
      rw [spin, if_pos hst, hadv, h4]
    · push Not at hc
      refine ⟨K, le_refl _, hK, hc, ?_⟩
      have hst : ¬ (openState g ts f K e).stop ≤ t := not_le.2 hc
      rw [spin, if_neg hst]

theorem rounds_enough (g : Grid) (x t : ℚ) (h : x ≤ t) :
    t < x + ((⌊(t - x) / g.delta⌋ + 1).toNat : ℚ) * g.delta := by
  have hd := g.hdelta
  have h0 : (0 : ℤ) ≤ ⌊(t - x) / g.delta⌋ := Int.floor_nonneg.2 (div_nonneg (by linarith) hd.le)
  have hc : ((⌊(t - x) / g.delta⌋ + 1).toNat : ℚ) = (⌊(t - x) / g.delta⌋ : ℚ) + 1 := by
    have : ((⌊(t - x) / g.delta⌋ + 1).toNat : ℤ) = ⌊(t - x) / g.delta⌋ + 1 := Int.toNat_of_nonneg (by omega)
    exact_mod_cast this
  rw [hc]
  have hf := Int.lt_floor_add_one ((t - x) / g.delta)
  rw [div_lt_iff₀ hd] at hf
  linarith

/-- the state before any point at or after the start -/
def preState (f : ℚ) (p : Option ℕ) : LoopState := { stop := f, prev := p }

theorem advance_pre {g : Grid} {ts : List ℚ} (hs : ts.Pairwise (· < ·)) {f : ℚ} {i : ℕ} {t : ℚ}
    (hi : ts[i]? = some t) (hb : f ≤ t)
    (hp : ∀ j < i, ∀ u, ts[j]? = some u → u < f) :
    advance g ts i (preState f (if i = 0 then none else some (i - 1))) = openState g ts f 0 false := by
  have hbb : below ts f = i := below_eq hs hi hb hp
  unfold advance preState openState
  simp only [LoopState.mk.injEq, edge, true_and, expectedJobs, List.range_zero, List.map_nil, and_true]
  unfold lastBefore
  rw [hbb]
  by_cases h0 : i = 0
  · subst h0; simp
  · simp [h0]

/-- The invariant after the first `i` points: nothing done yet, or the `K`-th interval is open. -/
inductive LoopInv (g : Grid) (ts : List ℚ) (f toT : ℚ) (i : ℕ) (s : LoopState) : Prop
  | pre (hs : s = preState f (if i = 0 then none else some (i - 1)))
      (hp : ∀ j < i, ∀ u, ts[j]? = some u → u < f)
  | running (K : ℕ) (hs : s = openState g ts f K false)
      (hlow : ∃ j < i, ∃ u, ts[j]? = some u ∧ edge g f K ≤ u ∧ u < toT)
      (hp : ∀ j < i, ∀ u, ts[j]? = some u → u < edge g f (K + 1))
  | finished (K : ℕ) (hs : s = openState g ts f K true)
      (j : ℕ) (hj : j < i) (u : ℚ) (hu : ts[j]? = some u) (hto : toT ≤ u) (h1 : edge g f K ≤ u) (h2 : u < edge g f (K + 1))
      (hp : ∀ j' < j, ∀ v, ts[j']? = some v → v < edge g f K)
      (hpt : ∀ k, toT ≤ edge g f k → ∀ j' < j, ∀ v, ts[j']? = some v → v < edge g f k)

/-- before the end is reached, all points seen are before every boundary not before the end -/
theorem running_below {g : Grid} {ts : List ℚ} {f toT : ℚ} {i K : ℕ}
    (hlow : ∃ j < i, ∃ u, ts[j]? = some u ∧ edge g f K ≤ u ∧ u < toT)
    (hp : ∀ j < i, ∀ u, ts[j]? = some u → u < edge g f (K + 1)) (k : ℕ) (hk : toT ≤ edge g f k) :
    ∀ j' < i, ∀ v, ts[j']? = some v → v < edge g f k := by
  intro j' hj' v hv
  obtain ⟨j, _, u, _, h1, h2⟩ := hlow
  have : edge g f K < edge g f k := by linarith
  have hKk : K < k := (edge_strictMono g f).lt_iff_lt.1 this
  exact lt_of_lt_of_le (hp j' hj' v hv) (edge_mono g f (by omega))

theorem pointStep_inv {g : Grid} {ts : List ℚ} (hs : ts.Pairwise (· < ·)) {f toT : ℚ}
    (hfirst : ∀ t, ts[0]? = some t → t < g.next f) {i : ℕ} {t : ℚ} (hi : ts[i]? = some t) {s : LoopState}
    (h : LoopInv g ts f toT i s) : LoopInv g ts f toT (i + 1) (pointStep g ts f toT i t s) := by
  have hmono : ∀ j < i, ∀ u, ts[j]? = some u → u < t := by
    intro j hj u hu
    rw [List.pairwise_iff_getElem] at hs
    obtain ⟨hj1, hj2⟩ := List.getElem?_eq_some_iff.1 hu
    obtain ⟨hi1, hi2⟩ := List.getElem?_eq_some_iff.1 hi
    have := hs j i hj1 hi1 hj
    rw [hj2, hi2] at this
    exact this
  have ext : ∀ {x : ℚ}, (∀ j < i, ∀ u, ts[j]? = some u → u < x) → t < x →
      ∀ j < i + 1, ∀ u, ts[j]? = some u → u < x := by
    intro x hx htx j hj u hu
    rcases Nat.lt_succ_iff_lt_or_eq.1 hj with hlt | heq
    · exact hx j hlt u hu
    · subst heq
      rw [hi] at hu
      cases hu
      exact htx
  cases h with
  | pre hst hp =>
    subst hst
    unfold pointStep
    by_cases hf : t < f
    · rw [if_pos hf]
      refine .pre ?_ (ext hp hf)
      simp [preState]
    · rw [if_neg hf]
      push Not at hf
      have hne : ¬ (t ≥ toT ∧ (preState f (if i = 0 then none else some (i - 1))).ended = true) := by
        simp [preState]
      have hge : t ≥ (preState f (if i = 0 then none else some (i - 1))).stop := hf
      rw [if_neg hne, if_pos hge]
      -- the first round
      set s0 := preState f (if i = 0 then none else some (i - 1)) with hs0
      have hr : rounds g s0 t = (⌊(t - f) / g.delta⌋ + 1).toNat := rfl
      have henough := rounds_enough g f t hf
      rw [← hr] at henough
      obtain ⟨n, hn⟩ : ∃ n, rounds g s0 t = n + 1 := by
        rcases h : rounds g s0 t with _ | n
        · rw [h] at henough; simp at henough; linarith
        · exact ⟨n, rfl⟩
      rw [hn] at henough ⊢
      have hsp : spin g ts i t (n + 1) s0 = spin g ts i t n (openState g ts f 0 false) := by
        rw [spin, if_pos hge, hs0, advance_pre hs hi hf hp]
      rw [hsp]
      have hnext : edge g f 0 + g.delta ≤ edge g f 1 := edge_lt g f 0
      have he0 : edge g f 0 = f := rfl
      obtain ⟨K', _, hK1, hK2, hK3⟩ := spin_open (e := false) hs hi n 0 hf
        (by push_cast at henough; linarith)
        (by
          intro h1
          by_contra h0
          have : i = 0 := by omega
          subst this
          have := hfirst t hi
          have he1 : edge g f 1 = g.next f := rfl
          rw [he1] at h1
          linarith)
        (fun j hj u hu => by have := hp j hj u hu; have := g.hdelta; linarith)
      rw [hK3]
      dsimp only
      by_cases hto : t ≥ toT
      · rw [if_pos hto]
        refine .finished K' rfl i (by omega) t hi hto hK1 hK2 ?_ ?_
        · intro j hj v hv
          have h1 := hp j hj v hv
          have h2 : edge g f 0 ≤ edge g f K' := edge_mono g f (by omega)
          linarith
        · intro k hk j hj v hv
          have h1 := hp j hj v hv
          have h2 : edge g f 0 ≤ edge g f k := edge_mono g f (by omega)
          linarith
      · rw [if_neg hto]
        push Not at hto
        exact .running K' rfl ⟨i, by omega, t, hi, hK1, hto⟩ (ext (fun j hj u hu => lt_trans (hmono j hj u hu) hK2) hK2)
  | running K hst hlow hp =>
    subst hst
    have hft : ¬ t < f := by
      obtain ⟨j, hj, u, hu, h1, _⟩ := hlow
      have h2 : edge g f 0 ≤ edge g f K := edge_mono g f (by omega)
      have he0 : edge g f 0 = f := rfl
      have := hmono j hj u hu
      push Not
      linarith
    unfold pointStep
    rw [if_neg hft, if_neg (by simp [openState])]
    by_cases hge : t ≥ (openState g ts f K false).stop
    · rw [if_pos hge]
      have hge' : edge g f (K + 1) ≤ t := hge
      have hr : rounds g (openState g ts f K false) t = (⌊(t - edge g f (K + 1)) / g.delta⌋ + 1).toNat := rfl
      have henough := rounds_enough g (edge g f (K + 1)) t hge'
      rw [← hr] at henough
      have h0i : 0 < i := by obtain ⟨j, hj, _⟩ := hlow; omega
      obtain ⟨K', hKK, hK1, hK2, hK3⟩ := spin_open (e := false) hs hi (rounds g (openState g ts f K false) t) K
        (le_trans (edge_mono g f (by omega)) hge') henough (fun _ => h0i) hp
      rw [hK3]
      dsimp only
      have hKlt : K + 1 ≤ K' := by
        by_contra hc
        have : K' = K := by omega
        subst this
        linarith
      by_cases hto : t ≥ toT
      · rw [if_pos hto]
        refine .finished K' rfl i (by omega) t hi hto hK1 hK2 ?_ (running_below hlow hp)
        intro j hj v hv
        exact lt_of_lt_of_le (hp j hj v hv) (edge_mono g f hKlt)
      · rw [if_neg hto]
        push Not at hto
        exact .running K' rfl ⟨i, by omega, t, hi, hK1, hto⟩ (ext (fun j hj u hu => lt_trans (hmono j hj u hu) hK2) hK2)
    · rw [if_neg hge]
      push Not at hge
      obtain ⟨j, hj, hrest⟩ := hlow
      exact .running K rfl ⟨j, by omega, hrest⟩ (ext hp hge)
  | finished K hst j hj u hu hto h1 h2 hp hpt =>
    subst hst
    have hut := hmono j hj u hu
    have hft : ¬ t < f := by
      have h2 : edge g f 0 ≤ edge g f K := edge_mono g f (by omega)
      have he0 : edge g f 0 = f := rfl
      push Not
      linarith
    unfold pointStep
    rw [if_neg hft, if_pos ⟨by linarith, rfl⟩]
    exact .finished K rfl j (by omega) u hu hto h1 h2 hp hpt

theorem pointsLoop_inv {g : Grid} {ts : List ℚ} (hs : ts.Pairwise (· < ·)) {f toT : ℚ}
    (hfirst : ∀ t, ts[0]? = some t → t < g.next f) (rest : List ℚ) : ∀ (i : ℕ) (s : LoopState),
    ts.drop i = rest → i + rest.length = ts.length → LoopInv g ts f toT i s →
    LoopInv g ts f toT ts.length (pointsLoop g ts f toT i rest s) := by
  induction rest with
  | nil =>
    intro i s _ hl h
    simp only [List.length_nil, Nat.add_zero] at hl
    subst hl
    exact h
  | cons t r ih =>
    intro i s hd hl h
    have hi : ts[i]? = some t := by
      have : (ts.drop i)[0]? = some t := by rw [hd]; rfl
      simpa using this
    rw [pointsLoop]
    refine ih (i + 1) _ ?_ (by simp at hl ⊢; omega) (pointStep_inv hs hfirst hi h)
    have : ts.drop (i + 1) = (ts.drop i).drop 1 := by rw [List.drop_drop]
    rw [this, hd]; rfl

/-- The intervals computed by a transformation are the consecutive intervals of the grid from the start, each with
the points falling in it; how many there are depends on where the loop stopped. -/
theorem processJobs_spec {g : Grid} {ts : List ℚ} (hs : ts.Pairwise (· < ·)) {f toT : ℚ}
    (hfirst : ∀ t, ts[0]? = some t → t < g.next f) :
    ∃ K, processJobs g ts f toT = expectedJobs g ts f K ∧
      ((K = 0 ∧ ∀ u ∈ ts, u < f) ∨
       ((∃ u ∈ ts, edge g f K ≤ u ∧ u < toT) ∧ ∀ u ∈ ts, u < edge g f (K + 1)) ∨
       (∃ (j : ℕ) (u : ℚ), ts[j]? = some u ∧ toT ≤ u ∧ edge g f K ≤ u ∧ u < edge g f (K + 1) ∧
          (∀ j' < j, ∀ v, ts[j']? = some v → v < edge g f K) ∧
          ∀ k, toT ≤ edge g f k → ∀ j' < j, ∀ v, ts[j']? = some v → v < edge g f k)) := by
  have hinv : LoopInv g ts f toT 0 { stop := f } := .pre rfl (by intro j hj; omega)
  have hfin := pointsLoop_inv hs hfirst ts 0 _ (by simp) (by simp) hinv
  unfold processJobs
  have hmem : ∀ u ∈ ts, ∃ j < ts.length, ts[j]? = some u := by
    intro u hu
    obtain ⟨j, hj, rfl⟩ := List.getElem_of_mem hu
    exact ⟨j, hj, List.getElem?_eq_getElem hj⟩
  generalize pointsLoop g ts f toT 0 ts { stop := f } = s at hfin
  cases hfin with
  | pre h hp =>
    subst h
    refine ⟨0, rfl, .inl ⟨rfl, ?_⟩⟩
    intro u hu
    obtain ⟨j, hj, hju⟩ := hmem u hu
    exact hp j hj u hju
  | running K h hlow hp =>
    subst h
    refine ⟨K, rfl, .inr (.inl ⟨?_, ?_⟩)⟩
    · obtain ⟨j, _, u, hu, h1, h2⟩ := hlow
      exact ⟨u, List.mem_of_getElem? hu, h1, h2⟩
    · intro u hu
      obtain ⟨j, hj, hju⟩ := hmem u hu
      exact hp j hj u hju
  | finished K h j hj u hu hto h1 h2 hp hpt =>
    subst h
    exact ⟨K, rfl, .inr (.inr ⟨j, u, hu, hto, h1, h2, hp, hpt⟩)⟩

end Timeseria
