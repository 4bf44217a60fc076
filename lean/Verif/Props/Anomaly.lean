import Verif.Props.AnomalyIndex

/-! # Applying the anomaly detector (C67, C68, C129-C138) -/

namespace Timeseria

/-! ## The loop as a list of output items -/

/-- the items the loop appends -/
def anomOuts (lg : ℚ → ℚ) (d : Detector) (c : AnomCfg) (pre : Option Predictions)
    (ranges : List (String × IndexRange)) (l : List Item) : List Item → ℕ → Except PyErr (List Item)
  | [], _ => .ok []
  | x :: r, i =>
    match stepAt d c.lossThreshold l i with
    | .error e => .error e
    | .ok .skip => anomOuts lg d c pre ranges l r (i + 1)
    | .ok .stop => .ok []
    | .ok .pass =>
      match anomOuts lg d c pre ranges l r (i + 1) with
      | .error e => .error e
      | .ok ys => .ok (x :: ys)
    | .ok .score =>
      match scoreItem lg d c pre ranges l i x with
      | .error e => .error e
      | .ok y =>
        match anomOuts lg d c pre ranges l r (i + 1) with
        | .error e => .error e
        | .ok ys => .ok (y :: ys)

theorem appendE_ok {s r : TSeries} {x : Item} : appendE s x = .ok r ↔ s.append x = (r, .ok ()) := by
  unfold appendE
  cases h : s.append x with
  | mk a b =>
    cases b with
    | error e => simp
    | ok u => cases u; simp

theorem appendAll_cons_ok {s r : TSeries} {x : Item} {l : List Item} :
    s.appendAll (x :: l) = (r, .ok ()) ↔ ∃ s', s.append x = (s', .ok ()) ∧ s'.appendAll l = (r, .ok ()) := by
  simp only [TSeries.appendAll]
  cases h : s.append x with
  | mk a b =>
    cases b with
    | error e => simp
    | ok u => cases u; simp

theorem anomLoop_ok {lg : ℚ → ℚ} {d : Detector} {c : AnomCfg} {pre : Option Predictions}
    {ranges : List (String × IndexRange)} {l : List Item} : ∀ (r : List Item) (i : ℕ) (acc res : TSeries),
    anomLoop lg d c pre ranges l r i acc = .ok res ↔
      ∃ ys, anomOuts lg d c pre ranges l r i = .ok ys ∧ acc.appendAll ys = (res, .ok ()) := by
  intro r
  induction r with
  | nil =>
    intro i acc res
    simp [anomLoop, anomOuts, TSeries.appendAll]
  | cons x r ih =>
    intro i acc res
    unfold anomLoop anomOuts
    cases hst : stepAt d c.lossThreshold l i with
    | error e => simp
    | ok st =>
      cases st with
      | skip => exact ih (i + 1) acc res
      | stop => simp [TSeries.appendAll]
      | pass =>
        dsimp only
        cases ha : appendE acc x with
        | error e =>
          dsimp only
          constructor
          · intro h; cases h
          · rintro ⟨ys, h1, h2⟩
            cases ho : anomOuts lg d c pre ranges l r (i + 1) with
            | error e' => rw [ho] at h1; cases h1
            | ok zs =>
              rw [ho] at h1
              injection h1 with h1
              rw [← h1, appendAll_cons_ok] at h2
              obtain ⟨s', h3, _⟩ := h2
              rw [← appendE_ok, ha] at h3
              cases h3
        | ok acc' =>
          dsimp only
          rw [ih (i + 1) acc' res]
          have ha' := appendE_ok.1 ha
          constructor
          · rintro ⟨ys, h1, h2⟩
            rw [h1]
            exact ⟨x :: ys, rfl, appendAll_cons_ok.2 ⟨acc', ha', h2⟩⟩
          · rintro ⟨ys, h1, h2⟩
            cases ho : anomOuts lg d c pre ranges l r (i + 1) with
            | error e' => rw [ho] at h1; cases h1
            | ok zs =>
              rw [ho] at h1
              injection h1 with h1
              rw [← h1, appendAll_cons_ok] at h2
              obtain ⟨s', h3, h4⟩ := h2
              rw [ha'] at h3
              injection h3 with h3
              subst h3
              exact ⟨zs, rfl, h4⟩
      | score =>
        dsimp only
        cases hsc : scoreItem lg d c pre ranges l i x with
        | error e => simp
        | ok y =>
          dsimp only
          cases ha : appendE acc y with
          | error e =>
            dsimp only
            constructor
            · intro h; cases h
            · rintro ⟨ys, h1, h2⟩
              cases ho : anomOuts lg d c pre ranges l r (i + 1) with
              | error e' => rw [ho] at h1; cases h1
              | ok zs =>
                rw [ho] at h1
                injection h1 with h1
                rw [← h1, appendAll_cons_ok] at h2
                obtain ⟨s', h3, _⟩ := h2
                rw [← appendE_ok, ha] at h3
                cases h3
          | ok acc' =>
            dsimp only
            rw [ih (i + 1) acc' res]
            have ha' := appendE_ok.1 ha
            constructor
            · rintro ⟨ys, h1, h2⟩
              rw [h1]
              exact ⟨y :: ys, rfl, appendAll_cons_ok.2 ⟨acc', ha', h2⟩⟩
            · rintro ⟨ys, h1, h2⟩
              cases ho : anomOuts lg d c pre ranges l r (i + 1) with
              | error e' => rw [ho] at h1; cases h1
              | ok zs =>
                rw [ho] at h1
                injection h1 with h1
                rw [← h1, appendAll_cons_ok] at h2
                obtain ⟨s', h3, h4⟩ := h2
                rw [ha'] at h3
                injection h3 with h3
                subst h3
                exact ⟨zs, rfl, h4⟩

/-- what a successful `apply` returns -/
theorem anomApply_ok {lg : ℚ → ℚ} {d : Detector} {c : AnomCfg} {pre : Option Predictions} {s r : TSeries}
    (h : anomApply lg d c pre s = .ok r) :
    knownMetric d.metric = true ∧ ∃ ks ranges, (MSeries.ofSeries s).labels = .ok ks ∧
      mapE (labelWithRange lg d c) ks = .ok ranges ∧
      ∃ ys, anomOuts lg d c pre ranges s.items s.items 0 = .ok ys ∧ r.items = ys := by
  unfold anomApply at h
  split at h
  · rename_i hm
    refine ⟨hm, ?_⟩
    cases hk : (MSeries.ofSeries s).labels with
    | error e => rw [hk] at h; cases h
    | ok ks =>
      rw [hk] at h
      dsimp only at h
      cases hr : mapE (labelWithRange lg d c) ks with
      | error e => rw [hr] at h; cases h
      | ok ranges =>
        rw [hr] at h
        dsimp only at h
        obtain ⟨ys, h1, h2⟩ := (anomLoop_ok _ _ _ _).1 h
        refine ⟨ks, ranges, rfl, hr, ys, h1, ?_⟩
        have := appendAll_ok_items {} ys (by rw [h2])
        rw [h2] at this
        simpa using this
  · cases h

theorem mapE_mem {α β : Type} {f : α → Except PyErr β} {l : List α} {r : List β} (h : mapE f l = .ok r) :
    ∀ b ∈ r, ∃ a ∈ l, f a = .ok b := by
  have := mapE_ok_inv h
  clear h
  induction this with
  | nil => intro b hb; simp at hb
  | cons h1 _ ih =>
    intro b hb
    rcases List.mem_cons.1 hb with h | h
    · exact ⟨_, List.mem_cons_self, by rw [h]; exact h1⟩
    · obtain ⟨a, ha, hf⟩ := ih b h
      exact ⟨a, List.mem_cons_of_mem _ ha, hf⟩

theorem anomOuts_mem {lg : ℚ → ℚ} {d : Detector} {c : AnomCfg} {pre : Option Predictions}
    {ranges : List (String × IndexRange)} {l : List Item} : ∀ (r : List Item) (i : ℕ) (ys : List Item),
    anomOuts lg d c pre ranges l r i = .ok ys →
    ∀ y ∈ ys, y ∈ r ∨ ∃ j x, x ∈ r ∧ scoreItem lg d c pre ranges l j x = .ok y := by
  intro r
  induction r with
  | nil => intro i ys h y hy; simp [anomOuts] at h; simp [h] at hy
  | cons x r ih =>
    intro i ys h y hy
    have lift : (y ∈ r ∨ ∃ j x, x ∈ r ∧ scoreItem lg d c pre ranges l j x = .ok y) →
        (y ∈ x :: r ∨ ∃ j x', x' ∈ x :: r ∧ scoreItem lg d c pre ranges l j x' = .ok y) := by
      rintro (h | ⟨j, z, h1, h2⟩)
      · exact Or.inl (List.mem_cons_of_mem _ h)
      · exact Or.inr ⟨j, z, List.mem_cons_of_mem _ h1, h2⟩
    unfold anomOuts at h
    split at h
    · cases h
    · exact lift (ih _ _ h y hy)
    · injection h with h
      rw [← h] at hy
      simp at hy
    · split at h
      · cases h
      · rename_i zs hzs
        injection h with h
        rw [← h] at hy
        rcases List.mem_cons.1 hy with hy | hy
        · left; rw [hy]; simp
        · exact lift (ih _ _ hzs y hy)
    · split at h
      · cases h
      · rename_i y' hy'
        split at h
        · cases h
        · rename_i zs hzs
          injection h with h
          rw [← h] at hy
          rcases List.mem_cons.1 hy with hy | hy
          · right; exact ⟨i, x, by simp, by rw [hy]; exact hy'⟩
          · exact lift (ih _ _ hzs y hy)

theorem labelWithRange_proper {lg : ℚ → ℚ} {d : Detector} {c : AnomCfg} {k : String} {kr : String × IndexRange}
    (hkind : c.kind = .lin ∨ c.kind = .log)
    (hb : ∀ r, labelRange lg d c k = .ok r → d.loc k ≤ r.xs ∧ (r.xs < r.xe → d.dist k r.xe < d.dist k r.xs))
    (h : labelWithRange lg d c k = .ok kr) : kr.1 = k ∧ ProperRange d c.kind k kr.2 := by
  unfold labelWithRange at h
  cases hr : labelRange lg d c k with
  | error e => rw [hr] at h; cases h
  | ok r =>
    rw [hr] at h
    injection h with h
    subst h
    refine ⟨rfl, ?_⟩
    obtain ⟨h1, h2⟩ := hb r hr
    unfold labelRange at hr
    split at hr
    · cases hr
    · split at hr
      · cases hr
      · split at hr
        · cases hr
        · rename_i xs _ xe _
          unfold checkLogs at hr
          by_cases hl : c.kind = .log
          · rw [if_pos hl] at hr
            dsimp only at hr
            split at hr
            · rename_i h3 h4
              injection hr with hr
              subst hr
              refine ⟨hkind, h1, rfl, rfl, h2, ?_⟩
              intro _
              unfold pyLog at h4
              split at h4
              · cases h4
              · rename_i hn
                exact not_le.1 hn
            · cases hr
          · rw [if_neg hl] at hr
            injection hr with hr
            subst hr
            exact ⟨hkind, h1, rfl, rfl, h2, fun h => absurd h hl⟩

/-- **C67** (the returned series): every returned item is an item of the series as it was, or has an
anomaly index between 0 and 1. -/
theorem C67_apply {lg : ℚ → ℚ} (hlg : LogLike lg) {d : Detector} {c : AnomCfg} {pre : Option Predictions}
    {s r : TSeries} (hdec : ∀ k, d.DecreasingRight k) (hkind : c.kind = .lin ∨ c.kind = .log)
    (hb : ∀ k r, labelRange lg d c k = .ok r →
      d.loc k ≤ r.xs ∧ (r.xs < r.xe → d.dist k r.xe < d.dist k r.xs))
    (h : anomApply lg d c pre s = .ok r) :
    ∀ y ∈ r.items, y ∈ s.items ∨ ∃ v, y.idx.get? "anomaly" = some (some v) ∧ 0 ≤ v ∧ v ≤ 1 := by
  obtain ⟨_, ks, ranges, hks, hr, ys, hys, hi⟩ := anomApply_ok h
  intro y hy
  rw [hi] at hy
  rcases anomOuts_mem _ _ _ hys y hy with h1 | ⟨j, x, hx, h1⟩
  · exact Or.inl h1
  · right
    refine scoreItem_index hlg ?_ h1
    intro kr hkr
    obtain ⟨k, hk, hkr'⟩ := mapE_mem hr kr hkr
    obtain ⟨h2, h3⟩ := labelWithRange_proper hkind (hb k) hkr'
    rw [h2]
    exact ⟨hdec k, h3⟩

/-! ## Which items are returned -/

/-- the data loss of the item is known and at or above the threshold -/
def TooLossy (thr : ℚ) (x : Item) : Prop := ∃ v, x.idx.get? "data_loss" = some (some v) ∧ thr ≤ v

/-- the item `i`, or one of the `w` items before it, is too lossy -/
def Excused (thr : ℚ) (w : ℕ) (l : List Item) (i : ℕ) : Prop :=
  ∃ j x, i - w ≤ j ∧ j ≤ i ∧ l[j]? = some x ∧ TooLossy thr x

theorem tooLossy_lossAt {thr : ℚ} {l : List Item} {j : ℕ} :
    tooLossy thr (lossAt l j) = true ↔ ∃ x, l[j]? = some x ∧ TooLossy thr x := by
  unfold lossAt TooLossy
  cases h : l[j]? with
  | none => simp [tooLossy]
  | some x =>
    simp only [Option.bind_some, lossOf, Option.some.injEq, exists_eq_left']
    cases h2 : x.idx.get? "data_loss" with
    | none => simp [tooLossy]
    | some o =>
      cases o with
      | none => simp [tooLossy]
      | some v => simp [tooLossy]

/-- the boolean of `Excused` -/
def passes (thr : ℚ) (w : ℕ) (l : List Item) (i : ℕ) : Bool :=
  tooLossy thr (lossAt l i) || (List.range w).any (fun j => tooLossy thr (lossAt l (i - j - 1)))

theorem passes_iff {thr : ℚ} {w : ℕ} {l : List Item} {i : ℕ} (hi : w < i) :
    passes thr w l i = true ↔ Excused thr w l i := by
  unfold passes Excused
  rw [Bool.or_eq_true, List.any_eq_true, tooLossy_lossAt]
  constructor
  · rintro (⟨x, h1, h2⟩ | ⟨j, hj, h⟩)
    · exact ⟨i, x, by omega, le_refl _, h1, h2⟩
    · rw [tooLossy_lossAt] at h
      obtain ⟨x, h1, h2⟩ := h
      rw [List.mem_range] at hj
      exact ⟨i - j - 1, x, by omega, by omega, h1, h2⟩
  · rintro ⟨j, x, h1, h2, h3, h4⟩
    by_cases hji : j = i
    · subst hji
      exact Or.inl ⟨x, h3, h4⟩
    · right
      refine ⟨i - j - 1, by rw [List.mem_range]; omega, ?_⟩
      rw [tooLossy_lossAt]
      have : i - (i - j - 1) - 1 = j := by omega
      rw [this]
      exact ⟨x, h3, h4⟩

/-- what is returned for an item in scope -/
def outAt (lg : ℚ → ℚ) (d : Detector) (c : AnomCfg) (pre : Option Predictions)
    (ranges : List (String × IndexRange)) (l : List Item) (p : Item × ℕ) : Except PyErr Item :=
  if passes c.lossThreshold d.window l p.2 then .ok p.1 else scoreItem lg d c pre ranges l p.2 p.1

/-- the end of the scope: the last `w` items are out of it for a reconstructor -/
def scopeEnd (d : Detector) (n : ℕ) : ℕ := if d.recon then n - d.window else n

theorem anomOuts_skip {lg : ℚ → ℚ} {d : Detector} {c : AnomCfg} {pre : Option Predictions}
    {ranges : List (String × IndexRange)} {l : List Item} : ∀ (n : ℕ) (r : List Item) (i : ℕ),
    i + n ≤ d.window + 1 →
    anomOuts lg d c pre ranges l r i = anomOuts lg d c pre ranges l (r.drop n) (i + n) := by
  intro n
  induction n with
  | zero => intro r i _; rfl
  | succ n ih =>
    intro r i hin
    cases r with
    | nil => rfl
    | cons x r =>
      rw [anomOuts.eq_def]
      have : stepAt d c.lossThreshold l i = .ok .skip := by
        unfold stepAt
        rw [if_pos (by omega)]
      dsimp only
      rw [this]
      dsimp only
      rw [ih r (i + 1) (by omega), List.drop_succ_cons, show i + 1 + n = i + (n + 1) by omega]

/-- the outputs as a map over the items in scope, if the check on the far side never ends the loop -/
theorem anomOuts_scope {lg : ℚ → ℚ} {d : Detector} {c : AnomCfg} {pre : Option Predictions}
    {ranges : List (String × IndexRange)} {l : List Item}
    (hfar : d.recon = true → ∀ i, d.window < i → i + d.window < l.length →
      passes c.lossThreshold d.window l i = false → farCheck d c.lossThreshold l i = .ok .score) :
    ∀ (r : List Item) (i : ℕ), d.window < i → i + r.length = l.length →
    anomOuts lg d c pre ranges l r i =
      mapE (outAt lg d c pre ranges l) ((r.take (scopeEnd d l.length - i)).zipIdx i) := by
  intro r
  induction r with
  | nil => intro i _ _; simp [anomOuts, mapE]
  | cons x r ih =>
    intro i hi hlen
    rw [List.length_cons] at hlen
    rw [anomOuts.eq_def]
    dsimp only
    by_cases hstop : d.recon = true ∧ l.length ≤ i + d.window
    · have hst : stepAt d c.lossThreshold l i = .ok .stop := by
        unfold stepAt
        rw [if_neg (by omega), if_pos (by simp [hstop.1]; omega)]
      rw [hst]
      have : scopeEnd d l.length - i = 0 := by
        unfold scopeEnd
        rw [if_pos hstop.1]
        omega
      rw [this]
      simp [mapE]
    · have hin : ∃ m, scopeEnd d l.length - i = m + 1 ∧ scopeEnd d l.length - (i + 1) = m := by
        unfold scopeEnd
        by_cases hr : d.recon = true
        · rw [if_pos hr]
          have : ¬ l.length ≤ i + d.window := fun h => hstop ⟨hr, h⟩
          exact ⟨l.length - d.window - (i + 1), by omega, rfl⟩
        · rw [if_neg hr]
          exact ⟨l.length - (i + 1), by omega, rfl⟩
      obtain ⟨m, hm1, hm2⟩ := hin
      rw [hm1, List.take_succ_cons, List.zipIdx_cons]
      unfold mapE
      have ihh := ih (i + 1) (by omega) (by omega)
      rw [hm2] at ihh
      have hns : ¬ (d.recon && decide ((l.length : Int) - d.window - 1 < i)) = true := by
        simp only [Bool.and_eq_true, decide_eq_true_eq, not_and]
        intro hr
        have : ¬ l.length ≤ i + d.window := fun h => hstop ⟨hr, h⟩
        omega
      cases hp : passes c.lossThreshold d.window l i with
      | true =>
        have hst : stepAt d c.lossThreshold l i = .ok .pass := by
          unfold stepAt
          rw [if_neg (by omega), if_neg hns]
          unfold passes at hp
          by_cases h1 : tooLossy c.lossThreshold (lossAt l i) = true
          · rw [if_pos h1]
          · rw [if_neg h1]
            rw [Bool.or_eq_true] at hp
            rcases hp with h2 | h2
            · exact absurd h2 h1
            · rw [if_pos h2]
        rw [hst]
        dsimp only
        rw [ihh]
        simp only [outAt, hp, if_true]
        cases mapE (outAt lg d c pre ranges l) ((r.take m).zipIdx (i + 1)) <;> rfl
      | false =>
        have hst : stepAt d c.lossThreshold l i = .ok .score := by
          unfold stepAt
          rw [if_neg (by omega), if_neg hns]
          have hp' := hp
          unfold passes at hp'
          rw [Bool.or_eq_false_iff] at hp'
          rw [if_neg (by rw [hp'.1]; simp), if_neg (by rw [hp'.2]; simp)]
          by_cases hr : d.recon = true
          · rw [if_pos hr]
            have : ¬ l.length ≤ i + d.window := fun h => hstop ⟨hr, h⟩
            exact hfar hr i hi (by omega) hp
          · rw [if_neg hr]
        rw [hst]
        dsimp only
        rw [ihh]
        simp only [outAt, hp, Bool.false_eq_true, if_false]
        cases scoreItem lg d c pre ranges l i x with
        | error e => rfl
        | ok y =>
          dsimp only
          cases mapE (outAt lg d c pre ranges l) ((r.take m).zipIdx (i + 1)) <;> rfl

/-- the items in scope, with their positions -/
def scopeItems (d : Detector) (l : List Item) : List (Item × ℕ) :=
  ((l.drop (d.window + 1)).take (scopeEnd d l.length - (d.window + 1))).zipIdx (d.window + 1)

theorem anomOuts_all {lg : ℚ → ℚ} {d : Detector} {c : AnomCfg} {pre : Option Predictions}
    {ranges : List (String × IndexRange)} {l : List Item}
    (hfar : d.recon = true → ∀ i, d.window < i → i + d.window < l.length →
      passes c.lossThreshold d.window l i = false → farCheck d c.lossThreshold l i = .ok .score) :
    anomOuts lg d c pre ranges l l 0 = mapE (outAt lg d c pre ranges l) (scopeItems d l) := by
  rw [anomOuts_skip (d.window + 1) l 0 (by omega), Nat.zero_add]
  by_cases hlt : d.window + 1 ≤ l.length
  · exact anomOuts_scope hfar _ _ (by omega) (by rw [List.length_drop]; omega)
  · unfold scopeItems
    rw [List.drop_of_length_le (by omega)]
    simp [anomOuts, mapE]

theorem scoreItem_shape {lg : ℚ → ℚ} {d : Detector} {c : AnomCfg} {pre : Option Predictions}
    {ranges : List (String × IndexRange)} {l : List Item} {i : ℕ} {x y : Item}
    (h : scoreItem lg d c pre ranges l i x = .ok y) :
    ∃ sc v, mapE (scoreLabel lg d c pre l i x) ranges = .ok sc ∧
      combineIndexes c.strategy (sc.map (fun p => p.2.index)) = .ok v ∧ y = scoredItem c.details sc v x := by
  unfold scoreItem at h
  cases hm : mapE (scoreLabel lg d c pre l i x) ranges with
  | error e => rw [hm] at h; cases h
  | ok sc =>
    rw [hm] at h
    dsimp only at h
    cases hc : combineIndexes c.strategy (sc.map (fun p => p.2.index)) with
    | error e => rw [hc] at h; cases h
    | ok v =>
      rw [hc] at h
      injection h with h
      exact ⟨sc, v, rfl, hc, h.symm⟩

theorem foldl_addDetails_no (sc : List (String × LabelScore)) (dd : Dict ℚ) :
    sc.foldl (addDetails .no) dd = dd := by
  induction sc generalizing dd with
  | nil => rfl
  | cons p sc ih => exact ih dd

theorem detailedData_no (sc : List (String × LabelScore)) (o : Option Data) : detailedData .no sc o = o := by
  unfold detailedData
  split
  · rw [foldl_addDetails_no]
  · rfl

/-- what the item `i` becomes: unchanged if excused, otherwise the same with an anomaly index -/
structure Scored (c : AnomCfg) (w : ℕ) (l : List Item) (i : ℕ) (x y : Item) : Prop where
  t : y.t = x.t
  slot : y.slot = x.slot
  tz : y.tz = x.tz
  excused : Excused c.lossThreshold w l i → y = x
  scored : ¬ Excused c.lossThreshold w l i → ∃ v, y.idx.get? "anomaly" = some (some v)
  others : ∀ n, n ≠ "anomaly" → y.idx.get? n = x.idx.get? n
  data : c.details = .no → y.data = x.data

theorem outAt_scored {lg : ℚ → ℚ} {d : Detector} {c : AnomCfg} {pre : Option Predictions}
    {ranges : List (String × IndexRange)} {l : List Item} {i : ℕ} {x y : Item} (hi : d.window < i)
    (h : outAt lg d c pre ranges l (x, i) = .ok y) : Scored c d.window l i x y := by
  unfold outAt at h
  dsimp only at h
  cases hp : passes c.lossThreshold d.window l i with
  | true =>
    rw [hp, if_pos rfl] at h
    injection h with h
    subst h
    have := (passes_iff hi).1 hp
    exact ⟨rfl, rfl, rfl, fun _ => rfl, fun hn => absurd this hn, fun _ _ => rfl, fun _ => rfl⟩
  | false =>
    rw [hp] at h
    simp only [Bool.false_eq_true, if_false] at h
    obtain ⟨sc, v, _, _, h3⟩ := scoreItem_shape h
    have hne : ¬ Excused c.lossThreshold d.window l i := by
      rw [← passes_iff hi, hp]; simp
    subst h3
    refine ⟨rfl, rfl, rfl, fun h => absurd h hne, fun _ => ⟨v, by simp [scoredItem, Dict.get?_set]⟩, ?_, ?_⟩
    · intro n hn
      simp [scoredItem, Dict.get?_set, Ne.symm hn]
    · intro hdet
      simp [scoredItem, hdet, detailedData_no]

theorem forall₂_mem_right {α β : Type} {R : α → β → Prop} {l : List α} {r : List β} (h : List.Forall₂ R l r)
    {b : β} (hb : b ∈ r) : ∃ a ∈ l, R a b := by
  induction h with
  | nil => simp at hb
  | cons h1 _ ih =>
    rcases List.mem_cons.1 hb with h2 | h2
    · subst h2; exact ⟨_, List.mem_cons_self, h1⟩
    · obtain ⟨a, ha, hr⟩ := ih h2
      exact ⟨a, List.mem_cons_of_mem _ ha, hr⟩

theorem forall₂_getElem? {α β : Type} {R : α → β → Prop} {l : List α} {r : List β} (h : List.Forall₂ R l r) :
    ∀ {j : ℕ} {a : α} {b : β}, l[j]? = some a → r[j]? = some b → R a b := by
  induction h with
  | nil => intro j a b h1; simp at h1
  | cons h1 _ ih =>
    intro j a b h2 h3
    cases j with
    | zero =>
      simp at h2 h3
      subst h2; subst h3
      exact h1
    | succ j => exact ih (by simpa using h2) (by simpa using h3)

/-- the shape of what is returned, for an arbitrary detector whose loop is not ended early -/
theorem apply_shape {lg : ℚ → ℚ} {d : Detector} {c : AnomCfg} {pre : Option Predictions} {s r : TSeries}
    (hfar : d.recon = true → ∀ i, d.window < i → i + d.window < s.items.length →
      passes c.lossThreshold d.window s.items i = false → farCheck d c.lossThreshold s.items i = .ok .score)
    (h : anomApply lg d c pre s = .ok r) :
    r.items.length = scopeEnd d s.items.length - (d.window + 1) ∧
    ∀ (j : ℕ) (x : Item), d.window + 1 + j < scopeEnd d s.items.length → s.items[d.window + 1 + j]? = some x →
      ∃ y, r.items[j]? = some y ∧ Scored c d.window s.items (d.window + 1 + j) x y := by
  obtain ⟨_, ks, ranges, hks, hr, ys, hys, hi⟩ := anomApply_ok h
  rw [anomOuts_all hfar] at hys
  have hf := mapE_ok_inv hys
  have hle : scopeEnd d s.items.length ≤ s.items.length := by
    unfold scopeEnd
    split <;> omega
  have hlen : ys.length = scopeEnd d s.items.length - (d.window + 1) := by
    rw [← hf.length_eq]
    unfold scopeItems
    rw [List.length_zipIdx, List.length_take, List.length_drop]
    omega
  rw [hi]
  refine ⟨hlen, ?_⟩
  intro j x hj hx
  obtain ⟨y, hy⟩ : ∃ y, ys[j]? = some y := ⟨ys[j]'(by omega), List.getElem?_eq_getElem _⟩
  refine ⟨y, hy, ?_⟩
  have hsc : (scopeItems d s.items)[j]? = some (x, d.window + 1 + j) := by
    unfold scopeItems
    rw [List.getElem?_zipIdx, List.getElem?_take_of_lt (by omega), List.getElem?_drop, hx]
    rfl
  exact outAt_scored (by omega) (forall₂_getElem? hf hsc hy)

/-- **C68**: a detector based on a forecaster returns, in order, one item for each item of the series
after the window, with the same time: unchanged if it or an item of its window is too lossy, otherwise with
an anomaly index and everything else as it was. -/
theorem C68_forecaster {lg : ℚ → ℚ} {d : Detector} {c : AnomCfg} {pre : Option Predictions} {s r : TSeries}
    (hrec : d.recon = false) (h : anomApply lg d c pre s = .ok r) :
    r.items.length = s.items.length - (d.window + 1) ∧
    ∀ (j : ℕ) (x : Item), s.items[d.window + 1 + j]? = some x →
      ∃ y, r.items[j]? = some y ∧ Scored c d.window s.items (d.window + 1 + j) x y := by
  obtain ⟨h1, h2⟩ := apply_shape (by intro hr; rw [hrec] at hr; cases hr) h
  have hse : scopeEnd d s.items.length = s.items.length := by simp [scopeEnd, hrec]
  rw [hse] at h1 h2
  exact ⟨h1, fun j x hx => h2 j x (List.getElem?_eq_some_iff.1 hx).1 hx⟩

/-! ## Nothing is raised -/

theorem mapE_total {α β : Type} {f : α → Except PyErr β} {l : List α} (h : ∀ a ∈ l, ∃ b, f a = .ok b) :
    ∃ r, mapE f l = .ok r := by
  induction l with
  | nil => exact ⟨[], rfl⟩
  | cons a l ih =>
    obtain ⟨b, hb⟩ := h a (by simp)
    obtain ⟨r, hr⟩ := ih (fun x hx => h x (by simp [hx]))
    exact ⟨b :: r, by unfold mapE; rw [hb, hr]⟩

/-- The error metric is defined on the values of the series: a known one, and the values not zero for the
percentage ones. -/
def MetricDefined (m : String) (l : List Item) : Prop :=
  m = "E" ∨ m = "AE" ∨
    ((m = "PE" ∨ m = "APE") ∧ ∀ x ∈ l, ∀ k v, x.val? k = some v → v ≠ 0)

theorem predictionError_total {m : String} {a p : ℚ} (h : m = "E" ∨ m = "AE" ∨ ((m = "PE" ∨ m = "APE") ∧ a ≠ 0)) :
    ∃ e, predictionError m a p = .ok e := by
  unfold predictionError pyDiv
  rcases h with h | h | ⟨h | h, ha⟩
  · subst h; exact ⟨a - p, by simp⟩
  · subst h; exact ⟨|a - p|, by simp⟩
  · subst h; exact ⟨_, by simp [ha]; rfl⟩
  · subst h; exact ⟨_, by simp [ha]; rfl⟩

theorem itemValue_val? {x : Item} {k : String} {v : ℚ} (h : itemValue x k = .ok v) : x.val? k = some v := by
  unfold itemValue at h
  unfold Item.val?
  split at h
  · rename_i d hd
    unfold lookupE at h
    split at h
    · cases h
    · rename_i w hw
      injection h with h
      rw [hd, ← h, ← hw]
  · cases h
  · cases h

theorem scoreItem_total {lg : ℚ → ℚ} (hlg : LogLike lg) {d : Detector} {c : AnomCfg}
    {pre : Option Predictions} {ranges : List (String × IndexRange)} {l : List Item} {i : ℕ} {x : Item}
    (hne : ranges ≠ []) (hr : ∀ kr ∈ ranges, d.DecreasingRight kr.1 ∧ ProperRange d c.kind kr.1 kr.2)
    (hv : ∀ kr ∈ ranges, ∃ v, itemValue x kr.1 = .ok v)
    (hp : ∀ kr ∈ ranges, ∃ v, predictedFor d pre l i kr.1 = .ok v)
    (hm : ∀ k v, x.val? k = some v → d.metric = "E" ∨ d.metric = "AE" ∨ ((d.metric = "PE" ∨ d.metric = "APE") ∧ v ≠ 0)) :
    ∃ y, scoreItem lg d c pre ranges l i x = .ok y := by
  obtain ⟨sc, hsc⟩ : ∃ sc, mapE (scoreLabel lg d c pre l i x) ranges = .ok sc := by
    apply mapE_total
    intro kr hkr
    obtain ⟨a, ha⟩ := hv kr hkr
    obtain ⟨p, hp⟩ := hp kr hkr
    obtain ⟨e, he⟩ := predictionError_total (p := p) (hm kr.1 a (itemValue_val? ha))
    obtain ⟨v, hv, _⟩ := rawIndex_spec hlg (hr kr hkr).1 (hr kr hkr).2 (mirrored (d.loc kr.1) e)
    unfold scoreLabel
    rw [ha]
    dsimp only
    rw [hp]
    dsimp only
    unfold scoreValues
    rw [he]
    dsimp only
    rw [hv]
    exact ⟨_, rfl⟩
  unfold scoreItem
  rw [hsc]
  dsimp only
  have hscne : sc.map (fun p => p.2.index) ≠ [] := by
    intro h
    have := (mapE_ok_inv hsc).length_eq
    have h2 : sc.length = 0 := by simpa using congrArg List.length h
    rw [h2] at this
    exact hne (List.length_eq_zero_iff.1 this)
  obtain ⟨v, hv, _⟩ := C67_strategy c.strategy _ hscne
  rw [hv]
  exact ⟨_, rfl⟩

/-- the setting in which `apply` has all it needs -/
structure DetectorReady (lg : ℚ → ℚ) (d : Detector) (c : AnomCfg) (s : TSeries) (ks : List String) : Prop where
  log : LogLike lg
  kind : c.kind = .lin ∨ c.kind = .log
  labels : (MSeries.ofSeries s).labels = .ok ks
  ne : ks ≠ []
  dec : ∀ k, d.DecreasingRight k
  ranges : ∀ k ∈ ks, ∃ r, labelRange lg d c k = .ok r
  bounds : ∀ k r, labelRange lg d c k = .ok r →
    d.loc k ≤ r.xs ∧ (r.xs < r.xe → d.dist k r.xe < d.dist k r.xs)
  metric : MetricDefined d.metric s.items
  values : ∀ x ∈ s.items, ∀ k ∈ ks, ∃ v, itemValue x k = .ok v
  predict : ∀ i, ∀ k ∈ ks, d.window < i → i < scopeEnd d s.items.length → ∃ v, d.predict s.items i k = .ok v

theorem DetectorReady.metric_at {lg : ℚ → ℚ} {d : Detector} {c : AnomCfg} {s : TSeries} {ks : List String}
    (h : DetectorReady lg d c s ks) {x : Item} (hx : x ∈ s.items) :
    ∀ k v, x.val? k = some v → d.metric = "E" ∨ d.metric = "AE" ∨ ((d.metric = "PE" ∨ d.metric = "APE") ∧ v ≠ 0) := by
  intro k v hv
  rcases h.metric with h1 | h1 | ⟨h1, h2⟩
  · exact Or.inl h1
  · exact Or.inr (Or.inl h1)
  · exact Or.inr (Or.inr ⟨h1, h2 x hx k v hv⟩)

theorem DetectorReady.known {lg : ℚ → ℚ} {d : Detector} {c : AnomCfg} {s : TSeries} {ks : List String}
    (h : DetectorReady lg d c s ks) : knownMetric d.metric = true := by
  unfold knownMetric
  rcases h.metric with h1 | h1 | ⟨h1 | h1, _⟩ <;> rw [h1] <;> decide

theorem mem_scopeItems {d : Detector} {l : List Item} {p : Item × ℕ} (h : p ∈ scopeItems d l) :
    l[p.2]? = some p.1 ∧ d.window < p.2 ∧ p.2 < scopeEnd d l.length := by
  unfold scopeItems at h
  rw [List.mem_zipIdx_iff_le_and_getElem?_sub] at h
  obtain ⟨h1, h2⟩ := h
  have hlt := (List.getElem?_eq_some_iff.1 h2).1
  rw [List.length_take] at hlt
  rw [List.getElem?_take_of_lt (by omega), List.getElem?_drop] at h2
  rw [show d.window + 1 + (p.2 - (d.window + 1)) = p.2 by omega] at h2
  exact ⟨h2, by omega, by omega⟩

theorem DetectorReady.outs {lg : ℚ → ℚ} {d : Detector} {c : AnomCfg} {s : TSeries} {ks : List String}
    (h : DetectorReady lg d c s ks) :
    ∃ ranges, mapE (labelWithRange lg d c) ks = .ok ranges ∧
      ∃ ys, mapE (outAt lg d c none ranges s.items) (scopeItems d s.items) = .ok ys := by
  obtain ⟨ranges, hr⟩ : ∃ ranges, mapE (labelWithRange lg d c) ks = .ok ranges := by
    apply mapE_total
    intro k hk
    obtain ⟨r, hr⟩ := h.ranges k hk
    exact ⟨(k, r), by unfold labelWithRange; rw [hr]⟩
  refine ⟨ranges, hr, ?_⟩
  have hin : ∀ kr ∈ ranges, kr.1 ∈ ks ∧ ProperRange d c.kind kr.1 kr.2 := by
    intro kr hkr
    obtain ⟨k, hk, hkr'⟩ := mapE_mem hr kr hkr
    obtain ⟨h2, h3⟩ := labelWithRange_proper h.kind (h.bounds k) hkr'
    rw [h2]
    exact ⟨hk, h3⟩
  have hne : ranges ≠ [] := by
    intro he
    have := (mapE_ok_inv hr).length_eq
    rw [he] at this
    exact h.ne (List.length_eq_zero_iff.1 (by simpa using this))
  apply mapE_total
  intro p hp
  obtain ⟨h1, h2, h3⟩ := mem_scopeItems hp
  have hmem : p.1 ∈ s.items := List.mem_of_getElem? h1
  unfold outAt
  split
  · exact ⟨_, rfl⟩
  · exact scoreItem_total h.log hne (fun kr hkr => ⟨h.dec kr.1, (hin kr hkr).2⟩)
      (fun kr hkr => h.values _ hmem _ (hin kr hkr).1)
      (fun kr hkr => h.predict _ _ (hin kr hkr).1 h2 h3) (h.metric_at hmem)

theorem scopeItems_fst (d : Detector) (l : List Item) :
    (scopeItems d l).map Prod.fst = (l.drop (d.window + 1)).take (scopeEnd d l.length - (d.window + 1)) := by
  unfold scopeItems
  rw [List.zipIdx_map_fst]

/-- if the outputs can be computed and are of the same kind, the result is the series of them -/
theorem runs_of {lg : ℚ → ℚ} {d : Detector} {c : AnomCfg} {s : TSeries} {ks : List String}
    (h : DetectorReady lg d c s ks)
    (hfar : d.recon = true → ∀ i, d.window < i → i + d.window < s.items.length →
      passes c.lossThreshold d.window s.items i = false → farCheck d c.lossThreshold s.items i = .ok .score)
    (hg : GoodPoints s.items ∨ GoodSlots s.items) (htz : ∀ x ∈ s.items, ∀ y ∈ s.items, x.tz = y.tz)
    {ranges : List (String × IndexRange)} (hr : mapE (labelWithRange lg d c) ks = .ok ranges) {ys : List Item}
    (hys : mapE (outAt lg d c none ranges s.items) (scopeItems d s.items) = .ok ys)
    (hhas : ∀ y ∈ ys, HasData y)
    (hsame : ∀ x ∈ ys, ∀ y ∈ ys, ∀ d e, x.data = some d → y.data = some e → SameKind d e) :
    ∃ r, anomApply lg d c none s = .ok r ∧ r.items = ys := by
  have hf := mapE_ok_inv hys
  have hpair : List.Forall₂ (fun (p : Item × ℕ) (y : Item) => p.1 ∈ s.items ∧ y.t = p.1.t ∧ y.slot = p.1.slot ∧
      y.tz = p.1.tz) (scopeItems d s.items) ys := by
    have hall : ∀ p ∈ scopeItems d s.items, ∀ y, outAt lg d c none ranges s.items p = .ok y →
        p.1 ∈ s.items ∧ y.t = p.1.t ∧ y.slot = p.1.slot ∧ y.tz = p.1.tz := by
      intro p hp y hy
      obtain ⟨h1, h2, h3⟩ := mem_scopeItems hp
      have := outAt_scored (x := p.1) (i := p.2) h2 hy
      exact ⟨List.mem_of_getElem? h1, this.t, this.slot, this.tz⟩
    clear hys
    generalize scopeItems d s.items = ps at hf hall
    induction hf with
    | nil => exact .nil
    | cons h1 _ ih =>
      exact .cons (hall _ (by simp) _ h1) (ih (fun y hy => hhas y (by simp [hy]))
        (fun x hx y hy => hsame x (by simp [hx]) y (by simp [hy])) (fun p hp => hall p (by simp [hp])))
  have hts : ys.map (fun x => (x.t, x.slot)) =
      ((scopeItems d s.items).map Prod.fst).map (fun x => (x.t, x.slot)) := by
    clear hys hf hhas hsame
    generalize scopeItems d s.items = ps at hpair
    induction hpair with
    | nil => rfl
    | cons h1 _ ih => simp only [List.map_cons]; rw [ih, h1.2.1, h1.2.2.1]
  have hinfix : (scopeItems d s.items).map Prod.fst <:+: s.items := by
    rw [scopeItems_fst]
    exact (List.take_prefix _ _).isInfix.trans (List.drop_suffix _ _).isInfix
  obtain ⟨_, r, hb, hri⟩ := build_like hg hinfix hts
    (fun x hx y hy => by
      obtain ⟨x', _, h1⟩ := forall₂_mem_right hpair hx
      obtain ⟨y', _, h2⟩ := forall₂_mem_right hpair hy
      rw [h1.2.2.2, h2.2.2.2]; exact htz _ h1.1 _ h2.1) hhas hsame
  refine ⟨r, ?_, hri⟩
  unfold anomApply
  rw [if_pos h.known, h.labels]
  dsimp only
  rw [hr]
  dsimp only
  rw [anomLoop_ok]
  refine ⟨ys, by rw [anomOuts_all hfar]; exact hys, ?_⟩
  unfold TSeries.build at hb
  split at hb
  · rename_i s' u hh
    injection hb with hb
    subst hb
    cases u
    exact hh
  · cases hb

/-- **C68** (nothing is raised): with the metric defined on the values, bounds on the right of the location
and a model that predicts, `apply` without details raises nothing. -/
theorem C68_runs {lg : ℚ → ℚ} {d : Detector} {c : AnomCfg} {s : TSeries} {ks : List String}
    (h : DetectorReady lg d c s ks) (hrec : d.recon = false) (hdet : c.details = .no)
    (hg : GoodPoints s.items ∨ GoodSlots s.items) (htz : ∀ x ∈ s.items, ∀ y ∈ s.items, x.tz = y.tz) :
    ∃ r, anomApply lg d c none s = .ok r := by
  obtain ⟨ranges, hr, ys, hys⟩ := h.outs
  have hsrc : ∀ y ∈ ys, ∃ x ∈ s.items, y.data = x.data := by
    intro y hy
    obtain ⟨p, hp, ho⟩ := mapE_mem hys y hy
    obtain ⟨h1, h2, h3⟩ := mem_scopeItems hp
    exact ⟨p.1, List.mem_of_getElem? h1, (outAt_scored (x := p.1) (i := p.2) h2 ho).data hdet⟩
  have hhas : ∀ x ∈ s.items, HasData x := by
    rcases hg with hg | hg
    · exact hg.has
    · exact hg.has
  have hsame : ∀ x ∈ s.items, ∀ y ∈ s.items, ∀ d e, x.data = some d → y.data = some e → SameKind d e := by
    rcases hg with hg | hg
    · exact hg.same
    · exact hg.same
  obtain ⟨r, h1, _⟩ := runs_of h (by intro hr; rw [hrec] at hr; cases hr) hg htz hr hys
    (fun x hx => by
      obtain ⟨x', hx', h1⟩ := hsrc x hx
      obtain ⟨d, hd⟩ := hhas x' hx'
      exact ⟨d, by rw [h1]; exact hd⟩)
    (fun x hx y hy a b ha hb => by
      obtain ⟨x', hx', h1⟩ := hsrc x hx
      obtain ⟨y', hy', h2⟩ := hsrc y hy
      exact hsame x' hx' y' hy' a b (by rw [← h1]; exact ha) (by rw [← h2]; exact hb))
  exact ⟨r, h1⟩

end Timeseria
