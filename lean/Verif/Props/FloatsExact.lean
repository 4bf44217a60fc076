import Verif.Props.Floats2
import Verif.Props.Nans
import Verif.Model.Interp
/-!
The models with rounding (`Floats`) and with NaN (`Nans`) are those of the rest of the development when nothing is
rounded and every value is a number: C298-C307, C318-C321 are then about the same computations.
-/
namespace Timeseria

/-- no rounding at all -/
def unrounded : Rounding where
  fl x := x
  mono h := h
  idem _ := rfl
  zero := rfl
  one := rfl
  neg _ := rfl

theorem unrounded_div (a b : ℚ) : unrounded.div a b = pyDiv a b := rfl

/-- **C299** (unrounded) without rounding the normalized values are those of the exact operation -/
theorem C299_unrounded (range : Option (ℚ × ℚ)) (v : ℚ) (r : List ℚ) : ∃ mm, minMaxLoop (v :: r) = some mm ∧
    unrounded.normalize range (v :: r) = mapE (normVal range mm) (v :: r) := ⟨_, rfl, rfl⟩

theorem fold_plus : ∀ (vs : List ℚ) (a : ℚ), vs.foldl (fun a b => a + b) a = a + vs.sum
  | [], a => by simp
  | v :: r, a => by rw [List.foldl_cons, fold_plus r, List.sum_cons, add_assoc]

/-- **C300** (unrounded) without rounding sum and average are the exact ones; the average of nothing raises TypeError -/
theorem C300_unrounded (vs : List ℚ) : unrounded.sum vs = vs.sum ∧
    (vs ≠ [] → unrounded.avg vs = .ok (vs.sum / vs.length)) ∧ unrounded.avg [] = .error .typeError := by
  refine ⟨(fold_plus vs 0).trans (zero_add _), ?_, rfl⟩
  intro h
  cases vs with
  | nil => exact absurd rfl h
  | cons v r =>
    show pyDiv (r.foldl (fun a b => a + b) v) ((v :: r).length : ℕ) = _
    rw [fold_plus, List.sum_cons]
    unfold pyDiv
    rw [if_neg (by rw [List.length_cons]; positivity)]

/-- a point with the given region, and nothing else -/
def regionPoint (r : ℚ × ℚ) : VPoint := { t := 0, vf := r.1, vt := r.2 }

theorem coverLoop_unrounded (f t : ℚ) : ∀ (l : List (ℚ × ℚ)) (acc : ℚ),
    unrounded.coverLoop f t acc l = acc + coverageSum f t (l.map regionPoint)
  | [], acc => by simp [Rounding.coverLoop, coverageSum]
  | r :: l, acc => by
    unfold Rounding.coverLoop
    rw [List.map_cons, coverageSum]
    show (if r.2 < f then _ else if r.1 ≥ t then _ else _) = acc + (if r.2 < f then _ else if r.1 ≥ t then _ else if false = true then _ else _)
    split_ifs
    · exact coverLoop_unrounded f t l acc
    · simp
    · contradiction
    · rw [coverLoop_unrounded f t l, ← add_assoc]; rfl

/-- **C301** (unrounded) without rounding the coverage and the data loss are the exact ones -/
theorem C301_unrounded (f t : ℚ) (l : List (ℚ × ℚ)) :
    unrounded.coverage f t l = coverage (l.map regionPoint) f t ∧
    unrounded.lossFromCoverage f t l = dataLossOf (l.map regionPoint) false false 1 f t := by
  have h : unrounded.coverage f t l = coverage (l.map regionPoint) f t := by
    unfold Rounding.coverage coverage
    by_cases h : f ≥ t
    · rw [if_pos h, if_pos h]
    · rw [if_neg h, if_neg h]
      cases l with
      | nil => rfl
      | cons r l =>
        rw [if_neg (by simp), if_neg (by simp), unrounded_div, coverLoop_unrounded, zero_add]
        show pyDiv _ (t - f) = _
        unfold pyDiv
        rw [if_neg (by intro e; apply h; linarith)]
  refine ⟨h, ?_⟩
  unfold Rounding.lossFromCoverage dataLossOf
  rw [h]
  cases coverage (l.map regionPoint) f t with
  | error e => rfl
  | ok c => simp [Rounding.sub, unrounded]

theorem regionLoop_unrounded (D : ℚ) : ∀ (ts : List ℚ) (prev : Option Region),
    unrounded.regionLoop (D / 2) (prev.map (fun r => (r.a, r.b))) ts = (regionsLoop D none none false prev ts).map (fun r => (r.a, r.b))
  | [], none => rfl
  | [], some r => rfl
  | t :: l, none => regionLoop_unrounded D l (some ⟨t, t - D / 2, t + D / 2⟩)
  | t :: l, some r => by
    show (if t - D / 2 < r.b then _ else _) = List.map _ (if t - D / 2 < r.b then _ else _)
    split_ifs
    · exact congrArg (List.cons _) (regionLoop_unrounded D l (some ⟨t, (r.b + (t - D / 2)) / 2, t + D / 2⟩))
    · exact congrArg (List.cons _) (regionLoop_unrounded D l (some ⟨t, t - D / 2, t + D / 2⟩))

/-- **C301** (unrounded regions) without rounding the validity regions are the exact ones -/
theorem C301_unrounded_regions (D : ℚ) (hD : D ≠ 0) (auto : Except PyErr ℚ) (ts : List ℚ) :
    (validityRegions auto ts none none (some D) false).map (fun l => l.map (fun r => (r.a, r.b))) = .ok (unrounded.regions D ts) := by
  unfold validityRegions
  rw [if_neg (by simp)]
  simp only [ne_eq, hD, not_false_eq_true, if_true, Except.map]
  rw [← regionLoop_unrounded D ts none]; rfl

/-- **C303** (unrounded) without rounding the interpolated value is the exact one -/
theorem C303_unrounded (p n : VPoint) (x a b : ℚ) (k : String) (ha : p.data.get? k = some a) (hb : n.data.get? k = some b) :
    unrounded.linear p.t a n.t b x = linearValue p n x k := by
  unfold Rounding.linear linearValue
  rw [ha, hb, unrounded_div]
  show (match pyDiv (b - a) (n.t - p.t) with | .error e => _ | .ok r => _) = _
  unfold pyDiv
  dsimp only
  split_ifs <;> rfl

/-- **C304** (unrounded) without rounding the differences and the cumulative sums are the exact ones -/
theorem C304_unrounded (vs : List ℚ) (acc : ℚ) :
    (∀ i a b, vs[i]? = some a → vs[i + 1]? = some b → (unrounded.diffs vs)[i]? = some (b - a)) ∧
    (unrounded.diffs vs).length = vs.length - 1 ∧
    (∀ i, i < vs.length → (unrounded.csums acc vs)[i]? = some (acc + (vs.take (i + 1)).sum)) ∧
    (unrounded.csums acc vs).length = vs.length := by
  have hd : ∀ (vs : List ℚ), (∀ i a b, vs[i]? = some a → vs[i + 1]? = some b → (unrounded.diffs vs)[i]? = some (b - a)) ∧
      (unrounded.diffs vs).length = vs.length - 1 := by
    intro vs
    induction vs with
    | nil => exact ⟨fun i a b h => by simp at h, rfl⟩
    | cons v r ih =>
      cases r with
      | nil => exact ⟨fun i a b _ h => by simp at h, rfl⟩
      | cons w r =>
        refine ⟨?_, ?_⟩
        · intro i a b h1 h2
          cases i with
          | zero =>
            simp only [List.getElem?_cons_zero, Option.some.injEq] at h1
            simp only [List.getElem?_cons_succ, List.getElem?_cons_zero, Option.some.injEq] at h2
            rw [← h1, ← h2]; rfl
          | succ i =>
            rw [Rounding.diffs, List.getElem?_cons_succ]
            exact ih.1 i a b (by simpa using h1) (by simpa using h2)
        · rw [Rounding.diffs, List.length_cons, ih.2]; simp
  have hc : ∀ (vs : List ℚ) (acc : ℚ), (∀ i, i < vs.length → (unrounded.csums acc vs)[i]? = some (acc + (vs.take (i + 1)).sum)) ∧
      (unrounded.csums acc vs).length = vs.length := by
    intro vs
    induction vs with
    | nil => intro acc; exact ⟨fun i h => by simp at h, rfl⟩
    | cons v r ih =>
      intro acc
      refine ⟨?_, ?_⟩
      · intro i hi
        cases i with
        | zero => simp [Rounding.csums, Rounding.add, unrounded]
        | succ i =>
          rw [Rounding.csums, List.getElem?_cons_succ, (ih _).1 i (by simpa using hi), List.take_succ_cons, List.sum_cons, ← add_assoc]
          rfl
      · rw [Rounding.csums, List.length_cons, (ih _).2, List.length_cons]
  exact ⟨(hd vs).1, (hd vs).2, (hc vs acc).1, (hc vs acc).2⟩

/-- **C305** (unrounded) without rounding the rescaled value is the exact one -/
theorem C305_unrounded (v sf st tf tt : ℚ) : unrounded.rescaleUtil v sf st tf tt = rescaleUtil v sf st tf tt := by
  unfold Rounding.rescaleUtil rescaleUtil
  rw [unrounded_div]
  show (if _ then _ else match pyDiv (v - sf) (st - sf) with | .error e => _ | .ok q => _) = _
  unfold pyDiv
  by_cases h : v < 0 ∨ sf < 0 ∨ st < 0 ∨ tf < 0 ∨ tt < 0 ∨ v < sf ∨ v > st
  · rw [if_pos h]
    rcases h with h | h | h | h | h | h | h <;>
      (simp only [h, if_true]; repeat' (first | rfl | (split; rfl)))
  · rw [if_neg h]
    push Not at h
    obtain ⟨h1, h2, h3, h4, h5, h6, h7⟩ := h
    rw [if_neg (not_lt.2 h1), if_neg (not_lt.2 h2), if_neg (not_lt.2 h3), if_neg (not_lt.2 h4), if_neg (not_lt.2 h5), if_neg (not_lt.2 h6), if_neg (not_lt.2 h7)]
    by_cases h8 : st - sf = 0
    · rw [if_pos h8, if_pos h8]
    · rw [if_neg h8, if_neg h8]; rfl

theorem apeLoop_unrounded : ∀ (l m : List ℚ) (acc : ℚ), unrounded.apeLoop acc l m = (apeSum l m).map (fun s => acc + s)
  | [], m, acc => by cases m <;> simp [Rounding.apeLoop, apeSum, Except.map]
  | a :: l, [], acc => by simp [Rounding.apeLoop, apeSum, Except.map]
  | a :: l, b :: m, acc => by
    unfold Rounding.apeLoop apeSum
    rw [unrounded_div]
    show (match pyDiv (a - b) a with | .error e => _ | .ok q => _) = _
    unfold pyDiv
    by_cases h : a = 0
    · rw [if_pos h, if_pos h]; rfl
    · rw [if_neg h, if_neg h]
      dsimp only
      rw [apeLoop_unrounded l m]
      cases apeSum l m with
      | error e => rfl
      | ok s => simp only [Except.map]; rw [← add_assoc]; rfl

theorem maxAeLoop_unrounded : ∀ (l m : List ℚ) (acc : Option ℚ), unrounded.maxAeLoop acc l m = maxAeLoop acc l m
  | [], m, acc => by cases m <;> rfl
  | a :: l, [], acc => rfl
  | a :: l, b :: m, acc => by
    unfold Rounding.maxAeLoop maxAeLoop
    rw [maxAeLoop_unrounded l m]
    cases acc <;> rfl

/-- **C306** (unrounded) without rounding the error metrics are the exact ones -/
theorem C306_unrounded (l m : List ℚ) : unrounded.mape l m = mape l m ∧ unrounded.maxAe l m = maxAe l m := by
  constructor
  · unfold Rounding.mape mape
    rw [apeLoop_unrounded]
    split_ifs with h h'
    · rfl
    · cases apeSum l m with
      | error e => rfl
      | ok s => simp [Except.map, unrounded_div, pyDiv, h']
    · cases apeSum l m with
      | error e => rfl
      | ok s => simp [Except.map, unrounded_div, pyDiv, h']
  · unfold Rounding.maxAe maxAe
    rw [maxAeLoop_unrounded]

/-- **C307** (unrounded) without rounding the position in the period is the exact one -/
theorem C307_unrounded (t res : ℚ) (p : ℕ) : unrounded.periodicityIndex t res p = periodicityIndex t res p none := by
  unfold Rounding.periodicityIndex periodicityIndex
  rw [unrounded_div]
  unfold pyDiv
  split_ifs <;> rfl

end Timeseria
