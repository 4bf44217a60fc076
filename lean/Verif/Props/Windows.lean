import Verif.Model.Windows
import Verif.Lemmas.Ops
import Verif.Lemmas.Dict

/-! # Training windows, features, normalisation (C61, C109-C112) -/

namespace Timeseria

/-! ## C61 -/

/-- the data loss of the item is known and below the limit, or there is no data loss or no limit -/
def BelowLimit (limit : Option ℚ) (x : Item) : Prop :=
  ∀ m l, limit = some m → x.idx.get? "data_loss" = some (some l) → l < m

instance (limit : Option ℚ) (x : Item) : Decidable (BelowLimit limit x) :=
  match limit, h : x.idx.get? "data_loss" with
  | none, _ => isTrue (by simp [BelowLimit])
  | some _, none => isTrue (by simp [BelowLimit, h])
  | some _, some none => isTrue (by simp [BelowLimit, h])
  | some m, some (some l) => if hl : l < m then isTrue (by simp [BelowLimit, h, hl]) else isFalse (by simp [BelowLimit, h, hl])

/-- the value of a label of an item with dictionary data -/
def valueOf (x : Item) (k : String) : ℚ :=
  match x.data with
  | some (.dict d) => (d.get? k).getD 0
  | _ => 0

/-- the item carries a dictionary with all these labels -/
def CarriesLabels (ks : List String) (x : Item) : Prop :=
  ∃ d : Dict ℚ, x.data = some (.dict d) ∧ ∀ k ∈ ks, ∃ v, d.get? k = some v

/-- no item has a data loss index whose value is `None` -/
def KnownLoss (x : Item) : Prop := x.idx.get? "data_loss" ≠ some none

theorem lossReaches_known (limit : Option ℚ) (x : Item) (h : KnownLoss x) :
    lossReaches limit x = .ok (decide (¬ BelowLimit limit x)) := by
  unfold lossReaches KnownLoss at *
  cases limit with
  | none => simp [BelowLimit]
  | some m =>
    simp only
    cases hx : x.idx.get? "data_loss" with
    | none => simp [BelowLimit, hx]
    | some o =>
      cases o with
      | none => exact absurd hx h
      | some l => simp [BelowLimit, hx]

theorem anyReaches_known (limit : Option ℚ) (l : List Item) (h : ∀ x ∈ l, KnownLoss x) :
    anyReaches limit l = .ok (decide (¬ ∀ x ∈ l, BelowLimit limit x)) := by
  induction l with
  | nil => simp [anyReaches]
  | cons x r ih =>
    unfold anyReaches
    rw [lossReaches_known limit x (h x (by simp)), ih (fun y hy => h y (by simp [hy]))]
    by_cases hb : BelowLimit limit x
    · simp [hb]
    · simp [hb]

theorem raw_ok (ks : List String) (x : Item) (h : CarriesLabels ks x) (k : String) (hk : k ∈ ks) :
    x.raw k = .ok (valueOf x k) := by
  obtain ⟨d, hd, hv⟩ := h
  obtain ⟨v, hv⟩ := hv k hk
  simp [Item.raw, valueOf, hd, hv]

/-- the row of position `i` -/
def rowAt (ctx : Option (List String)) (targets : List String) (W : ℕ) (l : List Item) (i : ℕ) (x : Item) : WRow :=
  ⟨(l.drop (i - W)).take W, targets.map (valueOf x), (ctx.getD []).map (fun k => (k, valueOf x k))⟩

theorem windowRow_known (ctx : Option (List String)) (targets : List String) (limit : Option ℚ)
    (w : List Item) (x : Item) (hk : ∀ y ∈ w ++ [x], KnownLoss y) (hl : CarriesLabels (targets ++ ctx.getD []) x) :
    windowRow ctx targets limit w x =
      .ok (if ∀ y ∈ w ++ [x], BelowLimit limit y then
        some ⟨w, targets.map (valueOf x), (ctx.getD []).map (fun k => (k, valueOf x k))⟩ else none) := by
  unfold windowRow
  rw [anyReaches_known limit _ hk]
  by_cases hb : ∀ y ∈ w ++ [x], BelowLimit limit y
  · rw [if_pos hb]
    have hdec : decide (¬ ∀ y ∈ w ++ [x], BelowLimit limit y) = false := decide_eq_false (fun h => h hb)
    rw [hdec]
    dsimp only
    rw [mapE_ok (g := valueOf x) (fun k hk' => raw_ok _ x hl k (by simp [hk']))]
    cases ctx with
    | none => simp [contextOf]
    | some ks =>
      have : contextOf (some ks) x = .ok (ks.map (fun k => (k, valueOf x k))) := by
        unfold contextOf
        apply mapE_ok
        intro k hk'
        rw [raw_ok _ x hl k (by simp [hk'])]
        rfl
      simp [this]
  · rw [if_neg hb]
    have hdec : decide (¬ ∀ y ∈ w ++ [x], BelowLimit limit y) = true := decide_eq_true hb
    rw [hdec]

theorem windowLoop_known (ctx : Option (List String)) (targets : List String) (limit : Option ℚ) (W : ℕ)
    (l : List Item) (hk : ∀ y ∈ l, KnownLoss y) (hl : ∀ y ∈ l, CarriesLabels (targets ++ ctx.getD []) y) :
    ∀ (rest : List Item) (i : ℕ), l.drop i = rest →
      windowLoop ctx targets limit W l i rest = .ok (((List.range' i rest.length).filter (fun i =>
        (decide (W ≤ i) && ((l.drop (i - W)).take (W + 1)).all (fun y => decide (BelowLimit limit y))))).map (fun i =>
          rowAt ctx targets W l i (l.getD i default))) := by
  intro rest
  induction rest with
  | nil => intro i _; simp [windowLoop]
  | cons x r ih =>
    intro i hi
    have hlt : i < l.length := by
      by_contra h
      rw [List.drop_eq_nil_of_le (by omega)] at hi
      cases hi
    have hx : l[i] = x := by
      have := List.drop_eq_getElem_cons hlt
      rw [hi] at this
      simpa using (List.cons.inj this).1.symm
    have hr : l.drop (i + 1) = r := by
      rw [← List.drop_drop, hi]; simp
    have hxm : x ∈ l := hx ▸ List.getElem_mem hlt
    have hget : l.getD i default = x := by
      rw [List.getD_eq_getElem?_getD, List.getElem?_eq_getElem hlt]; simpa using hx
    have hih := ih (i + 1) hr
    unfold windowLoop
    rw [List.length_cons, List.range'_succ, List.filter_cons]
    by_cases hW : i < W
    · rw [if_pos hW, hih]
      have : ¬ W ≤ i := by omega
      simp [this]
    · rw [if_neg hW]
      have hsplit : (l.drop (i - W)).take W ++ [x] = (l.drop (i - W)).take (W + 1) := by
        have h1 : W < (l.drop (i - W)).length := by simp; omega
        have h2 : (l.drop (i - W))[W] = x := by
          rw [List.getElem_drop]
          have : i - W + W = i := by omega
          simp only [this]; exact hx
        rw [← List.take_concat_get' _ _ h1, h2]
      have hmem : ∀ y ∈ (l.drop (i - W)).take W ++ [x], y ∈ l := by
        intro y hy
        rw [hsplit] at hy
        exact List.mem_of_mem_drop (List.mem_of_mem_take hy)
      rw [windowRow_known ctx targets limit _ x (fun y hy => hk y (hmem y hy)) (hl x hxm), hsplit, hih]
      have hW' : W ≤ i := by omega
      by_cases hb : ∀ y ∈ (l.drop (i - W)).take (W + 1), BelowLimit limit y
      · have hd : (decide (W ≤ i) && ((l.drop (i - W)).take (W + 1)).all (fun y => decide (BelowLimit limit y))) = true := by
          simp only [Bool.and_eq_true, decide_eq_true_eq, List.all_eq_true]; exact ⟨hW', hb⟩
        rw [if_pos hb, if_pos hd, List.map_cons, hget]
        rfl
      · have hd : (decide (W ≤ i) && ((l.drop (i - W)).take (W + 1)).all (fun y => decide (BelowLimit limit y))) = false := by
          rw [Bool.eq_false_iff]
          simp only [ne_eq, Bool.and_eq_true, decide_eq_true_eq, List.all_eq_true, not_and]; exact fun _ => hb
        rw [if_neg hb, if_neg (by rw [hd]; simp)]
        simp

/-- **C61**: the training rows are, in order, one for each position preceded by a whole window such that
neither the items of the window nor the target reach the data loss limit: the window elements
are the `W` items just before it, the target values (and the context) are read from the item itself. -/
theorem C61_windows (l : List Item) (W : ℕ) (ctx : Option (List String)) (targets : List String)
    (limit : Option ℚ) (hk : ∀ y ∈ l, KnownLoss y) (hl : ∀ y ∈ l, CarriesLabels (targets ++ ctx.getD []) y) :
    toMatrix l W 1 ctx targets limit = .ok (((List.range l.length).filter (fun i =>
        (decide (W ≤ i) && ((l.drop (i - W)).take (W + 1)).all (fun y => decide (BelowLimit limit y))))).map (fun i =>
          rowAt ctx targets W l i (l.getD i default))) := by
  unfold toMatrix
  rw [if_neg (by omega), windowLoop_known ctx targets limit W l hk hl l 0 rfl, List.range_eq_range']

/-- **C61**, read from the rows: each row is a run of consecutive items of the series, the window
followed by its target, all below the limit. -/
theorem C61_runs (l : List Item) (W : ℕ) (ctx : Option (List String)) (targets : List String)
    (limit : Option ℚ) (hk : ∀ y ∈ l, KnownLoss y) (hl : ∀ y ∈ l, CarriesLabels (targets ++ ctx.getD []) y)
    (rows : List WRow) (h : toMatrix l W 1 ctx targets limit = .ok rows) (r : WRow) :
    r ∈ rows ↔ ∃ pre x post, l = pre ++ r.window ++ x :: post ∧ r.window.length = W ∧
      (∀ y ∈ r.window ++ [x], BelowLimit limit y) ∧ r.target = targets.map (valueOf x) ∧
      r.context = (ctx.getD []).map (fun k => (k, valueOf x k)) := by
  rw [C61_windows l W ctx targets limit hk hl] at h
  obtain rfl := (Except.ok.inj h).symm
  constructor
  · intro hr
    rw [List.mem_map] at hr
    obtain ⟨i, hi, rfl⟩ := hr
    rw [List.mem_filter, List.mem_range, Bool.and_eq_true, decide_eq_true_eq, List.all_eq_true] at hi
    obtain ⟨hlt, hW, hb⟩ := hi
    simp only [decide_eq_true_eq] at hb
    have hx : l.getD i default = l[i] := by
      rw [List.getD_eq_getElem?_getD, List.getElem?_eq_getElem hlt]; rfl
    have h1 : W < (l.drop (i - W)).length := by simp; omega
    have h2 : (l.drop (i - W))[W] = l[i] := by
      rw [List.getElem_drop]
      have : i - W + W = i := by omega
      simp only [this]
    have hsplit : (l.drop (i - W)).take W ++ [l[i]] = (l.drop (i - W)).take (W + 1) := by
      rw [← List.take_concat_get' _ _ h1, h2]
    refine ⟨l.take (i - W), l[i], l.drop (i + 1), ?_, ?_, ?_, by rw [hx]; rfl, by rw [hx]; rfl⟩
    · have h3 : l.drop (i - W) = (l.drop (i - W)).take (W + 1) ++ l.drop (i + 1) := by
        have : l.drop (i + 1) = (l.drop (i - W)).drop (W + 1) := by
          rw [List.drop_drop]; congr 1; omega
        rw [this, List.take_append_drop]
      calc l = l.take (i - W) ++ l.drop (i - W) := (List.take_append_drop _ _).symm
        _ = _ := by rw [h3, ← hsplit]; simp [rowAt]
    · simp [rowAt]; omega
    · show ∀ y ∈ (l.drop (i - W)).take W ++ [l[i]], _
      rw [hsplit]; exact hb
  · rintro ⟨pre, x, post, hl', hW, hb, ht, hc⟩
    rw [List.mem_map]
    have hlen : (pre ++ r.window).length = pre.length + W := by simp [hW]
    have hdrop : l.drop pre.length = r.window ++ x :: post := by rw [hl']; simp
    have hi : pre.length + W - W = pre.length := by omega
    refine ⟨pre.length + W, ?_, ?_⟩
    · rw [List.mem_filter, List.mem_range, Bool.and_eq_true, decide_eq_true_eq, List.all_eq_true]
      refine ⟨by rw [hl']; simp [hW], by omega, ?_⟩
      rw [hi, hdrop]
      have : (r.window ++ x :: post).take (W + 1) = r.window ++ [x] := by
        rw [List.take_append, List.take_of_length_le (by omega), hW]
        simp
      rw [this]
      intro y hy
      exact decide_eq_true (hb y hy)
    · unfold rowAt
      rw [hi, hdrop]
      have hx : l.getD (pre.length + W) default = x := by
        rw [hl', ← hlen, List.getD_eq_getElem?_getD, List.getElem?_append_right (by omega)]
        simp
      have hw : (r.window ++ x :: post).take W = r.window := by
        rw [← hW]; simp
      rw [hx, hw, ← ht, ← hc]

/-- more than one step is refused -/
theorem C61_steps (l : List Item) (W steps : ℕ) (ctx : Option (List String)) (targets : List String)
    (limit : Option ℚ) (h : 1 < steps) : toMatrix l W steps ctx targets limit = .error .notImplemented := by
  simp [toMatrix, h]

/-- non-vacuity: four items, the third with too high a data loss: only one window is left -/
def lossyItems : List Item :=
  [mkPoint 0 (.dict [("v", 1)]), mkPoint 60 (.dict [("v", 2)]) "UTC" [("data_loss", some (1/2))],
   mkPoint 120 (.dict [("v", 3)]), mkPoint 180 (.dict [("v", 4)]) "UTC" [("data_loss", some 1)]]

example : toMatrix lossyItems 2 1 none ["v"] (some 1) = .ok [⟨lossyItems.take 2, [3], []⟩] := by decide +kernel
example : (∀ y ∈ lossyItems, KnownLoss y) ∧ (∀ y ∈ lossyItems, CarriesLabels (["v"] ++ (none : Option (List String)).getD []) y) := by
  constructor
  · intro y hy
    simp only [lossyItems, List.mem_cons, List.not_mem_nil, or_false] at hy
    rcases hy with rfl | rfl | rfl | rfl <;> (unfold KnownLoss; decide +kernel)
  · intro y hy
    simp only [lossyItems, List.mem_cons, List.not_mem_nil, or_false] at hy
    rcases hy with rfl | rfl | rfl | rfl <;> exact ⟨_, rfl, fun k hk => ⟨_, by
      simp only [Option.getD_none, List.append_nil, List.mem_singleton] at hk
      subst hk
      rfl⟩⟩

/-! ## C109: items with an unknown data loss -/

/-- **C109** is false: an item whose data loss index is there but unknown (`None`, as in the slots created
by a forecast) makes the extraction of the windows raise a `TypeError` when there is a limit. -/
theorem C109_false : ∃ (l : List Item), (∀ y ∈ l, CarriesLabels ["v"] y) ∧
    toMatrix l 1 1 none ["v"] (some 1) = .error .typeError :=
  ⟨[mkPoint 0 (.dict [("v", 1)]) "UTC" [("data_loss", none)], mkPoint 60 (.dict [("v", 2)])], by
    intro y hy
    simp only [List.mem_cons, List.not_mem_nil, or_false] at hy
    rcases hy with rfl | rfl <;> exact ⟨_, rfl, fun k hk => ⟨_, by
      simp only [List.mem_singleton] at hk
      subst hk
      rfl⟩⟩, by decide +kernel⟩

/-- **C109**, what holds: without a limit the unknown data losses do no harm. -/
theorem anyReaches_none (l : List Item) : anyReaches none l = .ok false := by
  induction l with
  | nil => rfl
  | cons x r ih => simp [anyReaches, lossReaches, ih]

theorem C109_no_limit_partial (ctx : Option (List String)) (targets : List String) (w : List Item) (x : Item)
    (hl : CarriesLabels (targets ++ ctx.getD []) x) :
    windowRow ctx targets none w x =
      .ok (some ⟨w, targets.map (valueOf x), (ctx.getD []).map (fun k => (k, valueOf x k))⟩) := by
  unfold windowRow
  rw [anyReaches_none]
  simp only
  rw [mapE_ok (g := valueOf x) (fun k hk' => raw_ok _ x hl k (by simp [hk']))]
  simp only
  cases ctx with
  | none => simp [contextOf]
  | some ks =>
    have : contextOf (some ks) x = .ok (ks.map (fun k => (k, valueOf x k))) := by
      unfold contextOf
      apply mapE_ok
      intro k hk'
      rw [raw_ok _ x hl k (by simp [hk'])]
      rfl
    simp [this]

/-! ## C110: the features of a window -/

/-- the difference at a position of a list of at least two values: forward, backward or half the
central one -/
def properDiff (v : ℕ → ℚ) (n i : ℕ) : ℚ :=
  if i = 0 then v 1 - v 0 else if i = n - 1 then v (n - 1) - v (n - 2) else (v (i + 1) - v (i - 1)) / 2

/-- **C110** is false: for constant data every difference is 0 and every feature is 1, the same as for data growing by
1 at each step. -/
theorem C110_false : windowFeatures [⟨[("v", 5)], 0⟩, ⟨[("v", 5)], 1⟩, ⟨[("v", 5)], 2⟩] ["v"] ⟨false, true, false⟩ none =
      .ok [[1], [1], [1]] ∧
    windowFeatures [⟨[("v", 5)], 0⟩, ⟨[("v", 6)], 1⟩, ⟨[("v", 7)], 2⟩] ["v"] ⟨false, true, false⟩ none =
      .ok [[1], [1], [1]] ∧
    properDiff (fun _ => 5) 3 1 = 0 := by
  refine ⟨by decide +kernel, by decide +kernel, by simp [properDiff]⟩

theorem featRows_spec (ps : List FPoint) (ks : List String) (f : Features) (g : ℕ → FPoint → List ℚ)
    (hg : ∀ i p, ps[i]? = some p → featRow ps ks f i p = .ok (g i p)) :
    ∀ (rest : List FPoint) (i : ℕ), ps.drop i = rest →
      featRows ps ks f i rest = .ok (rest.zipIdx i |>.map (fun e => g e.2 e.1)) := by
  intro rest
  induction rest with
  | nil => intro i _; rfl
  | cons p r ih =>
    intro i hi
    have hlt : i < ps.length := by
      by_contra h
      rw [List.drop_eq_nil_of_le (by omega)] at hi
      cases hi
    have hx : ps[i]? = some p := by
      have := List.drop_eq_getElem_cons hlt
      rw [hi] at this
      rw [List.getElem?_eq_getElem hlt, ← (List.cons.inj this).1]
    have hr : ps.drop (i + 1) = r := by rw [← List.drop_drop, hi]; simp
    unfold featRows
    rw [hg i p hx, ih (i + 1) hr]
    simp [List.zipIdx_cons]

/-- **C110**, what holds: for a window of at least two items, all carrying the labels, there is one feature
vector per item: its values in the order of the labels, then its differences, then its hour as a fraction of the
day; the differences are the proper ones except that a difference of 0 becomes 1. -/
theorem C110_features_partial (ps : List FPoint) (ks : List String) (f : Features) (h2 : 2 ≤ ps.length)
    (val : String → ℕ → ℚ) (hval : ∀ i p, ps[i]? = some p → ∀ k ∈ ks, p.data.get? k = some (val k i)) :
    windowFeatures ps ks f none = .ok (ps.zipIdx.map (fun e =>
      (if f.values then ks.map (fun k => val k e.2) else []) ++
      (if f.diffs then ks.map (fun k => if properDiff (val k) ps.length e.2 = 0 then 1
        else properDiff (val k) ps.length e.2) else []) ++
      (if f.hours then [e.1.hour / 24] else []))) := by
  have hat : ∀ j, j < ps.length → ∀ k ∈ ks, featAt ps j k = some (val k j) := by
    intro j hj k hk
    unfold featAt
    rw [List.getElem?_eq_getElem hj]
    exact hval j _ (List.getElem?_eq_getElem hj) k hk
  unfold windowFeatures
  simp only [Option.toList_none, List.append_nil]
  apply featRows_spec ps ks f (fun i p =>
      (if f.values then ks.map (fun k => val k i) else []) ++
      (if f.diffs then ks.map (fun k => if properDiff (val k) ps.length i = 0 then 1
        else properDiff (val k) ps.length i) else []) ++
      (if f.hours then [p.hour / 24] else []))
  · intro i p hp
    have hi : i < ps.length := (List.getElem?_eq_some_iff.mp hp).1
    have hdiff : mapE (featDiff ps i) ks = .ok (ks.map (fun k => if properDiff (val k) ps.length i = 0 then 1
        else properDiff (val k) ps.length i)) := by
      apply mapE_ok
      intro k hk
      unfold featDiff properDiff
      by_cases h0 : i = 0
      · rw [if_pos h0, if_neg (by omega), hat 1 (by omega) k hk, hat 0 (by omega) k hk]
        simp [optSub, featStore, nonZero, h0]
      · rw [if_neg h0]
        by_cases hl : i = ps.length - 1
        · rw [if_pos hl, hat _ (by omega) k hk, hat _ (by omega) k hk]
          simp only [optSub, featStore, nonZero]
          rw [if_neg h0, if_pos hl]
        · rw [if_neg hl, hat _ (by omega) k hk, hat _ (by omega) k hk]
          simp only [optSub, featStore, nonZero, Option.map_some]
          rw [if_neg h0, if_neg hl]
    have hvals : ks.map (featValue p) = ks.map (fun k => val k i) := by
      apply List.map_congr_left
      intro k hk
      simp [featValue, hval i p hp k hk]
    unfold featRow
    by_cases hd : f.diffs = true
    · simp only [hd, if_true, hdiff, hvals]
    · simp only [hd, hvals]
      simp
  · rfl

/-- non-vacuity: two items with values, differences and hours -/
example : windowFeatures [⟨[("v", 1)], 6⟩, ⟨[("v", 3)], 12⟩] ["v"] ⟨true, true, true⟩ none =
    .ok [[1, 2, 1/4], [3, 2, 1/2]] := by decide +kernel

/-! ## C111: normalisation -/

theorem rangeOf_bounds (k : String) : ∀ (rows : List (Dict ℚ)) (lo hi : ℚ), rangeOf k rows = .ok (lo, hi) →
    (∀ d ∈ rows, ∃ v, d.get? k = some v ∧ lo ≤ v ∧ v ≤ hi) ∧
    (∃ d ∈ rows, d.get? k = some lo) ∧ (∃ d ∈ rows, d.get? k = some hi) := by
  intro rows
  induction rows with
  | nil => intro lo hi h; simp [rangeOf] at h
  | cons d r ih =>
    intro lo hi h
    cases r with
    | nil =>
      unfold rangeOf at h
      cases hd : d.get? k with
      | none => simp [hd] at h
      | some v =>
        simp only [hd, Except.ok.injEq, Prod.mk.injEq] at h
        obtain ⟨rfl, rfl⟩ := h
        simp [hd]
    | cons d2 r2 =>
      unfold rangeOf at h
      cases hd : d.get? k with
      | none => simp [hd] at h
      | some v =>
        cases hr : rangeOf k (d2 :: r2) with
        | error e => simp [hd, hr] at h
        | ok p =>
          obtain ⟨lo', hi'⟩ := p
          simp only [hd, hr, Except.ok.injEq, Prod.mk.injEq] at h
          obtain ⟨rfl, rfl⟩ := h
          obtain ⟨h1, ⟨dl, hdl, hl⟩, ⟨dh, hdh, hh⟩⟩ := ih lo' hi' hr
          refine ⟨?_, ?_, ?_⟩
          · intro e he
            rcases List.mem_cons.mp he with rfl | he
            · exact ⟨v, hd, min_le_left _ _, le_max_left _ _⟩
            · obtain ⟨v', hv', ha, hb⟩ := h1 e he
              exact ⟨v', hv', le_trans (min_le_right _ _) ha, le_trans hb (le_max_right _ _)⟩
          · rcases le_total v lo' with hc | hc
            · exact ⟨d, by simp, by rw [min_eq_left hc]; exact hd⟩
            · exact ⟨dl, by simp [List.mem_cons.mp hdl], by rw [min_eq_right hc]; exact hl⟩
          · rcases le_total v hi' with hc | hc
            · exact ⟨dh, by simp [List.mem_cons.mp hdh], by rw [max_eq_right hc]; exact hh⟩
            · exact ⟨d, by simp, by rw [max_eq_left hc]; exact hd⟩

/-- **C111**, one value: normalising with the least and the greatest training value gives a number between
0 and 1 for the training values, and the denormalisation gives back the value. -/
theorem C111_normalize (k : String) (rows : List (Dict ℚ)) (lo hi : ℚ) (h : rangeOf k rows = .ok (lo, hi))
    (hne : lo ≠ hi) (d : Dict ℚ) (hd : d ∈ rows) :
    ∃ v n, d.get? k = some v ∧ normalize lo hi v = .ok n ∧ 0 ≤ n ∧ n ≤ 1 ∧ denormalize lo hi n = v := by
  obtain ⟨h1, ⟨dl, hdl, hl⟩, _⟩ := rangeOf_bounds k rows lo hi h
  obtain ⟨v, hv, ha, hb⟩ := h1 d hd
  have hlt : 0 < hi - lo := by
    obtain ⟨v', hv', ha', hb'⟩ := h1 dl hdl
    rw [hl] at hv'
    obtain rfl : lo = v' := by simpa using hv'
    have : lo < hi := lt_of_le_of_ne hb' hne
    linarith
  refine ⟨v, (v - lo) / (hi - lo), hv, by simp [normalize, hlt.ne'], ?_, ?_, ?_⟩
  · exact div_nonneg (by linarith) hlt.le
  · rw [div_le_one hlt]; linarith
  · unfold denormalize
    field_simp
    ring

/-- what a network that has learnt the data should give: the normalised values of the targets -/
def normTargets (rg : Dict (ℚ × ℚ)) (ks : List String) (y : String → ℚ) : List ℚ :=
  ks.map (fun k => (y k - ((rg.get? k).getD (0, 0)).1) / (((rg.get? k).getD (0, 0)).2 - ((rg.get? k).getD (0, 0)).1))

/-- **C111**, the prediction: when the network answers with the normalised values of some data, the forecaster
predicts that data. -/
theorem C111_predict (m : Lstm) (rg : Dict (ℚ × ℚ)) (y : String → ℚ) (hrg : m.ranges = some rg) :
    ∀ (ks : List String), (∀ k ∈ ks, ∃ lo hi, rg.get? k = some (lo, hi) ∧ lo ≠ hi) →
      m.outputs ks (normTargets rg ks y) = .ok (ks.map (fun k => (k, y k))) := by
  intro ks
  induction ks with
  | nil => intro _; rfl
  | cons k r ih =>
    intro h
    obtain ⟨lo, hi, hk, hne⟩ := h k (by simp)
    have hsub : hi - lo ≠ 0 := fun h => hne (by linarith)
    have ih' := ih (fun k' hk' => h k' (by simp [hk']))
    simp only [normTargets, List.map_cons] at ih' ⊢
    unfold Lstm.outputs
    rw [ih']
    simp only [Lstm.output, hrg, hk, Option.getD_some, denormalize]
    congr 3
    field_simp
    ring

/-- **C111** the prediction depends only on the last items of the series, as many as the window. -/
theorem C111_window (m : Lstm) (net : List (List ℚ) → List ℚ) (a b w : List FPoint) (hw : w.length = m.window)
    (h1 : 1 ≤ m.window) : m.predict net (a ++ w) 1 = m.predict net (b ++ w) 1 := by
  have hlast : ∀ c : List FPoint, lastWindow m.window (c ++ w) = w := by
    intro c
    unfold lastWindow
    rw [if_neg (by omega)]
    have : (c ++ w).length - m.window = c.length := by simp; omega
    rw [this]; simp
  unfold Lstm.predict
  rw [hlast a, hlast b, if_neg (by simp; omega), if_neg (by omega), if_neg (by simp; omega)]

/-- non-vacuity -/
example : lstmNormalization none true ["v"] [[("v", 2)], [("v", 4)], [("v", 3)]] =
    .ok (some [("v", (2, 4))], [[("v", 0)], [("v", 1)], [("v", 1/2)]]) := by decide +kernel
example : (⟨2, ["v"], ["v"], ⟨true, false, false⟩, some [("v", (2, 4))]⟩ : Lstm).predict
    (fun f => [(f.flatten.getLast?).getD 0]) [⟨[("v", 9)], 0⟩, ⟨[("v", 2)], 0⟩, ⟨[("v", 3)], 0⟩] 1 = .ok [("v", 3)] := by
  decide +kernel

/-! ## C112: fitting the network -/

/-- **C112** is false in two ways: a label with a constant value cannot be normalised, and a fit without
normalisation keeps the ranges of an earlier fit with it, which `predict` then applies. -/
theorem C112_false :
    (∃ rows, lstmNormalization none true ["v"] rows = .error .zeroDivision) ∧
    (∃ rows1 rows2 rg out, lstmNormalization none true ["v"] rows1 = .ok (some rg, out) ∧
      lstmNormalization (some rg) false ["v"] rows2 = .ok (some rg, rows2) ∧
      lstmNormalization none false ["v"] rows2 = .ok (none, rows2)) :=
  ⟨⟨[[("v", 5)], [("v", 5)]], by decide +kernel⟩,
   ⟨[[("v", 2)], [("v", 4)]], [[("v", 20)], [("v", 40)]], [("v", (2, 4))], [[("v", 0)], [("v", 1)]],
    by decide +kernel, by decide +kernel, by decide +kernel⟩⟩

theorem rangeOf_ok (k : String) : ∀ (rows : List (Dict ℚ)), rows ≠ [] → (∀ d ∈ rows, ∃ v, d.get? k = some v) →
    ∃ lo hi, rangeOf k rows = .ok (lo, hi) := by
  intro rows
  induction rows with
  | nil => intro h; exact absurd rfl h
  | cons d r ih =>
    intro _ h
    obtain ⟨v, hv⟩ := h d (by simp)
    cases r with
    | nil => exact ⟨v, v, by simp [rangeOf, hv]⟩
    | cons d2 r2 =>
      obtain ⟨lo, hi, hr⟩ := ih (by simp) (fun e he => h e (by simp [List.mem_cons.mp he]))
      exact ⟨min v lo, max v hi, by simp [rangeOf, hv, hr]⟩

theorem lookup_names {α : Type} (f : String → α) (k : String) (ks : List String) (h : k ∈ ks) :
    Dict.get? (ks.map (fun k => (k, f k))) k = some (f k) := by
  induction ks with
  | nil => simp at h
  | cons a r ih =>
    by_cases hk : k = a
    · subst hk; simp [Dict.get?]
    · have := ih (by simpa [hk] using h)
      simp only [Dict.get?, List.map_cons, List.lookup_cons] at this ⊢
      have hb : (k == a) = false := by simpa using hk
      simp [hb, this]

theorem normalizeDict_ok (rg : Dict (ℚ × ℚ)) (norm : String → ℚ → ℚ) : ∀ (d : Dict ℚ),
    (∀ e ∈ d, ∃ lo hi, rg.get? e.1 = some (lo, hi) ∧ normalize lo hi e.2 = .ok (norm e.1 e.2)) →
    normalizeDict rg d = .ok (d.map (fun e => (e.1, norm e.1 e.2))) := by
  intro d
  induction d with
  | nil => intro _; rfl
  | cons e r ih =>
    intro h
    obtain ⟨k, v⟩ := e
    obtain ⟨lo, hi, h1, h2⟩ := h (k, v) (by simp)
    simp only at h1 h2
    simp [normalizeDict, h1, h2, ih (fun e he => h e (by simp [he]))]

/-- **C112**, what holds: when every label takes at least two different values, a fit with normalisation
succeeds whatever was stored before, gives the same result, trains on values between 0 and 1, and the stored
ranges give back the original values. -/
theorem C112_normalized_partial (ks : List String) (rows : List (Dict ℚ)) (hne : rows ≠ [])
    (hwf : ∀ d ∈ rows, d.WF) (hkeys : ∀ d ∈ rows, ∀ k, (∃ v, d.get? k = some v) ↔ k ∈ ks)
    (hvar : ∀ k ∈ ks, ∃ d ∈ rows, ∃ d' ∈ rows, d.get? k ≠ d'.get? k) :
    ∃ rg out, (∀ old, lstmNormalization old true ks rows = .ok (some rg, out)) ∧
      out.length = rows.length ∧
      ∀ (i : ℕ) (d d' : Dict ℚ), rows[i]? = some d → out[i]? = some d' → ∀ k v, d.get? k = some v →
        ∃ n lo hi, d'.get? k = some n ∧ 0 ≤ n ∧ n ≤ 1 ∧ rg.get? k = some (lo, hi) ∧ denormalize lo hi n = v := by
  have hr : ∀ k, k ∈ ks → ∃ p : ℚ × ℚ, rangeOf k rows = .ok p := fun k hk => by
    obtain ⟨lo, hi, h⟩ := rangeOf_ok k rows hne (fun d hd => (hkeys d hd k).mpr hk)
    exact ⟨(lo, hi), h⟩
  obtain ⟨f, hf⟩ : ∃ f : String → ℚ × ℚ, ∀ k ∈ ks, rangeOf k rows = .ok (f k) := by
    refine ⟨fun k => if h : k ∈ ks then (hr k h).choose else (0, 0), fun k hk => ?_⟩
    simp only [hk, dif_pos]
    exact (hr k hk).choose_spec
  have hne' : ∀ k ∈ ks, (f k).1 ≠ (f k).2 := by
    intro k hk heq
    obtain ⟨h1, _, _⟩ := rangeOf_bounds k rows (f k).1 (f k).2 (hf k hk)
    obtain ⟨d, hd, d', hd', hdd⟩ := hvar k hk
    obtain ⟨v, hv, ha, hb⟩ := h1 d hd
    obtain ⟨v', hv', ha', hb'⟩ := h1 d' hd'
    apply hdd
    rw [hv, hv']
    congr 1
    rw [← heq] at hb hb'
    linarith
  set rg : Dict (ℚ × ℚ) := ks.map (fun k => (k, f k)) with hrg
  have hrgs : rangesOf ks rows = .ok rg := by
    unfold rangesOf
    apply mapE_ok
    intro k hk
    rw [hf k hk]
    rfl
  set norm : String → ℚ → ℚ := fun k v => (v - (f k).1) / ((f k).2 - (f k).1) with hnorm
  have hmap : mapE (normalizeDict rg) rows = .ok (rows.map (fun d => d.map (fun e => (e.1, norm e.1 e.2)))) := by
    apply mapE_ok
    intro d hd
    apply normalizeDict_ok rg norm
    intro e he
    have hek : e.1 ∈ ks := (hkeys d hd e.1).mp ⟨e.2, Dict.get?_of_mem (hwf d hd) he⟩
    refine ⟨(f e.1).1, (f e.1).2, lookup_names f e.1 ks hek, ?_⟩
    have : (f e.1).2 - (f e.1).1 ≠ 0 := fun h => hne' e.1 hek (by linarith)
    simp [normalize, this, hnorm]
  refine ⟨rg, rows.map (fun d => d.map (fun e => (e.1, norm e.1 e.2))), fun old => ?_, ?_, ?_⟩
  · unfold lstmNormalization
    rw [if_pos rfl, hrgs]
    dsimp only
    rw [hmap]
  · simp
  · intro i d d' hd hd' k v hv
    rw [List.getElem?_map, hd] at hd'
    simp only [Option.map_some, Option.some.injEq] at hd'
    subst hd'
    have hmem : d ∈ rows := List.mem_of_getElem? hd
    have hk : k ∈ ks := (hkeys d hmem k).mp ⟨v, hv⟩
    obtain ⟨v', n, hv', hn, h0, h1, hden⟩ := C111_normalize k rows (f k).1 (f k).2 (hf k hk) (hne' k hk) d hmem
    rw [hv] at hv'
    obtain rfl : v = v' := by simpa using hv'
    have hsub : (f k).2 - (f k).1 ≠ 0 := fun h => hne' k hk (by linarith)
    have hn' : n = norm k v := by
      simp only [normalize, hsub, if_false, Except.ok.injEq] at hn
      rw [← hn]
    refine ⟨n, (f k).1, (f k).2, ?_, h0, h1, lookup_names f k ks hk, hden⟩
    have := Dict.get?_map d (fun k v => norm k v) k
    rw [this, hv, hn']
    rfl

end Timeseria
