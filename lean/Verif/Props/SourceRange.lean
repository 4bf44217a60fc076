import Verif.Model.SourceRange
import Verif.Props.InplaceMore

/-! # C240: normalizing with a given source range; C241: what a failed in-place operation leaves -/

namespace Timeseria

/-! ## C240 -/

theorem sourceExtremes_ok {src : Dict (ℚ × ℚ)} {ks : List String} {lo hi : String → ℚ}
    (h : ∀ k ∈ ks, src.get? k = some (lo k, hi k)) :
    sourceExtremes src ks = .ok (ks.map (fun k => (k, some (lo k, hi k)))) := by
  unfold sourceExtremes
  apply mapE_ok
  intro k hk
  rw [h k hk]

theorem nonempty_of_get {src : Dict (ℚ × ℚ)} {k : String} {p : ℚ × ℚ} (h : src.get? k = some p) : src.isEmpty = false := by
  cases src with
  | nil => simp [Dict.get?] at h
  | cons a b => rfl

/-- the value `v` of a source range from `lo` to `hi` carried to the target range from `a` to `b` -/
def carried (lo hi a b v : ℚ) : ℚ := (v - lo) / (hi - lo) * (b - a) + a

/-- **C240**: with a source range for each label, whose ends are different, every value is carried from the source range to the
target range; in place or not. -/
theorem C240_carried {cal : Calendar} {s : TSeries} {ks : List String} (h : OpSeries cal s ks) (a b : ℚ)
    (src : Dict (ℚ × ℚ)) (lo hi : String → ℚ) (hsrc : ∀ k ∈ ks, src.get? k = some (lo k, hi k)) (hne : ∀ k ∈ ks, lo k ≠ hi k) :
    ∃ r r', s.normalizeFrom cal a b src = .ok r ∧ OpSeries cal r ks ∧
      Computes s.items r.items 0 ks id (fun i k => carried (lo k) (hi k) a b (valueAt s.items i k)) ∧
      (∀ (j : ℕ) (x y : Item), s.items[j]? = some x → r.items[j]? = some y → y.idx = x.idx) ∧
      s.normalizeFromInplace a b src = .ok r' ∧ SameContent ks r.items r'.items := by
  obtain ⟨x, r0, d, kk, hi0, hd, hkk, hp, hprep⟩ := h.opPrep
  obtain ⟨k0, hk0⟩ := List.exists_mem_of_ne_nil _ h.ksne
  have hse := sourceExtremes_ok (src := src) (ks := kk) (lo := lo) (hi := hi) (fun k hk => hsrc k (hp.subset hk))
  have hnv : ∀ k ∈ ks, ∀ x ∈ s.items, normOf (kk.map (fun k => (k, some (lo k, hi k)))) (if a = 0 ∧ b = 1 then none else some (a, b)) k
      (x.value k) = .ok (carried (lo k) (hi k) a b (x.value k)) := by
    intro k hk x _
    unfold normOf
    rw [get?_table _ (hp.symm.subset hk)]
    simp only
    rw [normVal_eq _ _ _ _ (hne k hk)]
    rfl
  obtain ⟨r, h1, h2, h3, h4⟩ := mapOp_spec h (normOf (kk.map (fun k => (k, some (lo k, hi k))))
    (if a = 0 ∧ b = 1 then none else some (a, b))) (fun k v => carried (lo k) (hi k) a b v) hnv
  obtain ⟨r', g1, g2, g3⟩ := inplaceOp_own h (normOf (kk.map (fun k => (k, some (lo k, hi k))))
    (if a = 0 ∧ b = 1 then none else some (a, b))) (fun k v => carried (lo k) (hi k) a b v) hnv
  refine ⟨r, r', ?_, h2, h3, h4, ?_, sameContent_of h3 g2 h4 g3⟩
  · unfold TSeries.normalizeFrom
    rw [nonempty_of_get (hsrc k0 hk0)]
    simp only [Bool.false_eq_true, if_false, hprep, hse]
    exact h1
  · unfold TSeries.normalizeFromInplace
    rw [nonempty_of_get (hsrc k0 hk0)]
    simp only [Bool.false_eq_true, if_false, hprep, hse]
    exact g1

/-- **C240**: what is carried: the ends of the source range go to the ends of the target range, the order of the values is
kept, and a value is within the target range exactly when it was within the source range. -/
theorem C240_between (lo hi a b : ℚ) (hs : lo < hi) (ht : a < b) :
    carried lo hi a b lo = a ∧ carried lo hi a b hi = b ∧
      (∀ v w, v < w ↔ carried lo hi a b v < carried lo hi a b w) ∧
      (∀ v, (a ≤ carried lo hi a b v ∧ carried lo hi a b v ≤ b) ↔ (lo ≤ v ∧ v ≤ hi)) := by
  have h1 : 0 < hi - lo := by linarith
  have h2 : 0 < b - a := by linarith
  have hlo : carried lo hi a b lo = a := by simp [carried]
  have hhi : carried lo hi a b hi = b := by
    unfold carried
    rw [div_self h1.ne']; ring
  have hmono : ∀ v w, v < w ↔ carried lo hi a b v < carried lo hi a b w := by
    intro v w
    unfold carried
    rw [add_lt_add_iff_right, mul_lt_mul_iff_left₀ h2, div_lt_div_iff_of_pos_right h1]
    constructor <;> intro h <;> linarith
  refine ⟨hlo, hhi, hmono, ?_⟩
  intro v
  have m1 := hmono v lo
  have m2 := hmono hi v
  rw [hlo] at m1
  rw [hhi] at m2
  constructor
  · rintro ⟨x, y⟩
    exact ⟨not_lt.1 (fun h => absurd (m1.1 h) (not_lt.2 x)), not_lt.1 (fun h => absurd (m2.1 h) (not_lt.2 y))⟩
  · rintro ⟨x, y⟩
    exact ⟨not_lt.1 (fun h => absurd (m1.2 h) (not_lt.2 x)), not_lt.1 (fun h => absurd (m2.2 h) (not_lt.2 y))⟩

/-- **C240**, refusals: a label without a source range is a `KeyError` -/
theorem C240_missing {cal : Calendar} {s : TSeries} {ks : List String} (h : OpSeries cal s ks) (a b : ℚ)
    (src : Dict (ℚ × ℚ)) (hsrc : src ≠ []) {k : String} (hk : k ∈ ks) (hno : src.get? k = none) :
    s.normalizeFrom cal a b src = .error .keyError ∧ s.normalizeFromInplace a b src = .error .keyError := by
  obtain ⟨x, r0, d, kk, hi0, hd, hkk, hp, hprep⟩ := h.opPrep
  have hemp : src.isEmpty = false := by cases src with
    | nil => exact absurd rfl hsrc
    | cons a b => rfl
  have hse : sourceExtremes src kk = .error .keyError := by
    have : k ∈ kk := hp.symm.subset hk
    clear hkk hp hprep
    unfold sourceExtremes
    induction kk with
    | nil => simp at this
    | cons c r ih =>
      unfold mapE
      cases hc : src.get? c with
      | none => rfl
      | some p =>
        simp only
        rw [ih (by
          rcases List.mem_cons.1 this with e | e
          · rw [e, hc] at hno; cases hno
          · exact e)]
  unfold TSeries.normalizeFrom TSeries.normalizeFromInplace
  rw [hemp]
  simp only [Bool.false_eq_true, if_false, hprep, hse]
  exact ⟨trivial, trivial⟩

/-- the values 1 to 4 of `a` and -2 to 7 of `b`, from source ranges -/
theorem C240_witness : OpSeries physicalCalendar exSeries ["a", "b"] ∧
    (exSeries.normalizeFrom physicalCalendar 0 1 [("a", (0, 10)), ("b", (-10, 10))]).toOption.map (fun r => r.items.map Item.data) =
      some [some (.dict [("a", 1 / 10), ("b", 3 / 4)]), some (.dict [("a", 2 / 5), ("b", 17 / 20)]), some (.dict [("a", 3 / 10), ("b", 2 / 5)])] ∧
    exSeries.normalizeFrom physicalCalendar 0 1 [("a", (0, 10))] = .error .keyError := by
  refine ⟨C21_witness, by decide +kernel, ?_⟩
  have hne : ([("a", (0, 10))] : Dict (ℚ × ℚ)) ≠ [] := by simp
  exact (C240_missing C21_witness 0 1 [("a", (0, 10))] hne (k := "b") (by simp) (by decide +kernel)).1

/-! ## C241

`inplaceOp` keeps only the exception when it fails; the `…Left` variants keep the items too.  They are the same computation. -/

theorem leftLabels_agrees {σ : Type} (ren : String → String) (f : σ → List Item → ℕ → String → Except PyErr (σ × ℚ)) (i : ℕ)
    (ks : List String) : ∀ (st : σ) (l : List Item), inplaceLabels ren f i st l ks =
      (leftLabels ren f i st l ks).2.map (fun st' => (st', (leftLabels ren f i st l ks).1)) := by
  induction ks with
  | nil => intro st l; rfl
  | cons k r ih =>
    intro st l
    unfold inplaceLabels leftLabels
    cases f st l i k with
    | error e => rfl
    | ok p =>
      obtain ⟨st', v⟩ := p
      dsimp only
      cases writeAt ren l i k v with
      | error e => rfl
      | ok l' => exact ih st' l'

theorem leftLoop_agrees {σ : Type} (ren : String → String) (f : σ → List Item → ℕ → String → Except PyErr (σ × ℚ))
    (is : List ℕ) : ∀ (st : σ) (l : List Item), inplaceLoop ren f st l is =
      (leftLoop ren f st l is).2.map (fun _ => (leftLoop ren f st l is).1) := by
  induction is with
  | nil => intro st l; rfl
  | cons i r ih =>
    intro st l
    unfold inplaceLoop leftLoop
    cases headLabels l with
    | error e => rfl
    | ok ks =>
      dsimp only
      rw [leftLabels_agrees]
      cases leftLabels ren f i st l ks with
      | mk l' o =>
        cases o with
        | error e => rfl
        | ok st' => exact ih st' l'

theorem leftBy_agrees {σ : Type} (s : TSeries) (ren : String → String) (f : σ → List Item → ℕ → String → Except PyErr (σ × ℚ))
    (st : σ) : s.inplaceOp ren f st = (s.leftBy ren f st).2.map (fun _ => s.withItems (s.leftBy ren f st).1) := by
  unfold TSeries.inplaceOp TSeries.leftBy
  cases s.opPrep with
  | error e => rfl
  | ok p =>
    dsimp only
    rw [leftLoop_agrees]
    cases leftLoop ren f st s.items (List.range s.items.length) with
    | mk l o => cases o <;> rfl

/-- what an operation returned (`r`) and what it did to the series (`p`) are the same run -/
def SameRun (s : TSeries) (r : Except PyErr TSeries) (p : List Item × Outcome) : Prop :=
  r = p.2.map (fun _ => s.withItems p.1)

/-- **C241**, the runs: for each in-place operation, what it raises and, when it returns, the series it gives are those of the
in-place operations of C33 and C79. -/
theorem C241_runs_partial (cal : Calendar) (s : TSeries) (auto a b : ℚ) (v : NumOrDict) :
    SameRun s (s.normalizeInplace a b) (s.normalizeLeft a b) ∧ SameRun s (s.rescaleInplace v) (s.rescaleLeft v) ∧
      SameRun s (s.offsetInplace v) (s.offsetLeft v) ∧ SameRun s (s.integralInplace cal auto v) (s.integralLeft cal auto v) ∧
      SameRun s (s.derivativeInplace cal auto) (s.derivativeLeft cal auto) ∧ SameRun s s.csumInplace s.csumLeft := by
  refine ⟨?_, leftBy_agrees _ _ _ _, leftBy_agrees _ _ _ _, ?_, ?_, ?_⟩
  · unfold SameRun TSeries.normalizeInplace TSeries.normalizeLeft
    cases hp : s.opPrep with
    | error e => rfl
    | ok p =>
      obtain ⟨d, ks⟩ := p
      dsimp only
      cases perLabel s ks minMaxLoop with
      | error e => rfl
      | ok m => exact leftBy_agrees _ _ _ _
  · unfold SameRun TSeries.integralInplace TSeries.integralLeft
    cases hp : s.opPrep with
    | error e => rfl
    | ok p =>
      dsimp only
      cases s.normInfo cal auto with
      | error e => rfl
      | ok m => exact leftBy_agrees _ _ _ _
  · unfold SameRun TSeries.derivativeInplace TSeries.derivativeLeft
    cases hp : s.opPrep with
    | error e => rfl
    | ok p =>
      dsimp only
      by_cases h1 : s.items.length = 1
      · rw [if_pos h1, if_pos h1]; rfl
      · rw [if_neg h1, if_neg h1]
        cases s.normInfo cal auto with
        | error e => rfl
        | ok m => exact leftBy_agrees _ _ _ _
  · unfold SameRun TSeries.csumInplace TSeries.csumLeft
    by_cases h1 : s.items.isEmpty = true
    · rw [if_pos h1, if_pos h1]; rfl
    · rw [if_neg h1, if_neg h1]
      by_cases h2 : s.res = .varying
      · rw [if_pos h2, if_pos h2]; rfl
      · rw [if_neg h2, if_neg h2]
        exact leftBy_agrees _ _ _ _

/-- everything of an item but its data -/
def Item.frame (x : Item) : ℚ × Option (ℚ × TUnit) × String × Dict (Option ℚ) := (x.t, x.slot, x.tz, x.idx)

theorem writeAt_frame {ren : String → String} {l l' : List Item} {i : ℕ} {k : String} {v : ℚ} (h : writeAt ren l i k v = .ok l') :
    l'.map Item.frame = l.map Item.frame := by
  unfold writeAt at h
  cases hx : l[i]? with
  | none => rw [hx] at h; cases h
  | some x =>
    rw [hx] at h
    dsimp only at h
    cases hd : x.data with
    | none => rw [hd] at h; cases h
    | some d =>
      rw [hd] at h
      dsimp only at h
      cases hw : writeLabel ren d k v with
      | error e => rw [hw] at h; cases h
      | ok d' =>
        rw [hw] at h
        dsimp only at h
        cases h
        apply List.ext_getElem?
        intro j
        rw [List.getElem?_map, List.getElem?_map, List.getElem?_set]
        split_ifs with h1 h2
        · subst h1; rw [hx]; rfl
        · subst h1; rw [List.getElem?_eq_none (by omega)]
        · rfl

theorem leftLabels_frame {σ : Type} (ren : String → String) (f : σ → List Item → ℕ → String → Except PyErr (σ × ℚ)) (i : ℕ)
    (ks : List String) : ∀ (st : σ) (l : List Item), (leftLabels ren f i st l ks).1.map Item.frame = l.map Item.frame := by
  induction ks with
  | nil => intro st l; rfl
  | cons k r ih =>
    intro st l
    unfold leftLabels
    cases f st l i k with
    | error e => rfl
    | ok p =>
      obtain ⟨st', v⟩ := p
      dsimp only
      cases hw : writeAt ren l i k v with
      | error e => rfl
      | ok l' => dsimp only; rw [ih st' l', writeAt_frame hw]

theorem leftLoop_frame {σ : Type} (ren : String → String) (f : σ → List Item → ℕ → String → Except PyErr (σ × ℚ))
    (is : List ℕ) : ∀ (st : σ) (l : List Item), (leftLoop ren f st l is).1.map Item.frame = l.map Item.frame := by
  induction is with
  | nil => intro st l; rfl
  | cons i r ih =>
    intro st l
    unfold leftLoop
    cases headLabels l with
    | error e => rfl
    | ok ks =>
      dsimp only
      have := leftLabels_frame ren f i ks st l
      cases hl : leftLabels ren f i st l ks with
      | mk l' o =>
        rw [hl] at this
        cases o with
        | error e => exact this
        | ok st' => dsimp only; rw [ih st' l']; exact this

theorem leftBy_frame {σ : Type} (s : TSeries) (ren : String → String) (f : σ → List Item → ℕ → String → Except PyErr (σ × ℚ))
    (st : σ) : (s.leftBy ren f st).1.map Item.frame = s.items.map Item.frame := by
  unfold TSeries.leftBy
  cases s.opPrep with
  | error e => rfl
  | ok p => exact leftLoop_frame _ _ _ _ _

/-- **C241**, what holds for every in-place operation, on every series and whatever the outcome: the items are as many, with the
same times, extents, zones and indexes. -/
theorem C241_frame_partial (cal : Calendar) (s : TSeries) (auto a b : ℚ) (v : NumOrDict) :
    ∀ p ∈ [s.normalizeLeft a b, s.rescaleLeft v, s.offsetLeft v, s.integralLeft cal auto v, s.derivativeLeft cal auto, s.csumLeft],
      p.1.length = s.items.length ∧ ∀ (j : ℕ) (x y : Item), s.items[j]? = some x → p.1[j]? = some y →
        y.t = x.t ∧ y.slot = x.slot ∧ y.tz = x.tz ∧ y.idx = x.idx := by
  have key : ∀ p : List Item × Outcome, p.1.map Item.frame = s.items.map Item.frame → p.1.length = s.items.length ∧
      ∀ (j : ℕ) (x y : Item), s.items[j]? = some x → p.1[j]? = some y →
        y.t = x.t ∧ y.slot = x.slot ∧ y.tz = x.tz ∧ y.idx = x.idx := by
    intro p hp
    refine ⟨by simpa using congrArg List.length hp, ?_⟩
    intro j x y hx hy
    have h1 := congrArg (fun l => l[j]?) hp
    simp only [List.getElem?_map, hx, hy, Option.map_some, Option.some.injEq, Item.frame, Prod.mk.injEq] at h1
    exact h1
  intro p hp
  apply key
  simp only [List.mem_cons, List.not_mem_nil, or_false] at hp
  rcases hp with rfl | rfl | rfl | rfl | rfl | rfl
  · unfold TSeries.normalizeLeft
    split
    · rfl
    · split
      · rfl
      · exact leftBy_frame _ _ _ _
  · exact leftBy_frame _ _ _ _
  · exact leftBy_frame _ _ _ _
  · unfold TSeries.integralLeft
    split
    · rfl
    · split
      · rfl
      · exact leftBy_frame _ _ _ _
  · unfold TSeries.derivativeLeft
    split
    · rfl
    · split_ifs
      · rfl
      · split
        · rfl
        · exact leftBy_frame _ _ _ _
  · unfold TSeries.csumLeft
    split_ifs
    · rfl
    · rfl
    · exact leftBy_frame _ _ _ _

/-- **C241**, refusals before the first item: an empty series, a single item without a known resolution for the derivative, and a
variable resolution for the cumulative sums leave the series as it was. -/
theorem C241_refused_partial (cal : Calendar) (s : TSeries) (auto a b : ℚ) (v : NumOrDict) :
    (∀ e, s.opPrep = .error e → ∀ p ∈ [s.normalizeLeft a b, s.rescaleLeft v, s.offsetLeft v, s.integralLeft cal auto v,
      s.derivativeLeft cal auto], p = (s.items, .error e)) ∧
    (s.items.length = 1 → (s.derivativeLeft cal auto).1 = s.items) ∧
    (s.res = .varying → s.csumLeft = (s.items, .error .valueError)) := by
  refine ⟨?_, ?_, ?_⟩
  · intro e he p hp
    simp only [List.mem_cons, List.not_mem_nil, or_false] at hp
    rcases hp with rfl | rfl | rfl | rfl | rfl <;>
      simp only [TSeries.normalizeLeft, TSeries.rescaleLeft, TSeries.offsetLeft, TSeries.integralLeft, TSeries.derivativeLeft,
        TSeries.leftBy, he]
  · intro h1
    unfold TSeries.derivativeLeft
    split
    · rfl
    · rw [if_pos h1]
  · intro h1
    unfold TSeries.csumLeft
    split_ifs
    · rfl
    · rfl

/-- **C241**, one label: normalizing a constant label in place raises `ZeroDivisionError` and, as it is the only label, leaves the
series as it was. -/
theorem C241_constant_partial {cal : Calendar} {s : TSeries} {k : String} (h : OpSeries cal s [k]) (a b m : ℚ)
    (hm : Extremes s.items k m m) : s.normalizeLeft a b = (s.items, .error .zeroDivision) := by
  obtain ⟨x, r0, d, kk, hi, hd, hkk, hp, hprep⟩ := h.opPrep
  have hkk1 : kk = [k] := List.perm_singleton.1 hp
  subst hkk1
  obtain ⟨c, e, hcd, hex⟩ := minMaxLoop_spec h.ne k
  obtain ⟨e1, e2⟩ := hex.unique hm
  subst e1 e2
  unfold TSeries.normalizeLeft
  simp only [hprep, perLabel_ok h hp, TSeries.leftBy]
  have hr : List.range s.items.length = 0 :: (List.range' 1 (s.items.length - 1)) := by
    rw [hi, List.range_eq_range']; simp [List.range'_succ]
  rw [hr]
  unfold leftLoop
  have hh : headLabels s.items = .ok [k] := by
    rw [hi]; simp only [headLabels, hd]; exact hkk
  rw [hh]
  dsimp only
  have hv : valAt s.items 0 k = .ok (x.value k) := by
    unfold valAt
    rw [hi]
    exact (h.lab x (by rw [hi]; simp)).byLabel (by simp)
  have hstep : ownValue (normOf ([k].map (fun k => (k, minMaxLoop (s.items.map (fun x => x.value k)))))
      (if a = 0 ∧ b = 1 then none else some (a, b))) () s.items 0 k = .error .zeroDivision := by
    unfold ownValue
    rw [hv]
    simp only [bindE, normOf, List.map_cons, List.map_nil, Dict.get?, hcd, normVal, pyDiv]
    simp
  unfold leftLabels
  rw [hstep]

/-- two labels, the second one constant -/
def exConst : TSeries :=
  match TSeries.build [mkPoint 0 (.dict [("a", 1), ("b", 5)]), mkPoint 60 (.dict [("a", 4), ("b", 5)])] with
  | .ok s => s
  | .error _ => {}

/-- **C241 is false**: normalizing in place a series whose second label is constant raises `ZeroDivisionError`, but the first
label of the first item is normalized already; the in-place derivative of three points raises `KeyError` leaving
derivatives in the first two; the in-place integral with an integration constant for one of two labels raises `TypeError`
leaving the first item with a label the other items do not have. -/
theorem C241_false :
    ((exConst.normalizeLeft 0 1).2 = .error .zeroDivision ∧ (exConst.normalizeLeft 0 1).1.map Item.data =
      [some (.dict [("a", 0), ("b", 5)]), some (.dict [("a", 4), ("b", 5)])]) ∧
    ((exThree.derivativeLeft physicalCalendar 1).2 = .error .keyError ∧ (exThree.derivativeLeft physicalCalendar 1).1 ≠ exThree.items) ∧
    ((exConst.integralLeft physicalCalendar 1 (.dict [("a", 0)])).2 = .error .typeError ∧
      (exConst.integralLeft physicalCalendar 1 (.dict [("a", 0)])).1.map Item.data =
        [some (.dict [("a", 1), ("b", 5), ("a_integral", 0)]), some (.dict [("a", 4), ("b", 5)])]) := by decide +kernel

end Timeseria
