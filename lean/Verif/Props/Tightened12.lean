import Verif.Props.Nans
import Verif.Props.AnyData
import Verif.Props.DetectorArgs
import Verif.Props.SharedZones
/-!
Statements added after wrong programs were still accepted: which exception is raised, values of the averages, products
and sums with infinities, what a refused timestamp leaves behind.
-/
namespace Timeseria

/-! ## NaN and infinities -/

/-- **C318** (numbers) when all the values are numbers `max` and `min` are those of the exact operations -/
theorem C318_numbers (qs : List ℚ) : PyFloat.maxCol (qs.map .num) = (maxLoop qs).map .num ∧
    PyFloat.minCol (qs.map .num) = (minLoop qs).map .num := by
  cases qs with
  | nil => exact ⟨rfl, rfl⟩
  | cons v r =>
    have key : ∀ (b : PyFloat → PyFloat → Bool) (c : ℚ → ℚ → Bool), (∀ x y : ℚ, b (.num x) (.num y) = c x y) → ∀ (r : List ℚ) (v : ℚ),
        (r.map PyFloat.num).foldl (fun m v => if b m v then v else m) (.num v) = .num (r.foldl (fun m v => if c m v then v else m) v) := by
      intro b c h r
      induction r with
      | nil => intro v; rfl
      | cons w r ih =>
        intro v
        simp only [List.map_cons, List.foldl_cons, h]
        cases c v w <;> exact ih _
    constructor
    · refine (congrArg some (key PyFloat.lt (fun x y => decide (x < y)) (fun _ _ => rfl) r v)).trans ?_
      have : ∀ (r : List ℚ) (v : ℚ), r.foldl (fun acc v => match acc with | none => some v | some m => if v > m then some v else some m) (some v) =
          some (r.foldl (fun m v => if decide (m < v) then v else m) v) := by
        intro r
        induction r with
        | nil => intro v; rfl
        | cons w r ih => intro v; rw [List.foldl_cons, List.foldl_cons, ← ih]; dsimp only; congr 1; by_cases h : w > v <;> simp [h]
      exact congrArg (Option.map PyFloat.num) (this r v).symm
    · refine (congrArg some (key (fun a b => PyFloat.lt b a) (fun x y => decide (y < x)) (fun _ _ => rfl) r v)).trans ?_
      have : ∀ (r : List ℚ) (v : ℚ), r.foldl (fun acc v => match acc with | none => some v | some m => if v < m then some v else some m) (some v) =
          some (r.foldl (fun m v => if decide (v < m) then v else m) v) := by
        intro r
        induction r with
        | nil => intro v; rfl
        | cons w r ih => intro v; rw [List.foldl_cons, List.foldl_cons, ← ih]; dsimp only; congr 1; by_cases h : w < v <;> simp [h]
      exact congrArg (Option.map PyFloat.num) (this r v).symm

/-- **C319** (any factor) a rescaled value is NaN exactly when the value or the factor is, or an infinity is multiplied by zero -/
theorem C319_any_factor (c : List PyFloat) (f v : PyFloat) (i : ℕ) (hv : c[i]? = some v) :
    (PyFloat.rescaleCol f c)[i]? = some .nan ↔
      v = .nan ∨ f = .nan ∨ (v = .num 0 ∧ ∃ n, f = .inf n) ∨ (f = .num 0 ∧ ∃ n, v = .inf n) := by
  unfold PyFloat.rescaleCol
  rw [List.getElem?_map, hv]
  cases v <;> cases f <;> simp [PyFloat.mul]

/-- **C319** (any offset) a value with an offset is NaN exactly when the value or the offset is, or they are opposite infinities -/
theorem C319_any_offset (c : List PyFloat) (f v : PyFloat) (i : ℕ) (hv : c[i]? = some v) :
    (PyFloat.offsetCol f c)[i]? = some .nan ↔ v = .nan ∨ f = .nan ∨ ∃ n, v = .inf n ∧ f = .inf !n := by
  unfold PyFloat.offsetCol
  rw [List.getElem?_map, hv]
  cases v with
  | num q => cases f <;> simp [PyFloat.add]
  | nan => simp [PyFloat.add]
  | inf n => cases f with
    | num q => simp [PyFloat.add]
    | nan => simp [PyFloat.add]
    | inf m => cases n <;> cases m <;> simp [PyFloat.add]

/-- **C319** (signs) an infinity keeps its sign when multiplied by a positive factor and changes it with a negative one -/
theorem C319_infinity_signs (n : Bool) (f : ℚ) : (0 < f → PyFloat.mul (.inf n) (.num f) = .inf n ∧ PyFloat.mul (.num f) (.inf n) = .inf n) ∧
    (f < 0 → PyFloat.mul (.inf n) (.num f) = .inf !n ∧ PyFloat.mul (.num f) (.inf n) = .inf !n) := by
  constructor <;> intro h
  · simp [PyFloat.mul, h.ne', not_lt.2 h.le]
  · simp [PyFloat.mul, h.ne, h]

/-- **C319** (division) dividing by zero raises whatever is divided; the average of nothing raises TypeError -/
theorem C319_division_by_zero (a : PyFloat) : PyFloat.div a (.num 0) = .error .zeroDivision ∧ PyFloat.avgCol [] = .error .typeError := by
  refine ⟨?_, rfl⟩
  cases a <;> simp [PyFloat.div]

/-- **C321** (one append) a point at a finite time after others at finite times is accepted exactly when it is later than the last one offered and than
the last one in the series, and the time unit of the resolution can be made; a refused one changes neither the points nor the resolution -/
theorem C321_one_append (u : ℚ → Bool) (s : NanSeries) (p l t : ℚ) (hp : s.prevT = some (.num p)) (hl : s.ts.getLast? = some (.num l)) :
    ((s.append u (.num t)).2 = true ↔ p < t ∧ l < t ∧ (s.res = .unknown → u (t - p) = true)) ∧
    ((s.append u (.num t)).2 = true → (s.append u (.num t)).1.ts = s.ts ++ [.num t]) ∧
    ((s.append u (.num t)).2 = false → (s.append u (.num t)).1.ts = s.ts) ∧
    (t ≤ p → (s.append u (.num t)).1 = { s with prevT := some (.num t) }) := by
  have hne : s.ts.length > 0 := by
    cases h : s.ts with
    | nil => rw [h] at hl; cases hl
    | cons a b => simp
  have hlast : ∀ q r, NanSeries.last { ts := s.ts, prevT := q, res := r } (.num t) =
      if l < t then ({ ts := s.ts ++ [.num t], prevT := q, res := r }, true) else ({ ts := s.ts, prevT := q, res := r }, false) := by
    intro q r
    unfold NanSeries.last
    dsimp only
    rw [hl]
    simp [PyFloat.lt]
  unfold NanSeries.append
  rw [hp]
  dsimp only
  rw [if_pos hne]
  rcases lt_trichotomy t p with h | h | h
  · rw [if_pos (by simp [PyFloat.lt, h])]
    simp [not_lt.2 h.le]
  · rw [if_neg (by simp [PyFloat.lt, h]), if_pos (by simp [PyFloat.eq, h])]
    simp [h]
  · rw [if_neg (by simp [PyFloat.lt, h.le]), if_neg (by simp [PyFloat.eq, h.ne'])]
    have hle : ¬ t ≤ p := not_le.2 h
    cases hr : s.res with
    | unknown =>
      simp only [PyFloat.sub, PyFloat.neg, PyFloat.add, hlast, ← sub_eq_add_neg]
      cases hu : u (t - p) <;> by_cases hlt : l < t <;> simp [h, hlt, hle]
    | secs d =>
      simp only [hlast]
      by_cases hlt : l < t <;> by_cases he : PyFloat.eq d (PyFloat.sub (.num t) (.num p)) = true <;> simp [h, hlt, hle, he]
    | «variable» =>
      simp only [hlast]
      by_cases hlt : l < t <;> simp [h, hlt, hle]

/-- **C321** (first) the first point is accepted whatever its time is -/
theorem C321_first (u : ℚ → Bool) (t : PyFloat) : NanSeries.append u {} t = ({ ts := [t], prevT := some t }, true) := rfl

/-- the resolution of a history of accepted and refused points -/
theorem C321_resolution_witness :
    (NanSeries.run (fun _ => true) {} [.num 0, .num 60, .num 60]).res = .secs (.num 60) ∧
    (NanSeries.run (fun _ => false) {} [.num 0, .num 60]).ts = [.num 0] ∧
    (NanSeries.append (fun _ => true) (NanSeries.run (fun _ => true) {} [.num 0, .num 60]) (.num 60)).2 = false ∧
    (NanSeries.append (fun _ => true) (NanSeries.run (fun _ => true) {} [.num 0, .num 60]) (.num 50)).2 = false ∧
    (NanSeries.append (fun _ => true) (NanSeries.run (fun _ => true) {} [.num 0, .num 60]) (.num 90)).1.res = .variable := by decide +kernel

/-! ## Any kind of data -/

/-- **C308** (errors) data of another type raise TypeError, lists of another length and dictionaries with other keys ValueError -/
theorem C308_errors (r d : AnyData) : (r.type ≠ d.type → r.check d = .error .typeError) ∧
    (∀ a b, r = .list a → d = .list b → a.length ≠ b.length → r.check d = .error .valueError) ∧
    (∀ a b, r = .dict a → d = .dict b → a.sameKeys b = false → r.check d = .error .valueError) := by
  refine ⟨fun h => by unfold AnyData.check; rw [if_pos h], ?_, ?_⟩
  · rintro a b rfl rfl h
    simp [AnyData.check, AnyData.type, h]
  · rintro a b rfl rfl h
    simp [AnyData.check, AnyData.type, h]

/-- **C310** (errors) a missing key raises KeyError, a text on an array IndexError, any other object TypeError -/
theorem C310_errors (k : String) : (∀ d : Dict ℚ, d.get? k = none → (AnyData.dict d).byLabel k = .error .keyError) ∧
    (∀ l, (AnyData.array l).byLabel k = .error .indexError) ∧ (∀ ty v, (AnyData.scalar ty v).byLabel k = .error .typeError) := by
  refine ⟨?_, fun _ => rfl, fun _ _ => rfl⟩
  intro d h
  simp only [AnyData.byLabel, h]

/-- **C310** (positions) on lists and tuples a text which is not a number raises ValueError, a position which is not there IndexError -/
theorem C310_positions (l : List ℚ) (k : String) : (readNat k = none → (AnyData.list l).byLabel k = .error .valueError ∧ (AnyData.tuple l).byLabel k = .error .valueError) ∧
    (∀ n, readNat k = some n → l.length ≤ n → (AnyData.list l).byLabel k = .error .indexError ∧ (AnyData.tuple l).byLabel k = .error .indexError) ∧
    (∀ n v, readNat k = some n → l[n]? = some v → (AnyData.list l).byLabel k = .ok v ∧ (AnyData.tuple l).byLabel k = .ok v) := by
  refine ⟨?_, ?_, ?_⟩
  · intro h; simp only [AnyData.byLabel, atText, h]; exact ⟨trivial, trivial⟩
  · intro n h hn; simp only [AnyData.byLabel, atText, h, List.getElem?_eq_none hn]; exact ⟨trivial, trivial⟩
  · intro n v h hn; simp only [AnyData.byLabel, atText, h, hn]; exact ⟨trivial, trivial⟩

/-- **C310** (empty) an operation on nothing raises ValueError -/
theorem C310_empty (r : AnyData) (f : List ℚ → ℚ) (g : String → ℚ → ℚ) : AnySeries.scalarOp f { items := [], ref := r } = .error .valueError ∧
    AnySeries.avgOp { items := [], ref := r } = .error .valueError ∧ AnySeries.mapOp g { items := [], ref := r } = .error .valueError := ⟨rfl, rfl, rfl⟩

theorem Forall2_right {α β : Type} {R : α → β → Prop} {l : List α} {r : List β} (h : List.Forall₂ R l r) : ∀ b ∈ r, ∃ a ∈ l, R a b := by
  induction h with
  | nil => simp
  | cons h _ ih =>
    intro b hb
    rcases List.mem_cons.1 hb with rfl | hb
    · exact ⟨_, by simp, h⟩
    · obtain ⟨a, ha, hr⟩ := ih b hb
      exact ⟨a, by simp [ha], hr⟩

/-- **C310** (average) the average under a label, multiplied by the number of the items, is the sum of the values of the items under it -/
theorem C310_average (s : AnySeries) (r : Dict ℚ) (h : s.avgOp = .ok r) : ∀ p ∈ r, ∃ vs, s.values p.1 = .ok vs ∧
    vs.length = s.items.length ∧ p.2 * s.items.length = vs.sum := by
  unfold AnySeries.avgOp AnySeries.scalarOp at h
  cases hl : s.opLabels with
  | error e => rw [hl] at h; cases h
  | ok ks =>
    rw [hl] at h
    dsimp only at h
    have hne : s.items ≠ [] := by
      intro e
      unfold AnySeries.opLabels at hl
      rw [e] at hl; cases hl
    have hz : (s.items.length : ℚ) ≠ 0 := by
      have := List.length_pos_iff.2 hne
      positivity
    intro p hp
    obtain ⟨k, hk, he⟩ := Forall2_right (mapE_ok_inv h) p hp
    cases hv : s.values k with
    | error e => rw [hv] at he; cases he
    | ok vs =>
      rw [hv] at he
      cases he
      refine ⟨vs, hv, ?_, ?_⟩
      · exact (mapE_ok_inv hv).length_eq.symm
      · rw [div_mul_cancel₀ _ hz]
        simp [List.sum_eq_foldl]

/-! ## Arguments of detectors -/

/-- **C314** (errors) no class of predictive models: ValueError; the class given both in first position and by name: TypeError; too many arguments for the predictive model: TypeError -/
theorem C314_errors (own : Option PredClass) (a c : ArgVal) (args : List ArgVal) (kw : Dict ArgVal) :
    (kw.get? "model_class" = some c → detNew own (a :: args) kw = .error .typeError) ∧
    detNew none [] [] = .error .valueError ∧
    (∀ d : DetObj, d.args.length > d.predictor.init.length → ∀ fkw extra, predCall d fkw extra = .error .typeError) := by
  refine ⟨?_, rfl, ?_⟩
  · intro h
    unfold detNew
    rw [h]
  · intro d h fkw extra
    unfold predCall pyBind
    rw [if_pos h]

/-- **C314** (empty text) an empty text or a zero in the place of the class counts as no class, anything else as one -/
theorem C314_truthy : (∀ s : String, (ArgVal.text s).truthy = true ↔ s ≠ "") ∧ (∀ v : ℚ, (ArgVal.num v).truthy = true ↔ v ≠ 0) ∧ ∀ c, (ArgVal.cls c).truthy = true := by
  refine ⟨?_, ?_, fun _ => rfl⟩ <;> intro x <;> simp [ArgVal.truthy]

/-- **C315** (errors) an argument which the detector itself gives to the predictive model cannot be given to `fit`: TypeError -/
theorem C315_errors (d : DetObj) (kw extra i : Dict ArgVal) (hi : pyBind d.predictor.init false d.args d.kw = .ok i)
    (p : String × ArgVal) (hp : p ∈ kw) (he : p.1 ∈ extra.keys) : predCall d kw extra = .error .typeError := by
  unfold predCall
  rw [hi]
  dsimp only
  rw [if_pos]
  rw [List.any_eq_true]
  exact ⟨p, hp, by simpa using he⟩

/-! ## Shared zones -/

/-- **C313** (empty) moving an empty series to a zone raises, and changes nothing -/
theorem C313_empty (ps : Points) (z : Option String) (zone : String) : ∃ e, ZSeries.changeTz ps { items := [], tz := z } zone = (ps, { items := [], tz := z }, .error e) := ⟨_, rfl⟩

end Timeseria
