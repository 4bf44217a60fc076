import Verif.Model.Nans
import Verif.Lemmas.Ops
/-!
C318: largest and smallest values when some are not numbers.
C319: which results a value which is not a number affects.
C320: normalizing with values which are not numbers.
C321: timestamps which are not numbers.
-/
namespace Timeseria
open PyFloat

/-! ## Order -/

theorem lt_irrefl' (a : PyFloat) : PyFloat.lt a a = false := by
  cases a with
  | num q => simp [PyFloat.lt]
  | nan => rfl
  | inf n => cases n <;> rfl

theorem lt_trans' {a b c : PyFloat} (h1 : PyFloat.lt a b = true) (h2 : PyFloat.lt b c = true) : PyFloat.lt a c = true := by
  cases a with
  | nan => simp [PyFloat.lt] at h1
  | num x =>
    cases b with
    | nan => simp [PyFloat.lt] at h1
    | num y =>
      cases c with
      | nan => simp [PyFloat.lt] at h2
      | num z => simp only [PyFloat.lt, decide_eq_true_eq] at *; exact h1.trans h2
      | inf m => simpa [PyFloat.lt] using h2
    | inf n => 
      cases c with
      | nan => simp [PyFloat.lt] at h2
      | num z => simp only [PyFloat.lt] at h1 h2; rw [h2] at h1; cases h1
      | inf m => simpa [PyFloat.lt] using (by simpa [PyFloat.lt] using h2 : n = true ∧ m = false).2
  | inf k =>
    cases b with
    | nan => simp [PyFloat.lt] at h1
    | num y =>
      cases c with
      | nan => simp [PyFloat.lt] at h2
      | num z => exact h1
      | inf m => simp only [PyFloat.lt] at *; rw [h1, h2]; rfl
    | inf n => 
      cases c with
      | nan => simp [PyFloat.lt] at h2
      | num z => simp only [PyFloat.lt, Bool.and_eq_true] at *; exact h1.1
      | inf m => simp only [PyFloat.lt, Bool.and_eq_true] at *; exact ⟨h1.1, h2.2⟩

/-- whatever is not `nan` is comparable -/
theorem not_lt_trans {a b c : PyFloat} (hb : b ≠ .nan) (h1 : PyFloat.lt a b = false) (h2 : PyFloat.lt b c = false) : PyFloat.lt a c = false := by
  cases hac : PyFloat.lt a c with
  | false => rfl
  | true =>
    exfalso
    cases a with
    | nan => simp [PyFloat.lt] at hac
    | num x =>
      cases c with
      | nan => simp [PyFloat.lt] at hac
      | num z =>
        cases b with
        | nan => exact hb rfl
        | num y => simp only [PyFloat.lt, decide_eq_true_eq, decide_eq_false_iff_not, not_lt] at *; linarith
        | inf n => simp only [PyFloat.lt] at h1 h2; rw [h2] at h1; cases h1
      | inf m =>
        cases b with
        | nan => exact hb rfl
        | num y => simp only [PyFloat.lt] at hac h2; rw [hac] at h2; cases h2
        | inf n => cases n <;> cases m <;> simp [PyFloat.lt] at *
    | inf k =>
      cases c with
      | nan => simp [PyFloat.lt] at hac
      | num z =>
        cases b with
        | nan => exact hb rfl
        | num y => simp only [PyFloat.lt] at hac h1; rw [hac] at h1; cases h1
        | inf n => cases n <;> cases k <;> simp [PyFloat.lt] at *
      | inf m =>
        cases b with
        | nan => exact hb rfl
        | num y => cases m <;> cases k <;> simp [PyFloat.lt] at *
        | inf n => cases n <;> cases k <;> cases m <;> simp [PyFloat.lt] at *

/-! ## C318 -/

/-- a loop keeping a value, replaced by the ones `better` than it -/
theorem keep_best (better : PyFloat → PyFloat → Bool) (hnan : ∀ a, better a .nan = false)
    (htr : ∀ {a b c}, b ≠ PyFloat.nan → better a b = false → better b c = false → better a c = false) (hir : ∀ a, better a a = false)
    (has : ∀ {a b}, better a b = true → better b a = false) : ∀ (r : List PyFloat) (v : PyFloat), v ≠ .nan →
    let m := r.foldl (fun m v => if better m v then v else m) v
    m ≠ .nan ∧ m ∈ v :: r ∧ ∀ x ∈ v :: r, better m x = false
  | [], v, hv => ⟨hv, by simp, by simpa using hir v⟩
  | w :: r, v, hv => by
    simp only [List.foldl_cons]
    by_cases h : better v w = true
    · have hw : w ≠ .nan := fun e => by rw [e, hnan] at h; cases h
      rw [if_pos h]
      obtain ⟨h1, h2, h3⟩ := keep_best better hnan htr hir has r w hw
      refine ⟨h1, List.mem_cons_of_mem _ h2, ?_⟩
      intro x hx
      rcases List.mem_cons.1 hx with rfl | hx
      · exact htr hw (h3 w (by simp)) (has h)
      · exact h3 x hx
    · rw [if_neg h]
      obtain ⟨h1, h2, h3⟩ := keep_best better hnan htr hir has r v hv
      refine ⟨h1, ?_, ?_⟩
      · rcases List.mem_cons.1 h2 with e | e
        · rw [e]; simp
        · simp [e]
      · intro x hx
        rcases List.mem_cons.1 hx with rfl | hx
        · exact h3 x (by simp)
        · rcases List.mem_cons.1 hx with rfl | hx
          · exact htr hv (h3 v (by simp)) (by simpa using h)
          · exact h3 x (by simp [hx])

theorem lt_asymm' {a b : PyFloat} (h : PyFloat.lt a b = true) : PyFloat.lt b a = false := by
  cases hb : PyFloat.lt b a with
  | false => rfl
  | true => have := lt_trans' h hb; rw [lt_irrefl'] at this; cases this

theorem lt_nan (a : PyFloat) : PyFloat.lt a .nan = false := by cases a <;> rfl
theorem nan_lt (a : PyFloat) : PyFloat.lt .nan a = false := by cases a <;> rfl

/-- **C318** (max) When the first value is not NaN, `max` is one of the values, not NaN, and no value is above it,
whatever the others are. -/
theorem C318_max_partial (v : PyFloat) (r : List PyFloat) (hv : v ≠ .nan) :
    ∃ m, maxCol (v :: r) = some m ∧ m ≠ .nan ∧ m ∈ v :: r ∧ ∀ x ∈ v :: r, PyFloat.lt m x = false := by
  obtain ⟨h1, h2, h3⟩ := keep_best PyFloat.lt lt_nan (fun hb h h' => not_lt_trans hb h h') lt_irrefl' lt_asymm' r v hv
  exact ⟨_, rfl, h1, h2, h3⟩

/-- **C318** (min) The same for `min`. -/
theorem C318_min_partial (v : PyFloat) (r : List PyFloat) (hv : v ≠ .nan) :
    ∃ m, minCol (v :: r) = some m ∧ m ≠ .nan ∧ m ∈ v :: r ∧ ∀ x ∈ v :: r, PyFloat.lt x m = false := by
  obtain ⟨h1, h2, h3⟩ := keep_best (fun a b => PyFloat.lt b a) nan_lt (fun hb h h' => not_lt_trans hb h' h) lt_irrefl' lt_asymm' r v hv
  exact ⟨_, rfl, h1, h2, h3⟩

theorem keep_nan (better : PyFloat → PyFloat → Bool) (h : ∀ a, better .nan a = false) : ∀ r : List PyFloat,
    r.foldl (fun m v => if better m v then v else m) .nan = .nan
  | [] => rfl
  | w :: r => by rw [List.foldl_cons, if_neg (by rw [h]; simp)]; exact keep_nan better h r

/-- **C318** is false when the first value is NaN: then `max` and `min` are NaN whatever follows -/
theorem C318_first_value_false (r : List PyFloat) : maxCol (.nan :: r) = some .nan ∧ minCol (.nan :: r) = some .nan :=
  ⟨congrArg some (keep_nan _ nan_lt r), congrArg some (keep_nan (fun a b => PyFloat.lt b a) lt_nan r)⟩

/-- **C318** is false: the same values in another order have another maximum -/
theorem C318_order_false : maxCol [.nan, .num 1] = some .nan ∧ maxCol [.num 1, .nan] = some (.num 1) := by decide

/-- **C318** is false for `max_absolute_error`: a prediction which is NaN counts as no error, unless it is the first -/
theorem C318_max_error_false : maxAeCol [.num 1, .num 5] [.num 1, .nan] = some (.num 0) ∧
    maxAeCol [.num 5, .num 1] [.nan, .num 1] = some .nan := by decide +kernel

example : maxCol [.num 3, .nan, .num 7, .nan] = some (.num 7) ∧ minCol [.num 3, .inf true, .nan] = some (.inf true) := by decide

/-! ## C319 -/

/-- a column of numbers and NaN, without infinities -/
def NoInf (c : List PyFloat) : Prop := ∀ v ∈ c, ∀ n, v ≠ .inf n

/-- the sum of a column: NaN if one is, the sum of the numbers otherwise -/
theorem fold_add : ∀ (c : List PyFloat) (a : PyFloat), NoInf c → (∀ n, a ≠ .inf n) →
    (a = .nan ∨ .nan ∈ c → c.foldl add a = .nan) ∧
    (∀ (q : ℚ) (qs : List ℚ), a = .num q → c = qs.map .num → c.foldl add a = .num (q + qs.sum)) ∧ (∀ n, c.foldl add a ≠ .inf n)
  | [], a, _, ha => by
    refine ⟨by simp, ?_, ha⟩
    intro q qs h1 h2
    rw [List.map_eq_nil_iff.1 h2.symm]; simpa using h1
  | v :: r, a, hc, ha => by
    have hv := hc v (by simp)
    have hr : NoInf r := fun x hx => hc x (by simp [hx])
    have hadd : ∀ n, add a v ≠ .inf n := by
      cases a with
      | inf n => exact absurd rfl (ha n)
      | nan => intro n; cases v <;> simp [add]
      | num q => cases v with
        | inf n => exact absurd rfl (hv n)
        | nan => intro n; simp [add]
        | num p => intro n; simp [add]
    obtain ⟨h1, h2, h3⟩ := fold_add r (add a v) hr hadd
    refine ⟨?_, ?_, h3⟩
    · intro h
      apply h1
      rcases h with h | h
      · left; rw [h]; cases v <;> rfl
      · rcases List.mem_cons.1 h with h | h
        · left; rw [← h]; cases a <;> rfl
        · exact Or.inr h
    · intro q qs hq hqs
      cases qs with
      | nil => simp at hqs
      | cons p qs =>
        simp only [List.map_cons, List.cons.injEq] at hqs
        rw [List.foldl_cons, h2 (q + p) qs (by rw [hq, hqs.1]; rfl) hqs.2, List.sum_cons, add_assoc]

/-- the numbers of a column without NaN and infinities -/
theorem all_numbers : ∀ c : List PyFloat, NoInf c → PyFloat.nan ∉ c → ∃ qs : List ℚ, c = qs.map .num
  | [], _, _ => ⟨[], rfl⟩
  | v :: r, hc, hn => by
    obtain ⟨qs, h⟩ := all_numbers r (fun x hx => hc x (by simp [hx])) (fun hx => hn (by simp [hx]))
    cases v with
    | nan => simp at hn
    | inf n => exact absurd rfl (hc (.inf n) (by simp) n)
    | num q => exact ⟨q :: qs, by simp [h]⟩

/-- **C319** (sum) The sum is NaN exactly when one of the values is. -/
theorem C319_sum_partial (c : List PyFloat) (hc : NoInf c) :
    (sumCol c = .nan ↔ .nan ∈ c) ∧ ∀ qs : List ℚ, c = qs.map .num → sumCol c = .num qs.sum := by
  obtain ⟨h1, h2, _⟩ := fold_add c (.num 0) hc (by simp)
  have hs : ∀ qs : List ℚ, c = qs.map .num → sumCol c = .num qs.sum := fun qs h => by
    have := h2 0 qs rfl h; rwa [zero_add] at this
  refine ⟨⟨?_, fun h => h1 (Or.inr h)⟩, hs⟩
  intro h
  by_contra hn
  obtain ⟨qs, hq⟩ := all_numbers c hc hn
  rw [hs qs hq] at h; cases h

/-- **C319** (average) The average, of a non-empty series, is NaN exactly when one of the values is. -/
theorem C319_avg_partial (c : List PyFloat) (hc : NoInf c) (hne : c ≠ []) :
    (avgCol c = .ok .nan ↔ .nan ∈ c) ∧ ∀ qs : List ℚ, c = qs.map .num → avgCol c = .ok (.num (qs.sum / qs.length)) := by
  cases c with
  | nil => exact absurd rfl hne
  | cons v r =>
    have hr : NoInf r := fun x hx => hc x (by simp [hx])
    obtain ⟨h1, h2, h3⟩ := fold_add r v hr (hc v (by simp))
    have hl : ((r.length : ℚ) + 1) ≠ 0 := by positivity
    have hs : ∀ qs : List ℚ, v :: r = qs.map .num → avgCol (v :: r) = .ok (.num (qs.sum / qs.length)) := by
      intro qs hq
      cases qs with
      | nil => simp at hq
      | cons q qs =>
        simp only [List.map_cons, List.cons.injEq] at hq
        show PyFloat.div (r.foldl add v) (.num (r.length + 1)) = _
        rw [h2 q qs hq.1 hq.2]
        have : r.length = qs.length := by rw [hq.2, List.length_map]
        rw [this] at hl ⊢
        simp only [PyFloat.div, List.sum_cons, List.length_cons]
        push_cast
        rw [if_neg hl]
    refine ⟨⟨?_, ?_⟩, hs⟩
    · intro h
      by_contra hn
      obtain ⟨qs, hq⟩ := all_numbers _ hc hn
      rw [hs qs hq] at h; cases h
    · intro h
      show PyFloat.div (r.foldl add v) (.num (r.length + 1)) = _
      rw [h1 (by rcases List.mem_cons.1 h with h | h; exacts [Or.inl h.symm, Or.inr h])]
      simp [PyFloat.div, hl]

theorem sub_nan {a b : PyFloat} (ha : ∀ n, a ≠ .inf n) (hb : ∀ n, b ≠ .inf n) : sub b a = .nan ↔ a = .nan ∨ b = .nan := by
  cases a with
  | inf n => exact absurd rfl (ha n)
  | nan => cases b <;> simp [sub, neg, add]
  | num x => cases b with
    | inf n => exact absurd rfl (hb n)
    | nan => simp [sub, add]
    | num y => simp [sub, neg, add]

theorem diffCol_get : ∀ (c : List PyFloat) (i : ℕ) (a b : PyFloat), c[i]? = some a → c[i + 1]? = some b →
    (diffCol c)[i]? = some (sub b a)
  | [], i, a, b, h, _ => by simp at h
  | [x], i, a, b, _, h => by simp at h
  | x :: y :: r, 0, a, b, h, h' => by
    simp only [List.getElem?_cons_zero, Option.some.injEq] at h
    simp only [List.getElem?_cons_succ, List.getElem?_cons_zero, Option.some.injEq] at h'
    rw [← h, ← h']; rfl
  | x :: y :: r, i + 1, a, b, h, h' => by
    rw [diffCol, List.getElem?_cons_succ]
    exact diffCol_get (y :: r) i a b (by simpa using h) (by simpa using h')

theorem diffCol_length : ∀ c : List PyFloat, (diffCol c).length = c.length - 1
  | [] => rfl
  | [_] => rfl
  | x :: y :: r => by rw [diffCol, List.length_cons, diffCol_length (y :: r)]; simp

/-- **C319** (differences) A difference is NaN exactly when one of its two values is; otherwise it is their difference. -/
theorem C319_diff_partial (c : List PyFloat) (hc : NoInf c) (i : ℕ) (a b : PyFloat) (ha : c[i]? = some a) (hb : c[i + 1]? = some b) :
    (diffCol c).length = c.length - 1 ∧
    ((diffCol c)[i]? = some .nan ↔ a = .nan ∨ b = .nan) ∧
    (∀ x y : ℚ, a = .num x → b = .num y → (diffCol c)[i]? = some (.num (y - x))) := by
  refine ⟨diffCol_length c, ?_, ?_⟩
  · rw [diffCol_get c i a b ha hb, Option.some.injEq]
    exact sub_nan (hc a (List.mem_of_getElem? ha)) (hc b (List.mem_of_getElem? hb))
  · rintro x y rfl rfl
    rw [diffCol_get c i _ _ ha hb]
    simp [sub, neg, add, sub_eq_add_neg]

theorem mavgCol_ok (w : ℕ) (hw : 0 < w) : ∀ c : List PyFloat, ∃ r, mavgCol w c = .ok r ∧ r.length = c.length + 1 - w ∧
    ∀ i, i + w ≤ c.length → ∃ x, r[i]? = some x ∧ PyFloat.div (sumCol ((c.drop i).take w)) (.num w) = .ok x
  | [] => ⟨[], rfl, by simp; omega, fun i h => by simp at h; omega⟩
  | v :: c => by
    obtain ⟨r, h1, h2, h3⟩ := mavgCol_ok w hw c
    by_cases hl : (v :: c).length < w
    · exact ⟨[], by rw [mavgCol, if_pos hl], by simp at hl ⊢; omega, fun i h => by omega⟩
    · have hq : (w : ℚ) ≠ 0 := by exact_mod_cast hw.ne'
      have hd : ∃ x, PyFloat.div (sumCol ((v :: c).take w)) (.num w) = .ok x := by
        cases sumCol ((v :: c).take w) <;> simp [PyFloat.div, hw.ne']
      obtain ⟨x, hx⟩ := hd
      refine ⟨x :: r, by rw [mavgCol, if_neg hl, hx, h1], by simp at hl ⊢; omega, ?_⟩
      intro i hi
      cases i with
      | zero => exact ⟨x, rfl, hx⟩
      | succ i =>
        obtain ⟨y, hy1, hy2⟩ := h3 i (by simp at hi; omega)
        exact ⟨y, by simpa using hy1, by simpa using hy2⟩

/-- **C319** (moving average) An average is NaN exactly when one of the values of its window is; otherwise it is their mean. -/
theorem C319_mavg_partial (w : ℕ) (hw : 0 < w) (c : List PyFloat) (hc : NoInf c) : ∃ r, mavgCol w c = .ok r ∧
    r.length = c.length + 1 - w ∧
    ∀ i, i + w ≤ c.length → (r[i]? = some .nan ↔ .nan ∈ (c.drop i).take w) ∧
      ∀ qs : List ℚ, (c.drop i).take w = qs.map .num → r[i]? = some (.num (qs.sum / w)) := by
  obtain ⟨r, h1, h2, h3⟩ := mavgCol_ok w hw c
  refine ⟨r, h1, h2, ?_⟩
  intro i hi
  obtain ⟨x, hx1, hx2⟩ := h3 i hi
  have hn : NoInf ((c.drop i).take w) := fun v hv => hc v (List.mem_of_mem_drop (List.mem_of_mem_take hv))
  obtain ⟨hs1, hs2⟩ := C319_sum_partial _ hn
  have hq : (w : ℚ) ≠ 0 := by exact_mod_cast hw.ne'
  have hval : ∀ qs : List ℚ, (c.drop i).take w = qs.map .num → r[i]? = some (.num (qs.sum / w)) := by
    intro qs hqs
    rw [hs2 qs hqs] at hx2
    simp only [PyFloat.div, if_neg hq, Except.ok.injEq] at hx2
    rw [hx1, ← hx2]
  refine ⟨⟨?_, ?_⟩, hval⟩
  · intro h
    by_contra hnn
    obtain ⟨qs, hqs⟩ := all_numbers _ hn hnn
    rw [hval qs hqs] at h; simp at h
  · intro h
    rw [hs1.2 h] at hx2
    simp only [PyFloat.div, if_neg hq, Except.ok.injEq] at hx2
    rw [hx1, ← hx2]

/-- **C319** (rescale, offset) With a finite factor or offset each value is changed on its own: a result is NaN exactly when its value is. -/
theorem C319_rescale_offset_partial (c : List PyFloat) (f : ℚ) (i : ℕ) (v : PyFloat) (hv : c[i]? = some v) (hf : f ≠ 0) :
    ((rescaleCol (.num f) c)[i]? = some .nan ↔ v = .nan) ∧ ((offsetCol (.num f) c)[i]? = some .nan ↔ v = .nan) ∧
    (∀ x : ℚ, v = .num x → (rescaleCol (.num f) c)[i]? = some (.num (x * f)) ∧ (offsetCol (.num f) c)[i]? = some (.num (x + f))) ∧
    (rescaleCol (.num f) c).length = c.length ∧ (offsetCol (.num f) c).length = c.length := by
  unfold rescaleCol offsetCol
  refine ⟨?_, ?_, ?_, by simp, by simp⟩
  · rw [List.getElem?_map, hv]
    cases v <;> simp [mul, hf]
  · rw [List.getElem?_map, hv]
    cases v <;> simp [add]
  · rintro x rfl
    rw [List.getElem?_map, List.getElem?_map, hv]; exact ⟨rfl, rfl⟩

theorem csumCol_get : ∀ (c : List PyFloat) (acc : PyFloat) (i : ℕ), i < c.length → (csumCol acc c)[i]? = some ((c.take (i + 1)).foldl add acc)
  | [], _, i, h => by simp at h
  | v :: r, acc, 0, _ => rfl
  | v :: r, acc, i + 1, h => by
    rw [csumCol, List.getElem?_cons_succ, csumCol_get r _ i (by simpa using h)]; rfl

/-- **C319** is false for the cumulative sum: from the first NaN on, every result is NaN. -/
theorem C319_csum_false (c : List PyFloat) (hc : NoInf c) (i : ℕ) (hi : i < c.length) :
    (csumCol (.num 0) c)[i]? = some .nan ↔ ∃ j ≤ i, c[j]? = some .nan := by
  have hn : NoInf (c.take (i + 1)) := fun v hv => hc v (List.mem_of_mem_take hv)
  have := (C319_sum_partial _ hn).1
  rw [csumCol_get c _ i hi, Option.some.injEq]
  refine this.trans ?_
  constructor
  · intro h
    obtain ⟨j, hj⟩ := List.getElem?_of_mem h
    have hlt : j < i + 1 := by
      by_contra hge
      rw [List.getElem?_eq_none (by simp; omega)] at hj; cases hj
    exact ⟨j, by omega, by rwa [List.getElem?_take_of_lt hlt] at hj⟩
  · rintro ⟨j, hj, h⟩
    exact List.mem_of_getElem? (i := j) (by rw [List.getElem?_take_of_lt (by omega)]; exact h)

/-- the same column with all of them -/
def holedColumn : List PyFloat := [.num 1, .num 2, .nan, .num 4, .num 6]

example : NoInf holedColumn ∧ diffCol holedColumn = [.num 1, .nan, .nan, .num 2] ∧ csumCol (.num 0) holedColumn = [.num 1, .num 3, .nan, .nan, .nan] ∧
    mavgCol 2 holedColumn = .ok [.num (3/2), .nan, .nan, .num 5] := by
  refine ⟨?_, by decide +kernel, by decide +kernel, by decide +kernel⟩
  intro v hv n
  simp only [holedColumn, List.mem_cons, List.not_mem_nil, or_false] at hv
  rcases hv with rfl | rfl | rfl | rfl | rfl <;> simp

/-! ## C320 -/

theorem extremes_split (v : PyFloat) (r : List PyFloat) : ∃ lo hi, extremes (v :: r) = some (lo, hi) ∧ minCol (v :: r) = some lo ∧ maxCol (v :: r) = some hi := by
  refine ⟨_, _, rfl, congrArg some ?_, congrArg some ?_⟩
  · have : ∀ (r : List PyFloat) (a b : PyFloat), r.foldl (fun m v => if PyFloat.lt v m then v else m) a =
        (r.foldl (fun p v => (if PyFloat.lt v p.1 then v else p.1, if PyFloat.lt p.2 v then v else p.2)) (a, b)).1 := by
      intro r
      induction r with
      | nil => intro a b; rfl
      | cons w r ih => intro a b; exact ih _ _
    exact this r v v
  · have : ∀ (r : List PyFloat) (a b : PyFloat), r.foldl (fun m v => if PyFloat.lt m v then v else m) b =
        (r.foldl (fun p v => (if PyFloat.lt v p.1 then v else p.1, if PyFloat.lt p.2 v then v else p.2)) (a, b)).2 := by
      intro r
      induction r with
      | nil => intro a b; rfl
      | cons w r ih => intro a b; exact ih _ _
    exact this r v v

/-- **C320** When the first value is a number, the numbers are normalized between the smallest and the largest of the
numbers, as if the NaN were not there, and each NaN stays NaN. -/
theorem C320_first_is_a_number_partial (c : List PyFloat) (hc : NoInf c) (first lo hi : ℚ) (hf : c.head? = some (.num first))
    (hlo : .num lo ∈ c) (hhi : .num hi ∈ c) (hb : ∀ q : ℚ, .num q ∈ c → lo ≤ q ∧ q ≤ hi) (hd : lo < hi) :
    ∃ r, normalizeCol c = .ok r ∧
      List.Forall₂ (fun v y => (v = .nan ∧ y = .nan) ∨ ∃ q : ℚ, v = .num q ∧ y = .num ((q - lo) / (hi - lo))) c r := by
  cases c with
  | nil => simp at hf
  | cons v r =>
    simp only [List.head?_cons, Option.some.injEq] at hf
    subst hf
    obtain ⟨a, b, he, hmin, hmax⟩ := extremes_split (.num first) r
    obtain ⟨m, hm, hm1, hm2, hm3⟩ := C318_min_partial (.num first) r (by simp)
    obtain ⟨M, hM, hM1, hM2, hM3⟩ := C318_max_partial (.num first) r (by simp)
    rw [hmin] at hm; rw [hmax] at hM
    cases hm; cases hM
    have ea : a = .num lo := by
      cases a with
      | nan => exact absurd rfl hm1
      | inf n => exact absurd rfl (hc _ hm2 n)
      | num q =>
        have := hm3 _ hlo
        simp only [PyFloat.lt, decide_eq_false_iff_not, not_lt] at this
        rw [le_antisymm this (hb q hm2).1]
    have eb : b = .num hi := by
      cases b with
      | nan => exact absurd rfl hM1
      | inf n => exact absurd rfl (hc _ hM2 n)
      | num q =>
        have := hM3 _ hhi
        simp only [PyFloat.lt, decide_eq_false_iff_not, not_lt] at this
        rw [le_antisymm (hb q hM2).2 this]
    subst ea; subst eb
    have hne : hi + -lo ≠ 0 := by linarith
    unfold normalizeCol
    rw [he]
    dsimp only
    generalize PyFloat.num first :: r = c at hc
    clear he hmin hmax hm2 hm3 hM2 hM3 hlo hhi hb
    induction c with
    | nil => exact ⟨[], rfl, .nil⟩
    | cons w c ih =>
      obtain ⟨ys, h1, h2⟩ := ih (fun x hx => hc x (by simp [hx]))
      cases w with
      | inf n => exact absurd rfl (hc _ (by simp) n)
      | nan =>
        refine ⟨.nan :: ys, ?_, .cons (Or.inl ⟨rfl, rfl⟩) h2⟩
        have : normValue (.num lo, .num hi) .nan = .ok .nan := by simp [normValue, sub, neg, add, PyFloat.div, hne]
        simp only [mapE, this, h1]
      | num q =>
        refine ⟨.num ((q - lo) / (hi - lo)) :: ys, ?_, .cons (Or.inr ⟨q, rfl, rfl⟩) h2⟩
        have : normValue (.num lo, .num hi) (.num q) = .ok (.num ((q - lo) / (hi - lo))) := by
          simp [normValue, sub, neg, add, PyFloat.div, hne, sub_eq_add_neg]
        simp only [mapE, this, h1]

/-- **C320** is false when the first value is NaN: every value of the label is lost, without any error -/
theorem C320_first_is_nan_false (r : List PyFloat) : normalizeCol (.nan :: r) = .ok ((.nan :: r).map (fun _ => .nan)) := by
  obtain ⟨a, b, he, hmin, hmax⟩ := extremes_split .nan r
  rw [(C318_first_value_false r).2] at hmin
  rw [(C318_first_value_false r).1] at hmax
  cases hmin; cases hmax
  unfold normalizeCol
  rw [he]
  dsimp only
  generalize PyFloat.nan :: r = c
  induction c with
  | nil => rfl
  | cons w c ih =>
    have : normValue (.nan, .nan) w = .ok .nan := by cases w <;> rfl
    simp only [mapE, this, ih, List.map_cons]

/-- **C320** is false with an infinity: the numbers become 0 and the infinity becomes NaN, outside of the range -/
theorem C320_infinity_false : normalizeCol [.num 1, .inf false, .num 5] = .ok [.num 0, .nan, .num 0] := by decide +kernel

example : normalizeCol holedColumn = .ok [.num 0, .num (1/5), .nan, .num (3/5), .num 1] := by decide +kernel

/-! ## C321 -/

theorem NanSeries.last_chain (s : NanSeries) (t : PyFloat) (h : s.ts.IsChain (fun a b => PyFloat.lt a b = true)) :
    (NanSeries.last s t).1.ts.IsChain (fun a b => PyFloat.lt a b = true) := by
  unfold NanSeries.last
  split
  · rename_i e
    rw [List.getLast?_eq_none_iff] at e
    simp [e]
  · rename_i l e
    split_ifs with hl
    · refine List.isChain_append.2 ⟨h, by simp, ?_⟩
      intro x hx y hy
      rw [e] at hx
      simp at hx hy
      subst hx; subst hy; exact hl
    · exact h

theorem NanSeries.append_chain (u : ℚ → Bool) (s : NanSeries) (t : PyFloat) (h : s.ts.IsChain (fun a b => PyFloat.lt a b = true)) :
    (s.append u t).1.ts.IsChain (fun a b => PyFloat.lt a b = true) := by
  unfold NanSeries.append
  repeat' split
  all_goals first | exact h | exact NanSeries.last_chain _ t h

/-- **C321** (order) After any history of appends, refused ones included, of points at any timestamps, NaN and infinite
ones too, each timestamp is strictly below all the following ones; hence, as soon as there are two items, none is NaN,
only the first may be minus infinity and only the last infinity. -/
theorem C321_order_partial (u : ℚ → Bool) (l : List PyFloat) :
    let ts := (NanSeries.run u {} l).ts
    ts.Pairwise (fun a b => PyFloat.lt a b = true) ∧ (2 ≤ ts.length → .nan ∉ ts) := by
  have hchain : ∀ (l : List PyFloat) (s : NanSeries), s.ts.IsChain (fun a b => PyFloat.lt a b = true) →
      (NanSeries.run u s l).ts.IsChain (fun a b => PyFloat.lt a b = true) := by
    intro l
    induction l with
    | nil => intro s h; exact h
    | cons t r ih => intro s h; exact ih _ (NanSeries.append_chain u s t h)
  have hc := hchain l {} (by simp)
  have : Trans (fun a b => PyFloat.lt a b = true) (fun a b => PyFloat.lt a b = true) (fun a b => PyFloat.lt a b = true) := ⟨lt_trans'⟩
  have hp := List.isChain_iff_pairwise.1 hc
  refine ⟨hp, ?_⟩
  intro h2 hn
  revert hp h2 hn
  generalize (NanSeries.run u {} l).ts = ts
  intro hp h2 hn
  obtain ⟨i, hi, he⟩ := List.getElem_of_mem hn
  rw [List.pairwise_iff_getElem] at hp
  by_cases h0 : i = 0
  · have := hp i 1 hi (by omega) (by omega)
    rw [he, nan_lt] at this; cases this
  · have := hp 0 i (by omega) hi (by omega)
    rw [he, lt_nan] at this; cases this

/-- **C321** (infinities) Only the first timestamp may be minus infinity, and only the last one infinity. -/
theorem C321_infinities_partial (u : ℚ → Bool) (l : List PyFloat) (i : ℕ) :
    let ts := (NanSeries.run u {} l).ts
    (ts[i]? = some (.inf true) → i = 0) ∧ (ts[i]? = some (.inf false) → i + 1 = ts.length) := by
  have hp := (C321_order_partial u l).1
  revert hp
  generalize (NanSeries.run u {} l).ts = ts
  intro hp
  dsimp only at hp ⊢
  rw [List.pairwise_iff_getElem] at hp
  constructor
  · intro h
    obtain ⟨hi, he⟩ := List.getElem?_eq_some_iff.1 h
    by_contra h0
    have := hp 0 i (by omega) hi (by omega)
    rw [he] at this
    cases hz : ts[0] <;> rw [hz] at this <;> simp [PyFloat.lt] at this
  · intro h
    obtain ⟨hi, he⟩ := List.getElem?_eq_some_iff.1 h
    by_contra h0
    have := hp i (i + 1) hi (by omega) (by omega)
    rw [he] at this
    cases hz : ts[i + 1] <;> rw [hz] at this <;> simp [PyFloat.lt] at this

/-- **C321** is false: a series may start with NaN, and then accepts nothing any more -/
theorem C321_nan_first_false (u : ℚ → Bool) (l : List PyFloat) : (NanSeries.run u {} (.nan :: l)).ts = [.nan] := by
  have h1 : ∀ (l : List PyFloat) (s : NanSeries), s.ts = [.nan] → s.prevT ≠ none → (NanSeries.run u s l).ts = [.nan] := by
    intro l
    induction l with
    | nil => intro s h _; exact h
    | cons t r ih =>
      intro s h hp
      have hlast : ∀ p q, NanSeries.last { ts := s.ts, prevT := p, res := q } t = ({ ts := s.ts, prevT := p, res := q }, false) := by
        intro p q
        unfold NanSeries.last
        simp [h, nan_lt]
      have : (s.append u t).1.ts = [.nan] ∧ (s.append u t).1.prevT ≠ none := by
        unfold NanSeries.append
        repeat' split
        all_goals first
          | exact ⟨h, by simp⟩
          | (rw [hlast]; exact ⟨h, by simp⟩)
      exact ih _ this.1 this.2
  exact h1 l _ rfl (by simp [NanSeries.append, NanSeries.last])

/-- **C321** is false: an infinite timestamp is accepted after two points, and then nothing is -/
theorem C321_infinity_false : (NanSeries.run (fun _ => true) {} [.num 0, .num 60, .inf false, .num 120]).ts = [.num 0, .num 60, .inf false] := by
  decide +kernel

/-- **C321** is false: a refused NaN makes the series refuse the next good point as well, and turns a constant
resolution into a variable one -/
theorem C321_refused_nan_leaves_a_trace_false :
    (NanSeries.run (fun _ => true) {} [.num 0, .nan, .num 60]).ts = [.num 0] ∧
    (NanSeries.run (fun _ => true) {} [.num 0, .num 60]).ts = [.num 0, .num 60] ∧
    (NanSeries.run (fun _ => true) {} [.num 0, .num 60, .nan, .num 120]).res = .variable ∧
    (NanSeries.run (fun _ => true) {} [.num 0, .num 60, .num 120]).res = .secs (.num 60) := by
  decide +kernel

end Timeseria
