import Verif.Model.TimeUnitString

/-! Helper lemmas about digits and the time unit string. -/

namespace Timeseria

theorem digitVal_digitChar {d : ℕ} (h : d < 10) : digitVal (digitChar d) = some d := by
  interval_cases d <;> rfl

theorem digitChar_ne_dot (d : ℕ) : digitChar d ≠ '.' := by
  unfold digitChar; split <;> decide

theorem digitChar_eq_zero {d : ℕ} (h : d < 10) : digitChar d = '0' ↔ d = 0 := by
  interval_cases d <;> simp [digitChar]

theorem readDigits_append (l₁ l₂ : List Char) (acc : ℕ) :
    readDigits acc (l₁ ++ l₂) = (readDigits acc l₁).bind (fun a => readDigits a l₂) := by
  induction l₁ generalizing acc with
  | nil => simp [readDigits]
  | cons c r ih =>
    simp only [List.cons_append, readDigits]
    cases digitVal c with
    | none => simp
    | some d => simp [ih]

theorem readDigits_natStrAux (f n : ℕ) (h : n < f) : readDigits 0 (natStrAux f n) = some n := by
  induction f generalizing n with
  | zero => omega
  | succ f ih =>
    unfold natStrAux
    split
    · rename_i h
      simp [readDigits, digitVal_digitChar h]
    · rename_i h'
      rw [readDigits_append, ih _ (by omega)]
      simp [readDigits, digitVal_digitChar (Nat.mod_lt n (by norm_num : 0 < 10))]
      omega

theorem readDigits_natStr (n : ℕ) : readDigits 0 (natStr n) = some n :=
  readDigits_natStrAux _ _ (by omega)

theorem natStr_ne_nil (n : ℕ) : natStr n ≠ [] := by
  unfold natStr natStrAux; split <;> simp

theorem natStrAux_no_dot (f n : ℕ) : ∀ c ∈ natStrAux f n, c ≠ '.' := by
  induction f generalizing n with
  | zero => simp [natStrAux]
  | succ f ih =>
    unfold natStrAux
    split
    · intro c hc; simp at hc; subst hc; exact digitChar_ne_dot _
    · intro c hc
      simp at hc
      rcases hc with hc | hc
      · exact ih _ c hc
      · subst hc; exact digitChar_ne_dot _

theorem natStr_no_dot (n : ℕ) : ∀ c ∈ natStr n, c ≠ '.' := natStrAux_no_dot _ _

theorem padDigits_length (k m : ℕ) : (padDigits k m).length = k := by
  induction k generalizing m with
  | zero => rfl
  | succ k ih => simp [padDigits, ih]

theorem padDigits_no_dot (k m : ℕ) : ∀ c ∈ padDigits k m, c ≠ '.' := by
  induction k generalizing m with
  | zero => simp [padDigits]
  | succ k ih =>
    intro c hc
    simp [padDigits] at hc
    rcases hc with hc | hc
    · exact ih _ c hc
    · subst hc; exact digitChar_ne_dot _

theorem readDigits_padDigits (k m acc : ℕ) (h : m < 10 ^ k) :
    readDigits acc (padDigits k m) = some (acc * 10 ^ k + m) := by
  induction k generalizing m with
  | zero => simp at h; subst h; simp [padDigits, readDigits]
  | succ k ih =>
    have h' : m / 10 < 10 ^ k := by
      rw [Nat.div_lt_iff_lt_mul (by norm_num)]; rw [pow_succ] at h; exact h
    simp only [padDigits]
    rw [readDigits_append, ih _ h']
    simp [readDigits, digitVal_digitChar (Nat.mod_lt m (by norm_num : 0 < 10))]
    rw [pow_succ]
    have := Nat.div_add_mod m 10
    ring_nf
    omega

/-- stripping zeros only removes zeros at the end -/
theorem stripZeros_spec (l : List Char) :
    ∃ k, l = stripZeros l ++ List.replicate k '0' := by
  have key : ∀ m : List Char, ∃ k, m = List.replicate k '0' ++ m.dropWhile (· == '0') := by
    intro m
    induction m with
    | nil => exact ⟨0, by simp⟩
    | cons c r ih =>
      by_cases hc : c = '0'
      · obtain ⟨k, hk⟩ := ih
        refine ⟨k + 1, ?_⟩
        subst hc
        simp [List.replicate_succ]
        exact hk
      · refine ⟨0, ?_⟩
        simp [hc]
  obtain ⟨k, hk⟩ := key l.reverse
  refine ⟨k, ?_⟩
  have := congrArg List.reverse hk
  simp only [List.reverse_reverse, List.reverse_append, List.reverse_replicate] at this
  exact this

theorem stripZeros_last (l : List Char) (h : stripZeros l ≠ []) :
    (stripZeros l).getLast h ≠ '0' := by
  unfold stripZeros at *
  have h2 : l.reverse.dropWhile (· == '0') ≠ [] := by simpa using h
  rw [List.getLast_reverse]
  intro hc
  have := List.head_dropWhile_not (fun c : Char => c == '0') h2
  simp at this
  exact this hc

theorem readDigits_replicate_zero (k acc : ℕ) :
    readDigits acc (List.replicate k '0') = some (acc * 10 ^ k) := by
  induction k generalizing acc with
  | zero => simp [readDigits]
  | succ k ih =>
    simp [List.replicate_succ, readDigits, digitVal, ih, pow_succ]
    ring

/-- reading the stripped digits gives the same fraction -/
theorem readDigits_strip (m : ℕ) (h : m < 10000000) :
    ∃ v, readDigits 0 (stripZeros (padDigits 7 m)) = some v ∧
      (v : ℚ) / 10 ^ (stripZeros (padDigits 7 m)).length = m / 10000000 := by
  obtain ⟨k, hk⟩ := stripZeros_spec (padDigits 7 m)
  have hr := readDigits_padDigits 7 m 0 (by norm_num; exact h)
  rw [hk, readDigits_append] at hr
  cases hv : readDigits 0 (stripZeros (padDigits 7 m)) with
  | none => simp [hv] at hr
  | some v =>
    refine ⟨v, rfl, ?_⟩
    simp [hv, readDigits_replicate_zero] at hr
    have hl := congrArg List.length hk
    simp [padDigits_length] at hl
    have h7 : (10000000 : ℚ) = 10 ^ ((stripZeros (padDigits 7 m)).length) * 10 ^ k := by
      rw [← pow_add, ← hl]; norm_num
    rw [h7, ← hr]
    push_cast
    field_simp

theorem stripZeros_no_dot (l : List Char) (h : ∀ c ∈ l, c ≠ '.') : ∀ c ∈ stripZeros l, c ≠ '.' := by
  intro c hc
  obtain ⟨k, hk⟩ := stripZeros_spec l
  exact h c (by rw [hk]; simp [hc])

theorem replaceDotZero_no_dot (l : List Char) (h : ∀ c ∈ l, c ≠ '.') : replaceDotZero l = l := by
  fun_induction replaceDotZero l with
  | case1 => rfl
  | case2 => rfl
  | case3 a b r hab ih => exact absurd hab.1 (h a (by simp))
  | case4 a b r hab ih =>
    rw [ih (fun c hc => h c (by simp at hc ⊢; tauto))]

theorem replaceDotZero_prefix (ds r : List Char) (c : Char) (hd : ∀ c ∈ ds, c ≠ '.') :
    replaceDotZero (ds ++ c :: r) = ds ++ replaceDotZero (c :: r) := by
  induction ds with
  | nil => rfl
  | cons a ds ih =>
    have ih := ih (fun c hc => hd c (by simp [hc]))
    have ha : ¬ (a = '.') := hd a (by simp)
    have hstep : replaceDotZero (a :: (ds ++ c :: r)) = a :: replaceDotZero (ds ++ c :: r) := by
      cases hx : ds ++ c :: r with
      | nil => simp at hx
      | cons b r =>
        rw [replaceDotZero, if_neg (fun h => ha h.1)]
    rw [List.cons_append, hstep, ih, List.cons_append]

theorem replaceDotZero_zero (ds r : List Char) (hd : ∀ c ∈ ds, c ≠ '.')
    (hf : ∀ c ∈ r, c ≠ '.') : replaceDotZero (ds ++ '.' :: '0' :: r) = ds ++ r := by
  rw [replaceDotZero_prefix _ _ _ hd, replaceDotZero, if_pos ⟨rfl, rfl⟩, replaceDotZero_no_dot r hf]

theorem replaceDotZero_nonzero (ds r : List Char) (b : Char) (hd : ∀ c ∈ ds, c ≠ '.')
    (hf : ∀ c ∈ b :: r, c ≠ '.') (hb : b ≠ '0') :
    replaceDotZero (ds ++ '.' :: b :: r) = ds ++ '.' :: b :: r := by
  rw [replaceDotZero_prefix _ _ _ hd, replaceDotZero, if_neg (fun h => hb h.2),
    replaceDotZero_no_dot _ hf]

theorem span_no_dot (l : List Char) (h : ∀ c ∈ l, c ≠ '.') :
    l.span (· ≠ '.') = (l, []) := by
  rw [List.span_eq_takeWhile_dropWhile]
  have h1 : l.takeWhile (· ≠ '.') = l := by
    rw [List.takeWhile_eq_self_iff]; intro x hx; simpa using h x hx
  have h2 : l.dropWhile (· ≠ '.') = [] := by
    rw [List.dropWhile_eq_nil_iff]; intro x hx; simpa using h x hx
  rw [h1, h2]

theorem span_dot (l r : List Char) (h : ∀ c ∈ l, c ≠ '.') :
    (l ++ '.' :: r).span (· ≠ '.') = (l, '.' :: r) := by
  rw [List.span_eq_takeWhile_dropWhile]
  have h' : ∀ x ∈ l, (decide (x ≠ '.')) = true := fun x hx => by simpa using h x hx
  rw [List.takeWhile_append_of_pos h', List.dropWhile_append_of_pos h']
  simp

theorem readDecimal_digits (l : List Char) (h : ∀ c ∈ l, c ≠ '.') (hn : l ≠ []) :
    readDecimal l = (readDigits 0 l).map (fun n => (n : ℚ)) := by
  unfold readDecimal
  rw [span_no_dot l h]
  simp [hn]

theorem readDecimal_dot (l r : List Char) (h : ∀ c ∈ l, c ≠ '.') (hl : l ≠ []) (hr : r ≠ [])
    {a b : ℕ} (ha : readDigits 0 l = some a) (hb : readDigits 0 r = some b) :
    readDecimal (l ++ '.' :: r) = some ((a : ℚ) + b / 10 ^ r.length) := by
  unfold readDecimal
  rw [span_dot l r h]
  simp [hl, hr, ha, hb]

/-- the friendlier names have the value of the seconds they replace -/
theorem read_toTimeUnitString (w : List Char) (v : ℚ)
    (hv : readDecimal (replaceDotZero w) = some v) :
    readTimeUnit (toTimeUnitString w) = some v := by
  unfold toTimeUnitString
  simp only
  split
  · rename_i h
    rw [h] at hv
    rw [readDecimal_digits _ (by decide) (by simp)] at hv
    simp [readDigits, digitVal] at hv
    have : readDecimal ['1'] = some 1 := by
      rw [readDecimal_digits _ (by decide) (by simp)]; simp [readDigits, digitVal]
    simp [readTimeUnit, this, ← hv]
  · split
    · rename_i h
      rw [h] at hv
      rw [readDecimal_digits _ (by decide) (by simp)] at hv
      simp [readDigits, digitVal] at hv
      have : readDecimal ['1', '0'] = some 10 := by
        rw [readDecimal_digits _ (by decide) (by simp)]; simp [readDigits, digitVal]
      simp [readTimeUnit, this, ← hv]
      norm_num
    · split
      · rename_i h
        rw [h] at hv
        rw [readDecimal_digits _ (by decide) (by simp)] at hv
        simp [readDigits, digitVal] at hv
        have : readDecimal ['1'] = some 1 := by
          rw [readDecimal_digits _ (by decide) (by simp)]; simp [readDigits, digitVal]
        simp [readTimeUnit, this, ← hv]
      · simp [readTimeUnit, hv]

/-- first fractional digit -/
theorem padDigits7_cons (m : ℕ) :
    padDigits 7 m = digitChar (m / 1000000 % 10) :: (padDigits 7 m).tail := by
  simp [padDigits, Nat.div_div_eq_div_mul]

theorem stripZeros_cons_ne (c : Char) (r : List Char) (h : c ≠ '0') :
    ∃ r', stripZeros (c :: r) = c :: r' := by
  obtain ⟨k, hk⟩ := stripZeros_spec (c :: r)
  cases hs : stripZeros (c :: r) with
  | nil =>
    rw [hs] at hk
    cases k with
    | zero => simp at hk
    | succ k => simp [List.replicate_succ] at hk; exact absurd hk.1 h
  | cons a b =>
    rw [hs] at hk
    simp at hk
    exact ⟨b, by rw [hk.1]⟩

theorem stripZeros_eq_nil {m : ℕ} (h : m < 10000000) :
    stripZeros (padDigits 7 m) = [] ↔ m = 0 := by
  constructor
  · intro hs
    obtain ⟨v, hv, hq⟩ := readDigits_strip m h
    rw [hs] at hv hq
    simp [readDigits] at hv
    subst hv
    simp at hq
    have : (m : ℚ) = 0 := by linarith
    exact_mod_cast this
  · rintro rfl
    have : padDigits 7 0 = List.replicate 7 '0' := by decide
    rw [this]; decide

/-- What the time unit string denotes: the exact value when the first decimal digit is not zero or
there are no decimals, and otherwise the integer obtained by dropping the dot and that zero. -/
theorem read_floatStr (n : ℕ) :
    ∃ v, readTimeUnit (toTimeUnitString (floatStr n)) = some v ∧
      (n % 10000000 = 0 ∨ 1000000 ≤ n % 10000000 → v = (n : ℚ) / 10000000) ∧
      (¬ (n % 10000000 = 0 ∨ 1000000 ≤ n % 10000000) → ∃ k : ℕ, v = k) := by
  set ip := n / 10000000 with hip
  set m := n % 10000000 with hm
  have hmlt : m < 10000000 := Nat.mod_lt _ (by norm_num)
  have hn : (n : ℚ) = ip * 10000000 + m := by
    have := Nat.div_add_mod n 10000000
    rw [← hip, ← hm] at this
    have h2 : (n : ℚ) = ((10000000 * ip + m : ℕ) : ℚ) := by rw [this]
    rw [h2]; push_cast; ring
  have hfs : floatStr n = natStr ip ++ '.' ::
      (if (stripZeros (padDigits 7 m)).isEmpty then ['0'] else stripZeros (padDigits 7 m)) := by
    simp [floatStr, hip, hm]
  have hnd := natStr_no_dot ip
  have hrd := readDigits_natStr ip
  have hne := natStr_ne_nil ip
  by_cases h0 : m = 0
  · -- no decimals
    have hs : stripZeros (padDigits 7 m) = [] := (stripZeros_eq_nil hmlt).2 h0
    refine ⟨(ip : ℚ), ?_, ?_, ?_⟩
    · apply read_toTimeUnitString
      rw [hfs, hs]
      simp only [List.isEmpty_nil, if_true]
      rw [replaceDotZero_zero _ _ hnd (by simp), List.append_nil]
      rw [readDecimal_digits _ hnd hne, hrd]; rfl
    · intro _; rw [hn, h0]; push_cast; field_simp; ring
    · intro h; exact absurd (Or.inl h0) h
  · have hsne : stripZeros (padDigits 7 m) ≠ [] := fun h => h0 ((stripZeros_eq_nil hmlt).1 h)
    have hnodot := stripZeros_no_dot _ (padDigits_no_dot 7 m)
    rw [show (stripZeros (padDigits 7 m)).isEmpty = false by simp [hsne]] at hfs
    simp only [Bool.false_eq_true, if_false] at hfs
    obtain ⟨v, hv, hq⟩ := readDigits_strip m hmlt
    by_cases h1 : 1000000 ≤ m
    · -- first decimal digit not zero
      have hd : digitChar (m / 1000000 % 10) ≠ '0' := by
        rw [Ne, digitChar_eq_zero (Nat.mod_lt _ (by norm_num))]; omega
      obtain ⟨r', hr'⟩ := stripZeros_cons_ne _ (padDigits 7 m).tail hd
      rw [← padDigits7_cons] at hr'
      refine ⟨(ip : ℚ) + m / 10000000, ?_, ?_, ?_⟩
      · apply read_toTimeUnitString
        have this : replaceDotZero (natStr ip ++ '.' :: stripZeros (padDigits 7 m)) =
            natStr ip ++ '.' :: stripZeros (padDigits 7 m) := by
          rw [hr'] at hnodot ⊢
          exact replaceDotZero_nonzero _ _ _ hnd hnodot hd
        rw [hfs]
        rw [this, readDecimal_dot _ _ hnd hne hsne hrd hv, hq]
      · intro _; rw [hn]; field_simp
      · intro h; exact absurd (Or.inr h1) h
    · -- first decimal digit zero: the dot disappears
      have hd : digitChar (m / 1000000 % 10) = '0' := by
        rw [digitChar_eq_zero (Nat.mod_lt _ (by norm_num))]; omega
      obtain ⟨r, hr⟩ : ∃ r, stripZeros (padDigits 7 m) = '0' :: r := by
        obtain ⟨k, hk⟩ := stripZeros_spec (padDigits 7 m)
        cases hs : stripZeros (padDigits 7 m) with
        | nil => exact absurd hs hsne
        | cons a b =>
          rw [hs, padDigits7_cons, hd] at hk
          simp at hk
          exact ⟨b, by rw [← hk.1]⟩
      have hvr : readDigits 0 r = some v := by
        rw [hr] at hv; simpa [readDigits, digitVal] using hv
      have hrest : ∃ k, readDigits 0 (natStr ip ++ r) = some k := by
        rw [readDigits_append, hrd]
        have : ∀ (l : List Char) (a b w : ℕ), readDigits a l = some w → ∃ k, readDigits b l = some k := by
          intro l
          induction l with
          | nil => intro a b w _; exact ⟨b, rfl⟩
          | cons c l ih =>
            intro a b w h
            simp only [readDigits] at h ⊢
            cases hc : digitVal c with
            | none => simp [hc] at h
            | some d => simp only [hc] at h ⊢; exact ih _ _ _ h
        obtain ⟨k, hk⟩ := this r 0 ip v hvr
        exact ⟨k, by simpa using hk⟩
      obtain ⟨k, hk⟩ := hrest
      refine ⟨(k : ℚ), ?_, ?_, fun _ => ⟨k, rfl⟩⟩
      · apply read_toTimeUnitString
        rw [hr] at hnodot
        rw [hfs, hr, replaceDotZero_zero _ _ hnd (fun c hc => hnodot c (by simp [hc]))]
        rw [readDecimal_digits _ ?_ ?_, hk]
        · rfl
        · intro c hc
          simp at hc
          rcases hc with hc | hc
          · exact hnd c hc
          · exact hnodot c (by simp [hc])
        · simp [hne]
      · rintro (h | h)
        · exact absurd h h0
        · exact absurd h h1

theorem tenths_of_mult (n : ℕ) : tenthsOfMicro ((n : ℚ) / 10000000) = n := by
  unfold tenthsOfMicro
  have : (n : ℚ) / 10000000 * 10000000 = ((n : ℤ) : ℚ) := by push_cast; field_simp
  rw [this, Rat.floor_intCast]; simp

/-- spacings of at least a tenth of a millisecond have a time unit -/
theorem spacingUnit_isSome {d : ℚ} (h : 1 / 10000 ≤ d) : ∃ u, spacingUnit d = some u := by
  have hn : ¬ tenthsOfMicro d < 1000 := by
    unfold tenthsOfMicro
    have h1 : (1000 : ℤ) ≤ (d * 10000000).floor := by
      rw [Rat.le_floor_iff]; push_cast; linarith
    omega
  obtain ⟨v, hv, -, -⟩ := read_floatStr (tenthsOfMicro d)
  exact ⟨TUnit.ofSecs v, by simp [spacingUnit, hn, hv]⟩

/-- the unit for a spacing that is a multiple of 1e-7 seconds, in terms of what is read back -/
theorem spacingUnit_mult (n : ℕ) (h : 1000 ≤ n) :
    ∃ v, spacingUnit ((n : ℚ) / 10000000) = some (TUnit.ofSecs v) ∧
      readTimeUnit (toTimeUnitString (floatStr n)) = some v ∧
      (n % 10000000 = 0 ∨ 1000000 ≤ n % 10000000 → v = (n : ℚ) / 10000000) ∧
      (¬ (n % 10000000 = 0 ∨ 1000000 ≤ n % 10000000) → ∃ k : ℕ, v = k) := by
  obtain ⟨v, hv, h1, h2⟩ := read_floatStr n
  refine ⟨v, ?_, hv, h1, h2⟩
  unfold spacingUnit
  rw [tenths_of_mult]
  simp only
  rw [if_neg (by omega), hv]
  rfl

/-- whole seconds are written exactly -/
theorem spacingUnit_nat (n : ℕ) (h : 0 < n) : spacingUnit (n : ℚ) = some (TUnit.ofSecs n) := by
  have hm : n * 10000000 % 10000000 = 0 := Nat.mul_mod_left _ _
  have hge : 1000 ≤ n * 10000000 := by omega
  generalize hN : n * 10000000 = N at *
  have hq : (N : ℚ) / 10000000 = n := by
    rw [← hN, Nat.cast_mul]
    simp
  obtain ⟨v, h1, _, h3, _⟩ := spacingUnit_mult N hge
  rw [hq] at h1
  rw [h1, h3 (Or.inl hm), hq]

end Timeseria
