import Verif.Model.Text
import Mathlib.Data.Nat.Digits.Defs
import Mathlib.Data.Nat.Digits.Lemmas

/-! # Facts on text, and a concrete codec showing that the assumptions of `Codec` can be met -/

namespace Timeseria

/-! ## A codec: sign, decimal digits of the numerator, `e`, decimal digits of the denominator -/

def digitsText (n : ℕ) : Text := (Nat.digits 10 n).reverse.map (fun d => Char.ofNat (48 + d))

def textDigits (s : Text) : ℕ := Nat.ofDigits 10 ((s.map (fun c => c.toNat - 48)).reverse)

def sampleFmt (x : ℚ) : Text :=
  (if x.num < 0 then '-' else '+') :: (digitsText x.num.natAbs ++ 'e' :: digitsText x.den)

def sampleGuess (s : Text) : ℚ :=
  mkRat ((if s.head? = some '-' then -1 else 1) * (textDigits (s.tail.takeWhile (· ≠ 'e')) : ℤ))
    (textDigits (s.tail.dropWhile (· ≠ 'e')).tail)

def sampleParse (s : Text) : Option ℚ := if sampleFmt (sampleGuess s) = s then some (sampleGuess s) else none

def sampleStamp (s : Text) : Option ℚ :=
  match s with
  | 'T' :: r => sampleParse r
  | _ => none

theorem digit_small {d : ℕ} (h : d < 10) : Char.ofNat (48 + d) ∈ "0123456789+-.e".toList ∧ Char.ofNat (48 + d) ≠ 'e' ∧
    (Char.ofNat (48 + d)).toNat - 48 = d := by
  interval_cases d <;> decide

theorem digitsText_mem {n : ℕ} {c : Char} (h : c ∈ digitsText n) : c ∈ "0123456789+-.e".toList ∧ c ≠ 'e' := by
  unfold digitsText at h
  obtain ⟨d, hd, rfl⟩ := List.mem_map.1 h
  have := Nat.digits_lt_base (by norm_num : 1 < 10) (List.mem_reverse.1 hd)
  exact ⟨(digit_small this).1, (digit_small this).2.1⟩

theorem textDigits_digitsText (n : ℕ) : textDigits (digitsText n) = n := by
  unfold textDigits digitsText
  rw [List.map_map]
  have : List.map ((fun c : Char => c.toNat - 48) ∘ fun d => Char.ofNat (48 + d)) (Nat.digits 10 n).reverse
      = (Nat.digits 10 n).reverse := by
    conv_rhs => rw [← List.map_id (Nat.digits 10 n).reverse]
    apply List.map_congr_left
    intro d hd
    have := Nat.digits_lt_base (by norm_num : 1 < 10) (List.mem_reverse.1 hd)
    exact (digit_small this).2.2
  rw [this, List.reverse_reverse, Nat.ofDigits_digits]

theorem sampleGuess_fmt (x : ℚ) : sampleGuess (sampleFmt x) = x := by
  unfold sampleGuess sampleFmt
  have h1 : (digitsText x.num.natAbs ++ 'e' :: digitsText x.den).takeWhile (· ≠ 'e') = digitsText x.num.natAbs := by
    rw [List.takeWhile_append_of_pos]
    · simp
    · intro c hc; simpa using (digitsText_mem hc).2
  have h2 : (digitsText x.num.natAbs ++ 'e' :: digitsText x.den).dropWhile (· ≠ 'e') = 'e' :: digitsText x.den := by
    rw [List.dropWhile_append_of_pos]
    · simp
    · intro c hc; simpa using (digitsText_mem hc).2
  simp only [List.tail_cons, List.head?_cons, h1, h2, textDigits_digitsText]
  by_cases h : x.num < 0
  · have e : (-1 : ℤ) * (x.num.natAbs : ℤ) = x.num := by omega
    simp only [h, if_true]
    rw [e, Rat.mkRat_self]
  · have e : (1 : ℤ) * (x.num.natAbs : ℤ) = x.num := by omega
    have e2 : ¬ some '+' = some '-' := by decide
    simp only [h, if_false, e2]
    rw [e, Rat.mkRat_self]

/-- a codec -/
def sampleCodec : Codec where
  fmt := sampleFmt
  parse := sampleParse
  stamp := sampleStamp
  parse_fmt x := by unfold sampleParse; rw [sampleGuess_fmt]; simp
  fmt_chars x c hc := by
    unfold sampleFmt at hc
    rcases List.mem_cons.1 hc with h | h
    · subst h; split <;> decide
    · rcases List.mem_append.1 h with h | h
      · exact (digitsText_mem h).1
      · rcases List.mem_cons.1 h with h | h
        · subst h; decide
        · exact (digitsText_mem h).1
  fmt_ne x := by simp [sampleFmt]
  none_text := by decide +kernel
  epoch_text := by decide +kernel

/-! ## Plain text -/

/-- text without blanks, quotes or commas -/
def PlainText (s : Text) : Prop := ∀ c ∈ s, isBlank c = false ∧ isQuote c = false ∧ c ≠ ','

instance (s : Text) : Decidable (PlainText s) := by unfold PlainText; infer_instance

theorem fmt_plain (cd : Codec) (x : ℚ) : PlainText (cd.fmt x) := by
  intro c hc
  have h := cd.fmt_chars x c hc
  clear hc
  revert c
  decide

theorem collapse_no_blank : ∀ (b : Bool) (s : Text), (∀ c ∈ s, isBlank c = false) → collapse b s = s
  | _, [], _ => by simp [collapse]
  | b, c :: r, h => by
    have hc := h c (by simp)
    simp [collapse, hc, collapse_no_blank false r (fun c hc => h c (by simp [hc]))]

theorem rdropWhile_all_false {p : Char → Bool} (s : Text) (h : ∀ c ∈ s, p c = false) : s.rdropWhile p = s := by
  rcases s.eq_nil_or_concat with rfl | ⟨l, a, rfl⟩
  · rfl
  · simp only [List.concat_eq_append]
    rw [List.rdropWhile_concat_neg]
    simp [h a (by simp)]

theorem dropWhile_head_false {p : Char → Bool} (s : Text) (h : ∀ c ∈ s.head?, p c = false) : s.dropWhile p = s := by
  cases s with
  | nil => rfl
  | cons a r =>
    have : p a = false := h a (by simp)
    simp [List.dropWhile_cons, this]

theorem rdropWhile_last_false {p : Char → Bool} (s : Text) (h : ∀ c ∈ s.getLast?, p c = false) : s.rdropWhile p = s := by
  rcases s.eq_nil_or_concat with rfl | ⟨l, a, rfl⟩
  · rfl
  · simp only [List.concat_eq_append] at h ⊢
    rw [List.rdropWhile_concat_neg]
    simp [h a (by simp)]

theorem stripText_head (s : Text) (h1 : ∀ c ∈ s.head?, isBlank c = false) (h2 : ∀ c ∈ s.getLast?, isBlank c = false) :
    stripText s = s := by
  unfold stripText
  rw [dropWhile_head_false s h1, rdropWhile_last_false s h2]

theorem dropQuote_head (s : Text) (h : ∀ c ∈ s.head?, isQuote c = false) : dropQuote s = s := by
  cases s with
  | nil => rfl
  | cons a r =>
    have : isQuote a = false := h a (by simp)
    simp [dropQuote, this]

theorem dropLastQuote_last (s : Text) (h : ∀ c ∈ s.getLast?, isQuote c = false) : dropLastQuote s = s := by
  unfold dropLastQuote
  cases hl : s.getLast? with
  | none => rfl
  | some c => simp [h c (by simp [hl])]

theorem cleaned_simple (s : Text) (h : ∀ c ∈ s, isBlank c = false ∧ isQuote c = false) : cleaned s = s := by
  have hh : ∀ c ∈ s.head?, c ∈ s := fun c hc => List.mem_of_mem_head? hc
  have hl : ∀ c ∈ s.getLast?, c ∈ s := fun c hc => List.mem_of_mem_getLast? hc
  unfold cleaned
  rw [collapse_no_blank false s (fun c hc => (h c hc).1),
    stripText_head s (fun c hc => (h c (hh c hc)).1) (fun c hc => (h c (hl c hc)).1),
    dropQuote_head s (fun c hc => (h c (hh c hc)).2), dropLastQuote_last s (fun c hc => (h c (hl c hc)).2),
    stripText_head s (fun c hc => (h c (hh c hc)).1) (fun c hc => (h c (hl c hc)).1)]

theorem cleaned_plain (s : Text) (h : PlainText s) : cleaned s = s :=
  cleaned_simple s (fun c hc => ⟨(h c hc).1, (h c hc).2.1⟩)

/-- the text of a quoted value, between the quotes -/
theorem cleaned_quoted (q q' : Char) (hq : isQuote q = true) (hq' : isQuote q' = true) (s : Text)
    (h : ∀ c ∈ s, isBlank c = false ∧ isQuote c = false) : cleaned (q :: (s ++ [q'])) = s := by
  have b : ∀ c, isQuote c = true → isBlank c = false := by
    intro c hc
    simp only [isQuote, Bool.or_eq_true, beq_iff_eq] at hc
    rcases hc with rfl | rfl <;> decide
  have hh : ∀ c ∈ s.head?, c ∈ s := fun c hc => List.mem_of_mem_head? hc
  have hl : ∀ c ∈ s.getLast?, c ∈ s := fun c hc => List.mem_of_mem_getLast? hc
  unfold cleaned
  rw [collapse_no_blank false _ (by
      intro c hc
      rcases List.mem_cons.1 hc with rfl | hc
      · exact b _ hq
      · rcases List.mem_append.1 hc with hc | hc
        · exact (h c hc).1
        · rw [List.mem_singleton.1 hc]; exact b _ hq'),
    stripText_head (q :: (s ++ [q'])) (by intro c hc; simp at hc; rw [← hc]; exact b _ hq)
      (by
        intro c hc
        rw [← List.cons_append, List.getLast?_concat] at hc
        simp at hc; rw [← hc]; exact b _ hq')]
  have e1 : dropQuote (q :: (s ++ [q'])) = s ++ [q'] := by simp [dropQuote, hq]
  have e2 : dropLastQuote (s ++ [q']) = s := by simp [dropLastQuote, hq']
  rw [e1, e2, stripText_head s (fun c hc => (h c (hh c hc)).1) (fun c hc => (h c (hl c hc)).1)]

/-- the text of a number is no placeholder -/
theorem fmt_no_placeholder (cd : Codec) (x : ℚ) : placeholderKey (cd.fmt x) ∉ noDataPlaceholders := by
  intro h
  have hn : ∀ p ∈ noDataPlaceholders, 'n' ∈ p := by decide
  have h2 := hn _ h
  unfold placeholderKey at h2
  obtain ⟨c, hc, e⟩ := List.mem_map.1 (List.mem_filter.1 h2).1
  have := cd.fmt_chars x c hc
  have key : ∀ c ∈ "0123456789+-.e".toList, c.toLower ≠ 'n' := by decide
  exact key c this e

/-! ## `collapse` and blanks -/

theorem blank_space : isBlank ' ' = true := by decide

/-- after collapsing and stripping, leading blanks do not matter -/
theorem strip_collapse_true (s : Text) : (collapse true s).dropWhile isBlank = (collapse false s).dropWhile isBlank := by
  cases s with
  | nil => rfl
  | cons c r =>
    by_cases h : isBlank c
    · simp [collapse, h, blank_space]
    · simp [collapse, h]

theorem collapse_blanks_front (b : Bool) (l s : Text) (h : ∀ c ∈ l, isBlank c = true) :
    (collapse b (l ++ s)).dropWhile isBlank = (collapse false s).dropWhile isBlank := by
  induction l generalizing b with
  | nil =>
    cases b
    · rfl
    · exact strip_collapse_true s
  | cons c r ih =>
    have hc := h c (by simp)
    have ih' := fun b => ih b (fun c hc => h c (by simp [hc]))
    cases b <;> simp [collapse, hc, ih', blank_space]

/-- what `collapse` does with blanks at the end -/
theorem collapse_blanks_end (b : Bool) (s l : Text) (h : ∀ c ∈ l, isBlank c = true) :
    ∃ k : Text, (∀ c ∈ k, isBlank c = true) ∧ collapse b (s ++ l) = collapse b s ++ k := by
  induction s generalizing b with
  | nil =>
    refine ⟨collapse b l, ?_, by simp [collapse]⟩
    clear * - h
    induction l generalizing b with
    | nil => simp [collapse]
    | cons c r ih =>
      have hc := h c (by simp)
      have ih' := ih (fun c hc => h c (by simp [hc]))
      cases b
      · intro d hd
        simp [collapse, hc] at hd
        rcases hd with rfl | hd
        · exact blank_space
        · exact ih' _ d hd
      · intro d hd
        simp [collapse, hc] at hd
        exact ih' _ d hd
  | cons c r ih =>
    by_cases hc : isBlank c
    · cases b
      · obtain ⟨k, hk, e⟩ := ih true
        exact ⟨k, hk, by simp [collapse, hc, e]⟩
      · obtain ⟨k, hk, e⟩ := ih true
        exact ⟨k, hk, by simp [collapse, hc, e]⟩
    · obtain ⟨k, hk, e⟩ := ih false
      exact ⟨k, hk, by simp [collapse, hc, e]⟩

theorem rdropWhile_append_all {p : Char → Bool} (s k : Text) (h : ∀ c ∈ k, p c = true) :
    (s ++ k).rdropWhile p = s.rdropWhile p := by
  induction k using List.reverseRecOn with
  | nil => simp
  | append_singleton k a ih =>
    rw [← List.append_assoc, List.rdropWhile_concat_pos _ _ _ (h a (by simp))]
    exact ih (fun c hc => h c (by simp [hc]))

theorem dropWhile_append_all {p : Char → Bool} (s k : Text) (h : ∀ c ∈ k, p c = true) :
    ((s ++ k).dropWhile p).rdropWhile p = (s.dropWhile p).rdropWhile p := by
  induction s with
  | nil =>
    have h1 : k.dropWhile p = [] := by
      induction k with
      | nil => rfl
      | cons a r ih => simp [List.dropWhile_cons, h a (by simp), ih (fun c hc => h c (by simp [hc]))]
    simp [h1]
  | cons a r ih =>
    by_cases ha : p a
    · simpa [List.dropWhile_cons, ha] using ih
    · simp only [List.cons_append, List.dropWhile_cons, ha]
      simpa using rdropWhile_append_all (a :: r) k h

/-- blanks around a text do not matter to `strip(collapse …)` -/
theorem strip_collapse_around (l s k : Text) (hl : ∀ c ∈ l, isBlank c = true) (hk : ∀ c ∈ k, isBlank c = true) :
    stripText (collapse false (l ++ s ++ k)) = stripText (collapse false s) := by
  unfold stripText
  rw [List.append_assoc, collapse_blanks_front false l (s ++ k) hl]
  obtain ⟨k', hk', e⟩ := collapse_blanks_end false s k hk
  rw [e, dropWhile_append_all _ _ hk']

theorem cleaned_around (l s k : Text) (hl : ∀ c ∈ l, isBlank c = true) (hk : ∀ c ∈ k, isBlank c = true) :
    cleaned (l ++ s ++ k) = cleaned s := by
  unfold cleaned
  rw [strip_collapse_around l s k hl hk]

end Timeseria
