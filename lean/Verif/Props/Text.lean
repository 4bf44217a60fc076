import Verif.Lemmas.Text

/-! # C73: text values are read as numbers or refused -/

namespace Timeseria

/-- C73: a text without blanks and quotes is left as it is, unless it is a placeholder. -/
theorem C73_plain_text_unchanged (pl : List Text) (s : Text) (h : ∀ c ∈ s, isBlank c = false ∧ isQuote c = false)
    (hp : placeholderKey s ∉ pl) : sanitize pl s = some s := by
  unfold sanitize
  rw [cleaned_simple s h, if_neg hp]

/-- C73: blanks around a text do not matter. -/
theorem C73_outer_blanks_removed (pl : List Text) (l s k : Text) (hl : ∀ c ∈ l, isBlank c = true)
    (hk : ∀ c ∈ k, isBlank c = true) : sanitize pl (l ++ s ++ k) = sanitize pl s := by
  unfold sanitize
  rw [cleaned_around l s k hl hk]

/-- C73: neither does a pair of quotes around it, inside of those blanks. -/
theorem C73_outer_quotes_removed (pl : List Text) (l s k : Text) (q q' : Char) (hl : ∀ c ∈ l, isBlank c = true)
    (hk : ∀ c ∈ k, isBlank c = true) (hq : isQuote q = true) (hq' : isQuote q' = true)
    (h : ∀ c ∈ s, isBlank c = false ∧ isQuote c = false) :
    sanitize pl (l ++ (q :: (s ++ [q'])) ++ k) = sanitize pl s := by
  unfold sanitize
  rw [cleaned_around l _ k hl hk, cleaned_quoted q q' hq hq' s h, cleaned_simple s h]

theorem stripText_ends (s : Text) : (∀ c ∈ (stripText s).head?, isBlank c = false) ∧
    (∀ c ∈ (stripText s).getLast?, isBlank c = false) := by
  unfold stripText
  constructor
  · intro c hc
    have hpre := List.rdropWhile_prefix isBlank (l := s.dropWhile isBlank)
    obtain ⟨t, ht⟩ := hpre
    have : (s.dropWhile isBlank).head? = some c := by
      rw [← ht, List.head?_append]
      simp only [Option.mem_def] at hc
      simp [hc]
    have h2 := List.head?_dropWhile_not isBlank s
    rw [this] at h2
    simpa using h2
  · intro c hc
    simp only [Option.mem_def] at hc
    have hne : (s.dropWhile isBlank).rdropWhile isBlank ≠ [] := by
      intro h; rw [h] at hc; simp at hc
    have := List.rdropWhile_last_not isBlank _ hne
    rw [List.getLast?_eq_getLast_of_ne_nil hne] at hc
    simp at hc
    rw [hc] at this
    simpa using this

/-- C73: the result never starts or ends with a blank. -/
theorem C73_result_has_no_outer_blanks (pl : List Text) (s r : Text) (h : sanitize pl s = some r) :
    (∀ c ∈ r.head?, isBlank c = false) ∧ (∀ c ∈ r.getLast?, isBlank c = false) := by
  unfold sanitize at h
  split at h
  · cases h
  · cases h
    unfold cleaned
    exact stripText_ends _

/-- C73: sanitizing a second time changes nothing when there are no quotes left. -/
theorem C73_idempotent_without_quotes (pl : List Text) (s r : Text) (h : sanitize pl s = some r)
    (hb : ∀ c ∈ r, isBlank c = false) (hq : ∀ c ∈ r, isQuote c = false) : sanitize pl r = some r := by
  apply C73_plain_text_unchanged pl r (fun c hc => ⟨hb c hc, hq c hc⟩)
  unfold sanitize at h
  split at h
  · cases h
  · rename_i hh; cases h; exact hh

/-- C73: a placeholder for missing data, with or without dots, capital letters and blanks around it, never becomes a
number: it is refused, or `None` for a data index. -/
theorem C73_placeholder_is_never_a_number (cd : Codec) (l s k : Text) (label : Option String) (v : ℚ)
    (hl : ∀ c ∈ l, isBlank c = true) (hk : ∀ c ∈ k, isBlank c = true)
    (h : ∀ c ∈ s, isBlank c = false ∧ isQuote c = false) (hp : placeholderKey s ∈ noDataPlaceholders) :
    toFloat cd noDataPlaceholders (l ++ s ++ k) label ≠ .ok (some v) := by
  have e : sanitize noDataPlaceholders (l ++ s ++ k) = none := by
    rw [C73_outer_blanks_removed _ l s k hl hk]
    unfold sanitize
    rw [cleaned_simple s h, if_pos hp]
  unfold toFloat
  rw [e]
  simp only [Option.bind_none]
  split <;> simp

/-- C73: and the same inside of quotes. -/
theorem C73_quoted_placeholder_is_never_a_number (cd : Codec) (l s k : Text) (q q' : Char) (label : Option String) (v : ℚ)
    (hl : ∀ c ∈ l, isBlank c = true) (hk : ∀ c ∈ k, isBlank c = true) (hq : isQuote q = true) (hq' : isQuote q' = true)
    (h : ∀ c ∈ s, isBlank c = false ∧ isQuote c = false) (hp : placeholderKey s ∈ noDataPlaceholders) :
    toFloat cd noDataPlaceholders (l ++ (q :: (s ++ [q'])) ++ k) label ≠ .ok (some v) := by
  have e : sanitize noDataPlaceholders (l ++ (q :: (s ++ [q'])) ++ k) = none := by
    rw [C73_outer_quotes_removed _ l s k q q' hl hk hq hq' h]
    unfold sanitize
    rw [cleaned_simple s h, if_pos hp]
  unfold toFloat
  rw [e]
  simp only [Option.bind_none]
  split <;> simp

/-- the value of a text that sanitizes to a number -/
theorem toFloat_of_sanitize (cd : Codec) (s r : Text) (label : Option String) (x : ℚ)
    (h : sanitize noDataPlaceholders s = some r) (hr : commaToDot r = cd.fmt x) :
    toFloat cd noDataPlaceholders s label = .ok (some x) := by
  unfold toFloat
  rw [h]
  simp only [Option.bind_some, hr, cd.parse_fmt]

theorem commaToDot_fmt (cd : Codec) (x : ℚ) : commaToDot (cd.fmt x) = cd.fmt x := by
  unfold commaToDot
  conv_rhs => rw [← List.map_id (cd.fmt x)]
  apply List.map_congr_left
  intro c hc
  simp [((fmt_plain cd x) c hc).2.2]

/-- C73: a number written as text is read back, whatever blanks there are around it. -/
theorem C73_number_read_back (cd : Codec) (l k : Text) (label : Option String) (x : ℚ) (hl : ∀ c ∈ l, isBlank c = true)
    (hk : ∀ c ∈ k, isBlank c = true) : toFloat cd noDataPlaceholders (l ++ cd.fmt x ++ k) label = .ok (some x) := by
  apply toFloat_of_sanitize cd _ (cd.fmt x) label x _ (commaToDot_fmt cd x)
  rw [C73_outer_blanks_removed _ l _ k hl hk]
  exact C73_plain_text_unchanged _ _ (fun c hc => ⟨(fmt_plain cd x c hc).1, (fmt_plain cd x c hc).2.1⟩) (fmt_no_placeholder cd x)

/-- C73: also in quotes. -/
theorem C73_quoted_number_read_back (cd : Codec) (l k : Text) (q q' : Char) (label : Option String) (x : ℚ)
    (hl : ∀ c ∈ l, isBlank c = true) (hk : ∀ c ∈ k, isBlank c = true) (hq : isQuote q = true) (hq' : isQuote q' = true) :
    toFloat cd noDataPlaceholders (l ++ (q :: (cd.fmt x ++ [q'])) ++ k) label = .ok (some x) := by
  have hpl : ∀ c ∈ cd.fmt x, isBlank c = false ∧ isQuote c = false :=
    fun c hc => ⟨(fmt_plain cd x c hc).1, (fmt_plain cd x c hc).2.1⟩
  apply toFloat_of_sanitize cd _ (cd.fmt x) label x _ (commaToDot_fmt cd x)
  rw [C73_outer_quotes_removed _ l _ k q q' hl hk hq hq' hpl]
  exact C73_plain_text_unchanged _ _ hpl (fmt_no_placeholder cd x)

/-- C73: a decimal comma is read as a decimal point. -/
theorem C73_decimal_comma (cd : Codec) (label : Option String) (x : ℚ) :
    toFloat cd noDataPlaceholders ((cd.fmt x).map (fun c => if c = '.' then ',' else c)) label = .ok (some x) := by
  have hch : ∀ c ∈ (cd.fmt x).map (fun c => if c = '.' then ',' else c), c ∈ ",0123456789+-e".toList := by
    intro c hc
    obtain ⟨d, hd, rfl⟩ := List.mem_map.1 hc
    have := cd.fmt_chars x d hd
    clear hc hd
    revert d
    decide
  have hs : ∀ c ∈ (cd.fmt x).map (fun c => if c = '.' then ',' else c), isBlank c = false ∧ isQuote c = false := by
    intro c hc
    have := hch c hc
    clear hc
    revert c
    decide
  refine toFloat_of_sanitize cd _ _ label x (C73_plain_text_unchanged _ _ hs ?_) ?_
  · intro h
    have hn : ∀ p ∈ noDataPlaceholders, 'n' ∈ p := by decide
    have h2 := hn _ h
    unfold placeholderKey at h2
    obtain ⟨c, hc, e⟩ := List.mem_map.1 (List.mem_filter.1 h2).1
    have := hch c hc
    have key : ∀ c ∈ ",0123456789+-e".toList, c.toLower ≠ 'n' := by decide
    exact key c this e
  · unfold commaToDot
    rw [List.map_map]
    conv_rhs => rw [← List.map_id (cd.fmt x)]
    apply List.map_congr_left
    intro c hc
    have := (fmt_plain cd x c hc).2.2
    by_cases h : c = '.'
    · simp [h]
    · simp [h, this]

/-- C73: text is a number or is refused with the one exception the loader handles; for a data index it is never refused. -/
theorem C73_number_or_refused (cd : Codec) (pl : List Text) (s : Text) (label : Option String) :
    (∃ v, toFloat cd pl s label = .ok (some v)) ∨
    (isIndexLabel label = true ∧ toFloat cd pl s label = .ok none) ∨
    (isIndexLabel label = false ∧ toFloat cd pl s label = .error .floatConversion) := by
  unfold toFloat
  cases h : (sanitize pl s).bind (fun x => cd.parse (commaToDot x)) with
  | some v => exact Or.inl ⟨v, rfl⟩
  | none =>
    cases h2 : isIndexLabel label with
    | true => right; left; exact ⟨rfl, by simp⟩
    | false => right; right; exact ⟨rfl, by simp⟩

/-- a codec meets the assumptions; `' "N.A." '` is a placeholder, and so is refused -/
example : (toFloat sampleCodec noDataPlaceholders " \"N.A.\" \n".toList (some "value")).toOption.isNone = true ∧
    (toFloat sampleCodec noDataPlaceholders " \"+5e2\" \n".toList (some "value")).toOption = some (some (5/2)) := by
  decide +kernel

example : placeholderKey "N.A.".toList ∈ noDataPlaceholders ∧ sampleCodec.fmt (5/2) = "+5e2".toList := by decide +kernel

end Timeseria
