import Verif.Model.Query
import Verif.Lemmas.Storage
import Verif.Lemmas.Text
import Verif.Props.OpsMap

/-! # Properties C189, C190: the query of `select` -/

namespace Timeseria

/-! ## C189 -/

/-- Specification: a label which can be written in a query: not empty, without `=`, and neither a blank
nor a double quote at its ends. -/
structure QueryLabel (k : Text) : Prop where
  ne : k ≠ []
  noEq : '=' ∉ k
  first : ∀ c ∈ k.head?, isBlank c = false ∧ c ≠ '"'
  last : ∀ c ∈ k.getLast?, isBlank c = false ∧ c ≠ '"'

/-- the label as written in the query: alone or in double quotes -/
def written (quoted : Bool) (k : Text) : Text := if quoted then '"' :: k ++ ['"'] else k

theorem strip_around (l s k : Text) (hl : ∀ c ∈ l, isBlank c = true) (hk : ∀ c ∈ k, isBlank c = true) :
    stripText (l ++ s ++ k) = stripText s := by
  unfold stripText
  rw [dropWhile_append_all _ _ hk]
  congr 1
  induction l with
  | nil => rfl
  | cons a r ih =>
    rw [List.cons_append, List.dropWhile_cons_of_pos (hl a (by simp))]
    exact ih (fun c hc => hl c (by simp [hc]))

theorem written_strip {k : Text} (h : QueryLabel k) (quoted : Bool) :
    stripText (written quoted k) = written quoted k := by
  cases quoted with
  | false => exact stripText_head k (fun c hc => (h.first c hc).1) (fun c hc => (h.last c hc).1)
  | true =>
    apply stripText_head
    · intro c hc; simp [written] at hc; subst hc; decide
    · intro c hc
      simp only [written, if_true] at hc
      rw [List.getLast?_concat] at hc
      simp at hc; subst hc; decide

theorem written_unquote {k : Text} (h : QueryLabel k) (quoted : Bool) :
    dropLastDouble (dropFirstDouble (written quoted k)) = k := by
  cases quoted with
  | false =>
    obtain ⟨c, r, rfl⟩ := List.exists_cons_of_ne_nil h.ne
    have hc := (h.first c (by simp)).2
    simp only [written, Bool.false_eq_true, if_false, dropFirstDouble, if_neg hc]
    unfold dropLastDouble
    cases hl : (c :: r).getLast? with
    | none => rfl
    | some d => simp only [if_neg ((h.last d (by simp [hl])).2)]
  | true =>
    simp only [written, if_true, List.cons_append, dropFirstDouble]
    unfold dropLastDouble
    rw [List.getLast?_concat]
    simp

/-- **C189** The query `label = value`, whatever the blanks around the label and with or without double
quotes around it, selects exactly the items with that value for that label, in order (`None` when there
is none): `value` is any text which reads as a number. -/
theorem C189_query (cd : Codec) {cal : Calendar} {s : TSeries} {ks : List String} (h : OpSeries cal s ks)
    (k : String) (hk : k ∈ ks) (hq : QueryLabel k.toList) (quoted : Bool) (b₁ b₂ w : Text) (v : ℚ)
    (h₁ : ∀ c ∈ b₁, isBlank c = true) (h₂ : ∀ c ∈ b₂, isBlank c = true) (hw : '=' ∉ w)
    (hv : cd.parse w = some v)
    (hand : hasSub " and ".toList (b₁ ++ written quoted k.toList ++ b₂ ++ '=' :: w) = false) :
    s.selectQuery cd (b₁ ++ written quoted k.toList ++ b₂ ++ '=' :: w) =
      .ok (let sel := s.items.filter (fun x => x.value? k = some v)
           if sel = [] then none else some sel) := by
  obtain ⟨_, _, _, _, _, _, _, _, hprep⟩ := h.opPrep
  have hne : ∀ (b : Text), (∀ c ∈ b, isBlank c = true) → '=' ∉ b := by
    intro b hb hm
    have := hb '=' hm
    revert this; decide
  have hwr : '=' ∉ written quoted k.toList := by
    cases quoted with
    | false => exact hq.noEq
    | true => simp only [written, if_true]; simp [hq.noEq]
  have hfirst : '=' ∉ b₁ ++ written quoted k.toList ++ b₂ := by
    simp only [List.mem_append, not_or]
    exact ⟨⟨hne _ h₁, hwr⟩, hne _ h₂⟩
  have hparse : parseQuery cd (b₁ ++ written quoted k.toList ++ b₂ ++ '=' :: w) = .ok (k, v) := by
    unfold parseQuery
    rw [hand, if_neg (by simp), if_neg (by simp)]
    rw [splitSep_cons '=' _ w hfirst, splitSep_none '=' w hw]
    dsimp only
    rw [hv]
    dsimp only
    rw [strip_around _ _ _ h₁ h₂, written_strip hq, written_unquote hq, String.ofList_toList]
  unfold TSeries.selectQuery
  rw [hprep]
  dsimp only
  rw [hparse]
  exact C32_select h k hk v

/-- the label `a` in quotes, with blanks -/
example : QueryLabel "a".toList ∧
    parseQuery sampleCodec (" \"a\" =".toList ++ sampleCodec.fmt 1) =
      .ok ("a", 1) := by
  constructor
  · exact ⟨by decide, by decide, by decide, by decide⟩
  · decide +kernel

/-! ## C190 -/

/-- **C190** is false: what follows a second `=` is silently dropped, so `a=1=2` selects as `a=1`. -/
theorem C190_false (cd : Codec) (s : TSeries) (k w w' : Text) (hk : '=' ∉ k) (hw : '=' ∉ w)
    (h1 : hasSub " and ".toList (k ++ '=' :: w ++ '=' :: w') = false)
    (h2 : hasSub " and ".toList (k ++ '=' :: w) = false) :
    s.selectQuery cd (k ++ '=' :: w ++ '=' :: w') = s.selectQuery cd (k ++ '=' :: w) := by
  have : parseQuery cd (k ++ '=' :: w ++ '=' :: w') = parseQuery cd (k ++ '=' :: w) := by
    unfold parseQuery
    rw [h1, h2]
    rw [if_neg (by simp), if_neg (by simp), if_neg (by simp), if_neg (by simp)]
    rw [List.append_assoc, List.cons_append, splitSep_cons '=' k _ hk, splitSep_cons '=' k _ hk,
      splitSep_cons '=' w _ hw, splitSep_none '=' w hw]
  unfold TSeries.selectQuery
  rw [this]

example : hasSub " and ".toList ("a".toList ++ '=' :: "1".toList ++ '=' :: "2".toList) = false ∧
    hasSub " and ".toList ("a".toList ++ '=' :: "1".toList) = false := by decide +kernel

/-- **C190, partial**: a query without `=`, or with ` and `, is refused with `NotImplementedError`, and a
query whose value does not read as a number is refused with `ValueError`.  Missing: more than one `=`
(`C190_false`). -/
theorem C190_refused_partial (cd : Codec) {cal : Calendar} {s : TSeries} {ks : List String}
    (h : OpSeries cal s ks) (q : Text) :
    ((∃ a b, q = a ++ " and ".toList ++ b) → s.selectQuery cd q = .error .notImplemented) ∧
    ('=' ∉ q → s.selectQuery cd q = .error .notImplemented) ∧
    (∀ k w, q = k ++ '=' :: w → '=' ∉ k → '=' ∉ w → cd.parse w = none →
      s.selectQuery cd q = .error .valueError ∨ s.selectQuery cd q = .error .notImplemented) := by
  obtain ⟨_, _, _, _, _, _, _, _, hprep⟩ := h.opPrep
  unfold TSeries.selectQuery
  rw [hprep]
  dsimp only
  refine ⟨?_, ?_, ?_⟩
  · rintro ⟨a, b, rfl⟩
    have : hasSub " and ".toList (a ++ " and ".toList ++ b) = true := by
      unfold hasSub
      rw [List.any_eq_true]
      refine ⟨" and ".toList ++ b, ?_, ?_⟩
      · rw [List.mem_tails]
        exact ⟨a, by rw [List.append_assoc]⟩
      · rw [List.isPrefixOf_iff_prefix]
        exact List.prefix_append _ _
    unfold parseQuery
    rw [this, if_pos rfl]
  · intro hq
    have : parseQuery cd q = .error .notImplemented := by
      unfold parseQuery
      rw [if_pos hq]
      split <;> rfl
    rw [this]
  · intro k w hq hk hw hp
    have hc : hasSub " and ".toList q = true ∨ hasSub " and ".toList q = false := by
      cases hasSub " and ".toList q <;> simp
    rcases hc with hc | hc
    · right
      unfold parseQuery; rw [hc, if_pos rfl]
    · left
      unfold parseQuery
      rw [hc, if_neg (by simp), if_neg (by rw [hq]; simp), hq, splitSep_cons '=' k w hk,
        splitSep_none '=' w hw]
      dsimp only
      rw [hp]

end Timeseria
