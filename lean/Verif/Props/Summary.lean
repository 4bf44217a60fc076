import Verif.Model.Summary
import Verif.Props.Access
import Verif.Model.Ops

/-! # C256: the summary of a series -/

namespace Timeseria

/-- texts one after the other, with a separator between them -/
def joinWith (sep : String) : List String → String
  | [] => ""
  | [x] => x
  | x :: y :: r => x ++ sep ++ joinWith sep (y :: r)

/-- The text of a summary: the header, then in square brackets the items of `shown`, one on each line and separated by commas; if there are
more, the first ones, a line with dots and the last ones. -/
def summaryText (txt : Texts) (l : List Item) (limit : Option ℕ) : String :=
  let names := l.map txt.ofItem
  let body := match limit with
    | none => joinWith ",\n " names
    | some L =>
      if L = 0 ∨ l.length ≤ L then joinWith ",\n " names
      else joinWith ",\n " (names.take ((L + 1) / 2)) ++ ",\n ...\n" ++ (if L = 1 then "" else " ") ++ joinWith ",\n " (names.drop (l.length - L / 2))
  txt.header ++ ":\n\n[" ++ body ++ "]"

theorem allLoop_later (limit : Option Int) (n : ℕ) (hl : ∀ i < n, noLimit limit = true ∨ (i : Int) < limit.getD 0) (l : List String) (i : ℕ) (hi : 1 ≤ i)
    (hn : i + l.length = n) (hne : l ≠ []) : allLoop limit n i l = " " ++ joinWith ",\n " l := by
  induction l generalizing i with
  | nil => exact absurd rfl hne
  | cons x r ih =>
    rw [List.length_cons] at hn
    have h0 : (!noLimit limit && decide (limit.getD 0 ≤ (i : Int))) = false := by
      rcases hl i (by omega) with h | h
      · simp [h]
      · simp; intro _; exact h
    unfold allLoop
    rw [h0]
    simp only [Bool.false_eq_true, if_false]
    rw [if_neg (by omega)]
    cases r with
    | nil =>
      rw [if_pos (by simpa using hn)]
      simp [allLoop, joinWith]
    | cons y r =>
      rw [if_neg (by simp only [List.length_cons] at hn; omega), ih (i + 1) (by omega) (by omega) (by simp)]
      simp only [joinWith, String.append_assoc]
      rfl

theorem allLoop_eq (limit : Option Int) (l : List String) (hl : ∀ i < l.length, noLimit limit = true ∨ (i : Int) < limit.getD 0)
    (h2 : 2 ≤ l.length) : allLoop limit l.length 0 l = joinWith ",\n " l := by
  match l, h2 with
  | x :: y :: r, _ =>
    have h0 : (!noLimit limit && decide (limit.getD 0 ≤ ((0 : ℕ) : Int))) = false := by
      rcases hl 0 (by simp) with h | h
      · simp [h]
      · simp only [Bool.and_eq_false_iff, decide_eq_false_iff_not, not_le]; right; exact h
    conv_lhs => unfold allLoop
    rw [h0]
    simp only [Bool.false_eq_true, if_false, if_true]
    rw [allLoop_later limit _ hl (y :: r) (0 + 1) (by omega) (by simp only [List.length_cons]; omega) (by simp)]
    simp only [joinWith, String.append_assoc]
    rfl

theorem headLoop_later (l : List String) (i : ℕ) (hi : 1 ≤ i) (hne : l ≠ []) : headLoop i l = " " ++ joinWith ",\n " l ++ ",\n" := by
  induction l generalizing i with
  | nil => exact absurd rfl hne
  | cons x r ih =>
    unfold headLoop
    rw [if_neg (by omega)]
    cases r with
    | nil => simp [headLoop, joinWith]
    | cons y r =>
      rw [ih (i + 1) (by omega) (by simp)]
      simp only [joinWith, String.append_assoc]
      rfl

theorem headLoop_eq (l : List String) (hne : l ≠ []) : headLoop 0 l = joinWith ",\n " l ++ ",\n" := by
  match l, hne with
  | [x], _ => simp [headLoop, joinWith]
  | x :: y :: r, _ =>
    unfold headLoop
    rw [if_pos rfl, headLoop_later _ _ (by omega) (by simp)]
    simp only [joinWith, String.append_assoc]
    rfl

theorem tailLoop_eq (l : List String) (i m : ℕ) (hm : i + l.length = m) (hne : l ≠ []) : tailLoop m i l = " " ++ joinWith ",\n " l := by
  induction l generalizing i with
  | nil => exact absurd rfl hne
  | cons x r ih =>
    rw [List.length_cons] at hm
    unfold tailLoop
    cases r with
    | nil =>
      rw [if_pos (by simp only [List.length_nil] at hm; omega)]
      simp [tailLoop, joinWith]
    | cons y r =>
      rw [if_neg (by simp only [List.length_cons] at hm; omega), ih (i + 1) (by omega) (by simp)]
      simp only [joinWith, String.append_assoc]
      rfl

theorem joinWith_append (sep : String) (a b : List String) (ha : a ≠ []) (hb : b ≠ []) :
    joinWith sep (a ++ b) = joinWith sep a ++ sep ++ joinWith sep b := by
  induction a with
  | nil => exact absurd rfl ha
  | cons x r ih =>
    cases r with
    | nil =>
      cases b with
      | nil => exact absurd rfl hb
      | cons y q => simp [joinWith]
    | cons y q =>
      have := ih (by simp)
      simp only [List.cons_append] at this ⊢
      simp only [joinWith, this, String.append_assoc]

theorem headCount_nat (L : ℕ) : headCount L = ((L + 1) / 2 : ℕ) := by
  unfold headCount
  split_ifs with h1 h2
  · have : L = 1 := by omega
    subst this; rfl
  · rw [Int.tdiv_eq_ediv_of_nonneg (by omega)]
    omega
  · rw [Int.tdiv_eq_ediv_of_nonneg (by omega)]
    omega

theorem tailCount_nat (L : ℕ) : tailCount L = (L / 2 : ℕ) := by
  unfold tailCount
  split_ifs with h1
  · have : L = 1 := by omega
    subst this; rfl
  · rw [Int.tdiv_eq_ediv_of_nonneg (by omega)]
    omega

/-- **C256**, partial: of a series of two items or more, `summary(limit, newlines=True)` lists all the items in order if there is no limit (or
zero) or they are not more than the limit, otherwise the first half (rounded up) of the limit, a line of dots, and the last half
(rounded down): never more items than the limit.  Missing: a series of one item, listed with a comma after it (`C256_false`). -/
theorem C256_partial (s : TSeries) (hg : GoodPoints s.items ∨ GoodSlots s.items) (h2 : 2 ≤ s.items.length) (txt : Texts) (limit : Option ℕ) :
    s.summary txt (limit.map Int.ofNat) = .ok (summaryText txt s.items limit) := by
  have hne : s.items ≠ [] := by intro h; rw [h] at h2; simp at h2
  have hlen : (s.items.map txt.ofItem).length = s.items.length := List.length_map _
  unfold TSeries.summary TSeries.summaryBody summaryText
  cases limit with
  | none =>
    simp only [Option.map_none]
    rw [← hlen, allLoop_eq _ _ (fun _ _ => .inl rfl) (by omega)]
    simp only [String.append_assoc]
    rfl
  | some L =>
    simp only [Option.map_some]
    by_cases hL : L = 0 ∨ s.items.length < L
    · have hc : (noLimit (some (Int.ofNat L)) || decide (Int.ofNat L > (s.items.length : Int))) = true := by
        rcases hL with rfl | hL
        · rfl
        · simp only [Bool.or_eq_true, decide_eq_true_eq]; right; simpa using hL
      rw [hc, if_pos rfl, if_pos (by omega), ← hlen, allLoop_eq _ _ (fun i hi => by
        rcases hL with rfl | hL
        · exact .inl rfl
        · right; simp only [Option.getD_some, Int.ofNat_eq_natCast]; omega) (by omega)]
      simp only [String.append_assoc]
      rfl
    · have hc : (noLimit (some (Int.ofNat L)) || decide (Int.ofNat L > (s.items.length : Int))) = false := by
        simp only [Bool.or_eq_false_iff, decide_eq_false_iff_not, noLimit, Int.ofNat_eq_natCast]
        omega
      rw [hc]
      simp only [Bool.false_eq_true, if_false, Int.ofNat_eq_natCast]
      rw [headCount_nat, tailCount_nat, (C77_head_tail s hne hg _).1]
      dsimp only
      have hh : (List.take ((L + 1) / 2) s.items).map txt.ofItem ≠ [] := by
        rw [← List.length_pos_iff]
        simp only [List.length_map, List.length_take]
        omega
      rw [headLoop_eq _ hh]
      by_cases h1 : L = 1
      · subst h1
        simp only [show ((1 / 2 : ℕ) : Int) = 0 by rfl, ne_eq, not_true_eq_false, if_false]
        rw [if_pos (by omega), if_neg (by omega)]
        have : List.drop (s.items.length - 1 / 2) (List.map txt.ofItem s.items) = [] := by
          apply List.drop_eq_nil_of_le
          simp
        rw [this]
        simp only [List.map_take, joinWith, String.append_assoc]
        rfl
      · rw [if_pos (by omega), (C77_head_tail s hne hg _).2 (by omega)]
        dsimp only
        rw [tailLoop_eq _ 0 _ (by simp only [List.length_map, List.length_drop]; omega) (by
          rw [← List.length_pos_iff]
          simp only [List.length_map, List.length_drop]
          omega)]
        by_cases he : L = s.items.length
        · rw [if_neg (by omega), if_pos (by omega)]
          have e : s.items.length - L / 2 = (L + 1) / 2 := by omega
          rw [e]
          have hj : joinWith ",\n " (s.items.map txt.ofItem) =
              joinWith ",\n " ((List.take ((L + 1) / 2) s.items).map txt.ofItem) ++ ",\n " ++
                joinWith ",\n " ((List.drop ((L + 1) / 2) s.items).map txt.ofItem) := by
            rw [← joinWith_append _ _ _ hh, ← List.map_append, List.take_append_drop]
            rw [← List.length_pos_iff]
            simp only [List.length_map, List.length_drop]
            omega
          rw [hj]
          simp only [String.append_assoc]
          congr 1
        · rw [if_pos (by omega), if_neg (by omega), if_neg h1]
          simp only [List.map_take, List.map_drop, String.append_assoc]
          congr 1

/-- **C256 is false** of a series of one item: after the item there is a comma and a new line. -/
theorem C256_false (x : Item) (s : TSeries) (hs : s.items = [x]) (txt : Texts) :
    s.summary txt none = .ok (txt.header ++ ":\n\n[" ++ txt.ofItem x ++ ",\n]") ∧
    summaryText txt s.items none = txt.header ++ ":\n\n[" ++ txt.ofItem x ++ "]" := by
  unfold TSeries.summary TSeries.summaryBody summaryText
  rw [hs]
  simp only [List.map_cons, List.map_nil, allLoop, joinWith, noLimit, Bool.not_true, Bool.false_and, Bool.false_eq_true, if_false, if_true,
    String.append_assoc, and_true]
  rfl

def sevenItems : TSeries :=
  match TSeries.build ((List.range 7).map (fun i => mkPoint (60 * i) (.list [i]))) with
  | .ok s => s
  | .error _ => {}

def exTexts : Texts where
  header := "Time series"
  ofItem x := "@ " ++ strNat (x.t.num.toNat)

theorem C256_witness : (sevenItems.summary exTexts (some 5)).toOption = some "Time series:\n\n[@ 0,\n @ 60,\n @ 120,\n ...\n @ 300,\n @ 360]" ∧
    GoodPoints sevenItems.items ∧ sevenItems.items.length = 7 := by
  have e : sevenItems.items = (List.range 7).map (fun i => mkPoint (60 * i) (.list [i])) := by decide +kernel
  refine ⟨by decide +kernel, ⟨?_, by decide +kernel, ?_, ?_⟩, by decide +kernel⟩
  · rw [e]
    intro x hx
    simp only [List.mem_map] at hx
    obtain ⟨i, _, rfl⟩ := hx
    rfl
  · rw [e]
    intro x hx
    simp only [List.mem_map] at hx
    obtain ⟨i, _, rfl⟩ := hx
    exact ⟨_, rfl, rfl⟩
  · rw [e]
    intro x hx y hy d f hd hf
    simp only [List.mem_map] at hx hy
    obtain ⟨i, _, rfl⟩ := hx
    obtain ⟨j, _, rfl⟩ := hy
    simp only [mkPoint, Option.some.injEq] at hd hf
    subst hd hf
    trivial

end Timeseria
