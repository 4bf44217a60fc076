import Verif.Props.Create
/-! # More statements, added after testing with edited models -/
namespace Timeseria

/-- a label without spaces and signs -/
def PlainLabel (k : String) : Prop := ∀ c ∈ k.toList, c ≠ ' ' ∧ c ≠ '\t' ∧ c ≠ '\n' ∧ c ≠ '\r' ∧ c ≠ '-' ∧ c ≠ '+'

theorem dropWhile_nothing {p : Char → Bool} (l : List Char) (h : ∀ c ∈ l, p c = false) : l.dropWhile p = l := by
  cases l with
  | nil => rfl
  | cons c r => rw [List.dropWhile_cons, h c (by simp)]; rfl

/-- **C188** (labels used by operations) for labels without spaces and signs, such as those of a series of lists, the reading used in the operations is the one of the items, with
the same exceptions -/
theorem C188_operations (d : Data) (k : String) (hk : PlainLabel k) (hd : ∀ v, d ≠ .num v) : dataByLabel d k = dataByLabelPy d k := by
  cases d with
  | num v => exact absurd rfl (hd v)
  | dict d => rfl
  | list l =>
    have hb : ∀ c ∈ k.toList, (decide (c = ' ') || decide (c = '\t') || decide (c = '\n') || decide (c = '\r')) = false := by
      intro c hc
      obtain ⟨h1, h2, h3, h4, _, _⟩ := hk c hc
      simp [h1, h2, h3, h4]
    have hi : pyIntText k = (readNat k).map (fun (n : ℕ) => (n : Int)) := by
      unfold pyIntText readNat
      dsimp only
      rw [dropWhile_nothing _ hb, dropWhile_nothing _ (fun c hc => hb c (List.mem_reverse.1 hc)), List.reverse_reverse]
      cases hl : k.toList with
      | nil => rfl
      | cons c r =>
        have := hk c (by rw [hl]; simp)
        dsimp only
        rw [if_neg this.2.2.2.2.1, if_neg this.2.2.2.2.2, if_neg (by simp)]
        cases readDigits 0 (c :: r) <;> rfl
    unfold dataByLabel dataByLabelPy
    dsimp only
    rw [hi]
    cases readNat k with
    | none => rfl
    | some n =>
      simp only [Option.map_some]
      unfold pyPos
      by_cases hn : n < l.length
      · rw [if_pos ⟨by omega, by omega⟩]
        simp only [Int.toNat_natCast]
        cases l[n]? <;> rfl
      · rw [if_neg (by omega), if_neg (by omega), List.getElem?_eq_none (by omega)]

example : PlainLabel "12" ∧ dataByLabel (.list [5, 6]) "x" = .error .valueError ∧ dataByLabel (.list [5, 6]) "1" = .ok 6 := by
  refine ⟨?_, by decide +kernel, by decide +kernel⟩
  intro c hc
  have : c ∈ ['1', '2'] := hc
  simp only [List.mem_cons, List.not_mem_nil, or_false] at this
  rcases this with rfl | rfl <;> decide

end Timeseria
