import Verif.Props.MergeKinds
import Verif.Props.Session
import Verif.Props.SlotStats

/-! # Which error, and what is left: the method `merge`, labels of series without data, aggregations -/

namespace Timeseria

/-- **C290 (which error)**: a list of series is refused by the method with `ValueError` if the series is empty or of variable resolution, and
with `AttributeError` otherwise. -/
theorem C290_which (cal : Calendar) (s : TSeries) (ss : List TSeries) :
    (s.items = [] ∨ s.res = .varying → s.mergeMethod cal (.list ss) = .error .valueError) ∧
    (s.items ≠ [] → s.res ≠ .varying → s.mergeMethod cal (.list ss) = .error .attributeError) := by
  unfold TSeries.mergeMethod
  dsimp only
  constructor
  · intro h
    by_cases he : s.items = []
    · rw [if_pos (by rw [he]; rfl)]
    · rw [if_neg (by simpa using he), if_pos (h.resolve_left he)]
  · intro he hr
    rw [if_neg (by simpa using he), if_neg hr]

example : TSeries.mergeMethod physicalCalendar exSeries (.list [exSeries]) = .error .attributeError := by decide +kernel

theorem build_no_ref {l : List Item} : ∀ {s : TSeries}, TSeries.build l = .ok s → (∀ x ∈ l, x.data = none) → s.ref = none := by
  induction l using List.reverseRecOn with
  | nil => intro s h _; cases h; rfl
  | append_singleton l x ih =>
    intro s h hd
    obtain ⟨s₀, h0, h1⟩ := build_snoc h
    have hr := ih h0 (fun y hy => hd y (by simp [hy]))
    have hx := hd x (by simp)
    have hpre : ∀ {p : TSeries}, p.ref = none → p.baseAppend x = (s, .ok ()) → s.ref = none := by
      intro p hp hb
      unfold TSeries.baseAppend at hb
      rw [hp, hx] at hb
      split at hb
      · split at hb
        · cases hb
        split at hb
        all_goals
          split at hb
          · cases hb
          · cases hb; rfl
      · cases hb; rfl
    unfold TSeries.append at h1
    dsimp only at h1
    split at h1
    · cases h1
    · refine hpre ?_ h1
      split
      · unfold TSeries.preSlot
        dsimp only
        split
        · split
          · exact hr
          · split <;> exact hr
          · exact hr
        · split
          · exact hr
          · split
            · exact hr
            · split
              · exact hr
              · split <;> exact hr
              · exact hr
      · unfold TSeries.prePoint
        dsimp only
        split
        · exact hr
        · split
          · exact hr
          split
          · exact hr
          split
          · exact hr
          split
          · split <;> exact hr
          · exact hr
          · split
            · exact hr
            · split <;> exact hr

/-- **C249 (without data)**: renaming or removing labels, or removing an index, on a series of items without data changes nothing at all, whatever
the labels. -/
theorem C249_no_data (cal : Calendar) (l : List Item) (s : TSeries) (hb : TSeries.build l = .ok s) (hne : l ≠ []) (hd : ∀ x ∈ l, x.data = none)
    (old new : String) (ref : Option Data) :
    s.sessionStep cal (.rename old new ref) = s ∧ s.sessionStep cal (.removeLabel old ref) = s ∧ s.sessionStep cal (.removeIndex old) = s := by
  have hm : s.refMissing = true := by
    unfold TSeries.refMissing
    rw [build_no_ref hb hd, build_items hb]
    cases l with
    | nil => exact absurd rfl hne
    | cons => rfl
  refine ⟨?_, ?_, ?_⟩ <;> simp only [TSeries.sessionStep, hm, if_true]

def barePoints : List Item := [{ t := 0, slot := none, tz := "UTC", data := none, idx := [] }, { t := 60, slot := none, tz := "UTC", data := none, idx := [] }]

example : (TSeries.build barePoints).toOption.isSome = true ∧ ∀ x ∈ barePoints, x.data = none := by decide +kernel

end Timeseria
