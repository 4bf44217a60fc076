import Verif.Model.Item
import Mathlib.Data.List.Perm.Subperm

/-! # Dictionaries -/

namespace Timeseria
namespace Dict
variable {α β : Type}

@[simp] theorem get?_nil (k : String) : get? ([] : Dict α) k = none := rfl

theorem get?_cons (k k' : String) (v : α) (d : Dict α) :
    get? ((k', v) :: d) k = if k' = k then some v else get? d k := by
  unfold get?
  rw [List.lookup_cons]
  by_cases h : k' = k
  · subst h; simp
  · rw [if_neg h]
    have : (k == k') = false := by simpa using fun h' => h h'.symm
    rw [this]

theorem mem_of_get? {d : Dict α} {k : String} {v : α} (h : d.get? k = some v) :
    (k, v) ∈ d := by
  induction d with
  | nil => simp at h
  | cons q r ih =>
    obtain ⟨k', v'⟩ := q
    rw [get?_cons] at h
    split at h
    · rename_i hk; simp at h; subst h; subst hk; simp
    · exact List.mem_cons_of_mem _ (ih h)

theorem get?_of_mem {d : Dict α} (h : WF d) {k : String} {v : α} (hp : (k, v) ∈ d) :
    d.get? k = some v := by
  induction d with
  | nil => simp at hp
  | cons q r ih =>
    obtain ⟨k', v'⟩ := q
    unfold WF keys at h
    rw [List.map_cons, List.nodup_cons] at h
    rw [get?_cons]
    rcases List.mem_cons.1 hp with he | hp
    · simp at he; rw [if_pos he.1.symm, he.2]
    · have hne : k' ≠ k := by
        intro he
        refine h.1 ?_
        show k' ∈ r.map Prod.fst
        rw [he]
        exact List.mem_map.2 ⟨(k, v), hp, rfl⟩
      rw [if_neg hne]
      exact ih h.2 hp

theorem get?_eq_none {d : Dict α} {k : String} : d.get? k = none ↔ k ∉ d.keys := by
  induction d with
  | nil => simp [keys]
  | cons q r ih =>
    obtain ⟨k', v'⟩ := q
    rw [get?_cons]
    unfold keys at *
    by_cases h : k' = k
    · simp [h]
    · simp only [h, if_false, List.map_cons, List.mem_cons, not_or]
      rw [ih]
      exact ⟨fun h' => ⟨fun e => h e.symm, h'⟩, fun h' => h'.2⟩

theorem get?_isSome {d : Dict α} {k : String} : (∃ v, d.get? k = some v) ↔ k ∈ d.keys := by
  have := @get?_eq_none α d k
  cases h : d.get? k with
  | none => simp [h] at this ⊢; exact this
  | some v => simp [h] at this ⊢; exact this

theorem get?_set (d : Dict α) (k k' : String) (v : α) :
    (d.set k v).get? k' = if k = k' then some v else d.get? k' := by
  induction d with
  | nil => simp [set, get?_cons]
  | cons q r ih =>
    obtain ⟨j, w⟩ := q
    unfold set
    by_cases hj : j = k
    · subst hj
      simp only [if_true, get?_cons]
      split <;> rfl
    · simp only [hj, if_false, get?_cons, ih]
      by_cases h1 : j = k'
      · subst h1; simp [Ne.symm hj]
      · simp [h1]

theorem keys_set_of_mem {d : Dict α} {k : String} (v : α) (h : k ∈ d.keys) :
    (d.set k v).keys = d.keys := by
  induction d with
  | nil => simp [keys] at h
  | cons q r ih =>
    obtain ⟨j, w⟩ := q
    unfold set
    by_cases hj : j = k
    · subst hj; simp [keys]
    · have hr : k ∈ keys r := by
        unfold keys at h ⊢
        rcases List.mem_cons.1 h with h | h
        · exact absurd h.symm hj
        · exact h
      simp only [hj, if_false]
      have := ih hr
      unfold keys at this ⊢
      rw [List.map_cons, List.map_cons, this]

theorem keys_set_of_not_mem {d : Dict α} {k : String} (v : α) (h : k ∉ d.keys) :
    d.set k v = d ++ [(k, v)] := by
  induction d with
  | nil => rfl
  | cons q r ih =>
    obtain ⟨j, w⟩ := q
    unfold keys at h
    rw [List.map_cons, List.mem_cons, not_or] at h
    unfold set
    rw [if_neg (fun e => h.1 e.symm)]
    rw [ih h.2]; rfl

theorem mem_keys_set (d : Dict α) (k k' : String) (v : α) :
    k' ∈ (d.set k v).keys ↔ k' = k ∨ k' ∈ d.keys := by
  rw [← get?_isSome, ← get?_isSome, get?_set]
  by_cases h : k = k'
  · subst h; simp
  · simp [h, Ne.symm h]

theorem wf_set {d : Dict α} (k : String) (v : α) (h : WF d) : WF (d.set k v) := by
  unfold WF
  by_cases hk : k ∈ d.keys
  · rw [keys_set_of_mem v hk]; exact h
  · rw [keys_set_of_not_mem v hk]
    unfold keys
    rw [List.map_append]
    refine List.Nodup.append h (by simp) ?_
    intro a ha hb
    simp at hb; subst hb; exact hk ha

/-- same values under the same keys, dictionaries with unique keys: permutations of each other -/
theorem perm_of_get?_eq {a b : Dict α} (ha : WF a) (hb : WF b) (h : ∀ k, a.get? k = b.get? k) :
    a.Perm b := by
  have hna : a.Nodup := List.Nodup.of_map _ ha
  have hnb : b.Nodup := List.Nodup.of_map _ hb
  refine (List.perm_ext_iff_of_nodup hna hnb).2 ?_
  rintro ⟨k, v⟩
  constructor
  · intro hp; exact mem_of_get? (by rw [← h]; exact get?_of_mem ha hp)
  · intro hp; exact mem_of_get? (by rw [h]; exact get?_of_mem hb hp)

/-- mapping the values -/
theorem get?_map (d : Dict α) (f : String → α → β) (k : String) :
    get? (d.map (fun p => (p.1, f p.1 p.2))) k = (d.get? k).map (f k) := by
  induction d with
  | nil => rfl
  | cons q r ih =>
    obtain ⟨j, w⟩ := q
    rw [List.map_cons, get?_cons, get?_cons, ih]
    by_cases h : j = k
    · subst h; simp
    · simp [h]

theorem keys_map (d : Dict α) (f : String → α → β) :
    keys (d.map (fun p => (p.1, f p.1 p.2))) = d.keys := by
  unfold keys; rw [List.map_map]; rfl

theorem mem_keys_erase (d : Dict α) (k k' : String) :
    k' ∈ (d.erase k).keys ↔ k' ≠ k ∧ k' ∈ d.keys := by
  unfold erase keys
  simp only [List.mem_map, List.mem_filter, decide_eq_true_eq]
  constructor
  · rintro ⟨p, ⟨h1, h2⟩, rfl⟩; exact ⟨h2, p, h1, rfl⟩
  · rintro ⟨h1, p, h2, rfl⟩; exact ⟨p, ⟨h2, h1⟩, rfl⟩

theorem get?_erase (d : Dict α) (k k' : String) :
    (d.erase k).get? k' = if k' = k then none else d.get? k' := by
  induction d with
  | nil => simp [erase]
  | cons q r ih =>
    obtain ⟨j, w⟩ := q
    unfold erase at *
    rw [List.filter_cons]
    by_cases hj : j = k
    · subst hj
      simp only [ne_eq, not_true_eq_false, decide_false, Bool.false_eq_true, if_false]
      rw [ih, get?_cons]
      by_cases h : k' = j
      · simp [h]
      · simp [h, Ne.symm h]
    · simp only [ne_eq, hj, not_false_eq_true, decide_true, if_true, get?_cons]
      rw [ih]
      by_cases h : j = k'
      · subst h; simp [hj]
      · simp [h]

theorem wf_erase {d : Dict α} (k : String) (h : WF d) : WF (d.erase k) := by
  unfold WF keys erase at *
  exact h.sublist (List.Sublist.map _ List.filter_sublist)

end Dict

/-- dictionaries in the data have unique keys (true of every Python dictionary) -/
def Data.WF : Data → Prop
  | .dict d => Dict.WF d
  | _ => True

/-- dictionary equality is extensional equality -/
theorem dictEq_iff {a b : Dict ℚ} (ha : Dict.WF a) (hb : Dict.WF b) :
    dictEq a b = true ↔ ∀ k, a.get? k = b.get? k := by
  unfold dictEq
  simp only [Bool.and_eq_true, beq_iff_eq, List.all_eq_true]
  constructor
  · rintro ⟨hlen, hall⟩ k
    -- the pairs of `a` are among those of `b`, and there are equally many
    have hsub : a ⊆ b := fun p hp => Dict.mem_of_get? (hall p hp)
    have hna : a.Nodup := List.Nodup.of_map _ ha
    have hperm : a.Perm b := (List.subperm_of_subset hna hsub).perm_of_length_le (le_of_eq hlen.symm)
    cases hk : a.get? k with
    | some v => exact (hall (k, v) (Dict.mem_of_get? hk)).symm
    | none =>
      cases hk' : b.get? k with
      | none => rfl
      | some v =>
        have := Dict.get?_of_mem ha (hperm.mem_iff.2 (Dict.mem_of_get? hk'))
        rw [this] at hk; simp at hk
  · intro h
    exact ⟨(Dict.perm_of_get?_eq ha hb h).length_eq,
      fun p hp => by rw [← h]; exact Dict.get?_of_mem ha hp⟩

end Timeseria
