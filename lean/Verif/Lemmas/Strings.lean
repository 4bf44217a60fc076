import Verif.Model.Series
import Mathlib.Data.String.Basic
import Mathlib.Data.List.Sort

/-! Sorting of strings and the data index names. -/

namespace Timeseria

theorem insertStr_perm (x : String) (l : List String) : (insertStr x l).Perm (x :: l) := by
  induction l with
  | nil => exact List.Perm.refl _
  | cons y r ih =>
    unfold insertStr
    split
    · exact List.Perm.refl _
    · exact (ih.cons y).trans (List.Perm.swap x y r)

theorem sortStr_perm (l : List String) : (sortStr l).Perm l := by
  induction l with
  | nil => exact List.Perm.refl _
  | cons x r ih => exact (insertStr_perm x (sortStr r)).trans (ih.cons x)

theorem insertStr_sorted (x : String) (l : List String) (h : l.Pairwise (· ≤ ·)) :
    (insertStr x l).Pairwise (· ≤ ·) := by
  induction l with
  | nil => simp [insertStr]
  | cons y r ih =>
    rw [List.pairwise_cons] at h
    unfold insertStr
    split
    · rename_i hxy
      rw [List.pairwise_cons, List.pairwise_cons]
      refine ⟨?_, h⟩
      intro z hz
      rcases List.mem_cons.1 hz with rfl | hz
      · exact hxy
      · exact le_trans hxy (h.1 z hz)
    · rename_i hxy
      rw [List.pairwise_cons]
      refine ⟨?_, ih h.2⟩
      intro z hz
      have := (insertStr_perm x r).mem_iff.1 hz
      rcases List.mem_cons.1 this with rfl | hz
      · exact le_of_lt (not_le.1 hxy)
      · exact h.1 z hz

theorem sortStr_sorted (l : List String) : (sortStr l).Pairwise (· ≤ ·) := by
  induction l with
  | nil => exact List.Pairwise.nil
  | cons x r ih => exact insertStr_sorted x _ ih

/-- sorting depends only on the multiset -/
theorem sortStr_congr {a b : List String} (h : a.Perm b) : sortStr a = sortStr b := by
  have hp : (sortStr a).Perm (sortStr b) := (sortStr_perm a).trans (h.trans (sortStr_perm b).symm)
  exact List.Perm.eq_of_pairwise (fun x y _ _ h1 h2 => le_antisymm h1 h2)
    (sortStr_sorted a) (sortStr_sorted b) hp

/-! ### collecting the names -/

theorem addName_fold (ks acc : List String) :
    (∀ k, k ∈ ks.foldl (fun acc k => if acc.contains k then acc else acc ++ [k]) acc ↔
      k ∈ acc ∨ k ∈ ks) ∧
    (acc.Nodup → (ks.foldl (fun acc k => if acc.contains k then acc else acc ++ [k]) acc).Nodup) := by
  induction ks generalizing acc with
  | nil => simp
  | cons x r ih =>
    rw [List.foldl_cons]
    by_cases hx : acc.contains x = true
    · simp only [hx, if_true]
      obtain ⟨h1, h2⟩ := ih acc
      refine ⟨?_, h2⟩
      intro k; rw [h1 k]
      have hx' : x ∈ acc := by simpa using hx
      constructor
      · rintro (h | h)
        · left; exact h
        · right; simp [h]
      · rintro (h | h)
        · left; exact h
        · rcases List.mem_cons.1 h with rfl | h
          · left; exact hx'
          · right; exact h
    · simp only [hx]
      obtain ⟨h1, h2⟩ := ih (acc ++ [x])
      refine ⟨?_, ?_⟩
      · intro k
        simp only [Bool.false_eq_true, if_false]
        rw [h1 k]; simp; tauto
      · intro hn
        apply h2
        have hx' : x ∉ acc := by simpa using hx
        rw [List.nodup_append]
        refine ⟨hn, by simp, ?_⟩
        intro a ha b hb; simp at hb; subst hb; intro h; subst h; exact hx' ha

theorem allNames_spec (l : List Item) (acc : List String) :
    (∀ k, k ∈ l.foldl (fun acc x => x.idx.keys.foldl
        (fun acc k => if acc.contains k then acc else acc ++ [k]) acc) acc ↔
      k ∈ acc ∨ ∃ x ∈ l, k ∈ x.idx.keys) ∧
    (acc.Nodup → (l.foldl (fun acc x => x.idx.keys.foldl
        (fun acc k => if acc.contains k then acc else acc ++ [k]) acc) acc).Nodup) := by
  induction l generalizing acc with
  | nil => simp
  | cons x r ih =>
    rw [List.foldl_cons]
    obtain ⟨a1, a2⟩ := addName_fold x.idx.keys acc
    obtain ⟨h1, h2⟩ := ih (x.idx.keys.foldl
        (fun acc k => if acc.contains k then acc else acc ++ [k]) acc)
    refine ⟨?_, fun hn => h2 (a2 hn)⟩
    intro k; rw [h1 k, a1 k]
    simp only [List.mem_cons, exists_eq_or_imp]
    tauto

theorem mem_allNames (l : List Item) (k : String) :
    k ∈ allDataIndexNames l ↔ ∃ x ∈ l, k ∈ x.idx.keys := by
  have := (allNames_spec l []).1 k
  unfold allDataIndexNames; rw [this]; simp

theorem nodup_allNames (l : List Item) : (allDataIndexNames l).Nodup :=
  (allNames_spec l []).2 List.nodup_nil

end Timeseria
