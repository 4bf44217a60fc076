import Verif.Model.CvArgs
import Verif.Lemmas.Dict

/-! # The arguments of a cross validation (C222, C223) -/

namespace Timeseria

/-- `pat` occurs in the text -/
def OccursIn (pat s : String) : Prop := pat.toList <:+: s.toList

theorem removeAll_none {pat : List Char} : ∀ (n : ℕ) (l : List Char), ¬ pat <:+: l → removeAllAux pat n l = l
  | 0, _, _ => rfl
  | _ + 1, [], _ => rfl
  | n + 1, c :: l, h => by
    rw [removeAllAux]
    have h1 : ¬ (pat.isPrefixOf (c :: l) = true) := by
      intro hp
      exact h (List.isPrefixOf_iff_prefix.1 hp).isInfix
    rw [if_neg h1, removeAll_none n l (fun hi => h (hi.trans (List.suffix_cons c l).isInfix))]

theorem removeAll_shorter {pat : List Char} (hp : pat ≠ []) : ∀ (n : ℕ) (l : List Char), l.length < n → pat <:+: l →
    (removeAllAux pat n l).length < l.length
  | 0, _, h, _ => absurd h (by omega)
  | n + 1, [], _, h => absurd (List.infix_nil.1 h) hp
  | n + 1, c :: l, hlen, h => by
    have hle : ∀ (n : ℕ) (l : List Char), (removeAllAux pat n l).length ≤ l.length := by
      intro n
      induction n with
      | zero => intro l; rfl
      | succ n ih =>
        intro l
        cases l with
        | nil => exact le_rfl
        | cons c l =>
          rw [removeAllAux]
          split
          · have := ih ((c :: l).drop pat.length)
            rw [List.length_drop] at this
            omega
          · have := ih l
            simp
            omega
    rw [removeAllAux]
    by_cases h1 : pat.isPrefixOf (c :: l) = true
    · rw [if_pos h1]
      have h2 := hle n ((c :: l).drop pat.length)
      rw [List.length_drop] at h2
      have h3 : 0 < pat.length := List.length_pos_iff.2 hp
      simp at h2 ⊢
      omega
    · rw [if_neg h1]
      have h2 : pat <:+: l := by
        rcases List.infix_cons_iff.1 h with h3 | h3
        · exact absurd (List.isPrefixOf_iff_prefix.2 h3) h1
        · exact h3
      have := removeAll_shorter hp n l (by simp at hlen; omega) h2
      simp
      omega

/-- the name forwarded for a prefix followed by `r` -/
theorem pyRemove_prefix {pat r : String} (hp : pat.toList ≠ []) :
    (¬ OccursIn pat r → pyRemove pat (pat ++ r) = r) ∧ (OccursIn pat r → pyRemove pat (pat ++ r) ≠ r) := by
  have hl : (pat ++ r).toList = pat.toList ++ r.toList := String.toList_append
  have hstep : removeAllAux pat.toList ((pat ++ r).toList.length + 1) (pat ++ r).toList =
      removeAllAux pat.toList (pat ++ r).toList.length r.toList := by
    rw [hl]
    cases hpl : pat.toList with
    | nil => exact absurd hpl hp
    | cons c q =>
      rw [List.cons_append, removeAllAux, if_pos (by
        rw [← List.cons_append]
        exact List.isPrefixOf_iff_prefix.2 (List.prefix_append _ _))]
      rw [← List.cons_append, List.drop_left]
  unfold pyRemove
  rw [hstep]
  constructor
  · intro h
    rw [removeAll_none _ _ h, String.ofList_toList]
  · intro h e
    have h1 : r.toList.length < (pat ++ r).toList.length := by
      rw [hl, List.length_append]
      have := List.length_pos_iff.2 hp
      omega
    have h2 := removeAll_shorter hp _ _ h1 h
    have h3 := congrArg (fun s : String => s.toList.length) e
    simp only [String.toList_ofList] at h3
    omega

theorem takeArgs_get {α : Type} {pre : String} : ∀ (kw acc : Dict α) (name : String) (v : α),
    (takeArgs pre acc kw).get? name = some v →
    acc.get? name = some v ∨ ∃ k, (k, v) ∈ kw ∧ startsWith k pre = true ∧ pyRemove pre k = name
  | [], acc, name, v, h => .inl h
  | (k, w) :: l, acc, name, v, h => by
    rw [takeArgs] at h
    rcases takeArgs_get l _ name v h with h1 | ⟨k', h1, h2, h3⟩
    · split at h1
      · rename_i hs
        rw [Dict.get?_set] at h1
        split at h1
        · rename_i e
          cases h1
          exact .inr ⟨k, by simp, hs, e⟩
        · exact .inl h1
      · exact .inl h1
    · exact .inr ⟨k', by simp [h1], h2, h3⟩

theorem takeArgs_mem {α : Type} {pre : String} : ∀ (kw acc : Dict α) (k : String) (v : α), (k, v) ∈ kw → startsWith k pre = true →
    (∀ k' v', (k', v') ∈ kw → startsWith k' pre = true → pyRemove pre k' = pyRemove pre k → v' = v) →
    (takeArgs pre acc kw).get? (pyRemove pre k) = some v
  | [], acc, k, v, h, _, _ => by simp at h
  | (k0, w) :: l, acc, k, v, h, hs, hu => by
    rw [takeArgs]
    by_cases hl : ∃ k' v', (k', v') ∈ l ∧ startsWith k' pre = true ∧ pyRemove pre k' = pyRemove pre k
    · obtain ⟨k', v', h1, h2, h3⟩ := hl
      have hv := hu k' v' (by simp [h1]) h2 h3
      subst hv
      rw [← h3]
      exact takeArgs_mem l _ k' v' h1 h2 (fun k2 v2 a b c => hu k2 v2 (by simp [a]) b (c.trans h3))
    · have keep : ∀ (l : Dict α) (acc : Dict α), (∀ k' v', (k', v') ∈ l → startsWith k' pre = true → pyRemove pre k' ≠ pyRemove pre k) →
          (takeArgs pre acc l).get? (pyRemove pre k) = acc.get? (pyRemove pre k) := by
        intro l
        induction l with
        | nil => intro acc _; rfl
        | cons q l ih =>
          intro acc hq
          obtain ⟨k', v'⟩ := q
          rw [takeArgs, ih _ (fun a b c d => hq a b (by simp [c]) d)]
          split
          · rename_i hs'
            rw [Dict.get?_set, if_neg (hq k' v' (by simp) hs')]
          · rfl
      rw [keep l _ (fun k' v' a b c => hl ⟨k', v', a, b, c⟩)]
      rcases List.mem_cons.1 h with h1 | h1
      · cases h1
        rw [if_pos hs, Dict.get?_set, if_pos rfl]
      · exact absurd ⟨k, v, h1, hs, rfl⟩ hl

theorem startsWith_iff {s pre : String} : startsWith s pre = true ↔ ∃ r, s = pre ++ r := by
  unfold startsWith
  rw [List.isPrefixOf_iff_prefix]
  constructor
  · rintro ⟨t, ht⟩
    refine ⟨String.ofList t, String.toList_injective ?_⟩
    rw [String.toList_append, String.toList_ofList, ht]
  · rintro ⟨r, rfl⟩
    rw [String.toList_append]
    exact List.prefix_append _ _

/-- **C222** The arguments are accepted exactly when each of them begins with `fit_` or with `evaluate_`; otherwise `Exception`. -/
theorem C222_accepted {α : Type} (kw : Dict α) :
    ((∃ r, splitArgs kw = .ok r) ↔ ∀ k v, (k, v) ∈ kw → (∃ r, k = "fit_" ++ r) ∨ (∃ r, k = "evaluate_" ++ r)) ∧
    ((∃ k v, (k, v) ∈ kw ∧ (∀ r, k ≠ "fit_" ++ r) ∧ (∀ r, k ≠ "evaluate_" ++ r)) → splitArgs kw = .error .exception) := by
  have key : kw.all (fun q => startsWith q.1 "fit_" || startsWith q.1 "evaluate_") = true ↔
      ∀ k v, (k, v) ∈ kw → (∃ r, k = "fit_" ++ r) ∨ (∃ r, k = "evaluate_" ++ r) := by
    rw [List.all_eq_true]
    constructor
    · intro h k v hk
      have := h (k, v) hk
      rw [Bool.or_eq_true, startsWith_iff, startsWith_iff] at this
      exact this
    · rintro h ⟨k, v⟩ hk
      rw [Bool.or_eq_true, startsWith_iff, startsWith_iff]
      exact h k v hk
  constructor
  · rw [← key]
    constructor
    · rintro ⟨r, hr⟩
      unfold splitArgs at hr
      by_contra hc
      rw [if_neg hc] at hr
      cases hr
    · intro h
      exact ⟨_, by unfold splitArgs; rw [if_pos h]⟩
  · rintro ⟨k, v, hk, h1, h2⟩
    unfold splitArgs
    rw [if_neg]
    intro h
    rcases key.1 h k v hk with ⟨r, hr⟩ | ⟨r, hr⟩
    · exact h1 r hr
    · exact h2 r hr

/-- `x` is the dictionary of the arguments of `kw` with the prefix, without it -/
def Forwarded {α : Type} (pre : String) (kw x : Dict α) : Prop :=
  ∀ name v, x.get? name = some v ↔ (pre ++ name, v) ∈ kw

/-- distinct names -/
theorem entry_unique {α : Type} {kw : Dict α} (h : kw.keys.Nodup) {k : String} {v v' : α} (h1 : (k, v) ∈ kw) (h2 : (k, v') ∈ kw) : v = v' := by
  induction kw with
  | nil => simp at h1
  | cons q l ih =>
    have hn : q.1 ∉ l.map Prod.fst ∧ (l.map Prod.fst).Nodup := List.nodup_cons.1 h
    rcases List.mem_cons.1 h1 with e1 | h1 <;> rcases List.mem_cons.1 h2 with e2 | h2
    · rw [← e1] at e2; cases e2; rfl
    · exact absurd (List.mem_map.2 ⟨(k, v'), h2, by rw [← e1]⟩) hn.1
    · exact absurd (List.mem_map.2 ⟨(k, v), h1, by rw [← e2]⟩) hn.1
    · exact ih hn.2 h1 h2

theorem forwarded_of {α : Type} {pre : String} (hp : pre.toList ≠ []) {kw : Dict α} (hw : kw.keys.Nodup)
    (h : ∀ r v, (pre ++ r, v) ∈ kw → ¬ OccursIn pre r) : Forwarded pre kw (takeArgs pre [] kw) := by
  intro name v
  constructor
  · intro hg
    rcases takeArgs_get kw [] name v hg with h1 | ⟨k, h1, h2, h3⟩
    · cases h1
    · obtain ⟨r, rfl⟩ := startsWith_iff.1 h2
      rw [(pyRemove_prefix hp).1 (h r v h1)] at h3
      rw [← h3]; exact h1
  · intro hm
    have hr := (pyRemove_prefix hp).1 (h name v hm)
    have := takeArgs_mem (pre := pre) kw [] (pre ++ name) v hm (startsWith_iff.2 ⟨name, rfl⟩) (by
      intro k' v' a b c
      obtain ⟨r, rfl⟩ := startsWith_iff.1 b
      rw [(pyRemove_prefix hp).1 (h r v' a), hr] at c
      subst c
      exact entry_unique hw a hm)
    rw [hr] at this
    exact this

/-- **C223**, partial: if the prefix does not occur again in the names, every argument is forwarded to `fit` or to `evaluate` under its
name without the prefix, and nothing else is. -/
theorem C223_forwarded_partial {α : Type} {kw f e : Dict α} (hw : kw.keys.Nodup)
    (h1 : ∀ r v, ("fit_" ++ r, v) ∈ kw → ¬ OccursIn "fit_" r) (h2 : ∀ r v, ("evaluate_" ++ r, v) ∈ kw → ¬ OccursIn "evaluate_" r)
    (h : splitArgs kw = .ok (f, e)) : Forwarded "fit_" kw f ∧ Forwarded "evaluate_" kw e := by
  unfold splitArgs at h
  split at h
  · cases h
    exact ⟨forwarded_of (by decide) hw h1, forwarded_of (by decide) hw h2⟩
  · cases h

/-- **C223** is false whenever the prefix occurs again: no argument with such a name is forwarded under the name without the prefix,
because all the occurrences are removed. -/
theorem C223_false {pre r : String} (h : pre = "fit_" ∨ pre = "evaluate_") (ho : OccursIn pre r) : pyRemove pre (pre ++ r) ≠ r := by
  rcases h with rfl | rfl <;> exact (pyRemove_prefix (by decide)).2 ho

/-- for example `fit_refit_every` becomes `reevery`, and two arguments become one -/
theorem C223_witness_false : splitArgs [("fit_refit_every", (2 : ℚ)), ("evaluate_steps", 1)] = .ok ([("reevery", 2)], [("steps", 1)]) ∧
    splitArgs [("fit_epochs", (2 : ℚ)), ("fit_fit_epochs", 3)] = .ok ([("epochs", 3)], []) := by
  decide +kernel

/-- names for which the partial theorem holds -/
example : splitArgs [("fit_epochs", (2 : ℚ)), ("evaluate_steps", 1)] = .ok ([("epochs", 2)], [("steps", 1)]) ∧
    ¬ OccursIn "fit_" "epochs" ∧ ¬ OccursIn "evaluate_" "steps" ∧ OccursIn "fit_" "refit_every" := by
  refine ⟨by decide +kernel, ?_, ?_, ?_⟩ <;> · unfold OccursIn; decide +kernel

end Timeseria
