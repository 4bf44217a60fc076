import Verif.Props.Csv

/-! # C55, C99, C100: slots missing in a CSV file

The rows of a file are described by the first timestamp and, for each following row, by how many slots are missing
before it and by its values. -/

namespace Timeseria

/-- a row after the first one: how many slots are missing before it, and its values -/
structure GapRow where
  missing : ℕ
  value : String → ℚ

/-- the row of a file at `t`, for the labels `ks` and no data indexes -/
def plainRow (ks : List String) (t : ℚ) (v : String → ℚ) : Row :=
  { t := t, data := .dict (ks.map (fun k => (k, some (v k)))) }

/-- the rows following one at `t`; `step` moves by one slot -/
def rowsAfter (step : ℚ → ℚ) (ks : List String) : ℚ → List GapRow → List Row
  | _, [] => []
  | t, g :: r => plainRow ks (step^[g.missing + 1] t) g.value :: rowsAfter step ks (step^[g.missing + 1] t) r

/-- the slot starting at `t` -/
def plainSlot (cal : Calendar) (tz : String) (u : TUnit) (ks : List String) (t : ℚ) (v : String → ℚ) (idx : Idx) : Item :=
  { t := t, slot := some (cal.shift u tz t, u), tz := tz, data := some (.dict (ks.map (fun k => (k, v k)))), idx := idx }

/-- the value on the line between `a` and `b`, at the `j`-th of `n + 1` equal parts -/
def onLine (a b : ℚ) (n j : ℕ) : ℚ := a + (b - a) * (j / (n + 1))

/-- the slots expected after one at `t` with values `v`: those missing, with data loss one and values on the line, then
the one of the row -/
def slotsAfter (cal : Calendar) (tz : String) (u : TUnit) (ks : List String) : ℚ → (String → ℚ) → List GapRow → List Item
  | _, _, [] => []
  | t, v, g :: r =>
    (List.range g.missing).map (fun j => plainSlot cal tz u ks ((cal.shift u tz)^[j + 1] t)
        (fun k => onLine (v k) (g.value k) g.missing (j + 1)) [("data_loss", some 1)]) ++
      plainSlot cal tz u ks ((cal.shift u tz)^[g.missing + 1] t) g.value (if g.missing = 0 then [] else [("data_loss", none)]) ::
      slotsAfter cal tz u ks ((cal.shift u tz)^[g.missing + 1] t) g.value r

/-- the gaps are larger than the tolerance with which slots are said to be in succession -/
def Noticeable (step : ℚ → ℚ) : ℚ → List GapRow → Prop
  | _, [] => True
  | t, g :: r => (g.missing ≠ 0 → ¬ CloseTo (step t) (step^[g.missing + 1] t)) ∧ Noticeable step (step^[g.missing + 1] t) r

/-! ## Lemmas -/

/-- slots one after the other from `t` to `e` -/
def Tiled (step : ℚ → ℚ) : ℚ → List Item → ℚ → Prop
  | t, [], e => t = e
  | t, x :: r, e => x.t = t ∧ x.endT = step t ∧ Tiled step (step t) r e

theorem Tiled.append {step : ℚ → ℚ} : ∀ {a : List Item} {t m e : ℚ} {b : List Item}, Tiled step t a m → Tiled step m b e →
    Tiled step t (a ++ b) e
  | [], _, _, _, _, h, hb => by cases h; exact hb
  | _ :: _, _, _, _, _, h, hb => ⟨h.1, h.2.1, Tiled.append h.2.2 hb⟩

theorem Tiled.chain {step : ℚ → ℚ} : ∀ {a : List Item} {t e : ℚ}, Tiled step t a e → InSuccession a
  | [], _, _, _ => List.IsChain.nil
  | [x], _, _, _ => List.IsChain.singleton x
  | x :: y :: r, t, e, h => by
    refine List.IsChain.cons_cons ?_ (Tiled.chain (a := y :: r) h.2.2)
    rw [h.2.1, h.2.2.1]; exact closeTo_self _

theorem tiled_fillers (cal : Calendar) (tz : String) (u : TUnit) (ks : List String) (v : ℕ → String → ℚ) (idx : Idx) :
    ∀ (n : ℕ) (t : ℚ), Tiled (cal.shift u tz) t
      ((List.range n).map (fun j => plainSlot cal tz u ks ((cal.shift u tz)^[j] t) (v j) idx)) ((cal.shift u tz)^[n] t) := by
  intro n
  induction n with
  | zero => intro t; exact rfl
  | succ n ih =>
    intro t
    rw [List.range_succ, List.map_append]
    refine (ih t).append ?_
    refine ⟨rfl, rfl, ?_⟩
    simp only [Function.iterate_succ', Function.comp, List.map_nil]
    exact rfl

theorem tiled_slotsAfter (cal : Calendar) (tz : String) (u : TUnit) (ks : List String) : ∀ (gs : List GapRow) (t : ℚ) (v : String → ℚ),
    ∃ e, Tiled (cal.shift u tz) (cal.shift u tz t) (slotsAfter cal tz u ks t v gs) e
  | [], t, v => ⟨_, rfl⟩
  | g :: r, t, v => by
    obtain ⟨e, he⟩ := tiled_slotsAfter cal tz u ks r ((cal.shift u tz)^[g.missing + 1] t) g.value
    refine ⟨e, ?_⟩
    unfold slotsAfter
    have := tiled_fillers cal tz u ks (fun j k => onLine (v k) (g.value k) g.missing (j + 1)) [("data_loss", some 1)] g.missing (cal.shift u tz t)
    refine this.append ?_
    refine ⟨rfl, ?_, ?_⟩
    · show cal.shift u tz _ = cal.shift u tz _
      rw [Function.iterate_succ_apply]
    · rw [← Function.iterate_succ_apply] ; exact he

/-- each expected slot is a plain one -/
theorem slotsAfter_plain (cal : Calendar) (tz : String) (u : TUnit) (ks : List String) : ∀ (gs : List GapRow) (t : ℚ) (v : String → ℚ),
    ∀ x ∈ slotsAfter cal tz u ks t v gs, ∃ t' v' idx, x = plainSlot cal tz u ks t' v' idx
  | [], _, _, x, hx => by simp [slotsAfter] at hx
  | g :: r, t, v, x, hx => by
    unfold slotsAfter at hx
    simp only [List.mem_append, List.mem_map, List.mem_cons] at hx
    rcases hx with ⟨j, _, rfl⟩ | rfl | hx
    · exact ⟨_, _, _, rfl⟩
    · exact ⟨_, _, _, rfl⟩
    · exact slotsAfter_plain cal tz u ks r _ _ x hx

theorem goodSlots_plain (cal : Calendar) (tz : String) (u : TUnit) (ks : List String) (hks : ks ≠ []) (l : List Item)
    (hp : ∀ x ∈ l, ∃ t' v' idx, x = plainSlot cal tz u ks t' v' idx) (hc : InSuccession l) : GoodSlots l := by
  refine ⟨?_, hc, ?_, ?_, ?_, ?_⟩
  · intro x hx; obtain ⟨t', v', idx, rfl⟩ := hp x hx; rfl
  · intro x hx y hy
    obtain ⟨t', v', idx, rfl⟩ := hp x hx; obtain ⟨t'', v'', idx', rfl⟩ := hp y hy; rfl
  · intro x hx y hy
    obtain ⟨t', v', idx, rfl⟩ := hp x hx; obtain ⟨t'', v'', idx', rfl⟩ := hp y hy; rfl
  · intro x hx; obtain ⟨t', v', idx, rfl⟩ := hp x hx
    refine ⟨_, rfl, ?_⟩
    cases ks with
    | nil => exact absurd rfl hks
    | cons k r => rfl
  · intro x hx y hy d e hd he
    obtain ⟨t', v', idx, rfl⟩ := hp x hx; obtain ⟨t'', v'', idx', rfl⟩ := hp y hy
    simp only [plainSlot, Option.some.injEq] at hd he
    subst hd; subst he
    intro k
    simp [Dict.keys, List.map_map, Function.comp_def]

/-- appending one more good slot -/
theorem append_good {l : List Item} {s : TSeries} {x : Item} (hb : TSeries.build l = .ok s) (hg : GoodSlots (l ++ [x])) :
    ∃ s', s.append x = (s', .ok ()) ∧ TSeries.build (l ++ [x]) = .ok s' := by
  have hi := build_items hb
  have hdi := build_dataInv (fun y hy => hg.has y (by simp [hy])) hb
  have hsi := build_slotInv (fun y hy => hg.slots y (by simp [hy])) hb
  obtain ⟨s', hs⟩ := accept_slot (s := s) (x := x) hsi hdi
    (fun he => by
      have hl : l = [] := by rw [← hi]; exact he
      rw [hl] at hb
      have : TSeries.build [] = .ok TSeries.empty := rfl
      rw [this] at hb; simp at hb; exact hb.symm) (by rw [hi]; exact hg)
  exact ⟨s', hs, build_snoc_of hb hs⟩

/-- a slot which does not follow the last one is refused, and nothing changes -/
theorem append_gap {l : List Item} {s : TSeries} {x y : Item} (hb : TSeries.build l = .ok s) (hg : GoodSlots l)
    (hy : l.getLast? = some y) (hx : x.isSlot = true) (hd : x.data.isSome = true) (hu : x.unit = y.unit) (hz : x.tz = y.tz)
    (hn : ¬ CloseTo y.endT x.t) : s.append x = (s, .error .valueError) := by
  have hi := build_items hb
  have hsi := build_slotInv hg.slots hb
  have hyl : y ∈ l := List.mem_of_getLast? hy
  have hne : s.items ≠ [] := by rw [hi]; exact List.ne_nil_of_mem hyl
  obtain ⟨u, z, hu', hz', hall⟩ := hsi.noUnit hne
  obtain ⟨h1, h2⟩ := hall y (by rw [hi]; exact hyl)
  have hpre : s.pre x = (s, .ok ()) := by
    simp only [TSeries.pre, hx, if_true]
    unfold TSeries.preSlot
    have : s.getTz = some z := by unfold TSeries.getTz; rw [hz']
    simp only [this, hz', hu']
    rw [if_neg (by simp [hz, h2]), if_neg (by simp [hu, h1])]
  rw [append_eq, hpre]
  simp only
  unfold TSeries.baseAppend
  rw [hi]
  cases hl : l with
  | nil => rw [hl] at hyl; simp at hyl
  | cons f r =>
    rw [hl] at hy
    have hf : f.isSlot = true := hg.slots f (by rw [hl]; simp)
    have hsu : slotSucceeds x y = false := by
      cases h : slotSucceeds x y with
      | false => rfl
      | true => exact absurd ((slotSucceeds_iff x y).1 h) hn
    simp only [List.head?_cons, hy, isInstance_of_slot hx hf hd, Bool.not_true, Bool.false_eq_true, if_false, hx, if_true, hsu,
      Bool.not_false]

theorem missingSlots_eq (cal : Calendar) (tz : String) (u : TUnit) (hstep : ∀ t, t < cal.shift u tz t) :
    ∀ (n fuel : ℕ) (t : ℚ), n < fuel →
    missingSlots cal tz u ((cal.shift u tz)^[n + 1] t) fuel t = some ((List.range n).map (fun j => (cal.shift u tz)^[j + 1] t)) := by
  intro n
  induction n with
  | zero =>
    intro fuel t hf
    obtain ⟨f, rfl⟩ := Nat.exists_eq_succ_of_ne_zero (by omega : fuel ≠ 0)
    simp [missingSlots]
  | succ n ih =>
    intro fuel t hf
    obtain ⟨f, rfl⟩ := Nat.exists_eq_succ_of_ne_zero (by omega : fuel ≠ 0)
    have hlt : cal.shift u tz t < (cal.shift u tz)^[n + 1 + 1] t := by
      have : ∀ (m : ℕ) (s : ℚ), s < (cal.shift u tz)^[m + 1] s := by
        intro m
        induction m with
        | zero => intro s; exact hstep s
        | succ m ihm =>
          intro s
          rw [Function.iterate_succ_apply']
          exact lt_trans (ihm s) (hstep _)
      rw [Function.iterate_succ_apply]
      exact this n _
    simp only [missingSlots]
    rw [if_neg (not_le.2 hlt), Function.iterate_succ_apply, ih f _ (by omega)]
    simp only [Option.map_some, Option.some.injEq]
    rw [List.range_succ_eq_map, List.map_cons, List.map_map]
    rfl

theorem rowValues_plain (ks : List String) (v : String → ℚ) (hk : ∀ k ∈ ks, isIndexLabel (some k) = false) :
    rowValues (ks.map (fun k => (k, some (v k)))) = ks.map (fun k => (k, v k)) := by
  induction ks with
  | nil => rfl
  | cons k r ih =>
    have h1 := hk k (by simp)
    have h2 := ih (fun k hk' => hk k (by simp [hk']))
    simp only [rowValues, List.map_cons, List.filterMap_cons, h1, Bool.false_eq_true, if_false, Option.map_some] at h2 ⊢
    rw [h2]

theorem rowIndexes_plain (ks : List String) (v : String → ℚ) (hk : ∀ k ∈ ks, isIndexLabel (some k) = false) :
    rowIndexes (ks.map (fun k => (k, some (v k)))) = [] := by
  induction ks with
  | nil => rfl
  | cons k r ih =>
    have h1 := hk k (by simp)
    have h2 := ih (fun k hk' => hk k (by simp [hk']))
    simp only [rowIndexes, List.map_cons, List.filterMap_cons, h1, Bool.false_eq_true, if_false] at h2 ⊢
    exact h2

theorem plainRow_split (ks : List String) (t : ℚ) (v : String → ℚ) (hk : ∀ k ∈ ks, isIndexLabel (some k) = false) :
    (plainRow ks t v).data.split = (.dict (ks.map (fun k => (k, v k))), []) := by
  simp only [plainRow, RowData.split, rowValues_plain ks v hk, rowIndexes_plain ks v hk]

theorem missingData_plain (ks : List String) (a b : String → ℚ) (n j : ℕ) :
    missingData ks (ks.map (fun k => (k, a k))) (ks.map (fun k => (k, b k))) n j =
      .ok (ks.map (fun k => (k, onLine (a k) (b k) n (j + 1)))) := by
  unfold missingData
  have : ∀ (qs : List String), (∀ k ∈ qs, k ∈ ks) → mapE (fun k =>
      match Dict.get? (ks.map (fun k => (k, a k))) k, Dict.get? (ks.map (fun k => (k, b k))) k with
      | some x, some y => .ok (k, missingValue x y n j)
      | _, _ => .error PyErr.keyError) qs = .ok (qs.map (fun k => (k, onLine (a k) (b k) n (j + 1)))) := by
    intro qs hq
    refine mapE_ok (g := fun k => (k, onLine (a k) (b k) n (j + 1))) ?_
    intro k hk
    rw [get?_map_names, get?_map_names, if_pos (hq k hk), if_pos (hq k hk)]
    simp only [missingValue, onLine, Except.ok.injEq, Prod.mk.injEq, true_and]
    push_cast
    ring
  exact this ks (fun _ h => h)

theorem appendMissing_ok (cal : Calendar) (tz : String) (u : TUnit) (ks : List String) (a b : String → ℚ) (n : ℕ) (t : ℚ) :
    ∀ (m j : ℕ) (l : List Item) (s : TSeries), TSeries.build l = .ok s →
    GoodSlots (l ++ (List.range m).map (fun i => plainSlot cal tz u ks ((cal.shift u tz)^[j + i + 1] t)
        (fun k => onLine (a k) (b k) n (j + i + 1)) [("data_loss", some 1)])) →
    ∃ s', appendMissing cal tz u ks (ks.map (fun k => (k, a k))) (ks.map (fun k => (k, b k))) n j
        ((List.range m).map (fun i => (cal.shift u tz)^[j + i + 1] t)) s = .ok s' ∧
      TSeries.build (l ++ (List.range m).map (fun i => plainSlot cal tz u ks ((cal.shift u tz)^[j + i + 1] t)
        (fun k => onLine (a k) (b k) n (j + i + 1)) [("data_loss", some 1)])) = .ok s' := by
  intro m
  induction m with
  | zero => intro j l s hb _; exact ⟨s, rfl, by simpa using hb⟩
  | succ m ih =>
    intro j l s hb hg
    have hshift : ∀ {α : Type} (f : ℕ → α), (List.range (m + 1)).map (fun i => f (j + i + 1)) =
        f (j + 1) :: (List.range m).map (fun i => f (j + 1 + i + 1)) := by
      intro α f
      rw [List.range_succ_eq_map, List.map_cons, List.map_map]
      congr 1
      apply List.map_congr_left
      intro i _
      show f (j + (i + 1) + 1) = _
      congr 1; omega
    have h1 := hshift (fun q => plainSlot cal tz u ks ((cal.shift u tz)^[q] t) (fun k => onLine (a k) (b k) n q) [("data_loss", some 1)])
    have h2 := hshift (fun q => (cal.shift u tz)^[q] t)
    rw [h1] at hg ⊢
    rw [h2]
    obtain ⟨s₁, hs₁, hb₁⟩ := append_good hb (hg.infix ⟨[], _, by rw [List.nil_append, List.append_assoc]; rfl⟩)
    obtain ⟨s', hs', hb'⟩ := ih (j + 1) _ s₁ hb₁ (by rw [List.append_assoc]; exact hg)
    refine ⟨s', ?_, by rw [List.append_assoc] at hb'; exact hb'⟩
    simp only [appendMissing, missingData_plain]
    have : appendE s (rowSlot cal tz u ((cal.shift u tz)^[j + 1] t) (.dict (ks.map (fun k => (k, onLine (a k) (b k) n (j + 1)))))
        [("data_loss", some 1)]) = .ok s₁ := by
      unfold appendE
      have e : rowSlot cal tz u ((cal.shift u tz)^[j + 1] t) (.dict (ks.map (fun k => (k, onLine (a k) (b k) n (j + 1)))))
        [("data_loss", some 1)] = plainSlot cal tz u ks ((cal.shift u tz)^[j + 1] t) (fun k => onLine (a k) (b k) n (j + 1)) [("data_loss", some 1)] := rfl
      rw [e, hs₁]
    rw [this]
    exact hs'

theorem lastLabels_plain (rows : List Row) (ks : List String) (hk : ∀ k ∈ ks, isIndexLabel (some k) = false)
    (h : ∃ t v, rows.getLast? = some (plainRow ks t v)) (i : ℕ) : lastLabels rows i = .ok ks := by
  obtain ⟨t, v, h⟩ := h
  unfold lastLabels
  rw [h]
  simp only [plainRow, rowValues_plain ks v hk]
  split <;> simp [Dict.keys, List.map_map, Function.comp_def]

theorem slotRows_filled (cal : Calendar) (tz : String) (u : TUnit) (fuel : ℕ) (ks : List String) (hks : ks ≠ [])
    (hk : ∀ k ∈ ks, isIndexLabel (some k) = false) (hstep : ∀ t, t < cal.shift u tz t) (all : List Row)
    (hlast : ∃ t v, all.getLast? = some (plainRow ks t v)) : ∀ (gs : List GapRow) (i : ℕ) (t : ℚ) (v : String → ℚ) (l : List Item) (s : TSeries),
    (∀ g ∈ gs, g.missing < fuel) → Noticeable (cal.shift u tz) t gs →
    all.drop i = plainRow ks t v :: rowsAfter (cal.shift u tz) ks t gs →
    TSeries.build l = .ok s → (∃ idx, l.getLast? = some (plainSlot cal tz u ks t v idx)) →
    GoodSlots (l ++ slotsAfter cal tz u ks t v gs) →
    ∃ s', slotRows cal tz u fuel all (i + 1) (rowsAfter (cal.shift u tz) ks t gs) s = .ok s' ∧
      TSeries.build (l ++ slotsAfter cal tz u ks t v gs) = .ok s'
  | [], i, t, v, l, s, _, _, _, hb, _, _ => ⟨s, rfl, by simpa [slotsAfter] using hb⟩
  | g :: r, i, t, v, l, s, hf, hn, hall, hb, ⟨ix, hl⟩, hg => by
    have hsplit := plainRow_split ks ((cal.shift u tz)^[g.missing + 1] t) g.value hk
    have hprev : all[i]? = some (plainRow ks t v) := by
      rw [← List.head?_drop, hall]; rfl
    have hall' : all.drop (i + 1) = plainRow ks ((cal.shift u tz)^[g.missing + 1] t) g.value ::
        rowsAfter (cal.shift u tz) ks ((cal.shift u tz)^[g.missing + 1] t) r := by
      rw [← List.tail_drop, hall]; rfl
    have ih := slotRows_filled cal tz u fuel ks hks hk hstep all hlast r (i + 1) ((cal.shift u tz)^[g.missing + 1] t) g.value
    unfold slotsAfter at hg ⊢
    simp only [rowsAfter, slotRows]
    rw [hsplit]
    simp only
    by_cases hm : g.missing = 0
    · rw [hm] at hg ⊢
      simp only [List.range_zero, List.map_nil, List.nil_append, if_true] at hg ⊢
      rw [hm] at ih hall'
      obtain ⟨s₁, hs₁, hb₁⟩ := append_good hb (hg.infix ⟨[], _, by rw [List.nil_append, List.append_assoc]; rfl⟩)
      have e : rowSlot cal tz u (plainRow ks ((cal.shift u tz)^[0 + 1] t) g.value).t (.dict (ks.map (fun k => (k, g.value k)))) [] =
        plainSlot cal tz u ks ((cal.shift u tz)^[0 + 1] t) g.value [] := rfl
      rw [e, hs₁]
      simp only
      obtain ⟨s', hs', hb'⟩ := ih (l ++ [plainSlot cal tz u ks ((cal.shift u tz)^[0 + 1] t) g.value []]) s₁
        (fun g' hg' => hf g' (by simp [hg'])) (by have := hn.2; rwa [hm] at this) hall' hb₁ ⟨[], by simp⟩ (by rw [List.append_assoc]; exact hg)
      exact ⟨s', hs', by rw [List.append_assoc] at hb'; exact hb'⟩
    · have e : rowSlot cal tz u (plainRow ks ((cal.shift u tz)^[g.missing + 1] t) g.value).t (.dict (ks.map (fun k => (k, g.value k)))) [] =
        plainSlot cal tz u ks ((cal.shift u tz)^[g.missing + 1] t) g.value [] := rfl
      have hgap : s.append (plainSlot cal tz u ks ((cal.shift u tz)^[g.missing + 1] t) g.value []) = (s, .error .valueError) :=
        append_gap hb (hg.infix (List.prefix_append l _).isInfix) hl rfl rfl rfl rfl (hn.1 hm)
      rw [e, hgap]
      simp only [Nat.add_eq_zero_iff, one_ne_zero, and_false, if_false, Nat.add_sub_cancel, hprev]
      rw [if_neg hm] at hg ⊢
      obtain ⟨s₁, hs₁, hb₁⟩ := appendMissing_ok cal tz u ks v g.value g.missing t g.missing 0 l s hb
        (by simp only [Nat.zero_add]; exact hg.infix ⟨[], _, by rw [List.nil_append, List.append_assoc]⟩)
      simp only [Nat.zero_add] at hs₁ hb₁
      obtain ⟨s₂, hs₂, hb₂⟩ := append_good (x := plainSlot cal tz u ks ((cal.shift u tz)^[g.missing + 1] t) g.value [("data_loss", none)]) hb₁
        (hg.infix ⟨[], slotsAfter cal tz u ks ((cal.shift u tz)^[g.missing + 1] t) g.value r, by simp⟩)
      obtain ⟨s', hs', hb'⟩ := ih _ s₂
        (fun g' hg' => hf g' (by simp [hg'])) hn.2 hall' hb₂ ⟨[("data_loss", none)], by simp⟩ (by simpa using hg)
      refine ⟨s', ?_, by simpa using hb'⟩
      have hfill : fillGap cal tz u fuel all (i + 1) (plainRow ks t v) (plainRow ks ((cal.shift u tz)^[g.missing + 1] t) g.value) s = .ok s₂ := by
        unfold fillGap
        have hms := missingSlots_eq cal tz u hstep g.missing fuel t (hf g (by simp))
        have ht1 : (plainRow ks ((cal.shift u tz)^[g.missing + 1] t) g.value).t = (cal.shift u tz)^[g.missing + 1] t := rfl
        have ht2 : (plainRow ks t v).t = t := rfl
        rw [ht1, ht2, hms, hsplit, plainRow_split ks t v hk]
        simp only
        rw [if_neg (by simpa using hm), lastLabels_plain all ks hk hlast]
        simp only [List.length_map, List.length_range]
        rw [hs₁]
        simp only
        have e2 : rowSlot cal tz u ((cal.shift u tz)^[g.missing + 1] t) (.dict (ks.map (fun k => (k, g.value k)))) [("data_loss", none)] =
          plainSlot cal tz u ks ((cal.shift u tz)^[g.missing + 1] t) g.value [("data_loss", none)] := rfl
        rw [e2]
        unfold appendE
        rw [hs₂]
      rw [hfill]
      exact hs'

theorem rowsAfter_last (step : ℚ → ℚ) (ks : List String) : ∀ (gs : List GapRow) (t : ℚ) (v : String → ℚ),
    ∃ t' v', (plainRow ks t v :: rowsAfter step ks t gs).getLast? = some (plainRow ks t' v')
  | [], t, v => ⟨t, v, rfl⟩
  | g :: r, t, v => by
    obtain ⟨t', v', h⟩ := rowsAfter_last step ks r (step^[g.missing + 1] t) g.value
    exact ⟨t', v', by simpa [rowsAfter] using h⟩

/-! ## C55 -/

/-- **C55**: the slots read from a file with gaps, with no columns of data indexes.  The labels are those of the file, at least one;
the unit moves time forward; each gap is larger than the tolerance used for slots in succession, and smaller than the
bound on the loop. -/
theorem C55_missing_slots_are_filled (cd : Codec) (cal : Calendar) (detect : List ℚ → Except PyErr ℚ) (fuel : ℕ) (cf : CsvConf)
    (st st' : CsvState) (a : GetArgs) (lines : List Text) (u : TUnit) (ks : List String) (hks : ks ≠ [])
    (hk : ∀ k ∈ ks, isIndexLabel (some k) = false) (t : ℚ) (v : String → ℚ) (gs : List GapRow)
    (hforce : ¬ (a.forcePoints = true ∧ a.forceSlots = true))
    (hrows : readRows cd cf st a.filter a.limit lines = .ok (plainRow ks t v :: rowsAfter (cal.shift u cf.tz) ks t gs, st'))
    (hkind : decideKind (wantedKind cf a) a.forceUnit (detect (sampleStamps
      ((plainRow ks t v :: rowsAfter (cal.shift u cf.tz) ks t gs).map Row.t) TSeries.empty)) = .ok (some u))
    (hstep : ∀ t, t < cal.shift u cf.tz t) (hgaps : Noticeable (cal.shift u cf.tz) t gs)
    (hfuel : ∀ g ∈ gs, g.missing < fuel) :
    ∃ s, csvGet cd cal detect fuel cf st a lines = .ok (s, st') ∧
      s.items = plainSlot cal cf.tz u ks t v [] :: slotsAfter cal cf.tz u ks t v gs := by
  have hg : GoodSlots (plainSlot cal cf.tz u ks t v [] :: slotsAfter cal cf.tz u ks t v gs) := by
    refine goodSlots_plain cal cf.tz u ks hks _ ?_ ?_
    · intro x hx
      rcases List.mem_cons.1 hx with rfl | hx
      · exact ⟨_, _, _, rfl⟩
      · exact slotsAfter_plain cal cf.tz u ks gs t v x hx
    · obtain ⟨e, he⟩ := tiled_slotsAfter cal cf.tz u ks gs t v
      exact Tiled.chain (step := cal.shift u cf.tz) (t := t) (e := e) ⟨rfl, rfl, he⟩
  obtain ⟨s₁, hs₁, hb₁⟩ := append_good (l := []) (s := TSeries.empty) (x := plainSlot cal cf.tz u ks t v []) rfl
    (hg.infix ⟨[], slotsAfter cal cf.tz u ks t v gs, rfl⟩)
  obtain ⟨s, hs, hb⟩ := slotRows_filled cal cf.tz u fuel ks hks hk hstep (plainRow ks t v :: rowsAfter (cal.shift u cf.tz) ks t gs)
    (rowsAfter_last _ ks gs t v) gs 0 t v [plainSlot cal cf.tz u ks t v []] s₁ hfuel hgaps rfl hb₁ ⟨[], rfl⟩ hg
  refine ⟨s, ?_, build_items hb⟩
  unfold csvGet
  rw [if_neg hforce, hrows]
  simp only [hkind]
  have : slotRows cal cf.tz u fuel (plainRow ks t v :: rowsAfter (cal.shift u cf.tz) ks t gs) 0
      (plainRow ks t v :: rowsAfter (cal.shift u cf.tz) ks t gs) TSeries.empty = .ok s := by
    simp only [slotRows]
    rw [plainRow_split ks t v hk]
    have e : rowSlot cal cf.tz u (plainRow ks t v).t (.dict (ks.map (fun k => (k, v k)))) [] = plainSlot cal cf.tz u ks t v [] := rfl
    simp only [e]
    rw [hs₁]
    exact hs
  rw [this]

/-- physical units of at least five seconds make every gap noticeable, for timestamps up to the year 2096 -/
theorem C55_physical_units_notice_every_gap (cal : Calendar) (tz : String) (u : TUnit) (hu : u.Physical) (h5 : 5 ≤ u.secs) :
    ∀ (gs : List GapRow) (t : ℚ), 0 ≤ t → (∀ r ∈ rowsAfter (cal.shift u tz) [] t gs, r.t ≤ 4000000000) →
    Noticeable (cal.shift u tz) t gs
  | [], _, _, _ => trivial
  | g :: r, t, h0, hmax => by
    have hit : ∀ (n : ℕ) (t : ℚ), (cal.shift u tz)^[n] t = t + n * u.secs := by
      intro n
      induction n with
      | zero => intro t; simp
      | succ n ih => intro t; rw [Function.iterate_succ_apply, ih, cal.physical u tz t hu]; push_cast; ring
    refine ⟨?_, ?_⟩
    · intro hm hc
      have hmx := hmax (plainRow [] ((cal.shift u tz)^[g.missing + 1] t) g.value) (by simp [rowsAfter])
      have hmx : (cal.shift u tz)^[g.missing + 1] t ≤ 4000000000 := hmx
      have h1 : cal.shift u tz t = t + u.secs := cal.physical u tz t hu
      rw [hit] at hmx hc
      rw [h1] at hc
      have hn : (1 : ℚ) ≤ g.missing := by exact_mod_cast Nat.one_le_iff_ne_zero.2 hm
      unfold CloseTo at hc
      have hb : t + u.secs ≤ t + ((g.missing + 1 : ℕ) : ℚ) * u.secs := by push_cast; nlinarith
      have e1 : |t + u.secs - (t + ((g.missing + 1 : ℕ) : ℚ) * u.secs)| = g.missing * u.secs := by
        rw [abs_sub_comm, abs_of_nonneg (by linarith)]; push_cast; ring
      have e2 : |t + u.secs| ≤ 4000000000 := by rw [abs_of_nonneg (by linarith)]; linarith
      have e3 : |t + ((g.missing + 1 : ℕ) : ℚ) * u.secs| ≤ 4000000000 := by rw [abs_of_nonneg (by linarith)]; linarith
      have e4 : max |t + u.secs| |t + ((g.missing + 1 : ℕ) : ℚ) * u.secs| ≤ 4000000000 := max_le e2 e3
      rw [e1] at hc
      nlinarith
    · refine C55_physical_units_notice_every_gap cal tz u hu h5 r _ ?_ ?_
      · rw [hit]; have : (0:ℚ) ≤ ((g.missing + 1 : ℕ) : ℚ) := by positivity
        nlinarith
      · intro x hx; exact hmax x (List.mem_cons_of_mem _ hx)

/-- a file with the given header and rows, written with the numbers of the sample codec -/
def fileOf (header : String) (rows : List (List ℚ)) : List Text :=
  (header.toList ++ ['\n']) :: rows.map (fun r => joinSep ',' (r.map sampleCodec.fmt) ++ ['\n'])

/-- the exception getError, if any -/
def getError {α : Type} : Except PyErr α → Option PyErr
  | .error e => some e
  | .ok _ => none

/-- hypotheses met, and the whole run on it: three rows, two slots missing before the second one -/
def gapFile : List Text := fileOf "epoch,a" [[0, 1], [180, 7], [240, 5]]

def minuteSlot (t : ℚ) (d : Dict ℚ) (idx : Idx) : Item :=
  { t := t, slot := some (t + 60, TUnit.ofSecs 60), tz := "UTC", data := some (.dict d), idx := idx }

def gapGaps : List GapRow := [⟨2, fun _ => 7⟩, ⟨0, fun _ => 5⟩]

def minuteArgs : GetArgs := { forceSlots := true, forceUnit := some (TUnit.ofSecs 60) }

example : ∃ s, csvGet sampleCodec physicalCalendar (fun _ => .ok 60) 10 {} {} minuteArgs gapFile = .ok (s, ⟨.label "epoch", .epoch, none⟩) ∧
    s.items = plainSlot physicalCalendar "UTC" (TUnit.ofSecs 60) ["a"] 0 (fun _ => 1) [] ::
      slotsAfter physicalCalendar "UTC" (TUnit.ofSecs 60) ["a"] 0 (fun _ => 1) gapGaps := by
  have hsecs : (TUnit.ofSecs 60).secs = 60 := by decide +kernel
  refine C55_missing_slots_are_filled sampleCodec physicalCalendar (fun _ => .ok 60) 10 {} {} _ minuteArgs gapFile (TUnit.ofSecs 60) ["a"]
    (by decide) (by decide) 0 (fun _ => 1) gapGaps (by decide) (by decide +kernel) (by decide +kernel) ?_ ?_ ?_
  · intro t
    show t < t + _
    rw [hsecs]; linarith
  · refine C55_physical_units_notice_every_gap _ _ _ (by unfold TUnit.Physical; decide +kernel) (by rw [hsecs]; norm_num) _ _ (le_refl 0) ?_
    intro r hr
    simp only [gapGaps, rowsAfter, List.mem_cons, List.not_mem_nil, or_false] at hr
    rcases hr with rfl | rfl
    · show (physicalCalendar.shift (TUnit.ofSecs 60) "UTC")^[2 + 1] 0 ≤ 4000000000
      decide +kernel
    · show (physicalCalendar.shift (TUnit.ofSecs 60) "UTC")^[0 + 1] ((physicalCalendar.shift (TUnit.ofSecs 60) "UTC")^[2 + 1] 0) ≤ 4000000000
      decide +kernel
  · intro g hg
    simp only [gapGaps, List.mem_cons, List.not_mem_nil, or_false] at hg
    rcases hg with rfl | rfl <;> decide

example : ((csvGet sampleCodec physicalCalendar (fun _ => .ok 60) 10 {} {} minuteArgs gapFile).toOption.map
    (fun r => r.1.items)) =
    some [minuteSlot 0 [("a", 1)] [], minuteSlot 60 [("a", 3)] [("data_loss", some 1)],
      minuteSlot 120 [("a", 5)] [("data_loss", some 1)], minuteSlot 180 [("a", 7)] [("data_loss", none)],
      minuteSlot 240 [("a", 5)] []] := by decide +kernel

/-! ## C99: data indexes in a file with gaps -/

/-- **C99** is false: the row closing a gap loses its data indexes, here an anomaly of 1/4 -/
theorem C99_row_after_a_gap_loses_its_indexes_false :
    ((csvGet sampleCodec physicalCalendar (fun _ => .ok 60) 10 {} {} minuteArgs
        (fileOf "epoch,a,__anomaly" [[0, 1, 0], [120, 5, 1]])).toOption.map
      (fun r => r.1.items)) =
    some [minuteSlot 0 [("a", 1)] [("anomaly", some 0)], minuteSlot 60 [("a", 3)] [("data_loss", some 1)],
      minuteSlot 120 [("a", 5)] [("data_loss", none)]] := by decide +kernel

/-- and a gap anywhere but before the last row makes the file unreadable -/
theorem C99_gap_before_another_row_raises_false :
    getError (csvGet sampleCodec physicalCalendar (fun _ => .ok 60) 10 {} {} minuteArgs
        (fileOf "epoch,a,__anomaly" [[0, 1, 0], [120, 5, 1], [180, 6, 1]])) = some .keyError := by decide +kernel

/-- **C99**, the part that holds: with no slot missing, every row is there with its values and its data indexes. -/
theorem C99_no_gaps_partial (cd : Codec) (cal : Calendar) (detect : List ℚ → Except PyErr ℚ) (fuel : ℕ) (cf : CsvConf)
    (st st' : CsvState) (a : GetArgs) (lines : List Text) (u : TUnit) (rows : List Row)
    (hforce : ¬ (a.forcePoints = true ∧ a.forceSlots = true))
    (hrows : readRows cd cf st a.filter a.limit lines = .ok (rows, st'))
    (hkind : decideKind (wantedKind cf a) a.forceUnit (detect (sampleStamps (rows.map Row.t) TSeries.empty)) = .ok (some u))
    (hdata : ∀ r ∈ rows, ∃ d, r.data = .dict d ∧ rowValues d ≠ [])
    (hsame : ∀ r ∈ rows, ∀ r' ∈ rows, SameKind r.data.split.1 r'.data.split.1)
    (hnext : rows.IsChain (fun r r' => r'.t = cal.shift u cf.tz r.t)) :
    ∃ s, csvGet cd cal detect fuel cf st a lines = .ok (s, st') ∧
      List.Forall₂ (fun r x => x.t = r.t ∧ x.slot = some (cal.shift u cf.tz r.t, u) ∧ x.tz = cf.tz ∧
        ∃ d, r.data = .dict d ∧ x.data = some (.dict (rowValues d)) ∧ x.idx = rowIndexes d) rows s.items := by
  have hg : GoodSlots (rows.map (fun r => rowSlot cal cf.tz u r.t r.data.split.1 r.data.split.2)) := by
    refine ⟨?_, ?_, ?_, ?_, ?_, ?_⟩
    · intro x hx; obtain ⟨r, _, rfl⟩ := List.mem_map.1 hx; rfl
    · unfold InSuccession
      rw [List.isChain_map]
      refine hnext.imp ?_
      intro r r' h
      show CloseTo (cal.shift u cf.tz r.t) r'.t
      rw [h]; exact closeTo_self _
    · intro x hx y hy; obtain ⟨r, _, rfl⟩ := List.mem_map.1 hx; obtain ⟨r', _, rfl⟩ := List.mem_map.1 hy; rfl
    · intro x hx y hy; obtain ⟨r, _, rfl⟩ := List.mem_map.1 hx; obtain ⟨r', _, rfl⟩ := List.mem_map.1 hy; rfl
    · intro x hx; obtain ⟨r, hr, rfl⟩ := List.mem_map.1 hx
      obtain ⟨d, hd, hne⟩ := hdata r hr
      refine ⟨_, rfl, ?_⟩
      rw [hd]
      simp only [RowData.split]
      cases h : rowValues d with
      | nil => exact absurd h hne
      | cons _ _ => rfl
    · intro x hx y hy d e hd he
      obtain ⟨r, hr, rfl⟩ := List.mem_map.1 hx; obtain ⟨r', hr', rfl⟩ := List.mem_map.1 hy
      simp only [rowSlot, Option.some.injEq] at hd he
      subst hd; subst he
      exact hsame r hr r' hr'
  obtain ⟨s, hb, hi, _⟩ := build_good_slots hg
  have hb' := (build_ok_iff _ _).1 hb
  refine ⟨s, ?_, ?_⟩
  · unfold csvGet
    rw [if_neg hforce, hrows]
    simp only [hkind]
    rw [slotRows_ok cal cf.tz u fuel rows 0 rows TSeries.empty (by rw [hb'])]
    simp only [hb']
  · rw [hi, List.forall₂_map_right_iff, List.forall₂_same]
    intro r hr
    obtain ⟨d, hd, _⟩ := hdata r hr
    exact ⟨rfl, rfl, rfl, d, hd, by rw [hd]; rfl, by rw [hd]; rfl⟩

/-! ## C100: gaps of short slots -/

/-- **C100** is false: slots of one second in 2020; the one missing is not noticed, and the series has a hole -/
theorem C100_gap_of_one_second_not_filled_false :
    ((csvGet sampleCodec physicalCalendar (fun _ => .ok 1) 10 {} {} { forceSlots := true, forceUnit := some (TUnit.ofSecs 1) }
        (fileOf "epoch,a" [[1600000000, 1], [1600000002, 5]])).toOption.map
      (fun r => r.1.items.map (fun x => (x.t, x.endT)))) =
    some [(1600000000, 1600000001), (1600000002, 1600000003)] := by decide +kernel

/-- **C100**, the part that holds: slots of five seconds or more, for timestamps up to the year 2096, leave no hole -/
theorem C100_five_seconds_partial (cd : Codec) (cal : Calendar) (detect : List ℚ → Except PyErr ℚ) (fuel : ℕ) (cf : CsvConf)
    (st st' : CsvState) (a : GetArgs) (lines : List Text) (u : TUnit) (hu : u.Physical) (h5 : 5 ≤ u.secs) (ks : List String) (hks : ks ≠ [])
    (hk : ∀ k ∈ ks, isIndexLabel (some k) = false) (t : ℚ) (v : String → ℚ) (gs : List GapRow)
    (h0 : 0 ≤ t) (hmax : ∀ r ∈ rowsAfter (cal.shift u cf.tz) ks t gs, r.t ≤ 4000000000)
    (hforce : ¬ (a.forcePoints = true ∧ a.forceSlots = true))
    (hrows : readRows cd cf st a.filter a.limit lines = .ok (plainRow ks t v :: rowsAfter (cal.shift u cf.tz) ks t gs, st'))
    (hkind : decideKind (wantedKind cf a) a.forceUnit (detect (sampleStamps
      ((plainRow ks t v :: rowsAfter (cal.shift u cf.tz) ks t gs).map Row.t) TSeries.empty)) = .ok (some u))
    (hfuel : ∀ g ∈ gs, g.missing < fuel) :
    ∃ s, csvGet cd cal detect fuel cf st a lines = .ok (s, st') ∧ s.items.IsChain (fun x y => x.endT = y.t) := by
  have hts : ∀ (gs : List GapRow) (t : ℚ), (∀ r ∈ rowsAfter (cal.shift u cf.tz) ks t gs, r.t ≤ 4000000000) →
      ∀ r ∈ rowsAfter (cal.shift u cf.tz) [] t gs, r.t ≤ 4000000000 := by
    intro gs
    induction gs with
    | nil => intro t _ r hr; simp [rowsAfter] at hr
    | cons g r ih =>
      intro t hm x hx
      rcases List.mem_cons.1 hx with rfl | hx
      · exact hm (plainRow ks ((cal.shift u cf.tz)^[g.missing + 1] t) g.value) List.mem_cons_self
      · exact ih _ (fun y hy => hm y (List.mem_cons_of_mem _ hy)) x hx
  obtain ⟨s, hs, hi⟩ := C55_missing_slots_are_filled cd cal detect fuel cf st st' a lines u ks hks hk t v gs hforce hrows hkind
    (fun t => by rw [cal.physical u cf.tz t hu]; linarith) (C55_physical_units_notice_every_gap cal cf.tz u hu h5 gs t h0 (hts gs t hmax)) hfuel
  refine ⟨s, hs, ?_⟩
  rw [hi]
  obtain ⟨e, he⟩ := tiled_slotsAfter cal cf.tz u ks gs t v
  have : Tiled (cal.shift u cf.tz) t (plainSlot cal cf.tz u ks t v [] :: slotsAfter cal cf.tz u ks t v gs) e := ⟨rfl, rfl, he⟩
  have hch : ∀ (l : List Item) (t e : ℚ), Tiled (cal.shift u cf.tz) t l e → l.IsChain (fun x y => x.endT = y.t) := by
    intro l
    induction l with
    | nil => intro _ _ _; exact List.IsChain.nil
    | cons x r ih =>
      intro t e h
      cases r with
      | nil => exact List.IsChain.singleton x
      | cons y r => exact List.IsChain.cons_cons (by rw [h.2.1, h.2.2.1]) (ih _ _ h.2.2)
  exact hch _ _ _ this

/-! ## C101: rows that cannot be appended, with skip_errors -/

/-- **C101** is false for slots: a row at the same time as the one before makes the reading fail in spite of `skip_errors` -/
theorem C101_repeated_slot_raises_false :
    getError (csvGet sampleCodec physicalCalendar (fun _ => .ok 60) 10 { skipErrors := true } {} minuteArgs
        (fileOf "epoch,a" [[0, 1], [60, 2], [60, 2]])) = some .valueError := by decide +kernel

theorem pointRows_skip (tz : String) : ∀ (rows : List Row) (s : TSeries), ∃ s' l, pointRows true tz rows s = .ok s' ∧
    s'.items = s.items ++ l ∧ l.Sublist (rows.map (rowPoint tz))
  | [], s => ⟨s, [], rfl, by simp, by simp⟩
  | r :: rs, s => by
    obtain ⟨s', l, h1, h2, h3⟩ := pointRows_skip tz rs (s.append (rowPoint tz r)).1
    refine ⟨s', (if (s.append (rowPoint tz r)).2 = .ok () then [rowPoint tz r] else []) ++ l, ?_, ?_, ?_⟩
    · simp only [pointRows]
      cases hx : (s.append (rowPoint tz r)).2 with
      | ok _ => simp only [h1]
      | error e => simp only [if_true, h1]
    · rw [h2]
      rcases append_items s (rowPoint tz r) with ⟨e, he, hi, _⟩ | ⟨ho, hi, _⟩
      · rw [hi, he]; simp
      · rw [hi, ho]; simp
    · split
      · exact List.Sublist.cons_cons _ h3
      · exact List.Sublist.cons _ h3

/-- **C101**, the part that holds: when points are read, the reading does not fail, and the items are some of the rows, in their order -/
theorem C101_points_partial (cd : Codec) (cal : Calendar) (detect : List ℚ → Except PyErr ℚ) (fuel : ℕ) (cf : CsvConf)
    (st st' : CsvState) (a : GetArgs) (lines : List Text) (rows : List Row) (hskip : cf.skipErrors = true)
    (hrows : readRows cd cf st a.filter a.limit lines = .ok (rows, st')) (hp : a.forcePoints = true) (hs : a.forceSlots = false) :
    ∃ s, csvGet cd cal detect fuel cf st a lines = .ok (s, st') ∧ s.items.Sublist (rows.map (rowPoint cf.tz)) := by
  obtain ⟨s, l, h1, h2, h3⟩ := pointRows_skip cf.tz rows TSeries.empty
  refine ⟨s, ?_, ?_⟩
  · unfold csvGet
    rw [if_neg (by rw [hs]; simp), hrows]
    simp only [wantedKind, hp, if_true, decideKind, hskip, h1]
  · have : s.items = l := by rw [h2]; rfl
    rw [this]; exact h3

example : ((csvGet sampleCodec physicalCalendar (fun _ => .ok 60) 10 { skipErrors := true } {} { forcePoints := true }
        (fileOf "epoch,a" [[0, 1], [60, 2], [60, 2]])).toOption.map (fun r => r.1.items.map Item.t)) = some [0, 60] := by
  decide +kernel

end Timeseria
