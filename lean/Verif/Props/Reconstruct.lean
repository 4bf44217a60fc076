import Verif.Model.Reconstruct
import Verif.Lemmas.Dict
import Verif.Lemmas.Duplicate
import Verif.Lemmas.Ops
import Verif.Props.Interp
import Verif.Props.Windows

/-! # C62, C63, C113-C116: reconstruction -/

namespace Timeseria

/-! ## Specification -/

/-- the data loss of the item is known and reaches the threshold -/
def Lossy (th : ℚ) (x : Item) : Prop := ∃ v, x.idx.get? "data_loss" = some (some v) ∧ th ≤ v

/-- items `g` to `h` are a gap: all of them are lossy, and the group cannot be extended -/
structure IsGap (th : ℚ) (l : List Item) (g h : ℕ) : Prop where
  le : g ≤ h
  lossy : ∀ j, g ≤ j → j ≤ h → ∃ x, l[j]? = some x ∧ Lossy th x
  before : ∀ x, 0 < g → l[g - 1]? = some x → ¬ Lossy th x
  after : ∀ x, l[h + 1]? = some x → ¬ Lossy th x

/-- `d` is the data the prediction gives to the `n`-th item of the gap: the `n`-th dictionary of a list
of dictionaries; the `n`-th element of the list of each label, for a dictionary of lists.  `ks` are the
labels of the series. -/
def Gives (p : Prediction) (ks : Except PyErr (List String)) (n : ℕ) (d : Dict ℚ) : Prop :=
  match p with
  | .lists c => ks = .ok d.keys ∧ ∀ k v, d.get? k = some v → ∃ l, c.get? k = some l ∧ l[n]? = some v
  | .dicts l => l[n]? = some d
  | .other => False

/-- what becomes of an item: same place in time, other indexes kept, marked, and the data kept if the
item was not lossy -/
structure Kept (th : ℚ) (x y : Item) : Prop where
  t : y.t = x.t
  slot : y.slot = x.slot
  tz : y.tz = x.tz
  idx : ∀ k, k ≠ "data_reconstructed" → y.idx.get? k = x.idx.get? k
  marked : Lossy th x → y.idx.get? "data_reconstructed" = some (some 1)
  unmarked : ¬ Lossy th x → y.idx.get? "data_reconstructed" = some (some 0)
  data : ¬ Lossy th x → y.data = x.data

/-- the items `g` to `h` of the result `l'` carry the data of the prediction; the labels are those the
series `l` has when the item is reconstructed -/
def FilledBy (p : Prediction) (l l' : List Item) (g h : ℕ) : Prop :=
  ∀ j, g ≤ j → j ≤ h → ∃ y d, l'[j]? = some y ∧ y.data = some (.dict d) ∧
    Gives p (headLabelsR (l'.take j ++ l.drop j)) (j - g) d

/-! ## Lemmas -/

theorem lossyE_true {th : ℚ} {x : Item} (h : lossyE th x = .ok true) : Lossy th x := by
  unfold lossyE at h
  split at h
  · simp at h
  · split at h
    · rename_i v hv
      exact ⟨v, hv, by simpa using h⟩
    · simp at h

theorem lossyE_false {th : ℚ} {x : Item} (h : lossyE th x = .ok false) : ¬ Lossy th x := by
  rintro ⟨v, hv, hle⟩
  unfold lossyE at h
  split at h
  · simp at h
  · rw [hv] at h
    simp at h
    linarith

theorem markRec_data (x : Item) (v : ℚ) : (x.markRec v).data = x.data := rfl

theorem markRec_kept {th : ℚ} {x : Item} (h : ¬ Lossy th x) : Kept th x (x.markRec 0) where
  t := rfl
  slot := rfl
  tz := rfl
  idx := by
    intro k hk
    show (x.idx.set _ _).get? k = _
    rw [Dict.get?_set, if_neg (Ne.symm hk)]
  marked := fun hl => absurd hl h
  unmarked := by
    intro _
    show (x.idx.set _ _).get? _ = _
    rw [Dict.get?_set, if_pos rfl]
  data := fun _ => rfl

theorem rebuilt_kept {th : ℚ} {x : Item} (d : Dict ℚ) (h : Lossy th x) : Kept th x (x.rebuilt d) where
  t := rfl
  slot := rfl
  tz := rfl
  idx := by
    intro k hk
    show (x.idx.set _ _).get? k = _
    rw [Dict.get?_set, if_neg (Ne.symm hk)]
  marked := by
    intro _
    show (x.idx.set _ _).get? _ = _
    rw [Dict.get?_set, if_pos rfl]
  unmarked := fun hl => absurd h hl
  data := fun hl => absurd h hl

theorem perLabelDict_inv {ks : List String} {f : String → Except PyErr ℚ} {d : Dict ℚ}
    (h : perLabelDict ks f = .ok d) : d.keys = ks ∧ ∀ k v, d.get? k = some v → f k = .ok v := by
  induction ks generalizing d with
  | nil =>
    simp [perLabelDict] at h
    subst h
    simp [Dict.keys, Dict.get?]
  | cons k r ih =>
    rw [perLabelDict] at h
    split at h
    · simp at h
    · rename_i v hv
      split at h
      · simp at h
      · rename_i d' hd
        obtain ⟨h1, h2⟩ := ih hd
        simp at h
        subst h
        refine ⟨by simp [Dict.keys] at h1 ⊢; exact h1, ?_⟩
        intro k' v' hk
        rw [Dict.get?_cons] at hk
        split at hk
        · rename_i e; simp at hk; subst hk; subst e; exact hv
        · exact h2 k' v' hk

theorem predictedAt_gives {p : Prediction} {cur : List Item} {n : ℕ} {d : Dict ℚ}
    (h : predictedAt p cur n = .ok d) : Gives p (headLabelsR cur) n d := by
  unfold predictedAt at h
  split at h
  · rename_i dl
    split at h
    · simp at h
    · rename_i ks hks
      obtain ⟨h1, h2⟩ := perLabelDict_inv h
      refine ⟨by rw [hks, h1], ?_⟩
      intro k v hk
      have := h2 k v hk
      unfold listEntry at this
      split at this
      · simp at this
      · rename_i l hl
        split at this
        · simp at this
        · rename_i v' hv
          simp at this; subst this
          exact ⟨l, hl, hv⟩
  · rename_i ds
    split at h
    · simp at h
    · rename_i d' hd
      simp at h; subst h
      exact hd
  · simp at h

theorem take_congr {a b : List Item} {g : ℕ} (h : ∀ i : ℕ, i < g → a[i]? = b[i]?) : a.take g = b.take g := by
  apply List.ext_getElem?
  intro i
  rw [List.getElem?_take, List.getElem?_take]
  split
  · rename_i hi; exact h i hi
  · rfl

theorem drop_congr {a b : List Item} {g : ℕ} (h : ∀ i : ℕ, g ≤ i → a[i]? = b[i]?) : a.drop g = b.drop g := by
  apply List.ext_getElem?
  intro i
  rw [List.getElem?_drop, List.getElem?_drop]
  exact h _ (by omega)

theorem take_drop_self {l' cur : List Item} {s : ℕ}
    (h : ∀ i : ℕ, i < s → l'[i]? = cur[i]?) : l'.take s ++ cur.drop s = cur := by
  rw [take_congr h, List.take_append_drop]

/-- the loop over a gap that ends well -/
theorem fillLossGap_spec {p : Prediction} {g : ℕ} : ∀ (n j : ℕ) (cur l' : List Item),
    fillLossGap p g n j cur = (l', .ok ()) → l'.length = cur.length ∧
    (∀ i : ℕ, (i < j ∨ j + n ≤ i) → l'[i]? = cur[i]?) ∧
    ∀ i : ℕ, j ≤ i → i < j + n → ∃ x d, cur[i]? = some x ∧ l'[i]? = some (x.rebuilt d) ∧
      Gives p (headLabelsR (l'.take i ++ cur.drop i)) (i - g) d := by
  intro n
  induction n with
  | zero =>
    intro j cur l' h
    simp [fillLossGap] at h
    subst h
    exact ⟨rfl, fun _ _ => rfl, fun i h1 h2 => by omega⟩
  | succ n ih =>
    intro j cur l' h
    rw [fillLossGap] at h
    split at h
    · simp at h
    · rename_i d hd
      split at h
      · simp at h
      · rename_i x hx
        obtain ⟨h1, h2, h3⟩ := ih _ _ _ h
        refine ⟨by rw [h1, List.length_set], ?_, ?_⟩
        · intro i hi
          rw [h2 i (by omega), List.getElem?_set_ne (by omega)]
        · intro i hi1 hi2
          by_cases e : i = j
          · subst e
            refine ⟨x, d, hx, ?_, ?_⟩
            · rw [h2 i (by omega), List.getElem?_set_self]
              exact (List.getElem?_eq_some_iff.1 hx).1
            · rw [take_drop_self]
              · exact predictedAt_gives hd
              · intro m hm
                rw [h2 m (by omega), List.getElem?_set_ne (by omega)]
          · obtain ⟨x', d', e1, e2, e3⟩ := h3 i (by omega) (by omega)
            rw [List.getElem?_set_ne (by omega)] at e1
            refine ⟨x', d', e1, e2, ?_⟩
            rwa [drop_congr (b := cur)] at e3
            intro m hm
            rw [List.getElem?_set_ne (by omega)]

theorem reconstructGap_spec {pred : Predictor} {cur l' : List Item} {g h : ℕ} (hg : g ≤ h)
    (hr : reconstructGap pred cur g h = (l', .ok ())) :
    ∃ p, pred cur g h = .ok p ∧ l'.length = cur.length ∧
    (∀ i : ℕ, (i < g ∨ h < i) → l'[i]? = cur[i]?) ∧
    ∀ i : ℕ, g ≤ i → i ≤ h → ∃ x d, cur[i]? = some x ∧ l'[i]? = some (x.rebuilt d) ∧
      Gives p (headLabelsR (l'.take i ++ cur.drop i)) (i - g) d := by
  unfold reconstructGap at hr
  split at hr
  · simp at hr
  · rename_i p hp
    obtain ⟨h1, h2, h3⟩ := fillLossGap_spec _ _ _ _ hr
    refine ⟨p, hp, h1, fun i hi => h2 i (by omega), fun i a b => h3 i a (by omega)⟩

/-- the part of the result from position `s` on -/
structure RecSpec (pred : Predictor) (th : ℚ) (s : ℕ) (cur l' : List Item) : Prop where
  len : l'.length = cur.length
  pre : ∀ i : ℕ, i < s → l'[i]? = cur[i]?
  kept : ∀ (i : ℕ) (x : Item), s ≤ i → cur[i]? = some x → ∃ y, l'[i]? = some y ∧ Kept th x y
  filled : ∀ g h : ℕ, s ≤ g → g ≤ h → (∀ j, g ≤ j → j ≤ h → ∃ x, cur[j]? = some x ∧ Lossy th x) →
    (∀ x, s < g → cur[g - 1]? = some x → ¬ Lossy th x) → (∀ x, cur[h + 1]? = some x → ¬ Lossy th x) →
    ∃ p, pred (l'.take g ++ cur.drop g) g h = .ok p ∧ FilledBy p cur l' g h

/-- a gap that starts at `s` and ends just before `e` has been reconstructed: `mid` -/
theorem recSpec_gap {pred : Predictor} {th : ℚ} {g e : ℕ} {cur mid : List Item} (hge : g < e)
    (hl : ∀ j, g ≤ j → j < e → ∃ x, cur[j]? = some x ∧ Lossy th x)
    (hr : reconstructGap pred cur g (e - 1) = (mid, .ok ())) (l' : List Item) (hlen : l'.length = mid.length)
    (hpre : ∀ i : ℕ, i < e → l'[i]? = mid[i]?) :
    (∀ i : ℕ, i < g → l'[i]? = cur[i]?) ∧
    (∀ (i : ℕ) (x : Item), g ≤ i → i < e → cur[i]? = some x → ∃ y, l'[i]? = some y ∧ Kept th x y) ∧
    ∃ p, pred (l'.take g ++ cur.drop g) g (e - 1) = .ok p ∧ FilledBy p cur l' g (e - 1) := by
  obtain ⟨p, hp, h1, h2, h3⟩ := reconstructGap_spec (by omega) hr
  have hA : ∀ i : ℕ, i < g → l'[i]? = cur[i]? := by
    intro i hi
    rw [hpre i (by omega), h2 i (by omega)]
  refine ⟨hA, ?_, p, ?_, ?_⟩
  · intro i x hi1 hi2 hx
    obtain ⟨x', d, e1, e2, _⟩ := h3 i hi1 (by omega)
    obtain ⟨x'', e3, e4⟩ := hl i hi1 hi2
    rw [hx] at e1 e3
    simp at e1 e3
    subst e1; subst e3
    exact ⟨x.rebuilt d, by rw [hpre i hi2, e2], rebuilt_kept d e4⟩
  · rw [take_drop_self hA]
    exact hp
  · intro j hj1 hj2
    obtain ⟨x', d, _, e2, e3⟩ := h3 j hj1 hj2
    refine ⟨x'.rebuilt d, d, by rw [hpre j (by omega), e2], rfl, ?_⟩
    rwa [take_congr (b := mid)]
    intro m hm
    exact hpre m (by omega)

theorem recLoop_spec {pred : Predictor} {th : ℚ} : ∀ (n i : ℕ) (gap : Option ℕ) (cur l' : List Item),
    n + i = cur.length → (∀ g, gap = some g → g < i ∧ ∀ j, g ≤ j → j < i → ∃ x, cur[j]? = some x ∧ Lossy th x) →
    recLoop pred th n i gap cur = (l', .ok ()) → RecSpec pred th (gap.getD i) cur l' := by
  intro n
  induction n with
  | zero =>
    intro i gap cur l' hn hgap h
    cases gap with
    | none =>
      simp [recLoop] at h
      subst h
      refine ⟨rfl, fun _ _ => rfl, ?_, ?_⟩
      · intro j x hj hx
        have := (List.getElem?_eq_some_iff.1 hx).1
        simp at hj
        omega
      · intro g h hg hgh hl _ _
        obtain ⟨x, hx, _⟩ := hl g (le_refl _) hgh
        have := (List.getElem?_eq_some_iff.1 hx).1
        simp at hg
        omega
    | some g0 =>
      obtain ⟨hg0, hl0⟩ := hgap g0 rfl
      rw [recLoop] at h
      obtain ⟨p, hp, hlen, _, _⟩ := reconstructGap_spec (by omega) h
      obtain ⟨a1, a2, a3⟩ := recSpec_gap hg0 hl0 h l' rfl (fun _ _ => rfl)
      refine ⟨hlen, a1, ?_, ?_⟩
      · intro j x hj hx
        have := (List.getElem?_eq_some_iff.1 hx).1
        exact a2 j x hj (by omega) hx
      · intro g h' hg hgh hl hb ha
        simp only [Option.getD_some] at hg hb
        obtain ⟨x, hx, _⟩ := hl h' hgh (le_refl _)
        have hh := (List.getElem?_eq_some_iff.1 hx).1
        have eg : g = g0 := by
          by_contra hne
          obtain ⟨x, hx, hxl⟩ := hl0 (g - 1) (by omega) (by omega)
          exact hb x (by omega) hx hxl
        have eh : h' = i - 1 := by
          by_contra hne
          obtain ⟨x, hx, hxl⟩ := hl0 (h' + 1) (by omega) (by omega)
          exact ha x hx hxl
        subst eg; subst eh
        exact a3
  | succ n ih =>
    intro i gap cur l' hn hgap h
    rw [recLoop.eq_def] at h; dsimp only at h
    have hi : i < cur.length := by omega
    rw [List.getElem?_eq_getElem hi] at h
    dsimp only at h
    generalize hx : cur[i] = x at h
    have hx' : cur[i]? = some x := by rw [List.getElem?_eq_getElem hi, hx]
    split at h
    · simp at h
    · -- lossy
      rename_i hlos
      have hL := lossyE_true hlos
      have := ih (i + 1) (some (gap.getD i)) cur l' (by omega) ?_ h
      · simpa using this
      · intro g hg
        simp at hg
        subst hg
        cases gap with
        | none =>
          simp
          intro j h1 h2
          have : j = i := by omega
          subst this
          exact ⟨x, hx', hL⟩
        | some g0 =>
          obtain ⟨h1, h2⟩ := hgap g0 rfl
          simp
          refine ⟨by omega, ?_⟩
          intro j a b
          by_cases e : j = i
          · subst e; exact ⟨x, hx', hL⟩
          · exact h2 j a (by omega)
    · -- not lossy
      rename_i hlos
      have hL := lossyE_false hlos
      have key : ∀ (mid : List Item), mid.length = cur.length → (∀ j : ℕ, i ≤ j → mid[j]? = cur[j]?) →
          recLoop pred th n (i + 1) none (mid.modify i (fun x => x.markRec 0)) = (l', .ok ()) →
          (l'.length = mid.length ∧ (∀ j : ℕ, j < i → l'[j]? = mid[j]?) ∧
          (∀ (j : ℕ) (x : Item), i ≤ j → cur[j]? = some x → ∃ y, l'[j]? = some y ∧ Kept th x y) ∧
          (∀ g h : ℕ, i < g → g ≤ h → (∀ j, g ≤ j → j ≤ h → ∃ x, cur[j]? = some x ∧ Lossy th x) →
            (∀ x, cur[g - 1]? = some x → ¬ Lossy th x) → (∀ x, cur[h + 1]? = some x → ¬ Lossy th x) →
            ∃ p, pred (l'.take g ++ cur.drop g) g h = .ok p ∧ FilledBy p cur l' g h)) := by
        intro mid hlen hdrop hrec
        have R := ih (i + 1) none _ l' (by rw [List.length_modify]; omega) (by intro g hg; simp at hg) hrec
        simp only [Option.getD_none] at R
        have hm : ∀ j : ℕ, j ≠ i → (mid.modify i (fun x => x.markRec 0))[j]? = mid[j]? := by
          intro j hj
          rw [List.getElem?_modify]
          simp [Ne.symm hj]
        have hmi : (mid.modify i (fun x => x.markRec 0))[i]? = some (x.markRec 0) := by
          rw [List.getElem?_modify, hdrop i (le_refl _), hx']
          simp
        refine ⟨by rw [R.len, List.length_modify], ?_, ?_, ?_⟩
        · intro j hj
          rw [R.pre j (by omega), hm j (by omega)]
        · intro j y hj hy
          by_cases e : j = i
          · subst e
            rw [hx'] at hy
            simp at hy
            subst hy
            exact ⟨x.markRec 0, by rw [R.pre j (by omega), hmi], markRec_kept hL⟩
          · exact R.kept j y (by omega) (by rw [hm j e, hdrop j hj]; exact hy)
        · intro g h' hg hgh hl hb ha
          have := R.filled g h' (by omega) hgh ?_ ?_ ?_
          · have hd : ∀ j : ℕ, i < j → (mid.modify i (fun x => x.markRec 0)).drop j = cur.drop j := by
              intro j hj
              apply drop_congr
              intro m hm'
              rw [hm m (by omega), hdrop m (by omega)]
            rw [hd g hg] at this
            obtain ⟨p, hp, hf⟩ := this
            refine ⟨p, hp, ?_⟩
            intro j h1 h2
            obtain ⟨y, d, e1, e2, e3⟩ := hf j h1 h2
            rw [hd j (by omega)] at e3
            exact ⟨y, d, e1, e2, e3⟩
          · intro j h1 h2
            rw [hm j (by omega), hdrop j (by omega)]
            exact hl j h1 h2
          · intro y hy hy2
            rw [hm _ (by omega), hdrop _ (by omega)] at hy2
            exact hb y hy2
          · intro y hy2
            rw [hm _ (by omega), hdrop _ (by omega)] at hy2
            exact ha y hy2
      cases gap with
      | none =>
        dsimp only at h
        obtain ⟨k1, k2, k3, k4⟩ := key cur rfl (fun _ _ => rfl) h
        refine ⟨k1, k2, k3, ?_⟩
        intro g h' hg hgh hl hb ha
        simp only [Option.getD_none] at hg hb
        by_cases e : g = i
        · subst e
          obtain ⟨y, hy, hyl⟩ := hl g (le_refl _) hgh
          rw [hx'] at hy
          simp at hy
          subst hy
          exact absurd hyl hL
        · exact k4 g h' (by omega) hgh hl (fun y => hb y (by omega)) ha
      | some g0 =>
        dsimp only at h
        obtain ⟨hg0, hl0⟩ := hgap g0 rfl
        split at h
        · simp at h
        · rename_i mid hrec
          obtain ⟨p, hp, hlen, hout, _⟩ := reconstructGap_spec (by omega) hrec
          obtain ⟨k1, k2, k3, k4⟩ := key mid hlen (fun j hj => hout j (by omega)) h
          obtain ⟨a1, a2, a3⟩ := recSpec_gap hg0 hl0 hrec l' k1 k2
          refine ⟨by rw [k1, hlen], a1, ?_, ?_⟩
          · intro j y hj hy
            by_cases e : j < i
            · exact a2 j y hj e hy
            · exact k3 j y (by omega) hy
          · intro g h' hg hgh hl hb ha
            simp only [Option.getD_some] at hg hb
            by_cases e : g < i
            · have eg : g = g0 := by
                by_contra hne
                obtain ⟨y, hy, hyl⟩ := hl0 (g - 1) (by omega) (by omega)
                exact hb y (by omega) hy hyl
              have eh : h' = i - 1 := by
                by_contra hne
                by_cases hlt : h' < i
                · obtain ⟨y, hy, hyl⟩ := hl0 (h' + 1) (by omega) (by omega)
                  exact ha y hy hyl
                · obtain ⟨y, hy, hyl⟩ := hl i (by omega) (by omega)
                  rw [hx'] at hy
                  simp at hy
                  subst hy
                  exact hL hyl
              subst eg; subst eh
              exact a3
            · by_cases e2 : g = i
              · subst e2
                obtain ⟨y, hy, hyl⟩ := hl g (le_refl _) hgh
                rw [hx'] at hy
                simp at hy
                subst hy
                exact absurd hyl hL
              · exact k4 g h' (by omega) hgh hl (fun y => hb y (by omega)) ha

/-! ## C62 -/

/-- **C62 (items)**: when a reconstructor ends without error the series has the same number of items;
each keeps its place in time and all its other indexes, is marked as reconstructed exactly if its data
loss reaches the threshold, and otherwise keeps its data. -/
theorem C62_items {pred : Predictor} {th : ℚ} {l l' : List Item}
    (h : reconstructInplace pred th l = (l', .ok ())) :
    l'.length = l.length ∧
    ∀ (i : ℕ) (x : Item), l[i]? = some x → ∃ y, l'[i]? = some y ∧ Kept th x y := by
  have R := recLoop_spec l.length 0 none l l' (by omega) (by intro g hg; simp at hg) h
  exact ⟨R.len, fun i x hx => R.kept i x (by simp) hx⟩

/-- **C62 (data)**: the data of each gap is what the predictor gave for that gap, on the series as
reconstructed so far (original from the gap on). -/
theorem C62_data {pred : Predictor} {th : ℚ} {l l' : List Item}
    (h : reconstructInplace pred th l = (l', .ok ())) {g e : ℕ} (hg : IsGap th l g e) :
    ∃ p, pred (l'.take g ++ l.drop g) g e = .ok p ∧ FilledBy p l l' g e := by
  have R := recLoop_spec l.length 0 none l l' (by omega) (by intro g hg; simp at hg) h
  exact R.filled g e (by simp) hg.le hg.lossy (fun x hx => hg.before x (by simpa using hx)) hg.after

/-- **C62 (labels)**: when the first item is not lossy, the labels used all along are those of the
series. -/
theorem C62_labels {pred : Predictor} {th : ℚ} {l l' : List Item}
    (h : reconstructInplace pred th l = (l', .ok ())) {x : Item} (hx : l[0]? = some x) (hl : ¬ Lossy th x) (j : ℕ) :
    headLabelsR (l'.take j ++ l.drop j) = headLabelsR l := by
  obtain ⟨y, hy, hk⟩ := (C62_items h).2 0 x hx
  cases l with
  | nil => simp at hx
  | cons a r =>
    cases j with
    | zero => simp
    | succ j =>
      cases l' with
      | nil => simp at hy
      | cons b r' =>
        simp at hx hy
        subst hx; subst hy
        simp [headLabelsR, hk.data hl]

/-- **C62 (copy)**: without `inplace` the result is the reconstruction of the items of the series. -/
theorem C62_copy {pred : Predictor} {th : ℚ} {l0 : List Item} {s r : TSeries} (hb : TSeries.build l0 = .ok s)
    (h : reconstructApply pred th s = .ok r) : reconstructInplace pred th s.items = (r.items, .ok ()) := by
  unfold reconstructApply at h
  rw [duplicate_build hb] at h
  dsimp only at h
  split at h
  · simp at h
  · rename_i l hl
    simp at h
    subst h
    exact hl

/-! ## C63: linear interpolation -/

/-- the items follow each other in time and all carry dictionaries with the labels `ks` -/
structure LinSeries (ks : List String) (l : List Item) : Prop where
  times : ∀ (i j : ℕ) (x y : Item), i < j → l[i]? = some x → l[j]? = some y → x.t < y.t
  data : ∀ (i : ℕ) (x : Item), l[i]? = some x →
    ∃ d, x.data = some (.dict d) ∧ ∀ k ∈ ks, ∃ v, d.get? k = some v
  labels : headLabelsR l = .ok ks

theorem linearPredict_ok {ks : List String} {cur : List Item} (P : LinSeries ks cur) {g h : ℕ} (hg : 1 ≤ g)
    (hgh : g ≤ h) (hh : h + 1 < cur.length) {a b : Item} (ha : cur[g - 1]? = some a) (hb : cur[h + 1]? = some b)
    {va vb : String → ℚ} (hva : ∀ k ∈ ks, a.dictData.get? k = some (va k))
    (hvb : ∀ k ∈ ks, b.dictData.get? k = some (vb k)) :
    ∃ ds, linearPredict cur g h = .ok (.dicts ds) ∧ ds.length = h + 1 - g ∧
      ∀ (i : ℕ) (x : Item), g ≤ i → i ≤ h → cur[i]? = some x → ∃ d, ds[i - g]? = some d ∧ d.keys = ks ∧
        ∀ k ∈ ks, d.get? k = some (lineThrough a.t (va k) b.t (vb k) x.t) := by
  have hw : windowCheck cur.length g h = .ok () := by
    unfold windowCheck
    rw [if_neg (by omega), if_neg (by omega)]
  have key : ∀ i ∈ List.range' g (h + 1 - g), ∃ x d, cur[i]? = some x ∧ linearStep cur ks g h i = .ok d ∧
      d.keys = ks ∧ ∀ k ∈ ks, d.get? k = some (lineThrough a.t (va k) b.t (vb k) x.t) := by
    intro i hi
    rw [List.mem_range'_1] at hi
    have hi' : i < cur.length := by omega
    have hx : cur[i]? = some cur[i] := List.getElem?_eq_getElem hi'
    generalize cur[i] = x at hx
    have e1 : (cur.map Item.vpoint)[g - 1]? = some a.vpoint := by rw [List.getElem?_map, ha]; rfl
    have e2 : (cur.map Item.vpoint)[h + 1]? = some b.vpoint := by rw [List.getElem?_map, hb]; rfl
    obtain ⟨d, h1, h2, h3⟩ := C42_linear (ks := ks) e1 e2 va vb hva hvb x.t
      (P.times _ _ _ _ (by omega) ha hx) (P.times _ _ _ _ (by omega) hx hb)
    refine ⟨x, d, hx, ?_, h2, h3⟩
    unfold linearStep
    rw [hx]
    dsimp only
    have c1 : ((g : Int) - 1) = ((g - 1 : ℕ) : Int) := by omega
    have c2 : ((h : Int) + 1) = ((h + 1 : ℕ) : Int) := by omega
    rw [c1, c2]
    exact h1
  have hm : ∃ ds, mapE (linearStep cur ks g h) (List.range' g (h + 1 - g)) = .ok ds := by
    cases hc : mapE (linearStep cur ks g h) (List.range' g (h + 1 - g)) with
    | ok ds => exact ⟨ds, rfl⟩
    | error e =>
      exfalso
      have : mapE (linearStep cur ks g h) (List.range' g (h + 1 - g)) = .ok _ :=
        mapE_ok (g := fun i => ((linearStep cur ks g h i).toOption).getD []) (by
          intro i hi
          obtain ⟨_, d, _, e, _⟩ := key i hi
          rw [e]; rfl)
      rw [hc] at this
      cases this
  obtain ⟨ds, hds⟩ := hm
  have F := mapE_ok_inv hds
  have hlen : ds.length = h + 1 - g := by
    have := F.length_eq
    simpa using this.symm
  refine ⟨ds, ?_, hlen, ?_⟩
  · unfold linearPredict
    rw [hw, P.labels]
    dsimp only
    rw [hds]
  · intro i x h1 h2 hx
    obtain ⟨x', d, hx', e1, e2, e3⟩ := key i (by rw [List.mem_range'_1]; omega)
    rw [hx] at hx'
    simp at hx'
    subst hx'
    refine ⟨d, ?_, e2, e3⟩
    have hi : i - g < ds.length := by omega
    have := List.Forall₂.get F (i := i - g) (by simp; omega) hi
    simp only [List.get_eq_getElem, List.getElem_range'] at this
    have e : g + 1 * (i - g) = i := by omega
    rw [e, e1] at this
    rw [List.getElem?_eq_getElem hi]
    simp at this
    rw [← this]

/-- **C63 (refused)**: a gap that starts at the first item or ends at the last one is refused. -/
theorem C63_refused (cur : List Item) (g h : ℕ) (hb : g = 0 ∨ cur.length ≤ h + 1) :
    linearPredict cur g h = .error .valueError := by
  have : windowCheck cur.length g h = .error .valueError := by
    unfold windowCheck
    split
    · rfl
    · rw [if_pos (by omega)]
  unfold linearPredict
  rw [this]

theorem carries_values {ks : List String} {x : Item} {d : Dict ℚ} (hd : x.data = some (.dict d))
    (h : ∀ k ∈ ks, ∃ v, d.get? k = some v) : ∀ k ∈ ks, x.dictData.get? k = some ((d.get? k).getD 0) := by
  intro k hk
  obtain ⟨v, hv⟩ := h k hk
  unfold Item.dictData
  rw [hd]
  simp [hv]

theorem fillLossGap_dicts_ok {ds : List (Dict ℚ)} {g : ℕ} : ∀ (n j : ℕ) (cur : List Item),
    g ≤ j → j + n ≤ cur.length → j - g + n ≤ ds.length → (fillLossGap (.dicts ds) g n j cur).2 = .ok () := by
  intro n
  induction n with
  | zero => intro j cur _ _ _; rfl
  | succ n ih =>
    intro j cur h0 h1 h2
    rw [fillLossGap]
    unfold predictedAt
    dsimp only
    rw [List.getElem?_eq_getElem (by omega : j - g < ds.length)]
    dsimp only
    rw [List.getElem?_eq_getElem (by omega : j < cur.length)]
    dsimp only
    exact ih _ _ (by omega) (by rw [List.length_set]; omega) (by omega)

theorem linearGap_ok {ks : List String} {cur : List Item} (P : LinSeries ks cur) {g h : ℕ} (hg : 1 ≤ g)
    (hgh : g ≤ h) (hh : h + 1 < cur.length) :
    ∃ cur', reconstructGap linearPredict cur g h = (cur', .ok ()) ∧ cur'.length = cur.length ∧
      LinSeries ks cur' ∧ ∀ j : ℕ, (j < g ∨ h < j) → cur'[j]? = cur[j]? := by
  have ha : cur[g - 1]? = some cur[g - 1] := List.getElem?_eq_getElem (by omega)
  have hb : cur[h + 1]? = some cur[h + 1] := List.getElem?_eq_getElem (by omega)
  generalize cur[g - 1] = a at ha
  generalize cur[h + 1] = b at hb
  obtain ⟨da, ea, fa⟩ := P.data _ _ ha
  obtain ⟨db, eb, fb⟩ := P.data _ _ hb
  obtain ⟨ds, h1, h2, h3⟩ := linearPredict_ok P hg hgh hh ha hb (carries_values ea fa) (carries_values eb fb)
  have hok : (fillLossGap (.dicts ds) g (h + 1 - g) g cur).2 = .ok () :=
    fillLossGap_dicts_ok _ _ _ (le_refl _) (by omega) (by omega)
  have hr : reconstructGap linearPredict cur g h = ((fillLossGap (.dicts ds) g (h + 1 - g) g cur).1, .ok ()) := by
    unfold reconstructGap
    rw [h1]
    dsimp only
    rw [← hok]
  generalize hc : (fillLossGap (.dicts ds) g (h + 1 - g) g cur).1 = cur' at hr
  obtain ⟨p, hp, e1, e2, e3⟩ := reconstructGap_spec hgh hr
  have hp' : p = .dicts ds := by rw [h1] at hp; simpa using hp.symm
  subst hp'
  have back : ∀ (i : ℕ) (y : Item), cur'[i]? = some y → ∃ x, cur[i]? = some x ∧ y.t = x.t ∧
      ∃ d, y.data = some (.dict d) ∧ ∀ k ∈ ks, ∃ v, d.get? k = some v := by
    intro i y hy
    by_cases hi : g ≤ i ∧ i ≤ h
    · obtain ⟨x, d, f1, f2, f3⟩ := e3 i hi.1 hi.2
      rw [hy] at f2
      simp at f2
      subst f2
      refine ⟨x, f1, rfl, d, rfl, ?_⟩
      obtain ⟨d', g1, g2, g3⟩ := h3 i x hi.1 hi.2 f1
      unfold Gives at f3
      dsimp only at f3
      rw [g1] at f3
      simp at f3
      subst f3
      exact fun k hk => ⟨_, g3 k hk⟩
    · rw [e2 i (by omega)] at hy
      exact ⟨y, hy, rfl, P.data i y hy⟩
  refine ⟨cur', hr, e1, ⟨?_, ?_, ?_⟩, e2⟩
  · intro i j x y hij hx hy
    obtain ⟨x', f1, f2, _⟩ := back i x hx
    obtain ⟨y', f3, f4, _⟩ := back j y hy
    rw [f2, f4]
    exact P.times i j x' y' hij f1 f3
  · intro i y hy
    obtain ⟨_, _, _, f⟩ := back i y hy
    exact f
  · rw [← P.labels]
    have := e2 0 (by omega)
    cases cur with
    | nil => simp at hh
    | cons u r =>
      cases cur' with
      | nil => simp at e1
      | cons u' r' =>
        simp at this
        subst this
        rfl

theorem LinSeries.mark {ks : List String} {cur : List Item} (P : LinSeries ks cur) (i : ℕ) :
    LinSeries ks (cur.modify i (fun x => x.markRec 0)) := by
  have back : ∀ (j : ℕ) (y : Item), (cur.modify i (fun x => x.markRec 0))[j]? = some y →
      ∃ x, cur[j]? = some x ∧ y.t = x.t ∧ y.data = x.data := by
    intro j y hy
    rw [List.getElem?_modify] at hy
    split at hy
    · cases hc : cur[j]? with
      | none => rw [hc] at hy; simp at hy
      | some x =>
        rw [hc] at hy
        simp at hy
        subst hy
        exact ⟨x, rfl, rfl, rfl⟩
    · cases hc : cur[j]? with
      | none => rw [hc] at hy; simp at hy
      | some x =>
        rw [hc] at hy
        simp at hy
        subst hy
        exact ⟨x, rfl, rfl, rfl⟩
  refine ⟨?_, ?_, ?_⟩
  · intro a b x y hab hx hy
    obtain ⟨x', f1, f2, _⟩ := back a x hx
    obtain ⟨y', f3, f4, _⟩ := back b y hy
    rw [f2, f4]
    exact P.times a b x' y' hab f1 f3
  · intro j y hy
    obtain ⟨x, f1, _, f2⟩ := back j y hy
    rw [f2]
    exact P.data j x f1
  · rw [← P.labels]
    cases cur with
    | nil => cases i <;> simp
    | cons u r => cases i <;> simp [headLabelsR, Item.markRec]

theorem LinSeries.lossyE {ks : List String} {cur : List Item} (P : LinSeries ks cur) {i : ℕ} {x : Item}
    (hx : cur[i]? = some x) (th : ℚ) : ∃ b, lossyE th x = .ok b := by
  obtain ⟨d, hd, _⟩ := P.data i x hx
  unfold Timeseria.lossyE
  rw [hd]
  dsimp only
  split
  · exact ⟨_, rfl⟩
  · exact ⟨_, rfl⟩

/-- the first or the last item is lossy -/
def LossyBorder (th : ℚ) (l : List Item) : Prop :=
  (∃ x, l[0]? = some x ∧ Lossy th x) ∨ ∃ x, l[l.length - 1]? = some x ∧ Lossy th x

/-- a predictor with a window of one item that works on the series with property `Q` -/
structure InnerPredictor (pred : Predictor) (Q : List Item → Prop) : Prop where
  refused : ∀ (cur : List Item) (g h : ℕ), g = 0 ∨ cur.length ≤ h + 1 → pred cur g h = .error .valueError
  gap : ∀ {cur : List Item}, Q cur → ∀ {g h : ℕ}, 1 ≤ g → g ≤ h → h + 1 < cur.length →
    ∃ cur', reconstructGap pred cur g h = (cur', .ok ()) ∧ cur'.length = cur.length ∧
      Q cur' ∧ ∀ j : ℕ, (j < g ∨ h < j) → cur'[j]? = cur[j]?
  mark : ∀ {cur : List Item}, Q cur → ∀ i, Q (cur.modify i (fun x => x.markRec 0))
  loss : ∀ {cur : List Item}, Q cur → ∀ {i : ℕ} {x : Item}, cur[i]? = some x → ∀ th, ∃ b, lossyE th x = .ok b

theorem innerLoop_outcome {pred : Predictor} {Q : List Item → Prop} (IP : InnerPredictor pred Q) {th : ℚ} :
    ∀ (n i : ℕ) (gap : Option ℕ) (cur : List Item),
    Q cur → 0 < cur.length → n + i = cur.length →
    (∀ g, gap = some g → g < i ∧ ∀ j, g ≤ j → j < i → ∃ x, cur[j]? = some x ∧ Lossy th x) →
    (gap = none → 0 < i → ∃ x, cur[i - 1]? = some x ∧ ¬ Lossy th x) →
    (0 < i → gap ≠ some 0 → ∃ x, cur[0]? = some x ∧ ¬ Lossy th x) →
    (LossyBorder th cur → (recLoop pred th n i gap cur).2 = .error .valueError) ∧
    (¬ LossyBorder th cur → (recLoop pred th n i gap cur).2 = .ok ()) := by
  intro n
  induction n with
  | zero =>
    intro i gap cur P hpos hn hgap hprev hfirst
    cases gap with
    | none =>
      obtain ⟨x, hx, hxl⟩ := hprev rfl (by omega)
      obtain ⟨f, hf, hfl⟩ := hfirst (by omega) (by simp)
      refine ⟨?_, fun _ => rfl⟩
      rintro (⟨y, hy, hyl⟩ | ⟨y, hy, hyl⟩)
      · rw [hf] at hy; simp at hy; subst hy; exact absurd hyl hfl
      · have : i - 1 = cur.length - 1 := by omega
        rw [← this, hx] at hy; simp at hy; subst hy; exact absurd hyl hxl
    | some g =>
      obtain ⟨hg, hl⟩ := hgap g rfl
      have : LossyBorder th cur := Or.inr (by
        have := hl (i - 1) (by omega) (by omega)
        have e : i - 1 = cur.length - 1 := by omega
        rwa [e] at this)
      refine ⟨fun _ => ?_, fun h => absurd this h⟩
      rw [recLoop, reconstructGap, IP.refused cur g (i - 1) (Or.inr (by omega))]
  | succ n ih =>
    intro i gap cur P hpos hn hgap hprev hfirst
    have hi : i < cur.length := by omega
    have hx : cur[i]? = some cur[i] := List.getElem?_eq_getElem hi
    generalize cur[i] = x at hx
    rw [recLoop.eq_def]; dsimp only
    rw [hx]; dsimp only
    obtain ⟨b, hb⟩ := IP.loss P hx th
    rw [hb]
    cases b with
    | true =>
      dsimp only
      have hL := lossyE_true hb
      apply ih (i + 1) (some (gap.getD i)) cur P hpos (by omega)
      · intro g hg
        simp at hg
        subst hg
        cases gap with
        | none =>
          simp
          intro j h1 h2
          have : j = i := by omega
          subst this
          exact ⟨x, hx, hL⟩
        | some g0 =>
          obtain ⟨h1, h2⟩ := hgap g0 rfl
          simp
          refine ⟨by omega, ?_⟩
          intro j a b
          by_cases e : j = i
          · subst e; exact ⟨x, hx, hL⟩
          · exact h2 j a (by omega)
      · intro h; simp at h
      · intro _ hne
        cases gap with
        | none =>
          simp at hne
          exact hfirst (by omega) (by simp)
        | some g0 =>
          obtain ⟨h1, _⟩ := hgap g0 rfl
          exact hfirst (by omega) (by simpa using hne)
    | false =>
      dsimp only
      have hL := lossyE_false hb
      -- the state after the item: its own lossiness and that of the borders are unchanged
      have step : ∀ mid : List Item, Q mid → mid.length = cur.length →
          (∀ j : ℕ, i ≤ j → mid[j]? = cur[j]?) → (∃ f, mid[0]? = some f ∧ ¬ Lossy th f) →
          (∃ f, cur[0]? = some f ∧ ¬ Lossy th f) →
          (LossyBorder th cur → (recLoop pred th n (i + 1) none (mid.modify i (fun x => x.markRec 0))).2 = .error .valueError) ∧
          (¬ LossyBorder th cur → (recLoop pred th n (i + 1) none (mid.modify i (fun x => x.markRec 0))).2 = .ok ()) := by
        intro mid Pm hlen hsame hm0 hc0
        have hmx : mid[i]? = some x := by rw [hsame i (le_refl _), hx]
        have lossMark : ∀ z : Item, Lossy th (z.markRec 0) ↔ Lossy th z := by
          intro z
          unfold Lossy Item.markRec
          simp only [Dict.get?_set]
          simp
        have at_ : ∀ j : ℕ, (∃ z, (mid.modify i (fun x => x.markRec 0))[j]? = some z ∧ Lossy th z) ↔
            ∃ z, mid[j]? = some z ∧ Lossy th z := by
          intro j
          rw [List.getElem?_modify]
          cases mid[j]? with
          | none => simp
          | some z =>
            by_cases e : i = j
            · simp [e, lossMark]
            · simp [e]
        have atn : ∀ j : ℕ, (∃ z, mid[j]? = some z ∧ ¬ Lossy th z) →
            ∃ z, (mid.modify i (fun x => x.markRec 0))[j]? = some z ∧ ¬ Lossy th z := by
          rintro j ⟨z, hz, hzl⟩
          rw [List.getElem?_modify, hz]
          by_cases e : i = j
          · exact ⟨z.markRec 0, by simp [e], by rw [lossMark]; exact hzl⟩
          · exact ⟨z, by simp [e], hzl⟩
        have hB : LossyBorder th (mid.modify i (fun x => x.markRec 0)) ↔ LossyBorder th cur := by
          unfold LossyBorder
          rw [at_, List.length_modify, at_, hlen, hsame (cur.length - 1) (by omega)]
          obtain ⟨f, hf, hfl⟩ := hm0
          obtain ⟨f', hf', hfl'⟩ := hc0
          rw [hf, hf']
          simp [hfl, hfl']
        have R := ih (i + 1) none (mid.modify i (fun x => x.markRec 0)) (IP.mark Pm i)
          (by rw [List.length_modify]; omega) (by rw [List.length_modify]; omega) (by intro g hg; simp at hg)
          (fun _ _ => by simpa using atn i ⟨x, hmx, hL⟩)
          (fun _ _ => atn 0 hm0)
        rw [hB] at R
        exact R
      cases gap with
      | none =>
        dsimp only
        have h0 : ∃ f, cur[0]? = some f ∧ ¬ Lossy th f := by
          by_cases e : i = 0
          · subst e; exact ⟨x, hx, hL⟩
          · exact hfirst (by omega) (by simp)
        exact step cur P rfl (fun _ _ => rfl) h0 h0
      | some g0 =>
        dsimp only
        obtain ⟨hg0, hl0⟩ := hgap g0 rfl
        by_cases e : g0 = 0
        · subst e
          have hbd : LossyBorder th cur := Or.inl (hl0 0 (le_refl _) hg0)
          refine ⟨fun _ => ?_, fun h => absurd hbd h⟩
          have : reconstructGap pred cur 0 (i - 1) = (cur, .error .valueError) := by
            rw [reconstructGap, IP.refused cur 0 (i - 1) (Or.inl rfl)]
          rw [this]
        · obtain ⟨mid, hr, h1, h2, h3⟩ := IP.gap P (g := g0) (h := i - 1) (by omega) (by omega) (by omega)
          rw [hr]
          dsimp only
          have h0 := hfirst (by omega) (by simpa using e)
          exact step mid h2 h1 (fun j hj => h3 j (by omega)) (by rw [h3 0 (by omega)]; exact h0) h0

theorem innerPredictor_linear (ks : List String) : InnerPredictor linearPredict (LinSeries ks) where
  refused := C63_refused
  gap := fun P _ _ h1 h2 h3 => linearGap_ok P h1 h2 h3
  mark := fun P i => P.mark i
  loss := fun P _ _ hx th => P.lossyE hx th

/-- **C63 (outcome)**: reconstructing a series by linear interpolation succeeds exactly if neither the
first nor the last item is lossy; otherwise it is refused with `ValueError`. -/
theorem C63_outcome {ks : List String} {l : List Item} (P : LinSeries ks l) (th : ℚ) :
    (LossyBorder th l → (reconstructInplace linearPredict th l).2 = .error .valueError) ∧
    (¬ LossyBorder th l → (reconstructInplace linearPredict th l).2 = .ok ()) := by
  have hpos : 0 < l.length := by
    cases l with
    | nil => have := P.labels; simp [headLabelsR] at this
    | cons a r => simp
  exact innerLoop_outcome (innerPredictor_linear ks) l.length 0 none l P hpos (by omega) (by intro g hg; simp at hg)
    (fun _ h => by omega) (fun h => by omega)

/-- **C63 (values)**: after a reconstruction by linear interpolation every item of a gap has, for every
label, the value at its own time of the line through the item before and the item after the gap. -/
theorem C63_values {ks : List String} {l l' : List Item} (P : LinSeries ks l) {th : ℚ}
    (hr : reconstructInplace linearPredict th l = (l', .ok ())) {g h i : ℕ} (hg : IsGap th l g h)
    (h1 : g ≤ i) (h2 : i ≤ h) :
    ∃ a b x y d, 0 < g ∧ l[g - 1]? = some a ∧ l[h + 1]? = some b ∧ l[i]? = some x ∧ l'[i]? = some y ∧
      y.data = some (.dict d) ∧ d.keys = ks ∧
      ∀ k ∈ ks, ∃ va vb, a.dictData.get? k = some va ∧ b.dictData.get? k = some vb ∧
        d.get? k = some (lineThrough a.t va b.t vb x.t) := by
  obtain ⟨p, hp, hf⟩ := C62_data hr hg
  obtain ⟨hlen, hkept⟩ := C62_items hr
  generalize hc : l'.take g ++ l.drop g = cur at hp
  have hclen : cur.length = l.length := by
    rw [← hc]; simp; omega
  have hin : 1 ≤ g ∧ h + 1 < cur.length := by
    by_contra hne
    rw [C63_refused cur g h (by omega)] at hp
    cases hp
  have clow : ∀ j : ℕ, j < g → cur[j]? = l'[j]? := by
    intro j hj
    rw [← hc, List.getElem?_append_left (by simp; omega), List.getElem?_take, if_pos hj]
  have chigh : ∀ j : ℕ, g ≤ j → cur[j]? = l[j]? := by
    intro j hj
    have hgl : g ≤ l'.length := by omega
    rw [← hc, List.getElem?_append_right (by simp; omega), List.getElem?_drop]
    congr 1
    simp
    omega
  have low : ∀ (j : ℕ) (y : Item), j < g → cur[j]? = some y → ∃ x, l[j]? = some x ∧ Kept th x y := by
    intro j y hj hy
    rw [clow j hj] at hy
    have hjl : j < l.length := by omega
    obtain ⟨y', e1, e2⟩ := hkept j l[j] (List.getElem?_eq_getElem hjl)
    rw [hy] at e1; simp at e1; subst e1
    exact ⟨_, List.getElem?_eq_getElem hjl, e2⟩
  have times : ∀ (j : ℕ) (y : Item), cur[j]? = some y → ∃ x, l[j]? = some x ∧ y.t = x.t := by
    intro j y hy
    by_cases hj : j < g
    · obtain ⟨x, e1, e2⟩ := low j y hj hy
      exact ⟨x, e1, e2.t⟩
    · rw [chigh j (by omega)] at hy
      exact ⟨y, hy, rfl⟩
  -- the neighbours
  have hal : g - 1 < l.length := by omega
  have ha : l[g - 1]? = some l[g - 1] := List.getElem?_eq_getElem hal
  generalize l[g - 1] = a at ha
  have hanl : ¬ Lossy th a := hg.before a (by omega) ha
  obtain ⟨a', ea, ka⟩ := hkept _ _ ha
  have ha' : cur[g - 1]? = some a' := by rw [clow _ (by omega), ea]
  have hb : l[h + 1]? = some l[h + 1] := List.getElem?_eq_getElem (by omega)
  generalize l[h + 1] = b at hb
  have hb' : cur[h + 1]? = some b := by rw [chigh _ (by omega), hb]
  have hx : l[i]? = some l[i] := List.getElem?_eq_getElem (by omega)
  generalize l[i] = x at hx
  have hx' : cur[i]? = some x := by rw [chigh _ (by omega), hx]
  obtain ⟨da, da1, da2⟩ := P.data _ _ ha
  obtain ⟨db, db1, db2⟩ := P.data _ _ hb
  have hva := carries_values da1 da2
  have hvb := carries_values db1 db2
  have hdat : a'.dictData = a.dictData := by
    unfold Item.dictData; rw [ka.data hanl]
  -- the step itself
  obtain ⟨y, d, f1, f2, f3⟩ := hf i h1 h2
  -- the labels: the first item is not lossy
  have hl0 : ∃ f, l[0]? = some f ∧ ¬ Lossy th f := by
    have : ¬ LossyBorder th l := by
      intro hB
      have := (C63_outcome P th).1 hB
      rw [hr] at this
      cases this
    have h0 : l[0]? = some l[0] := List.getElem?_eq_getElem (by omega)
    exact ⟨_, h0, fun hh => this (Or.inl ⟨_, h0, hh⟩)⟩
  obtain ⟨f, hf0, hfl⟩ := hl0
  have hlab : headLabelsR cur = .ok ks := by
    rw [← hc, C62_labels hr hf0 hfl, P.labels]
  -- the prediction on `cur`
  have hw : windowCheck cur.length g h = .ok () := by
    unfold windowCheck
    rw [if_neg (by omega), if_neg (by omega)]
  unfold linearPredict at hp
  rw [hw, hlab] at hp
  dsimp only at hp
  split at hp
  · cases hp
  rename_i ds hds
  simp at hp
  subst hp
  unfold Gives at f3
  dsimp only at f3
  have F := mapE_ok_inv hds
  have hi : i - g < ds.length := (List.getElem?_eq_some_iff.1 f3).1
  have e := List.Forall₂.get F (i := i - g) (by simp; omega) hi
  simp only [List.get_eq_getElem, List.getElem_range'] at e
  have e' : g + 1 * (i - g) = i := by omega
  rw [e'] at e
  have f4 : ds[i - g] = d := by
    rw [List.getElem?_eq_getElem hi] at f3
    simpa using f3
  rw [f4] at e
  unfold linearStep at e
  rw [hx'] at e
  dsimp only at e
  have c1 : ((g : Int) - 1) = ((g - 1 : ℕ) : Int) := by omega
  have c2 : ((h : Int) + 1) = ((h + 1 : ℕ) : Int) := by omega
  rw [c1, c2] at e
  have g1 : (cur.map Item.vpoint)[g - 1]? = some a'.vpoint := by rw [List.getElem?_map, ha']; rfl
  have g2 : (cur.map Item.vpoint)[h + 1]? = some b.vpoint := by rw [List.getElem?_map, hb']; rfl
  have t1 : a'.t < x.t := by rw [ka.t]; exact P.times _ _ _ _ (by omega) ha hx
  have t2 : x.t < b.t := P.times _ _ _ _ (by omega) hx hb
  obtain ⟨d', q1, q2, q3⟩ := C42_linear (ks := ks) g1 g2 _ _
    (by intro k hk; show a'.dictData.get? k = _; rw [hdat]; exact hva k hk) hvb x.t t1 t2
  rw [q1] at e
  simp at e
  subst e
  refine ⟨a, b, x, y, d', by omega, ha, hb, hx, f1, f2, q2, ?_⟩
  intro k hk
  refine ⟨_, _, hva k hk, hvb k hk, ?_⟩
  have := q3 k hk
  rw [show a'.vpoint.t = a.t from ka.t] at this
  exact this

/-! ## C62: when it succeeds -/

/-- the predictor always returns one dictionary for each item of the gap -/
def Complete (pred : Predictor) : Prop :=
  ∀ cur g h, g ≤ h → h < cur.length → ∃ ds, pred cur g h = .ok (.dicts ds) ∧ ds.length = h + 1 - g

theorem completeGap_ok {pred : Predictor} (C : Complete pred) {cur : List Item} {g h : ℕ} (hgh : g ≤ h)
    (hh : h < cur.length) (hd : ∀ (i : ℕ) (x : Item), cur[i]? = some x → x.data ≠ none) :
    ∃ cur', reconstructGap pred cur g h = (cur', .ok ()) ∧ cur'.length = cur.length ∧
      ∀ (i : ℕ) (x : Item), cur'[i]? = some x → x.data ≠ none := by
  obtain ⟨ds, h1, h2⟩ := C cur g h hgh hh
  have hok : (fillLossGap (.dicts ds) g (h + 1 - g) g cur).2 = .ok () :=
    fillLossGap_dicts_ok _ _ _ (le_refl _) (by omega) (by omega)
  have hr : reconstructGap pred cur g h = ((fillLossGap (.dicts ds) g (h + 1 - g) g cur).1, .ok ()) := by
    unfold reconstructGap
    rw [h1]
    dsimp only
    rw [← hok]
  generalize (fillLossGap (.dicts ds) g (h + 1 - g) g cur).1 = cur' at hr
  obtain ⟨p, hp, e1, e2, e3⟩ := reconstructGap_spec hgh hr
  refine ⟨cur', hr, e1, ?_⟩
  intro i y hy
  by_cases hi : g ≤ i ∧ i ≤ h
  · obtain ⟨x, d, f1, f2, f3⟩ := e3 i hi.1 hi.2
    rw [hy] at f2
    simp at f2
    subst f2
    simp [Item.rebuilt, Item.markRec]
  · rw [e2 i (by omega)] at hy
    exact hd i y hy

theorem recLoop_total {pred : Predictor} (C : Complete pred) {th : ℚ} : ∀ (n i : ℕ) (gap : Option ℕ) (cur : List Item),
    n + i = cur.length → (∀ g, gap = some g → g < i) → (∀ (i : ℕ) (x : Item), cur[i]? = some x → x.data ≠ none) →
    (recLoop pred th n i gap cur).2 = .ok () := by
  intro n
  induction n with
  | zero =>
    intro i gap cur hn hg hd
    cases gap with
    | none => rfl
    | some g =>
      have := hg g rfl
      obtain ⟨c, h1, _⟩ := completeGap_ok C (cur := cur) (g := g) (h := i - 1) (by omega) (by omega) hd
      rw [recLoop, h1]
  | succ n ih =>
    intro i gap cur hn hg hd
    have hx : cur[i]? = some cur[i] := List.getElem?_eq_getElem (by omega)
    generalize cur[i] = x at hx
    rw [recLoop.eq_def]; dsimp only
    rw [hx]; dsimp only
    have hmod : ∀ mid : List Item, (∀ (i : ℕ) (x : Item), mid[i]? = some x → x.data ≠ none) →
        ∀ (j : ℕ) (x : Item), (mid.modify i (fun x => x.markRec 0))[j]? = some x → x.data ≠ none := by
      intro mid hm j y hy
      rw [List.getElem?_modify] at hy
      cases hc : mid[j]? with
      | none => rw [hc] at hy; simp at hy
      | some z =>
        rw [hc] at hy
        simp at hy
        split at hy
        · subst hy; exact hm j z hc
        · subst hy; exact hm j z hc
    cases hl : lossyE th x with
    | error e =>
      exfalso
      have := hd i x hx
      unfold lossyE at hl
      split at hl
      · rename_i h0; exact this h0
      · split at hl <;> cases hl
    | ok b =>
      cases b with
      | true =>
        dsimp only
        refine ih (i + 1) _ cur (by omega) ?_ hd
        intro g hgg
        simp at hgg
        subst hgg
        cases gap with
        | none => simp
        | some g0 => have := hg g0 rfl; simp; omega
      | false =>
        cases gap with
        | none =>
          dsimp only
          exact ih _ _ _ (by rw [List.length_modify]; omega) (by intro g h; simp at h) (hmod cur hd)
        | some g0 =>
          dsimp only
          have := hg g0 rfl
          obtain ⟨c, h1, h2, h3⟩ := completeGap_ok C (cur := cur) (g := g0) (h := i - 1) (by omega) (by omega) hd
          rw [h1]
          dsimp only
          exact ih _ _ _ (by rw [List.length_modify]; omega) (by intro g h; simp at h) (hmod c h3)

/-- **C62 (success)**: with a predictor that never fails, reconstruction succeeds on every series of
items with data, whatever the threshold and the losses. -/
theorem C62_succeeds {pred : Predictor} (C : Complete pred) (th : ℚ) {l : List Item}
    (hd : ∀ (i : ℕ) (x : Item), l[i]? = some x → x.data ≠ none) :
    ∃ l', reconstructInplace pred th l = (l', .ok ()) :=
  ⟨_, Prod.ext rfl (recLoop_total C l.length 0 none l (by omega) (by intro g h; simp at h) hd)⟩

/-! ### A concrete case -/

/-- an hourly point with a value and a data loss -/
def hourPoint (i : ℕ) (v loss : ℚ) : Item := mkPoint (i * 3600) (.dict [("v", v)]) "UTC" [("data_loss", some loss)]

/-- two good items, a gap of two, a good one, a gap of one, a good one -/
def gappy : List Item :=
  [hourPoint 0 1 0, hourPoint 1 2 0, hourPoint 2 70 1, hourPoint 3 80 1, hourPoint 4 8 0, hourPoint 5 90 1,
   hourPoint 6 4 (1 / 2)]

example : (reconstructInplace linearPredict 1 gappy).2 = .ok () ∧
    (reconstructInplace linearPredict 1 gappy).1.map Item.dictData =
      [[("v", 1)], [("v", 2)], [("v", 4)], [("v", 6)], [("v", 8)], [("v", 6)], [("v", 4)]] ∧
    (reconstructInplace linearPredict 1 gappy).1.map (fun x => x.idx.get? "data_reconstructed") =
      [some (some 0), some (some 0), some (some 1), some (some 1), some (some 0), some (some 1), some (some 0)] := by
  decide +kernel

/-- the hypotheses of C62 and C63 are met by it -/
example : LinSeries ["v"] gappy ∧ IsGap 1 gappy 2 3 := by
  refine ⟨⟨?_, ?_, by decide +kernel⟩, ⟨by omega, ?_, ?_, ?_⟩⟩
  · intro i j x y hij hx hy
    have hj := (List.getElem?_eq_some_iff.1 hy).1
    have hj' : j < 7 := hj
    interval_cases j <;> interval_cases i <;>
      simp [gappy, hourPoint, mkPoint] at hx hy <;> subst hx <;> subst hy <;> norm_num
  · intro i x hx
    have hi' : i < 7 := (List.getElem?_eq_some_iff.1 hx).1
    interval_cases i <;> simp [gappy, hourPoint, mkPoint] at hx <;> subst hx <;>
      exact ⟨_, rfl, by simp [Dict.get?]⟩
  · intro j h1 h2
    interval_cases j
    · exact ⟨_, rfl, 1, rfl, le_refl _⟩
    · exact ⟨_, rfl, 1, rfl, le_refl _⟩
  · intro x _ hx
    simp [gappy, hourPoint, mkPoint] at hx
    subst hx
    rintro ⟨v, hv, hle⟩
    simp [Dict.get?] at hv
    subst hv
    norm_num at hle
  · intro x hx
    simp [gappy, hourPoint, mkPoint] at hx
    subst hx
    rintro ⟨v, hv, hle⟩
    simp [Dict.get?] at hv
    subst hv
    norm_num at hle

/-- a predictor meeting `Complete`: zeros -/
example : Complete (fun _ g h => .ok (.dicts (List.replicate (h + 1 - g) [("v", 0)]))) :=
  fun _ _ _ _ _ => ⟨_, rfl, by simp⟩

/-! ## C113: failures of in-place reconstruction -/

/-- **C113 is false**: an in-place reconstruction that is refused leaves the series partly reconstructed
and marked. -/
theorem C113_unchanged_false : ¬ ∀ (pred : Predictor) (th : ℚ) (l : List Item) (e : PyErr),
    (reconstructInplace pred th l).2 = .error e → (reconstructInplace pred th l).1 = l := by
  intro h
  have := h linearPredict 1 (gappy ++ [hourPoint 7 100 1]) .valueError (by decide +kernel)
  exact absurd this (by decide +kernel)

theorem fillLossGap_places {p : Prediction} {g : ℕ} : ∀ (n j : ℕ) (cur : List Item),
    (fillLossGap p g n j cur).1.map (fun x => (x.t, x.slot, x.tz)) = cur.map (fun x => (x.t, x.slot, x.tz)) := by
  intro n
  induction n with
  | zero => intro j cur; rfl
  | succ n ih =>
    intro j cur
    rw [fillLossGap]
    split
    · rfl
    · split
      · rfl
      · rename_i x hx
        rw [ih, List.map_set]
        apply List.ext_getElem?
        intro i
        by_cases e : j = i
        · subst e
          rw [List.getElem?_set_self (by simpa using (List.getElem?_eq_some_iff.1 hx).1), List.getElem?_map, hx]
          rfl
        · rw [List.getElem?_set_ne e]

theorem reconstructGap_places (pred : Predictor) (cur : List Item) (g h : ℕ) :
    (reconstructGap pred cur g h).1.map (fun x => (x.t, x.slot, x.tz)) = cur.map (fun x => (x.t, x.slot, x.tz)) := by
  unfold reconstructGap
  split
  · rfl
  · exact fillLossGap_places _ _ _

theorem modify_places (cur : List Item) (i : ℕ) :
    (cur.modify i (fun x => x.markRec 0)).map (fun x => (x.t, x.slot, x.tz)) = cur.map (fun x => (x.t, x.slot, x.tz)) := by
  apply List.ext_getElem?
  intro j
  rw [List.getElem?_map, List.getElem?_modify, List.getElem?_map]
  cases cur[j]? with
  | none => simp
  | some x => by_cases e : i = j <;> simp [e, Item.markRec]

theorem recLoop_places {pred : Predictor} {th : ℚ} : ∀ (n i : ℕ) (gap : Option ℕ) (cur : List Item),
    (recLoop pred th n i gap cur).1.map (fun x => (x.t, x.slot, x.tz)) = cur.map (fun x => (x.t, x.slot, x.tz)) := by
  intro n
  induction n with
  | zero =>
    intro i gap cur
    cases gap with
    | none => rfl
    | some g => rw [recLoop]; exact reconstructGap_places _ _ _ _
  | succ n ih =>
    intro i gap cur
    rw [recLoop.eq_def]; dsimp only
    split
    · rfl
    · split
      · rfl
      · exact ih _ _ _
      · cases gap with
        | none => dsimp only; rw [ih, modify_places]
        | some g =>
          dsimp only
          have := reconstructGap_places pred cur g (i - 1)
          split
          · rename_i c e hc
            rw [hc] at this
            exact this
          · rename_i c hc
            rw [hc] at this
            rw [ih, modify_places, this]

/-- **C113 (part)**: a refused in-place reconstruction still keeps the number of items and the place in
time of each. -/
theorem C113_places_partial (pred : Predictor) (th : ℚ) (l : List Item) :
    (reconstructInplace pred th l).1.map (fun x => (x.t, x.slot, x.tz)) = l.map (fun x => (x.t, x.slot, x.tz)) :=
  recLoop_places _ _ _ _

/-! ## C114: the scores of an evaluation -/

/-- **C114 is false**: the mean absolute percentage error of an evaluation is not the one of the
predicted values with respect to the actual ones. -/
theorem C114_mape_false : ¬ ∀ (pv av : List ℚ) (r : RecScore), evalScore pv av = .ok r → mape av pv = .ok r.mape := by
  intro h
  have := h [2] [1] ⟨1, 1, 1 / 2⟩ (by decide +kernel)
  exact absurd this (by decide +kernel)

theorem skMean_symm (f : ℚ → ℚ) (hf : ∀ d, f (-d) = f d) (l m : List ℚ) : skMean f l m = skMean f m l := by
  unfold skMean
  by_cases h : l.length = m.length
  · have e : List.zipWith (fun a b => f (a - b)) l m = List.zipWith (fun a b => f (a - b)) m l := by
      rw [List.zipWith_comm]
      congr 1
      funext a b
      rw [← hf, neg_sub]
    simp only [h, e]
  · rw [if_pos h, if_pos (Ne.symm h)]

/-- **C114 (part)**: the other two scores are those of the predicted values with respect to the actual
ones: they do not depend on the order.  The percentage error is relative to the predicted values. -/
theorem C114_scores_partial {pv av : List ℚ} {r : RecScore} (h : evalScore pv av = .ok r) :
    mse av pv = .ok r.mse ∧ mae av pv = .ok r.mae ∧ mape pv av = .ok r.mape := by
  unfold evalScore at h
  split at h
  · cases h
  rename_i a ha
  split at h
  · cases h
  rename_i b hb
  split at h
  · cases h
  rename_i c hc
  simp at h
  subst h
  refine ⟨?_, ?_, hc⟩
  · rw [← ha]; exact skMean_symm _ (fun d => by ring) _ _
  · rw [← hb]; exact skMean_symm _ (fun d => abs_neg d) _ _

/-! ## C116: where a reconstructor is evaluated -/

theorem anyLossy_false {th : ℚ} {l : List Item} : anyLossy th l = .ok false → ∀ x ∈ l, ¬ Lossy th x := by
  induction l with
  | nil => intro _; simp
  | cons y r ih =>
    intro h
    rw [anyLossy] at h
    split at h
    · cases h
    · cases h
    · rename_i hy
      intro x hx
      rcases List.mem_cons.1 hx with rfl | hx
      · exact lossyE_false hy
      · exact ih h x hx

theorem anyLossy_ok {th : ℚ} {l : List Item} (hd : ∀ x ∈ l, x.data ≠ none) (hl : ∀ x ∈ l, ¬ Lossy th x) :
    anyLossy th l = .ok false := by
  induction l with
  | nil => rfl
  | cons y r ih =>
    rw [anyLossy]
    cases hy : lossyE th y with
    | error e =>
      exfalso
      have := hd y (by simp)
      unfold lossyE at hy
      split at hy
      · rename_i h0; exact this h0
      · split at hy <;> cases hy
    | ok b =>
      cases b with
      | true => exact absurd (lossyE_true hy) (hl y (by simp))
      | false => exact ih (fun x hx => hd x (by simp [hx])) (fun x hx => hl x (by simp [hx]))

theorem mem_span {l : List Item} {a n : ℕ} {x : Item} (h : x ∈ span l a n) :
    ∃ j, a ≤ j ∧ j < a + n ∧ l[j]? = some x := by
  unfold span at h
  obtain ⟨i, hi⟩ := List.mem_iff_getElem?.1 h
  rw [List.getElem?_take] at hi
  split at hi
  · rename_i hin
    rw [List.getElem?_drop] at hi
    exact ⟨a + i, by omega, by omega, hi⟩
  · cases hi

theorem span_mem {l : List Item} {a n j : ℕ} {x : Item} (h1 : a ≤ j) (h2 : j < a + n) (h : l[j]? = some x) :
    x ∈ span l a n := by
  unfold span
  apply List.mem_iff_getElem?.2
  refine ⟨j - a, ?_⟩
  rw [List.getElem?_take, if_pos (by omega), List.getElem?_drop]
  rw [show a + (j - a) = j by omega]
  exact h

/-- **C116 (part)**: the areas where a model with window `W` is evaluated are those with `W` items before,
`W` items and **one more** after, and no lossy item in the area and the windows. -/
theorem C116_areas_partial {l : List Item} (hd : ∀ x ∈ l, x.data ≠ none) (W : ℕ) (th : ℚ) (s i : ℕ) :
    areaGood l W th s i = .ok true ↔ W ≤ i ∧ i + s + W < l.length ∧
      ∀ (j : ℕ) (x : Item), i - W ≤ j → j < i + s + W → l[j]? = some x → ¬ Lossy th x := by
  have hsp : ∀ a n, ∀ x ∈ span l a n, x.data ≠ none := by
    intro a n x hx
    obtain ⟨j, _, _, hj⟩ := mem_span hx
    exact hd x (List.mem_of_getElem? hj)
  constructor
  · intro h
    unfold areaGood at h
    split at h
    · cases h
    rename_i hW
    split at h
    · cases h
    · cases h
    rename_i hb
    split at h
    · cases h
    rename_i hlen
    split at h
    · cases h
    · cases h
    rename_i ha
    split at h
    · cases h
    rename_i b hg
    cases b with
    | true => cases h
    | false =>
      refine ⟨by omega, by omega, ?_⟩
      intro j x h1 h2 hx
      by_cases c1 : j < i
      · exact anyLossy_false hb x (span_mem h1 (by omega) hx)
      · by_cases c2 : j < i + s
        · exact anyLossy_false hg x (span_mem (by omega) c2 hx)
        · exact anyLossy_false ha x (span_mem (by omega) (by omega) hx)
  · rintro ⟨h1, h2, h3⟩
    have sp : ∀ a n, i - W ≤ a → a + n ≤ i + s + W → anyLossy th (span l a n) = .ok false := by
      intro a n ha hn
      apply anyLossy_ok (hsp a n)
      intro x hx
      obtain ⟨j, e1, e2, e3⟩ := mem_span hx
      exact h3 j x (by omega) (by omega) e3
    unfold areaGood
    rw [if_neg (by omega), sp (i - W) W (by omega) (by omega)]
    dsimp only
    rw [if_neg (by omega), sp (i + s) W (by omega) (by omega)]
    dsimp only
    rw [sp i s (by omega) (by omega)]
    rfl

/-- a predictor in the format of the periodic average model: the value before the gap -/
def previousValue : Predictor := fun cur g h =>
  match cur[g - 1]? with
  | some x => .ok (.lists [("v", List.replicate (h + 1 - g) ((x.dictData.get? "v").getD 0))])
  | none => .error .valueError

/-- **C116 is false**: a series without any loss, long enough for the windows around one item, is not
evaluated at all although the model predicts that item. -/
theorem C116_areas_false : ∃ l : List Item, (∀ x ∈ l, ¬ Lossy 1 x) ∧ l.length = 1 + 1 + 1 ∧
    (linearPredict l 1 1).toOption.isSome ∧ (previousValue l 1 1).toOption.isSome ∧
    recEvaluate previousValue l 1 1 none [1] = .error .exception := by
  refine ⟨[hourPoint 0 1 0, hourPoint 1 2 0, hourPoint 2 3 0], ?_, rfl, by decide +kernel, by decide +kernel, by decide +kernel⟩
  intro x hx
  simp [hourPoint, mkPoint] at hx
  rcases hx with rfl | rfl | rfl <;>
  · rintro ⟨v, hv, hle⟩
    simp [Dict.get?] at hv
    subst hv
    norm_num at hle

/-- the positions taken: the good ones in order, at most `limit` of them -/
def takeLimit (limit : Option ℕ) (n : ℕ) (l : List ℕ) : List ℕ :=
  match limit with
  | none => l
  | some m => l.take (m - n)

theorem evalLoop_spec {pred : Predictor} {l : List Item} {k : String} {W : ℕ} {th : ℚ} {limit : Option ℕ} {s : ℕ}
    (good : ℕ → Bool) (pf af : ℕ → List ℚ) : ∀ (is : List ℕ) (n : ℕ) (pv av pv' av' : List ℚ),
    (∀ i ∈ is, areaGood l W th s i = .ok (good i)) →
    (∀ i ∈ is, ∀ p a, evalArea pred l k s i = .ok (p, a) → p = pf i ∧ a = af i) →
    evalLoop pred l k W th limit s is n pv av = .ok (pv', av') →
    pv' = pv ++ ((takeLimit limit n (is.filter good)).map pf).flatten ∧
    av' = av ++ ((takeLimit limit n (is.filter good)).map af).flatten := by
  intro is
  induction is with
  | nil =>
    intro n pv av pv' av' _ _ h
    simp [evalLoop] at h
    obtain ⟨rfl, rfl⟩ := h
    cases limit <;> simp [takeLimit]
  | cons i r ih =>
    intro n pv av pv' av' hg hv h
    rw [evalLoop] at h
    split at h
    · rename_i hlim
      simp at h
      obtain ⟨rfl, rfl⟩ := h
      cases limit with
      | none => simp [limitReachedR] at hlim
      | some m =>
        simp [limitReachedR] at hlim
        simp [takeLimit, Nat.sub_eq_zero_of_le hlim]
    · rename_i hlim
      have hgi := hg i (by simp)
      rw [hgi] at h
      cases hc : good i with
      | false =>
        rw [hc] at h
        dsimp only at h
        have := ih n pv av pv' av' (fun j hj => hg j (by simp [hj])) (fun j hj => hv j (by simp [hj])) h
        rw [List.filter_cons_of_neg (by simp [hc])]
        exact this
      | true =>
        rw [hc] at h
        dsimp only at h
        split at h
        · cases h
        · rename_i p a hpa
          obtain ⟨rfl, rfl⟩ := hv i (by simp) p a hpa
          obtain ⟨e1, e2⟩ := ih (n + 1) _ _ pv' av' (fun j hj => hg j (by simp [hj])) (fun j hj => hv j (by simp [hj])) h
          rw [List.filter_cons_of_pos (by simp [hc])]
          cases limit with
          | none =>
            simp only [takeLimit] at e1 e2 ⊢
            simp [e1, e2]
          | some m =>
            simp [limitReachedR] at hlim
            simp only [takeLimit] at e1 e2 ⊢
            obtain ⟨q, hq⟩ : ∃ q, m - n = q + 1 := ⟨m - n - 1, by omega⟩
            have hq' : m - (n + 1) = q := by omega
            rw [hq, List.take_succ_cons]
            rw [hq'] at e1 e2
            simp [e1, e2]

/-- the values a dictionary of lists has for a label -/
def predictedList (r : Except PyErr Prediction) (k : String) : List ℚ :=
  match r with
  | .ok (.lists d) => (d.get? k).getD []
  | _ => []

/-- the usable areas (decided) -/
def usable (l : List Item) (W : ℕ) (th : ℚ) (s i : ℕ) : Bool := decide (areaGood l W th s i = .ok true)

theorem areaGood_ok {l : List Item} (hd : ∀ x ∈ l, x.data ≠ none) (W : ℕ) (th : ℚ) (s i : ℕ) :
    areaGood l W th s i = .ok (usable l W th s i) := by
  have hany : ∀ m : List Item, (∀ x ∈ m, x.data ≠ none) → ∃ b, anyLossy th m = .ok b := by
    intro m
    induction m with
    | nil => intro _; exact ⟨_, rfl⟩
    | cons y r ih =>
      intro hm
      rw [anyLossy]
      cases hy : lossyE th y with
      | error e =>
        exfalso
        have := hm y (by simp)
        unfold lossyE at hy
        split at hy
        · rename_i h0; exact this h0
        · split at hy <;> cases hy
      | ok b =>
        cases b with
        | true => exact ⟨_, rfl⟩
        | false => exact ih (fun x hx => hm x (by simp [hx]))
  have hsp : ∀ a n, ∃ b, anyLossy th (span l a n) = .ok b := by
    intro a n
    apply hany
    intro x hx
    obtain ⟨j, _, _, hj⟩ := mem_span hx
    exact hd x (List.mem_of_getElem? hj)
  have : ∃ b, areaGood l W th s i = .ok b := by
    unfold areaGood
    split
    · exact ⟨_, rfl⟩
    · obtain ⟨b1, h1⟩ := hsp (i - W) W
      obtain ⟨b2, h2⟩ := hsp (i + s) W
      obtain ⟨b3, h3⟩ := hsp i s
      rw [h1, h2, h3]
      cases b1
      · dsimp only
        split
        · exact ⟨_, rfl⟩
        · cases b2 <;> exact ⟨_, rfl⟩
      · exact ⟨_, rfl⟩
  obtain ⟨b, hb⟩ := this
  unfold usable
  cases b <;> simp [hb]

/-- **C116 (values)**: the values compared in an evaluation are, area by area and in order (the first
`limit` of the usable areas), the ones predicted and the ones of the series. -/
theorem C116_values {pred : Predictor} {l : List Item} {k : String} {W : ℕ} {th : ℚ} {limit : Option ℕ} {s : ℕ}
    (hd : ∀ x ∈ l, x.data ≠ none) {pv av : List ℚ} (h : evalValues pred l k W th limit s = .ok (pv, av)) :
    let areas := takeLimit limit 0 ((List.range l.length).filter (usable l W th s))
    pv = (areas.map (fun i => predictedList (pred l i (i + s - 1)) k)).flatten ∧
    av = (areas.map (fun i => (span l i s).map (fun x => (x.dictData.get? k).getD 0))).flatten ∧ pv ≠ [] := by
  unfold evalValues at h
  split at h
  · cases h
  · rename_i pv' av' he
    split at h
    · cases h
    · rename_i hne
      simp at h
      obtain ⟨rfl, rfl⟩ := h
      have := evalLoop_spec (usable l W th s) (fun i => predictedList (pred l i (i + s - 1)) k)
        (fun i => (span l i s).map (fun x => (x.dictData.get? k).getD 0)) _ _ _ _ _ _
        (fun i _ => areaGood_ok hd W th s i) ?_ he
      · simp only [List.nil_append] at this
        refine ⟨this.1, this.2, ?_⟩
        intro e
        rw [e] at hne
        simp at hne
      · intro i _ p a hpa
        unfold evalArea at hpa
        split at hpa
        · cases hpa
        rename_i pr hpr
        split at hpa
        · cases hpa
        rename_i act hact
        split at hpa
        · cases hpa
        rename_i v hv
        simp at hpa
        obtain ⟨rfl, rfl⟩ := hpa
        constructor
        · rw [hpr]
          unfold predictedValues at hv
          split at hv
          · split at hv
            · rename_i l' hl'
              simp at hv
              subst hv
              simp [predictedList, hl']
            · cases hv
          · cases hv
          · cases hv
        · have F := mapE_ok_inv hact
          apply List.ext_getElem?
          intro j
          rw [List.getElem?_map]
          by_cases hj : j < (span l i s).length
          · have e := F.get (i := j) hj (by rw [← F.length_eq]; exact hj)
            simp only [List.get_eq_getElem] at e
            rw [List.getElem?_eq_getElem (by rw [← F.length_eq]; exact hj), List.getElem?_eq_getElem hj]
            simp only [Option.map_some]
            unfold Item.raw at e
            unfold Item.dictData
            split at e
            · cases e
            · rename_i d hdd
              rw [hdd]
              split at e
              · rename_i v' hv'
                simp at e
                rw [← e]
                simp [hv']
              · cases e
            · cases e
          · rw [List.getElem?_eq_none (by rw [← F.length_eq]; omega), List.getElem?_eq_none (by omega)]
            rfl

/-! ## C115: evaluating the linear interpolation reconstructor -/

theorem evalLoop_linear {l : List Item} {k : String} {W : ℕ} {th : ℚ} {limit : Option ℕ} {s : ℕ} :
    ∀ (is : List ℕ) (n : ℕ) (r : List ℚ × List ℚ), evalLoop linearPredict l k W th limit s is n [] [] = .ok r →
      r = ([], []) := by
  intro is
  induction is with
  | nil => intro n r h; simp [evalLoop] at h; exact h.symm
  | cons i t ih =>
    intro n r h
    rw [evalLoop] at h
    split at h
    · simp at h; exact h.symm
    · split at h
      · cases h
      · exact ih _ _ h
      · exfalso
        have : ∃ e, evalArea linearPredict l k s i = .error e := by
          unfold evalArea
          cases hp : linearPredict l i (i + s - 1) with
          | error e => exact ⟨e, rfl⟩
          | ok p =>
            dsimp only
            cases mapE (fun x => x.raw k) (span l i s) with
            | error e => exact ⟨e, rfl⟩
            | ok a =>
              dsimp only
              unfold linearPredict at hp
              split at hp
              · cases hp
              · split at hp
                · cases hp
                · split at hp
                  · cases hp
                  · simp at hp
                    subst hp
                    exact ⟨_, rfl⟩
        obtain ⟨e, he⟩ := this
        rw [he] at h
        cases h

/-- **C115 is false**: the linear interpolation reconstructor can be applied but never evaluated: every
evaluation raises, whatever the series, the threshold, the limit and the steps. -/
theorem C115_linear_false (l : List Item) (th : ℚ) (limit : Option ℕ) (s : ℕ) (steps : List ℕ) (k : String)
    (hk : headLabelsR l = .ok [k]) : ∃ e, recEvaluate linearPredict l 1 th limit (s :: steps) = .error e := by
  unfold recEvaluate
  rw [hk]
  dsimp only
  have : ∃ e, evalValues linearPredict l k 1 th limit s = .error e := by
    unfold evalValues
    cases h : evalLoop linearPredict l k 1 th limit s (List.range l.length) 0 [] [] with
    | error e => exact ⟨e, rfl⟩
    | ok r =>
      have := evalLoop_linear _ _ _ h
      subst this
      exact ⟨_, rfl⟩
  obtain ⟨e, he⟩ := this
  refine mapE_error (a := s) (e := e) (by simp) ?_
  rw [he]
  rfl

/-- applied without problems, evaluated with a `TypeError` -/
example : (reconstructInplace linearPredict 1 gappy).2 = .ok () ∧ headLabelsR gappy = .ok ["v"] ∧
    recEvaluate linearPredict ((List.range 5).map (fun i => hourPoint i i 0)) 1 1 none [1] = .error .typeError := by
  decide +kernel

theorem evalLoop_total {pred : Predictor} {l : List Item} {k : String} {W : ℕ} {th : ℚ} {s : ℕ}
    (hd : ∀ x ∈ l, x.data ≠ none)
    (hv : ∀ i, usable l W th s i = true → ∃ p a, evalArea pred l k s i = .ok (p, a)) :
    ∀ (is : List ℕ) (n : ℕ) (pv av : List ℚ), ∃ r, evalLoop pred l k W th none s is n pv av = .ok r := by
  intro is
  induction is with
  | nil => intro n pv av; exact ⟨_, rfl⟩
  | cons i t ih =>
    intro n pv av
    rw [evalLoop]
    simp only [limitReachedR, Bool.false_eq_true, if_false]
    rw [areaGood_ok hd W th s i]
    cases hu : usable l W th s i with
    | false => exact ih _ _ _
    | true =>
      obtain ⟨p, a, h⟩ := hv i hu
      dsimp only
      rw [h]
      exact ih _ _ _

/-- **C115 (part)**: a model that predicts dictionaries of non-empty lists on the usable areas can be
evaluated, if there is a usable area. -/
theorem C115_lists_partial {pred : Predictor} {l : List Item} {k : String} {W : ℕ} {th : ℚ} {s : ℕ}
    (hd : ∀ x ∈ l, ∃ d v, x.data = some (.dict d) ∧ d.get? k = some v)
    (hp : ∀ i, usable l W th s i = true → ∃ d vs, pred l i (i + s - 1) = .ok (.lists d) ∧ d.get? k = some vs ∧ vs ≠ [])
    (hu : ∃ i, i < l.length ∧ usable l W th s i = true) :
    ∃ pv av, evalValues pred l k W th none s = .ok (pv, av) := by
  have hd' : ∀ x ∈ l, x.data ≠ none := by
    intro x hx
    obtain ⟨d, v, h, _⟩ := hd x hx
    rw [h]; simp
  have harea : ∀ i, usable l W th s i = true → ∃ p a, evalArea pred l k s i = .ok (p, a) := by
    intro i hi
    obtain ⟨d, vs, h1, h2, _⟩ := hp i hi
    have hm : mapE (fun x => x.raw k) (span l i s) = .ok ((span l i s).map (fun x => (x.dictData.get? k).getD 0)) := by
      apply mapE_ok
      intro x hx
      obtain ⟨j, _, _, hj⟩ := mem_span hx
      obtain ⟨d, v, e1, e2⟩ := hd x (List.mem_of_getElem? hj)
      unfold Item.raw Item.dictData
      rw [e1]
      simp [e2]
    refine ⟨vs, (span l i s).map (fun x => (x.dictData.get? k).getD 0), ?_⟩
    unfold evalArea
    rw [h1]
    dsimp only
    rw [hm]
    dsimp only
    unfold predictedValues
    dsimp only
    rw [h2]
  obtain ⟨⟨pv, av⟩, hr⟩ := evalLoop_total hd' harea (List.range l.length) 0 [] []
  have := evalLoop_spec (usable l W th s) (fun i => predictedList (pred l i (i + s - 1)) k)
    (fun i => match evalArea pred l k s i with | .ok (_, a) => a | .error _ => []) _ _ _ _ _ _
    (fun i _ => areaGood_ok hd' W th s i) (by
      intro i _ p a hpa
      refine ⟨?_, by rw [hpa]⟩
      unfold evalArea at hpa
      split at hpa
      · cases hpa
      rename_i pr hpr
      split at hpa
      · cases hpa
      split at hpa
      · cases hpa
      rename_i v hv
      simp at hpa
      obtain ⟨rfl, rfl⟩ := hpa
      rw [hpr]
      unfold predictedValues at hv
      split at hv
      · split at hv
        · rename_i l' hl'
          simp at hv
          subst hv
          simp [predictedList, hl']
        · cases hv
      · cases hv
      · cases hv) hr
  refine ⟨pv, av, ?_⟩
  unfold evalValues
  rw [hr]
  dsimp only
  rw [if_neg]
  intro hempty
  obtain ⟨i, hi1, hi2⟩ := hu
  obtain ⟨d, vs, h1, h2, h3⟩ := hp i hi2
  have hpv := this.1
  simp only [List.nil_append, takeLimit] at hpv
  have he : pv = [] := by simpa using hempty
  rw [he] at hpv
  have := List.flatten_eq_nil_iff.1 hpv.symm (predictedList (pred l i (i + s - 1)) k) (by
    apply List.mem_map.2
    exact ⟨i, List.mem_filter.2 ⟨List.mem_range.2 hi1, hi2⟩, rfl⟩)
  rw [h1] at this
  simp [predictedList, h2] at this
  exact h3 this

/-- a concrete evaluation -/
example : recEvaluate previousValue ((List.range 5).map (fun i => hourPoint i (i + 1) 0)) 1 1 none [1] =
    .ok [⟨1, 1, 3 / 4⟩] := by decide +kernel

end Timeseria
