import Verif.Lemmas.SeriesClean

/-! Duplicating a series built by appends. -/

namespace Timeseria
open TSeries

theorem spacings_prefix (a b : List ℚ) : ∀ v ∈ spacings a, v ∈ spacings (a ++ b) := by
  induction a with
  | nil => simp [spacings]
  | cons x r ih =>
    cases r with
    | nil => simp [spacings]
    | cons y r' =>
      intro v hv
      simp only [spacings, List.mem_cons] at hv
      simp only [List.cons_append, spacings, List.mem_cons]
      rcases hv with hv | hv
      · left; exact hv
      · right; exact ih v hv

theorem build_prefix {l₁ l₂ : List Item} {s : TSeries} (h : TSeries.build (l₁ ++ l₂) = .ok s) :
    ∃ s₁, TSeries.build l₁ = .ok s₁ := by
  induction l₂ using List.reverseRecOn generalizing s with
  | nil => exact ⟨s, by simpa using h⟩
  | append_singleton l x ih =>
    rw [← List.append_assoc] at h
    obtain ⟨s₀, h0, _⟩ := build_snoc h
    exact ih h0

theorem kind_build {l : List Item} {s : TSeries} (h : TSeries.build l = .ok s) : KindInv l := by
  rw [build_ok_iff] at h
  have := appendAll_inv kind_append TSeries.empty l (by intro a ha; simp [TSeries.empty] at ha)
  have h2 := appendAll_ok_items TSeries.empty l (by rw [h])
  rw [h2] at this; simpa [TSeries.empty] using this

theorem slotInv_empty : SlotInv TSeries.empty := by
  constructor <;> simp [TSeries.empty, AllSlots]

theorem build_slotInv {l : List Item} {s : TSeries} (hl : AllSlots l)
    (h : TSeries.build l = .ok s) : SlotInv s := by
  rw [build_ok_iff] at h
  have := appendAll_slotInv TSeries.empty l hl slotInv_empty
  rw [h] at this; exact this

/-- the state of the copy after re-appending the items of a prefix -/
structure DupState (s d s₁ : TSeries) : Prop where
  base : SameBase d s₁
  res : d.res = s.res
  resS : d.resS = s.resS
  tz : d.tz = s.tz

theorem dup_slots {l : List Item} {s : TSeries} (hl : AllSlots l) (h : TSeries.build l = .ok s)
    (l₁ : List Item) : ∀ l₂, l = l₁ ++ l₂ →
    ∃ d s₁, ({ s with items := [] } : TSeries).appendAll l₁ = (d, .ok ()) ∧
      TSeries.build l₁ = .ok s₁ ∧ DupState s d s₁ ∧ d.prevT = s.prevT := by
  induction l₁ using List.reverseRecOn with
  | nil =>
    intro l₂ _
    exact ⟨{ s with items := [] }, TSeries.empty, rfl, rfl,
      ⟨⟨rfl, fun h => absurd rfl h⟩, rfl, rfl, rfl⟩, rfl⟩
  | append_singleton l₁ x ih =>
    intro l₂ heq
    obtain ⟨d, s₁, hd, hs₁, hD, hp⟩ := ih ([x] ++ l₂) (by rw [heq]; simp)
    obtain ⟨s₂, hs₂⟩ : ∃ s₂, TSeries.build (l₁ ++ [x]) = .ok s₂ :=
      build_prefix (l₂ := l₂) (by rw [← heq]; exact h)
    obtain ⟨s₁', hs₁', happ⟩ := build_snoc hs₂
    rw [hs₁] at hs₁'; injection hs₁' with hs₁'; subst hs₁'
    have hxs : x.isSlot = true := hl x (by rw [heq]; simp)
    have hinv := build_slotInv hl h
    have hit := build_items h
    obtain ⟨u, z, hu, hz, hall⟩ := hinv.noUnit (by rw [hit, heq]; simp)
    have hx := hall x (by rw [hit, heq]; simp)
    have hpre : d.pre x = (d, .ok ()) := by
      have : d.pre x = d.preSlot x := by simp [TSeries.pre, hxs]
      rw [this]
      unfold TSeries.preSlot
      have hg : d.getTz = some z := by unfold TSeries.getTz; rw [hD.tz, hz]
      simp only [hg, hD.tz, hz, hD.res, hu, hx.1, hx.2, ne_eq, not_true_eq_false, if_false]
    have hok := (append_ok_iff s₁ x).1 (by rw [happ])
    have hst := append_state_ok s₁ x (by rw [happ])
    have hbase : SameBase d (s₁.pre x).1 := by
      refine ⟨?_, ?_⟩
      · rw [pre_items]; exact hD.base.1
      · rw [pre_ref]; exact hD.base.2
    obtain ⟨h1, h2, h3⟩ := baseAppend_same hbase x hok.2
    have happd : d.append x = d.baseAppend x := by
      rw [append_eq, hpre]
    refine ⟨(d.baseAppend x).1, s₂, ?_, hs₂, ?_, ?_⟩
    · rw [appendAll_append _ _ _ (by rw [hd]), hd]
      simp only [TSeries.appendAll, happd, h1]
    · have : s₂ = ((s₁.pre x).1.baseAppend x).1 := by rw [← hst, happ]
      rw [this]
      refine ⟨h2, ?_, ?_, ?_⟩
      · rw [h3]; exact hD.res
      · rw [h3]; exact hD.resS
      · rw [h3]; exact hD.tz
    · rw [h3]; exact hp

theorem dup_points {l : List Item} {s : TSeries} (hl : AllPoints l) (h : TSeries.build l = .ok s)
    (l₁ : List Item) : ∀ l₂, l = l₁ ++ l₂ →
    ∃ d s₁, ({ s with items := [] } : TSeries).appendAll l₁ = (d, .ok ()) ∧
      TSeries.build l₁ = .ok s₁ ∧ DupState s d s₁ ∧ (l₁ ≠ [] → d.prevT = s₁.prevT) := by
  induction l₁ using List.reverseRecOn with
  | nil =>
    intro l₂ _
    exact ⟨{ s with items := [] }, TSeries.empty, rfl, rfl,
      ⟨⟨rfl, fun h => absurd rfl h⟩, rfl, rfl, rfl⟩, fun h => absurd rfl h⟩
  | append_singleton l₁ x ih =>
    intro l₂ heq
    obtain ⟨d, s₁, hd, hs₁, hD, hp⟩ := ih ([x] ++ l₂) (by rw [heq]; simp)
    obtain ⟨s₂, hs₂⟩ : ∃ s₂, TSeries.build (l₁ ++ [x]) = .ok s₂ :=
      build_prefix (l₂ := l₂) (by rw [← heq]; exact h)
    obtain ⟨s₁', hs₁', happ⟩ := build_snoc hs₂
    rw [hs₁] at hs₁'; injection hs₁' with hs₁'; subst hs₁'
    have hxp : x.isSlot = false := hl x (by rw [heq]; simp)
    have hclean := build_clean hl h
    have hclean₁ := build_clean (fun y hy => hl y (by rw [heq]; simp [hy])) hs₁
    have hit := build_items h
    have hit₁ := build_items hs₁
    have hok := (append_ok_iff s₁ x).1 (by rw [happ])
    have hst := append_state_ok s₁ x (by rw [happ])
    have hpre : d.pre x = ({ d with prevT := some x.t }, .ok ()) := by
      have : d.pre x = d.prePoint x := by simp [TSeries.pre, hxp]
      rw [this]
      unfold TSeries.prePoint
      cases hlast : l₁.getLast? with
      | none =>
        have hnil : l₁ = [] := by simpa using hlast
        have hdi : d.items = [] := by rw [hD.base.1, hit₁, hnil]
        cases hdp : d.prevT with
        | none => simp
        | some p => simp [hdi]
      | some y =>
        have hne : l₁ ≠ [] := by intro h0; rw [h0] at hlast; simp at hlast
        have hdp : d.prevT = some y.t := by rw [hp hne, hclean₁.prev, hit₁, hlast]; rfl
        have hdi : d.items.isEmpty = false := by
          rw [hD.base.1, hit₁]; cases hl1 : l₁ with
          | nil => exact absurd hl1 hne
          | cons => rfl
        have hgt : y.t < x.t := by
          rcases append_items s₁ x with ⟨e, he, _⟩ | ⟨_, _, _, hlt, _⟩
          · rw [happ] at he; cases he
          · exact (hlt y (by rw [hit₁]; exact hlast)).2 hxp
        have hmem : x.t - y.t ∈ spacings (times s.items) := by
          rw [hit, heq]
          have : times (l₁ ++ [x] ++ l₂) = times (l₁ ++ [x]) ++ times l₂ := by simp [times]
          rw [this]
          apply spacings_prefix
          rw [times_append, spacings_snoc' (a := y.t) (by rw [times_getLast?, hlast]; rfl)]
          simp
        have n1 : ¬ x.t < y.t := by linarith
        have n2 : ¬ x.t = y.t := by intro h; linarith
        simp only [hdp, hdi, Bool.false_eq_true, if_false, n1, n2]
        have hr := hclean.res
        have hrs := hclean.resS
        cases hsp : spacings (times s.items) with
        | nil => rw [hsp] at hmem; simp at hmem
        | cons a as =>
          rw [hsp] at hmem hr hrs
          obtain ⟨u, hu⟩ := hclean.conv a as hsp
          by_cases hun : ∀ z ∈ as, z = a
          · rw [specRes_uniform hun hu] at hr
            rw [specResS_uniform hun] at hrs
            have ha : a = x.t - y.t := by
              rcases List.mem_cons.1 hmem with h | h
              · exact h.symm
              · exact (hun _ h).symm
            simp only [hD.res, hr, hD.resS, hrs]
            simp only [ne_eq, ha, not_true_eq_false, if_false]
          · rw [specRes_variable hun] at hr
            simp only [hD.res, hr]
    have hbase : SameBase ({ d with prevT := some x.t }) (s₁.pre x).1 := by
      refine ⟨?_, ?_⟩
      · rw [pre_items]; exact hD.base.1
      · rw [pre_ref]; exact hD.base.2
    obtain ⟨h1, h2, h3⟩ := baseAppend_same hbase x hok.2
    have happd : d.append x = ({ d with prevT := some x.t } : TSeries).baseAppend x := by
      rw [append_eq, hpre]
    refine ⟨(({ d with prevT := some x.t } : TSeries).baseAppend x).1, s₂, ?_, hs₂, ?_, ?_⟩
    · rw [appendAll_append _ _ _ (by rw [hd]), hd]
      simp only [TSeries.appendAll, happd, h1]
    · have : s₂ = ((s₁.pre x).1.baseAppend x).1 := by rw [← hst, happ]
      rw [this]
      refine ⟨h2, ?_, ?_, ?_⟩
      · rw [h3]; exact hD.res
      · rw [h3]; exact hD.resS
      · rw [h3]; exact hD.tz
    · intro _
      have hc2 := build_clean (fun y hy => hl y (by
        rw [heq]; exact List.mem_append_left _ hy)) hs₂
      rw [h3, hc2.prev, build_items hs₂]; simp

/-- Duplicating a series built by appends gives the same state. -/
theorem duplicate_build {l : List Item} {s : TSeries} (h : TSeries.build l = .ok s) :
    s.duplicate = .ok s := by
  have hit := build_items h
  have hk := kind_build h
  unfold TSeries.duplicate
  cases hl : l with
  | nil =>
    rw [hit, hl]
    simp only [TSeries.appendAll]
    congr 1
    rw [hl] at hit
    cases s; simp at hit; simp [hit]
  | cons f r =>
    have finish : ∀ d s₁, ({ s with items := [] } : TSeries).appendAll l = (d, .ok ()) →
        TSeries.build l = .ok s₁ → DupState s d s₁ → d.prevT = s.prevT → d = s := by
      intro d s₁ hd hs₁ hD hp
      rw [h] at hs₁; injection hs₁ with hs₁; subst hs₁
      have h1 := hD.base.1
      have h2 := hD.base.2 (by rw [h1, hit, hl]; simp)
      have h3 := hD.res
      have h4 := hD.resS
      have h5 := hD.tz
      cases d; cases s; simp_all
    rw [hit]
    cases hf : f.isSlot with
    | true =>
      have hall : AllSlots l := fun x hx => by rw [hk x hx f (by rw [hl]; simp)]; exact hf
      obtain ⟨d, s₁, hd, hs₁, hD, hp⟩ := dup_slots hall h l [] (by simp)
      have := finish d s₁ hd hs₁ hD hp
      rw [hd, this]
    | false =>
      have hall : AllPoints l := fun x hx => by rw [hk x hx f (by rw [hl]; simp)]; exact hf
      obtain ⟨d, s₁, hd, hs₁, hD, hp⟩ := dup_points hall h l [] (by simp)
      have hp' := hp (by rw [hl]; simp)
      have hs1 : s₁ = s := by rw [h] at hs₁; injection hs₁ with hs₁; exact hs₁.symm
      have := finish d s₁ hd hs₁ hD (by rw [hp', hs1])
      rw [hd, this]

end Timeseria
