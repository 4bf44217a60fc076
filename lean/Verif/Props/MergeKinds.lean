import Verif.Model.MergeKinds
import Verif.Props.MergeLaws
import Verif.Props.Anomaly

/-! # C288-C291: merging points with slots, series that do not match, lists of series, a series with itself -/

namespace Timeseria

/-! ## When the series are of one kind, the classes do not matter -/

theorem mergeLoopK_eq {cal : Calendar} {ss : List TSeries} {first ref : Item} (hk : first.isSlot = ref.isSlot) (mx mn : ℚ) (l : List Item) (i : ℕ) :
    mergeLoopK cal ss first ref mx mn i l = mergeLoop cal ss first.tz ref.unit mx mn i l := by
  induction l generalizing i with
  | nil => rfl
  | cons x r ih =>
    unfold mergeLoopK mergeLoop
    by_cases hx : x.t > mn
    · rw [if_pos hx, if_pos hx]
    · rw [if_neg hx, if_neg hx]
      cases hm : mapE (mergePick mx i) ss with
      | error e => rfl
      | ok picks =>
        dsimp only
        have : ∀ d j, mergeItemAs cal first ref x d j = .ok (mergeItem cal first.tz ref.unit x d j) := by
          intro d j
          unfold mergeItemAs
          unfold Item.isSlot at hk
          cases h1 : ref.slot <;> cases h2 : first.slot <;> simp [h1, h2] at hk ⊢
        rw [this, ih]
        cases mergeLoop cal ss first.tz ref.unit mx mn (i + 1) r <;> rfl

/-- for series of one kind the two models of `merge` agree, so `C31` and the others hold of this one too -/
theorem mergeOpK_eq (cal : Calendar) (ss : List TSeries) (b : Bool) (h : ∀ s ∈ ss, ∀ x ∈ s.items, x.isSlot = b) :
    mergeOpK cal ss = mergeOp cal ss := by
  unfold mergeOpK mergeOp
  cases ss with
  | nil => rfl
  | cons s0 rest =>
    dsimp only
    cases h0 : s0.items.head? with
    | none => rfl
    | some x0 =>
      dsimp only
      cases hc : mergeCheck .unset (s0 :: rest) with
      | error e => rfl
      | ok _ =>
        dsimp only
        cases h1 : mapE TSeries.firstT (s0 :: rest) with
        | error e => rfl
        | ok starts =>
          cases h2 : mapE TSeries.lastT (s0 :: rest) with
          | error e => rfl
          | ok ends =>
            dsimp only
            cases h3 : maxLoop starts with
            | none => rfl
            | some mx =>
              cases h4 : minLoop ends with
              | none => rfl
              | some mn =>
                dsimp only
                cases h5 : mergeRef mx (s0 :: rest) none with
                | none => rfl
                | some ref =>
                  dsimp only
                  cases h6 : ref.items.head? with
                  | none => rfl
                  | some f =>
                    dsimp only
                    have hr : ref ∈ s0 :: rest := by
                      rcases (mergeRef_spec mx (s0 :: rest) none).1 with hh | ⟨s, hs, he, _⟩
                      · rw [h5] at hh; cases hh
                      · rw [h5] at he; cases he; exact hs
                    rw [mergeLoopK_eq]
                    rw [h s0 (by simp) x0 (List.mem_of_mem_head? h0), h ref hr f (List.mem_of_mem_head? h6)]

/-! ## Starts and ends -/

/-- the time of the first item of a series -/
def startsAt (s : TSeries) (t : ℚ) : Prop := ∃ f, s.items.head? = some f ∧ f.t = t

/-- the time of the last item of a series -/
def endsAt (s : TSeries) (t : ℚ) : Prop := ∃ z, s.items.getLast? = some z ∧ z.t = t

theorem startsAt_of {s : TSeries} {t : ℚ} (h : s.items.head?.map Item.t = some t) : startsAt s t := Option.map_eq_some_iff.1 h

theorem endsAt_of {s : TSeries} {t : ℚ} (h : s.items.getLast?.map Item.t = some t) : endsAt s t := Option.map_eq_some_iff.1 h

/-- series of the same, not variable, resolution, none of them empty -/
structure SameResolution (ss : List TSeries) : Prop where
  ne : ss ≠ []
  items : ∀ s ∈ ss, s.items ≠ []
  res : ∃ r, r ≠ Res.varying ∧ ∀ s ∈ ss, s.res = r

theorem startsAt_unique {s : TSeries} {a b : ℚ} (ha : startsAt s a) (hb : startsAt s b) : a = b := by
  obtain ⟨f, hf, rfl⟩ := ha
  obtain ⟨g, hg, rfl⟩ := hb
  rw [hf] at hg; cases hg; rfl

theorem endsAt_unique {s : TSeries} {a b : ℚ} (ha : endsAt s a) (hb : endsAt s b) : a = b := by
  obtain ⟨f, hf, rfl⟩ := ha
  obtain ⟨g, hg, rfl⟩ := hb
  rw [hf] at hg; cases hg; rfl

theorem mapE_firstT {ss : List TSeries} (h : ∀ s ∈ ss, s.items ≠ []) : ∃ l, mapE TSeries.firstT ss = .ok l ∧ List.Forall₂ startsAt ss l := by
  induction ss with
  | nil => exact ⟨[], rfl, .nil⟩
  | cons s r ih =>
    obtain ⟨l, h1, h2⟩ := ih (fun s hs => h s (by simp [hs]))
    rcases hl : s.items with _ | ⟨a, q⟩
    · exact absurd hl (h s (by simp))
    · exact ⟨a.t :: l, by simp [mapE, TSeries.firstT, hl, h1], .cons ⟨a, by simp [hl], rfl⟩ h2⟩

theorem mapE_lastT {ss : List TSeries} (h : ∀ s ∈ ss, s.items ≠ []) : ∃ l, mapE TSeries.lastT ss = .ok l ∧ List.Forall₂ endsAt ss l := by
  induction ss with
  | nil => exact ⟨[], rfl, .nil⟩
  | cons s r ih =>
    obtain ⟨l, h1, h2⟩ := ih (fun s hs => h s (by simp [hs]))
    have hz := List.getLast?_eq_getLast_of_ne_nil (h s (by simp))
    exact ⟨_ :: l, by simp only [mapE, TSeries.lastT, hz, h1], .cons ⟨_, hz, rfl⟩ h2⟩

theorem mergeRef_last {mx : ℚ} {pre post : List TSeries} {z : TSeries} (hz : startsAt z mx) (hp : ∀ s ∈ post, ¬ startsAt s mx) (acc : Option TSeries) :
    mergeRef mx (pre ++ z :: post) acc = some z := by
  have hpost : ∀ (post : List TSeries), (∀ s ∈ post, ¬ startsAt s mx) → ∀ acc, mergeRef mx post acc = acc := by
    intro post
    induction post with
    | nil => intro _ acc; rfl
    | cons a r ih =>
      intro h acc
      unfold mergeRef
      rw [if_neg, ih (fun s hs => h s (by simp [hs]))]
      intro hh
      obtain ⟨f, hf, hft⟩ := Option.map_eq_some_iff.1 hh
      exact h a (by simp) ⟨f, hf, hft⟩
  induction pre generalizing acc with
  | nil =>
    rw [List.nil_append]
    unfold mergeRef
    obtain ⟨f, hf, hft⟩ := hz
    rw [if_pos (by rw [hf, Option.map_some, hft])]
    exact hpost post hp _
  | cons a r ih =>
    rw [List.cons_append]
    unfold mergeRef
    exact ih _

/-- the part before the loop -/
theorem mergeK_front {cal : Calendar} {ss : List TSeries} (h : SameResolution ss) :
    ∃ (s0 : TSeries) (x0 : Item) (mx mn : ℚ) (ref : TSeries) (f : Item), ss.head? = some s0 ∧ s0.items.head? = some x0 ∧
      mergeRef mx ss none = some ref ∧ ref ∈ ss ∧ ref.items.head? = some f ∧ f.t = mx ∧
      (∀ s ∈ ss, ∃ t ≤ mx, startsAt s t) ∧ (∀ s ∈ ss, ∃ t, mn ≤ t ∧ endsAt s t) ∧ (∃ s ∈ ss, endsAt s mn) ∧
      mergeOpK cal ss = finish (mergeLoopK cal ss x0 f mx mn 0 ref.items) := by
  obtain ⟨r, hr, hall⟩ := h.res
  obtain ⟨starts, h1, hs1⟩ := mapE_firstT h.items
  obtain ⟨ends, h2, hs2⟩ := mapE_lastT h.items
  have hne1 : starts ≠ [] := by
    intro hh; rw [hh] at hs1; cases hs1; exact h.ne rfl
  have hne2 : ends ≠ [] := by
    intro hh; rw [hh] at hs2; cases hs2; exact h.ne rfl
  obtain ⟨mx, hmx, hmx1, hmx2⟩ := maxLoop_spec hne1
  obtain ⟨mn, hmn, hmn1, hmn2⟩ := minLoop_spec hne2
  obtain ⟨s1, hs1m, hs1x⟩ := merged_right hs1 mx hmx1
  obtain ⟨s2, hs2m, hs2x⟩ := merged_right hs2 mn hmn1
  have hex : ∃ s ∈ ss, s.items.head?.map Item.t = some mx := by
    obtain ⟨f, hf, hft⟩ := hs1x
    exact ⟨s1, hs1m, by rw [hf, Option.map_some, hft]⟩
  obtain ⟨ref, hrm, hrefeq, hreft⟩ := (mergeRef_spec mx ss none).2 hex
  obtain ⟨f, hf, hft⟩ := Option.map_eq_some_iff.1 hreft
  obtain ⟨s0, rest, hss⟩ : ∃ s0 rest, ss = s0 :: rest := by
    cases ss with
    | nil => exact absurd rfl h.ne
    | cons a b => exact ⟨a, b, rfl⟩
  obtain ⟨x0, q, hx0⟩ : ∃ x0 q, s0.items = x0 :: q := by
    rcases hl : s0.items with _ | ⟨a, q⟩
    · exact absurd hl (h.items s0 (by rw [hss]; simp))
    · exact ⟨a, q, rfl⟩
  refine ⟨s0, x0, mx, mn, ref, f, by rw [hss]; rfl, by rw [hx0]; rfl, hrefeq, hrm, hf, hft, ?_, ?_, ⟨s2, hs2m, hs2x⟩, ?_⟩
  · intro s hs
    obtain ⟨t, ht, hst⟩ := merged_left hs1 s hs
    exact ⟨t, hmx2 t ht, hst⟩
  · intro s hs
    obtain ⟨t, ht, hst⟩ := merged_left hs2 s hs
    exact ⟨t, hmn2 t ht, hst⟩
  · have hck := mergeCheck_ok hr ss hall h.items .unset (.inl rfl)
    subst hss
    unfold mergeOpK
    simp only [hx0, List.head?_cons, hck, h1, h2, hmx, hmn, hrefeq, hf]

/-! ## C289: series that do not overlap, or do not match -/

/-- **C289 (no common range)**: when a series ends before another one starts, the merge is an empty series. -/
theorem C289_disjoint {cal : Calendar} {ss : List TSeries} (h : SameResolution ss) {a b : TSeries} (ha : a ∈ ss) (hb : b ∈ ss) {e s : ℚ}
    (hea : endsAt a e) (hsb : startsAt b s) (hlt : e < s) : mergeOpK cal ss = .ok {} := by
  obtain ⟨s0, x0, mx, mn, ref, f, _, _, _, _, hf, hft, hst, hen, _, heq⟩ := mergeK_front (cal := cal) h
  rw [heq]
  obtain ⟨t, ht, hbt⟩ := hst b hb
  obtain ⟨u, hu, hau⟩ := hen a ha
  rw [startsAt_unique hbt hsb] at ht
  rw [endsAt_unique hau hea] at hu
  rcases hl : ref.items with _ | ⟨y, q⟩
  · rw [hl] at hf; cases hf
  · rw [hl] at hf; cases hf
    unfold mergeLoopK
    rw [if_pos (by rw [hft]; exact lt_of_le_of_lt hu (lt_of_lt_of_le hlt ht))]
    rfl

theorem mapE_error_uniform {α β : Type} {f : α → Except PyErr β} {l : List α} {e : PyErr} (h : ∀ a ∈ l, (∃ b, f a = .ok b) ∨ f a = .error e)
    (hx : ∃ a ∈ l, f a = .error e) : mapE f l = .error e := by
  induction l with
  | nil => obtain ⟨a, ha, _⟩ := hx; simp at ha
  | cons a r ih =>
    unfold mapE
    rcases h a (by simp) with ⟨b, hb⟩ | he
    · rw [hb]
      dsimp only
      obtain ⟨c, hc, hce⟩ := hx
      rcases List.mem_cons.1 hc with rfl | hc
      · rw [hb] at hce; cases hce
      · rw [ih (fun a ha => h a (by simp [ha])) ⟨c, hc, hce⟩]
    · rw [he]

theorem mergePick_first {mx : ℚ} {s : TSeries} (hd : ∀ x ∈ s.items, ∃ d, x.data = some (.dict d)) :
    ((∃ x ∈ s.items, x.t = mx) → ∃ p, mergePick mx 0 s = .ok p) ∧ ((¬ ∃ x ∈ s.items, x.t = mx) → mergePick mx 0 s = .error .keyError) := by
  constructor
  · rintro ⟨x, hx, hxt⟩
    obtain ⟨o, ho⟩ : ∃ o, offsetOf mx s = some o := by
      unfold offsetOf
      cases hfi : s.items.findIdx? (fun x => decide (x.t = mx)) with
      | some o => exact ⟨o, rfl⟩
      | none =>
        rw [List.findIdx?_eq_none_iff] at hfi
        have := hfi x hx
        simp [hxt] at this
    obtain ⟨hol, _, _⟩ := List.findIdx?_eq_some_iff_getElem.1 ho
    obtain ⟨d, hd'⟩ := hd _ (List.getElem_mem hol)
    refine ⟨(d, (s.items[o]).idx), ?_⟩
    unfold mergePick
    rw [ho]
    simp only [Nat.zero_add, List.getElem?_eq_getElem hol, hd']
  · intro hn
    unfold mergePick offsetOf
    have : s.items.findIdx? (fun x => decide (x.t = mx)) = none := by
      rw [List.findIdx?_eq_none_iff]
      intro x hx
      simpa using fun hh => hn ⟨x, hx, hh⟩
    rw [this]

/-- **C289 (times that do not match)**: when the ranges of the series overlap but one of them has no item at the time `m` where
the latest one starts, the merge is refused with a `KeyError`. -/
theorem C289_unmatched {cal : Calendar} {ss : List TSeries} (h : SameResolution ss)
    (hd : ∀ s ∈ ss, ∀ x ∈ s.items, ∃ d, x.data = some (.dict d)) {m : ℚ} (hm : ∃ s ∈ ss, startsAt s m)
    (hmax : ∀ s ∈ ss, ∀ t, startsAt s t → t ≤ m) (hover : ∀ s ∈ ss, ∀ t, endsAt s t → m ≤ t) (hno : ∃ s ∈ ss, ¬ ∃ x ∈ s.items, x.t = m) :
    mergeOpK cal ss = .error .keyError := by
  obtain ⟨s0, x0, mx, mn, ref, f, _, _, _, hrm, hf, hft, hst, _, ⟨z, hz, hze⟩, heq⟩ := mergeK_front (cal := cal) h
  have hmx : mx = m := by
    apply le_antisymm
    · exact hmax ref hrm mx ⟨f, hf, hft⟩
    · obtain ⟨s, hs, hsm⟩ := hm
      obtain ⟨t, ht, hst⟩ := hst s hs
      rw [startsAt_unique hsm hst]; exact ht
  rw [heq, hmx]
  rcases hl : ref.items with _ | ⟨y, q⟩
  · rw [hl] at hf; cases hf
  · rw [hl] at hf; cases hf
    unfold mergeLoopK
    rw [if_neg (by rw [hft, hmx]; exact not_lt.2 (hover z hz mn hze)),
      mapE_error_uniform (e := .keyError) (fun s hs => by
        by_cases hx : ∃ x ∈ s.items, x.t = m
        · exact .inl ((mergePick_first (hd s hs)).1 hx)
        · exact .inr ((mergePick_first (hd s hs)).2 hx)) (by
        obtain ⟨s, hs, hn⟩ := hno
        exact ⟨s, hs, (mergePick_first (hd s hs)).2 hn⟩)]
    rfl

/-! ## C288: points and slots -/

/-- **C288, partial**: when the first of the series is of points and the one whose start is the latest (the last of these, if there
are several) is of slots, or the other way round, a merge over overlapping ranges is refused, with an `UnboundLocalError`
(`.exception`) in the first case and an `AttributeError` in the second.  Missing: the first series and the latest one of the
same kind, with others of the other kind: these are merged (`C288_false`). -/
theorem C288_refused_partial {cal : Calendar} {ss : List TSeries} (h : SameResolution ss) (hd : ∀ s ∈ ss, ∀ x ∈ s.items, ∃ d, x.data = some (.dict d))
    {pre post : List TSeries} {z : TSeries} {m : ℚ} (hss : ss = pre ++ z :: post) (hz : startsAt z m) (hmax : ∀ s ∈ ss, ∀ t, startsAt s t → t ≤ m)
    (hlast : ∀ s ∈ post, ¬ startsAt s m) (hover : ∀ s ∈ ss, ∀ t, endsAt s t → m ≤ t) (hall : ∀ s ∈ ss, ∃ x ∈ s.items, x.t = m)
    {s0 : TSeries} (h0 : ss.head? = some s0) {x0 x : Item} (hx0 : s0.items.head? = some x0) (hx : z.items.head? = some x) :
    (x0.isSlot = false → x.isSlot = true → mergeOpK cal ss = .error .exception) ∧
    (x0.isSlot = true → x.isSlot = false → mergeOpK cal ss = .error .attributeError) := by
  obtain ⟨s0', x0', mx, mn, ref, f, g0, gx0, href, hrm, hf, hft, hst, _, ⟨w, hw, hwe⟩, heq⟩ := mergeK_front (cal := cal) h
  rw [h0] at g0; cases g0
  rw [hx0] at gx0; cases gx0
  have hmx : mx = m := by
    apply le_antisymm
    · exact hmax ref hrm mx ⟨f, hf, hft⟩
    · obtain ⟨t, ht, hst⟩ := hst z (by rw [hss]; simp)
      rw [startsAt_unique hz hst]; exact ht
  subst hmx
  rw [hss, mergeRef_last hz hlast] at href
  cases href
  rw [hx] at hf; cases hf
  obtain ⟨ps, hps⟩ := mapE_total (f := mergePick mx 0) (l := ss) (fun s hs => (mergePick_first (hd s hs)).1 (hall s hs))
  have key : ∀ e, (∀ d i, mergeItemAs cal x0 x x d i = .error e) → mergeOpK cal ss = .error e := by
    intro e he
    rw [heq]
    rcases hl : z.items with _ | ⟨y, q⟩
    · rw [hl] at hx; cases hx
    · rw [hl] at hx; cases hx
      unfold mergeLoopK
      rw [if_neg (by rw [hft]; exact not_lt.2 (hover w hw mn hwe)), hps]
      dsimp only
      rw [he]
      rfl
  constructor
  · intro h1 h2
    apply key
    intro d i
    unfold mergeItemAs
    unfold Item.isSlot at h1 h2
    cases hs1 : x.slot <;> cases hs2 : x0.slot <;> simp [hs1, hs2] at h1 h2 ⊢
  · intro h1 h2
    apply key
    intro d i
    unfold mergeItemAs
    unfold Item.isSlot at h1 h2
    cases hs1 : x.slot <;> cases hs2 : x0.slot <;> simp [hs1, hs2] at h1 h2 ⊢

/-- slots of one minute at 60 and 120 -/
def minuteSlots : TSeries :=
  match TSeries.build [{ t := 60, slot := some (120, TUnit.ofSecs 60), tz := "UTC", data := some (.dict [("a", 10)]) },
      { t := 120, slot := some (180, TUnit.ofSecs 60), tz := "UTC", data := some (.dict [("a", 20)]) }] with
  | .ok s => s
  | .error _ => {}

/-- points every minute from 0 to 120 -/
def minutePoints : TSeries :=
  match TSeries.build [mkPoint 0 (.dict [("a", 0)]), mkPoint 60 (.dict [("a", 4)]), mkPoint 120 (.dict [("a", 8)])] with
  | .ok s => s
  | .error _ => {}

/-- **C288 is false**: slots are merged with points which start earlier: the slots of the result hold the mean of the slots and of the
points at their starts.  In the other order the same merge is refused. -/
theorem C288_false :
    ((mergeOpK physicalCalendar [minuteSlots, minutePoints]).toOption.map (fun r => r.items.map (fun x => (x.t, x.isSlot)))) = some [(60, true), (120, true)] ∧
    ((mergeOpK physicalCalendar [minuteSlots, minutePoints]).toOption.map (fun r => r.items.map (fun x => x.value? "a"))) = some [some 7, some 14] ∧
    (mergeOpK physicalCalendar [minutePoints, minuteSlots]).toOption.isNone = true := by
  refine ⟨by decide +kernel, by decide +kernel, by decide +kernel⟩

/-- the refused merge meets the hypotheses of `C288_refused_partial` -/
theorem C288_witness : SameResolution [minutePoints, minuteSlots] ∧ startsAt minuteSlots 60 ∧ startsAt minutePoints 0 ∧ endsAt minutePoints 120 ∧
    endsAt minuteSlots 120 ∧ (minutePoints.items.map Item.isSlot = [false, false, false]) ∧ minuteSlots.items.map Item.isSlot = [true, true] := by
  refine ⟨⟨by simp, ?_, ⟨.unit (TUnit.ofSecs 60), by simp, ?_⟩⟩, startsAt_of (by decide +kernel), startsAt_of (by decide +kernel), endsAt_of (by decide +kernel),
    endsAt_of (by decide +kernel), by decide +kernel, by decide +kernel⟩
  · intro s hs
    simp only [List.mem_cons, List.not_mem_nil, or_false] at hs
    rcases hs with rfl | rfl <;> decide +kernel
  · intro s hs
    simp only [List.mem_cons, List.not_mem_nil, or_false] at hs
    rcases hs with rfl | rfl <;> decide +kernel

/-- points every minute, half a minute out of step -/
def halfPoints : TSeries :=
  match TSeries.build [mkPoint 30 (.dict [("a", 0)]), mkPoint 90 (.dict [("a", 4)])] with
  | .ok s => s
  | .error _ => {}

/-- points every minute, much later -/
def latePoints : TSeries :=
  match TSeries.build [mkPoint 300 (.dict [("a", 0)]), mkPoint 360 (.dict [("a", 4)])] with
  | .ok s => s
  | .error _ => {}

theorem C289_witness : SameResolution [minutePoints, halfPoints] ∧ SameResolution [minutePoints, latePoints] ∧ startsAt halfPoints 30 ∧
    (¬ ∃ x ∈ minutePoints.items, x.t = 30) ∧ endsAt minutePoints 120 ∧ startsAt latePoints 300 := by
  have hsr : ∀ s : TSeries, s.items ≠ [] → s.res = .unit (TUnit.ofSecs 60) → SameResolution [minutePoints, s] := by
    intro s h1 h2
    refine ⟨by simp, ?_, ⟨.unit (TUnit.ofSecs 60), by simp, ?_⟩⟩
    · intro s' hs
      simp only [List.mem_cons, List.not_mem_nil, or_false] at hs
      rcases hs with rfl | rfl
      · decide +kernel
      · exact h1
    · intro s' hs
      simp only [List.mem_cons, List.not_mem_nil, or_false] at hs
      rcases hs with rfl | rfl
      · decide +kernel
      · exact h2
  exact ⟨hsr _ (by decide +kernel) (by decide +kernel), hsr _ (by decide +kernel) (by decide +kernel), startsAt_of (by decide +kernel), by decide +kernel,
    endsAt_of (by decide +kernel), startsAt_of (by decide +kernel)⟩

/-! ## C290: the method with several series -/

/-- **C290 is false**: a list of series given to the method is never merged, whatever the series. -/
theorem C290_false (cal : Calendar) (s : TSeries) (ss : List TSeries) : (s.mergeMethod cal (.list ss)).toOption.isNone = true := by
  unfold TSeries.mergeMethod
  dsimp only
  split
  · rfl
  · split <;> rfl

/-- **C290, partial**: with one other series the method is the operation on the two, and on two mergeable series gives exactly what
`C31` says.  Missing: several series (`C290_false`). -/
theorem C290_one_partial {cal : Calendar} {a b : TSeries} (h : Mergeable cal [a, b]) (k : Bool) (hk : ∀ s ∈ [a, b], ∀ x ∈ s.items, x.isSlot = k) :
    ∃ r, a.mergeMethod cal (.series b) = .ok r ∧ StrictlyOrdered r.items ∧ (∀ t, t ∈ times r.items ↔ t ∈ times a.items ∧ t ∈ times b.items) ∧
      ∀ y ∈ r.items, ∀ l, y.value? l = mean? ([a, b].filterMap (fun s => (itemAt s.items y.t).bind (fun x => x.value? l))) := by
  obtain ⟨r, h1, h2, h3, h4⟩ := C31_merge h
  refine ⟨r, ?_, h2, ?_, fun y hy => (h4 y hy).1⟩
  · unfold TSeries.mergeMethod
    dsimp only
    rw [mergeOpK_eq cal _ k hk, h1]
  · intro t
    rw [h3]
    simp

/-! ## C291: a series with itself -/

/-- **C291**: merging a series with itself, any number of times, gives its times, its values and its (set) data indexes. -/
theorem C291_itself {cal : Calendar} {s : TSeries} (h : Mergeable cal [s]) (n : ℕ) :
    ∃ r, mergeOp cal (List.replicate (n + 1) s) = .ok r ∧ SameReadings r.items s.items := by
  have hmem : ∀ x, x ∈ List.replicate (n + 1) s → x = s := fun x hx => (List.mem_replicate.1 hx).2
  have hm : Mergeable cal (List.replicate (n + 1) s) := by
    refine ⟨by simp, fun x hx => ?_, fun x hx => ?_, fun x hx => ?_, ?_, ?_, fun x hx => ?_⟩
    · rw [hmem x hx]; exact h.each s (by simp)
    · rw [hmem x hx]; exact h.dict s (by simp)
    · rw [hmem x hx]; exact h.ordered s (by simp)
    · obtain ⟨r, hr, ha⟩ := h.res
      exact ⟨r, hr, fun x hx => by rw [hmem x hx]; exact ha s (by simp)⟩
    · intro a ha b hb x hx _
      rw [hmem a ha] at hx
      rw [hmem b hb]
      exact ⟨x, hx, rfl⟩
    · rw [hmem x hx]; exact h.idx s (by simp)
  obtain ⟨r, h1, h2, h3, h4⟩ := C31_merge hm
  have hord := h.ordered s (by simp)
  have ht : times r.items = times s.items := by
    apply sorted_ext (List.pairwise_map.2 h2) (List.pairwise_map.2 hord)
    intro t
    refine (h3 t).trans ?_
    constructor
    · intro hh; exact hh s (by simp)
    · intro hh x hx; rw [hmem x hx]; exact hh
  have hmean : ∀ (g : Item → Option ℚ) (y : Item), y ∈ s.items →
      mean? ((List.replicate (n + 1) s).filterMap (fun s => (itemAt s.items y.t).bind g)) = g y := by
    intro g y hy
    have hi : (itemAt s.items y.t).bind g = g y := by
      rw [itemAt_of_mem hord hy]; rfl
    rw [List.filterMap_replicate, hi]
    cases hg : g y with
    | none => rfl
    | some v =>
      exact mean?_const (by simp) (fun x hx => (List.mem_replicate.1 hx).2)
  refine ⟨r, h1, ht, ?_, ?_⟩
  · intro j x y hx hy k
    rw [(h4 x (List.mem_of_getElem? hx)).1 k, times_get ht hx hy]
    exact hmean (fun z => z.value? k) y (List.mem_of_getElem? hy)
  · intro j x y hx hy m
    rw [(h4 x (List.mem_of_getElem? hx)).2 m, times_get ht hx hy]
    exact hmean (fun z => (Dict.get? z.idx m).join) y (List.mem_of_getElem? hy)

/-- `exSeries` three times -/
theorem C291_witness : Mergeable physicalCalendar [exSeries] := by
  have h := C31_witness
  refine ⟨by simp, fun s hs => h.each s (by simp_all), fun s hs => h.dict s (by simp_all), fun s hs => h.ordered s (by simp_all), ?_, ?_,
    fun s hs => h.idx s (by simp_all)⟩
  · obtain ⟨r, hr, ha⟩ := h.res
    exact ⟨r, hr, fun s hs => ha s (by simp_all)⟩
  · intro a ha b hb x hx _
    simp only [List.mem_singleton] at ha hb
    subst ha; subst hb
    exact ⟨x, hx, rfl⟩

end Timeseria
