import Verif.Model.Pipeline
import Verif.Props.CsumOffset
import Verif.Props.SourceRange
import Verif.Props.Order
import Verif.Props.Access
import Verif.Props.IntegralMore

/-! # C242, C243: chains of operations -/

namespace Timeseria

/-! ## C242: the result of any expression is a well-formed series -/

/-- What a time series has to be: all points or all slots; points strictly ordered in time, with the resolution telling whether
they are evenly spaced; slots one after the other, of one unit and zone, which are those the series reports. -/
structure WellFormed (s : TSeries) : Prop where
  kind : AllPoints s.items ∨ AllSlots s.items
  ordered : AllPoints s.items → StrictlyOrdered s.items
  even : AllPoints s.items → 2 ≤ s.items.length → ((∃ d, UniformBy d s.items) ↔ s.res ≠ .varying)
  chain : AllSlots s.items → InSuccession s.items
  unit : AllSlots s.items → ∀ x ∈ s.items, s.res = .unit x.unit ∧ s.getTz = some x.tz

/-- the items were appended one after the other to a new series -/
def Appended (s : TSeries) : Prop := ∃ l, TSeries.build l = .ok s

theorem Appended.self {s : TSeries} (h : Appended s) : TSeries.build s.items = .ok s := by
  obtain ⟨l, hl⟩ := h
  rw [build_items hl]; exact hl

theorem Appended.wellFormed {s : TSeries} (h : Appended s) : WellFormed s := by
  obtain ⟨l, hl⟩ := h
  have hi := build_items hl
  subst hi
  have hk := kind_build hl
  refine ⟨?_, ?_, ?_, fun hs => succ_build hs hl, ?_⟩
  · cases hh : s.items with
    | nil => left; intro x hx; simp at hx
    | cons a r =>
      rw [hh] at hk
      cases ha : a.isSlot with
      | false => left; intro x hx; rw [hk x hx a (by simp), ha]
      | true => right; intro x hx; rw [hk x hx a (by simp), ha]
  · have h1 := (build_ok_iff s.items s).1 hl
    have := appendAll_inv (P := OrderInv) (fun s x hs => order_append s x hs) TSeries.empty s.items orderInv_nil
    rw [h1] at this
    exact this.2
  · intro hp h2
    obtain ⟨_, a2, a3, _⟩ := C04_resolution_is_spacing s.items s hp hl
    constructor
    · intro hu hv
      obtain ⟨u, hu'⟩ := (a2 h2).1 hu
      rw [hu'] at hv; cases hv
    · intro hv
      by_contra hn
      exact hv ((a3 h2).1 hn)
  · intro hs x hx
    obtain ⟨u, w, hu, hw, hall⟩ := (build_slotInv hs hl).noUnit (List.ne_nil_of_mem hx)
    obtain ⟨h1, h2⟩ := hall x hx
    exact ⟨by rw [hu, h1], by unfold TSeries.getTz; rw [hw, h2]⟩

theorem appended_finish {e : Except PyErr (List Item)} {r : TSeries} (h : finish e = .ok r) : Appended r := by
  unfold finish at h
  split at h
  · cases h
  · exact ⟨_, h⟩

theorem appended_mapOp {cal : Calendar} {s r : TSeries} {g : String → ℚ → Except PyErr ℚ} (h : s.mapOp cal g = .ok r) : Appended r := by
  unfold TSeries.mapOp at h
  split at h
  · cases h
  · exact appended_finish h

theorem appended_normalize {cal : Calendar} {s r : TSeries} {a b : ℚ} (h : s.normalizeOp cal a b = .ok r) : Appended r := by
  unfold TSeries.normalizeOp at h
  dsimp only at h
  split at h
  · cases h
  · split at h
    · cases h
    · exact appended_mapOp h

theorem appended_fromOffset {cal : Calendar} {back : TUnit → String → ℚ → ℚ} {s r : TSeries} {norm : Option (Bool × ℚ)} {proto : Data}
    {post : String} {ks : List String} {o : NumOrDict} (h : s.fromOffset cal back norm proto post ks o = .ok r) : Appended r := by
  unfold TSeries.fromOffset at h
  split at h
  · cases h
  · split at h
    · cases h
    · split at h
      · cases h
      · split at h
        · cases h
        · exact ⟨_, h⟩

theorem appended_process {clk : String → Grid} {n : ℕ} {tg : Target} {unit : TUnit} {ops : List SlotOp} {o : Opts} {s r : TSeries}
    (h : s.process clk n tg unit ops o = some (.ok r)) : Appended r := by
  unfold TSeries.process at h
  split at h
  · cases h
  · split at h
    · cases h
    · split at h
      · unfold frontProcess at h
        split at h
        · cases h
        · split at h
          · cases h
          · split at h
            · cases h
            · cases h
            · rw [Option.some.injEq] at h
              unfold frontRun at h
              split at h
              · cases h
              · exact ⟨_, h⟩
      · cases h

/-- every call gives a series to which its items have been appended -/
theorem appended_run (env : PipeEnv) (st : Stage) {s r : TSeries} (hs : Appended s) (h : st.run env s = some (.ok r)) : Appended r := by
  cases st with
  | rescale v => exact appended_mapOp (Option.some.inj h)
  | offset v => exact appended_mapOp (Option.some.inj h)
  | normalize a b => exact appended_normalize (Option.some.inj h)
  | normalizeFrom a b src =>
    replace h := Option.some.inj h
    unfold TSeries.normalizeFrom at h
    split at h
    · exact appended_normalize h
    · split at h
      · cases h
      · split at h
        · cases h
        · exact appended_mapOp h
  | mavg w =>
    replace h := Option.some.inj h
    unfold TSeries.mavgOp at h
    split at h
    · cases h
    · split_ifs at h
      exact appended_finish h
  | derivative =>
    replace h := Option.some.inj h
    unfold TSeries.derivativeOp at h
    split at h
    · cases h
    · split_ifs at h
      split at h
      · cases h
      · exact appended_finish h
  | integral c o =>
    replace h := Option.some.inj h
    unfold TSeries.integralFrom at h
    split at h
    · cases h
    · split at h
      · cases h
      · split_ifs at h
        · exact appended_fromOffset h
        · exact appended_finish h
  | diff =>
    replace h := Option.some.inj h
    unfold TSeries.diffOp at h
    split at h
    · cases h
    · split at h
      · cases h
      · split at h
        · cases h
        · split at h
          · cases h
          · exact appended_finish h
  | csum o =>
    replace h := Option.some.inj h
    unfold TSeries.csumFrom at h
    split_ifs at h
    split at h
    · cases h
    · split at h
      · exact appended_finish h
      · split_ifs at h
        · exact appended_fromOffset h
        · exact appended_finish h
  | filter labels =>
    replace h := Option.some.inj h
    unfold TSeries.filterOp at h
    split at h
    · cases h
    · split at h
      · exact appended_finish h
      · cases h
  | slice a b c d =>
    replace h := Option.some.inj h
    unfold TSeries.slice at h
    split at h
    · cases h
    · exact ⟨_, h⟩
  | duplicate =>
    replace h := Option.some.inj h
    rw [duplicate_build hs.self] at h
    cases h; exact hs
  | resample clk n txt unit =>
    unfold Stage.run TSeries.resample at h
    dsimp only at h
    split at h
    · cases h
    · exact appended_process h
  | aggregate clk n unit ops =>
    unfold Stage.run TSeries.aggregate at h
    dsimp only at h
    split at h
    · cases h
    · exact appended_process h

theorem appended_merge {cal : Calendar} {ss : List TSeries} {r : TSeries} (h : mergeOp cal ss = .ok r) : Appended r := by
  unfold mergeOp at h
  split at h
  · cases h
  · split at h
    · cases h
    · split at h
      · cases h
      · split at h
        · split at h
          · split at h
            · cases h
            · split at h
              · cases h
              · exact appended_finish h
          · cases h
        · cases h

theorem appended_eval (env : PipeEnv) (src : ℕ → TSeries) (hsrc : ∀ i, Appended (src i)) (p : Pipe) :
    ∀ r, p.eval env src = some (.ok r) → Appended r := by
  induction p with
  | source i => intro r h; cases h; exact hsrc i
  | call st p ih =>
    intro r h
    unfold Pipe.eval at h
    cases hp : p.eval env src with
    | none => rw [hp] at h; cases h
    | some e =>
      cases e with
      | error e => rw [hp] at h; cases h
      | ok s => rw [hp] at h; exact appended_run env st (ih s hp) h
  | merge p q ihp ihq =>
    intro r h
    unfold Pipe.eval at h
    cases hp : p.eval env src with
    | none => rw [hp] at h; cases h
    | some e =>
      cases e with
      | error e => rw [hp] at h; cases h
      | ok s =>
        rw [hp] at h
        cases hq : q.eval env src with
        | none => rw [hq] at h; cases h
        | some e =>
          cases e with
          | error e => rw [hq] at h; cases h
          | ok s' => rw [hq] at h; exact appended_merge (Option.some.inj h)

/-- **C242**: whatever calls of operations and transformations are made on series built by appending, each on the result of the
others, a series which comes out is well-formed: it can be duplicated and appended to as one built by hand. -/
theorem C242_expressions (env : PipeEnv) (src : ℕ → TSeries) (hsrc : ∀ i, Appended (src i)) (p : Pipe) (r : TSeries)
    (h : p.eval env src = some (.ok r)) :
    WellFormed r ∧ r.duplicate = .ok r ∧ ∃ l, (TSeries.empty.appendAll l) = (r, .ok ()) := by
  have := appended_eval env src hsrc p r h
  exact ⟨this.wellFormed, duplicate_build this.self, _, (build_ok_iff _ _).1 this.self⟩

/-! ## C243: chains of calls which fit -/

/-- What is known of a series without looking at its values: the labels, the number of items, whether the data are dictionaries
(otherwise lists), whether the resolution is not variable, and the length of its steps in seconds if they are known. -/
structure SeriesShape where
  labels : List String
  n : ℕ
  keyed : Bool
  even : Bool
  step : Option ℚ

/-- the series has the shape -/
structure HasShape (cal : Calendar) (s : TSeries) (sh : SeriesShape) : Prop where
  op : OpSeries cal s sh.labels
  len : s.items.length = sh.n
  keyed : ∀ x ∈ s.items, (∃ d, x.data = some (.dict d)) ↔ sh.keyed = true
  even : sh.even = true → s.res ≠ .varying
  step : ∀ d, sh.step = some d → d ≠ 0 ∧ s.res = .unit (TUnit.ofSecs d)

/-- `label_postfix` for dictionaries, the same position for lists -/
def SeriesShape.named (sh : SeriesShape) (post k : String) : String := if sh.keyed then k ++ "_" ++ post else k

/-- `n` of the items, with the given labels; one item has no step -/
def SeriesShape.part (sh : SeriesShape) (ks : List String) (n : ℕ) : SeriesShape :=
  { labels := ks, n := n, keyed := sh.keyed, even := sh.even, step := if 2 ≤ n then sh.step else none }

/-- What comes out of a call, if it asks for nothing the series does not have: labels of the series, two items and even steps for
the differences, known steps for derivatives and integrals, windows not longer than the series, slices which are not empty. -/
def Stage.fits (sh : SeriesShape) : Stage → Option SeriesShape
  | .rescale _ => some (sh.part sh.labels sh.n)
  | .offset _ => some (sh.part sh.labels sh.n)
  | .duplicate => some (sh.part sh.labels sh.n)
  | .normalizeFrom _ _ src => if ∀ k ∈ sh.labels, ∃ p ∈ src.get? k, p.1 ≠ p.2 then some (sh.part sh.labels sh.n) else none
  | .mavg w => if 1 ≤ w ∧ w ≤ sh.n then some (sh.part (sh.labels.map (sh.named ("mavg_" ++ toString w.toNat))) (sh.n - (w.toNat - 1)))
    else none
  | .derivative => if 2 ≤ sh.n ∧ sh.step.isSome then some (sh.part (sh.labels.map (sh.named "derivative")) sh.n) else none
  | .integral (.num _) (.num o) => if o = 0 ∧ sh.step.isSome then some (sh.part (sh.labels.map (sh.named "integral")) sh.n) else none
  | .diff => if 2 ≤ sh.n ∧ sh.even then some (sh.part (sh.labels.map (sh.named "diff")) (sh.n - 1)) else none
  | .csum none => if sh.even then some (sh.part (sh.labels.map (sh.named "csum")) sh.n) else none
  | .filter ls => if sh.keyed ∧ ls ≠ [] ∧ ls.Nodup ∧ ∀ k ∈ ls, k ∈ sh.labels then some (sh.part ls sh.n) else none
  | .slice a b none none => if (a.isSome ∨ b.isSome) ∧ pyListSlice (List.range sh.n) a b ≠ [] then
      some (sh.part sh.labels (pyListSlice (List.range sh.n) a b).length) else none
  | _ => none

/-- the calls of a chain, one after the other -/
def fitsAll : List Stage → SeriesShape → Option SeriesShape
  | [], sh => some sh
  | st :: r, sh => (st.fits sh).bind (fitsAll r)

/-- the items of `r` are in the places of those of `s` from position `m` on -/
def Within (s r : TSeries) (m : ℕ) : Prop :=
  m + r.items.length ≤ s.items.length ∧ ∀ (j : ℕ) (x y : Item), s.items[m + j]? = some x → r.items[j]? = some y → SamePlace x y

theorem spacings_drop (l : List ℚ) (m : ℕ) : ∀ v ∈ spacings (l.drop m), v ∈ spacings l := by
  induction m generalizing l with
  | zero => intro v hv; exact hv
  | succ m ih =>
    intro v hv
    rw [← List.drop_drop] at hv
    exact ih l v (spacings_drop_one _ v hv)

theorem spacings_take (l : List ℚ) (n : ℕ) : ∀ v ∈ spacings (l.take n), v ∈ spacings l := by
  induction l generalizing n with
  | nil => intro v hv; simpa using hv
  | cons a r ih =>
    intro v hv
    cases n with
    | zero => simp [spacings] at hv
    | succ n =>
      cases r with
      | nil => simpa using hv
      | cons b r =>
        cases n with
        | zero => simp [spacings] at hv
        | succ n =>
          simp only [List.take_succ_cons, spacings, List.mem_cons] at hv ⊢
          rcases hv with h | h
          · exact .inl h
          · exact .inr (ih (n + 1) v (by simpa using h))

theorem Within.item {s r : TSeries} {m : ℕ} (h : Within s r m) {y : Item} (hy : y ∈ r.items) : ∃ x ∈ s.items, SamePlace x y := by
  obtain ⟨j, hj, rfl⟩ := List.getElem_of_mem hy
  have h1 := h.1
  have h2 : m + j < s.items.length := by omega
  exact ⟨_, List.getElem_mem h2, h.2 j _ _ (List.getElem?_eq_getElem h2) (List.getElem?_eq_getElem hj)⟩

theorem Within.mapEq {s r : TSeries} {m : ℕ} (h : Within s r m) {α : Type} (f : Item → α) (hf : ∀ x y, SamePlace x y → f y = f x) :
    r.items.map f = ((s.items.drop m).take r.items.length).map f := by
  have h1 := h.1
  apply List.ext_getElem
  · simp; omega
  · intro j h2 h3
    simp only [List.getElem_map, List.getElem_take, List.getElem_drop]
    simp only [List.length_map] at h2
    have h4 : m + j < s.items.length := by omega
    exact hf _ _ (h.2 j _ _ (List.getElem?_eq_getElem h4) (List.getElem?_eq_getElem h2))

/-- the resolution of a part of a series -/
theorem Within.res {cal : Calendar} {s r : TSeries} {m : ℕ} {ks : List String} (h : Within s r m) (hs : OpSeries cal s ks)
    (hr : Appended r) (hne : r.items ≠ []) (hres : s.res ≠ .varying) :
    r.res ≠ .varying ∧ (2 ≤ r.items.length → r.res = s.res) := by
  rcases hs.shape with ⟨hp, _⟩ | ⟨hp, _⟩
  · have hp' : AllPoints r.items := by
      intro y hy
      obtain ⟨x, hx, he⟩ := h.item hy
      have := hp x hx
      simpa [Item.isSlot, he.2.1] using this
    have hrr := (build_clean hp' hr.self).res
    have hsr := hs.res_points hp
    have htimes : times r.items = ((times s.items).drop m).take r.items.length := by
      unfold times
      rw [h.mapEq Item.t (fun _ _ hp => hp.1)]
      simp [List.map_take, List.map_drop]
    have hsub : ∀ v ∈ spacings (times r.items), v ∈ spacings (times s.items) := by
      rw [htimes]
      intro v hv
      exact spacings_drop _ _ v (spacings_take _ _ v hv)
    cases hsp : spacings (times s.items) with
    | nil =>
      rw [hsp] at hsub
      have : spacings (times r.items) = [] := by
        cases hh : spacings (times r.items) with
        | nil => rfl
        | cons a b => exact absurd (hsub a (by rw [hh]; simp)) (by simp)
      rw [hrr, this, hsr, hsp]
      exact ⟨by simp [specRes], fun _ => rfl⟩
    | cons e es =>
      rw [hsr, hsp] at hres
      have hall : ∀ x ∈ es, x = e := by
        by_contra hn
        exact hres (specRes_variable hn)
      have f : ∀ x ∈ e :: es, x = e := by
        intro x hx
        rcases List.mem_cons.1 hx with h | h
        · exact h
        · exact hall x h
      have f' : ∀ v ∈ spacings (times r.items), v = e := fun v hv => f v (hsp ▸ hsub v hv)
      cases hh : spacings (times r.items) with
      | nil =>
        rw [hrr, hh]
        refine ⟨by simp [specRes], fun h2 => ?_⟩
        exfalso
        rcases hl : r.items with _ | ⟨a, _ | ⟨b, c⟩⟩
        · rw [hl] at h2; simp at h2
        · rw [hl] at h2; simp at h2
        · rw [hl] at hh; simp [times, spacings] at hh
      | cons d ds =>
        rw [hh] at f'
        have hd : d = e := f' d (by simp)
        subst hd
        have hds : ∀ z ∈ ds, z = d := fun z hz => f' z (by simp [hz])
        have : r.res = s.res := by
          rw [hrr, hsr, hh, hsp]
          unfold specRes
          dsimp only
          rw [if_pos hds, if_pos hall]
        exact ⟨by rw [this, hsr, hsp]; exact hres, fun _ => this⟩
  · have hp' : AllSlots r.items := by
      intro y hy
      obtain ⟨x, hx, he⟩ := h.item hy
      have := hp x hx
      simpa [Item.isSlot, he.2.1] using this
    refine ⟨(build_slotInv hp' hr.self).novar, fun _ => ?_⟩
    obtain ⟨u, z, hu, _, hall⟩ := (build_slotInv hp hs.built).noUnit hs.ne
    obtain ⟨u', z', hu', _, hall'⟩ := (build_slotInv hp' hr.self).noUnit hne
    obtain ⟨y, hy⟩ := List.exists_mem_of_ne_nil _ hne
    obtain ⟨x, hx, he⟩ := h.item hy
    rw [hu, hu', ← (hall x hx).1, ← (hall' y hy).1]
    simp [Item.unit, he.2.1]

theorem Within.shape {cal : Calendar} {s r : TSeries} {m : ℕ} {sh : SeriesShape} (h : Within s r m) (hs : HasShape cal s sh) (hr : Appended r)
    (hne : r.items ≠ []) {ks' : List String} (hk : ks' ≠ []) (hlab : ∀ y ∈ r.items, LabelledBy y ks')
    (hkind : ∀ y ∈ r.items, (∃ d, y.data = some (.dict d)) ↔ sh.keyed = true) :
    HasShape cal r (sh.part ks' r.items.length) := by
  have hop : OpSeries cal r ks' := by
    refine ⟨hr.self, hne, hk, hlab, ?_⟩
    rcases hs.op.shape with ⟨hp, hsp⟩ | ⟨hp, hreg⟩
    · left
      refine ⟨?_, ?_⟩
      · intro y hy
        obtain ⟨x, hx, he⟩ := h.item hy
        have := hp x hx
        simpa [Item.isSlot, he.2.1] using this
      · have h1 : (((s.items.drop m).take r.items.length).map Item.t).Pairwise (fun a b => a + 1 / 10000 ≤ b) :=
          List.pairwise_map.2 (hsp.sublist ((List.take_sublist _ _).trans (List.drop_sublist _ _)))
        rw [← h.mapEq Item.t (fun _ _ hp => hp.1)] at h1
        exact List.pairwise_map.1 h1
    · right
      refine ⟨?_, ?_⟩
      · intro y hy
        obtain ⟨x, hx, he⟩ := h.item hy
        have := hp x hx
        simpa [Item.isSlot, he.2.1] using this
      · intro y hy e u hsl
        obtain ⟨x, hx, he⟩ := h.item hy
        rw [he.2.1] at hsl
        rw [he.2.2, he.1]
        exact hreg x hx e u hsl
  refine ⟨hop, rfl, hkind, ?_, ?_⟩
  · intro he
    exact (h.res hs.op hr hne (hs.even he)).1
  · intro d hd
    unfold SeriesShape.part at hd
    dsimp only at hd
    split_ifs at hd with h2
    obtain ⟨h3, h4⟩ := hs.step d hd
    exact ⟨h3, by rw [(h.res hs.op hr hne (by rw [h4]; simp)).2 h2, h4]⟩

theorem Computes.within {s r : TSeries} {m : ℕ} {ks : List String} {nl : String → String} {v : ℕ → String → ℚ}
    (h : Computes s.items r.items m ks nl v) (hm : m ≤ s.items.length) : Within s r m :=
  ⟨by have := h.length; omega, h.place⟩

/-- a computed series has the shape of the items it comes from -/
theorem Computes.shape {cal : Calendar} {s r : TSeries} {m : ℕ} {sh : SeriesShape} {ks : List String} {nl : String → String}
    {v : ℕ → String → ℚ} (h : Computes s.items r.items m ks nl v) (hs : HasShape cal s sh) (hr : Appended r) (hm : m < sh.n)
    (hk : ks ≠ []) (hkind : ∀ y ∈ r.items, (∃ d, y.data = some (.dict d)) ↔ sh.keyed = true) :
    HasShape cal r (sh.part (ks.map nl) (sh.n - m)) := by
  have h1 := h.length
  have h2 := hs.len
  have h3 : r.items.length = sh.n - m := by omega
  rw [← h3]
  exact (h.within (by omega)).shape hs hr (fun e => by rw [e] at h3; simp at h3; omega) (by simpa using hk) h.labels hkind

theorem named_eq {cal : Calendar} {s : TSeries} {sh : SeriesShape} (hs : HasShape cal s sh) (post : String) :
    resultLabel s.items post = sh.named post := by
  funext k
  have hne := hs.op.ne
  cases hi : s.items with
  | nil => exact absurd hi hne
  | cons x r =>
    have hx : x ∈ s.items := by rw [hi]; simp
    have := hs.keyed x hx
    obtain ⟨d, hd, _, _, hnum⟩ := hs.op.lab x hx
    unfold resultLabel SeriesShape.named newLabel
    simp only [List.head?_cons, hd]
    cases d with
    | num v => exact absurd rfl (hnum v)
    | dict d =>
      rw [if_pos (this.1 ⟨d, hd⟩)]
    | list l =>
      rw [if_neg]
      intro hk
      obtain ⟨e, he⟩ := this.2 hk
      rw [hd] at he; cases he

/-- the kind of data of the items produced -/
theorem itemLoop_kind {cal : Calendar} {proto : Data} {ks : List String} {ren : String → String} {keep : Bool}
    {f : ℕ → Item → String → Except PyErr ℚ} {skip : ℕ → Bool} (l : List Item) :
    ∀ (i : ℕ) (r : List Item), itemLoop cal proto ks ren keep f skip i l = .ok r →
      ∀ y ∈ r, ∃ kvs, y.data = some (makeData proto kvs) := by
  induction l with
  | nil => intro i r h; unfold itemLoop at h; cases h; intro y hy; simp at hy
  | cons x l ih =>
    intro i r h
    unfold itemLoop at h
    split at h
    · exact ih _ _ h
    · split at h
      · cases h
      · split at h
        · cases h
        · rename_i kvs _ _ ys hys
          cases h
          intro y hy
          rcases List.mem_cons.1 hy with e | e
          · subst e
            exact ⟨kvs, by unfold remake; split <;> rfl⟩
          · exact ih _ _ hys y e

theorem intLoop_kind {cal : Calendar} {l0 : List Item} {norm : Option (Bool × ℚ)} {c : NumOrDict} {proto : Data} {post : String}
    {ks : List String} (l : List Item) : ∀ (i : ℕ) (st : IntState) (r : List Item), intLoop cal l0 norm c proto post ks i st l = .ok r →
      ∀ y ∈ r, ∃ kvs, y.data = some (makeData proto kvs) := by
  induction l with
  | nil => intro i st r h; unfold intLoop at h; cases h; intro y hy; simp at hy
  | cons x l ih =>
    intro i st r h
    unfold intLoop at h
    split at h
    · cases h
    · split at h
      · cases h
      · rename_i st' kvs _ _ ys hys
        cases h
        intro y hy
        rcases List.mem_cons.1 hy with e | e
        · subst e
          exact ⟨_, by unfold remake; split <;> rfl⟩
        · exact ih _ _ _ hys y e

/-- items made from the data of the first item are of its kind -/
theorem kind_of_made {cal : Calendar} {s r : TSeries} {sh : SeriesShape} (hs : HasShape cal s sh) {d : Data} {kk : List String}
    (hprep : s.opPrep = .ok (d, kk)) {e : Except PyErr (List Item)} (h : finish e = .ok r)
    (hm : ∀ l, e = .ok l → ∀ y ∈ l, ∃ kvs, y.data = some (makeData d kvs)) :
    ∀ y ∈ r.items, (∃ d, y.data = some (.dict d)) ↔ sh.keyed = true := by
  obtain ⟨x, r0, d', kk', hi, hd, hkk, hp, hprep'⟩ := hs.op.opPrep
  rw [hprep'] at hprep
  cases hprep
  unfold finish at h
  split at h
  · cases h
  · rename_i l
    have hit := build_items h
    intro y hy
    rw [hit] at hy
    obtain ⟨kvs, hk⟩ := hm l rfl y hy
    rw [← hs.keyed x (by rw [hi]; simp), hd, hk]
    cases d with
    | num v =>
      obtain ⟨d0, hd0, _, _, hnum⟩ := hs.op.lab x (by rw [hi]; simp)
      rw [hd] at hd0
      cases hd0
      exact absurd rfl (hnum v)
    | list l => constructor <;> rintro ⟨e, he⟩ <;> simp [makeData] at he
    | dict d0 => exact ⟨fun _ => ⟨d0, rfl⟩, fun _ => ⟨_, rfl⟩⟩

theorem kind_mapOp {cal : Calendar} {s r : TSeries} {sh : SeriesShape} (hs : HasShape cal s sh) {g : String → ℚ → Except PyErr ℚ}
    (h : s.mapOp cal g = .ok r) : ∀ y ∈ r.items, (∃ d, y.data = some (.dict d)) ↔ sh.keyed = true := by
  obtain ⟨x, r0, d', kk', hi, hd, hkk, hp, hprep⟩ := hs.op.opPrep
  unfold TSeries.mapOp at h
  rw [hprep] at h
  exact kind_of_made hs hprep h (fun l hl => itemLoop_kind _ _ _ hl)

theorem named_map_id (ks : List String) : ks.map id = ks := List.map_id ks

theorem integralFrom_zero (cal : Calendar) (back : TUnit → String → ℚ → ℚ) (s : TSeries) (auto : ℚ) (c : NumOrDict) :
    s.integralFrom cal back auto c (.num 0) = s.integralOp cal auto c := by
  unfold TSeries.integralFrom TSeries.integralOp
  rfl

theorem csumFrom_none (cal : Calendar) (back : TUnit → String → ℚ → ℚ) (s : TSeries) : s.csumFrom cal back none = s.csumOp cal := rfl

theorem pyListSlice_map {α β : Type} (f : α → β) (l : List α) (a b : Option Int) :
    pyListSlice (l.map f) a b = (pyListSlice l a b).map f := by
  unfold pyListSlice
  simp only [List.length_map, List.map_take, List.map_drop]

theorem pyListSlice_length {α β : Type} (l : List α) (m : List β) (h : l.length = m.length) (a b : Option Int) :
    (pyListSlice l a b).length = (pyListSlice m a b).length := by
  unfold pyListSlice
  simp only [h, List.length_take, List.length_drop]

/-- the position of the first item of a slice -/
def sliceStart (n : ℕ) (a : Option Int) : ℕ := match a with | some a => pyBound n a | none => 0

theorem pyListSlice_eq {α : Type} (l : List α) (a b : Option Int) :
    ∃ k, pyListSlice l a b = (l.drop (sliceStart l.length a)).take k := ⟨_, rfl⟩

/-- one call -/
theorem fits_run {env : PipeEnv} {st : Stage} {s : TSeries} {sh sh' : SeriesShape} (hs : HasShape env.cal s sh) (hf : st.fits sh = some sh') :
    ∃ r, st.run env s = some (.ok r) ∧ HasShape env.cal r sh' := by
  have hne := hs.op.ne
  have hn : 0 < sh.n := by rw [← hs.len]; exact List.length_pos_iff.2 hne
  have hks := hs.op.ksne
  have happ : Appended s := ⟨_, hs.op.built⟩
  have simple : ∀ {g : String → ℚ → Except PyErr ℚ} {r : TSeries} {v : ℕ → String → ℚ}, s.mapOp env.cal g = .ok r →
      Computes s.items r.items 0 sh.labels id v → HasShape env.cal r (sh.part sh.labels sh.n) := by
    intro g r v h1 h2
    have := h2.shape hs (appended_mapOp h1) hn hks (kind_mapOp hs h1)
    rwa [named_map_id] at this
  cases st with
  | rescale v =>
    cases hf
    obtain ⟨r, h1, _, h3, _⟩ := C28_rescale hs.op v
    exact ⟨r, congrArg some h1, simple h1 h3⟩
  | offset v =>
    cases hf
    obtain ⟨r, h1, _, h3, _⟩ := C28_offset hs.op v
    exact ⟨r, congrArg some h1, simple h1 h3⟩
  | duplicate =>
    cases hf
    refine ⟨s, congrArg some (duplicate_build hs.op.built), ?_⟩
    have hw : Within s s 0 := ⟨by omega, fun j x y hx hy => by
      rw [Nat.zero_add] at hx; rw [hx] at hy; cases hy; exact ⟨rfl, rfl, rfl⟩⟩
    have := hw.shape hs happ hne hks hs.op.lab hs.keyed
    rwa [hs.len] at this
  | normalize a b => cases hf
  | normalizeFrom a b src =>
    unfold Stage.fits at hf
    dsimp only at hf
    split_ifs at hf with hc
    cases hf
    have hx : ∀ k ∈ sh.labels, src.get? k = some (((src.get? k).getD (0, 0)).1, ((src.get? k).getD (0, 0)).2) ∧
        ((src.get? k).getD (0, 0)).1 ≠ ((src.get? k).getD (0, 0)).2 := by
      intro k hk
      obtain ⟨p, hp, hpn⟩ := hc k hk
      rw [Option.mem_def] at hp
      rw [hp]
      exact ⟨rfl, hpn⟩
    obtain ⟨r, _, h1, _, h3, _⟩ := C240_carried hs.op a b src (fun k => ((src.get? k).getD (0, 0)).1) (fun k => ((src.get? k).getD (0, 0)).2)
      (fun k hk => (hx k hk).1) (fun k hk => (hx k hk).2)
    refine ⟨r, congrArg some h1, ?_⟩
    unfold TSeries.normalizeFrom at h1
    obtain ⟨k0, hk0⟩ := List.exists_mem_of_ne_nil _ hks
    rw [nonempty_of_get (hx k0 hk0).1] at h1
    simp only [Bool.false_eq_true, if_false] at h1
    split at h1
    · cases h1
    · split at h1
      · cases h1
      · exact simple h1 h3
  | mavg w =>
    unfold Stage.fits at hf
    dsimp only at hf
    split_ifs at hf with hc
    cases hf
    obtain ⟨n, rfl⟩ := Int.eq_ofNat_of_zero_le (by omega : 0 ≤ w)
    simp only [Int.toNat_natCast]
    obtain ⟨r, h1, h3⟩ := C29_mavg hs.op n (by omega)
    refine ⟨r, congrArg some h1, ?_⟩
    rw [named_eq hs] at h3
    refine h3.shape hs (appended_run env (.mavg n) happ (congrArg some h1)) (by omega) hks ?_
    obtain ⟨x, r0, d', kk', hi, hd, hkk, hp, hprep⟩ := hs.op.opPrep
    unfold TSeries.mavgOp at h1
    rw [hprep] at h1
    dsimp only at h1
    rw [if_neg (by omega)] at h1
    exact kind_of_made hs hprep h1 (fun l hl => itemLoop_kind _ _ _ hl)
  | derivative =>
    unfold Stage.fits at hf
    dsimp only at hf
    split_ifs at hf with hc
    cases hf
    obtain ⟨d, hd⟩ := Option.isSome_iff_exists.1 hc.2
    obtain ⟨hd0, hres⟩ := hs.step d hd
    obtain ⟨r, h1, _, h3, _⟩ := deriv_spec hs.op hd0 hres (by rw [hs.len]; exact hc.1) (env.auto s)
    refine ⟨r, congrArg some h1, ?_⟩
    rw [named_eq hs] at h3
    refine h3.shape hs (appended_run env .derivative happ (congrArg some h1)) (by omega) hks ?_
    obtain ⟨x, r0, d', kk', hi, hd, hkk, hp, hprep⟩ := hs.op.opPrep
    unfold TSeries.derivativeOp at h1
    rw [hprep] at h1
    dsimp only at h1
    rw [if_neg (by rw [hs.len]; omega)] at h1
    split at h1
    · cases h1
    · exact kind_of_made hs hprep h1 (fun l hl => itemLoop_kind _ _ _ hl)
  | integral c o =>
    cases c with
    | dict d => cases hf
    | num c =>
      cases o with
      | dict d => cases hf
      | num o =>
        unfold Stage.fits at hf
        dsimp only at hf
        split_ifs at hf with hc
        cases hf
        obtain ⟨rfl, hst⟩ := hc
        obtain ⟨d, hd⟩ := Option.isSome_iff_exists.1 hst
        obtain ⟨hd0, hres⟩ := hs.step d hd
        obtain ⟨x, r0, d', kk', hi, hdx, hkk, hp, hprep⟩ := hs.op.opPrep
        have hni : s.normInfo env.cal (env.auto s) = .ok (false, d) := by
          unfold TSeries.normInfo
          rw [hres, hi]
          simp only [asSeconds]
          rw [env.cal.physical _ _ _ ⟨rfl, rfl, rfl, rfl⟩]
          simp [TUnit.ofSecs]
        obtain ⟨kk, r, _, h1, h3⟩ := integral_runs hs.op hni (c := .num c) (c0 := fun _ => c) (fun _ _ => .inl rfl)
        have hrun : Stage.run env (.integral (.num c) (.num 0)) s = some (.ok r) := by
          unfold Stage.run
          dsimp only
          rw [integralFrom_zero]
          exact congrArg some h1
        refine ⟨r, hrun, ?_⟩
        rw [named_eq hs] at h3
        refine h3.shape hs (appended_run env _ happ hrun) (by omega) hks ?_
        unfold TSeries.integralOp at h1
        rw [hprep, hni] at h1
        exact kind_of_made hs hprep h1 (fun l hl => intLoop_kind _ _ _ _ hl)
  | diff =>
    unfold Stage.fits at hf
    dsimp only at hf
    split_ifs at hf with hc
    cases hf
    obtain ⟨r, h1, _, h3, _⟩ := diff_spec hs.op (hs.even hc.2) (by rw [hs.len]; exact hc.1)
    refine ⟨r, congrArg some h1, ?_⟩
    rw [named_eq hs] at h3
    refine h3.shape hs (appended_run env .diff happ (congrArg some h1)) (by omega) hks ?_
    obtain ⟨x, r0, d', kk', hi, hd, hkk, hp, hprep⟩ := hs.op.opPrep
    unfold TSeries.diffOp at h1
    rw [hprep] at h1
    dsimp only at h1
    rw [if_neg (by rw [hi]; simp), if_neg (hs.even hc.2), if_neg (by rw [hs.len]; omega)] at h1
    exact kind_of_made hs hprep h1 (fun l hl => itemLoop_kind _ _ _ hl)
  | csum o =>
    cases o with
    | some o => cases hf
    | none =>
      unfold Stage.fits at hf
      dsimp only at hf
      split_ifs at hf with hc
      cases hf
      obtain ⟨r, h1, _, h3, _⟩ := csum_spec hs.op (hs.even hc)
      refine ⟨r, congrArg some h1, ?_⟩
      rw [named_eq hs] at h3
      refine h3.shape hs (appended_run env (.csum none) happ (congrArg some h1)) (by omega) hks ?_
      obtain ⟨x, r0, d', kk', hi, hd, hkk, hp, hprep⟩ := hs.op.opPrep
      unfold TSeries.csumOp at h1
      rw [hprep] at h1
      dsimp only at h1
      rw [if_neg (by rw [hi]; simp), if_neg (hs.even hc)] at h1
      exact kind_of_made hs hprep h1 (fun l hl => intLoop_kind _ _ _ _ hl)
  | filter ls =>
    unfold Stage.fits at hf
    dsimp only at hf
    split_ifs at hf with hc
    cases hf
    obtain ⟨hkd, hl1, hl2, hl3⟩ := hc
    obtain ⟨r, h1, _, h3, _⟩ := C30_filter hs.op (fun x hx => (hs.keyed x hx).2 hkd) ls hl1 hl3 hl2
    refine ⟨r, congrArg some h1, ?_⟩
    have := h3.shape hs (appended_run env (.filter ls) happ (congrArg some h1)) hn hl1 (by
      intro y hy
      exact ⟨fun _ => hkd, fun _ => filter_dict (fun x hx => (hs.keyed x hx).2 hkd) h1 y hy⟩)
    rwa [named_map_id] at this
  | slice a b c d =>
    cases c with
    | some c => cases hf
    | none =>
      cases d with
      | some d => cases hf
      | none =>
        unfold Stage.fits at hf
        dsimp only at hf
        split_ifs at hf with hc
        cases hf
        have hgood : GoodPoints s.items ∨ GoodSlots s.items := by
          rcases hs.op.good with h | h
          · exact .inl h
          · exact .inr h.1
        obtain ⟨r, h1, h2⟩ := C11_index_slicing s hne hgood a b hc.1
        have h3 : s.slice a b none none = .ok r := by
          unfold TSeries.getSlice at h1
          rwa [if_neg (by
            rcases hc.1 with h | h
            · cases a <;> simp at h ⊢
            · cases b <;> simp at h ⊢)] at h1
        refine ⟨r, congrArg some h3, ?_⟩
        have hlen : r.items.length = (pyListSlice (List.range sh.n) a b).length := by
          rw [h2]; exact pyListSlice_length _ _ (by rw [hs.len]; simp) a b
        rw [← hlen]
        have hsub : ∀ y ∈ r.items, y ∈ s.items := by
          rw [h2]; exact (pyListSlice_infix _ a b).subset
        obtain ⟨q, hq⟩ := pyListSlice_eq s.items a b
        rw [hq] at h2
        refine Within.shape (m := sliceStart s.items.length a) ⟨?_, ?_⟩ hs
          (appended_run env (.slice a b none none) happ (congrArg some h3)) ?_ hks
          (fun y hy => hs.op.lab y (hsub y hy)) (fun y hy => hs.keyed y (hsub y hy))
        · by_cases hz : r.items.length = 0
          · exfalso
            rw [hlen] at hz
            exact hc.2 (List.length_eq_zero_iff.1 hz)
          · rw [h2] at hz ⊢
            simp only [List.length_take, List.length_drop] at hz ⊢
            omega
        · intro j x y hx hy
          rw [h2] at hy
          simp only [List.getElem?_take, List.getElem?_drop] at hy
          split_ifs at hy
          rw [hx] at hy
          cases hy
          exact ⟨rfl, rfl, rfl⟩
        · intro he
          rw [he] at hlen
          exact hc.2 (List.length_eq_zero_iff.1 hlen.symm)
  | resample clk n txt unit => cases hf
  | aggregate clk n unit ops => cases hf

/-- **C243**: a chain of calls which fits the series does not raise, and the labels, the number of items, the kind of the data and
the steps of its result are those told in advance, whatever the values. -/
theorem C243_fitting_chain (env : PipeEnv) (sts : List Stage) (s : TSeries) (sh sh' : SeriesShape) (hs : HasShape env.cal s sh)
    (hf : fitsAll sts sh = some sh') : ∃ r, runAll env sts s = some (.ok r) ∧ HasShape env.cal r sh' := by
  induction sts generalizing s sh with
  | nil => cases hf; exact ⟨s, rfl, hs⟩
  | cons st rest ih =>
    unfold fitsAll at hf
    obtain ⟨sh1, h1, h2⟩ := Option.bind_eq_some_iff.1 hf
    obtain ⟨s1, h3, h4⟩ := fits_run hs h1
    obtain ⟨r, h5, h6⟩ := ih s1 sh1 h4 h2
    refine ⟨r, ?_, h6⟩
    unfold runAll
    rw [h3]
    exact h5

/-- an environment -/
def exEnv : PipeEnv where
  cal := physicalCalendar
  back u _ t := t - u.secs
  auto _ := 1

/-- three points a minute apart, with labels `a` and `b` -/
def exShape : SeriesShape := { labels := ["a", "b"], n := 3, keyed := true, even := true, step := some 60 }

theorem exShape_has : HasShape physicalCalendar exSeries exShape := by
  refine ⟨C21_witness, by decide +kernel, ?_, fun _ => by decide +kernel, ?_⟩
  · have : exSeries.items = [mkPoint 0 (.dict [("b", 5), ("a", 1)]), mkPoint 60 (.dict [("a", 4), ("b", 7)]),
      mkPoint 120 (.dict [("a", 3), ("b", -2)])] := by decide +kernel
    rw [this]
    intro x hx
    simp only [List.mem_cons, List.not_mem_nil, or_false] at hx
    refine ⟨fun _ => rfl, fun _ => ?_⟩
    rcases hx with rfl | rfl | rfl <;> exact ⟨_, rfl⟩
  · intro d hd
    cases hd
    exact ⟨by norm_num, by decide +kernel⟩

/-- the chain `rescale(2).filter("a").derivative()[0:-1].diff().csum()` fits them, and gives one item -/
def exChain : List Stage := [.rescale (.num 2), .filter ["a"], .derivative, .slice (some 0) (some (-1)) none none, .diff, .csum none]

theorem C243_witness : HasShape physicalCalendar exSeries exShape ∧
    (fitsAll exChain exShape).map (fun sh => (sh.labels, sh.n)) = some (["a_derivative_diff_csum"], 1) ∧
    ((runAll exEnv exChain exSeries).bind Except.toOption).map (fun r => r.items.map Item.data) =
      some [some (.dict [("a_derivative_diff_csum", -1 / 15)])] :=
  ⟨exShape_has, by decide +kernel, by decide +kernel⟩

/-- the differences of the series twice as large, merged with the series itself without its first item -/
def exPipe : Pipe := .merge (.call .diff (.call (.rescale (.num 2)) (.source 0))) (.call (.slice (some 1) none none none) (.source 0))

theorem C242_witness : (∀ _ : ℕ, Appended exSeries) ∧
    ((exPipe.eval exEnv (fun _ => exSeries)).bind Except.toOption).map (fun r => r.items.map Item.t) = some [60, 120] :=
  ⟨fun _ => ⟨_, C21_witness.built⟩, by decide +kernel⟩

end Timeseria
