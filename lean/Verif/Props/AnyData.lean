import Verif.Model.AnyData
import Verif.Lemmas.Ops
import Verif.Props.MergeKinds

/-! # Items with any kind of data -/

namespace Timeseria

/-! ## Specification -/

/-- two data have the same shape: they are of one type, and have as many values or the same labels -/
def SameShape : AnyData → AnyData → Prop
  | .list a, .list b => a.length = b.length
  | .tuple a, .tuple b => a.length = b.length
  | .array a, .array b => a.length = b.length
  | .dict a, .dict b => ∀ k, k ∈ a.keys ↔ k ∈ b.keys
  | .scalar s _, .scalar t _ => s = t
  | _, _ => False

/-- what is compared by the code: the types, the length of lists, the labels -/
def ComparesWith : AnyData → AnyData → Prop
  | .list a, .list b => a.length = b.length
  | .dict a, .dict b => ∀ k, k ∈ a.keys ↔ k ∈ b.keys
  | a, b => a.type = b.type

/-- times increase strictly -/
def Increasing (l : List AnyItem) : Prop := (l.map AnyItem.t).Pairwise (· < ·)

/-! ## C308: data of one kind -/

theorem check_iff (r d : AnyData) : r.check d = .ok () ↔ ComparesWith r d := by
  unfold AnyData.check
  by_cases h : r.type = d.type
  · rw [if_neg (not_not.2 h)]
    cases r <;> cases d
    case list.list a b =>
      dsimp only [ComparesWith]
      split <;> rename_i h1
      · exact ⟨fun hc => (by cases hc), fun hc => absurd hc h1⟩
      · exact ⟨fun _ => not_not.1 h1, fun _ => rfl⟩
    case dict.dict a b =>
      dsimp only [ComparesWith]
      rw [← sameKeys_iff]
      split <;> rename_i h1
      · exact ⟨fun _ => h1, fun _ => rfl⟩
      · exact ⟨fun hc => (by cases hc), fun hc => absurd hc h1⟩
    all_goals exact ⟨fun _ => h, fun _ => rfl⟩
  · rw [if_pos h]
    refine ⟨fun hc => (by cases hc), fun hc => absurd ?_ h⟩
    cases r <;> cases d
    case list.list => rfl
    case dict.dict => rfl
    all_goals exact hc

theorem append_any (s : AnySeries) (x last : AnyItem) (hl : s.items.getLast? = some last) (ht : s.ref.truth = .ok true) :
    s.append x = if x.t ≤ last.t then (s, .error .valueError) else match s.ref.check x.data with
      | .error e => (s, .error e)
      | .ok _ => ({ s with items := s.items ++ [x] }, .ok ()) := by
  unfold AnySeries.append
  rw [hl]
  dsimp only
  rw [ht]
  rfl

/-- every step after the first when the reference is true -/
theorem build_any (s s' : AnySeries) (l : List AnyItem) (last : AnyItem) (hl : s.items.getLast? = some last) (ht : s.ref.truth = .ok true) :
    s.build l = .ok s' ↔ s' = { s with items := s.items ++ l } ∧ (last.t :: l.map AnyItem.t).IsChain (· < ·) ∧ ∀ y ∈ l, s.ref.check y.data = .ok () := by
  induction l generalizing s last with
  | nil => unfold AnySeries.build; constructor
           · intro h; cases h; exact ⟨by simp, by simp, by simp⟩
           · rintro ⟨rfl, _, _⟩; simp
  | cons x l ih =>
    unfold AnySeries.build
    rw [append_any s x last hl ht]
    by_cases hx : x.t ≤ last.t
    · rw [if_pos hx]
      dsimp only
      refine ⟨fun h => (by cases h), ?_⟩
      rintro ⟨_, h, _⟩
      simp at h
      exact absurd h.1 (not_lt.2 hx)
    · rw [if_neg hx]
      cases hc : s.ref.check x.data with
      | error e =>
        dsimp only
        refine ⟨fun h => (by cases h), ?_⟩
        rintro ⟨_, _, h⟩
        have := h x (by simp)
        rw [hc] at this; cases this
      | ok u =>
        dsimp only
        rw [ih { s with items := s.items ++ [x] } x (by simp) ht]
        simp only [List.append_assoc, List.singleton_append, List.map_cons, List.isChain_cons_cons, List.mem_cons, forall_eq_or_imp, hc]
        constructor
        · rintro ⟨h1, h2, h3⟩; exact ⟨h1, ⟨not_le.1 hx, h2⟩, trivial, h3⟩
        · rintro ⟨h1, ⟨_, h2⟩, _, h3⟩; exact ⟨h1, h2, h3⟩

theorem increasing_iff (x : AnyItem) (l : List AnyItem) : (x.t :: l.map AnyItem.t).IsChain (· < ·) ↔ Increasing (x :: l) := by
  unfold Increasing
  rw [List.isChain_iff_pairwise]
  rfl

/-- **C308, partial**: items can be appended one after the other to an empty series exactly when their times increase and their data compare with that of the first, if this is
a value which is true: the same type, lists of the same length, dictionaries with the same labels.  The series then has these items. -/
theorem C308_partial (x : AnyItem) (l : List AnyItem) (s : AnySeries) (ht : x.data.truth = .ok true) :
    AnySeries.build {} (x :: l) = .ok s ↔ s = { items := x :: l, ref := x.data } ∧ Increasing (x :: l) ∧ ∀ y ∈ l, ComparesWith x.data y.data := by
  have h0 : AnySeries.build {} (x :: l) = AnySeries.build { items := [x], ref := x.data } l := by
    conv_lhs => unfold AnySeries.build AnySeries.append
    simp
  rw [h0, build_any _ s l x (by simp) ht, increasing_iff]
  simp only [List.singleton_append]
  constructor
  · rintro ⟨h1, h2, h3⟩
    exact ⟨h1, h2, fun y hy => (check_iff _ _).1 (h3 y hy)⟩
  · rintro ⟨h1, h2, h3⟩
    exact ⟨h1, h2, fun y hy => (check_iff _ _).2 (h3 y hy)⟩

/-- tuples of different lengths -/
def tupleItems : List AnyItem := [⟨0, .tuple [1]⟩, ⟨60, .tuple [2, 9]⟩]
/-- tuples of different lengths, the first being the longest -/
def tupleItemsShort : List AnyItem := [⟨0, .tuple [1, 9]⟩, ⟨60, .tuple [2]⟩]
/-- the series of them -/
def tupleSeries : AnySeries := { items := tupleItems, ref := .tuple [1] }
def tupleSeriesShort : AnySeries := { items := tupleItemsShort, ref := .tuple [1, 9] }

/-- **C308 is false**: tuples of different lengths are accepted in one series; the sum then leaves out a value without telling, or raises `IndexError`. -/
theorem C308_false : AnySeries.build {} tupleItems = .ok tupleSeries ∧ ¬ SameShape (.tuple [1]) (.tuple [2, 9]) ∧
    tupleSeries.scalarOp (fun vs => vs.sum) = .ok [("0", 3)] ∧
    AnySeries.build {} tupleItemsShort = .ok tupleSeriesShort ∧ tupleSeriesShort.scalarOp (fun vs => vs.sum) = .error .indexError := by
  unfold SameShape
  refine ⟨?_, by decide, ?_, ?_, ?_⟩
  · exact (C308_partial _ _ _ rfl).2
      ⟨rfl, by unfold Increasing; decide +kernel, by intro y hy; simp at hy; subst hy; rfl⟩
  · decide +kernel
  · exact (C308_partial _ _ _ rfl).2
      ⟨rfl, by unfold Increasing; decide +kernel, by intro y hy; simp at hy; subst hy; rfl⟩
  · decide +kernel

/-! ## C309: numbers as data -/

/-- **C309 is false**: in a series started with an integer a number with decimals is refused, with `TypeError`, and the other way round. -/
theorem C309_false : AnySeries.build {} [⟨0, .scalar "int" 1⟩, ⟨60, .scalar "float" (3/2)⟩] = .error .typeError ∧
    AnySeries.build {} [⟨0, .scalar "float" (3/2)⟩, ⟨60, .scalar "int" 1⟩] = .error .typeError := by
  constructor <;> decide +kernel

/-- **C309, partial**: numbers of one type are accepted exactly in the order of time, if the first one is not zero. -/
theorem C309_partial (ty : String) (t v : ℚ) (hv : v ≠ 0) (l : List (ℚ × ℚ)) :
    (∃ s, AnySeries.build {} (⟨t, .scalar ty v⟩ :: l.map (fun p => ⟨p.1, .scalar ty p.2⟩)) = .ok s) ↔ (t :: l.map Prod.fst).Pairwise (· < ·) := by
  have key := fun s => C308_partial ⟨t, .scalar ty v⟩ (l.map (fun p : ℚ × ℚ => (⟨p.1, .scalar ty p.2⟩ : AnyItem))) s (by simp [AnyData.truth, hv])
  have hi : Increasing (⟨t, .scalar ty v⟩ :: l.map (fun p : ℚ × ℚ => (⟨p.1, .scalar ty p.2⟩ : AnyItem))) ↔ (t :: l.map Prod.fst).Pairwise (· < ·) := by
    unfold Increasing
    rw [List.map_cons, List.map_map]
    rfl
  constructor
  · rintro ⟨s, h⟩
    exact hi.1 ((key s).1 h).2.1
  · intro h
    refine ⟨_, (key _).2 ⟨rfl, hi.2 h, ?_⟩⟩
    intro y hy
    obtain ⟨p, _, rfl⟩ := List.mem_map.1 hy
    rfl

/-- **C309 (zero)**: if the first number is zero (or the first data are empty), whatever is appended next in time is accepted, of any type. -/
theorem C309_zero (x y : AnyItem) (hx : x.data.truth = .ok false) (ht : x.t < y.t) :
    AnySeries.build {} [x, y] = .ok { items := [x, y], ref := y.data } := by
  unfold AnySeries.build
  rw [show AnySeries.append {} x = ({ items := [x], ref := x.data }, .ok ()) from rfl]
  dsimp only
  unfold AnySeries.build AnySeries.append
  simp only [List.getLast?_singleton]
  rw [if_neg (not_le.2 ht), hx]
  rfl

/-- **C309 (labels)**: a number has no labels: no operation works on a series of numbers. -/
theorem C309_labels (ty : String) (v : ℚ) (x : AnyItem) (l : List AnyItem) (hx : x.data = .scalar ty v) (r : AnyData) (hr : ∃ b, r.truth = .ok b) (f : List ℚ → ℚ) (g : String → ℚ → ℚ) :
    AnySeries.scalarOp f { items := x :: l, ref := r } = .error .typeError ∧ AnySeries.mapOp g { items := x :: l, ref := r } = .error .typeError := by
  have : AnySeries.opLabels { items := x :: l, ref := r } = .error .typeError := by
    unfold AnySeries.opLabels
    dsimp only
    obtain ⟨b, hb⟩ := hr
    rw [hb]
    cases b
    · rfl
    · dsimp only; rw [hx]; rfl
  constructor
  · unfold AnySeries.scalarOp; rw [this]
  · unfold AnySeries.mapOp; rw [this]

/-! ## C310: tuples as data -/

/-- a tuple as the list of its values -/
def AnyData.listed : AnyData → AnyData
  | .tuple l => .list l
  | d => d

/-- the same series with lists in the place of tuples -/
def AnySeries.listed (s : AnySeries) : AnySeries := { items := s.items.map (fun x => { x with data := x.data.listed }), ref := s.ref.listed }

theorem listed_truth (d : AnyData) : d.listed.truth = d.truth := by cases d <;> rfl
theorem listed_labels (d : AnyData) : d.listed.labels = d.labels := by cases d <;> rfl
theorem listed_byLabel (d : AnyData) (k : String) : d.listed.byLabel k = d.byLabel k := by cases d <;> rfl

theorem mapE_map {α β γ : Type} (g : γ → α) (f : α → Except PyErr β) (l : List γ) : mapE f (l.map g) = mapE (fun x => f (g x)) l := by
  induction l with
  | nil => rfl
  | cons a l ih => rw [List.map_cons]; unfold mapE; rw [ih]

/-- **C310, partial**: `min`, `max`, `sum` and any other operation giving a value for each label give on tuples what they give on lists with the same values; so does `avg`. -/
theorem C310_partial {β : Type} (f : List ℚ → β) (s : AnySeries) : s.scalarOp f = s.listed.scalarOp f ∧ s.avgOp = s.listed.avgOp := by
  have h1 : ∀ k, s.listed.values k = s.values k := by
    intro k
    unfold AnySeries.values AnySeries.listed
    rw [mapE_map]
    simp only [listed_byLabel]
  have h2 : s.listed.opLabels = s.opLabels := by
    unfold AnySeries.opLabels AnySeries.listed
    cases s.items with
    | nil => rfl
    | cons x l => simp only [List.map_cons, listed_truth, listed_labels]
  have key : ∀ {β : Type} (f : List ℚ → β), s.scalarOp f = s.listed.scalarOp f := by
    intro β f
    unfold AnySeries.scalarOp
    simp only [h1, h2]
  refine ⟨key f, ?_⟩
  unfold AnySeries.avgOp
  rw [key]
  simp [AnySeries.listed]

/-- **C310 is false**: no operation which gives a new series works on tuples: for every series of which the first item carries a tuple with values they raise `AttributeError`. -/
theorem C310_false (x : AnyItem) (l : List AnyItem) (vs : List ℚ) (hx : x.data = .tuple vs) (hv : vs ≠ []) (g : String → ℚ → ℚ) :
    AnySeries.mapOp g { items := x :: l, ref := x.data } = .error .attributeError := by
  have hl : AnySeries.opLabels { items := x :: l, ref := x.data } = .ok ((List.range vs.length).map strNat) := by
    unfold AnySeries.opLabels
    dsimp only
    rw [hx]
    have : (AnyData.tuple vs).truth = .ok true := by cases vs with | nil => exact absurd rfl hv | cons => rfl
    rw [this]
    rfl
  unfold AnySeries.mapOp
  rw [hl]
  dsimp only
  obtain ⟨n, hn⟩ : ∃ n, vs.length = n + 1 := ⟨vs.length - 1, by have := List.length_pos_of_ne_nil hv; omega⟩
  have hk : AnyData.isKeyValue x.data ((List.range vs.length).map strNat) = .ok false := by
    rw [hx, hn, List.range_succ_eq_map, List.map_cons]; rfl
  rw [hk]
  dsimp only
  unfold anyLoop
  have hm : mapE (fun k => tag k (bindE (x.data.byLabel k) (fun v => .ok (g k v)))) ((List.range vs.length).map strNat) =
      .ok ((List.range vs.length).map (fun i => (strNat i, g (strNat i) (vs.getD i 0)))) := by
    rw [mapE_map]
    apply mapE_ok
    intro i hi
    have hi := List.mem_range.1 hi
    rw [hx]
    rw [show (AnyData.tuple vs).byLabel (strNat i) = atText vs (strNat i) from rfl]
    unfold atText
    rw [readNat_strNat]
    dsimp only
    rw [List.getElem?_eq_getElem hi]
    simp [bindE, tag, hi]
  rw [hm]
  dsimp only
  rw [hx]
  unfold AnyData.remake
  rw [if_neg]
  rw [hn]
  simp

theorem C310_witness : tupleItems.head?.map AnyItem.data = some (.tuple [1]) ∧ tupleSeries.scalarOp maxLoop = .ok [("0", some 2)] := by decide +kernel

/-! ## C311: arrays as data -/

/-- **C311 is false**: after an item with an array of two or more values nothing can be appended: whatever comes later in time raises `ValueError`, and so does any operation. -/
theorem C311_false (t a b : ℚ) (l : List ℚ) (y : AnyItem) (f : List ℚ → ℚ) (g : String → ℚ → ℚ) :
    AnySeries.build {} [⟨t, .array (a :: b :: l)⟩, y] = .error .valueError ∧
    AnySeries.scalarOp f { items := [⟨t, .array (a :: b :: l)⟩], ref := .array (a :: b :: l) } = .error .valueError ∧
    AnySeries.mapOp g { items := [⟨t, .array (a :: b :: l)⟩], ref := .array (a :: b :: l) } = .error .valueError := by
  refine ⟨?_, rfl, rfl⟩
  unfold AnySeries.build
  rw [show AnySeries.append {} ⟨t, .array (a :: b :: l)⟩ = ({ items := [⟨t, .array (a :: b :: l)⟩], ref := .array (a :: b :: l) }, .ok ()) from rfl]
  dsimp only
  unfold AnySeries.build AnySeries.append
  simp only [List.getLast?_singleton, AnyData.truth]
  split
  · rename_i h; split at h <;> cases h
  · rename_i h; split at h <;> cases h <;> rfl

/-- **C311, partial**: arrays of one value which is not zero in the first are accepted in the order of time; but their values cannot be read: every operation raises `IndexError`. -/
theorem C311_partial (t v : ℚ) (hv : v ≠ 0) (l : List (ℚ × ℚ)) :
    ((∃ s, AnySeries.build {} (⟨t, .array [v]⟩ :: l.map (fun p => ⟨p.1, .array [p.2]⟩)) = .ok s) ↔ (t :: l.map Prod.fst).Pairwise (· < ·)) ∧
    ∀ (r : List AnyItem) (f : List ℚ → ℚ) (g : String → ℚ → ℚ), AnySeries.scalarOp f { items := ⟨t, .array [v]⟩ :: r, ref := .array [v] } = .error .indexError ∧
      AnySeries.mapOp g { items := ⟨t, .array [v]⟩ :: r, ref := .array [v] } = .error .indexError := by
  have ht : (AnyData.array [v]).truth = .ok true := by simp [AnyData.truth, hv]
  refine ⟨?_, ?_⟩
  · have key := fun s => C308_partial ⟨t, .array [v]⟩ (l.map (fun p : ℚ × ℚ => (⟨p.1, .array [p.2]⟩ : AnyItem))) s ht
    have hi : Increasing (⟨t, .array [v]⟩ :: l.map (fun p : ℚ × ℚ => (⟨p.1, .array [p.2]⟩ : AnyItem))) ↔ (t :: l.map Prod.fst).Pairwise (· < ·) := by
      unfold Increasing
      rw [List.map_cons, List.map_map]
      rfl
    constructor
    · rintro ⟨s, h⟩
      exact hi.1 ((key s).1 h).2.1
    · intro h
      refine ⟨_, (key _).2 ⟨rfl, hi.2 h, ?_⟩⟩
      intro y hy
      obtain ⟨p, _, rfl⟩ := List.mem_map.1 hy
      rfl
  · intro r f g
    have hl : AnySeries.opLabels { items := ⟨t, .array [v]⟩ :: r, ref := .array [v] } = .ok ["0"] := by
      unfold AnySeries.opLabels
      dsimp only
      rw [ht]
      rfl
    constructor
    · unfold AnySeries.scalarOp; rw [hl]; rfl
    · unfold AnySeries.mapOp; rw [hl]; rfl

/-! ## C312: what an operation can be called on -/

/-- **C312 is false**: an operation never works on a list of series, although it says it does: on any list of series which are not empty it raises `AttributeError`. -/
theorem C312_false {β : Type} (call : AnySeries → Except PyErr β) (l : List AnySeries) (h : ∀ s ∈ l, s.items ≠ []) :
    opCall call (.iterable (l.map some)) = .error .attributeError := by
  unfold opCall
  dsimp only
  rw [if_neg]
  simp only [List.any_map, List.any_eq_true, not_exists, not_and]
  intro s hs
  simpa using h s hs

/-- **C312, partial**: on a series which is not empty the result is that of the operation; anything else is refused: an empty series, alone or in a list, with `ValueError`, what cannot be iterated with
`TypeError`. -/
theorem C312_partial {β : Type} (call : AnySeries → Except PyErr β) :
    (∀ s : AnySeries, s.items ≠ [] → opCall call (.series s) = call s) ∧ (∀ s : AnySeries, s.items = [] → opCall call (.series s) = .error .valueError) ∧
    (∀ l, (∃ s : AnySeries, some s ∈ l ∧ s.items = []) → opCall call (.iterable l) = .error .valueError) ∧ opCall call .other = .error .typeError := by
  refine ⟨?_, ?_, ?_, rfl⟩
  · intro s h; unfold opCall; dsimp only; rw [if_neg (by simpa using h)]
  · intro s h; unfold opCall; dsimp only; rw [if_pos (by simp [h])]
  · rintro l ⟨s, hs, h⟩
    unfold opCall
    dsimp only
    rw [if_pos]
    rw [List.any_eq_true]
    exact ⟨some s, hs, by simp [h]⟩

end Timeseria
