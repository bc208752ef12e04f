import Verif.Lemmas.Masks3
import Mathlib.Order.WithBot
import Mathlib.Algebra.Field.Defs
import Mathlib.Algebra.Field.Rat
/-!
C37: masks of the result of an operation. C38: reductions of masked data.
-/
namespace Scipp.Props
open Scipp Scipp.Sizes

/-! ### C37 -/

/-- **C37** (binary operations, success): combining the masks of two operands fails exactly if masks of the same name are not
boolean, have a unit, or have different extents of a shared dim. -/
theorem C37_union_succeeds_iff (a b : List (Dim × MaskVar)) (ha : (a.map Prod.fst).Nodup) (hb : (b.map Prod.fst).Nodup)
    (hao : ∀ p ∈ a, p.2.arr.Ok) (hbo : ∀ p ∈ b, p.2.arr.Ok) :
    (∃ r, unionOr a b = .ok r) ↔
      ∀ k m n, (k, m) ∈ a → (k, n) ∈ b → m.Plain ∧ n.Plain ∧ Compatible m.arr.dims n.arr.dims := by
  have hcur : ∀ k m, lookupEntry a k = some m → m.arr.Ok := fun k m h => hao _ (lookup_mem h)
  have := (unionOr_loop hcur b (a.foldl (fun out p => insertEntry out p.1 p.2.copy) []) hb hbo (fun p _ => by
    rw [copies_lookup a [] p.1 ha]; cases lookupEntry a p.1 <;> rfl)).1
  unfold unionOr
  rw [this]
  constructor
  · intro h k m n hm hn; exact h _ hn m (lookup_of_mem ha hm)
  · intro h p hp m hm; exact h p.1 m p.2 (lookup_mem hm) hp

/-- **C37** (binary operations): the masks of the result are the union of the masks of the operands; masks of the same name
are combined with logical or. -/
theorem C37_union (a b r : List (Dim × MaskVar)) (ha : (a.map Prod.fst).Nodup) (hb : (b.map Prod.fst).Nodup)
    (hao : ∀ p ∈ a, p.2.arr.Ok) (hbo : ∀ p ∈ b, p.2.arr.Ok) (h : unionOr a b = .ok r) :
    (r.map Prod.fst).Nodup ∧ ∀ k, IsMaskUnion (lookupEntry a k) (lookupEntry b k) (lookupEntry r k) := by
  have hcur : ∀ k m, lookupEntry a k = some m → m.arr.Ok := fun k m h => hao _ (lookup_mem h)
  unfold unionOr at h
  obtain ⟨h1, h2, h3⟩ := (unionOr_loop hcur b (a.foldl (fun out p => insertEntry out p.1 p.2.copy) []) hb hbo (fun p _ => by
    rw [copies_lookup a [] p.1 ha]; cases lookupEntry a p.1 <;> rfl)).2 r h
  refine ⟨h3 (by rw [copies_keys a [] (by simpa using ha)]; simpa using ha), fun k => ?_⟩
  cases hk : lookupEntry b k with
  | some n =>
    have := h2 (k, n) (lookup_mem hk)
    exact this
  | none =>
    rw [h1 k (lookup_none.1 hk), copies_lookup a [] k ha]
    cases lookupEntry a k with
    | none => exact ⟨by simp [lookupEntry], by simp [maskDims, lookupEntry], by simp [maskedBy, lookupEntry]⟩
    | some m =>
      refine ⟨by simp, fun p => by simp [maskDims, MaskVar.copy], fun c _ => by simp [maskedBy, MaskVar.copy]⟩

/-- **C37** (in-place operations, success): which masks of the other operand are accepted. A new mask must fit the data, and
the target must not be a slice; a mask of the same name must not add dims, and must not change a read-only mask (one that does
not depend on the dim along which the target was sliced). -/
theorem C37_in_place_succeeds_iff (a : MaskDict) (b : List (Dim × MaskVar)) (hs : WF a.sizes)
    (ha : (a.items.map Prod.fst).Nodup) (hb : (b.map Prod.fst).Nodup)
    (hao : ∀ p ∈ a.items, p.2.arr.Ok) (hbo : ∀ p ∈ b, p.2.arr.Ok) :
    (∃ r, unionOrMasksInPlace a b = .ok r) ↔
      ∀ k n, (k, n) ∈ b →
        (∀ m, (k, m) ∈ a.items → m.Plain ∧ n.Plain ∧ (∀ p ∈ n.arr.dims, p ∈ m.arr.dims) ∧
          (m.readonly = true → ∀ c, InDims m.arr.dims c → n.arr.val c = true → m.arr.val c = true)) ∧
        (k ∉ a.items.map Prod.fst → a.readonly = false ∧ Fits a.sizes n.arr.dims) := by
  have hcur : ∀ k m, lookupEntry a.items k = some m → m.arr.Ok := fun k m h => hao _ (lookup_mem h)
  have conv : (∀ p ∈ b, InPlaceAccepts a.sizes a.readonly (lookupEntry a.items p.1) p.2) ↔
      ∀ k n, (k, n) ∈ b →
        (∀ m, (k, m) ∈ a.items → m.Plain ∧ n.Plain ∧ (∀ p ∈ n.arr.dims, p ∈ m.arr.dims) ∧
          (m.readonly = true → ∀ c, InDims m.arr.dims c → n.arr.val c = true → m.arr.val c = true)) ∧
        (k ∉ a.items.map Prod.fst → a.readonly = false ∧ Fits a.sizes n.arr.dims) := by
    constructor
    · intro h k n hn
      have hh := h _ hn
      simp only at hh
      refine ⟨fun m hm => ?_, fun hk => ?_⟩
      · rw [lookup_of_mem ha hm] at hh; exact hh
      · rw [lookup_none.2 hk] at hh; exact hh
    · intro h p hp
      obtain ⟨h1, h2⟩ := h p.1 p.2 hp
      cases hl : lookupEntry a.items p.1 with
      | none => exact h2 (lookup_none.1 hl)
      | some m => exact h1 m (lookup_mem hl)
  rw [← conv]
  have hloop := fun hpl => (inPlace_loop hs hcur b a hb hbo rfl rfl (fun _ _ => rfl) hpl).1
  unfold unionOrMasksInPlace
  constructor
  · rintro ⟨r, h⟩
    cases hf : b.forM (unionOrInPlaceCheck a) with
    | error e => rw [hf] at h; cases h
    | ok u =>
      rw [hf] at h
      have hchk := (forM_ok _ b).1 hf
      refine (hloop (fun p hp m hm => ?_)).1 ⟨r, h⟩
      have := (check_iff hcur (hbo p hp)).1 (hchk p hp)
      rw [hm] at this; exact this
  · intro h
    have hchk : b.forM (unionOrInPlaceCheck a) = .ok () := by
      refine (forM_ok _ b).2 (fun p hp => (check_iff hcur (hbo p hp)).2 ?_)
      have := h p hp
      cases hl : lookupEntry a.items p.1 with
      | none => rw [hl] at this; exact this.1
      | some m => rw [hl] at this; exact ⟨this.1, this.2.1, fun _ => this⟩
    rw [hchk]
    refine (hloop (fun p hp m hm => ?_)).2 h
    have := h p hp
    rw [hm] at this
    exact ⟨this.1, this.2.1, fun _ => this⟩

/-- **C37** (in-place operations): the target keeps all its masks with their dims, gets those of the other operand, and masks of the
same name are combined with logical or. This includes read-only masks, which are not touched. -/
theorem C37_in_place (a r : MaskDict) (b : List (Dim × MaskVar)) (hs : WF a.sizes)
    (ha : (a.items.map Prod.fst).Nodup) (hb : (b.map Prod.fst).Nodup)
    (hao : ∀ p ∈ a.items, p.2.arr.Ok) (hbo : ∀ p ∈ b, p.2.arr.Ok) (h : unionOrMasksInPlace a b = .ok r) :
    r.sizes = a.sizes ∧ (r.items.map Prod.fst).Nodup ∧
    (∀ k, IsMaskUnion (lookupEntry a.items k) (lookupEntry b k) (lookupEntry r.items k)) ∧
    ∀ k m, (k, m) ∈ a.items → ∃ m', (k, m') ∈ r.items ∧ m'.arr.dims = m.arr.dims := by
  have hcur : ∀ k m, lookupEntry a.items k = some m → m.arr.Ok := fun k m h => hao _ (lookup_mem h)
  unfold unionOrMasksInPlace at h
  cases hf : b.forM (unionOrInPlaceCheck a) with
  | error e => rw [hf] at h; cases h
  | ok u =>
    rw [hf] at h
    have hchk := (forM_ok _ b).1 hf
    obtain ⟨h1, _, h3, h4, h5⟩ := (inPlace_loop hs hcur b a hb hbo rfl rfl (fun _ _ => rfl) (fun p hp m hm => by
      have := (check_iff hcur (hbo p hp)).1 (hchk p hp)
      rw [hm] at this; exact this)).2 r h
    refine ⟨h1, h5 ha, fun k => ?_, fun k m hm => ?_⟩
    · cases hk : lookupEntry b k with
      | some n => exact (h4 (k, n) (lookup_mem hk)).1
      | none =>
        rw [h3 k (lookup_none.1 hk)]
        exact ⟨by simp, fun p => by simp [maskDims], fun c _ => by simp [maskedBy]⟩
    · have hl := lookup_of_mem ha hm
      cases hk : lookupEntry b k with
      | none => exact ⟨m, lookup_mem (by rw [h3 k (lookup_none.1 hk)]; exact hl), rfl⟩
      | some n =>
        obtain ⟨g1, g2⟩ := h4 (k, n) (lookup_mem hk)
        simp only at g1 g2
        rw [hl] at g1
        obtain ⟨m', hm'⟩ := Option.isSome_iff_exists.1 (g1.1.2 (.inl rfl))
        exact ⟨m', lookup_mem hm', g2 m m' hl hm'⟩

/-- A mask of one dim given by a predicate on the index, for the examples. -/
def maskOf (d : Dim) (n : Int) (p : Int → Bool) : MaskVar := { arr := ⟨[(d, n)], fun c => p (c d)⟩ }

-- masks of the same name along different dims make a two-dimensional mask; other masks are copied
example : ((unionOr [(1, maskOf 2 2 (· == 0)), (5, maskOf 2 2 (fun _ => true))] [(1, maskOf 3 2 (· == 1))]).map
    (fun r => r.map (fun p => (p.1, (p.2.arr.dims : List (Dim × Int)), [0, 1].map (fun i => [0, 1].map (fun j =>
      p.2.arr.val (fun d => if d = 2 then i else j))))))) =
    .ok [(1, [(2, 2), (3, 2)], [[true, true], [false, true]]), (5, [(2, 2)], [[true, true], [true, true]])] := by rfl

-- in place a mask cannot gain a dim
example : ((unionOrMasksInPlace ⟨[(2, 2), (3, 2)], [(1, maskOf 2 2 (· == 0))], false⟩ [(1, maskOf 3 2 (· == 1))]).map
    (fun r => r.items.map Prod.fst)) = .error .dimension := by decide

-- a read-only mask of a slice may be combined with a mask which adds nothing
example : ((unionOrMasksInPlace ⟨[(2, 2)], [(1, { maskOf 2 2 (· == 0) with readonly := true })], true⟩
      [(1, maskOf 2 2 (· == 0))]).map (fun r => r.items.map Prod.fst)) = .ok [1] ∧
    ((unionOrMasksInPlace ⟨[(2, 2)], [(1, { maskOf 2 2 (· == 0) with readonly := true })], true⟩
      [(1, maskOf 2 2 (· == 1))]).map (fun r => r.items.map Prod.fst)) = .error .dimension := by decide

/-! ### C38 -/

theorem maskOf_ok (d : Dim) (n : Int) (p : Int → Bool) (hd : d ≠ Dim.invalid) (hn : 0 ≤ n) : (maskOf d n p).arr.Ok := by
  refine ⟨by simp [maskOf, Sizes.WF, labels, hn], by simp [maskOf, labels, hd.symm], fun c c' h => ?_⟩
  have := h d (by simp [maskOf, labels]); simp only [maskOf]; rw [this]

private def masksA : List (Dim × MaskVar) := [(1, maskOf 2 2 (· == 0)), (5, maskOf 2 2 (fun _ => true))]
private def masksB : List (Dim × MaskVar) := [(1, maskOf 3 2 (· == 1))]
private theorem masksA_ok : ∀ p ∈ masksA, p.2.arr.Ok := by
  simp only [masksA, List.mem_cons, List.not_mem_nil, or_false]
  rintro _ (rfl | rfl) <;> exact maskOf_ok _ _ _ (by decide) (by decide)
private theorem masksB_ok : ∀ p ∈ masksB, p.2.arr.Ok := by
  simp only [masksB, List.mem_cons, List.not_mem_nil, or_false]
  rintro _ rfl; exact maskOf_ok _ _ _ (by decide) (by decide)

example := C37_union_succeeds_iff masksA masksB (by decide) (by decide) masksA_ok masksB_ok
example := C37_union masksA masksB [(1, { arr := ⟨[(2, 2), (3, 2)], fun c => c 2 == 0 || c 3 == 1⟩ }), (5, maskOf 2 2 (fun _ => true))]
  (by decide) (by decide) masksA_ok masksB_ok rfl
example := C37_in_place_succeeds_iff ⟨[(2, 2), (3, 2)], masksA, false⟩ masksB (by simp [WF, labels]) (by decide) (by decide)
  masksA_ok masksB_ok
example := C37_in_place ⟨[(2, 2), (3, 2)], masksA, false⟩ ⟨[(2, 2), (3, 2)], masksA ++ [(6, maskOf 3 2 (· == 1))], false⟩
  [(6, maskOf 3 2 (· == 1))] (by simp [WF, labels]) (by decide) (by decide) masksA_ok
  (by simp only [List.mem_singleton]; rintro _ rfl; exact maskOf_ok _ _ _ (by decide) (by decide)) rfl

section Reduce
variable {V W : Type}

/-- Common form of the following theorems: the data of the reduction is `f` of the unmasked elements of each row, the dims are
those of the data without `dim` in the same order, the masks not depending on `dim` are kept, the others are dropped. -/
def ReducesTo (a : MaskedArr V) (dim : Dim) (n : Int) (f : List V → W) (r : Except Err (MaskedArr W)) : Prop :=
  ∃ out, r = .ok out ∧ out.data.dims = a.data.dims.filter (fun p => decide (p.1 ≠ dim)) ∧
    (∀ c, out.data.val c = f (unmaskedRow a dim n c)) ∧
    ∀ k arr, (∃ m, (k, m) ∈ out.masks ∧ m.arr = arr) ↔ (∃ m, (k, m) ∈ a.masks ∧ m.arr = arr ∧ dim ∉ labels arr.dims)

theorem independentMasks_mem (masks : List (Dim × MaskVar)) (dim : Dim) (k : Dim) (arr : Arr Bool) :
    (∃ m, (k, m) ∈ independentMasks masks dim ∧ m.arr = arr) ↔ (∃ m, (k, m) ∈ masks ∧ m.arr = arr ∧ dim ∉ labels arr.dims) := by
  simp only [independentMasks, List.mem_map, List.mem_filter, Bool.not_eq_true', Prod.mk.injEq]
  constructor
  · rintro ⟨m, ⟨q, ⟨hq, hc⟩, rfl, rfl⟩, rfl⟩
    exact ⟨q.2, hq, rfl, contains_false.1 hc⟩
  · rintro ⟨m, hm, rfl, hd⟩
    exact ⟨m.copy, ⟨(k, m), ⟨hm, contains_false.2 hd⟩, rfl, rfl⟩, rfl⟩

/-- The reduction with masks equals the reduction of the unmasked elements, given that the fill value does not change values
which occur as accumulated results (described by the invariant `P`). -/
theorem reduceArray_to (op : W → V → W) (init : W) (fill : V) (P : W → Prop) (hi : P init) (hfill : ∀ w, P w → op w fill = w)
    (hop : ∀ w v, P w → P (op w v)) (a : MaskedArr V) (ha : a.Ok) (dim : Dim) (n : Int) (hd : (dim, n) ∈ a.data.dims) :
    ReducesTo a dim n (fun l => l.foldl op init) (reduceArray op init fill a dim) := by
  obtain ⟨r, h1, _, h3, h4⟩ := reduceImpl_eq op init fill ha hd
  refine ⟨⟨r, independentMasks a.masks dim⟩, by simp only [reduceArray, h1], h3, fun c => ?_,
    independentMasks_mem a.masks dim⟩
  simp only
  rw [h4 c]
  exact foldl_fill op fill P hfill hop (fun j => maskedAlong a.masks dim (upd c dim j)) (fun j => a.data.val (upd c dim j)) _ init hi

/-- **C38** (`sum`; also for elements with variances or vectors, all that matters is `x + 0 = x`): sum of the unmasked
elements, in order. Floating-point addition need not be associative. -/
theorem C38_sum (add : V → V → V) (zero : V) (h0 : ∀ x, add x zero = x) (a : MaskedArr V) (ha : a.Ok) (dim : Dim) (n : Int)
    (hd : (dim, n) ∈ a.data.dims) :
    ReducesTo a dim n (fun l => l.foldl add zero) (reduceArray add zero zero a dim) :=
  reduceArray_to add zero zero (fun _ => True) trivial (fun w _ => h0 w) (fun _ _ _ => trivial) a ha dim n hd

/-- **C38** (`nansum`): NaN elements are skipped, too. -/
theorem C38_nansum (add : V → V → V) (zero : V) (isnan : V → Bool) (h0 : ∀ x, add x zero = x) (a : MaskedArr V) (ha : a.Ok)
    (dim : Dim) (n : Int) (hd : (dim, n) ∈ a.data.dims) :
    ReducesTo a dim n (fun l => (l.filter (fun x => !isnan x)).foldl add zero)
      (reduceArray (fun acc x => if isnan x then acc else add acc x) zero zero a dim) := by
  obtain ⟨out, h1, h2, h3, h4⟩ := reduceArray_to (fun acc x => if isnan x then acc else add acc x) zero zero (fun _ => True) trivial
    (fun w _ => by split <;> simp [h0]) (fun _ _ _ => trivial) a ha dim n hd
  refine ⟨out, h1, h2, fun c => ?_, h4⟩
  rw [h3]
  have : ∀ (l : List V) (z : V), l.foldl (fun acc x => if isnan x then acc else add acc x) z =
      (l.filter (fun x => !isnan x)).foldl add z := by
    intro l
    induction l with
    | nil => intro z; rfl
    | cons x l ih =>
      intro z
      simp only [List.foldl_cons]
      by_cases hx : isnan x = true
      · simp [hx, ih]
      · simp [hx, ih]
  exact this _ _

theorem foldl_any : ∀ (l : List Bool) (b : Bool), l.foldl (fun acc x => acc || x) b = (b || decide (true ∈ l))
  | [], b => by simp
  | x :: l, b => by
    rw [List.foldl_cons, foldl_any l]
    cases x <;> cases b <;> simp

theorem foldl_all : ∀ (l : List Bool) (b : Bool), l.foldl (fun acc x => acc && x) b = (b && decide (false ∉ l))
  | [], b => by simp
  | x :: l, b => by
    rw [List.foldl_cons, foldl_all l]
    cases x <;> cases b <;> simp

/-- **C38** (`any`): true exactly if some unmasked element is. -/
theorem C38_any (a : MaskedArr Bool) (ha : a.Ok) (dim : Dim) (n : Int) (hd : (dim, n) ∈ a.data.dims) :
    ReducesTo a dim n (fun l => decide (true ∈ l)) (reduceArray (fun x y => x || y) false false a dim) := by
  obtain ⟨out, h1, h2, h3, h4⟩ := reduceArray_to (fun x y => x || y) false false (fun _ => True) trivial
    (fun w _ => by simp) (fun _ _ _ => trivial) a ha dim n hd
  exact ⟨out, h1, h2, fun c => by rw [h3]; dsimp only; rw [foldl_any]; simp, h4⟩

/-- **C38** (`all`): true exactly if no unmasked element is false. -/
theorem C38_all (a : MaskedArr Bool) (ha : a.Ok) (dim : Dim) (n : Int) (hd : (dim, n) ∈ a.data.dims) :
    ReducesTo a dim n (fun l => decide (false ∉ l)) (reduceArray (fun x y => x && y) true true a dim) := by
  obtain ⟨out, h1, h2, h3, h4⟩ := reduceArray_to (fun x y => x && y) true true (fun _ => True) trivial
    (fun w _ => by simp) (fun _ _ _ => trivial) a ha dim n hd
  exact ⟨out, h1, h2, fun c => by rw [h3]; dsimp only; rw [foldl_all]; simp, h4⟩

end Reduce

section MinMax
variable {α : Type} [LinearOrder α]

theorem maxEquals_some (x y : α) : maxEquals (some x) (some y) = some (max x y) := by
  simp only [maxEquals, max_def]
  refine congrArg some ?_
  by_cases h : x < y
  · rw [if_pos h, if_pos (le_of_lt h)]
  · rw [if_neg h]
    by_cases h' : x ≤ y
    · rw [if_pos h']; exact le_antisymm h' (not_lt.1 h)
    · rw [if_neg h']

theorem minEquals_some (x y : α) : minEquals (some x) (some y) = some (min x y) := by
  simp only [minEquals, min_def]
  refine congrArg some ?_
  by_cases h : y < x
  · rw [if_pos h, if_neg (not_le.2 h)]
  · rw [if_neg h, if_pos (not_lt.1 h)]

/-- Accumulated maximum with NaN: NaN if there is one, otherwise the maximum of the start value and the elements. -/
theorem foldl_max : ∀ (l : List (Option α)) (x : α),
    l.foldl maxEquals (some x) = if none ∈ l then none else some ((l.filterMap id).foldl max x)
  | [], x => by simp
  | none :: l, x => by
    have hn : ∀ l : List (Option α), l.foldl maxEquals none = none := by
      intro l
      induction l with
      | nil => rfl
      | cons y l ih => cases y <;> simpa [maxEquals] using ih
    simp [maxEquals, hn]
  | some y :: l, x => by
    rw [List.foldl_cons, maxEquals_some, foldl_max l]
    simp

theorem foldl_min : ∀ (l : List (Option α)) (x : α),
    l.foldl minEquals (some x) = if none ∈ l then none else some ((l.filterMap id).foldl min x)
  | [], x => by simp
  | none :: l, x => by
    have hn : ∀ l : List (Option α), l.foldl minEquals none = none := by
      intro l
      induction l with
      | nil => rfl
      | cons y l ih => cases y <;> simpa [minEquals] using ih
    simp [minEquals, hn]
  | some y :: l, x => by
    rw [List.foldl_cons, minEquals_some, foldl_min l]
    simp

theorem foldl_nanmax : ∀ (l : List (Option α)) (x : α),
    l.foldl nanmaxEquals (some x) = some ((l.filterMap id).foldl max x)
  | [], x => by simp
  | none :: l, x => by rw [List.foldl_cons]; simpa [nanmaxEquals] using foldl_nanmax l x
  | some y :: l, x => by
    rw [List.foldl_cons, show nanmaxEquals (some x) (some y) = some (max x y) from maxEquals_some x y, foldl_nanmax l]
    simp

theorem foldl_nanmin : ∀ (l : List (Option α)) (x : α),
    l.foldl nanminEquals (some x) = some ((l.filterMap id).foldl min x)
  | [], x => by simp
  | none :: l, x => by rw [List.foldl_cons]; simpa [nanminEquals] using foldl_nanmin l x
  | some y :: l, x => by
    rw [List.foldl_cons, show nanminEquals (some x) (some y) = some (min x y) from minEquals_some x y, foldl_nanmin l]
    simp

/-- **C38** (`max`, with `lowest` for `std::numeric_limits<T>::lowest()`): NaN if an unmasked element is NaN, otherwise the
maximum of `lowest` and the unmasked elements. -/
theorem C38_max (lowest : α) (a : MaskedArr (Option α)) (ha : a.Ok) (dim : Dim) (n : Int) (hd : (dim, n) ∈ a.data.dims) :
    ReducesTo a dim n (fun l => if none ∈ l then none else some ((l.filterMap id).foldl max lowest))
      (reduceArray maxEquals (some lowest) (some lowest) a dim) := by
  obtain ⟨out, h1, h2, h3, h4⟩ := reduceArray_to maxEquals (some lowest) (some lowest)
    (fun w => ∀ x, w = some x → lowest ≤ x) (by rintro x ⟨⟩; exact le_refl _)
    (by
      intro w hw
      cases w with
      | none => rfl
      | some x => rw [maxEquals_some, max_eq_left (hw x rfl)])
    (by
      intro w v hw x hx
      cases v with
      | none => simp [maxEquals] at hx
      | some y =>
        cases w with
        | none => simp [maxEquals] at hx
        | some z =>
          rw [maxEquals_some] at hx
          cases hx
          exact le_trans (hw z rfl) (le_max_left _ _)) a ha dim n hd
  exact ⟨out, h1, h2, fun c => by rw [h3]; dsimp only; rw [foldl_max], h4⟩

/-- **C38** (`min`, with `highest` for `std::numeric_limits<T>::max()`). -/
theorem C38_min (highest : α) (a : MaskedArr (Option α)) (ha : a.Ok) (dim : Dim) (n : Int) (hd : (dim, n) ∈ a.data.dims) :
    ReducesTo a dim n (fun l => if none ∈ l then none else some ((l.filterMap id).foldl min highest))
      (reduceArray minEquals (some highest) (some highest) a dim) := by
  obtain ⟨out, h1, h2, h3, h4⟩ := reduceArray_to minEquals (some highest) (some highest)
    (fun w => ∀ x, w = some x → x ≤ highest) (by rintro x ⟨⟩; exact le_refl _)
    (by
      intro w hw
      cases w with
      | none => rfl
      | some x => rw [minEquals_some, min_eq_left (hw x rfl)])
    (by
      intro w v hw x hx
      cases v with
      | none => simp [minEquals] at hx
      | some y =>
        cases w with
        | none => simp [minEquals] at hx
        | some z =>
          rw [minEquals_some] at hx
          cases hx
          exact le_trans (min_le_left _ _) (hw z rfl)) a ha dim n hd
  exact ⟨out, h1, h2, fun c => by rw [h3]; dsimp only; rw [foldl_min], h4⟩

/-- **C38** (`nanmax`): maximum of `lowest` and the unmasked elements that are not NaN. -/
theorem C38_nanmax (lowest : α) (a : MaskedArr (Option α)) (ha : a.Ok) (dim : Dim) (n : Int) (hd : (dim, n) ∈ a.data.dims) :
    ReducesTo a dim n (fun l => some ((l.filterMap id).foldl max lowest))
      (reduceArray nanmaxEquals (some lowest) (some lowest) a dim) := by
  obtain ⟨out, h1, h2, h3, h4⟩ := reduceArray_to nanmaxEquals (some lowest) (some lowest)
    (fun w => ∃ x, w = some x ∧ lowest ≤ x) ⟨_, rfl, le_refl _⟩
    (by
      rintro w ⟨x, rfl, hx⟩
      rw [show nanmaxEquals (some x) (some lowest) = some (max x lowest) from maxEquals_some x lowest, max_eq_left hx])
    (by
      rintro w v ⟨x, rfl, hx⟩
      cases v with
      | none => exact ⟨x, rfl, hx⟩
      | some y => exact ⟨_, maxEquals_some x y, le_trans hx (le_max_left _ _)⟩) a ha dim n hd
  exact ⟨out, h1, h2, fun c => by rw [h3]; dsimp only; rw [foldl_nanmax], h4⟩

/-- **C38** (`nanmin`). -/
theorem C38_nanmin (highest : α) (a : MaskedArr (Option α)) (ha : a.Ok) (dim : Dim) (n : Int) (hd : (dim, n) ∈ a.data.dims) :
    ReducesTo a dim n (fun l => some ((l.filterMap id).foldl min highest))
      (reduceArray nanminEquals (some highest) (some highest) a dim) := by
  obtain ⟨out, h1, h2, h3, h4⟩ := reduceArray_to nanminEquals (some highest) (some highest)
    (fun w => ∃ x, w = some x ∧ x ≤ highest) ⟨_, rfl, le_refl _⟩
    (by
      rintro w ⟨x, rfl, hx⟩
      rw [show nanminEquals (some x) (some highest) = some (min x highest) from minEquals_some x highest, min_eq_left hx])
    (by
      rintro w v ⟨x, rfl, hx⟩
      cases v with
      | none => exact ⟨x, rfl, hx⟩
      | some y => exact ⟨_, minEquals_some x y, le_trans (min_le_left _ _) hx⟩) a ha dim n hd
  exact ⟨out, h1, h2, fun c => by rw [h3]; dsimp only; rw [foldl_nanmin], h4⟩

theorem foldl_max_ge : ∀ (l : List α) (x : α), x ≤ l.foldl max x ∧ (∀ y ∈ l, y ≤ l.foldl max x) ∧ (l.foldl max x = x ∨ l.foldl max x ∈ l)
  | [], x => by simp
  | z :: l, x => by
    obtain ⟨h1, h2, h3⟩ := foldl_max_ge l (max x z)
    simp only [List.foldl_cons, List.mem_cons, forall_eq_or_imp]
    refine ⟨le_trans (le_max_left _ _) h1, ⟨le_trans (le_max_right _ _) h1, h2⟩, ?_⟩
    rcases h3 with h3 | h3
    · rcases max_choice x z with h | h
      · rw [h] at h3; rw [h]; exact .inl h3
      · rw [h] at h3; rw [h]; exact .inr (.inl h3)
    · exact .inr (.inr h3)

theorem foldl_min_le : ∀ (l : List α) (x : α), l.foldl min x ≤ x ∧ (∀ y ∈ l, l.foldl min x ≤ y) ∧ (l.foldl min x = x ∨ l.foldl min x ∈ l)
  | [], x => by simp
  | z :: l, x => by
    obtain ⟨h1, h2, h3⟩ := foldl_min_le l (min x z)
    simp only [List.foldl_cons, List.mem_cons, forall_eq_or_imp]
    refine ⟨le_trans h1 (min_le_left _ _), ⟨le_trans h1 (min_le_right _ _), h2⟩, ?_⟩
    rcases h3 with h3 | h3
    · rcases min_choice x z with h | h
      · rw [h] at h3; rw [h]; exact .inl h3
      · rw [h] at h3; rw [h]; exact .inr (.inl h3)
    · exact .inr (.inr h3)

/-- **C38** (meaning of the `max` above): if some unmasked element is not below `lowest` (always, except for `-inf`), the
result is the largest unmasked element. Missing for the full claim: rows of `-inf` only, and rows without unmasked element. -/
theorem C38_max_is_maximum_partial (l : List α) (lowest : α) (h : ∃ x ∈ l, lowest ≤ x) :
    l.foldl max lowest ∈ l ∧ ∀ y ∈ l, y ≤ l.foldl max lowest := by
  obtain ⟨h1, h2, h3⟩ := foldl_max_ge l lowest
  refine ⟨?_, h2⟩
  rcases h3 with h3 | h3
  · obtain ⟨x, hx, hl⟩ := h
    have := h2 x hx
    rw [h3] at this
    rw [h3, le_antisymm hl this]; exact hx
  · exact h3

/-- **C38** (meaning of the `min` above). -/
theorem C38_min_is_minimum_partial (l : List α) (highest : α) (h : ∃ x ∈ l, x ≤ highest) :
    l.foldl min highest ∈ l ∧ ∀ y ∈ l, l.foldl min highest ≤ y := by
  obtain ⟨h1, h2, h3⟩ := foldl_min_le l highest
  refine ⟨?_, h2⟩
  rcases h3 with h3 | h3
  · obtain ⟨x, hx, hl⟩ := h
    have := h2 x hx
    rw [h3] at this
    rw [h3, le_antisymm this hl]; exact hx
  · exact h3

end MinMax

/-- A one-dimensional masked array given by lists, for the examples. -/
def listArr {V : Type} [Inhabited V] (l : List V) (mask : List Bool) : MaskedArr V :=
  ⟨⟨[(2, l.length)], fun c => l.getD (c 2).toNat default⟩, [(7, maskOf 2 l.length (fun j => mask.getD j.toNat false))]⟩

theorem listArr_ok {V : Type} [Inhabited V] (l : List V) (mask : List Bool) : (listArr l mask).Ok := by
  refine ⟨⟨by simp [listArr, Sizes.WF, labels], by simp [listArr, labels, Dim.invalid], fun c c' h => ?_⟩, ?_⟩
  · have := h 2 (by simp [listArr, labels]); simp only [listArr]; rw [this]
  · intro p hp
    simp only [listArr, List.mem_singleton] at hp
    subst hp
    refine ⟨⟨by simp [maskOf, Sizes.WF, labels], by simp [maskOf, labels, Dim.invalid], fun c c' h => ?_⟩, ⟨rfl, rfl⟩, ?_⟩
    · have := h 2 (by simp [maskOf, labels]); simp only [maskOf]; rw [this]
    · intro q hq; simpa [maskOf, listArr] using hq

/-- The maximum of a masked row whose only unmasked element is `-inf` is `lowest`, a number which does not occur in the
data. `⊥` is `-inf`. The same happens without a mask. -/
theorem C38_wrong_for_minus_infinity : ∃ (a : MaskedArr (Option (WithBot ℤ))), a.Ok ∧
    unmaskedRow a 2 2 (fun _ => 0) = [some ⊥] ∧
    ((reduceArray maxEquals (some ((-1000 : ℤ) : WithBot ℤ)) (some ((-1000 : ℤ) : WithBot ℤ)) a 2).map
      (fun r => r.data.val (fun _ => 0))) = .ok (some ((-1000 : ℤ) : WithBot ℤ)) :=
  ⟨listArr [some ((5 : ℤ) : WithBot ℤ), some ⊥] [true, false], listArr_ok _ _, by decide, by decide⟩

/-- The maximum of a row without unmasked element is `lowest`, the sum is zero. -/
theorem C38_fully_masked : ∃ (a : MaskedArr (Option ℤ)), a.Ok ∧ unmaskedRow a 2 2 (fun _ => 0) = [] ∧
    ((reduceArray maxEquals (some (-1000)) (some (-1000)) a 2).map (fun r => r.data.val (fun _ => 0))) = .ok (some (-1000)) :=
  ⟨listArr [some 5, some 6] [true, true], listArr_ok _ _, by decide, by decide⟩

-- a masked sum, a masked maximum with a NaN hidden by the mask, and with a NaN that is not
example : ((reduceArray (· + ·) 0 0 (listArr [1, 2, 4] [false, true, false] : MaskedArr ℤ) 2).map (fun r => r.data.val (fun _ => 0))) = .ok 5 ∧
    ((reduceArray maxEquals (some (-100)) (some (-100)) (listArr [some 1, none, some 4] [false, true, false] : MaskedArr (Option ℤ)) 2).map
      (fun r => r.data.val (fun _ => 0))) = .ok (some 4) ∧
    ((reduceArray maxEquals (some (-100)) (some (-100)) (listArr [some 1, none, some 4] [true, false, false] : MaskedArr (Option ℤ)) 2).map
      (fun r => r.data.val (fun _ => 0))) = .ok none := by decide

/-! ### mean -/

private theorem mem2 {V : Type} [Inhabited V] (l : List V) (mask : List Bool) : (2, (l.length : Int)) ∈ (listArr l mask).data.dims :=
  List.mem_singleton.mpr rfl

-- three elements, the one in the middle is masked
example := C38_sum (· + ·) (0 : ℤ) (by simp) (listArr [1, 2, 4] [false, true, false]) (listArr_ok _ _) 2 3 (mem2 _ _)
example := C38_nansum (fun x y : Option ℤ => x.bind (fun a => y.map (a + ·))) (some 0) Option.isNone
  (fun x => by cases x <;> simp) (listArr [some 1, some 2, none] [false, true, false]) (listArr_ok _ _) 2 3 (mem2 _ _)
example := C38_any (listArr [false, true, false] [false, true, false]) (listArr_ok _ _) 2 3 (mem2 _ _)
example := C38_all (listArr [true, false, true] [false, true, false]) (listArr_ok _ _) 2 3 (mem2 _ _)
example := C38_max (-100 : ℤ) (listArr [some 1, none, some 4] [false, true, false]) (listArr_ok _ _) 2 3 (mem2 _ _)
example := C38_min (100 : ℤ) (listArr [some 1, none, some 4] [false, true, false]) (listArr_ok _ _) 2 3 (mem2 _ _)
example := C38_nanmax (-100 : ℤ) (listArr [none, some 7, some 4] [false, true, false]) (listArr_ok _ _) 2 3 (mem2 _ _)
example := C38_nanmin (100 : ℤ) (listArr [none, some 1, some 4] [false, true, false]) (listArr_ok _ _) 2 3 (mem2 _ _)
example := C38_max_is_maximum_partial [1, 5, 4] (-100 : ℤ) ⟨5, by decide, by decide⟩
example := C38_min_is_minimum_partial [1, 5, 4] (100 : ℤ) ⟨5, by decide, by decide⟩

theorem foldl_add_eq_sum {K : Type} [AddCommMonoid K] (l : List K) (z : K) : l.foldl (· + ·) z = z + l.sum := by
  induction l generalizing z with
  | nil => simp
  | cons x l ih => rw [List.foldl_cons, ih, List.sum_cons, add_assoc]

theorem foldl_count {ι : Type} (masked : ι → Bool) : ∀ (l : List ι) (k : Nat),
    l.foldl (fun (acc : Nat) j => acc + (if masked j then 0 else 1)) k = k + (l.filter (fun j => !masked j)).length
  | [], k => by simp
  | j :: l, k => by
    rw [List.foldl_cons, foldl_count masked l]
    by_cases h : masked j = true
    · simp [h]
    · simp [h]; omega

/-- **C38** (`mean`): sum of the unmasked elements divided by their number, NaN if there is none. The dims are those of the
data without `dim`, possibly in another order (see below). -/
theorem C38_mean {K : Type} [Field K] (a : MaskedArr K) (ha : a.Ok) (dim : Dim) (n : Int) (hd : (dim, n) ∈ a.data.dims) :
    ∃ r, meanImpl a.data a.masks dim = .ok r ∧ (∀ p, p ∈ r.dims ↔ p ∈ a.data.dims ∧ p.1 ≠ dim) ∧
      ∀ c, r.val c = if unmaskedRow a dim n c = [] then none
        else some ((unmaskedRow a dim n c).sum / ((unmaskedRow a dim n c).length : K)) := by
  have hnorm : ∀ l : List K, normalize l.sum l.length = if l = [] then none else some (l.sum / (l.length : K)) := by
    intro l
    unfold normalize
    by_cases hl : l = []
    · simp [hl]
    · rw [if_neg hl, if_neg (by simpa using hl), div_eq_mul_inv]
  obtain ⟨u, hu, hu1, hu2⟩ := irreducible_loop ha.data.wf (dim := dim) a.masks none ha.masks (by simp)
  unfold meanImpl irreducibleMask
  rw [hu]
  cases u with
  | none =>
    have hno : ∀ c, maskedAlong a.masks dim c = false := by
      intro c; have := hu2 c; simpa [maskedBy] using this.symm
    simp only [reduceDim_eq _ _ ha.data hd, at?_of_mem ha.data.wf.1 hd]
    refine ⟨_, rfl, fun p => by simp [List.mem_filter], fun c => ?_⟩
    have hrow : unmaskedRow a dim n c = (intRange 0 n).map (fun j => a.data.val (upd c dim j)) := by
      simp [unmaskedRow, hno]
    rw [← hnorm, hrow]
    simp only [List.length_map]
    refine congrArg₂ normalize ?_ ?_
    · rw [← List.foldl_map (f := fun j => a.data.val (upd c dim j)) (g := fun x y => x + y), foldl_add_eq_sum, zero_add]
    · simp [intRange]
  | some m =>
    obtain ⟨m1, m2, m3, m4⟩ := hu1 m rfl
    have hval : ∀ c, m.arr.val c = maskedAlong a.masks dim c := by
      intro c; have := hu2 c; simpa [maskedBy] using this
    have hmd : (dim, n) ∈ m.arr.dims := by
      obtain ⟨x, hx⟩ := at?_ok_of_mem_labels m4
      have hx := at?_ok_mem hx
      rwa [compatible_of_subset ha.data.wf (fun q hq => hq) dim x n (m3 _ hx) hd] at hx
    simp only [reduceDim_eq (fun (acc : Nat) (m : Bool) => acc + (if m then 0 else 1)) 0 m1 hmd]
    unfold whereMask
    rw [if_neg (by simp [m2.bool]), if_neg (by simp [m2.unit])]
    obtain ⟨x, hx⟩ := (zip_exists (f := fun (b : Bool) (v : K) => if b then 0 else v) m1 ha.data).2 (by
      intro d x y hx hy
      exact compatible_of_subset ha.data.wf (fun q hq => hq) d x y (m3 _ hx) hy)
    obtain ⟨x1, x2, x3⟩ := zip_ok m1 ha.data hx
    have hxd : ∀ p, p ∈ x.dims ↔ p ∈ a.data.dims := fun p =>
      ⟨fun h => ((x2 p).1 h).elim (m3 p) id, fun h => (x2 p).2 (.inr h)⟩
    rw [hx]
    simp only [reduceDim_eq (fun x y : K => x + y) 0 x1 ((hxd _).2 hd)]
    have o1 := reduceDim_ok (fun x y : K => x + y) 0 x1 (dim := dim) n
    have o2 := reduceDim_ok (fun (acc : Nat) (m : Bool) => acc + (if m then 0 else 1)) 0 m1 (dim := dim) n
    obtain ⟨r, hr⟩ := (zip_exists (f := normalize) o1 o2).2 (by
      intro d y z hy hz
      simp only [List.mem_filter] at hy hz
      exact compatible_of_subset ha.data.wf (fun q hq => hq) d y z ((hxd _).1 hy.1) (m3 _ hz.1))
    obtain ⟨r1, r2, r3⟩ := zip_ok o1 o2 hr
    refine ⟨r, hr, fun p => ?_, fun c => ?_⟩
    · rw [r2]
      simp only [List.mem_filter, hxd, decide_eq_true_eq]
      exact ⟨fun h => h.elim id (fun h => ⟨m3 p h.1, h.2⟩), .inl⟩
    · rw [r3]
      simp only [x3, hval]
      rw [← hnorm]
      refine congrArg₂ normalize ?_ ?_
      · rw [foldl_fill (fun x y : K => x + y) 0 (fun _ => True) (fun w _ => by simp) (fun _ _ _ => trivial)
          (fun j => maskedAlong a.masks dim (upd c dim j)) (fun j => a.data.val (upd c dim j)) _ 0 trivial,
          foldl_add_eq_sum, zero_add]
        rfl
      · rw [foldl_count (fun j => maskedAlong a.masks dim (upd c dim j)), Nat.zero_add]
        simp [unmaskedRow]

example : ((meanImpl (listArr [1, 2, 4] [false, true, false] : MaskedArr ℚ).data (listArr [1, 2, 4] [false, true, false] : MaskedArr ℚ).masks 2).map
    (fun r => r.val (fun _ => 0))) = .ok (some (5 / 2)) ∧
    ((meanImpl (listArr [1, 2, 4] [true, true, true] : MaskedArr ℚ).data (listArr [1, 2, 4] [true, true, true] : MaskedArr ℚ).masks 2).map
    (fun r => r.val (fun _ => 0))) = .ok none := by decide +kernel

/-- In contrast to the other reductions, `mean` does not transpose the mask before using it: a mask with another order of dims
changes the order of dims of the result. -/
theorem C38_mean_reorders_dims : ∃ (a : MaskedArr ℚ), a.data.dims = [(2, 1), (3, 1), (4, 1)] ∧
    ((meanImpl a.data a.masks 4).map Arr.dims) = .ok [(3, 1), (2, 1)] ∧
    ((reduceArray (· + ·) 0 0 a 4).map (fun r => r.data.dims)) = .ok [(2, 1), (3, 1)] :=
  ⟨⟨⟨[(2, 1), (3, 1), (4, 1)], fun _ => 0⟩, [(7, { arr := ⟨[(4, 1), (3, 1), (2, 1)], fun _ => false⟩ })]⟩, rfl,
    by decide +kernel, by decide +kernel⟩

/-! ### all dims -/

theorem sum_foldl_intRange {K : Type} [AddCommMonoid K] (f : Int → K) (n : Int) :
    (intRange 0 n).foldl (fun acc j => acc + f j) 0 = ∑ j ∈ Finset.range n.toNat, f j := by
  rw [← List.foldl_map (f := f) (g := fun x y => x + y), foldl_add_eq_sum, zero_add]
  unfold intRange
  rw [List.map_map, Int.sub_zero]
  induction n.toNat with
  | zero => rfl
  | succ k ih => rw [List.range_succ, List.map_append, List.sum_append, ih, Finset.sum_range_succ]; simp

theorem sum_range_mul' {K : Type} [AddCommMonoid K] (f : Nat → K) (n : Nat) : ∀ a : Nat,
    ∑ i ∈ Finset.range (a * n), f i = ∑ k ∈ Finset.range a, ∑ j ∈ Finset.range n, f (k * n + j)
  | 0 => by simp
  | a + 1 => by
    rw [Nat.succ_mul, Finset.sum_range_add, sum_range_mul' f n a, Finset.sum_range_succ]

/-- **C38** (`sum` over all dims): the sum over all elements which are not masked by any mask; a mask without dims is not
applied. Reduces one dim after the other, applying each mask when its innermost dim is reduced. -/
theorem C38_sum_all {K : Type} [AddCommMonoid K] : ∀ (a : MaskedArr K), a.Ok → ∀ (N : Nat), a.data.dims.length ≤ N →
    ∃ r, reduceAllDims (· + ·) 0 0 N a = .ok r ∧ r.data.dims = [] ∧
      ∀ c, r.data.val c = ∑ k ∈ Finset.range (Dims.volume a.data.dims).toNat,
        if maskedAny a.masks (coordsOf a.data.dims k) then 0 else a.data.val (coordsOf a.data.dims k) := by
  intro a ha N
  induction N generalizing a with
  | zero =>
    intro hN
    have hnil : a.data.dims = [] := List.length_eq_zero_iff.1 (by omega)
    refine ⟨a, rfl, hnil, fun c => ?_⟩
    have hm : ∀ c, maskedAny a.masks c = false := by
      intro c
      simp only [maskedAny, List.any_eq_false]
      intro p hp
      have : p.2.arr.dims = [] := by
        rw [List.eq_nil_iff_forall_not_mem]
        intro q hq
        have := (ha.masks p hp).2.2 q hq
        rw [hnil] at this; simp at this
      simp [this]
    rw [hnil]
    simp [Dims.volume, hm]
    exact ha.data.own _ _ (by rw [hnil]; simp)
  | succ N ih =>
    intro hN
    cases hl : a.data.dims.getLast? with
    | none =>
      have hnil : a.data.dims = [] := List.getLast?_eq_none_iff.1 hl
      refine ⟨a, by simp only [reduceAllDims, hl], hnil, fun c => ?_⟩
      have hm : ∀ c, maskedAny a.masks c = false := by
        intro c
        simp only [maskedAny, List.any_eq_false]
        intro p hp
        have : p.2.arr.dims = [] := by
          rw [List.eq_nil_iff_forall_not_mem]
          intro q hq
          have := (ha.masks p hp).2.2 q hq
          rw [hnil] at this; simp at this
        simp [this]
      rw [hnil]
      simp [Dims.volume, hm]
      exact ha.data.own _ _ (by rw [hnil]; simp)
    | some p =>
      obtain ⟨d, n⟩ := p
      obtain ⟨ds, hds⟩ := List.getLast?_eq_some_iff.1 hl
      have hdm : (d, n) ∈ a.data.dims := by rw [hds]; simp
      have hnd : d ∉ labels ds := by
        have := ha.data.wf.1
        rw [hds, labels_append] at this
        intro hc
        exact (List.nodup_append.1 this).2.2 d hc d (by simp) rfl
      have hn0 : 0 ≤ n := ha.data.wf.2 _ hdm
      have hfil : a.data.dims.filter (fun p => decide (p.1 ≠ d)) = ds := by
        rw [hds, List.filter_append]
        simp only [List.filter_cons, ne_eq, not_true, decide_false, Bool.false_eq_true, if_false, List.filter_nil, List.append_nil]
        refine List.filter_eq_self.2 (fun q hq => ?_)
        simp only [decide_eq_true_eq]
        rintro rfl
        exact hnd (mem_labels (x := q.2) hq)
      obtain ⟨b, hb1, hb2, hb3, hb4⟩ := reduceImpl_eq (fun x y : K => x + y) 0 0 ha hdm
      have hbok := maskedArr_next ha hb2 hb3
      rw [hfil] at hb3
      have hstep : reduceArray (fun x y : K => x + y) 0 0 a d = .ok ⟨b, independentMasks a.masks d⟩ := by
        simp only [reduceArray, hb1]
      obtain ⟨r, hr1, hr2, hr3⟩ := ih _ hbok (by
        simp only [hb3]; rw [hds] at hN; simp at hN; omega)
      refine ⟨r, by simp only [reduceAllDims, hl, hstep, hr1], hr2, fun c => ?_⟩
      rw [hr3]
      simp only [hb3]
      have hvol : Dims.volume a.data.dims = Dims.volume ds * n := by
        rw [hds]; simp [Dims.volume, List.foldl_append]
      have hdsw : WF ds := by rw [← hb3]; exact hb2.wf
      have hv0 : 0 ≤ Dims.volume ds := volume_nonneg hdsw.2
      have hnat : (Dims.volume a.data.dims).toNat = (Dims.volume ds).toNat * n.toNat := by
        rw [hvol, Int.toNat_mul hv0 hn0]
      rw [hnat, sum_range_mul' _ n.toNat]
      refine Finset.sum_congr rfl (fun k hk => ?_)
      have hk' := Finset.mem_range.1 hk
      have hin := coordsOf_inDims hdsw (k := (k : Int)) (by omega) (by omega)
      have hpk := position_coordsOf hdsw (k := (k : Int)) (by omega) (by omega)
      -- coordinates of element k * n + j
      have hco : ∀ j : Nat, j < n.toNat → ∀ e ∈ labels a.data.dims,
          coordsOf a.data.dims ((k * n.toNat + j : Nat) : Int) e = upd (coordsOf ds k) d j e := by
        intro j hj
        have hid : InDims a.data.dims (upd (coordsOf ds k) d j) := by
          intro e x hex
          rw [hds] at hex
          rcases List.mem_append.1 hex with h | h
          · have : e ≠ d := by rintro rfl; exact hnd (mem_labels h)
            simp only [upd, this, if_false]
            exact hin e x h
          · simp only [List.mem_singleton, Prod.mk.injEq] at h
            obtain ⟨rfl, rfl⟩ := h
            simp only [upd, if_true]
            omega
        have hpos : position a.data.dims (upd (coordsOf ds k) d j) = ((k * n.toNat + j : Nat) : Int) := by
          rw [hds, position_concat]
          have : position ds (upd (coordsOf ds k) d j) = position ds (coordsOf ds k) := by
            refine position_congr (fun e he => ?_)
            have : e ≠ d := by rintro rfl; exact hnd he
            simp [upd, this]
          rw [this, hpk]
          simp only [upd, if_true]
          push_cast
          rw [Int.toNat_of_nonneg hn0]
        intro e he
        rw [← hpos]
        exact coordsOf_position ha.data.wf.1 hid e he
      have hmask : ∀ j : Nat, j < n.toNat →
          maskedAny a.masks (coordsOf a.data.dims ((k * n.toNat + j : Nat) : Int)) =
            (maskedAny (independentMasks a.masks d) (coordsOf ds k) || maskedAlong a.masks d (upd (coordsOf ds k) d j)) := by
        intro j hj
        rw [Bool.eq_iff_iff]
        simp only [maskedAny, maskedAlong, independentMasks, List.any_map, Bool.or_eq_true, List.any_eq_true, Bool.and_eq_true,
          List.mem_filter, Bool.not_eq_true', Function.comp, MaskVar.copy]
        have hown : ∀ q ∈ a.masks, q.2.arr.val (coordsOf a.data.dims ((k * n.toNat + j : Nat) : Int)) =
            q.2.arr.val (upd (coordsOf ds k) d j) := by
          intro q hq
          obtain ⟨o1, _, o3⟩ := ha.masks q hq
          exact o1.own _ _ (fun e he => hco j hj e (labels_mono o3 e he))
        have hind : ∀ q ∈ a.masks, contains q.2.arr.dims d = false →
            q.2.arr.val (upd (coordsOf ds k) d j) = q.2.arr.val (coordsOf ds k) := by
          intro q hq hc
          obtain ⟨o1, _, _⟩ := ha.masks q hq
          refine o1.own _ _ (fun e he => ?_)
          have : e ≠ d := by rintro rfl; exact contains_false.1 hc he
          simp [upd, this]
        constructor
        · rintro ⟨q, hq, h1, h2⟩
          rw [hown q hq] at h2
          by_cases hc : contains q.2.arr.dims d = true
          · exact .inr ⟨q, hq, hc, h2⟩
          · rw [Bool.not_eq_true] at hc
            rw [hind q hq hc] at h2
            exact .inl ⟨q, ⟨hq, hc⟩, h1, h2⟩
        · rintro (⟨q, ⟨hq, hc⟩, h1, h2⟩ | ⟨q, hq, hc, h2⟩)
          · exact ⟨q, hq, h1, by rw [hown q hq, hind q hq hc]; exact h2⟩
          · refine ⟨q, hq, ?_, by rw [hown q hq]; exact h2⟩
            have := contains_iff.1 hc
            cases hqd : q.2.arr.dims with
            | nil => rw [hqd] at this; simp at this
            | cons _ _ => rfl
      have hvalj : ∀ j : Nat, j < n.toNat → a.data.val (coordsOf a.data.dims ((k * n.toNat + j : Nat) : Int)) =
          a.data.val (upd (coordsOf ds k) d j) := fun j hj => ha.data.own _ _ (hco j hj)
      rw [hb4, sum_foldl_intRange (fun j => if maskedAlong a.masks d (upd (coordsOf ds k) d j) then 0
        else a.data.val (upd (coordsOf ds k) d j))]
      by_cases hm : maskedAny (independentMasks a.masks d) (coordsOf ds k) = true
      · rw [if_pos hm]
        refine (Finset.sum_eq_zero (fun j hj => ?_)).symm
        rw [hmask j (Finset.mem_range.1 hj), hm]; simp
      · rw [if_neg hm]
        refine Finset.sum_congr rfl (fun j hj => ?_)
        have hj := Finset.mem_range.1 hj
        rw [hmask j hj, hvalj j hj]
        simp [hm]

-- two dims, a mask along the outer one and one along both
example : ((reduceAllDims (· + ·) 0 0 2 (⟨⟨[(2, 2), (3, 2)], fun c => 10 * c 2 + c 3⟩,
    [(7, maskOf 2 2 (· == 0)), (8, { arr := ⟨[(3, 2), (2, 2)], fun c => c 2 == 1 && c 3 == 1⟩ })]⟩ : MaskedArr ℤ)).map
    (fun r => (r.data.dims, r.data.val (fun _ => 0), r.masks.length))) = .ok ([], 10, 0) := by decide

example := C38_mean (listArr [1, 2, 4] [false, true, false] : MaskedArr ℚ) (listArr_ok _ _) 2 3 (mem2 _ _)
example := C38_sum_all (listArr [1, 2, 4] [false, true, false] : MaskedArr ℤ) (listArr_ok _ _) 1 (by decide)

end Scipp.Props
