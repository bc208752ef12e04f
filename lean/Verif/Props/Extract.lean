import Verif.Lemmas.Extract
import Mathlib.Data.List.Sort
/-!
C42: boolean indexing. C41: sorting.
-/
namespace Scipp.Props
open Scipp Scipp.Sizes Scipp.Bins
variable {V : Type}

/-! ### C42 -/

/-- **C42**: boolean indexing with a condition of the length of the data array gives exactly the slices where the condition is true, in order,
with the values of all coords, masks and attrs other than bin edges along the dim. No element outside the range vector is accessed.
Missing for the full claim: data arrays with a NaN in a coord, mask or attr not depending on the dim, see `C42_wrong_for_nan`. -/
theorem C42_extract_partial (eqv : V → V → Bool) (heq : ∀ a b, eqv a b = true → a = b) (init : Nat → V) (dim : Dim) (hdim : dim ≠ Dim.invalid)
    (values : List Bool) (t : Table V) (ht : t.IsDataArray) (hnan : t.NoNaN eqv) (hlen : values.length = t.data.length) :
    ∃ out, extract eqv init dim values t = .ok out ∧ out.Ok ∧
      out.rowList = ((List.range t.data.length).filter (fun i => values[i]? = some true)).map t.rowAt := by
  obtain ⟨r, h1, h2, h3⟩ := conditionRanges_spec values
  obtain ⟨out, h4, h5, h6⟩ := extractRanges_spec eqv heq init hdim r ht hnan (by rw [← hlen]; exact h2)
  refine ⟨out, ?_, h5, ?_⟩
  · unfold extract
    rw [if_neg (by simp [hlen]), h1]
    exact h4
  · rw [h6]
    have : r.flatMap (fun r => (intRange r.1 r.2).map (fun i => t.rowAt i.toNat)) =
        (r.flatMap (fun p => intRange p.1 p.2)).map (fun i => t.rowAt i.toNat) := by
      rw [List.map_flatMap]
    rw [this, h3, truePositions, List.map_map, hlen]
    refine List.map_congr_left (fun i _ => ?_)
    simp

/-- **C42**: a condition of different length is an error. -/
theorem C42_wrong_length (eqv : V → V → Bool) (init : Nat → V) (dim : Dim) (values : List Bool) (t : Table V)
    (hlen : values.length ≠ t.data.length) : extract eqv init dim values t = .error .dimension := by
  unfold extract
  rw [if_pos hlen]
  rfl

/-- **C42** (binned data): the bins where the condition is true are kept with their contents, in order. -/
theorem C42_extract_binned (eqv : V → V → Bool) (heq : ∀ a b, eqv a b = true → a = b) (init : Nat → V) (initPair : Nat → Int × Int)
    (dim : Dim) (hdim : dim ≠ Dim.invalid) (values : List Bool) (indices : List (Int × Int)) (buffer : Table V) (hb : buffer.Ok)
    (hnan : buffer.NoNaN eqv) (hr : ∀ p ∈ indices, 0 ≤ p.1 ∧ p.1 ≤ p.2 ∧ p.2 ≤ buffer.data.length) (hlen : values.length = indices.length) :
    ∃ out, extractBinned eqv init initPair dim values indices buffer = .ok out ∧ out.Ok ∧
      (valuesOf out.indices).map out.buffer.events =
        ((List.range indices.length).filter (fun i => values[i]? = some true)).filterMap (fun i => (indices[i]?).map buffer.events) := by
  obtain ⟨r, h1, h2, h3⟩ := conditionRanges_spec values
  have ht : Table.IsDataArray (⟨indices, []⟩ : Table (Int × Int)) := ⟨by simp, by simp⟩
  have hn : Table.NoNaN (fun _ _ => true) (⟨indices, []⟩ : Table (Int × Int)) := fun k v hk => rfl
  -- the first step extracts the pairs of indices
  have hstep := C42_extract_partial (V := Int × Int) (fun a b => decide (a = b)) (fun a b h => of_decide_eq_true h) initPair dim hdim values
    ⟨indices, []⟩ ht (fun k v hk => by simp) hlen
  obtain ⟨o, g1, g2, g3⟩ := hstep
  have heqv : extractRanges (fun _ _ => true) initPair dim r (⟨indices, []⟩ : Table (Int × Int)) =
      extractRanges (fun a b => decide (a = b)) initPair dim r ⟨indices, []⟩ := rfl
  have g1' : extractRanges (fun a b => decide (a = b)) initPair dim r (⟨indices, []⟩ : Table (Int × Int)) = .ok o := by
    unfold extract at g1
    rw [if_neg (by simp [hlen]), h1] at g1
    exact g1
  have hdata : o.data = ((List.range indices.length).filter (fun i => values[i]? = some true)).filterMap (fun i => indices[i]?) := by
    have e1 : o.rowList.map Event.data = o.data.map some := by
      unfold Table.rowList
      rw [List.map_map]
      refine List.ext_getElem (by simp) (fun k k1 k2 => ?_)
      simp only [List.length_map, List.length_range] at k1
      simp [Table.rowAt, k1]
    rw [g3] at e1
    have e2 := congrArg (List.filterMap id) e1
    rw [List.map_map, List.filterMap_map, List.filterMap_map] at e2
    simp only [Function.comp_def, id, List.filterMap_some] at e2
    rw [← e2]
    rfl
  have hw : WF [(dim, (o.data.length : Int))] := by simp [WF, labels]
  have hvol : o.data.length = (Dims.volume [(dim, (o.data.length : Int))]).toNat := by simp [Dims.volume]
  have hvals := valuesOf_ofValues hw hvol
  have hx : Binned.Ok (V := V) ⟨ofValues [(dim, (o.data.length : Int))] o.data, buffer⟩ := by
    refine ⟨ofValues_ok hw (by simpa [labels] using hdim.symm) _, hb, fun c hc => ?_⟩
    obtain ⟨p1, p2⟩ := position_bounds (s := [(dim, (o.data.length : Int))]) hc
    have hlt : (position [(dim, (o.data.length : Int))] c).toNat < o.data.length := by omega
    have := ofValues_val (dims := [(dim, (o.data.length : Int))]) (c := c) (List.getElem?_eq_getElem hlt)
    simp only [this]
    have hmem := List.getElem_mem hlt
    have hall : ∀ q ∈ o.data, 0 ≤ q.1 ∧ q.1 ≤ q.2 ∧ q.2 ≤ (buffer.data.length : Int) := by
      rw [hdata]
      intro q hq
      obtain ⟨i, _, hi⟩ := List.mem_filterMap.1 hq
      exact hr _ (List.mem_of_getElem? hi)
    exact hall _ hmem
  obtain ⟨out, k1, k2, k3, k4, _⟩ := C47_copy_partial eqv heq init _ hx hnan
  refine ⟨out, ?_, k3, ?_⟩
  · unfold extractBinned
    rw [if_neg (by simp [hlen]), h1]
    show extractRangesBinned eqv init initPair dim r indices buffer = _
    unfold extractRangesBinned
    rw [heqv, g1']
    exact k1
  · have e1 : (valuesOf out.indices).map out.buffer.events =
        (List.range (Dims.volume out.indices.dims).toNat).map (fun k : Nat => out.bin (coordsOf out.indices.dims k)) := by
      simp only [valuesOf, List.map_map]; rfl
    have e2 : o.data.map buffer.events = (List.range (Dims.volume [(dim, (o.data.length : Int))]).toNat).map
        (fun k : Nat => buffer.events ((ofValues [(dim, (o.data.length : Int))] o.data).val (coordsOf [(dim, (o.data.length : Int))] k))) := by
      conv_lhs => rw [← hvals]
      simp only [valuesOf, List.map_map]; rfl
    have e3 : ((List.range indices.length).filter (fun i => values[i]? = some true)).filterMap (fun i => (indices[i]?).map buffer.events) =
        o.data.map buffer.events := by
      rw [hdata, List.map_filterMap]
    rw [e3, e1, e2, k2]
    refine List.map_congr_left (fun k hk => ?_)
    rw [List.mem_range] at hk
    exact k4 _ (coordsOf_inDims hw (by omega) (by
      have : (ofValues [(dim, (o.data.length : Int))] o.data).dims = [(dim, (o.data.length : Int))] := rfl
      rw [this] at hk; omega))

/-- A NaN in a coord not depending on the dim makes boolean indexing fail. -/
theorem C42_wrong_for_nan : ∃ t : Table (Option Int), t.IsDataArray ∧
    (extract (fun a b => a == b && a.isSome) (fun _ => none) 2 [true, false] t).map (fun _ => ()) = .error .variable :=
  ⟨⟨[some 7, some 8], [(3, .fixed none)]⟩, ⟨by simp, by simp⟩, by decide⟩

/-- A data array with five slices, a coord, bin edges, and a coord not depending on the dim, for the examples. -/
def sampleArray : Table Int :=
  ⟨[10, 11, 12, 13, 14], [(2, .along [0, 1, 2, 3, 4, 5]), (3, .along [20, 21, 22, 23, 24]), (4, .fixed 9)]⟩

theorem sampleArray_ok : sampleArray.IsDataArray ∧ sampleArray.NoNaN (· == ·) := by
  refine ⟨⟨by simp [sampleArray], fun k rows h => ?_⟩, fun k v _ => by simp⟩
  simp only [sampleArray, List.mem_cons, Prod.mk.injEq, Col.along.injEq, reduceCtorEq, and_false, List.not_mem_nil, or_false] at h
  rcases h with ⟨_, rfl⟩ | ⟨_, rfl⟩ <;> simp [sampleArray]

/-- Data and coords 2 to 4 of all rows. -/
def showRows (t : Table Int) : List (Option Int × Option Int × Option Int × Option Int) :=
  t.rowList.map (fun e => (e.data, e.field 2, e.field 3, e.field 4))

example : ((extract (· == ·) (fun _ => 77) 2 [true, true, false, false, true] sampleArray).map showRows).toOption =
    some [(some 10, none, some 20, some 9), (some 11, none, some 21, some 9), (some 14, none, some 24, some 9)] := rfl

/-! ### C41 -/

variable {α : Type} [LinearOrder α]

theorem nanSensitiveLess_iff (a b : Option α) : nanSensitiveLess b a = false ↔ KeyLe a b := by
  cases a <;> cases b <;> simp [nanSensitiveLess, KeyLe]

/-- **C41**: the comparisons passed to the sort algorithm are strict weak orderings, as the algorithm requires. -/
theorem C41_strict_weak (order : SortOrder) :
    (∀ a : Option α × Nat, sortLess order a a = false) ∧
    (∀ a b c : Option α × Nat, sortLess order a b = true → sortLess order b c = true → sortLess order a c = true) ∧
    (∀ a b c : Option α × Nat, sortLess order a b = false → sortLess order b a = false → sortLess order b c = false →
      sortLess order c b = false → sortLess order a c = false ∧ sortLess order c a = false) := by
  have h1 : ∀ a : Option α, nanSensitiveLess a a = false := by intro a; cases a <;> simp [nanSensitiveLess]
  have h2 : ∀ a b c : Option α, nanSensitiveLess a b = true → nanSensitiveLess b c = true → nanSensitiveLess a c = true := by
    intro a b c
    cases a <;> cases b <;> cases c <;> simp [nanSensitiveLess]
    exact fun h h' => lt_trans h h'
  have h3 : ∀ a b c : Option α, nanSensitiveLess a b = false → nanSensitiveLess b c = false → nanSensitiveLess a c = false := by
    intro a b c
    cases a <;> cases b <;> cases c <;> simp [nanSensitiveLess]
    exact fun h h' => le_trans h' h
  cases order with
  | ascending =>
    exact ⟨fun a => h1 a.1, fun a b c => h2 a.1 b.1 c.1, fun a b c e1 e2 e3 e4 => ⟨h3 _ _ _ e1 e3, h3 _ _ _ e4 e2⟩⟩
  | descending =>
    exact ⟨fun a => h1 a.1, fun a b c e1 e2 => h2 c.1 b.1 a.1 e2 e1, fun a b c e1 e2 e3 e4 => ⟨h3 _ _ _ e3 e1, h3 _ _ _ e2 e4⟩⟩

/-- What sorting has to do: the rows of the result are the slices of the data array at positions `σ`, where `σ` lists every
position once and the keys are in order. -/
def SortedRows (le : Option α → Option α → Prop) (key : List (Option α)) (t out : Table V) : Prop :=
  ∃ σ : List Nat, σ.Perm (List.range t.data.length) ∧ out.rowList = σ.map t.rowAt ∧
    (σ.map (fun i => key[i]?)).Pairwise (fun a b => ∃ x y, a = some x ∧ b = some y ∧ le x y)

/-- **C41**: sorting yields every slice of the data array once, with the values of all coords, masks and attrs (other than bin edges along the
dim), ordered by the key. In ascending order NaN keys are last; in descending order, the reverse, they are first. This holds for every
sort algorithm meeting its contract. Missing for the full claim: NaN in coords, masks or attrs not depending on the dim (see
`C42_wrong_for_nan`) and datasets (see `C41_dataset_out_of_bounds`). -/
theorem C41_sort_partial (eqv : V → V → Bool) (heq : ∀ a b, eqv a b = true → a = b) (init : Nat → V) (dim : Dim) (hdim : dim ≠ Dim.invalid)
    (sorter : Sorter α) (hs : SorterOk sorter) (key : List (Option α)) (order : SortOrder) (t : Table V) (ht : t.IsDataArray)
    (hnan : t.NoNaN eqv) (hlen : t.data.length = key.length) :
    ∃ out, Bins.sort eqv init dim sorter key order t = .ok out ∧ out.Ok ∧
      SortedRows (match order with | .ascending => KeyLe | .descending => fun a b => KeyLe b a) key t out := by
  obtain ⟨c1, c2, c3⟩ := C41_strict_weak (α := α) order
  obtain ⟨hp, hsorted⟩ := hs (sortLess order) key.zipIdx c1 c2 c3
  generalize hL : sorter (sortLess order) key.zipIdx = L at hp hsorted
  have hmem : ∀ p ∈ L, p.2 < key.length ∧ key[p.2]? = some p.1 := by
    intro p hpL
    have := hp.mem_iff.1 hpL
    have h1 := List.mem_zipIdx_iff_getElem?.1 this
    exact ⟨(List.getElem?_eq_some_iff.1 h1).1, h1⟩
  obtain ⟨out, h4, h5, h6⟩ := extractRanges_spec eqv heq init hdim (indicesForSorting sorter key order) ht hnan (by
    intro r hr
    unfold indicesForSorting at hr
    rw [hL] at hr
    obtain ⟨p, hpL, rfl⟩ := List.mem_map.1 hr
    have := (hmem p hpL).1
    simp only; omega)
  refine ⟨out, ?_, h5, L.map Prod.snd, ?_, ?_, ?_⟩
  · unfold Bins.sort
    rw [if_neg (by simp [hlen])]
    exact h4
  · have := hp.map Prod.snd
    rw [hlen]
    refine this.trans (List.Perm.of_eq ?_)
    rw [List.zipIdx_map_snd, List.range_eq_range']
  · rw [h6, indicesForSorting, hL, List.flatMap_map, List.map_map, List.map_eq_flatMap]
    refine List.flatMap_congr (fun p _ => ?_)
    simp [intRange]
  · rw [List.map_map, List.pairwise_map]
    refine hsorted.imp_of_mem (fun {a b} ha hb hab => ⟨a.1, b.1, (hmem a ha).2, (hmem b hb).2, ?_⟩)
    cases order with
    | ascending => exact (nanSensitiveLess_iff _ _).1 hab
    | descending => exact (nanSensitiveLess_iff _ _).1 hab

/-- **C41**: the key must have the length of the data array. -/
theorem C41_wrong_length (eqv : V → V → Bool) (init : Nat → V) (dim : Dim) (sorter : Sorter α) (key : List (Option α)) (order : SortOrder)
    (t : Table V) (h : t.data.length ≠ key.length) : Bins.sort eqv init dim sorter key order t = .error .dimension := by
  unfold Bins.sort
  rw [if_pos h]
  rfl

/-- Insertion sort, an algorithm meeting the contract. -/
def insertionSorter : Sorter α := fun lt l => l.insertionSort (fun a b => lt b a = false)

theorem insertionSorter_ok : SorterOk (α := α) insertionSorter := by
  intro lt l h1 h2 h3
  have htrans : IsTrans (Option α × Nat) (fun a b => lt b a = false) := ⟨fun a b c hab hbc => by
    cases hca : lt c a with
    | false => rfl
    | true =>
      cases hab' : lt a b with
      | true => rw [h2 c a b hca hab'] at hbc; cases hbc
      | false =>
        cases hbc' : lt b c with
        | true => rw [h2 b c a hbc' hca] at hab; cases hab
        | false =>
          have := (h3 a b c hab' hab hbc' hbc).2
          rw [hca] at this; cases this⟩
  have htotal : Std.Total (α := Option α × Nat) (fun a b => lt b a = false) := ⟨fun a b => by
    cases hab : lt a b with
    | false => exact .inr rfl
    | true =>
      cases hba : lt b a with
      | false => exact .inl rfl
      | true => have := h2 a b a hab hba; rw [h1] at this; cases this⟩
  exact ⟨List.perm_insertionSort _ _, List.pairwise_insertionSort _ _⟩

example : ((Bins.sort (· == ·) (fun _ => 77) 2 insertionSorter [some 5, none, some 3, some 5, some 1] .ascending sampleArray).map showRows).toOption =
    some [(some 14, none, some 24, some 9), (some 12, none, some 22, some 9), (some 10, none, some 20, some 9),
      (some 13, none, some 23, some 9), (some 11, none, some 21, some 9)] := by decide

/-- **C41** (descending order): NaN comes first, not last. -/
theorem C41_descending_nan_first :
    (Bins.sort (V := Int) (α := Int) (· == ·) (fun _ => 77) 2 insertionSorter [some 5, none, some 3] .descending ⟨[0, 1, 2], []⟩).map (·.data) =
      .ok [1, 0, 2] := by decide

/-- Sorting a dataset by bin edges along the dim reads outside the data: the length of the key is not checked. -/
theorem C41_dataset_out_of_bounds :
    (sortDataset (V := Int) (α := Int) (· == ·) (fun _ => 77) 2 insertionSorter [some 0, some 1, some 2, some 3] .ascending
      ⟨[10, 11, 12], [(2, .along [0, 1, 2, 3])]⟩).map (·.data) = .error .ub := by decide

/-- Sorting a dataset by a key shorter than the dim loses slices. -/
theorem C41_dataset_loses_slices :
    (sortDataset (V := Int) (α := Int) (· == ·) (fun _ => 77) 2 insertionSorter [some 1, some 0] .ascending ⟨[10, 11, 12], []⟩).map (·.data) =
      .ok [11, 10] := by decide

example := C42_extract_partial (· == ·) (by simp) (fun _ => 77) 2 (by decide) [true, true, false, false, true] sampleArray
  sampleArray_ok.1 sampleArray_ok.2 rfl
example := C42_wrong_length (· == ·) (fun _ => 77) 2 [true, true, false] sampleArray (by decide)
example := C42_extract_binned (· == ·) (by simp) (fun _ => 77) (fun _ => (0, 0)) 2 (by decide) [true, false, true]
  [(1, 3), (0, 1), (0, 2)] ⟨[10, 11, 12], [(3, .along [0, 1, 2]), (4, .fixed 9)]⟩ ⟨by decide, by simp⟩ (fun _ _ _ => by simp)
  (by decide) rfl
example := C41_strict_weak (α := Int) .descending
example := C41_sort_partial (· == ·) (by simp) (fun _ => 77) 2 (by decide) insertionSorter insertionSorter_ok
  [some 5, none, some 3, some 5, some (1 : Int)] .ascending sampleArray sampleArray_ok.1 sampleArray_ok.2 rfl
example := C41_wrong_length (· == ·) (fun _ => 77) 2 insertionSorter [some 5, none, some (3 : Int)] .descending sampleArray (by decide)

end Scipp.Props
