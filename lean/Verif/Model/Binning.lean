import Verif.Model.SubbinSizes
/-
Model of the mapping of events to output bins: `lib/dataset/bin.cpp` (34-40 `bins_from_sizes`, 69-148 `SingleStageMapper`,
150-188 `TwoStageMapper`, 190-230 `make_mapper`), `lib/core/include/scipp/core/element/map_to_bins.h` and `count_indices` in
`lib/core/include/scipp/core/element/bin.h`.

The target bin of every event (an index within the considered output bins of its input bin, or a negative number) is an input
here; it is the subject of C18 and C23-C25. `E` is the type of one row of the event table. Elements accessed outside a vector are
`Err.ub`.
-/
namespace Scipp.Binning
variable {E : Type}

/-- An input bin: the first considered output bin and the number of considered output bins (an element of `builder.offsets()` and of
`builder.nbin()`), and its events with their target bin. -/
structure InputBin (E : Type) where
  offset : Int
  nbin : Int
  events : List (Int × E)

/-- The loop of `count_indices` (`bin.h` 198-200). -/
def countLoop : List Int → List Int → Except Err (List Int)
  | counts, [] => .ok counts
  | counts, i :: is =>
    if i < 0 then countLoop counts is
    else match vecGet counts i with
      | none => .error .ub
      | some c => match vecSet counts i (c + 1) with
        | none => .error .ub
        | some counts' => countLoop counts' is

/-- `count_indices` (`bin.h` 186-202). A vector of negative size throws. -/
def countIndices (b : InputBin E) : Except Err SubbinSizes := do
  if b.nbin < 0 then throw .invalidArgument
  let counts ← countLoop (List.replicate b.nbin.toNat 0) (b.events.map (·.1))
  SubbinSizes.mk' b.offset counts

/-- Input bins along `n` rebinned dims, as nested lists. The dims are in the order in which `SingleStageMapper` handles them
(`bin.cpp` 81-90: by decreasing length), with the *last* one outermost. -/
def Rows (α : Type) : Nat → Type
  | 0 => α
  | n + 1 => List (Rows α n)

/-- All elements in the order of the nested lists. -/
def Rows.flat {α : Type} : {n : Nat} → Rows α n → List α
  | 0, x => [x]
  | _ + 1, xs => List.flatMap Rows.flat xs

/-- `transform` of every element. -/
def Rows.mapM {α β : Type} (f : α → Except Err β) : {n : Nat} → Rows α n → Except Err (Rows β n)
  | 0, x => f x
  | _ + 1, xs => List.mapM (Rows.mapM f) xs

/-- `sum(m_output_bin_sizes, dim)` for one position (`bin.cpp` 94): accumulates with `+=` into a default-constructed
value (`lib/variable/reduction.cpp` 28-37, 58-60, `subbin_sizes.h` 21, 36: offset 0 and no sizes). -/
def sumSizes (xs : List SubbinSizes) : Except Err SubbinSizes := xs.foldlM SubbinSizes.addAssign ⟨0, []⟩

/-- `subbin_sizes_add_intersection` of one element with all offsets it is broadcast to (`bin.cpp` 92-93, 100-101). -/
def addToAll (offsets : List SubbinSizes) (c : SubbinSizes) : Except Err (List SubbinSizes) :=
  offsets.mapM fun o => SubbinSizes.addIntersection o c

/-- The loop over the rebinned dims (`bin.cpp` 77-95): the offsets of all input bins and the summed sizes. The code handles one dim after
the other for all positions at once; here the dims handled later are the outer levels of the recursion, which performs the same operations
on every element. -/
def process : {n : Nat} → Rows SubbinSizes n → Except Err (List SubbinSizes × SubbinSizes)
  | 0, s => .ok ([SubbinSizes.assign s 0], s)
  | _ + 1, rows => do
    let rs ← List.mapM process rows
    let cs ← SubbinSizes.cumsumExclusiveList (rs.map (·.2))
    let offs ← (rs.zip cs).mapM fun rc => addToAll rc.1.1 rc.2
    let sum ← sumSizes (rs.map (·.2))
    return (offs.flatten, sum)

/-- `map_to_bins_direct` (`map_to_bins.h` 19-34) as the list of writes to the output, each a position and a row. -/
def mapDirect : List Int → List (Int × E) → Except Err (List (Int × E))
  | _, [] => .ok []
  | bins, (i, e) :: es =>
    if i < 0 then mapDirect bins es
    else match vecGet bins i with
      | none => .error .ub
      | some pos => match vecSet bins i (pos + 1) with
        | none => .error .ub
        | some bins' => (mapDirect bins' es).map ((pos, e) :: ·)

/-- Step 1 of `map_to_bins_chunkwise`: append the events of a block to the chunks (`map_to_bins.h` 60-75). `/` and `%` are the
truncating operations of C++, applied to non-negative numbers only. -/
def toChunks (chunksize : Int) : List (List (Int × E)) → List (Int × E) → Except Err (List (List (Int × E)))
  | chunks, [] => .ok chunks
  | chunks, (i, e) :: es =>
    if i < 0 then toChunks chunksize chunks es
    else match vecGet chunks (i.tdiv chunksize) with
      | none => .error .ub
      | some c => match vecSet chunks (i.tdiv chunksize) (c ++ [(i.tmod chunksize, e)]) with
        | none => .error .ub
        | some chunks' => toChunks chunksize chunks' es

/-- One chunk of step 2 of `map_to_bins_chunkwise` (`map_to_bins.h` 79-87): the writes and the bins afterwards. -/
def mapChunk (bins : List Int) (base : Int) : List (Int × E) → Except Err (List (Int × E) × List Int)
  | [] => .ok ([], bins)
  | (j, e) :: es =>
    match vecGet bins (base + j) with
    | none => .error .ub
    | some pos => match vecSet bins (base + j) (pos + 1) with
      | none => .error .ub
      | some bins' => (mapChunk bins' base es).map fun r => ((pos, e) :: r.1, r.2)

/-- Step 2 of `map_to_bins_chunkwise`: map the chunks from number `k` on to bins (`map_to_bins.h` 76-90). -/
def mapChunks (chunksize : Int) : List Int → Int → List (List (Int × E)) → Except Err (List (Int × E) × List Int)
  | bins, _, [] => .ok ([], bins)
  | bins, k, c :: cs => do
    let r ← mapChunk bins (chunksize * k) c
    let r' ← mapChunks chunksize r.2 (k + 1) cs
    return (r.1 ++ r'.1, r'.2)

/-- The loop over blocks of `map_to_bins_chunkwise` (`map_to_bins.h` 55-91), with blocks of `block` events. -/
def mapBlocks (chunksize : Int) (block : Nat) : Nat → List Int → List (Int × E) → Except Err (List (Int × E))
  | 0, _, _ => .ok []
  | fuel + 1, bins, es =>
    if es.isEmpty then .ok []
    else do
      let chunks ← toChunks chunksize (List.replicate (((bins.length : Int) - 1).tdiv chunksize + 1).toNat []) (es.take block)
      let r ← mapChunks chunksize bins 0 chunks
      let r' ← mapBlocks chunksize block fuel r.2 (es.drop block)
      return r.1 ++ r'

/-- `map_to_bins_chunkwise` (`map_to_bins.h` 38-92). `bins` is not empty where it is called, thus every block is not empty and at most
`es.length` blocks are handled. -/
def mapChunkwise (chunksize : Int) (bins : List Int) (es : List (Int × E)) : Except Err (List (Int × E)) :=
  mapBlocks chunksize (bins.length * 8) es.length bins es

/-- `element::bin` (`map_to_bins.h` 100-137). -/
def mapToBins (bins : List Int) (es : List (Int × E)) : Except Err (List (Int × E)) :=
  if 512 < bins.length ∧ bins.length * 4 < es.length then
    if bins.length ≤ 128 * 128 then mapChunkwise 128 bins es
    else if bins.length ≤ 256 * 256 then mapChunkwise 256 bins es
    else if bins.length ≤ 512 * 512 then mapChunkwise 512 bins es
    else mapChunkwise 1024 bins es
  else mapDirect bins es

/-- What the constructor of `SingleStageMapper` and `map_to_bins` do for one position of the dims that are not rebinned: the sizes per output
bin and the writes of every input bin into the part of the output belonging to the position (`bin.cpp` 71-101, 112-127). -/
def mapSpan {n : Nat} (rows : Rows (InputBin E) n) : Except Err (SubbinSizes × List (List (Int × E))) := do
  let sizes ← rows.mapM countIndices
  let r ← process sizes
  let start ← r.2.cumsumExclusive
  let offsets ← addToAll r.1 start
  let writes ← (rows.flat.zip offsets).mapM fun bo => mapToBins bo.2.sizes bo.1.events
  return (r.2, writes)

/-- The position of the first element of every part of the output (`bin.cpp` 102-109), and the writes relative to the whole output. -/
def shiftWrites : Int → List (SubbinSizes × List (List (Int × E))) → List (List (Int × E))
  | _, [] => []
  | start, r :: rs => r.2.map (fun w => w.map fun pe => (start + pe.1, pe.2)) ++ shiftWrites (start + r.1.sum) rs

/-- `flatten_subbin_sizes` (`lib/variable/bin_detail.cpp` 65-74). Every element is copied to `length` consecutive elements, initially zero;
copying beyond the end is `Err.ub`. -/
def flattenSizes (length : Nat) (s : SubbinSizes) : Except Err (List Int) :=
  if s.offset < 0 ∨ (length : Int) < s.offset + s.sizes.length then .error .ub
  else .ok (List.replicate s.offset.toNat 0 ++ s.sizes ++ List.replicate (length - s.offset.toNat - s.sizes.length) 0)

/-- Result of the mapping: for every position that is not rebinned and every output bin its size, the size of the output buffer,
and, for every input bin, the writes to the output buffer. The input bins are handled by different threads. -/
structure Mapped (E : Type) where
  sizes : List Int
  total : Int
  writes : List (List (Int × E))

/-- `SingleStageMapper` (`bin.cpp` 69-148) with `length` output bins; `spans` lists the positions of the dims that are
not rebinned. -/
def singleStage {n : Nat} (length : Nat) (spans : List (Rows (InputBin E) n)) : Except Err (Mapped E) := do
  let rs ← spans.mapM mapSpan
  let sizes ← rs.mapM fun r => flattenSizes length r.1
  return ⟨sizes.flatten, (rs.map fun r => r.1.sum).sum, shiftWrites 0 rs⟩

/-- The writes to the output buffer of uninitialized elements (`none`), in some order. -/
def fill : List (Option E) → List (Int × E) → Except Err (List (Option E))
  | out, [] => .ok out
  | out, (pos, e) :: ws =>
    match vecSet out pos (some e) with
    | none => .error .ub
    | some out' => fill out' ws

/-- The output buffer when the writes happen in the given order. -/
def buffer (m : Mapped E) (order : List (Int × E)) : Except Err (List (Option E)) :=
  fill (List.replicate m.total.toNat none) order

/-- `bins_from_sizes` (`bin.cpp` 34-40): begin and end of every output bin. -/
def binsFromSizes : Int → List Int → List (Int × Int)
  | _, [] => []
  | c, s :: ss => (c + s - s, c + s) :: binsFromSizes (c + s) ss

/-- Apply an index function to all events of input bins. -/
def InputBin.mapIndex (f : Int → Int) (nbin : Int) (b : InputBin E) : InputBin E :=
  ⟨b.offset, nbin, b.events.map fun ie => (f ie.1, ie.2)⟩

/-- Apply a function to all elements. -/
def Rows.map {α β : Type} (f : α → β) : {n : Nat} → Rows α n → Rows β n
  | 0, x => f x
  | _ + 1, xs => List.map (Rows.map f) xs

/-- The contents of the buffer in the given ranges, `none` if an element has not been written or a range is outside. -/
def readBins (buf : List (Option E)) (ranges : List (Int × Int)) : Option (List (List E)) :=
  ranges.mapM fun be => if be.1 < 0 ∨ be.2 < be.1 ∨ (buf.length : Int) < be.2 then none
    else ((buf.drop be.1.toNat).take (be.2 - be.1).toNat).mapM id

/-- The stages of `TwoStageMapper` (`bin.cpp` 150-188, 194-224), with `chunk` the chunk size (200-201, the rounded down square root of `length`).
The first stage maps rows together with their fine indices to coarse bins (the code maps one column after the other with the same
offsets), the second stage maps within coarse bins. `order` is the order of the writes of the first stage. The sizes of the output bins are
those of the first `length` (coarse, fine) bins of every position that is not rebinned (`bin.cpp` 173-182). -/
def twoStage {n : Nat} (length chunk : Nat) (spans : List (Rows (InputBin E) n))
    (order : Mapped (Int × E) → List (Int × (Int × E))) : Except Err (Mapped E) := do
  let nCoarse := length / chunk + 1
  let fine := fun (ie : Int × E) => (ie.1.fdiv chunk, (ie.1.fmod chunk, ie.2))
  let m1 ← singleStage nCoarse (spans.map fun s => s.map fun b => (⟨b.offset, nCoarse, b.events.map fine⟩ : InputBin (Int × E)))
  let buf ← buffer m1 (order m1)
  match readBins buf (binsFromSizes 0 m1.sizes) with
  | none => .error .ub
  | some bins =>
    let m2 ← singleStage (n := 0) chunk (bins.map fun evs => (⟨0, chunk, evs⟩ : InputBin E))
    return ⟨(List.range spans.length).flatMap fun u => (m2.sizes.drop (u * (nCoarse * chunk))).take length, m2.total, m2.writes⟩

end Scipp.Binning
