import Verif.Model.Sizes

/-!
# Combining bins

`bins.concat(dim)`, and `group` and `bin` by coordinates that are not coordinates of the events, combine existing bins
(`src/scipp/core/bin_remapping.py` 22-163, called from `src/scipp/core/binning.py` 187-188). Begin and end of all bins are rearranged, a copy
then rearranges the events, and the bins of the copy are merged.
-/

namespace Scipp.CombineBins

variable {E Label : Type}

/-- Dims with their sizes. -/
abbrev Shape := List (Dim × Nat)

/-- A position in an array: an index for each dim. -/
abbrev Pos := Dim → Nat

/-- Replaces one index. -/
def Pos.set (c : Pos) (d : Dim) (i : Nat) : Pos := fun e => if e = d then i else c e

/-- All positions of an array in memory order of a contiguous array with these dims, the last dim running fastest
(`lib/core/include/scipp/core/strides.h`, see C10). -/
def positions : Shape → List Pos
  | [] => [fun _ => 0]
  | (d, n) :: ds => (List.range n).flatMap (fun i => (positions ds).map (fun c => c.set d i))

/-- A position whose indices of `changed` are those of `v` and whose others are those of `u`. -/
def join (changed : List Dim) (u v : Pos) : Pos := fun e => if e ∈ changed then v e else u e

/-- The events from `begin` to `end` of a buffer. -/
def slice (buffer : List E) (r : Nat × Nat) : List E := (buffer.drop r.1).take (r.2 - r.1)

/-- A binned variable: `constituents` in `bin_remapping.py` 28, 48-49. The dims can be in any order, begin and end of a bin are found from its
position. -/
structure Binned (E : Type) where
  shape : Shape
  range : Pos → Nat × Nat
  buffer : List E

/-- The events in a bin. -/
def Binned.content (b : Binned E) (c : Pos) : List E := slice b.buffer (b.range c)

/-- A binned variable made by `_with_bin_sizes` (`bin_remapping.py` 45-50), with the list of begin and end in memory order. -/
structure Packed (E : Type) where
  shape : Shape
  ranges : List (Nat × Nat)
  buffer : List E

/-- The events in bin number `k`. -/
def Packed.content (p : Packed E) (k : Nat) : List E := slice p.buffer (p.ranges.getD k (0, 0))

/-- A mask: its dims and, for every position, whether it is set. -/
structure Mask where
  dims : List Dim
  masked : Pos → Bool

/-- `irreducible_mask` (`src/scipp/core/concepts.py` 79-99): the union of the masks which depend on one of the dims `erase`. `order` are the
dims of the data, which give the dims of the result. -/
def irreducibleMask (order : List Dim) (masks : List Mask) (erase : List Dim) : Option Mask :=
  let irreducible := masks.filter (fun m => m.dims.any (fun d => erase.contains d))
  if irreducible.isEmpty then none
  else some ⟨order.filter (fun d => irreducible.any (fun m => m.dims.contains d)), fun c => irreducible.any (fun m => m.masked c)⟩

/-- Indices of one dim that are not masked, `select = ~mask` (`bin_remapping.py` 34-36). -/
def selected (m : Mask) (d : Dim) (n : Nat) : List Nat := (List.range n).filter (fun i => !m.masked (fun e => if e = d then i else 0))

/-- Size of a dim. -/
def sizeOf (s : Shape) (d : Dim) : Nat := ((s.find? (fun p => p.1 = d)).map (·.2)).getD 0

/-- `hide_masked` (`bin_remapping.py` 22-42): with a 1-D mask the masked rows are removed from begin and end (34-36), otherwise `end` is set to
`begin` (38). -/
def hideMasked (b : Binned E) (mask : Option Mask) : Binned E :=
  match mask with
  | none => b
  | some m =>
    match m.dims with
    | [d] =>
      let sel := selected m d (sizeOf b.shape d)
      ⟨b.shape.map (fun p => if p.1 = d then (d, sel.length) else p), fun c => b.range (c.set d (sel.getD (c d) 0)), b.buffer⟩
    | _ => ⟨b.shape, fun c => if m.masked c then ((b.range c).1, (b.range c).1) else b.range c, b.buffer⟩

/-- `cumsum` (`bin_remapping.py` 46), starting with `acc`. -/
def cumsumFrom (acc : Nat) : List Nat → List Nat
  | [] => []
  | s :: ss => (acc + s) :: cumsumFrom (acc + s) ss

/-- Begin and end in `_with_bin_sizes` (`bin_remapping.py` 46-47). -/
def withSizes (sizes : List Nat) : List (Nat × Nat) := List.zipWith (fun e s => (e - s, e)) (cumsumFrom 0 sizes) sizes

/-- Size of a bin, `bins.size()` (`bin_remapping.py` 67, 109). -/
def Binned.size (b : Binned E) (c : Pos) : Nat := (b.range c).2 - (b.range c).1

/-- `_concat_bins` (`bin_remapping.py` 53-68). `copy()` of a binned variable writes the events of all bins one after the other in memory order of
the bins (C47). -/
def concatVar (b : Binned E) (erase : List Dim) : Except Err (Packed E) :=
  if erase.all (fun d => (b.shape.map (·.1)).contains d) then
    let changed := erase.map (fun d => (d, sizeOf b.shape d))
    let unchanged := b.shape.filter (fun p => !erase.contains p.1)
    let buffer := (positions (unchanged ++ changed)).flatMap b.content
    let sizes := (positions unchanged).map (fun u => ((positions changed).map (fun v => b.size (join erase u v))).sum)
    .ok ⟨unchanged, withSizes sizes, buffer⟩
  else .error .dimension

/-- `combine_bins` without edges and groups (`bin_remapping.py` 141-147), i.e., `bins.concat`. -/
def concatBins (b : Binned E) (masks : List Mask) (erase : List Dim) : Except Err (Packed E) :=
  concatVar (hideMasked b (irreducibleMask (b.shape.map (·.1)) masks erase)) erase

/-- `_combine_bins` (`bin_remapping.py` 71-138), for a single new dim with `ngroup` groups or bins; `key` gives the group or bin of a label, if
any. `make_binned` (120), applied to begin and end of the bins as if these were events, puts in every group of every pseudo bin (115-118) the entries
of this pseudo bin with this key, in their order (C24, C78). -/
def combineVar (b : Binned E) (label : Pos → Label) (key : Label → Option Nat) (new : Dim) (ngroup : Nat) (erase : List Dim) : Packed E :=
  let changed := b.shape.filter (fun p => erase.contains p.1)
  let unchanged := b.shape.filter (fun p => !erase.contains p.1)
  let params := (positions (unchanged ++ changed)).map (fun c => (label c, b.range c))
  let pseudo := withSizes ((positions unchanged).map (fun _ => (changed.map (·.2)).prod))
  let cells := pseudo.flatMap (fun r => (List.range ngroup).map (fun g => (slice params r).filter (fun p => decide (key p.1 = some g))))
  let buffer := cells.flatten.flatMap (fun p => slice b.buffer p.2)
  let sizes := cells.map (fun cell => (cell.map (fun p => p.2.2 - p.2.1)).sum)
  ⟨unchanged ++ [(new, ngroup)], withSizes sizes, buffer⟩

/-- What `DataArray(var_bins.size(), coords=coords)` and the following `flatten` (`bin_remapping.py` 109, 117) make of the coordinate when
`removed` of its entries were removed from the variable but not from the coordinate, which is that of the input (150): none removed is fine; a
coordinate that is longer by one is a coordinate with bin edges, which `flatten` keeps as it is if there is no other dim and otherwise removes, so
that `make_binned` does not find it; other lengths are an error. -/
def checkCoord (ndim removed : Nat) : Except Err Unit :=
  if removed = 0 then .ok ()
  else if removed = 1 then (if ndim = 1 then .ok () else .error .notFound)
  else .error .dimension

/-- Number of entries of a 1-D mask that are removed. -/
def removedBy (b : Binned E) : Option Mask → Nat
  | none => 0
  | some m =>
    match m.dims with
    | [d] => sizeOf b.shape d - (selected m d (sizeOf b.shape d)).length
    | _ => 0

/-- `combine_bins` with one array of edges or groups (`bin_remapping.py` 141-155). The coordinate `label` is that of the input, also if rows of the
variable were removed. -/
def combineBins (b : Binned E) (masks : List Mask) (label : Pos → Label) (key : Label → Option Nat) (new : Dim) (ngroup : Nat)
    (erase : List Dim) : Except Err (Packed E) :=
  let mask := irreducibleMask (b.shape.map (·.1)) masks erase
  match checkCoord b.shape.length (removedBy b mask) with
  | .error e => .error e
  | .ok _ => .ok (combineVar (hideMasked b mask) label key new ngroup erase)

end Scipp.CombineBins
