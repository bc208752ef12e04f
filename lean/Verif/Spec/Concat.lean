import Verif.Model.Concat
import Verif.Spec.Masks
/-!
Vocabulary for statements about concatenation.
-/
namespace Scipp.Concat
open Scipp
variable {V : Type}

/-- Extent along `dim`; a dimension that is absent counts as length one. -/
def extentOf (dims : Dims) (dim : Dim) : Int := ((dims.find? (fun p => p.1 == dim)).map Prod.snd).getD 1

/-- Sum of the extents of the first `i` arrays. -/
def offsetAt (dimss : List Dims) (dim : Dim) (i : Nat) : Int := ((dimss.take i).map (fun s => extentOf s dim)).sum

/-- The part `offset, ..., offset + n - 1` of the array `r` along `dim` has the same elements as `x`: for all coordinates `c` of elements
of `x` (if `x` does not depend on `dim` the coordinate along `dim` is arbitrary). -/
def IsPart (r : Arr V) (dim : Dim) (offset n : Int) (x : Arr V) : Prop :=
  ∀ c, InDims x.dims c → 0 ≤ c dim → c dim < n → r.val (upd c dim (offset + c dim)) = x.val c

/-- Same dims, up to the extent along `dim` and order. -/
def SameOther (dim : Dim) (a b : Dims) : Prop := ∀ p : Dim × Int, p.1 ≠ dim → (p ∈ a ↔ p ∈ b)

/-- Sum of the number of bins of the first `i` arrays of edges. -/
def joinOffset (dimss : List Dims) (dim : Dim) (i : Nat) : Int := ((dimss.take i).map (fun s => extentOf s dim - 1)).sum

/-- The last edge of every array matches the first edge of the next one, for all coordinates along the other dims. -/
def AdjacentMatch (eq : V → V → Bool) (vars : List (CVar V)) (dim : Dim) : Prop :=
  ∀ (i : Nat) x y, vars[i]? = some x → vars[i + 1]? = some y →
    ∀ c, InDims x.dims c → c dim = extentOf x.dims dim - 1 → eq (x.arr.val c) (y.arr.val (upd c dim 0)) = true

/-- Dims other than `dim`, in order. -/
def otherDims (dim : Dim) (dims : Dims) : Dims := dims.filter (fun p => decide (p.1 ≠ dim))

/-- Coords or masks are well-formed and fit the data. -/
def CMap.Ok (m : CMap V) : Prop := Sizes.WF m.sizes ∧ ∀ p ∈ m.items, p.2.arr.Ok ∧ Fits m.sizes p.2.dims

/-- The extent along `dim` of the part of a coord or mask `v` that belongs to data with the given sizes: one more than that of the data
for bin edges. -/
def partExtent (sizes : Sizes) (v : Dims) (dim : Dim) : Int :=
  if dim ∈ Sizes.labels v then extentOf v dim else extentOf sizes dim

/-- A well-formed data array: data, coords and masks are well-formed and fit. -/
structure CArray.Ok (a : CArray V) : Prop where
  data : a.data.arr.Ok
  coords : a.coordMap.Ok
  masks : a.maskMap.Ok
  coordKeys : (a.coords.map Prod.fst).Nodup
  maskKeys : (a.masks.map Prod.fst).Nodup

/-- If the item `key` depends on `dim` in the first input, it does so in all inputs (or the input has extent one). -/
def SameDependence (maps : List (CMap V)) (dim key : Dim) : Prop :=
  ∀ a x, maps.head? = some a → lookupEntry a.items key = some x → dim ∈ Sizes.labels x.dims →
    ∀ m ∈ maps, ∀ v, lookupEntry m.items key = some v → dim ∈ Sizes.labels v.dims ∨ extentOf m.sizes dim = 1

/-- `out` consists of the same-named items of all inputs: every part of every item of the output has the elements of the item of the
input. -/
def IsItemConcat (out : List (Dim × CVar V)) (maps : List (CMap V)) (dim : Dim) : Prop :=
  ∀ key y, lookupEntry out key = some y → ∀ (i : Nat) m, maps[i]? = some m →
    ∃ v, lookupEntry m.items key = some v ∧ IsPart y.arr dim (offsetAt (maps.map CMap.sizes) dim i) (partExtent m.sizes v.dims dim) v.arr

end Scipp.Concat
