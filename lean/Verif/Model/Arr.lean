import Verif.Model.View
/-
Arrays by named coordinates: the abstraction level used for the operations of `lib/dataset`. An array is its dimensions
and the element at every coordinate. That elementwise operations of `lib/variable` act on exactly this is the content of
the theorems on views and on `transform` (C03-C09, C12); strides, offsets and buffers do not appear any more.
-/
namespace Scipp

/-- A `Variable` by content (`lib/variable/include/scipp/variable/variable.h`): dims, and the element for every assignment of
coordinates. Only the coordinates of its own dims matter (`Arr.Ok` in the specification). -/
structure Arr (V : Type) where
  dims : Dims
  val : (Dim → Int) → V

/-- The content of a view (`ElementArrayView`, see `Verif.Model.View`). -/
def Arr.ofVar {V : Type} (x : Var V) : Arr V := ⟨x.view.dims, x.elem⟩

/-- `transform` with two inputs (`lib/variable/include/scipp/variable/transform.h` 487-; modelled in detail in
`Verif.Model.Transform`): the dims are merged and the operation is applied to elements with the same coordinates. -/
def Arr.zip {U V W : Type} (f : U → V → W) (a : Arr U) (b : Arr V) : Except Err (Arr W) :=
  match Dims.merge a.dims b.dims with
  | .error e => .error e
  | .ok dims => .ok ⟨dims, fun c => f (a.val c) (b.val c)⟩

/-- `transpose` (`lib/variable/shape.cpp` `transpose`, `lib/core/dimensions.cpp` 117-137): the same elements with another
order of the dims. -/
def Arr.transpose {V : Type} (a : Arr V) (labels : List Dim) : Except Err (Arr V) :=
  match Dims.transpose a.dims labels with
  | .error e => .error e
  | .ok dims => .ok ⟨dims, a.val⟩

end Scipp
