import Verif.Model.Concat
/-
Flattening and folding the coords of a data array, with the special handling of bin edges (`lib/dataset/shape.cpp` 170-301). Variables
are represented by content (`Verif.Model.Arr`); that `flatten` and `fold` of variables act on the content as modelled here is C06.
-/
namespace Scipp.Flat
open Scipp Scipp.Concat
variable {V : Type}

/-- `var.slice({dim, begin, end})` (`lib/variable/variable.cpp` 185-204, `lib/core/slice.cpp` 26-38). -/
def range (x : CVar V) (dim : Dim) (begin_ end_ : Int) : Except Err (CVar V) :=
  match Slice.range dim begin_ end_ with
  | .error e => .error e
  | .ok p => x.slice p

/-- `var.slice({dim, index})` (`lib/variable/variable.cpp` 185-204, `lib/core/slice.cpp` 44-47). -/
def point (x : CVar V) (dim : Dim) (index : Int) : Except Err (CVar V) :=
  match Slice.point dim index with
  | .error e => .error e
  | .ok p => x.slice p

/-- `flatten(Variable)` (`lib/variable/shape.cpp` 102-132), by content: the labels must be a segment of the labels of the variable
(`Verif.Model.View.flatten?` is the model with strides, and C06 states what is used here). -/
def flatten (x : CVar V) (ls : List Dim) (toDim : Dim) : Except Err (CVar V) :=
  if ls = [] then
    match Dims.addInner x.dims toDim 1 with
    | .error e => .error e
    | .ok dims => .ok { x with arr := ⟨dims, x.arr.val⟩ }
  else
    match searchIdx ls (Sizes.labels x.dims) with
    | none => .error .dimension
    | some i =>
      let mid := (x.dims.drop i).take ls.length
      let post := x.dims.drop (i + ls.length)
      if toDim ∈ Sizes.labels (x.dims.take i ++ post) then .error .dimension
      else .ok { x with arr := ⟨x.dims.take i ++ (toDim, Dims.volume mid) :: post,
        fun c => x.arr.val (fun d => if d ∈ ls then coordsOf mid (c toDim) d else c d)⟩ }

/-- Extent used by `maybe_broadcast` (`lib/dataset/shape.cpp` 191-196). -/
def broadcastExtent (x dataDims : Dims) (lab : Dim) : Except Err Int :=
  if Sizes.contains x lab then Sizes.at? x lab else Sizes.at? dataDims lab

/-- Inner loop of `maybe_broadcast` (`shape.cpp` 188-196). -/
def addLabels (x dataDims : Dims) : List Dim → Dims → Except Err Dims
  | [], out => .ok out
  | lab :: ls, out =>
    if Sizes.contains out lab then addLabels x dataDims ls out
    else
      match broadcastExtent x dataDims lab with
      | .error e => .error e
      | .ok n =>
        match Dims.addInner out lab n with
        | .error e => .error e
        | .ok out => addLabels x dataDims ls out

/-- Outer loop of `maybe_broadcast` (`shape.cpp` 182-196). -/
def broadcastDims (x dataDims : Dims) (ls : List Dim) : List Dim → Dims → Except Err Dims
  | [], out => .ok out
  | dim :: dims, out =>
    if dim ∈ ls then
      match addLabels x dataDims ls out with
      | .error e => .error e
      | .ok out => broadcastDims x dataDims ls dims out
    else
      match Sizes.at? x dim with
      | .error e => .error e
      | .ok n =>
        match Dims.addInner out dim n with
        | .error e => .error e
        | .ok out => broadcastDims x dataDims ls dims out

/-- `maybe_broadcast` (`shape.cpp` 177-198). -/
def maybeBroadcast (x : CVar V) (ls : List Dim) (dataDims : Dims) : Except Err (CVar V) :=
  match broadcastDims x.dims dataDims ls (Sizes.labels x.dims) [] with
  | .error e => .error e
  | .ok dims => x.broadcast dims

/-- Last part of `flatten_bin_edge` (`shape.cpp` 227-237): `bulk` followed by one more edge, the last element of `back_flat`. `empty`
creates an output with the unit and the kind of the input, so that `copy` always succeeds. -/
def appendEdge (bulk last : CVar V) (toDim : Dim) : Except Err (CVar V) :=
  match Sizes.at? bulk.dims toDim with
  | .error e => .error e
  | .ok m =>
    match Sizes.resize bulk.dims toDim (m + 1) with
    | .error e => .error e
    | .ok dims => .ok { bulk with arr := ⟨dims, fun c => if c toDim < m then bulk.arr.val c else last.arr.val c⟩ }

/-- `flatten_bin_edge` (`shape.cpp` 213-238). `none` is an invalid variable, which is left out of the output. -/
def flattenBinEdge (eq : V → V → Bool) (x : CVar V) (ls : List Dim) (toDim edge : Dim) : Except Err (Option (CVar V)) :=
  match Sizes.at? x.dims edge with
  | .error e => .error e
  | .ok n1 =>
    match point x edge 0 with
    | .error e => .error e
    | .ok front =>
      match point x edge (n1 - 1) with
      | .error e => .error e
      | .ok back =>
        match flatten front (Sizes.labels front.dims) toDim with
        | .error e => .error e
        | .ok frontFlat =>
          match flatten back (Sizes.labels back.dims) toDim with
          | .error e => .error e
          | .ok backFlat =>
            match range frontFlat toDim 1 (Dims.volume front.dims) with
            | .error e => .error e
            | .ok a =>
              match range backFlat toDim 0 (Dims.volume back.dims - 1) with
              | .error e => .error e
              | .ok b =>
                if a.equal eq b = false then .ok none
                else
                  match range x edge 0 (n1 - 1) with
                  | .error e => .error e
                  | .ok cut =>
                    match flatten cut ls toDim with
                    | .error e => .error e
                    | .ok bulk =>
                      match point backFlat toDim (Dims.volume back.dims - 1) with
                      | .error e => .error e
                      | .ok last =>
                        match appendEdge bulk last toDim with
                        | .error e => .error e
                        | .ok out => .ok (some out)

/-- What `flatten(DataArray)` does with a coord, mask or attr (`shape.cpp` 241-248, 286-300). -/
def flattenItem (eq : V → V → Bool) (dataDims : Dims) (ls : List Dim) (toDim : Dim) (x : CVar V) : Except Err (Option (CVar V)) :=
  match maybeBroadcast x ls dataDims with
  | .error e => .error e
  | .ok v =>
    match ls.find? (fun d => Sizes.isEdges dataDims x.dims d) with
    | some edge => flattenBinEdge eq v ls toDim edge
    | none =>
      if dataDims.isEmpty || (match ls.head? with | some l => Sizes.contains v.dims l | none => false) then
        match flatten v ls toDim with
        | .error e => .error e
        | .ok r => .ok (some r)
      else .ok (some v)

/-- Position of an element in a folded dimension: the sum of coordinate times stride of the new dims
(`lib/variable/variable.cpp` 249-262: the strides of the new dims are those of a contiguous array times the old stride). -/
def foldPosition : Dims → (Dim → Int) → Int
  | [], _ => 0
  | p :: dims, c => c p.1 * Dims.volume dims + foldPosition dims c

/-- `Variable::fold` (`lib/variable/variable.cpp` 249-262), by content (`Verif.Model.View.fold` has the strides). -/
def fold (x : CVar V) (fromDim : Dim) (toDims : Dims) : Except Err (CVar V) :=
  match Dims.fold x.dims fromDim toDims with
  | .error e => .error e
  | .ok dims => .ok { x with arr := ⟨dims, fun c => x.arr.val (upd c fromDim (foldPosition toDims c))⟩ }

/-- `fold_bin_edge` (`lib/dataset/shape.cpp` 202-210). The dims are enlarged without changing the strides, so the additional edge is read
through the same formula from the variable before slicing. -/
def foldBinEdge (x : CVar V) (fromDim : Dim) (toDims : Dims) : Except Err (CVar V) :=
  match Sizes.at? x.dims fromDim with
  | .error e => .error e
  | .ok n =>
    match range x fromDim 0 (n - 1) with
    | .error e => .error e
    | .ok cut =>
      match fold cut fromDim toDims with
      | .error e => .error e
      | .ok out =>
        match Sizes.at? toDims (Dims.inner toDims) with
        | .error e => .error e
        | .ok m =>
          match Sizes.resize out.dims (Dims.inner toDims) (m + 1) with
          | .error e => .error e
          | .ok dims => .ok { out with arr := ⟨dims, out.arr.val⟩ }

/-- What `fold(DataArray)` does with a coord, mask or attr (`shape.cpp` 253-263). -/
def foldItem (dataDims : Dims) (fromDim : Dim) (toDims : Dims) (x : CVar V) : Except Err (CVar V) :=
  if Sizes.isEdges dataDims x.dims fromDim then foldBinEdge x fromDim toDims
  else if Sizes.contains x.dims fromDim then fold x fromDim toDims
  else .ok x

end Scipp.Flat
