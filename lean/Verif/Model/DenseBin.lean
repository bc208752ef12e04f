import Verif.Model.MakeBinned
/-
`bin` and `group` for dense data with several dimensions (`src/scipp/core/binning.py` 158-250, 609-612): the data is flattened and grouped by the
indices along all dimensions but one, then the binned data is binned by the given keys.

The result of `_cpp.bin` is given by what it does to every event (see `Verif.Model.MakeBinned`; C20, C24, C78). Not modelled: one-dimensional
data, masks, attrs, units, the order of events in a bin, keys with more than one dimension, datasets.
-/
namespace Scipp.MakeBinned

/-- Dense data: dimensions, coords, and an element for every position (`lib/dataset/include/scipp/dataset/data_array.h`, reduced to what is needed
here). -/
structure Dense where
  dims : List (Dim × Nat)
  coords : List (Dim × Coord)
  weight : Pos → ℚ

/-- The dimensions and coords only, for the functions which need nothing else (`_find_replaced_dims`, `binning.py` 368-384). -/
def Dense.frame (x : Dense) : Arr := ⟨x.dims, x.coords, [], []⟩

/-- All positions in row-major order, the order of the elements after flattening (`flatten`, `lib/variable/shape.cpp` 158-199). -/
def positions : List (Dim × Nat) → List Pos
  | [] => [fun _ => 0]
  | (d, n) :: rest => (List.range n).flatMap fun i => (positions rest).map fun p => p.set d i

/-- The coord has the shape of the data along its dimensions, so no edges (`is_edges`, `lib/dataset/shape.cpp` 241-246). -/
def Dense.aligned (x : Dense) (c : Coord) : Bool := c.dims.all fun d => x.frame.size? d.1 == some d.2

/-- A row of the flattened array: the element and the elements of the coords (`shape.cpp` 287-300). -/
def Dense.event (x : Dense) (q : Pos) : Event := ⟨x.weight q, fun n => ((x.frame.coord? n).map fun c => c.val q).getD 0⟩

/-- `flatten(to=uuid)` (`binning.py` 245; `shape.cpp` 277-301, 179-199): all coords are broadcast, except those without dimensions. Coords with
edges are dropped (`shape.cpp` 223-225; simplified: there are edges which can be joined, C49). A one-dimensional dense array is given as one of
events; their position along the new dimension does not matter, as it is erased. -/
def Dense.flatten (x : Dense) (u : Dim) : Arr :=
  { dims := [(u, (positions x.dims).length)],
    coords := x.coords.filter (fun c => c.2.dims.isEmpty),
    eventCoords := (x.coords.filter (fun c => !c.2.dims.isEmpty && x.aligned c.2)).map (·.1),
    items := (positions x.dims).map (fun q => (fun _ => 0, x.event q)) }

/-- The helper coord `arange(dim, x.sizes[dim])` as a key of `group` (`binning.py` 242, 246). -/
def helperKey (d : Dim × Nat) : Key := ⟨d.1, List.map (fun i : Nat => (i : ℚ)) (List.range d.2), false⟩

/-- `x.assign_coords(helper_coords)` (`binning.py` 242-244). -/
def Dense.withHelpers (x : Dense) (extra : List (Dim × Nat)) : Dense :=
  { x with coords := extra.map (fun d => (d.1, ⟨[d], fun p => (p d.1 : ℚ)⟩)) ++ x.coords.filter (fun c => !(extra.map (·.1)).contains c.1) }

/-- The inner dimensions of the coords for the keys (`_get_op_dims`, `binning.py` 609-612), as a list instead of a set. -/
def Dense.opDims (x : Dense) (names : List Dim) : List Dim :=
  names.filterMap fun n => (x.frame.coord? n).bind fun c => c.dims.getLast?.map (·.1)

/-- The only element of the set, if there is just one (`binning.py` 234-236). -/
def single : List Dim → Option Dim
  | [] => none
  | d :: rest => if rest.all (· == d) then some d else none

/-- `_prepare_multi_dim_dense` (`binning.py` 215-250) for data with other than one dimension. `extra` is a Python set, `order` is the order in which
its elements are visited; `u` is the unique name of the flattened dimension. -/
def prepare (order : List (Dim × Nat) → List (Dim × Nat)) (u : Dim) (x : Dense) (names : List Dim) : Except Err Arr :=
  match single (x.opDims names) with
  | none => .error .invalidArgument
  | some op =>
    let extra := order (x.dims.filter (fun d => d.1 != op))
    match cppBin ((x.withHelpers extra).flatten u) (extra.map helperKey) [u] with
    | .error e => .error e
    | .ok y =>
      assignCoords { y with coords := y.coords.filter (fun c => !(extra.map (·.1)).contains c.1) }
        (x.coords.filter (fun c => c.2.dims.all (fun d => (extra.map (·.1)).contains d.1)))

/-- `bin` and `group` (`binning.py` 865-866, 1163-1164, 158-192, 213-214) for dense data with other than one dimension. -/
def binDense (order : List (Dim × Nat) → List (Dim × Nat)) (u : Dim) (x : Dense) (keys : List Key) (dim : Option (List Dim)) : Except Err Arr :=
  let erase := replacedDims x.frame (keys.map (·.dim)) dim
  if keys.any (fun k => erase.contains k.dim) then .error .invalidArgument
  else
    match prepare order u x (keys.map (·.dim)) with
    | .error e => .error e
    | .ok y => cppBin y keys erase

/-- `_drop_coords_for_hist` (`binning.py` 91-99) for dense data. -/
def Dense.dropCoords (x : Dense) (dims keep : List Dim) : Dense :=
  { x with coords := x.coords.filter (fun c => keep.contains c.1 || !c.2.dependsOn dims) }

/-- `hist` with two or more keys (`binning.py` 562-605, 158-192, 213-214) for dense data with other than one dimension; `first` are all keys but the
last one. Nothing remains to be erased in the second step (lines 590-604). -/
def histDense (order : List (Dim × Nat) → List (Dim × Nat)) (u : Dim) (x : Dense) (first : List Key) (last : Key) (dim : Option (List Dim)) :
    Except Err Hist :=
  let names := first.map (·.dim) ++ [last.dim]
  let erase := replacedDims x.frame names dim
  if first.any (fun k => erase.contains k.dim) then .error .invalidArgument
  else
    match prepare order u (x.dropCoords erase names) (first.map (·.dim)) with
    | .error e => .error e
    | .ok y =>
      match cppBin y first erase with
      | .error e => .error e
      | .ok b => makeHist b last []

end Scipp.MakeBinned
