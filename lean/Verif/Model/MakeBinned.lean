import Verif.Model.Sizes
import Mathlib.Algebra.Field.Rat
import Mathlib.Algebra.Order.Ring.Rat
/-
The routes of `bin` and `hist` in Python (`src/scipp/core/binning.py` 56-135, 158-212, 253-282, 368-384, 562-605): which steps are made for binned
data, depending on where the coords are and which dimensions disappear.

The single steps are given by what they do to every event (proved for `_cpp.bin` in C78, for `combine_bins` and `bins.concat` in C109, for
`_cpp.histogram` in C85). Not modelled: masks, attrs, units, the order of events in a bin, keys with more than one dimension, dense data,
datasets.
-/
namespace Scipp.MakeBinned

/-- The position of a bin: an index for every dimension. -/
abbrev Pos := Dim → Nat

/-- A row of the content buffer (`bins_view.h`; see `Verif.Model.BinsView`): weight and coords. -/
structure Event where
  weight : ℚ
  coord : Dim → ℚ

/-- A coord of the bins: its dimensions with sizes, and the elements (`variable.h`, reduced to what is needed here). -/
structure Coord where
  dims : List (Dim × Nat)
  val : Pos → ℚ

/-- An entry of `edges` or `groups` of `make_binned` (`binning.py` 93-99) with a single dimension. -/
structure Key where
  dim : Dim
  values : List ℚ
  edges : Bool

/-- Number of bins or groups of a key (`lib/dataset/bin.cpp` 414-424). -/
def Key.size (k : Key) : Nat := if k.edges then k.values.length - 1 else k.values.length

/-- The key as a coord (`bin.cpp` 272-278). -/
def Key.coord (k : Key) : Coord := ⟨[(k.dim, k.values.length)], fun p => k.values.getD (p k.dim) 0⟩

/-- The bin or group of a value (`lib/core/include/scipp/core/element/bin.h` 25-109; C18, C24). -/
def Key.index (k : Key) (v : ℚ) : Option Nat :=
  (List.range k.size).find? fun i =>
    if k.edges then decide (k.values.getD i 0 ≤ v) && decide (v < k.values.getD (i + 1) 0) else decide (k.values.getD i 0 = v)

/-- Binned data: dimensions, coords of the bins, names of the coords of the events, and all events with the position of their bin. -/
structure Arr where
  dims : List (Dim × Nat)
  coords : List (Dim × Coord)
  eventCoords : List Dim
  items : List (Pos × Event)

/-- `x.coords[name]` (`binning.py` 281, 376). -/
def Arr.coord? (x : Arr) (n : Dim) : Option Coord := (x.coords.find? (·.1 == n)).map (·.2)

/-- `x.sizes[dim]` (`binning.py` 245). -/
def Arr.size? (x : Arr) (d : Dim) : Option Nat := (x.dims.find? (·.1 == d)).map (·.2)

/-- `x.dims` (`binning.py` 84). -/
def Arr.labels (x : Arr) : List Dim := x.dims.map (·.1)

/-- The coord used for a key (`get_coord`, `bin.cpp` 308-310): the one of the events, else the one of the bins. -/
def Arr.value? (x : Arr) (n : Dim) (p : Pos) (e : Event) : Option ℚ :=
  if x.eventCoords.contains n then some (e.coord n) else (x.coord? n).map (fun c => c.val p)

/-- Whether there is such a coord (`bin.cpp` 308-310), and whether its dimensions are those of the bins. -/
def Arr.checkCoord (x : Arr) (n : Dim) : Except Err Unit :=
  if x.eventCoords.contains n then .ok ()
  else
    match x.coord? n with
    | none => .error .notFound
    | some c => if c.dims.all (fun d => x.size? d.1 == some d.2) then .ok () else .error .dimension

/-- The elements are in ascending order (`allsorted`, `bin.cpp` 602). -/
def ascending : List ℚ → Bool
  | a :: b :: rest => decide (a ≤ b) && ascending (b :: rest)
  | _ => true

/-- `validate_bin_args` (`bin.cpp` 597-605), and duplicate groups (`element/bin.h` 96-104). -/
def Key.check (k : Key) : Except Err Unit :=
  if k.edges then
    if k.values.length < 2 then .error .binEdge else if ascending k.values then .ok () else .error .binEdge
  else if k.values.Nodup then .ok () else .error .runtime

/-- The index of `p` along one dimension replaced. -/
def Pos.set (p : Pos) (d : Dim) (i : Nat) : Pos := fun d' => if d' = d then i else p d'

/-- The output bin of an event: `acc` is the position so far, `p` the one of the input bin (`TargetBinBuilder::build`, `bin.cpp` 307-340). -/
def place (x : Arr) (p : Pos) (e : Event) : List Key → Pos → Option Pos
  | [], acc => some acc
  | k :: ks, acc =>
    match (x.value? k.dim p e).bind k.index with
    | none => none
    | some i => place x p e ks (acc.set k.dim i)

/-- All events, moved to the output bins (`bin.cpp` 255-262); events outside of all bins are dropped. -/
def moved (x : Arr) (keys : List Key) : List (Pos × Event) :=
  x.items.filterMap fun it => (place x it.1 it.2 keys it.1).map (fun q => (q, it.2))

/-- A coord depends on one of the dimensions (`rebinned` in `add_metadata`, `bin.cpp` 265-270; `_reduced`, `concepts.py`). -/
def Coord.dependsOn (c : Coord) (ds : List Dim) : Bool := c.dims.any (fun d => ds.contains d.1)

/-- The checks of the arguments (`bin.cpp` 583-606, 307-310, 414-424). -/
def checkArgs (x : Arr) (keys : List Key) : Except Err Unit :=
  if keys.isEmpty then .error .invalidArgument
  else if (keys.map (·.dim)).Nodup then
    match keys.forM (fun k => k.check) with
    | .error e => .error e
    | .ok () => keys.forM (fun k => x.checkCoord k.dim)
  else .error .dimension

/-- `_cpp.bin` (`bin.cpp` 255-293, 608-678). The order of the dimensions is simplified; see `Verif.Model.BinMeta`. -/
def cppBin (x : Arr) (keys : List Key) (erase : List Dim) : Except Err Arr :=
  match checkArgs x keys with
  | .error e => .error e
  | .ok () =>
    let new := keys.map (·.dim)
    .ok { dims := x.dims.filter (fun d => !erase.contains d.1 && !new.contains d.1) ++ keys.map (fun k => (k.dim, k.size)),
          coords := keys.map (fun k => (k.dim, k.coord)) ++
            x.coords.filter (fun c => !new.contains c.1 && !c.2.dependsOn (erase ++ new)),
          eventCoords := x.eventCoords.filter (fun n => !keys.any (fun k => !k.edges && k.dim == n)),
          items := moved x keys }

/-- `x.bins.concat(dims)` (`src/scipp/core/bin_remapping.py` 51-67, 139-155). -/
def concat (x : Arr) (erase : List Dim) : Arr :=
  { x with dims := x.dims.filter (fun d => !erase.contains d.1), coords := x.coords.filter (fun c => !c.2.dependsOn erase) }

/-- The coord can be set for these dimensions (`SizedDict::set`, `lib/dataset/sized_dict.cpp` 221-243; C35): edges along several dimensions at
once, which are refused, are not distinguished. -/
def fits (x : Arr) (c : Coord) : Bool :=
  c.dims.all fun d =>
    match x.size? d.1 with
    | some n => d.2 == n || d.2 == n + 1
    | none => d.2 == 2

/-- Setting a coord: `coords[name] = coord` (`sized_dict.cpp` 221-243). -/
def setCoord (x : Arr) (n : Dim) (c : Coord) : Except Err Arr :=
  if fits x c then .ok { x with coords := (n, c) :: x.coords.filter (fun e => e.1 != n) } else .error .dimension

/-- `assign_coords` (`src/scipp/core/assignments.py`; `binning.py` 208): one coord after the other. -/
def assignCoords (x : Arr) : List (Dim × Coord) → Except Err Arr
  | [] => .ok x
  | (n, c) :: rest =>
    match setCoord x n c with
    | .ok y => assignCoords y rest
    | .error e => .error e

/-- `combine_bins` with keys (`bin_remapping.py` 139-155): the coords which do not depend on the erased dimensions are those of the output,
then the keys are set. -/
def combine (x : Arr) (keys : List Key) (erase : List Dim) : Except Err Arr :=
  if keys.isEmpty then .ok (concat x erase)
  else
    match checkArgs x keys with
    | .error e => .error e
    | .ok () =>
      let new := keys.map (·.dim)
      let out : Arr := { dims := x.dims.filter (fun d => !erase.contains d.1 && !new.contains d.1) ++ keys.map (fun k => (k.dim, k.size)),
                         coords := [], eventCoords := x.eventCoords, items := moved x keys }
      match assignCoords out (x.coords.filter (fun c => !c.2.dependsOn erase)) with
      | .error e => .error e
      | .ok out => assignCoords out (keys.map (fun k => (k.dim, k.coord)))

/-- `_can_operate_on_bins` (`binning.py` 265-282). -/
def canOperateOnBins (x : Arr) (keys : List Key) (erase : List Dim) : Bool :=
  keys.all fun k =>
    !x.eventCoords.contains k.dim &&
      match x.coord? k.dim with
      | none => false
      | some c => c.dims.all (fun d => erase.contains d.1)

/-- `x.ndim == 0` (`binning.py` 205-212): the content of the only bin is binned, then the coords of that bin are set. -/
def finish (x : Arr) (keys : List Key) (erase : List Dim) : Except Err Arr :=
  if x.dims.isEmpty then
    match cppBin { x with coords := [] } keys erase with
    | .error e => .error e
    | .ok out => assignCoords out x.coords
  else cppBin x keys erase

/-- The keys whose coord is not one of the events (`binning.py` 194-195). -/
def dense (x : Arr) (keys : List Key) : List Key := keys.filter (fun k => !x.eventCoords.contains k.dim)

/-- `make_binned` for keys that are all coords of the bins (`binning.py` 187-188, 193, 205-212): the call on line 200. -/
def makeDense (x : Arr) (keys : List Key) (erase : List Dim) : Except Err Arr :=
  if canOperateOnBins x keys erase then combine x keys erase
  else if erase.isEmpty then cppBin x keys erase
  else finish x keys erase

/-- `make_binned` (`binning.py` 158-212) for binned data; `keys` are the edges followed by the groups. -/
def makeBinned (x : Arr) (keys : List Key) (erase : List Dim) : Except Err Arr :=
  if keys.any (fun k => erase.contains k.dim) then .error .invalidArgument
  else if canOperateOnBins x keys erase then combine x keys erase
  else if erase.isEmpty then cppBin x keys erase
  else if (dense x keys).isEmpty then finish (concat x erase) keys []
  else if (dense x keys).length < keys.length then
    match makeDense x (dense x keys) erase with
    | .error e => .error e
    | .ok y => finish y (keys.filter (fun k => y.eventCoords.contains k.dim)) []
  else finish x keys erase

/-- `_find_replaced_dims` (`binning.py` 368-384) for a data array. -/
def replacedDims (x : Arr) (keys : List Dim) (dim : Option (List Dim)) : List Dim :=
  let replaced : List Dim := match dim with
    | some ds => ds
    | none => keys.flatMap (fun n => ((x.coord? n).map (fun c => c.dims.map (·.1))).getD [])
  x.labels.filter (fun d => replaced.contains d && !keys.contains d)

/-- `bin` and `group` (`binning.py` 865-866, 1163-1164): `make_binned` for the dimensions to be replaced. -/
def binArr (x : Arr) (keys : List Key) (dim : Option (List Dim)) : Except Err Arr :=
  makeBinned x keys (replacedDims x (keys.map (·.dim)) dim)

/-- A histogram: dimensions and values. -/
structure Hist where
  dims : List (Dim × Nat)
  value : Pos → ℚ

/-- Two positions agree along the dimensions. -/
def agree (ds : List (Dim × Nat)) (p q : Pos) : Bool := ds.all (fun d => p d.1 == q d.1)

/-- `_drop_coords_for_hist` (`binning.py` 91-99) for binned data: coords of events have the dimensions of the bins. -/
def dropCoords (x : Arr) (dims keep : List Dim) : Arr :=
  if x.labels.any (fun d => dims.contains d) then { x with eventCoords := x.eventCoords.filter (fun n => keep.contains n) } else x

/-- `_cpp.histogram` along the given dimensions, which are flattened before (`binning.py` 82-90; `lib/dataset/histogram.cpp` 28-93): the weights
of all events in the bins along these dimensions are summed. -/
def cppHistogram (x : Arr) (k : Key) (along : List Dim) : Hist :=
  let rest := x.dims.filter (fun d => !along.contains d.1)
  { dims := rest ++ [(k.dim, k.size)],
    value := fun p => ((x.items.filter fun it =>
      agree rest p it.1 && ((x.value? k.dim it.1 it.2).bind k.index == some (p k.dim))).map (fun it => it.2.weight)).sum }

/-- `coords.dim_of(dim)` (`sized_dict.cpp` 184-199) if no dimensions were flattened, so that the coord does not depend on `dim`. -/
def dimOf (c : Coord) : Except Err Dim :=
  match c.dims with
  | [d] => .ok d.1
  | _ => .error .dimension

/-- `make_histogrammed` (`binning.py` 66-90). If the coord is one of the bins, `x.bins.sum()` comes before; then the values are the sums of weights
(`histogram.cpp` 49-84). Histogramming is along the flattened dimensions; without such, it is along the dimension of the coord; if the coord does
not depend on the flattened dimensions there would be two dimensions of the same name (`transform_subspan.h` 35). Edges must be sorted
(`lib/core/include/scipp/core/element/histogram.h` 73); the order of the checks is simplified. -/
def makeHist (x : Arr) (k : Key) (erase : List Dim) : Except Err Hist :=
  let along := x.labels.filter (fun d => erase.contains d) ++ (if x.labels.contains k.dim then [k.dim] else [])
  match k.check with
  | .error e => .error e
  | .ok () =>
  if x.eventCoords.contains k.dim then
    if erase.contains k.dim then .error .invalidArgument else .ok (cppHistogram x k along)
  else
    match x.coord? k.dim with
    | none => .error .notFound
    | some c =>
      if c.dims.all (fun d => x.size? d.1 == some d.2) then
        if erase.contains k.dim then .error .invalidArgument
        else if along.isEmpty then
          match dimOf c with
          | .ok d => .ok (cppHistogram x k [d])
          | .error e => .error e
        else if c.dependsOn along then .ok (cppHistogram x k along)
        else .error .dimension
      else .error .binEdge

/-- The erased dimensions of the first step of `hist` (`binning.py` 590-596): a coord of the bins which is needed in the second step remains. -/
def eraseFirst (x : Arr) (k : Key) (erase : List Dim) : Except Err (List Dim) :=
  if x.eventCoords.contains k.dim then .ok erase
  else
    match x.coord? k.dim with
    | none => .error .notFound
    | some c => .ok (erase.filter (fun d => !(c.dims.map (·.1)).contains d))

/-- `hist` with one or more keys, all of them edges (`binning.py` 562-605); `first` are all keys but the last one. -/
def hist (x : Arr) (first : List Key) (last : Key) (dim : Option (List Dim)) : Except Err Hist :=
  let names := first.map (·.dim) ++ [last.dim]
  let erase := replacedDims x names dim
  match first with
  | [] => makeHist x last erase
  | _ =>
    let x' := dropCoords x erase names
    match eraseFirst x' last erase with
    | .error e => .error e
    | .ok erase' =>
      match makeBinned x' first erase' with
      | .error e => .error e
      | .ok y => makeHist y last (erase.filter (fun d => !erase'.contains d))

end Scipp.MakeBinned
