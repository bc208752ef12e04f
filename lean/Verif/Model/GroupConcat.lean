import Verif.Model.BinMeta
import Verif.Model.BinTable
import Verif.Model.GroupBy
/-
`groupby_concat_bins` (`lib/dataset/bin.cpp` 542-581), which implements `bins.concat` of data arrays (`lib/dataset/bins.cpp` 299-301) and `groupby(...).bins.concat`
(`lib/dataset/groupby.cpp` 109-125).
-/
namespace Scipp.GroupConcat
open BinMeta

/-- The edges made by `TargetBinBuilder::join` (`bin.cpp` 431-435) from minimum and maximum of a coord: a new variable, with `obj` as its buffer. -/
def joinedEdges (obj : Nat) (d : Dim) : Entry := ⟨⟨[(d, 2)], [1], 0, false⟩, obj, true, false⟩

/-- `TargetBinBuilder::join` (`bin.cpp` 431-435). The action is kept as one for binning, since `edges()` (394-402) returns the keys of both; `build` does nothing for it
(391-393), see `coordsOk`. -/
def join (b : Builder) (e : Entry) (d : Dim) : Except Err Builder :=
  match Dims.addInner b.dims d 1 with
  | .ok dims => .ok ⟨dims, b.actions ++ [(.bin, d, some e)]⟩
  | .error err => .error err

/-- The body of the loop over the dimensions of the array (`bin.cpp` 557-564). `fresh` numbers the buffers of new variables. -/
def step (metas : List (Dim × Entry)) (fresh : Dim → Nat) (red : Dim) (b : Builder) (p : Dim × Int) : Except Err Builder :=
  match lookupEntry metas p.1 with
  | none => .ok b
  | some c =>
    if c.dims.length ≠ 1 ∧ Sizes.contains c.dims red then join b (joinedEdges (fresh p.1) p.1) p.1
    else if p.1 ≠ red then b.existing p.1 p.2
    else .ok b

/-- The valid variables of `edges` and `groups` (`bin.cpp` 551-554). -/
def start (edges groups : Option Entry) : Except Err Builder :=
  match (match edges with | some e => Builder.bin ⟨[], []⟩ e | none => .ok ⟨[], []⟩) with
  | .error err => .error err
  | .ok b => match groups with | some g => b.group g | none => .ok b

/-- The builder of `groupby_concat_bins` (`bin.cpp` 550-564). -/
def builder (x : Input) (fresh : Dim → Nat) (edges groups : Option Entry) (red : Dim) : Except Err Builder :=
  match start edges groups with
  | .error err => .error err
  | .ok b =>
    match b.erase red with
    | .error err => .error err
    | .ok b => x.dims.foldlM (step (x.attrs ++ x.coords) fresh red) b

/-- `get_coord` (`bin.cpp` 308-310) for the actions by edges and groups: the coord or attr of the array with the name of the dimension of the key; there are no coords of the events (`array.meta()` is passed,
570). -/
def coordsOk (x : Input) (edges groups : Option Entry) : Bool :=
  (edges.toList ++ groups.toList).all fun c => (lookupEntry (x.attrs ++ x.coords) (Dims.inner c.dims)).isSome

/-- `groupby_concat_bins` (`bin.cpp` 548-581) as far as dimensions and metadata are concerned. -/
def concatBins (x : Input) (fresh : Dim → Nat) (edges groups : Option Entry) (red : Dim) : Except Err Output :=
  match builder x fresh edges groups red with
  | .error err => .error err
  | .ok b => if coordsOk x edges groups then addMetadata x b [] [red] else .error .notFound

/-- `GroupBy::concat` (`groupby.cpp` 109-125): `key` is the variable with the labels of the groups or the edges, `ngroup` the number of groups. -/
def groupedConcat (x : Input) (fresh : Dim → Nat) (key : Entry) (ngroup : Nat) (red : Dim) : Except Err Output :=
  if Dims.volume key.dims = ngroup then concatBins x fresh none (some key) red else concatBins x fresh (some key) none red

/-! ### Events -/
open Binning BinTable
variable {α : Type} [LinearOrder α] {γ : Type} [DecidableEq γ] {E : Type}

/-- The position of an input bin: along the dimensions that the builder does not have, and along those that it has. -/
abbrev Pos := List Nat × List Nat

/-- The input bins along the dimensions that the builder has, as nested lists (see `Binning.Rows`). -/
def grid {A : Type} : (extents : List Nat) → (List Nat → A) → Rows A extents.length
  | [], f => f []
  | n :: ns, f => (List.range n).map fun i => grid ns fun q => f (i :: q)

/-- The existing dimension for which the output bin is tracked by `m_offsets` (`bin.cpp` 387-390): the first that has as many bins as the output. Gives the position of the input bin along
it. -/
def tracked (axes : List (Axis α γ Pos)) : Option (Pos → Nat) :=
  axes.findSome? fun a => match a with
    | .existing n position => if n = volume axes then some position else none
    | _ => none

/-- The input bin at a position, with the indices of its events (`bin.cpp` 566-570): all depend on the coords of the bin only, thus are the same for all events of the bin. A masked bin is
empty (`hide_masked`, `lib/dataset/bins_util.h` 14-28). There is no search for relevant output bins, since no coords of bins are passed (570, 349-352). -/
def inputBin (guess' : List α → α → Int) (axes : List (Axis α γ Pos)) (masked : Pos → Bool) (events : Pos → List E) (p : Pos) : Except Err (InputBin E) :=
  match build guess' (axes.map fun a => ⟨a.action p, none⟩) with
  | .error err => .error err
  | .ok s => .ok ⟨s.offset, s.nbin, (if masked p then [] else events p).map fun e => (s.index, e)⟩

/-- The contents of the output bins of `groupby_concat_bins` (`bin.cpp` 548-581). `outer` lists the positions along the dimensions of the array that the builder does not have, `inner` are the extents of those that it has (in the order in
which the mapper handles them, see `Binning.Rows`). `axes` are the actions of the builder except for `Join`, which does nothing and, as the dimension that is erased, has extent 1. Two stages are used only if the
output bin is not tracked by `m_offsets` (`use_two_stage_remap`, 42-49). -/
def concatContents (root : Nat → Nat) (guess' : List α → α → Int) (axes : List (Axis α γ Pos)) (outer : List (List Nat)) (inner : List Nat) (masked : Pos → Bool) (events : Pos → List E)
    (order1 : Mapped (Int × E) → List (Int × (Int × E))) (order : Mapped E → List (Int × E)) : Except Err (List (List E)) :=
  match outer.mapM fun s => Rows.mapM (fun q => inputBin guess' axes masked events (s, q)) (grid inner id) with
  | .error err => .error err
  | .ok spans =>
    contents (if (tracked axes).isSome then singleStage (volume axes) spans else mapper root (volume axes) spans order1) order

/-- A label of `groups` as a key of the map (`groups_to_map`, `lib/core/include/scipp/core/element/bin.h` 86-103). Unlike in `GroupBy::concat`, keys are compared with `==`, i.e., NaN is not equal to anything: a NaN label is
represented differently than a NaN coord (`asCoord`). -/
def asLabel : GroupBy.Key α → GroupBy.Key α
  | .num x => .num x
  | .nan b => .nan (2 * b)

/-- A coord that is searched for in the map (`update_indices_by_grouping`, `bin.h` 136-142). -/
def asCoord : GroupBy.Key α → GroupBy.Key α
  | .num x => .num x
  | .nan b => .nan (2 * b + 1)

/-- `groupby(array, coord).bins.concat()` for a 1-D array with the given values of the coord (`groupby.cpp` 109-125): the labels of the groups, and the contents of the output bins. -/
def concatGroups (root : Nat → Nat) (guess' : List α → α → Int) (hash : GroupBy.Key α → Nat) (sorter : GroupBy.KeySorter α) (values : List (GroupBy.Key α)) (masked : Pos → Bool) (events : Pos → List E)
    (order1 : Mapped (Int × E) → List (Int × (Int × E))) (order : Mapped E → List (Int × E)) : Except Err (List (GroupBy.Key α) × List (List E)) :=
  match GroupBy.makeGroups hash sorter values with
  | .error err => .error err
  | .ok (keys, _) =>
    match concatContents root guess' [.group (keys.map asLabel) fun p => asCoord (values.getD (p.2.getD 0 0) (.nan 0))] [[]] [values.length] masked events order1 order with
    | .error err => .error err
    | .ok bins => .ok (keys, bins)

/-- `groupby(array, coord, bins=edges).bins.concat()` for a 1-D array, likewise; `none` is NaN. The number of edges differs from that of the groups, thus they are used as edges (`groupby.cpp` 113-117). -/
def concatBinGroups (root : Nat → Nat) (guess' : List α → α → Int) (edges : List α) (linspace : Bool) (guess : α → Int) (values : List (Option α)) (masked : Pos → Bool) (events : Pos → List E)
    (order1 : Mapped (Int × E) → List (Int × (Int × E))) (order : Mapped E → List (Int × E)) : Except Err (List (List E)) :=
  match GroupBy.makeBinGroups edges values with
  | .error err => .error err
  | .ok _ => concatContents root guess' [(.bin edges linspace guess fun p => values.getD (p.2.getD 0 0) none : Axis α Nat Pos)] [[]] [values.length] masked events order1 order

end Scipp.GroupConcat
