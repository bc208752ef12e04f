import Verif.Model.SizedDict
/-
`bin` with its dimensions, coords, masks and attrs (`lib/dataset/bin.cpp` 232-678). What happens to the events is in `Verif.Model.Binning` and `Verif.Model.MultiAxis`.
-/
namespace Scipp.BinMeta

/-- `AxisAction` (`lib/dataset/bin.cpp` 296) without `Join`, which only `groupby` uses. -/
inductive Kind where
  | group
  | bin
  | existing
  deriving DecidableEq, Repr

/-- `TargetBinBuilder` (`bin.cpp` 295-446): `m_dims` and `m_actions`; an action on an existing dimension has no key. -/
structure Builder where
  dims : Dims
  actions : List (Kind × Dim × Option Entry)

/-- `TargetBinBuilder::erase` (`bin.cpp` 438). -/
def Builder.erase (b : Builder) (d : Dim) : Except Err Builder :=
  match Dims.addInner b.dims d 1 with
  | .ok dims => .ok { b with dims }
  | .error e => .error e

/-- `TargetBinBuilder::group` (`bin.cpp` 414-418). -/
def Builder.group (b : Builder) (g : Entry) : Except Err Builder :=
  match Sizes.at? g.dims (Dims.inner g.dims) with
  | .error e => .error e
  | .ok n =>
    match Dims.addInner b.dims (Dims.inner g.dims) n with
    | .ok dims => .ok ⟨dims, b.actions ++ [(.group, Dims.inner g.dims, some g)]⟩
    | .error e => .error e

/-- `TargetBinBuilder::bin` (`bin.cpp` 420-424). -/
def Builder.bin (b : Builder) (g : Entry) : Except Err Builder :=
  match Sizes.at? g.dims (Dims.inner g.dims) with
  | .error e => .error e
  | .ok n =>
    match Dims.addInner b.dims (Dims.inner g.dims) (n - 1) with
    | .ok dims => .ok ⟨dims, b.actions ++ [(.bin, Dims.inner g.dims, some g)]⟩
    | .error e => .error e

/-- `TargetBinBuilder::existing` (`bin.cpp` 426-429). -/
def Builder.existing (b : Builder) (d : Dim) (n : Int) : Except Err Builder :=
  match Dims.addInner b.dims d n with
  | .ok dims => .ok ⟨dims, b.actions ++ [(.existing, d, none)]⟩
  | .error e => .error e

/-- The keys of the actions of a kind (`TargetBinBuilder::edges`, `groups`; `bin.cpp` 394-412). -/
def Builder.keys (b : Builder) (k : Kind) : List Entry := b.actions.filterMap fun a => if a.1 = k then a.2.2 else none

/-- `get_dims` in `axis_actions` (`bin.cpp` 464-469). -/
def getDims (cs : List Entry) : Except Err Dims := cs.foldlM (fun s c => Dims.addInner s (Dims.inner c.dims) 1) []

/-- `groups[groups_dims.index(dim)]` (`bin.cpp` 481, 483): the dimensions of `groups_dims` are those of the groups in the same order. -/
def keyOf (cs : List Entry) (d : Dim) : Option Entry := cs.find? fun c => Dims.inner c.dims == d

/-- The loop of `axis_actions` over the dimensions of the data (`bin.cpp` 476-494). -/
def actionsLoop (coords : List (Dim × Entry)) (edges groups : List Entry) : Dims → Bool → Builder → Except Err Builder
  | [], _, b => .ok b
  | (d, n) :: rest, rebin, b =>
    match keyOf groups d with
    | some g =>
      match b.group g with
      | .ok b => actionsLoop coords edges groups rest true b
      | .error e => .error e
    | none =>
      match keyOf edges d with
      | some g =>
        match b.bin g with
        | .ok b => actionsLoop coords edges groups rest true b
        | .error e => .error e
      | none =>
        if rebin && !Sizes.contains b.dims d then
          if (lookupEntry coords d).any (fun c => c.dims.length != 1) then .error .dimension
          else
            match b.existing d n with
            | .ok b => actionsLoop coords edges groups rest rebin b
            | .error e => .error e
        else actionsLoop coords edges groups rest rebin b

/-- The loops of `axis_actions` over groups and edges for new dimensions (`bin.cpp` 495-500). -/
def newLoop (data : Dims) (f : Builder → Entry → Except Err Builder) (b : Builder) (c : Entry) : Except Err Builder :=
  if Sizes.contains data (Dims.inner c.dims) then .ok b else f b c

/-- `axis_actions` (`bin.cpp` 455-502). -/
def axisActions (data : Dims) (coords : List (Dim × Entry)) (edges groups : List Entry) (erase : List Dim) : Except Err Builder :=
  match erase.foldlM Builder.erase ⟨[], []⟩ with
  | .error e => .error e
  | .ok b =>
    match getDims edges, getDims groups with
    | .error e, _ => .error e
    | _, .error e => .error e
    | .ok _, .ok _ =>
      match actionsLoop coords edges groups data false b with
      | .error e => .error e
      | .ok b =>
        match groups.foldlM (newLoop data Builder.group) b with
        | .error e => .error e
        | .ok b => edges.foldlM (newLoop data Builder.bin) b

/-- An array that is binned: dimensions of the data, those of the buffer being `bufDim`; coords, masks and attrs of the buffer and of the array. For data that is not
binned, the buffer is the array itself (`pretend_bins_for_threading`, `bin.cpp` 635-637), of one dimension. -/
structure Input where
  binned : Bool
  dims : Dims
  bufDim : Dim
  bufCoords : List (Dim × Entry)
  bufMasks : List (Dim × Entry)
  bufAttrs : List (Dim × Entry)
  coords : List (Dim × Entry)
  masks : List (Dim × Entry)
  attrs : List (Dim × Entry)

/-- `SingleStageMapper::bin_sizes` and the constructor, as far as dimensions are concerned (`bin.cpp` 79-95, 122-131): the sizes are summed over the dimensions of the builder, the
dimensions of the builder are merged in. For data that is not binned the only outer dimension is one of the builder (`bin.cpp` 635-645). -/
def sizesDims (x : Input) (b : Builder) : Except Err Dims :=
  Dims.merge (if x.binned then x.dims.filter (fun p => !Sizes.contains b.dims p.1) else []) b.dims

/-- `squeeze` of dimensions (`bin.cpp` 262): they must have length 1. -/
def squeezeDims (s : Dims) (erase : List Dim) : Except Err Dims :=
  if s.all (fun p => !erase.contains p.1 || p.2 == 1) then .ok (s.filter fun p => !erase.contains p.1) else .error .dimension

/-- `drop_grouped_event_coords` (`bin.cpp` 608-618). -/
def dropGrouped (coords : List (Dim × Entry)) (groups : List Entry) : List (Dim × Entry) :=
  groups.foldl (fun c g => eraseEntry c (Dims.inner g.dims)) coords

/-- `extract_unbinned` (`bin.cpp` 232-245). -/
def extractUnbinned (bufDim : Dim) (m : List (Dim × Entry)) : List (Dim × Entry) := m.filter fun p => !Sizes.contains p.2.dims bufDim

/-- The lambda `rebinned` of `add_metadata` (`bin.cpp` 265-270). -/
def rebinned (dims : List Dim) (bufDim : Dim) (v : Entry) : Bool :=
  (Sizes.labels v.dims).any fun d => dims.contains d || Sizes.contains v.dims bufDim

/-- The loop of `add_metadata` over edges and groups (`bin.cpp` 272-278). -/
def insertKeys (keys : List Entry) (out : List (Dim × Entry)) : List (Dim × Entry) :=
  keys.foldl (fun o c => insertEntry o (Dims.inner c.dims) { c with aligned := true }) out

/-- The loop over the coords (`bin.cpp` 279-281). -/
def insertCoords (dims : List Dim) (bufDim : Dim) (coords out : List (Dim × Entry)) : List (Dim × Entry) :=
  coords.foldl (fun o p => if !rebinned dims bufDim p.2 && (lookupEntry o p.1).isNone then insertEntry o p.1 p.2 else o) out

/-- The loop over the masks (`bin.cpp` 283-285). The copy of the mask is not told from the mask. -/
def insertMasks (dims : List Dim) (bufDim : Dim) (masks out : List (Dim × Entry)) : List (Dim × Entry) :=
  masks.foldl (fun o p => if !rebinned dims bufDim p.2 then insertEntry o p.1 p.2 else o) out

/-- The loop over the attrs (`bin.cpp` 287-289). -/
def insertAttrs (dims : List Dim) (bufDim : Dim) (outCoords attrs out : List (Dim × Entry)) : List (Dim × Entry) :=
  attrs.foldl (fun o p => if !rebinned dims bufDim p.2 && (lookupEntry outCoords p.1).isNone then insertEntry o p.1 p.2 else o) out

/-- The array that is returned; `hidden` are the masks that have been applied to the input, i.e., whose events are not in the output (`hide_masked`, `bin.cpp` 672,
`lib/dataset/bins_util.h` 14-28): those depending on one of the dimensions of the builder. -/
structure Output where
  dims : Dims
  coords : List (Dim × Entry)
  masks : List (Dim × Entry)
  attrs : List (Dim × Entry)
  hidden : List (Dim × Entry)

/-- `add_metadata` (`bin.cpp` 255-293). -/
def addMetadata (x : Input) (b : Builder) (groups : List Entry) (erase : List Dim) : Except Err Output :=
  match sizesDims x b with
  | .error e => .error e
  | .ok s =>
    match squeezeDims s erase with
    | .error e => .error e
    | .ok out =>
      let keys := b.keys .bin ++ b.keys .group
      let dims := erase ++ keys.map fun c => Dims.inner c.dims
      let coords := insertCoords dims x.bufDim x.coords (insertKeys keys (extractUnbinned x.bufDim (dropGrouped x.bufCoords groups)))
      let masks := insertMasks dims x.bufDim x.masks (extractUnbinned x.bufDim x.bufMasks)
      let attrs := insertAttrs dims x.bufDim coords x.attrs (extractUnbinned x.bufDim x.bufAttrs)
      match SizedDict.ofItems out coords false, SizedDict.ofItems out masks false, SizedDict.ofItems out attrs false with
      | .ok c, .ok m, .ok a =>
        .ok ⟨out, c.items, m.items, a.items, if x.binned then x.masks.filter (fun p => (Sizes.labels p.2.dims).any (Sizes.contains b.dims ·)) else []⟩
      | .error e, _, _ => .error e
      | _, .error e, _ => .error e
      | _, _, .error e => .error e

/-- `validate_bin_args` (`bin.cpp` 583-606) without the checks of the buffer being of one dimension and the edges being sorted. -/
def validate (edges groups : List Entry) : Except Err Unit :=
  if edges.isEmpty && groups.isEmpty then .error .invalidArgument
  else if edges.all fun c => match Sizes.at? c.dims (Dims.inner c.dims) with | .ok n => decide (2 ≤ n) | .error _ => false then .ok ()
  else .error .binEdge

/-- The coord for an action is one of the events or one of the bins (`get_coord`, `bin.cpp` 308-310); for data that is not binned there are only those of the array, which is
the buffer too (643). -/
def hasCoord (x : Input) (d : Dim) : Bool :=
  (lookupEntry x.bufCoords d).isSome || (lookupEntry x.bufAttrs d).isSome || (lookupEntry x.coords d).isSome || (lookupEntry x.attrs d).isSome

/-- `bin` (`bin.cpp` 622-650, 666-678). `meta` is the union of coords and attrs. -/
def bin (x : Input) (edges groups : List Entry) (erase : List Dim) : Except Err Output :=
  match validate edges groups with
  | .error e => .error e
  | .ok () =>
    match axisActions x.dims (x.attrs ++ x.coords) edges groups erase with
    | .error e => .error e
    | .ok b =>
      if b.actions.all fun a => decide (a.1 = .existing) || hasCoord x a.2.1 then addMetadata x b groups erase else .error .notFound

end Scipp.BinMeta
