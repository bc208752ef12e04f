import Verif.Model.Sizes
/-
Conversion to and from Xarray (`src/scipp/compat/xarray_compat.py`).

Units are any type, with any text for each and any parser; the default unit may depend on the values (their dtype). Of Xarray itself, this is assumed: setting a coord creates an index if and only if the coord is one-dimensional and has the name of its dim; `drop_indexes` raises an error if one of the coords has no index. Not modelled: warnings, attributes other than `units`, and coords whose name is that of a dim but which are not one-dimensional along it.
-/
namespace Scipp.Xarray
open Scipp

/-- A variable of scipp, with alignment flag (`src/scipp/compat/xarray_compat.py` 82-106). -/
structure SVar (V U : Type) where
  dims : Dims
  values : V
  variances : Option V
  unit : Option U
  binned : Bool
  aligned : Bool
deriving DecidableEq

/-- A variable of Xarray: `units` is the attribute (`src/scipp/compat/xarray_compat.py` 82-89, 105-106). -/
structure XVar (V S : Type) where
  dims : Dims
  values : V
  units : Option S
deriving DecidableEq

/-- A data array of scipp; masks by name, name 0 is the empty one (`src/scipp/compat/xarray_compat.py` 109-128). -/
structure SArr (V U : Type) where
  data : SVar V U
  coords : List (Dim × SVar V U)
  masks : List (Dim × SVar V U)
  name : Nat
deriving DecidableEq

/-- A data array of Xarray, with names of coords which have an index (`src/scipp/compat/xarray_compat.py` 109-148). -/
structure XArr (V S : Type) where
  data : XVar V S
  coords : List (Dim × XVar V S)
  indexes : List Dim
  name : Option Nat
deriving DecidableEq

/-- `_to_xarray_variable` (`src/scipp/compat/xarray_compat.py` 92-106). -/
def toVar {V U S : Type} (str : U → S) (v : SVar V U) : Except Err (XVar V S) :=
  if v.binned then .error .invalidArgument
  else .ok ⟨v.dims, v.values, v.unit.map str⟩

/-- `_from_xarray_variable` (`src/scipp/compat/xarray_compat.py` 82-89). -/
def fromVar {V U S : Type} (parse : S → Except Err U) (dflt : V → Option U) (x : XVar V S) : Except Err (SVar V U) :=
  match x.units with
  | none => .ok ⟨x.dims, x.values, none, dflt x.values, false, true⟩
  | some s =>
    match parse s with
    | .error e => .error e
    | .ok u => .ok ⟨x.dims, x.values, none, some u, false, true⟩

/-- Whether Xarray creates an index for a coord (assumption on Xarray, used at `src/scipp/compat/xarray_compat.py` 146-147). -/
def hasIndex (key : Dim) (dims : Dims) : Bool := dims.map (·.1) == [key]

/-- The loop over coords (`src/scipp/compat/xarray_compat.py` 142-146). -/
def toCoords {V U S : Type} (str : U → S) (sizes : Sizes) : List (Dim × SVar V U) → Except Err (List (Dim × XVar V S))
  | [] => .ok []
  | (key, coord) :: rest =>
    if coord.dims.any (fun p => Sizes.isEdges sizes coord.dims p.1) then .error .invalidArgument
    else
      match toVar str coord with
      | .error e => .error e
      | .ok x =>
        match toCoords str sizes rest with
        | .error e => .error e
        | .ok xs => .ok ((key, x) :: xs)

/-- `_to_xarray_dataarray` (`src/scipp/compat/xarray_compat.py` 131-148). -/
def toArr {V U S : Type} (str : U → S) (da : SArr V U) : Except Err (XArr V S) :=
  match toVar str da.data with
  | .error e => .error e
  | .ok data =>
    match toCoords str da.data.dims da.coords with
    | .error e => .error e
    | .ok coords =>
      let indexes := (coords.filter (fun c => hasIndex c.1 c.2.dims)).map (·.1)
      let drop := (da.coords.filter (fun c => c.2.aligned == false)).map (·.1)
      if drop.any (fun k => indexes.contains k == false) then .error .invalidArgument
      else .ok ⟨data, coords, indexes.filter (fun k => drop.contains k == false), none⟩

/-- The dict of coords, with alignment set afterwards (`src/scipp/compat/xarray_compat.py` 117-127). -/
def fromCoords {V U S : Type} (parse : S → Except Err U) (dflt : V → Option U) (indexes : List Dim) : List (Dim × XVar V S) → Except Err (List (Dim × SVar V U))
  | [] => .ok []
  | (key, x) :: rest =>
    match fromVar parse dflt x with
    | .error e => .error e
    | .ok v =>
      match fromCoords parse dflt indexes rest with
      | .error e => .error e
      | .ok vs => .ok ((key, if indexes.contains key then v else { v with aligned := false }) :: vs)

/-- `_from_xarray_dataarray` (`src/scipp/compat/xarray_compat.py` 109-128). -/
def fromArr {V U S : Type} (parse : S → Except Err U) (dflt : V → Option U) (x : XArr V S) : Except Err (SArr V U) :=
  match fromCoords parse dflt x.indexes x.coords with
  | .error e => .error e
  | .ok coords =>
    match fromVar parse dflt x.data with
    | .error e => .error e
    | .ok data => .ok ⟨data, coords, [], x.name.getD 0⟩

end Scipp.Xarray
