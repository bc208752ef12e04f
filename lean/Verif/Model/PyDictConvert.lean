import Verif.Model.Sizes

/-!
# Conversion to and from Python dicts

`to_dict` and `from_dict` (`src/scipp/compat/dict.py`). The values are of any type `V`; `swap` exchanges the two axes of the matrices among them (it does nothing else).
Python strings are `String`.
-/

namespace Scipp.PyDictConvert

variable {V : Type}

/-- Types of elements (`lib/python/dtype.cpp` 71-91) as far as the code makes a difference: `plain` is any of bool, int32, int64, float32, float64, datetime64,
rotation3, translation3; `binned` is any of the three types of bins. Elements that are variables, arrays, datasets, or Python objects are not modelled. -/
inductive DT where
  | plain (code : Nat)
  | string | vector3 | linear | affine | binned
  deriving DecidableEq

/-- Types without variances (`lib/python/variable_init.cpp` 251-253; strings have none either). -/
def DT.structured : DT → Bool
  | .vector3 | .linear | .affine => true
  | _ => false

/-- A variable (`lib/variable/include/scipp/variable/variable.h` 42-200): what is seen from Python. -/
structure Var (V : Type) where
  dims : List String
  shape : List Nat
  unit : Option String
  dtype : DT
  aligned : Bool
  values : V
  variances : Option V
  deriving DecidableEq

/-- A data array: dicts are lists of names and variables (`lib/dataset/include/scipp/dataset/data_array.h`). -/
structure DataArray (V : Type) where
  data : Var V
  coords : List (String × Var V)
  masks : List (String × Var V)
  attrs : List (String × Var V)
  name : String
  deriving DecidableEq

/-- An item of a dataset without its name (`lib/dataset/include/scipp/dataset/dataset.h`, `m_data`). -/
structure Item (V : Type) where
  data : Var V
  masks : List (String × Var V)
  attrs : List (String × Var V)
  deriving DecidableEq

/-- A dataset (`dataset.h`, `m_coords`, `m_data`). -/
structure Dataset (V : Type) where
  coords : List (String × Var V)
  items : List (String × Item V)
  deriving DecidableEq

/-- The Python objects found in the dicts (`dict.py` 62-106): `array` is an array of the given shape (a scalar if it has no axes), without the axes of the structure of
elements. -/
inductive Obj (V : Type) where
  | dims (l : List String)
  | shape (l : List Nat)
  | unit (u : Option String)
  | dtype (t : DT)
  | flag (b : Bool)
  | array (shape : List Nat) (v : V)
  | none
  | text (s : String)
  | dict (d : List (String × Obj V))

/-- A Python dict with string keys, in order of insertion (`dict.py` 64). -/
abbrev PyDict (V : Type) := List (String × Obj V)

/-- `d[key]` (`dict.py` 170, 177, 200). -/
def PyDict.get (d : PyDict V) (key : String) : Except Err (Obj V) :=
  match d.lookup key with
  | some x => .ok x
  | Option.none => .error .notFound

/-- `key in d` (`dict.py` 160, 190, 197). -/
def PyDict.has (d : PyDict V) (key : String) : Bool := d.any fun p => p.1 == key

/-- `del d[key]` (`dict.py` 161, 178-182). -/
def PyDict.without (d : PyDict V) (keys : List String) : PyDict V := d.filter fun p => !keys.contains p.1

/-- The attributes `value` and `values` (`lib/python/bind_data_access.h` 231-275, 383-397) followed by the parsers of `dict.py` 57-59, 73-89. Arrays of strings are returned as
flat sequences, whatever their dims. -/
def valuesOf (v : Var V) : Obj V :=
  if v.dtype = .string ∧ v.dims ≠ [] then .array [v.shape.foldl (· * ·) 1] v.values else .array v.shape v.values

/-- `_variable_to_dict` (`dict.py` 62-94). -/
def variableToDict (v : Var V) : PyDict V :=
  [("dims", .dims v.dims), ("shape", .shape v.shape), ("unit", .unit v.unit), ("dtype", .dtype v.dtype)] ++
  (if v.aligned then [] else [("aligned", .flag false)]) ++
  [("values", valuesOf v), ("variances", match v.variances with | some x => .array v.shape x | Option.none => .none)]

/-- A dict of variables (`dict.py` 100-102). -/
def variablesToDict (vs : List (String × Var V)) : Obj V := .dict (vs.map fun p => (p.1, .dict (variableToDict p.2)))

/-- `_data_array_to_dict` (`dict.py` 97-106). The key `coords` is moved to the end, then data and name are added. -/
def dataArrayToDict (a : DataArray V) : PyDict V :=
  [("masks", variablesToDict a.masks), ("attrs", variablesToDict a.attrs), ("coords", variablesToDict a.coords),
    ("data", .dict (variableToDict a.data)), ("name", .text a.name)]

/-- An item of a dataset as data array: it has all the coords, since all items have the dims of the dataset (`lib/dataset/dataset.cpp` 29-38). -/
def Dataset.array (d : Dataset V) (name : String) (x : Item V) : DataArray V := ⟨x.data, d.coords, x.masks, x.attrs, name⟩

/-- A Scipp object (`dict.py` 42-54). -/
inductive Thing (V : Type) where
  | variable (v : Var V)
  | array (a : DataArray V)
  | dataset (d : Dataset V)
  deriving DecidableEq

/-- `to_dict` (`dict.py` 23-54). -/
def toDict : Thing V → PyDict V
  | .variable v => variableToDict v
  | .array a => dataArrayToDict a
  | .dataset d => d.items.map fun p => (p.1, .dict (dataArrayToDict (d.array p.1 p.2)))

/-- The constructor of variables (`lib/python/variable_init.cpp` 114-131, 217-267, 273-306). Matrices are taken in the layout of Eigen, i.e., with the axes exchanged
compared to what `values` returns (`src/scipp/spatial/__init__.py` 37-40). Conversions of elements and units are not modelled, the arguments have the given type and unit. -/
def makeVariable (swap : V → V) (dims : List String) (shape : List Nat) (v : V) (variances : Option V) (unit : Option String) (dtype : DT)
    (aligned : Bool) : Except Err (Var V) :=
  if dtype = .binned then .error .dtype
  else if dtype.structured ∧ variances.isSome then .error .variances
  else if dims ≠ [] ∧ dims.length ≠ shape.length then .error .invalidArgument
  else .ok ⟨dims, if dims = [] then [] else shape, unit, dtype, aligned, if dtype = .linear ∨ dtype = .affine then swap v else v, variances⟩

/-- The call `Variable(**out)` (`dict.py` 183, `variable_init.cpp` 307-309): unknown names are rejected. Missing arguments have defaults, except `dims`; of the defaults only those of
`aligned` and `variances` are modelled, for others we return an error. -/
def callVariable (swap : V → V) (kw : PyDict V) : Except Err (Var V) :=
  if kw.any (fun p => !["dims", "values", "variances", "unit", "dtype", "aligned"].contains p.1) then .error .dtype
  else
    match kw.lookup "dims", kw.lookup "values", kw.lookup "unit", kw.lookup "dtype" with
    | some (.dims dims), some (.array shape v), some (.unit unit), some (.dtype dtype) =>
      let aligned := match kw.lookup "aligned" with | some (.flag b) => b | _ => true
      let variances := match kw.lookup "variances" with | some (.array _ x) => some x | _ => Option.none
      makeVariable swap dims shape v variances unit dtype aligned
    | _, _, _, _ => .error .dtype

/-- The calls `vectors(**out)` and `linear_transforms(**out)` (`dict.py` 183, `src/scipp/core/variable.py` 405-452, `spatial/__init__.py` 409-437). The only names are dims, values, and unit.
Matrices are brought into the layout of Eigen. -/
def callStructured (swap : V → V) (t : DT) (kw : PyDict V) : Except Err (Var V) :=
  if kw.any (fun p => !["dims", "values", "unit"].contains p.1) then .error .dtype
  else
    match kw.lookup "dims", kw.lookup "values", kw.lookup "unit" with
    | some (.dims dims), some (.array shape v), some (.unit unit) =>
      makeVariable swap dims shape (if t = .linear then swap v else v) Option.none unit t true
    | _, _, _ => .error .dtype

/-- The calls `vector(**out)` and `linear_transform(**out)` (`dict.py` 183, `variable.py` 368-402, `spatial/__init__.py` 382-406). -/
def callStructured0 (swap : V → V) (t : DT) (kw : PyDict V) : Except Err (Var V) :=
  if kw.any (fun p => !["value", "unit"].contains p.1) then .error .dtype
  else
    match kw.lookup "value", kw.lookup "unit" with
    | some (.array shape v), some (.unit unit) => makeVariable swap [] shape (if t = .linear then swap v else v) Option.none unit t true
    | _, _ => .error .dtype

/-- The type given in a dict, if any (`dict.py` 174, `out.get('dtype', None)`). -/
def dtypeOf (d : PyDict V) : Option DT :=
  match d.lookup "dtype" with
  | some (.dtype t) => some t
  | _ => Option.none

/-- `_dict_to_variable` (`dict.py` 154-184). Types given by name (165-166) are not modelled. -/
def dictToVariable (swap : V → V) (d : PyDict V) : Except Err (Var V) :=
  let out := if d.has "values" && d.has "shape" then d.without ["shape"] else d
  match out.get "dims" with
  | .error e => .error e
  | .ok dims =>
    let t := dtypeOf out
    if t = some .vector3 ∨ t = some .linear then
      let kind := t.getD .vector3
      match dims with
      | .dims [] =>
        match out.get "values" with
        | .error e => .error e
        | .ok x => callStructured0 swap kind (PyDict.without (("value", x) :: out.without ["values", "dims"]) ["dtype", "variance", "variances"])
      | _ => callStructured swap kind (out.without ["dtype", "variance", "variances"])
    else callVariable swap out

/-- The dict of variables under a key (`dict.py` 196-199). -/
def dictToVariables (swap : V → V) (d : PyDict V) (key : String) : Except Err (List (String × Var V)) :=
  match d.lookup key with
  | Option.none => .ok []
  | some (.dict items) =>
    items.mapM fun p =>
      match p.2 with
      | .dict x =>
        match dictToVariable swap x with
        | .error e => .error e
        | .ok v => .ok (p.1, v)
      | _ => .error .dtype
  | some _ => .error .dtype

/-- `_dict_to_data_array` (`dict.py` 187-201). The name is not passed on. The constructor (`lib/python/dataset.cpp` 197-203) checks the dims of coords and masks (C35), which is not
repeated here. -/
def dictToDataArray (swap : V → V) (d : PyDict V) : Except Err (DataArray V) :=
  if !d.has "data" then .error .notFound
  else
    match dictToVariables swap d "coords" with
    | .error e => .error e
    | .ok coords =>
      match dictToVariables swap d "masks" with
      | .error e => .error e
      | .ok masks =>
        match dictToVariables swap d "attrs" with
        | .error e => .error e
        | .ok attrs =>
          match d.get "data" with
          | .ok (.dict x) =>
            match dictToVariable swap x with
            | .error e => .error e
            | .ok data => .ok ⟨data, coords, masks, attrs, ""⟩
          | .ok _ => .error .dtype
          | .error e => .error e

/-- `coords_to_skip` (`lib/dataset/dataset.cpp` 169-181): a coord the dataset has already must be equal unless the flags differ. `eq` is the comparison of variables. -/
def checkCoords (eq : Var V → Var V → Bool) (have_ new : List (String × Var V)) : Except Err Unit :=
  if new.all fun p =>
    match have_.lookup p.1 with
    | some x => x.aligned != p.2.aligned || eq p.2 x
    | Option.none => true
  then .ok () else .error .dataset

/-- `Dataset::setData(name, DataArray)` (`dataset.cpp` 189-209) for a name that is not in the dataset; the check of dims (C53) is not repeated here. -/
def setData (eq : Var V → Var V → Bool) (d : Dataset V) (name : String) (a : DataArray V) : Except Err (Dataset V) :=
  match checkCoords eq d.coords a.coords with
  | .error e => .error e
  | .ok () => .ok ⟨d.coords ++ a.coords.filter fun p => (d.coords.lookup p.1).isNone, d.items ++ [(name, ⟨a.data, a.masks, a.attrs⟩)]⟩

/-- The conversion of all items of a dataset (`dict.py` 149). -/
def dictToArrays (swap : V → V) (d : PyDict V) : Except Err (List (String × DataArray V)) :=
  d.mapM fun p =>
    match p.2 with
    | .dict x =>
      match dictToDataArray swap x with
      | .error e => .error e
      | .ok a => .ok (p.1, a)
    | _ => .error .dtype

/-- The dataset from its items (`dict.py` 148-150, `lib/python/dataset.cpp` 142-151). -/
def dictToDataset (swap : V → V) (eq : Var V → Var V → Bool) (d : PyDict V) : Except Err (Dataset V) :=
  match dictToArrays swap d with
  | .error e => .error e
  | .ok arrays => arrays.foldlM (fun ds p => setData eq ds p.1 p.2) ⟨[], []⟩

/-- `from_dict` (`dict.py` 137-151): the kind of object is guessed from the keys. -/
def fromDict (swap : V → V) (eq : Var V → Var V → Bool) (d : PyDict V) : Except Err (Thing V) :=
  if d.has "coords" && d.has "data" then
    match dictToDataArray swap d with
    | .error e => .error e
    | .ok a => .ok (.array a)
  else if d.all (fun p => ["dims", "values", "variances", "unit", "dtype", "shape", "aligned"].contains p.1) then
    match dictToVariable swap d with
    | .error e => .error e
    | .ok v => .ok (.variable v)
  else
    match dictToDataset swap eq d with
    | .error e => .error e
    | .ok x => .ok (.dataset x)

end Scipp.PyDictConvert
