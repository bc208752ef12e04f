# Formal model of the scipp C++ core: design

This directory holds a Lean 4 model of parts of `scipp/scipp` (the C++ sources
in `/repo/lib`), a list of semantic properties (`properties.jsonl`), and
machine-checked proofs of them (`lean/Verif`). `MANIFEST.json` maps every
property to the theorems that establish it. `seeded/LOG.jsonl` records how the
theorems were tested against wrong programs.

## 1. Trusted base

* **Lean's kernel** (4.33.0) and the three standard axioms `propext`,
  `Classical.choice`, `Quot.sound`. No other axiom, no `sorry`, no
  compiler-backed decision procedure. Every property theorem depends on at most
  those three.
* **Reading of the code.** Nothing was compiled or run. The tie between the
  model and the code is the citation at each definition (file and lines in
  `/repo`) and the reader who checks it.
* **C++ semantics assumed**: `std::vector`, `std::find`, `std::upper_bound`,
  `std::sort`, `std::unordered_map`, `std::clamp`, `std::min/max` behave as the
  standard says. `upper_bound` on unsorted input is modelled as a linear scan
  only where sortedness is a hypothesis.
* **Numbers**: `scipp::index` and integer dtypes are modelled by unbounded
  `Int`/`Nat` (no wrap-around at 2^63) unless a property is about precision.
  Floating point is modelled by exact arithmetic (an ordered field, or
  `Rat`/`Int`) unless stated; where rounding decides (linear-bin guess, integer
  division through `double`), rounding enters as a parameter with a stated
  bound. NaN is modelled explicitly where the code distinguishes it.
* **Threads**: tbb is modelled as "runs the given blocks in any interleaving of
  their element steps"; memory-model effects (torn writes, false sharing) are
  outside the model.

## 2. What is modelled

Layout of `lean/Verif/`:

* `Model/*`: definitions only, function by function, each citing file and lines.
* `Spec/*`: the vocabulary used to state properties (for example `Fits`, `Addr`,
  `RowMajor`), kept apart from the functions of the model.
* `Lemmas/*`: helper facts; nothing there is a claim about the code.
* `Props/*`: the property theorems `Cxx_...`, each with a concrete case.

Paths below are relative to `/repo/lib`; `core/x.h` stands for
`core/include/scipp/core/x.h` and so on.

| module | code |
|---|---|
| `Sizes` | `core/sizes.cpp`, `core/dimensions.cpp`, `core/slice.cpp`, `core/strides.cpp`, `core/rename.h`, parts of `core/except.cpp` |
| `View` | dims/strides/offset part of `variable/variable.cpp`, `variable/shape.cpp`, `core/strides.cpp` |
| `Index` | `common/index_composition.h`, `core/view_index.*`, `core/element_array_view.*` |
| `MultiIndex` | `core/multi_index.*` (dense and binned) and the loops of `variable/transform.h` using it |
| `Transform` | execution of `variable/transform.h` on dense variables, `core/parallel-tbb.h`, `core/parallel-fallback.h`, `overlap`/`memory_bounds` of `core/element_array_view.cpp` |
| `Accumulate` | decision logic and blocks of `variable/accumulate.h` |
| `Reduce` | `variable/reduction.cpp` (`reduce_dim`, `reduce_all`) on views |
| `Dict` | `core/dict.h` |
| `SubbinSizes` | `core/subbin_sizes.cpp`, `core/element/cumulative.h`, parts of `variable/bin_detail.cpp` |
| `BinIndex` | `core/histogram.h` (`get_bin`), `core/element/bin.h`, `core/element/bin_detail.h` |
| `MultiAxis` | `dataset/bin_detail.cpp`, `dataset/bin.cpp` (`TargetBinBuilder`) |
| `Binning` | `dataset/bin.cpp` (mappers), `core/element/map_to_bins.h`, `count_indices` |
| `Histogram` | `core/element/histogram.h`, `dataset/histogram.cpp`, `core/element/event_operations.h`, `pretend_bins_for_threading` of `dataset/bins.cpp` |
| `Rebin` | `core/element/rebin.h`, `variable/rebin.cpp` |
| `Cumulative` | `variable/cumulative.cpp`, `core/element/cumulative.h` |
| `Numeric` | `common/numeric.h` |
| `ValueAndVariance` | `core/value_and_variance.h` |
| `Variances` | the checks against broadcasting variances in `variable/transform.h` |
| `Unit` | `units/unit.cpp` |
| `Heap` | shared buffers, read-only flags, copies: `variable/variable.cpp`, `variable/variable.h`, `variable/element_array_model.h`, `variable/operations.cpp` |
| `InPlace` | order of checks and modifications: `variable/transform.h`, `templates/dataset_inplace.cpp.in`, `dataset/arithmetic.cpp`, `dataset/data_array.cpp`, `dataset/dataset.cpp`, `dataset/sized_dict.cpp` |
| `SizedDict` | `dataset/sized_dict.*`, `dataset/data_array.cpp`, `dataset/except.cpp` |
| `Dataset` | `dataset/dataset.*` as a container |
| `Equality` | `variable/variable.cpp` (`compare`), `variable/element_array_model.h`, `operator==` and `equals_nan` of `dataset/*` |
| `Arr` | arrays by named coordinates: what the operations of `lib/dataset` act on, justified by C03 to C12 |
| `Masks` | `dataset/dataset.cpp` (`union_or`), `dataset/variable_reduction.cpp`, `templates/dataset_reduction.cpp.in` |
| `Bins` | `variable/bin_array_model.h`, `variable/bin_array_variable.tcc`, `dataset/bins.cpp` (copy, concatenate, append) |
| `ConcatBins` | `dataset/bin.cpp` (`concat_bins`) |
| `Extract` | `dataset/extract.cpp`, `dataset/sort.cpp` |
| `GroupBy` | `dataset/groupby.cpp` |
| `Concat` | `variable/shape.cpp` (`concat`), `dataset/shape.cpp` (`concat`) |
| `LabelSlice` | `variable/slice.cpp`, `dataset/slice.cpp` |
| `FlattenEdges` | `dataset/shape.cpp` (`flatten`, `fold`) |
| `PyIndex` | `python/bind_slice_methods.h`, with the rules of the interpreter for slices |
| `ToUnit` | `variable/to_unit.cpp`, `core/element/to_unit.h` for integers and datetimes, with IEEE rounding |
| `Structure` | `variable/structure_array_variable.tcc`, `variable/structure_array_model.h`, `variable/variable_instantiate_linalg.cpp`, `zip` and `unzip` of `variable/util.cpp`, `get_matrix_elements` of `python/bind_data_access.h` |
| `Spatial` | `core/spatial_transforms.h`, `variable/inv.cpp`, products of spatial types in `variable/arithmetic.cpp`; Eigen's operators as documented, exact arithmetic |
| `Subspan` | `subspan_view.cpp`, `as_contiguous`, `issorted`, `allsorted` in `variable/util.cpp`, `variable/sort.cpp`; `std::sort` by its contract |
| `DimLabel` | units/dim.cpp: tables of labels, constructor of `Dim` as two atomic sections, `name`; threads as interleavings |
| `Numpy` | `lib/python/numpy.h` (`copy_array_into_view`, `copy_elements`, `copy_flattened`, `is_c_contiguous`, `memory_begin_end`, `memory_overlaps`), pointer and strides of `values` in `bind_data_access.h` |
| `Special` | element functions of `max`, `min`, `nanmax`, `nanmin`, `sum`, `nansum` and `isclose` on numbers with infinities and NaN (`core/element/comparison.h`, `arithmetic.h`), `normalize_impl`, `isclose` (`variable/comparison.cpp`); no rounding |
| `Model/Pow` | `lib/variable/pow.cpp` (all of it), the types of `element::pow`, `astype` for numbers |
| `Model/Counts` | `lib/dataset/counts.cpp` (all of it), `Unit::isCounts`, `Unit::isCountDensity` |
| `EventMasks` | `lib/variable/reduction.cpp` (binned data), `lib/dataset/variable_reduction.cpp` (binned data), `lib/dataset/mean.cpp` 16-23, `lib/dataset/variable_instantiate_bin_elements.cpp` 78-146, `create` in `bin_array_variable.tcc` |
| `TimeString` | `lib/core/string.cpp` `num_digits`, `put_time`, `to_string(duration)`, `to_iso_date`; `array_to_string.h` `array_to_string`. `gmtime` is a parameter assumed to be the Gregorian calendar (a verified instance shows the assumption is satisfiable); the six date fields stand for their `%FT%T` text; the Windows branch is not modelled. |
| `NanToNum` | `lib/python/unary.cpp` `bind_nan_to_num` (both overloads), `lib/variable/special_values.cpp` functions with output argument, element functions of `special_values.h`, on `Model/Heap`. One dtype, no binned data; reads see the state before the transform (identical views or no overlap, see C14). |
| `MakeBins` | `expect_valid_bin_indices` and the bound function `call_make_bins`; index arrays as row-major lists, `begin` and `end` of equal shape and of type int64. |
| `Midpoints` | `midpoints` of `lib/variable/math.cpp`, `midpoint` of `element/math.h` for integers with unsigned wrap-around and overflow as undefined behaviour, and for floating-point numbers without rounding but with overflow to infinity |
| `Construct` | `makeVariable` with `ArgParser`, the constructor of `ElementArrayModel`, and the constructor of `Variable` in Python (`build_dimensions`, `ensure_same_shape`, `make_element_array`) |
| `Model/Nested` | `lib/variable/variable.cpp` 52-86 (`check_nested_in_assign`, `operator=`): handles with the elements they refer to, arrays of handles; the recursion with a bound on the stack (running out is `ub`). Not modelled: the variants of the check for data arrays and datasets (`dataset_util.h` 24-72), flags, names of variables |
| `Model/ElementArray` | `lib/core/include/scipp/core/element_array.h` 15-162: size and pointer, each constructor and assignment statement by statement, uninitialised elements, undefined behaviour of reads and writes past the end. Not modelled: running out of memory, exceptions from copying an element, the build without TBB for a negative size |
| `BinMeta` | `TargetBinBuilder`, `axis_actions`, `add_metadata`, `extract_unbinned`, `drop_grouped_event_coords`, `hide_masked` (which masks), `bin`: dimensions and metadata |
| `BinTable` | `bin` end to end as far as events are concerned: `lib/dataset/bin.cpp` 34-49, 190-230, 305-392, 622-678, composing `MultiAxis`, `Binning` and `Histogram` (splitting of tables) |
| `DatasetOps` | `dataset/arithmetic.cpp` 85-122, `templates/dataset_binary.cpp.in`, `dataset/operations.cpp` 20-36, constructor of `Dataset` (`dataset.h` 62-88), `or_empty` |
| `Squeeze` | `DataArray::slice`, `squeeze` of data arrays |
| `DatasetSlice` | `Dataset::slice`, `squeeze` of datasets, `DataArray::as_const` |
| `Rename` | `DataArray::rename_dims`, `Dataset::rename_dims`, `transpose` of data arrays and datasets |
| `IndexWidth` | the kernels that update bin indices, with the integer types and conversions of C++, and the choice of the type for binned and dense data |
| `RebinVar` | `variable/rebin.cpp` 20-168, `dataset/rebin.cpp` 14-23 |
| `HistArray` | `dataset/histogram.cpp` 28-89, `buckets::histogram` (`dataset/bins.cpp` 322-363), `hide_masked` (`dataset/bins_util.h` 14-28) |
| `DropDim` | `dataset_operations_common.h` 12-81, `reduce_all_dims` (`variable/operations_common.h` 38-49), `rebin.cpp` 25-35, `histogram.cpp` 27-133, `dataset_reduction.cpp.in` |
| `ConcatSet` | `concat` of datasets and of data arrays with attrs and flags (`dataset/shape.cpp` 114-147), `setDataInit`, `setData` (`dataset.cpp` 169-227), `view_with_coords` (`data_array.cpp` 165-182) |
| `PyDType` | `scipp_dtype`, `cast_dtype_and_unit`, `common_dtype`, `parse_datetime_dtype` (`python/dtype.cpp`), `common_unit` (`python/unit.cpp`), `check_assignable` (`python/numpy.cpp`), `make_variable` and the constructor (`python/variable_init.cpp`), `astype` (`bind_operators.h` 94-107), assignment to `values` |
| `MixedArith` | lists of types and element operations of `+ - * / // %` and their versions in place (`core/element/arithmetic.h`), `time_point`, `true_divide`, `floor_divide`, `remainder` (`numeric.h` 55-79), with floating-point arithmetic left open |
| `SelfArith` | `correlated`, `make_factor` and the operators of `variable/arithmetic.cpp` 22-68 on units and on numbers with infinities and NaN, `pow` of `ValueAndVariance` for exponents 0 and 2 |
| `PySet` | setters of `values`, `variances`, `value`, `variance` (`lib/python/bind_data_access.h`), with the object afterwards also when they throw |
| `ReduceType` | types and units of `sum`, `mean`, `min`, `all`, … of dense variables and the accumulation of integers (`lib/variable/reduction.cpp`) |
| `BinsView` | dataset/bins_view.h (BinsCommon, BinsMapView, Bins), SizedDict::set/extract/operator== as used by it, bin_array_model.h element access |
| `PyDict` | python/bind_data_array.h (dict methods), python/view.h (keys), _binding.py (get, pop), on top of core::Dict |
| `GroupArray` | `lib/dataset/groupby.cpp` 31-212 (`makeReductionOutput`, `reduce_`, `GroupBy::mean`) for N-D data arrays with masks; coords, datasets and binned data left out |
| `VarianceFlags` | transform.h 64-246, 287-366, 408-431, 534-607; transform_common.h 62-128; flags of the element operations |
| `Model/GroupConcat` | `groupby_concat_bins` (`lib/dataset/bin.cpp` 542-581), `TargetBinBuilder::join`, `GroupBy::concat` (`lib/dataset/groupby.cpp` 109-125) |
| `Model/UnitFunctions` | element-wise functions together with their functions on units: `lib/units/unit.cpp` 131-221, `element/{math,arithmetic,trigonometry,hyperbolic,comparison,util,to_unit}.h`, `to_unit.cpp` for floating-point numbers |
| `Model/FloatBins` | `islinspace`, `linear_edge_params`, `get_bin` and `linspace` in the arithmetic of `double` (every operation rounded) |
| `BinnedTransform` | `transform.h` 150-193, 251-279, 395-431, 474-529, 600-683 for binned operands; creation of binned output (`variable_factory`, `bin_array_variable.tcc`, `dataset/bins.cpp`) |
| `PyOperators` | `lib/python/bind_operators.h` 138-401, `variable.cpp` 84-107, `dataset.cpp` 104-121, 280-289; overload resolution of pybind11 and Python's protocol for operators as assumed |
| `DictIter` | iterators of `core/dict.h` 46-145, 357-371 with the memory of the vectors (address, capacity) |
| `UnitDict` | `to_dict`, `from_dict` of `python/bind_units.cpp` 16-100 with the casts of pybind11; powers are wrapped to bit fields of given widths |
| `Spec/Naturality`, `Props/Naturality` | (no code of its own: relates executions of the models of `transform.h`, `reduction.cpp`, `variable.cpp`, `dimensions.cpp`) |
| `TransformCoords` | src/scipp/coords/graph.py, rule.py, coord_table.py, coord.py, transform_coords.py 181-304 (renaming of dims: C107) |
| `TransformDims` | src/scipp/coords/transform_coords.py 307-343, graph.py 44-47 |
| `AutoBins` | src/scipp/core/binning.py 290-365, 972-1000; np.linspace, np.arange, np.nextafter, np.unique as documented |
| `CombineBins` | src/scipp/core/bin_remapping.py 22-163, concepts.py 79-99 |
| `Domains` | src/scipp/core/domains.py 11-36 |
| `DataGroup` | src/scipp/core/data_group.py 60-321, 551-699, _cpp_wrapper_util.py 14-29; arrays are an arbitrary type with arbitrary operations |
| `NumpyReduce` | src/scipp/core/reduction.py 644-650, 897-962, concepts.py 19-99; NumPy reductions along several axes as documented, any function of the contributing elements |
| `LookupTable` | src/scipp/core/bins.py 38-62, 110-137 on top of the models of C26 (map, lookup_previous), C73 (midpoints) and C110 (merging); tables of one dim, and the dims of tables of several |
| `PyDictConvert` | src/scipp/compat/dict.py 23-201; constructors variable_init.cpp 217-309, spatial/__init__.py 382-437, core/variable.py 368-452 as far as arguments and layout matter; lib/dataset/dataset.cpp 169-209 for new names. Not modelled: conversion of element types and units, defaults of missing arguments, elements that are objects |
| `Hdf5` | src/scipp/io/hdf5.py 70-80, 118-193 as far as flags and shapes matter, 269-430, 459-533; lib/python/dataset.cpp 145-150. h5py visits members in the order of names. Not modelled: conversion of arrays of numbers and of units (C104), splitting of the buffer of bins, numbers and text as items, checks by constructors |
| `BinsLabel` | src/scipp/core/bins.py 209-262, src/scipp/core/binning.py 311-322, min and max of events (comparison.h 117-151). Binning with two edges and grouping by one value are taken from C24, C78, C100. Not modelled: bins with an existing dim of that name, units, `float32` |
| `MakeBinned` | src/scipp/core/binning.py 66-108, 158-212, 265-282, 368-384, 562-605, src/scipp/core/bin_remapping.py 139-155, add_metadata (bin.cpp 255-293), setting coords (sized_dict.cpp 221-243). What `_cpp.bin`, `combine_bins`, `bins.concat`, `_cpp.histogram` do to events is taken from C78, C109, C85. Not modelled: masks, attrs, units, order of events in a bin, keys with several dims, dense data, datasets |
| `DenseBin` | src/scipp/core/binning.py 91-99, 158-192, 213-250, 562-612, flatten of data arrays (lib/dataset/shape.cpp 179-301, simplified: coords with edges are dropped). The iteration order of the set of dims is a parameter. `_cpp.bin` as in `MakeBinned`. Not modelled: one-dimensional data, masks, attrs, units, order of events in a bin, keys with several dims, datasets |
| `Collapse` | src/scipp/utils/collapse_and_slices.py 9-110 for variables; NumPy's `meshgrid`/`reshape` by their documented order. Not modelled: coords and masks of data arrays and datasets, extents beyond 32 bits |
| `RebinDims` | the loop of `rebin` (src/scipp/core/binning.py 966-969), rebin of data arrays (lib/dataset/rebin.cpp 14-31) with masks and coords, rows by the kernel of C27. Not modelled: order of dims of the output, variances, units, types, memory layout (C84), data without bins |
| `AssertSame` | `assert_identical` (src/scipp/testing/assertions.py 73-236) for variables, data arrays, datasets; NumPy's `assert_array_equal` from its documentation. Not modelled: data groups, other objects, error messages, attrs of tables of events |
| `CurveFit` | `_curve_fit`, `_get_sigma`, `_datagroup_outputs`, `curve_fit` (src/scipp/curve_fit.py 48-109, 179-266, 502-549), `SizedDict::set` (lib/dataset/sized_dict.cpp 221-250) for the coords of the output. The solver of SciPy is any function. Not modelled: units, making of defaults and bounds (119-168), wrapping of the function to fit (24-45) |
| `NdFilter` | `_ndfilter`, `_delta_to_positional`, `_require_matching_dims`, `_positional_index`, `_make_footprint`, `_make_footprint_filter` (src/scipp/scipy/ndimage/__init__.py 31-90, 186-242). The filters of SciPy are any function of the values in the footprint. Not modelled: `gaussian_filter` apart from `sigma`, dtypes, values beyond the ends of the array |
| `Interp` | `interp1d` with `_drop_masked` and `_midpoints` (src/scipp/scipy/interpolate/__init__.py 42-51, 54-220), `wrap1d` with `_postprocess` (src/scipp/compat/wrapping.py 70-143). The interpolation of one row by SciPy is any function. Not modelled: datetimes, structured dtypes, failure of SciPy, deprecated attributes |
| `PandasTable` | `from_pandas_series`, `from_pandas_dataframe`, `parse_bracket_header` (src/scipp/compat/pandas_compat.py 27-84, 153-202). Text as list of characters, the regular expression as function. Not modelled: dtypes, what pandas does, parsing of units |
| `IsNear` | `isnear` (src/scipp/utils/comparison.py 65-88). Comparison of two variables as any function (see C66 for `isclose`) |
| `Xarray` | `_to_xarray_variable`, `_from_xarray_variable`, `_to_xarray_dataarray`, `_from_xarray_dataarray` (src/scipp/compat/xarray_compat.py 82-148). Assumed of Xarray: a coord gets an index if and only if it is one-dimensional along the dim of its name; `drop_indexes` raises for coords without index. Not modelled: datasets, other attributes, warnings |
| `Integrate` | `_integrate` with `trapezoid` in `wrap1d` (src/scipp/scipy/integrate/__init__.py 19-30; src/scipp/compat/wrapping.py 18-143). Rational numbers; SciPy's `trapezoid` by position as documented. Not modelled: `simpson`, broadcasting of coords with several dims but another shape |
| `CompactFormat` | `_round`, `_format_element_compact` (src/scipp/format/formatter.py 182-235). Rational numbers instead of `double`, square root as function, text as digits and number of decimals. Not modelled: joining of elements and unit |
| `FormatSpec` | `FormatSpec`, `parse` (src/scipp/format/_parse.py 22-92), `_element_ranges`, `_format_array_flat_regular` (src/scipp/format/formatter.py 102-130). Regular expression as functions for each part. Not modelled: text of elements, digits other than ASCII |
| `Ranges` | `_ensure_same_unit`, `_normalize_range_args`, `linspace`, `arange` (src/scipp/core/variable.py 528-637, 776-880). Rational numbers, units as kind and scale, rounding of integers in `to_unit` as any function. Not modelled: dates, dtype of the result, `geomspace`, `logspace` |
| `ConvertTo` | `src/scipp/core/operations.py` `to`; `lib/variable/to_unit.cpp` and `astype.cpp` (when they copy or convert) |
| `Assign` | `src/scipp/core/assignments.py` `_assign`, `argument_handlers.py` `combine_dict_args`; copies of dicts in `lib/dataset/data_array.cpp` |
| `Signal` | `src/scipp/scipy/signal/__init__.py` `butter`, `sosfiltfilt`; `wrapping.py` `wrap1d(keep_coords=True)` for one dim |
| `RenameMeta` | `src/scipp/core/dimensions.py` `_rename_data_array`, after `rename_dims` (`Rename`) |
| `FoldShape` | `src/scipp/core/shape.py` `fold` (size -1); check of volumes in `lib/core/dimensions.cpp` `fold` |
| `MergeGroup` | `src/scipp/core/operations.py` `_merge_data_group`; comparison of items is any function |
| `Like` | `zeros_like`, `ones_like`, `full_like` and `rewrap_output_data` (`like.py`, `concepts.py`) on a heap of buffers |
| `MatrixLayout` | `_to_eigen_layout`, `linear_transforms`, `affine_transforms`, `scalings_from_vectors` (`spatial/__init__.py`), offsets of matrix fields |

Simplifications are named in the comment of the definition concerned. The recurring ones:

* Sorting and searching of the standard library enter by contract (any function
  meeting it), not by an implementation.
* Operations of `lib/dataset` act on the content of variables (`Arr`, `Bins.Table`),
  not on strides; where sharing or layout decides, the `Heap`, `InPlace` and `View`
  models are used instead (C33, C34, C47, C48, C52, C55, C56).
* Element types are a type parameter. `NaN` is an explicit extra value where the
  code can tell the difference.

Not modelled: Python bindings, string formatting, HDF5/serialisation, dtype
dispatch (`visit`), Eigen structures, internals of the `units` library (a unit is
a multiplier and bounded exponents), performance, failing memory allocation,
and floating point rounding except where named (C18, C46, C50).

## 3. Plan per property

* **C01** model every operation as `Dims → Except Err Dims`; invariant `Nodup labels ∧ 0 ≤ extents`; induction over an arbitrary list of operations.
* **C02** model the two-pointer loop of `merge`; characterise success, membership, extents; sublist statements for both orders by induction on the first operand with the generalised iterator.
* **C03** views are `(dims, strides, offset)`; element address is a function of *named* coordinates; transposition leaves it unchanged.
* **C04** same address function; bounds via an inductive bound on addresses.
* **C05** equations between views.
* **C06** address equations, row-major recombination lemma; `flatten` both branches; the extent check of `fold` compares volumes, so with another extent zero a wrong fold is accepted: negation with witness plus `_partial`.
* **C07** address equation; readonly flag iff volume differs.
* **C08** induction over the renaming list.
* **C09** represent the iterator state by coordinates of the *merged* dims; show value of the memory index = strided offset of the row-major decomposition of the view index, for start positions and after each increment.
* **C10** induction over the shape.
* **C11** as C09 with several operands. The dimension-merging condition is wrong if all operands have stride 0 in the second-innermost dim: negation with witness plus `_partial` under the exact condition.
* **C12** elements steps as writes to distinct cells reading cells nobody writes; any permutation of steps commutes.
* **C13** simulate the bin iterator on a list of bin sizes.
* **C14** `memory_bounds` soundness; counterexample for stride zero.
* **C15** algebra: fold over chunks.
* **C16** refinement to an association function plus key order.
* **C17** denotation of offset+list as a function `Int → Int`; each op commutes with denotation.
* **C18** decision logic under sortedness.
* **C19** histogram as a sum over filtered events.
* **C20**–**C22** denotation of output buffer as concatenation of filtered event lists.
* **C23** induction over the list of axes.
* **C24** decision logic plus counterexample for the non-monotone list accepted by `isarange`.
* **C25** monotone edges argument.
* **C26** decision logic under sortedness.
* **C27**, **C28** over a linear ordered field; loop invariants for the two-pointer loop.
* **C29** induction.
* **C30** algebra over a field.
* **C31** decision logic on strides/dims: success implies address injectivity of the broadcast operand is not lost.
* **C32** units as exponent vectors with None.
* **C33**, **C52** heap model with buffers and views, induction over histories.
* **C34** in-place programs as sequences of fallible steps; strong guarantee for those with a complete dry run; negation with witness for those without.
* **C35**, **C36**, **C37**, **C53** coordinate dictionaries; invariant/decision table.
* **C38** reductions over filtered lists.
* **C39**, **C40**, **C41**, **C42** lists.
* **C43**, **C44**, **C45** lists/views.
* **C46** integers, with `double` rounding as a parameter for `floor_divide`.
* **C47**, **C48** lists of bins over a buffer.
* **C49** index arithmetic; counterexamples found by reading.
* **C50** decision logic; counterexample for `isarange`.
* **C51** arithmetic.
* **C54** decision logic.
* **C55** heap model: `setVariances` copies the buffer of the argument, not its elements; counterexamples for slices, broadcasts and transposed arguments, `_partial` for equal layout.
* **C56** imperative model of `Dataset op= Variable` with aliases: the item holding the operand is handled last; `_partial` for items that refer to different objects, counterexample otherwise.
* **C57** `reduce_dim` over the model of `transform_in_place`: every cell of the output is a fold over the updates it receives; the calls are known from C11 except for the pattern that `flatten_dims` merges wrongly, which users reach with broadcast inputs.
* **C58** the bindings composed with the model of `Variable::slice` and `extract_ranges`; the meaning of Python's own indexing is stated separately (`Spec/PyIndex.lean`) as a filter of positions.
* **C59** exact model of the `double` arithmetic (`roundDouble`): rounding is monotone and exact for 53 significant bits; error bounds for the factor and the result; counterexample from `2^52`.
* **C60** address arithmetic of views: the field at `c` is component `off` of the structure at `c`; frame statement for writes.
* **C61** case analysis over the types; polynomial identities for quaternions and cofactors (`ring`, `linear_combination`)
* **C62** the sum of ranges in `make_indices` is the address of the row by induction over the dims; rewriting of disjoint spans by induction over the rows
* **C63** state machine of threads, invariant over all schedules without two threads registering the same label; one thread and threads with separate labels as corollaries; race as a witness.
* **C64** the end iterator is shown to point one row after the last (`end_mem`), memory bounds to enclose the array; either both ranges are disjoint, the array is snapshotted, or (all strides zero or negative, first element only) what is written is what is there (`C64_assign_partial`). Variables in memory order are closed under slicing (`C64_slices_in_order`). Transposed variables, if the array refers to other memory: `C64_assign_foreign`.
* **C65** induction over `ReducedTo`, the relation of lists to results of any order of accumulation and combination; `C65_along_partial` links it to reductions of variables along a dim (C57).
* **C66** case analysis on special values; units via the model of C32.
* **C67** `Model/Pow.lean` follows the functions of `pow.cpp` with a store of variables, so that an argument can be the output and the discarded temporary is visible. `C67_pow`, `C67_type_partial`, `C67_succeeds` describe the new variable; `C67_out_partial`, `C67_only_output`, `C67_error_partial` the existing one. `std::pow` is a parameter, assumed correct for integral exponents.
* **C68** `Model/Counts.lean` follows the functions; a failing operation leaves the result of those before it, and datasets are buffers that the items share. By induction over the list of dims: `C68_density`, `C68_round_trip`; for one dim (what Python offers) `C68_round_trip_partial` also shows success. `C68_other_units`, `C68_dataset_partial`, `C68_dataset_only_items`.
* **C69** binned data by bin indices, event data and event masks of a one-dimensional buffer; `where` on bins is modelled with the re-packed buffer and both ways of carrying the masks. The specification is a filter of the rows of the bins. Fails for `mean` along a dim with a mask of bins.
* **C70** The digits printed with `setw`/`setfill` are read back by an independent reader (`readFrom`), the date fields by the calendar of `Spec/Calendar`; the sum is shown to be count times unit length. Valid dates are shown to be determined by their second (`seconds_inj`), hence the printed date is the calendar's. The array loop is evaluated for short lists and for `a :: b :: mid ++ [c, d]`.
* **C71** One replacement is characterised on the heap of shared buffers (`replaceInto_spec`: every element written once, all other buffers unchanged), then the statements of the bound functions are composed; the specification names, per element, the variable it has to come from (`sourceOf`).
* **C72** The check of neighbours after a lexicographic sort is shown equivalent to the pairwise condition (sortedness turns `Apart` into `a.end <= b.begin`, transitivity uses begin <= end); the filled in ends by induction over the begin indices.
* **C73** `C73_int` (arithmetic modulo 2^w cancels; no overflow), `C73_int_swapped_iff` (the result depends on the order of the arguments exactly if the mean is not an integer), `C73_float`, `C73_midpoints` (through the theorems on slices, C04), `C73_refused`, `C73_dim_deduced`, `C73_sorted`.
* **C74** `C74_order_partial` and `C74_content` for consistent arguments; `C74_wrong_order`: with an empty shape or empty labels the order decides between an error and a scalar; `C74_wrong_variances_length`: the number of variances is not checked. `C74_python`: the constructor for Python checks both, so that every variable made by it is well-formed.
* **C75** `C75_refused_iff` (refused exactly if the element is visible from the right-hand side), `C75_refused` (what is refused would make a cycle), `C75_programs` (invariant by induction over programs, with slices: no element reaches itself), `C75_check_ends` (well-founded recursion: the check terminates after any program), `C75_assign_partial`, `C75_programs_partial` (no cycle of arrays keeping one another alive as long as there are no slices), and `C75_wrong_slice`.
* **C76** `C76_content_partial`: refinement, by induction over programs, of the array to an optional list (specification `listsStep`), with absence of undefined behaviour. `C76_wrong_copy_assign`, `C76_wrong_self_move`, `C76_wrong_minus_one`: the operations excepted.
* **C77** `bin` as a function of dimensions and dictionaries. Proved: dimensions of the result for binned data and tables, exact content of coords, masks and attrs, all fit; each mask is kept or applied unless it depends on the dimension of the events (partial). The events themselves are in C20, C22, C23.
* **C78** Composition of C18, C23, C24 (index of one event), C25 (restriction to relevant bins), C20 and C22 (moving of events), C51 (splitting of tables). The index is linked to positions of the output by Horner's rule over the list of axes; `Belongs` in the specification is a `Forall₂` over axes and positions and does not refer to indices. The search for relevant bins is covered for one rebinned dimension that comes first (`C78_rebin`); the other cases are wrong in the code, see C25.
* **C79** The loop `setDataInit(name, op(a[name], b[name]))` is proved by induction over the common names, with the invariant that all results have the same coords: every item of a dataset sees the same coords (the filter of `view_with_coords` depends on the dims of the dataset only), so `union_` yields the same list for each. `C79_datasets` (result), `C79_datasets_iff`, `C79_datasets_error` (first error), `C79_coords_partial`, `C79_conflict_partial`, `C79_dataset_array`, `C79_array_dataset`, `C79_dataset_var`, `C79_var_dataset`, `C79_arrays`, `C79_array_var`; `C79_merge_partial`, `C79_merge_items`, `C79_merge_conflict`. The operation on the data is a parameter with the dims of both operands; masks are combined by a parameter (C37).
* **C80** C80 (`Props/Squeeze`): induction over the dims to be removed. For one dim C04 (point slices), C44 (coords of slices) are used; an invariant expresses the alignment after all steps by the dims before the first (`LabelsSqueezed`), which also shows that the order does not matter.
* **C81** C81 (`Props/DatasetSlice`): the loop that rebuilds the dataset is shown to insert every item unchanged (`addAll_new`), which characterises successful slices (`dset_slice_ok`); then the coords an item gets before and after slicing are compared name by name. `C80_dataset` (`Props/DatasetSqueeze`) reduces squeezing a dataset to squeezing data arrays.
* **C82** `C82_array`, `C82_dataset`: exact acceptance condition and exact result (`relabeled`), by induction over the pairs: what renaming the dims of the data does (`rename_strict`) also holds for entries that have only some of the dims, or others, as long as labels do not clash (`rename_entry`). `C82_array_back`: the swapped pairs in reverse order undo it. `C82_item` links dataset and items, including which coords the items see. `C82_transpose_*` builds on C03; for datasets on the loop lemma of C79.
* **C83** `C83_exact`: invariant over the actions: the index is -1 or less than the product of the extents so far, so if the type can represent the product of all extents nothing is lost (extents positive). `C83_binned`: the type chosen by `TargetBins` can. `C83_dense_partial`: for dense data the type is chosen from the number of events instead, which is enough only if there are at most 2^31 - 1 output bins or more events than that.
* **C84** `C84_values_partial`: each row of the result is the rebinned row of the specification (share of each old bin that lies in the new bin), for both branches. `C84_variances_partial`: the same for variances of contiguous rows. `C84_layout_partial`: the values do not depend on the layout. `C84_masked_partial`: masked elements count as zero. Proved from C28 (both kernels on one row) and C62 (rows of a strided array). Not modelled: floating point, the parallel loop over rows. The theorems ask for edges without a stride trick, sorted in one direction. `C84_variances_outer`: variances when rebinning an outer dimension.
* **C85** `C85_dense_partial`, `C85_binned`: the result of the loop over rows equals the sum of weights in each bin of the specification (`weightWhere`, `InBin`). Proved from C19 (the kernel for one row), C62 (rows of a strided array) and C69 (masks of events). Not modelled: floating point, the parallel loop over rows, the coords of the result.
* **C86** `C86_kept`, `C86_succeeds_iff`, `C86_succeeds`: what the result has and when the operation succeeds, with the computation of the data as a parameter. `C86_all_dims`: induction over the dims. `C86_rebin`, `C86_histogram_partial`: with the new edges. `C86_dataset_partial`: the loop over items. Not modelled: names, the values.
* **C87** `C87_succeeds`, `C87_items`, `C87_coord_names`: invariant of the loop over items; the coords of all items are concatenated to the same coords since they depend on the sizes only. `C87_parts_partial`: contents, from C43. `C87_no_items_partial`: without common items. Not modelled: names of data arrays, readonly flags, datasets with an invalid default state among the inputs.
* **C88** `C88_datetimes`, `C88_integers`, `C88_dtype`: success and result characterised exactly (iff) by case analysis against a separate specification of the unit asked for. `C88_instants_partial`: with C59, finer units are exact. `C88_astype`, `C88_set`: iff. Not modelled: classes of Python that give a dtype other than through NumPy, objects with a buffer that are not of NumPy, elements other than datetimes, the table of units (assumed: all entries are units of time).
* **C89** `C89_dtype`, `C89_integers`, `C89_floats`, `C89_commutes`, `C89_datetimes`, `C89_datetimes_only`: for all values by cases on the types. `C89_in_place`: equivalence with the result out of place and a separate description of conversions. `C89_in_place_types_partial`: which pairs exist, except floor division of integers of different sizes. Not modelled: vectors and transformations (C61), variances (C30), units (C32). `C89_floor_division`, `C89_integer_remainder_partial`, `C89_integer_remainder_defined`: division of integers below `2^53` is exact, from the rounding lemmas of C46.
* **C90** `C90_value_partial`, `C90_variance_partial`, `C90_unit_partial`: for all values and units by cases. Not modelled: rounding, signed zeros, the detection of the same variable beyond its being given.
* **C91** `C91_values`, `C91_variances` by induction over the elements copied, for all views derived from a buffer; `C91_values_when`, `C91_variances_when`, `C91_remove` by cases; `C91_scalar` reduces scalars to arrays. `C91_atomic_partial` for what is atomic. Not modelled: conversion by NumPy (arbitrary, may fail), structured dtypes (C60), memory shared with the source (C64).
* **C92** `C92_type`, `C92_mean_partial` by cases over reductions and types; `C92_all_dims_partial` by induction over the dims; `C92_sum_exact`, `C92_sum_partial`, `C92_sum_bool`, `C92_mean_of_integers` by induction over all ways to combine partial sums. Not modelled: vectors, binned data (C69), values of floating-point sums (C65). `C92_work_type`: type of the accumulator.
* **C93** Heap of event tables, variables refer to a table by address, so sharing is explicit. Contents of a bin are specified by position (`Holds`), `C93_get`/`C93_data` relate reading to it; `C93_set_when` and `C93_set_data` decide when setting works, `C93_set_get`, `C93_set_others`, `C93_pop` are get/set laws, `C93_set_shared` gives what other variables over the table see. 1-D tables only; units, dtypes and alignment flags are left out.
* **C94** Refinement: `Has` relates the two parallel vectors of `core::Dict` (model of C16) to an association list in order of insertion, every method preserves it and returns what `pyStep` (Python's `dict` after the language reference) returns; induction over the sequence of calls. `update` builds a Python dict first; that this gives the same as assigning one pair after another, also for repeated keys, is `pd_update`. The check of dims is a parameter (C35). `setdefault` does not exist in scipp.
* **C95** Arrays by coordinates; induction over the slices of a group; masks through the union of masks (C38); groups from C39's model are shown to be acceptable; conservation by permutation of positions.
* **C96** The flags are a structure; `collect`, `finish`, `transform`, `collectInPlace`, `finishInPlace`, `transformInPlace`, `assignUnary` follow the templates with data per position. Success is characterised by an iff (`C96_transform_iff`, `C96_in_place_iff`), results elementwise (`C96_transform`, `C96_in_place`), and the flags of the operations in the library are a table (`C96_operations`, `C96_in_place_operations`). `C96_strides` covers `dispatch_inner_loop`.
* **C97** Props/Routes.lean over the models of C19, C27 and C78: each route is reduced to the sum of the weights of the events in the bin; for rebin the new bins are unions of old bins, so the overlap fractions are 0 or 1, and overlaps with adjacent bins telescope.
* **C98** `concatContents` runs the model of `TargetBinBuilder::build` including offset tracking of existing dimensions (`buildLoop` of C78), the mapper and the copy of C20/C22. `C98_contents` characterises every output bin for any grid of input bins by induction over nested rows (monotone offsets for C20) and over the axes; `C98_conservation` follows from uniqueness of the bin. `C98_groupby_partial`/`C98_groupby_bins` link to C39/C40. Metadata: `C98_key`, `C98_reduced`, `C98_dims`, `C98_coords`, `C98_masks`, `C98_attrs`, `C98_hidden`, `C98_masks_kept_or_applied` are full characterisations of successful calls. Not modelled: values of the edges of joined bins, threads, conversion of dtypes and units of the key, datasets.
* **C99** An element is a real value with optional variance and a unit (multiplier, exponents). `Same` compares value times multiplier and variance times its square. `C99_unary_partial` and `C99_binary_partial` prove every function equivariant under change of multiplier, `C99_calculation_partial` extends this to all expressions by induction; `C99_comparison`, `C99_isclose`, `C99_to_unit_partial`, `C99_factor_accuracy`, `C99_trig`, `C99_trig_fails`, `C99_accepted`, `C99_accepted_binary`. The transcendental functions are arbitrary. Not modelled: rounding, NaN, integers (C46, C59, C67, C89), vectors (C61), order of errors.
* **C100** Every operation on `double` is an exact operation on rationals followed by `roundDouble` (53 bits, ties to even, unlimited exponents). Error analysis: the computed position is within 5 relative rounding errors of the exact one, and steps accepted by `islinspace` are within `2^-49 (|a| + |b|)` of the mean and, for wide enough bins, positive; thus the guess is at most one bin off, which `get_bin` corrects (C18): `C100_bins_partial`, `C100_histogram`, `C100_part` (parts of the edges, C25, C78), `C100_nearly_even`, `C100_integers`; `C100_linspace`, `C100_linspace_accepted`, `C100_linspace_bins`. Not modelled: overflow and underflow, `float`, fused multiply-add, edges that are NaN.
* **C101** The parameters handed to the index with bins (C13) are constructed as the code does, and the calls of every block of bins are computed with `C13_block_partial`; with stride 0 in the output the serial iteration is `C13_serial_partial`. The cells written are pairwise different (bins of the new buffer are adjacent; bins of the output in place are required to be disjoint), so every interleaving has the same effect. `C101_metadata` follows the rows of the table, `C101_refused`, `C101_succeeds`, `C101_in_place_refused` and `C101_in_place_succeeds` settle errors. Partial: event buffers with one dim; in place, operands sharing memory must be the same bins or be found by the check for overlap.
* **C102** The overloads of every method are lists in the order of definition, and pybind11's two passes (without and with implicit conversions) and Python's protocol for binary, reflected, comparison and in-place operators are functions. `C102_calls_partial`, `C102_in_place_modified`: whatever is called gets operands that stand for a and b. `C102_arithmetic_partial`, `C102_comparison_partial`, `C102_either_order_partial`, `C102_in_place_partial`: exactly which combinations are available, for integers of 64 bits. `C102_other`: anything else is refused. pybind11 and Python are external: their rules are part of the model and trusted.
* **C103** Vectors have an address and a capacity; insertions carry the addresses that the allocator returns. Invariant over all operations: keys and values have the same number of elements and capacity, and the keys are at the address of the beginning only if the values are. By induction over the loop: every item visited is the item at this position at this time. `C103_size_change_noticed`, `C103_assignments` are the two sides of the claim; `C103_contents` ties the operations to the dict of C16. Partial: the code notices only changes of the size or of the address; addresses are assumed not to be reused for the keys.
* **C104** Lookups in the dict built by `to_dict` are computed from the names being pairwise different; powers in the range of their bit fields are unchanged by the conversion. `C104_distinct` follows. Widths of the bit fields are a parameter (the units library is not part of the repository). Partial: `from_dict` for powers in the range only.
* **C105** The theorems take two arbitrary executions (any schedule) of the transform or reduction models of C12 and C57, one on the operands and one on the rearranged operands, and compare their results at every named position. `C105_slice_partial` (elements and dims; the order of dims only for ranges), `C105_transpose`, `C105_broadcast`, `C105_rename` for elementwise operations on any number of operands; `C105_reduce_slice_partial`, `C105_reduce_transpose_partial`, `C105_reduce_parts_partial`, `C105_reduce_order_partial`, `C105_reduce_linear_partial` for reductions of data not broadcast along the reduced dim. The last three need an associative and commutative operation with a neutral element: floating-point sums only satisfy that up to rounding. **The claim fails** in two ways: `C105_wrong_dim_order` (slicing out a point first can change the order of the dims of the result, because the order of merged dims depends on shared dims), `C105_wrong_for_broadcast` (a broadcast variable and its copy have different sums).
* **C106** `Graph.graphForLoop` models the stack loop of `graph_for` (with a bound on rounds that is proved sufficient), `ruleSequence` the order of rules for an arbitrary topological order of nodes, `totalUsages` the usage counts after the keep options, `Table.consume` the taking away of data at the last use, `callRule`/`addOutputs`/`store` the evaluation. The specification is the set of equations of the rules (`Rule.Holds`, `Graph.Meaning`) with no counts and no order. `C106_graph` and `C106_target_order` describe the search, `C106_transform_partial` says the result is `ok r` iff the equations have a solution of which `r` is made (`ResultIs`), by an invariant of the table that relates counts to what was consumed; `C106_order_partial`, `C106_targets_partial`, `C106_unique` follow. Partial: aliases with several names of a coord that is dropped (witness).
* **C107** `colorLoop` models the depth-first loop with exact fractions, `nameChanges` the choice for a given topological order. `C107_ends` proves termination by induction over the topological order, `C107_names` the general facts from an invariant (nonzero colors only below the dim, dim-coords keep their color). For graphs in which what is computed from a dim-coord is a tree, `C107_tree_partial` shows by an invariant of visited and pending nodes that full color means a chain of single children, hence the documented name. Below cycles the documented rules fail (witnesses).
* **C108** `getCoord`, `bounds`, and the functions of edges follow the Python code, with every operation on `double` rounded. `bounds_spec` shows that start and stop enclose all values; a list of edges that starts at or below a value and ends above it has a bin that contains the value. `C108_dataset_range` says which range is found for datasets. The loop of `makeGroups` is treated with an invariant: what was found is a sorted part of the values, and if it is as large as the range it is everything.
* **C109** Positions are index functions enumerated in memory order; `positions_append` splits the enumeration into kept and erased dims, `withSizes_content` shows that consecutive ranges give back concatenated lists, `positions_select` that removing masked rows visits exactly the unmasked positions. `make_binned` on begin and end is taken as specified by C24/C78 (stable selection per pseudo bin). `C109_concat` is complete; `C109_group_partial` excludes masks for one dim, for which the coordinate no longer fits.
* **C110** Induction over the bins: with equal neighbors the merged histogram of the remaining bins is extended to the left, otherwise a bin is put in front.
* **C111** Mutual structural induction over items and lists of items: the result of an operation is related to the input array by array. Sizes by an invariant of the dict of sets of sizes. Item-wise operations by induction over the derivation.
* **C112** The elements with given remaining indices are those over the reduced dims (induction over the dims, positions against names); the union of the masks by induction over the list of masks; sums over one dim after the other by induction over the dims with a permutation of the coordinates.
* **C113** Removal of a point that repeats the value of its predecessor keeps the value at the last point not after x (induction over the points); histograms by C110 and C26; for the nearest point the midpoints of C73 are in order, and x lies between the two around a point iff no other point is nearer.
* **C114** Dicts are association lists with the keys the code uses; the round trip is computed for each type, then by induction over coords, masks, attributes and items; for datasets the coords of the first item are the coords of the dataset, later items do not add any.
* **C115** Names of members are computed with their decimal digits and compared as lists of characters; for indices below 1000 the order of names is that of the indices whatever the names are. Round trip by mutual induction over things and items of groups, with members indexed from any start.
* **C116** Values are options (NaN) over a linear order; the bounds found by reductions are below and above all events, then the filters agree on all events. For `double` the upper bound is the next number if adding one changes the number (C108).
* **C117** Every step moves each event by itself, so a sequence of steps is one move by all keys (`moved_moved`), and the contents follow from the position of each event. Coords are followed through each step as a set of pairs.
* **C118** Grouping the flattened data by indices gives every element the position along the other dims (`flatten_moved`); binning this is a step as in C117 (`step_contents`, `step_step_distinct`). Coords are followed through the steps as sets of pairs (`prepare_spec`).
* **C119** The grid of indices lists every tuple once (`grid_mem`, `grid_nodup`); a chain of point slices fixes the coordinates (`walk_ok`, induction over the dims); texts of different tuples differ because digits contain no separator (`text_inj`), so every dict assignment appends (`loop_ok`).
* **C120** One step is a weighted sum along a dim (`step`, from C27); steps compose to a sum over all dims (`rebinnedAt_cons`, induction over the dims), masks dropped by earlier steps are accounted for in the elements (`Masked_cons`). Sums are exchanged for the order (`total_perm`) and for conservation (`total_shares`).
* **C121** Dicts of sizes and of variables are compared without regard to order (`sizesEq_iff`, `mappingEq_iff`); with labels in the same order a permutation is equality (`eq_of_perm_labels`). Then by cases over the kinds of objects; for dense variables the accepted pairs are characterised exactly.
* **C122** The recursion over dims is one loop over the positions of the output (`run_eq`, induction over the dims, any number of slices equal to one replacement of indices `merge_place`); the position in the list is that in memory (`positions_get`); one fit is unfolded to the points of the slice (`leaf_ok`).
* **C123** Positions of the footprint as functions of labels (`filter_window`): all positions of a shape, each once, by induction over the shape. Steps of the coord by field arithmetic; in double by evaluation of a witness.
* **C124** The composition of dropping masked points and reading rows is one selection of indices (`interp1d_eq`); the selection is characterised by the masks (`C124_used`); metadata and errors by case analysis.
* **C125** Dict of columns as fold with invariant (distinct names), `pop` of columns as permutation by induction, headers by splitting at the first opening bracket (`matchHeader_append`, `matchHeader_some`).
* **C126** Induction over coords; names correspond one to one because both lists are distinct and have the same length (`List.subperm_of_subset`).
* **C127** Success of the conversion and its result by induction over coords (`toCoords_ok`, `toArr_eq`), the set of indexes by filters on distinct names.
* **C128** Position along `axis` and labelled position are related by induction over dims (`insertIdx_position`); areas by induction over points.
* **C129** Bounds of the uncertainty relative to the last digit from the logarithm and the rounding to even (`precision_bounds`), error of scaled rounding (`scaled_err`), cases of positive and negative precision.
* **C130** Parts of the text are split off one after the other, in both directions (`takeNested_ok`, `takeLength_text`); slices of Python by arithmetic.
* **C131** Conversion keeps quantities (`toUnit_exact`), the number of values by the ceiling function, cases of arguments. Arguments left out in `C131_defaults`.
* **C132** `C132_requested`, `C132_copy`, `C132_once`, `C132_widest_partial`, `C132_rejects`: case analysis over requests and over the chain, the order being given by a rank of dtypes; conversions of values are any functions. Partial: for binned data `var.dtype` is that of the bins, so the order ignores the elements (`C132_wrong_binned`).
* **C133** `C133_original` (frame over a heap of dicts), `C133_assigned`, `C133_succeeds`, `C133_rejects`: induction over the entries to be set, the invariant being that names still to be set have the value of the input. Data sets without items, which take sizes from what is set, are not modelled.
* **C134** `C134_frequency_partial` (from distances with lost sign to equal distances, by induction with a bound on their sum), `C134_accepts`, `C134_rejects`, `C134_applied`, `C134_variable`, `C134_size`; SciPy's design and application are any functions, arithmetic is exact. Partial: integers (`C134_wrong_integer`, `C134_wrong_coord`).
* **C135** `C135_renamed_partial`: induction over the dict, one step being a permutation of the list with one name replaced; `C135_rejects`. Partial: new names must not be used anywhere, neither as old names nor by coords of events, as three witnesses show.
* **C136** `C136_sizes_partial`, `C136_succeeds`, `C136_unique`, `C136_rejects`: the list is split at -1, products and exact division of integers. Partial: volumes of all dims are compared, so with another dim of length zero any sizes are accepted (`C136_wrong_empty`).
* **C137** `C137_union`, `C137_succeeds` by induction over the items of the second group, `C137_commutes` and `C137_self_partial` from these. Partial: an item with NaN is not identical to itself, so merging with itself fails (`C137_wrong_nan`).
* **C138** Model `Like`: a heap of buffers, new variables and copies of masks are appended. Contents by induction over the masks; isolation from the fact that all buffers of data and masks of the result are new, by induction over the writes. Not modelled: attributes, the name (dropped by the code), variances of masks, `empty_like` (contents unspecified), dtypes for which no such variable can be made.
* **C139** Model `MatrixLayout`: arrays as lists of lists of rows, transposed and flattened into the buffer; the column-major position `e·n² + j·n + i` is read back. Proved for every n by induction over flattening of lists of equal length; scalings from that with the offsets of the diagonal fields. Not modelled: several dims of the array (the same buffer order), arrays of other shapes (rejected or misread by NumPy), units.

## 4. Disagreements between code and properties

Reading and proving turned up inputs for which the code does not do what the
property says. Each is a theorem about the model with a concrete witness; the
property itself is then proved under the condition named, in a theorem with
the suffix `_partial`.

| property | what happens | witness |
|---|---|---|
| C06 | `fold` compares total volumes: if another extent is 0, wrong extents are accepted | `C06_fold_extent_not_checked` |
| C09 | a view with more than six dims that cannot be merged writes past the arrays of `ViewIndex` | `C09_seven_dims_undefined` |
| C11 | `flatten_dims` merges the second-innermost dim if all operands have stride 0 in it: elements outside the buffer | `C11_wrong_when_all_broadcast` |
| C13 | a buffer with another dim of extent 0: the operation is called although there are no events | `C13_wrong_for_empty_buffer_dim` |
| C13 | a scalar binned variable whose buffer has six dims reads strides beyond the array of `MultiIndex` | `C13_wrong_for_scalar` |
| C14 | `x += broadcast(x[0])` is not seen as overlapping: `memory_bounds` is empty if all strides are 0 | `C14_wrong_for_broadcast_element` |
| C17 | `exclusive_scan` reads at a negative index if the argument begins before the accumulant; trimmed counts are lost | `C17_exclusive_scan_negative_index`, `C17_scan_list_loses_trimmed` |
| C18 | `get_bin` corrects a guess by one bin only | `C18_two_off_wrong` |
| C19 | unsorted integer edges `0, 1, 0, 1` are accepted | `C19_unsorted_accepted` |
| C20 | order of events from different input bins depends on the extents; 2-D edges that move backwards read out of bounds | `C20_order_of_input_bins`, `C20_unaligned_edges` |
| C24 | duplicate labels `0, 1, 0, 1, 2` are accepted, events with other labels get a group | `C24_duplicates_accepted` |
| C25 | grouping, then binning along an existing dim with sorted edges: wrong bin; two scalar coords: wrong bin; empty input bin and repeated output edges: negative number of bins | `C25_wrong_after_group`, `C25_wrong_for_two_scalars`, `C25_negative_size` |
| C26 | lookup of NaN in mode `previous` gives the last value, not the fill value | `C26_lookup_nan` |
| C27, C28 | repeated edges: 0/0, and the two algorithms differ; NaN leaks into the neighbouring bin; no bins: out of bounds | `C27_wrong_for_repeated_edges`, `C28_wrong_for_nan`, `C28_wrong_without_bins` |
| C31 | a stride of 0 in a dim of length 1 is rejected though harmless | `C31_stricter_than_needed` |
| C32 | powers are reduced to 32 bits: `m^(2^32)` is one | `C32_wrong_for_large_powers` |
| C34 | in-place operations that throw after having modified masks or items | `C34_wrong_for_data_array`, `_masks`, `_dataset_masks`, `_aliases`, `_bins`, `_set_slice_variable`, `_set_slice` |
| C35 | enlarging sizes, and renaming unknown dims, can make an edge coord unfit | `C35_wrong_for_set_sizes`, `C35_wrong_for_rename_unknown` |
| C38 | the maximum of `-inf` only is `lowest`; `mean` can change the order of dims | `C38_wrong_for_minus_infinity`, `C38_fully_masked`, `C38_mean_reorders_dims` |
| C39 | NaN of different sign form several groups | `C39_wrong_for_nan` |
| C41 | NaN first in descending order; datasets: the length of the key is not checked, so slices are lost or read out of bounds | `C41_descending_nan_first`, `C41_dataset_out_of_bounds`, `C41_dataset_loses_slices` |
| C42, C47 | a NaN in a coord not depending on the dim makes boolean indexing, sorting and copying of bins fail | `C42_wrong_for_nan`, `C47_wrong_for_nan` |
| C43 | matching edges without bins cannot be joined; a coord depending on the dim in the first input only ends up at wrong positions; the unit of an empty first input is ignored; datasets without items of which the first is empty along the dim are refused, and their other extents are not compared | `C43_wrong_for_empty_edges`, `C43_wrong_for_scalar_coord`, `C43_unit_of_empty_input`, `C43_wrong_sizes_empty_first`, `C43_wrong_sizes_not_compared` |
| C45 | an empty interval inside a bin selects the bin; NaN labels; constant coords and empty data throw | `C45_wrong_for_empty_interval`, `C45_wrong_for_nan`, `C45_throws_for_constant`, `C45_throws_for_reversed_interval` |
| C46 | `floor_divide` of 64-bit integers goes through `double` | `C46_wrong_beyond_2_53` |
| C48 | `append` to a transposed variable permutes its bins | `C48_append_wrong_for_transposed` |
| C49 | flattening edges that are not along the innermost dim, or coords with further dims, gives wrong edges; data without rows throws | `C49_wrong_for_outer_edge`, `C49_wrong_for_other_dims`, `C49_drops_for_other_dims`, `C49_throws_for_empty`, `C49_drops_nan` |
| C50 | `isarange` and `islinspace` accept zigzags of integers | `C50_isarange_accepts_zigzag`, `C50_islinspace_accepts_zigzag` |
| C53 | an aligned coord does not replace an unaligned one of other values; items lose two-edge coords; default-constructed datasets are not checked | `C53_wrong_for_unaligned`, `C53_item_loses_edges`, `C53_wrong_for_default` |
| C54 | `a == a` is false with NaN (documented behaviour, kept as a remark) | `C54_wrong_for_nan` |
| C55 | `setVariances` copies the argument's buffer, not its elements | `C55_wrong_for_slice`, `_broadcast`, `_transposed` |
| C56 | `Dataset op= Variable` skips items sharing the buffer of the operand | `C56_wrong_for_shared_buffer` |
| C57 | `sum` along a broadcast dim that is second-innermost of at least three: wrong values, out of bounds | `C57_wrong_for_broadcast` |
| C59 | `round` of an integer adds 0.5 in `double`: datetimes and integers from `2^52` are changed (1700000000000001 µs becomes 1700000000000001024 ns); ties can be rounded towards zero | `C59_wrong_for_large`, `C59_tie` |
| C61 | `affine * linear` is not the composition: there is no operator for the pair in `spatial_transforms.h`, Eigen's takes the columns of the matrix as points | `C61_wrong_affine_linear` |
| C61 | quaternions that are not normalized (allowed by the comment in `Quaternion::inverse`): `q * (inv(q) * v)` is not `v` | `C61_wrong_unnormalized` |
| C61 | a linear transformation with a unit: `m * (t * v)` works, `(m * t) * v` raises | `C61_wrong_linear_unit` |
| C62 | `sort(var, dim)` raises unless `dim` is the inner dim (or all dims inside have length one), although `as_contiguous` exists | `C62_sort_refused` |
| C62 | `sort(var, dim)` calls `std::sort` with `<` of floating-point numbers, which is not a strict weak ordering if there is a NaN (undefined behaviour); sorting by a key avoids this | `C62_wrong_nan` |
| C63 | two threads construct `Dim("a")` for the first time: the label is not looked up again under the exclusive lock, the two dims differ, and the next new label gets the id of the second | C63_wrong_with_race |
| C64 | the end iterator of a transposed view (also of every matrix) is not past its last element, so that overlapping arrays are not detected and elements are read after they have been overwritten | `C64_wrong_for_transposed` |
| C65 | `max` of negative infinities is the lowest finite number, `min` of positive infinities the largest | `C65_wrong_for_infinity` |
| C65 | `nansum` forgets infinities of opposite signs: the result depends on the order | `C65_wrong_for_nansum` |
| C65 | `nansum` of a scalar NaN is NaN | `C65_wrong_for_scalar` |
| C66 | everything but NaN is close to an infinite second argument, also infinity of the other sign | `C66_wrong_for_infinity` |
| C67 | `x **= y` for integer `x` and floating-point `y` succeeds and does nothing (the power is computed in a temporary) | `C67_wrong_for_integers`, `C67_wrong_integer_example` |
| C67 | `pow(base, exponent, out=exponent)` computes base to the power of base | `C67_wrong_for_exponent` |
| C67 | `x **= 0.5` for `x` with a unit fails after replacing the elements, and the unit is lost; for 32 bit integers with a unit the unit is lost | `C67_wrong_after_error`, `C67_wrong_for_int32` |
| C67 | float32 base and float64 exponent give float64 without a unit and float32 with a unit | `C67_wrong_type` |
| C68 | `counts_to_density` and `density_to_counts` of a dataset change the dataset passed in, also if they fail for a later item | `C68_wrong_for_dataset`, `C68_wrong_after_error` |
| C68 | with a coord in counts, or coords with units that cancel, a density is not converted back | `C68_wrong_for_counts`, `C68_wrong_for_cancelling` |
| C69 | `mean`/`nanmean` of binned data along a dim with a mask of bins depending on that dim: always an error for `bin<DataArray>`; for `bin<Variable>` an error unless all bins are empty, then 0 instead of NaN | `C69_wrong_for_mean`, `C69_wrong_for_empty` |
| C70 | Time points with fractional seconds before 1970: duration_cast truncates towards zero and the remainder is negative; -500 ms prints 1970-01-01T00:00:00.-500 | C70_wrong_before_1970 |
| C70 | Datetimes in s, min or h beyond 292 years from 1970 overflow the system clock's nanoseconds (undefined behaviour) | C70_wrong_far_future |
| C71 | `Variable out(x)` shares the buffer: nan_to_num without out modifies its input | C71_wrong_input_modified |
| C71 | With out and several replacements only the last one has an effect | C71_wrong_out_combined |
| C71 | With out and no replacement out is not written | C71_wrong_out_none |
| C71 | NaN replaced by inf is then replaced by posinf | C71_wrong_chained |
| C74 | the number of variances given to `makeVariable` is not checked: reading them is undefined behaviour | `C74_wrong_variances_length` |
| C74 | `makeVariable` with labels but an empty shape, or the other way round, is an error or a scalar depending on the order of arguments | `C74_wrong_order` |
| C75 | assigning to an element of a variable a slice of that variable without the element is accepted; the array then owns itself and is never freed | `C75_wrong_slice` |
| C76 | assigning (not constructing) a copy of an array that is not set gives one that is set and empty | `C76_wrong_copy_assign` |
| C76 | moving an array to itself loses its content | `C76_wrong_self_move` |
| C76 | constructing or resizing with size −1 is not an error but gives an array that is not set | `C76_wrong_minus_one` |
| C77 | if the event dimension is called like an outer dimension (as after binning a table along its own dimension), adding a dimension drops coords and masks along the unchanged dimension; the masks are not applied | C77_wrong_mask_lost |
| C77 | a mask along an unchanged dimension right of a rebinned one is applied (events removed) and kept | C77_wrong_mask_applied_and_kept |
| C77 | edges for an existing dimension are ignored if there are groups for it, although it is an error for a new one | C77_wrong_edges_ignored |
| C77 | the result can have an attr and a coord of the same name | C77_wrong_attr_and_coord |
| C79 | datasets without common items: coords are not compared, and coords and dims are lost; the same for a dataset without items and any other operand | `C79_disjoint`, `C79_no_items` |
| C79 | coords of the result of an operation with two datasets are read-only variables | `C79_readonly_coords` |
| C79 | `merge` fails for unaligned coords with different values, although the union of coords drops them | `C79_merge_wrong_unaligned` |
| C79 | `merge` fails for datasets with an identical item if one has a coord the other does not have, and for coords along another dim | `C79_merge_wrong_other_coord`, `C79_merge_wrong_other_dim` |
| C81 | a coord with bin edges along a dim that is sliced at one position is kept by `ds[name].slice(p)` and by `ds.slice(p).coords()`, but `ds.slice(p)[name]` lacks it (the tests of scipp remove it before comparing: `drop_unaligned_edges`) | `C81_item_loses_edges` |
| C82 | `transpose(Dataset)` loses coords that no item has (edges of a selected bin), and all coords and dims if the dataset has no items (`apply_to_items` starts from a default-constructed dataset) | C82_transpose_loses |
| C83 | for dense data the type of the bin index is chosen by the number of events instead of the number of output bins: with 65537 x 65537 output bins an event is put into a wrong bin | C83_dense_wrong_bin |
| C83 | same, with 65536 x 65536 output bins events are lost | C83_dense_loses_event |
| C83 | grouping by consecutive integers computes `x - offset`, which is undefined behaviour for labels of events far from the groups | C83_label_overflow |
| C84 | The variances depend on the memory layout: rows that are contiguous get the variance times the share, others the variance times the square of the share. | `C84_variance_depends_on_layout` |
| C84 | If the rows are not contiguous the unit of the new edges is not compared with that of the old edges. | `C84_unit_ignored` |
| C84 | Which combinations of types are supported depends on the layout. | `C84_types` |
| C84 | Masking the data can change the order of dims of the result. | `C84_mask_changes_order` |
| C85 | A coord with bin edges for a dim of another name is not recognized as bin edges, and weights are read beyond their end. | `C85_edges_out_of_bounds` |
| C86 | Histogramming fails if another coord has leftover edges of a dim with the same name. | `C86_leftover_edges` |
| C86 | Histogramming binned data with an attr named like the dim gives a data array with a coord and an attr of the same name, for which `meta` raises an error. | `C86_attr_conflict` |
| C86 | Reducing a dataset without items loses all coords. | `C86_dataset_loses` |
| C87 | All coords of the result are aligned, also those that are not aligned in any input. | `C87_wrong_array_flags`, `C87_wrong_flags`, `C87_wrong_example` |
| C87 | Bin edges along a dim the datasets do not have are lost, unless there are no items. | `C87_coord_names`, `C87_wrong_edges_lost` |
| C87 | Datasets without items cannot be concatenated if the first has length 0. | `C87_wrong_for_empty` |
| C88 | A list of datetimes without a unit argument is refused, although the array made of it is accepted: `make_variable` passes the list, not the array, on to `common_unit`. | `C88_wrong_list` |
| C88 | `unit='dimensionless'` is silently ignored for datetimes with a unit. | `C88_wrong_dimensionless` |
| C88 | NaT (-2^63) is scaled like a number: it becomes a date, or the behaviour is undefined. | `C88_wrong_nat` |
| C88 | Unsigned integers and numbers of 1, 2 or 16 bytes are refused even if a supported dtype is asked for. | `C88_wrong_sizes` |
| C89 | Adding or multiplying 64-bit integers to 32-bit integers in place wraps around silently. | `C89_wrong_wraps` |
| C89 | `bool` can be added to floats in place only, and multiplied with floats out of place only. | `C89_wrong_bool` |
| C89 | The remainder of an integer close to the smallest one overflows in an intermediate product (undefined behaviour) although the result fits. | `C89_wrong_remainder_overflow` |
| C89 | Floor division in place of 64-bit by 32-bit integers is refused, although the result would be of the same type and the remainder is accepted. | `C89_wrong_floor_divide` |
| C90 | The quotient of a variable and itself is 1 with variance NaN where it is zero; with a separate variable it is NaN. | `C90_wrong_zero` |
| C90 | A variable without unit cannot be multiplied with or divided by itself: the made-up exponent has no unit, but `pow` requires a dimensionless one. | `C90_wrong_none` |
| C91 | `var.variances = x` on a variable without variances, with `x` of the wrong shape or not convertible, throws and leaves the variable with variances equal to its values. | `C91_wrong_half_done` |
| C92 | A variable without unit, such as any `bool`, has a sum but no mean: the count gets the unit one, and the product of a number without unit and one with a unit is refused. | `C92_wrong_mean_without_unit` |
| C92 | Sum and mean of 32-bit integers are undefined if the sum exceeds 32 bits, even though the mean does not. | `C92_wrong_overflow` |
| C92 | The sum of a scalar `bool` is a `bool`, and that of a scalar datetime exists. | `C92_wrong_scalar` |
| C92 | `nanmean` of `bool` does not exist. | `C92_wrong_nanmean_bool` |
| C93 | an event coord that does not depend on the event dimension is handed out as a binned variable none of whose bins can be read; iteration gives the plain value | `C93_wrong_scalar` |
| C93 | setting an item through a slice changes the values of bins that are not in the slice | `C93_wrong_slice` |
| C93 | a variable with one event more than the table is accepted as event coord (as bin edges) | `C93_wrong_edges` |
| C93 | removing an item through a slice removes it from the whole array | `C93_wrong_erase` |
| C93 | views compare equal although bins differ, and unequal although all bins are equal | `C93_wrong_equal`, `C93_wrong_unequal` |
| C95 | `GroupBy::sum` (and nansum, mean) of `bool` data throws as soon as there is a mask along the reduced dim: the replacement value has dtype int64 | `C95_wrong_bool` |
| C95 | `GroupBy::mean` throws if a mask depends on the reduced dim and on another dim, although `sum` works | `C95_wrong_mean` |
| C95 | `GroupBy::mean` throws for data without unit | `C95_wrong_unit` |
| C96 | `sqrt`, `exp`, … with an `out` argument that has variances set them to zero if the operand has none (`pow` refuses this) | `C96_wrong_out` |
| C97 | With a repeated edge (which `histogram` accepts) rebinning the histogram gives NaN instead of the counts | `C97_wrong_for_repeated_edges` |
| C98 | a bin with a NaN coord makes a group with label NaN, but its events are lost (`groups_to_map` compares with `==`) | `C98_wrong_for_nan` |
| C98 | a mask along a kept dimension that has a coord is applied in addition to being kept; without a coord it is only kept | `C98_mask_applied_and_kept` |
| C98 | the order of the kept dimensions depends on which of them have a coord | `C98_wrong_for_dim_order` |
| C98 | grouping by the coord of the reduced dimension itself, or a multi-dimensional coord of it, is an error | `C98_wrong_for_dim_coord`, `C98_wrong_for_2d_coord` |
| C98 | `groupby(array, variable, bins)` ignores the variable and looks for a coord with the name of the dimension of the edges | `C98_wrong_for_key_variable` |
| C99 | `floor`, `ceil` and `rint` keep the unit, the result depends on it (1.5 m gives 1 m, 1500 mm stay 1500 mm) | `C99_wrong_for_floor` |
| C99 | `floor_divide` accepts different units, the result depends on them (1500 mm // 1 m is 1500 mm/m, 1.5 m // 1 m is 1) | `C99_wrong_for_floor_divide` |
| C99 | `to_unit` replaces a factor within 1e-12 of an integer by the integer, although it is not one | `C99_wrong_for_snapped_factor` (relative error at most 1e-12: `C99_factor_accuracy`) |
| C100 | the tolerance of `islinspace` is relative to the edges, not to the width of bins: uneven edges far from zero (nanoseconds since 1970 as `double`) are treated as even, and values are counted in wrong bins | `C100_wrong_far_from_zero` |
| C100 | unsorted edges far from zero are accepted | `C100_wrong_unsorted` |
| C100 | `linspace` with one element yields the end of the range | `C100_wrong_linspace_one` |
| C101 | `x['x', 1:3] += x['x', 0:2]` with binned `x`: the overlap is not seen since views of binned variables start at the buffer whatever the slice, and updated events are used | `C101_wrong_in_place_overlap` |
| C101 | binned operands whose buffers have different dims are combined without error, reading the wrong elements | `C101_wrong_for_buffer_dims`, `C101_wrong_for_buffer_dims_exchanged` |
| C101 | `binned * dense` works while `dense * binned` fails if the dense operand has the dims in another order and the bins hold a table | `C101_wrong_for_order` |
| C102 | an integer that does not fit 64 bits is silently converted to double precision | `C102_wrong_large_integer` |
| C102 | `2 * dataset` and `variable * dataset` are refused although `dataset * 2` and `dataset * variable` work; `variable \| array` is refused although `array \| variable` works | `C102_wrong_order` |
| C102 | `array == 5` is `False` and `array != 5` is `True` whatever the data; datasets are compared by identity | `C102_wrong_equal` |
| C102 | `array **= x` does not modify the array but binds the name to a new one; `variable += array` turns the name into a data array | `C102_wrong_in_place` |
| C103 | `for k, v in d.items()`: removing an item and inserting another in the body is not noticed, an item is skipped | `C103_wrong_exchange` |
| C103 | if the keys come back to their old address after two reallocations and the values do not, the check passes and freed memory is read | `C103_wrong_reused_memory` |
| C104 | `from_dict` with a power out of range gives another power: m⁹ becomes m⁻⁷ | `C104_wrong_power` |
| C104 | `from_dict` ignores names of base units that are not known | `C104_wrong_name` |
| C105 | The order of dims of a result depends on shared dims: for `a` with dims (y, x) and `b` with dims (z, y), `(a+b)['y',0]` has dims (z, x) but `a['y',0]+b['y',0]` has dims (x, z); the two compare unequal. | `C105_wrong_dim_order` |
| C105 | A reduction along a dim along which the input is broadcast differs from the reduction of a copy of the input (consequence of C57). | `C105_wrong_for_broadcast` |
| C106 | `transform_coords(['b', 'c'], {('b', 'c'): 'a'}, keep_inputs=False)`: the alias rule consumes `a` once per name but counts it once, so the second target is silently missing from the result | `C106_wrong_multi_alias` |
| C106 | an output recomputed along with another output of its rule replaces the dense coord but leaves an event coord of that name as it was in the input | `C106_wrong_stale_event` |
| C107 | a node below a cycle (x -> a, b -> c -> d) gets color 3/2 since it is visited once per path, so x is renamed to c instead of d (rules 1 and 4 of the user guide) | `C107_wrong_after_cycle` |
| C107 | with x -> a, b, c -> m -> d, e both d and e get full color: x is renamed although there is no unique candidate, to d or e depending on the topological order | `C107_wrong_ambiguous` |
| C108 | `_get_coord` computes `max(cmin, c.max())` instead of `max(cmax, c.max())`: for a dataset of binned data the upper bound is that of the last item, larger values of other items are lost in hist(x=n) | `C108_wrong_dataset_max`, `C108_dataset_range` |
| C108 | a coordinate of the bins that is not edges takes precedence over that of the events when the range is determined, events outside are lost | `C108_wrong_bin_coord` |
| C108 | for datetimes (e.g., nanoseconds since 1970) and integers above 2^53 the edges are computed in double precision: the first edge may be above the smallest value and the last edge not above the largest | `C108_wrong_time`, `C108_wrong_large_int` |
| C108 | for floating-point numbers of 2^53 or more the upper bound is the largest value itself, since adding 1 does not change it | `C108_wrong_large_float` |
| C108 | with a step, the smallest number above the maximum is lost when adding the step: for values 0., 1., 2., 3. and step 1. the last edge is 3. and the value 3. is in no bin | `C108_wrong_float_step` |
| C108 | for a coordinate with both the smallest and the largest number of its type `max - min + 1` wraps to zero and there are no groups | `C108_wrong_groups` |
| C109 | `combine_bins` takes the coordinate of the input although `hide_masked` has removed rows for a 1-D mask: grouping binned data by a coordinate of the bins raises DimensionError if two or more bins are masked | `C109_group_fails` |
| C109 | if exactly one bin is masked the coordinate, longer by one, is taken for bin edges, and events are put into wrong groups without an error | `C109_wrong_one_masked` |
| C111 | Reducing a group over a dim reduces nested groups that do not have the dim over all their dims (bins of a group is never None) | `C111_wrong_nested` |
| C111 | Reducing (or squeezing) a group over a dim reduces binned items without the dim over all their dims | `C111_wrong_binned` |
| C111 | A scalar binned array next to a Python object in a nested group is not reduced | `C111_wrong_scalar_bins` |
| C111 | Positional indexing does not check that the size is unique, contrary to the documentation | `C111_wrong_positional` |
| C111 | transpose/flatten of a group fail if an array has some of the dims only | `C111_wrong_transform` |
| C111 | scipp.sum(group, dim) fails for nested groups, Python objects and arrays without the dim, the method does not | `C111_wrong_function` |
| C111 | The order of items after an operation of two groups is unspecified (iteration over a set) | `C111_wrong_order` |
| C112 | The variance of a data array has the unit of the data instead of its square | `C112_wrong_unit`, `C112_wrong_unit_always` |
| C112 | Where all contributing elements are masked (or not more than ddof remain), var and std of a data array are zero (whatever NumPy leaves below its mask) and not marked as invalid | `C112_wrong_masked` |
| C113 | Integer and time coordinates with mode nearest: midpoints are rounded down, so a lookup at a point of the table that is followed by a point one larger gives the value of the latter; with coordinate 0, 1, 2, ... every lookup is off by one | `C113_wrong_int` |
| C113 | Mode nearest accepts points that are not in order if their midpoints are, and finds wrong values | `C113_wrong_unsorted` |
| C113 | Merging of equal integer values happens before the check that the coordinate is sorted, so tables rejected for floating-point values are accepted for integers | `C113_wrong_merge` |
| C113 | A table of several dims with a one-dimensional coordinate is refused unless the dim of the lookup is the inner one | `C113_wrong_outer` |
| C114 | An affine transformation comes back transposed: values are given in the layout of NumPy, the constructor expects that of Eigen | `C114_wrong_affine` |
| C114 | The name of a data array is written but not read | `C114_wrong_name` |
| C114 | Unaligned vectors and linear transformations: from_dict fails since vectors() does not accept the flag | `C114_wrong_unaligned` |
| C114 | Arrays of strings with several dims: from_dict fails since the strings are written as a flat sequence | `C114_wrong_strings` |
| C114 | Binned data: from_dict fails | `C114_wrong_binned` |
| C114 | Datasets without items lose their coords, from_dict fails; datasets whose items have the names of properties of variables are taken for variables | `C114_wrong_empty`, `C114_wrong_names` |
| C115 | Mappings with more than a thousand elements come back in another order | `C115_order` |
| C115 | A data array in a data group gets the name of the item | `C115_wrong_name` |
| C115 | Binned variables that are not aligned come back aligned | `C115_wrong_unaligned` |
| C115 | Arrays of strings with two or more dims cannot be saved or loaded | `C115_wrong_strings` |
| C115 | A dataset with an item called coords cannot be loaded | `C115_wrong_coords` |
| C115 | A dataset with an item of a type that cannot be saved is written without an error, nothing of it can be loaded | `C115_wrong_item` |
| C116 | If one event has NaN as coordinate, open ranges are refused | `C116_wrong_nan` |
| C116 | Open ranges lose events at infinity | `C116_wrong_inf` |
| C116 | Open ranges lose the events with the largest coordinate if it is a `double` from 2^53 on, e.g. times in nanoseconds | `C116_wrong_large` |
| C116 | Open ranges lose all events if one has the largest integer as coordinate | `C116_wrong_largest_int` |
| C117 | If all dims are concatenated, coords of the input overwrite the new edges: after taking one bin along x and binning the rest along x again with `dim`, the output has the old edges | `C117_wrong_edges` |
| C117 | With two new bins the old edges become a coord with one value per bin, with three or more it is an error | `C117_wrong_points`, `C117_wrong_error` |
| C117 | If the coord of the input is a scalar, the output has no bin edges | `C117_wrong_scalar` |
| C117 | `hist` with `dim=()` sums over the dim of the coord nevertheless | `C117_wrong_dim` |
| C118 | The order of the dims of the output is that of a Python set of strings, so it may change from run to run | `C118_wrong_order` |
| C118 | Helper coords replace coords named like one of the other dims: binning by such a coord (with two dims) is an error | `C118_wrong_name` |
| C118 | When binning by another coord, a coord with two dims named like one of the other dims is silently dropped | `C118_wrong_lost` |
| C118 | Two coords with the same dims in different order cannot be used together | `C118_wrong_inner` |
| C118 | With `dim=()` the inner dim of the coord disappears nevertheless | `C118_wrong_dim` |
| C120 | With edges along one dim which depend on another, rebinning works in one order of the dims only: rebinning the other dim first drops the edges | `C120_wrong_order` |
| C121 | `assert_identical` accepts variables whose dims have another order if the lengths agree | `C121_wrong_dims` |
| C121 | `assert_identical` accepts data arrays whose data has another unit, dtype, or variances missing in the first | `C121_wrong_unit` |
| C121 | `assert_identical` accepts a scalar data array for an array of equal elements | `C121_wrong_scalar` |
| C121 | `assert_identical` accepts binned data with the events in other bins | `C121_wrong_bins` |
| C121 | `assert_identical` does not compare the coords of datasets without items | `C121_wrong_dataset` |
| C122 | A coord that is not used in the fit, but depends on a dim of the output and on another dim, makes `curve_fit` fail after all fits are done: it is added to the output, which lacks the other dim | `C122_wrong_coord` |
| C123 | A footprint with the dims in another order than those of the data passes the check and is applied to the wrong dims | `C123_wrong_footprint` |
| C123 | A size in terms of the coord is truncated after rounding: with coord 0.0, 0.3, …, 1.5 a size of 0.6 gives one point instead of two | `C123_wrong_steps` |
| C124 | Interpolation of integers truncates: results are converted to the dtype of the input, between 0 and 1 it gives 0 | `C124_wrong_integer` |
| C125 | Columns with headers giving the same name, e.g. `a [m]` and `a [s]`: only the last is in the dataset, others are lost without error | `C125_wrong_lost` |
| C125 | The index is lost if all columns are coords (`data_columns=[]`) | `C125_wrong_index` |
| C125 | A newline after the closing bracket is accepted (`$` in the regular expression) | `C125_wrong_newline` |
| C126 | Coords which are no floating-point numbers (integers, times, text) are near whatever their values | `C126_wrong_dtype` |
| C126 | Masks are not compared | `C126_wrong_masks` |
| C127 | The name of a data array is lost by `to_xarray` | `C127_wrong_name` |
| C127 | Aligned coords which are no dimension coords are not aligned after the round trip; if they are not aligned, `to_xarray` raises an error | `C127_wrong_aligned` |
| C127 | Numbers without unit are dimensionless after the round trip | `C127_wrong_unit` |
| C128 | A coord with several dims in an order other than that of the data: the values are combined by position, so the integral is wrong without error | `C128_wrong_order` |
| C131 | Integers if a unit is requested: start, stop and step are rounded before the range is created, so values are wrong, e.g. a step of 1500 mm becomes 2 m | `C131_wrong_integer` |
| C132 | the dtype of binned elements is not considered: float64 events converted to int64 in a smaller unit are truncated before the unit is converted (1.5 m becomes 1000 mm) | `C132_wrong_binned` |
| C134 | an integer critical frequency given in another unit is rounded: 1500/m for a coord in mm becomes 2/mm | `C134_wrong_integer` |
| C134 | an integer coord going back and forth (0, 1, 0, 1, 2) is accepted as regularly sampled | `C134_wrong_coord` |
| C135 | renaming x to y and y to z, with a coord for x only, gives the coord the name z although its dim is y | `C135_wrong_chain` |
| C135 | whether renaming succeeds depends on the order of the dict; names cannot be swapped | `C135_wrong_order` |
| C135 | a coord of events which has the new name is silently replaced, and lost | `C135_wrong_events` |
| C136 | with another dim of length zero sizes are not checked: a dim of length 6 can be folded into 5 by 7 | `C136_wrong_empty` |
| C137 | a data group with an item containing NaN cannot be merged with itself | `C137_wrong_nan` |

Smaller observations made while modelling, not stated as theorems: `pow(0 ± s, 0)`
has a NaN variance; `rebin_non_inner` has no `time_point` support; `SizedDict::set`
ignores changes of the alignment flag if the variable is the same; `union_` drops
coords that are unaligned and present in one operand only; `DataArray::rename_dims`
drops the name and `operator==` ignores it; `append`'s `combine` ignores the dim of
the second operand; `concat` of data arrays makes all coords aligned.

## 5. Testing the theorems

`seeded/LOG.jsonl` has one line per wrong program tried: the definition edited in a
scratch copy of the model, the edit, the claim it breaks, the theorems that no
longer check, and the theorems tightened because of it. Edits came in two kinds:
written by hand to mimic a realistic bug, and generated (swapped comparison,
shifted constant, dropped branch, swapped argument) for every definition of
the model. An edit that leaves all theorems provable is either shown to be
equivalent (the definition computes the same, or differs only where the code is
never used) or leads to a tightened theorem.
