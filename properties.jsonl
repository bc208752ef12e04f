{"id": "C01", "title": "Dimension labels stay unique and extents non-negative", "statement": "Starting from no dimensions, after any sequence of the public size/dimension operations (add outer, add inner, set, resize, erase, rename, slice, merge, transpose, fold) that did not throw, no dimension label occurs twice and no extent is negative.", "quantifier": "every finite sequence of dimension operations with arbitrary arguments, successful or throwing", "why_tests_cant": "the set of operation histories is infinite; tests exercise a few short ones", "anchors": ["lib/core/sizes.cpp: small_stable_map, Sizes::set, resize, slice", "lib/core/dimensions.cpp: add, addInner, merge, transpose, fold", "lib/core/rename.h: rename_dims"]}
{"id": "C02", "title": "Merging dimensions (broadcast rule)", "statement": "Merging two sets of dimensions succeeds exactly when every shared label has the same extent in both; the result has exactly the labels of either operand with their extents, keeps the order of the first operand, and keeps the order of the second operand too whenever both operands list their shared labels in the same order.", "quantifier": "all pairs of dimension lists of any length and any extents", "why_tests_cant": "the number of label orders and overlaps grows factorially", "anchors": ["lib/core/dimensions.cpp: merge, intersection", "lib/core/sizes.cpp: merge(Sizes)"]}
{"id": "C03", "title": "Transposing relabels axes without moving elements", "statement": "Transposing succeeds exactly when the requested labels are a permutation of the present ones; the element at given named coordinates is the same before and after; transposing back restores the original view.", "quantifier": "all views (any number of dims, extents, strides, offset) and all requested label lists", "why_tests_cant": "permutations and strides are unbounded", "anchors": ["lib/core/dimensions.cpp: transpose", "lib/core/strides.cpp: transpose", "lib/variable/variable.cpp: Variable::transpose"]}
{"id": "C04", "title": "Slicing selects the documented elements and never leaves the buffer", "statement": "A point or range slice is accepted exactly when the dimension exists and the slice lies within its extent; the element of the result at coordinate i along the sliced dimension is the element of the input at begin+i*step (all other coordinates unchanged), the extent is the number of such indices, and any view obtained by any sequence of slices of an in-bounds view is in bounds.", "quantifier": "all views, all slice parameters, all sequences of slices", "why_tests_cant": "needs all extents, steps and slice histories; off-by-one errors hide in the remainder cases", "anchors": ["lib/core/sizes.cpp: Sizes::slice", "lib/core/slice.cpp: Slice::Slice", "lib/core/except.cpp: validSlice", "lib/variable/variable.cpp: Variable::slice"]}
{"id": "C05", "title": "Slices compose", "statement": "Slicing a range and then slicing the result along the same dimension equals one slice with composed begin/end/step; slices along different dimensions commute.", "quantifier": "all views and all pairs of valid slices", "why_tests_cant": "relational property over all pairs of operations", "anchors": ["lib/variable/variable.cpp: Variable::slice", "lib/core/sizes.cpp: Sizes::slice"]}
{"id": "C06", "title": "Folding and flattening preserve element order", "statement": "Folding a dimension into several succeeds only if the product of the new extents equals the old extent; the element at new coordinates is the element of the input at the row-major combination of them; flattening contiguous dimensions yields the elements in row-major order whether or not a copy is needed; flatten after fold restores the original.", "quantifier": "all views, any number of dims, extents, strides and fold targets", "why_tests_cant": "shape and stride combinations are unbounded", "anchors": ["lib/core/dimensions.cpp: fold", "lib/variable/variable.cpp: Variable::fold", "lib/variable/shape.cpp: flatten"]}
{"id": "C07", "title": "Broadcasting repeats elements and cannot be written through", "statement": "Broadcasting succeeds exactly when the target includes the dimensions of the input; the element of the result at any coordinates is the input's element at the coordinates it has; and a result in which two coordinates share an element is read-only.", "quantifier": "all views and all target dimensions", "why_tests_cant": "all shapes and strides", "anchors": ["lib/variable/variable.cpp: Variable::broadcast, as_const", "lib/core/sizes.cpp: Sizes::includes"]}
{"id": "C08", "title": "Renaming dimensions", "statement": "Renaming keeps extents, order and elements; it throws exactly when a source label is missing or a target label would be duplicated at the moment it is applied; for target labels disjoint from all present labels it equals the simultaneous substitution.", "quantifier": "all dimension lists and all lists of renaming pairs", "why_tests_cant": "all sequences of renamings including chains and cycles", "anchors": ["lib/core/rename.h: rename_dims", "lib/core/sizes.cpp: replace_key", "lib/variable/variable.cpp: Variable::rename_dims"]}
{"id": "C09", "title": "Iterating over the elements of a view is row-major and complete", "statement": "Iterating over the elements of any strided view (begin, then increment until end) yields each element exactly once in row-major order of the coordinates; starting from index k (random access, as parallel code does) yields the same sequence from position k on.", "quantifier": "all shapes (including zero extents), all strides (including zero, negative and transposed), all start positions", "why_tests_cant": "shapes/strides unbounded; the iterator merges dimensions depending on strides", "anchors": ["lib/core/view_index.cpp: ViewIndex::ViewIndex", "lib/core/include/scipp/core/view_index.h: increment, set_index"]}
{"id": "C10", "title": "Linear index and coordinates are inverse to each other", "statement": "Decomposing a linear index into coordinates and recombining the coordinates with row-major strides gives back the index, coordinates are within the extents, and distinct indices give distinct coordinates.", "quantifier": "all shapes with any number of dims and all indices", "why_tests_cant": "unbounded shapes", "anchors": ["lib/common/include/scipp/common/index_composition.h: extract_indices, flat_index_from_strides"]}
{"id": "C100", "title": "Values are assigned to the right one of evenly spaced bins despite rounding", "statement": "When bin edges are evenly spaced, the bin of a value is computed from its position instead of being searched for. In the arithmetic of `double`, with rounding in `islinspace`, in the scale, and in the position, `get_bin` nevertheless yields the bin `[edge[i], edge[i+1])` which contains the value, and no bin for values outside the edges, also if only part of the edges is used; thus histograms and binning agree with a search in the edges. `linspace` begins and ends exactly with its arguments, is sorted, is within a few units in the last place of even spacing, and is accepted by `islinspace`.", "quantifier": "all lists of edges of type double (of any length and magnitude, exponent range unlimited) accepted by islinspace, all integers and datetimes, all values including NaN, all ranges and numbers of elements of linspace", "why_tests_cant": "whether accumulated rounding can move a value to a wrong bin depends on all edges, magnitudes and values at bin boundaries; samples of 'nice' edges do not show it", "anchors": ["lib/core/include/scipp/core/histogram.h:14-51", "lib/common/include/scipp/common/numeric.h:16-40", "lib/core/include/scipp/core/element/histogram.h:58-82", "lib/core/include/scipp/core/element/bin.h:56-69", "lib/variable/util.cpp:19-44"]}
{"id": "C101", "title": "Elementwise operations with binned operands act on every event", "statement": "An elementwise operation with binned and dense operands gives binned data with the union of the dims of the operands. The bin at any coordinates has as many events as the corresponding bin of every binned operand, and its k-th event is the operation applied to the k-th events of the binned operands and to the values of the dense operands at these coordinates, however the bins lie in the buffers and whatever the scheduler does. Other columns of a table of events are carried along unchanged. In place, exactly the events of the bins of the output change. Corresponding bins of different size, several tables, further dims of the operand and readonly outputs are refused; otherwise there is a result.", "quantifier": "all numbers of operands, dims, layouts of bins and buffers, dense or binned inputs, schedules and interleavings", "why_tests_cant": "Tests use few small layouts with bins in order and cannot go through the schedules, the transposed or broadcast operands and the positions of bins in the buffers.", "anchors": ["lib/variable/include/scipp/variable/transform.h:150-193", "lib/variable/include/scipp/variable/transform.h:251-279", "lib/variable/include/scipp/variable/transform.h:395-431", "lib/variable/include/scipp/variable/transform.h:474-529", "lib/variable/include/scipp/variable/transform.h:600-683", "lib/variable/include/scipp/variable/bin_array_variable.tcc:100-180", "lib/variable/include/scipp/variable/variable_factory.h:60-140"]}
{"id": "C102", "title": "Operators in Python call the right function on the right operands", "statement": "For `a op b` in Python, where a and b are variables, data arrays, datasets or numbers, the function of the operator is called on a and b in this order (comparisons may be turned around), numbers being dimensionless scalars of type int64 or float64 with their exact value. If `a op b` is available, so is `b op a`. Comparisons compare contents, not the identity of objects. `a op= b` modifies the object a refers to, so that other references see the change. Operands that are neither objects of the library nor numbers are refused.", "quantifier": "all operators, all pairs of classes and numbers, integers of any size", "why_tests_cant": "The outcome depends on the tables of overloads of three classes, the order of overloads, implicit conversions and the fallbacks of Python; tests pick some combinations, and a missing overload falls back silently to another operation.", "anchors": ["lib/python/bind_operators.h:138-401", "lib/python/variable.cpp:84-107", "lib/python/dataset.cpp:104-121", "lib/python/dataset.cpp:280-289"]}
{"id": "C103", "title": "Modifying a dict while iterating over it is noticed", "statement": "A loop over the items of a dict of coords, masks or data either visits every item once, in order, or is ended by an error as soon as the dict was modified. Values may be assigned to existing keys during the loop. Whatever the body of the loop does, memory that does not belong to the dict is never read.", "quantifier": "all dicts, all sequences of insertions, assignments, removals and clearing in the body of the loop, all addresses returned by the allocator", "why_tests_cant": "Whether a modification is noticed depends on addresses chosen by the allocator and on the capacity of vectors; reading freed memory usually goes unnoticed in a test.", "anchors": ["lib/core/include/scipp/core/dict.h:46-145", "lib/core/include/scipp/core/dict.h:276-299", "lib/core/include/scipp/core/dict.h:357-371"]}
{"id": "C104", "title": "Units survive the conversion to a dict and back", "statement": "For every unit without commodity, `Unit.from_dict(u.to_dict())` is `u`: multiplier, powers of all base units and flags are kept, and different units have different dicts. Units with a commodity and dicts of an unknown version are refused. A dict that is read gives exactly the powers, multiplier and flags in it, or an error.", "quantifier": "all units, all dicts", "why_tests_cant": "Tests convert a list of units; they do not cover all combinations of powers and flags, nor dicts with powers beyond the range of the units library.", "anchors": ["lib/python/bind_units.cpp:16-100", "lib/units/include/scipp/units/unit.h:46-66"]}
{"id": "C105", "title": "Rearranging before or after a computation", "statement": "It does not matter whether data are rearranged before or after a computation. Slicing (a point or a range), transposing, broadcasting or renaming a dim of the operands of an elementwise operation and then computing gives the same elements, at the same named position, as computing first and rearranging the result. Reductions can be exchanged with slicing along another dim and with transposing, the reduction of a whole is the reductions of two parts put together, two dims can be reduced in either order, and the sum of sums is the sum over the elementwise sum. Moreover slicing and reducing give the dims in the same order either way.", "quantifier": "for every number of operands with any dims, strides, offsets and contents, every operation, every schedule of either computation, every slice and every dim", "why_tests_cant": "Tests compare one rearrangement of one shape at a time. The claim relates two separate executions of the machinery (merge of dims, strides, dim merging in the iterator, splitting over threads) that take different paths, for all operations, shapes and layouts.", "anchors": ["lib/variable/include/scipp/variable/transform.h:410-431", "lib/core/dimensions.cpp:74-100", "lib/variable/variable.cpp:185-295", "lib/variable/reduction.cpp:26-48", "lib/core/multi_index.cpp:1-200"]}
{"id": "C106", "title": "Coordinate transformations", "statement": "transform_coords finds for the requested targets exactly the rules that are needed, whatever the order of the targets, and fails exactly if a needed name is neither a coord of the input nor the product of a rule. The result is determined by the equations of the rules alone: it does not depend on the order in which the rules are applied, the counting of usages never takes a coord away before its last use, targets are there and aligned, used coords are dropped or unaligned as the options say, and all other coords are as in the input.", "quantifier": "for all graphs of rules (aliases and kernels that may raise and may return any number of outputs), all sets of coords of dense and binned data, all targets, options and topological orders", "why_tests_cant": "The claim ranges over all graphs and all topological orders (which depend on hash order of sets in Python); tests use a few small graphs and cannot see that usage counts match consumption in every graph.", "anchors": ["src/scipp/coords/graph.py:17-144", "src/scipp/coords/rule.py:30-229", "src/scipp/coords/coord_table.py:15-82", "src/scipp/coords/coord.py:10-40", "src/scipp/coords/transform_coords.py:181-304"]}
{"id": "C107", "title": "Renaming of dims by coordinate transformations", "statement": "transform_coords renames the dims of dim-coords it processes: the search for names ends; every dim-coord gets one name (perhaps its own); the name is that of a coord computed from the dim-coord; two dims never get the same name; and the name is the farthest coord that can be uniquely associated with the dim, independently of the order in which the graph is traversed.", "quantifier": "for all acyclic graphs, sets of dim-coords, and topological orders", "why_tests_cant": "The claim is about all graphs; the colouring visits nodes once per path, which is only wrong below cycles or for particular fan-outs, and the outcome then depends on the hash order of strings, so a test may pass by luck.", "anchors": ["src/scipp/coords/transform_coords.py:195-203", "src/scipp/coords/transform_coords.py:307-343", "src/scipp/coords/graph.py:36-55", "docs/user-guide/coordinate-transformations.ipynb"]}
{"id": "C108", "title": "Automatically determined bins and groups contain all data", "statement": "When edges are determined from the data (hist(x=5), bin(x=step)) every value lies in a bin, and with a step every bin has that width; when groups are determined from the data (group('label')) every value that occurs is a group, exactly once and in ascending order.", "quantifier": "for all coordinates (integer, datetime, double), data arrays, binned data, datasets, numbers of bins, and steps", "why_tests_cant": "Values outside of the edges are dropped silently; whether the largest value is lost depends on the rounding of particular numbers, on which item of a dataset has it, and, for groups, on which part of the values is looked at before stopping.", "anchors": ["src/scipp/core/binning.py:290-365", "src/scipp/core/binning.py:972-1000", "src/scipp/core/variable.py:579-636", "src/scipp/core/variable.py:874-879"]}
{"id": "C109", "title": "Combining bins", "statement": "bins.concat joins the bins along the given dims; group and bin by a coordinate of the bins join the bins with a label in the same group or interval. Every resulting bin has exactly the events of the input bins that belong to it, one bin after the other in the order of the input, for every position in the other dims; bins that are masked by a mask depending on the dims that disappear are left out.", "quantifier": "for all shapes, orders of dims, buffers with gaps, sets of dims, masks, labels, and groups", "why_tests_cant": "The result is computed by sorting begin and end indices as if they were events, copying, and merging consecutive ranges; an error for one shape, order of dims, or kind of mask moves events silently into other bins. Tests cover a few shapes and never a mask for one dim together with grouping.", "anchors": ["src/scipp/core/bin_remapping.py:22-163", "src/scipp/core/concepts.py:79-99", "src/scipp/core/binning.py:186-188", "src/scipp/core/binning.py:263-282"]}
{"id": "C11", "title": "Simultaneous iteration over several operands pairs corresponding elements", "statement": "When an elementwise operation is applied to several operands (each possibly transposed, sliced or broadcast), the operation is called exactly once per element of the output dimensions, each time with the elements of all operands at the same named coordinates.", "quantifier": "any number of operands, all shapes, all strides", "why_tests_cant": "the iterator merges dimensions when strides permit it; the combinations are unbounded", "anchors": ["lib/core/multi_index.cpp: MultiIndex, flatten_dims, can_be_flattened", "lib/core/include/scipp/core/multi_index.h: increment, set_index"]}
{"id": "C110", "title": "Merging adjacent bins with equal values", "statement": "merge_equal_adjacent gives a histogram with the same value as the input everywhere and none outside of the input's range, in which adjacent bins have different values, so it has the smallest number of bins; bins with NaN are not merged.", "quantifier": "for all 1-D histograms with sorted edges, also repeated ones", "why_tests_cant": "Tests compare a few value patterns; the claim is about all patterns of runs, including runs at both ends, single bins, and NaN.", "anchors": ["src/scipp/core/domains.py:11-36"]}
{"id": "C111", "title": "Groups of arrays", "statement": "Operations on a DataGroup act on the arrays in it at any depth of nesting: dims and sizes are the union over all arrays (None where sizes differ); slicing, reducing and transforming along dims act on the arrays having these dims and leave other arrays and Python objects as they are; operations of two groups combine what both have under the same names; functions and methods agree.", "quantifier": "for all trees of groups, arrays and Python objects, all dims, and all operations of the arrays", "why_tests_cant": "Tests use flat groups with two or three items; nesting, items without the dim, binned items and Python objects interact in ways only a statement over all trees covers.", "anchors": ["src/scipp/core/data_group.py:60-321", "src/scipp/core/data_group.py:551-699", "src/scipp/core/_cpp_wrapper_util.py:14-29", "docs/user-guide/data-structures/data-structures.ipynb:714-722"]}
{"id": "C112", "title": "Reductions over several dims", "statement": "median, var, std (and their nan versions) and sums over one, several or all dims of a variable or data array combine, for every output element, exactly the elements with the same remaining coordinates that are not masked by a mask depending on a reduced dim; the remaining dims keep their order; coords and masks that depend on a reduced dim are dropped, the others kept; the result does not depend on the order in which dims are named; a data array gives the same data, including the unit, as its data as a variable.", "quantifier": "for all shapes, dims, orders of dims, coords and masks, and all functions of the contributing elements", "why_tests_cant": "Tests reduce a few 1-D and 2-D arrays with one mask and compare values; the translation of names to axes, the combination of several masks with different dims and orders, and units are not covered together.", "anchors": ["src/scipp/core/reduction.py:179-187", "src/scipp/core/reduction.py:338-346", "src/scipp/core/reduction.py:644-650", "src/scipp/core/reduction.py:897-962", "src/scipp/core/concepts.py:19-99"]}
{"id": "C113", "title": "Lookup tables", "statement": "A lookup in a table made from a histogram gives the value of the bin containing the point; from points with mode 'previous' the value of the last point not after it; with mode 'nearest' the value of the nearest point, the one above if two are equally near; the fill value is given for masked or missing values. The merging of equal integer values done for speed does not change results. Coordinates that are not in order and invalid modes are rejected; tables of several dims are rearranged such that the dim of the lookup is the inner one.", "quantifier": "for all sorted coordinates, values, masks, fill values and points, with and without merging; all shapes", "why_tests_cant": "Tests use a handful of floating-point coordinates with a few values; integer and time coordinates with mode nearest, unsorted coordinates combined with equal values, and outer dims with one-dimensional coordinates are not tried.", "anchors": ["src/scipp/core/bins.py:38-53", "src/scipp/core/bins.py:60-66", "src/scipp/core/bins.py:110-137", "lib/dataset/bins.cpp:203-217", "lib/dataset/bins.cpp:365-385"]}
{"id": "C114", "title": "Conversion to dicts and back", "statement": "to_dict gives a dict that contains all information about a variable, data array or dataset, and from_dict makes an object from it that is identical to the original: dims, shape, unit, type, alignment, values and variances of all variables, names, and the kind of object.", "quantifier": "for all variables of all element types, data arrays and datasets with any number of coords, masks, attributes and items, and all names", "why_tests_cant": "Tests convert a few objects with plain numbers and vectors; other element types, alignment flags, names that coincide with keys of the dict, and empty datasets are not tried.", "anchors": ["src/scipp/compat/dict.py:23-111", "src/scipp/compat/dict.py:114-201", "lib/python/variable_init.cpp:217-309", "lib/python/bind_data_access.h:231-275", "lib/dataset/dataset.cpp:169-209"]}
{"id": "C115", "title": "Saving to and loading from files", "statement": "An object that has been saved to an HDF5 file and loaded again is identical to the original: all elements of all mappings at all levels in the same order, with names, alignment flags, and contents. Elements of types that cannot be saved are left out and do not affect others.", "quantifier": "for all variables, data arrays, datasets and nested data groups with any number of elements and any names", "why_tests_cant": "Tests save objects with a handful of elements, strings with one dim and names equal to keys. The order depends on how names of members compare, which only differs from the order of writing for large mappings.", "anchors": ["src/scipp/io/hdf5.py:70-80", "src/scipp/io/hdf5.py:118-193", "src/scipp/io/hdf5.py:269-356", "src/scipp/io/hdf5.py:359-430", "src/scipp/io/hdf5.py:459-533", "lib/python/dataset.cpp:142-159"]}
{"id": "C116", "title": "Extraction of events by label", "statement": "bins[dim, a:b] has in every bin the events whose coordinate is at least a and less than b, bins[dim, a:] those from a on, bins[dim, :b] those before b, bins[dim, :] all, bins[dim, v] those with coordinate v; the order of events in bins is kept. A label divides the events of every bin into those before and those from the label on.", "quantifier": "for all binned data, all coordinates of events including NaN and infinities, integers and dates of any width, all labels", "why_tests_cant": "Tests use a hundred random numbers between 0 and 1. The end of an open range is computed from the largest coordinate by adding one or by the next floating-point number, which depends on the magnitude of the coordinate.", "anchors": ["src/scipp/core/bins.py:209-262", "src/scipp/core/binning.py:311-322", "lib/core/include/scipp/core/element/comparison.h:117-163", "lib/dataset/bin.cpp:597-605"]}
{"id": "C117", "title": "All routes of bin and hist agree", "statement": "Whichever way bin, group and hist choose internally (combine bins, concatenate first, two steps, directly; bin first and histogram last), every output bin holds exactly the events that belong there: those of the input bins at the position along the dims which remain, with coords in the bins or groups asked for. hist gives the sum of their weights. The output has the dims which remain and one for every key, the coord of that dim is the key, and the other coords are those which do not depend on dims that disappear. Only the dims asked for disappear, or else those of the coords.", "quantifier": "for all binned data with any dims, coords of bins and of events, any number of edges and groups, any dims to be erased", "why_tests_cant": "The route depends on which coords are coords of events or of bins, on their dims and on the dims that are erased. Tests cover a few combinations, mostly with coords that do not share names with the new dims.", "anchors": ["src/scipp/core/binning.py:66-108", "src/scipp/core/binning.py:158-212", "src/scipp/core/binning.py:265-282", "src/scipp/core/binning.py:368-384", "src/scipp/core/binning.py:562-605", "src/scipp/core/bin_remapping.py:139-155"]}
{"id": "C118", "title": "Binning of dense data with several dims", "statement": "bin and group of dense data with several dims put into every output bin exactly the elements at the position along the dims which remain, with coords in the bins or groups asked for, each with its weight and all its coords; hist gives the sum of their weights. The output has the dims which remain in their order, then one for every key. Binning succeeds whatever the coords are called and in whatever order their dims are.", "quantifier": "for all dense data with any number of dims and coords, any number of edges and groups, any dims to be replaced, any iteration order of Python sets", "why_tests_cant": "The order of a Python set of strings changes from run to run, a test sees one of them; the helper coords clash with coords of the user only for certain names and dims.", "anchors": ["src/scipp/core/binning.py:158-250", "src/scipp/core/binning.py:562-612", "lib/dataset/shape.cpp:179-301", "lib/dataset/bin.cpp:611-650"]}
{"id": "C119", "title": "All slices of an object in a dict", "statement": "collapse returns, for every tuple of indices along the dims other than the one to keep, exactly one slice, and slices returns one for every index along a dim. Each is stored under the text of its indices; no slice is lost because two texts coincide, whatever the dims are called.", "quantifier": "for all objects with any number of dims, any extents (also zero), strides and offsets, all dims to keep and all names of dims", "why_tests_cant": "Losing a slice needs two texts that coincide; tests try a few names and shapes, the claim is about all of them.", "anchors": ["src/scipp/utils/collapse_and_slices.py:9-110"]}
{"id": "C12", "title": "Elementwise operations do not depend on the thread schedule", "statement": "For any way the thread scheduler splits the output range into blocks and any interleaving of the blocks, an elementwise operation gives the same output as a serial run.", "quantifier": "all partitions of the range, all interleavings, all operations and inputs", "why_tests_cant": "schedules cannot be enumerated", "anchors": ["lib/variable/include/scipp/variable/transform.h: transform_elements, transform_in_place_impl", "lib/core/include/scipp/core/parallel-tbb.h"]}
{"id": "C120", "title": "Rebinning along several dims", "statement": "rebin along several dims gives every new bin the sum over all old bins of the counts times the product of the fractions along the dims that lie in the new bin, with masked elements counted as zero. The order in which the dims are given does not matter, and the total of what is not masked is conserved if the new edges span the old ones.", "quantifier": "for all arrays with any number of dims, masks and coords, any number of dims to rebin in any order, rising or falling edges", "why_tests_cant": "Dims are rebinned one after the other, each step applying and dropping masks and coords; that the result does not depend on the order is a claim about all arrays and orders, tests compare single cases.", "anchors": ["src/scipp/core/binning.py:899-970", "lib/dataset/rebin.cpp:14-31", "lib/dataset/dataset_operations_common.h:13-50", "lib/variable/rebin.cpp:92-168"]}
{"id": "C121", "title": "assert_identical", "statement": "assert_identical(a, b) of the testing module raises no exception exactly if the objects are identical (NaN equal to NaN), as documented: the same dims in the same order, units, dtypes, values and variances, the same coords, masks and attrs with the same alignment, the same events in every bin, the same items and coords of datasets.", "quantifier": "for all pairs of variables, data arrays, datasets, dense or binned", "why_tests_cant": "Users base their own tests on this function. That it accepts nothing else than identical objects is a claim about all pairs of objects; tests try pairs that differ in one respect known to the author.", "anchors": ["src/scipp/testing/assertions.py:73-236", "lib/python/view.h:58-97", "lib/python/bind_data_access.h:480-493"]}
{"id": "C122", "title": "Fits of every slice", "statement": "curve_fit makes one fit for every slice along the dims which are neither reduced nor dims of the coords to fit. Each fit uses exactly the elements of its slice that are not masked, each once with its own coords, and the initial guesses and bounds at the position of the slice. The result at a position of the output is the fit of the slice at that position; with fewer points than parameters it is NaN. Other coords of the data do not matter for whether a fit is possible.", "quantifier": "for all data arrays with any number of dims, coords, masks, and variances, any initial guesses and bounds with or without dims, any dims to reduce, and any solver", "why_tests_cant": "The slices are taken one dim after the other, then flattened and filtered; that the points, guesses and bounds of each fit belong together is a claim about all shapes and masks, tests check that the parameters found are close to those expected.", "anchors": ["src/scipp/curve_fit.py:48-109", "src/scipp/curve_fit.py:179-266", "src/scipp/curve_fit.py:502-549", "lib/dataset/sized_dict.cpp:221-250"]}
{"id": "C123", "title": "Filters by labels and coords", "statement": "Filters of N-D arrays (scipp.scipy.ndimage) use labels: sizes, origins and footprints given for a dim apply to that dim, for any order of dims. A size given in terms of the coord corresponds to the number of steps of the coord that it is long. The result at a position is the function of exactly the values within the footprint placed there; coords are kept; data with masks or variances is rejected.", "quantifier": "for all arrays with any number of dims, all coords, sizes, origins and footprints, and all functions of the values in a footprint", "why_tests_cant": "Tests use few shapes with footprints in the order of the dims of the data, and sizes in the middle between two integers; that labels are respected for all orders, and steps of coords are counted right for all coords, is a claim about all inputs.", "anchors": ["src/scipp/scipy/ndimage/__init__.py:31-46", "src/scipp/scipy/ndimage/__init__.py:49-90", "src/scipp/scipy/ndimage/__init__.py:186-205", "src/scipp/scipy/ndimage/__init__.py:223-242"]}
{"id": "C124", "title": "Interpolation along a dim", "statement": "interp1d interpolates every row along the dim, from exactly the points of the row which are not masked, each with its own coord, at the new points, or at the middle between neighbouring new points. The result has the new points as coord, and exactly those coords and masks of the input which do not depend on the dim. Variances, bin edges, masks of several dims, and new points with another unit or dim are rejected.", "quantifier": "for all data arrays with any number of dims, coords and masks, any new points, and any method of interpolation of one row", "why_tests_cant": "Tests compare few arrays with SciPy, with one mask; which points, values and metadata belong together is a claim about all masks, coords and shapes.", "anchors": ["src/scipp/scipy/interpolate/__init__.py:42-51", "src/scipp/scipy/interpolate/__init__.py:171-220", "src/scipp/compat/wrapping.py:70-143"]}
{"id": "C125", "title": "Tables of pandas", "statement": "Converting a table (or loading a CSV file) gives a dataset with every column exactly once, under the name and with the unit given by its header and with its own values, as data or as coord as requested, and with the index of the rows as coord unless it is trivial and not wanted. A header of the form `name [unit]` is split into name and unit; any other header, or one with an invalid unit, is the name as a whole without unit.", "quantifier": "for all tables with any columns, all headers, all choices of columns as data, any parser of headers and any set of valid units", "why_tests_cant": "Tests convert a few tables with given headers; that no column is lost or mixed up and headers are read right is a claim about all texts and sets of columns.", "anchors": ["src/scipp/compat/pandas_compat.py:27-84", "src/scipp/compat/pandas_compat.py:153-202", "src/scipp/io/csv.py:50-145"]}
{"id": "C126", "title": "Comparison of data arrays with tolerance", "statement": "`isnear` is true if and only if the data of both arrays are close within the tolerance and they have the same coords by name, each close within the tolerance, and masks which are the same; arrays with coords of different shape are rejected with an error.", "quantifier": "for all data arrays with any coords, attributes and masks, and any comparison of variables", "why_tests_cant": "Tests compare a few pairs; that two different arrays are never found to be near is a claim about all pairs.", "anchors": ["src/scipp/utils/comparison.py:65-88"]}
{"id": "C127", "title": "Conversion to and from Xarray", "statement": "Converting a data array to Xarray keeps names, dims, values and units of data and coords, and converting back gives the same data array, including its name and the alignment of coords, except for masks and variances, which are stripped. Binned data and bin edges are rejected.", "quantifier": "for all data arrays with any coords, units, masks and variances, any text of units and parser which reads it back, and any default unit", "why_tests_cant": "Tests convert a few arrays in either direction; that nothing else is lost in the round trip is a claim about all arrays.", "anchors": ["src/scipp/compat/xarray_compat.py:82-148"]}
{"id": "C128", "title": "Integration along a dim", "statement": "Integrating a data array along a dim gives, at any position along the other dims, the area below the points along the dim, at the positions given by the coord of the dim there; the unit is the product of the units of data and coord; other dims, masks and coords which do not depend on the dim are kept. Variances, bin edges and masks along the dim are rejected.", "quantifier": "for all data arrays of any number of dims and sizes, with any coords (also those with several dims), units and masks", "why_tests_cant": "Tests integrate one-dimensional or two-dimensional examples; that every row gets the right points whatever the number and order of dims is a claim about all arrays.", "anchors": ["src/scipp/scipy/integrate/__init__.py:19-30", "src/scipp/compat/wrapping.py:18-143"]}
{"id": "C129", "title": "Compact text of values with uncertainties", "statement": "The compact text of a value with uncertainty, e.g. `1.23(4)`, read in the usual way gives the value and its uncertainty, each up to half a unit of the last digit shown, with one or two significant digits of the uncertainty; values without uncertainty are shown in full.", "quantifier": "for all values and all positive uncertainties of any magnitude, in exact arithmetic", "why_tests_cant": "Tests format a few numbers; that digits and decimals are right for all magnitudes and at every boundary of rounding is a claim about all numbers.", "anchors": ["src/scipp/format/formatter.py:157-235"]}
{"id": "C13", "title": "Iterating over binned data visits every event once", "statement": "An operation on binned data visits every event of every bin exactly once, in bin order, paired with the right element of the non-binned operands, whatever the bin sizes (including runs of empty bins at the start, middle and end), and starting the iteration at bin k visits exactly the events of the bins from k on.", "quantifier": "all numbers of bins, all bin sizes, all split points", "why_tests_cant": "patterns of empty bins are unbounded", "anchors": ["lib/core/include/scipp/core/multi_index.h: increment_bins, seek_bin, load_bin_params, set_bins_index"]}
{"id": "C130", "title": "Format of variables as text", "statement": "A format specification is accepted if and only if it consists of an optional selection `<`, `>` or `^`, an optional length `#` with digits, an optional type `c` and an optional format of elements after `:` (a newline may follow), and gives these parts; its text gives the same specification when parsed. Of an array, as many elements are shown as requested: the first, the last, or the first and last ones in order, with dots if and only if some are left out.", "quantifier": "for all texts, all format specifications, all arrays and lengths", "why_tests_cant": "Tests parse a few specifications and show a few arrays; that nothing else is accepted and that boundaries are right for even and odd, short and long arrays is a claim about all texts and lengths.", "anchors": ["src/scipp/format/_parse.py:22-92", "src/scipp/format/formatter.py:102-130"]}
{"id": "C131", "title": "Ranges of numbers with units", "statement": "`arange` with start, stop and step gives exactly the quantities `start + k step` before the end, and `linspace` evenly spaced quantities from start to stop, in the requested unit, or else that of the arguments, whatever the units of the arguments. Mixtures of numbers and variables, variances, different units if none is requested, and incompatible units are rejected.", "quantifier": "for all starts, stops and steps, given as numbers or variables with any units, of any dtype, in exact arithmetic", "why_tests_cant": "Tests create a few ranges; that values, boundaries and units are right is a claim about all numbers, units and dtypes.", "anchors": ["src/scipp/core/variable.py:528-637", "src/scipp/core/variable.py:776-880"]}
{"id": "C132", "title": "Conversion of unit and dtype at once uses the larger dtype", "statement": "to(var, unit, dtype, copy) returns an object with the requested unit and dtype, what is not requested being unchanged; when both change, the unit is converted in the larger of both dtypes (int32 < int64 < float32 < float64), so that nothing is lost before it has to be; the result shares its buffer with the input exactly when no copy is requested and neither unit nor dtype changes; without unit and dtype it is an error.", "quantifier": "For all variables, dtypes, units, requests, copy flags, and all conversions of values between dtypes and units.", "why_tests_cant": "The order is decided by a chain of seven branches over pairs of dtypes, of which tests try some, with one pair of units; whether the result is shared depends on the combination of both conversions and the flag.", "anchors": ["src/scipp/core/operations.py:292-319", "lib/variable/to_unit.cpp:30-51", "lib/variable/astype.cpp:69-73"]}
{"id": "C133", "title": "Assigning metadata makes a new object", "statement": "assign_coords, assign_masks and assign_attrs of a data array return a new object whose named dict has the given entries and otherwise those of the input, while its other dicts are equal to those of the input; no existing dict is changed, whether the call succeeds or fails in the middle; it succeeds for read-only inputs such as slices; a name given both in the dict and by keyword is an error, and beside that it fails only if a value does not fit.", "quantifier": "For all data arrays, dicts, names, positional and keyword entries in any number and order, and any condition on what fits.", "why_tests_cant": "Tests assign one or two entries and compare the result; that nothing else is changed concerns every other object which may share the dicts, also after an error with any number of entries already set.", "anchors": ["src/scipp/core/assignments.py:14-25", "src/scipp/core/argument_handlers.py:11-23", "lib/dataset/sized_dict.cpp:221-250", "lib/dataset/data_array.cpp:24-33"]}
{"id": "C134", "title": "Signal filters use the physical frequency and are applied to matching data only", "statement": "butter(coord, Wn) accepts only regularly sampled coords and critical frequencies of inverse unit, and designs the filter for the ratio of the critical frequency to the sampling frequency as physical quantities, whatever the units; sosfiltfilt applies a filter only to data whose coord is identical to the one it was designed for, without variances, bin edges, or masks along the dim, and changes nothing but the values.", "quantifier": "For all coords, units, critical frequencies, designs and applications of filters, and all data arrays and variables.", "why_tests_cant": "Tests use a few coords and units; correctness of the ratio concerns all pairs of units, and regularity all coords, including those going back and forth.", "anchors": ["src/scipp/scipy/signal/__init__.py:48-151", "src/scipp/compat/wrapping.py:70-124", "lib/common/include/scipp/common/numeric.h:16-39"]}
{"id": "C135", "title": "Renaming renames coords with their dims, all at once", "statement": "rename of a data array renames coords and attrs, also those of events, like the dims: all names are replaced at once, every entry keeps its value, none is lost; a new name which a coord or attr already has is rejected.", "quantifier": "For all data arrays, dicts of names of any size, and all metadata, binned or not.", "why_tests_cant": "The loop replaces names one after the other, so the result depends on how old, new and existing names overlap and on the order of the dict; tests rename one or two dims to fresh names.", "anchors": ["src/scipp/core/dimensions.py:114-131", "lib/dataset/sized_dict.cpp:221-250"]}
{"id": "C136", "title": "Folding with a size left open", "statement": "fold with one size given as -1 uses the other sizes as given and the one size for which the number of elements is kept; it succeeds exactly if there is one, which is determined unless a given size is zero; more than one open size, or sizes which do not fit, are errors.", "quantifier": "For all lengths, all lists of sizes including zeros and negative numbers, and all volumes of other dims.", "why_tests_cant": "Tests fold a few lengths; floor division with zero or negative divisors and the comparison of total volumes behave differently on inputs tests do not reach, such as another dim of length zero.", "anchors": ["src/scipp/core/shape.py:243-269", "lib/core/dimensions.cpp:147-164"]}
{"id": "C137", "title": "Merging data groups is a union", "statement": "merge of two data groups returns the union of their items, names of the first before new ones of the second; it fails exactly if an item in both differs; the order of the groups does not matter, and a group can be merged with itself.", "quantifier": "For all data groups, any number and order of items, and any comparison of items.", "why_tests_cant": "Tests merge groups with a few items; that the outcome is independent of the order of groups and items, and complete, concerns all groups.", "anchors": ["src/scipp/core/operations.py:351-369"]}
{"id": "C138", "title": "New objects like given ones", "statement": "full_like returns an object with dims, shape, unit and dtype of the input, with the given value in every element, and with variances exactly if a variance is given; zeros_like and ones_like do so with 0 or 1 and have variances exactly if the input has. For a data array the coords are shared with the input and the masks are copies with the same contents. Whatever is written afterwards into data or masks of the result, no buffer that existed before changes.", "quantifier": "all inputs (any dims, any number of coords and masks, with or without variances), all values, all sequences of writes into the result", "why_tests_cant": "Isolation is about every sequence of later writes and every other object sharing buffers with the input; tests write once.", "anchors": ["src/scipp/core/like.py:42-49", "src/scipp/core/like.py:81-88", "src/scipp/core/like.py:167-175", "src/scipp/core/concepts.py:15-33"]}
{"id": "C139", "title": "Matrices from arrays", "statement": "In linear_transforms and affine_transforms the element in row i and column j of every matrix is that of the NumPy array, although matrices are stored by columns; for linear transforms a field such as xy is the element in that row and column. scalings_from_vectors gives one matrix per vector, with the coefficients of the vector on the diagonal and zeros elsewhere.", "quantifier": "all numbers of matrices, all values, all rows and columns", "why_tests_cant": "Tests use few matrices, often symmetric ones or the identity, for which rows and columns cannot be told apart.", "anchors": ["src/scipp/spatial/__init__.py:37-40", "src/scipp/spatial/__init__.py:169-178", "src/scipp/spatial/__init__.py:374-379", "src/scipp/spatial/__init__.py:432-437", "lib/python/variable_init.cpp:247-264", "lib/variable/variable_instantiate_linalg.cpp:25-32"]}
{"id": "C14", "title": "In-place operations with overlapping operands", "statement": "An in-place operation whose operands share memory gives the result computed from the values before the operation: the library reports an overlap whenever the memory of the two operands intersects and their elements do not coincide one-to-one.", "quantifier": "all pairs of views into one buffer (offset, shape, strides)", "why_tests_cant": "aliasing patterns are unbounded", "anchors": ["lib/core/element_array_view.cpp: ElementArrayViewParams::overlaps", "lib/common/include/scipp/common/index_composition.h: memory_bounds", "lib/variable/include/scipp/variable/transform.h: TransformInPlace"]}
{"id": "C15", "title": "Multi-threaded reductions equal serial reductions", "statement": "Reducing in parallel by splitting the outer dimension into chunks and combining gives the same result as the serial reduction for every associative and commutative operation, because the parallel path is used only if applying the operation to the initial value and itself leaves it unchanged; the chunks cover every element exactly once.", "quantifier": "all inputs, all sizes, all numbers of chunks, all associative and commutative operations and initial values", "why_tests_cant": "needs all sizes around chunk boundaries and an algebraic argument over the operation", "anchors": ["lib/variable/include/scipp/variable/accumulate.h: do_accumulate"]}
{"id": "C16", "title": "Dictionaries are insertion-ordered maps", "statement": "After any sequence of insert-or-assign, erase, extract and clear, looking up a key gives the last value assigned to it (or a not-found error), keys are unique, and iteration yields keys in the order of their first insertion since they were last absent.", "quantifier": "every finite sequence of dictionary operations", "why_tests_cant": "histories are unbounded", "anchors": ["lib/core/include/scipp/core/dict.h: Dict::insert_or_assign, extract, erase, find"]}
{"id": "C17", "title": "Sub-bin size lists behave like functions with finite support", "statement": "Adding, subtracting, adding-intersecting, summing and scanning offset-plus-list bin sizes gives at every position the sum/difference/prefix sum of the sizes at this position, missing positions counting as zero.", "quantifier": "all offsets and all lists of sizes", "why_tests_cant": "offset/length combinations are unbounded and the in-place scan overwrites what it reads", "anchors": ["lib/core/subbin_sizes.cpp: operator+=, binary, add_intersection, cumsum_exclusive, exclusive_scan"]}
{"id": "C18", "title": "Every value is assigned to the bin that contains it", "statement": "For sorted bin edges, a value is assigned to bin i exactly if edge[i] <= value < edge[i+1], and to no bin if outside the edges; the fast path for equidistant edges gives the same answer as the search over sorted edges as long as the arithmetic guess is at most one bin off.", "quantifier": "all sorted edge lists, all values, all guesses off by at most one", "why_tests_cant": "boundary values and rounding behaviour over all edges", "anchors": ["lib/core/include/scipp/core/histogram.h: get_bin, linear_edge_params", "lib/core/include/scipp/core/element/bin.h: update_indices_by_binning_sorted_edges, update_indices_by_binning_linspace"]}
{"id": "C19", "title": "Histogramming counts every event in range exactly once", "statement": "The histogram value of bin i is the sum of the weights of the events with edge[i] <= x < edge[i+1]; the histogram's total equals the total weight of the events in [first edge, last edge); unsorted edges are rejected.", "quantifier": "all event lists, weights and edge lists", "why_tests_cant": "conservation over all inputs", "anchors": ["lib/core/include/scipp/core/element/histogram.h: histogram", "lib/common/include/scipp/common/numeric.h: islinspace"]}
{"id": "C20", "title": "Binning permutes events: none lost, none duplicated, none misplaced", "statement": "After binning, output bin b contains exactly the input events assigned to b, in their original relative order; events assigned to no bin are dropped; the output bins are disjoint, contiguous and cover the output buffer.", "quantifier": "all event lists, all input bin structures, all assignments of events to output bins", "why_tests_cant": "needs all distributions of events over input and output bins", "anchors": ["lib/dataset/bin.cpp: SingleStageMapper, bins_from_sizes", "lib/core/include/scipp/core/element/map_to_bins.h: map_to_bins_direct", "lib/core/include/scipp/core/element/bin.h: count_indices", "lib/variable/bin_array_variable.cpp: contiguous_indices"]}
{"id": "C21", "title": "The cache-friendly event mapping equals the direct mapping", "statement": "Moving events to bins through intermediate chunks (used for many bins) writes exactly the same output as moving them directly, for every chunk size.", "quantifier": "all event lists, bin counts, chunk sizes and block sizes", "why_tests_cant": "the chunked path is used only for > 512 bins; all event orders matter", "anchors": ["lib/core/include/scipp/core/element/map_to_bins.h: map_to_bins_chunkwise, bin"]}
{"id": "C22", "title": "Two-stage binning equals single-stage binning", "statement": "Binning first into coarse groups of bins and then within each group yields the same output bins with the same events in the same order as binning directly.", "quantifier": "all event lists, bin counts and chunk sizes", "why_tests_cant": "only reached for very large bin counts", "anchors": ["lib/dataset/bin.cpp: TwoStageMapper, make_mapper"]}
{"id": "C23", "title": "Binning along several axes combines indices in row-major order", "statement": "After binning/grouping along several axes in sequence, an event is dropped iff it is out of range on some axis, and otherwise its output bin is the row-major combination of its per-axis bins.", "quantifier": "all numbers of axes, all extents, all per-axis results", "why_tests_cant": "combinatorial in number of axes", "anchors": ["lib/core/include/scipp/core/element/bin.h: update_indices_by_binning_*, update_indices_by_grouping, update_indices_from_existing"]}
{"id": "C24", "title": "Grouping by labels", "statement": "An event is assigned to group g exactly if its label equals the g-th requested label, duplicate requested labels are rejected, and the fast path for consecutive integer labels gives the same answer as the general one.", "quantifier": "all label lists and all event labels", "why_tests_cant": "all label sets incl. non-monotonic ones", "anchors": ["lib/core/include/scipp/core/element/bin.h: groups_to_map, update_indices_by_grouping, update_indices_by_grouping_contiguous", "lib/dataset/bin_detail.cpp: update_indices_by_grouping", "lib/common/include/scipp/common/numeric.h: isarange"]}
{"id": "C25", "title": "Restricting the output bins considered per input bin loses no event", "statement": "When input bins carry a sorted bin-edge coordinate for the new axis, considering only the output bins between the begin and end edge of each input bin assigns every event the same output bin as considering all output bins.", "quantifier": "all sorted old and new edges and all events lying inside their bin's edges", "why_tests_cant": "boundary alignments of old vs new edges are unbounded", "anchors": ["lib/core/include/scipp/core/element/bin_detail.h: begin_edge, end_edge", "lib/dataset/bin.cpp: TargetBinBuilder::build", "lib/variable/bin_detail.cpp: begin_edge, end_edge"]}
{"id": "C26", "title": "Lookup of values by coordinate", "statement": "Mapping events through a histogram-like function returns the value of the bin containing the event coordinate and the fill value outside; lookup in 'previous' mode returns the value at the last point not greater than the coordinate and the fill value before the first point; bins.scale multiplies by the value or by zero.", "quantifier": "all sorted coordinates, values and query points", "why_tests_cant": "boundary conditions over all inputs", "anchors": ["lib/core/include/scipp/core/element/event_operations.h: map_sorted_edges, map_linspace, lookup_previous, map_and_mul_sorted_edges", "lib/dataset/bins.cpp: map, lookup_previous, scale"]}
{"id": "C27", "title": "Rebinning redistributes counts proportionally to overlap and conserves them", "statement": "With strictly increasing old and new edges, each new bin receives from each old bin the fraction of its counts given by the overlap of the two bins; if the new edges span the old ones the total is conserved.", "quantifier": "all strictly increasing edge lists and all counts", "why_tests_cant": "two-pointer loop over unbounded edge lists", "anchors": ["lib/core/include/scipp/core/element/rebin.h: rebin"]}
{"id": "C28", "title": "Rebinning an outer dimension equals rebinning an inner dimension", "statement": "The algorithm used when the rebinned dimension is not contiguous in memory gives the same result as the one used when it is.", "quantifier": "all strictly increasing edge lists and all counts", "why_tests_cant": "two different algorithms must agree on all inputs", "anchors": ["lib/variable/rebin.cpp: rebin_non_inner", "lib/core/include/scipp/core/element/rebin.h: rebin"]}
{"id": "C29", "title": "Cumulative sums", "statement": "Element i of the inclusive (exclusive) cumulative sum is the sum of the first i+1 (first i) elements; the last inclusive element equals the total.", "quantifier": "all lists", "why_tests_cant": "all lengths", "anchors": ["lib/core/include/scipp/core/element/cumulative.h", "lib/variable/cumulative.cpp"]}
{"id": "C30", "title": "Uncertainty propagation", "statement": "For independent operands, the variances computed for +, -, *, / and scalar multiples are those of first-order error propagation: they are the squared derivatives times the operand variances, never negative, and independent of operand order for + and *.", "quantifier": "all values and variances (exact arithmetic)", "why_tests_cant": "identities over all reals", "anchors": ["lib/core/include/scipp/core/value_and_variance.h"]}
{"id": "C31", "title": "Variances are never broadcast silently", "statement": "An elementwise operation never applies one element having a variance to two different output elements: if an operand with variances would be broadcast, implicitly or through a stride-zero view, the operation throws.", "quantifier": "all operand dimensions, strides and output dimensions", "why_tests_cant": "all shape combinations incl. zero extents and stride zero", "anchors": ["lib/variable/include/scipp/variable/transform.h: bad_variance_broadcast, Transform, in_place::transform"]}
{"id": "C32", "title": "Unit arithmetic", "statement": "Adding or subtracting quantities with different units throws; multiplying/dividing combines units as an abelian group; operations between a quantity with a unit and one without (None) throw, and None combined with None is None; integer powers and square roots are consistent with multiplication.", "quantifier": "all units (all integer exponent vectors), including None", "why_tests_cant": "algebraic laws over all units", "anchors": ["lib/units/unit.cpp: operator+, -, *, /, %, sqrt, pow"]}
{"id": "C33", "title": "Read-only and partial views are protected", "statement": "Through a read-only view no element, unit or variance can be changed, and a view covering only part of the data cannot change the unit or set variances of the whole; read-only is inherited by every view derived from a read-only view.", "quantifier": "all sequences of view operations followed by any write", "why_tests_cant": "histories are unbounded", "anchors": ["lib/variable/variable.cpp: setUnit, expect_can_set_unit, setVariances, is_slice, expect_writable, as_const"]}
{"id": "C34", "title": "Failed in-place operations leave the target unchanged", "statement": "If an in-place arithmetic operation or slice assignment on a Variable, DataArray or Dataset throws, the target is unchanged.", "quantifier": "all operands and all points at which the operation may fail", "why_tests_cant": "needs every failure point", "anchors": ["lib/dataset/arithmetic.cpp: dry_run_op, apply", "lib/dataset/data_array.cpp: setSlice", "lib/dataset/dataset.cpp: setSlice", "lib/templates/dataset_inplace.cpp.in", "lib/dataset/sized_dict.cpp: setSlice, validateSlice"]}
{"id": "C35", "title": "Coordinates always fit the data", "statement": "After any sequence of operations on a data array's or dataset's coordinate dictionary (set, erase, extract, slice, rename, set sizes), every entry's dimensions are those of the data, except that at most one dimension may be longer by exactly one (bin edges) or be an extra length-2 dimension.", "quantifier": "every finite sequence of operations", "why_tests_cant": "histories are unbounded", "anchors": ["lib/dataset/sized_dict.cpp: set, setSizes, erase, extract, slice_coords, rename_dims"]}
{"id": "C36", "title": "Merging coordinates of two operands", "statement": "Combining two data arrays fails exactly if both have an aligned coordinate of the same name with different values; otherwise an aligned coordinate survives in the result whenever one operand has it, aligned wins over unaligned, two unaligned ones survive only if equal; the result does not depend on the order of the operands.", "quantifier": "all pairs of coordinate dictionaries", "why_tests_cant": "all combinations of alignment and equality over arbitrary sets of names", "anchors": ["lib/dataset/sized_dict.cpp: union_, intersection"]}
{"id": "C37", "title": "Masks are combined by logical or, and never lost", "statement": "The masks of the result of a binary operation are the union of the operands' masks, same-named masks are combined with logical or; for in-place operations the target keeps all its masks and gets those of the other operand.", "quantifier": "all pairs of mask dictionaries", "why_tests_cant": "arbitrary sets of names and values", "anchors": ["lib/dataset/dataset.cpp: union_or, union_or_in_place"]}
{"id": "C38", "title": "Masked elements do not contribute to reductions", "statement": "sum, mean, min, max, any, all over a dimension of a data array with masks equal the reduction over the unmasked elements only; masks not depending on the dimension are kept.", "quantifier": "all data, all masks, any number of masks", "why_tests_cant": "all mask patterns", "anchors": ["lib/dataset/variable_reduction.cpp: reduce_impl, sum, max, min, mean", "lib/dataset/operations.cpp: masked_data", "lib/dataset/sized_dict.cpp: irreducible_mask"]}
{"id": "C39", "title": "groupby partitions the data", "statement": "Grouping by a coordinate assigns every element to exactly one group, groups are labelled by the distinct coordinate values in ascending order, all NaN values form one group, and sums over groups add up to the total.", "quantifier": "all coordinate lists", "why_tests_cant": "unbounded inputs, runs of equal values", "anchors": ["lib/dataset/groupby.cpp: MakeGroups, NanSensitiveLess, nan_sensitive_equal, reduce"]}
{"id": "C40", "title": "groupby with bins", "statement": "Grouping by a coordinate with bins puts element i in group g exactly if edge[g] <= value[i] < edge[g+1].", "quantifier": "all coordinate lists and all sorted edges", "why_tests_cant": "unbounded inputs", "anchors": ["lib/dataset/groupby.cpp: MakeBinGroups"]}
{"id": "C41", "title": "Sorting", "statement": "Sorting a data array by a coordinate yields a permutation of its slices (every slice once, moved together with all coords and masks), ordered by the key, with NaN last.", "quantifier": "all key lists and both orders", "why_tests_cant": "unbounded inputs", "anchors": ["lib/dataset/sort.cpp: nan_sensitive_less, IndicesForSorting, sort"]}
{"id": "C42", "title": "Boolean indexing selects exactly the flagged elements", "statement": "Extracting with a boolean condition yields exactly the elements where the condition is true, in order.", "quantifier": "all conditions and data", "why_tests_cant": "run-length edge cases at both ends", "anchors": ["lib/dataset/extract.cpp: extract_ranges, extract_impl"]}
{"id": "C43", "title": "Concatenation and slicing are inverse", "statement": "Slicing the concatenation of several arrays at the cumulative offsets gives back the arrays; the extent is the sum of the extents; inputs lacking the dimension count as length one; concatenating bin edges joins them exactly if adjacent edges match.", "quantifier": "any number of inputs with any extents", "why_tests_cant": "unbounded lists", "anchors": ["lib/variable/shape.cpp: concat", "lib/core/sizes.cpp: concat", "lib/dataset/shape.cpp: join_edges, concat"]}
{"id": "C44", "title": "Bin edges stay bin edges under slicing", "statement": "Range-slicing a data array keeps, for a bin-edge coordinate along the sliced dimension, the edges of the selected bins (one more than bins); a point slice keeps the two edges of the bin; non-edge coordinates are sliced like the data.", "quantifier": "all coords and slices", "why_tests_cant": "all slice parameters", "anchors": ["lib/dataset/include/scipp/dataset/sized_dict.h: slice_map", "lib/core/sizes.cpp: is_edges"]}
{"id": "C45", "title": "Label-based slicing", "statement": "Slicing by coordinate value [a, b) selects exactly the points with a <= x < b (for ascending coordinates, a >= x > b for descending) or, for bin edges, exactly the bins overlapping the interval; a point slice with a value selects the unique matching point or the bin containing the value, and throws otherwise.", "quantifier": "all monotonic coordinates and all values", "why_tests_cant": "boundary conditions over all coordinates", "anchors": ["lib/variable/slice.cpp: get_slice_params, get_index, get_count, get_coord"]}
{"id": "C46", "title": "Floor division and remainder", "statement": "For all integers with b != 0, floor_divide(a,b)*b + remainder(a,b) = a with the remainder between 0 and b (sign of b), and integer powers equal repeated multiplication.", "quantifier": "all integers a, b; all exponents", "why_tests_cant": "all integer values incl. beyond 2^53", "anchors": ["lib/common/include/scipp/common/numeric.h: floor_divide, remainder, integer_pow_pos_exponent, pow"]}
{"id": "C47", "title": "Copying binned data keeps the contents of every bin", "statement": "Copying binned data (which compacts the buffer) leaves the list of events of every bin unchanged and yields contiguous non-overlapping bins, also when the input is a slice or its bins are out of order.", "quantifier": "all bin index lists and buffers", "why_tests_cant": "all layouts of bins in the buffer", "anchors": ["lib/variable/include/scipp/variable/bin_array_model.h: copy", "lib/variable/bin_array_variable.cpp: contiguous_indices, size_from_end_index", "lib/dataset/bins.cpp: copy_slices"]}
{"id": "C48", "title": "Concatenating bin contents", "statement": "Concatenating two binned arrays bin by bin gives in each bin the events of the first followed by the events of the second; concatenating all bins along a dimension preserves all events.", "quantifier": "all pairs of binned arrays of equal dims", "why_tests_cant": "all bin sizes", "anchors": ["lib/dataset/bins.cpp: combine, concatenate, append"]}
{"id": "C49", "title": "Flattening and folding bin-edge coordinates", "statement": "Flattening a data array along dimensions one of which has bin edges keeps the edges of each bin adjacent, so that folding back restores them; edges that cannot be joined are dropped.", "quantifier": "all shapes and edges", "why_tests_cant": "positions of the edge dim within the flattened dims and extra dims", "anchors": ["lib/dataset/shape.cpp: flatten_bin_edge, fold_bin_edge, flatten, fold"]}
{"id": "C50", "title": "Detection of linear and consecutive ranges", "statement": "A list is classified as an integer range exactly if consecutive elements differ by +1, and as linear exactly if they have constant positive step.", "quantifier": "all integer lists", "why_tests_cant": "non-monotonic lists", "anchors": ["lib/common/include/scipp/common/numeric.h: islinspace, isarange"]}
{"id": "C51", "title": "Threads partition the input of binning", "statement": "The ranges into which an unbinned table is split for multi-threaded binning are disjoint, in order and cover all rows.", "quantifier": "all table lengths", "why_tests_cant": "boundary lengths around the chunk limits", "anchors": ["lib/dataset/bins.cpp: pretend_bins_for_threading"]}
{"id": "C52", "title": "Shallow copies share, deep copies do not", "statement": "Writing through any view or shallow copy of a variable is seen by all others referring to the same elements and by nobody else; a deep copy is independent of its source in both directions.", "quantifier": "all sequences of copies, views and writes", "why_tests_cant": "histories are unbounded", "anchors": ["lib/variable/variable.cpp: Variable(const Variable&), slice", "lib/variable/variable_concept.h"]}
{"id": "C53", "title": "Dataset items are consistent with the shared coordinates", "statement": "After any sequence of setting and erasing data items and coords in a dataset, every item fits the dataset's dimensions, and inserting a data array whose coord conflicts with an existing aligned coord throws and leaves the dataset unchanged.", "quantifier": "every finite sequence of operations", "why_tests_cant": "histories are unbounded", "anchors": ["lib/dataset/dataset.cpp: setData, setDataInit, setCoord, erase, coords_to_skip"]}
{"id": "C54", "title": "Equality is an equivalence that ignores memory layout", "statement": "Variable equality holds exactly if dims, unit, dtype, presence of variances and all elements agree, independent of strides and offsets; dictionary equality is independent of insertion order.", "quantifier": "all views and dictionaries", "why_tests_cant": "all layouts", "anchors": ["lib/variable/variable.cpp: compare", "lib/core/sizes.cpp: small_stable_map::operator==", "lib/dataset/sized_dict.cpp: operator=="]}
{"id": "C55", "title": "Setting variances is elementwise", "statement": "After setVariances(v) on a variable, the variance of each element is the value of the element of v with the same named coordinates, whatever view v is.", "quantifier": "all targets and arguments, including slices, transposed and broadcast arguments", "why_tests_cant": "depends on the memory layout of both operands", "anchors": ["lib/variable/variable.cpp: setVariances", "lib/variable/include/scipp/variable/element_array_variable.tcc: ElementArrayModel::setVariances"]}
{"id": "C56", "title": "In-place operation of a dataset with a variable applies to every item once", "statement": "`ds op= var` applies the operation to every item of the dataset exactly once, with the value var had before the operation, even if var refers to the data of one or several items.", "quantifier": "all datasets, operands and sharing of buffers between items and operand", "why_tests_cant": "depends on which items alias the operand", "anchors": ["lib/dataset/arithmetic.cpp: apply_with_delay, have_common_underlying"]}
{"id": "C57", "title": "A reduction combines exactly the elements along the reduced dim", "statement": "Reducing a variable along a dim (sum, nansum, all, any, min, max) gives a variable with the remaining dims in order. Its element at some coordinates is the initial value combined with exactly the input elements at these coordinates, each once and in order, whatever the strides of the input and the schedule of the threads. Reducing all dims combines all elements, each once.", "quantifier": "all inputs of any dims and strides (transposed, sliced, broadcast), all operations, all splits into blocks and all interleavings", "why_tests_cant": "the output is traversed with stride zero and the iteration order is flattened: correctness depends on the interplay of strides, extents and threads, and tests use few layouts and small data that never run in parallel", "anchors": ["lib/variable/reduction.cpp: reduce_dim, reduce_to_dims", "lib/variable/operations_common.h: reduce_all_dims", "lib/variable/include/scipp/variable/accumulate.h", "lib/variable/include/scipp/variable/transform.h: transform_in_place_impl", "lib/core/multi_index.cpp: flatten_dims"]}
{"id": "C58", "title": "Indexing from Python selects what Python sequences select", "statement": "obj[dim, i], obj[dim, start:stop:step] and obj[dim, [i, j, ...]] select exactly the positions a Python list of the length of the dim would select, in the same order, for negative and out-of-range integers and None; steps that are not positive and missing dims are refused; the implicit dim is accepted for 1-D objects only.", "quantifier": "all views, all dims, all integers and None for start, stop and step, all lists of integers", "why_tests_cant": "the space of start/stop/step combinations with clamping, negative values, steps and empty results is unbounded; several layers (interpreter, bindings, Slice, Sizes::slice, strides) each adjust the numbers", "anchors": ["lib/python/bind_slice_methods.h: from_py_slice, get_slice, slice_by_list", "lib/core/slice.cpp", "lib/dataset/extract.cpp: extract_ranges"]}
{"id": "C59", "title": "Unit conversion of integers and datetimes", "statement": "to_unit of 64-bit integers and datetimes to a unit smaller by an integral factor k gives exactly k times the number although the ratio of the unit multipliers is only known up to rounding; to another unit it gives the nearest integer. It never reverses the order of two numbers. Conversion to the same unit changes nothing; conversion from or to None, between different physical dimensions, and of datetimes from or to days or larger units is refused.", "quantifier": "all integers, all factors, all rounding errors of the ratio up to 2^-50", "why_tests_cant": "the result depends on rounding of double at particular magnitudes; tests use small numbers", "anchors": ["lib/variable/to_unit.cpp: to_unit, greater_than_days", "lib/core/include/scipp/core/element/to_unit.h: safe_cast, round, to_unit"]}
{"id": "C60", "title": "Fields of structured variables", "statement": "A field of a variable of vectors, matrices or index pairs has the dims of the variable and refers to exactly that component of each of its elements; assigning to it changes nothing else; it commutes with slicing; the name of a matrix field agrees with the row and column of the array shown in Python; unzip undoes zip.", "quantifier": "all views (sliced, transposed, broadcast), all numbers of components, all keys", "why_tests_cant": "offset and strides must be scaled consistently for every layout; tests use contiguous variables", "anchors": ["lib/variable/include/scipp/variable/structure_array_variable.tcc: elements_impl", "lib/variable/variable_instantiate_linalg.cpp: structure_element_offset", "lib/variable/util.cpp: zip, unzip", "lib/python/bind_data_access.h: get_matrix_elements"]}
{"id": "C61", "title": "Products and inverses of spatial transformations compose and undo them", "statement": "For linear, affine, translation and rotation transformations: a * v is the point a takes v to; a * b is a transformation with (a * b) * v = a * (b * v), for every combination of types; inv(a) undoes a from both sides; with transformations of points in one unit the products and inverses have that unit again, and translations in another unit are refused.", "quantifier": "for all transformations of the four types, all points, all units", "why_tests_cant": "The tests compare a product with the same Eigen expression for one pair of values; sixteen combinations of types times all values are not covered, and affine * linear is not tested at all.", "anchors": ["lib/core/include/scipp/core/spatial_transforms.h:89-149", "lib/variable/arithmetic.cpp:17-62", "lib/core/include/scipp/core/element/arithmetic.h:99-173", "lib/variable/inv.cpp:13-50"]}
{"id": "C62", "title": "Operations on rows see the rows: spans, contiguous copies, sort and issorted along a dim", "statement": "subspan_view(var, dim) gives, for every position of the other dims, exactly the elements along dim, and raises if they are not contiguous; as_contiguous gives the same elements in a layout for which it never raises; sort(var, dim) permutes every row and leaves it in order, issorted/allsorted say whether rows are in order, and what sort returns is sorted.", "quantifier": "for all views (dims, strides, offsets), all dims, all element types with a strict weak order, all orders", "why_tests_cant": "Tests use one or two shapes in row-major layout; any strides, offsets and positions of the dim are possible after slicing, transposing and broadcasting.", "anchors": ["lib/variable/subspan_view.cpp:16-105", "lib/variable/util.cpp:59-85", "lib/variable/util.cpp:116-123", "lib/variable/sort.cpp:14-23", "lib/core/include/scipp/core/element/sort.h:19-49"]}
{"id": "C63", "title": "Dims are identified by their labels", "statement": "Two dims constructed from labels are equal exactly if the labels are equal, the name of a dim is the label it was constructed from, ids fit 16 bits, and construction fails only if 64536 other labels are in use.", "quantifier": "all sequences of labels, any number of threads, all interleavings of their critical sections", "why_tests_cant": "the registry is global state that grows with every program, and interleavings are unbounded", "anchors": ["lib/units/dim.cpp: Dim::Dim, Dim::name, builtin_ids, custom_ids", "lib/units/include/scipp/units/dim.h: Dim::Id"]}
{"id": "C64", "title": "Assignment of NumPy arrays", "statement": "Assigning a NumPy array to the values of a variable sets every element to the corresponding element the array had before the assignment, and nothing else, even if the array refers to memory of the variable (a view of `var.values` with any strides, e.g. reversed or broadcast), in whatever order blocks are processed; arrays of other shapes are rejected.", "quantifier": "all variables (dims, strides, offset), all arrays (pointer, shape, strides of any sign), all contents of memory, all orders of processing in blocks", "why_tests_cant": "Aliasing between source and target is a relation of pointers, shapes and strides of any sign; tests try a few, and an undetected overlap shows only if elements are read after they have been written.", "anchors": ["lib/python/numpy.h:70-309", "lib/python/bind_data_access.h:175-225"]}
{"id": "C65", "title": "Infinities and NaN in reductions", "statement": "Whatever the order in which elements are accumulated and partial results are combined: sum is NaN if an element is NaN or infinities of both signs occur, otherwise the sum; nansum is the sum of elements that are not NaN; max and min return NaN if an element is NaN, otherwise an element (with its variance) than which none is larger or smaller; nanmax and nanmin return such an element among those that are not NaN; nanmean is the sum of what is not NaN divided by how many these are.", "quantifier": "all lists of numbers with infinities and NaN, with and without variances, all orders and ways to combine partial results", "why_tests_cant": "Special values matter at every position relative to others and to chunk borders of the parallel reduction; tests use inputs below the threading limit and at most one special value.", "anchors": ["lib/core/include/scipp/core/element/comparison.h:117-163", "lib/core/include/scipp/core/element/arithmetic.h:29-40", "lib/core/include/scipp/core/value_and_variance.h:298-307", "lib/variable/reduction.cpp:55-260", "lib/variable/operations_common.h:21-49", "lib/core/include/scipp/core/element/creation.h:48-58"]}
{"id": "C66", "title": "isclose", "statement": "Two elements are close if and only if |x - y| <= atol + rtol |y|, and, if both have variances, the same holds for the standard deviations; NaN is close to NaN only, and infinities only to the same infinity, and both only if equal_nan is set; units of x, y and atol must agree and rtol be dimensionless.", "quantifier": "all numbers including infinities and NaN, all tolerances, all units", "why_tests_cant": "The claim covers all combinations of special values and tolerances; the tolerance itself can become infinite or NaN.", "anchors": ["lib/variable/comparison.cpp:36-69", "lib/core/include/scipp/core/element/comparison.h:26-55"]}
{"id": "C67", "title": "Powers of variables, into a new and into an existing variable", "statement": "pow(base, exponent) has the merged dims, element by element the power of base and exponent, and the unit raised to the exponent; it succeeds exactly if the exponent is dimensionless, shared dims agree, a base with a unit has a scalar integral exponent, and an integer base has no negative integer exponents. pow(base, exponent, out) and base **= exponent store the same in the output, change nothing else, and leave everything unchanged if they fail.", "quantifier": "for all bases, exponents and outputs of the supported types with any dims, values and units, and for the same variable in more than one role", "why_tests_cant": "the outcome depends on the combination of two types, two units, integrality and sign of exponents, and aliasing of three arguments; tests pick a few combinations", "anchors": ["lib/variable/pow.cpp:15-118", "lib/core/include/scipp/core/element/math.h:61-88", "lib/python/bind_operators.h:207-213"]}
{"id": "C68", "title": "Conversion between counts and count densities", "statement": "Converting counts to a density divides every element by the widths of its bin and the unit by the units of the coords; converting back gives the original counts. Data without counts is left alone, a density is not converted twice. The input is not changed, and a conversion that fails changes nothing.", "quantifier": "for all data, coords, lists of dims and units", "why_tests_cant": "the round trip depends on the units of all coords involved and on the order of items; the test in the repository converts one item with one coord and assigns the result to the input", "anchors": ["lib/dataset/counts.cpp:13-101", "lib/units/unit.cpp:63-67"]}
{"id": "C69", "title": "Reductions of binned data use exactly the unmasked events", "statement": "`bins.sum`, `bins.nansum`, `bins.mean`, `bins.max`, `bins.min`, `bins.any`, `bins.all` give for every bin the reduction of the events of this bin that are not masked by a mask of the events; reducing binned data along a dim (or all dims) gives the reduction of all unmasked events in the bins that are not masked by a mask of the bins; means divide by the number of these events and are NaN if there is none.", "quantifier": "for all binned arrays (bins in any order, overlapping, with gaps, empty), any number of event masks and of bin masks with any dims, all dims", "why_tests_cant": "event masks are applied by replacing events by a neutral value in the buffer, bin masks by an elementwise operation that re-packs the buffer and must carry the event masks along (with a shortcut if the layout is unchanged), and the counts for means are computed separately; tests use a few layouts, and none combines masks of bins with a mean", "anchors": ["lib/variable/reduction.cpp:25-53", "lib/variable/reduction.cpp:108-256", "lib/dataset/variable_reduction.cpp:20-91", "lib/dataset/variable_instantiate_bin_elements.cpp:78-146", "lib/variable/bin_array_variable.cpp:9-18", "lib/variable/include/scipp/variable/bin_array_variable.tcc:90-139", "lib/dataset/mean.cpp:16-23"]}
{"id": "C70", "title": "The text of a datetime stands for that datetime", "statement": "to_iso_date prints a time point as an ISO 8601 date and time that stands for exactly this time point: the calendar date and time of the second that contains it, followed for ms, us and ns by exactly three, six or nine decimal places; different time points of a unit print differently. Units longer than an hour and non-time units are refused. Printed arrays show all elements up to four and otherwise the first two and the last two.", "quantifier": "all 64-bit time points, all units, all arrays", "why_tests_cant": "The tests print a handful of datetimes; the claim ranges over 2^64 time points per unit, across all month, leap-year and century boundaries and on both sides of 1970, where truncating division and the sign of the remainder matter.", "anchors": ["lib/core/string.cpp:85-157", "lib/core/include/scipp/core/array_to_string.h:72-91"]}
{"id": "C71", "title": "nan_to_num replaces special values in its result only", "statement": "nan_to_num(x, nan, posinf, neginf) returns the values and variances of x with NaN, inf and -inf replaced by the given replacements and leaves x and everything else unchanged; with an output argument, out gets exactly these elements.", "quantifier": "all variables and views, all replacements, all combinations of arguments, all states of shared buffers", "why_tests_cant": "Tests compare the result for a few arrays; whether the input, or another view of its buffer, is modified and how replacements interact depends on aliasing and on the combination of arguments, which are not enumerated.", "anchors": ["lib/python/unary.cpp:26-63", "lib/variable/special_values.cpp:11-31", "lib/core/include/scipp/core/element/special_values.h:74-132"]}
{"id": "C72", "title": "Bins made from begin and end indices", "statement": "Indices for binned data are accepted exactly if every bin is a range of positions of the buffer and any two bins are apart, so that every position is in at most one bin; otherwise an error is raised. Without end, bins() succeeds exactly for nondecreasing begin indices within the buffer, and then every position from the first begin index on is in exactly one bin; without begin and end every element is a bin of its own.", "quantifier": "all index arrays in any order, all buffer lengths", "why_tests_cant": "The accepted set is defined by a condition on all pairs of bins while the code compares neighbours after sorting; agreement for all index arrays, including empty bins and ties, is not testable by examples.", "anchors": ["lib/variable/variable_instantiate_bin_elements.cpp:38-57", "lib/python/bins.cpp:27-58"]}
{"id": "C73", "title": "Midpoints of neighbouring elements", "statement": "midpoints(var, dim) of a variable without variances, along a dimension of two or more elements, makes that dimension one shorter, leaves the others, and puts at each place the midpoint of the element there and its successor. The midpoint of two integers or datetimes is computed without overflow however far apart they are, lies between them and is within one half of the mean, rounded towards the first; so midpoints of ascending integers are ascending and separate the elements. For floating-point numbers no finite input gives an infinite intermediate value. Everything else (no dims, dimension missing, ambiguous or of length 0 or 1, variances) is an error.", "quantifier": "all bit widths, all pairs of representable values, all views (dims, strides, offsets) and all dims of them", "why_tests_cant": "Overflow shows only at pairs of extreme values, of which there are 2^128; tests use a few small ones. That any strided view gives neighbours along the right dim needs all layouts.", "anchors": ["lib/variable/math.cpp:10-31", "lib/core/include/scipp/core/element/math.h:22-45", "lib/core/include/scipp/core/element/math.h:169-193", "lib/core/slice.cpp:26-38"]}
{"id": "C74", "title": "Construction of variables", "statement": "A variable made with makeVariable has the dimensions, values, variances and unit given, in whatever order the arguments come; arrays not given are filled with the default value, and the number of values and variances is the volume, anything else being an error. The same holds for the constructor in Python, which takes labels and arrays.", "quantifier": "all element types, all lists of arguments and all orders of them, all arrays in Python", "why_tests_cant": "Arguments in any order and of any length; a missing check of a length shows as a read beyond the end of an array, which tests do not notice.", "anchors": ["lib/variable/include/scipp/variable/variable.h:174-199", "lib/variable/include/scipp/variable/variable_keyword_arg_constructor.h:69-112", "lib/variable/include/scipp/variable/element_array_variable.tcc:66-83", "lib/variable/include/scipp/variable/variable.tcc:56-95", "lib/python/variable_init.cpp:51-240"]}
{"id": "C75", "title": "No reference cycles of nested variables", "statement": "A variable may have elements that are variables. An assignment to a variable or to an element is refused exactly if the element assigned to can be reached from the right-hand side; so, whatever a program does, no element can be reached from itself, the check itself always ends, and no array keeps itself alive.", "quantifier": "all heaps of arrays of variables, all programs (sequences of making variables, taking slices and assigning variables or elements), all depths of nesting", "why_tests_cant": "A test assigns a variable to its own element at one or two levels; it cannot cover all graphs of variables, and a leaked cycle does not show in the result of a test.", "anchors": ["lib/variable/variable.cpp:52-86"]}
{"id": "C76", "title": "The array of elements is an optional list", "statement": "The container with the elements of a variable behaves, under any sequence of constructions, copies, moves, assignments, resets, resizings and writes, as an optional list of elements: copies have the same content and are independent, what is moved from is not set, resizing gives the size asked for, an invalid size is an error that changes nothing, and no access is outside of what was allocated.", "quantifier": "all element types, all sequences of operations on any number of arrays", "why_tests_cant": "Tests do one or two operations on an array of two or three elements; the combination of states (not set, empty, with elements) and operations, and self-assignment, are not enumerated.", "anchors": ["lib/core/include/scipp/core/element_array.h:15-162"]}
{"id": "C77", "title": "Dimensions and metadata of the result of bin", "statement": "The result of `bin` has the dimensions of the input in their order, each with the number of bins given by the groups or edges for it, without the erased ones, followed by the dimensions of new groups and then new edges. Its coords are exactly: the given groups and edges (aligned), event coords that do not depend on the event dimension, and coords of the input along unchanged dimensions. Every mask of the input is either kept or has been applied to the events. Everything in the result fits its dimensions.", "quantifier": "for all dimensions, coords, masks and attrs of binned data or tables, all lists of edges and groups and all erased dimensions", "why_tests_cant": "The outcome depends on the combination of dimension order, which dimensions have edges or groups, which are erased, names shared between events, bins, edges and the event dimension; tests cover a few layouts. Masks that are lost silently leave a result that looks valid.", "anchors": ["lib/dataset/bin.cpp:232-293", "lib/dataset/bin.cpp:394-502", "lib/dataset/bin.cpp:583-678", "lib/dataset/bins_util.h:14-28"]}
{"id": "C78", "title": "bin puts every event into the bin it belongs to, and into no other", "statement": "The output bin at a position holds exactly those events that belong to it along every dimension: their value lies between the bin edges, their label is the one of the group, or their input bin is at that position. The events keep the order of the input. An event is in at most one output bin. Binning along some dimensions and then along further ones gives the same as binning along all at once. Binning along a dimension that already has bins gives the same events as binning the original table.", "quantifier": "all numbers and kinds of axes, tables, numbers of input bins, orders of the writes of threads, one or two stages", "why_tests_cant": "The result depends on the number of output bins (two stages beyond 16384, chunked mapping beyond 512), on how the table is split for threading and on the schedule; every combination of kinds of axes has its own code for indices, offsets and considered ranges.", "anchors": ["lib/dataset/bin.cpp:42-49", "lib/dataset/bin.cpp:190-230", "lib/dataset/bin.cpp:305-392", "lib/dataset/bin.cpp:622-678"]}
{"id": "C79", "title": "Operations with datasets act on the items; merge is the union", "statement": "A binary operation with datasets yields exactly the items with names in both operands, each of them being the result of the operation for the two data arrays, and the coords are the union of the coords of the operands with conflicts of aligned coords reported. With a data array or a variable it acts on every item. The operation fails exactly if it fails for one of the items, with the error of the first one. merge yields the items of both datasets and the union of the coords, and fails if items or aligned coords with the same name differ.", "quantifier": "all well-formed datasets and data arrays, any number of items and coords with any flags, any operation on the data with broadcast, any orders of names", "why_tests_cant": "The result is filled item by item by a setter that compares coords, skips some of them and sets sizes with the first item; whether all items agree depends on all combinations of items, coords and flags.", "anchors": ["lib/dataset/arithmetic.cpp:85", "lib/dataset/operations.cpp:20", "lib/templates/dataset_binary.cpp.in:12", "lib/dataset/include/scipp/dataset/dataset.h:62", "lib/dataset/dataset.cpp:189", "lib/dataset/data_array.cpp:166"]}
{"id": "C80", "title": "Squeezing removes dims of length 1 and nothing else", "statement": "squeeze removes the dims of length 1 that are asked for (all of them if no selection is given) and fails exactly if a selected dim is missing, has another length, or is given twice. The other dims keep their order, no element is lost or moved, the order of the selection does not matter, and without a selection no dim of length 1 is left. For a data array the data, coords, masks and attrs are squeezed in the same way under the same condition; bin edges along a squeezed dim keep both edges, names are kept, elements are not copied, and a coord is aligned afterwards exactly if it was and does not merely label squeezed dims. Squeezing a dataset squeezes its coords and every item in this way.", "quantifier": "for all variables and well-formed data arrays and datasets with any dims, strides, coords, masks and attrs, and all selections", "why_tests_cant": "The outcome depends on every combination of dims, strides, bin edges, names of coords and order of a selection; the alignment of a coord is decided step by step as dims disappear.", "anchors": ["lib/variable/shape.cpp:138-168", "lib/dataset/shape.cpp:312-332", "lib/dataset/data_array.cpp:129-134", "lib/dataset/sized_dict.cpp:275-299"]}
{"id": "C81", "title": "Slicing a dataset slices the items", "statement": "A dataset can be sliced exactly if the slice is within bounds and, unless the stride is 1, none of its coords, masks and attrs has bin edges along the sliced dim. The slice is a consistent, read-only dataset with the same names in the same order. Slicing and selecting an item commute: ds.slice(p)[name] is ds[name].slice(p), with the same data, coords, masks and attrs.", "quantifier": "for all consistent datasets, all slices and all names", "why_tests_cant": "Slicing goes through the items without their coords, rebuilds a dataset by inserting item after item (with all the checks and rollbacks of insertion), and slices the coords separately; that both orders agree depends on each coord, its dims, whether it holds bin edges, and its alignment.", "anchors": ["lib/dataset/dataset.cpp:229-235", "lib/dataset/dataset.cpp:150-180", "lib/dataset/include/scipp/dataset/sized_dict.h:17-43", "lib/dataset/sized_dict.cpp:255-300"]}
{"id": "C82", "title": "Renaming dims of, and transposing, data arrays and datasets", "statement": "Renaming dims of a data array or a dataset is accepted exactly if each pair, in turn, replaces an existing dim by a new one and no new label is a dim that only a coord, mask or attr has (the edges of a selected bin). It changes labels and nothing else: extents, memory, strides, flags and keys of coords stay, in data, coords, masks and attrs alike; the result is consistent, renaming back gives the original, and an item of the renamed dataset is the renamed item. Transposing accepts exactly permutations of the dims (or nothing, which reverses them), finds every element at the same named coordinates, leaves coords, masks and attrs alone and can be undone; for a dataset the result consists of the transposed items and keeps the coords.", "quantifier": "for all data arrays and datasets with any number of dims, coords, masks, attrs and items, all lists of renamings (including chains and swaps) and all orders", "why_tests_cant": "Renaming walks a list of pairs over dictionaries whose entries have any subset of the dims, including dims the data does not have; tests rename one or two dims of a few arrays. That nothing but labels changes and that renaming can be undone is a statement about all lists of pairs.", "anchors": ["lib/dataset/data_array.cpp:208-214", "lib/dataset/dataset.cpp:266-272", "lib/dataset/sized_dict.cpp:337-356", "lib/dataset/shape.cpp:303-310", "lib/dataset/dataset_operations_common.h:75-81"]}
{"id": "C83", "title": "Bin indices do not overflow", "statement": "When binning or grouping, the index of the output bin of an event is built up by multiplying and adding in an integer of 32 or 64 bits. For any number of axes, any kinds of axes and any event, no intermediate or final value is truncated or overflows: the stored index is the exact row-major index of the bin the event belongs to, and -1 if there is none, whatever the number of events and the number of output bins.", "quantifier": "for all lists of axes (edges, linear edges, groups, integer groups, existing dims), all extents, all numbers of events and all events", "why_tests_cant": "The choice between 32 and 64 bits matters only with more than 2^31 output bins, which no test allocates.", "anchors": ["lib/dataset/bin.cpp:504-523", "lib/dataset/bin.cpp:638-641", "lib/core/include/scipp/core/element/bin.h:56-184"]}
{"id": "C84", "title": "Rebinning data with several dims", "statement": "Rebinning a variable along one dim gives, for every position in the other dims, the rebinned row of that position, whatever the order of dims and the memory layout of the data and the edges, and whether or not edges depend on other dims. Sizes along other dims do not change, and masked elements contribute nothing when the masks are applied first. Variances, checks of units and the supported types do not depend on the layout.", "quantifier": "for all data of any number of dims in any layout, all old and new edges that rise or fall together, all masks", "why_tests_cant": "There are two implementations, chosen by the stride of the data along the dim. Tests fix one layout per case, with one or two dims, and compare with numbers computed for it. That both give the same for every layout is a statement about all layouts.", "anchors": ["lib/variable/rebin.cpp:20-168", "lib/dataset/rebin.cpp:14-35", "lib/core/include/scipp/core/element/rebin.h:20-76", "lib/variable/include/scipp/variable/transform_subspan.h:20-95"]}
{"id": "C85", "title": "Histograms of data with several dims and of binned data", "statement": "Histogramming a data array gives, at every position of the dims that remain and in every bin, the sum of the weights of the elements whose coordinate lies in that bin, with masked elements counting as zero. This holds for any order of dims and memory layout, for edges that depend on other dims, and for coords of a dim of another name. For binned data all events of the bins along the dim are counted, except for masked bins and masked events; dims of the binning other than the histogrammed one stay.", "quantifier": "for all dense data of any number of dims in any layout, all binned data, all coords, sorted edges (equidistant or not) and masks", "why_tests_cant": "Tests histogram a few arrays with given layouts. Which dims remain, where they end up and which memory each row is read from depends on the combination of the dims of data, coord, edges and masks; there is no finite set of cases that covers these.", "anchors": ["lib/dataset/histogram.cpp:28-89", "lib/dataset/bins.cpp:322-363", "lib/dataset/bins_util.h:14-28", "lib/dataset/operations.cpp:118-127", "lib/core/include/scipp/core/element/histogram.h:20-93"]}
{"id": "C86", "title": "Coords, masks and attrs after an operation that drops a dim", "statement": "Reductions, rebinning, resizing and histogramming keep exactly the coords, masks and attrs that do not depend on the dim concerned. Coords and attrs are shared with the input, masks are copied. Rebinning and histogramming add the new edges as a coord. The result is a well-formed data array, and metadata never makes such an operation fail. Reducing all dims keeps what depends on none of them. For datasets every item is processed this way and the common coords stay consistent.", "quantifier": "for all data arrays and datasets with any coords (also bin edges and edges of dims that are gone), masks and attrs, all dims and all functions computing the data", "why_tests_cant": "Which coords survive depends on the dims of every coord in relation to the dims of the data and the operation. Tests look at a few coords of common shape, and check one operation each.", "anchors": ["lib/dataset/dataset_operations_common.h:12-81", "lib/templates/dataset_reduction.cpp.in:15-47", "lib/variable/operations_common.h:38-49", "lib/dataset/rebin.cpp:25-35", "lib/dataset/histogram.cpp:27-133", "lib/dataset/mean.cpp:18-33", "lib/dataset/shape.cpp:148-163"]}
{"id": "C87", "title": "Concatenation of datasets", "statement": "Concatenating datasets gives a dataset whose items are those that all inputs have, in the order of the first; every item is the concatenation of the data arrays of that name. Every coord and, for every item, data, masks and attrs consist of the corresponding parts of the inputs, at offsets given by the lengths of the datasets. Concatenating succeeds whenever the arrays of all common names can be concatenated. The alignment of coords is kept, no coords are lost, and datasets without items are treated in the same way.", "quantifier": "for all nonempty lists of consistent datasets with any number of items, any dims in any order, any coords, masks and attrs, and all dims", "why_tests_cant": "Coords are concatenated once per item and inserted with a conflict check; that this never fails depends on all items giving the same result. Tests have one or two items and coords of common shape, and do not compare flags.", "anchors": ["lib/dataset/shape.cpp:78-147", "lib/dataset/dataset.cpp:127-227", "lib/dataset/data_array.cpp:165-182", "lib/dataset/sized_dict.cpp:402-408"]}
{"id": "C88", "title": "Dtype and unit of variables created in Python; datetimes", "statement": "A variable created in Python has the dtype asked for, else that of the values, else that of the variances, and the unit asked for, else the default (dimensionless for numbers, none for others). Elements are converted only between numbers, from integers to datetimes and to Python objects; variances are accepted for floating-point numbers only. Datetimes of NumPy keep their instants: they are accepted exactly if the arguments unit and dtype agree and name a unit of time, and their numbers are those obtained by converting from the unit of the input to the unit asked for. Integers are taken as counts of the unit asked for. Lists and arrays are treated alike, every number type of NumPy can be converted by asking for a dtype, and missing times stay missing. astype and assignment to values never change the unit behind the numbers.", "quantifier": "for all combinations of values, variances, unit and dtype arguments, all units of time, all numbers, scalars and arrays", "why_tests_cant": "The unit comes from four places (dtype text, unit argument, dtype of the values, default), each with several encodings; tests cover few of the combinations, and mostly arrays of nanoseconds and seconds.", "anchors": ["lib/python/dtype.cpp:97-326", "lib/python/unit.cpp:20-87", "lib/python/numpy.cpp:10-36", "lib/python/variable_init.cpp:132-309", "lib/python/bind_operators.h:94-107", "lib/python/bind_data_access.h:183-194"]}
{"id": "C89", "title": "Arithmetic of elements of different types, out of place and in place", "statement": "Adding, subtracting, multiplying, dividing, floor-dividing and taking remainders of numbers of any two types gives the wider of the two types (double for the quotient of integers) and does not depend on the order for sums and products. Integers are computed exactly or the result is undefined because it does not fit. An operation in place exists whenever it does not turn integers into floating-point numbers, keeps the type of the left operand, and gives the result of the operation out of place converted to that type, without wrapping around. Whatever is accepted in place is accepted out of place and, if the type stays the same, the other way round. Durations can be added to and subtracted from datetimes, both are inverse to each other, the difference of datetimes is the duration between them, and nothing else is accepted.", "quantifier": "for all operations, all pairs of types and all values, any floating-point arithmetic", "why_tests_cant": "Six operations, twice, on 36 pairs of types: hand-written lists of pairs decide what is accepted. Tests check single pairs; nothing compares the lists with each other.", "anchors": ["lib/core/include/scipp/core/element/arithmetic.h:18-206", "lib/core/include/scipp/core/transform_common.h:37-39", "lib/core/include/scipp/core/time_point.h:22-45", "lib/common/include/scipp/common/numeric.h:55-79"]}
{"id": "C90", "title": "Operations of a variable with itself", "statement": "If both operands of +, -, *, / are the same variable with variances, the operands are fully correlated: variances are those of 2x, 0, x squared and 1. Unit, values and success are the same as with a separate variable of equal contents, also for variables without unit, for zeros, infinities and NaN.", "quantifier": "for all four operations, all units and all values and variances including infinities and NaN", "why_tests_cant": "The operation is replaced by a multiplication or power with a made-up factor; whether unit and special values agree with the plain operation depends on code elsewhere. Tests use one unit and ordinary numbers.", "anchors": ["lib/variable/arithmetic.cpp:22-68", "lib/variable/pow.cpp:51-78", "lib/core/include/scipp/core/value_and_variance.h:70-79", "lib/core/include/scipp/core/value_and_variance.h:140-187"]}
{"id": "C91", "title": "Setting values and variances from Python", "statement": "Assigning to values, variances, value or variance gives every element of the variable the number given for it and changes nothing else: not the other part, not the unit, not the elements of the buffer outside a slice. It succeeds exactly if the variable is writable, the object can be converted and has the right shape, and, for variances, there are some already or the variable is whole and its dtype can have them. None removes the variances. If it fails, nothing has changed.", "quantifier": "for all objects, views derived by any operations, arrays and outcomes of the conversion", "why_tests_cant": "Variances are created first and set afterwards, so whether a failure leaves traces depends on where it happens. Tests check that an exception is thrown and do not look at the variable again.", "anchors": ["lib/python/bind_data_access.h:30-44", "lib/python/bind_data_access.h:184-193", "lib/python/bind_data_access.h:282-310", "lib/python/bind_data_access.h:357-432", "lib/python/numpy.h:296-308", "lib/variable/variable.cpp:302-312"]}
{"id": "C92", "title": "Types, units and integer widths of reductions", "statement": "Sums and extrema have the type and unit of the elements (bool are counted as 64-bit integers), means of integers are double precision, means have the unit of the variable; datetimes have extrema but no sum or mean; only bool have all and any. It does not matter how many dims are reduced. Sums of integers are exact in whatever order and with whatever partial sums they are computed, and a mean exists whenever there is a sum.", "quantifier": "for all reductions, element types, units, numbers of dims, integer elements, orders and partial sums", "why_tests_cant": "The result depends on lists of supported types in several places, on a unit made up for the count and on intermediate sums in the type of the elements; tests use small numbers with a unit.", "anchors": ["lib/variable/reduction.cpp:25-114", "lib/variable/reduction.cpp:152-208", "lib/variable/reduction.cpp:257-301", "lib/variable/operations_common.h:21-50", "lib/variable/creation.cpp:46-82", "lib/core/include/scipp/core/element/creation.h:19-60", "lib/core/include/scipp/core/element/arithmetic.h:18-39", "lib/units/unit.cpp:109-129"]}
{"id": "C93", "title": "Contents of bins", "statement": "Reading a coord, a mask or the data of the events of binned data (`bins.coords[k]`, `bins.masks[k]`, `bins.data`) gives for every bin exactly the values of the events of that bin; iterating over the items gives the same as indexing. Setting an item works exactly for variables with the same bins and as many events, reading it back gives what was set, and nothing else changes: neither other items nor bins that are not part of the variable. Removing an item from a slice does not affect the array. Two views are equal exactly when the contents of all bins are.", "quantifier": "all event tables, all bins, all keys, all values, all variables sharing a table", "why_tests_cant": "tests use one contiguous table whose events are all along the event dimension and are all in bins, and a single variable over it", "anchors": ["lib/dataset/include/scipp/dataset/bins_view.h:15-152", "lib/dataset/sized_dict.cpp:157-261", "lib/variable/include/scipp/variable/bin_array_variable.tcc:45-63"]}
{"id": "C94", "title": "Coords and masks are Python dicts", "statement": "Used from Python, the dicts of coords and masks behave like `dict`: for every sequence of `[]`, assignment, `del`, `in`, `len`, iteration, `get`, `pop`, `popitem`, `clear` and `update` the results, the KeyErrors and the items left, with their order, are those of a Python `dict`, provided that the dict is writable and what is put into it fits. A variable that does not fit is refused without changing the dict, `update` then has assigned exactly the items before it; a read-only dict never changes. Key views are equal exactly if the sets of keys are.", "quantifier": "all sequences of calls, all keys and values, all dicts", "why_tests_cant": "the claim is about arbitrary sequences of calls, with repeated keys and interleaved removals", "anchors": ["lib/python/bind_data_array.h:60-180", "lib/python/view.h:57-101", "src/scipp/_binding.py:59-124", "lib/dataset/sized_dict.cpp:149-261"]}
{"id": "C95", "title": "Reductions of grouped arrays use exactly the unmasked elements of each group", "statement": "For data with any number of dims and masks of any dims, groupby(key).sum/min/max/any/all along the dim of the key gives for every group and every row the reduction, in order, of the unmasked elements of that group; mean gives their sum divided by their number; the result has one slice per group along the key's dim in place of the reduced dim; masks depending on the reduced dim are dropped, the others kept; with a single group it equals the plain reduction, and sums over a partition add up to the plain sum. All keys and bin edges produce groups the reductions accept.", "quantifier": "all arrays with all dims, all masks (1-D, N-D, any order of dims), all reduction ops with a neutral fill value, all groups, all keys", "why_tests_cant": "Tests use 1-D masks and a few groups; that N-D masks, several slices per group, empty groups and bool data are handled the same way by sum and mean needs a proof for all shapes (and fails: mean throws for N-D masks and for data without unit, sum throws for masked bool data).", "anchors": ["lib/dataset/groupby.cpp:31-212", "lib/dataset/include/scipp/dataset/sized_dict.h:162-174", "lib/core/include/scipp/core/element/creation.h:25-32", "lib/core/include/scipp/core/element/util.h:132-148"]}
{"id": "C96", "title": "Uncertainties are neither dropped nor invented by element-wise operations", "statement": "An element-wise operation that succeeds gives a result with variances exactly if an operand has variances, unless the operation is declared to drop them (comparisons, values, variances, stddevs) or the type of the result cannot have variances. It succeeds exactly if its operands meet the requirements it declares, and otherwise throws a variances error; it never writes variances to an output without, nor leaves variances of an output unwritten. In-place operations and operations with an `out` argument neither add nor remove the variances of the output, and never ignore variances of an input. The loops specialised for particular strides visit the same elements as the general loop.", "quantifier": "for all combinations of flags, all operations, any number of operands with or without variances, all values and sizes, all strides", "why_tests_cant": "The decision is made at compile time for each combination of flags, argument types and presence of variances in each argument; tests instantiate a few of the exponentially many combinations, and a dropped variance yields plausible values.", "anchors": ["lib/variable/include/scipp/variable/transform.h:76-246", "lib/variable/include/scipp/variable/transform.h:287-366", "lib/variable/include/scipp/variable/transform.h:408-431", "lib/variable/include/scipp/variable/transform.h:534-607", "lib/core/include/scipp/core/transform_common.h:62-128"]}
{"id": "C97", "title": "Histograms do not depend on the route", "statement": "Histogramming a table gives what binning it and summing the weights of each bin gives, also when the bins are first made along other dimensions or with finer edges; histograms of parts of a table add up to the histogram of the table; slicing a histogram is histogramming with the sliced edges; rebinning a histogram to a subset of its edges is histogramming with that subset, and rebinning in two steps (the second to a subset of the first edges) is rebinning in one.", "quantifier": "all tables of events with any coordinate values including NaN, any weights in a commutative monoid (a field for rebin), all edges, any further binned, grouped or existing dimensions, any thread schedule of the copies", "why_tests_cant": "The routes go through unrelated code (element/histogram.h, bin.cpp with bin_detail and SubbinSizes, element/rebin.h); tests compare them on a few tables, agreement for all edges and all events needs each route reduced to the same sum.", "anchors": ["lib/core/include/scipp/core/element/histogram.h:58-90", "lib/dataset/bin.cpp:394-502", "lib/core/include/scipp/core/element/rebin.h:20-70", "lib/dataset/histogram.cpp:20-95"]}
{"id": "C98", "title": "Concatenating the bins of an array or of its groups", "statement": "`bins.concat(dim)` of a data array and `groupby(coord).bins.concat(dim)` put into every output bin exactly the events of the input bins that are not masked and belong to it (same group or bin of the key, same position along the dimensions that are kept), in the order of the input bins, each event in at most one output bin and none lost or duplicated; `groupby(...).bins.concat` agrees with the groups found by `groupby`. Dimensions, coords, masks and attrs of the result are those of the array that do not depend on what is reduced, plus the key; no mask gets lost, it is either kept or applied.", "quantifier": "all binned arrays of any number of dimensions and bins, all events, masks, keys (labels or edges), coords with or without dimension coord, all metadata, all thread orders; 1-D arrays for the link to the groups found by groupby", "why_tests_cant": "which of several code paths is taken (offset tracking, one or two stages, joined bins) depends on extents and on the presence and dimensionality of coords; the number of combinations of dimensions, coords and masks is unbounded", "anchors": ["lib/dataset/bin.cpp:542-581", "lib/dataset/bin.cpp:305-440", "lib/dataset/groupby.cpp:109-125", "lib/dataset/bins.cpp:299-301", "lib/core/include/scipp/core/element/bin.h:86-142"]}
{"id": "C99", "title": "Results do not depend on the units in which quantities are given", "statement": "A calculation composed of element-wise functions yields the same physical quantity, with the same uncertainty, no matter in which units its inputs are expressed (1.5 m or 1500 mm): the function on the values, the propagation of variances and the function on the units of every operation fit together. Comparisons and `isclose` have the same outcome. `to_unit` yields the same quantity. Trigonometric functions are those of the angle for any unit of angles, anything else is an error. Whether an operation is possible does not depend on the unit of a quantity, except for functions that require plain numbers.", "quantifier": "all expressions of any size over the unary and binary element-wise functions, all real values and variances, all units (multiplier and exponents of any number of base units), all pairs of units for every input", "why_tests_cant": "tests compare single operations in one unit; consistency of values, variances and units concerns all compositions and all multipliers", "anchors": ["lib/units/unit.cpp:131-221", "lib/core/include/scipp/core/element/math.h:50-194", "lib/core/include/scipp/core/element/arithmetic.h:152-193", "lib/core/include/scipp/core/element/trigonometry.h:14-52", "lib/core/include/scipp/core/element/comparison.h:28-115", "lib/core/include/scipp/core/element/util.h:30-69", "lib/variable/to_unit.cpp:30-68", "lib/cmake/scipp-functions.cmake:7-41"]}
