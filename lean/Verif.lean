import Verif.Props.Sizes
import Verif.Props.View
import Verif.Props.Index
import Verif.Props.MultiIndex
import Verif.Props.BinnedIndex
import Verif.Props.Transform
import Verif.Props.Accumulate
import Verif.Props.AssertSame
import Verif.Props.Assign
import Verif.Props.AutoBins
import Verif.Props.BinIndex
import Verif.Props.BinMeta
import Verif.Props.BinTable
import Verif.Props.BinnedTransform
import Verif.Props.Binning
import Verif.Props.Bins
import Verif.Props.BinsLabel
import Verif.Props.BinsView
import Verif.Props.Collapse
import Verif.Props.CombineBins
import Verif.Props.CompactFormat
import Verif.Props.Concat
import Verif.Props.ConcatBins
import Verif.Props.ConcatSet
import Verif.Props.Construct
import Verif.Props.ConvertTo
import Verif.Props.Counts
import Verif.Props.Cumulative
import Verif.Props.CurveFit
import Verif.Props.DataGroup
import Verif.Props.Dataset
import Verif.Props.DatasetOps
import Verif.Props.DatasetSlice
import Verif.Props.DatasetSqueeze
import Verif.Props.DenseBin
import Verif.Props.Dict
import Verif.Props.DictFlags
import Verif.Props.DictIter
import Verif.Props.DimLabel
import Verif.Props.Domains
import Verif.Props.DropDim
import Verif.Props.ElementArray
import Verif.Props.Equality
import Verif.Props.EventMasks
import Verif.Props.Extract
import Verif.Props.FlattenEdges
import Verif.Props.FloatBins
import Verif.Props.FloorDivide
import Verif.Props.FoldShape
import Verif.Props.FormatSpec
import Verif.Props.GroupArray
import Verif.Props.GroupBy
import Verif.Props.GroupConcat
import Verif.Props.Hdf5
import Verif.Props.Heap
import Verif.Props.HistArray
import Verif.Props.Histogram
import Verif.Props.InPlace
import Verif.Props.InPlaceMasks
import Verif.Props.InPlaceSlice
import Verif.Props.IndexWidth
import Verif.Props.Integrate
import Verif.Props.Interp
import Verif.Props.IsNear
import Verif.Props.LabelSlice
import Verif.Props.Like
import Verif.Props.Lookup
import Verif.Props.LookupTable
import Verif.Props.MakeBinned
import Verif.Props.MakeBins
import Verif.Props.Masks
import Verif.Props.MatrixLayout
import Verif.Props.MergeGroup
import Verif.Props.Midpoints
import Verif.Props.MixedArith
import Verif.Props.MultiAxis
import Verif.Props.NanToNum
import Verif.Props.Naturality
import Verif.Props.NdFilter
import Verif.Props.Nested
import Verif.Props.Numeric
import Verif.Props.Numpy
import Verif.Props.NumpyReduce
import Verif.Props.PandasTable
import Verif.Props.Pow
import Verif.Props.PyDType
import Verif.Props.PyDict
import Verif.Props.PyDictConvert
import Verif.Props.PyIndex
import Verif.Props.PyOperators
import Verif.Props.PySet
import Verif.Props.Ranges
import Verif.Props.Rebin
import Verif.Props.RebinDims
import Verif.Props.RebinVar
import Verif.Props.Reduce
import Verif.Props.ReduceType
import Verif.Props.Rename
import Verif.Props.RenameMeta
import Verif.Props.Routes
import Verif.Props.SelfArith
import Verif.Props.Signal
import Verif.Props.SizedDict
import Verif.Props.SizesOps
import Verif.Props.Spatial
import Verif.Props.Special
import Verif.Props.Squeeze
import Verif.Props.Structure
import Verif.Props.SubbinSizes
import Verif.Props.Subspan
import Verif.Props.TimeString
import Verif.Props.ToUnit
import Verif.Props.TransformCoords
import Verif.Props.TransformDims
import Verif.Props.Unit
import Verif.Props.UnitDict
import Verif.Props.UnitFunctions
import Verif.Props.ValueAndVariance
import Verif.Props.VarianceFlags
import Verif.Props.Variances
import Verif.Props.Xarray
