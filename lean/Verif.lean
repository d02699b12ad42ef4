import Verif.Props.Avl
import Verif.Props.BitArray
import Verif.Props.Bounds
import Verif.Props.CVector
import Verif.Props.DominatedSets
import Verif.Props.Eaf2d
import Verif.Props.Epsilon
import Verif.Props.Hv2d
import Verif.Props.Hypervolume
import Verif.Props.Igd
import Verif.Props.Io
import Verif.Props.IoWrite
import Verif.Props.Matrix
import Verif.Props.Nondominated
import Verif.Props.Normalise
import Verif.Props.Options
import Verif.Props.ParetoRank
import Verif.Props.Percentile
import Verif.Props.Vorob
import Verif.Props.Whv
import Verif.Props.EafRect
import Verif.Props.WhvHype
import Verif.Props.WithinSets
import Verif.Props.Eaf3d
import Verif.Props.FloatEpsilon
import Verif.Props.FloatPercentile
import Verif.Props.FloatHv2d
import Verif.Props.FloatIgd
import Verif.Props.FloatNormalise
import Verif.Props.HvApprox
import Verif.Props.WhvHypeMean
import Verif.Props.Mt19937
import Verif.Spec.EafLabels
import Verif.Model.EafLabels
import Verif.Lemmas.EafLabels
import Verif.Props.EafLabels
import Verif.Model.EafDiff
import Verif.Lemmas.EafDiff
import Verif.Props.EafDiff
import Verif.Spec.LargestEafdiff
import Verif.Model.LargestEafdiff
import Verif.Props.LargestEafdiff
import Verif.Model.HvWrappers
import Verif.Spec.HvWrappers
import Verif.Props.HvWrappers
import Verif.Model.PyMemory
import Verif.Props.PyMemory
import Verif.Spec.Polygon
import Verif.Model.EafPolygon
import Verif.Lemmas.EafPolygon
import Verif.Props.EafPolygon
import Verif.Model.HvShift
import Verif.Props.HvShift
import Verif.Spec.Cli
import Verif.Spec.HvMain
import Verif.Model.Cli
import Verif.Model.HvMain
import Verif.Lemmas.Cli
import Verif.Lemmas.CliExample
import Verif.Props.HvMain
import Verif.Spec.IndMain
import Verif.Model.IndMain
import Verif.Props.IndMain
import Verif.Spec.NdMain
import Verif.Model.NdMain
import Verif.Lemmas.NdMain
import Verif.Lemmas.NdMain2
import Verif.Lemmas.NdMain3
import Verif.Lemmas.NdMain4
import Verif.Lemmas.NdMain5
import Verif.Props.NdMain
import Verif.Spec.NdSort
import Verif.Model.NdSort
import Verif.Lemmas.NdSort
import Verif.Props.NdSort
import Verif.Spec.DsMain
import Verif.Model.DsMain
import Verif.Lemmas.DsMain
import Verif.Props.DsMain
import Verif.Spec.EafMain
import Verif.Model.EafMain
import Verif.Lemmas.EafMain
import Verif.Lemmas.EafMain2
import Verif.Lemmas.EafMain3
import Verif.Props.EafMain
import Verif.Spec.IndWrappers
import Verif.Model.IndWrappers
import Verif.Props.IndWrappers
import Verif.Spec.DomWrappers
import Verif.Model.DomWrappers
import Verif.Props.DomWrappers
import Verif.Spec.WhvWrappers
import Verif.Model.WhvWrappers
import Verif.Props.WhvWrappers
import Verif.Spec.VorobWrappers
import Verif.Model.VorobWrappers
import Verif.Props.VorobWrappers
import Verif.Spec.RDatasets
import Verif.Model.RDatasets
import Verif.Props.RDatasets
import Verif.Props.RSurfaces
import Verif.Model.HvTree
import Verif.Lemmas.HvTree
import Verif.Lemmas.HvTreeRec
import Verif.Props.HvTree
import Verif.Model.Eaf3dTree
import Verif.Lemmas.AvlFrame
import Verif.Lemmas.Eaf3dTree
import Verif.Lemmas.Eaf3dTreeSim
import Verif.Lemmas.Eaf3dTreeRun
import Verif.Props.Eaf3dTree
import Verif.Model.HvShiftTree
import Verif.Props.HvShiftTree
import Verif.Props.HvLaws
import Verif.Props.IndLaws
import Verif.Props.DomLaws
import Verif.Props.EafLaws
import Verif.Props.EafPolyMain
import Verif.Props.HvMem
import Verif.Props.FloatHv
import Verif.Props.FloatContrib
import Verif.Props.FloatHv4
import Verif.Props.CommandLine
import Verif.Props.FsMain
import Verif.Props.FsInd
import Verif.Props.FsNd
import Verif.Props.FsExamples
import Verif.Props.AvlCost
import Verif.Props.HvCost
import Verif.Props.DomCost
import Verif.Props.Overflow
import Verif.Props.Mex
import Verif.Props.WhvHypePoint
import Verif.Props.EafCost
import Verif.Props.NdMem
import Verif.Props.NdNan
import Verif.Props.IndNan
import Verif.Props.Ziggurat
import Verif.Props.FloatWhv
import Verif.Props.EafMem
import Verif.Props.RGc
import Verif.Props.ZigConst
import Verif.Props.ZigRng
import Verif.Props.MtEqui
import Verif.Props.MtMean
import Verif.Props.CInt
import Verif.Props.WhvMem
import Verif.Props.HvNan
import Verif.Props.HvNanSame
import Verif.Props.GetNd
import Verif.Props.Timer
import Verif.Props.FsEaf
import Verif.Props.FsEafEnd
import Verif.Props.MtArray
import Verif.Props.RngUniform
import Verif.Props.MtArrayLong
import Verif.Props.PolyCheck
