import Verif.Props.ArrayOps
import Verif.Props.AxesApp
import Verif.Props.BesselInterp
import Verif.Props.BinnedFile
import Verif.Props.BinnedVectors
import Verif.Props.Binning
import Verif.Props.Bispec
import Verif.Props.BispecIn
import Verif.Props.BispecLegendre
import Verif.Props.BispecNoise
import Verif.Props.BispecWin
import Verif.Props.BispecWinTrivial
import Verif.Props.BoxShift
import Verif.Props.BoxWarn
import Verif.Props.CatTable
import Verif.Props.Catalogue
import Verif.Props.CatalogueCpp
import Verif.Props.CatalogueIo
import Verif.Props.Coeff
import Verif.Props.CoeffApp
import Verif.Props.CombVectors
import Verif.Props.ConvRange
import Verif.Props.Crossing
import Verif.Props.Defaults
import Verif.Props.DoubleSbt
import Verif.Props.EndToEnd
import Verif.Props.EndToEndBox
import Verif.Props.EndToEndWin
import Verif.Props.Fftlog
import Verif.Props.FftlogExtrap
import Verif.Props.FftlogPy
import Verif.Props.FieldStats
import Verif.Props.FourierMesh
import Verif.Props.GenParams
import Verif.Props.Handover
import Verif.Props.Header
import Verif.Props.Interlace
import Verif.Props.Lanczos
import Verif.Props.Layout
import Verif.Props.Legendre
import Verif.Props.LogSetup
import Verif.Props.Lowring
import Verif.Props.Memory
import Verif.Props.Mesh
import Verif.Props.Monitor
import Verif.Props.MpiTools
import Verif.Props.Multipole
import Verif.Props.NoiseOrders
import Verif.Props.NormMesh
import Verif.Props.Normalisation
import Verif.Props.OptionCase
import Verif.Props.Output
import Verif.Props.OutputLoad
import Verif.Props.OutputTable
import Verif.Props.Overrides
import Verif.Props.ParamFile
import Verif.Props.ParamFileRound
import Verif.Props.Params
import Verif.Props.ParamsArgs
import Verif.Props.ParamsMod
import Verif.Props.ParamsMore
import Verif.Props.ParamsPy
import Verif.Props.PowWin
import Verif.Props.PowWinRange
import Verif.Props.PowWinTrivial
import Verif.Props.ProgInput
import Verif.Props.ProgbarSetting
import Verif.Props.Program
import Verif.Props.Progress
import Verif.Props.ProgressLine
import Verif.Props.PyLog
import Verif.Props.Resample
import Verif.Props.SameParticles
import Verif.Props.Session
import Verif.Props.ThreePcf
import Verif.Props.Translate
import Verif.Props.TripoSH
import Verif.Props.Turn
import Verif.Props.TwoPt
import Verif.Props.TwoPtSums
import Verif.Props.TwoPtWindow
import Verif.Props.Units
import Verif.Props.UnitsWin
import Verif.Props.WarnText
import Verif.Props.WeightDist
import Verif.Props.WeightScale
import Verif.Props.WideAngle
import Verif.Props.Wigner
import Verif.Props.WinBuild
import Verif.Props.WinConv
import Verif.Props.WinConv3
import Verif.Props.WinConvChecks
import Verif.Props.WinFile
import Verif.Props.WinLinear
import Verif.Props.WinMat
import Verif.Props.WinSelect
import Verif.Props.WinSources
import Verif.Props.Window
