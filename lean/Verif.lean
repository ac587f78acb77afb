import Verif.Averaging.CalProps
import Verif.Averaging.Dask
import Verif.Averaging.DaskLemmas
import Verif.Averaging.DaskProps
import Verif.Averaging.DaskSpec
import Verif.Averaging.ErrorProps
import Verif.Averaging.FlagProps
import Verif.Averaging.LemmasAvg
import Verif.Averaging.LemmasBaseline
import Verif.Averaging.LemmasChan
import Verif.Averaging.LemmasCube
import Verif.Averaging.LemmasMono
import Verif.Averaging.LemmasRowMap
import Verif.Averaging.LemmasRowMap2
import Verif.Averaging.LemmasSpan
import Verif.Averaging.LemmasSym
import Verif.Averaging.LemmasUnique
import Verif.Averaging.Model
import Verif.Averaging.Model2
import Verif.Averaging.Props
import Verif.Averaging.Props2
import Verif.Averaging.Props3
import Verif.Averaging.PropsAgain
import Verif.Averaging.PropsConserve
import Verif.Averaging.PropsConvex
import Verif.Averaging.PropsId
import Verif.Averaging.PropsNoise
import Verif.Averaging.PropsSym
import Verif.Averaging.PropsTwo
import Verif.Averaging.Spec
import Verif.Basic
import Verif.Blocks
import Verif.Calibration.CellProps
import Verif.Calibration.ClosureProps
import Verif.Calibration.ComposeProps
import Verif.Calibration.Consensus
import Verif.Calibration.Dask
import Verif.Calibration.DaskProps
import Verif.Calibration.DaskProps2
import Verif.Calibration.DescentLemmas
import Verif.Calibration.DescentProps
import Verif.Calibration.InPlace
import Verif.Calibration.InPlaceProps
import Verif.Calibration.Lemmas
import Verif.Calibration.LemmasChunk
import Verif.Calibration.LemmasPhase
import Verif.Calibration.Model
import Verif.Calibration.Model2
import Verif.Calibration.Props
import Verif.Calibration.Props2
import Verif.Calibration.Props3
import Verif.Calibration.RecoverProps
import Verif.Calibration.SelfCalProps
import Verif.Calibration.Spec
import Verif.Calibration.SymLemmas
import Verif.Calibration.SymProps
import Verif.Coordinates.Model
import Verif.Coordinates.Props
import Verif.Coordinates.SymProps
import Verif.Cuda.Beam
import Verif.Cuda.BeamLemmas
import Verif.Cuda.BeamProps
import Verif.Cuda.BeamRun
import Verif.Cuda.BeamSpec
import Verif.Cuda.BeamWitness
import Verif.Cuda.Convert
import Verif.Cuda.ConvertLemmas
import Verif.Cuda.ConvertPlanLemmas
import Verif.Cuda.ConvertProps
import Verif.Cuda.ConvertRun
import Verif.Cuda.ConvertSpec
import Verif.Cuda.ConvertWitness
import Verif.Cuda.Lemmas
import Verif.Cuda.Machine
import Verif.Cuda.Predict
import Verif.Cuda.PredictLemmas
import Verif.Cuda.PredictPlan
import Verif.Cuda.PredictProps
import Verif.Cuda.PredictSpec
import Verif.Cuda.Spec
import Verif.Cuda.Terms
import Verif.Cuda.TermsProps
import Verif.Dask.Blockwise
import Verif.Dask.ConvertProps
import Verif.Dask.Coords
import Verif.Dask.CoordsProps
import Verif.Dask.Lemmas
import Verif.Dask.NumpyProps
import Verif.Dask.Predict
import Verif.Dask.PredictLemmas
import Verif.Dask.PredictProps
import Verif.Dask.PredictSpec
import Verif.Dask.Rime
import Verif.Dask.RimeLemmas
import Verif.Dask.RimeProps
import Verif.Dask.Sky
import Verif.Dask.SkyProps
import Verif.Dask.Spec
import Verif.Dask.Wsclean
import Verif.Dask.WscleanLemmas
import Verif.Dask.WscleanProps
import Verif.Deconv.EnergyProps
import Verif.Deconv.Gaussian
import Verif.Deconv.Hogbom
import Verif.Deconv.HogbomProps
import Verif.Deconv.ObservedProps
import Verif.Deconv.PointProps
import Verif.Deconv.Restore
import Verif.Deconv.RestoreProps
import Verif.Deconv.ResumeProps
import Verif.Deconv.SignProps
import Verif.Dft.ArrayProps
import Verif.Dft.BeamProps
import Verif.Dft.DaskProps
import Verif.Dft.Model
import Verif.Dft.Props
import Verif.Dft.PropsTurn
import Verif.Dft.SmearProps
import Verif.Dft.SymProps
import Verif.Examples.ApplyGains
import Verif.Examples.ApplyGainsProps
import Verif.Examples.FitsPredict
import Verif.Examples.FitsPredictProps
import Verif.Examples.Gains
import Verif.Examples.GainsDefiniteProps
import Verif.Examples.GainsProps
import Verif.Examples.InterpBeam
import Verif.Examples.InterpBeamProps
import Verif.Examples.LoadBeams
import Verif.Examples.LoadBeamsProps
import Verif.Examples.Predict
import Verif.Examples.PredictProps
import Verif.Examples.Screen
import Verif.Examples.ScreenProps
import Verif.Examples.Spi
import Verif.Examples.SpiLemmas
import Verif.Examples.SpiProps
import Verif.Examples.TimeVarying
import Verif.Examples.TimeVaryingProps
import Verif.Gps.DefiniteProps
import Verif.Gps.Model
import Verif.Gps.Props
import Verif.Gridding.CellSize
import Verif.Gridding.CellSizeProps
import Verif.Gridding.DetaperProps
import Verif.Gridding.FourierInverseProps
import Verif.Gridding.Gridder
import Verif.Gridding.GridderDask
import Verif.Gridding.GridderDaskProps
import Verif.Gridding.GridderFourierProps
import Verif.Gridding.GridderLemmas
import Verif.Gridding.GridderProps
import Verif.Gridding.GridderSpec
import Verif.Gridding.GridderSymProps
import Verif.Gridding.GridderTotalProps
import Verif.Gridding.Kernels
import Verif.Gridding.KernelsProps
import Verif.Gridding.Nifty
import Verif.Gridding.NiftyDask
import Verif.Gridding.NiftyDaskProps
import Verif.Gridding.NiftyDaskSpec
import Verif.Gridding.NiftyDegridProps
import Verif.Gridding.NiftyProps
import Verif.Gridding.NiftyWitness
import Verif.Gridding.Policies
import Verif.Gridding.PoliciesProps
import Verif.Gridding.PropsFacet
import Verif.Gridding.StokesProps
import Verif.Gridding.Wgridder
import Verif.Gridding.WgridderApi
import Verif.Gridding.WgridderProps
import Verif.Linalg.Area
import Verif.Linalg.AreaProps
import Verif.Linalg.BoxProps
import Verif.Linalg.CacheProps
import Verif.Linalg.Geometry
import Verif.Linalg.HullProps
import Verif.Linalg.Kron
import Verif.Linalg.KronAlgebraProps
import Verif.Linalg.KronProps
import Verif.Linalg.KronTypes
import Verif.Linalg.KronTypesProps
import Verif.Linalg.MaskProps
import Verif.Linalg.MoveProps
import Verif.Linalg.Overlap
import Verif.Linalg.ProjectProps
import Verif.Loops
import Verif.ModelData.Coherency
import Verif.ModelData.CoherencyConvLemmas
import Verif.ModelData.CoherencyLemmas
import Verif.ModelData.CoherencyPhys
import Verif.ModelData.CoherencyProps
import Verif.ModelData.CoherencySpec
import Verif.ModelData.FeedProps
import Verif.ModelData.GaussianProps
import Verif.ModelData.Spectral
import Verif.ModelData.SpectralNumpy
import Verif.ModelData.SpectralProps
import Verif.ModelData.SpectralRefProps
import Verif.ModelData.SpiDescent
import Verif.ModelData.SpiSym
import Verif.ModelData.Wsclean
import Verif.ModelData.WscleanProps
import Verif.Rime.Lemmas
import Verif.Rime.LemmasDask
import Verif.Rime.Model
import Verif.Rime.Model2
import Verif.Rime.ModelBeam
import Verif.Rime.ModelTerms
import Verif.Rime.ModelZernike
import Verif.Rime.Props
import Verif.Rime.Props2
import Verif.Rime.PropsBeam
import Verif.Rime.PropsBeam2
import Verif.Rime.PropsBeamCont
import Verif.Rime.PropsBeamSym
import Verif.Rime.PropsCompose
import Verif.Rime.PropsTerms
import Verif.Rime.PropsZernike
import Verif.Rime.PropsZernike2
import Verif.Rime.Spec
import Verif.Rime.SpecTerms
import Verif.Rime.Zernike64
import Verif.Rime.Zernike64Props
import Verif.Rime.ZernikeLemmas
import Verif.Splines.Model
import Verif.Splines.Props
import Verif.Splines.SlopeProps
import Verif.Splines.SymProps
import Verif.Types.DType
import Verif.Types.KernelProps
import Verif.Types.Kernels
import Verif.Types.Lemmas
import Verif.Types.Props
import Verif.Types.Spec
import Verif.Types.Store
import Verif.Types.StoreProps
import Verif.Util.BeamFactory
import Verif.Util.BeamFactoryProps
import Verif.Util.Beams
import Verif.Util.BeamsProps
import Verif.Util.Cmdline
import Verif.Util.CmdlineProps
import Verif.Util.Cycles
import Verif.Util.CyclesProps
import Verif.Util.FakeNumba
import Verif.Util.FakeNumbaProps
import Verif.Util.Install
import Verif.Util.InstallLemmas
import Verif.Util.InstallLemmas2
import Verif.Util.InstallProps
import Verif.Util.InstallSpec
import Verif.Util.InstallWitness
import Verif.Util.Memo
import Verif.Util.MemoProps
import Verif.Util.Nvcc
import Verif.Util.NvccLemmas
import Verif.Util.NvccPathProps
import Verif.Util.NvccProps
import Verif.Util.NvccProps2
import Verif.Util.NvccProps3
import Verif.Util.NvccWin
import Verif.Util.NvccWinProps
import Verif.Util.NvccWitness
import Verif.Util.Progress
import Verif.Util.ProgressProps
import Verif.Util.Requirements
import Verif.Util.RequirementsProps
import Verif.Util.Shapes
import Verif.Util.ShapesProps
import Verif.Util.Singleton
import Verif.Util.SingletonProps
import Verif.Util.Tasks
import Verif.Util.TasksProps
import Verif.Util.Templates
import Verif.Util.TemplatesProps
import Verif.Util.Text
import Verif.Util.TextProps
