import Verif.FlowChartProps
import Verif.EvolveProps
import Verif.SimPropsProps
import Verif.FlipProps
import Verif.StarStateProps
import Verif.MTCaseProps
import Verif.IgnoreReasonProps
import Verif.WarnProps
import Verif.ScrubProps
import Verif.DownsampleProps
import Verif.TermFlagsProps
import Verif.ConfigProps
import Verif.DownloadProps
import Verif.PopProps
import Verif.PopMassProps
import Verif.SeedsProps
import Verif.SampleFileProps
import Verif.DistribProps
import Verif.SamplingProps
import Verif.NormPopProps
import Verif.InvSamplerProps
import Verif.OrbitProps
import Verif.GWProps
import Verif.ProfileProps
import Verif.InterpProps
import Verif.SfhProps
import Verif.TableProps
import Verif.ChunkProps
import Verif.ExportProps
import Verif.RatesProps
import Verif.BinsProps
import Verif.ChannelProps
import Verif.GeneratorProps
import Verif.SNProps
import Verif.SNStep
import Verif.SNStepLemmas
import Verif.SNStepProps
import Verif.DetachedProps
import Verif.DetachedEventProps
import Verif.CE
import Verif.CEProps
import Verif.Merged
import Verif.MergedProps
import Verif.Mesa
import Verif.MesaProps
import Verif.MesaTrack
import Verif.MesaTrackProps
import Verif.MesaStop
import Verif.MesaStopProps
import Verif.Scale
import Verif.ScaleProps
import Verif.Constraint
import Verif.ConstraintProps
import Verif.DoubleCO
import Verif.DoubleCOProps
import Verif.Match
import Verif.MatchProps
import Verif.Fit
import Verif.FitProps
import Verif.Spin
import Verif.SpinProps
import Verif.Tides
import Verif.TidesProps
import Verif.Rhs
import Verif.RhsProps
import Verif.Isolated
import Verif.IsolatedProps
import Verif.Accretion
import Verif.AccretionProps
import Verif.NatalKick
import Verif.NatalKickProps
import Verif.Frame
import Verif.FrameProps
import Verif.FrameLineProps
import Verif.KickProps
import Verif.IFInterp
import Verif.IFInterpProps
import Verif.GridMake
import Verif.GridMakeProps
import Verif.GridJoin
import Verif.GridJoinProps
import Verif.Transient
import Verif.TransientProps
import Verif.Detect
import Verif.DetectProps
import Verif.Burst
import Verif.BurstProps
import Verif.Collapse
import Verif.CollapseProps
import Verif.Single
import Verif.SingleProps
import Verif.Moe
import Verif.MoeProps
import Verif.IFStep
import Verif.IFStepProps
import Verif.MTLabel
import Verif.MTLabelProps
import Verif.PostGrid
import Verif.PostGridTable
import Verif.PostGridProps
import Verif.FromRun
import Verif.FromRunProps
import Verif.CEParam
import Verif.CEParamProps
import Verif.Chars
import Verif.Jobs
import Verif.JobsProps
import Verif.Matchers
import Verif.MatchersProps
import Verif.SNModels
import Verif.SNModelsProps
import Verif.ProfPred
import Verif.ProfPredProps
import Verif.ProfTrain
import Verif.ProfTrainProps
import Verif.RateStore
import Verif.RateStoreProps
import Verif.Inlist
import Verif.InlistProps
import Verif.GridPoint
import Verif.GridPointProps
import Verif.Pipeline
import Verif.PipelineProps
import Verif.PipelineCsv
import Verif.PipelineCsvProps
import Verif.Rerun
import Verif.RerunProps
import Verif.Sampler
import Verif.SamplerProps
import Verif.Propose
import Verif.ProposeProps
import Verif.TableData
import Verif.TableDataProps
import Verif.Classify
import Verif.ClassifyProps
import Verif.Query
import Verif.QueryProps
import Verif.GridTools
import Verif.GridToolsProps
import Verif.RunFiles
import Verif.RunFilesProps
import Verif.Eep
import Verif.EepProps
import Verif.Compress
import Verif.CompressProps
import Verif.IniValues
import Verif.IniValuesProps
import Verif.StepHooks
import Verif.StepHooksProps
import Verif.MesaSetup
import Verif.MesaSetupProps
import Verif.SfhTables
import Verif.SfhTablesProps
import Verif.OpenPop
import Verif.OpenPopProps
import Verif.Regress
import Verif.RegressProps
import Verif.Engines
import Verif.EnginesProps
import Verif.PipeRun
import Verif.PipeRunProps
import Verif.PlotSlices
import Verif.PlotSlicesProps
import Verif.VHCount
import Verif.VHCountProps
import Verif.Assess
import Verif.AssessProps
import Verif.StepOptions
import Verif.StepOptionsProps
import Verif.InScale
import Verif.InScaleProps
import Verif.Neigh
import Verif.NeighProps
import Verif.Dialog
import Verif.DialogProps
import Verif.Compare
import Verif.CompareProps
import Verif.DynGrid
import Verif.DynGridProps
import Verif.RunLabels
import Verif.RunLabelsProps
import Verif.Life
import Verif.LifeProps
import Verif.Charts
import Verif.ChartsProps
import Verif.GridPlot
import Verif.GridPlotProps
import Verif.Panels
import Verif.PanelsProps
import Verif.Curves
import Verif.CurvesProps
import Verif.Markers
import Verif.MarkersProps
import Verif.PopPlot
import Verif.PopPlotProps
import Verif.DownNaN
import Verif.DownNaNProps
import Verif.Fits
import Verif.FitsProps
import Verif.Datasets
import Verif.DatasetsProps
import Verif.Streams
import Verif.StreamsProps
import Verif.PopShare
import Verif.PopShareProps
import Verif.MassFault
import Verif.MassFaultProps
import Verif.Describe
import Verif.DescribeProps
import Verif.Kepler
import Verif.KeplerProps
import Verif.Clock
import Verif.ClockProps
import Verif.Relabel
import Verif.RelabelProps
import Verif.Kinds
import Verif.KindsProps
import Verif.Spins
import Verif.SpinsProps
import Verif.Bound
import Verif.BoundProps
import Verif.EndStar
import Verif.EndStarProps
import Verif.Cores
import Verif.CoresProps
import Verif.Metal
import Verif.MetalProps
import Verif.Fracs
import Verif.FracsProps
import Verif.PlotSetsProps
import Verif.Closing
import Verif.ClosingProps
import Verif.WarnCat
import Verif.WarnCatProps
import Verif.Laws
import Verif.LawsProps
import Verif.LogNormal
import Verif.LogNormalProps
import Verif.VhDiagram
import Verif.VhDiagramProps
import Verif.VhTree
import Verif.VhTreeProps
import Verif.PostGridNames
import Verif.Recoil
import Verif.RecoilProps
import Verif.Shells
import Verif.ShellsProps
import Verif.Overflow
import Verif.OverflowProps
import Verif.TrackEnd
import Verif.TrackEndProps
import Verif.Recomb
import Verif.RecombProps
import Verif.Figures
import Verif.FiguresProps
import Verif.ProfNet
import Verif.ProfNetProps
import Verif.ProfBounds
import Verif.ProfBoundsProps
import Verif.Sequence
import Verif.SequenceProps
import Verif.PopAgain
import Verif.PopAgainProps
import Verif.Validate
import Verif.ValidateProps
import Verif.Version
import Verif.VersionProps
import Verif.Transfer
import Verif.TransferProps
import Verif.PopKw
import Verif.PopKwProps
import Verif.TightProps
import Verif.Formation
import Verif.FormationProps
import Verif.FlagMirrorProps
import Verif.VersionStylesProps
import Verif.GWSpinProps
import Verif.RotationProps
import Verif.InvSamplerDistProps
import Verif.Consts
import Verif.ConstsProps
import Verif.HistFile
import Verif.HistFileProps
import Verif.PlotSym
import Verif.PlotSymProps
import Verif.EmptyTab
import Verif.EmptyTabProps
import Verif.ConOrder
import Verif.ConOrderProps
import Verif.ChiArr
import Verif.ChiArrProps
