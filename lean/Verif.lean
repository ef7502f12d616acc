import Verif.Np.FV
import Verif.Np.Bins
import Verif.Np.Close
import Verif.Np.Percentile
import Verif.Binning.Model
import Verif.Binning.Lemmas
import Verif.Binning.Props
import Verif.Binning.DecreasingProps
import Verif.Binning.HistLemmas
import Verif.Binning.HistProps
import Verif.Binning.DecadeProps
import Verif.Binning.ResampleProps
import Verif.Binning.ResampleNegProps
import Verif.Cuts.Model
import Verif.Cuts.Lemmas
import Verif.Cuts.EvalProps
import Verif.Cuts.PercentileProps
import Verif.Cuts.SmoothProps
import Verif.Cuts.UnitModel
import Verif.Cuts.UnitProps
import Verif.Np.Real
import Verif.Np.Rounding
import Verif.Np.Interp
import Verif.Np.Table
import Verif.Stats.Model
import Verif.Stats.LiMa
import Verif.Stats.Props
import Verif.Utils.Model
import Verif.Sensitivity.Model
import Verif.Sensitivity.RelProps
import Verif.Utils.Props
import Verif.Binning.HistCols
import Verif.Binning.WeightModel
import Verif.Binning.WeightProps
import Verif.Binning.EdgeProps
import Verif.Sensitivity.TableProps
import Verif.Sensitivity.BgLemmas
import Verif.Sensitivity.BgProps
import Verif.CutOpt.Model
import Verif.CutOpt.Lemmas
import Verif.CutOpt.TableLemmas
import Verif.CutOpt.ScanLemmas
import Verif.CutOpt.BestProps
import Verif.CutOpt.ReapplyProps
import Verif.CutOpt.NamesLemmas
import Verif.CutOpt.TotalProps
import Verif.CutOpt.EfficiencyProps
import Verif.Np.Angle
import Verif.Coords.Model
import Verif.Coords.Props
import Verif.Coords.RotationProps
import Verif.Np.AngleDist
import Verif.Np.Pow
import Verif.Simulations.Model
import Verif.Simulations.EnergyProps
import Verif.Simulations.FovProps
import Verif.Simulations.LonlatProps
import Verif.Np.Interp1d
import Verif.Spectral.Model
import Verif.Spectral.Props
import Verif.Spectral.Constants
import Verif.Spectral.ConstantProps
import Verif.Np.Histdd
import Verif.Irf.Model
import Verif.Irf.EffAreaProps
import Verif.Irf.DensityProps
import Verif.Irf.BackgroundProps
import Verif.Irf.MigrationProps
import Verif.Irf.EdgeProps
import Verif.Bench.Model
import Verif.Bench.Lemmas
import Verif.Bench.BiasProps
import Verif.Bench.AngProps
import Verif.Bench.DispProps
import Verif.Np.ND
import Verif.Interpolation.CoefModel
import Verif.Interpolation.CoefProps
import Verif.Interpolation.NearestModel
import Verif.Interpolation.NearestProps
import Verif.Interpolation.FacetModel
import Verif.Interpolation.PlumbProps
import Verif.Interpolation.FacetProps
import Verif.Interpolation.ExtrapModel
import Verif.Interpolation.ExtrapProps
import Verif.Interpolation.VisibleProps
import Verif.Interpolation.MorphModel
import Verif.Interpolation.MorphLemmas
import Verif.Interpolation.MorphProps
import Verif.Interpolation.MorphValueProps
import Verif.Interpolation.QuantileModel
import Verif.Interpolation.QuantileProps
import Verif.Interpolation.QuantileMore
import Verif.Interpolation.EstimatorModel
import Verif.Interpolation.EstimatorProps
import Verif.Interpolation.ClassModel
import Verif.Interpolation.ClassProps
import Verif.Interpolation.ClassMore
import Verif.Interpolation.AreaProps
import Verif.Interpolation.RadMaxProps
import Verif.Interpolation.AxisProps
import Verif.Io.GadfModel
import Verif.Io.GadfProps
import Verif.Io.HeaderModel
import Verif.Io.HeaderProps
import Verif.Io.EventdisplayModel
import Verif.Io.EventdisplayProps
import Verif.Io.GammapyModel
import Verif.Io.GammapyProps
import Verif.Pipeline.OrderProps
import Verif.Pipeline.FoldProps
import Verif.Pipeline.AddProps
import Verif.Pipeline.RebinProps
import Verif.Pipeline.MoreProps
import Verif.Pipeline.BinTableProps
import Verif.Np.Memory
import Verif.Memory.Model
import Verif.Memory.Lemmas
import Verif.Memory.HistoryProps
import Verif.Memory.PdfProps
import Verif.Memory.ViewProps
import Verif.Memory.RadMaxProps
import Verif.Memory.SharedProps
import Verif.Memory.KwargsModel
import Verif.Memory.KwargsProps
import Verif.Interpolation.PsfUnitModel
import Verif.Interpolation.PsfUnitProps
import Verif.Sensitivity.MonoProps
import Verif.Examples.EventdisplayModel
import Verif.Examples.EventdisplayLemmas
import Verif.Examples.PrepareProps
import Verif.Examples.ThetaProps
import Verif.Examples.SelectionProps
import Verif.Examples.IrfProps
import Verif.Examples.RunProps
import Verif.Examples.HduProps
import Verif.Examples.BackgroundProps
import Verif.Bench.ColumnProps
import Verif.Rounded.Model
import Verif.Rounded.HistProps
import Verif.Rounded.DensityProps
import Verif.Rounded.PercentileProps
import Verif.Rounded.DecadeProps
import Verif.Rounded.LiMaProps
import Verif.Rounded.QuantileProps
import Verif.Np.Axis
import Verif.Binning.ResampleNdModel
import Verif.Binning.ResampleNdProps
import Verif.Units.Model
import Verif.Units.Lemmas
import Verif.Units.IrfProps
import Verif.Units.SimProps
import Verif.Units.AreaProps
import Verif.Units.BenchModel
import Verif.Units.BenchProps
import Verif.Units.BgProps
import Verif.Units.SpectralModel
import Verif.Units.SpectralProps
import Verif.Units.SensModel
import Verif.Units.SensProps
import Verif.Units.CutOptModel
import Verif.Units.CutOptLemmas
import Verif.Units.CutOptProps
import Verif.Units.UtilModel
import Verif.Units.UtilProps
import Verif.Units.EstModel
import Verif.Units.EstProps
import Verif.Pipeline.LocalProps
import Verif.Rounded.SimModel
import Verif.Rounded.SimProps
import Verif.Rounded.SpecModel
import Verif.Rounded.SpecProps
import Verif.Rounded.MorphModel
import Verif.Rounded.MorphProps
import Verif.Rounded.MorphAgree
import Verif.Rounded.CoefModel
import Verif.Rounded.CoefProps
import Verif.Rounded.SensModel
import Verif.Rounded.SensProps
import Verif.Rounded.BgModel
import Verif.Rounded.BgProps
import Verif.Rounded.UnitModel
import Verif.Rounded.UnitProps
