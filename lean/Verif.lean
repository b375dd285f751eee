import Verif.Props.Base
import Verif.Props.Params
import Verif.Props.Expr
import Verif.Props.Expected
import Verif.Props.NLL
import Verif.Props.Yields
import Verif.Props.NPMin
import Verif.Props.POIMin
import Verif.Props.TestStat
import Verif.Props.Sampling
import Verif.Props.Sampler
import Verif.Props.LockProto
import Verif.Props.FitData
import Verif.Props.Reparam
import Verif.Props.Data
import Verif.Props.Scans
import Verif.Props.Wald
import Verif.Props.CalcTmu
import Verif.Props.Calc
import Verif.Props.Tools
import Verif.Props.Merge
import Verif.Props.Markup
import Verif.Props.Cov
import Verif.Props.CmdLine
import Verif.Props.Toys
import Verif.Props.PyhfDemo
import Verif.Props.ReparamAll
import Verif.Props.Compose
import Verif.Spec.Pieces
import Verif.Lemmas.ChanSum
import Verif.Lemmas.Pieces
import Verif.Props.Pieces
import Verif.Model.MergeModels
import Verif.Lemmas.MergeModels
import Verif.Props.MergeModels
import Verif.Model.Rerun
import Verif.Lemmas.Saved
import Verif.Props.Rerun
import Verif.Spec.Limits
import Verif.Lemmas.Parabola
import Verif.Lemmas.Limits
import Verif.Props.Limits
import Verif.Lemmas.LimitsTotal
import Verif.Lemmas.DemoAffine
import Verif.Lemmas.PiecewiseLinear
import Verif.Props.LimitsAll
import Verif.Lemmas.RemoveRatio
import Verif.Model.PruneScript
import Verif.Model.MergeScript
import Verif.Props.MergeScript
import Verif.Model.FitScript
import Verif.Spec.FitScript
import Verif.Lemmas.FitScript
import Verif.Props.FitScript
import Verif.Lemmas.PruneScript
import Verif.Lemmas.PruneSteps
import Verif.Lemmas.PrunePulls
import Verif.Props.PruneScript
import Verif.Spec.Coverage
import Verif.Lemmas.Coverage
import Verif.Props.Coverage
import Verif.Model.OptiSampler
import Verif.Spec.OptiSampler
import Verif.Lemmas.OptiSampler
import Verif.Props.OptiSampler
import Verif.Model.LimitScript
import Verif.Spec.LimitScript
import Verif.Lemmas.LimitScript
import Verif.Lemmas.LockJobs
import Verif.Lemmas.LockRun
import Verif.Lemmas.LimitDemo
import Verif.Lemmas.LimitPrep
import Verif.Props.LimitScript
import Verif.Props.LimitBands
import Verif.Props.LimitFiles
import Verif.Model.SampleStore
import Verif.Lemmas.LockReload
import Verif.Props.SampleStore
import Verif.Model.Resample
import Verif.Props.Resample
import Verif.Model.Clone
import Verif.Spec.Clone
import Verif.Lemmas.Clone
import Verif.Props.Clone
import Verif.Model.MergeCmd
import Verif.Props.MergeCmd
import Verif.Model.Collect
import Verif.Props.Collect
import Verif.Model.ConvertWs
import Verif.Spec.ConvertWs
import Verif.Lemmas.ConvertWs
import Verif.Props.ConvertWs
import Verif.Props.ConvertPack
import Verif.Model.ConvertOpts
import Verif.Props.ConvertOpts
import Verif.Props.GaussCoverage
import Verif.Props.DumpSamples
import Verif.Props.PlotValid
import Verif.Props.Display
import Verif.Props.Files
import Verif.Props.AddChannels
import Verif.Props.MoreData
