import Verif.Table.Props
import Verif.Basis.ConnProps
import Verif.Chain.Props
import Verif.Chain.SampleProps
import Verif.Init.Props
import Verif.Cycle.Props
import Verif.Import.Props
import Verif.Config.Props
import Verif.Sweep.Props
import Verif.Sweep.Export
import Verif.Sweep.Stringify
import Verif.Utils.Props
import Verif.Exec.Props
import Verif.Outputs.Props
import Verif.Sim.Props
import Verif.Sampler.Props
import Verif.Sampler.Measure
import Verif.Stats.Hpd
import Verif.Stats.Edit
import Verif.Stats.Series
import Verif.Stats.Likelihood
import Verif.Stats.Metrics
import Verif.NN.Props
import Verif.Schema.Props
import Verif.Sampler.Stationary
import Verif.Sampler.Geometric
import Verif.Sampler.GeometricModel
import Verif.Sampler.Averages
import Verif.Sampler.Annealing
import Verif.Sampler.Saddle
import Verif.Sampler.Stopping
import Verif.Sampler.Debias
import Verif.Sampler.Pseudo
import Verif.Utils.MoreProps
import Verif.Exec.MoreProps
import Verif.Outputs.MoreProps
import Verif.NN.ActProps
import Verif.Schema.MoreProps
import Verif.Chain.Fisher
import Verif.Chain.DegreeOne
import Verif.Chain.Direct
import Verif.Config.Validate
import Verif.Config.ValidateRun
import Verif.Config.ValidatePos
import Verif.Config.ValidateRead
import Verif.Config.ValidateVisit
import Verif.Config.ValidateLoop
import Verif.Config.ValidateProps
import Verif.Config.ValidateCoupled
import Verif.Config.Shipped
import Verif.Config.ShippedProps
import Verif.Config.Experiment
import Verif.Config.ExperimentLemmas
import Verif.Config.ExperimentLoop
import Verif.Config.ExperimentProps
import Verif.Cli.Model
import Verif.Cli.Spec
import Verif.Cli.Lemmas
import Verif.Cli.Props
import Verif.Cli.Handler
import Verif.Cli.Parse
import Verif.Outputs.CollectionProps
import Verif.Outputs.CacheProps
import Verif.Inputs.Model
import Verif.Inputs.Lemmas
import Verif.Inputs.Props
import Verif.Inputs.MaskProps
import Verif.Inputs.Device
import Verif.Inputs.DeviceProps
import Verif.Inputs.Synth
import Verif.Analysis.Grid
import Verif.Analysis.GridLemmas
import Verif.Analysis.GridProps
import Verif.Sim.Run
import Verif.Summary.Model
import Verif.Summary.Evaluate
import Verif.Summary.EvaluateProps
import Verif.Summary.Member
import Verif.Summary.Folders
import Verif.Summary.FoldersProps
import Verif.Summary.FileName
import Verif.Outputs.Sample
import Verif.Outputs.SampleProps
import Verif.Outputs.Names
import Verif.Outputs.H5
import Verif.Outputs.Stack
import Verif.Outputs.Objects
import Verif.Outputs.ValueSlice
import Verif.Compare.Batches
import Verif.Compare.GatLoss
import Verif.Compare.GatNet
import Verif.Compare.Model
import Verif.Compare.Props
import Verif.Compare.Scaling
import Verif.Discover.Model
import Verif.Discover.Props
import Verif.Plot.Model
import Verif.Plot.Collect
import Verif.Plot.Order
import Verif.Plot.Axes
import Verif.Plot.Shown
import Verif.Summary.Settings
import Verif.Plot.Ticks
import Verif.Physics.Model
import Verif.Physics.Lemmas
import Verif.Physics.Props
import Verif.Folder.Model
import Verif.Folder.Props
import Verif.Stats.TTest
import Verif.Chain.Ergodic
import Verif.Chain.Averages
import Verif.Sampler.Attraction
import Verif.Sampler.Joint
import Verif.Sampler.JointGeometric
import Verif.Sampler.JointAverages
import Verif.Physics.Names
import Verif.NN.Loss
import Verif.NN.Learning
import Verif.NN.TableLoss
import Verif.Exec.Trials
import Verif.Table.Build
import Verif.Table.MarginSampling
import Verif.Init.Start
import Verif.Sweep.Resume
import Verif.Stats.Residual
import Verif.Outputs.Validate
import Verif.Seed.Seeding
import Verif.Outputs.Acceptance
import Verif.Log.Buffer
import Verif.Analysis.Combine
import Verif.Cli.Options
import Verif.Stats.Distances
import Verif.Stats.Mode
import Verif.Physics.Noise
import Verif.Sampler.Normaliser
import Verif.Sampler.Equilibrium
import Verif.Sampler.Production
import Verif.Sampler.Settle
import Verif.Sampler.Cholesky
import Verif.Plot.Store
import Verif.Plot.Redraw
import Verif.Plot.Panels
