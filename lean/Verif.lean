import Verif.Access.Props
import Verif.Component.Props
import Verif.Component.ObjectProps
import Verif.Component.ResaveProps
import Verif.Manager.Props
import Verif.Tensor.Props
import Verif.Trafo.Props
import Verif.Handler.Props
import Verif.Handler.AggProps
import Verif.Generator.Props
import Verif.Filter.Props
import Verif.Pulses.Props
import Verif.Seeds.Props
import Verif.Labels.Props
import Verif.Checkpoint.Props
import Verif.Dist.Props
import Verif.Sources.Props
import Verif.Sources.TrackProps
import Verif.Cascade.Props
import Verif.Loss.Props
import Verif.Loss.BatchProps
import Verif.Batch.Props
import Verif.Batch.MultiProps
import Verif.Loss.FileProps
import Verif.Batch.FileProps
import Verif.Batch.FileFitProps
import Verif.Batch.FileMultiProps
import Verif.Batch.ShiftProps
import Verif.Pulses.ShiftProps
import Verif.Batch.ShiftFileProps
import Verif.Loss.MergeProps
import Verif.Batch.MergeProps
import Verif.Batch.DirectionProps
import Verif.Batch.FitProps
import Verif.Sources.ExchangeProps
import Verif.Reco.Props
import Verif.Optim.Props
import Verif.Sphere.Props
import Verif.Training.Props
import Verif.Training.ScheduleProps
import Verif.Setup.Props
import Verif.Sim.Props
import Verif.Sampling.Props
import Verif.Output.Props
import Verif.Inputs.Props
import Verif.Interface.Props
import Verif.Uncert.Props
import Verif.Fit.Props
import Verif.TestData.Props
import Verif.Deploy.EnsembleProps
import Verif.Deploy.ScriptsProps
import Verif.Build.Props
import Verif.Modules.Props
import Verif.Tray.Props
import Verif.Quality.Props
import Verif.Ic3.Props
import Verif.Nested.Props
import Verif.Frames.Props
import Verif.Reload.Props
import Verif.Retry.Props
import Verif.Runs.Props
import Verif.Equality.Props
import Verif.Alias.Props
import Verif.Variables.Props
import Verif.Endless.Props
