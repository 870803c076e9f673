import Verif.Base.Py
import Verif.Base.SDict
import Verif.Base.Tensor
import Verif.Base.TensorLemmas
import Verif.Assembly.Model
import Verif.Assembly.Spec
import Verif.Assembly.Lemmas
import Verif.Assembly.Props
import Verif.Dicts.Model
import Verif.Dicts.Spec
import Verif.Dicts.Lemmas
import Verif.Dicts.Props
import Verif.Concat.Model
import Verif.Concat.Spec
import Verif.Concat.Lemmas
import Verif.Concat.Props
import Verif.Base.PDict
import Verif.Integrator.Model
import Verif.Integrator.Spec
import Verif.Integrator.Lemmas
import Verif.Integrator.Props
import Verif.TimeParams.Model
import Verif.TimeParams.Spec
import Verif.TimeParams.Lemmas
import Verif.TimeParams.Props
import Verif.Scheduler.Model
import Verif.Scheduler.Spec
import Verif.Scheduler.Lemmas
import Verif.Scheduler.Props
import Verif.Base.DictLoop
import Verif.Striding.Model
import Verif.Striding.Spec
import Verif.Striding.Lemmas
import Verif.Striding.Props
import Verif.Enlarge.Model
import Verif.Enlarge.Spec
import Verif.Enlarge.Lemmas
import Verif.Enlarge.Props
import Verif.Sweep.Model
import Verif.Sweep.Spec
import Verif.Sweep.Lemmas
import Verif.Sweep.Props
import Verif.Cli.Model
import Verif.Cli.Spec
import Verif.Cli.Lemmas
import Verif.Cli.Props
import Verif.Activation.Model
import Verif.Activation.Props
import Verif.Latex.Model
import Verif.Latex.Props
import Verif.Complexity.Model
import Verif.Complexity.Props
import Verif.Layers.Model
import Verif.Layers.Props
import Verif.ParamUtils.Model
import Verif.ParamUtils.Props
import Verif.Init.Model
import Verif.Init.Props
import Verif.Shooting.Spec
import Verif.Shooting.Model
import Verif.Shooting.Lemmas
import Verif.Shooting.Envelope
import Verif.Shooting.Props
import Verif.Energy.Model
import Verif.Energy.Spec
import Verif.Energy.Props
import Verif.Models.Model
import Verif.Models.Lemmas
import Verif.Models.Classes
import Verif.Models.Props
import Verif.Evolution.Spec
import Verif.Evolution.Model
import Verif.Evolution.Lemmas
import Verif.Evolution.Props
import Verif.Integrand.Model
import Verif.Integrand.Spec
import Verif.Integrand.Lemmas
import Verif.Integrand.Props
import Verif.Block.Model
import Verif.Block.Spec
import Verif.Block.Lemmas
import Verif.Block.Props
import Verif.Block.Chain
import Verif.Block.ChainProps
import Verif.Block.Enlarging
import Verif.ResNet.Model
import Verif.ResNet.Spec
import Verif.ResNet.Lemmas
import Verif.ResNet.Props
import Verif.ResNet.Works
import Verif.ResNet.Built
import Verif.Chunks.Model
import Verif.Chunks.Spec
import Verif.Chunks.Lemmas
import Verif.Chunks.Props
import Verif.Batches.Model
import Verif.Batches.Props
import Verif.Discrete.Model
import Verif.Discrete.Props
import Verif.Discrete.Invert
import Verif.Shapes.Model
import Verif.Shapes.Spec
import Verif.Shapes.Lemmas
import Verif.Shapes.Props
import Verif.Conv.Model
import Verif.Conv.Spec
import Verif.Conv.Lemmas
import Verif.Conv.Props
import Verif.Symmetry.Spec
import Verif.Symmetry.Lemmas
import Verif.Symmetry.Props
import Verif.Symmetry.Rotation
import Verif.Symmetry.RotationProps
import Verif.Transport.Spec
import Verif.Transport.Model
import Verif.Transport.Lemmas
import Verif.Transport.Props
import Verif.Hooks.Spec
import Verif.Hooks.Model
import Verif.Hooks.Lemmas
import Verif.Hooks.Norms
import Verif.Hooks.Props
import Verif.Integrand.External
import Verif.Block.Own
import Verif.Flow.Spec
import Verif.Flow.Model
import Verif.Flow.Lemmas
import Verif.Flow.Blocks
import Verif.Flow.Props
import Verif.Whole.Model
import Verif.Whole.Spec
import Verif.Whole.Lemmas
import Verif.Whole.Run
import Verif.Whole.Eval
import Verif.Whole.Block
import Verif.Whole.Props
import Verif.Whole.Consequences
import Verif.Whole.Instance
import Verif.Converge.Spec
import Verif.Converge.Model
import Verif.Converge.Lemmas
import Verif.Converge.Run
import Verif.Converge.Smooth
import Verif.Converge.Grid
import Verif.Converge.Props
import Verif.Converge.Exist
import Verif.Converge.Bounded
import Verif.Converge.Global
import Verif.Converge.Classes
import Verif.Converge.Forward
import Verif.Converge.Instance
import Verif.Block.Names
import Verif.Masked.Model
import Verif.Masked.Lemmas
import Verif.Masked.Props
import Verif.Checkpoint.Model
import Verif.Checkpoint.Props
import Verif.Spheres.Model
import Verif.Spheres.Props
import Verif.Block.Plain
import Verif.Iterated.Model
import Verif.Iterated.Props
import Verif.Standalone.Model
import Verif.Standalone.Props
import Verif.Scale.Spec
import Verif.Scale.Lemmas
import Verif.Scale.Props
import Verif.Training.Model
import Verif.Training.Spec
import Verif.Training.Lemmas
import Verif.Training.Props
import Verif.Training.Targets
import Verif.Training.Spiral
import Verif.Training.Runs
import Verif.Training.Exact
import Verif.Whole.Images
import Verif.Whole.Inputs
import Verif.Converge.Images
import Verif.Shell.Model
import Verif.Shell.Spec
import Verif.Shell.Lemmas
import Verif.Shell.Props
import Verif.Later.Spec
import Verif.Later.Joined
import Verif.Later.Run
import Verif.Later.Block
import Verif.Later.Props
import Verif.Later.Layouts
import Verif.Later.Network
import Verif.Later.Instance
import Verif.Residual.Middle
import Verif.Residual.Spec
import Verif.Residual.Enlarging
import Verif.Residual.Widen
import Verif.Residual.Blocks
import Verif.Residual.Thinning
import Verif.Residual.Network
import Verif.Residual.Consequences
import Verif.Residual.Images
import Verif.Residual.Instance
import Verif.Optimal.Spec
import Verif.Optimal.Gronwall
import Verif.Optimal.Taylor
import Verif.Optimal.Variation
import Verif.Optimal.Lemmas
import Verif.Optimal.Props
import Verif.Optimal.Exist
import Verif.Optimal.Necessary
import Verif.Optimal.System
import Verif.Optimal.Instance
import Verif.Options.Argparse
import Verif.Options.Model
import Verif.Options.Spec
import Verif.Options.Lemmas
import Verif.Options.Props
import Verif.Options.Decimals
import Verif.Options.Experiments
import Verif.Adjoint.Spec
import Verif.Adjoint.Model
import Verif.Adjoint.Lemmas
import Verif.Adjoint.Props
import Verif.Adjoint.Instance
import Verif.Backprop.Lemmas
import Verif.Backprop.Loss
import Verif.Backprop.Props
import Verif.Backprop.Instance
import Verif.Figures.Names
import Verif.Figures.Model
import Verif.Figures.Spec
import Verif.Figures.Lemmas
import Verif.Figures.Props
import Verif.Figures.Basic
import Verif.Figures.Animation
import Verif.Shell.Direct
import Verif.Tables.Model
import Verif.Tables.Lemmas
import Verif.Tables.Props
import Verif.Datasets.Model
import Verif.Datasets.Spec
import Verif.Datasets.Lemmas
import Verif.Datasets.Props
import Verif.Datasets.Spiral
import Verif.LongRange.Model
import Verif.LongRange.Spec
import Verif.LongRange.Lemmas
import Verif.LongRange.Blocks
import Verif.LongRange.Props
import Verif.LongRange.Instances
import Verif.Horizon.Model
import Verif.Horizon.Spec
import Verif.Horizon.Lemmas
import Verif.Horizon.Props
import Verif.Horizon.Instances
import Verif.Census.Model
import Verif.Census.Spec
import Verif.Census.Blocks
import Verif.Census.Names
import Verif.Census.Network
import Verif.Census.Class
import Verif.Census.History
import Verif.Census.Good
import Verif.Census.Distinct
import Verif.Census.Props
import Verif.Gradcheck.Model
import Verif.Gradcheck.Spec
import Verif.Gradcheck.Penalty
import Verif.Gradcheck.Lemmas
import Verif.Gradcheck.Props
import Verif.Gradcheck.Instance
import Verif.Order.Spec
import Verif.Order.Chain
import Verif.Order.Stages
import Verif.Order.Lemmas
import Verif.Order.Props
import Verif.Order.Forward
import Verif.Order.Penalty
import Verif.Order.Sharp
import Verif.Order.Instance
import Verif.Recompute.Model
import Verif.Recompute.Spec
import Verif.Recompute.Lemmas
import Verif.Recompute.Layout
import Verif.Recompute.Props
import Verif.Recompute.Instance
import Verif.Rounding.Spec
import Verif.Rounding.Lemmas
import Verif.Rounding.Steps
import Verif.Rounding.Props
import Verif.Rounding.Forward
import Verif.Rounding.Instance
import Verif.Sessions.Model
import Verif.Sessions.Spec
import Verif.Sessions.Lemmas
import Verif.Sessions.Histories
import Verif.Sessions.Props
import Verif.Sessions.Circles
import Verif.Tensorboard.Model
import Verif.Tensorboard.Props
import Verif.Shell.Process
import Verif.Symmetry.Mirror
import Verif.Symmetry.MirrorProps
import Verif.Gradcheck.Tries
import Verif.Capacity.Lemmas
import Verif.Capacity.Props
import Verif.Descent.Model
import Verif.Descent.Spec
import Verif.Descent.Lemmas
import Verif.Descent.Props
import Verif.Descent.Block
import Verif.Descent.Instance
import Verif.Descent.Adjoint
import Verif.Ordering.Spec
import Verif.Ordering.Props
import Verif.Ordering.Reverse
import Verif.Ordering.Instance
import Verif.Solvers.Model
import Verif.Solvers.Props
import Verif.Sensitivity.Spec
import Verif.Sensitivity.Classes
import Verif.Sensitivity.Props
import Verif.Sensitivity.Steps
import Verif.Sensitivity.Images
import Verif.Figures.Samples
import Verif.Figures.SamplesProps
import Verif.Rotated.Model
import Verif.Rotated.Props
import Verif.Annealed.Model
import Verif.Annealed.Spec
import Verif.Annealed.Props
import Verif.Autoencoder.Model
import Verif.Autoencoder.Spec
import Verif.Autoencoder.Lemmas
import Verif.Autoencoder.Props
import Verif.Autoencoder.Values
import Verif.Notebooks.Model
import Verif.Notebooks.Spec
import Verif.Notebooks.Lemmas
import Verif.Notebooks.Circles
import Verif.Notebooks.Digits
import Verif.Notebooks.Balls
