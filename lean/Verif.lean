import Verif.Props.PrimTable
import Verif.Props.PrimDensity
import Verif.Props.PrimNormalised
import Verif.Props.PrimScore
import Verif.Props.PrimGrids
import Verif.Props.Composite
import Verif.Props.Table
import Verif.Props.Density
import Verif.Props.Held
import Verif.Props.Samples
import Verif.Props.MixDefects
import Verif.Props.Rows
import Verif.Props.Hypers
import Verif.Props.Walks
import Verif.Props.Edits
import Verif.Model.TransitionViews
import Verif.Props.Progress
import Verif.Props.RandomPartition
import Verif.Props.CoreDsl
import Verif.Props.Render
import Verif.Props.ViewObserves
import Verif.Props.CppCrosscat
import Verif.Props.Ensemble
import Verif.Props.Ordered
import Verif.Props.Entropy
import Verif.Props.LinReg
import Verif.Props.Forest
import Verif.Props.Chain
import Verif.Props.Views
import Verif.Model.TransitionCrosscat
import Verif.Lemmas.Tune
import Verif.Lemmas.Gibbs
import Verif.Spec.Crosscat
import Verif.Props.Gibbs
import Verif.Props.CppUpdate
import Verif.Props.Export
import Verif.Props.ViewTotal
import Verif.Props.CppTotal
import Verif.Props.Sweep
import Verif.Props.Kernels
import Verif.Props.Types
import Verif.Model.EnsembleInit
import Verif.Spec.Life
import Verif.Lemmas.Life
import Verif.Lemmas.LifeInit
import Verif.Lemmas.LifeRun
import Verif.Lemmas.ObserveTotal
import Verif.Props.Life
import Verif.Lemmas.Asked
import Verif.Lemmas.Values
import Verif.Spec.Asked
import Verif.Lemmas.LifeAsked
import Verif.Props.Asked
import Verif.Model.EnsembleQueries
import Verif.Lemmas.LifeQueries
import Verif.Props.EnsembleQueries
import Verif.Spec.Randomness
import Verif.Lemmas.Randomness
import Verif.Lemmas.SimulateLaw
import Verif.Lemmas.SimulateLawMix
import Verif.Props.SimulateLaw
import Verif.Spec.Posterior
import Verif.Lemmas.ScoreForm
import Verif.Lemmas.HypersKept
import Verif.Lemmas.Clusterings
import Verif.Lemmas.ConcretePosterior
import Verif.Props.Posterior
import Verif.Lemmas.Stationary
import Verif.Lemmas.Kernel
import Verif.Lemmas.RowLaw
import Verif.Lemmas.RowKernel
import Verif.Lemmas.SweepLaw
import Verif.Lemmas.ConcreteClusterings
import Verif.Props.Stationary
import Verif.Lemmas.Ergodic
import Verif.Lemmas.RowReach
import Verif.Props.Converges
import Verif.Lemmas.HyperKernel
import Verif.Lemmas.HyperLaw
import Verif.Spec.GridPosterior
import Verif.Lemmas.HyperErgodic
import Verif.Props.HyperPosterior
import Verif.Model.Conversion
import Verif.Spec.Conversion
import Verif.Lemmas.Conversion
import Verif.Props.Conversion
import Verif.Lemmas.Lens
import Verif.Spec.JointPosterior
import Verif.Lemmas.Tuned
import Verif.Lemmas.JointHypers
import Verif.Lemmas.JointView
import Verif.Lemmas.JointRows
import Verif.Lemmas.JointCrosscat
import Verif.Lemmas.JointSteps
import Verif.Lemmas.JointStates
import Verif.Lemmas.JointGrids
import Verif.Lemmas.ConcreteJoint
import Verif.Props.JointPosterior
import Verif.Model.CoreText
import Verif.Model.CoreEmbedded
import Verif.Spec.CoreDsl
import Verif.Lemmas.CoreText
import Verif.Lemmas.CoreRead
import Verif.Lemmas.CoreExec
import Verif.Props.CoreText
import Verif.Lemmas.ViewLaw
import Verif.Lemmas.ConcreteViewLaw
import Verif.Spec.ViewLaw
import Verif.Props.ViewLaw
import Verif.Model.Venture
import Verif.Spec.Venture
import Verif.Lemmas.Venture
import Verif.Props.Venture
import Verif.Model.RandomAst
import Verif.Spec.RandomAst
import Verif.Lemmas.RandomAst
import Verif.Props.RandomAst
import Verif.Model.ChainMeta
import Verif.Spec.ChainMeta
import Verif.Lemmas.ChainMeta
import Verif.Props.ChainMeta
import Verif.Model.Printed
import Verif.Spec.Printed
import Verif.Lemmas.Printed
import Verif.Props.Printed
import Verif.Props.ChainProduct
import Verif.Spec.ChainProduct
import Verif.Props.ChainProductDraws
