import Verif.Props.Bounds
import Verif.Props.Scaling
import Verif.Props.GenoPheno
import Verif.Props.EoMatrix
import Verif.Props.Params
import Verif.Props.Init
import Verif.Lemmas.Sort
import Verif.Lemmas.Frame
import Verif.Props.Solutions
import Verif.Lemmas.Strict
import Verif.Props.Distribution
import Verif.Lemmas.Env
import Verif.Props.Total
import Verif.Props.Eval
import Verif.Props.Uh
import Verif.Props.Sampling
import Verif.Props.Fixed
import Verif.Props.Stale
import Verif.Props.Published
import Verif.Props.Elitism
import Verif.Props.Loss
import Verif.Props.Tpa
import Verif.Props.Invariance
import Verif.Props.Maximise
import Verif.Props.Stop
import Verif.Props.StopCrit
import Verif.Props.Restart
import Verif.Props.Bipop
import Verif.Props.Resume
import Verif.Props.Stats
import Verif.Props.Engine
import Verif.Props.Rsvm
import Verif.Props.Surrogate
import Verif.Props.SurrogateAcm
import Verif.Props.SurrogateTrain
import Verif.Props.ErrStats
import Verif.Props.Vd
import Verif.Props.Edm
import Verif.Props.UhLevel
import Verif.Props.RsvmStrategy
import Verif.Props.Contour
import Verif.Props.ElitistRestart
import Verif.Props.Law
import Verif.Props.SurrDispatch
import Verif.Props.Sigmas
import Verif.Props.Rotation
import Verif.Props.Plot
import Verif.Props.Reduce
import Verif.Props.Python
import Verif.Props.Shrink
import Verif.Props.Plateau
import Verif.Props.Luck
import Verif.Spec.Progress
import Verif.Lemmas.Progress
import Verif.Props.Progress
import Verif.Model.Print
import Verif.Spec.Print
import Verif.Lemmas.Print
import Verif.Lemmas.PrintWit
import Verif.Props.Print
import Verif.Spec.Gradient
import Verif.Lemmas.Gradient
import Verif.Lemmas.GradientNum
import Verif.Lemmas.GradientTotal
import Verif.Lemmas.GradientVd
import Verif.Lemmas.GradientWit
import Verif.Props.Gradient
import Verif.Props.GradientVd
import Verif.Spec.Lazy
import Verif.Lemmas.Lazy
import Verif.Props.Lazy
import Verif.Lemmas.LazyActive
import Verif.Props.LazyActive
import Verif.Spec.HandLoop
import Verif.Lemmas.HandLoop
import Verif.Props.HandLoop
import Verif.Props.HandElitist
import Verif.Spec.TpaLinear
import Verif.Lemmas.TpaLinear
import Verif.Props.TpaLinear
import Verif.Model.Benchmarks
import Verif.Spec.Benchmarks
import Verif.Lemmas.Benchmarks
import Verif.Props.Benchmarks
import Verif.Spec.Shift
import Verif.Lemmas.Shift
import Verif.Props.Shift
import Verif.Lemmas.GradientTpa
import Verif.Props.GradientTpa
import Verif.Spec.Place
import Verif.Lemmas.Place
import Verif.Props.Place
import Verif.Spec.Unit
import Verif.Lemmas.Unit
import Verif.Lemmas.UnitWit
import Verif.Props.Unit
import Verif.Props.UhBox
import Verif.Spec.Relabel
import Verif.Lemmas.Relabel
import Verif.Props.Relabel
import Verif.Lemmas.StagWit
import Verif.Lemmas.StagCrit
import Verif.Props.RelabelStag
import Verif.Model.Rotated
import Verif.Spec.Rotated
import Verif.Lemmas.Rotated
import Verif.Props.Rotated
import Verif.Props.Ties
import Verif.Spec.RsvmAffine
import Verif.Lemmas.RsvmAffine
import Verif.Props.RsvmAffine
import Verif.Spec.RsvmRank
import Verif.Lemmas.RsvmRank
import Verif.Props.RsvmRank
