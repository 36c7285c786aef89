import Verif.Spec.Sampling
import Mathlib.Probability.Distributions.Gaussian.Multivariate
import Mathlib.Probability.HasLaw
import Mathlib.Probability.Independence.Basic

/-!
# Random draws

The model takes the numbers drawn by the generator as an input, `Env.z`.  Here they are random variables
on a probability space.
-/

namespace Libcmaes.Spec

open MeasureTheory ProbabilityTheory WithLp

variable {n : ℕ} {Ω : Type*} [MeasurableSpace Ω] {ι : Type*} [Fintype ι] [DecidableEq ι]

/-- The vectors drawn are independent, and each is standard normal: the ideal generator. -/
structure StdDraws (P : Measure Ω) (Z : ℕ → Ω → Vec n) : Prop where
  normal : ∀ k, HasLaw (fun ω => toLp 2 (Z k ω)) (stdGaussian (EuclideanSpace ℝ (Fin n))) P
  indep : iIndepFun Z P

/-- The environment in the outcome `ω`. -/
def drawn (env : Env n) (Z : ℕ → Ω → Vec n) (ω : Ω) : Env n := { env with z := fun k => Z k ω }

/-- The random vector `X` is normal with mean `m` and covariance matrix `S`. -/
def IsNormal (P : Measure Ω) (X : Ω → ι → ℝ) (m : ι → ℝ) (S : Matrix ι ι ℝ) : Prop :=
  S.PosSemidef ∧ HasLaw (fun ω => toLp 2 (X ω)) (multivariateGaussian (toLp 2 m) S) P

/-- The objective does not look at the point: its values depend on the number of the call only, as those of a
constant function or of pure noise. -/
def Neutral (env : Env n) : Prop := ∀ k y y', env.f k y = env.f k y'

/-- The covariance matrix held by the solution object, for the full and the diagonal variant. -/
noncomputable def searchCov (p : Params n) (s : Sol n) : Mat n :=
  if p.sep then Matrix.diagonal s.sepcov else s.cov

/-- No form of elitism, and no fixed coordinate. -/
structure NoExtras (p : Params n) : Prop where
  elitist : p.elitist = false
  initialElitist : p.initialElitist = false
  onRestart : p.initialElitistOnRestart = false
  fixed : p.fixedP = []

/-- The population `pop` is a sample of the normal distribution with mean `m` and covariance `sigma² C`, as far as the
free coordinates go: whichever of them are looked at, in each candidate they are normal with the mean and
covariance given by `m` and `C`, and the candidates are independent of each other. -/
structure Sampled (P : Measure Ω) (p : Params n) (m : Vec n) (sigma : ℝ) (C : Mat n) (pop : Ω → List (Vec n)) :
    Prop where
  size : ∀ ω, (pop ω).length = p.lambda
  normal : ∀ j < p.lambda, ∀ (k : ℕ) (e : Fin k → Fin n), (∀ a, Free p (e a)) →
    IsNormal P (fun ω a => (pop ω).getD j 0 (e a)) (fun a => m (e a)) (sigma ^ 2 • C.submatrix e e)
  indep : iIndepFun (fun (j : Fin p.lambda) ω => (pop ω).getD j 0) P

/-- `X` is uniformly distributed on `[a, b]`. -/
def UniformOn (P : Measure Ω) (X : Ω → ℝ) (a b : ℝ) : Prop :=
  ∀ t, a ≤ t → t ≤ b → P {ω | X ω ≤ t} = ENNReal.ofReal ((t - a) / (b - a))

/-- The numbers drawn for the starting point: independent, uniform on `[-1, 1]`. -/
structure UniformDraws (P : Measure Ω) (R : Ω → Vec n) : Prop where
  uniform : ∀ i, UniformOn P (fun ω => R ω i) (-1) 1
  indep : iIndepFun (fun i ω => R ω i) P

end Libcmaes.Spec
