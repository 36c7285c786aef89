import Verif.Spec.Cma
import Verif.Model.Strategy
import Mathlib.Analysis.Calculus.Deriv.Basic
import Mathlib.Analysis.Calculus.FDeriv.Basic

/-!
# The expected distance to the minimum
-/

namespace Libcmaes.Spec

open Matrix

variable {n : ℕ}

/-- The slopes of `F` along the coordinates `z` in which candidates are drawn, `x = m + σ A z`, at the mean. -/
noncomputable def slopes (F : Vec n → ℝ) (m : Vec n) (sigma : ℝ) (A : Mat n) : Vec n :=
  fun j => deriv (fun t : ℝ => F (m + sigma • A.mulVec (Pi.single j t))) 0

/-- The expected distance to the minimum: the length of the gradient in these coordinates times a factor that depends
on the dimension and the number of candidates. -/
noncomputable def edmOf (lambda : ℕ) (F : Vec n → ℝ) (m : Vec n) (sigma : ℝ) (A : Mat n) : ℝ :=
  n / (10 * (Real.sqrt (lambda / 4 + 1 / 2) - 1)) * len (slopes F m sigma A)

/-- The user's gradient function is the gradient of `F`. -/
def GivesGradient (env : Env n) (F : Vec n → ℝ) : Prop :=
  ∃ G, env.gfunc = some G ∧ ∀ (k : ℕ) (x : Vec n),
    ∃ L : Vec n →L[ℝ] ℝ, HasFDerivAt F L x ∧ ∀ i, L (Pi.single i 1) = G k x i

/-- The transform to phenotype space is affine, `x ↦ a x + b` coordinate by coordinate. -/
def AffinePheno (gp : GenoPheno) (a b : Vec n) : Prop := ∀ x : Vec n, phenoV gp x = .ok (a * x + b)

end Libcmaes.Spec
