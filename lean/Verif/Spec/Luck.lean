import Verif.Spec.Law

/-!
# Specification: the chance of a normal sample
-/

namespace Libcmaes.Spec

open MeasureTheory ProbabilityTheory WithLp

variable {n : ℕ}

/-- The probability a normal vector with mean `m` and covariance matrix `S` has to be in `A`. -/
noncomputable def chance (m : Vec n) (S : Mat n) (A : Set (Vec n)) : ENNReal :=
  multivariateGaussian (toLp 2 m) S {x | ofLp x ∈ A}

/-- The internal points the objective `g` (to be maximised or minimised) gives a value better than `c`. -/
def better (p : Params n) (g : Vec n → FVal) (c : FVal) : Set (Vec n) :=
  {x | ∃ y, phenoV p.gp x = .ok y ∧ FVal.lt (if p.maximize then (g y).neg else g y) c}

end Libcmaes.Spec
