import Verif.Spec.Matrix
import Verif.Spec.Good
import Verif.Spec.Cma
import Verif.Model.Dispatch

/-!
# Specification: how wide the search distribution is, and what a generation leaves of it
-/

namespace Libcmaes.Spec

variable {n : ℕ}

/-- The standard deviation of the search distribution N(m, σ² C) in direction `x`: σ √(xᵀ C x). -/
noncomputable def spread (sigma : ℝ) (C : Mat n) (x : Vec n) : ℝ := sigma * Real.sqrt (quad C x)

/-- The share of the variance in any direction which one update of the covariance leaves at least:
1 - c1 - cmu with the default update, 0.66 (1 - cmu) - c1 with the active one, which may take away 0.34 (1 - cmu)
more. -/
def keepRate (kind : CovKind) (p : Params n) : ℝ :=
  if kind = .active then 0.66 * (1 - p.cmu) - p.c1 else 1 - p.c1 - p.cmu

/-- The share of the standard deviation left at least by one generation: the step size shrinks at most by
exp(-csigma/dsigma). -/
noncomputable def shrinkRate (kind : CovKind) (p : Params n) : ℝ :=
  Real.exp (-(p.csigma / p.dsigma)) * Real.sqrt (keepRate kind p)

end Libcmaes.Spec
