import Verif.Spec.Matrix
import Mathlib.Analysis.Real.Sqrt

/-! # What a correlation matrix is -/

namespace Libcmaes.Spec

variable {n : ℕ}

/-- `R` is the correlation matrix of random variables with covariance `C`. -/
structure IsCorrelation (C R : Mat n) : Prop where
  entry : ∀ i j, R i j * (Real.sqrt (C i i) * Real.sqrt (C j j)) = C i j
  symm : R.IsSymm
  diag : ∀ i, R i i = 1
  bound : ∀ i j, -1 ≤ R i j ∧ R i j ≤ 1
  strict : ∀ i j, i ≠ j → -1 < R i j ∧ R i j < 1
  pd : PD R

end Libcmaes.Spec
