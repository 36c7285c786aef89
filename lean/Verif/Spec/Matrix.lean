import Verif.Model.Solutions
import Mathlib.LinearAlgebra.Matrix.Symmetric

/-! # Positive definite matrices -/

namespace Libcmaes.Spec

open Matrix

variable {n : ℕ}

/-- The quadratic form `x^T C x`. -/
def quad (C : Mat n) (x : Vec n) : ℝ := x ⬝ᵥ C.mulVec x

/-- Symmetric and positive semi-definite. -/
structure PSD (C : Mat n) : Prop where
  symm : C.IsSymm
  nonneg : ∀ x : Vec n, 0 ≤ quad C x

/-- Symmetric and positive definite. -/
structure PD (C : Mat n) : Prop where
  symm : C.IsSymm
  pos : ∀ x : Vec n, x ≠ 0 → 0 < quad C x

end Libcmaes.Spec
