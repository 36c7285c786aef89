import Verif.Spec.Edm
import Verif.Spec.Law
import Mathlib.LinearAlgebra.Matrix.NonsingularInverse

/-!
# The candidate made from the gradient
-/

namespace Libcmaes.Spec

open Matrix

variable {n : ℕ}

/-- Squared distance of `x` from the mean `m` in units of the distribution with covariance `sigma² C` (Mahalanobis); its
expectation for a sample is `n`. -/
noncomputable def distSq (m : Vec n) (sigma : ℝ) (C : Mat n) (x : Vec n) : ℝ := quad C⁻¹ (x - m) / sigma ^ 2

/-- `x` is the point at which the linear approximation of `F` at the mean is least, among those no farther from the mean than
a sample is in the mean square; it is at that distance, and its slope is downwards. -/
structure SteepestPoint (F : Vec n → ℝ) (m : Vec n) (sigma : ℝ) (C : Mat n) (x : Vec n) : Prop where
  dist : distSq m sigma C x = n
  down : fderiv ℝ F m (x - m) < 0
  least : ∀ y, distSq m sigma C y ≤ n → y ≠ x → fderiv ℝ F m (x - m) < fderiv ℝ F m (y - m)

/-- The slope of the fall to that point: `√n` times the standard deviation of the slopes of samples. -/
noncomputable def slopeStd (F : Vec n → ℝ) (m : Vec n) (sigma : ℝ) (C : Mat n) : ℝ :=
  sigma * Real.sqrt (quad C fun i => fderiv ℝ F m (Pi.single i 1))

/-- Near `m`, the transform to phenotype space acts on each coordinate by a polynomial of degree 2, `c x² + b x + a`: affine
transforms, and bounds at points that are not next to a join of their pieces. -/
def QuadraticNear (gp : GenoPheno) (m c b a : Vec n) : Prop :=
  ∀ x : Vec n, (∀ i, |x i - m i| ≤ 1e-8 * (1 + |m i|)) → phenoV gp x = .ok (c * x * x + b * x + a)

end Libcmaes.Spec
