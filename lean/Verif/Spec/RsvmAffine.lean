import Verif.Model.Rsvm

/-!
# A change of coordinates, seen by the ranking SVM

The points, the mean and the covariance matrix in other coordinates `x ↦ A x + b`.
-/

namespace Libcmaes.Spec

open Matrix

variable {n : ℕ}

/-- `W` is the inverse square root of `C`: symmetric, and its square undoes `C`. -/
def InvRoot (W C : Mat n) : Prop := Wᵀ = W ∧ W * W * C = 1

/-- The change of coordinates `x ↦ A x + b`. -/
def affine (A : Mat n) (b : Vec n) (x : Vec n) : Vec n := A.mulVec x + b

/-- The change of coordinates that scales each axis by itself, `x ↦ d x + b`. -/
def axisScale (d b : Vec n) (x : Vec n) : Vec n := d * x + b

/-- The change of coordinates that keeps angles: the inner products of differences are all multiplied by `s^2`. -/
def Similarity (s : ℝ) (T : Vec n → Vec n) : Prop :=
  ∀ x y : Vec n, (T x - T y) ⬝ᵥ (T x - T y) = s ^ 2 * ((x - y) ⬝ᵥ (x - y))

end Libcmaes.Spec
