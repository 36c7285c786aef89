import Verif.Spec.Cma
import Mathlib.LinearAlgebra.Matrix.NonsingularInverse
import Mathlib.LinearAlgebra.Matrix.Trace

/-!
# The published update of the VD model

Akimoto, Auger and Hansen, *Comparison-Based Natural Gradient Optimization in High Dimension* (GECCO
2014): the distributions `N(m, sigma² D (I + v vᵀ) D)`, `D` diagonal, and the natural gradient with respect to
`v` and `D`.  Stated from the definition of the Fisher information of normal distributions and independent of the
model of the code and of the closed formulas of the paper.
-/

namespace Libcmaes.Spec

open Finset Matrix

variable {n : ℕ}

/-- The covariance matrix with parameters `d` and `v`. -/
def vdMat (d v : Vec n) : Mat n := diagonal d * (1 + vecMulVec v v) * diagonal d

/-- Its derivative when `v` moves in direction `u`. -/
def vdMatV (d v u : Vec n) : Mat n := diagonal d * (vecMulVec u v + vecMulVec v u) * diagonal d

/-- Its derivative when `d` moves in direction `e`. -/
def vdMatD (d v e : Vec n) : Mat n :=
  diagonal e * (1 + vecMulVec v v) * diagonal d + diagonal d * (1 + vecMulVec v v) * diagonal e

/-- The Fisher information of the centred normal distribution of covariance `C`, for two directions of
change of `C`. -/
noncomputable def fisher (C X Y : Mat n) : ℝ := 1 / 2 * trace (C⁻¹ * X * C⁻¹ * Y)

/-- The direction `(u, e)` of change of `(v, d)` is the natural gradient for the change `G` of the covariance
matrix, the coupling of `v` and `d` damped by `a`: its Fisher product with every direction is that of `G`.
With `a = 1` (no damping) it is the projection of `G`. -/
def NatGrad (a : ℝ) (d v : Vec n) (G : Mat n) (u e : Vec n) : Prop :=
  ∀ u' e' : Vec n,
    fisher (vdMat d v) (vdMatV d v u) (vdMatV d v u') + a * fisher (vdMat d v) (vdMatD d v e) (vdMatV d v u')
      + a * fisher (vdMat d v) (vdMatV d v u) (vdMatD d v e') + fisher (vdMat d v) (vdMatD d v e) (vdMatD d v e')
    = fisher (vdMat d v) G (vdMatV d v u' + vdMatD d v e')

/-- The damping of the paper (its equation 7), `a = |v|²`, `m` the largest squared component of `v/|v|`. -/
noncomputable def vdDamp (a m : ℝ) : ℝ :=
  min 1 (Real.sqrt (a ^ 2 + (2 - 1 / Real.sqrt (1 + a)) * (1 + a) / m) / (2 + a))

/-- The change of the covariance matrix asked for: the rank-mu and the rank-one part, each relative to `C`. -/
noncomputable def vdTarget (k : CmaConsts) (x : ℕ → Vec n) (h : ℝ) (st st' : CmaState n) (C : Mat n) : Mat n :=
  k.cmu • (rankMuOf k st x - C) + (h * k.c1) • (vecMulVec st'.pc st'.pc - C)

end Libcmaes.Spec
