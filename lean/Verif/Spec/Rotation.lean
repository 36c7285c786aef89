import Verif.Spec.Invariance
import Verif.Spec.Matrix

/-!
# Specification of rotated searches
-/

namespace Libcmaes.Spec

open Matrix

variable {n : ℕ}

/-- `R` is orthogonal: a rotation, possibly with a reflection. -/
def Rotation (R : Mat n) : Prop := R * Rᵀ = 1

/-- The search `s'` is the search `s` turned by `R`: distribution, paths and population, with the same step size
and objective values. -/
structure RotatedSearch (R : Mat n) (s s' : Sol n) : Prop where
  mean : s'.xmean = R.mulVec s.xmean
  sigma : s'.sigma = s.sigma
  cov : s'.cov = R * s.cov * Rᵀ
  psigma : s'.psigma = R.mulVec s.psigma
  pc : s'.pc = R.mulVec s.pc
  cands : s'.cands = s.cands.map (moved R.mulVec id)

/-- The matrix that numbers the axes anew and changes the orientation of some of them: coordinate `i` of the image of `x` is
`e i * x (a i)`. -/
def axisMap (a : Equiv.Perm (Fin n)) (e : Fin n → ℝ) : Mat n := fun i j => if j = a i then e i else 0

/-- The diagonal search `s'` is the search `s` with its axes numbered anew and mirrored. -/
structure RelabelledSearch (a : Equiv.Perm (Fin n)) (e : Fin n → ℝ) (s s' : Sol n) : Prop where
  mean : ∀ i, s'.xmean i = e i * s.xmean (a i)
  sigma : s'.sigma = s.sigma
  sepcov : ∀ i, s'.sepcov i = s.sepcov (a i)
  psigma : ∀ i, s'.psigma i = e i * s.psigma (a i)
  pc : ∀ i, s'.pc i = e i * s.pc (a i)
  cands : s'.cands = s.cands.map (moved (fun x i => e i * x (a i)) id)

end Libcmaes.Spec
