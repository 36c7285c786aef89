import Verif.Spec.Invariance
import Verif.Spec.Stop

/-!
# Searches in another place, at another scale
-/

namespace Libcmaes.Spec

variable {n : ℕ}

/-- Rounding does not tell the two places apart: adding `a d` to `a x + t` has no effect just if adding `d` to `x` has none.  True
of exact addition, and of doubles if `a` is a power of two and `t` is zero. -/
def RoundsAlike (fladd : ℝ → ℝ → ℝ) (a : ℝ) (t : Vec n) : Prop :=
  ∀ (i : Fin n) (x d : ℝ), a * x + t i = fladd (a * x + t i) (a * d) ↔ x = fladd x d

/-- The progress function does not look at the place: for two states that correspond it decides alike. -/
def BlindToPlace (env : Env n) (A : Vec n → Vec n) (a : ℝ) : Prop :=
  ∀ (k : ℕ) (q q' : Params n) (t t' : Sol n), SameSearch A a t t' → t'.niter = t.niter → t'.nevals = t.nevals →
    env.pfunc k q' t' = env.pfunc k q t

/-- The two searches ended alike: same status, iteration and evaluation counts, the distribution moved by `A`; and, if there was
an iteration, the points moved by `A`, with the same values. -/
structure SameEndAt (A : Vec n → Vec n) (a : ℝ) (s s' : Strat n) : Prop where
  status : s'.sol.runStatus = s.sol.runStatus
  niter : s'.niter = s.niter
  nevals : s'.nevals = s.nevals
  search : SameSearch A a s.sol s'.sol
  points : s.niter ≠ 0 → SamePoints A id s.sol s'.sol

end Libcmaes.Spec
