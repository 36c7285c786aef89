import Verif.Spec.Invariance
import Verif.Spec.Stop

/-!
# Objectives that differ by a constant
-/

namespace Libcmaes.Spec

variable {n : ℕ}

/-- The value plus the constant `c`; infinities and NaN stay. -/
noncomputable def shiftBy (c : ℝ) : FVal → FVal
  | .nan => .nan
  | .num a => .num (a + (c : EReal))

/-- The progress function looks at no objective value: for two states with the same distribution, iteration and evaluation counts
it decides alike. -/
def BlindToValues (env : Env n) : Prop :=
  ∀ (k : ℕ) (q q' : Params n) (t t' : Sol n), SameSearch id 1 t t' → t'.niter = t.niter → t'.nevals = t.nevals →
    env.pfunc k q' t' = env.pfunc k q t

/-- The two searches ended alike: same status, iteration and evaluation counts, same distribution; and, if there was an iteration,
the same points, with values mapped by `g`. -/
structure SameEnd (g : FVal → FVal) (s s' : Strat n) : Prop where
  status : s'.sol.runStatus = s.sol.runStatus
  niter : s'.niter = s.niter
  nevals : s'.nevals = s.nevals
  search : SameSearch id 1 s.sol s'.sol
  points : s.niter ≠ 0 → SamePoints id g s.sol s'.sol

end Libcmaes.Spec
