import Verif.Model.Strategy

/-!
# Vocabulary for a loop written by hand
-/

namespace Libcmaes.Spec

variable {n : ℕ}

/-- `k` further calls of `tell()` with nothing evaluated in between. -/
noncomputable def tellAgain (env : Env n) (s : Strat n) : ℕ → Out (Strat n)
  | 0 => .ok s
  | k + 1 => tellAgain env s k >>= fun t => t.tell env

/-- The same environment, the first `m` normal vectors skipped. -/
def skipDraws (env : Env n) (m : ℕ) : Env n := { env with z := fun k => env.z (k + m) }

end Libcmaes.Spec
