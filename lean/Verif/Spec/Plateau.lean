import Verif.Spec.Stop

/-!
# Specification: objectives that are flat up to the tolerance
-/

namespace Libcmaes.Spec

variable {n : ℕ}

/-- The number of iterations the test on the progress of the best value looks back: `10 + 30n/λ`, or less if the user
set a shorter history. -/
def lookBack (p : Params n) : ℕ :=
  if 0 < p.maxHist then min p.maxHist.toNat (10 + 30 * n / p.lambda) else 10 + 30 * n / p.lambda

/-- All values the search sees (negated, for a maximisation) are finite `double`s between `a` and `b`. -/
def FlatObjective (env : Env n) (p : Params n) (a b : ℝ) : Prop :=
  ∀ k y, ∃ r : ℝ, a ≤ r ∧ r ≤ b ∧ |r| ≤ dblMax ∧
    (if p.maximize then (env.f k y).neg else env.f k y) = .num (r : EReal)

/-- All values the search sees are `+∞`. -/
def InfiniteObjective (env : Env n) (p : Params n) : Prop :=
  ∀ k y, (if p.maximize then (env.f k y).neg else env.f k y) = .num ⊤

end Libcmaes.Spec
