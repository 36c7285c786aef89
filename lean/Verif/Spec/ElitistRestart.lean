import Verif.Model.Stop

/-!
# Specification of the elitist restart
-/

namespace Libcmaes.Spec

variable {n : ℕ}

/-- The state at the end of a run in which elitism mode 3 asks for another run: the best candidate ever seen
is better than the best of the last population, and was seen three or more iterations ago. -/
def NeedsRestart (s : Strat n) : Prop :=
  ∃ b i, s.sol.bestSeen = some b ∧ FVal.lt b.fvalue s.sol.bestCandidate.fvalue ∧
    s.sol.bestSeenIter = some i ∧ i + 3 ≤ s.niter

/-- The value the search gives to a point `x`: that of the objective at its phenotype, negated when
maximising. -/
def ValueAt (f : Vec n → FVal) (p : Params n) (x : Vec n) (v : FVal) : Prop :=
  ∃ y, phenoV p.gp x = .ok y ∧ v = if p.maximize then (f y).neg else f y

/-- `a` is as good as `b`: equal, or smaller. -/
def AsGoodAs (a b : FVal) : Prop := a = b ∨ FVal.lt a b

end Libcmaes.Spec
