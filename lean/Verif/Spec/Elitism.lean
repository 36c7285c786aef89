import Verif.Model.Strategy
import Verif.Spec.Setters

/-!
# Specification of elitism
-/

namespace Libcmaes.Spec

variable {n : ℕ}

/-- The candidate that elitism protects in the coming evaluation: from the second generation on, the
best one seen so far (mode 1), or the starting point (mode 2; mode 3 once the run has been restarted). -/
def Reference (s : Strat n) (c : Cand n) : Prop :=
  0 < s.niter ∧
    (ElitismMode s.p 1 ∧ s.sol.bestSeen = some c ∨ ElitismMode s.p 2 ∧ s.sol.initialCand = some c ∨
      ElitismMode s.p 3 ∧ s.initialElitist = true ∧ s.sol.initialCand = some c)

/-- No candidate is protected. -/
def NoReference (s : Strat n) : Prop :=
  s.niter = 0 ∨ ElitismMode s.p 0 ∨ ElitismMode s.p 3 ∧ s.initialElitist = false

/-- The same search with elitism switched off. -/
def withoutElitism (s : Strat n) : Strat n :=
  { s with p := { s.p with elitist := false, initialElitist := false, initialElitistOnRestart := false } }

/-- How many candidates are better than `c`. -/
noncomputable def betterThan (c : Cand n) (pop : List (Cand n)) : ℕ :=
  open Classical in (pop.filter fun d => decide (FVal.lt d.fvalue c.fvalue)).length

end Libcmaes.Spec
