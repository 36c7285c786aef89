import Verif.Model.Strategy

/-!
# Specification of equivalent searches
-/

namespace Libcmaes.Spec

variable {n : ℕ}

/-- `g` keeps the order of objective values: it is strictly increasing on numbers (infinities included), and
values that are incomparable (NaN) stay so. -/
def OrderPreserving (g : FVal → FVal) : Prop := ∀ a b, FVal.lt (g a) (g b) ↔ FVal.lt a b

/-- The search distribution of `s'` is that of `s` moved by `A` and magnified by `a`. -/
structure SameSearch (A : Vec n → Vec n) (a : ℝ) (s s' : Sol n) : Prop where
  mean : s'.xmean = A s.xmean
  sigma : s'.sigma = a * s.sigma
  cov : s'.cov = s.cov
  sepcov : s'.sepcov = s.sepcov
  v : s'.v = s.v
  psigma : s'.psigma = s.psigma
  pc : s'.pc = s.pc

/-- The candidate `c` moved by `A`, its objective value mapped by `g`. -/
def moved (A : Vec n → Vec n) (g : FVal → FVal) (c : Cand n) : Cand n := ⟨g c.fvalue, A c.x, c.id⟩

/-- The populations and the best points correspond. -/
structure SamePoints (A : Vec n → Vec n) (g : FVal → FVal) (s s' : Sol n) : Prop where
  cands : s'.cands = s.cands.map (moved A g)
  best : s'.bestCandidate = moved A g s.bestCandidate
  bestSeen : s'.bestSeen = s.bestSeen.map (moved A g)

/-- What the search sees of an objective value: the negation, when maximising. -/
noncomputable def seen (maximise : Bool) (v : FVal) : FVal := if maximise then v.neg else v

/-- `s'` went through the same search as `s`: same solution (distribution, candidates, objective values,
histories, status), same counters, and the objective was called at the same points, returning the negated
values. -/
structure Mirror (s s' : Strat n) : Prop where
  sol : s'.sol = s.sol
  nevals : s'.nevals = s.nevals
  niter : s'.niter = s.niter
  calls : s'.calls = s.calls.map fun q => (q.1, q.2.neg)

/-- Two executions have the same outcome: both fail in the same way or both succeed with related results. -/
def SameOutcome {α β : Type} (R : α → β → Prop) : Out α → Out β → Prop
  | .ok a, .ok b => R a b
  | .error e, .error e' => e = e'
  | _, _ => False

/-- The progress function does not look at the maximisation flag. -/
def BlindToFlag (env : Env n) : Prop :=
  ∀ (k : ℕ) (q : Params n) (s : Sol n), env.pfunc k { q with maximize := true } s = env.pfunc k { q with maximize := false } s

end Libcmaes.Spec
