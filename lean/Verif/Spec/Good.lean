import Verif.Spec.Rates
import Verif.Spec.Setters

/-!
# Specification of usable strategy parameters, and how a user arrives at them
-/

namespace Libcmaes.Spec

variable {n : ℕ}

/-- Everything a run relies on. -/
structure GoodParams (p : Params n) : Prop where
  dim : 1 ≤ n
  lambda : 2 ≤ p.lambda
  mu : p.mu = p.lambda / 2
  weights : GoodWeights p
  rates : Admissible p
  muw : 1 ≤ p.muw
  chi : 0 < p.chi
  alphathuh : 1 ≤ p.alphathuh
  rlambda : p.rlambda = max 0.1 (2 / (p.lambda : ℝ))
  fixed_lt : ∀ q ∈ p.fixedP, q.1 < n
  fixed_nodup : (p.fixedP.map Prod.fst).Nodup
  fixed_len : p.fixedP.length < n

/-- Rates that also keep the covariance matrix positive definite under both updates. -/
structure StrictRates (p : Params n) : Prop where
  lt_one : p.c1 + p.cmu < 1
  active : p.c1 < 0.66 * (1 - p.cmu)

/-- `q` differs from `p` only in members that `initialize_parameters` neither reads nor writes:
budgets, tolerances, target, flags, transform, starting point and so on. -/
def SameRates (p q : Params n) : Prop :=
  q.lambda = p.lambda ∧ q.mu = p.mu ∧ q.weights = p.weights ∧ q.muw = p.muw ∧ q.csigma = p.csigma ∧
  q.c1 = p.c1 ∧ q.cmu = p.cmu ∧ q.cc = p.cc ∧ q.dsigma = p.dsigma ∧ q.factPs = p.factPs ∧
  q.factPc = p.factPc ∧ q.chi = p.chi ∧ q.alphathuh = p.alphathuh ∧ q.rlambda = p.rlambda ∧
  q.fixedP = p.fixedP ∧ q.sep = p.sep ∧ q.vd = p.vd

/-- Parameter sets a user can set up: from a constructor, by any number of setter calls in any order.
Coordinates are fixed by valid index and never all of them; `set_sep` and `set_vd` are called at most
once, `set_vd` only in dimension 6 and more (see `C13_vd_small_dimension_false`,
`C13_repeated_set_sep_false` for what happens otherwise). -/
inductive Configured : Params n → Prop
  | make {x0 sigma lambda seed clock gp p} : Params.make x0 sigma lambda seed clock gp = .ok p →
      Configured p
  | call {p q} {c : RateCall} : Configured p →
      (∀ i v, c = .fix i v → i < n ∧ p.fixedP.length + 1 < n) → c.run p = .ok q → Configured q
  | sep {p} : Configured p → p.sep = false → p.vd = false → Configured p.setSep
  | vd {p} : Configured p → p.sep = false → p.vd = false → 6 ≤ n → Configured p.setVd
  | other {p q} : Configured p → SameRates p q → Configured q

end Libcmaes.Spec
