import Verif.Model.Params

/-!
# Specification of well formed strategy parameters
-/

namespace Libcmaes.Spec

open Finset

/-- The recombination weights of `p`: `mu` of them, positive, strictly decreasing, summing to 1. -/
structure GoodWeights {n : ℕ} (p : Params n) : Prop where
  mu_pos : 1 ≤ p.mu
  pos : ∀ i < p.mu, 0 < p.weights i
  dec : ∀ i j, i < j → j < p.mu → p.weights j < p.weights i
  sum_one : ∑ i ∈ range p.mu, p.weights i = 1

/-- Learning rates for which the covariance and step-size updates are convex combinations and all
square roots and divisions are real. -/
structure Admissible {n : ℕ} (p : Params n) : Prop where
  c1_pos : 0 < p.c1
  cmu_nonneg : 0 ≤ p.cmu
  c1_cmu_le : p.c1 + p.cmu ≤ 1
  cc_pos : 0 < p.cc
  cc_le : p.cc ≤ 1
  csigma_pos : 0 < p.csigma
  csigma_lt : p.csigma < 1
  dsigma_pos : 0 < p.dsigma

end Libcmaes.Spec
