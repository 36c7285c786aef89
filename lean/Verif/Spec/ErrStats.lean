import Verif.Model.ErrStats

/-!
# Specification: profile likelihood
-/

namespace Libcmaes

namespace ErrStats

variable {n : ℕ}

/-- The inner optimisations, on unconstrained problems, end and give points of the dimension they were given. -/
def Inner.Fits (inner : Inner) : Prop :=
  ∀ no f x0 σ, ∃ r, inner no f x0 σ GenoPheno.plain = .ok r ∧ r.x.length = x0.length

/-- The inner optimisations report the value of their objective at the point they report. -/
def Inner.Honest (inner : Inner) : Prop :=
  ∀ no g x0 σ gp r, inner no g x0 σ gp = .ok r → ∃ y, gp.pheno r.x = .ok y ∧ r.fvalue = g y

/-- The search whose solution is examined: unconstrained, full covariance matrix, at least one generation done, and its
best candidate carries the (finite) value `a` of the objective. -/
structure Optimum (f : List ℝ → FVal) (p : Params n) (sol : Sol n) (a : ℝ) : Prop where
  gp : p.gp = GenoPheno.plain
  sep : p.sep = false
  vd : p.vd = false
  told : sol.hasLeig = true
  cands : sol.cands ≠ []
  best : sol.bestCandidate.fvalue = FVal.ofReal a
  value : f (List.ofFn sol.bestCandidate.x) = FVal.ofReal a

/-- The value `v` is the minimum plus `fup`, up to a tenth of `fup`. -/
def Near (minf : FVal) (fup : ℝ) (v : FVal) : Prop :=
  FVal.le ((FVal.sub (FVal.sub v minf) (FVal.ofReal fup)).abs) (FVal.ofReal (0.1 * fup))

end ErrStats

end Libcmaes
