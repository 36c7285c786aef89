import Verif.Model.RsvmStrategy
import Verif.Spec.Rsvm
import Verif.Spec.Surrogate

/-!
# The ranking SVM as surrogate: what the properties say
-/

namespace Libcmaes.Spec

variable {n m : ℕ}

/-- The coordinates in which the ranker sees a point: relative to the mean, and scaled by the inverse square root of
the covariance matrix kept in the solutions object. -/
def encoded (diag : Bool) (sol : Sol n) (x : Vec n) : Vec n :=
  if diag then sol.sepcsqinv * (x - sol.xmean) else sol.csqinv.mulVec (x - sol.xmean)

/-- `x` are the points of the training set `ts`, from the worst to the best. -/
def WorstFirst (ts : List (Cand n)) (x : Pts n (m + 1)) : Prop :=
  ∃ W : List (Cand n), W.Perm ts ∧ (W.Pairwise fun a b => ¬ FVal.lt a.fvalue b.fvalue) ∧ W.map (·.x) = List.ofFn x

/-- The ranker `r` was trained, with `iter` iterations and the uniform numbers `u`, on the points of `ts` in the
coordinates of `sol`, from the worst to the best; `y` are the points in these coordinates. -/
def TrainedOn (diag : Bool) (iter : ℤ) (u : ℕ → ℝ) (sol : Sol n) (ts : List (Cand n)) (r : Svm n m)
    (y : Pts n (m + 1)) : Prop :=
  ∃ x : Pts n (m + 1), WorstFirst ts x ∧ (y = fun i => encoded diag sol (x i)) ∧
    ∃ q : Svm n m, svmTrain ⟨false, .rbf 1 1, 1e6, 1⟩ y iter none 0 (fun i => u i) = .ok q ∧
      r.alpha = q.alpha ∧ r.kfun = q.kfun ∧ r.kmat = q.kmat

end Libcmaes.Spec
