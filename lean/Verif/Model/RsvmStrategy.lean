import Verif.Model.Surrogate
import Verif.Model.Rsvm

/-!
# Model of include/libcmaes/surrogates/rsvm_surr_strategy.hpp

`RSVMSurrogateStrategy` is an ACM surrogate strategy whose training and prediction functions use a ranking SVM with
a Gaussian kernel.
-/

namespace Libcmaes

variable {n : ℕ}

/-- `_rsvm` (include/libcmaes/surrogates/rsvm_surr_strategy.hpp:97): `none` before training, afterwards a ranker with
its number of multipliers. -/
abbrev Ranker (n : ℕ) := Option (Σ m, Svm n m)

/-- `to_mat_vec` on a copy of the candidates (include/libcmaes/surrogates/rsvm_surr_strategy.hpp:34-48): the points,
worst value first.  Its other result, the values, is not used. -/
noncomputable def toMatVec (usort : USort (Cand n)) (c : List (Cand n)) : Out (List (Vec n)) := do
  let cp ← unstableSort usort (fun a b => FVal.lt b.fvalue a.fvalue) c
  let _ ← at! cp 0
  pure (cp.map (·.x))

/-- The argument `cov` of both functions (src/surrogatestrategy.cc:295-305, 326-328, 400-402): `_sepcsqinv` for the
diagonal models, `_csqinv` otherwise, which may be empty. -/
def covArg (diag : Bool) (sol : Sol n) : Option (CovInv n) :=
  if diag then some (.diag sol.sepcsqinv)
  else if sol.hasCsq then some (.full sol.csqinv) else none

/-- `_train` (include/libcmaes/surrogates/rsvm_surr_strategy.hpp:60-73, 98) with `_rsvm_iter = iter`.  The ranker is made
anew, so its generator gives the same uniform numbers `u` each time. -/
noncomputable def rsvmTrain (diag : Bool) (usort : USort (Cand n)) (iter : ℤ) (u : ℕ → ℝ) (r : Ranker n)
    (c : List (Cand n)) (sol : Sol n) : Out (Ranker n) :=
  if c.isEmpty then .ok r else do
  match ← toMatVec usort c with
  | [] => .error .ub
  | a :: xs => do
    let q ← svmTrain { SvmConfig.default with encode := true } (a :: xs).get iter (covArg diag sol) sol.xmean
      (fun i => u i)
    pure (some ⟨xs.length, q⟩)

/-- `_predict` (include/libcmaes/surrogates/rsvm_surr_strategy.hpp:74-91): `ts` is the training set as it is now. -/
noncomputable def rsvmPredict (diag : Bool) (usort : USort (Cand n)) (r : Ranker n) (ts : List (Cand n)) (sol : Sol n)
    (c : List (Cand n)) : Out (List (Cand n)) := do
  let _ ← at! c 0
  match ← toMatVec usort ts with
  | [] => .error .ub
  | a :: xs =>
    match r with
    | none => pure c
    | some ⟨_, q⟩ => do
      match ← q.predict (c.map (·.x)) (a :: xs).get (covArg diag sol) sol.xmean with
      | none => pure c
      | some fit => pure (List.zipWith (fun d v => { d with fvalue := FVal.ofReal v }) c fit)

/-- The functions of `RSVMSurrogateStrategy`, in the place of the user's
(include/libcmaes/surrogates/rsvm_surr_strategy.hpp:56-92). -/
noncomputable def rsvmFuncs (diag : Bool) (usort : USort (Cand n)) (usortR : USort (RCand n)) (z0 z1 : ℕ → ℝ)
    (iter : ℤ) (u : ℕ → ℝ) : SurrFuncs n (Ranker n) where
  train := rsvmTrain diag usort iter u
  predict := rsvmPredict diag usort
  usort := usort
  usortR := usortR
  z0 := z0
  z1 := z1

end Libcmaes
