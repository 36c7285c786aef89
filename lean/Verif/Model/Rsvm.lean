import Verif.Model.Update
import Mathlib.Analysis.SpecialFunctions.Exp
import Mathlib.Analysis.SpecialFunctions.Pow.Real

/-!
# Model of include/libcmaes/surrogates/rankingsvm.hpp

The ranking SVM behind the surrogate strategies.  A set of `k` points is a function from `Fin k`, in
the order of the columns of the C++ matrix.  Arithmetic is exact; a division by zero is
`Err.notReal`.  The parallel loops write disjoint entries, so their schedule only decides which
uniform number each multiplier receives; the numbers are a parameter here.  (Sharing the unprotected
generator between the threads is a data race in the code, which is not modelled.)
-/

namespace Libcmaes

open Matrix

variable {n m k : ℕ}

/-- The columns of a matrix of points. -/
abbrev Pts (n k : ℕ) := Fin k → Vec n

/-- `LinearKernel::K` (include/libcmaes/surrogates/rankingsvm.hpp:64). -/
def linearK (x y : Vec n) : ℝ := x ⬝ᵥ y

/-- `PolyKernel<d,c>::K` (include/libcmaes/surrogates/rankingsvm.hpp:80), for an exponent `d >= 0`. -/
def polyK (d : ℕ) (c : ℤ) (x y : Vec n) : ℝ := (x ⬝ᵥ y + c) ^ d

/-- `RBFKernel::K` (include/libcmaes/surrogates/rankingsvm.hpp:95). -/
noncomputable def rbfK (gamma : ℝ) (x y : Vec n) : ℝ := Real.exp (-gamma * sqNorm (x - y))

/-- The sum of the distances of all pairs of points (include/libcmaes/surrogates/rankingsvm.hpp:99-102). -/
noncomputable def sumDist (x : Pts n k) : ℝ :=
  ∑ i, ∑ j, if i < j then vnorm (x i - x j) else 0

/-- `RBFKernel::init` (include/libcmaes/surrogates/rankingsvm.hpp:97-110): the value of `_gamma`. -/
noncomputable def rbfInit (sigmaA sigmaPow : ℝ) (x : Pts n k) : Out ℝ := do
  let avg ← divR (sumDist x) (0.5 * ((k : ℝ) * ((k : ℝ) - 1)))
  let sigma := sigmaA * avg ^ sigmaPow
  divR 1 (2 * sigma * sigma)

/-- The template argument `TKernel`, with the public members of `RBFKernel`. -/
inductive Kernel where
  | linear
  | poly (d : ℕ) (c : ℤ)
  | rbf (sigmaA sigmaPow : ℝ)

/-- The kernel function after `init` (include/libcmaes/surrogates/rankingsvm.hpp:49, 97-110, 238). -/
noncomputable def Kernel.init (q : Kernel) (x : Pts n k) : Out (Vec n → Vec n → ℝ) :=
  match q with
  | .linear => .ok linearK
  | .poly d c => .ok (polyK d c)
  | .rbf a b => do
    let g ← rbfInit a b x
    pure (rbfK g)

/-- The matrix of kernel values (include/libcmaes/surrogates/rankingsvm.hpp:239-243): the upper
triangle is computed and copied. -/
def kernelMat (K : Vec n → Vec n → ℝ) (x : Pts n k) : Mat k :=
  fun i j => if i ≤ j then K (x i) (x j) else K (x j) (x i)

/-- `covinv`, the inverse square root of the covariance matrix: a square matrix, or a column when the
model is diagonal.  A square matrix of one column is treated as a column by the code, with the same
result. -/
inductive CovInv (n : ℕ) where
  | full (c : Mat n)
  | diag (c : Vec n)

/-- `encode` (include/libcmaes/surrogates/rankingsvm.hpp:217-230).  `none` is an empty matrix, whose
product with a column is undefined behaviour. -/
def encodePts (covinv : Option (CovInv n)) (xmean : Vec n) (x : Pts n k) : Out (Pts n k) :=
  match covinv with
  | none => .error .ub
  | some (.full c) => .ok fun i => c.mulVec (x i - xmean)
  | some (.diag c) => .ok fun i => c * (x i - xmean)

/-- The public members of `RankingSVM` a user may set (include/libcmaes/surrogates/rankingsvm.hpp:347-357). -/
structure SvmConfig where
  encode : Bool
  kernel : Kernel
  cval : ℝ
  epsilon : ℝ

/-- The default configuration (include/libcmaes/surrogates/rankingsvm.hpp:110-112, 347-355). -/
def SvmConfig.default : SvmConfig := ⟨false, .rbf 1 1, 1e6, 1⟩

/-- The state of `optimize`: `_alpha` and the local `sum_alphas`. -/
structure SvmState (m : ℕ) where
  alpha : Vec m
  sums : Vec m

/-- `_C` (include/libcmaes/surrogates/rankingsvm.hpp:153-155). -/
noncomputable def svmC (cval : ℝ) (m : ℕ) : Vec m := fun i => cval * ((i : ℕ) + 1 : ℝ) ^ 2

/-- `_dKij` (include/libcmaes/surrogates/rankingsvm.hpp:265-268). -/
def svmDK (K : Mat (m + 1)) : Mat m := fun i j =>
  K i.castSucc j.castSucc - K i.castSucc j.succ - K i.succ j.castSucc + K i.succ j.succ

/-- The multipliers at the start; `u` are the uniform numbers drawn
(include/libcmaes/surrogates/rankingsvm.hpp:269-270). -/
noncomputable def svmAlpha0 (c u : Vec m) : Vec m := fun i => c i * (0.95 + 0.05 * u i)

/-- `sum_alphas` at the start (include/libcmaes/surrogates/rankingsvm.hpp:273-282). -/
noncomputable def svmSums0 (eps : ℝ) (dK : Mat m) (a : Vec m) : Vec m :=
  fun i => (eps - ∑ j, a j * dK i j) / dK i i

/-- `div_dKij` (include/libcmaes/surrogates/rankingsvm.hpp:279). -/
noncomputable def svmDiv (dK : Mat m) : Mat m := fun i j => dK i j / dK j j

/-- One turn of the loop of `optimize` (include/libcmaes/surrogates/rankingsvm.hpp:291-303).  With no
multiplier at all, `i % 0` is undefined behaviour. -/
noncomputable def svmStep (eps : ℝ) (dK : Mat m) (c : Vec m) (s : SvmState m) (i : ℕ) :
    Out (SvmState m) :=
  if h : 0 < m then
    let i1 : Fin m := ⟨i % m, Nat.mod_lt i h⟩
    let new := max (min (s.alpha i1 + s.sums i1) (c i1)) 0
    let delta := new - s.alpha i1
    let dL := delta * dK i1 i1 * (s.sums i1 - 0.5 * delta + eps)
    if dL > 0 then
      .ok { alpha := Function.update s.alpha i1 new
            sums := fun j => s.sums j - delta * svmDiv dK i1 j }
    else .ok s
  else .error .ub

/-- `optimize` (include/libcmaes/surrogates/rankingsvm.hpp:255-305). -/
noncomputable def svmOptimize (cfg : SvmConfig) (K : Mat (m + 1)) (niter : ℤ) (u : Vec m) :
    Out (SvmState m) :=
  let c := svmC cfg.cval m
  let dK := svmDK K
  let a := svmAlpha0 c u
  open Classical in
  if ∃ i, dK i i = 0 then .error .notReal
  else (List.range niter.toNat).foldlM (svmStep cfg.epsilon dK c)
    ⟨a, svmSums0 cfg.epsilon dK a⟩

/-- A trained ranker: `_alpha`, `_K` and `_kernel`.  `sums` is the last value of the local variable
`sum_alphas` of `optimize`, kept for the statements about it. -/
structure Svm (n m : ℕ) where
  cfg : SvmConfig
  kfun : Vec n → Vec n → ℝ
  kmat : Mat (m + 1)
  alpha : Vec m
  sums : Vec m

/-- `train` on `m + 1` points (include/libcmaes/surrogates/rankingsvm.hpp:142-167). -/
noncomputable def svmTrain (cfg : SvmConfig) (x : Pts n (m + 1)) (niter : ℤ)
    (covinv : Option (CovInv n)) (xmean : Vec n) (u : Vec m) : Out (Svm n m) := do
  let y ← (if cfg.encode then encodePts covinv xmean x else .ok x)
  let kf ← cfg.kernel.init y
  let K := kernelMat kf y
  let s ← svmOptimize cfg K niter u
  pure ⟨cfg, kf, K, s.alpha, s.sums⟩

/-- The value predicted for one point, given the points used as training set
(include/libcmaes/surrogates/rankingsvm.hpp:195-204).  The multipliers are read up to the number of
points less one, whatever their number: past the end is undefined behaviour. -/
def svmFit (a : Vec m) (kf : Vec n → Vec n → ℝ) (train : Pts n (k + 1)) (x : Vec n) : Out ℝ :=
  if h : k ≤ m then
    .ok (∑ j : Fin k, a (j.castLE h) * (kf x (train j.castSucc) - kf x (train j.succ)))
  else .error .ub

/-- `predict` (include/libcmaes/surrogates/rankingsvm.hpp:180-209): `none` when `fit` is left empty
because the ranker has no multiplier. -/
def Svm.predict (r : Svm n m) (test : List (Vec n)) (train : Pts n (k + 1))
    (covinv : Option (CovInv n)) (xmean : Vec n) : Out (Option (List ℝ)) :=
  if m = 0 then .ok none else do
    let tr ← (if r.cfg.encode then encodePts covinv xmean train else .ok train)
    let te ← (if r.cfg.encode then encodePts covinv xmean (fun i : Fin test.length => test[i]) else
      .ok fun i : Fin test.length => test[i])
    let fit ← (List.ofFn te).mapM (svmFit r.alpha r.kfun tr)
    pure (some fit)

/-- A strictly reversed pair (include/libcmaes/surrogates/rankingsvm.hpp:336). -/
def svmReversed (ref fit : List ℝ) (i j : ℕ) : Prop :=
  (ref.getD i 0 > ref.getD j 0 ∧ fit.getD i 0 < fit.getD j 0) ∨
  (ref.getD i 0 < ref.getD j 0 ∧ fit.getD i 0 > fit.getD j 0)

open Classical in
/-- `error` (include/libcmaes/surrogates/rankingsvm.hpp:318-343).  Reading `fit` past its end is
undefined behaviour. -/
noncomputable def Svm.error (r : Svm n m) (test : List (Vec n)) (train : Pts n (k + 1)) (ref : List ℝ)
    (covinv : Option (CovInv n)) (xmean : Vec n) : Out ℝ := do
  match ← r.predict test train covinv xmean with
  | none => pure 1
  | some fit =>
    if fit.length = 0 then pure 1 else
    if fit.length < ref.length ∧ 1 < ref.length then .error .ub else
    let err : ℕ :=
      ((Finset.range ref.length ×ˢ Finset.range ref.length).filter fun q =>
        q.1 ≠ q.2 ∧ svmReversed ref fit q.1 q.2).card
    divR err ((ref.length : ℝ) * ref.length - ref.length)

end Libcmaes
