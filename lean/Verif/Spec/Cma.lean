import Verif.Spec.Matrix
import Mathlib.Analysis.SpecialFunctions.Pow.Real

/-!
# The published update equations of CMA-ES

Hansen, *The CMA Evolution Strategy: A Tutorial*, with `c_m = 1`; the diagonal model of Ros and Hansen,
*A Simple Modification in CMA-ES Achieving Linear Time and Space Complexity*; the negative update of
Hansen and Ros, *Benchmarking a Weighted Negative Covariance Matrix Update*.  Stated from these papers
and independent of the model of the code.
-/

namespace Libcmaes.Spec

open Finset Matrix

variable {n : ℕ}

/-- The constants of the strategy. `dim` is the number of dimensions searched. -/
structure CmaConsts where
  dim : ℝ
  lambda : ℕ
  mu : ℕ
  w : ℕ → ℝ
  mueff : ℝ
  cs : ℝ
  ds : ℝ
  cc : ℝ
  c1 : ℝ
  cmu : ℝ
  chi : ℝ

/-- The constants held by a parameter object; fixed parameters are not searched. -/
def constsOf (p : Params n) : CmaConsts :=
  { dim := (n : ℝ) - p.fixedP.length, lambda := p.lambda, mu := p.mu, w := p.weights, mueff := p.muw
    cs := p.csigma, ds := p.dsigma, cc := p.cc, c1 := p.c1, cmu := p.cmu, chi := p.chi }

/-- What the strategy updates besides the distribution's shape: mean, step size and the two paths. -/
structure CmaState (n : ℕ) where
  m : Vec n
  sigma : ℝ
  ps : Vec n
  pc : Vec n

/-- The part of a solution object that holds it. -/
def stateOf (s : Sol n) : CmaState n := ⟨s.xmean, s.sigma, s.psigma, s.pc⟩

/-- The points of a population, in its order. -/
def ranked (cs : List (Cand n)) (i : ℕ) : Vec n :=
  match cs[i]? with
  | some c => c.x
  | none => 0

/-- The `i`-th selected step, in units of the step size. -/
noncomputable def selStep (st : CmaState n) (x : ℕ → Vec n) (i : ℕ) : Vec n :=
  st.sigma⁻¹ • (x i - st.m)

/-- The weighted mean of the selected steps. -/
noncomputable def meanStep (k : CmaConsts) (st : CmaState n) (x : ℕ → Vec n) : Vec n :=
  ∑ i ∈ range k.mu, k.w i • selStep st x i

/-- Euclidean length. -/
noncomputable def len (x : Vec n) : ℝ := Real.sqrt (∑ i, x i ^ 2)

/-- The condition under which the path `pc` is updated by the step: `ps` is not too long, `g`
generations being done. -/
def NotStalled (k : CmaConsts) (g : ℕ) (ps : Vec n) : Prop :=
  len ps / Real.sqrt (1 - (1 - k.cs) ^ (2 * (g + 1))) < (1.4 + 2 / (k.dim + 1)) * k.chi

/-- The factor that keeps the variance of `pc` under neutral selection. -/
noncomputable def pathNorm (k : CmaConsts) : ℝ := Real.sqrt (k.cc * (2 - k.cc) * k.mueff)

/-- Mean, step size and evolution paths in generation `g`: `x i` is the `i`-th best point, `z` is
`C^(-1/2)` applied to the mean step, `h` the indicator of `NotStalled`, `f` the normalisation of `pc`,
to be `pathNorm k`. -/
structure CmaPaths (k : CmaConsts) (f : ℝ) (g : ℕ) (x : ℕ → Vec n) (z : Vec n) (h : ℝ) (st st' : CmaState n) :
    Prop where
  mean : st'.m = st.m + st.sigma • meanStep k st x
  ps : st'.ps = (1 - k.cs) • st.ps + Real.sqrt (k.cs * (2 - k.cs) * k.mueff) • z
  hsig : NotStalled k g st'.ps ∧ h = 1 ∨ ¬ NotStalled k g st'.ps ∧ h = 0
  pc : st'.pc = (1 - k.cc) • st.pc + (h * f) • meanStep k st x
  sigma : st'.sigma = st.sigma * Real.exp (k.cs / k.ds * (len st'.ps / k.chi - 1))

/-- `B = C^(-1/2)`. -/
structure IsInvSqrt (C B : Mat n) : Prop where
  pd : PD B
  inv : B * C * B = 1

/-- `Σ w_i y_i y_iᵀ` over the selected steps. -/
noncomputable def rankMuOf (k : CmaConsts) (st : CmaState n) (x : ℕ → Vec n) : Mat n :=
  ∑ i ∈ range k.mu, k.w i • vecMulVec (selStep st x i) (selStep st x i)

/-- The new covariance matrix. -/
def CovStep (k : CmaConsts) (x : ℕ → Vec n) (h : ℝ) (st st' : CmaState n) (C C' : Mat n) : Prop :=
  C' = (1 - k.c1 - k.cmu + (1 - h) * k.c1 * k.cc * (2 - k.cc)) • C + k.c1 • vecMulVec st'.pc st'.pc
    + k.cmu • rankMuOf k st x

/-- The new variances of the diagonal model: the diagonal of the equation above. -/
def SepStep (k : CmaConsts) (x : ℕ → Vec n) (h : ℝ) (st st' : CmaState n) (d d' : Vec n) : Prop :=
  ∀ j, d' j = (1 - k.c1 - k.cmu + (1 - h) * k.c1 * k.cc * (2 - k.cc)) * d j + k.c1 * st'.pc j ^ 2
    + k.cmu * ∑ i ∈ range k.mu, k.w i * selStep st x i j ^ 2

/-- The worst points, worst first. -/
def worst (k : CmaConsts) (x : ℕ → Vec n) (i : ℕ) : Vec n := x (k.lambda - 1 - i)

/-- The upper bound on the negative learning rate that does not depend on the samples. -/
noncomputable def negCap (n : ℕ) (k : CmaConsts) : ℝ :=
  (1 - k.cmu) * k.mueff / (4 * (((n : ℝ) + 2) ^ (1.5 : ℝ) + 2 * k.mueff))

/-- The new covariance matrix with negative update: the rate `cneg` is the largest that is not above
the cap and takes away from no direction more than `0.34 (1 - cmu)` of its variance. -/
def ActiveStep (k : CmaConsts) (x : ℕ → Vec n) (st st' : CmaState n) (C C' : Mat n) : Prop :=
  ∃ cneg, IsGreatest {c | c ≤ negCap n k ∧
      ∀ u, c * quad (rankMuOf k st (worst k x)) u ≤ 0.34 * (1 - k.cmu) * quad C u} cneg ∧
    C' = (1 - k.c1 - k.cmu + cneg / 2) • C + k.c1 • vecMulVec st'.pc st'.pc
      + (k.cmu + cneg / 2) • rankMuOf k st x - cneg • rankMuOf k st (worst k x)

end Libcmaes.Spec
