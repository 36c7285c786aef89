import Verif.Spec.Run
import Verif.Spec.Usual

/-!
# The stopping criteria, as documented

Codes: `CMAStopCritType` (include/libcmaes/cmastopcriteria.h:33-48).  Each criterion is a condition on
the settings and on the observable state; `Fires c` is the condition of the criterion with code `c`.
Three conditions are those of the code and not the documented ones: these are called `...Coded`, and the
documented ones stand next to them.
-/

namespace Libcmaes.Spec

variable {n : ℕ}

/-- The codes of the twelve criteria. -/
def stopCodes : List ℤ := [-15, -13, 1, 2, 3, 4, 5, 6, 7, 8, 9, 10]

/-- The user did not switch off the criterion (`set_stopping_criteria(c,false)`). -/
def CritActive (p : Params n) (c : ℤ) : Prop :=
  c ∈ stopCodes ∧ ¬ (c, false) ∈ p.stoppingCrit

/-- MAXFEVALS: the budget of evaluations is used up. -/
def MaxFEvals (p : Params n) (s : Sol n) : Prop := p.maxFevals ≠ -1 ∧ p.maxFevals ≤ s.nevals

/-- MAXITER: the budget of iterations is used up. -/
def MaxIter (p : Params n) (s : Sol n) : Prop := p.maxIter ≠ -1 ∧ p.maxIter ≤ s.niter

/-- The automatic limit on iterations: `100 + 50(n+3)²/√λ`, a thousand times as much for VD in small
dimensions. -/
noncomputable def autoLimit (p : Params n) : ℝ :=
  (100 + 50 * ((n : ℝ) + 3) ^ 2 / Real.sqrt p.lambda) * (if p.vd = true ∧ n < 10 then 1000 else 1)

/-- AUTOMAXITER. -/
def AutoMaxIter (p : Params n) (s : Sol n) : Prop := autoLimit p ≤ s.niter

/-- FTARGET: a target is set and the best value of the last iteration reaches it. -/
def FTarget (p : Params n) (s : Sol n) : Prop :=
  p.ftarget ≠ .num ⊤ ∧ FVal.le s.bestCandidate.fvalue p.ftarget

/-- TOLHISTFUN: over the last `min(max_hist, 10 + 30n/λ)` iterations the best values differ by less
than the tolerance. -/
def TolHistFun (p : Params n) (s : Sol n) : Prop :=
  let k := min s.maxHist.toNat (10 + 30 * n / p.lambda)
  k ≤ s.bestHist.length ∧ ∀ a ∈ lastN k s.bestHist, ∀ b ∈ lastN k s.bestHist,
    ∃ x y : ℝ, a.fvalue = .num x ∧ b.fvalue = .num y ∧ |x - y| < max p.ftolerance 1e-12

open Classical in
/-- In how many of the last `k` iterations the best value equals the `kcand`-th best one. -/
noncomputable def equalCount (k : ℕ) (s : Sol n) : ℕ :=
  ((lastN k s.bestHist).zip (lastN k s.kBestHist)).countP fun q => decide (FVal.eq q.1.fvalue q.2.fvalue)

/-- EQUALFUNVALS, documented: equal values in more than a third of the last `n` iterations. -/
def EqualFunVals (s : Sol n) : Prop := n ≤ s.bestHist.length ∧ (n : ℝ) < 3 * equalCount n s

/-- EQUALFUNVALS, as coded: only if `max_hist ≤ n`, and once the history holds `max_hist` entries. -/
def EqualFunValsCoded (s : Sol n) : Prop :=
  s.maxHist ≤ n ∧ s.maxHist ≤ s.bestHist.length ∧
    ((min n s.bestHist.length : ℕ) : ℝ) < 3 * equalCount n s

/-- The variance of coordinate `i` (without the step size). -/
def varOf (p : Params n) (s : Sol n) (i : Fin n) : ℝ :=
  if p.sep = false ∧ p.vd = false then s.cov i i else s.sepcov i

/-- TOLX, documented: relative to the initial step size, evolution path and standard deviations are
below the tolerance in each coordinate ("all components of pc . factor < tolx"). -/
def TolX (p : Params n) (s : Sol n) : Prop :=
  ∀ i, |s.pc i| * (s.sigma / p.sigmaInit) < max p.xtol 1e-12 ∧
    Real.sqrt (varOf p s i) * (s.sigma / p.sigmaInit) < max p.xtol 1e-12

/-- TOLX, as coded: the factor multiplies the tolerance, and the path is taken with its sign. -/
def TolXCoded (p : Params n) (s : Sol n) : Prop :=
  ∀ i, s.pc i < max p.xtol 1e-12 * (s.sigma / p.sigmaInit) ∧
    Real.sqrt (varOf p s i) < max p.xtol 1e-12 * (s.sigma / p.sigmaInit)

/-- TOLUPSIGMA: the step size grew by more than `1e20` times the largest standard deviation. -/
def TolUpSigma (p : Params n) (s : Sol n) : Prop :=
  1e20 * Real.sqrt s.maxEigenv < s.sigma / p.sigmaInit

/-- `m` is the median of `l`: the mean of the two middle elements (the same one, for an odd length) of
the list put in order. -/
def IsMedian (l : List EReal) (m : EReal) : Prop :=
  ∃ t : List EReal, t.Perm l ∧ t.Pairwise (· ≤ ·) ∧
    ∃ a b, t[(t.length - 1) / 2]? = some a ∧ t[t.length / 2]? = some b ∧ m = (a + b) * ((1 / 2 : ℝ) : EReal)

/-- STAGNATION: the median of the last 20 best values is not below that of the 20 oldest medians. -/
def Stagnation (s : Sol n) : Prop :=
  20 ≤ s.bfvalues.length ∧ 20 ≤ s.medianFvalues.length ∧
    ∃ (bs ms : List EReal) (a b : EReal), s.bfvalues = bs.map .num ∧ s.medianFvalues.take 20 = ms.map .num ∧
      IsMedian bs a ∧ IsMedian ms b ∧ b ≤ a

/-- CONDITIONCOV: the condition number of the covariance is above `1e14`. -/
def ConditionCov (s : Sol n) : Prop := 1e14 * s.minEigenv < s.maxEigenv

/-- NOEFFECTAXIS, for all axes: no step of `0.1 σ √λ_j` along an eigenvector `b_j` changes the mean. -/
def NoEffectAxis (fladd : ℝ → ℝ → ℝ) (p : Params n) (s : Sol n) : Prop :=
  if p.sep = false ∧ p.vd = false then
    ∀ i j, s.xmean i = fladd (s.xmean i) (0.1 * s.sigma * Real.sqrt (s.leigenvalues j) * s.leigenvectors i j)
  else ∀ i, s.xmean i = fladd (s.xmean i) (0.1 * s.sigma * Real.sqrt (s.leigenvalues i))

/-- NOEFFECTAXIS, as coded: the coordinate of the eigenvector is scaled with the eigenvalue of another
axis. -/
def NoEffectAxisCoded (fladd : ℝ → ℝ → ℝ) (p : Params n) (s : Sol n) : Prop :=
  if p.sep = false ∧ p.vd = false then
    ∀ i j, s.xmean i = fladd (s.xmean i) (0.1 * s.sigma * Real.sqrt (s.leigenvalues i) * s.leigenvectors i j)
  else ∀ i, s.xmean i = fladd (s.xmean i) (0.1 * s.sigma * Real.sqrt (s.leigenvalues i))

/-- NOEFFECTCOOR: in no coordinate does a step of a fifth of the standard deviation change the mean. -/
def NoEffectCoor (fladd : ℝ → ℝ → ℝ) (p : Params n) (s : Sol n) : Prop :=
  ∀ i, s.xmean i = fladd (s.xmean i) (0.2 * s.sigma * Real.sqrt (varOf p s i))

/-- The condition of the criterion with code `c`. -/
def Fires (fladd : ℝ → ℝ → ℝ) (c : ℤ) (p : Params n) (s : Sol n) : Prop :=
  (c = -15 ∧ ConditionCov s) ∨ (c = -13 ∧ TolUpSigma p s) ∨ (c = 1 ∧ TolHistFun p s) ∨
  (c = 2 ∧ TolXCoded p s) ∨ (c = 3 ∧ NoEffectAxisCoded fladd p s) ∨ (c = 4 ∧ NoEffectCoor fladd p s) ∨
  (c = 5 ∧ EqualFunValsCoded s) ∨ (c = 6 ∧ Stagnation s) ∨ (c = 7 ∧ AutoMaxIter p s) ∨
  (c = 8 ∧ MaxFEvals p s) ∨ (c = 9 ∧ MaxIter p s) ∨ (c = 10 ∧ FTarget p s)

/-- An objective value the criteria can work with: a finite `double` or `+∞`. -/
def Val (v : FVal) : Prop := v = .num ⊤ ∨ ∃ r : ℝ, |r| ≤ dblMax ∧ v = .num (r : EReal)

/-- A state on which each criterion is defined: the members it reads are allocated, variances are
not negative, and the recorded objective values are finite or `+∞`. -/
structure StopReady (p : Params n) (s : Sol n) : Prop where
  lambda : 0 < p.lambda
  sigmaInit : 0 < p.sigmaInit
  paths : s.pathsOk = true
  leig : s.hasLeig = true
  full : p.sep = false ∧ p.vd = false → s.hasCov = true
  diag : ¬ (p.sep = false ∧ p.vd = false) → s.hasSep = true
  var : ∀ i, 0 ≤ varOf p s i
  eig : ∀ i, 0 ≤ s.leigenvalues i
  maxEig : 0 ≤ s.maxEigenv
  minEig : 0 < s.minEigenv
  maxHist : 0 < s.maxHist
  len : s.kBestHist.length = s.bestHist.length
  best : ∀ c ∈ s.bestHist, Val c.fvalue
  bf : ∀ v ∈ s.bfvalues, Val v
  med : ∀ v ∈ s.medianFvalues, Val v

/-- What `stop()` is to report: the smallest code among the active criteria that fire, 0 if none does. -/
def StopStatus (fladd : ℝ → ℝ → ℝ) (p q : Params n) (s : Sol n) (r : ℤ) : Prop :=
  (r = 0 ∧ ∀ c, CritActive p c → ¬ Fires fladd c q s) ∨
  (CritActive p r ∧ Fires fladd r q s ∧ ∀ c, c < r → CritActive p c → ¬ Fires fladd c q s)

/-- The same for the documented conditions. -/
def Documented (fladd : ℝ → ℝ → ℝ) (c : ℤ) (p : Params n) (s : Sol n) : Prop :=
  (c = -15 ∧ ConditionCov s) ∨ (c = -13 ∧ TolUpSigma p s) ∨ (c = 1 ∧ TolHistFun p s) ∨
  (c = 2 ∧ TolX p s) ∨ (c = 3 ∧ NoEffectAxis fladd p s) ∨ (c = 4 ∧ NoEffectCoor fladd p s) ∨
  (c = 5 ∧ EqualFunVals s) ∨ (c = 6 ∧ Stagnation s) ∨ (c = 7 ∧ AutoMaxIter p s) ∨
  (c = 8 ∧ MaxFEvals p s) ∨ (c = 9 ∧ MaxIter p s) ∨ (c = 10 ∧ FTarget p s)

/-- `set_stopping_criteria` keeps the flags in a `std::map`: one entry per code. -/
def UniqueKeys (p : Params n) : Prop := (p.stoppingCrit.map Prod.fst).Nodup

/-- The state in which a loop starts, for settings without uncertainty handling, gradient, two-point
adaptation and VD: `optimize` first evaluates the initial point where elitism needs it; a loop written by
hand does not. -/
def Started (env : Env n) (kind : CovKind) (p : Params n) (s : Strat n) : Prop :=
  (UsualRun kind p ∧ ∃ s0, Strat.new env kind p = .ok s0 ∧ s0.evalInitial env = .ok s) ∨
  (Usual kind p ∧ Strat.new env kind p = .ok s)

/-- The values the search sees (negated, for a maximisation) are finite `double`s or `+∞`. -/
def ValObjective (env : Env n) (p : Params n) : Prop :=
  ∀ k y, Val (if p.maximize then (env.f k y).neg else env.f k y)

/-- Only the criterion `c` is active. -/
def OnlyActive (p : Params n) (c : ℤ) : Prop := CritActive p c ∧ ∀ d, CritActive p d → d = c

end Libcmaes.Spec
