import Verif.Model.Restart
import Verif.Spec.Init

/-!
# What a restart strategy does, as a sequence of runs

IPOP and BIPOP make several runs of `CMAStrategy::optimize`.  A run is given by the state of the strategy
before and after it.
-/

namespace Libcmaes.Spec

variable {n : ℕ}

/-- A run: the states in which it starts and ends. -/
structure SubRun (n : ℕ) where
  start : Strat n
  fin : Strat n

/-- `optimize`, called in the first state, ends in the second. -/
def SubRun.Done (env : Env n) (r : SubRun n) : Prop := ∃ fuel, r.start.optimize env fuel = .ok (some r.fin)

/-- The value of the best candidate of the last generation, which the solution of the run reports. -/
noncomputable def SubRun.value (r : SubRun n) : FVal := r.fin.sol.bestCandidate.fvalue

/-- `q` has the settings of `p`, up to those a restart is allowed to change: population size and the rates
derived from it, step size, budget of evaluations. -/
def KeepsSettings (p q : Params n) : Prop :=
  q = { p with
    lambda := q.lambda, sigmaInit := q.sigmaInit, maxFevals := q.maxFevals, mu := q.mu, weights := q.weights
    muw := q.muw, csigma := q.csigma, cc := q.cc, c1 := q.c1, cmu := q.cmu, dsigma := q.dsigma
    factPs := q.factPs, factPc := q.factPc, chi := q.chi, lazyValue := q.lazyValue, rlambda := q.rlambda
    alphathuh := q.alphathuh }

/-- The rates of `q` are those which the constructor of the parameters derives from its population size. -/
def DefaultRates (q : Params n) : Prop :=
  ∃ q' : Params n, Params.make (fun _ => 0) 1 q.lambda 1 0 GenoPheno.plain = .ok q' ∧
    q.lambda = q'.lambda ∧ q.mu = q'.mu ∧ q.weights = q'.weights ∧ q.muw = q'.muw ∧ q.csigma = q'.csigma ∧
    q.c1 = q'.c1 ∧ q.cmu = q'.cmu ∧ q.cc = q'.cc ∧ q.dsigma = q'.dsigma ∧ q.factPs = q'.factPs ∧
    q.factPc = q'.factPc ∧ q.chi = q'.chi ∧ q.lazyValue = q'.lazyValue ∧ q.rlambda = q'.rlambda ∧
    q.alphathuh = q'.alphathuh

/-- `b` is the start of a new search, after the state `a`: nothing is left of the old one, it starts at an
allowed point with the step size of its parameters; the settings are kept, and so is the count of
evaluations. -/
structure Afresh (a b : Strat n) : Prop where
  fresh : Fresh b.p.lambda b.sol
  niter : b.niter = 0
  sigma : b.sol.sigma = b.p.sigmaInit
  sigma_pos : 0 < b.sol.sigma
  start : (a.p.fixedP.map Prod.fst).Nodup → ∃ m, AllowedStart b.p m ∧ InternalUnits b.p.gp m b.sol.xmean
  calls : b.calls = a.calls
  nevals : b.nevals = a.nevals
  settings : KeepsSettings a.p b.p
  crit : b.crit = a.crit
  negate : b.negate = a.negate
  kind : b.kind = a.kind

/-- The strategy, from state `s`, makes the runs `runs`, each one from scratch, and no other call of the
objective; `s'` is its state at the end. -/
structure History (env : Env n) (s : Strat n) (runs : List (SubRun n)) (s' : Strat n) : Prop where
  done : ∀ r ∈ runs, r.Done env
  first : ∀ r, runs.head? = some r → r.start = s
  next : runs.IsChain fun a b => Afresh a.fin b.start
  last : ∀ r, runs.getLast? = some r → s'.calls = r.fin.calls ∧ s'.nevals = r.fin.nevals
  none : runs = [] → s' = s

/-- `r` is the best one of the runs: the first one with the smallest final value.  Runs that end with NaN
do not count. -/
def BestRun (runs : List (SubRun n)) (r : SubRun n) : Prop :=
  r.value.IsNum ∧ ∃ pre post, runs = pre ++ r :: post ∧
    (∀ q ∈ pre, q.value.IsNum → FVal.lt r.value q.value) ∧ ∀ q ∈ post, ¬ FVal.lt q.value r.value

/-! ### BIPOP -/

/-- A run of BIPOP, of the regime with large or small populations. -/
structure BiRun (n : ℕ) where
  large : Bool
  run : SubRun n

/-- What BIPOP charges for a run: the iterations of its solution times the candidates per iteration. -/
def SubRun.cost (r : SubRun n) : ℕ := r.fin.sol.niter * r.fin.p.lambda

/-- What was spent in one of the two regimes. -/
def spent (large : Bool) (runs : List (BiRun n)) : ℕ :=
  ((runs.filter fun r => r.large == large).map fun r => r.run.cost).sum

/-- Number of runs with large populations. -/
def numLarge (runs : List (BiRun n)) : ℕ := runs.countP fun r => r.large

/-- A run after the runs `pre`, for the parameters `p` given by the user.  A run with a large population doubles the
population of the last such run, and has the step size and budget given by the user; it starts when the
regime with small populations has used up what the one with large populations has.  A run with a small
population lies between the user's population and half the last large one, its step size between 1/50 and
2, its budget is half of what the large runs have used; it starts when the small regime has used less than
the large one. -/
def Regime (p : Params n) (pre : List (BiRun n)) (r : BiRun n) : Prop :=
  (r.large = true → spent true pre ≤ spent false pre ∧ r.run.start.p.lambda = p.lambda * 2 ^ numLarge pre ∧
    r.run.start.sol.sigma = (if 0 < p.sigmaInit then p.sigmaInit else 1 / n) ∧
    r.run.start.p.maxFevals = p.maxFevals ∧ (pre ≠ [] → DefaultRates r.run.start.p)) ∧
  (r.large = false → spent false pre < spent true pre ∧
    (∃ half, half = (p.lambda * 2 ^ (numLarge pre - 1) + 1) / 2 ∧ 2 ≤ r.run.start.p.lambda ∧
      min p.lambda half ≤ r.run.start.p.lambda ∧ r.run.start.p.lambda ≤ max p.lambda half) ∧
    0.02 < r.run.start.sol.sigma ∧ r.run.start.sol.sigma ≤ 2 ∧
    r.run.start.p.maxFevals = (spent true pre / 2 : ℕ) ∧ DefaultRates r.run.start.p)

end Libcmaes.Spec
