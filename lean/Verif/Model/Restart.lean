import Verif.Model.Stop

/-!
# Model of src/ipopcmastrategy.cc and src/bipopcmastrategy.cc
-/

namespace Libcmaes

namespace Strat
variable {n : ℕ}

/-- `lambda_inc` (src/ipopcmastrategy.cc:88-93). -/
noncomputable def lambdaInc (s : Strat n) : Out (Strat n) := do
  let p ← initializeParameters { s.p with lambda := s.p.lambda * 2 }
  pure { s with p := p }

/-- `reset_search_state` (src/ipopcmastrategy.cc:96-100).  For the VD variant the constructor of
`CMASolutions` seeds the shared generator and draws one column. -/
noncomputable def resetSearchState (env : Env n) (s : Strat n) : Out (Strat n) := do
  let (p, sol) ← Sol.make s.p (env.rnd s.nrnd) (env.z 0)
  pure { s with p := p, sol := sol, niter := 0, nrnd := s.nrnd + 1, nz := if s.p.vd then 1 else s.nz }

/-- `capture_best_solution` (src/ipopcmastrategy.cc:103-107).  `none` is `best_run` as default
constructed, with no candidates. -/
noncomputable def captureBest (s : Strat n) (best : Option (Sol n)) : Option (Sol n) :=
  match best with
  | none => some s.sol
  | some b =>
    if b.cands.isEmpty || decide (FVal.lt s.sol.bestCandidate.fvalue b.bestCandidate.fvalue) then some s.sol
    else some b

/-- The test on the budget (src/ipopcmastrategy.cc:74-75). -/
def budgetSpent (s : Strat n) : Bool :=
  decide (s.p.maxFevals > 0) && decide ((s.nevals : ℤ) ≥ s.p.maxFevals)

/-- The loop of `IPOPCMAStrategy::optimize` (src/ipopcmastrategy.cc:61-80): `r` turns left; `fuel` is
passed to each run.  `none`: a run is not finished yet. -/
noncomputable def ipopLoop (env : Env n) (fuel : ℕ) :
    ℕ → Strat n → Option (Sol n) → Out (Option (Strat n × Option (Sol n)))
  | 0, s, b => .ok (some (s, b))
  | r + 1, s, b => do
    match ← s.optimize env fuel with
    | none => pure none
    | some s1 =>
      let b1 := s1.captureBest b
      let s2 ← s1.lambdaInc
      let s3 ← s2.resetSearchState env
      if s3.budgetSpent then pure (some (s3, b1)) else ipopLoop env fuel r s3 b1

/-- `IPOPCMAStrategy::optimize` (src/ipopcmastrategy.cc:55-85).  The second component is the solution
returned to the user, `none` being a default constructed (empty) one. -/
noncomputable def ipopOptimize (env : Env n) (fuel : ℕ) (s : Strat n) :
    Out (Option (Strat n × Option (Sol n))) :=
  ipopLoop env fuel s.p.nrestarts s none

end Strat

/-- Return code of the restart strategies (src/ipopcmastrategy.cc:82-84,
src/bipopcmastrategy.cc:102-104). -/
def solCode {n : ℕ} : Option (Sol n) → ℤ
  | none => 0
  | some b => if b.runStatus ≥ 0 then 0 else -1

/-- `BIPOPCMAStrategy` (include/libcmaes/bipopcmastrategy.h:95-101).  `_lambda_def`, `_lambda_l` and
`_max_fevals` are `double`s holding integers.  `none`: member left uninitialised by the constructor
from a solution. -/
structure Bipop (n : ℕ) where
  s : Strat n
  lambdaDef : ℕ
  lambdaL : ℕ
  sigmaInit0 : Option ℝ
  maxFevals0 : Option ℤ
  nub : ℕ

namespace Bipop
variable {n : ℕ}

/-- Constructor from parameters (src/bipopcmastrategy.cc:32-45). -/
noncomputable def new (env : Env n) (kind : CovKind) (p : Params n) : Out (Bipop n) := do
  let s ← Strat.new env kind p
  let p1 := { s.p with lambda := p.lambda, mu := p.lambda / 2 }
  let (p2, sol) ← Sol.make p1 (env.rnd s.nrnd) (env.z 0)
  pure { s := { s with p := p2, sol := sol, nrnd := s.nrnd + 1, nz := if p1.vd then 1 else s.nz }
         lambdaDef := p.lambda, lambdaL := p.lambda, sigmaInit0 := some p.sigmaInit
         maxFevals0 := some p.maxFevals, nub := 0 }

/-- Constructor from a solution (src/bipopcmastrategy.cc:48-60). -/
def newFromSolution (kind : CovKind) (p : Params n) (sol : Sol n) : Bipop n :=
  let s := Strat.newFromSolution kind p sol
  { s := { s with p := { s.p with lambda := p.lambda, mu := p.lambda / 2 } }
    lambdaDef := p.lambda, lambdaL := p.lambda, sigmaInit0 := none, maxFevals0 := none, nub := 0 }

/-- `r1` (src/bipopcmastrategy.cc:108-114). -/
noncomputable def r1 (b : Bipop n) : Out (Bipop n) := do
  let s ← ({ b.s with p := { b.s.p with lambda := b.lambdaL } } : Strat n).lambdaInc
  match b.sigmaInit0 with
  | none => .error .ub
  | some sg => pure { b with s := { s with p := { s.p with sigmaInit := sg } }, lambdaL := s.p.lambda }

/-- Population size of a small run (src/bipopcmastrategy.cc:122-123). -/
noncomputable def smallLambda (lambdaDef lambdaL : ℕ) (u : ℝ) : ℕ :=
  ⌈(lambdaDef : ℝ) * (0.5 * ((lambdaL : ℝ) / lambdaDef)) ^ u⌉.toNat

/-- `r2` (src/bipopcmastrategy.cc:117-128). -/
noncomputable def r2 (env : Env n) (b : Bipop n) : Out (Bipop n) := do
  let u := env.ub b.nub
  let us := env.ub (b.nub + 1)
  let p ← initializeParameters { b.s.p with
    lambda := smallLambda b.lambdaDef b.lambdaL u
    sigmaInit := 2 * (10 : ℝ) ^ (-2 * us) }
  pure { b with s := { b.s with p := p }, nub := b.nub + 2 }

/-- `set_max_fevals` (include/libcmaes/parameters.h:233-236). -/
def setMaxFevals (b : Bipop n) (m : ℤ) : Bipop n :=
  { b with s := { b.s with p := { b.s.p with maxFevals := m } } }

/-- `_niter * _lambda`, the budget charged for a run (src/bipopcmastrategy.cc:88,98). -/
def charge (s : Strat n) : ℤ := (s.sol.niter : ℤ) * s.p.lambda

/-- The state of the loops of `optimize`. -/
structure Loop (n : ℕ) where
  b : Bipop n
  budget0 : ℤ
  budget1 : ℤ
  best : Option (Sol n)

/-- One turn of the inner loop (src/bipopcmastrategy.cc:84-89). -/
noncomputable def smallRun (env : Env n) (fuel : ℕ) (l : Loop n) : Out (Option (Loop n)) := do
  let b1 ← l.b.r2 env
  let b2 := b1.setMaxFevals (l.budget0 / 2)
  let s3 ← b2.s.resetSearchState env
  match ← s3.optimize env fuel with
  | none => pure none
  | some s4 => pure (some
      { b := { b2 with s := s4 }, budget0 := l.budget0, budget1 := l.budget1 + charge s4
        best := s4.captureBest l.best })

/-- The inner loop (src/bipopcmastrategy.cc:82-90), at most `k` turns. -/
noncomputable def smallLoop (env : Env n) (fuel : ℕ) : ℕ → Loop n → Out (Option (Loop n))
  | 0, l => if l.budget0 > l.budget1 then .ok none else .ok (some l)
  | k + 1, l =>
    if l.budget0 > l.budget1 then do
      match ← smallRun env fuel l with
      | none => pure none
      | some l1 => smallLoop env fuel k l1
    else .ok (some l)

/-- Lines 91-99 of `optimize` (src/bipopcmastrategy.cc:91-99): the run with the large population. -/
noncomputable def largeRun (env : Env n) (fuel r : ℕ) (l : Loop n) : Out (Option (Loop n)) := do
  let b1 ← (if r > 0 then do
      let b ← l.b.r1
      let s ← b.s.resetSearchState env
      pure { b with s := s }
    else pure l.b)
  match b1.maxFevals0 with
  | none => .error .ub
  | some m => do
    let b2 := b1.setMaxFevals m
    match ← b2.s.optimize env fuel with
    | none => pure none
    | some s4 => pure (some
        { b := { b2 with s := s4 }, budget0 := l.budget0 + charge s4, budget1 := l.budget1
          best := s4.captureBest l.best })

/-- The outer loop (src/bipopcmastrategy.cc:80-100), from turn `r`, `k` turns left. -/
noncomputable def outer (env : Env n) (fuel : ℕ) : ℕ → ℕ → Loop n → Out (Option (Loop n))
  | 0, _, l => .ok (some l)
  | k + 1, r, l => do
    match ← smallLoop env fuel fuel l with
    | none => pure none
    | some l1 =>
      match ← largeRun env fuel r l1 with
      | none => pure none
      | some l2 => outer env fuel k (r + 1) l2

/-- `BIPOPCMAStrategy::optimize` (src/bipopcmastrategy.cc:74-105). -/
noncomputable def optimize (env : Env n) (fuel : ℕ) (b : Bipop n) : Out (Option (Loop n)) :=
  outer env fuel b.s.p.nrestarts 0 ⟨b, 0, 0, none⟩

end Bipop

end Libcmaes
