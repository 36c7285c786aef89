import Verif.Model.Strategy

/-!
# Model of src/cmastopcriteria.cc, and of stop() and optimize() in src/cmastrategy.cc
-/

namespace Libcmaes

open Finset

/-- `sqrt` of a `double`: NaN for negative numbers. -/
noncomputable def sqrtF (a : ℝ) : FVal := if a < 0 then .nan else .ofReal (Real.sqrt a)

section Criteria
variable {n : ℕ}

/-- `maxFEvals` (src/cmastopcriteria.cc:69-79). -/
def critMaxFEvals (p : Params n) (s : Sol n) : Out ℤ :=
  .ok (if p.maxFevals = -1 then 0 else if (s.nevals : ℤ) ≥ p.maxFevals then 8 else 0)

/-- `maxIter` (src/cmastopcriteria.cc:81-91). -/
def critMaxIter (p : Params n) (s : Sol n) : Out ℤ :=
  .ok (if p.maxIter = -1 then 0 else if (s.niter : ℤ) ≥ p.maxIter then 9 else 0)

/-- The threshold of `autoMaxIter` (src/cmastopcriteria.cc:95-97). -/
noncomputable def autoMaxIterThresh (p : Params n) : ℝ :=
  let t := 100 + 50 * ((n : ℝ) + 3) ^ 2 / Real.sqrt p.lambda
  if p.vd ∧ n < 10 then t * 1000 else t

/-- `autoMaxIter` (src/cmastopcriteria.cc:93-104). -/
noncomputable def critAutoMaxIter (p : Params n) (s : Sol n) : Out ℤ :=
  if p.lambda = 0 then .error .notReal
  else .ok (if (s.niter : ℝ) ≥ autoMaxIterThresh p then 7 else 0)

/-- `fTarget` (src/cmastopcriteria.cc:106-117). -/
noncomputable def critFTarget (p : Params n) (s : Sol n) : Out ℤ :=
  .ok (open Classical in
    if p.ftarget = .num ⊤ then 0
    else if FVal.le s.bestCandidate.fvalue p.ftarget then 10 else 0)

/-- The range of the last `k` entries of the history (src/cmastopcriteria.cc:127-133). -/
noncomputable def histRange (hist : List (Cand n)) (k : ℕ) : FVal × FVal :=
  (hist.reverse.take k).foldl
    (fun r c => (FVal.stdMin c.fvalue r.1, FVal.stdMax c.fvalue r.2))
    (FVal.ofReal dblMax, FVal.ofReal (-dblMax))

/-- `tolHistFun` (src/cmastopcriteria.cc:119-141).  The loop runs over at most `histsize` entries, so
its `at` does not throw. -/
noncomputable def critTolHistFun (p : Params n) (s : Sol n) : Out ℤ :=
  if p.lambda = 0 then .error .ub else
  let threshold := max p.ftolerance 1e-12
  let histsize : ℤ := s.bestHist.length
  let histthresh : ℤ := min s.maxHist (10 + (30 * n / p.lambda : ℕ))
  let histlength := min histthresh histsize
  if histlength < histthresh then .ok 0
  else
    let r := histRange s.bestHist histlength.toNat
    .ok (if FVal.lt (FVal.abs (FVal.sub r.2 r.1)) (FVal.ofReal threshold) then 1 else 0)

/-- `equalFunVals` (src/cmastopcriteria.cc:143-163). -/
noncomputable def critEqualFunVals (_p : Params n) (s : Sol n) : Out ℤ :=
  let histsize := s.bestHist.length
  let histlength := min n histsize
  if (histlength : ℤ) < s.maxHist then .ok 0
  else if s.kBestHist.length < histsize then .error .outOfRange
  else
    let c := ((List.range histlength).filter fun i =>
      decide (FVal.eq (s.bestHist.getD (histsize - 1 - i) Cand.blank).fvalue
        (s.kBestHist.getD (histsize - 1 - i) Cand.blank).fvalue)).length
    .ok (if (c : ℝ) > histlength / 3 then 5 else 0)

/-- `tolX` (src/cmastopcriteria.cc:165-182). -/
noncomputable def critTolX (p : Params n) (s : Sol n) : Out ℤ :=
  open Classical in
  if p.sigmaInit = 0 then .error .notReal else
  if s.pathsOk = false then .error .ub else
  let tfactor := max p.xtol 1e-12 * (s.sigma / p.sigmaInit)
  if ∃ i, s.pc i ≥ tfactor then .ok 0
  else if !p.sep && !p.vd then
    if s.hasCov = false then .error .ub
    else .ok (if ∃ i, FVal.le (.ofReal tfactor) (sqrtF (s.cov i i)) then 0 else 2)
  else
    if s.hasSep = false then .error .ub
    else .ok (if ∃ i, FVal.le (.ofReal tfactor) (sqrtF (s.sepcov i)) then 0 else 2)

/-- `tolUpSigma` (src/cmastopcriteria.cc:184-195). -/
noncomputable def critTolUpSigma (p : Params n) (s : Sol n) : Out ℤ :=
  if p.sigmaInit = 0 then .error .notReal
  else .ok (if s.maxEigenv < 0 then 0
    else if s.sigma / p.sigmaInit > 1e20 * Real.sqrt s.maxEigenv then -13 else 0)

/-- `median` (src/cmastopcriteria.cc:54-64).  Equal `double`s are indistinguishable, so a stable sort
stands for `std::sort`. -/
noncomputable def medianSorted (l : List FVal) : Out FVal := do
  let m ← stableSort FVal.lt l
  Sol.medianOf m

/-- `stagnation` (src/cmastopcriteria.cc:197-211). -/
noncomputable def critStagnation (_p : Params n) (s : Sol n) : Out ℤ :=
  if s.bfvalues.length < 20 ∨ s.medianFvalues.length < 20 then .ok 0
  else do
    let a ← medianSorted s.bfvalues
    let b ← medianSorted (s.medianFvalues.take 20)
    pure (if FVal.le b a then 6 else 0)

/-- `conditionCov` (src/cmastopcriteria.cc:213-223).  Dividing a positive number by zero gives
`+inf`. -/
noncomputable def critConditionCov (_p : Params n) (s : Sol n) : Out ℤ :=
  .ok (if s.minEigenv = 0 then (if s.maxEigenv > 0 then -15 else 0)
    else if s.maxEigenv / s.minEigenv > 1e14 then -15 else 0)

/-- `noEffectAxis` (src/cmastopcriteria.cc:225-238); `fladd` is floating-point addition.  The square
root of a negative eigenvalue is NaN, which differs from everything. -/
noncomputable def critNoEffectAxis (fladd : ℝ → ℝ → ℝ) (p : Params n) (s : Sol n) : Out ℤ :=
  open Classical in
  if s.hasLeig = false then .error .ub else
  let ei : Fin n → ℝ := fun i => 0.1 * s.sigma * Real.sqrt (s.leigenvalues i)
  .ok (if !p.sep && !p.vd then
      (if ∃ i j : Fin n, s.leigenvalues i < 0 ∨
        s.xmean i ≠ fladd (s.xmean i) (ei i * s.leigenvectors i j) then 0 else 3)
    else (if ∃ i : Fin n, s.leigenvalues i < 0 ∨ s.xmean i ≠ fladd (s.xmean i) (ei i) then 0 else 3))

/-- `noEffectCoor` (src/cmastopcriteria.cc:240-250). -/
noncomputable def critNoEffectCoor (fladd : ℝ → ℝ → ℝ) (p : Params n) (s : Sol n) : Out ℤ :=
  open Classical in
  if !p.sep && !p.vd then
    if s.hasCov = false then .error .ub else
    .ok (if ∃ i : Fin n, s.cov i i < 0 ∨
      s.xmean i ≠ fladd (s.xmean i) (0.2 * s.sigma * Real.sqrt (s.cov i i)) then 0 else 4)
  else
    if s.hasSep = false then .error .ub else
    .ok (if ∃ i : Fin n, s.sepcov i < 0 ∨
      s.xmean i ≠ fladd (s.xmean i) (0.2 * s.sigma * Real.sqrt (s.sepcov i)) then 0 else 4)

/-- The function stored under a code in `_scriteria`. -/
noncomputable def critFun (fladd : ℝ → ℝ → ℝ) (code : ℤ) (p : Params n) (s : Sol n) : Out ℤ :=
  if code = 8 then critMaxFEvals p s
  else if code = 9 then critMaxIter p s
  else if code = 7 then critAutoMaxIter p s
  else if code = 10 then critFTarget p s
  else if code = 1 then critTolHistFun p s
  else if code = 5 then critEqualFunVals p s
  else if code = 2 then critTolX p s
  else if code = -13 then critTolUpSigma p s
  else if code = 6 then critStagnation p s
  else if code = -15 then critConditionCov p s
  else if code = 3 then critNoEffectAxis fladd p s
  else if code = 4 then critNoEffectCoor fladd p s
  else .ok 0

/-- `CMAStopCriteria::stop` (src/cmastopcriteria.cc:259-279): the first active criterion, in the order
of the codes, that triggers. `_active` is never changed from `true`. -/
noncomputable def stopCrit (fladd : ℝ → ℝ → ℝ) : List (ℤ × Bool) → Params n → Sol n → Out ℤ
  | [], _, _ => .ok 0
  | (c, a) :: rest, p, s =>
    if a then do
      let r ← critFun fladd c p s
      if r ≠ 0 then pure r else stopCrit fladd rest p s
    else stopCrit fladd rest p s

end Criteria

namespace Strat
variable {n : ℕ}

/-- `stop` (src/cmastrategy.cc:314-332).  The plot file is left out here; see
`Strat.stopPlot` and `C101_search`. -/
noncomputable def stop (env : Env n) (s : Strat n) : Out (Bool × Strat n) :=
  if s.sol.runStatus < 0 then .ok (true, s)
  else
    let r := env.pfunc s.npf s.p s.sol
    let s1 := { s with npf := s.npf + 1 }
    if r ≠ 0 then .ok (true, s1)
    else if s.niter = 0 then .ok (false, s1)
    else do
      let c ← stopCrit env.fladd s1.crit s1.p s1.sol
      pure (decide (c ≠ 0), { s1 with sol := { s1.sol with runStatus := c } })

/-- The loop `while(!stop())` of `optimize` (src/cmastrategy.cc:353-362), at most `fuel` tests of the
condition; `none`: not finished yet. -/
noncomputable def loop (env : Env n) : ℕ → Strat n → Out (Option (Strat n))
  | 0, _ => .ok none
  | k + 1, s => do
    let (b, s1) ← s.stop env
    if b then pure (some s1) else
    let s2 ← s1.generation env
    loop env k s2

/-- `edm` (src/esostrategy.cc:193-209).  For the VD variant the product of the `dim x 1` matrix of
eigenvectors with a `dim x dim` diagonal matrix is undefined behaviour unless `dim = 1`. -/
noncomputable def edm (env : Env n) (s : Strat n) : Out (Strat n) :=
  open Classical in do
  let d := 10 * (Real.sqrt (s.p.lambda / 4 + 0.5) - 1)
  if d = 0 then .error .notReal else
  let ph ← phenoV s.p.gp s.sol.xmean
  let (s1, g) ← s.gradf env ph
  let gg ← s1.gradgp s.sol.xmean
  let grad : Vec n := g * gg
  let nrm ← (if s.p.sep = false then
      if s.sol.hasLeig = false ∨ (s.p.vd = true ∧ n ≠ 1) then .error .ub
      else if ∀ i, 0 ≤ s.sol.leigenvalues i then
        .ok (vnorm (s.sol.leigenvectors.mulVec fun i => Real.sqrt (s.sol.leigenvalues i) * grad i))
      else .error .notReal
    else if s.sol.hasSep = false then .error .ub
    else if ∀ i, 0 ≤ s.sol.sepcov i then
      .ok (vnorm fun i => Real.sqrt (s.sol.sepcov i) * grad i)
    else .error .notReal)
  pure { s1 with sol := { s1.sol with edm := (n : ℝ) / d * (s.sol.sigma * nrm) } }

/-- The return value (src/cmastrategy.cc:386-388, include/libcmaes/opti_err.h:26-38). -/
def retCode (s : Strat n) : ℤ := if s.sol.runStatus ≥ 0 then 0 else -1

/-- The condition for the elitist restart (src/cmastrategy.cc:367-372).  `_best_seen_iter` is read only
if the two first operands of `&&` hold; uninitialised, this is undefined behaviour. -/
noncomputable def wantsRestart (s : Strat n) : Out Bool :=
  if s.p.initialElitistOnRestart then
    match s.sol.bestSeen with
    | none => .ok false
    | some b =>
      if FVal.lt b.fvalue s.sol.bestCandidate.fvalue then
        match s.sol.bestSeenIter with
        | none => .error .ub
        | some i => .ok (decide ((s.niter : ℤ) - i ≥ 3))
      else .ok false
  else .ok false

/-- Preparation of the elitist restart (src/cmastrategy.cc:375-382): the internal coordinates of the
best seen candidate become `x0`. -/
noncomputable def elitistRestart (env : Env n) (s : Strat n) : Out (Strat n) :=
  match s.sol.bestSeen with
  | none => .error .ub
  | some b => do
    let p := { s.p with x0min := b.x, x0max := b.x }
    let (p', sol) ← Sol.make p (env.rnd s.nrnd) (env.z 0)
    pure { s with
      initialElitist := true, p := p', sol := { sol with nevals := s.nevals }, niter := 0
      nrnd := s.nrnd + 1, nz := if p.vd then 1 else s.nz }

/-- `optimize` (src/cmastrategy.cc:335-389).  `fuel` bounds the number of loop tests in each run and
the number of elitist restarts; `none`: not finished yet. -/
noncomputable def optimize (env : Env n) : ℕ → Strat n → Out (Option (Strat n))
  | 0, _ => .ok none
  | k + 1, s => do
    let s0 ← s.evalInitial env
    match ← loop env (k + 1) s0 with
    | none => pure none
    | some s1 => do
      let s2 ← (if s1.p.withEdm then s1.edm env else pure s1)
      let again ← s2.wantsRestart
      if again then do
        let s3 ← s2.elitistRestart env
        optimize env k s3
      else pure (some s2)

end Strat

end Libcmaes
