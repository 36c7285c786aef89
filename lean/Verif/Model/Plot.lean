import Verif.Model.Stop
import Verif.Model.Stats

/-!
# The plot file (`set_fplot`, `set_full_fplot`)

The functions that write the data file read by the scripts in `python/`, and the loops of `stop()` and
`optimize()` with the writing.  A row is the list of numbers printed; the digits printed are not modelled
(they are those of the stream's precision).  `HAVE_DEBUG` adds four columns of timings: the timings are an
argument `tms` (`elapsed_last_iter`, then those of `HAVE_DEBUG` if any).
-/

namespace Libcmaes

variable {n : ℕ}

/-- What is written: the first line of the complete format (dimension and seed; the date is left out), or a
line of numbers. -/
inductive PlotRow where
  | head (dim : ℕ) (seed : ℤ)
  | data (cols : List FVal)

/-- `operator<<` of a transposed vector. -/
noncomputable def vecCols (x : Vec n) : List FVal := (List.ofFn x).map FVal.ofReal

/-- The fourth column (src/cmastrategy.cc:57, 81). -/
noncomputable def condCol (s : Sol n) : FVal :=
  if s.minEigenv = 0 then .ofReal 1 else sqrtF (s.maxEigenv / s.minEigenv)

/-- The columns of the eigenvalues, zeros as long as there are none (src/cmastrategy.cc:62-64, 82-84). -/
noncomputable def eigCols (s : Sol n) : List FVal := if s.hasLeig then vecCols s.leigenvalues else vecCols (0 : Vec n)

/-- `fpfuncdef_impl` (src/cmastrategy.cc:77-92). -/
noncomputable def plotLine (tms : List ℝ) (p : Params n) (s : Sol n) : Out (List PlotRow) := do
  let sd ← s.stds p.gp p.sep p.vd
  let m ← phenoV p.gp s.xmean
  pure [.data ([s.bestCandidate.fvalue.abs, .ofReal s.nevals, .ofReal s.sigma, condCol s] ++ eigCols s ++
    vecCols sd ++ vecCols m ++ tms.map FVal.ofReal)]

/-- `fpfuncdef_full_impl` (src/cmastrategy.cc:48-75).  The first line is written whenever the solution's
iteration counter is 0.  A candidate never set has the value NaN and an empty point; `get_candidate` is
`at`. -/
noncomputable def plotLineFull (tms : List ℝ) (p : Params n) (s : Sol n) : Out (List PlotRow) := do
  let h : List PlotRow := if s.niter = 0 then [.head n (p.getSeed)] else []
  let med ← (match s.cands[s.cands.length / 2]? with
    | some c => .ok c.fvalue
    | none => .error .outOfRange)
  let sd ← s.stds p.gp p.sep p.vd
  let m ← phenoV p.gp s.xmean
  pure (h ++ [.data ([s.bestCandidate.fvalue.abs, .ofReal s.nevals, .ofReal s.sigma, condCol s,
    (s.bestSeen.elim .nan (·.fvalue)), med, (s.worstSeen.elim .nan (·.fvalue)),
    .ofReal s.minEigenv, .ofReal s.maxEigenv] ++ vecCols (s.bestSeen.elim 0 (·.x)) ++ eigCols s ++
    vecCols sd ++ vecCols m ++ tms.map FVal.ofReal)])

/-- The fourth column of the surrogate strategies (src/surrogatestrategy.cc:46): there is no test for 0. -/
noncomputable def condColSurr (s : Sol n) : FVal :=
  if s.minEigenv = 0 then (if s.maxEigenv = 0 then .nan else if s.maxEigenv > 0 then .num ⊤ else .nan)
  else sqrtF (s.maxEigenv / s.minEigenv)

/-- The plot function of the surrogate strategies (src/surrogatestrategy.cc:43-61).  `msqrt` is Eigen's
square root of a matrix; `errs` are the train, test and smoothed test errors. -/
noncomputable def plotLineSurr (msqrt : Mat n → Mat n) (tm : ℝ) (errs : List FVal) (p : Params n) (s : Sol n) :
    Out (List PlotRow) := do
  let sd ← (if !p.sep && !p.vd then
      if s.hasCov then .ok ((List.ofFn fun i => msqrt s.cov i i).map FVal.ofReal) else .error .ub
    else if s.hasSep = false then .error .ub
    else if p.sep then .ok ((List.ofFn s.sepcov).map sqrtF)
    else .ok (vecCols s.sepcov))
  let m ← phenoV p.gp s.xmean
  pure [.data ([s.bestCandidate.fvalue.abs, .ofReal s.nevals, .ofReal s.sigma, condColSurr s] ++ eigCols s ++
    sd ++ vecCols m ++ [FVal.ofReal tm] ++ errs)]

/-- A plot function: the number of the call of `stop()` (for the timings), the parameters and the solution. -/
abbrev PlotFn (n : ℕ) := ℕ → Params n → Sol n → Out (List PlotRow)

/-- The plot function in use: chosen by the constructor (src/cmastrategy.cc:105-107, 130-132), and replaced
by `set_plot_func` (include/libcmaes/esostrategy.h:167-171) unless the complete format was asked for. -/
noncomputable def plotFnOf (full : Bool) (tms : ℕ → List ℝ) (user : Option (PlotFn n)) : PlotFn n :=
  if full then fun k => plotLineFull (tms k)
  else match user with
    | some u => u
    | none => fun k => plotLine (tms k)

namespace Strat

/-- `stop` with a plot file (src/cmastrategy.cc:314-332, 392-395): the rows written by this call as well. -/
noncomputable def stopPlot (env : Env n) (pl : PlotFn n) (s : Strat n) : Out (Bool × Strat n × List PlotRow) :=
  if s.sol.runStatus < 0 then .ok (true, s, [])
  else
    let r := env.pfunc s.npf s.p s.sol
    let s1 := { s with npf := s.npf + 1 }
    if r ≠ 0 then .ok (true, s1, [])
    else do
      let rows ← pl s.npf s.p s.sol
      if s.niter = 0 then pure (false, s1, rows)
      else do
        let c ← stopCrit env.fladd s1.crit s1.p s1.sol
        pure (decide (c ≠ 0), { s1 with sol := { s1.sol with runStatus := c } }, rows)

/-- The loop of `optimize` (src/cmastrategy.cc:353-362) with a plot file. -/
noncomputable def loopPlot (env : Env n) (pl : PlotFn n) : ℕ → Strat n → Out (Option (Strat n × List PlotRow))
  | 0, _ => .ok none
  | k + 1, s => do
    let (b, s1, rows) ← s.stopPlot env pl
    if b then pure (some (s1, rows)) else do
    let s2 ← s1.generation env
    match ← loopPlot env pl k s2 with
    | none => pure none
    | some (t, file) => pure (some (t, rows ++ file))

/-- `optimize` (src/cmastrategy.cc:335-389) with a plot file: the stream stays open over the elitist
restarts. -/
noncomputable def optimizePlot (env : Env n) (pl : PlotFn n) : ℕ → Strat n → Out (Option (Strat n × List PlotRow))
  | 0, _ => .ok none
  | k + 1, s => do
    let s0 ← s.evalInitial env
    match ← loopPlot env pl (k + 1) s0 with
    | none => pure none
    | some (s1, file) => do
      let s2 ← (if s1.p.withEdm then s1.edm env else pure s1)
      let again ← s2.wantsRestart
      if again then do
        let s3 ← s2.elitistRestart env
        match ← optimizePlot env pl k s3 with
        | none => pure none
        | some (t, rest) => pure (some (t, file ++ rest))
      else pure (some (s2, file))

end Strat

end Libcmaes
