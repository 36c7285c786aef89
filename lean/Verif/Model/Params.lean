import Verif.Model.GenoPheno
import Mathlib.Analysis.SpecialFunctions.Log.Basic
import Mathlib.Algebra.BigOperators.Group.Finset.Basic

/-!
# Model of include/libcmaes/parameters.h, include/libcmaes/cmaparameters.h, src/cmaparameters.cc

`n` is `_dim`.  Members that only serve logging and plotting (`_quiet`, `_fplot`, `_full_fplot`) are
left out.  Constants that no setter changes (`_cm = 1`, `_alphacov = 2`, `_alphaminusold = 0.5`,
`_deltamaxsigma = DBL_MAX`, `_lambdamintarget = 0.66`, `_alphaminusmin = 1`, `_epsuh = 1e-7`,
`_thetauh = 0.2`, `_csuh = 1`, `_tpa_csigma = 0.3`) are literals where they are used.
-/

namespace Libcmaes

open Finset

/-- A point of the search space (`dVec` of `_dim` rows). -/
abbrev Vec (n : ℕ) := Fin n → ℝ

/-- `CMAParameters` with its base class `Parameters`
(include/libcmaes/parameters.h:557-599, include/libcmaes/cmaparameters.h:290-327). -/
structure Params (n : ℕ) where
  lambda : ℕ
  maxIter : ℤ
  maxFevals : ℤ
  x0min : Vec n
  x0max : Vec n
  ftarget : FVal
  ftolerance : ℝ
  xtol : ℝ
  seed : ℕ
  algo : ℤ
  withGradient : Bool
  withEdm : Bool
  /-- `_fixed_p`, an `unordered_map<int,double>`: keys are distinct. Negative indices, which would be
  out of range everywhere, are not represented. -/
  fixedP : List (ℕ × ℝ)
  gp : GenoPheno
  mtFeval : Bool
  maxHist : ℤ
  maximize : Bool
  initialFvalue : Bool
  uh : Bool
  rlambda : ℝ
  alphathuh : ℝ
  tpa : ℤ
  mu : ℕ
  /-- `_weights`: entries at `mu` and beyond are never read. -/
  weights : ℕ → ℝ
  csigma : ℝ
  c1 : ℝ
  cmu : ℝ
  cc : ℝ
  muw : ℝ
  dsigma : ℝ
  factPs : ℝ
  factPc : ℝ
  chi : ℝ
  sigmaInit : ℝ
  nrestarts : ℕ
  lazyUpdate : Bool
  lazyValue : ℝ
  sep : Bool
  vd : Bool
  elitist : Bool
  initialElitist : Bool
  initialElitistOnRestart : Bool
  /-- `_stoppingcrit`, a `std::map<int,bool>`: keys are distinct. -/
  stoppingCrit : List (ℤ × Bool)

/-- `std::map::insert` / `std::unordered_map::insert` (include/libcmaes/parameters.h:197,
include/libcmaes/cmaparameters.h:273): an existing key keeps its value. -/
def mapInsert {κ α : Type} [DecidableEq κ] (m : List (κ × α)) (k : κ) (v : α) : List (κ × α) :=
  if k ∈ m.map Prod.fst then m else m ++ [(k, v)]

/-- `erase` of a found key (include/libcmaes/parameters.h:206-208). -/
def mapErase {κ α : Type} [DecidableEq κ] (m : List (κ × α)) (k : κ) : List (κ × α) :=
  m.filter fun p => p.1 ≠ k

/-- `find` (used on `_fixed_p` and `_stoppingcrit`). -/
def mapFind {κ α : Type} [DecidableEq κ] (m : List (κ × α)) (k : κ) : Option α :=
  (m.find? fun p => p.1 = k).map Prod.snd

/-- Default population size (include/libcmaes/parameters.h:78-79):
`if (lambda < 2) lambda = 4 + floor(3.0*log(dim))`.  With `dim = 0` the logarithm is `-inf` and the
conversion to `int` undefined. `lambda` is the constructor's argument, a C++ `int`. -/
noncomputable def lambdaOf (n : ℕ) (lambda : ℤ) : Out ℕ :=
  if lambda < 2 then
    if n = 0 then .error .ub else .ok (4 + ⌊3 * Real.log n⌋).toNat
  else .ok lambda.toNat

/-- Unnormalised weight (src/cmaparameters.cc:81). -/
noncomputable def rawWeight (mu i : ℕ) : ℝ := Real.log (mu + 1) - Real.log (i + 1)

/-- Damping of the step size (src/cmaparameters.cc:102, 138, 139, 174). -/
noncomputable def dsigmaDefault (n : ℕ) (muw csigma : ℝ) : ℝ :=
  1 + csigma + 2 * max 0 (Real.sqrt ((muw - 1) / (n + 1)) - 1)

/-- Expected norm of a standard normal vector (src/cmaparameters.cc:108, 183, 192). -/
noncomputable def chiOf (d : ℝ) : ℝ := Real.sqrt d * (1 - 1 / (4 * d) + 1 / (21 * d * d))

/-- `initialize_parameters` (src/cmaparameters.cc:74-118).  With `mu = 0` or `dim = 0` the divisions
leave the reals. -/
noncomputable def initializeParameters {n : ℕ} (p : Params n) : Out (Params n) :=
  let mu := p.lambda / 2
  if mu = 0 ∨ n = 0 then .error .notReal else
  let d : ℝ := n
  let sumW := ∑ i ∈ range mu, rawWeight mu i
  let sqW := ∑ i ∈ range mu, rawWeight mu i * rawWeight mu i
  let muw := sumW * sumW / sqW
  let csigma := if n < 1000 then (muw + 2) / (d + muw + 5)
    else (Real.sqrt muw + 2) / (Real.sqrt d + Real.sqrt muw + 3)
  let cc := (4 + muw / d) / (d + 4 + 2 * muw / d)
  let c1 := 2 / ((d + 1.3) ^ 2 + muw)
  let cmu := min (1 - c1) (2 * (muw - 2 + 1 / muw) / ((d + 2) ^ 2 + muw))
  .ok { p with
    mu := mu
    weights := fun i => rawWeight mu i / sumW
    muw := muw
    csigma := csigma
    cc := cc
    c1 := c1
    cmu := cmu
    dsigma := dsigmaDefault n muw csigma
    factPs := Real.sqrt (csigma * (2 - csigma) * muw)
    factPc := Real.sqrt (cc * (2 - cc) * muw)
    chi := chiOf d
    lazyValue := 1 / (c1 + cmu) / d / 10
    rlambda := max 0.1 (2 / (p.lambda : ℝ))
    alphathuh := 1 + 2 / (d + 10) }

/-- Values of the members before `initialize_parameters` runs: default member initialisers of
include/libcmaes/parameters.h:557-599 and include/libcmaes/cmaparameters.h:306-327, and the
initialiser list of src/cmaparameters.cc:35.  Members without initialiser (indeterminate) are
overwritten by `initialize_parameters`; 0 stands for them. -/
noncomputable def Params.blank {n : ℕ} (lambda : ℕ) (x0 : Vec n) (sigma : ℝ) (seed : ℕ) (gp : GenoPheno) :
    Params n :=
  { lambda := lambda, maxIter := -1, maxFevals := -1, x0min := x0, x0max := x0
    ftarget := .num ⊥, ftolerance := 1e-12, xtol := 1e-12, seed := seed, algo := 0
    withGradient := false, withEdm := false, fixedP := [], gp := gp, mtFeval := false
    maxHist := -1, maximize := false, initialFvalue := false, uh := false, rlambda := 0
    alphathuh := 1, tpa := 1, mu := 0, weights := fun _ => 0, csigma := 0, c1 := 0, cmu := 0
    cc := 0, muw := 0, dsigma := 0, factPs := 0, factPc := 0, chi := 0, sigmaInit := sigma
    nrestarts := 9, lazyUpdate := false, lazyValue := 0, sep := false, vd := false
    elitist := false, initialElitist := false, initialElitistOnRestart := false
    stoppingCrit := [] }

/-- Constructors with a scalar sigma (src/cmaparameters.cc:29-38, 41-49 and
include/libcmaes/parameters.h:74-83).  `clock` is the current time, used when `seed = 0`. -/
noncomputable def Params.make {n : ℕ} (x0 : Vec n) (sigma : ℝ) (lambda : ℤ) (seed clock : ℕ)
    (gp : GenoPheno) : Out (Params n) := do
  let l ← lambdaOf n lambda
  initializeParameters (Params.blank l x0 sigma (if seed = 0 then clock else seed) gp)

namespace Params
variable {n : ℕ}

/-- `set_noisy` (src/cmaparameters.cc:121-129). -/
noncomputable def setNoisy (p : Params n) : Out (Params n) := do
  let q ← initializeParameters { p with lambda := p.lambda * 5 }
  let c1 := q.c1 * 0.2
  pure { q with
    c1 := c1
    cmu := min (1 - c1)
      (2 * 0.2 * (q.muw - 2 + 1 / q.muw) / (((n : ℝ) + 2) ^ 2 + q.muw)) }

/-- `CMAParameters::set_tpa` (src/cmaparameters.cc:132-140); the two last branches coincide. -/
noncomputable def setTpa (p : Params n) (b : ℤ) : Params n :=
  { p with
    tpa := b
    dsigma := if b = 2 then 4 - 3.6 / Real.sqrt n else dsigmaDefault n p.muw p.csigma }

/-- `set_tpa_dsigma` (include/libcmaes/cmaparameters.h:287). -/
def setTpaDsigma (p : Params n) (d : ℝ) : Params n := { p with dsigma := d }

/-- `set_sep` (src/cmaparameters.cc:152-159). -/
noncomputable def setSep (p : Params n) : Params n :=
  let d : ℝ := n
  let c1 := p.c1 * ((d + 2) / 3)
  let cmu := min (1 - c1) ((0.3 + p.muw - 2 + 1 / p.muw) / (d + 4 * Real.sqrt d + p.muw / 2))
  { p with
    sep := true
    c1 := c1
    cmu := cmu
    lazyValue := 1 / (c1 + cmu) / d / 10
    cc := (1 + 1 / d + p.muw / d) / (Real.sqrt d + 1 / d + 2 * p.muw / d) }

/-- `set_vd` (src/cmaparameters.cc:162-176): only acts for the VD algorithm codes 12, 13, 14. -/
noncomputable def setVd (p : Params n) : Params n :=
  if p.algo ≠ 12 ∧ p.algo ≠ 13 ∧ p.algo ≠ 14 then p else
  let d : ℝ := n
  let csigma := Real.sqrt p.muw / (2 * (Real.sqrt d + Real.sqrt p.muw))
  let c1 := p.c1 * ((d - 5) / 6)
  let cmu := min (1 - c1) ((d - 5) / 6 * (2 * (p.muw - 2 + 1 / p.muw) / ((d + 2) ^ 2 + p.muw)))
  { p with
    vd := true
    csigma := csigma
    c1 := c1
    cmu := cmu
    dsigma := if p.tpa = 0 then dsigmaDefault n p.muw csigma else p.dsigma
    factPs := Real.sqrt (csigma * (2 - csigma) * p.muw) }

/-- Recomputation of `_chi` and `_lazy_value` for the free dimensions
(src/cmaparameters.cc:182-184, 191-193). -/
noncomputable def refreshFixed (p : Params n) : Params n :=
  let nd : ℝ := (n : ℝ) - p.fixedP.length
  { p with chi := chiOf nd, lazyValue := 1 / (p.c1 + p.cmu) / nd / 10 }

/-- `set_fixed_p` (src/cmaparameters.cc:179-185, include/libcmaes/parameters.h:195-198). -/
noncomputable def setFixedP (p : Params n) (index : ℕ) (value : ℝ) : Params n :=
  refreshFixed { p with fixedP := mapInsert p.fixedP index value }

/-- `unset_fixed_p` (src/cmaparameters.cc:188-194, include/libcmaes/parameters.h:204-209). -/
noncomputable def unsetFixedP (p : Params n) (index : ℕ) : Params n :=
  refreshFixed { p with fixedP := mapErase p.fixedP index }

/-- `set_elitism` (include/libcmaes/cmaparameters.h:243-262).  Case 0 is
`_elitist = _initial_elitist = _initial_elitist_on_restart;`, a chained assignment. -/
def setElitism (p : Params n) (e : ℤ) : Params n :=
  if e = 0 then
    { p with initialElitist := p.initialElitistOnRestart, elitist := p.initialElitistOnRestart }
  else if e = 1 then
    { p with elitist := true, initialElitist := false, initialElitistOnRestart := false }
  else if e = 2 then
    { p with initialElitist := true, elitist := false, initialElitistOnRestart := false }
  else if e = 3 then
    { p with initialElitistOnRestart := true, elitist := false, initialElitist := false }
  else p

/-- `set_stopping_criteria` (include/libcmaes/cmaparameters.h:270-274). -/
def setStoppingCriteria (p : Params n) (c : ℤ) (active : Bool) : Params n :=
  { p with stoppingCrit := mapInsert p.stoppingCrit c active }

/-- Conversion of an `int` to `uint64_t` (include/libcmaes/parameters.h:281). -/
def toU64 (s : ℤ) : ℕ := (s % 2 ^ 64).toNat

/-- Conversion of a `uint64_t` to `int` by `get_seed` (include/libcmaes/parameters.h:288-291):
reduction modulo `2^32` to the signed range (implementation-defined before C++20, as all compilers
do it). -/
def seedToInt (s : ℕ) : ℤ := ((s : ℤ) + 2 ^ 31) % 2 ^ 32 - 2 ^ 31

/-- `set_seed` (include/libcmaes/parameters.h:277-282): tests the *current* seed. -/
def setSeed (p : Params n) (s : ℤ) (clock : ℕ) : Params n :=
  { p with seed := if p.seed = 0 then clock else toU64 s }

/-- `get_seed` (include/libcmaes/parameters.h:288-291). -/
def getSeed (p : Params n) : ℤ := seedToInt p.seed

/-- `set_algo` (include/libcmaes/cmaparameters.h:120-134). -/
def setAlgo (p : Params n) (a : ℤ) : Params n := { p with algo := a }

/-- The table `_algos` (include/libcmaes/cmaparameters.h:331).  A `std::map` built from an
initialiser list keeps the first of two entries with the same key. -/
def algoTable : List (String × ℤ) :=
  [("cmaes", 0), ("ipop", 1), ("bipop", 2), ("acmaes", 3), ("aipop", 4), ("abipop", 5),
   ("sepcmaes", 6), ("sepipop", 7), ("sepbipop", 8), ("sepacmaes", 9), ("sepipop", 10),
   ("sepbipop", 11), ("vdcma", 12), ("vdipopcma", 13), ("vdbipopcma", 14)]

/-- Substring test `algo.find(s) != npos` (include/libcmaes/cmaparameters.h:146,148). -/
def contains (s sub : String) : Bool :=
  s.toList.tails.any fun t => sub.toList.isPrefixOf t

/-- `set_str_algo` (include/libcmaes/cmaparameters.h:140-150). -/
noncomputable def setStrAlgo (p : Params n) (name : String) : Params n :=
  let p1 := match mapFind algoTable name with
    | some a => { p with algo := a }
    | none => p
  let p2 := if contains name "sep" then p1.setSep else p1
  if contains name "vd" then p2.setVd else p2

end Params

end Libcmaes
