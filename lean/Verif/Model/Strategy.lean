import Verif.Model.Update

/-!
# Model of src/esostrategy.cc and src/cmastrategy.cc: ask, eval, tell

Everything outside the library that a run depends on is collected in `Env`.  A theorem that holds for
every `Env` holds for every objective function (deterministic or not), every stream of random numbers,
every schedule of the parallel loops and every implementation of the Eigen eigensolver and of
`std::sort` that meets its contract.
-/

namespace Libcmaes

open Finset Matrix

/-- `std::sort`: any function that returns a sorted permutation when its precondition holds; the order
of equivalent elements is unspecified. -/
structure USort (α : Type) where
  sort : (α → α → Prop) → List α → List α
  perm : ∀ lt l, StrictWeakOn lt l → (sort lt l).Perm l
  sorted : ∀ lt l, StrictWeakOn lt l → (sort lt l).Pairwise fun a b => ¬ lt b a

/-- The environment of a run. -/
structure Env (n : ℕ) where
  /-- the user's objective function; the first argument is the number of earlier calls -/
  f : ℕ → Vec n → FVal
  /-- the user's gradient function, if any; the first argument is the number of earlier calls of `f` -/
  gfunc : Option (ℕ → Vec n → Vec n)
  eig : EigSolver n
  /-- execution order of a parallel loop of `m` iterations started after `k` calls of `f` -/
  sched : (k m : ℕ) → {l : List ℕ // l.Perm (List.range m)}
  usort : USort RankedCand
  /-- columns of standard normal numbers drawn from the seeded generator -/
  z : ℕ → Vec n
  /-- normal columns drawn for the uncertainty handling -/
  zuh : ℕ → Vec n
  /-- uniform numbers of the uncertainty handling -/
  u : ℕ → ℝ
  u_mem : ∀ i, 0 ≤ u i ∧ u i < 1
  /-- uniform numbers of the BIPOP strategy (src/bipopcmastrategy.cc:119-120) -/
  ub : ℕ → ℝ
  ub_mem : ∀ i, 0 ≤ ub i ∧ ub i < 1
  /-- results of `dVec::Random` -/
  rnd : ℕ → Vec n
  rnd_mem : ∀ i k, -1 ≤ rnd i k ∧ rnd i k ≤ 1
  /-- the progress function; the first argument is the number of earlier calls -/
  pfunc : ℕ → Params n → Sol n → ℤ
  /-- floating-point addition, where its rounding is the point (src/cmastopcriteria.cc:232,244) -/
  fladd : ℝ → ℝ → ℝ

/-- `CMAStrategy` with its base `ESOStrategy` (include/libcmaes/esostrategy.h:247-262,
include/libcmaes/cmastrategy.h).  `kind` is the template argument `TCovarianceUpdate`; `crit` the
active flags of `_stopcriteria` in the order of the `std::map`.  The last five members are not in the
code: the log of the calls of the user's function (argument and value returned), and how much of each
external stream was consumed. -/
structure Strat (n : ℕ) where
  kind : CovKind
  p : Params n
  sol : Sol n
  es : Es n
  nevals : ℕ
  niter : ℕ
  initialElitist : Bool
  negate : Bool
  crit : List (ℤ × Bool)
  calls : List (Vec n × FVal)
  nz : ℕ
  nzuh : ℕ
  nu : ℕ
  nrnd : ℕ
  npf : ℕ

/-- `EigenMultivariateNormal` as constructed. -/
def Es.empty {n : ℕ} : Es n := ⟨fun _ => 0, 0, fun _ => 0, none⟩

/-- Codes of the criteria in `std::map` order (src/cmastopcriteria.cc,
include/libcmaes/cmastopcriteria.h:33-48). -/
def critCodes : List ℤ := [-15, -13, 1, 2, 3, 4, 5, 6, 7, 8, 9, 10]

/-- `set_criteria_active` (src/cmastopcriteria.cc:282-289): an unknown code changes nothing. -/
def setCriteriaActive (crit : List (ℤ × Bool)) (c : ℤ) (b : Bool) : List (ℤ × Bool) :=
  crit.map fun q => if q.1 = c then (q.1, b) else q

/-- All criteria active (src/cmastopcriteria.cc:66-252). -/
def critDefault : List (ℤ × Bool) := critCodes.map fun c => (c, true)

namespace Strat
variable {n : ℕ}

/-- Constructor from parameters (src/esostrategy.cc:42-59, src/cmastrategy.cc:100-121).  For the VD
variant `CMASolutions` seeds the shared generator and draws one column; `CMAStrategy` seeds it again. -/
noncomputable def new (env : Env n) (kind : CovKind) (p : Params n) : Out (Strat n) := do
  let (p', sol) ← Sol.make p (env.rnd 0) (env.z 0)
  pure { kind := kind, p := p', sol := sol, es := Es.empty, nevals := 0, niter := 0
         initialElitist := false, negate := p.maximize
         crit := p.stoppingCrit.foldl (fun c q => setCriteriaActive c q.1 q.2) critDefault
         calls := [], nz := 0, nzuh := 0, nu := 0, nrnd := 1, npf := 0 }

/-- `start_from_solution` and the constructor from a solution (include/libcmaes/esostrategy.h:154-159,
src/esostrategy.cc:61-75, src/cmastrategy.cc:123-138): `_maximize` and `_stoppingcrit` are not looked
at. -/
def newFromSolution (kind : CovKind) (p : Params n) (sol : Sol n) : Strat n :=
  { kind := kind
    p := { p with x0min := sol.bestCandidate.x, x0max := sol.bestCandidate.x }
    sol := sol.reset, es := Es.empty, nevals := 0, niter := 0
    initialElitist := false, negate := false, crit := critDefault
    calls := [], nz := 0, nzuh := 0, nu := 0, nrnd := 0, npf := 0 }

/-- A call `_func(x,dim)`, through the negation set up for maximization (src/esostrategy.cc:46-50). -/
noncomputable def callF (env : Env n) (s : Strat n) (x : Vec n) : FVal × Strat n :=
  let v := env.f s.calls.length x
  (if s.negate then v.neg else v, { s with calls := s.calls ++ [(x, v)] })

/-- `update_fevals` (src/esostrategy.cc:158-163). -/
def updateFevals (s : Strat n) (k : ℕ) : Strat n :=
  { s with nevals := s.nevals + k, sol := { s.sol with nevals := s.sol.nevals + k } }

/-- `inc_iter` (src/esostrategy.cc:151-156). -/
def incIter (s : Strat n) : Strat n :=
  { s with niter := s.niter + 1, sol := { s.sol with niter := s.sol.niter + 1 } }

/-- Execution order of a loop of `m` iterations, parallel if `_mt_feval`. -/
def order (env : Env n) (s : Strat n) (m : ℕ) : List ℕ :=
  if s.p.mtFeval then (env.sched s.calls.length m).1 else List.range m

/-- Finite part of an objective value; the numerical gradient is only modelled for finite values. -/
noncomputable def finite : FVal → Out ℝ
  | .num a => open Classical in if a = ⊤ ∨ a = ⊥ then .error .notReal else .ok a.toReal
  | .nan => .error .notReal

/-- Step of the numerical differentiation (src/esostrategy.cc:171, 189). -/
noncomputable def gradEps (x : Vec n) : Vec n := fun i => 1e-8 * (1 + |x i|)

/-- One iteration of the loop of `gradf` (src/esostrategy.cc:174-182). -/
noncomputable def gradStep (env : Env n) (x : Vec n) (fx : ℝ) (s : Strat n × Vec n) (i : ℕ) :
    Out (Strat n × Vec n) :=
  if h : i < n then do
    let ub ← s.1.p.gp.uBound i
    let e := Function.update x ⟨i, h⟩ (min (x ⟨i, h⟩ + gradEps x ⟨i, h⟩) ub)
    let (v, s1) := s.1.callF env e
    let fv ← finite v
    pure (s1, Function.update s.2 ⟨i, h⟩ ((fv - fx) / gradEps x ⟨i, h⟩))
  else .error .ub

/-- `gradf` (src/esostrategy.cc:165-184). -/
noncomputable def gradf (env : Env n) (s : Strat n) (x : Vec n) : Out (Strat n × Vec n) :=
  match env.gfunc with
  | some g => .ok (s, g s.calls.length x)
  | none => do
    let (v, s1) := s.callF env x
    let fx ← finite v
    let (s2, g) ← (s1.order env n).foldlM (gradStep env x fx) (s1, fun _ => 0)
    pure (s2.updateFevals (n + 1), g)

/-- `gradgp` (src/esostrategy.cc:186-191). -/
noncomputable def gradgp (s : Strat n) (x : Vec n) : Out (Vec n) := do
  let a ← phenoV s.p.gp (x + gradEps x)
  let b ← phenoV s.p.gp (x - gradEps x)
  pure fun i => (a i - b i) / (2 * gradEps x i)

/-- First part of `ask`: eigendecomposition or transform (src/cmastrategy.cc:153-176). -/
noncomputable def askPrepare (env : Env n) (s : Strat n) : Out (Strat n) :=
  open Classical in
  if !s.p.sep && !s.p.vd then
    if s.niter = 0 ∨ s.p.lazyUpdate = false ∨
        (((s.niter : ℤ) - s.sol.eigeniter : ℤ) : ℝ) > s.p.lazyValue then
      if s.sol.hasCov = false then .error .ub else
      let e := env.eig.solve s.sol.cov
      .ok { s with
        es := { s.es with
          mean := s.sol.xmean
          eig := some e
          transform := e.2 * diagonal fun i => Real.sqrt (max (e.1 i) 0) }
        sol := { s.sol with eigeniter := s.niter, updatedEigen := true } }
    else .ok { s with sol := { s.sol with updatedEigen := false } }
  else if s.sol.hasSep = false then .error .ub
  else if s.p.sep then
    if ∀ i, 0 ≤ s.sol.sepcov i then
      .ok { s with es := { s.es with
        mean := s.sol.xmean
        sepTransform := fun i => Real.sqrt (s.sol.sepcov i) } }
    else .error .notReal
  else .ok { s with es := { s.es with mean := s.sol.xmean } }

/-- Second part of `ask`: `lambda` columns of normal numbers transformed
(src/cmastrategy.cc:182-200, include/libcmaes/eigenmvn.h:144-162). -/
noncomputable def askSample (env : Env n) (s : Strat n) : Out (List (Vec n) × Strat n) :=
  let zs := (List.range s.p.lambda).map fun j => env.z (s.nz + j)
  let s' := { s with nz := s.nz + s.p.lambda }
  if !s.p.sep && !s.p.vd then
    if s.es.eig.isNone then .error .ub else
    .ok (zs.map fun z => s.sol.sigma • s.es.transform.mulVec z + s.es.mean, s')
  else if s.p.sep then
    .ok (zs.map fun z => s.sol.sigma • z * s.es.sepTransform + s.es.mean, s')
  else if s.sol.hasV = false then .error .ub
  else
    let normv := sqNorm s.sol.v
    if normv = 0 then .error .notReal else
    let fact := Real.sqrt (1 + normv) - 1
    let vbar : Vec n := fun k => s.sol.v k / Real.sqrt normv
    .ok (zs.map fun z =>
      s.sol.xmean + s.sol.sigma • (s.sol.sepcov * (z + (fact * (vbar ⬝ᵥ z)) • vbar)), s')

/-- Third part of `ask`: injection of a gradient step in column 0 (src/cmastrategy.cc:202-221). -/
noncomputable def askGradient (env : Env n) (s : Strat n) (pop : List (Vec n)) :
    Out (List (Vec n) × Strat n) :=
  open Classical in
  if s.p.withGradient = false then .ok (pop, s) else do
  let ph ← phenoV s.p.gp s.sol.xmean
  let (s1, g) ← s.gradf env ph
  let gg ← s1.gradgp s.sol.xmean
  let grad : Vec n := g * gg
  if grad = 0 then pure (pop, s1) else
  if pop = [] then .error .ub else
  if !s.p.sep && !s.p.vd then
    match s.es.eig with
    | none => .error .ub
    | some e =>
      if ∀ i, 0 ≤ e.1 i then
        let q := (e.2 * diagonal (fun i => Real.sqrt (e.1 i)) * e.2ᵀ).mulVec grad
        if sqNorm q = 0 then .error .notReal else
        let nx : Vec n := s.sol.xmean - (s.sol.sigma * Real.sqrt (n / sqNorm q)) • s.sol.cov.mulVec grad
        pure (pop.set 0 nx, s1)
      else .error .notReal
  else
    if ∀ i, 0 ≤ s.sol.sepcov i then
      let q := vnorm fun i => Real.sqrt (s.sol.sepcov i) * grad i
      if q = 0 then .error .notReal else
      let nx : Vec n := s.sol.xmean - (s.sol.sigma * (Real.sqrt n / q)) • (s.sol.sepcov * grad)
      pure (pop.set 0 nx, s1)
    else .error .notReal

/-- `mean_shift_norm` (src/cmastrategy.cc:227-230). -/
noncomputable def meanShiftNorm (s : Strat n) (shift : Vec n) : Out ℝ :=
  open Classical in
  if !s.p.sep && !s.p.vd then
    match s.es.eig with
    | none => .error .ub
    | some e =>
      if ∀ i, 0 < e.1 i then
        .ok (vnorm (fun i => 1 / Real.sqrt (e.1 i) * e.2ᵀ.mulVec shift i) / s.sol.sigma)
      else .error .notReal
  else if ∀ i, 0 < s.sol.sepcov i then
    .ok (vnorm (fun i => 1 / Real.sqrt (s.sol.sepcov i) * shift i) / s.sol.sigma)
  else .error .notReal

/-- Fourth part of `ask`: the two points of the two-point adaptation (src/cmastrategy.cc:223-247).  A
zero mean shift gives NaN coordinates. -/
noncomputable def askTpa (env : Env n) (s : Strat n) (pop : List (Vec n)) :
    Out (List (Vec n) × Strat n) :=
  open Classical in
  if s.p.tpa = 2 ∧ s.niter > 0 then do
    if s.sol.sigma = 0 then .error .notReal else
    let shift : Vec n := s.sol.xmean - s.sol.xmeanPrev
    let nrm ← s.meanShiftNorm shift
    if nrm = 0 then .error .notReal else
    let zz : Vec n := (vnorm (env.z s.nz)) • fun i => shift i / nrm
    let p1 := if s.p.withGradient then 1 else s.sol.tpaP1
    let p2 := if s.p.withGradient then 2 else s.sol.tpaP2
    if pop.length ≤ p1 ∨ pop.length ≤ p2 then .error .ub else
    pure ((pop.set p1 (s.sol.xmean + zz)).set p2 (s.sol.xmean - zz),
      { s with
        nz := s.nz + 1
        sol := { s.sol with tpaX1 := s.sol.xmean + zz, tpaX2 := s.sol.xmean - zz
                            tpaP1 := p1, tpaP2 := p2 } })
  else .ok (pop, s)

/-- `ask` (src/cmastrategy.cc:146-270).  The population is the list of its columns. -/
noncomputable def ask (env : Env n) (s : Strat n) : Out (List (Vec n) × Strat n) := do
  let s1 ← s.askPrepare env
  let (pop1, s2) ← s1.askSample env
  let (pop2, s3) ← s2.askGradient env pop1
  let (pop3, s4) ← s3.askTpa env pop2
  let pop4 ← pop3.mapM (setFixed s.p.fixedP)
  pure (pop4, s4)

/-- One iteration of the evaluation loop (src/esostrategy.cc:91-100). -/
noncomputable def evalOne (env : Env n) (cols phen : List (Vec n)) (s : Strat n) (r : ℕ) :
    Out (Strat n) := do
  let x ← idx cols r
  let _ ← at! s.sol.cands r
  let y ← (if phen.isEmpty then .ok x else idx phen r)
  let (v, s1) := s.callF env y
  pure { s1 with sol := { s1.sol with cands := s1.sol.cands.set r ⟨v, x, r⟩ } }

/-- Number of candidates to re-evaluate (src/esostrategy.cc:339-348). -/
noncomputable def lambdaReevOf (p : Params n) (u : ℝ) : ℕ :=
  let rl := p.rlambda * p.lambda
  let k := if u < rl - ⌊rl⌋ then ⌊rl⌋ + 1 else ⌊rl⌋
  if k = 0 then 1 else k.toNat

/-- One iteration of `eval_candidates_uh` (src/esostrategy.cc:364-373). -/
noncomputable def reevalOne (env : Env n) (lreev : ℕ) (uhcols : List (Vec n))
    (s : Strat n × List RankedCand × ℕ) (r : ℕ) : Out (Strat n × List RankedCand × ℕ) := do
  let c ← at! s.1.sol.cands r
  if r < lreev then do
    let x ← idx uhcols r
    let (v, s1) := s.1.callF env x
    pure (s1, s.2.1 ++ [⟨c.fvalue, v, r, 0, 0, 0⟩], s.2.2 + 1)
  else pure (s.1, s.2.1 ++ [⟨c.fvalue, c.fvalue, r, 0, 0, 0⟩], s.2.2)

/-- `perform_uh` with `select_candidates_uh`, `eval_candidates_uh`, `set_candidates_uh`
(src/esostrategy.cc:325-380).  The returned number is `nfcalls`.  Taking more columns than there are
is undefined behaviour. -/
noncomputable def performUh (env : Env n) (s : Strat n) (cols phen : List (Vec n)) (nf : ℕ) :
    Out (Strat n × ℕ) := do
  let lreev := lambdaReevOf s.p (env.u s.nu)
  let base := if phen.isEmpty then cols else phen
  if base.length < lreev then .error .ub else
  let uhcols := (base.take lreev).zipIdx.map fun q =>
    q.1 + (1e-7 * s.sol.sigma) • env.zuh (s.nzuh + q.2)
  let s1 := { s with nu := s.nu + 1, nzuh := s.nzuh + lreev, sol := { s.sol with lambdaReev := lreev } }
  let (s2, l, nf') ← (List.range cols.length).foldlM (reevalOne env lreev uhcols) (s1, [], nf)
  pure ({ s2 with sol := { s2.sol with candsUh := l } }, nf')

/-- The elitism condition (src/esostrategy.cc:110). -/
def elitismOn (s : Strat n) : Bool :=
  decide (s.niter > 0) &&
    (s.p.elitist || s.p.initialElitist || (s.initialElitist && s.p.initialElitistOnRestart))

/-- The reference candidate (src/esostrategy.cc:116-125); `none` is a default constructed
`Candidate`. -/
def elitistRef (s : Strat n) : Option (Cand n) :=
  if s.p.initialElitistOnRestart || s.p.initialElitist then s.sol.initialCand
  else if s.p.elitist then s.sol.bestSeen
  else none

/-- Its `get_fvalue()`: NaN for a default constructed `Candidate` (include/libcmaes/candidate.h:146). -/
def elitistRefValue (s : Strat n) : FVal :=
  match s.elitistRef with
  | some c => c.fvalue
  | none => .nan

/-- Number of candidates better than the reference (src/esostrategy.cc:126-131). -/
noncomputable def improvers (s : Strat n) (ncols : ℕ) : ℕ :=
  ((s.sol.cands.take ncols).filter fun c => decide (FVal.lt c.fvalue s.elitistRefValue)).length

/-- Reinjection (src/esostrategy.cc:109-141).  Injecting a default constructed candidate (empty `_x`)
is counted as undefined behaviour here; in the code it occurs when `update` reads its coordinates. -/
noncomputable def reinject (s : Strat n) (ncols : ℕ) : Out (Strat n) :=
  if s.elitismOn then
    if s.sol.cands.length < ncols then .error .outOfRange else
    if s.improvers ncols < ncols / 2 then
      match s.elitistRef with
      | none => .error .ub
      | some c => if s.sol.cands.length ≤ 1 then .error .outOfRange
        else .ok { s with sol := { s.sol with cands := s.sol.cands.set 1 c } }
    else .ok s
  else .ok s

/-- `eval` (src/esostrategy.cc:82-149). -/
noncomputable def eval (env : Env n) (s : Strat n) (cols phen : List (Vec n)) : Out (Strat n) := do
  let s1 ← (s.order env cols.length).foldlM (evalOne env cols phen) s
  let (s2, nf) ← (if s1.p.uh then s1.performUh env cols phen cols.length else pure (s1, cols.length))
  let s3 ← s2.reinject cols.length
  pure (s3.updateFevals nf)

end Strat

/-- `std::sort`. -/
noncomputable def unstableSort {α : Type} (u : USort α) (lt : α → α → Prop) (l : List α) : Out (List α) :=
  open Classical in
  if StrictWeakOn lt l then .ok (u.sort lt l) else .error .ub

/-- `std::nth_element` followed by reading the element at position `k`. -/
noncomputable def nthElement (l : List ℝ) (k : ℕ) : Out ℝ :=
  open Classical in idx (l.mergeSort fun a b => decide (a ≤ b)) k

/-- `sgn` (src/esostrategy.cc:36-38). -/
def sgn (a : ℤ) : ℤ := (if 0 < a then 1 else 0) - (if a < 0 then 1 else 0)

/-- The last comparison of `uncertainty_handling` (src/esostrategy.cc:294-311), literally: `s2` is
computed from `c2._r2` twice. -/
def uhLess (lreev : ℕ) (meandelta : ℝ) (c1 c2 : RankedCand) : Prop :=
  let s1 := c1.r1 + c1.r2
  let s2 := c2.r2 + c2.r2
  if s1 = s2 then
    if c1.delta = c2.delta then FVal.lt (FVal.add c1.fvalue c1.fvalueMut) (FVal.add c2.fvalue c2.fvalueMut)
    else (if c1.idx < lreev then |(c1.delta : ℝ)| else meandelta)
       < (if c2.idx < lreev then |(c2.delta : ℝ)| else meandelta)
  else c1.r1 + c1.r2 < c2.r1 + c2.r2

/-- One term `comp` of the uncertainty level (src/esostrategy.cc:268-275, 277-283). -/
noncomputable def uhComp (lambda : ℕ) (d : ℤ) : Out ℝ :=
  nthElement ((List.range (2 * lambda - 1)).map fun j : ℕ => |((j : ℝ) + 1) - d|)
    ⌊((2 * lambda - 1 : ℕ) : ℝ) * (0.2 * 0.5)⌋.toNat

/-- Contribution of one re-evaluated candidate (src/esostrategy.cc:263-284). -/
noncomputable def uhTerm (lambda lreev : ℕ) (c : RankedCand) : Out ℝ :=
  if lreev ≤ c.idx then .ok 0 else do
    let a ← uhComp lambda (c.r2 - (if c.r2 > c.r1 then 1 else 0))
    let b ← uhComp lambda (c.r1 - (if c.r1 > c.r2 then 1 else 0))
    pure (2 * |(c.delta : ℝ)| - a - b)

namespace Strat
variable {n : ℕ}

/-- `uncertainty_handling` (src/esostrategy.cc:211-323). -/
noncomputable def uncertaintyHandling (env : Env n) (s : Strat n) : Out (Strat n) := do
  let l1 ← unstableSort env.usort (fun a b => FVal.lt a.fvalue b.fvalue) s.sol.candsUh
  let l1r := l1.zipIdx.map fun q => { q.1 with r1 := q.2 }
  let l2 ← unstableSort env.usort (fun a b => FVal.lt a.fvalueMut b.fvalueMut) l1r
  let l2r := l2.zipIdx.map fun q => { q.1 with r2 := q.2 }
  let lreev := s.sol.lambdaReev
  let l3 := l2r.map fun c =>
    if lreev ≤ c.idx then c
    else
      let d : ℤ := (c.r2 : ℤ) - c.r1
      { c with delta := d - sgn d }
  if lreev = 0 then .error .notReal else
  let meandelta : ℝ := (l3.map fun c => |(c.delta : ℝ)|).sum / lreev
  let terms ← l3.mapM (uhTerm s.p.lambda lreev)
  let suh := terms.sum / lreev
  let l4 ← unstableSort env.usort (uhLess lreev meandelta) l3
  let cs ← l4.mapM fun c => at! s.sol.cands c.idx
  pure { s with sol := { s.sol with candsUh := l4, suh := suh, cands := cs } }

/-- Position of the first candidate with the given id, `-1` if none (src/esostrategy.cc:386-401). -/
def posOfId (cs : List (Cand n)) (id : ℤ) : ℤ :=
  match cs.findIdx? (fun c => c.id = id) with
  | some i => i
  | none => -1

/-- `tpa_update` (src/esostrategy.cc:382-405). -/
noncomputable def tpaUpdate (s : Strat n) : Out (Strat n) :=
  open Classical in
  if s.p.lambda = 1 then .error .notReal else
  let d : ℤ := posOfId s.sol.cands s.sol.tpaP2 - posOfId s.sol.cands s.sol.tpaP1
  .ok { s with sol := { s.sol with
    tpaS := (1 - 0.3) * s.sol.tpaS + 0.3 * d / ((s.p.lambda : ℝ) - 1) } }

/-- Last part of `tell`: step-size increase under uncertainty and `update_eigenv`
(src/cmastrategy.cc:298-307, src/cmasolutions.cc:196-203).  For the diagonal models the eigenvectors
are a column of ones; `1` stands for it, the criteria do not read it. -/
noncomputable def tellFinish (s : Strat n) : Out (Strat n) :=
  let sigma := if s.p.uh = true ∧ s.sol.suh > 0 then s.sol.sigma * s.p.alphathuh else s.sol.sigma
  if n = 0 then .error .ub else
  if !s.p.sep && !s.p.vd then
    match s.es.eig with
    | none => .error .ub
    | some e => .ok { s with sol := { s.sol with
        sigma := sigma, maxEigenv := maxCoeff e.1, minEigenv := minCoeff e.1
        leigenvalues := e.1, leigenvectors := e.2, hasLeig := true } }
  else .ok { s with sol := { s.sol with
    sigma := sigma, maxEigenv := maxCoeff s.sol.sepcov, minEigenv := minCoeff s.sol.sepcov
    leigenvalues := s.sol.sepcov, leigenvectors := 1, hasLeig := true } }

/-- The ranking step of `tell` (src/cmastrategy.cc:283-286). -/
noncomputable def rank (env : Env n) (s : Strat n) : Out (Strat n) :=
  if s.p.uh then s.uncertaintyHandling env
  else do
    let sol ← s.sol.sortCandidates
    pure { s with sol := sol }

/-- `tell` (src/cmastrategy.cc:273-312). -/
noncomputable def tell (env : Env n) (s : Strat n) : Out (Strat n) := do
  let s1 ← s.rank env
  let s2 ← (if s1.p.tpa = 2 ∧ s1.niter > 0 then s1.tpaUpdate else pure s1)
  let sol3 ← s2.sol.updateBest
  let sol4 ← covarianceUpdate env.eig s2.kind s2.p s2.es sol3
  tellFinish { s2 with sol := sol4 }

/-- `pheno` of a population (src/cmastrategy.cc:356).  By `C07_pheno_matrix` the matrix form is the
vector form on each column, for every schedule. -/
noncomputable def phenoCols (s : Strat n) (pop : List (Vec n)) : Out (List (Vec n)) :=
  pop.mapM (phenoV s.p.gp)

/-- One turn of the loop of `optimize` (src/cmastrategy.cc:355-358): ask, eval, tell, inc_iter.  Also
the loop a user writes by hand. -/
noncomputable def generation (env : Env n) (s : Strat n) : Out (Strat n) := do
  let (pop, s1) ← s.ask env
  let phen ← s1.phenoCols pop
  let s2 ← s1.eval env pop phen
  let s3 ← s2.tell env
  pure s3.incIter

/-- Any number of turns. -/
noncomputable def generations (env : Env n) (s : Strat n) : ℕ → Out (Strat n)
  | 0 => .ok s
  | k + 1 => do
    let s1 ← s.generation env
    generations env s1 k

/-- The initial candidate of `optimize` (src/cmastrategy.cc:341-350). -/
noncomputable def evalInitial (env : Env n) (s : Strat n) : Out (Strat n) :=
  if s.initialElitist || s.p.initialElitist || s.p.elitist || s.p.initialFvalue then do
    let y ← phenoV s.p.gp s.sol.xmean
    let (v, s1) := s.callF env y
    let c : Cand n := ⟨v, s.sol.xmean, -1⟩
    pure ({ s1 with sol := { s1.sol with initialCand := some c, bestSeen := some c } }.updateFevals 1)
  else .ok s

end Strat

end Libcmaes
