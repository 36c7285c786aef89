import Verif.Model.Restart

/-!
# Model of src/surrogatestrategy.cc and include/libcmaes/surrogatestrategy.h

The template argument `TStrategy` is `CMAStrategy`; a search is a sequence of turns of the loop of
`CMAStrategy::optimize` (src/cmastrategy.cc:353-362) with the functions of the surrogate strategy in
the places of `ask`, `eval` and `tell`.  Over `IPOPCMAStrategy` such sequences are separated by
`restart`; when they end is not modelled here, and `BIPOPCMAStrategy` is not combined with surrogates.

The training and prediction functions given by the user (`set_ftrain`, `set_fpredict`) are arbitrary;
`M` is whatever they keep between calls.  An error measure is `none` when the code computes a value that
is not a real number.
-/

namespace Libcmaes

/-- A candidate with its member `_r` (include/libcmaes/candidate.h:124-148). -/
abbrev RCand (n : ℕ) := Cand n × ℤ

/-- What a surrogate strategy takes from outside, besides `Env`. -/
structure SurrFuncs (n : ℕ) (M : Type) where
  /-- `_train`: called on the training set; may look at the solutions object -/
  train : M → List (Cand n) → Sol n → Out M
  /-- `_predict`: called on the list to be predicted; may look at the training set and the solutions
  object -/
  predict : M → List (Cand n) → Sol n → List (Cand n) → Out (List (Cand n))
  usort : USort (Cand n)
  usortR : USort (RCand n)
  /-- standard normal numbers of `_gen0` and `_gen1` -/
  z0 : ℕ → ℝ
  z1 : ℕ → ℝ

/-- `SurrogateStrategy` with the members of `SimpleSurrogateStrategy` (`terr`, `nmax`) and
`ACMSurrogateStrategy` (from `lambdaprime` on) (include/libcmaes/surrogatestrategy.h:196-206, 276-277,
418-430).  `dev0` and `dev1` are the standard deviations inside `_norm_sel0` and `_norm_sel1`; `n0` and
`n1` count the numbers drawn. -/
structure Surr (n : ℕ) (M : Type) where
  s : Strat n
  m : M
  exploit : Bool
  l : ℤ
  tset : List (Cand n)
  trainErr : Option ℝ
  testErr : Option ℝ
  smooth : Option ℝ
  nsteps : ℤ
  autoNsteps : Bool
  terr : ℝ
  nmax : ℤ
  lambdaprime : ℤ
  prelambda : ℤ
  theta0 : ℝ
  theta1 : ℝ
  dev0 : ℝ
  dev1 : ℝ
  n0 : ℕ
  n1 : ℕ

/-- Number of pairs, the first before the second, that fail `>=`
(src/surrogatestrategy.cc:90-95). -/
noncomputable def disorder {n : ℕ} : List (Cand n) → ℕ
  | [] => 0
  | c :: r => (r.filter fun d => decide (¬ FVal.le d.fvalue c.fvalue)).length + disorder r

namespace Surr
variable {n : ℕ} {M : Type}

/-- Constructor of `SurrogateStrategy` (src/surrogatestrategy.cc:34-62); the members of the derived
classes have their initialisers.  The progress function it installs is part of `Env`. -/
noncomputable def new (env : Env n) (kind : CovKind) (p : Params n) (m : M) : Out (Surr n M) := do
  let s ← Strat.new env kind p
  pure { s := s, m := m, exploit := true, l := ⌊30 * Real.sqrt n⌋, tset := []
         trainErr := some 0, testErr := some 0, smooth := some 0.5, nsteps := 1, autoNsteps := false
         terr := 0.45, nmax := 20, lambdaprime := 0, prelambda := 500, theta0 := 0.4, theta1 := 0.8
         dev0 := 0, dev1 := 0, n0 := 0, n1 := 0 }

/-- `_stopcriteria.set_criteria_active`. -/
def setCrit (t : Surr n M) (c : ℤ) (b : Bool) : Surr n M :=
  { t with s := { t.s with crit := setCriteriaActive t.s.crit c b } }

/-- Constructor of `SimpleSurrogateStrategy` (src/surrogatestrategy.cc:109-120). -/
noncomputable def newSimple (env : Env n) (kind : CovKind) (p : Params n) (m : M) : Out (Surr n M) := do
  let t ← new env kind p m
  pure ((t.setCrit 6 false).setCrit 7 false)

/-- Constructor of `ACMSurrogateStrategy` with `init_rd` (src/surrogatestrategy.cc:201-222). -/
noncomputable def newAcm (env : Env n) (kind : CovKind) (p : Params n) (m : M) : Out (Surr n M) := do
  let t ← new env kind p m
  pure { t.setCrit 6 false with
    lambdaprime := ⌊(t.s.p.lambda : ℝ) / 3⌋, prelambda := 50 * t.s.p.lambda
    dev0 := t.theta0 * t.theta0, dev1 := t.theta1 * t.theta1 }

/-- `set_l`, `set_exploit`, `set_nsteps`, `set_lambdaprime`, `set_prelambda`, `set_theta_sel0`,
`set_theta_sel1` (include/libcmaes/surrogatestrategy.h:118, 130, 172-177, 373, 385, 397, 409). -/
def setL (t : Surr n M) (l : ℤ) : Surr n M := { t with l := l }

@[inherit_doc setL] def setExploit (t : Surr n M) (b : Bool) : Surr n M := { t with exploit := b }

@[inherit_doc setL] def setNsteps (t : Surr n M) (k : ℤ) : Surr n M :=
  { t with nsteps := k, autoNsteps := t.autoNsteps || decide (k < 0) }

@[inherit_doc setL] def setLambdaprime (t : Surr n M) (k : ℤ) : Surr n M := { t with lambdaprime := k }

@[inherit_doc setL] def setPrelambda (t : Surr n M) (k : ℤ) : Surr n M := { t with prelambda := k }

@[inherit_doc setL] def setTheta0 (t : Surr n M) (v : ℝ) : Surr n M := { t with theta0 := v }

@[inherit_doc setL] def setTheta1 (t : Surr n M) (v : ℝ) : Surr n M := { t with theta1 := v }

/-- `add_to_training_set` (src/surrogatestrategy.cc:70-75). -/
def add (t : Surr n M) (c : Cand n) : Surr n M :=
  let ts := t.tset ++ [c]
  { t with tset := if (ts.length : ℤ) > t.l then ts.tail else ts }

/-- `(int)_tset.size() >= _l`. -/
def full (t : Surr n M) : Bool := decide ((t.tset.length : ℤ) ≥ t.l)

/-- `compute_error` (src/surrogatestrategy.cc:78-98).  With fewer than two points the factor is
infinite or its product with the count is NaN. -/
noncomputable def computeError (sf : SurrFuncs n M) (t : Surr n M) (test : List (Cand n)) :
    Out (Option ℝ) := do
  let ctest ← unstableSort sf.usort (fun a b => FVal.lt b.fvalue a.fvalue) test
  let q ← sf.predict t.m t.tset t.s.sol ctest
  let k : ℝ := test.length
  pure (if test.length ≤ 1 then none else some (disorder q * (2 / (k * (k - 1)))))

/-- `set_test_error` (src/surrogatestrategy.cc:101-105), with `_beta_err` at its only value 0.2. -/
noncomputable def setTestError (t : Surr n M) (e : Option ℝ) : Surr n M :=
  { t with
    testErr := e
    smooth := match t.smooth, e with
      | some a, some b => some ((1 - 0.2) * a + 0.2 * b)
      | _, _ => none }

/-- `reset_training_set` (include/libcmaes/surrogatestrategy.h:182-187). -/
noncomputable def resetTrainingSet (t : Surr n M) : Surr n M :=
  { t with tset := [], trainErr := some 0, testErr := some 0, smooth := some 0.5 }

/-! ## SimpleSurrogateStrategy -/

/-- The condition for using the true objective (src/surrogatestrategy.cc:131). -/
def trueEval (t : Surr n M) : Out Bool :=
  if !t.exploit then .ok true
  else if t.nsteps = 0 then .error .ub
  else .ok (decide (Int.tmod t.s.niter t.nsteps = 0) || !t.full)

/-- `compute_lifelength` (src/surrogatestrategy.cc:193-197).  Converting a NaN or an infinity to `int`
is undefined behaviour, as is adding 1 to the greatest `int`. -/
noncomputable def lifelength (t : Surr n M) : Out ℤ :=
  match t.smooth with
  | none => .error .ub
  | some e =>
    if t.terr = 0 then .error .ub else do
    let k ← castInt (⌊(t.terr - e) / t.terr * t.nmax⌋ : ℤ)
    if max 1 k = 2147483647 then .error .ub else pure (max 1 k + 1)

/-- One iteration of the exploitation loop (src/surrogatestrategy.cc:159-167). -/
noncomputable def exploitOne (sf : SurrFuncs n M) (t : Surr n M) (q : Vec n × ℕ) : Out (Surr n M) := do
  let c ← at! t.s.sol.cands q.2
  let sol := { t.s.sol with cands := t.s.sol.cands.set q.2 { c with x := q.1 } }
  let cs ← sf.predict t.m t.tset sol sol.cands
  pure { t with s := { t.s with sol := { sol with cands := cs } } }

/-- The test of the model before a true evaluation (src/surrogatestrategy.cc:137-146). -/
noncomputable def simpleTest (sf : SurrFuncs n M) (t : Surr n M) : Out (Surr n M) :=
  if t.s.niter ≠ 0 ∧ t.full = true then do
    let e ← t.computeError sf t.s.sol.cands
    let t1 := t.setTestError e
    if t1.autoNsteps then do
      let k ← t1.lifelength
      pure { t1 with nsteps := k }
    else pure t1
  else .ok t

/-- Evaluation with the true objective; all candidates are added to the training set
(src/surrogatestrategy.cc:149-151, 268-270). -/
noncomputable def evalAndCollect (env : Env n) (t : Surr n M) (cols phen : List (Vec n)) :
    Out (Surr n M) := do
  let s ← t.s.eval env cols phen
  pure (s.sol.cands.foldl add { t with s := s })

/-- `SimpleSurrogateStrategy::eval` (src/surrogatestrategy.cc:128-169). -/
noncomputable def simpleEval (env : Env n) (sf : SurrFuncs n M) (t : Surr n M) (cols phen : List (Vec n)) :
    Out (Surr n M) := do
  let b ← t.trueEval
  if b then do
    let t1 ← (t.setCrit 10 true).simpleTest sf
    t1.evalAndCollect env cols phen
  else cols.zipIdx.foldlM (exploitOne sf) (t.setCrit 10 false)

/-- `do_train` (include/libcmaes/surrogatestrategy.h:268-273). -/
def simpleDoTrain (t : Surr n M) : Out Bool :=
  if !t.exploit && t.full then .ok true
  else if t.s.niter = 0 then .ok t.full
  else if t.nsteps = 0 then .error .ub
  else .ok (decide (Int.tmod t.s.niter t.nsteps = 0) && t.full)

/-- `SimpleSurrogateStrategy::tell` (src/surrogatestrategy.cc:172-182). -/
noncomputable def simpleTell (env : Env n) (sf : SurrFuncs n M) (t : Surr n M) : Out (Surr n M) := do
  let s ← t.s.tell env
  let t1 := { t with s := s }
  let b ← t1.simpleDoTrain
  if b then do
    let m ← sf.train t1.m t1.tset t1.s.sol
    pure { t1 with m := m }
  else pure t1

/-- One turn of the loop of `optimize` (src/surrogatestrategy.cc:185-190,
src/cmastrategy.cc:355-358). -/
noncomputable def simpleGeneration (env : Env n) (sf : SurrFuncs n M) (t : Surr n M) :
    Out (Surr n M) := do
  let (pop, s1) ← t.s.ask env
  let phen ← s1.phenoCols pop
  let t2 ← simpleEval env sf { t with s := s1 } pop phen
  let t3 ← t2.simpleTell env sf
  pure { t3 with s := t3.s.incIter }

/-- Any number of turns. -/
noncomputable def simpleGenerations (env : Env n) (sf : SurrFuncs n M) (t : Surr n M) : ℕ → Out (Surr n M)
  | 0 => .ok t
  | k + 1 => do
    let t1 ← t.simpleGeneration env sf
    simpleGenerations env sf t1 k

/-! ## ACMSurrogateStrategy -/

/-- `ACMSurrogateStrategy::ask` (src/surrogatestrategy.cc:225-244).  A negative number of columns is
undefined behaviour. -/
noncomputable def acmAsk (env : Env n) (t : Surr n M) : Out (List (Vec n) × Surr n M) :=
  let t1 : Surr n M := if t.s.niter = 0 then
      { t with prelambda := if t.tset.isEmpty then t.prelambda else 50 * t.s.p.lambda }.resetTrainingSet
    else t
  if t1.exploit && t1.full then
    if t1.prelambda < 0 then .error .ub else do
    let (pop, s) ← ({ t1.s with p := { t1.s.p with lambda := t1.prelambda.toNat } }).ask env
    pure (pop, { t1 with s := { s with p := { s.p with lambda := t1.s.p.lambda } } })
  else do
    let (pop, s) ← t1.s.ask env
    pure (pop, { t1 with s := s })

/-- The two loops that draw numbers until `target` distinct indices below `size` are found
(src/surrogatestrategy.cc:347-357, 370-385): `acc` are the indices found, `k` the numbers drawn so far,
`draw` the index made from the `k`-th number.  `fuel` bounds the number of draws; `none`: not finished
yet.  A negative index makes `vector::at` throw. -/
def drawDistinct (draw : ℕ → Out ℤ) (size : ℕ) (target : ℤ) : ℕ → ℕ → List ℕ → Out (Option (List ℕ × ℕ))
  | fuel, k, acc =>
    if target ≤ acc.length then .ok (some (acc, k)) else
    match fuel with
    | 0 => .ok none
    | fuel + 1 => do
      let a ← draw k
      if a < 0 then .error .outOfRange
      else if a < size ∧ a.toNat ∉ acc then drawDistinct draw size target fuel (k + 1) (acc ++ [a.toNat])
      else drawDistinct draw size target fuel (k + 1) acc

/-- True evaluation of pre-selected candidate `i` (src/surrogatestrategy.cc:363-366, 377-382): the
population and the test set are the accumulators. -/
noncomputable def acmEvalOne (env : Env n) (q : Surr n M × List (RCand n) × List (Cand n)) (i : ℕ) :
    Out (Surr n M × List (RCand n) × List (Cand n)) := do
  let c ← at! q.2.1 i
  let y ← phenoV q.1.s.p.gp c.1.x
  let (v, s1) := q.1.s.callF env y
  let d : Cand n := { c.1 with fvalue := v }
  pure (({ q.1 with s := s1.updateFevals 1 } : Surr n M).add d, q.2.1.set i (d, c.2), q.2.2 ++ [d])

/-- The last comparison (src/surrogatestrategy.cc:390-397). -/
def acmLess (a b : RCand n) : Prop :=
  FVal.lt a.1.fvalue b.1.fvalue ∨ (FVal.eq a.1.fvalue b.1.fvalue ∧ a.2 < b.2)

/-- First part of `pre_selection_eval` (src/surrogatestrategy.cc:320-362): all candidates are ranked by
the model, `lambda` of them retained, and sorted by predicted value.  The solutions object keeps the
ranked candidates. -/
noncomputable def preSelect (sf : SurrFuncs n M) (fuel : ℕ) (t : Surr n M) (cols : List (Vec n)) :
    Out (Option (List (RCand n) × Surr n M)) := do
  let cs : List (Cand n) := cols.map fun x => ⟨FVal.ofReal 0, x, -1⟩
  let pr ← sf.predict t.m t.tset { t.s.sol with cands := cs } cs
  let sorted ← stableSort candLt pr
  let c0 ← at! sorted 0
  match ← drawDistinct (fun k => castInt (⌊(t.prelambda : ℝ) * |t.dev0 * sf.z0 k|⌋ : ℤ)) sorted.length
      t.s.p.lambda fuel t.n0 [0] with
  | none => pure none
  | some (is, k) => do
    let rest ← is.tail.mapM fun i => do
      let c ← at! sorted i
      pure ((c, (i : ℤ)) : RCand n)
    let nc ← unstableSort sf.usortR (fun a b => FVal.lt a.1.fvalue b.1.fvalue) ((c0, 0) :: rest)
    pure (some (nc, { t with n0 := k, s := { t.s with sol := { t.s.sol with cands := sorted } } }))

/-- Second part of `pre_selection_eval` (src/surrogatestrategy.cc:363-405).  The indices drawn do not
depend on the evaluations, so they are drawn first here. -/
noncomputable def evalSelected (env : Env n) (sf : SurrFuncs n M) (fuel : ℕ) (t : Surr n M)
    (nc : List (RCand n)) : Out (Option (Surr n M)) := do
  match ← drawDistinct (fun k => castInt (⌊(t.s.p.lambda : ℝ) * |t.dev1 * sf.z1 k|⌋ : ℤ)) nc.length
      t.lambdaprime fuel t.n1 [0] with
  | none => pure none
  | some (js, k) => do
    let (t1, nc1, test) ← js.foldlM (acmEvalOne env) ({ t with n1 := k }, nc, [])
    let nc2 := nc1.zipIdx.map fun q =>
      if q.2 ∈ js then q.1 else ({ q.1.1 with fvalue := FVal.ofReal dblMax }, q.1.2)
    let nc3 ← unstableSort sf.usortR acmLess nc2
    let e ← t1.computeError sf test
    let t2 := t1.setTestError e
    pure (some { t2 with s := { t2.s with sol := { t2.s.sol with cands := nc3.map Prod.fst } } })

/-- `ACMSurrogateStrategy::eval` (src/surrogatestrategy.cc:247-272). -/
noncomputable def acmEval (env : Env n) (sf : SurrFuncs n M) (fuel : ℕ) (t : Surr n M)
    (cols phen : List (Vec n)) : Out (Option (Surr n M)) :=
  if t.exploit && t.full then do
    match ← t.preSelect sf fuel cols with
    | none => pure none
    | some (nc, t1) => t1.evalSelected env sf fuel nc
  else do
    let t1 ← (if t.s.niter ≠ 0 ∧ t.full = true then do
        let e ← t.computeError sf t.s.sol.cands
        pure (t.setTestError e)
      else .ok t)
    let t2 ← t1.evalAndCollect env cols phen
    pure (some t2)

/-- `update_eigenv` as called by the ACM strategy (src/surrogatestrategy.cc:287-291,
src/cmasolutions.cc:196-203); see `Strat.tellFinish`. -/
noncomputable def acmEigenv (s : Strat n) : Out (Strat n) :=
  if n = 0 then .error .ub else
  if !s.p.sep && !s.p.vd then
    match s.es.eig with
    | none => .error .ub
    | some e => .ok { s with sol := { s.sol with
        maxEigenv := maxCoeff e.1, minEigenv := minCoeff e.1
        leigenvalues := e.1, leigenvectors := e.2, hasLeig := true } }
  else .ok { s with sol := { s.sol with
    maxEigenv := maxCoeff s.sol.sepcov, minEigenv := minCoeff s.sol.sepcov
    leigenvalues := s.sol.sepcov, leigenvectors := 1, hasLeig := true } }

/-- `do_train` (include/libcmaes/surrogatestrategy.h:356-363). -/
def acmDoTrain (t : Surr n M) : Out Bool :=
  if t.full then .ok true
  else if t.s.niter = 0 then .ok false
  else if t.nsteps = 0 then .error .ub
  else .ok false

/-- `ACMSurrogateStrategy::tell` (src/surrogatestrategy.cc:275-307). -/
noncomputable def acmTell (env : Env n) (sf : SurrFuncs n M) (t : Surr n M) : Out (Surr n M) := do
  let sol1 ← (if !t.exploit || !t.full then t.s.sol.sortCandidates else pure t.s.sol)
  let sol2 ← sol1.updateBest
  let sol3 ← covarianceUpdate env.eig t.s.kind t.s.p t.s.es sol2
  let s4 ← acmEigenv { t.s with sol := sol3 }
  let t1 := { t with s := s4 }
  let b ← t1.acmDoTrain
  if b then do
    let m ← sf.train t1.m t1.tset t1.s.sol
    let t2 := { t1 with m := m }
    let e ← t2.computeError sf t2.tset
    pure { t2 with trainErr := e }
  else pure t1

/-- One turn of the loop of `optimize` (src/surrogatestrategy.cc:310-315, src/cmastrategy.cc:355-358);
`none`: the draws of the pre-selection have not ended after `fuel` numbers. -/
noncomputable def acmGeneration (env : Env n) (sf : SurrFuncs n M) (fuel : ℕ) (t : Surr n M) :
    Out (Option (Surr n M)) := do
  let (pop, t1) ← t.acmAsk env
  let phen ← t1.s.phenoCols pop
  match ← t1.acmEval env sf fuel pop phen with
  | none => pure none
  | some t2 => do
    let t3 ← t2.acmTell env sf
    pure (some { t3 with s := t3.s.incIter })

/-- Any number of turns. -/
noncomputable def acmGenerations (env : Env n) (sf : SurrFuncs n M) (fuel : ℕ) (t : Surr n M) :
    ℕ → Out (Option (Surr n M))
  | 0 => .ok (some t)
  | k + 1 => do
    match ← t.acmGeneration env sf fuel with
    | none => pure none
    | some t1 => acmGenerations env sf fuel t1 k

/-! ## Restarts -/

/-- What happens between two runs when `TStrategy` is `IPOPCMAStrategy` (src/ipopcmastrategy.cc:72-73, 88-100): the
surrogate classes do not override these functions, and their own members stay as they are. -/
noncomputable def restart (env : Env n) (t : Surr n M) : Out (Surr n M) := do
  let s1 ← t.s.lambdaInc
  let s2 ← s1.resetSearchState env
  pure { t with s := s2 }

end Surr

end Libcmaes
