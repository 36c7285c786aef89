import Verif.Model.Params
import Mathlib.Data.Matrix.Basic
import Mathlib.Data.Matrix.Mul
import Mathlib.Data.List.Sort
import Mathlib.Order.Interval.Finset.Nat

/-!
# Model of include/libcmaes/candidate.h, include/libcmaes/cmasolutions.h, src/cmasolutions.cc

Counters (`_niter`, `_nevals`, ...) are C++ `int`s; here they are unbounded naturals, so runs of more
than 2^31 evaluations are outside the model.
-/

namespace Libcmaes

/-- Square matrices (`dMat` of `_dim` rows and columns). -/
abbrev Mat (n : ℕ) := Matrix (Fin n) (Fin n) ℝ

namespace FVal

/-- IEEE addition: NaN propagates, opposite infinities give NaN. -/
noncomputable def add : FVal → FVal → FVal
  | num a, num b => if (a = ⊤ ∧ b = ⊥) ∨ (a = ⊥ ∧ b = ⊤) then nan else num (a + b)
  | _, _ => nan

/-- IEEE subtraction. -/
noncomputable def sub (a b : FVal) : FVal := add a (neg b)

/-- `fabs`. -/
noncomputable def abs : FVal → FVal
  | num a => num (max a (-a))
  | nan => nan

/-- `std::min(a,b)`: `b < a ? b : a`. -/
noncomputable def stdMin (a b : FVal) : FVal := if lt b a then b else a

/-- `std::max(a,b)`: `a < b ? b : a`. -/
noncomputable def stdMax (a b : FVal) : FVal := if lt a b then b else a

/-- A finite `double`. -/
noncomputable def ofReal (a : ℝ) : FVal := num (a : EReal)

/-- Division by 2.0 (src/cmasolutions.cc:108, src/cmastopcriteria.cc:60). -/
noncomputable def half : FVal → FVal
  | num a => num (a * (2⁻¹ : ℝ))
  | nan => nan

end FVal

/-- `Candidate` (include/libcmaes/candidate.h:33-149). The member `_r` is never read and left out. -/
structure Cand (n : ℕ) where
  fvalue : FVal
  x : Vec n
  id : ℤ

/-- `Candidate()` (include/libcmaes/candidate.h:39-40).  Its `_x` is empty; in the vector of candidates
it stands for an element not evaluated yet, and the zero vector is written for its `_x`. -/
def Cand.blank {n : ℕ} : Cand n := ⟨.nan, fun _ => 0, -1⟩

/-- `RankedCandidate` (include/libcmaes/candidate.h:150-165); its base `_x` is empty. -/
structure RankedCand where
  fvalue : FVal
  fvalueMut : FVal
  idx : ℕ
  r1 : ℕ
  r2 : ℕ
  delta : ℤ

/-- `CMASolutions` (include/libcmaes/cmasolutions.h:487-544).  Left out: timings, `_pls`
(src/errstats.cc; see `Model/ErrStats`).  A default-constructed `Candidate` member (`get_x_size() == 0`) is `none`;
`_best_seen_iter`, which has no initialiser, is `none` until first written.  Eigen members may be
empty: `hasCov`, `hasSep`, `hasCsq`, `hasV`, `hasLeig` say that `_cov`, `_sepcov`, `_csqinv`, `_v`,
`_leigenvalues` are not, and
`pathsOk` that `_psigma` and `_pc` have `_dim` rows (see `reset`). -/
structure Sol (n : ℕ) where
  hasCov : Bool
  hasSep : Bool
  hasCsq : Bool
  hasV : Bool
  hasLeig : Bool
  pathsOk : Bool
  cov : Mat n
  csqinv : Mat n
  sepcov : Vec n
  sepcsqinv : Vec n
  xmean : Vec n
  psigma : Vec n
  pc : Vec n
  hsig : Bool
  sigma : ℝ
  cands : List (Cand n)
  bestHist : List (Cand n)
  maxHist : ℤ
  maxEigenv : ℝ
  minEigenv : ℝ
  leigenvalues : Vec n
  leigenvectors : Mat n
  niter : ℕ
  nevals : ℕ
  kcand : ℕ
  kBestHist : List (Cand n)
  bfvalues : List FVal
  medianFvalues : List FVal
  eigeniter : ℕ
  updatedEigen : Bool
  runStatus : ℤ
  edm : ℝ
  bestSeen : Option (Cand n)
  bestSeenIter : Option ℕ
  worstSeen : Option (Cand n)
  initialCand : Option (Cand n)
  v : Vec n
  candsUh : List RankedCand
  lambdaReev : ℕ
  suh : ℝ
  tpaS : ℝ
  tpaP1 : ℕ
  tpaP2 : ℕ
  tpaX1 : Vec n
  tpaX2 : Vec n
  xmeanPrev : Vec n

/-- Writing the fixed parameters into a vector (src/cmasolutions.cc:56-64, and per column
src/cmastrategy.cc:249-257).  The keys of `_fixed_p` are distinct, so the iteration order of the
unordered map does not matter.  An index outside the vector is undefined behaviour. -/
def setFixed {n : ℕ} (fp : List (ℕ × ℝ)) (x : Vec n) : Out (Vec n) :=
  fp.foldlM (fun y q => if h : q.1 < n then .ok (Function.update y ⟨q.1, h⟩ q.2) else .error .ub) x

/-- A `List` seen as a vector of dimension `n`; any other size is undefined behaviour in Eigen. -/
def toVec (n : ℕ) (l : List ℝ) : Out (Vec n) :=
  if h : l.length = n then .ok (fun i => l[i.val]) else .error .ub

/-- `GenoPheno::pheno(const dVec&)` on vectors of dimension `n` (include/libcmaes/genopheno.h:190). -/
noncomputable def phenoV {n : ℕ} (g : GenoPheno) (x : Vec n) : Out (Vec n) := do
  let y ← g.pheno (List.ofFn x)
  toVec n y

/-- `_scalingstrategy.scale_to_internal` when `!_scalingstrategy._id` (src/cmasolutions.cc:66-67). -/
noncomputable def scaleToInternalV {n : ℕ} (g : GenoPheno) (x : Vec n) : Out (Vec n) :=
  match g.scale with
  | .noScaling => .ok x
  | .lin s => if s.id then .ok x else do
    let y ← s.toInternal (List.ofFn x)
    toVec n y

/-- The initial mean (src/cmasolutions.cc:45-67).  `rnd` is the result of `dVec::Random`, each entry in
`[-1,1]`. -/
noncomputable def initialMean {n : ℕ} (p : Params n) (rnd : Vec n) : Out (Vec n) := do
  let m : Vec n :=
    if p.x0min = p.x0max then
      if p.x0min = fun _ => -dblMax then fun i => rnd i * 4 else p.x0min
    else fun i => 0.5 * (rnd i + 1) * (p.x0max i - p.x0min i) + p.x0min i
  let m1 ← setFixed p.fixedP m
  scaleToInternalV p.gp m1

/-- `_kcand` (src/cmasolutions.cc:75). -/
noncomputable def kcandOf (lambda : ℕ) : ℕ :=
  min (lambda - 1) (1 + ⌈(0.1 : ℝ) + lambda / 4⌉).toNat

/-- `_max_hist` (src/cmasolutions.cc:76); `30*dim/lambda` is an `int` division, its `ceil` a no-op. -/
def maxHistOf (maxHist : ℤ) (n lambda : ℕ) : ℤ :=
  if maxHist > 0 then maxHist else 10 + (30 * n / lambda : ℕ)

/-- `CMASolutions(Parameters&)` (src/cmasolutions.cc:30-84).  `z0` is the normal draw used by the VD
variant.  Allocation failure is not modelled.  The constructor also writes `_sigma_init` of the
parameters (line 70).  `lambda = 0` would divide by zero on line 76. -/
noncomputable def Sol.make {n : ℕ} (p : Params n) (rnd z0 : Vec n) : Out (Params n × Sol n) := do
  let m ← initialMean p rnd
  if p.lambda = 0 ∨ n = 0 then .error .ub else
  let full := !p.sep && !p.vd
  let sigma := if p.sigmaInit > 0 then p.sigmaInit else 1 / (n : ℝ)
  pure ({ p with sigmaInit := sigma },
    { hasCov := full, hasSep := !full, hasCsq := false, hasV := p.vd, hasLeig := false, pathsOk := true, cov := 1, csqinv := 0, sepcov := fun _ => 1, sepcsqinv := fun _ => 0
      xmean := m, psigma := fun _ => 0, pc := fun _ => 0, hsig := true, sigma := sigma
      cands := List.replicate p.lambda Cand.blank, bestHist := []
      maxHist := maxHistOf p.maxHist n p.lambda
      maxEigenv := 0, minEigenv := 0, leigenvalues := fun _ => 0, leigenvectors := 0
      niter := 0, nevals := 0, kcand := kcandOf p.lambda, kBestHist := [], bfvalues := []
      medianFvalues := [], eigeniter := 0, updatedEigen := true, runStatus := 0, edm := 0
      bestSeen := none, bestSeenIter := none, worstSeen := none, initialCand := none
      v := if p.vd then fun i => z0 i / Real.sqrt n else fun _ => 0
      candsUh := [], lambdaReev := 0, suh := 0, tpaS := 0, tpaP1 := 0, tpaP2 := 1
      tpaX1 := fun _ => 0, tpaX2 := fun _ => 0, xmeanPrev := fun _ => 0 })

/-- The comparison `lt` is a strict weak order on the elements of `l`: what `std::sort` and
`std::stable_sort` require; otherwise the call is undefined behaviour. -/
def StrictWeakOn {α : Type} (lt : α → α → Prop) (l : List α) : Prop :=
  (∀ a ∈ l, ¬ lt a a) ∧
  (∀ a ∈ l, ∀ b ∈ l, ∀ c ∈ l, lt a b → lt b c → lt a c) ∧
  (∀ a ∈ l, ∀ b ∈ l, ∀ c ∈ l, ¬ lt a b → ¬ lt b a → ¬ lt b c → ¬ lt c b → ¬ lt a c ∧ ¬ lt c a)

open Classical in
/-- `std::stable_sort` with comparison `lt`. -/
noncomputable def stableSort {α : Type} (lt : α → α → Prop) (l : List α) : Out (List α) :=
  if StrictWeakOn lt l then .ok (l.mergeSort fun a b => decide (¬ lt b a)) else .error .ub

/-- The comparison of `sort_candidates` (include/libcmaes/cmasolutions.h:79). -/
def candLt {n : ℕ} (a b : Cand n) : Prop := FVal.lt a.fvalue b.fvalue

namespace Sol
variable {n : ℕ}

/-- `sort_candidates` (include/libcmaes/cmasolutions.h:76-80). -/
noncomputable def sortCandidates (s : Sol n) : Out (Sol n) := do
  let c ← stableSort candLt s.cands
  pure { s with cands := c }

/-- `best_candidate()` (include/libcmaes/cmasolutions.h:103-112). -/
def bestCandidate (s : Sol n) : Cand n :=
  match s.bestHist.getLast? with
  | some c => c
  | none => match s.initialCand with
    | some c => c
    | none => ⟨.nan, s.xmean, -1⟩

/-- `push_back` followed by `erase(begin())` when larger than `m`
(src/cmasolutions.cc:92-98, 100-102). -/
def pushBounded {α : Type} (m : ℕ) (l : List α) (a : α) : List α :=
  if (l ++ [a]).length > m then (l ++ [a]).tail else l ++ [a]

/-- Median of the sorted candidates (src/cmasolutions.cc:104-109); `operator[]` is unchecked. -/
noncomputable def medianOf (l : List FVal) : Out FVal :=
  if l.length = 0 then .error .ub
  else if l.length % 2 = 0 then do
    let a ← idx l (l.length / 2 - 1)
    let b ← idx l (l.length / 2)
    pure (FVal.half (FVal.add a b))
  else idx l (l.length / 2)

/-- The bound on the length of `_median_fvalues` (src/cmasolutions.cc:111). -/
noncomputable def medianBound (niter n csize : ℕ) : ℕ :=
  ⌈(0.2 : ℝ) * niter + 120 + 30 * n / csize⌉.toNat

/-- `update_best_candidates` (src/cmasolutions.cc:90-126). -/
noncomputable def updateBest (s : Sol n) : Out (Sol n) := do
  let c0 ← at! s.cands 0
  let ck ← at! s.cands s.kcand
  let full : Bool := decide (((s.bestHist ++ [c0]).length : ℤ) > s.maxHist)
  let bestHist := if full then (s.bestHist ++ [c0]).tail else s.bestHist ++ [c0]
  let kBestHist := if full then (s.kBestHist ++ [ck]).tail else s.kBestHist ++ [ck]
  let bfvalues := pushBounded 20 s.bfvalues c0.fvalue
  let med ← medianOf (s.cands.map (·.fvalue))
  let medians := pushBounded (medianBound s.niter n s.cands.length) s.medianFvalues med
  let seenNew : Bool := decide (s.niter = 0) && s.bestSeen.isNone ||
    (match s.bestSeen with
      | some b => decide (FVal.lt c0.fvalue b.fvalue)
      | none => false)
  let cl ← at! s.cands (s.cands.length - 1)
  let worstNew : Bool := decide (s.niter = 0) && s.worstSeen.isNone ||
    (match s.worstSeen with
      | some b => decide (FVal.lt b.fvalue cl.fvalue)
      | none => false)
  pure { s with
    bestHist := bestHist
    kBestHist := kBestHist
    bfvalues := bfvalues
    medianFvalues := medians
    bestSeen := if seenNew then some c0 else s.bestSeen
    bestSeenIter := if seenNew then some s.niter else s.bestSeenIter
    worstSeen := if worstNew then some cl else s.worstSeen }

/-- `reset()` (src/cmasolutions.cc:205-227).  `_cov` becomes the identity of the size of `_csqinv`,
and `_psigma`, `_pc` zero vectors of that size: all three are empty if no full covariance update took
place. -/
def reset (s : Sol n) : Sol n :=
  { s with
    bestHist := [], hasCov := s.hasCsq, pathsOk := s.hasCsq, cov := 1, niter := 0, nevals := 0
    psigma := fun _ => 0, pc := fun _ => 0, kBestHist := [], bfvalues := [], medianFvalues := []
    runStatus := 0 }

end Sol

end Libcmaes
