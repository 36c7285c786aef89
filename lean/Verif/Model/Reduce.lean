import Verif.Model.Strategy
import Verif.Model.EoMatrix

/-!
# Model of `reset_as_fixed`, of `CMASolutions` and of `CMAParameters`

The index is one of the coordinates.  (For an index past the end `removeElement` does nothing, whereas `removeRow` and
`removeColumn` drop the last row and column.)
-/

namespace Libcmaes

variable {n : ℕ}

/-- `removeColumn` of a matrix as a list of rows (include/libcmaes/eo_matrix.h:45-54).  There is no guard: an index past
the end still drops the last column.  A matrix with no column makes `cols()-1` wrap around, recorded as `Err.ub`. -/
def removeColumn {α : Type} (cols : ℕ) (m : List (List α)) (k : ℕ) : Out (List (List α)) :=
  if cols = 0 then .error .ub
  else if k < cols - 1 then .ok (m.map fun r => r.take k ++ r.drop (k + 1))
  else .ok (m.map fun r => r.take (cols - 1))

/-- `removeElement` on a vector of dimension `n + 1` (include/libcmaes/eo_matrix.h:56-62); `removeElement_ofFn`. -/
def dropVec (k : Fin (n + 1)) (x : Vec (n + 1)) : Vec n := fun i => x (k.succAbove i)

/-- `removeRow`, then `removeColumn` (include/libcmaes/eo_matrix.h:34-54); `removeRowColumn_rows`. -/
def dropMat (k : Fin (n + 1)) (c : Mat (n + 1)) : Mat n := fun i j => c (k.succAbove i) (k.succAbove j)

/-- `removeElement(candidate.get_x_dvec_ref(),k)` (src/cmasolutions.cc:238-239). -/
def Cand.drop (k : Fin (n + 1)) (c : Cand (n + 1)) : Cand n := ⟨c.fvalue, dropVec k c.x, c.id⟩

/-- The solution object after `reset_as_fixed`.  `bestSeen`, `worstSeen`, `initialCand` are the members of that name:
their points keep the old dimension.  The members `bestSeen`, `worstSeen`, `initialCand` of `sol` stand for their values
only; the vectors of `sol` that `reset_as_fixed` does not touch (`sepcov`, `sepcsqinv`, `v`, those of the two-point
adaptation, `xmeanPrev`) have the old dimension too, and what `sol` has for them is not to be looked at. -/
structure ResetSol (n : ℕ) where
  sol : Sol n
  bestSeen : Option (Cand (n + 1))
  worstSeen : Option (Cand (n + 1))
  initialCand : Option (Cand (n + 1))

/-- `CMASolutions::reset_as_fixed` (src/cmasolutions.cc:229-254).  An empty matrix `_cov`, `_csqinv` or `_leigenvectors`
makes `removeRow` and `removeColumn` wrap around. -/
def Sol.resetAsFixed (k : Fin (n + 1)) (s : Sol (n + 1)) : Out (ResetSol n) :=
  if s.hasCov = false ∨ s.hasCsq = false ∨ s.hasLeig = false then .error .ub
  else .ok
    { sol :=
        { hasCov := s.hasCov, hasSep := s.hasSep, hasCsq := s.hasCsq, hasV := s.hasV, hasLeig := s.hasLeig
          pathsOk := s.pathsOk
          cov := dropMat k s.cov, csqinv := dropMat k s.csqinv
          sepcov := dropVec k s.sepcov, sepcsqinv := dropVec k s.sepcsqinv
          xmean := dropVec k s.xmean, psigma := dropVec k s.psigma, pc := dropVec k s.pc
          hsig := s.hsig, sigma := s.sigma
          cands := s.cands.map (Cand.drop k), bestHist := [], maxHist := s.maxHist
          maxEigenv := s.maxEigenv, minEigenv := s.minEigenv
          leigenvalues := dropVec k s.leigenvalues, leigenvectors := dropMat k s.leigenvectors
          niter := 0, nevals := 0, kcand := s.kcand, kBestHist := [], bfvalues := [], medianFvalues := []
          eigeniter := s.eigeniter, updatedEigen := s.updatedEigen, runStatus := 0, edm := s.edm
          bestSeen := s.bestSeen.map (Cand.drop k), bestSeenIter := s.bestSeenIter
          worstSeen := s.worstSeen.map (Cand.drop k), initialCand := s.initialCand.map (Cand.drop k)
          v := dropVec k s.v, candsUh := s.candsUh, lambdaReev := s.lambdaReev, suh := s.suh
          tpaS := s.tpaS, tpaP1 := s.tpaP1, tpaP2 := s.tpaP2
          tpaX1 := dropVec k s.tpaX1, tpaX2 := dropVec k s.tpaX2, xmeanPrev := dropVec k s.xmeanPrev }
      bestSeen := s.bestSeen, worstSeen := s.worstSeen, initialCand := s.initialCand }

/-- `CMAParameters::reset_as_fixed` (src/cmaparameters.cc:143-148), and the number of entries that `_weights` has afterwards:
`removeElement` is called on it as well.  It has `mu` entries before (src/cmaparameters.cc:77). -/
def Params.resetAsFixed (k : Fin (n + 1)) (p : Params (n + 1)) : Params n × ℕ :=
  ({ lambda := p.lambda, maxIter := p.maxIter, maxFevals := p.maxFevals
     x0min := dropVec k p.x0min, x0max := dropVec k p.x0max
     ftarget := p.ftarget, ftolerance := p.ftolerance, xtol := p.xtol, seed := p.seed, algo := p.algo
     withGradient := p.withGradient, withEdm := p.withEdm, fixedP := p.fixedP, gp := p.gp, mtFeval := p.mtFeval
     maxHist := p.maxHist, maximize := p.maximize, initialFvalue := p.initialFvalue, uh := p.uh
     rlambda := p.rlambda, alphathuh := p.alphathuh, tpa := p.tpa, mu := p.mu
     weights := if k.val < p.mu then fun i => if i < k.val then p.weights i else p.weights (i + 1) else p.weights
     csigma := p.csigma, c1 := p.c1, cmu := p.cmu, cc := p.cc, muw := p.muw, dsigma := p.dsigma
     factPs := p.factPs, factPc := p.factPc, chi := p.chi, sigmaInit := p.sigmaInit, nrestarts := p.nrestarts
     lazyUpdate := p.lazyUpdate, lazyValue := p.lazyValue, sep := p.sep, vd := p.vd
     elitist := p.elitist, initialElitist := p.initialElitist
     initialElitistOnRestart := p.initialElitistOnRestart, stoppingCrit := p.stoppingCrit },
   if k.val < p.mu then p.mu - 1 else p.mu)

/-- One turn of the loop of `optimize` (src/cmastrategy.cc:355-358) with parameters whose vector of weights has `nw` entries:
`tell` reads `_weights[i]` for all `i < mu` (src/covarianceupdate.cc:34-36). -/
noncomputable def Strat.generationW (nw : ℕ) (env : Env n) (s : Strat n) : Out (Strat n) := do
  let (pop, s1) ← s.ask env
  let phen ← s1.phenoCols pop
  let s2 ← s1.eval env pop phen
  let s3 ← (if nw < s2.p.mu then .error .ub else s2.tell env)
  pure s3.incIter

end Libcmaes
