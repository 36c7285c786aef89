import Verif.Model.Solutions
import Verif.Model.Dispatch
import Mathlib.Data.Matrix.Diagonal
import Mathlib.LinearAlgebra.Matrix.Symmetric
import Mathlib.Analysis.SpecialFunctions.Pow.Real

/-!
# Model of src/covarianceupdate.cc, src/acovarianceupdate.cc, src/vdcmaupdate.cc and
# include/libcmaes/eigenmvn.h

A division by zero or the square root of a negative number gives `Err.notReal`.
-/

namespace Libcmaes

open Finset Matrix

/-- `Eigen::SelfAdjointEigenSolver`: any function that is correct on symmetric matrices.  The result
is (eigenvalues, matrix whose columns are the eigenvectors). -/
structure EigSolver (n : ℕ) where
  solve : Mat n → Vec n × Mat n
  orth : ∀ C : Mat n, C.IsSymm → (solve C).2 * (solve C).2ᵀ = 1
  decomp : ∀ C : Mat n, C.IsSymm → (solve C).2 * diagonal (solve C).1 * (solve C).2ᵀ = C

/-- `EigenMultivariateNormal` (include/libcmaes/eigenmvn.h:74-164), the part of its state used here.
`eig = none`: no decomposition computed yet. -/
structure Es (n : ℕ) where
  mean : Vec n
  transform : Mat n
  sepTransform : Vec n
  eig : Option (Vec n × Mat n)

/-- `squaredNorm()`. -/
def sqNorm {n : ℕ} (x : Vec n) : ℝ := ∑ i, x i * x i

/-- `norm()`. -/
noncomputable def vnorm {n : ℕ} (x : Vec n) : ℝ := Real.sqrt (sqNorm x)

/-- `_candidates.at(i).get_x_dvec()`; used for `i < _candidates.size()` only. -/
def candX {n : ℕ} (cs : List (Cand n)) (i : ℕ) : Vec n := (cs.getD i Cand.blank).x

/-- `xmean = Σ_{i<mu} w_i x_{i:lambda}` (src/covarianceupdate.cc:34-36, src/vdcmaupdate.cc:42-44). -/
noncomputable def recombine {n : ℕ} (p : Params n) (cs : List (Cand n)) : Vec n :=
  fun k => ∑ i ∈ range p.mu, p.weights i * candX cs i k

/-- `operatorInverseSqrt()` of Eigen, used at src/covarianceupdate.cc:41 and
src/acovarianceupdate.cc:43. -/
noncomputable def inverseSqrt {n : ℕ} (e : Vec n × Mat n) : Out (Mat n) :=
  open Classical in
  if ∀ i, 0 < e.1 i then .ok (e.2 * diagonal (fun i => 1 / Real.sqrt (e.1 i)) * e.2ᵀ)
  else .error .notReal

/-- `_csqinv` at the time of the `_psigma` update (src/covarianceupdate.cc:40-41,
src/acovarianceupdate.cc:42-43): recomputed if the eigenvalues were updated in `ask`. -/
noncomputable def csqinvOf {n : ℕ} (es : Es n) (s : Sol n) : Out (Mat n) :=
  if s.updatedEigen then
    match es.eig with
    | some e => inverseSqrt e
    | none => .error .ub
  else if s.hasCsq then .ok s.csqinv else .error .ub

/-- `_sepcsqinv` (src/covarianceupdate.cc:43, src/acovarianceupdate.cc:45). -/
noncomputable def sepcsqinvOf {n : ℕ} (s : Sol n) : Out (Vec n) :=
  open Classical in
  if ∀ i, 0 < s.sepcov i then .ok fun i => Real.sqrt (1 / s.sepcov i) else .error .notReal

/-- The threshold for `_hsig` (src/covarianceupdate.cc:55, src/acovarianceupdate.cc:57,
src/vdcmaupdate.cc:58). `_fixed_p.size() > dim` cannot happen with valid indices. -/
noncomputable def hsigBound {n : ℕ} (p : Params n) (niter : ℕ) : Out ℝ :=
  if p.fixedP.length > n then .error .ub
  else if 1 - (1 - p.csigma) ^ (2 * (niter + 1)) < 0 then .error .notReal
  else .ok (Real.sqrt (1 - (1 - p.csigma) ^ (2 * (niter + 1)))
    * (1.4 + 2 / ((n : ℝ) + 1 - p.fixedP.length)) * p.chi)

/-- `_hsig` as a number. -/
def hsigR (b : Bool) : ℝ := if b then 1 else 0

/-- Preconditions shared by the updates: enough candidates (`at(i)` throws), evolution paths of the
right size, and no division by zero. -/
noncomputable def updatePre {n : ℕ} (p : Params n) (s : Sol n) : Out Unit :=
  open Classical in
  if s.cands.length < p.mu then .error .outOfRange
  else if s.pathsOk = false then .error .ub
  else if s.sigma = 0 ∨ p.chi = 0 ∨ p.dsigma = 0 then .error .notReal
  else .ok ()

/-- `diffxmean` (src/covarianceupdate.cc:39, src/acovarianceupdate.cc:41 with `_cm = 1`,
src/vdcmaupdate.cc:47). -/
noncomputable def diffMean {n : ℕ} (s : Sol n) (xm : Vec n) : Vec n :=
  fun k => 1 / s.sigma * (xm k - s.xmean k)

/-- The sigma update (src/covarianceupdate.cc:85-88, src/vdcmaupdate.cc:117-120); `std::min` with
`_deltamaxsigma = DBL_MAX` in src/acovarianceupdate.cc:115 is a no-op on real numbers below
`DBL_MAX`. -/
noncomputable def sigmaUpdate {n : ℕ} (p : Params n) (s : Sol n) (normPs : ℝ) : ℝ :=
  if p.tpa < 2 then s.sigma * Real.exp (p.csigma / p.dsigma * (normPs / p.chi - 1))
  else if s.niter > 0 then s.sigma * Real.exp (s.tpaS / p.dsigma)
  else s.sigma

/-- Sum of the weighted outer products of the selected steps, divided by sigma squared
(src/covarianceupdate.cc:65-76, src/acovarianceupdate.cc:67-78). -/
noncomputable def rankMu {n : ℕ} (p : Params n) (s : Sol n) : Mat n :=
  (1 / (s.sigma * s.sigma)) • ∑ i ∈ range p.mu,
    p.weights i • vecMulVec (candX s.cands i - s.xmean) (candX s.cands i - s.xmean)

/-- The same for the diagonal model. -/
noncomputable def rankMuSep {n : ℕ} (p : Params n) (s : Sol n) : Vec n := fun k =>
  1 / (s.sigma * s.sigma) * ∑ i ∈ range p.mu,
    p.weights i * ((candX s.cands i - s.xmean) k * (candX s.cands i - s.xmean) k)

/-- Factor of the old covariance (src/covarianceupdate.cc:77-82). -/
def oldCovFactor {n : ℕ} (p : Params n) (hsig : Bool) : ℝ :=
  1 - p.c1 - p.cmu + (1 - hsigR hsig) * p.c1 * p.cc * (2 - p.cc)

/-- New `_psigma`, full model (src/covarianceupdate.cc:45-48, src/acovarianceupdate.cc:47-50). -/
noncomputable def psNext {n : ℕ} (p : Params n) (s : Sol n) (csq : Mat n) (xm : Vec n) : Vec n :=
  (1 - p.csigma) • s.psigma + p.factPs • csq.mulVec (diffMean s xm)

/-- New `_psigma`, diagonal model (src/covarianceupdate.cc:49-50, src/acovarianceupdate.cc:51-52). -/
noncomputable def psNextSep {n : ℕ} (p : Params n) (s : Sol n) (csq xm : Vec n) : Vec n :=
  (1 - p.csigma) • s.psigma + p.factPs • (csq * diffMean s xm)

/-- New `_hsig` (src/covarianceupdate.cc:54-57, src/acovarianceupdate.cc:56-59). -/
noncomputable def hsigNext {n : ℕ} (ps : Vec n) (hb : ℝ) : Bool :=
  open Classical in decide (vnorm ps < hb)

/-- New `_pc` (src/covarianceupdate.cc:60, src/acovarianceupdate.cc:62). -/
noncomputable def pcNext {n : ℕ} (p : Params n) (s : Sol n) (hsig : Bool) (xm : Vec n) : Vec n :=
  (1 - p.cc) • s.pc + (hsigR hsig * p.factPc) • diffMean s xm

/-- The solution object after `CovarianceUpdate::update` without `_sep`, given the inverse square root
`csq` and the threshold `hb` (src/covarianceupdate.cc:45-93). -/
noncomputable def covNext {n : ℕ} (p : Params n) (s : Sol n) (csq : Mat n) (hb : ℝ) : Sol n :=
  let xm := recombine p s.cands
  let ps := psNext p s csq xm
  let hsig := hsigNext ps hb
  let pc := pcNext p s hsig xm
  { s with
    csqinv := csq, hasCsq := true, psigma := ps, hsig := hsig, pc := pc
    cov := oldCovFactor p hsig • s.cov + p.c1 • vecMulVec pc pc + p.cmu • rankMu p s
    sigma := sigmaUpdate p s (vnorm ps)
    xmeanPrev := if p.tpa ≠ 0 then s.xmean else s.xmeanPrev
    xmean := xm }

/-- `CovarianceUpdate::update` without `_sep` (src/covarianceupdate.cc:28-94). -/
noncomputable def covUpdateFull {n : ℕ} (p : Params n) (es : Es n) (s : Sol n) : Out (Sol n) := do
  updatePre p s
  if s.hasCov = false then .error .ub else do
  let csq ← csqinvOf es s
  let hb ← hsigBound p s.niter
  pure (covNext p s csq hb)

/-- The same for the diagonal model (src/covarianceupdate.cc:45-93). -/
noncomputable def covNextSep {n : ℕ} (p : Params n) (s : Sol n) (csq : Vec n) (hb : ℝ) : Sol n :=
  let xm := recombine p s.cands
  let ps := psNextSep p s csq xm
  let hsig := hsigNext ps hb
  let pc := pcNext p s hsig xm
  { s with
    sepcsqinv := csq, psigma := ps, hsig := hsig, pc := pc
    sepcov := oldCovFactor p hsig • s.sepcov + p.c1 • (pc * pc) + p.cmu • rankMuSep p s
    sigma := sigmaUpdate p s (vnorm ps)
    xmeanPrev := if p.tpa ≠ 0 then s.xmean else s.xmeanPrev
    xmean := xm }

/-- `CovarianceUpdate::update` with `_sep` (src/covarianceupdate.cc:28-94). -/
noncomputable def covUpdateSep {n : ℕ} (p : Params n) (s : Sol n) : Out (Sol n) := do
  updatePre p s
  if s.hasSep = false then .error .ub else do
  let csq ← sepcsqinvOf s
  let hb ← hsigBound p s.niter
  pure (covNextSep p s csq hb)

/-- The mean update of the active variant (src/acovarianceupdate.cc:34-38, `_cm = 1`). -/
noncomputable def recombineActive {n : ℕ} (p : Params n) (s : Sol n) : Vec n :=
  fun k => (∑ i ∈ range p.mu, p.weights i * (candX s.cands i k - s.xmean k)) + s.xmean k

/-- `cmuminus` (src/acovarianceupdate.cc:81-93): the `mu` worst candidates. -/
noncomputable def rankMuMinus {n : ℕ} (p : Params n) (s : Sol n) : Mat n :=
  ∑ i ∈ range p.mu, p.weights i •
    vecMulVec ((1 / s.sigma) • (candX s.cands (p.lambda - i - 1) - s.xmean))
      ((1 / s.sigma) • (candX s.cands (p.lambda - i - 1) - s.xmean))

/-- The same for the diagonal model. -/
noncomputable def rankMuMinusSep {n : ℕ} (p : Params n) (s : Sol n) : Vec n := fun k =>
  ∑ i ∈ range p.mu, p.weights i *
    (((1 / s.sigma) * (candX s.cands (p.lambda - i - 1) k - s.xmean k)) *
     ((1 / s.sigma) * (candX s.cands (p.lambda - i - 1) k - s.xmean k)))

/-- `cminus` from `cminustmp`, the largest eigenvalue (src/acovarianceupdate.cc:107-108).  With
`cminustmp = 0` the first argument of `std::min` is `+inf` (if `cmu < 1`). -/
noncomputable def cminusOf {n : ℕ} (p : Params n) (t : ℝ) : Out ℝ :=
  open Classical in
  let cap := (1 - p.cmu) * 2 / 8 * (p.muw / (((n : ℝ) + 2) ^ (1.5 : ℝ) + 2 * p.muw))
  if t = 0 then (if p.cmu < 1 then .ok cap else .error .notReal)
  else .ok (min ((1 - p.cmu) * (1 - 0.66) / t) cap)

/-- `maxCoeff()`; undefined for an empty vector, `n = 0` is excluded. -/
noncomputable def maxCoeff {n : ℕ} (x : Vec n) : ℝ := ⨆ i, x i

/-- `minCoeff()`. -/
noncomputable def minCoeff {n : ℕ} (x : Vec n) : ℝ := ⨅ i, x i

/-- The solution object after `ACovarianceUpdate::update` without `_sep`, given `_csqinv`, the
threshold and `cminus` (src/acovarianceupdate.cc:47-121). -/
noncomputable def acovNext {n : ℕ} (p : Params n) (s : Sol n) (csq : Mat n) (hb cm : ℝ) : Sol n :=
  let xm := recombineActive p s
  let ps := psNext p s csq xm
  let hsig := hsigNext ps hb
  let pc := pcNext p s hsig xm
  { s with
    csqinv := csq, hasCsq := true, psigma := ps, hsig := hsig, pc := pc
    cov := (1 - p.c1 - p.cmu + cm * 0.5) • s.cov + p.c1 • vecMulVec pc pc
      + (p.cmu + cm * (1 - 0.5)) • rankMu p s - cm • rankMuMinus p s
    sigma := sigmaUpdate p s (vnorm ps)
    xmeanPrev := s.xmean
    xmean := xm }

/-- `ACovarianceUpdate::update` without `_sep` (src/acovarianceupdate.cc:28-122). -/
noncomputable def acovUpdateFull {n : ℕ} (eig : EigSolver n) (p : Params n) (es : Es n) (s : Sol n) :
    Out (Sol n) := do
  updatePre p s
  if s.hasCov = false then .error .ub else
  if s.cands.length < p.lambda ∨ p.lambda < p.mu then .error .outOfRange else do
  let csq ← csqinvOf es s
  let hb ← hsigBound p s.niter
  let cm ← cminusOf p (maxCoeff (eig.solve (csq * rankMuMinus p s * csq)).1)
  pure (acovNext p s csq hb cm)

/-- The same for the diagonal model (src/acovarianceupdate.cc:47-121). -/
noncomputable def acovNextSep {n : ℕ} (p : Params n) (s : Sol n) (csq : Vec n) (hb cm : ℝ) : Sol n :=
  let xm := recombineActive p s
  let ps := psNextSep p s csq xm
  let hsig := hsigNext ps hb
  let pc := pcNext p s hsig xm
  { s with
    sepcsqinv := csq, psigma := ps, hsig := hsig, pc := pc
    sepcov := (1 - p.c1 - p.cmu + cm * 0.5) • s.sepcov + p.c1 • (pc * pc)
      + (p.cmu + cm * (1 - 0.5)) • rankMuSep p s - cm • rankMuMinusSep p s
    sigma := sigmaUpdate p s (vnorm ps)
    xmeanPrev := s.xmean
    xmean := xm }

/-- `ACovarianceUpdate::update` with `_sep` (src/acovarianceupdate.cc:28-122). -/
noncomputable def acovUpdateSep {n : ℕ} (p : Params n) (s : Sol n) : Out (Sol n) := do
  updatePre p s
  if s.hasSep = false then .error .ub else
  if s.cands.length < p.lambda ∨ p.lambda < p.mu then .error .outOfRange else do
  let csq ← sepcsqinvOf s
  let hb ← hsigBound p s.niter
  let cm ← cminusOf p (maxCoeff (csq * (rankMuMinusSep p s * csq)))
  pure (acovNextSep p s csq hb cm)

/-- The intermediate quantities of the natural gradient of the VD model
(src/vdcmaupdate.cc:64-114). -/
structure VdStep (n : ℕ) where
  v : Vec n
  sepcov : Vec n

/-- The normalised steps `y` of the selected candidates (src/vdcmaupdate.cc:79-83). -/
noncomputable def vdY {n : ℕ} (s : Sol n) (i : ℕ) : Vec n :=
  fun k => s.sepcsqinv k * (candX s.cands i k - s.xmean k) / s.sigma

/-- The sum of `pvec` over the selected candidates (src/vdcmaupdate.cc:85-86). -/
noncomputable def vdP {n : ℕ} (p : Params n) (s : Sol n) (normv : ℝ) (vbar : Vec n) : Vec n :=
  fun k => ∑ i ∈ range p.mu,
    (vdY s i k * vdY s i k - normv / (1 + normv) * (vbar k * (vbar ⬝ᵥ vdY s i) * vdY s i k) - 1) * p.weights i

/-- The sum of `qvec` over the selected candidates (src/vdcmaupdate.cc:85-87). -/
noncomputable def vdQ {n : ℕ} (p : Params n) (s : Sol n) (normv : ℝ) (vbar : Vec n) : Vec n :=
  fun k => ∑ i ∈ range p.mu,
    (vdY s i k * (vbar ⬝ᵥ vdY s i) - 0.5 * vbar k * ((vbar ⬝ᵥ vdY s i) * (vbar ⬝ᵥ vdY s i) + (1 + normv)))
      * p.weights i

/-- `pone` for `ym`, the scaled `_pc` (src/vdcmaupdate.cc:89). -/
noncomputable def vdPone {n : ℕ} (normv : ℝ) (vbar ym : Vec n) : Vec n := fun k =>
  ym k * ym k - normv / (1 + normv) * (vbar k * (vbar ⬝ᵥ ym) * ym k) - 1

/-- `qone` (src/vdcmaupdate.cc:90). -/
noncomputable def vdQone {n : ℕ} (normv : ℝ) (vbar ym : Vec n) : Vec n := fun k =>
  ym k * (vbar ⬝ᵥ ym) - 0.5 * vbar k * ((vbar ⬝ᵥ ym) * (vbar ⬝ᵥ ym) + (1 + normv))

/-- `pvec` (src/vdcmaupdate.cc:85-101). -/
noncomputable def vdPvec {n : ℕ} (p : Params n) (s : Sol n) (normv : ℝ) (vbar : Vec n) : Vec n :=
  if s.hsig then p.cmu • vdP p s normv vbar + p.c1 • vdPone normv vbar (s.sepcsqinv * s.pc)
  else p.cmu • vdP p s normv vbar

/-- `qvec` (src/vdcmaupdate.cc:86-101). -/
noncomputable def vdQvec {n : ℕ} (p : Params n) (s : Sol n) (normv : ℝ) (vbar : Vec n) : Vec n :=
  if s.hsig then p.cmu • vdQ p s normv vbar + p.c1 • vdQone normv vbar (s.sepcsqinv * s.pc)
  else p.cmu • vdQ p s normv vbar

/-- `alpha` (src/vdcmaupdate.cc:73-74). -/
noncomputable def vdAlpha {n : ℕ} (normv : ℝ) (vbb : Vec n) : ℝ :=
  min 1 (Real.sqrt (normv * normv + (2 - 1 / Real.sqrt (1 + normv)) * (1 + normv) / maxCoeff vbb) / (2 + normv))

/-- `b` (src/vdcmaupdate.cc:75). -/
noncomputable def vdB (normv alpha : ℝ) : ℝ :=
  -(1 - alpha * alpha) * normv * normv / (1 + normv) + 2 * alpha * alpha

/-- The inverse of `Ainv` (src/vdcmaupdate.cc:76). -/
noncomputable def vdDen {n : ℕ} (normv alpha : ℝ) (vbb : Vec n) : Vec n :=
  fun k => 2 - (vdB normv alpha + 2 * alpha * alpha) * vbb k

/-- `rvec` (src/vdcmaupdate.cc:103-104). -/
noncomputable def vdR {n : ℕ} (normv alpha : ℝ) (vbar pvec qvec : Vec n) : Vec n := fun k =>
  pvec k - alpha / (1 + normv) * ((2 + normv) * (vbar k * qvec k) - normv * (vbar ⬝ᵥ qvec) * (vbar k * vbar k))

/-- `svec` (src/vdcmaupdate.cc:105-107). -/
noncomputable def vdS {n : ℕ} (b : ℝ) (ainv vbb rvec : Vec n) : Vec n := fun k =>
  rvec k * ainv k - b * ((ainv * vbb) ⬝ᵥ rvec) / (1 + b * ((ainv * vbb) ⬝ᵥ vbb)) * (ainv k * vbb k)

/-- `ngv` (src/vdcmaupdate.cc:108-109). -/
noncomputable def vdNgv {n : ℕ} (normv alpha : ℝ) (vbar qvec svec : Vec n) : Vec n := fun k =>
  (qvec k - alpha * ((2 + normv) * (vbar k * svec k) - (svec ⬝ᵥ (vbar * vbar)) * vbar k)) / Real.sqrt normv

/-- The block `if (test)` of `VDCMAUpdate::update` (src/vdcmaupdate.cc:70-114), `s` holding the new
`_pc`, `_hsig` and `_sepcsqinv`. -/
noncomputable def vdGradient {n : ℕ} (p : Params n) (s : Sol n) (normv : ℝ) : Out (VdStep n) :=
  open Classical in
  let vbar : Vec n := fun k => s.v k / Real.sqrt normv
  let vbb : Vec n := vbar * vbar
  let alpha := vdAlpha normv vbb
  let b := vdB normv alpha
  let den := vdDen normv alpha vbb
  let ainv : Vec n := fun k => 1 / den k
  if ∃ k, den k = 0 then .error .notReal
  else if 1 + b * ((ainv * vbb) ⬝ᵥ vbb) = 0 then .error .notReal
  else
    let pvec := vdPvec p s normv vbar
    let qvec := vdQvec p s normv vbar
    let svec := vdS b ainv vbb (vdR normv alpha vbar pvec qvec)
    .ok ⟨s.v + vdNgv normv alpha vbar qvec svec, s.sepcov + s.sepcov * svec⟩

/-- `_sepcsqinv`, `_psigma`, `_hsig` and `_pc` in the VD model (src/vdcmaupdate.cc:47-67). -/
noncomputable def vdPaths {n : ℕ} (p : Params n) (s : Sol n) (hb : ℝ) : Sol n :=
  let diff := diffMean s (recombine p s.cands)
  let csq : Vec n := fun k => 1 / s.sepcov k
  let ps : Vec n := (1 - p.csigma) • s.psigma
    + p.factPs • (fun k => 1 / Real.sqrt (1 + s.v k * s.v k) * csq k * diff k)
  let hsig := hsigNext ps hb
  { s with
    sepcsqinv := csq, psigma := ps, hsig := hsig
    pc := if hsig then (1 - p.cc) • s.pc + p.factPc • diff else (1 - p.cc) • s.pc }

/-- The rest of the VD update, given the natural gradient step (src/vdcmaupdate.cc:110-125). -/
noncomputable def vdNext {n : ℕ} (p : Params n) (s : Sol n) (hb : ℝ) (g : VdStep n) : Sol n :=
  { vdPaths p s hb with
    v := g.v
    sepcov := g.sepcov
    sigma := sigmaUpdate p s (vnorm (vdPaths p s hb).psigma)
    xmeanPrev := if p.tpa ≠ 0 then s.xmean else s.xmeanPrev
    xmean := recombine p s.cands }

/-- `VDCMAUpdate::update` (src/vdcmaupdate.cc:34-126). -/
noncomputable def vdUpdate {n : ℕ} (p : Params n) (s : Sol n) : Out (Sol n) :=
  open Classical in do
  updatePre p s
  if s.hasSep = false ∨ s.hasV = false then .error .ub else
  if ∃ k, s.sepcov k = 0 then .error .notReal else do
  let hb ← hsigBound p s.niter
  let normv := sqNorm s.v
  if normv = 0 then .error .notReal else do
  let s1 := vdPaths p s hb
  let g ← (if p.cmu + p.c1 * hsigR s1.hsig > 0 then vdGradient p s1 normv else pure ⟨s.v, s.sepcov⟩)
  pure (vdNext p s hb g)

/-- `TCovarianceUpdate::update` (src/cmastrategy.cc:296). -/
noncomputable def covarianceUpdate {n : ℕ} (eig : EigSolver n) (k : CovKind) (p : Params n) (es : Es n)
    (s : Sol n) : Out (Sol n) :=
  match k with
  | .plain => if p.sep then covUpdateSep p s else covUpdateFull p es s
  | .active => if p.sep then acovUpdateSep p s else acovUpdateFull eig p es s
  | .vd => vdUpdate p s

end Libcmaes
