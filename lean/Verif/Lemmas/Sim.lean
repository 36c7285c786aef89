import Verif.Lemmas.Eval
import Verif.Lemmas.Tell
import Verif.Lemmas.Run
import Verif.Lemmas.Elitism
import Verif.Lemmas.Init
import Verif.Spec.Invariance
import Mathlib.Tactic.LinearCombination

/-!
# Runs related by a transformation of the search space and of the objective values

`Aff.st` maps a state of a run to the corresponding state of another run, up to members that do not
influence the search (`Rest`).
-/

namespace Libcmaes

open Finset Matrix Spec

variable {n : ℕ}

/-- `x ↦ a x + t` on points, `φ` on objective values; `neg` and `tgt` are the maximisation flag and the target value of the other
run. -/
structure Aff (n : ℕ) where
  a : ℝ
  t : Vec n
  φ : FVal → FVal
  neg : Bool
  tgt : FVal

/-- The members of the other state that are given separately. -/
structure Rest (n : ℕ) where
  med : List FVal
  mean : Vec n
  prev : Vec n
  x1 : Vec n
  x2 : Vec n
  cands : List (Cand n)
  calls : List (Vec n × FVal)

namespace Aff

variable (D : Aff n)

def pt (x : Vec n) : Vec n := fun i => D.a * x i + D.t i

def cand (c : Cand n) : Cand n := ⟨D.φ c.fvalue, D.pt c.x, c.id⟩

def par (p : Params n) : Params n :=
  { p with x0min := D.pt p.x0min, x0max := D.pt p.x0max, sigmaInit := D.a * p.sigmaInit, maximize := D.neg
           ftarget := D.tgt }

def sol (J : Rest n) (s : Sol n) : Sol n :=
  { s with
    xmean := D.pt s.xmean, sigma := D.a * s.sigma, cands := J.cands
    bestHist := s.bestHist.map D.cand, kBestHist := s.kBestHist.map D.cand
    bfvalues := s.bfvalues.map D.φ, medianFvalues := J.med
    bestSeen := s.bestSeen.map D.cand, worstSeen := s.worstSeen.map D.cand
    initialCand := s.initialCand.map D.cand, tpaX1 := J.x1, tpaX2 := J.x2, xmeanPrev := J.prev }

def st (J : Rest n) (s : Strat n) : Strat n :=
  { s with
    p := D.par s.p, sol := D.sol J s.sol, es := { s.es with mean := J.mean }
    negate := D.neg, calls := J.calls }

/-- The map on objective values preserves the order of the search. -/
def Mono : Prop := ∀ a b, FVal.lt (D.φ a) (D.φ b) ↔ FVal.lt a b

variable {D}

theorem pt_sub (x y : Vec n) (i : Fin n) : D.pt x i - D.pt y i = D.a * (x i - y i) := by
  unfold pt; ring

theorem candX_map {cs : List (Cand n)} {i : ℕ} (h : i < cs.length) :
    candX (cs.map D.cand) i = D.pt (candX cs i) := by
  unfold candX
  rw [List.getD_eq_getElem?_getD, List.getD_eq_getElem?_getD, List.getElem?_map]
  rw [List.getElem?_eq_getElem h]
  rfl

theorem recombine_map {p : Params n} {cs : List (Cand n)} (hw : ∑ i ∈ range p.mu, p.weights i = 1)
    (hm : p.mu ≤ cs.length) : recombine (D.par p) (cs.map D.cand) = D.pt (recombine p cs) := by
  funext k
  show ∑ i ∈ range p.mu, p.weights i * candX (cs.map D.cand) i k = _
  rw [Finset.sum_congr rfl fun i hi => by
    rw [candX_map (by have := Finset.mem_range.1 hi; omega)]]
  unfold recombine pt
  rw [Finset.mul_sum]
  calc _ = ∑ i ∈ range p.mu, (D.a * (p.weights i * candX cs i k) + p.weights i * D.t k) :=
        Finset.sum_congr rfl fun i _ => by ring
    _ = _ := by rw [Finset.sum_add_distrib, ← Finset.sum_mul, hw, one_mul]

theorem recombineActive_map {p : Params n} {s : Sol n} {J : Rest n}
    (hJ : J.cands = s.cands.map D.cand)
    (hm : p.mu ≤ s.cands.length) :
    recombineActive (D.par p) (D.sol J s) = D.pt (recombineActive p s) := by
  funext k
  show ∑ i ∈ range p.mu, p.weights i * (candX J.cands i k - D.pt s.xmean k) + D.pt s.xmean k = _
  rw [Finset.sum_congr rfl fun i hi => by
    rw [hJ, candX_map (by have := Finset.mem_range.1 hi; omega), pt_sub]]
  unfold recombineActive
  show _ = D.a * _ + D.t k
  rw [mul_add, Finset.mul_sum]
  rw [Finset.sum_congr rfl fun i (_ : i ∈ range p.mu) => show p.weights i * (D.a * (candX s.cands i k - s.xmean k)) =
    D.a * (p.weights i * (candX s.cands i k - s.xmean k)) by ring]
  unfold pt
  ring

theorem diffMean_map (ha : D.a ≠ 0) (J : Rest n) (s : Sol n) (xm : Vec n) :
    diffMean (D.sol J s) (D.pt xm) = diffMean s xm := by
  funext k
  show 1 / (D.a * s.sigma) * (D.pt xm k - D.pt s.xmean k) = 1 / s.sigma * (xm k - s.xmean k)
  rw [pt_sub]
  by_cases hs : s.sigma = 0
  · simp [hs]
  · field_simp

theorem step_map {J : Rest n} {s : Sol n} {i : ℕ} (hJ : J.cands = s.cands.map D.cand)
    (hi : i < s.cands.length) :
    candX J.cands i - D.pt s.xmean = D.a • (candX s.cands i - s.xmean) := by
  rw [hJ, candX_map hi]
  funext k
  exact pt_sub _ _ _

theorem rankMu_map (ha : D.a ≠ 0) {p : Params n} {J : Rest n} {s : Sol n}
    (hJ : J.cands = s.cands.map D.cand) (hm : p.mu ≤ s.cands.length) :
    rankMu (D.par p) (D.sol J s) = rankMu p s := by
  show (1 / (D.a * s.sigma * (D.a * s.sigma))) • ∑ i ∈ range p.mu, p.weights i •
    vecMulVec (candX J.cands i - D.pt s.xmean) (candX J.cands i - D.pt s.xmean) = _
  rw [Finset.sum_congr rfl fun i hi => by
    rw [step_map hJ (by have := Finset.mem_range.1 hi; omega)]]
  unfold rankMu
  ext k l
  simp only [Matrix.smul_apply, Matrix.sum_apply, vecMulVec_apply, smul_eq_mul, Pi.smul_apply]
  rw [Finset.sum_congr rfl fun i (_ : i ∈ range p.mu) => show
    p.weights i * (D.a * (candX s.cands i - s.xmean) k * (D.a * (candX s.cands i - s.xmean) l)) =
    D.a * D.a * (p.weights i * ((candX s.cands i - s.xmean) k * (candX s.cands i - s.xmean) l)) by ring]
  rw [← Finset.mul_sum, ← mul_assoc]
  congr 1
  by_cases hs : s.sigma = 0
  · simp [hs]
  · field_simp

theorem rankMuSep_map (ha : D.a ≠ 0) {p : Params n} {J : Rest n} {s : Sol n}
    (hJ : J.cands = s.cands.map D.cand) (hm : p.mu ≤ s.cands.length) :
    rankMuSep (D.par p) (D.sol J s) = rankMuSep p s := by
  funext k
  show 1 / (D.a * s.sigma * (D.a * s.sigma)) * ∑ i ∈ range p.mu, p.weights i *
    ((candX J.cands i - D.pt s.xmean) k * (candX J.cands i - D.pt s.xmean) k) = _
  rw [Finset.sum_congr rfl fun i hi => by
    rw [step_map hJ (by have := Finset.mem_range.1 hi; omega)]]
  unfold rankMuSep
  simp only [smul_eq_mul, Pi.smul_apply]
  rw [Finset.sum_congr rfl fun i (_ : i ∈ range p.mu) => show
    p.weights i * (D.a * (candX s.cands i - s.xmean) k * (D.a * (candX s.cands i - s.xmean) k)) =
    D.a * D.a * (p.weights i * ((candX s.cands i - s.xmean) k * (candX s.cands i - s.xmean) k)) by ring]
  rw [← Finset.mul_sum, ← mul_assoc]
  congr 1
  by_cases hs : s.sigma = 0
  · simp [hs]
  · field_simp

theorem unit_step (ha : D.a ≠ 0) {J : Rest n} {s : Sol n} {i : ℕ} (hJ : J.cands = s.cands.map D.cand)
    (hi : i < s.cands.length) :
    (1 / (D.a * s.sigma)) • (candX J.cands i - D.pt s.xmean) = (1 / s.sigma) • (candX s.cands i - s.xmean) := by
  rw [step_map hJ hi, smul_smul]
  congr 1
  by_cases hs : s.sigma = 0
  · simp [hs]
  · field_simp

theorem rankMuMinus_map (ha : D.a ≠ 0) {p : Params n} {J : Rest n} {s : Sol n}
    (hJ : J.cands = s.cands.map D.cand) (hm : p.lambda ≤ s.cands.length) (hl : p.mu ≤ p.lambda) :
    rankMuMinus (D.par p) (D.sol J s) = rankMuMinus p s := by
  unfold rankMuMinus
  refine Finset.sum_congr rfl fun i hi => ?_
  have hi' := Finset.mem_range.1 hi
  have hi'' : i < p.mu := hi'
  show p.weights i • vecMulVec ((1 / (D.a * s.sigma)) • (candX J.cands (p.lambda - i - 1) - D.pt s.xmean))
    ((1 / (D.a * s.sigma)) • (candX J.cands (p.lambda - i - 1) - D.pt s.xmean)) = _
  rw [unit_step ha hJ (by omega)]

theorem rankMuMinusSep_map (ha : D.a ≠ 0) {p : Params n} {J : Rest n} {s : Sol n}
    (hJ : J.cands = s.cands.map D.cand) (hm : p.lambda ≤ s.cands.length) (hl : p.mu ≤ p.lambda) :
    rankMuMinusSep (D.par p) (D.sol J s) = rankMuMinusSep p s := by
  unfold rankMuMinusSep
  funext k
  refine Finset.sum_congr rfl fun i hi => ?_
  have hi' := Finset.mem_range.1 hi
  have hi'' : i < p.mu := hi'
  have := congrFun (unit_step (i := p.lambda - i - 1) ha hJ (by omega)) k
  simp only [Pi.smul_apply, Pi.sub_apply, smul_eq_mul] at this
  show p.weights i * (1 / (D.a * s.sigma) * (candX J.cands (p.lambda - i - 1) k - D.pt s.xmean k) *
    (1 / (D.a * s.sigma) * (candX J.cands (p.lambda - i - 1) k - D.pt s.xmean k))) = _
  rw [this]

theorem sigmaUpdate_map (p : Params n) (J : Rest n) (s : Sol n) (x : ℝ) :
    sigmaUpdate (D.par p) (D.sol J s) x = D.a * sigmaUpdate p s x := by
  unfold sigmaUpdate
  show (if p.tpa < 2 then D.a * s.sigma * Real.exp (p.csigma / p.dsigma * (x / p.chi - 1))
    else if s.niter > 0 then D.a * s.sigma * Real.exp (s.tpaS / p.dsigma) else D.a * s.sigma) = _
  split_ifs <;> ring

theorem updatePre_map (ha : D.a ≠ 0) {p : Params n} {J : Rest n} {s : Sol n}
    (hJ : J.cands.length = s.cands.length) :
    updatePre (D.par p) (D.sol J s) = updatePre p s := by
  unfold updatePre
  show (if J.cands.length < p.mu then _ else if s.pathsOk = false then _ else
    if D.a * s.sigma = 0 ∨ p.chi = 0 ∨ p.dsigma = 0 then _ else _) = _
  rw [hJ]
  simp only [mul_eq_zero, ha, false_or]

theorem psNext_map (ha : D.a ≠ 0) (p : Params n) (J : Rest n) (s : Sol n) (csq : Mat n) (xm : Vec n) :
    psNext (D.par p) (D.sol J s) csq (D.pt xm) = psNext p s csq xm := by
  unfold psNext
  rw [diffMean_map ha]
  rfl

theorem psNextSep_map (ha : D.a ≠ 0) (p : Params n) (J : Rest n) (s : Sol n) (csq xm : Vec n) :
    psNextSep (D.par p) (D.sol J s) csq (D.pt xm) = psNextSep p s csq xm := by
  unfold psNextSep
  rw [diffMean_map ha]
  rfl

theorem pcNext_map (ha : D.a ≠ 0) (p : Params n) (J : Rest n) (s : Sol n) (h : Bool) (xm : Vec n) :
    pcNext (D.par p) (D.sol J s) h (D.pt xm) = pcNext p s h xm := by
  unfold pcNext
  rw [diffMean_map ha]
  rfl

/-- The covariance updates commute with the transformation. -/
theorem covarianceUpdate_map (ha : D.a ≠ 0) {eig : EigSolver n} {k : CovKind} {p : Params n} {es es' : Es n}
    {s s' : Sol n} {J : Rest n} (hw : ∑ i ∈ range p.mu, p.weights i = 1)
    (hJ : J.cands = s.cands.map D.cand) (he : es'.eig = es.eig)
    (h : covarianceUpdate eig k p es s = .ok s') :
    ∃ pr, covarianceUpdate eig k (D.par p) es' (D.sol J s) = .ok (D.sol { J with prev := pr } s') ∧
      (p.tpa ≠ 0 → pr = D.pt s'.xmeanPrev) ∧ s'.cands = s.cands := by
  have hl : J.cands.length = s.cands.length := by rw [hJ, List.length_map]
  have hpre := updatePre_map (p := p) ha hl
  have hcsq : csqinvOf es' (D.sol J s) = csqinvOf es s := by
    unfold csqinvOf
    rw [he]
    rfl
  cases k with
  | plain =>
    unfold covarianceUpdate at h ⊢
    simp only at h ⊢
    by_cases hsep : p.sep = true
    · rw [if_pos hsep] at h
      rw [if_pos (show (D.par p).sep = true from hsep)]
      unfold covUpdateSep at h ⊢
      obtain ⟨u, h1, h⟩ := Out.bind_eq_ok.1 h
      have hm := (updatePre_ok h1).1
      rw [hpre, h1, Out.ok_bind]
      by_cases hs : s.hasSep = false
      · rw [if_pos hs] at h; cases h
      · rw [if_neg hs] at h
        rw [if_neg (show ¬ (D.sol J s).hasSep = false from hs)]
        obtain ⟨csq, h2, h⟩ := Out.bind_eq_ok.1 h
        obtain ⟨hb, h3, h⟩ := Out.bind_eq_ok.1 h
        injection h with h
        subst h
        rw [show sepcsqinvOf (D.sol J s) = sepcsqinvOf s from rfl, h2, Out.ok_bind,
          show hsigBound (D.par p) (D.sol J s).niter = hsigBound p s.niter from rfl, h3, Out.ok_bind]
        refine ⟨if p.tpa ≠ 0 then D.pt s.xmean else J.prev, ?_, ?_, rfl⟩
        · show Except.ok _ = Except.ok _
          congr 1
          unfold covNextSep
          have hr : recombine (D.par p) (D.sol J s).cands = D.pt (recombine p s.cands) := by
            rw [show (D.sol J s).cands = J.cands from rfl, hJ, recombine_map hw hm]
          simp only [hr, psNextSep_map ha, pcNext_map ha, rankMuSep_map ha hJ hm, sigmaUpdate_map]
          rfl
        · intro ht
          show _ = D.pt (if p.tpa ≠ 0 then s.xmean else s.xmeanPrev)
          rw [if_pos ht, if_pos ht]
    · rw [if_neg hsep] at h
      rw [if_neg (show ¬ (D.par p).sep = true from hsep)]
      unfold covUpdateFull at h ⊢
      obtain ⟨u, h1, h⟩ := Out.bind_eq_ok.1 h
      have hm := (updatePre_ok h1).1
      rw [hpre, h1, Out.ok_bind]
      by_cases hs : s.hasCov = false
      · rw [if_pos hs] at h; cases h
      · rw [if_neg hs] at h
        rw [if_neg (show ¬ (D.sol J s).hasCov = false from hs)]
        obtain ⟨csq, h2, h⟩ := Out.bind_eq_ok.1 h
        obtain ⟨hb, h3, h⟩ := Out.bind_eq_ok.1 h
        injection h with h
        subst h
        rw [hcsq, h2, Out.ok_bind,
          show hsigBound (D.par p) (D.sol J s).niter = hsigBound p s.niter from rfl, h3, Out.ok_bind]
        refine ⟨if p.tpa ≠ 0 then D.pt s.xmean else J.prev, ?_, ?_, rfl⟩
        · show Except.ok _ = Except.ok _
          congr 1
          unfold covNext
          have hr : recombine (D.par p) (D.sol J s).cands = D.pt (recombine p s.cands) := by
            rw [show (D.sol J s).cands = J.cands from rfl, hJ, recombine_map hw hm]
          simp only [hr, psNext_map ha, pcNext_map ha, rankMu_map ha hJ hm, sigmaUpdate_map]
          rfl
        · intro ht
          show _ = D.pt (if p.tpa ≠ 0 then s.xmean else s.xmeanPrev)
          rw [if_pos ht, if_pos ht]
  | active =>
    unfold covarianceUpdate at h ⊢
    simp only at h ⊢
    by_cases hsep : p.sep = true
    · rw [if_pos hsep] at h
      rw [if_pos (show (D.par p).sep = true from hsep)]
      unfold acovUpdateSep at h ⊢
      obtain ⟨u, h1, h⟩ := Out.bind_eq_ok.1 h
      have hm := (updatePre_ok h1).1
      rw [hpre, h1, Out.ok_bind]
      by_cases hs : s.hasSep = false
      · rw [if_pos hs] at h; cases h
      · rw [if_neg hs] at h
        rw [if_neg (show ¬ (D.sol J s).hasSep = false from hs)]
        by_cases hll : s.cands.length < p.lambda ∨ p.lambda < p.mu
        · rw [if_pos hll] at h; cases h
        rw [if_neg hll] at h
        rw [if_neg (show ¬ ((D.sol J s).cands.length < (D.par p).lambda ∨ (D.par p).lambda < (D.par p).mu) by
          show ¬ (J.cands.length < p.lambda ∨ p.lambda < p.mu)
          rw [hl]; exact hll)]
        push Not at hll
        obtain ⟨csq, h2, h⟩ := Out.bind_eq_ok.1 h
        obtain ⟨hb, h3, h⟩ := Out.bind_eq_ok.1 h
        obtain ⟨cm, h4, h⟩ := Out.bind_eq_ok.1 h
        injection h with h
        subst h
        rw [show sepcsqinvOf (D.sol J s) = sepcsqinvOf s from rfl, h2, Out.ok_bind,
          show hsigBound (D.par p) (D.sol J s).niter = hsigBound p s.niter from rfl, h3, Out.ok_bind,
          rankMuMinusSep_map ha hJ hll.1 hll.2,
          show cminusOf (D.par p) = cminusOf p from rfl, h4, Out.ok_bind]
        refine ⟨D.pt s.xmean, ?_, fun _ => rfl, rfl⟩
        show Except.ok _ = Except.ok _
        congr 1
        unfold acovNextSep
        simp only [recombineActive_map hJ hm, psNextSep_map ha, pcNext_map ha, rankMuSep_map ha hJ hm,
          rankMuMinusSep_map ha hJ hll.1 hll.2, sigmaUpdate_map]
        rfl
    · rw [if_neg hsep] at h
      rw [if_neg (show ¬ (D.par p).sep = true from hsep)]
      unfold acovUpdateFull at h ⊢
      obtain ⟨u, h1, h⟩ := Out.bind_eq_ok.1 h
      have hm := (updatePre_ok h1).1
      rw [hpre, h1, Out.ok_bind]
      by_cases hs : s.hasCov = false
      · rw [if_pos hs] at h; cases h
      · rw [if_neg hs] at h
        rw [if_neg (show ¬ (D.sol J s).hasCov = false from hs)]
        by_cases hll : s.cands.length < p.lambda ∨ p.lambda < p.mu
        · rw [if_pos hll] at h; cases h
        rw [if_neg hll] at h
        rw [if_neg (show ¬ ((D.sol J s).cands.length < (D.par p).lambda ∨ (D.par p).lambda < (D.par p).mu) by
          show ¬ (J.cands.length < p.lambda ∨ p.lambda < p.mu)
          rw [hl]; exact hll)]
        push Not at hll
        obtain ⟨csq, h2, h⟩ := Out.bind_eq_ok.1 h
        obtain ⟨hb, h3, h⟩ := Out.bind_eq_ok.1 h
        obtain ⟨cm, h4, h⟩ := Out.bind_eq_ok.1 h
        injection h with h
        subst h
        rw [hcsq, h2, Out.ok_bind,
          show hsigBound (D.par p) (D.sol J s).niter = hsigBound p s.niter from rfl, h3, Out.ok_bind,
          rankMuMinus_map ha hJ hll.1 hll.2,
          show cminusOf (D.par p) = cminusOf p from rfl, h4, Out.ok_bind]
        refine ⟨D.pt s.xmean, ?_, fun _ => rfl, rfl⟩
        show Except.ok _ = Except.ok _
        congr 1
        unfold acovNext
        simp only [recombineActive_map hJ hm, psNext_map ha, pcNext_map ha, rankMu_map ha hJ hm,
          rankMuMinus_map ha hJ hll.1 hll.2, sigmaUpdate_map]
        rfl
  | vd =>
    unfold covarianceUpdate at h ⊢
    simp only at h ⊢
    unfold vdUpdate at h ⊢
    obtain ⟨u, h1, h⟩ := Out.bind_eq_ok.1 h
    have hm := (updatePre_ok h1).1
    rw [hpre, h1, Out.ok_bind]
    by_cases hs : s.hasSep = false ∨ s.hasV = false
    · rw [if_pos hs] at h; cases h
    rw [if_neg hs] at h
    rw [if_neg (show ¬ ((D.sol J s).hasSep = false ∨ (D.sol J s).hasV = false) from hs)]
    by_cases hz : ∃ k, s.sepcov k = 0
    · rw [if_pos hz] at h; cases h
    rw [if_neg hz] at h
    rw [if_neg (show ¬ ∃ k, (D.sol J s).sepcov k = 0 from hz)]
    obtain ⟨hb, h3, h⟩ := Out.bind_eq_ok.1 h
    rw [show hsigBound (D.par p) (D.sol J s).niter = hsigBound p s.niter from rfl, h3, Out.ok_bind]
    simp only at h ⊢
    by_cases hv : sqNorm s.v = 0
    · rw [if_pos hv] at h; cases h
    rw [if_neg hv] at h
    rw [if_neg (show ¬ sqNorm (D.sol J s).v = 0 from hv)]
    obtain ⟨g, h4, h⟩ := Out.bind_eq_ok.1 h
    injection h with h
    subst h
    have hr : recombine (D.par p) (D.sol J s).cands = D.pt (recombine p s.cands) := by
      rw [show (D.sol J s).cands = J.cands from rfl, hJ, recombine_map hw hm]
    have hpath : vdPaths (D.par p) (D.sol J s) hb = D.sol J (vdPaths p s hb) := by
      unfold vdPaths
      simp only [hr, diffMean_map ha]
      rfl
    have hgrad : vdGradient (D.par p) (D.sol J (vdPaths p s hb)) (sqNorm s.v) =
        vdGradient p (vdPaths p s hb) (sqNorm s.v) := by
      have hy : ∀ i < p.mu, vdY (D.sol J (vdPaths p s hb)) i = vdY (vdPaths p s hb) i := by
        intro i hi
        funext k
        show (vdPaths p s hb).sepcsqinv k * (candX J.cands i k - D.pt s.xmean k) / (D.a * s.sigma) =
          (vdPaths p s hb).sepcsqinv k * (candX s.cands i k - s.xmean k) / s.sigma
        have := congrFun (step_map (D := D) (J := J) (s := s) hJ (by omega : i < s.cands.length)) k
        simp only [Pi.sub_apply, Pi.smul_apply, smul_eq_mul] at this
        rw [this]
        by_cases hs : s.sigma = 0
        · simp [hs]
        · field_simp
      have hP : ∀ nv vb, vdP (D.par p) (D.sol J (vdPaths p s hb)) nv vb = vdP p (vdPaths p s hb) nv vb := by
        intro nv vb
        funext k
        refine Finset.sum_congr rfl fun i hi => ?_
        rw [hy i (Finset.mem_range.1 hi)]
        rfl
      have hQ : ∀ nv vb, vdQ (D.par p) (D.sol J (vdPaths p s hb)) nv vb = vdQ p (vdPaths p s hb) nv vb := by
        intro nv vb
        funext k
        refine Finset.sum_congr rfl fun i hi => ?_
        rw [hy i (Finset.mem_range.1 hi)]
        rfl
      unfold vdGradient vdPvec vdQvec
      simp only [hP, hQ]
      rfl
    refine ⟨if p.tpa ≠ 0 then D.pt s.xmean else J.prev, ?_, ?_, rfl⟩
    · rw [hpath]
      have e : (if (D.par p).cmu + (D.par p).c1 * hsigR (D.sol J (vdPaths p s hb)).hsig > 0 then
          vdGradient (D.par p) (D.sol J (vdPaths p s hb)) (sqNorm (D.sol J s).v)
          else pure ⟨(D.sol J s).v, (D.sol J s).sepcov⟩) = (.ok g : Out (VdStep n)) := by
        rw [show sqNorm (D.sol J s).v = sqNorm s.v from rfl, hgrad]
        exact h4
      rw [e, Out.ok_bind]
      show Except.ok _ = Except.ok _
      congr 1
      unfold vdNext
      rw [hpath, hr]
      simp only [sigmaUpdate_map]
      rfl
    · intro ht
      show _ = D.pt (if p.tpa ≠ 0 then s.xmean else s.xmeanPrev)
      rw [if_pos ht, if_pos ht]

theorem strictWeakOn_map (hD : D.Mono) (l : List (Cand n)) :
    StrictWeakOn candLt (l.map D.cand) ↔ StrictWeakOn candLt l := by
  unfold StrictWeakOn
  have e : ∀ a b : Cand n, candLt (D.cand a) (D.cand b) ↔ candLt a b := fun a b => hD _ _
  simp only [List.forall_mem_map, e]

theorem stableSort_map (hD : D.Mono) {l l' : List (Cand n)} (h : stableSort candLt l = .ok l') :
    stableSort candLt (l.map D.cand) = .ok (l'.map D.cand) := by
  unfold stableSort at h ⊢
  by_cases hw : StrictWeakOn candLt l
  · rw [if_pos hw] at h
    rw [if_pos ((strictWeakOn_map hD l).2 hw)]
    injection h with h
    rw [← h]
    congr 1
    symm
    refine List.map_mergeSort fun a _ b _ => ?_
    have e : candLt (D.cand b) (D.cand a) ↔ candLt b a := hD _ _
    exact decide_eq_decide.2 (not_congr e.symm)
  · rw [if_neg hw] at h; cases h

theorem pushBounded_map {α β : Type} (f : α → β) (m : ℕ) (l : List α) (a : α) :
    Sol.pushBounded m (l.map f) (f a) = (Sol.pushBounded m l a).map f := by
  unfold Sol.pushBounded
  have e : l.map f ++ [f a] = (l ++ [a]).map f := by simp
  rw [e, List.length_map]
  split_ifs
  · rw [List.map_tail]
  · rfl

theorem medianOf_total {l : List FVal} (h : l.length ≠ 0) : ∃ m, Sol.medianOf l = .ok m := by
  unfold Sol.medianOf
  rw [if_neg h]
  have h2 : l.length / 2 < l.length := by omega
  have h1 : l.length / 2 - 1 < l.length := by omega
  split_ifs
  · refine ⟨FVal.half (FVal.add l[l.length / 2 - 1] l[l.length / 2]), ?_⟩
    rw [show idx l (l.length / 2 - 1) = .ok l[l.length / 2 - 1] from idx_eq_ok.2 (List.getElem?_eq_getElem h1),
      Out.ok_bind, show idx l (l.length / 2) = .ok l[l.length / 2] from idx_eq_ok.2 (List.getElem?_eq_getElem h2),
      Out.ok_bind]
    rfl
  · exact ⟨_, idx_eq_ok.2 (List.getElem?_eq_getElem h2)⟩

theorem updateBest_map (hD : D.Mono) {s s' : Sol n} {J : Rest n} (hJ : J.cands = s.cands.map D.cand)
    (h : s.updateBest = .ok s') :
    ∃ md, (D.sol J s).updateBest = .ok (D.sol { J with med := md } s') ∧ s'.cands = s.cands ∧
      s'.xmeanPrev = s.xmeanPrev := by
  unfold Sol.updateBest at h ⊢
  obtain ⟨c0, h0, h⟩ := Out.bind_eq_ok.1 h
  obtain ⟨ck, hk, h⟩ := Out.bind_eq_ok.1 h
  obtain ⟨med, hm, h⟩ := Out.bind_eq_ok.1 h
  obtain ⟨cl, hl, h⟩ := Out.bind_eq_ok.1 h
  injection h with h
  subst h
  rw [at!_eq_ok'] at h0 hk hl
  have hat : ∀ {i : ℕ} {c : Cand n}, s.cands[i]? = some c → at! J.cands i = .ok (D.cand c) := by
    intro i c hc
    rw [at!_eq_ok', hJ, List.getElem?_map, hc]
    rfl
  have hne : J.cands.length ≠ 0 := by
    rw [hJ, List.length_map]
    have := (List.getElem?_eq_some_iff.1 h0).1
    omega
  have hlen : J.cands.length = s.cands.length := by rw [hJ, List.length_map]
  obtain ⟨md, hmd⟩ := medianOf_total (l := J.cands.map (·.fvalue)) (by rwa [List.length_map])
  rw [show (D.sol J s).cands = J.cands from rfl, hat h0, Out.ok_bind,
    show (D.sol J s).kcand = s.kcand from rfl, hat hk, Out.ok_bind, hmd, Out.ok_bind, hlen, hat hl,
    Out.ok_bind]
  refine ⟨Sol.pushBounded (Sol.medianBound s.niter n s.cands.length) J.med md, ?_, rfl, rfl⟩
  show Except.ok _ = Except.ok _
  congr 1
  have e1 : (s.bestHist.map D.cand ++ [D.cand c0]) = (s.bestHist ++ [c0]).map D.cand := by simp
  have e2 : (s.kBestHist.map D.cand ++ [D.cand ck]) = (s.kBestHist ++ [ck]).map D.cand := by simp
  have l0 : ∀ b, FVal.lt (D.cand c0).fvalue (D.cand b).fvalue ↔ FVal.lt c0.fvalue b.fvalue := fun b => hD _ _
  have l1 : ∀ b, FVal.lt (D.cand b).fvalue (D.cand cl).fvalue ↔ FVal.lt b.fvalue cl.fvalue := fun b => hD _ _
  have p1 : Sol.pushBounded 20 (s.bfvalues.map D.φ) (D.cand c0).fvalue =
      (Sol.pushBounded 20 s.bfvalues c0.fvalue).map D.φ := pushBounded_map _ _ _ _
  unfold sol
  simp only [e1, e2, List.length_map, p1, ← List.map_tail]
  cases hb : s.bestSeen <;> cases hwo : s.worstSeen <;>
    simp only [Option.map_none, Option.map_some, l0, l1, Option.isNone_none, Option.isNone_some, Bool.and_true, Bool.and_false,
      Bool.or_false, Bool.false_or, apply_ite (List.map D.cand), apply_ite (Option.map D.cand)]

theorem posOfId_map (cs : List (Cand n)) (id : ℤ) :
    Strat.posOfId (cs.map D.cand) id = Strat.posOfId cs id := by
  unfold Strat.posOfId
  rw [List.findIdx?_map]
  rfl

theorem tell_map (hD : D.Mono) (ha : D.a ≠ 0) {env env' : Env n} (he : env'.eig = env.eig) {s s' : Strat n}
    {J : Rest n} (huh : s.p.uh = false) (hw : ∑ i ∈ range s.p.mu, s.p.weights i = 1)
    (hJ : J.cands = s.sol.cands.map D.cand) (h : s.tell env = .ok s') :
    ∃ md pr cs, (D.st J s).tell env' = .ok (D.st { J with med := md, prev := pr, cands := cs } s') ∧
      cs = s'.sol.cands.map D.cand ∧ (s.p.tpa ≠ 0 → pr = D.pt s'.sol.xmeanPrev) ∧
      s'.sol.cands.length = s.sol.cands.length := by
  obtain ⟨s1, tS, sol3, sol4, h1, h2, h3, h4, h5⟩ := Strat.tell_ok h
  obtain ⟨cs, hcs, e1⟩ := Strat.rank_ok huh h1
  have hlen : cs.length = s.sol.cands.length := (stableSort_eq_ok hcs).2.perm.length_eq
  subst e1
  set J1 : Rest n := { J with cands := cs.map D.cand } with hJ1
  set sol2 : Sol n := { s.sol with cands := cs, tpaS := tS } with hsol2
  have r1 : (D.st J s).rank env' = .ok (D.st J1 { s with sol := { s.sol with cands := cs } }) := by
    unfold Strat.rank
    rw [if_neg (show ¬ (D.st J s).p.uh = true by show ¬ s.p.uh = true; simp [huh])]
    unfold Sol.sortCandidates
    rw [show (D.st J s).sol.cands = J.cands from rfl, hJ, stableSort_map hD hcs]
    rfl
  have r2 : (if (D.st J1 { s with sol := { s.sol with cands := cs } }).p.tpa = 2 ∧
        (D.st J1 { s with sol := { s.sol with cands := cs } }).niter > 0 then
        (D.st J1 { s with sol := { s.sol with cands := cs } }).tpaUpdate
        else pure (D.st J1 { s with sol := { s.sol with cands := cs } })) =
      (.ok (D.st J1 { s with sol := sol2 }) : Out (Strat n)) := by
    by_cases hc : s.p.tpa = 2 ∧ s.niter > 0
    · rw [if_pos (show (D.st J1 { s with sol := { s.sol with cands := cs } }).p.tpa = 2 ∧
        (D.st J1 { s with sol := { s.sol with cands := cs } }).niter > 0 from hc)]
      rw [if_pos hc] at h2
      unfold Strat.tpaUpdate at h2 ⊢
      by_cases hl1 : s.p.lambda = 1
      · rw [if_pos (show ({ s with sol := { s.sol with cands := cs } } : Strat n).p.lambda = 1 from hl1)] at h2
        cases h2
      rw [if_neg (show ¬ ({ s with sol := { s.sol with cands := cs } } : Strat n).p.lambda = 1 from hl1)] at h2
      rw [if_neg (show ¬ (D.st J1 { s with sol := { s.sol with cands := cs } }).p.lambda = 1 from hl1)]
      injection h2 with h2
      have h2' : (1 - 0.3) * s.sol.tpaS + 0.3 * ((Strat.posOfId cs s.sol.tpaP2 -
          Strat.posOfId cs s.sol.tpaP1 : ℤ) : ℝ) / ((s.p.lambda : ℝ) - 1) = tS :=
        congrArg (fun x : Strat n => x.sol.tpaS) h2
      rw [hsol2, ← h2', ← posOfId_map (D := D) cs, ← posOfId_map (D := D) cs]
      rfl
    · rw [if_neg (show ¬ ((D.st J1 { s with sol := { s.sol with cands := cs } }).p.tpa = 2 ∧
        (D.st J1 { s with sol := { s.sol with cands := cs } }).niter > 0) from hc)]
      rw [if_neg hc] at h2
      injection h2 with h2
      have h2' : s.sol.tpaS = tS := congrArg (fun x : Strat n => x.sol.tpaS) h2
      show Except.ok _ = Except.ok _
      rw [hsol2, ← h2']
  obtain ⟨md, r3, hc3, hx3⟩ := updateBest_map hD (J := J1) (s := sol2) rfl h3
  obtain ⟨pr, r4, hp4, hc4⟩ := covarianceUpdate_map (D := D) ha (J := { J1 with med := md })
    (es' := (D.st J1 { s with sol := sol2 }).es) hw (by rw [hc3]) rfl h4
  refine ⟨md, pr, cs.map D.cand, ?_, ?_, ?_, ?_⟩
  · unfold Strat.tell
    rw [r1, Out.ok_bind, r2, Out.ok_bind]
    rw [show (D.st J1 { s with sol := sol2 }).sol.updateBest = _ from r3, Out.ok_bind]
    rw [he, show (D.st J1 { s with sol := sol2 }).kind = s.kind from rfl,
      show (D.st J1 { s with sol := sol2 }).p = D.par s.p from rfl, r4, Out.ok_bind]
    unfold Strat.tellFinish at h5 ⊢
    simp only at h5 ⊢
    rw [if_neg (show ¬ (s.p.uh = true ∧ sol4.suh > 0) by simp [huh])] at h5
    rw [if_neg (show ¬ ((D.par s.p).uh = true ∧ (D.sol _ sol4).suh > 0) by
      show ¬ (s.p.uh = true ∧ _); simp [huh])]
    by_cases hn : n = 0
    · rw [if_pos hn] at h5; cases h5
    rw [if_neg hn] at h5 ⊢
    by_cases hf : (!s.p.sep && !s.p.vd) = true
    · rw [if_pos hf] at h5
      rw [if_pos (show (!(D.par s.p).sep && !(D.par s.p).vd) = true from hf)]
      rw [show (D.st J1 { s with sol := sol2 }).es.eig = s.es.eig from rfl]
      cases hE : s.es.eig with
      | none => rw [hE] at h5; cases h5
      | some e =>
        rw [hE] at h5
        simp only at h5 ⊢
        injection h5 with h5
        rw [← h5]
        rfl
    · rw [if_neg hf] at h5
      rw [if_neg (show ¬ (!(D.par s.p).sep && !(D.par s.p).vd) = true from hf)]
      injection h5 with h5
      rw [← h5]
      rfl
  · have : s'.sol.cands = sol4.cands := by
      obtain ⟨sg', mx, mn, lv, le, e5⟩ := Strat.tellFinish_frame h5
      rw [e5]
    rw [this, hc4, hc3]
  · intro ht
    have : s'.sol.xmeanPrev = sol4.xmeanPrev := by
      obtain ⟨sg', mx, mn, lv, le, e5⟩ := Strat.tellFinish_frame h5
      rw [e5]
    rw [this, hp4 ht]
  · have : s'.sol.cands = sol4.cands := by
      obtain ⟨sg', mx, mn, lv, le, e5⟩ := Strat.tellFinish_frame h5
      rw [e5]
    rw [this, hc4, hc3, ← hlen]

theorem improvers_map (hD : D.Mono) {s : Strat n} {J : Rest n} (hJ : J.cands = s.sol.cands.map D.cand) (k : ℕ) :
    (D.st J s).improvers k = s.improvers k := by
  unfold Strat.improvers
  have e1 : (D.st J s).elitistRef = s.elitistRef.map D.cand := by
    unfold Strat.elitistRef
    show (if (s.p.initialElitistOnRestart || s.p.initialElitist) = true then s.sol.initialCand.map D.cand
      else if s.p.elitist = true then s.sol.bestSeen.map D.cand else none) = _
    split_ifs <;> rfl
  have e2 : ∀ c : Cand n, FVal.lt (D.cand c).fvalue (D.st J s).elitistRefValue ↔
      FVal.lt c.fvalue s.elitistRefValue := by
    intro c
    unfold Strat.elitistRefValue
    rw [e1]
    cases s.elitistRef with
    | none => simp only [Option.map_none]; exact ⟨fun h => absurd h (FVal.not_lt_nan _), fun h => absurd h (FVal.not_lt_nan _)⟩
    | some b => exact hD _ _
  rw [show (D.st J s).sol.cands = J.cands from rfl, hJ, ← List.map_take, List.filter_map, List.length_map]
  congr 2
  funext c
  exact decide_eq_decide.2 (e2 c)

theorem reinject_map (hD : D.Mono) {s s' : Strat n} {J : Rest n} (hJ : J.cands = s.sol.cands.map D.cand) {k : ℕ}
    (h : s.reinject k = .ok s') :
    ∃ cs, (D.st J s).reinject k = .ok (D.st { J with cands := cs } s') ∧ cs = s'.sol.cands.map D.cand ∧
      s'.sol.cands.length = s.sol.cands.length ∧ s'.calls = s.calls := by
  have hlen : J.cands.length = s.sol.cands.length := by rw [hJ, List.length_map]
  have e1 : (D.st J s).elitistRef = s.elitistRef.map D.cand := by
    unfold Strat.elitistRef
    show (if (s.p.initialElitistOnRestart || s.p.initialElitist) = true then s.sol.initialCand.map D.cand
      else if s.p.elitist = true then s.sol.bestSeen.map D.cand else none) = _
    split_ifs <;> rfl
  unfold Strat.reinject at h ⊢
  rw [show (D.st J s).elitismOn = s.elitismOn from rfl, improvers_map hD hJ, e1,
    show (D.st J s).sol.cands = J.cands from rfl, hlen]
  by_cases h0 : s.elitismOn = true
  · rw [if_pos h0] at h ⊢
    by_cases h1 : s.sol.cands.length < k
    · rw [if_pos h1] at h; cases h
    rw [if_neg h1] at h ⊢
    by_cases h2 : s.improvers k < k / 2
    · rw [if_pos h2] at h ⊢
      cases hr : s.elitistRef with
      | none => rw [hr] at h; cases h
      | some c =>
        rw [hr] at h
        simp only [Option.map_some] at h ⊢
        by_cases h3 : s.sol.cands.length ≤ 1
        · rw [if_pos h3] at h; cases h
        rw [if_neg h3] at h ⊢
        injection h with h
        subst h
        exact ⟨J.cands.set 1 (D.cand c), rfl, by rw [hJ, ← List.map_set], by simp, rfl⟩
    · rw [if_neg h2] at h ⊢
      injection h with h
      subst h
      exact ⟨J.cands, rfl, hJ, rfl, rfl⟩
  · rw [if_neg h0] at h ⊢
    injection h with h
    subst h
    exact ⟨J.cands, rfl, hJ, rfl, rfl⟩

theorem colX_map {cols : List (Vec n)} {r : ℕ} (h : r < cols.length) :
    colX (cols.map D.pt) r = D.pt (colX cols r) := by
  unfold colX
  rw [List.getD_eq_getElem?_getD, List.getD_eq_getElem?_getD, List.getElem?_map,
    List.getElem?_eq_getElem h]
  rfl

theorem eval_map (hD : D.Mono) {env env' : Env n} (hsch : env'.sched = env.sched) {s s' : Strat n}
    (hf : ∀ k x, negIf D.neg (env'.f k (D.pt x)) = D.φ (negIf s.negate (env.f k x)))
    {J : Rest n} {cols phen : List (Vec n)} (huh : s.p.uh = false) (hJ : J.cands.length = s.sol.cands.length)
    (hc : J.calls.length = s.calls.length) (hl : cols.length = s.sol.cands.length)
    (h : s.eval env cols phen = .ok s') :
    ∃ cs cl, (D.st J s).eval env' (cols.map D.pt) (phen.map D.pt) =
        .ok (D.st { J with cands := cs, calls := cl } s') ∧ cs = s'.sol.cands.map D.cand ∧
      cl.length = s'.calls.length ∧ s'.sol.cands.length = s.sol.cands.length := by
  obtain ⟨b1, b2⟩ := Strat.eval_bounds h
  obtain ⟨s3, h3, e3⟩ := Strat.eval_ok huh h
  have hord : (D.st J s).order env' (cols.map D.pt).length = s.order env cols.length := by
    unfold Strat.order
    rw [List.length_map, hsch, show (D.st J s).calls.length = J.calls.length from rfl, hc]
    rfl
  set X := ((D.st J s).evaluated env' (cols.map D.pt) (phen.map D.pt)).sol.cands with hX
  set Y := ((D.st J s).evaluated env' (cols.map D.pt) (phen.map D.pt)).calls with hY
  have hev : (D.st J s).evaluated env' (cols.map D.pt) (phen.map D.pt) =
      D.st { J with cands := X, calls := Y } (s.evaluated env cols phen) := rfl
  have hcX : X = (s.evaluated env cols phen).sol.cands.map D.cand := by
    apply List.ext_getElem?
    intro r
    rw [hX, List.getElem?_map, Strat.evaluated_cands b1,
      Strat.evaluated_cands (by rw [List.length_map]; show _ ≤ J.cands.length; rw [hJ]; exact b1), hord,
      List.length_map]
    by_cases hr : r < cols.length
    · rw [if_pos hr, if_pos hr]
      have hy : colY (cols.map D.pt) (phen.map D.pt) r = D.pt (colY cols phen r) := by
        unfold colY
        by_cases hp : phen = []
        · subst hp
          simp only [List.map_nil, List.isEmpty_nil, if_true]
          exact colX_map hr
        · have : (phen.map D.pt).isEmpty = false := by simpa using hp
          have h' : phen.isEmpty = false := by simpa using hp
          rw [this, h']
          simp only [Bool.false_eq_true, if_false]
          exact colX_map (by have := b2 hp; omega)
      rw [hy, colX_map hr, show (D.st J s).calls.length = J.calls.length from rfl, hc,
        show (D.st J s).negate = D.neg from rfl, hf]
      rfl
    · rw [if_neg hr, if_neg hr]
      have e1 : s.sol.cands[r]? = none := List.getElem?_eq_none (by omega)
      have e2 : (D.st J s).sol.cands[r]? = none := List.getElem?_eq_none (by
        show J.cands.length ≤ r; omega)
      rw [e1, e2]
      rfl
  obtain ⟨cs, r3, hcs, hl3, hc3⟩ := reinject_map hD (J := { J with cands := X, calls := Y }) hcX h3
  refine ⟨cs, Y, ?_, ?_, ?_, ?_⟩
  · unfold Strat.eval
    rw [Strat.eval_loop (by rw [List.length_map]; show _ ≤ J.cands.length; rw [hJ]; exact b1)
      (fun hp => by
        rw [List.length_map, List.length_map]
        exact b2 fun h0 => hp (by rw [h0]; rfl)), Out.ok_bind,
      if_neg (show ¬ ((D.st J s).evaluated env' (cols.map D.pt) (phen.map D.pt)).p.uh = true by
        show ¬ s.p.uh = true; simp [huh])]
    rw [hev]
    show ((D.st { J with cands := X, calls := Y } (s.evaluated env cols phen)).reinject (cols.map D.pt).length >>=
      fun s3 => pure (s3.updateFevals (cols.map D.pt).length)) = _
    rw [List.length_map, r3, Out.ok_bind, e3]
    rfl
  · rw [hcs, e3]
    rfl
  · rw [hY, e3]
    show _ = s3.calls.length
    rw [hc3]
    show (J.calls ++ loopCalls _ _ _ _).length = (s.calls ++ loopCalls _ _ _ _).length
    rw [List.length_append, List.length_append, loopCalls_length, loopCalls_length, hc, hord]
  · rw [e3]
    show s3.sol.cands.length = _
    rw [hl3]
    show (Strat.loopCands _ _ _ _ _ _ _).length = _
    rw [Strat.loopCands_length]

theorem vnorm_smul (a : ℝ) (x : Vec n) : vnorm (fun i => a * x i) = |a| * vnorm x := by
  unfold vnorm
  have : sqNorm (fun i => a * x i) = a ^ 2 * sqNorm x := by
    unfold sqNorm
    rw [Finset.mul_sum]
    exact Finset.sum_congr rfl fun i _ => by ring
  rw [this, Real.sqrt_mul (sq_nonneg a), Real.sqrt_sq_eq_abs]

theorem meanShiftNorm_map (ha : 0 < D.a) (J : Rest n) (s : Strat n) (sh : Vec n) :
    (D.st J s).meanShiftNorm (fun i => D.a * sh i) = s.meanShiftNorm sh := by
  have key : ∀ x : Vec n, vnorm (fun i => D.a * x i) / (D.a * s.sol.sigma) = vnorm x / s.sol.sigma := by
    intro x
    rw [vnorm_smul, abs_of_pos ha, mul_div_mul_left _ _ ha.ne']
  unfold Strat.meanShiftNorm
  rw [show (D.st J s).p.sep = s.p.sep from rfl, show (D.st J s).p.vd = s.p.vd from rfl,
    show (D.st J s).es.eig = s.es.eig from rfl, show (D.st J s).sol.sepcov = s.sol.sepcov from rfl,
    show (D.st J s).sol.sigma = D.a * s.sol.sigma from rfl]
  by_cases hf : (!s.p.sep && !s.p.vd) = true
  · rw [if_pos hf, if_pos hf]
    cases s.es.eig with
    | none => rfl
    | some e =>
      simp only
      by_cases hp : ∀ i, 0 < e.1 i
      · rw [if_pos hp, if_pos hp, ← key]
        congr 3
        funext i
        have : (e.2ᵀ.mulVec fun i => D.a * sh i) = D.a • e.2ᵀ.mulVec sh := by
          rw [← Matrix.mulVec_smul]
          rfl
        rw [this]
        simp only [Pi.smul_apply, smul_eq_mul]
        ring
      · rw [if_neg hp, if_neg hp]
  · rw [if_neg hf, if_neg hf]
    by_cases hp : ∀ i, 0 < s.sol.sepcov i
    · rw [if_pos hp, if_pos hp, ← key]
      congr 3
      funext i
      ring
    · rw [if_neg hp, if_neg hp]

/-- What the other state must share for `ask` to correspond. -/
structure Corr (D : Aff n) (J : Rest n) (s : Strat n) : Prop where
  cands : J.cands.length = s.sol.cands.length
  calls : J.calls.length = s.calls.length
  mean : 0 < s.niter → J.mean = D.pt s.es.mean
  prev : s.p.tpa = 2 → 0 < s.niter → J.prev = D.pt s.sol.xmeanPrev
  lambda : s.sol.cands.length = s.p.lambda

theorem askPrepare_map {env env' : Env n} (he : env'.eig = env.eig) {s s' : Strat n} {J : Rest n}
    (hm : 0 < s.niter → J.mean = D.pt s.es.mean) (h : s.askPrepare env = .ok s') :
    (D.st J s).askPrepare env' = .ok (D.st { J with mean := D.pt s'.es.mean } s') := by
  unfold Strat.askPrepare at h ⊢
  rw [show (D.st J s).p.sep = s.p.sep from rfl, show (D.st J s).p.vd = s.p.vd from rfl,
    show (D.st J s).niter = s.niter from rfl, show (D.st J s).p.lazyUpdate = s.p.lazyUpdate from rfl,
    show (D.st J s).p.lazyValue = s.p.lazyValue from rfl,
    show (D.st J s).sol.eigeniter = s.sol.eigeniter from rfl,
    show (D.st J s).sol.hasCov = s.sol.hasCov from rfl, show (D.st J s).sol.hasSep = s.sol.hasSep from rfl,
    show (D.st J s).sol.cov = s.sol.cov from rfl, show (D.st J s).sol.sepcov = s.sol.sepcov from rfl, he]
  by_cases hf : (!s.p.sep && !s.p.vd) = true
  · rw [if_pos hf] at h ⊢
    by_cases hl : s.niter = 0 ∨ s.p.lazyUpdate = false ∨
        (((s.niter : ℤ) - s.sol.eigeniter : ℤ) : ℝ) > s.p.lazyValue
    · rw [if_pos hl] at h ⊢
      by_cases hc : s.sol.hasCov = false
      · rw [if_pos hc] at h; cases h
      rw [if_neg hc] at h ⊢
      injection h with h
      subst h
      rfl
    · rw [if_neg hl] at h ⊢
      injection h with h
      subst h
      have : 0 < s.niter := by
        rcases Nat.eq_zero_or_pos s.niter with h0 | h0
        · exact absurd (Or.inl h0) hl
        · exact h0
      show _ = Except.ok (D.st { J with mean := D.pt s.es.mean } _)
      rw [← hm this]
      rfl
  · rw [if_neg hf] at h ⊢
    by_cases hs : s.sol.hasSep = false
    · rw [if_pos hs] at h; cases h
    rw [if_neg hs] at h ⊢
    by_cases hsep : s.p.sep = true
    · rw [if_pos hsep] at h ⊢
      by_cases hp : ∀ i, 0 ≤ s.sol.sepcov i
      · rw [if_pos hp] at h ⊢
        injection h with h
        subst h
        rfl
      · rw [if_neg hp] at h; cases h
    · rw [if_neg hsep] at h ⊢
      injection h with h
      subst h
      rfl

theorem askSample_map {env env' : Env n} (hz : env'.z = env.z) {s s' : Strat n} {J : Rest n} {pop : List (Vec n)}
    (hm : J.mean = D.pt s.es.mean) (h : s.askSample env = .ok (pop, s')) :
    (D.st J s).askSample env' = .ok (pop.map D.pt, D.st J s') := by
  unfold Strat.askSample at h ⊢
  simp only at h ⊢
  rw [show (D.st J s).p.sep = s.p.sep from rfl, show (D.st J s).p.vd = s.p.vd from rfl,
    show (D.st J s).es.eig = s.es.eig from rfl, show (D.st J s).sol.hasV = s.sol.hasV from rfl,
    show (D.st J s).sol.v = s.sol.v from rfl, hz]
  by_cases hf : (!s.p.sep && !s.p.vd) = true
  · rw [if_pos hf] at h ⊢
    by_cases he : s.es.eig.isNone = true
    · rw [if_pos he] at h; cases h
    rw [if_neg he] at h ⊢
    injection h with h
    obtain ⟨rfl, rfl⟩ := Prod.mk.inj h
    congr 1
    refine Prod.ext ?_ rfl
    simp only [List.map_map]
    refine List.map_congr_left fun j _ => ?_
    funext i
    show D.a * s.sol.sigma * _ + J.mean i = D.a * (s.sol.sigma * _ + s.es.mean i) + D.t i
    rw [hm]
    unfold pt
    show D.a * s.sol.sigma * (s.es.transform.mulVec _ i) + _ = D.a * (s.sol.sigma * (s.es.transform.mulVec _ i) + _) + _
    ring!
  · rw [if_neg hf] at h ⊢
    by_cases hsep : s.p.sep = true
    · rw [if_pos hsep] at h ⊢
      injection h with h
      obtain ⟨rfl, rfl⟩ := Prod.mk.inj h
      congr 1
      refine Prod.ext ?_ rfl
      simp only [List.map_map]
      refine List.map_congr_left fun j _ => ?_
      funext i
      show D.a * s.sol.sigma * env.z (s.nz + j) i * s.es.sepTransform i + J.mean i =
        D.a * (s.sol.sigma * env.z (s.nz + j) i * s.es.sepTransform i + s.es.mean i) + D.t i
      rw [hm]
      unfold pt
      ring
    · rw [if_neg hsep] at h ⊢
      by_cases hv : s.sol.hasV = false
      · rw [if_pos hv] at h; cases h
      rw [if_neg hv] at h ⊢
      by_cases hn : sqNorm s.sol.v = 0
      · rw [if_pos hn] at h; cases h
      rw [if_neg hn] at h ⊢
      injection h with h
      obtain ⟨rfl, rfl⟩ := Prod.mk.inj h
      congr 1
      refine Prod.ext ?_ rfl
      simp only [List.map_map]
      refine List.map_congr_left fun j _ => ?_
      funext i
      show D.pt s.sol.xmean i + D.a * s.sol.sigma * _ = D.a * (s.sol.xmean i + s.sol.sigma * _) + D.t i
      unfold pt
      ring!

theorem askTpa_map (ha : 0 < D.a) {env env' : Env n} (hz : env'.z = env.z) {s s' : Strat n} {J : Rest n}
    {pop pop' : List (Vec n)} (hp : s.p.tpa = 2 → 0 < s.niter → J.prev = D.pt s.sol.xmeanPrev)
    (h : s.askTpa env pop = .ok (pop', s')) :
    ∃ x1 x2, (D.st J s).askTpa env' (pop.map D.pt) =
      .ok (pop'.map D.pt, D.st { J with x1 := x1, x2 := x2 } s') := by
  unfold Strat.askTpa at h ⊢
  rw [show (D.st J s).p.tpa = s.p.tpa from rfl, show (D.st J s).niter = s.niter from rfl]
  by_cases hc : s.p.tpa = 2 ∧ s.niter > 0
  · rw [if_pos hc] at h ⊢
    rw [show (D.st J s).sol.sigma = D.a * s.sol.sigma from rfl]
    by_cases hs : s.sol.sigma = 0
    · rw [if_pos hs] at h; cases h
    rw [if_neg hs] at h
    rw [if_neg (mul_ne_zero ha.ne' hs)]
    obtain ⟨nrm, h1, h⟩ := Out.bind_eq_ok.1 h
    have esh : (D.st J s).sol.xmean - (D.st J s).sol.xmeanPrev =
        fun i => D.a * (s.sol.xmean - s.sol.xmeanPrev) i := by
      funext i
      show D.pt s.sol.xmean i - J.prev i = _
      rw [hp hc.1 hc.2, pt_sub]
      rfl
    simp only [esh]
    rw [meanShiftNorm_map ha, h1, Out.ok_bind]
    by_cases hn : nrm = 0
    · rw [if_pos hn] at h; cases h
    rw [if_neg hn] at h ⊢
    rw [show (D.st J s).p.withGradient = s.p.withGradient from rfl,
      show (D.st J s).sol.tpaP1 = s.sol.tpaP1 from rfl, show (D.st J s).sol.tpaP2 = s.sol.tpaP2 from rfl,
      List.length_map]
    by_cases hb : pop.length ≤ (if s.p.withGradient = true then 1 else s.sol.tpaP1) ∨
        pop.length ≤ (if s.p.withGradient = true then 2 else s.sol.tpaP2)
    · rw [if_pos hb] at h; cases h
    rw [if_neg hb] at h ⊢
    injection h with h
    obtain ⟨rfl, rfl⟩ := Prod.mk.inj h
    refine ⟨(D.st J s).sol.xmean + (vnorm (env.z s.nz)) • fun i => D.a * (s.sol.xmean - s.sol.xmeanPrev) i / nrm,
      (D.st J s).sol.xmean - (vnorm (env.z s.nz)) • fun i => D.a * (s.sol.xmean - s.sol.xmeanPrev) i / nrm, ?_⟩
    rw [hz]
    show Except.ok _ = Except.ok _
    congr 1
    refine Prod.ext ?_ rfl
    rw [List.map_set, List.map_set]
    have e1 : (D.st J s).sol.xmean + (vnorm (env.z s.nz)) •
        (fun i => D.a * (s.sol.xmean - s.sol.xmeanPrev) i / nrm) =
        D.pt (s.sol.xmean + (vnorm (env.z s.nz)) • fun i => (s.sol.xmean - s.sol.xmeanPrev) i / nrm) := by
      funext i
      show D.pt s.sol.xmean i + vnorm (env.z s.nz) * (D.a * (s.sol.xmean i - s.sol.xmeanPrev i) / nrm) =
        D.a * (s.sol.xmean i + vnorm (env.z s.nz) * ((s.sol.xmean i - s.sol.xmeanPrev i) / nrm)) + D.t i
      unfold pt
      ring
    have e2 : (D.st J s).sol.xmean - (vnorm (env.z s.nz)) •
        (fun i => D.a * (s.sol.xmean - s.sol.xmeanPrev) i / nrm) =
        D.pt (s.sol.xmean - (vnorm (env.z s.nz)) • fun i => (s.sol.xmean - s.sol.xmeanPrev) i / nrm) := by
      funext i
      show D.pt s.sol.xmean i - vnorm (env.z s.nz) * (D.a * (s.sol.xmean i - s.sol.xmeanPrev i) / nrm) =
        D.a * (s.sol.xmean i - vnorm (env.z s.nz) * ((s.sol.xmean i - s.sol.xmeanPrev i) / nrm)) + D.t i
      unfold pt
      ring
    rw [← e1, ← e2]
    rfl
  · rw [if_neg hc] at h ⊢
    injection h with h
    obtain ⟨rfl, rfl⟩ := Prod.mk.inj h
    exact ⟨J.x1, J.x2, rfl⟩

theorem mapM_map {α β : Type} {f : α → Out β} {g : α → α} {k : β → β} (hfg : ∀ x y, f x = .ok y → f (g x) = .ok (k y))
    {l : List α} {l' : List β} (h : l.mapM f = .ok l') : (l.map g).mapM f = .ok (l'.map k) := by
  induction l generalizing l' with
  | nil => cases h; rfl
  | cons x l ih =>
    rw [List.mapM_cons] at h
    obtain ⟨y, h1, h⟩ := Out.bind_eq_ok.1 h
    obtain ⟨ys, h2, h⟩ := Out.bind_eq_ok.1 h
    injection h with h
    subst h
    rw [List.map_cons, List.mapM_cons, hfg x y h1, Out.ok_bind, ih h2, Out.ok_bind]
    rfl

theorem ask_map (ha : 0 < D.a) {env env' : Env n} (he : env'.eig = env.eig) (hz : env'.z = env.z)
    {s s' : Strat n} {J : Rest n} {pop : List (Vec n)} (hg : s.p.withGradient = false)
    (hfix : ∀ x y, setFixed s.p.fixedP x = .ok y → setFixed s.p.fixedP (D.pt x) = .ok (D.pt y))
    (hm : 0 < s.niter → J.mean = D.pt s.es.mean)
    (hp : s.p.tpa = 2 → 0 < s.niter → J.prev = D.pt s.sol.xmeanPrev)
    (h : s.ask env = .ok (pop, s')) :
    ∃ x1 x2, (D.st J s).ask env' =
      .ok (pop.map D.pt, D.st { J with mean := D.pt s'.es.mean, x1 := x1, x2 := x2 } s') := by
  unfold Strat.ask at h
  obtain ⟨s1, h1, h⟩ := Out.bind_eq_ok.1 h
  obtain ⟨⟨pop1, s2⟩, h2, h⟩ := Out.bind_eq_ok.1 h
  obtain ⟨⟨pop2, s3⟩, h3, h⟩ := Out.bind_eq_ok.1 h
  obtain ⟨⟨pop3, s4⟩, h4, h⟩ := Out.bind_eq_ok.1 h
  obtain ⟨pop4, h5, h⟩ := Out.bind_eq_ok.1 h
  injection h with h
  obtain ⟨rfl, rfl⟩ := Prod.mk.inj h
  have r1 := askPrepare_map (D := D) (env' := env') he hm h1
  obtain ⟨es1, ei1, ue1, e1⟩ := Strat.askPrepare_frame h1
  have r2 := askSample_map (D := D) (env' := env') (J := { J with mean := D.pt s1.es.mean }) hz rfl h2
  have e2 := (Strat.askSample_frame h2).1
  have e3 : (pop2, s3) = (pop1, s2) := by
    unfold Strat.askGradient at h3
    rw [if_pos (by rw [e2, e1]; exact hg)] at h3
    injection h3 with h3
    exact h3.symm
  obtain ⟨rfl, rfl⟩ := Prod.mk.inj e3
  have r3 : (D.st { J with mean := D.pt s1.es.mean } s3).askGradient env' (pop2.map D.pt) =
      .ok (pop2.map D.pt, D.st { J with mean := D.pt s1.es.mean } s3) := by
    unfold Strat.askGradient
    rw [if_pos (by show s3.p.withGradient = false; rw [e2, e1]; exact hg)]
  obtain ⟨x1, x2, r4⟩ := askTpa_map (D := D) ha (env' := env') (J := { J with mean := D.pt s1.es.mean }) hz
    (by rw [e2, e1]; exact hp) h4
  have hmean : s4.es = s1.es := by
    obtain ⟨⟨nz, y1, y2, p1, p2, e4⟩, _⟩ := Strat.askTpa_frame h4
    rw [e4, e2]
  refine ⟨x1, x2, ?_⟩
  unfold Strat.ask
  rw [r1, Out.ok_bind, r2, Out.ok_bind]
  dsimp only
  rw [r3, Out.ok_bind]
  dsimp only
  rw [r4, Out.ok_bind]
  dsimp only
  rw [show (D.st J s).p.fixedP = s.p.fixedP from rfl, mapM_map hfix h5, Out.ok_bind, hmean]
  rfl

/-- One generation of the other run. -/
theorem generation_map (hD : D.Mono) (ha : 0 < D.a) {env env' : Env n} (he : env'.eig = env.eig)
    (hz : env'.z = env.z) (hsch : env'.sched = env.sched) {s s' : Strat n}
    (hf : ∀ k x, negIf D.neg (env'.f k (D.pt x)) = D.φ (negIf s.negate (env.f k x)))
    {J : Rest n} (huh : s.p.uh = false) (hg : s.p.withGradient = false)
    (hw : ∑ i ∈ range s.p.mu, s.p.weights i = 1)
    (hfix : ∀ x y, setFixed s.p.fixedP x = .ok y → setFixed s.p.fixedP (D.pt x) = .ok (D.pt y))
    (hph : ∀ x y, phenoV s.p.gp x = .ok y → phenoV s.p.gp (D.pt x) = .ok (D.pt y))
    (hc : D.Corr J s) (h : s.generation env = .ok s') :
    ∃ J', (D.st J s).generation env' = .ok (D.st J' s') ∧ D.Corr J' s' ∧
      J'.cands = s'.sol.cands.map D.cand ∧ s'.p = s.p ∧ s'.negate = s.negate := by
  unfold Strat.generation at h
  obtain ⟨⟨pop, s1⟩, h1, h⟩ := Out.bind_eq_ok.1 h
  obtain ⟨phen, h2, h⟩ := Out.bind_eq_ok.1 h
  obtain ⟨s2, h3, h⟩ := Out.bind_eq_ok.1 h
  obtain ⟨s3, h4, h⟩ := Out.bind_eq_ok.1 h
  injection h with h
  subst h
  obtain ⟨x1, x2, r1⟩ := ask_map (D := D) ha (env' := env') he hz hg hfix hc.mean hc.prev h1
  obtain ⟨⟨es, ei, ue, c, nz, y1, y2, p1, p2, e1⟩, hpl⟩ := Strat.ask_frame h1
  have hcalls := Strat.ask_calls h1 hg
  have hp1 : s1.p = s.p := by rw [e1]
  have hc1 : s1.sol.cands = s.sol.cands := by rw [e1]
  have hn1 : s1.negate = s.negate := by rw [e1]
  have hpv1 : s1.sol.xmeanPrev = s.sol.xmeanPrev := by rw [e1]
  have hni1 : s1.niter = s.niter := by rw [e1]
  have r2 : (D.st { J with mean := D.pt s1.es.mean, x1 := x1, x2 := x2 } s1).phenoCols (pop.map D.pt) =
      .ok (phen.map D.pt) := by
    unfold Strat.phenoCols at h2 ⊢
    exact mapM_map (by rw [show (D.st _ s1).p.gp = s1.p.gp from rfl, hp1]; exact hph) h2
  obtain ⟨cs, cl, r3, hcs, hcl, hl2⟩ := eval_map hD (env' := env') hsch
    (J := { J with mean := D.pt s1.es.mean, x1 := x1, x2 := x2 }) (by rw [hn1]; exact hf)
    (by rw [hp1]; exact huh) (by rw [hc1]; exact hc.cands) (by rw [hcalls]; exact hc.calls)
    (by rw [hpl, hc1, hc.lambda]) h3
  obtain ⟨c2, nu2, nzuh2, lr2, cu2, cs2, e2, _⟩ := Strat.eval_frame h3
  have hp2 : s2.p = s.p := by rw [e2]; exact hp1
  have hn2 : s2.negate = s.negate := by rw [e2]; exact hn1
  have hes2 : s2.es = s1.es := by rw [e2]
  obtain ⟨md, pr, cs3, r4, hcs3, hpr, hl3⟩ := tell_map hD ha.ne' (env' := env') he
    (J := { J with mean := D.pt s1.es.mean, x1 := x1, x2 := x2, cands := cs, calls := cl })
    (by rw [hp2]; exact huh) (by rw [hp2]; exact hw) hcs h4
  have hp3 : s3.p = s.p := by
    obtain ⟨_, _, _, _, _, _, _, _, _, _, _, _, _, _, _, _, _, _, _, _, _, _, _, e⟩ := Strat.tell_frame h4
    rw [e]; exact hp2
  have hn3 : s3.negate = s.negate := by
    obtain ⟨_, _, _, _, _, _, _, _, _, _, _, _, _, _, _, _, _, _, _, _, _, _, _, e⟩ := Strat.tell_frame h4
    rw [e]; exact hn2
  have hes3 : s3.es = s1.es := by
    obtain ⟨_, _, _, _, _, _, _, _, _, _, _, _, _, _, _, _, _, _, _, _, _, _, _, e⟩ := Strat.tell_frame h4
    rw [e]; exact hes2
  have hca3 : s3.calls = s2.calls := by
    obtain ⟨_, _, _, _, _, _, _, _, _, _, _, _, _, _, _, _, _, _, _, _, _, _, _, e⟩ := Strat.tell_frame h4
    rw [e]
  refine ⟨{ J with mean := D.pt s1.es.mean, x1 := x1, x2 := x2, cands := cs3, calls := cl, med := md, prev := pr },
    ?_, ⟨?_, ?_, ?_, ?_, ?_⟩, hcs3, hp3, hn3⟩
  · unfold Strat.generation
    rw [r1, Out.ok_bind]
    dsimp only
    rw [r2, Out.ok_bind, r3, Out.ok_bind, r4, Out.ok_bind]
    rfl
  · show cs3.length = s3.sol.cands.length
    rw [hcs3, List.length_map]
  · show cl.length = s3.calls.length
    rw [hcl, hca3]
  · intro _
    show D.pt s1.es.mean = D.pt s3.es.mean
    rw [hes3]
  · intro ht _
    show pr = D.pt s3.sol.xmeanPrev
    refine hpr ?_
    have ht' : s3.p.tpa = 2 := ht
    rw [hp2, ← hp3, ht']
    decide
  · show s3.sol.cands.length = s3.p.lambda
    rw [hl3, hl2, hp3, hc1, hc.lambda]

/-- Any number of generations of the other run. -/
theorem generations_map (hD : D.Mono) (ha : 0 < D.a) {env env' : Env n} (he : env'.eig = env.eig)
    (hz : env'.z = env.z) (hsch : env'.sched = env.sched) {s s' : Strat n}
    (hf : ∀ k x, negIf D.neg (env'.f k (D.pt x)) = D.φ (negIf s.negate (env.f k x)))
    {J : Rest n} (huh : s.p.uh = false) (hg : s.p.withGradient = false)
    (hw : ∑ i ∈ range s.p.mu, s.p.weights i = 1)
    (hfix : ∀ x y, setFixed s.p.fixedP x = .ok y → setFixed s.p.fixedP (D.pt x) = .ok (D.pt y))
    (hph : ∀ x y, phenoV s.p.gp x = .ok y → phenoV s.p.gp (D.pt x) = .ok (D.pt y))
    (hc : D.Corr J s) (k : ℕ) (h : s.generations env k = .ok s') :
    ∃ J', (D.st J s).generations env' k = .ok (D.st J' s') ∧ D.Corr J' s' ∧
      (0 < k → J'.cands = s'.sol.cands.map D.cand) := by
  induction k generalizing s J with
  | zero =>
    injection h with h
    subst h
    exact ⟨J, rfl, hc, fun h => absurd h (lt_irrefl 0)⟩
  | succ k ih =>
    unfold Strat.generations at h
    obtain ⟨s1, h1, h⟩ := Out.bind_eq_ok.1 h
    obtain ⟨J1, r1, hc1, hcs1, hp1, hn1⟩ := generation_map hD ha he hz hsch hf huh hg hw hfix hph hc h1
    obtain ⟨J2, r2, hc2, hcs2⟩ := ih (s := s1) (J := J1) (by rw [hn1]; exact hf) (by rw [hp1]; exact huh)
      (by rw [hp1]; exact hg) (by rw [hp1]; exact hw) (by rw [hp1]; exact hfix) (by rw [hp1]; exact hph)
      hc1 h
    refine ⟨J2, ?_, hc2, fun _ => ?_⟩
    · unfold Strat.generations
      rw [r1, Out.ok_bind, r2]
    · rcases Nat.eq_zero_or_pos k with h0 | h0
      · subst h0
        have e : s1 = s' := by injection h
        have e2 : D.st J1 s1 = D.st J2 s' := by injection r2
        subst e
        have := congrArg (fun x : Strat n => x.sol.cands) e2
        exact this.symm.trans hcs1
      · exact hcs2 h0

/-- The two constructors. -/
theorem new_map (ha : 0 < D.a) {env env' : Env n} (hz : env'.z = env.z)
    {kind : CovKind} {p : Params n} {s : Strat n} (hsg : 0 < p.sigmaInit ∨ D.a = 1)
    (hm : ∀ m, initialMean p (env.rnd 0) = .ok m → initialMean (D.par p) (env'.rnd 0) = .ok (D.pt m))
    (h : Strat.new env kind p = .ok s) :
    ∃ J, Strat.new env' kind (D.par p) = .ok (D.st J s) ∧ D.Corr J s := by
  unfold Strat.new Sol.make at h ⊢
  obtain ⟨⟨p', sol⟩, h1, h⟩ := Out.bind_eq_ok.1 h
  obtain ⟨m, h2, h1⟩ := Out.bind_eq_ok.1 h1
  rw [hm m h2, Out.ok_bind]
  by_cases h0 : p.lambda = 0 ∨ n = 0
  · rw [if_pos h0] at h1; cases h1
  rw [if_neg h0] at h1
  rw [if_neg (show ¬ ((D.par p).lambda = 0 ∨ n = 0) from h0)]
  injection h1 with h1
  injection h with h
  have hsig : (if (D.par p).sigmaInit > 0 then (D.par p).sigmaInit else 1 / (n : ℝ)) =
      D.a * (if p.sigmaInit > 0 then p.sigmaInit else 1 / (n : ℝ)) := by
    show (if D.a * p.sigmaInit > 0 then D.a * p.sigmaInit else _) = _
    rcases hsg with h | h
    · rw [if_pos (mul_pos ha h), if_pos h]
    · rw [h, one_mul, one_mul]
  obtain ⟨rfl, rfl⟩ := Prod.mk.inj h1
  subst h
  refine ⟨⟨[], fun _ => 0, fun _ => 0, fun _ => 0, fun _ => 0, List.replicate p.lambda Cand.blank, []⟩, ?_,
    ⟨by simp, rfl, fun h => absurd h (by simp), fun _ h => absurd h (by simp), by simp⟩⟩
  show Except.ok _ = Except.ok _
  congr 1
  simp only [hsig, hz]
  rfl

end Aff

theorem FVal.neg_neg' (v : FVal) : v.neg.neg = v := by
  cases v with
  | nan => rfl
  | num a => show FVal.num (- -a) = _; rw [neg_neg]

theorem FVal.lt_neg (a b : FVal) : FVal.lt a.neg b.neg ↔ FVal.lt b a := by
  cases a <;> cases b <;> simp [FVal.neg, FVal.lt]

/-- What a run of any number of generations tells about the corresponding run. -/
theorem Aff.same {D : Aff n} {J : Rest n} {s : Strat n} :
    SameSearch D.pt D.a s.sol (D.st J s).sol :=
  ⟨rfl, rfl, rfl, rfl, rfl, rfl, rfl⟩

theorem Aff.points {D : Aff n} {J : Rest n} {s : Strat n} (hJ : J.cands = s.sol.cands.map D.cand)
    (hb : s.sol.bestHist ≠ []) : SamePoints D.pt D.φ s.sol (D.st J s).sol := by
  refine ⟨hJ, ?_, rfl⟩
  unfold Sol.bestCandidate
  show (match (s.sol.bestHist.map D.cand).getLast? with | some c => c | none => _) = _
  rw [List.getLast?_map]
  cases h : s.sol.bestHist.getLast? with
  | none => exact absurd (List.getLast?_eq_none_iff.1 h) hb
  | some c => rfl

theorem bestHist_ne {env : Env n} {kind : CovKind} {p : Params n} {s s1 : Strat n} {k : ℕ}
    (h0 : Strat.new env kind p = .ok s) (h1 : s.generations env (k + 1) = .ok s1) : s1.sol.bestHist ≠ [] := by
  obtain ⟨t, ht, hl⟩ := Strat.generations_succ_last k h1
  obtain ⟨tr, hr⟩ := Strat.generations_run _ ht
  have hmt : t.sol.maxHist = s.sol.maxHist := (run_p hr.2).2.2.1
  have hm : 0 < t.sol.maxHist := by
    rw [hmt, (Strat.new_ok h0).2.2.2.2.2.2.2.2.2.2.2.2.2.2.1]
    exact maxHistOf_pos _ _ _
  unfold Strat.generation at hl
  obtain ⟨⟨pop, t1⟩, g1, hl⟩ := Out.bind_eq_ok.1 hl
  obtain ⟨phen, g2, hl⟩ := Out.bind_eq_ok.1 hl
  obtain ⟨t2, g3, hl⟩ := Out.bind_eq_ok.1 hl
  obtain ⟨t3, g4, hl⟩ := Out.bind_eq_ok.1 hl
  injection hl with hl
  subst hl
  obtain ⟨⟨es, ei, ue, c, nz, y1, y2, p1, p2, e1⟩, _⟩ := Strat.ask_frame g1
  obtain ⟨c2, nu, nzuh, lr, cu, cs, e2, _⟩ := Strat.eval_frame g3
  obtain ⟨cs', cu', su, ts, sol3, hs, hb, csq, hc, sc, ps, hs', pc, cov, sep, v, sg, xp, xm, mx, mn, lv, le,
    e'⟩ := Strat.tell_frame g4
  obtain ⟨c0, ck, cl, med, h0, hk, hl, hmed, e3, _⟩ := Sol.updateBest_ok hb
  have hm2 : t2.sol.maxHist = t.sol.maxHist := by rw [e2, e1]
  rw [e']
  show sol3.bestHist ≠ []
  rw [e3]
  simp only
  split_ifs with hif
  · rw [hm2] at hif
    intro h
    have := congrArg List.length h
    rw [List.length_tail, List.length_nil] at this
    omega
  · simp

end Libcmaes
