import Verif.Lemmas.Cov
import Verif.Spec.Shrink

/-! # Lower bounds for the new covariance and step size -/

namespace Libcmaes

open Spec Matrix Finset

variable {n : ℕ}

theorem acovNext_quad (eig : EigSolver n) {p : Params n} {s : Sol n} {csq : Mat n} {hb cm : ℝ}
    (hn : 1 ≤ n) (hw : GoodWeights p) (hr : Admissible p) (hst : StrictRates p) (hC : PD s.cov)
    (hmuw : 1 ≤ p.muw) (hcsq : inverseSqrt (eig.solve s.cov) = .ok csq)
    (h : cminusOf p (maxCoeff (eig.solve (csq * rankMuMinus p s * csq)).1) = .ok cm) (x : Vec n) :
    (0.66 * (1 - p.cmu) - p.c1) * quad s.cov x ≤ quad (acovNext p s csq hb cm).cov x := by
  have hcmu : p.cmu < 1 := by have := hst.lt_one; have := hr.c1_pos; linarith
  obtain ⟨hc0, hle⟩ := cminus_rankMuMinus_le eig hn hw hC hcmu hmuw hcsq h
  have hm := rankMu_psd hw s
  show _ ≤ quad ((1 - p.c1 - p.cmu + cm * 0.5) • s.cov + p.c1 • vecMulVec _ _
    + (p.cmu + cm * (1 - 0.5)) • rankMu p s - cm • rankMuMinus p s) x
  rw [quad_sub, quad_add, quad_add, quad_smul, quad_smul, quad_smul, quad_smul, quad_vecMulVec]
  have h1 := hC.psd.nonneg x
  have h2 : 0 ≤ (p.cmu + cm * (1 - 0.5)) * quad (rankMu p s) x :=
    mul_nonneg (by have := hr.cmu_nonneg; norm_num; positivity) (hm.nonneg x)
  have h3 := mul_nonneg hr.c1_pos.le (sq_nonneg
    (pcNext p s (hsigNext (psNext p s csq (recombineActive p s)) hb) (recombineActive p s) ⬝ᵥ x))
  have h4 := hle x
  have h5 : 0 ≤ cm * 0.5 * quad s.cov x := mul_nonneg (by positivity) h1
  nlinarith

theorem acovNextSep_ge {p : Params n} {s : Sol n} {csq : Vec n} {hb cm : ℝ} (hw : GoodWeights p)
    (hr : Admissible p) (hst : StrictRates p) (hmuw : 1 ≤ p.muw) (hcsq : sepcsqinvOf s = .ok csq)
    (h : cminusOf p (maxCoeff (csq * (rankMuMinusSep p s * csq))) = .ok cm) (k : Fin n) :
    (0.66 * (1 - p.cmu) - p.c1) * s.sepcov k ≤ (acovNextSep p s csq hb cm).sepcov k := by
  have hcmu : p.cmu < 1 := by have := hst.lt_one; have := hr.c1_pos; linarith
  obtain ⟨hC, hq⟩ := sepcsqinvOf_ok hcsq
  have hx : ∀ i, (csq * (rankMuMinusSep p s * csq)) i = rankMuMinusSep p s i / s.sepcov i := by
    intro i
    show csq i * (rankMuMinusSep p s i * csq i) = _
    have : csq i * csq i = 1 / s.sepcov i := by
      rw [hq]; exact Real.mul_self_sqrt (by have := hC i; positivity)
    calc _ = rankMuMinusSep p s i * (csq i * csq i) := by ring
      _ = _ := by rw [this]; ring
  have ht : 0 ≤ maxCoeff (csq * (rankMuMinusSep p s * csq)) := by
    refine le_trans ?_ (le_maxCoeff _ k)
    rw [hx]
    exact div_nonneg (rankMuMinusSep_nonneg hw s k) (hC k).le
  obtain ⟨hc0, hc⟩ := cminusOf_ok hcmu hmuw ht h
  have hle : cm * rankMuMinusSep p s k ≤ 0.34 * (1 - p.cmu) * s.sepcov k := by
    have h1 := le_maxCoeff (csq * (rankMuMinusSep p s * csq)) k
    rw [hx, div_le_iff₀ (hC k)] at h1
    calc _ ≤ cm * (maxCoeff (csq * (rankMuMinusSep p s * csq)) * s.sepcov k) :=
          mul_le_mul_of_nonneg_left h1 hc0
      _ = cm * maxCoeff (csq * (rankMuMinusSep p s * csq)) * s.sepcov k := by ring
      _ ≤ _ := mul_le_mul_of_nonneg_right hc (hC k).le
  show _ ≤ (1 - p.c1 - p.cmu + cm * 0.5) * s.sepcov k
      + p.c1 * (pcNext p s (hsigNext (psNextSep p s csq (recombineActive p s)) hb) (recombineActive p s) k *
        pcNext p s (hsigNext (psNextSep p s csq (recombineActive p s)) hb) (recombineActive p s) k)
      + (p.cmu + cm * (1 - 0.5)) * rankMuSep p s k - cm * rankMuMinusSep p s k
  have h2 : 0 ≤ (p.cmu + cm * (1 - 0.5)) * rankMuSep p s k :=
    mul_nonneg (by have := hr.cmu_nonneg; norm_num; positivity) (rankMuSep_nonneg hw s k)
  have h3 := mul_nonneg hr.c1_pos.le (mul_self_nonneg
    (pcNext p s (hsigNext (psNextSep p s csq (recombineActive p s)) hb) (recombineActive p s) k))
  have h5 : 0 ≤ cm * 0.5 * s.sepcov k := mul_nonneg (by positivity) (hC k).le
  nlinarith

theorem vnorm_nonneg (x : Vec n) : 0 ≤ vnorm x := Real.sqrt_nonneg _

theorem sigmaUpdate_ge {p : Params n} {s : Sol n} {v : ℝ} (hr : Admissible p) (hchi : 0 < p.chi) (htpa : p.tpa < 2)
    (hs : 0 ≤ s.sigma) (hv : 0 ≤ v) : Real.exp (-(p.csigma / p.dsigma)) * s.sigma ≤ sigmaUpdate p s v := by
  unfold sigmaUpdate
  rw [if_pos htpa, mul_comm]
  refine mul_le_mul_of_nonneg_left (Real.exp_le_exp.2 ?_) hs
  have h1 : 0 ≤ p.csigma / p.dsigma := (div_pos hr.csigma_pos hr.dsigma_pos).le
  have h2 : 0 ≤ v / p.chi := div_nonneg hv hchi.le
  nlinarith [mul_nonneg h1 h2]

theorem keepRate_pos {kind : CovKind} {p : Params n} (hst : StrictRates p) : 0 < keepRate kind p := by
  unfold keepRate
  split_ifs
  · have := hst.active; linarith
  · have := hst.lt_one; linarith

theorem sqrt_pow_eq {a : ℝ} (h : 0 ≤ a) (k : ℕ) : Real.sqrt (a ^ k) = Real.sqrt a ^ k := by
  induction k with
  | zero => simp
  | succ k ih => rw [pow_succ, Real.sqrt_mul (pow_nonneg h k), ih, pow_succ]

theorem shrinkRate_pos {kind : CovKind} {p : Params n} (hst : StrictRates p) : 0 < shrinkRate kind p :=
  mul_pos (Real.exp_pos _) (Real.sqrt_pos.2 (keepRate_pos hst))

theorem len_zero : len (0 : Vec n) = 0 := by simp [len]

end Libcmaes
