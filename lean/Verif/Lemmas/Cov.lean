import Verif.Lemmas.Step
import Verif.Lemmas.Good

/-! # Positive definiteness through the covariance updates -/

namespace Libcmaes

open Spec Matrix Finset

variable {n : ℕ}

theorem oldCovFactor_ge {p : Params n} (hr : Admissible p) (b : Bool) :
    1 - p.c1 - p.cmu ≤ oldCovFactor p b := by
  unfold oldCovFactor
  have h1 : 0 ≤ (1 - hsigR b) * p.c1 * p.cc * (2 - p.cc) := by
    have h2 : 0 ≤ 1 - hsigR b := by unfold hsigR; split_ifs <;> norm_num
    have h3 := hr.c1_pos.le
    have h4 := hr.cc_pos.le
    have h5 : 0 ≤ 2 - p.cc := by have := hr.cc_le; linarith
    positivity
  linarith

theorem GoodWeights_nonneg {p : Params n} (hw : GoodWeights p) {i : ℕ} (hi : i ∈ range p.mu) :
    0 ≤ p.weights i := (hw.pos i (mem_range.1 hi)).le

theorem rankMu_psd {p : Params n} (hw : GoodWeights p) (s : Sol n) : PSD (rankMu p s) := by
  unfold rankMu
  constructor
  · exact (isSymm_sum _ _ fun i _ => (isSymm_vecMulVec _).smul _).smul _
  · intro x
    rw [quad_smul, quad_sum]
    refine mul_nonneg (by have := mul_self_nonneg s.sigma; positivity) (sum_nonneg fun i hi => ?_)
    rw [quad_smul, quad_vecMulVec]
    exact mul_nonneg (GoodWeights_nonneg hw hi) (sq_nonneg _)

theorem rankMuMinus_psd {p : Params n} (hw : GoodWeights p) (s : Sol n) : PSD (rankMuMinus p s) := by
  unfold rankMuMinus
  constructor
  · exact isSymm_sum _ _ fun i _ => (isSymm_vecMulVec _).smul _
  · intro x
    rw [quad_sum]
    refine sum_nonneg fun i hi => ?_
    rw [quad_smul, quad_vecMulVec]
    exact mul_nonneg (GoodWeights_nonneg hw hi) (sq_nonneg _)

theorem covNext_quad {p : Params n} {s : Sol n} {csq : Mat n} {hb : ℝ} (hw : GoodWeights p)
    (hr : Admissible p) (hC : PSD s.cov) :
    (covNext p s csq hb).cov.IsSymm ∧
      ∀ x, (1 - p.c1 - p.cmu) * quad s.cov x ≤ quad (covNext p s csq hb).cov x := by
  have hm := rankMu_psd hw s
  constructor
  · exact ((hC.symm.smul _).add ((isSymm_vecMulVec _).smul _)).add (hm.symm.smul _)
  · intro x
    show _ ≤ quad (oldCovFactor p _ • s.cov + p.c1 • vecMulVec _ _ + p.cmu • rankMu p s) x
    rw [quad_add, quad_add, quad_smul, quad_smul, quad_smul, quad_vecMulVec]
    have h1 := mul_le_mul_of_nonneg_right
      (oldCovFactor_ge hr (hsigNext (psNext p s csq (recombine p s.cands)) hb)) (hC.nonneg x)
    have h2 := mul_nonneg hr.cmu_nonneg (hm.nonneg x)
    have h3 := mul_nonneg hr.c1_pos.le (sq_nonneg
      (pcNext p s (hsigNext (psNext p s csq (recombine p s.cands)) hb) (recombine p s.cands) ⬝ᵥ x))
    linarith

theorem cminusOf_ok {p : Params n} {t cm : ℝ} (hcmu : p.cmu < 1) (hmuw : 1 ≤ p.muw) (ht : 0 ≤ t)
    (h : cminusOf p t = .ok cm) : 0 ≤ cm ∧ cm * t ≤ 0.34 * (1 - p.cmu) := by
  have hmuw' : 0 < p.muw := by linarith
  have h1c : 0 < 1 - p.cmu := by linarith
  have hcap : 0 ≤ (1 - p.cmu) * 2 / 8 * (p.muw / (((n : ℝ) + 2) ^ (1.5 : ℝ) + 2 * p.muw)) := by positivity
  unfold cminusOf at h
  simp only at h
  split_ifs at h with h0
  · injection h with h
    subst h
    rw [h0, mul_zero]
    exact ⟨hcap, by positivity⟩
  · injection h with h
    subst h
    have ht' : 0 < t := lt_of_le_of_ne ht (Ne.symm h0)
    refine ⟨le_min (by norm_num; positivity) hcap, ?_⟩
    calc _ ≤ (1 - p.cmu) * (1 - 0.66) / t * t := mul_le_mul_of_nonneg_right (min_le_left _ _) ht
      _ = _ := by field_simp; norm_num

/-- The negative update takes away less than 0.34(1-cmu) of the old matrix. -/
theorem cminus_rankMuMinus_le (eig : EigSolver n) {p : Params n} {s : Sol n} {csq : Mat n} {cm : ℝ}
    (hn : 1 ≤ n) (hw : GoodWeights p) (hC : PD s.cov) (hcmu : p.cmu < 1) (hmuw : 1 ≤ p.muw)
    (hcsq : inverseSqrt (eig.solve s.cov) = .ok csq)
    (h : cminusOf p (maxCoeff (eig.solve (csq * rankMuMinus p s * csq)).1) = .ok cm) :
    0 ≤ cm ∧ ∀ x, cm * quad (rankMuMinus p s) x ≤ 0.34 * (1 - p.cmu) * quad s.cov x := by
  obtain ⟨hs, hp, r, hr, h1, h2, h3⟩ := inverseSqrt_spec eig hC.symm hcsq
  have hR := rankMuMinus_psd hw s
  have hM : (csq * rankMuMinus p s * csq).IsSymm := by
    unfold Matrix.IsSymm
    rw [transpose_mul, transpose_mul, hs, hR.symm, Matrix.mul_assoc]
  have hMp : PSD (csq * rankMuMinus p s * csq) := ⟨hM, fun x => by
    have := quad_conj csq (rankMuMinus p s) x
    rw [hs] at this
    rw [this]; exact hR.nonneg _⟩
  have ht : 0 ≤ maxCoeff (eig.solve (csq * rankMuMinus p s * csq)).1 :=
    le_trans (eig_nonneg eig hMp ⟨0, hn⟩) (le_maxCoeff _ _)
  obtain ⟨hc0, hc⟩ := cminusOf_ok hcmu hmuw ht h
  refine ⟨hc0, fun x => ?_⟩
  have hq : quad (rankMuMinus p s) x = quad (csq * rankMuMinus p s * csq) (r.mulVec x) := by
    have := quad_conj csq (rankMuMinus p s) (r.mulVec x)
    rw [hs, mulVec_mulVec, h1, one_mulVec] at this
    exact this.symm
  have hd : r.mulVec x ⬝ᵥ r.mulVec x = quad s.cov x := by
    unfold quad
    rw [← h3, ← mulVec_mulVec, dotProduct_mulVec x, ← mulVec_transpose, hr]
  have hle := quad_le_maxCoeff eig hM (r.mulVec x)
  rw [hd, ← hq] at hle
  have hCx := hC.psd.nonneg x
  calc cm * quad (rankMuMinus p s) x
      ≤ cm * (maxCoeff (eig.solve (csq * rankMuMinus p s * csq)).1 * quad s.cov x) :=
        mul_le_mul_of_nonneg_left hle hc0
    _ = cm * maxCoeff (eig.solve (csq * rankMuMinus p s * csq)).1 * quad s.cov x := by ring
    _ ≤ _ := mul_le_mul_of_nonneg_right hc hCx

theorem acovNext_pd (eig : EigSolver n) {p : Params n} {s : Sol n} {csq : Mat n} {hb cm : ℝ}
    (hn : 1 ≤ n) (hw : GoodWeights p) (hr : Admissible p) (hst : StrictRates p) (hC : PD s.cov)
    (hmuw : 1 ≤ p.muw) (hcsq : inverseSqrt (eig.solve s.cov) = .ok csq)
    (h : cminusOf p (maxCoeff (eig.solve (csq * rankMuMinus p s * csq)).1) = .ok cm) :
    PD (acovNext p s csq hb cm).cov := by
  have hcmu : p.cmu < 1 := by have := hst.lt_one; have := hr.c1_pos; linarith
  obtain ⟨hc0, hle⟩ := cminus_rankMuMinus_le eig hn hw hC hcmu hmuw hcsq h
  have hm := rankMu_psd hw s
  have hR := rankMuMinus_psd hw s
  constructor
  · exact ((((hC.symm.smul _).add ((isSymm_vecMulVec _).smul _)).add (hm.symm.smul _))).sub
      (hR.symm.smul _)
  · intro x hx
    show 0 < quad ((1 - p.c1 - p.cmu + cm * 0.5) • s.cov + p.c1 • vecMulVec _ _
      + (p.cmu + cm * (1 - 0.5)) • rankMu p s - cm • rankMuMinus p s) x
    rw [quad_sub, quad_add, quad_add, quad_smul, quad_smul, quad_smul, quad_smul, quad_vecMulVec]
    have h1 := hC.pos x hx
    have h2 : 0 ≤ (p.cmu + cm * (1 - 0.5)) * quad (rankMu p s) x :=
      mul_nonneg (by have := hr.cmu_nonneg; norm_num; positivity) (hm.nonneg x)
    have h3 := mul_nonneg hr.c1_pos.le (sq_nonneg
      (pcNext p s (hsigNext (psNext p s csq (recombineActive p s)) hb) (recombineActive p s) ⬝ᵥ x))
    have h4 := hle x
    have h5 : 0 < (1 - p.c1 - p.cmu + cm * 0.5 - 0.34 * (1 - p.cmu)) * quad s.cov x := by
      refine mul_pos ?_ h1
      have := hst.active
      nlinarith
    linarith

/-! ### Diagonal model -/

theorem rankMuSep_nonneg {p : Params n} (hw : GoodWeights p) (s : Sol n) (k : Fin n) :
    0 ≤ rankMuSep p s k := by
  unfold rankMuSep
  refine mul_nonneg (by have := mul_self_nonneg s.sigma; positivity) (sum_nonneg fun i hi => ?_)
  exact mul_nonneg (GoodWeights_nonneg hw hi) (mul_self_nonneg _)

theorem rankMuMinusSep_nonneg {p : Params n} (hw : GoodWeights p) (s : Sol n) (k : Fin n) :
    0 ≤ rankMuMinusSep p s k := by
  unfold rankMuMinusSep
  exact sum_nonneg fun i hi => mul_nonneg (GoodWeights_nonneg hw hi) (mul_self_nonneg _)

theorem sepcsqinvOf_ok {s : Sol n} {csq : Vec n} (h : sepcsqinvOf s = .ok csq) :
    (∀ i, 0 < s.sepcov i) ∧ csq = fun i => Real.sqrt (1 / s.sepcov i) := by
  unfold sepcsqinvOf at h
  split_ifs at h with h1
  injection h with h
  exact ⟨h1, h.symm⟩

theorem covNextSep_ge {p : Params n} {s : Sol n} {csq : Vec n} {hb : ℝ} (hw : GoodWeights p)
    (hr : Admissible p) (k : Fin n) (hC : 0 ≤ s.sepcov k) :
    (1 - p.c1 - p.cmu) * s.sepcov k ≤ (covNextSep p s csq hb).sepcov k := by
  show _ ≤ oldCovFactor p (hsigNext (psNextSep p s csq (recombine p s.cands)) hb) * s.sepcov k
    + p.c1 * (pcNext p s _ _ k * pcNext p s _ _ k) + p.cmu * rankMuSep p s k
  have h1 := mul_le_mul_of_nonneg_right
    (oldCovFactor_ge hr (hsigNext (psNextSep p s csq (recombine p s.cands)) hb)) hC
  have h2 := mul_nonneg hr.cmu_nonneg (rankMuSep_nonneg hw s k)
  have h3 := mul_nonneg hr.c1_pos.le (mul_self_nonneg
    (pcNext p s (hsigNext (psNextSep p s csq (recombine p s.cands)) hb) (recombine p s.cands) k))
  linarith

theorem acovNextSep_pos {p : Params n} {s : Sol n} {csq : Vec n} {hb cm : ℝ} (hw : GoodWeights p)
    (hr : Admissible p) (hst : StrictRates p) (hmuw : 1 ≤ p.muw) (hcsq : sepcsqinvOf s = .ok csq)
    (h : cminusOf p (maxCoeff (csq * (rankMuMinusSep p s * csq))) = .ok cm) (k : Fin n) :
    0 < (acovNextSep p s csq hb cm).sepcov k := by
  have hcmu : p.cmu < 1 := by have := hst.lt_one; have := hr.c1_pos; linarith
  obtain ⟨hC, hq⟩ := sepcsqinvOf_ok hcsq
  have hx : ∀ i, (csq * (rankMuMinusSep p s * csq)) i = rankMuMinusSep p s i / s.sepcov i := by
    intro i
    show csq i * (rankMuMinusSep p s i * csq i) = _
    have : csq i * csq i = 1 / s.sepcov i := by
      rw [hq]; exact Real.mul_self_sqrt (by have := hC i; positivity)
    calc _ = rankMuMinusSep p s i * (csq i * csq i) := by ring
      _ = _ := by rw [this]; ring
  have ht : 0 ≤ maxCoeff (csq * (rankMuMinusSep p s * csq)) := by
    refine le_trans ?_ (le_maxCoeff _ k)
    rw [hx]
    exact div_nonneg (rankMuMinusSep_nonneg hw s k) (hC k).le
  obtain ⟨hc0, hc⟩ := cminusOf_ok hcmu hmuw ht h
  have hle : cm * rankMuMinusSep p s k ≤ 0.34 * (1 - p.cmu) * s.sepcov k := by
    have h1 := le_maxCoeff (csq * (rankMuMinusSep p s * csq)) k
    rw [hx, div_le_iff₀ (hC k)] at h1
    calc _ ≤ cm * (maxCoeff (csq * (rankMuMinusSep p s * csq)) * s.sepcov k) :=
          mul_le_mul_of_nonneg_left h1 hc0
      _ = cm * maxCoeff (csq * (rankMuMinusSep p s * csq)) * s.sepcov k := by ring
      _ ≤ _ := mul_le_mul_of_nonneg_right hc (hC k).le
  show 0 < (1 - p.c1 - p.cmu + cm * 0.5) * s.sepcov k
      + p.c1 * (pcNext p s (hsigNext (psNextSep p s csq (recombineActive p s)) hb) (recombineActive p s) k *
        pcNext p s (hsigNext (psNextSep p s csq (recombineActive p s)) hb) (recombineActive p s) k)
      + (p.cmu + cm * (1 - 0.5)) * rankMuSep p s k - cm * rankMuMinusSep p s k
  have h2 : 0 ≤ (p.cmu + cm * (1 - 0.5)) * rankMuSep p s k :=
    mul_nonneg (by have := hr.cmu_nonneg; norm_num; positivity) (rankMuSep_nonneg hw s k)
  have h3 := mul_nonneg hr.c1_pos.le (mul_self_nonneg
    (pcNext p s (hsigNext (psNextSep p s csq (recombineActive p s)) hb) (recombineActive p s) k))
  have h5 : 0 < (1 - p.c1 - p.cmu + cm * 0.5 - 0.34 * (1 - p.cmu)) * s.sepcov k := by
    refine mul_pos ?_ (hC k)
    have := hst.active
    nlinarith
  linarith

end Libcmaes
