import Verif.Spec.Cma
import Verif.Lemmas.Cov

/-! # The code's update formulas are the published ones -/

namespace Libcmaes

open Spec Matrix Finset

variable {n : ℕ}

theorem RateCall.run_consts {p q : Params n} {c : RateCall} (hr : c.run p = .ok q) :
    (p.factPs = Real.sqrt (p.csigma * (2 - p.csigma) * p.muw) →
      q.factPs = Real.sqrt (q.csigma * (2 - q.csigma) * q.muw)) ∧
    (p.factPc = Real.sqrt (p.cc * (2 - p.cc) * p.muw) →
      q.factPc = Real.sqrt (q.cc * (2 - q.cc) * q.muw)) := by
  cases c with
  | noisy =>
    change p.setNoisy = .ok q at hr
    unfold Params.setNoisy at hr
    obtain ⟨r, hr', hr⟩ := Out.bind_eq_ok.1 hr
    have := initializeParameters_spec hr'
    injection hr with hr
    subst hr
    exact ⟨fun _ => this.factPs, fun _ => this.factPc⟩
  | tpa b => injection hr with hr; subst hr; exact ⟨id, id⟩
  | fix i v => injection hr with hr; subst hr; exact ⟨id, id⟩
  | unfix i => injection hr with hr; subst hr; exact ⟨id, id⟩
  | elitism e =>
    injection hr with hr; subst hr
    unfold Params.setElitism
    split_ifs <;> exact ⟨id, id⟩
  | algo a => injection hr with hr; subst hr; exact ⟨id, id⟩

theorem Spec.Configured.consts {p : Params n} (h : Configured p) :
    p.factPs = Real.sqrt (p.csigma * (2 - p.csigma) * p.muw) ∧
      (p.sep = false → p.factPc = Real.sqrt (p.cc * (2 - p.cc) * p.muw)) := by
  induction h with
  | make hm =>
    unfold Params.make at hm
    obtain ⟨l, -, hm⟩ := Out.bind_eq_ok.1 hm
    have hs := initializeParameters_spec hm
    exact ⟨hs.factPs, fun _ => hs.factPc⟩
  | call _ hc hr ih =>
    have h1 := RateCall.run_consts hr
    have h2 := RateCall.run_flags hr
    exact ⟨h1.1 ih.1, fun h => h1.2 (ih.2 (h2.1 ▸ h))⟩
  | sep _ h1 h2 ih => exact ⟨ih.1, fun h => by simp [Params.setSep] at h⟩
  | @vd p _ h1 h2 h6 ih =>
    unfold Params.setVd
    by_cases hc : p.algo ≠ 12 ∧ p.algo ≠ 13 ∧ p.algo ≠ 14
    · rw [if_pos hc]; exact ih
    · rw [if_neg hc]; exact ⟨rfl, ih.2⟩
  | other _ hs ih =>
    obtain ⟨e1, e2, e3, e4, e5, e6, e7, e8, e9, e10, e11, e12, e13, e14, e15, e16, e17⟩ := hs
    exact ⟨by rw [e10, e5, e4]; exact ih.1, fun h => by rw [e11, e8, e4]; exact ih.2 (e16 ▸ h)⟩

theorem candX_eq_ranked (cs : List (Cand n)) (i : ℕ) : candX cs i = ranked cs i := by
  unfold candX ranked List.getD
  cases h : cs[i]? with
  | none => rfl
  | some c => rfl

theorem vnorm_eq_len (x : Vec n) : vnorm x = len x := by
  unfold vnorm len sqNorm
  simp only [pow_two]

theorem meanStep_apply (p : Params n) (s : Sol n) (k : Fin n) :
    meanStep (constsOf p) (stateOf s) (ranked s.cands) k =
      ∑ i ∈ range p.mu, p.weights i * (s.sigma⁻¹ * (candX s.cands i k - s.xmean k)) := by
  unfold meanStep selStep
  rw [Finset.sum_apply]
  refine sum_congr rfl fun i _ => ?_
  rw [candX_eq_ranked]
  rfl

theorem diffMean_recombine {p : Params n} (hw : GoodWeights p) (s : Sol n) :
    diffMean s (recombine p s.cands) = meanStep (constsOf p) (stateOf s) (ranked s.cands) := by
  funext k
  rw [meanStep_apply]
  unfold diffMean recombine
  have : s.xmean k = ∑ i ∈ range p.mu, p.weights i * s.xmean k := by
    rw [← Finset.sum_mul, hw.sum_one, one_mul]
  conv_lhs => rw [this, ← Finset.sum_sub_distrib, Finset.mul_sum]
  refine sum_congr rfl fun i _ => ?_
  ring

theorem recombineActive_eq {p : Params n} (hw : GoodWeights p) (s : Sol n) :
    recombineActive p s = recombine p s.cands := by
  funext k
  unfold recombineActive recombine
  simp only [mul_sub, Finset.sum_sub_distrib]
  rw [← Finset.sum_mul, hw.sum_one]
  ring

theorem recombine_eq_step {p : Params n} (hw : GoodWeights p) (s : Sol n) (hs : s.sigma ≠ 0) :
    recombine p s.cands = s.xmean + s.sigma • meanStep (constsOf p) (stateOf s) (ranked s.cands) := by
  rw [← diffMean_recombine hw]
  funext k
  show _ = s.xmean k + s.sigma * (1 / s.sigma * (recombine p s.cands k - s.xmean k))
  field_simp
  ring

theorem rankMu_eq {p : Params n} (s : Sol n) :
    rankMu p s = rankMuOf (constsOf p) (stateOf s) (ranked s.cands) := by
  unfold rankMu rankMuOf
  rw [Finset.smul_sum]
  refine sum_congr rfl fun i _ => ?_
  ext a b
  show 1 / (s.sigma * s.sigma) * (p.weights i * ((candX s.cands i a - s.xmean a) *
    (candX s.cands i b - s.xmean b))) = p.weights i * ((s.sigma⁻¹ * (ranked s.cands i a - s.xmean a)) *
      (s.sigma⁻¹ * (ranked s.cands i b - s.xmean b)))
  rw [candX_eq_ranked]
  by_cases hs : s.sigma = 0
  · simp [hs]
  field_simp

theorem rankMuMinus_eq {p : Params n} (s : Sol n) :
    rankMuMinus p s =
      rankMuOf (constsOf p) (stateOf s) (worst (constsOf p) (ranked s.cands)) := by
  unfold rankMuMinus rankMuOf
  refine sum_congr rfl fun i _ => ?_
  have e : (constsOf p).lambda - 1 - i = p.lambda - i - 1 := by
    show p.lambda - 1 - i = _
    omega
  have : selStep (stateOf s) (worst (constsOf p) (ranked s.cands)) i =
      (1 / s.sigma) • (candX s.cands (p.lambda - i - 1) - s.xmean) := by
    unfold selStep worst
    rw [e, candX_eq_ranked, one_div]
    rfl
  rw [this]
  rfl

theorem rankMuSep_eq {p : Params n} (s : Sol n) (j : Fin n) :
    rankMuSep p s j = ∑ i ∈ range (constsOf p).mu,
      (constsOf p).w i * selStep (stateOf s) (ranked s.cands) i j ^ 2 := by
  unfold rankMuSep
  rw [Finset.mul_sum]
  refine sum_congr rfl fun i _ => ?_
  show 1 / (s.sigma * s.sigma) * (p.weights i * ((candX s.cands i j - s.xmean j) *
    (candX s.cands i j - s.xmean j))) = p.weights i * (s.sigma⁻¹ * (ranked s.cands i j - s.xmean j)) ^ 2
  rw [candX_eq_ranked]
  by_cases hs : s.sigma = 0
  · simp [hs]
  field_simp

/-- The stall test. -/
theorem hsig_notStalled {p : Params n} {g : ℕ} {hb : ℝ} (hr : Admissible p)
    (h : hsigBound p g = .ok hb) (ps : Vec n) :
    vnorm ps < hb ↔ NotStalled (constsOf p) g ps := by
  unfold hsigBound at h
  split_ifs at h with h1 h2
  injection h with h
  subst h
  have hc1 := hr.csigma_pos
  have hc2 := hr.csigma_lt
  have hpos : 0 < 1 - (1 - p.csigma) ^ (2 * (g + 1)) := by
    have : (1 - p.csigma) ^ (2 * (g + 1)) < 1 := pow_lt_one₀ (by linarith) (by linarith) (by omega)
    linarith
  have hs := Real.sqrt_pos.2 hpos
  unfold NotStalled
  rw [div_lt_iff₀ (show 0 < Real.sqrt (1 - (1 - (constsOf p).cs) ^ (2 * (g + 1))) from hs), vnorm_eq_len]
  have : (1.4 + 2 / ((constsOf p).dim + 1)) * (constsOf p).chi *
      Real.sqrt (1 - (1 - (constsOf p).cs) ^ (2 * (g + 1))) =
      Real.sqrt (1 - (1 - p.csigma) ^ (2 * (g + 1))) * (1.4 + 2 / ((n : ℝ) + 1 - p.fixedP.length)) * p.chi := by
    show (1.4 + 2 / ((n : ℝ) - p.fixedP.length + 1)) * p.chi *
      Real.sqrt (1 - (1 - p.csigma) ^ (2 * (g + 1))) = _
    rw [show (n : ℝ) - p.fixedP.length + 1 = (n : ℝ) + 1 - p.fixedP.length by ring]
    ring
  rw [this]

theorem hsigR_next {p : Params n} {g : ℕ} {hb : ℝ} (hr : Admissible p)
    (h : hsigBound p g = .ok hb) (ps : Vec n) :
    NotStalled (constsOf p) g ps ∧ hsigR (hsigNext ps hb) = 1 ∨
      ¬ NotStalled (constsOf p) g ps ∧ hsigR (hsigNext ps hb) = 0 := by
  have := hsig_notStalled hr h ps
  unfold hsigR hsigNext
  by_cases hl : vnorm ps < hb
  · exact Or.inl ⟨this.1 hl, by simp [hl]⟩
  · exact Or.inr ⟨fun h' => hl (this.2 h'), by simp [hl]⟩

/-- The part common to the full and the diagonal updates. -/
theorem cmaPaths_of {p : Params n} {s s' : Sol n} {z : Vec n} {hb : ℝ} (hw : GoodWeights p)
    (hr : Admissible p) (hps : p.factPs = Real.sqrt (p.csigma * (2 - p.csigma) * p.muw)) (htpa : p.tpa < 2) (hs : s.sigma ≠ 0)
    (hhb : hsigBound p s.niter = .ok hb)
    (e1 : s'.xmean = recombine p s.cands)
    (e2 : s'.psigma = (1 - p.csigma) • s.psigma + p.factPs • z)
    (e3 : s'.pc = pcNext p s (hsigNext s'.psigma hb) (recombine p s.cands))
    (e4 : s'.sigma = sigmaUpdate p s (vnorm s'.psigma)) :
    CmaPaths (constsOf p) p.factPc s.niter (ranked s.cands) z (hsigR (hsigNext s'.psigma hb)) (stateOf s)
      (stateOf s') := by
  refine ⟨?_, ?_, hsigR_next hr hhb _, ?_, ?_⟩
  · show s'.xmean = _
    rw [e1]
    exact recombine_eq_step hw s hs
  · show s'.psigma = _
    rw [e2, hps]
    rfl
  · show s'.pc = _
    rw [e3]
    unfold pcNext
    rw [diffMean_recombine hw]
    rfl
  · show s'.sigma = _
    rw [e4]
    unfold sigmaUpdate
    rw [if_pos htpa, vnorm_eq_len]
    rfl

/-- `operatorInverseSqrt` gives the inverse square root. -/
theorem inverseSqrt_isInvSqrt (eig : EigSolver n) {C csq : Mat n} (h : C.IsSymm)
    (hs : inverseSqrt (eig.solve C) = .ok csq) : IsInvSqrt C csq := by
  obtain ⟨h1, hp, r, hr, h2, h3, h4⟩ := inverseSqrt_spec eig h hs
  have hinv : csq * C * csq = 1 := by
    rw [← h4, ← Matrix.mul_assoc, h2, Matrix.one_mul, h3]
  refine ⟨⟨h1, fun x hx => ?_⟩, hinv⟩
  unfold inverseSqrt at hs
  rw [if_pos hp] at hs
  injection hs with hs
  rw [← hs, quad_conj, quad_diagonal]
  have hne : (eig.solve C).2ᵀ.mulVec x ≠ 0 := by
    intro h0
    have : (eig.solve C).2.mulVec ((eig.solve C).2ᵀ.mulVec x) = x := by
      rw [mulVec_mulVec, eig.orth C h, one_mulVec]
    rw [h0, mulVec_zero] at this
    exact hx this.symm
  obtain ⟨i, hi⟩ := Function.ne_iff.1 hne
  refine Finset.sum_pos' (fun j _ => ?_) ⟨i, Finset.mem_univ i, ?_⟩
  · have := Real.sqrt_pos.2 (hp j)
    positivity
  · have := Real.sqrt_pos.2 (hp i)
    have h5 : 0 < ((eig.solve C).2ᵀ.mulVec x i) ^ 2 := by
      have : (eig.solve C).2ᵀ.mulVec x i ≠ 0 := hi
      positivity
    positivity

/-- The negative rate of the code is the largest admissible one. -/
theorem cminus_greatest (eig : EigSolver n) {p : Params n} {s : Sol n} {csq : Mat n} {cm : ℝ}
    (hn : 1 ≤ n) (hw : GoodWeights p) (hC : PD s.cov) (hcmu : p.cmu < 1) (hmuw : 1 ≤ p.muw)
    (hcsq : inverseSqrt (eig.solve s.cov) = .ok csq)
    (h : cminusOf p (maxCoeff (eig.solve (csq * rankMuMinus p s * csq)).1) = .ok cm) :
    IsGreatest {c | c ≤ negCap n (constsOf p) ∧
      ∀ u, c * quad (rankMuMinus p s) u ≤ 0.34 * (1 - p.cmu) * quad s.cov u} cm := by
  obtain ⟨hc0, hle⟩ := cminus_rankMuMinus_le eig hn hw hC hcmu hmuw hcsq h
  have hcap : negCap n (constsOf p) =
      (1 - p.cmu) * 2 / 8 * (p.muw / (((n : ℝ) + 2) ^ (1.5 : ℝ) + 2 * p.muw)) := by
    show (1 - p.cmu) * p.muw / (4 * (((n : ℝ) + 2) ^ (1.5 : ℝ) + 2 * p.muw)) = _
    have : 0 < ((n : ℝ) + 2) ^ (1.5 : ℝ) + 2 * p.muw := by positivity
    field_simp
    ring
  unfold cminusOf at h
  simp only at h
  by_cases h0 : maxCoeff (eig.solve (csq * rankMuMinus p s * csq)).1 = 0
  · rw [if_pos h0, if_pos hcmu] at h
    injection h with h
    refine ⟨⟨by rw [hcap, h], hle⟩, fun c hc => ?_⟩
    rw [← h, ← hcap]; exact hc.1
  rw [if_neg h0] at h
  injection h with h
  refine ⟨⟨by rw [hcap, ← h]; exact min_le_right _ _, hle⟩, fun c hc => ?_⟩
  rw [← h]
  refine le_min ?_ (by rw [← hcap]; exact hc.1)
  obtain ⟨hs, hp, r, hr, h1, h2, h3⟩ := inverseSqrt_spec eig hC.symm hcsq
  have hR := rankMuMinus_psd hw s
  have hM : (csq * rankMuMinus p s * csq).IsSymm := by
    unfold Matrix.IsSymm
    rw [transpose_mul, transpose_mul, hs, hR.symm, Matrix.mul_assoc]
  have hMp : PSD (csq * rankMuMinus p s * csq) := ⟨hM, fun x => by
    have := quad_conj csq (rankMuMinus p s) x
    rw [hs] at this
    rw [this]; exact hR.nonneg _⟩
  have : Nonempty (Fin n) := ⟨⟨0, hn⟩⟩
  obtain ⟨i, hi⟩ := exists_eq_ciSup_of_finite (f := (eig.solve (csq * rankMuMinus p s * csq)).1)
  have hi' : (eig.solve (csq * rankMuMinus p s * csq)).1 i =
    maxCoeff (eig.solve (csq * rankMuMinus p s * csq)).1 := hi
  rw [← hi'] at h0 ⊢
  have ht : 0 < (eig.solve (csq * rankMuMinus p s * csq)).1 i :=
    lt_of_le_of_ne (eig_nonneg eig hMp i) (Ne.symm h0)
  set v := (eig.solve (csq * rankMuMinus p s * csq)).2.mulVec (Pi.single i 1) with hv
  have hq := (quad_eigvec eig hM i).1
  rw [← hv] at hq
  have hvv : v ⬝ᵥ v = 1 := by
    rw [dot_eig eig hM, hv, mulVec_mulVec, eig.orth' _ hM, one_mulVec, sum_eq_single i]
    · simp
    · intro j _ hj; simp [hj]
    · simp
  have hu := hc.2 (csq.mulVec v)
  have e1 : quad (rankMuMinus p s) (csq.mulVec v) = (eig.solve (csq * rankMuMinus p s * csq)).1 i := by
    rw [← hq]
    have := quad_conj csq (rankMuMinus p s) v
    rw [hs] at this
    exact this.symm
  have e2 : quad s.cov (csq.mulVec v) = 1 := by
    have := quad_conj csq s.cov v
    rw [hs, (inverseSqrt_isInvSqrt eig hC.symm hcsq).inv, quad_one, hvv] at this
    exact this.symm
  rw [e1, e2, mul_one] at hu
  rw [le_div_iff₀ ht]
  calc _ ≤ 0.34 * (1 - p.cmu) := hu
    _ = _ := by norm_num; ring

end Libcmaes
