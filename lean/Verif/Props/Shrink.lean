import Verif.Lemmas.Shrink
import Verif.Props.StopCrit

/-!
# C104: the search distribution cannot shrink faster than its learning rates allow

`spread`, `keepRate`, `shrinkRate`: Spec/Shrink.lean; `AskRun`: Spec/Run.lean (one entry of the trace per
generation; the points and values given to `eval` are arbitrary).
-/

namespace Libcmaes

open Spec Matrix Finset

variable {n : ℕ}

/-- **C104.** Default or active update of the full covariance, any execution of `k` generations: whatever the points
and values, the variance in each direction is at least the `k`-th power of the kept share, the step size at least
exp(-k csigma/dsigma) of its start, and so the standard deviation in each direction is at least `shrinkRate^k` of
what it was at the start. -/
theorem C104_full (env : Env n) (kind : CovKind) (p : Params n) (s s' : Strat n) (tr : List (List (Cand n)))
    (hc : Configured p) (hst : StrictRates p) (hk : kind ≠ .vd) (hsep : p.sep = false) (hvd : p.vd = false)
    (hlazy : p.lazyUpdate = false) (htpa : p.tpa < 2) (h0 : Strat.new env kind p = .ok s) (h : AskRun env s tr s') :
    (∀ x, keepRate kind p ^ tr.length * (x ⬝ᵥ x) ≤ quad s'.sol.cov x) ∧
    Real.exp (-(p.csigma / p.dsigma)) ^ tr.length * s.sol.sigma ≤ s'.sol.sigma ∧
    ∀ x, shrinkRate kind p ^ tr.length * (s.sol.sigma * len x) ≤ spread s'.sol.sigma s'.sol.cov x := by
  obtain ⟨_, _, hkd, hp, hs0, hf, _⟩ := Strat.new_ok h0
  have hg : GoodParams s.p := by rw [hp]; exact hc.with_sigmaInit _
  have hst' : StrictRates s.p := by rw [hp]; exact ⟨hst.1, hst.2⟩
  have hkp := keepRate_pos (kind := kind) hst
  have key := h.induct (past := []) (I := fun t past => t.kind = kind ∧ t.p = s.p ∧ PD t.sol.cov ∧ 0 < t.sol.sigma ∧
      (∀ x, keepRate kind p ^ past.length * (x ⬝ᵥ x) ≤ quad t.sol.cov x) ∧
      Real.exp (-(p.csigma / p.dsigma)) ^ past.length * s.sol.sigma ≤ t.sol.sigma) ?_ ?_
    ⟨hkd, rfl, by rw [hf.cov]; exact PD_one, hs0, fun x => by rw [hf.cov, quad_one]; simp, by simp⟩
  · obtain ⟨_, _, _, k4, k5, k6⟩ := key
    rw [List.nil_append] at k5 k6
    refine ⟨k5, k6, fun x => ?_⟩
    have e1 : (x ⬝ᵥ x) = ∑ i, x i ^ 2 := by
      unfold dotProduct; exact sum_congr rfl fun i _ => (sq _).symm
    have e2 : Real.sqrt (keepRate kind p) ^ tr.length * len x ≤ Real.sqrt (quad s'.sol.cov x) := by
      unfold len
      rw [← sqrt_pow_eq hkp.le, ← Real.sqrt_mul (by positivity), ← e1]
      exact Real.sqrt_le_sqrt (k5 x)
    unfold shrinkRate spread
    rw [mul_pow]
    calc _ = (Real.exp (-(p.csigma / p.dsigma)) ^ tr.length * s.sol.sigma) *
          (Real.sqrt (keepRate kind p) ^ tr.length * len x) := by ring
      _ ≤ _ := mul_le_mul k6 e2 (mul_nonneg (by positivity) (Real.sqrt_nonneg _)) k4.le
  · intro t past b t' hi hh
    obtain ⟨k, r, e⟩ := Strat.stop_frame hh
    subst e; exact hi
  · intro t past pop t1 cols phen t2 t3 ⟨hk', hp', hC, hs, h1, h2⟩ ha hh hh'
    obtain ⟨⟨es, ei, ue, c, nz, x1, x2, p1, p2, e⟩, _⟩ := Strat.ask_frame ha
    obtain ⟨a1, a2, _⟩ := Strat.ask_eig ha (by rw [hp', hp]; exact hsep) (by rw [hp', hp]; exact hvd)
      (Or.inr (by rw [hp', hp]; exact hlazy))
    obtain ⟨c, nu, nzuh, lr, cu, cs, e1, _⟩ := Strat.eval_frame hh
    obtain ⟨sol3, sol4, hcu, _, _, ⟨_, _, _, _, _, _, _, _, _, _, e3⟩, mx, mn, lv, le, e'⟩ := Strat.tell_step hh'
    have ek : t2.kind = kind := by rw [e1, e]; exact hk'
    have ep : t2.p = s.p := by rw [e1, e]; exact hp'
    have ees : t2.es.eig = some (env.eig.solve t.sol.cov) := by rw [← a1, e1]
    have eue : sol3.updatedEigen = true := by rw [e3, ← a2, e1]
    have ec : sol3.cov = t.sol.cov := by rw [e3, e1, e]
    have es3 : sol3.sigma = t.sol.sigma := by rw [e3, e1, e]
    have hsig : Real.exp (-(p.csigma / p.dsigma)) * t.sol.sigma ≤ sol4.sigma := by
      rw [covarianceUpdate_sigma hcu, ← es3, ep]
      have := sigmaUpdate_ge (s := sol3) hg.rates hg.chi (by rw [hp]; exact htpa) (by rw [es3]; exact hs.le)
        (vnorm_nonneg sol4.psigma)
      rw [hp] at this ⊢
      exact this
    have hs4 : 0 < sol4.sigma := lt_of_lt_of_le (by positivity) hsig
    have hsig' : sol4.sigma ≤ t3.incIter.sol.sigma := by
      rw [e']
      show _ ≤ if t2.p.uh = true ∧ sol4.suh > 0 then sol4.sigma * t2.p.alphathuh else sol4.sigma
      split_ifs
      · rw [ep]; exact le_mul_of_one_le_right hs4.le hg.alphathuh
      · exact le_rfl
    have ec' : t3.incIter.sol.cov = sol4.cov := by rw [e']; rfl
    have hcov : PD sol4.cov ∧ ∀ x, keepRate kind p * quad t.sol.cov x ≤ quad sol4.cov x := by
      unfold covarianceUpdate at hcu
      rw [ek, ep] at hcu
      have hsep' : s.p.sep = false := by rw [hp]; exact hsep
      cases kind with
      | vd => exact absurd rfl hk
      | plain =>
        simp only [hsep'] at hcu
        obtain ⟨_, _, csq, hb, _, _, rfl⟩ := covUpdateFull_ok hcu
        obtain ⟨h3, h4⟩ := covNext_quad (csq := csq) (hb := hb) hg.weights hg.rates (ec ▸ hC.psd)
        have h5 : keepRate .plain p = 1 - s.p.c1 - s.p.cmu := by rw [hp]; rfl
        rw [ec, ← h5] at h4
        exact ⟨⟨h3, fun x hx => lt_of_lt_of_le (mul_pos hkp (hC.pos x hx)) (h4 x)⟩, h4⟩
      | active =>
        simp only [hsep'] at hcu
        obtain ⟨_, _, _, _, csq, hb, cm, i1, _, i3, rfl⟩ := acovUpdateFull_ok hcu
        unfold csqinvOf at i1
        rw [eue, if_pos rfl, ees] at i1
        refine ⟨acovNext_pd env.eig hg.dim hg.weights hg.rates hst' (ec ▸ hC) hg.muw (ec ▸ i1) i3, fun x => ?_⟩
        have := acovNext_quad env.eig (hb := hb) hg.dim hg.weights hg.rates hst' (ec ▸ hC) hg.muw (ec ▸ i1) i3 x
        rw [ec] at this
        have h5 : keepRate .active p = 0.66 * (1 - s.p.cmu) - s.p.c1 := by rw [hp]; rfl
        rw [h5]
        exact this
    refine ⟨?_, ?_, ec' ▸ hcov.1, lt_of_lt_of_le hs4 hsig', fun x => ?_, ?_⟩
    · rw [e']; exact ek
    · rw [e']; exact ep
    · rw [ec', List.length_append, List.length_singleton, pow_succ]
      refine le_trans ?_ (hcov.2 x)
      calc _ = keepRate kind p * (keepRate kind p ^ past.length * (x ⬝ᵥ x)) := by ring
        _ ≤ _ := mul_le_mul_of_nonneg_left (h1 x) hkp.le
    · rw [List.length_append, List.length_singleton, pow_succ]
      refine le_trans ?_ (le_trans hsig hsig')
      calc _ = Real.exp (-(p.csigma / p.dsigma)) *
            (Real.exp (-(p.csigma / p.dsigma)) ^ past.length * s.sol.sigma) := by ring
        _ ≤ _ := mul_le_mul_of_nonneg_left h2 (Real.exp_pos _).le

/-- **C104** for the diagonal model: the same in each coordinate. -/
theorem C104_sep (env : Env n) (kind : CovKind) (p : Params n) (s s' : Strat n) (tr : List (List (Cand n)))
    (hc : Configured p) (hst : StrictRates p) (hk : kind ≠ .vd) (hsep : p.sep = true) (htpa : p.tpa < 2)
    (h0 : Strat.new env kind p = .ok s) (h : Run env s tr s') :
    (∀ i, keepRate kind p ^ tr.length ≤ s'.sol.sepcov i) ∧
    Real.exp (-(p.csigma / p.dsigma)) ^ tr.length * s.sol.sigma ≤ s'.sol.sigma ∧
    ∀ i, shrinkRate kind p ^ tr.length * s.sol.sigma ≤ s'.sol.sigma * Real.sqrt (s'.sol.sepcov i) := by
  obtain ⟨_, _, hkd, hp, hs0, hf, _⟩ := Strat.new_ok h0
  have hg : GoodParams s.p := by rw [hp]; exact hc.with_sigmaInit _
  have hst' : StrictRates s.p := by rw [hp]; exact ⟨hst.1, hst.2⟩
  have hkp := keepRate_pos (kind := kind) hst
  have key := h.induct (past := []) (I := fun t past => t.kind = kind ∧ t.p = s.p ∧ 0 < t.sol.sigma ∧
      (∀ i, keepRate kind p ^ past.length ≤ t.sol.sepcov i) ∧
      Real.exp (-(p.csigma / p.dsigma)) ^ past.length * s.sol.sigma ≤ t.sol.sigma) ?_ ?_ ?_
    ⟨hkd, rfl, hs0, fun i => by rw [hf.sepcov i]; simp, by simp⟩
  · obtain ⟨_, _, k4, k5, k6⟩ := key
    rw [List.nil_append] at k5 k6
    refine ⟨k5, k6, fun i => ?_⟩
    have e2 : Real.sqrt (keepRate kind p) ^ tr.length ≤ Real.sqrt (s'.sol.sepcov i) := by
      rw [← sqrt_pow_eq hkp.le]
      exact Real.sqrt_le_sqrt (k5 i)
    unfold shrinkRate
    rw [mul_pow]
    calc _ = (Real.exp (-(p.csigma / p.dsigma)) ^ tr.length * s.sol.sigma) *
          (Real.sqrt (keepRate kind p) ^ tr.length) := by ring
      _ ≤ _ := mul_le_mul k6 e2 (by positivity) k4.le
  · intro t past pop t' hi hh
    obtain ⟨⟨es, ei, ue, c, nz, x1, x2, p1, p2, e⟩, _⟩ := Strat.ask_frame hh
    subst e; exact hi
  · intro t past b t' hi hh
    obtain ⟨k, r, e⟩ := Strat.stop_frame hh
    subst e; exact hi
  · intro t past cols phen t2 t3 ⟨hk', hp', hs, h1, h2⟩ hh hh'
    obtain ⟨c, nu, nzuh, lr, cu, cs, e1, _⟩ := Strat.eval_frame hh
    obtain ⟨sol3, sol4, hcu, _, _, ⟨_, _, _, _, _, _, _, _, _, _, e3⟩, mx, mn, lv, le, e'⟩ := Strat.tell_step hh'
    have ek : t2.kind = kind := by rw [e1]; exact hk'
    have ep : t2.p = s.p := by rw [e1]; exact hp'
    have ec : sol3.sepcov = t.sol.sepcov := by rw [e3, e1]
    have es3 : sol3.sigma = t.sol.sigma := by rw [e3, e1]
    have hsig : Real.exp (-(p.csigma / p.dsigma)) * t.sol.sigma ≤ sol4.sigma := by
      rw [covarianceUpdate_sigma hcu, ← es3, ep]
      have := sigmaUpdate_ge (s := sol3) hg.rates hg.chi (by rw [hp]; exact htpa) (by rw [es3]; exact hs.le)
        (vnorm_nonneg sol4.psigma)
      rw [hp] at this ⊢
      exact this
    have hs4 : 0 < sol4.sigma := lt_of_lt_of_le (by positivity) hsig
    have hsig' : sol4.sigma ≤ t3.incIter.sol.sigma := by
      rw [e']
      show _ ≤ if t2.p.uh = true ∧ sol4.suh > 0 then sol4.sigma * t2.p.alphathuh else sol4.sigma
      split_ifs
      · rw [ep]; exact le_mul_of_one_le_right hs4.le hg.alphathuh
      · exact le_rfl
    have ec' : t3.incIter.sol.sepcov = sol4.sepcov := by rw [e']; rfl
    have hcov : ∀ i, keepRate kind p * t.sol.sepcov i ≤ sol4.sepcov i := by
      unfold covarianceUpdate at hcu
      rw [ek, ep] at hcu
      have hsep' : s.p.sep = true := by rw [hp]; exact hsep
      cases kind with
      | vd => exact absurd rfl hk
      | plain =>
        simp only [hsep'] at hcu
        obtain ⟨_, _, csq, hb, _, _, rfl⟩ := covUpdateSep_ok hcu
        intro i
        have h5 : keepRate .plain p = 1 - s.p.c1 - s.p.cmu := by rw [hp]; rfl
        rw [h5, ← ec]
        exact covNextSep_ge hg.weights hg.rates i (by rw [ec]; exact le_trans (by positivity) (h1 i))
      | active =>
        simp only [hsep'] at hcu
        obtain ⟨_, _, _, _, csq, hb, cm, i1, _, i3, rfl⟩ := acovUpdateSep_ok hcu
        intro i
        have h5 : keepRate .active p = 0.66 * (1 - s.p.cmu) - s.p.c1 := by rw [hp]; rfl
        rw [h5, ← ec]
        exact acovNextSep_ge hg.weights hg.rates hst' hg.muw i1 i3 i
    refine ⟨?_, ?_, lt_of_lt_of_le hs4 hsig', fun i => ?_, ?_⟩
    · rw [e']; exact ek
    · rw [e']; exact ep
    · rw [ec', List.length_append, List.length_singleton, pow_succ]
      refine le_trans ?_ (hcov i)
      rw [mul_comm]
      exact mul_le_mul_of_nonneg_left (h1 i) hkp.le
    · rw [List.length_append, List.length_singleton, pow_succ]
      refine le_trans ?_ (le_trans hsig hsig')
      calc _ = Real.exp (-(p.csigma / p.dsigma)) *
            (Real.exp (-(p.csigma / p.dsigma)) ^ past.length * s.sol.sigma) := by ring
        _ ≤ _ := mul_le_mul_of_nonneg_left h2 (Real.exp_pos _).le

/-- **C104**, read as a time: to bring the standard deviation in some direction down to the share `ε` of its start
takes at least log(1/ε) / (csigma/dsigma + log(1/keepRate)/2) generations. -/
theorem C104_time (env : Env n) (kind : CovKind) (p : Params n) (s s' : Strat n) (tr : List (List (Cand n)))
    (hc : Configured p) (hst : StrictRates p) (hk : kind ≠ .vd) (hsep : p.sep = false) (hvd : p.vd = false)
    (hlazy : p.lazyUpdate = false) (htpa : p.tpa < 2) (h0 : Strat.new env kind p = .ok s) (h : AskRun env s tr s')
    (x : Vec n) (hx : x ≠ 0) (ε : ℝ)
    (hd : spread s'.sol.sigma s'.sol.cov x ≤ ε * spread s.sol.sigma s.sol.cov x) :
    Real.log (1 / ε) ≤ tr.length * (p.csigma / p.dsigma + Real.log (1 / keepRate kind p) / 2) := by
  obtain ⟨_, _, _, _, hs0, hf, _⟩ := Strat.new_ok h0
  have hkp := keepRate_pos (kind := kind) hst
  have hmain := (C104_full env kind p s s' tr hc hst hk hsep hvd hlazy htpa h0 h).2.2 x
  have hlen : 0 < len x := by
    unfold len
    refine Real.sqrt_pos.2 ?_
    obtain ⟨i, hi⟩ := Function.ne_iff.1 hx
    exact sum_pos' (fun j _ => sq_nonneg _) ⟨i, mem_univ _, by have : x i ≠ 0 := hi; positivity⟩
  have e0 : spread s.sol.sigma s.sol.cov x = s.sol.sigma * len x := by
    unfold spread len
    rw [hf.cov, quad_one]
    congr 2
    unfold dotProduct; exact sum_congr rfl fun i _ => (sq _).symm
  rw [e0] at hd
  have h1 : shrinkRate kind p ^ tr.length ≤ ε :=
    le_of_mul_le_mul_right (le_trans hmain hd) (mul_pos hs0 hlen)
  have h2 := Real.log_le_log (pow_pos (shrinkRate_pos hst) _) h1
  rw [Real.log_pow, shrinkRate, Real.log_mul (Real.exp_pos _).ne' (Real.sqrt_pos.2 hkp).ne', Real.log_exp,
    Real.log_sqrt hkp.le] at h2
  rw [one_div, one_div, Real.log_inv, Real.log_inv]
  nlinarith

/-- When all draws are zero, one generation of the default update leaves exactly the kept shares. -/
theorem zero_draws (env : Env n) (hz : ∀ j, env.z j = 0) (x0 : Vec n) (sigma : ℝ) (lambda : ℤ) (seed clock : ℕ)
    (gp : GenoPheno) (p : Params n) (hm : Params.make x0 sigma lambda seed clock gp = .ok p) (s : Strat n)
    (h0 : Strat.new env .plain p = .ok s) (k : ℕ) (t : Strat n) (h : GenRun env s k t) :
    t.sol.cov = keepRate .plain p ^ k • (1 : Mat n) ∧
      t.sol.sigma = Real.exp (-(p.csigma / p.dsigma)) ^ k * s.sol.sigma ∧
      t.sol.psigma = 0 ∧ t.sol.pc = 0 ∧ PlainSet t ∧ t.p = s.p := by
  obtain ⟨_, _, hkd, hp, hs0, hf, _⟩ := Strat.new_ok h0
  have hc : Configured p := .make hm
  obtain ⟨u1, u2, u3, u4, u5, u6, u7, u8, u9, u10, u11, u12, u13, u14⟩ := Params.make_plain hm
  obtain ⟨f1, f2⟩ := Params.make_flags hm
  have hg := hc.good.1
  have hx : p.lazyUpdate = false ∧ p.tpa < 2 := by
    have hm' := hm
    unfold Params.make at hm'
    obtain ⟨l, -, hm'⟩ := Out.bind_eq_ok.1 hm'
    obtain ⟨mu, w, muw, cs, cc, c1, cm, ds, fs, fc, ch, lv, rl, al, e⟩ := initializeParameters_frame hm'
    rw [e]
    simp [Params.blank]
  obtain ⟨hlz, htpa⟩ := hx
  induction h with
  | refl =>
    refine ⟨by rw [hf.cov]; simp, by simp, hf.psigma, hf.pc, ?_, rfl⟩
    exact ⟨by rw [hp]; exact hc.with_sigmaInit _, by rw [hf.cands, hp], by rw [hp]; exact f1,
      by rw [hp]; exact f2, by rw [hp]; exact u2, by rw [hp]; exact u3, by rw [hp]; exact hlz,
      by rw [hp]; exact u11, by rw [hp]; exact ⟨u6, u4, u5⟩⟩
  | stop _ i ih =>
    obtain ⟨h1, h2, h3, h4, h5, h6⟩ := ih
    obtain ⟨k, r, e⟩ := Strat.stop_frame i
    subst e
    exact ⟨h1, h2, h3, h4, ⟨h5.1, h5.2, h5.3, h5.4, h5.5, h5.6, h5.7, h5.8, h5.9⟩, h6⟩
  | @turn k t t' hr i ih =>
    obtain ⟨h1, h2, h3, h4, h5, h6⟩ := ih
    obtain ⟨tr, htr, har⟩ := hr.askRun
    obtain ⟨pop, s1, phen, s2, s3, ha, hev, ht, es', hnz1, hlen1, hp1, -, -, hcs, hm1⟩ :=
      equal_draws h5 i 0 (fun j _ => hz _)
    rw [mulVec_zero, smul_zero, zero_add] at hm1 hcs
    have htc : s3.sol.cands = t'.sol.cands := by rw [es']; rfl
    have hmul : p.mu ≤ t.p.lambda := by
      rw [h6, hp]
      show p.mu ≤ p.lambda
      rw [hg.mu]; omega
    have hstep : ∀ i < (constsOf p).mu, selStep (stateOf t.sol) (ranked s3.sol.cands) i = 0 := by
      intro i hi
      have hi' : i < t'.sol.cands.length := by
        rw [hlen1]; exact lt_of_lt_of_le hi hmul
      unfold selStep ranked
      rw [htc, List.getElem?_eq_getElem hi']
      simp only
      rw [hcs _ (List.getElem_mem hi')]
      simp [stateOf]
    have hmean : meanStep (constsOf p) (stateOf t.sol) (ranked s3.sol.cands) = 0 := by
      unfold meanStep
      exact sum_eq_zero fun i hi => by rw [hstep i (mem_range.1 hi), smul_zero]
    have hrank : rankMuOf (constsOf p) (stateOf t.sol) (ranked s3.sol.cands) = 0 := by
      unfold rankMuOf
      refine sum_eq_zero fun i hi => ?_
      rw [hstep i (mem_range.1 hi)]
      ext a b
      simp
    obtain ⟨B, hs1, hB, hP, hC⟩ := C68_default env p s t s1 s2 s3 tr pop pop phen hc f1 f2 hlz u1 htpa h0 har ha hev ht
    have hps0 : (stateOf t.sol).ps = 0 := h3
    have hpc0 : (stateOf t.sol).pc = 0 := h4
    have hps' : (stateOf s3.sol).ps = 0 := by rw [hP.ps, hmean, hps0]; simp
    have hpc' : (stateOf s3.sol).pc = 0 := by rw [hP.pc, hmean, hpc0]; simp
    have hh : hs1 = 1 := by
      rcases hP.hsig with ⟨_, h⟩ | ⟨h, _⟩
      · exact h
      · refine absurd ?_ h
        unfold NotStalled
        rw [hps', len_zero, zero_div]
        have h7 : 0 < (constsOf p).chi := hg.chi
        have h8 : (0 : ℝ) < (constsOf p).dim + 1 := by
          show (0 : ℝ) < (n : ℝ) - (p.fixedP.length : ℕ) + 1
          rw [u11]
          simp only [List.length_nil, Nat.cast_zero, sub_zero]
          positivity
        positivity
    refine ⟨?_, ?_, by rw [es']; exact hps', by rw [es']; exact hpc', ?_, by rw [hp1, h6]⟩
    · have e0 : t'.sol.cov = s3.sol.cov := by rw [es']; rfl
      rw [e0, hC, hpc', hh, hrank, h1]
      have e1 : keepRate .plain p = 1 - p.c1 - p.cmu := rfl
      ext a b
      simp only [Matrix.add_apply, Matrix.smul_apply, vecMulVec_apply, smul_eq_mul, Pi.zero_apply, Matrix.zero_apply]
      rw [e1]
      simp only [constsOf]
      ring
    · have e0 : t'.sol.sigma = s3.sol.sigma := by rw [es']; rfl
      have e1 : s3.sol.sigma = _ := hP.sigma
      rw [e0, e1, hps', len_zero]
      have e2 : (stateOf t.sol).sigma = t.sol.sigma := rfl
      rw [e2, h2, zero_div, zero_sub, mul_neg_one, pow_succ]
      have e3 : (constsOf p).cs / (constsOf p).ds = p.csigma / p.dsigma := rfl
      rw [e3]; ring
    · exact ⟨by rw [hp1]; exact h5.good, by rw [hp1]; exact hlen1, by rw [hp1]; exact h5.sep,
        by rw [hp1]; exact h5.vd, by rw [hp1]; exact h5.grad, by rw [hp1]; exact h5.tpa, by rw [hp1]; exact h5.lazy,
        by rw [hp1]; exact h5.fixed, by rw [hp1]; exact h5.noElitism⟩

/-- **C104.** The bound for the default update cannot be improved: for every dimension, starting point, step size and
objective without NaN there are draws for which every number of generations is reached, and the standard deviation
in every direction is then exactly `shrinkRate^k` of what it was. -/
theorem C104_tight (hn : 1 ≤ n) (eig : EigSolver n) (f : ℕ → Vec n → FVal) (hf : ∀ k y, (f k y).IsNum) (x0 : Vec n)
    (sigma : ℝ) (seed clock : ℕ) :
    ∃ (env : Env n) (p : Params n) (s : Strat n), env.f = f ∧ env.eig = eig ∧
      Params.make x0 sigma (-1) seed clock GenoPheno.plain = .ok p ∧ Strat.new env .plain p = .ok s ∧
      ∀ k, ∃ t, GenRun env s k t ∧
        ∀ x, spread t.sol.sigma t.sol.cov x = shrinkRate .plain p ^ k * (s.sol.sigma * len x) := by
  obtain ⟨p, hp, _⟩ := C11_weights hn x0 sigma (-1) seed clock GenoPheno.plain
  set env : Env n := { Env.basic f (fun _ => 0) with eig := eig } with henv
  obtain ⟨hu, hgp, _⟩ := usual_default (by norm_num) hp (kind := .plain) (by simp)
  obtain ⟨s, hs⟩ := new_plain (env := env) (kind := .plain) (p := p) hgp hu.configured.good.1
  refine ⟨env, p, s, rfl, rfl, hp, hs, fun k => ?_⟩
  obtain ⟨t, hgs⟩ : ∃ t, s.generations env k = .ok t := by
    rcases C67_total env .plain p s hu hf hs k with h | ⟨x, e, h1, _⟩
    · exact h
    · rw [hgp, phenoV_plain] at h1; cases h1
  have hr := (generations_genRun k hgs).1
  refine ⟨t, hr, fun x => ?_⟩
  obtain ⟨h1, h2, _⟩ := zero_draws env (fun _ => rfl) x0 sigma (-1) seed clock _ p hp s hs k t hr
  have hkp := keepRate_pos (kind := .plain) hu.strict
  unfold spread shrinkRate len
  rw [h1, h2, quad_smul, quad_one, Real.sqrt_mul (by positivity), sqrt_pow_eq hkp.le, mul_pow]
  have e1 : (x ⬝ᵥ x) = ∑ i, x i ^ 2 := by
    unfold dotProduct; exact sum_congr rfl fun i _ => (sq _).symm
  rw [e1]; ring

/-- The hypotheses of C104 are met with the active update too, for any number of generations and any objective
without NaN: the first assertion is then the one of `C104_full`. -/
theorem C104_active_runs (hn : 1 ≤ n) (env : Env n) (hf : ∀ k y, (env.f k y).IsNum) (x0 : Vec n) (sigma : ℝ)
    (seed clock : ℕ) : ∃ (p : Params n) (s : Strat n),
      Params.make x0 sigma (-1) seed clock GenoPheno.plain = .ok p ∧ Strat.new env .active p = .ok s ∧
      ∀ k, ∃ t tr, tr.length = k ∧ AskRun env s tr t ∧
        ∀ x, shrinkRate .active p ^ k * (s.sol.sigma * len x) ≤ spread t.sol.sigma t.sol.cov x := by
  obtain ⟨p, hp, _⟩ := C11_weights hn x0 sigma (-1) seed clock GenoPheno.plain
  obtain ⟨hu, hgp, _⟩ := usual_default (by norm_num) hp (kind := .active) (by simp)
  obtain ⟨s, hs⟩ := new_plain (env := env) (kind := .active) (p := p) hgp hu.configured.good.1
  obtain ⟨f1, f2⟩ := Params.make_flags hp
  have hx : p.tpa < 2 := by
    have hm' := hp
    unfold Params.make at hm'
    obtain ⟨l, -, hm'⟩ := Out.bind_eq_ok.1 hm'
    obtain ⟨mu, w, muw, cs, cc, c1, cm, ds, fs, fc, ch, lv, rl, al, e⟩ := initializeParameters_frame hm'
    rw [e]
    simp [Params.blank]
  refine ⟨p, s, hp, hs, fun k => ?_⟩
  obtain ⟨t, hgs⟩ : ∃ t, s.generations env k = .ok t := by
    rcases C67_total env .active p s hu hf hs k with h | ⟨x, e, h1, _⟩
    · exact h
    · rw [hgp, phenoV_plain] at h1; cases h1
  obtain ⟨tr, h1, h2⟩ := (generations_genRun k hgs).1.askRun
  exact ⟨t, tr, h1, h2, h1 ▸ (C104_full env .active p s t tr hu.configured hu.strict (by simp) f1 f2 (hu.lazy rfl) hx hs h2).2.2⟩

end Libcmaes
