import Verif.Lemmas.Turn
import Verif.Props.Total
import Verif.Props.Distribution
import Verif.Props.Stale

/-!
# C68–C70: `tell()` computes the published update

`CmaPaths`, `CovStep`, `SepStep`, `ActiveStep`, `IsInvSqrt`: Spec/Cma.lean.  `constsOf p` are the constants
held by the parameter object (their values: C11–C13), `stateOf` reads mean, step size and paths from a
solution object, `ranked` the points of the ranked population.
-/

namespace Libcmaes

open Spec Matrix Finset

variable {n : ℕ}

/-- **C68.** Default update, full covariance, eigendecomposition in each iteration, no two-point step size
adaptation: in each generation of each execution, whatever the points and values given to `eval`, `tell()`
computes mean, paths, step size and covariance by the published equations. -/
theorem C68_default (env : Env n) (p : Params n) (s0 s s1 s2 s3 : Strat n) (tr : List (List (Cand n)))
    (pop cols phen : List (Vec n)) (hc : Configured p) (hsep : p.sep = false) (hvd : p.vd = false)
    (hlazy : p.lazyUpdate = false) (huh : p.uh = false) (htpa : p.tpa < 2)
    (h0 : Strat.new env .plain p = .ok s0) (h : AskRun env s0 tr s)
    (ha : s.ask env = .ok (pop, s1)) (he : s1.eval env cols phen = .ok s2) (ht : s2.tell env = .ok s3) :
    ∃ B hs, IsInvSqrt s.sol.cov B ∧
      CmaPaths (constsOf p) (pathNorm (constsOf p)) tr.length (ranked s3.sol.cands)
        (B.mulVec (meanStep (constsOf p) (stateOf s.sol) (ranked s3.sol.cands))) hs
        (stateOf s.sol) (stateOf s3.sol) ∧
      CovStep (constsOf p) (ranked s3.sol.cands) hs (stateOf s.sol) (stateOf s3.sol) s.sol.cov s3.sol.cov := by
  obtain ⟨_, _, hkd, hp0, _, hf, hn0, _⟩ := Strat.new_ok h0
  obtain ⟨r1, _, _, r4, r5, r6, _⟩ := run_p h.run
  have hg0 : GoodParams s0.p := by rw [hp0]; exact hc.with_sigmaInit _
  have hg : GoodParams s.p := by rw [r1]; exact hg0
  have hpsd := (C26_cov_from_start env p s0 s tr hc h0 h.run).1
  have hp : s.p = { p with sigmaInit := s0.sol.sigma } := by rw [r1, hp0]
  obtain ⟨sol3, sol4, hu, b1, b2, b3, b4, b5, b6, b7, b8, b9, _⟩ := turn_update (by rw [hp]; exact huh) ha he ht
  obtain ⟨a1, a2, _⟩ := Strat.ask_eig ha (by rw [hp]; exact hsep) (by rw [hp]; exact hvd)
    (Or.inr (by rw [hp]; exact hlazy))
  unfold covarianceUpdate at hu
  rw [r6, hkd] at hu
  simp only at hu
  rw [if_neg (by rw [hp]; simp [hsep])] at hu
  obtain ⟨hpre, _, csq, hb, h1, h2, rfl⟩ := covUpdateFull_ok hu
  unfold csqinvOf at h1
  rw [b6, a2, if_pos rfl, a1] at h1
  have hinv := inverseSqrt_isInvSqrt env.eig hpsd.symm h1
  have hcst : constsOf p = constsOf s.p := by rw [hp]; rfl
  have hn : s.sol.niter = tr.length := by rw [r5, hf.niter]; simp
  have hpc : pathNorm (constsOf p) = s.p.factPc := by rw [hp]; exact (hc.consts.2 hsep).symm
  have hps : s.p.factPs = Real.sqrt (s.p.csigma * (2 - s.p.csigma) * s.p.muw) := by rw [hp]; exact hc.consts.1
  have hpaths := cmaPaths_of (p := s.p) (s := sol3) (s' := covNext s.p sol3 csq hb)
    (z := csq.mulVec (diffMean sol3 (recombine s.p sol3.cands))) hg.weights hg.rates hps (by rw [hp]; exact htpa)
    (updatePre_ok hpre).2.2.1 h2 rfl rfl rfl rfl
  rw [diffMean_recombine hg.weights] at hpaths
  rw [b1, b2, b3, hn] at hpaths
  refine ⟨csq, hsigR (hsigNext (covNext s.p sol3 csq hb).psigma hb), hinv, ?_, ?_⟩
  · rw [hpc, hcst, b7]
    exact hpaths
  · unfold CovStep
    rw [b8, hcst, b7, ← b4, ← b3, ← b1, ← rankMu_eq]
    rfl

/-- **C69.** Active update, full covariance: the same for the paths, the step size and the mean, and the
covariance gets the published negative update with the largest admissible negative rate. -/
theorem C69_active (env : Env n) (p : Params n) (s0 s s1 s2 s3 : Strat n) (tr : List (List (Cand n)))
    (pop cols phen : List (Vec n)) (hc : Configured p) (hst : StrictRates p) (hsep : p.sep = false)
    (hvd : p.vd = false) (hlazy : p.lazyUpdate = false) (huh : p.uh = false) (htpa : p.tpa < 2)
    (h0 : Strat.new env .active p = .ok s0) (h : AskRun env s0 tr s)
    (ha : s.ask env = .ok (pop, s1)) (he : s1.eval env cols phen = .ok s2) (ht : s2.tell env = .ok s3) :
    ∃ B hs, IsInvSqrt s.sol.cov B ∧
      CmaPaths (constsOf p) (pathNorm (constsOf p)) tr.length (ranked s3.sol.cands)
        (B.mulVec (meanStep (constsOf p) (stateOf s.sol) (ranked s3.sol.cands))) hs
        (stateOf s.sol) (stateOf s3.sol) ∧
      ActiveStep (constsOf p) (ranked s3.sol.cands) (stateOf s.sol) (stateOf s3.sol) s.sol.cov s3.sol.cov := by
  obtain ⟨_, _, hkd, hp0, _, hf, hn0, _⟩ := Strat.new_ok h0
  obtain ⟨r1, _, _, r4, r5, r6, _⟩ := run_p h.run
  have hg0 : GoodParams s0.p := by rw [hp0]; exact hc.with_sigmaInit _
  have hg : GoodParams s.p := by rw [r1]; exact hg0
  have hpd := C27_active_pd_from_start env p s0 s tr hc hst hsep hvd hlazy h0 h
  have hp : s.p = { p with sigmaInit := s0.sol.sigma } := by rw [r1, hp0]
  obtain ⟨sol3, sol4, hu, b1, b2, b3, b4, b5, b6, b7, b8, b9, _⟩ := turn_update (by rw [hp]; exact huh) ha he ht
  obtain ⟨a1, a2, _⟩ := Strat.ask_eig ha (by rw [hp]; exact hsep) (by rw [hp]; exact hvd)
    (Or.inr (by rw [hp]; exact hlazy))
  unfold covarianceUpdate at hu
  rw [r6, hkd] at hu
  simp only at hu
  rw [if_neg (by rw [hp]; simp [hsep])] at hu
  obtain ⟨hpre, _, _, _, csq, hb, cm, h1, h2, h3, rfl⟩ := acovUpdateFull_ok hu
  unfold csqinvOf at h1
  rw [b6, a2, if_pos rfl, a1] at h1
  have hinv := inverseSqrt_isInvSqrt env.eig hpd.symm h1
  have hcst : constsOf p = constsOf s.p := by rw [hp]; rfl
  have hn : s.sol.niter = tr.length := by rw [r5, hf.niter]; simp
  have hpc : pathNorm (constsOf p) = s.p.factPc := by rw [hp]; exact (hc.consts.2 hsep).symm
  have hps : s.p.factPs = Real.sqrt (s.p.csigma * (2 - s.p.csigma) * s.p.muw) := by rw [hp]; exact hc.consts.1
  have hra := recombineActive_eq hg.weights sol3
  have hpaths := cmaPaths_of (p := s.p) (s := sol3) (s' := acovNext s.p sol3 csq hb cm)
    (z := csq.mulVec (diffMean sol3 (recombine s.p sol3.cands))) hg.weights hg.rates hps (by rw [hp]; exact htpa)
    (updatePre_ok hpre).2.2.1 h2 (by rw [← hra]; rfl) (by rw [← hra]; rfl) (by rw [← hra]; rfl) rfl
  rw [diffMean_recombine hg.weights] at hpaths
  rw [b1, b2, b3, hn] at hpaths
  refine ⟨csq, hsigR (hsigNext (acovNext s.p sol3 csq hb cm).psigma hb), hinv, ?_, ?_⟩
  · rw [hpc, hcst, b7]
    exact hpaths
  · have hcmu : s.p.cmu < 1 := by
      rw [hp]
      have := hst.lt_one; have := hc.good.1.rates.c1_pos
      show p.cmu < 1
      linarith
    have hgr := cminus_greatest env.eig hg.dim hg.weights (by rw [b4]; exact hpd) hcmu hg.muw (by rw [b4]; exact h1) h3
    rw [rankMuMinus_eq, b1, b3, b4] at hgr
    refine ⟨cm, by rw [hcst]; exact hgr, ?_⟩
    rw [b8, hcst, b7]
    show (1 - s.p.c1 - s.p.cmu + cm * 0.5) • sol3.cov + s.p.c1 • vecMulVec _ _
      + (s.p.cmu + cm * (1 - 0.5)) • rankMu s.p sol3 - cm • rankMuMinus s.p sol3 = _
    rw [rankMu_eq, rankMuMinus_eq, b1, b3, b4]
    congr 3
    · congr 2
      norm_num; ring
    · show s.p.cmu + cm * (1 - 0.5) = s.p.cmu + cm / 2
      norm_num; ring

/-- **C70.** Diagonal model, default update: mean, step size, `ps` and the variances follow the published equations,
and `pc` does with the normalisation `factPc` held by the parameters. -/
theorem C70_sep_partial (env : Env n) (p : Params n) (s0 s s1 s2 s3 : Strat n) (tr : List (List (Cand n)))
    (pop cols phen : List (Vec n)) (hc : Configured p) (hsep : p.sep = true)
    (huh : p.uh = false) (htpa : p.tpa < 2)
    (h0 : Strat.new env .plain p = .ok s0) (h : Run env s0 tr s)
    (ha : s.ask env = .ok (pop, s1)) (he : s1.eval env cols phen = .ok s2) (ht : s2.tell env = .ok s3) :
    ∃ hs, (∀ i, 0 < s.sol.sepcov i) ∧
      CmaPaths (constsOf p) p.factPc tr.length (ranked s3.sol.cands)
        (fun i => meanStep (constsOf p) (stateOf s.sol) (ranked s3.sol.cands) i / Real.sqrt (s.sol.sepcov i)) hs
        (stateOf s.sol) (stateOf s3.sol) ∧
      SepStep (constsOf p) (ranked s3.sol.cands) hs (stateOf s.sol) (stateOf s3.sol) s.sol.sepcov s3.sol.sepcov := by
  obtain ⟨_, _, hkd, hp0, _, hf, hn0, _⟩ := Strat.new_ok h0
  obtain ⟨r1, _, _, r4, r5, r6, _⟩ := run_p h
  have hg0 : GoodParams s0.p := by rw [hp0]; exact hc.with_sigmaInit _
  have hg : GoodParams s.p := by rw [r1]; exact hg0
  have hp : s.p = { p with sigmaInit := s0.sol.sigma } := by rw [r1, hp0]
  obtain ⟨sol3, sol4, hu, b1, b2, b3, b4, b5, b6, b7, b8, b9, _⟩ := turn_update (by rw [hp]; exact huh) ha he ht
  unfold covarianceUpdate at hu
  rw [r6, hkd] at hu
  simp only at hu
  rw [if_pos (by rw [hp]; exact hsep)] at hu
  obtain ⟨hpre, _, csq, hb, h1, h2, rfl⟩ := covUpdateSep_ok hu
  obtain ⟨hpos, hcsq⟩ := sepcsqinvOf_ok h1
  have hcst : constsOf p = constsOf s.p := by rw [hp]; rfl
  have hn : s.sol.niter = tr.length := by rw [r5, hf.niter]; simp
  have hps : s.p.factPs = Real.sqrt (s.p.csigma * (2 - s.p.csigma) * s.p.muw) := by rw [hp]; exact hc.consts.1
  have hpaths := cmaPaths_of (p := s.p) (s := sol3) (s' := covNextSep s.p sol3 csq hb)
    (z := csq * diffMean sol3 (recombine s.p sol3.cands)) hg.weights hg.rates hps (by rw [hp]; exact htpa)
    (updatePre_ok hpre).2.2.1 h2 rfl rfl rfl rfl
  rw [diffMean_recombine hg.weights] at hpaths
  have hz : csq * meanStep (constsOf s.p) (stateOf sol3) (ranked sol3.cands) =
      fun i => meanStep (constsOf s.p) (stateOf sol3) (ranked sol3.cands) i / Real.sqrt (sol3.sepcov i) := by
    funext i
    rw [hcsq]
    show Real.sqrt (1 / sol3.sepcov i) * _ = _
    rw [Real.sqrt_div' _ (hpos i).le, Real.sqrt_one]
    ring
  rw [hz, b1, b2, b3, b5, hn] at hpaths
  refine ⟨hsigR (hsigNext (covNextSep s.p sol3 csq hb).psigma hb), by rw [← b5]; exact hpos, ?_, ?_⟩
  · rw [hcst, b7]
    have : p.factPc = s.p.factPc := by rw [hp]
    rw [this]
    exact hpaths
  · intro j
    rw [b9, hcst, b7, ← b5, ← b3, ← b1, ← rankMuSep_eq, pow_two]
    rfl

/-- Rates of the diagonal model for a population of two in dimension 4. -/
theorem make_two_sep {x0 : Vec 4} {sigma : ℝ} {seed clock : ℕ} {gp : GenoPheno} {p : Params 4}
    (h : Params.make x0 sigma 2 seed clock gp = .ok p) :
    p.muw = 1 ∧ p.mu = 1 ∧ p.weights 0 = 1 ∧ p.csigma = 3 / 10 ∧ p.factPc = Real.sqrt (3 / 4) ∧ p.setSep.cc = 6 / 11 ∧
      p.setSep.c1 + p.setSep.cmu < 1 ∧ p.setSep.c1 < 0.66 * (1 - p.setSep.cmu) ∧ 1 ≤ p.chi ∧ p.tpa = 1 := by
  obtain ⟨h2, hcmu, hc1, _⟩ := make_two h
  unfold Params.make lambdaOf at h
  rw [if_neg (by norm_num)] at h
  replace h : initializeParameters (Params.blank 2 x0 sigma (if seed = 0 then clock else seed) gp) = .ok p := h
  have hs := initializeParameters_spec h
  have htpa : p.tpa = 1 := by
    obtain ⟨mu, w, muw, cs, cc, c1, cm, ds, fs, fc, ch, lv, rl, al, e⟩ := initializeParameters_frame h
    rw [e]; rfl
  have hmu : p.mu = 1 := by rw [hs.mu]; simp [Params.blank]
  have hlog : Real.log 2 ≠ 0 := (Real.log_pos (by norm_num)).ne'
  have hr0 : rawWeight 1 0 = Real.log 2 := by unfold rawWeight; norm_num
  have hmuw : p.muw = 1 := by
    rw [hs.muw, hmu]
    unfold muwOf
    rw [Finset.sum_range_one, Finset.sum_range_one, hr0]
    exact div_self (mul_ne_zero hlog hlog)
  have hw : p.weights 0 = 1 := by
    rw [hs.weights, hmu, Finset.sum_range_one, hr0]
    exact div_self hlog
  have hcc : p.cc = 1 / 2 := by rw [hs.cc, hmuw]; norm_num
  have h4 : Real.sqrt 4 = 2 := by
    rw [show (4 : ℝ) = 2 ^ 2 by norm_num]; exact Real.sqrt_sq (by norm_num)
  have hsc1 : p.setSep.c1 = 4 / (5.3 ^ 2 + 1) := by
    show p.c1 * (((4 : ℕ) + 2 : ℝ) / 3) = _
    rw [hc1]; norm_num
  have hscmu : p.setSep.cmu = 0.024 := by
    show min (1 - p.setSep.c1) ((0.3 + p.muw - 2 + 1 / p.muw) / ((4 : ℕ) + 4 * Real.sqrt (4 : ℕ) + p.muw / 2)) = _
    rw [hsc1, hmuw]
    push_cast
    rw [h4]
    norm_num
  refine ⟨hmuw, hmu, hw, ?_, ?_, ?_, ?_, ?_, ?_, htpa⟩
  · rw [hs.csigma, hmuw]; norm_num
  · rw [hs.factPc, hcc, hmuw]; norm_num
  · show (1 + 1 / ((4 : ℕ) : ℝ) + p.muw / (4 : ℕ)) / (Real.sqrt (4 : ℕ) + 1 / (4 : ℕ) + 2 * p.muw / (4 : ℕ)) = _
    rw [hmuw]
    push_cast
    rw [h4]
    norm_num
  · rw [hsc1, hscmu]; norm_num
  · rw [hsc1, hscmu]; norm_num
  · rw [hs.chi]
    unfold chiOf
    push_cast
    rw [h4]
    norm_num

/-- The rate of the rank-mu update in that case. -/
theorem make_two_sep_cmu {x0 : Vec 4} {sigma : ℝ} {seed clock : ℕ} {gp : GenoPheno} {p : Params 4}
    (h : Params.make x0 sigma 2 seed clock gp = .ok p) : p.setSep.cmu = 0.024 := by
  obtain ⟨hmuw, -⟩ := make_two_sep h
  obtain ⟨-, -, hc1, -⟩ := make_two h
  have h4 : Real.sqrt 4 = 2 := by
    rw [show (4 : ℝ) = 2 ^ 2 by norm_num]; exact Real.sqrt_sq (by norm_num)
  have hsc1 : p.setSep.c1 = 4 / (5.3 ^ 2 + 1) := by
    show p.c1 * (((4 : ℕ) + 2 : ℝ) / 3) = _
    rw [hc1]; norm_num
  show min (1 - p.setSep.c1) ((0.3 + p.muw - 2 + 1 / p.muw) / ((4 : ℕ) + 4 * Real.sqrt (4 : ℕ) + p.muw / 2)) = _
  rw [hsc1, hmuw]
  push_cast
  rw [h4]
  norm_num

/-- The first generation of the diagonal model in dimension 4 with two candidates and two equal draws `e`. -/
theorem sep_equal_draws (env : Env 4) (e : Vec 4) (h0 : env.z 0 = e) (h1 : env.z 1 = e)
    (hf : ∀ k y, (env.f k y).IsNum) (x0 : Vec 4) (sigma : ℝ) (seed clock : ℕ) :
    ∃ (p : Params 4) (s s' : Strat 4) (h : ℝ), Params.make x0 sigma 2 seed clock GenoPheno.plain = .ok p ∧
      Strat.new env .plain p.setSep = .ok s ∧ s.generation env = .ok s' ∧ Fresh 2 s.sol ∧ p.fixedP = [] ∧
      selStep (stateOf s.sol) (ranked s'.sol.cands) 0 = e ∧
      meanStep (constsOf p.setSep) (stateOf s.sol) (ranked s'.sol.cands) = e ∧
      CmaPaths (constsOf p.setSep) p.setSep.factPc 0 (ranked s'.sol.cands) (fun i => e i / Real.sqrt (s.sol.sepcov i)) h
        (stateOf s.sol) (stateOf s'.sol) ∧
      SepStep (constsOf p.setSep) (ranked s'.sol.cands) h (stateOf s.sol) (stateOf s'.sol) s.sol.sepcov s'.sol.sepcov := by
  obtain ⟨p, hp, _⟩ := C11_weights (by norm_num : 1 ≤ 4) x0 sigma 2 seed clock GenoPheno.plain
  obtain ⟨c1, c2, c3, c4, c5, c6, c7, c8, c9, c10⟩ := make_two_sep hp
  obtain ⟨hlam, _⟩ := make_two hp
  obtain ⟨u1, u2, u3, u4, u5, u6, u7, u8, u9, u10, u11, u12, u13, u14⟩ := Params.make_plain hp
  have hfl := Params.make_flags hp
  have hconf : Configured p.setSep := .sep (.make hp) hfl.1 hfl.2
  have hu : Usual .plain p.setSep := by
    refine ⟨⟨hconf, ⟨c7, c8⟩, by decide, hfl.2, ?_, u2, u4, ?_⟩, u1, u3⟩
    · intro h; cases h
    · rintro ⟨h, -⟩
      have : p.elitist = true := h
      rw [u5] at this; cases this
  obtain ⟨s, hs⟩ := new_plain (env := env) (kind := .plain) (p := p.setSep) u10 hconf.good.1
  obtain ⟨_, _, _, hsp, hsig, hfr, hsn, _⟩ := Strat.new_ok hs
  obtain ⟨s', hg⟩ : ∃ s', s.generation env = .ok s' := by
    obtain ⟨s'', hg2⟩ : ∃ s'', s.generations env 1 = .ok s'' := by
      rcases C67_total env .plain p.setSep s hu hf hs 1 with h | ⟨x, e, h1, _⟩
      · exact h
      · have : p.setSep.gp = GenoPheno.plain := u10
        rw [this, phenoV_plain] at h1; cases h1
    unfold Strat.generations at hg2
    obtain ⟨s', hg, hg2⟩ := Out.bind_eq_ok.1 hg2
    exact ⟨s', hg⟩
  have hnz : s.nz = 0 := by
    unfold Strat.new at hs
    obtain ⟨⟨p', sol⟩, hm, hs⟩ := Out.bind_eq_ok.1 hs
    injection hs with hs; rw [← hs]
  have hgood : GoodParams s.p := by rw [hsp]; exact hconf.with_sigmaInit _
  have hsl : s.p.lambda = 2 := by rw [hsp]; exact hlam
  obtain ⟨pop, s1, phen, s2, s3, ha, hph, hev, ht, es', hperm, hlen, hpts⟩ :=
    generation_points hgood (by rw [hfr.cands, hsp]) hg
  have hcand := (C19_sep env s s1 pop (by rw [hsp]; rfl) (by rw [hsp]; exact u2) (Or.inr hsn) ha).2
  have hpop : ∀ x ∈ pop, x = s.sol.xmean + s.sol.sigma • e := by
    intro x hx
    obtain ⟨j, hj, ej⟩ := List.getElem_of_mem hx
    have hj2 : j < 2 := by
      have := (Strat.ask_frame ha).2
      omega
    obtain ⟨y, hy, hyi⟩ := hcand j (by rw [hsl]; exact hj2)
    rw [List.getElem?_eq_getElem hj, ej] at hy
    injection hy with hy
    funext i
    rw [hy, hyi i (by
      intro v hv
      have : s.p.fixedP = [] := by rw [hsp]; exact u11
      rw [this] at hv; cases hv), hnz, zero_add, hfr.sepcov i]
    have hz : env.z j = e := by
      interval_cases j
      · exact h0
      · exact h1
    rw [hz, Real.sqrt_one, one_mul]; rfl
  have hx : ranked s'.sol.cands 0 = s.sol.xmean + s.sol.sigma • e := by
    have hl : 0 < s'.sol.cands.length := by rw [hlen, hsl]; norm_num
    unfold ranked
    rw [List.getElem?_eq_getElem hl]
    simp only
    rcases hpts _ (List.getElem_mem hl) with h | h
    · exact hpop _ h
    · unfold Strat.elitistRef at h
      have e1 : s.p.initialElitistOnRestart = false := by rw [hsp]; exact u6
      have e2 : s.p.initialElitist = false := by rw [hsp]; exact u4
      have e3 : s.p.elitist = false := by rw [hsp]; exact u5
      simp [e1, e2, e3] at h
  have hss : selStep (stateOf s.sol) (ranked s'.sol.cands) 0 = e := by
    unfold selStep
    rw [hx]
    show s.sol.sigma⁻¹ • (s.sol.xmean + s.sol.sigma • e - s.sol.xmean) = e
    rw [add_sub_cancel_left, smul_smul, inv_mul_cancel₀ hsig.ne', one_smul]
  have hms : meanStep (constsOf p.setSep) (stateOf s.sol) (ranked s'.sol.cands) = e := by
    unfold meanStep
    show ∑ i ∈ range p.mu, p.weights i • selStep _ _ i = e
    rw [c2, Finset.sum_range_one, c3, one_smul, hss]
  have hc3 : s3.sol.cands = s'.sol.cands := by rw [es']; rfl
  have hst3 : stateOf s3.sol = stateOf s'.sol := by rw [es']; rfl
  obtain ⟨h, _, hpaths, hstep⟩ := C70_sep_partial env p.setSep s s s1 s2 s3 [] pop pop phen hconf rfl u1
    (by show p.tpa < 2; rw [c10]; norm_num) hs (.refl s) ha hev ht
  rw [hc3, hst3, hms] at hpaths
  rw [hc3, hst3] at hstep
  have hse3 : s3.sol.sepcov = s'.sol.sepcov := by rw [es']; rfl
  rw [hse3] at hstep
  exact ⟨p, s, s', h, hp, hs, hg, hlam ▸ hfr, u11, hss, hms, hpaths, hstep⟩

/-- **C70** fails for `pc`: `set_sep` changes `cc` but leaves the normalisation of `pc` as it was for the old
`cc`.  In dimension 4 with two candidates, for any NaN-free objective and two equal first draws of length at
most 1, after the first generation `pc` is not what the published equations give. -/
theorem C70_sep_false (env : Env 4) (e : Vec 4) (he : e ≠ 0) (hle : len e ≤ 1) (h0 : env.z 0 = e) (h1 : env.z 1 = e)
    (hf : ∀ k y, (env.f k y).IsNum) (x0 : Vec 4) (sigma : ℝ) (seed clock : ℕ) :
    ∃ (p : Params 4) (s s' : Strat 4), Params.make x0 sigma 2 seed clock GenoPheno.plain = .ok p ∧
      Strat.new env .plain p.setSep = .ok s ∧ s.generation env = .ok s' ∧
      p.setSep.factPc ≠ pathNorm (constsOf p.setSep) ∧
      ∀ z hs, ¬ CmaPaths (constsOf p.setSep) (pathNorm (constsOf p.setSep)) 0 (ranked s'.sol.cands) z hs
        (stateOf s.sol) (stateOf s'.sol) := by
  obtain ⟨p, s, s', h, hp, hs, hg, hfr, u11, -, hms, hpaths, -⟩ := sep_equal_draws env e h0 h1 hf x0 sigma seed clock
  obtain ⟨c1, c2, c3, c4, c5, c6, c7, c8, c9, c10⟩ := make_two_sep hp
  have hne : p.setSep.factPc ≠ pathNorm (constsOf p.setSep) := by
    have e1 : p.setSep.factPc = Real.sqrt (3 / 4) := c5
    have e2 : pathNorm (constsOf p.setSep) = Real.sqrt (96 / 121) := by
      show Real.sqrt (p.setSep.cc * (2 - p.setSep.cc) * p.muw) = _
      rw [c6, c1]; norm_num
    rw [e1, e2]
    exact (Real.sqrt_lt_sqrt (by norm_num) (by norm_num)).ne
  refine ⟨p, s, s', hp, hs, hg, hne, fun z hs' hbad => ?_⟩
  -- the paths are not stalled
  have hps := hpaths.ps
  have hns : NotStalled (constsOf p.setSep) 0 (stateOf s'.sol).ps := by
    have hcs : (constsOf p.setSep).cs = 3 / 10 := c4
    have h5 : (stateOf s'.sol).ps = Real.sqrt (51 / 100) • e := by
      rw [hps]
      show (1 - (constsOf p.setSep).cs) • s.sol.psigma + Real.sqrt (_ * (2 - _) * (constsOf p.setSep).mueff) • _ = _
      rw [hfr.psigma, smul_zero, zero_add, hcs]
      have : (constsOf p.setSep).mueff = 1 := c1
      rw [this]
      congr 1
      · norm_num
      · funext i
        rw [hfr.sepcov i, Real.sqrt_one, div_one]
    have hlen2 : len (Real.sqrt (51 / 100) • e) = Real.sqrt (51 / 100) * len e := by
      unfold len
      rw [← Real.sqrt_mul (by norm_num)]
      congr 1
      rw [Finset.mul_sum]
      refine sum_congr rfl fun i _ => ?_
      show (Real.sqrt (51 / 100) * e i) ^ 2 = _
      rw [mul_pow, Real.sq_sqrt (by norm_num)]
    unfold NotStalled
    rw [h5, hlen2, hcs]
    have h6 : (1 - (1 - (3 : ℝ) / 10) ^ (2 * (0 + 1))) = 51 / 100 := by norm_num
    rw [h6, mul_div_assoc, mul_comm, div_mul_cancel₀ _ (Real.sqrt_pos.2 (by norm_num)).ne']
    have h7 : (constsOf p.setSep).dim = 4 := by
      show ((4 : ℕ) : ℝ) - ((p.fixedP.length : ℕ) : ℝ) = 4
      rw [u11]; norm_num
    have h8 : 1 ≤ (constsOf p.setSep).chi := c9
    rw [h7]
    norm_num
    linarith
  have k1 : h = 1 := by
    rcases hpaths.hsig with ⟨_, h⟩ | ⟨h, _⟩
    · exact h
    · exact absurd hns h
  have k2 : hs' = 1 := by
    rcases hbad.hsig with ⟨_, h⟩ | ⟨h, _⟩
    · exact h
    · exact absurd hns h
  have h9 := hpaths.pc
  rw [hbad.pc, hms, k1, k2, one_mul, one_mul] at h9
  have h10 := add_left_cancel h9
  obtain ⟨i, hi⟩ := Function.ne_iff.1 he
  have h11 := congrFun h10 i
  have : pathNorm (constsOf p.setSep) * e i = p.setSep.factPc * e i := h11
  exact hne (mul_right_cancel₀ hi this).symm

/-- Such environments exist. -/
example : ∃ (env : Env 4) (e : Vec 4), e ≠ 0 ∧ len e ≤ 1 ∧ env.z 0 = e ∧ env.z 1 = e ∧ ∀ k y, (env.f k y).IsNum := by
  refine ⟨Env.basic (fun _ x => .num ((∑ i, x i ^ 2 : ℝ) : EReal)) (fun _ _ => 1 / 2), fun _ => 1 / 2, ?_, ?_, rfl,
    rfl, fun _ _ => trivial⟩
  · intro h; have := congrFun h 0; norm_num at this
  · unfold len
    norm_num

/-- The hypotheses of C68 and C69 are met: default parameters, any dimension, any NaN-free objective, any number of
generations. -/
example (hn : 1 ≤ n) (env : Env n) (hf : ∀ k y, (env.f k y).IsNum) (kind : CovKind) (hk : kind ≠ .vd) (k : ℕ) :
    ∃ (p : Params n) (s0 s s1 s2 s3 : Strat n) (tr : List (List (Cand n))) (pop phen : List (Vec n)),
      Configured p ∧ StrictRates p ∧ p.sep = false ∧ p.vd = false ∧ p.lazyUpdate = false ∧ p.uh = false ∧ p.tpa < 2 ∧
      Strat.new env kind p = .ok s0 ∧ AskRun env s0 tr s ∧ tr.length = k ∧ s.ask env = .ok (pop, s1) ∧
      s1.eval env pop phen = .ok s2 ∧ s2.tell env = .ok s3 := by
  obtain ⟨p, hp, _⟩ := C11_weights hn (fun _ => 0) 1 (-1) 1 1 GenoPheno.plain
  obtain ⟨hu, hgp, hfp, _⟩ := usual_default (kind := kind) (by norm_num) hp hk
  have hfl := Params.make_flags hp
  obtain ⟨s0, hs⟩ := new_plain (env := env) (kind := kind) hgp hu.configured.good.1
  have hmk := hp
  unfold Params.make at hmk
  obtain ⟨l, -, hmk⟩ := Out.bind_eq_ok.1 hmk
  obtain ⟨mu, w, muw, cs, cc, c1, cm, ds, fs, fc, ch, lv, rl, al, e⟩ := initializeParameters_frame hmk
  have hall : ∀ k, ∃ s', s0.generations env k = .ok s' := by
    intro k
    rcases C67_total env kind p s0 hu hf hs k with h | ⟨x, e, h1, _⟩
    · exact h
    · rw [hgp, phenoV_plain] at h1; cases h1
  obtain ⟨s', hs'⟩ := hall (k + 1)
  obtain ⟨s, h1, h2⟩ : ∃ s, s0.generations env k = .ok s ∧ s.generation env = .ok s' := by
    clear hall
    revert hs'
    generalize s0 = t
    induction k generalizing t with
    | zero =>
      intro h
      unfold Strat.generations at h
      obtain ⟨t', h1, h2⟩ := Out.bind_eq_ok.1 h
      unfold Strat.generations at h2
      injection h2 with h2
      exact ⟨t, rfl, h2 ▸ h1⟩
    | succ k ih =>
      intro h
      unfold Strat.generations at h
      obtain ⟨t', h1, h2⟩ := Out.bind_eq_ok.1 h
      obtain ⟨u, h3, h4⟩ := ih t' h2
      refine ⟨u, ?_, h4⟩
      unfold Strat.generations
      rw [h1, Out.ok_bind, h3]
  obtain ⟨tr, hl, hr⟩ := Strat.generations_askRun _ h1
  unfold Strat.generation at h2
  obtain ⟨⟨pop, s1⟩, ha, h2⟩ := Out.bind_eq_ok.1 h2
  obtain ⟨phen, hph, h2⟩ := Out.bind_eq_ok.1 h2
  obtain ⟨s2, he, h2⟩ := Out.bind_eq_ok.1 h2
  obtain ⟨s3, ht, h2⟩ := Out.bind_eq_ok.1 h2
  exact ⟨p, s0, s, s1, s2, s3, tr, pop, phen, hu.configured, hu.strict, hfl.1, hfl.2, by rw [e]; rfl, hu.uh,
    by rw [e]; norm_num [Params.blank], hs, hr, hl, ha, he, ht⟩

end Libcmaes
