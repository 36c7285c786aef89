import Verif.Lemmas.VdTarget
import Verif.Lemmas.VdWit

/-!
# C87, C88: the VD variant
-/

namespace Libcmaes

open Spec Matrix Finset

variable {n : ℕ}

/-- **C87 (natural gradient).** In each generation of each execution of the VD variant, whatever the points and
values given to `eval`, `tell()` moves `v` and `D` by the natural gradient for the published change of the
covariance matrix, damped as published; mean, paths and step size follow the equations of C68, the mean step
being divided by the standard deviations of the coordinates where C68 applies `C^(-1/2)`. -/
theorem C87_vd (env : Env n) (p : Params n) (s0 s s1 s2 s3 : Strat n) (tr : List (List (Cand n)))
    (pop cols phen : List (Vec n)) (hc : Configured p) (hvd : p.vd = true) (huh : p.uh = false) (htpa : p.tpa < 2)
    (h0 : Strat.new env .vd p = .ok s0) (h : AskRun env s0 tr s)
    (ha : s.ask env = .ok (pop, s1)) (he : s1.eval env cols phen = .ok s2) (ht : s2.tell env = .ok s3) :
    ∃ hs, CmaPaths (constsOf p) (pathNorm (constsOf p)) tr.length (ranked s3.sol.cands)
        (fun k => meanStep (constsOf p) (stateOf s.sol) (ranked s3.sol.cands) k /
          (s.sol.sepcov k * Real.sqrt (1 + s.sol.v k ^ 2))) hs (stateOf s.sol) (stateOf s3.sol) ∧
      NatGrad (vdDamp (len s.sol.v ^ 2) (⨆ k, s.sol.v k ^ 2 / len s.sol.v ^ 2)) s.sol.sepcov s.sol.v
        (vdTarget (constsOf p) (ranked s3.sol.cands) hs (stateOf s.sol) (stateOf s3.sol)
          (vdMat s.sol.sepcov s.sol.v))
        (s3.sol.v - s.sol.v) (s3.sol.sepcov - s.sol.sepcov) := by
  obtain ⟨_, _, hkd, hp0, _, hf, hn0, _⟩ := Strat.new_ok h0
  obtain ⟨r1, _, _, r4, r5, r6, _⟩ := run_p h.run
  have hg0 : GoodParams s0.p := by rw [hp0]; exact hc.with_sigmaInit _
  have hg : GoodParams s.p := by rw [r1]; exact hg0
  have hp : s.p = { p with sigmaInit := s0.sol.sigma } := by rw [r1, hp0]
  obtain ⟨sol3, sol4, hu, b1, b2, b3, b4, b5, b6, b7, b8, b9, b10, b11⟩ :=
    turn_update (by rw [hp]; exact huh) ha he ht
  unfold covarianceUpdate at hu
  rw [r6, hkd] at hu
  simp only at hu
  obtain ⟨hpre, _, _, hd, hv, hb, g, h2, h3, rfl⟩ := vdUpdate_ok hu
  have hsg := (updatePre_ok hpre).2.2.1
  have hcst : constsOf p = constsOf s.p := by rw [hp]; rfl
  have hn : s.sol.niter = tr.length := by rw [r5, hf.niter]; simp
  have hpc : pathNorm (constsOf p) = s.p.factPc := by rw [hp]; exact (hc.consts.2 (hc.vd_not_sep hvd)).symm
  have hps : s.p.factPs = Real.sqrt (s.p.csigma * (2 - s.p.csigma) * s.p.muw) := by rw [hp]; exact hc.consts.1
  have hpcn : (vdNext s.p sol3 hb g).pc =
      pcNext s.p sol3 (hsigNext (vdNext s.p sol3 hb g).psigma hb) (recombine s.p sol3.cands) := by
    show (if hsigNext (vdPaths s.p sol3 hb).psigma hb then _ else _) = pcNext s.p sol3
      (hsigNext (vdPaths s.p sol3 hb).psigma hb) _
    unfold pcNext
    cases hsigNext (vdPaths s.p sol3 hb).psigma hb <;> simp [hsigR]
  have hpaths := cmaPaths_of (p := s.p) (s := sol3) (s' := vdNext s.p sol3 hb g)
    (z := fun k => 1 / Real.sqrt (1 + sol3.v k * sol3.v k) * (1 / sol3.sepcov k) *
      diffMean sol3 (recombine s.p sol3.cands) k) hg.weights hg.rates hps (by rw [hp]; exact htpa)
    hsg h2 rfl rfl hpcn rfl
  rw [diffMean_recombine hg.weights] at hpaths
  refine ⟨hsigR (hsigNext (vdNext s.p sol3 hb g).psigma hb), ?_, ?_⟩
  · rw [b1, b2, b3, b5, b10, hn] at hpaths
    rw [hpc, hcst, b7]
    convert hpaths using 1
    funext k
    rw [div_eq_mul_inv, mul_inv, pow_two]
    ring
  · rw [← b5, ← b10, ← b3, ← b1, hcst, b7, b9, b11, ← vdAlpha_eq]
    have hx := vdX_target (p := s.p) (s := sol3) (hb := hb) (g := g) hg.weights hsg hd
    change NatGrad _ _ _ (vdTarget (constsOf s.p) (ranked sol3.cands) (hsigR (vdPaths s.p sol3 hb).hsig) (stateOf sol3)
      (stateOf (vdNext s.p sol3 hb g)) (vdMat sol3.sepcov sol3.v)) (g.v - sol3.v) (g.sepcov - sol3.sepcov)
    by_cases htest : s.p.cmu + s.p.c1 * hsigR (vdPaths s.p sol3 hb).hsig > 0
    · rw [if_pos htest] at h3
      rw [← hx]
      exact vdGradient_natGrad (s := vdPaths s.p sol3 hb) hv hd h3
    · rw [if_neg htest] at h3
      obtain rfl := Except.ok.inj h3
      have hc1 := hg.rates.c1_pos
      have hcm := hg.rates.cmu_nonneg
      have hh : 0 ≤ hsigR (vdPaths s.p sol3 hb).hsig := by unfold hsigR; split_ifs <;> norm_num
      have e1 : s.p.cmu = 0 := by nlinarith
      have e2 : hsigR (vdPaths s.p sol3 hb).hsig * s.p.c1 = 0 := by nlinarith
      have hz : vdTarget (constsOf s.p) (ranked sol3.cands) (hsigR (vdPaths s.p sol3 hb).hsig) (stateOf sol3)
          (stateOf (vdNext s.p sol3 hb ⟨sol3.v, sol3.sepcov⟩)) (vdMat sol3.sepcov sol3.v) = 0 := by
        show s.p.cmu • _ + (hsigR (vdPaths s.p sol3 hb).hsig * s.p.c1) • _ = 0
        rw [e1, e2, zero_smul, zero_smul, add_zero]
      rw [hz]
      simp only [sub_self]
      exact natGrad_zero _ _ _

/-- The matrices `vdMatV` and `vdMatD` of the specification are the derivatives: moving `v` by `t u` and `D` by
`t e` changes the covariance matrix by `t` times them, up to a remainder with factor `t²`. -/
theorem C87_derivative (d v u e : Vec n) : ∃ R : ℝ → Mat n, Continuous R ∧ ∀ t : ℝ,
    vdMat (d + t • e) (v + t • u) = vdMat d v + t • (vdMatV d v u + vdMatD d v e) + t ^ 2 • R t := by
  refine ⟨fun t => of fun i j =>
      d i * (u i * u j) * d j + e i * (u i * v j + v i * u j) * d j + d i * (u i * v j + v i * u j) * e j
      + e i * ((1 : Mat n) i j + v i * v j) * e j
      + t * (e i * (u i * u j) * d j + d i * (u i * u j) * e j + e i * (u i * v j + v i * u j) * e j)
      + t ^ 2 * (e i * (u i * u j) * e j), ?_, ?_⟩
  · refine continuous_matrix fun i j => ?_
    simp only [of_apply]
    fun_prop
  · intro t
    ext i j
    show (diagonal (d + t • e) * (1 + vecMulVec (v + t • u) (v + t • u)) * diagonal (d + t • e)) i j =
      (diagonal d * (1 + vecMulVec v v) * diagonal d) i j +
      t * ((diagonal d * (vecMulVec u v + vecMulVec v u) * diagonal d) i j +
        ((diagonal e * (1 + vecMulVec v v) * diagonal d) i j + (diagonal d * (1 + vecMulVec v v) * diagonal e) i j)) +
      t ^ 2 * _
    simp only [mul_diagonal, diagonal_mul]
    show (d i + t * e i) * ((1 : Mat n) i j + (v i + t * u i) * (v j + t * u j)) * (d j + t * e j) =
      d i * ((1 : Mat n) i j + v i * v j) * d j + t * (d i * (u i * v j + v i * u j) * d j +
        (e i * ((1 : Mat n) i j + v i * v j) * d j + d i * ((1 : Mat n) i j + v i * v j) * e j)) + t ^ 2 * _
    simp only [of_apply]
    ring

/-- The hypotheses of `C87_vd` are met in each dimension from 6 on, with default rates, any starting point and
step size, for any NaN-free objective, if the first draw is not zero. -/
example (hn : 6 ≤ n) (env : Env n) (hz : env.z 0 ≠ 0) (hf : ∀ k y, (env.f k y).IsNum) (x0 : Vec n) (sigma : ℝ)
    (seed clock : ℕ) : ∃ (p : Params n) (s s1 s2 s3 : Strat n) (pop phen : List (Vec n)), UsualVd p ∧ p.tpa < 2 ∧
      p.x0min = x0 ∧ Strat.new env .vd p = .ok s ∧ AskRun env s [] s ∧ s.ask env = .ok (pop, s1) ∧
      s1.eval env pop phen = .ok s2 ∧ s2.tell env = .ok s3 := by
  obtain ⟨p0, hp, _⟩ := C11_weights (by omega : 1 ≤ n) x0 sigma (-1) seed clock GenoPheno.plain
  obtain ⟨f1, f2⟩ := Params.make_flags hp
  obtain ⟨u1, u2, u3, u4, u5, u6, u7, u8, u9, u10, u11, u12, u13, u14⟩ := Params.make_plain hp
  have htpa : p0.tpa = 1 := by
    unfold Params.make at hp
    obtain ⟨l, -, hp⟩ := Out.bind_eq_ok.1 hp
    obtain ⟨mu, w, muw, cs, cc, c1, cm, ds, fs, fc, ch, lv, rl, al, e⟩ := initializeParameters_frame hp
    rw [e]; rfl
  set p : Params n := { p0 with algo := 12 } with hpd
  have hc : Configured p.setVd := .vd (.other (.make hp)
    ⟨rfl, rfl, rfl, rfl, rfl, rfl, rfl, rfl, rfl, rfl, rfl, rfl, rfl, rfl, rfl, rfl, rfl⟩) f1 f2 hn
  have hq : ∃ cs c1 cm ds fs, p.setVd = { p with
      vd := true, csigma := cs, c1 := c1, cmu := cm, dsigma := ds, factPs := fs } := by
    unfold Params.setVd; rw [if_neg (by simp [hpd])]; exact ⟨_, _, _, _, _, rfl⟩
  obtain ⟨cs, c1, cm, ds, fs, hq⟩ := hq
  have hu : UsualVd p.setVd := by
    refine ⟨hc, ?_, ?_, ?_, ?_, ?_, ?_⟩ <;> rw [hq]
    · exact u2
    · exact u4
    · show ¬ (p0.elitist = true ∧ _)
      rw [u5]; simp
    · exact u1
    · exact u3
  have hgp : p.setVd.gp = GenoPheno.plain := by rw [hq]; exact u10
  obtain ⟨s, hs⟩ := new_plain (env := env) (kind := .vd) (p := p.setVd) hgp hc.good.1
  obtain ⟨hL, hr, hd⟩ := vdLive_new hc hu.vd (hc.vd_not_sep hu.vd) hu.grad hu.uh hu.tpa hu.initialElitist hu.elitist hs
  have hv : s.sol.v ≠ 0 := by
    obtain ⟨h1, h2, _⟩ := Strat.new_ok hs
    have hs' := hs
    unfold Strat.new Sol.make at hs'
    obtain ⟨⟨q, sol⟩, hm, hs'⟩ := Out.bind_eq_ok.1 hs'
    obtain ⟨m, _, hm⟩ := Out.bind_eq_ok.1 hm
    rw [if_neg (by rintro (h | h); exacts [h2 h, h1 h])] at hm
    injection hm with hm; injection hm with _ hm
    injection hs' with hs'
    rw [← hs', ← hm]
    intro h0
    apply hz
    funext i
    have := congrFun h0 i
    simp only [hu.vd, if_true, Pi.zero_apply] at this
    have hn0 : Real.sqrt n ≠ 0 := (Real.sqrt_pos.2 (by exact_mod_cast (by omega : 0 < n))).ne'
    exact (div_eq_zero_iff.1 this).resolve_right hn0
  have hnv : sqNorm s.sol.v ≠ 0 := sqNorm_ne_zero hv
  rcases hL.generation hf hr (fun k => by rw [hd]; norm_num) hnv with ⟨s', hg, _⟩ | ⟨x, e, h1, _⟩
  · unfold Strat.generation at hg
    obtain ⟨⟨pop, s1⟩, ha, hg⟩ := Out.bind_eq_ok.1 hg
    obtain ⟨phen, _, hg⟩ := Out.bind_eq_ok.1 hg
    obtain ⟨s2, he, hg⟩ := Out.bind_eq_ok.1 hg
    obtain ⟨s3, ht, _⟩ := Out.bind_eq_ok.1 hg
    exact ⟨p.setVd, s, s1, s2, s3, pop, phen, hu, by rw [hq]; show p0.tpa < 2; omega, by rw [hq]; exact u12, hs,
      .refl s, ha, he, ht⟩
  · have : s.p.gp = GenoPheno.plain := by rw [(Strat.new_ok hs).2.2.2.1]; exact hgp
    rw [this, phenoV_plain] at h1; cases h1

/-! ### C88 -/

/-- **C88**, as far as it holds.  Full statement: any number of generations of the VD variant with a NaN-free
objective succeeds, or fails by the genotype/phenotype transform.  Proved: this is so until `v` or a component of
`D` is exactly zero; missing: that this does not happen, which is false (`C88_zero_false`). -/
theorem C88_total_partial (env : Env n) (p : Params n) (s : Strat n) (hu : UsualVd p)
    (hf : ∀ k y, (env.f k y).IsNum) (h0 : Strat.new env .vd p = .ok s) (k : ℕ) :
    (∃ s', s.generations env k = .ok s') ∨
      (∃ (x : Vec n) (e : Err), phenoV p.gp x = .error e ∧ s.generations env k = .error e) ∨
      ∃ j < k, ∃ s', s.generations env j = .ok s' ∧ (s'.sol.v = 0 ∨ ∃ i, s'.sol.sepcov i = 0) := by
  obtain ⟨hL, hr, -⟩ := vdLive_new hu.configured hu.vd (hu.configured.vd_not_sep hu.vd) hu.grad hu.uh hu.tpa
    hu.initialElitist hu.elitist h0
  have hgp : s.p.gp = p.gp := by rw [(Strat.new_ok h0).2.2.2.1]
  rw [← hgp]
  clear hgp h0 hu
  induction k generalizing s with
  | zero => exact Or.inl ⟨s, rfl⟩
  | succ k ih =>
    by_cases hv : s.sol.v = 0
    · exact Or.inr (Or.inr ⟨0, by omega, s, rfl, Or.inl hv⟩)
    by_cases hd : ∃ i, s.sol.sepcov i = 0
    · exact Or.inr (Or.inr ⟨0, by omega, s, rfl, Or.inr hd⟩)
    push Not at hd
    rcases hL.generation hf hr hd (sqNorm_ne_zero hv) with ⟨s1, h1, h2, h3, hp⟩ | ⟨x, e, h1, h2⟩
    · rcases ih s1 h2 h3 with ⟨s', i1⟩ | ⟨x, e, i1, i2⟩ | ⟨j, hj, s', i1, i2⟩
      · exact Or.inl ⟨s', by unfold Strat.generations; rw [h1, Out.ok_bind]; exact i1⟩
      · exact Or.inr (Or.inl ⟨x, e, by rw [← hp]; exact i1, by
          unfold Strat.generations; rw [h1, Out.ok_bind]; exact i2⟩)
      · exact Or.inr (Or.inr ⟨j + 1, by omega, s', by
          unfold Strat.generations; rw [h1, Out.ok_bind]; exact i1, i2⟩)
    · exact Or.inr (Or.inl ⟨x, e, h1, by unfold Strat.generations; rw [h2]; rfl⟩)

theorem usualVd_four {sigma : ℝ} {seed clock : ℕ} {p0 : Params 6}
    (h : Params.make 0 sigma 4 seed clock GenoPheno.plain = .ok p0) : UsualVd (vdP4 p0) := by
  obtain ⟨c1, c2, c3, c4, c5, c6, c7, c8, c9, c10, c11, c12, c13, c14⟩ := vdP4_ok h
  exact ⟨c1, c2, c4, c7, by rw [c8]; simp, c5, c6⟩

/-- **C88** fails: nothing limits the step of `D`.  In dimension 6 with 4 candidates, objective `x_0²`,
there are draws after which the second generation divides by a component of `D` that is zero. -/
theorem C88_zero_false (sigma : ℝ) (seed clock : ℕ) : ∃ (env : Env 6) (p0 : Params 6) (s : Strat 6),
    (∀ k y, env.f k y = .num ((y 0 ^ 2 : ℝ) : EReal)) ∧
    Params.make 0 sigma 4 seed clock GenoPheno.plain = .ok p0 ∧
    UsualVd ({ p0 with algo := 12 } : Params 6).setVd ∧ Strat.new env .vd ({ p0 with algo := 12 } : Params 6).setVd = .ok s ∧
    (∃ s', s.generations env 1 = .ok s' ∧ s'.sol.sepcov 0 = 0) ∧ ∀ s', s.generations env 2 ≠ .ok s' := by
  obtain ⟨p0, hp, _⟩ := C11_weights (by norm_num : 1 ≤ 6) 0 sigma 4 seed clock GenoPheno.plain
  obtain ⟨k1, k2, k3, k4, _⟩ := make_four hp
  set c := (vdP4 p0).cmu with hc
  have h20 : 7670 ≤ 20 / c - 10 := by
    rw [le_sub_iff_add_le, le_div_iff₀ k3]; linarith
  have hT : 80 ≤ Real.sqrt (20 / c - 10) := Real.le_sqrt_of_sq_le (by linarith)
  obtain ⟨s, s', hs, hg, hL, hd⟩ := vd_first hT hp
  have hz : s'.sol.sepcov 0 = 0 := by
    rw [hd, Real.sq_sqrt (by linarith), ← hc]
    have := k3.ne'
    field_simp
    ring
  have hg1 : s.generations (vdEnv (Real.sqrt (20 / c - 10))) 1 = .ok s' := by
    unfold Strat.generations; rw [hg]; rfl
  refine ⟨vdEnv _, p0, s, fun _ _ => rfl, hp, usualVd_four hp, hs, ⟨s', hg1, hz⟩, fun s'' h2 => ?_⟩
  unfold Strat.generations at h2
  rw [hg, Out.ok_bind] at h2
  unfold Strat.generations at h2
  obtain ⟨s3, h3, -⟩ := Out.bind_eq_ok.1 h2
  unfold Strat.generation at h3
  obtain ⟨⟨pop, t1⟩, ha, h3⟩ := Out.bind_eq_ok.1 h3
  obtain ⟨phen, _, h3⟩ := Out.bind_eq_ok.1 h3
  obtain ⟨t2, he, h3⟩ := Out.bind_eq_ok.1 h3
  obtain ⟨t3, ht, _⟩ := Out.bind_eq_ok.1 h3
  obtain ⟨sol3, sol4, hu, b1, b2, b3, b4, b5, _⟩ := turn_update hL.uh ha he ht
  unfold covarianceUpdate at hu
  rw [hL.kind] at hu
  exact (vdUpdate_ok hu).2.2.2.1 0 (by rw [b5]; exact hz)

/-- **C88** fails for the sign too: there are draws after which a component of `D`, whose square root the stopping
criteria take, is negative. -/
theorem C88_negative_false (sigma : ℝ) (seed clock : ℕ) : ∃ (env : Env 6) (p0 : Params 6) (s s' : Strat 6),
    (∀ k y, env.f k y = .num ((y 0 ^ 2 : ℝ) : EReal)) ∧
    Params.make 0 sigma 4 seed clock GenoPheno.plain = .ok p0 ∧
    UsualVd ({ p0 with algo := 12 } : Params 6).setVd ∧ Strat.new env .vd ({ p0 with algo := 12 } : Params 6).setVd = .ok s ∧
    s.generations env 1 = .ok s' ∧ s'.sol.sepcov 0 < 0 := by
  obtain ⟨p0, hp, _⟩ := C11_weights (by norm_num : 1 ≤ 6) 0 sigma 4 seed clock GenoPheno.plain
  obtain ⟨k1, k2, k3, k4, _⟩ := make_four hp
  set c := (vdP4 p0).cmu with hc
  have h20 : 7670 ≤ 20 / c := by
    rw [le_div_iff₀ k3]; linarith
  have hT : 80 ≤ Real.sqrt (20 / c) := Real.le_sqrt_of_sq_le (by linarith)
  obtain ⟨s, s', hs, hg, hL, hd⟩ := vd_first hT hp
  refine ⟨vdEnv _, p0, s, s', fun _ _ => rfl, hp, usualVd_four hp, hs, ?_, ?_⟩
  · unfold Strat.generations; rw [hg]; rfl
  · rw [hd, Real.sq_sqrt (by linarith), ← hc]
    have h1 : c * (10 + 20 / c) = 10 * c + 20 := by
      have := k3.ne'
      field_simp
    rw [h1]
    linarith

end Libcmaes
