import Verif.Lemmas.Edm
import Verif.Props.StopCrit
import Mathlib.Analysis.SpecialFunctions.Trigonometric.Deriv

/-!
# C89: the expected distance to the minimum
-/

namespace Libcmaes

open Matrix Spec

variable {n : ℕ}

/-- **C89** for the diagonal model: whenever `edm` returns, it stores the expected distance of the search
distribution, in the coordinates of the samples, whatever affine transform the user has chosen. -/
theorem C89_sep_partial (env : Env n) (s s' : Strat n) (F : Vec n → ℝ) (a b : Vec n) (hF : GivesGradient env F)
    (ha : AffinePheno s.p.gp a b) (hs : s.p.sep = true) (hsig : 0 ≤ s.sol.sigma) (h : s.edm env = .ok s') :
    s'.sol.edm = edmOf s.p.lambda (fun x => F (a * x + b)) s.sol.xmean s.sol.sigma
      (diagonal fun i => Real.sqrt (s.sol.sepcov i)) := by
  obtain ⟨G, hG, hL⟩ := hF
  obtain ⟨L, h1, h2⟩ := hL s.calls.length (a * s.sol.xmean + b)
  obtain ⟨_, nrm, h3, -, h5⟩ := edm_value hG ha h
  rw [h3, edm_factor, (h5 hs).2]
  unfold edmOf
  rw [slopes_affine h1 h2, len_smul _ hsig, vnorm_eq_len, diagonal_transpose, mul_comm _ a]
  congr 3
  funext i
  rw [mulVec_diagonal]

/-- **C89** for the full model, bounds: in a run, the value differs from the expected distance by at most the square root
of the condition number of the covariance matrix; it is exact for an isotropic distribution. -/
theorem C89_full_partial (env : Env n) (kind : CovKind) (p : Params n) (s t t' : Strat n) (k : ℕ) (F : Vec n → ℝ)
    (a b : Vec n) (lo hi : ℝ) (h0 : Started env kind p s) (hv : ValObjective env p) (hF : GivesGradient env F)
    (ha : AffinePheno p.gp a b) (hs : p.sep = false) (hr : GenRun env s (k + 1) t) (h : t.edm env = .ok t')
    (hlo : 0 ≤ lo) (hb : ∀ i, lo ≤ t.sol.leigenvalues i ∧ t.sol.leigenvalues i ≤ hi) :
    let truth := edmOf t.p.lambda (fun x => F (a * x + b)) t.sol.xmean t.sol.sigma
      (t.sol.leigenvectors * diagonal fun i => Real.sqrt (t.sol.leigenvalues i))
    Real.sqrt lo * t'.sol.edm ≤ Real.sqrt hi * truth ∧ Real.sqrt lo * truth ≤ Real.sqrt hi * t'.sol.edm := by
  intro truth
  obtain ⟨hL, hR, hv'⟩ := h0.live hv
  have hp := h0.p
  have hsp : s.p.sep = false ∧ s.p.vd = false ∧ s.p.gp = p.gp := by
    rw [hp]; exact ⟨hs, by rcases h0 with h | h; exacts [h.1.vd, h.1.vd], rfl⟩
  obtain ⟨htp, hle⟩ := genRun_leig hsp.1 hsp.2.1 hr
  obtain ⟨e, he, _, hl1, hl2⟩ := hle (by omega)
  obtain ⟨hLt, _, _⟩ := genRun_live hr hL hR hv'
  have horth : t.sol.leigenvectors * t.sol.leigenvectorsᵀ = 1 := by rw [hl2]; exact (hLt.eig e he).2
  have hsig := hLt.sigma
  obtain ⟨G, hG, hG'⟩ := hF
  obtain ⟨L, h1, h2⟩ := hG' t.calls.length (a * t.sol.xmean + b)
  have ha' : AffinePheno t.p.gp a b := by rw [htp, hsp.2.2]; exact ha
  obtain ⟨hd, nrm, h3, h4, -⟩ := edm_value hG ha' h
  obtain ⟨-, -, h4⟩ := h4 (by rw [htp]; exact hsp.1)
  set g : Vec n := a * G t.calls.length (a * t.sol.xmean + b) with hg
  set c : ℝ := (n : ℝ) / (10 * (Real.sqrt (t.p.lambda / 4 + 1 / 2) - 1)) with hc
  have hc0 : 0 ≤ c := by
    have h2 : 2 ≤ t.p.lambda := hLt.good.lambda
    rcases h2.lt_or_eq with h | h
    · have := edm_den_pos h
      positivity
    · exfalso
      apply hd
      rw [← h]
      norm_num
  have e1 : t'.sol.edm = c * (t.sol.sigma * len fun i => Real.sqrt (t.sol.leigenvalues i) * g i) := by
    rw [h3, edm_factor, h4, vnorm_eq_len, len_orth (mul_eq_one_comm.1 horth), mul_comm _ a]
  have e2 : truth = c * (t.sol.sigma * len fun i => Real.sqrt (t.sol.leigenvalues i) *
      t.sol.leigenvectorsᵀ.mulVec g i) := by
    simp only [truth, edmOf]
    rw [slopes_affine h1 h2, len_smul _ hsig.le, transpose_mul, diagonal_transpose, ← mulVec_mulVec]
    congr 3
    funext i
    rw [mulVec_diagonal]
  obtain ⟨b1, b2⟩ := len_scaled (x := g) hlo hb
  obtain ⟨b3, b4⟩ := len_scaled (x := t.sol.leigenvectorsᵀ.mulVec g) hlo hb
  rw [len_orth (by rw [transpose_transpose]; exact horth)] at b3 b4
  have key : ∀ x y : ℝ, x ≤ Real.sqrt hi * len g → Real.sqrt lo * len g ≤ y →
      Real.sqrt lo * (c * (t.sol.sigma * x)) ≤ Real.sqrt hi * (c * (t.sol.sigma * y)) := by
    intro x y hx hy
    have hcs : 0 ≤ c * t.sol.sigma := mul_nonneg hc0 hsig.le
    have k1 := mul_le_mul_of_nonneg_left hx (Real.sqrt_nonneg lo)
    have k2 := mul_le_mul_of_nonneg_left hy (Real.sqrt_nonneg hi)
    have : Real.sqrt lo * x ≤ Real.sqrt hi * y := by nlinarith
    have := mul_le_mul_of_nonneg_left this hcs
    nlinarith
  rw [e1, e2]
  exact ⟨key _ _ b2 b3, key _ _ b4 b1⟩

/-- **C89**, in a run with more than two candidates and a given gradient, `edm` returns a value that is not negative
(full or diagonal model). -/
theorem C89_total_partial (env : Env n) (kind : CovKind) (p : Params n) (s t : Strat n) (k : ℕ) (a b : Vec n)
    (h0 : Started env kind p s) (hv : ValObjective env p) (hG : env.gfunc.isSome = true)
    (ha : AffinePheno p.gp a b) (hl : 2 < p.lambda) (hr : GenRun env s (k + 1) t) :
    ∃ t', t.edm env = .ok t' ∧ 0 ≤ t'.sol.edm ∧ t' = { t with sol := { t.sol with edm := t'.sol.edm } } := by
  obtain ⟨hL, hR, hv'⟩ := h0.live hv
  have hp := h0.p
  obtain ⟨tr, htr, hrun⟩ := hr.askRun
  have htp := (run_p hrun.run).1
  have hgp : t.p.gp = p.gp := by rw [htp, hp]
  have hlam : t.p.lambda = p.lambda := by rw [htp, hp]
  obtain ⟨hLt, hRt, _⟩ := genRun_live hr hL hR hv'
  obtain ⟨e1, e2, _⟩ := hRt.eig (by rw [(run_p hrun.run).2.2.2.1, htr]; omega)
  obtain ⟨G, hG⟩ := Option.isSome_iff_exists.1 hG
  have ha' : AffinePheno t.p.gp a b := by rw [hgp]; exact ha
  have hd := edm_den_pos (l := t.p.lambda) (by rw [hlam]; exact hl)
  have hd' : 0 < 10 * (Real.sqrt ((t.p.lambda : ℝ) / 4 + 0.5) - 1) := by
    rw [show (0.5 : ℝ) = 1 / 2 by norm_num]; exact hd
  have key : ∃ nrm : ℝ, 0 ≤ nrm ∧ t.edm env = .ok { t with sol := { t.sol with
      edm := (n : ℝ) / (10 * (Real.sqrt ((t.p.lambda : ℝ) / 4 + 0.5) - 1)) * (t.sol.sigma * nrm) } } := by
    unfold Strat.edm Strat.gradf
    rw [if_neg hd'.ne', ha', hG]
    simp only [Out.ok_bind, gradgp_affine ha']
    by_cases hs : t.p.sep = false
    · rw [if_pos hs, if_neg (by rw [hLt.vd]; simp [e1]), if_pos fun i => (e2 i).le]
      exact ⟨_, Real.sqrt_nonneg _, rfl⟩
    · have hs' : t.p.sep = true := by simpa using hs
      obtain ⟨f1, f2⟩ := hLt.sep hs'
      rw [if_neg hs, if_neg (by simp [f1]), if_pos fun i => (f2 i).le]
      exact ⟨_, Real.sqrt_nonneg _, rfl⟩
  obtain ⟨nrm, hn, he⟩ := key
  exact ⟨_, he, mul_nonneg (div_nonneg (Nat.cast_nonneg _) hd'.le) (mul_nonneg hLt.sigma.le hn), rfl⟩

/-- The hypotheses of the three theorems are met: in any dimension, by the default parameters and their diagonal
variant after one generation on the objective `sin x_0`, whatever the draws. -/
example (hn : 1 ≤ n) (z : ℕ → Vec n) (x0 : Vec n) (sigma : ℝ) (seed clock : ℕ) (diag : Bool) :
    ∃ (env : Env n) (F : Vec n → ℝ) (p : Params n) (s t t' : Strat n),
      (∀ k y, env.f k y = .num (F y : EReal)) ∧ (∀ y, F y = Real.sin (y ⟨0, hn⟩)) ∧ GivesGradient env F ∧
      Params.make x0 sigma (-1) seed clock GenoPheno.plain = .ok p ∧
      Started env .plain (if diag then p.setSep else p) s ∧ ValObjective env (if diag then p.setSep else p) ∧
      AffinePheno (if diag then p.setSep else p).gp (1 : Vec n) 0 ∧ GenRun env s (0 + 1) t ∧ t.edm env = .ok t' ∧
      t.p.sep = diag ∧ 0 ≤ t.sol.sigma := by
  obtain ⟨p, hp, hlam0, _⟩ := C11_weights hn x0 sigma (-1) seed clock GenoPheno.plain
  obtain ⟨l, hl0, _, _, hl4⟩ := C11_lambda n hn (-1)
  rw [hlam0] at hl0
  injection hl0 with hl0
  have h4 : 4 ≤ p.lambda := by rw [hl0]; exact (hl4 (by norm_num)).2
  obtain ⟨hu, hgp, _⟩ := usual_default (kind := .plain) (by norm_num) hp (by decide)
  have hflags : p.sep = false := by
    have hp' := hp
    unfold Params.make at hp'
    obtain ⟨l, -, hp'⟩ := Out.bind_eq_ok.1 hp'
    obtain ⟨mu, w, muw, cs, cc, c1, cm, ds, fs, fc, ch, lv, rl, al, e⟩ := initializeParameters_frame hp'
    rw [e]; rfl
  set q := if diag then p.setSep else p with hq
  have hqu : Usual .plain q ∧ q.gp = GenoPheno.plain ∧ q.lambda = p.lambda ∧ q.sep = diag ∧ q.maximize = p.maximize := by
    cases diag with
    | false =>
      rw [hq, if_neg (by simp)]
      exact ⟨hu, hgp, rfl, hflags, rfl⟩
    | true =>
      rw [hq, if_pos rfl]
      exact ⟨⟨⟨.sep (.make hp) hflags hu.vd, (strictRates_default (by norm_num) hp).2, by decide, hu.vd,
        (fun h => by cases h), hu.grad, hu.initialElitist, hu.elitist⟩, hu.uh, hu.tpa⟩, hgp, rfl, rfl, rfl⟩
  obtain ⟨hqu, hqgp, hql, hqs, hqm⟩ := hqu
  set F : Vec n → ℝ := fun y => Real.sin (y ⟨0, hn⟩) with hF
  set env : Env n := { Env.basic (fun _ y => .num (F y : EReal)) z with
    gfunc := some fun _ y => Pi.single ⟨0, hn⟩ (Real.cos (y ⟨0, hn⟩)) } with henv
  have hgrad : GivesGradient env F := ⟨_, rfl, fun k x => by
    have h1 : HasFDerivAt (fun y : Vec n => y ⟨0, hn⟩)
        (ContinuousLinearMap.proj (R := ℝ) (φ := fun _ : Fin n => ℝ) ⟨0, hn⟩) x :=
      (ContinuousLinearMap.proj (R := ℝ) (φ := fun _ : Fin n => ℝ) ⟨0, hn⟩).hasFDerivAt
    refine ⟨_, h1.sin, fun i => ?_⟩
    by_cases hi : i = ⟨0, hn⟩
    · subst hi; simp
    · simp [hi, Ne.symm hi]⟩
  have haff : AffinePheno q.gp (1 : Vec n) 0 := fun x => by
    rw [hqgp, phenoV_plain, one_mul, add_zero]
  have hmx : q.maximize = false := by rw [hqm]; exact (Params.make_plain hp).2.2.2.2.2.2.2.1
  have hval : ValObjective env q := fun k y => by
    rw [hmx]
    refine Or.inr ⟨F y, ?_, rfl⟩
    have := dblMax_ge
    have := Real.abs_sin_le_one (y ⟨0, hn⟩)
    linarith
  obtain ⟨s, hs⟩ := new_plain (env := env) (kind := .plain) (p := q) hqgp hqu.configured.good.1
  have hst : Started env .plain q s := Or.inr ⟨hqu, hs⟩
  obtain ⟨hL, hr⟩ := live_new hqu hs
  have hgp : s.p.gp = q.gp := by rw [hst.p]
  obtain ⟨t, hg, hLt, htp⟩ : ∃ t, s.generation env = .ok t ∧ Live t ∧ t.p = s.p := by
    rcases generations_total hL (env := env) (fun k y => trivial) hr 1 with ⟨s', h, h', _, h''⟩ | ⟨x, e, h1, _⟩
    · unfold Strat.generations at h
      obtain ⟨t, h1, h2⟩ := Out.bind_eq_ok.1 h
      injection h2 with h2
      subst h2
      exact ⟨_, h1, h', h''⟩
    · rw [hgp, haff] at h1; cases h1
  have hgr : GenRun env s (0 + 1) t := .turn (.refl _) hg
  obtain ⟨t', ht', _⟩ := C89_total_partial env .plain q s t 0 1 0 hst hval rfl haff (by omega) hgr
  exact ⟨env, F, p, s, t, t', fun _ _ => rfl, fun _ => rfl, hgrad, hp, hst, hval, haff, hgr, ht',
    by rw [htp, hst.p]; exact hqs, hLt.sigma.le⟩

/-- **C89** fails with two candidates: the factor divides by zero, whatever the state. -/
theorem C89_two_false (env : Env n) (s : Strat n) (hl : s.p.lambda = 2) : s.edm env = .error .notReal := by
  unfold Strat.edm
  rw [if_pos (by rw [hl]; norm_num)]

/-- **C89** fails for the VD variant: beyond dimension 1, the product with the eigenvectors is not defined. -/
theorem C89_vd_false (env : Env n) (s : Strat n) (a b : Vec n) (hl : 2 < s.p.lambda) (hG : env.gfunc.isSome = true)
    (ha : AffinePheno s.p.gp a b) (hvd : s.p.vd = true) (hs : s.p.sep = false) (hn : n ≠ 1) :
    s.edm env = .error .ub := by
  obtain ⟨G, hG⟩ := Option.isSome_iff_exists.1 hG
  have hd := edm_den_pos hl
  rw [show (1 / 2 : ℝ) = 0.5 by norm_num] at hd
  unfold Strat.edm Strat.gradf
  rw [if_neg hd.ne', ha, hG]
  simp only [Out.ok_bind, gradgp_affine ha]
  rw [if_pos hs, if_pos (Or.inr ⟨hvd, hn⟩)]
  rfl

/-- **C89** fails for the full model: the gradient is multiplied with the eigenvectors before, not after, it is
expressed in their basis.  Dimension 2, objective `x ↦ x_0`, whatever the solver of the eigenvalue problem,
starting point and step size: there are draws after which the value stored is not the expected distance. -/
theorem C89_rotated_false (eig : EigSolver 2) (x0 : Vec 2) (sigma : ℝ) (seed clock : ℕ) :
    ∃ (env : Env 2) (p : Params 2) (s t t' : Strat 2), env.eig = eig ∧
      (∀ k y, env.f k y = .num ((y 0 : ℝ) : EReal)) ∧ GivesGradient env (fun y => y 0) ∧
      Params.make x0 sigma (-1) seed clock GenoPheno.plain = .ok p ∧ Strat.new env .plain p = .ok s ∧
      GenRun env s 2 t ∧ t.edm env = .ok t' ∧
      t'.sol.edm ≠ edmOf t.p.lambda (fun y => y 0) t.sol.xmean t.sol.sigma
        (t.sol.leigenvectors * diagonal fun i => Real.sqrt (t.sol.leigenvalues i)) := by
  obtain ⟨p, hp, hlam0, hpmu, hgw, _, hmuw1, hmuw2⟩ :=
    C11_weights (n := 2) (by norm_num) x0 sigma (-1) seed clock GenoPheno.plain
  obtain ⟨l, hl0, _, _, hl4⟩ := C11_lambda 2 (by norm_num) (-1)
  rw [hlam0] at hl0
  injection hl0 with hl0
  have h4 : 4 ≤ p.lambda := by rw [hl0]; exact (hl4 (by norm_num)).2
  obtain ⟨u1, u2, u3, u4, u5, u6, u7, u8, u9, u10, u11, u12, u13, u14⟩ := Params.make_plain hp
  obtain ⟨hu, _⟩ := usual_default (kind := .plain) (by norm_num) hp (by decide)
  have hconf : Configured p := hu.configured
  have hvd0 : p.vd = false := hu.vd
  have hflags : p.sep = false ∧ p.lazyUpdate = false ∧ p.tpa < 2 := by
    have hp' := hp
    unfold Params.make at hp'
    obtain ⟨l, -, hp'⟩ := Out.bind_eq_ok.1 hp'
    obtain ⟨mu, w, muw, cs, cc, c1, cm, ds, fs, fc, ch, lv, rl, al, e⟩ := initializeParameters_frame hp'
    rw [e]; exact ⟨rfl, rfl, by simp [Params.blank]⟩
  obtain ⟨hsep0, hlz0, htpa0⟩ := hflags
  set A : Mat 2 := (eig.solve 1).2 * diagonal fun i => Real.sqrt (max ((eig.solve 1).1 i) 0) with hA
  have hPSD1 : PSD (1 : Mat 2) := ⟨isSymm_one, fun x => by
    rw [quad_one]; exact Finset.sum_nonneg fun i _ => mul_self_nonneg _⟩
  have hAA : A * Aᵀ = 1 := by
    have hd := eig.decomp 1 hPSD1.symm
    rw [hA, transpose_mul, diagonal_transpose, Matrix.mul_assoc, ← Matrix.mul_assoc (diagonal _) (diagonal _),
      diagonal_mul_diagonal, ← Matrix.mul_assoc]
    have : (fun i => Real.sqrt (max ((eig.solve 1).1 i) 0) * Real.sqrt (max ((eig.solve 1).1 i) 0)) =
        (eig.solve 1).1 := by
      funext i
      rw [Real.mul_self_sqrt (le_max_right _ _), max_eq_left (eig_nonneg eig hPSD1 i)]
    rw [this]
    exact hd
  set w : Vec 2 := fun _ => 1 with hw
  set env : Env 2 := { Env.basic (fun _ y => .num ((y 0 : ℝ) : EReal)) (fun k => if k < p.lambda then Aᵀ.mulVec w else 0) with
    eig := eig, gfunc := some fun _ _ => Pi.single 0 1 } with henv
  have hgrad : GivesGradient env (fun y => y 0) := ⟨fun _ _ => Pi.single 0 1, rfl, fun k x =>
    ⟨ContinuousLinearMap.proj 0, (ContinuousLinearMap.proj (R := ℝ) (φ := fun _ : Fin 2 => ℝ) 0).hasFDerivAt, fun i => by
      simp [Pi.single_apply, eq_comm]⟩⟩
  obtain ⟨s, hs⟩ := new_plain (env := env) (kind := .plain) (p := p) u10 hconf.good.1
  obtain ⟨_, _, _, hsp, hsig, hfr, hsn, _, _, _, hcov, _, _, _, _, _, _, _, hsm, _⟩ := Strat.new_ok hs
  have hplain : ∀ x : Vec 2, phenoV p.gp x = .ok x := by
    intro x
    rw [u10, phenoV_plain]
  obtain ⟨t, hgs, hLt⟩ : ∃ t, s.generations env 2 = .ok t ∧ Live t := by
    obtain ⟨hL, hr⟩ := live_new hu hs
    have hgp : s.p.gp = p.gp := by rw [hsp]
    rcases generations_total hL (env := env) (fun k y => trivial) hr 2 with ⟨s', h, h', _⟩ | ⟨x, e, h1, _⟩
    · exact ⟨s', h, h'⟩
    · rw [hgp, hplain] at h1; cases h1
  have hnz : s.nz = 0 := by
    have hs' := hs
    unfold Strat.new at hs'
    obtain ⟨⟨p', sol⟩, hm, hs'⟩ := Out.bind_eq_ok.1 hs'
    injection hs' with hs'; rw [← hs']
  have hps : PlainSet s := ⟨by rw [hsp]; exact hconf.with_sigmaInit _, by rw [hfr.cands, hsp], by rw [hsp]; exact hsep0,
    by rw [hsp]; exact hvd0, by rw [hsp]; exact u2, by rw [hsp]; exact u3, by rw [hsp]; exact hlz0,
    by rw [hsp]; exact u11, by rw [hsp]; exact ⟨u6, u4, u5⟩⟩
  have hsl : s.p.lambda = p.lambda := by rw [hsp]
  -- the two generations
  unfold Strat.generations at hgs
  obtain ⟨t1, hg1, hgs⟩ := Out.bind_eq_ok.1 hgs
  unfold Strat.generations at hgs
  obtain ⟨t2, hg2, hgs⟩ := Out.bind_eq_ok.1 hgs
  injection hgs with hgs
  subst hgs
  obtain ⟨pop, s1, phen, s2, s3, ha, hev, ht, es', hnz1, hlen1, hp1, -, -, hc, hm1⟩ :=
    equal_draws hps hg1 (Aᵀ.mulVec w) (by
      intro j hj
      rw [hsl] at hj
      rw [hnz, zero_add]
      show (if j < p.lambda then _ else _) = _
      rw [if_pos hj])
  have heig : env.eig = eig := rfl
  rw [hfr.cov, heig, ← hA, mulVec_mulVec, hAA, one_mulVec] at hc hm1
  have hp1s : PlainSet t1 := ⟨by rw [hp1]; exact hps.good, by rw [hp1]; exact hlen1, by rw [hp1]; exact hps.sep,
    by rw [hp1]; exact hps.vd, by rw [hp1]; exact hps.grad, by rw [hp1]; exact hps.tpa, by rw [hp1]; exact hps.lazy,
    by rw [hp1]; exact hps.fixed, by rw [hp1]; exact hps.noElitism⟩
  obtain ⟨_, _, _, _, _, _, _, _, _, _, _, hp2, hlv, hle, _, hm2⟩ := equal_draws hp1s hg2 0 (by
      intro j hj
      rw [hnz1, hnz, hsl]
      show (if 0 + p.lambda + j < p.lambda then _ else _) = _
      rw [if_neg (by omega)])
  -- the covariance after the first
  have hgood := hconf.good.1
  have htc : s3.sol.cands = t1.sol.cands := by rw [es']; rfl
  have hstep : ∀ i < p.mu, selStep (stateOf s.sol) (ranked s3.sol.cands) i = w := by
    intro i hi
    have hi' : i < t1.sol.cands.length := by
      rw [hlen1, hsl]; omega
    unfold selStep ranked
    rw [htc, List.getElem?_eq_getElem hi']
    simp only
    rw [hc _ (List.getElem_mem hi')]
    simp only [stateOf, add_sub_cancel_right]
    rw [smul_smul, inv_mul_cancel₀ hsig.ne', one_smul]
  have hmean : meanStep (constsOf p) (stateOf s.sol) (ranked s3.sol.cands) = w := by
    unfold meanStep
    rw [Finset.sum_congr rfl fun i hi => by rw [hstep i (Finset.mem_range.1 hi)], ← Finset.sum_smul]
    have : ∑ i ∈ Finset.range (constsOf p).mu, (constsOf p).w i = 1 := hgood.weights.sum_one
    rw [this, one_smul]
  have hrank : rankMuOf (constsOf p) (stateOf s.sol) (ranked s3.sol.cands) = vecMulVec w w := by
    unfold rankMuOf
    rw [Finset.sum_congr rfl fun i hi => by rw [hstep i (Finset.mem_range.1 hi)], ← Finset.sum_smul]
    have : ∑ i ∈ Finset.range (constsOf p).mu, (constsOf p).w i = 1 := hgood.weights.sum_one
    rw [this, one_smul]
  obtain ⟨B, h, hB, hP, hC⟩ := C68_default env p s s s1 s2 s3 [] pop pop phen hconf hsep0 hvd0 hlz0 u1
    htpa0 hs (.refl _) ha hev ht
  have hadm := hgood.rates
  have hpc0 : (stateOf s.sol).pc = 0 := hfr.pc
  have hpc : (stateOf s3.sol).pc = (h * pathNorm (constsOf p)) • w := by
    rw [hP.pc, hmean, hpc0, smul_zero, zero_add]
  have hc10 : 0 < p.c1 := hadm.c1_pos
  have hcmu0 : 0 < p.cmu := make_cmu_pos hp (by omega)
  have e0 : t1.sol.cov = s3.sol.cov := by rw [es']; rfl
  obtain ⟨α, β, hβ, hcov1⟩ : ∃ α β : ℝ, 0 < β ∧ t1.sol.cov = α • (1 : Mat 2) + β • vecMulVec w w := by
    refine ⟨1 - p.c1 - p.cmu + (1 - h) * p.c1 * p.cc * (2 - p.cc), p.c1 * ((h * pathNorm (constsOf p)) * (h * pathNorm (constsOf p))) + p.cmu,
      by have := mul_self_nonneg (h * pathNorm (constsOf p)); positivity, ?_⟩
    rw [e0, hC, hpc, hrank, show s.sol.cov = 1 from hfr.cov, add_assoc, smul_vecMulVec, vecMulVec_smul, smul_smul,
      smul_smul, ← add_smul, ← mul_assoc p.c1]
    rfl
  have hsym : t1.sol.cov.IsSymm := by
    rw [hcov1]
    ext i j
    simp [vecMulVec_apply, hw, Matrix.one_apply, eq_comm]
  obtain ⟨hBsq, hdne⟩ := axes_diagonal (B := t2.sol.leigenvectors) (d := t2.sol.leigenvalues) hβ.ne'
    (by rw [hle]; exact env.eig.orth _ hsym) (by rw [hle, hlv, env.eig.decomp _ hsym]; exact hcov1)
  have hr : GenRun env s 2 t2 := .turn (.turn (.refl _) hg1) hg2
  obtain ⟨e, he, hhl, hl1, hl2⟩ := (genRun_leig (by rw [hsp]; exact hsep0) (by rw [hsp]; exact hvd0) hr).2 (by norm_num)
  have hpos : ∀ i, 0 < t2.sol.leigenvalues i := by rw [hl1]; exact (hLt.eig e he).1
  have ht2p : t2.p = s.p := by rw [hp2, hp1]
  have haff : AffinePheno t2.p.gp (1 : Vec 2) 0 := fun x => by
    rw [ht2p, hsp, one_mul, add_zero]; exact hplain x
  have hlt2 : 2 < t2.p.lambda := by rw [ht2p, hsl]; omega
  have hd := edm_den_pos hlt2
  have horth : t2.sol.leigenvectors * t2.sol.leigenvectorsᵀ = 1 := by rw [hl2]; exact (hLt.eig e he).2
  obtain ⟨t', he'⟩ : ∃ t', t2.edm env = .ok t' := by
    have hd' : 0 < 10 * (Real.sqrt ((t2.p.lambda : ℝ) / 4 + 0.5) - 1) := by
      rw [show (0.5 : ℝ) = 1 / 2 by norm_num]; exact hd
    unfold Strat.edm Strat.gradf
    rw [if_neg hd'.ne', haff]
    simp only [Out.ok_bind, gradgp_affine haff, henv]
    rw [if_pos (by rw [ht2p, hsp]; exact hsep0), if_neg (by rw [ht2p, hsp]; simp [hhl, hvd0]),
      if_pos fun i => (hpos i).le]
    exact ⟨_, rfl⟩
  refine ⟨env, p, s, t2, t', rfl, fun _ _ => rfl, hgrad, hp, hs, hr, he', ?_⟩
  obtain ⟨_, nrm, h3, h4', -⟩ := edm_value (G := fun _ _ => Pi.single 0 1) rfl haff he'
  obtain ⟨-, -, h4'⟩ := h4' (by rw [ht2p, hsp]; exact hsep0)
  have hF : HasFDerivAt (fun y : Vec 2 => y 0) (ContinuousLinearMap.proj (R := ℝ) (φ := fun _ : Fin 2 => ℝ) 0)
      ((1 : Vec 2) * t2.sol.xmean + 0) :=
    (ContinuousLinearMap.proj (R := ℝ) (φ := fun _ : Fin 2 => ℝ) 0).hasFDerivAt
  have hsl2 := slopes_affine (sigma := t2.sol.sigma)
    (A := t2.sol.leigenvectors * diagonal fun i => Real.sqrt (t2.sol.leigenvalues i)) hF
    (g := Pi.single 0 1) (fun i => by simp [Pi.single_apply, eq_comm])
  have hsig2 := hLt.sigma
  have hfac : 0 < ((2 : ℕ) : ℝ) / (10 * (Real.sqrt (t2.p.lambda / 4 + 1 / 2) - 1)) := by
    push_cast
    positivity
  intro heq
  unfold edmOf at heq
  have e1 : (fun x : Vec 2 => ((1 : Vec 2) * x + 0) 0) = fun y : Vec 2 => y 0 := by
    funext x; simp
  rw [e1] at hsl2
  rw [h3, edm_factor, hsl2, len_smul _ hsig2.le, h4', vnorm_eq_len, len_orth (mul_eq_one_comm.1 horth)] at heq
  have h5 := mul_left_cancel₀ hsig2.ne' (mul_left_cancel₀ hfac.ne' heq)
  unfold len at h5
  have h6 := (Real.sqrt_inj (Finset.sum_nonneg fun _ _ => sq_nonneg _) (Finset.sum_nonneg fun _ _ => sq_nonneg _)).1 h5
  have b00 := hBsq 0 0
  have b01 := hBsq 0 1
  simp only [Fin.sum_univ_two, mulVec, dotProduct,
    transpose_apply, Pi.mul_apply, Pi.one_apply, one_mul, mul_one] at h6
  simp at h6
  rw [mul_pow, mul_pow, Real.sq_sqrt (hpos 0).le, Real.sq_sqrt (hpos 1).le, b00, b01] at h6
  exact hdne (by linarith)

end Libcmaes
