import Verif.Lemmas.Tpa
import Verif.Lemmas.Total
import Verif.Lemmas.Witness
import Verif.Props.Sampling
import Verif.Props.Elitism

/-!
# C66: two-point adaptation
-/

namespace Libcmaes

open Spec Matrix

variable {n : ℕ}

/-- **C66**, any settings: after any number of generations the signal is within `lambda / (lambda - 1)`. -/
theorem C66_bound (env : Env n) (kind : CovKind) (p : Params n) (s s' : Strat n) (hc : Configured p)
    (h0 : Strat.new env kind p = .ok s) (k : ℕ) (h : s.generations env k = .ok s') :
    |s'.sol.tpaS| ≤ (p.lambda : ℝ) / ((p.lambda : ℝ) - 1) := by
  have hl : 2 ≤ p.lambda := hc.good.1.lambda
  have hl1 : (0 : ℝ) < (p.lambda : ℝ) - 1 := by
    have : (2 : ℝ) ≤ p.lambda := by exact_mod_cast hl
    linarith
  have hB : (0 : ℝ) ≤ (p.lambda : ℝ) / ((p.lambda : ℝ) - 1) := div_nonneg (Nat.cast_nonneg _) hl1.le
  refine (TpaInv.bound k (TpaInv.new hc h0) h ?_ ?_).2
  · rw [(Strat.new_ok h0).2.2.2.2.2.2.2.2.2.2.2.2.2.2.2.2.2.1]; simpa using hB
  · intro t t' hi hg hb
    obtain ⟨g1, g2⟩ := generation_tpa hi.good hi.cands hg
    by_cases hc : t.p.tpa = 2 ∧ t.niter > 0
    · obtain ⟨⟨d, hd, e⟩, _⟩ := g2 hc.1 hc.2
      rw [e, hi.params.2.1]
      rw [hi.params.2.1] at hd
      refine smooth_bound hl1 hb ?_
      rw [div_mul_cancel₀ _ hl1.ne']
      exact_mod_cast hd
    · rw [g1 hc]; exact hb

/-- **C66**: without elitism the signal stays in `[-1, 1]`. -/
theorem C66_unit (env : Env n) (kind : CovKind) (p : Params n) (s s' : Strat n) (hc : Configured p)
    (hel : ElitismMode p 0) (h0 : Strat.new env kind p = .ok s) (k : ℕ)
    (h : s.generations env k = .ok s') : |s'.sol.tpaS| ≤ 1 := by
  have hl : 2 ≤ p.lambda := hc.good.1.lambda
  have hl1 : (0 : ℝ) < (p.lambda : ℝ) - 1 := by
    have : (2 : ℝ) ≤ p.lambda := by exact_mod_cast hl
    linarith
  refine (TpaInv.bound k (TpaInv.new hc h0) h ?_ ?_).2
  · rw [(Strat.new_ok h0).2.2.2.2.2.2.2.2.2.2.2.2.2.2.2.2.2.1]; simp
  · intro t t' hi hg hb
    obtain ⟨g1, g2⟩ := generation_tpa hi.good hi.cands hg
    have hoff : t.elitismOn = false := by
      obtain ⟨_, _, e1, e2, e3⟩ := hi.params
      obtain ⟨m1, m2, m3⟩ := hel
      have a1 : p.elitist = false := by simpa using m1
      have a2 : p.initialElitist = false := by simpa using m2
      have a3 : p.initialElitistOnRestart = false := by simpa using m3
      unfold Strat.elitismOn
      rw [e1, e2, e3, a1, a2, a3]
      simp
    by_cases hc : t.p.tpa = 2 ∧ t.niter > 0
    · obtain ⟨_, g3⟩ := g2 hc.1 hc.2
      obtain ⟨r1, r2, b1, b2, _, _, e⟩ := g3 hoff
      rw [e, hi.params.2.1]
      rw [hi.params.2.1] at b1 b2
      refine smooth_bound hl1 hb ?_
      rw [one_mul, abs_le]
      have c1 : (r1 : ℝ) + 1 ≤ p.lambda := by exact_mod_cast b1
      have c2 : (r2 : ℝ) + 1 ≤ p.lambda := by exact_mod_cast b2
      have c3 : (0 : ℝ) ≤ r1 := Nat.cast_nonneg _
      have c4 : (0 : ℝ) ≤ r2 := Nat.cast_nonneg _
      push_cast
      constructor <;> linarith
    · rw [g1 hc]; exact hb

/-- **C66**, the step: in each generation but the first the signal moves by 30% towards the difference of
the ranks `r1`, `r2` (0 = best) of the two test points, divided by `lambda - 1`; it grows if the point in the
direction of the last move (the first one) is the better. -/
theorem C66_step (env : Env n) (s s' : Strat n) (hg : GoodParams s.p) (hc : s.sol.cands.length = s.p.lambda)
    (ht : s.p.tpa = 2) (hn : 0 < s.niter) (hel : ElitismMode s.p 0) (h : s.generation env = .ok s') :
    ∃ (r1 r2 : ℕ) (c1 c2 : Cand n), s'.sol.cands[r1]? = some c1 ∧ s'.sol.cands[r2]? = some c2 ∧
      c1.id = s'.sol.tpaP1 ∧ c2.id = s'.sol.tpaP2 ∧
      s'.sol.tpaS = 0.7 * s.sol.tpaS + 0.3 * (((r2 : ℝ) - r1) / ((s.p.lambda : ℝ) - 1)) := by
  have hoff : s.elitismOn = false := by
    obtain ⟨m1, m2, m3⟩ := hel
    have a1 : s.p.elitist = false := by simpa using m1
    have a2 : s.p.initialElitist = false := by simpa using m2
    have a3 : s.p.initialElitistOnRestart = false := by simpa using m3
    unfold Strat.elitismOn
    rw [a1, a2, a3]
    simp
  obtain ⟨r1, r2, _, _, ⟨c1, h1, i1⟩, ⟨c2, h2, i2⟩, e⟩ := ((generation_tpa hg hc h).2 ht hn).2 hoff
  refine ⟨r1, r2, c1, c2, h1, h2, i1, i2, ?_⟩
  rw [e]; push_cast; ring

/-- **C66**, the step size: without uncertainty handling, `tell` multiplies sigma by
`exp(signal / dsigma)`, so by a factor between `exp(-B / dsigma)` and `exp(B / dsigma)` where `B` bounds the
signal, and keeps it in the first generation. -/
theorem C66_sigma (env : Env n) (s s' : Strat n) (hd : 0 < s.p.dsigma) (ht : s.p.tpa = 2)
    (huh : s.p.uh = false) (hs : 0 < s.sol.sigma) (h : s.tell env = .ok s') :
    (s.sol.niter = 0 → s'.sol.sigma = s.sol.sigma) ∧
    (0 < s.sol.niter → s'.sol.sigma = s.sol.sigma * Real.exp (s'.sol.tpaS / s.p.dsigma)) ∧
    ∀ B : ℝ, |s'.sol.tpaS| ≤ B → s.sol.sigma * Real.exp (-(B / s.p.dsigma)) ≤ s'.sol.sigma ∧
      s'.sol.sigma ≤ s.sol.sigma * Real.exp (B / s.p.dsigma) := by
  obtain ⟨_, _, _, _, e⟩ := tell_tpa h
  have e := e ht huh
  refine ⟨fun h0 => by rw [e, if_neg (by omega)], fun h0 => by rw [e, if_pos h0], fun B hB => ?_⟩
  have hB0 : 0 ≤ B := le_trans (abs_nonneg _) hB
  have hq : 0 ≤ B / s.p.dsigma := div_nonneg hB0 hd.le
  rw [abs_le] at hB
  rw [e]
  by_cases h0 : s.sol.niter > 0
  · rw [if_pos h0]
    constructor
    · refine mul_le_mul_of_nonneg_left (Real.exp_le_exp.2 ?_) hs.le
      rw [← neg_div]
      exact div_le_div_of_nonneg_right hB.1 hd.le
    · exact mul_le_mul_of_nonneg_left (Real.exp_le_exp.2 (div_le_div_of_nonneg_right hB.2 hd.le)) hs.le
  · rw [if_neg h0]
    constructor
    · have : Real.exp (-(B / s.p.dsigma)) ≤ 1 := Real.exp_le_one_iff.2 (by linarith)
      nlinarith
    · have : 1 ≤ Real.exp (B / s.p.dsigma) := Real.one_le_exp hq
      nlinarith

/-- `set_tpa(2)` sets a positive damping. -/
theorem C66_damping (hn : 1 ≤ n) (p : Params n) : (p.setTpa 2).tpa = 2 ∧ 0 < (p.setTpa 2).dsigma := by
  refine ⟨rfl, ?_⟩
  have h1 : (1 : ℝ) ≤ Real.sqrt n := by
    rw [Real.one_le_sqrt]; exact_mod_cast hn
  have h2 : 3.6 / Real.sqrt n ≤ 3.6 := div_le_self (by norm_num) h1
  have h3 : (p.setTpa 2).dsigma = 4 - 3.6 / Real.sqrt n := by
    unfold Params.setTpa
    rw [if_pos rfl]
  rw [h3]
  linarith

/-- **C66**, the two test points, full covariance: from the second generation on, the candidates at the two
positions are symmetric to the mean, in the direction of the last move of the mean, and at the distance
from the mean (in the metric of the covariance) of a point sampled with the next draw `z`. -/
theorem C66_points (env : Env n) (s s1 : Strat n) (pop : List (Vec n)) (hC : PD s.sol.cov)
    (hs : 0 < s.sol.sigma) (hsep : s.p.sep = false) (hvd : s.p.vd = false) (hg : s.p.withGradient = false)
    (hlz : s.p.lazyUpdate = false) (ht : s.p.tpa = 2) (hn : 0 < s.niter) (hf : s.p.fixedP = [])
    (hne : s.sol.tpaP1 ≠ s.sol.tpaP2) (h : s.ask env = .ok (pop, s1)) :
    ∃ a : ℝ, 0 ≤ a ∧
      pop[s.sol.tpaP1]? = some (s.sol.xmean + a • (s.sol.xmean - s.sol.xmeanPrev)) ∧
      pop[s.sol.tpaP2]? = some (s.sol.xmean - a • (s.sol.xmean - s.sol.xmeanPrev)) ∧
      quad s.sol.cov⁻¹ (a • (s.sol.xmean - s.sol.xmeanPrev)) =
        s.sol.sigma ^ 2 * vnorm (env.z (s.nz + s.p.lambda)) ^ 2 := by
  obtain ⟨t, nrm, x1, x2, hp, hs0, hn0, hm, g1, g2, f1, f2⟩ := ask_tpa_points ht hn hg hne h
  rw [hf] at f1 f2
  rw [setFixed_nil] at f1 f2
  injection f1 with f1
  injection f2 with f2
  subst f1 f2
  unfold Strat.askPrepare at hp
  rw [if_pos (by simp [hsep, hvd]), if_pos (by simp [hlz])] at hp
  split_ifs at hp with hcov
  injection hp with hp
  subst hp
  unfold Strat.meanShiftNorm at hm
  simp only at hm
  rw [if_pos (by simp [hsep, hvd]), if_pos fun i => eig_pos _ hC i] at hm
  injection hm with hm
  set d := s.sol.xmean - s.sol.xmeanPrev with hd
  set L := vnorm (fun i => 1 / Real.sqrt ((env.eig.solve s.sol.cov).1 i) *
    (env.eig.solve s.sol.cov).2ᵀ.mulVec d i) with hL
  have hL0 : 0 ≤ L := Real.sqrt_nonneg _
  have hnp : 0 ≤ nrm := by rw [← hm]; exact div_nonneg hL0 hs.le
  refine ⟨vnorm (env.z (s.nz + s.p.lambda)) / nrm, div_nonneg (Real.sqrt_nonneg _) hnp, g1, g2, ?_⟩
  have hq : ∀ a : ℝ, quad s.sol.cov⁻¹ (a • d) = a ^ 2 * quad s.sol.cov⁻¹ d := by
    intro a
    unfold quad
    rw [mulVec_smul, dotProduct_smul, smul_dotProduct, smul_eq_mul, smul_eq_mul]; ring
  rw [hq, quad_inv_eig env.eig hC, ← hL]
  have : L = nrm * s.sol.sigma := by rw [← hm]; field_simp
  rw [this, div_pow, mul_pow]
  have : nrm ^ 2 ≠ 0 := pow_ne_zero 2 hn0
  field_simp

/-- **C66**, the two test points, diagonal covariance. -/
theorem C66_points_sep (env : Env n) (s s1 : Strat n) (pop : List (Vec n))
    (hs : 0 < s.sol.sigma) (hsep : s.p.sep = true) (hg : s.p.withGradient = false)
    (ht : s.p.tpa = 2) (hn : 0 < s.niter) (hf : s.p.fixedP = [])
    (hne : s.sol.tpaP1 ≠ s.sol.tpaP2) (h : s.ask env = .ok (pop, s1)) :
    ∃ a : ℝ, 0 ≤ a ∧
      pop[s.sol.tpaP1]? = some (s.sol.xmean + a • (s.sol.xmean - s.sol.xmeanPrev)) ∧
      pop[s.sol.tpaP2]? = some (s.sol.xmean - a • (s.sol.xmean - s.sol.xmeanPrev)) ∧
      ∑ i, (a * (s.sol.xmean i - s.sol.xmeanPrev i)) ^ 2 / s.sol.sepcov i =
        s.sol.sigma ^ 2 * vnorm (env.z (s.nz + s.p.lambda)) ^ 2 := by
  obtain ⟨t, nrm, x1, x2, hp, hs0, hn0, hm, g1, g2, f1, f2⟩ := ask_tpa_points ht hn hg hne h
  rw [hf] at f1 f2
  rw [setFixed_nil] at f1 f2
  injection f1 with f1
  injection f2 with f2
  subst f1 f2
  unfold Strat.askPrepare at hp
  rw [if_neg (by simp [hsep])] at hp
  split_ifs at hp with h1 h2
  injection hp with hp
  subst hp
  unfold Strat.meanShiftNorm at hm
  simp only at hm
  rw [if_neg (by simp [hsep])] at hm
  split_ifs at hm with hpos
  injection hm with hm
  set L := vnorm (fun i => 1 / Real.sqrt (s.sol.sepcov i) * (s.sol.xmean - s.sol.xmeanPrev) i) with hL
  have hL0 : 0 ≤ L := Real.sqrt_nonneg _
  have hnp : 0 ≤ nrm := by rw [← hm]; exact div_nonneg hL0 hs.le
  refine ⟨vnorm (env.z (s.nz + s.p.lambda)) / nrm, div_nonneg (Real.sqrt_nonneg _) hnp, g1, g2, ?_⟩
  have hsum : ∀ a : ℝ, ∑ i, (a * (s.sol.xmean i - s.sol.xmeanPrev i)) ^ 2 / s.sol.sepcov i = a ^ 2 * L ^ 2 := by
    intro a
    rw [hL]
    unfold vnorm sqNorm
    rw [Real.sq_sqrt (Finset.sum_nonneg fun i _ => mul_self_nonneg _), Finset.mul_sum]
    refine Finset.sum_congr rfl fun i _ => ?_
    have hq : Real.sqrt (s.sol.sepcov i) * Real.sqrt (s.sol.sepcov i) = s.sol.sepcov i :=
      Real.mul_self_sqrt (hpos i).le
    have hne : Real.sqrt (s.sol.sepcov i) ≠ 0 := (Real.sqrt_pos.2 (hpos i)).ne'
    have e1 : (s.sol.sepcov i)⁻¹ = (1 / Real.sqrt (s.sol.sepcov i)) * (1 / Real.sqrt (s.sol.sepcov i)) := by
      conv_lhs => rw [← hq]
      field_simp
    rw [div_eq_mul_inv, e1]
    simp only [Pi.sub_apply]
    ring
  rw [hsum]
  have : L = nrm * s.sol.sigma := by rw [← hm]; field_simp
  rw [this]
  field_simp

/-- **C66**: the previous mean used for the direction is the mean before the last generation. -/
theorem C66_direction (env : Env n) (s s' : Strat n) (ht : s.p.tpa = 2) (h : s.generation env = .ok s') :
    s'.sol.xmeanPrev = s.sol.xmean ∧ (s.p.withGradient = false →
      s'.sol.tpaP1 = s.sol.tpaP1 ∧ s'.sol.tpaP2 = s.sol.tpaP2) := by
  unfold Strat.generation at h
  obtain ⟨⟨pop, s1⟩, ha, h⟩ := Out.bind_eq_ok.1 h
  obtain ⟨phen, hp, h⟩ := Out.bind_eq_ok.1 h
  obtain ⟨s2, he, h⟩ := Out.bind_eq_ok.1 h
  obtain ⟨s3, htl, h⟩ := Out.bind_eq_ok.1 h
  injection h with h
  have ha' := ha
  obtain ⟨⟨es, ei, ue, c, nz, x1, x2, p1, p2, e1⟩, hpl⟩ := Strat.ask_frame ha
  obtain ⟨c2, nu, nzuh, lr, cu, cs, e2, _⟩ := Strat.eval_frame he
  obtain ⟨t1, t2, -⟩ := tell_tpa htl
  constructor
  · obtain ⟨t1, tS, sol3, sol4, h1, h2, h3, h4, h5⟩ := Strat.tell_ok htl
    obtain ⟨cu, su, cs, r1⟩ := Strat.rank_frame h1
    obtain ⟨c0, ck, cl, med, _, _, _, _, e3, _⟩ := Sol.updateBest_ok h3
    obtain ⟨_, mx, mn, lv, le, e5⟩ := Strat.tellFinish_ok h5
    have hx := covarianceUpdate_prev (by rw [e2, e1]; exact (by rw [ht]; norm_num : s.p.tpa ≠ 0)) h4
    rw [← h]
    show s3.sol.xmeanPrev = _
    rw [e5]
    show sol4.xmeanPrev = _
    rw [hx, e3, r1, e2, e1]
  · intro hg
    rw [← h]
    show s3.sol.tpaP1 = _ ∧ s3.sol.tpaP2 = _
    have q := ask_tpaPos ha hg
    rw [t1, t2, e2]
    exact q

/-- **C67**, two-point adaptation: with otherwise usual settings and an objective that never returns NaN, a
run only fails if the genotype/phenotype transform does, or because some generation left the mean
exactly where it was (the direction of the test points is then 0/0). -/
theorem C67_tpa (env : Env n) (kind : CovKind) (p : Params n) (s : Strat n) (hu : UsualCore kind p)
    (huh : p.uh = false) (hf : ∀ k y, (env.f k y).IsNum) (h0 : Strat.new env kind p = .ok s) (k : ℕ) :
    (∃ s', s.generations env k = .ok s') ∨
      (∃ (x : Vec n) (e : Err), phenoV p.gp x = .error e ∧ s.generations env k = .error e) ∨
      p.tpa = 2 ∧ ∃ j t t', j + 1 < k ∧ s.generations env j = .ok t ∧ t.generation env = .ok t' ∧
        t'.sol.xmean = t.sol.xmean := by
  obtain ⟨hL, hr⟩ := liveCore_new hu h0
  have hsp := (Strat.new_ok h0).2.2.2.1
  have htp : s.p.tpa = p.tpa := by rw [hsp]
  have hgp : s.p.gp = p.gp := by rw [hsp]
  have hsu : s.p.uh = false := by rw [hsp]; exact huh
  by_cases hstuck : p.tpa = 2 ∧ ∃ j t t', j + 1 < k ∧ s.generations env j = .ok t ∧
      t.generation env = .ok t' ∧ t'.sol.xmean = t.sol.xmean
  · exact Or.inr (Or.inr hstuck)
  -- the invariant, generation by generation
  have key : ∀ j ≤ k, (∃ s', s.generations env j = .ok s' ∧ LiveCore s' ∧ RefNum s' ∧ s'.p = s.p ∧
      (j < k → Moved s')) ∨
      (∃ (x : Vec n) (e : Err), phenoV p.gp x = .error e ∧ s.generations env j = .error e) := by
    intro j
    induction j with
    | zero =>
      intro _
      refine Or.inl ⟨s, rfl, hL, hr, rfl, fun _ _ h => ?_⟩
      rw [(Strat.new_ok h0).2.2.2.2.2.2.1] at h; omega
    | succ j ih =>
      intro hj
      rcases ih (by omega) with ⟨t, h1, h2, h3, h4, h5⟩ | ⟨x, e, h1, h2⟩
      · rcases generation_total_num_core (env := env) h2 (by rw [h4]; exact hsu) (h5 (by omega)) hf h3 with
          ⟨t', g1, g2, g3, g4⟩ | ⟨x, e, g1, g2⟩
        · refine Or.inl ⟨t', Strat.generations_snoc _ h1 g1, g2, g3, g4.trans h4, fun hlt htt _ hm => ?_⟩
          have ht : p.tpa = 2 := by rw [← htp, ← h4, ← g4]; exact htt
          refine hstuck ⟨ht, j, t, t', hlt, h1, g1, ?_⟩
          rw [hm, (C66_direction env t t' (by rw [h4, htp]; exact ht) g1).1]
        · refine Or.inr ⟨x, e, by rw [← hgp, ← h4]; exact g1, ?_⟩
          rw [Strat.generations_succ, h1]; exact g2
      · exact Or.inr ⟨x, e, h1, by rw [Strat.generations_succ, h2]; rfl⟩
  rcases key k (le_refl _) with ⟨s', h1, -⟩ | h
  · exact Or.inl ⟨s', h1⟩
  · exact Or.inr (Or.inl h)

/-- Two generations with two-point adaptation exist in any dimension, from any starting point, with any
objective without NaN: here all draws of the first generation are equal, so the mean moves.  The state
between the two meets the hypotheses of `C66_step`, `C66_points` and `C66_direction`. -/
theorem C66_witness (hn : 1 ≤ n) (x0 : Vec n) (sigma : ℝ) (f : ℕ → Vec n → FVal)
    (hf : ∀ k y, (f k y).IsNum) :
    ∃ (env : Env n) (p : Params n) (s s1 s2 : Strat n),
      env.f = f ∧ Configured p ∧ ElitismMode p 0 ∧ p.tpa = 2 ∧ Strat.new env .plain p = .ok s ∧
      s.generation env = .ok s1 ∧ s1.generation env = .ok s2 ∧ s.generations env 2 = .ok s2 ∧
      LiveCore s1 ∧ 0 < s1.niter ∧ s1.p.fixedP = [] ∧ s1.sol.tpaP1 ≠ s1.sol.tpaP2 := by
  set env : Env n := Env.basic f fun _ _ => 1 with henv
  obtain ⟨p0, hp, _⟩ := C11_weights hn x0 sigma (-1) 0 0 GenoPheno.plain
  obtain ⟨hu, hgp, hfx, -⟩ := usual_default (by norm_num) hp (kind := .plain) (by decide)
  obtain ⟨u1, u2, u3, u4, u5, u6, u7, -⟩ := Params.make_plain hp
  have hsep := (Params.make_flags hp).1
  set p := p0.setTpa 2 with hpd
  have hc : Configured p := .call (c := .tpa 2) hu.configured (fun _ _ h => by cases h) rfl
  have hu' : UsualCore .plain p := ⟨hc, ⟨hu.strict.1, hu.strict.2⟩, by decide, hu.vd, hu.lazy, hu.grad,
    hu.initialElitist, hu.elitist⟩
  have hel : ElitismMode p 0 := by
    refine ⟨?_, ?_, ?_⟩
    · show p0.elitist = true ↔ _
      simp [u5]
    · show p0.initialElitist = true ↔ _
      simp [u4]
    · show p0.initialElitistOnRestart = true ↔ _
      simp [u6]
  obtain ⟨s, hs⟩ := new_plain (env := env) (kind := .plain) (p := p) hgp hc.good.1
  obtain ⟨h1, h2, h3, h4, h5, h6, h7, h8, h9, h10, h11, h12, h13, h14, h15, h16, h17, h18, h19, h20⟩ :=
    Strat.new_ok hs
  obtain ⟨hL, hr⟩ := liveCore_new hu' hs
  have hnum : ∀ k y, (env.f k y).IsNum := hf
  have hnofail : ∀ (t : Strat n), t.p = s.p → ∀ (x : Vec n) (e : Err), phenoV t.p.gp x ≠ .error e := by
    intro t ht x e h
    rw [ht, h4] at h
    have : phenoV p0.gp x = .error e := h
    rw [hgp, phenoV_plain] at this; cases this
  obtain ⟨s1, g1, g2, g3, g4⟩ : ∃ s', s.generation env = .ok s' ∧ LiveCore s' ∧ RefNum s' ∧ s'.p = s.p := by
    rcases generation_total_num_core (env := env) hL (by rw [h4]; exact u1) (fun _ h => by omega) hnum hr with
      h | ⟨x, e, h, -⟩
    · exact h
    · exact absurd h (hnofail s rfl x e)
  have hdir := C66_direction env s s1 (by rw [h4]; rfl) g1
  have hniter : s1.niter = 1 := by
    obtain ⟨tr, hrun⟩ := Strat.generation_askRun g1
    have hg := g1
    unfold Strat.generation at hg
    obtain ⟨⟨pop, t1⟩, ha, hg⟩ := Out.bind_eq_ok.1 hg
    obtain ⟨phen, hph, hg⟩ := Out.bind_eq_ok.1 hg
    obtain ⟨t2, he, hg⟩ := Out.bind_eq_ok.1 hg
    obtain ⟨t3, ht, hg⟩ := Out.bind_eq_ok.1 hg
    injection hg with hg
    have : AskRun env s [t2.sol.cands] s1 := hg ▸ .turn ha he ht (.refl _)
    have := (run_p this.run).2.2.2.1
    rw [this, h7]; rfl
  have hmoved : s1.sol.xmean ≠ s.sol.xmean := by
    obtain ⟨pop, t1, phen, t2, t3, ha, hph, he, ht, es, hperm, hlen, hmem⟩ := generation_points hL.good hL.cands g1
    obtain ⟨A, hA, hpts⟩ := C19_full env.eig 1 PD_one.psd
    have hpop := hpts env s t1 pop rfl h6.cov (by rw [h4]; exact hsep) (by rw [h4]; exact hu.vd)
      (by rw [h4]; exact hu.grad) (Or.inr h7) (Or.inr h7) ha
    set q : Vec n := fun i => s.sol.xmean i + s.sol.sigma * A.mulVec (fun _ => 1) i with hq
    have hall : ∀ x ∈ pop, x = q := by
      intro x hx
      obtain ⟨j, hj, e⟩ := List.mem_iff_getElem.1 hx
      obtain ⟨y, hy, hy'⟩ := hpop j (by rw [← (Strat.ask_frame ha).2]; exact hj)
      rw [List.getElem?_eq_getElem hj, e] at hy
      injection hy with hy
      subst hy
      funext i
      exact hy' i (by intro v hv; rw [h4] at hv; have : (i.val, v) ∈ p0.fixedP := hv; rw [hfx] at this; cases this)
    obtain ⟨⟨es1, ei, ue, c, nz, x1, x2, p1, p2, e1⟩, hpl⟩ := Strat.ask_frame ha
    obtain ⟨c2, nu, nzuh, lr, cu, cs, e2, _⟩ := Strat.eval_frame he
    have hp2 : t2.p = s.p := by rw [e2, e1]
    have hK := (C25_mean_convex env t2 t3 (by rw [hp2]; exact hL.good.weights) ht).2 {q} (convex_singleton q) (by
      intro c hcm
      have hcm' : c ∈ s1.sol.cands := by rw [es]; exact List.mem_of_mem_take hcm
      rcases hmem c hcm' with h | h
      · exact hall _ h
      · exfalso
        unfold Strat.elitistRef at h
        rw [h4] at h
        have a1 : p.initialElitistOnRestart = false := u6
        have a2 : p.initialElitist = false := u4
        have a3 : p.elitist = false := u5
        simp [a1, a2, a3] at h)
    have hx : s1.sol.xmean = q := by rw [es]; exact hK
    intro h0
    rw [hx] at h0
    have hAv : A.mulVec (fun _ => (1 : ℝ)) = 0 := by
      funext i
      have := congrFun h0 i
      simp only [hq] at this
      have h : s.sol.sigma * A.mulVec (fun _ => 1) i = 0 := by linarith
      rcases mul_eq_zero.1 h with h | h
      · exact absurd h h5.ne'
      · exact h
    have : (fun _ : Fin n => (1 : ℝ)) = 0 := by
      have h := congrArg Aᵀ.mulVec hAv
      rw [mulVec_mulVec, mul_eq_one_comm.1 hA, one_mulVec, mulVec_zero] at h
      exact h
    have := congrFun this ⟨0, by omega⟩
    simp at this
  obtain ⟨s2, k1, -⟩ : ∃ s', s1.generation env = .ok s' ∧ LiveCore s' ∧ RefNum s' ∧ s'.p = s1.p := by
    rcases generation_total_num_core (env := env) g2 (by rw [g4, h4]; exact u1)
      (fun _ _ => by rw [hdir.1]; exact hmoved) hnum g3 with h | ⟨x, e, h, -⟩
    · exact h
    · exact absurd h (hnofail s1 g4 x e)
  refine ⟨env, p, s, s1, s2, rfl, hc, hel, rfl, hs, g1, k1, ?_, g2, by omega, ?_, ?_⟩
  · rw [Strat.generations_succ, Strat.generations_snoc 0 rfl g1]; exact k1
  · rw [g4, h4]; exact hfx
  · obtain ⟨d1, d2⟩ := hdir.2 (by rw [h4]; exact hu.grad)
    rw [d1, d2, (new_tpa hs).1, (new_tpa hs).2.1]; decide

end Libcmaes
