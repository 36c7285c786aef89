import Verif.Lemmas.Lazy
import Verif.Props.Stale

/-!
# C110: what the lazy update does
-/

namespace Libcmaes

open Spec Matrix

variable {n : ℕ}

/-- Each generation draws `lambda` vectors. -/
theorem generations_nz {env : Env n} {s0 : Strat n} (hg : s0.p.withGradient = false) (ht : s0.p.tpa ≠ 2)
    (k : ℕ) {s : Strat n} (h : s0.generations env k = .ok s) : s.nz = s0.nz + k * s0.p.lambda := by
  induction k generalizing s with
  | zero => injection h with h; subst h; simp
  | succ k ih =>
    obtain ⟨s1, h1, hgen⟩ := Strat.generations_succ_last k h
    obtain ⟨tr, _, hr⟩ := Strat.generations_run k h1
    have hp := (run_p hr).1
    obtain ⟨pop, sa, phen, sb, sc, ha, _, he, htl, es⟩ := generation_parts hgen
    obtain ⟨t, pop1, h3, h4, _⟩ := ask_plain (by rw [hp]; exact hg) (Or.inl (by rw [hp]; exact ht)) ha
    obtain ⟨e4, _⟩ := Strat.askSample_frame h4
    obtain ⟨es', ei, ue, e5⟩ := Strat.askPrepare_frame h3
    obtain ⟨c2, nu, nzuh, lr, cu, cs, e2, _⟩ := Strat.eval_frame he
    obtain ⟨cs', cu', su, ts, sol3, _, hb, csq, hc, sc', ps, hs'', pc, cov, sep, v, sg, xp, xm, mx, mn, lv, le,
      e3⟩ := Strat.tell_frame htl
    have : s.nz = s1.nz + s1.p.lambda := by rw [es, e3, e2, e4, e5]; rfl
    rw [this, ih h1, hp]; ring

/-- The number of candidates held. -/
theorem generations_cands {env : Env n} {s0 : Strat n} (hg : GoodParams s0.p) (hc : s0.sol.cands.length = s0.p.lambda)
    (k : ℕ) {s : Strat n} (h : s0.generations env k = .ok s) : s.sol.cands.length = s0.p.lambda := by
  induction k generalizing s with
  | zero => injection h with h; subst h; exact hc
  | succ k ih =>
    obtain ⟨s1, h1, hgen⟩ := Strat.generations_succ_last k h
    obtain ⟨tr, _, hr⟩ := Strat.generations_run k h1
    have hp := (run_p hr).1
    obtain ⟨_, _, _, _, _, _, _, _, _, _, _, hlen, _⟩ := generation_points (hp ▸ hg) (by rw [ih h1, hp]) hgen
    rw [hlen, hp]

/-- **C110**, dates, whatever the settings and the update (gradient step and two-point adaptation included): the
generations are grouped in periods of `⌊lazy_value⌋ + 1`; the mean and the covariance used for sampling are those of the
first generation of the period, and `updated_eigen()` is true in that generation only. -/
theorem C110_dates (env : Env n) (kind : CovKind) (p : Params n) (s t t' : Strat n) (pop : List (Vec n))
    (hsep : p.sep = false) (hvd : p.vd = false) (hlz : p.lazyUpdate = true) (h0 : Strat.new env kind p = .ok s) (k : ℕ)
    (h : s.generations env k = .ok t) (ha : t.ask env = .ok (pop, t')) :
    (∃ u, s.generations env (lazyPeriod p * (k / lazyPeriod p)) = .ok u ∧ t'.es.mean = u.sol.xmean ∧
      t'.es.eig = some (env.eig.solve u.sol.cov)) ∧
    (t'.sol.updatedEigen = true ↔ lazyPeriod p ∣ k) ∧ t'.sol.eigeniter = lazyPeriod p * (k / lazyPeriod p) ∧
    k - t'.sol.eigeniter ≤ ⌊p.lazyValue⌋₊ := by
  obtain ⟨_, _, _, hp, _, _, hn, _⟩ := Strat.new_ok h0
  obtain ⟨t1, h1, e1, e2, e3⟩ := ask_es ha
  have hP : lazyPeriod s.p = lazyPeriod p := by rw [hp]; rfl
  obtain ⟨u, hu, hh, hi, hb⟩ := lazy_ask hn (by rw [hp]; exact hsep) (by rw [hp]; exact hvd) (by rw [hp]; exact hlz) k h h1
  rw [hP] at hu hi hb
  refine ⟨⟨u, hu, by rw [e1]; exact hh.mean, by rw [e1]; exact hh.eig⟩, ?_, by rw [e2]; exact hi, ?_⟩
  · rw [e3, hb, decide_eq_true_eq, Nat.dvd_iff_mod_eq_zero]
  · rw [e2, hi]
    have h1 := Nat.div_add_mod k (lazyPeriod p)
    have h2 : k % lazyPeriod p < lazyPeriod p := Nat.mod_lt k (Nat.succ_pos _)
    have h3 : lazyPeriod p = ⌊p.lazyValue⌋₊ + 1 := rfl
    unfold periodStart
    omega

/-- **C110**, points: in each of the generations of a period the candidates are, up to fixed coordinates,
`mean + sigma * A z`, with the mean and the square root `A` of the covariance of the first generation of the period and
the current sigma and fresh draws. -/
theorem C110_points (env : Env n) (p : Params n) (s u : Strat n) (hc : Configured p)
    (hsep : p.sep = false) (hvd : p.vd = false) (hlz : p.lazyUpdate = true) (hg : p.withGradient = false)
    (ht : p.tpa ≠ 2) (h0 : Strat.new env .plain p = .ok s) (q : ℕ)
    (hu : s.generations env (lazyPeriod p * q) = .ok u) :
    ∃ A : Mat n, A * Aᵀ = u.sol.cov ∧ ∀ i < lazyPeriod p, ∀ t pop t',
      s.generations env (lazyPeriod p * q + i) = .ok t → t.ask env = .ok (pop, t') → ∀ j < p.lambda,
        ∃ x, pop[j]? = some x ∧ ∀ l, Free p l →
          x l = u.sol.xmean l + t.sol.sigma * A.mulVec (env.z ((lazyPeriod p * q + i) * p.lambda + j)) l := by
  obtain ⟨_, _, _, hp, _, _, hn, _⟩ := Strat.new_ok h0
  have hP : lazyPeriod s.p = lazyPeriod p := by rw [hp]; rfl
  have hnz : s.nz = 0 := by
    unfold Strat.new at h0
    obtain ⟨⟨p', sol⟩, hm, h0⟩ := Out.bind_eq_ok.1 h0
    injection h0 with h0; rw [← h0]
  obtain ⟨tr, _, hr⟩ := Strat.generations_run _ hu
  have hC : PSD u.sol.cov := (C26_cov_from_start env p s u tr hc h0 hr).1
  refine ⟨(env.eig.solve u.sol.cov).2 * diagonal fun i => Real.sqrt (max ((env.eig.solve u.sol.cov).1 i) 0), ?_, ?_⟩
  · rw [transpose_mul, diagonal_transpose, Matrix.mul_assoc, ← Matrix.mul_assoc (diagonal _) (diagonal _),
      diagonal_mul_diagonal, ← Matrix.mul_assoc]
    have : (fun i => Real.sqrt (max ((env.eig.solve u.sol.cov).1 i) 0) *
        Real.sqrt (max ((env.eig.solve u.sol.cov).1 i) 0)) = (env.eig.solve u.sol.cov).1 := by
      funext i
      rw [Real.mul_self_sqrt (le_max_right _ _), max_eq_left (eig_nonneg env.eig hC i)]
    rw [this]
    exact env.eig.decomp _ hC.symm
  · intro i hi t pop t' h ha j hj
    obtain ⟨tr', _, hr'⟩ := Strat.generations_run _ h
    have htp : t.p = { p with sigmaInit := s.sol.sigma } := (run_p hr').1.trans hp
    have hpg : s.p.withGradient = false := by rw [hp]; exact hg
    have hpt : s.p.tpa ≠ 2 := by rw [hp]; exact ht
    obtain ⟨t1, pop1, h1, h2, h3⟩ := ask_plain (by rw [htp]; exact hg) (Or.inl (by rw [htp]; exact ht)) ha
    obtain ⟨u', hu', hh, _⟩ := lazy_ask hn (by rw [hp]; exact hsep) (by rw [hp]; exact hvd) (by rw [hp]; exact hlz) _ h h1
    have e0 : periodStart (lazyPeriod s.p) (lazyPeriod p * q + i) = lazyPeriod p * q := by
      rw [hP]
      have hpos : 0 < lazyPeriod p := Nat.succ_pos _
      unfold periodStart
      rw [Nat.mul_add_div hpos, Nat.div_eq_of_lt hi, add_zero]
    rw [e0, hu] at hu'
    injection hu' with hu'
    subst hu'
    have hz := generations_nz hpg hpt _ h
    rw [hnz, zero_add] at hz
    obtain ⟨es', ei, ue, e5⟩ := Strat.askPrepare_frame h1
    have ep : t1.p = t.p := by rw [e5]
    have esg : t1.sol.sigma = t.sol.sigma := by rw [e5]
    have enz : t1.nz = t.nz := by rw [e5]
    have hlam : t.p.lambda = p.lambda := by rw [htp]
    unfold Strat.askSample at h2
    simp only at h2
    rw [if_pos (by rw [ep, htp]; simp [hsep, hvd]), if_neg (by rw [hh.eig]; simp)] at h2
    injection h2 with h2; injection h2 with h4 h5
    rw [← h4] at h3
    obtain ⟨x, hx, hx'⟩ := fixed_sample (p := t.p) (j := j) (z := env.z (t1.nz + j)) h3 (by
      rw [ep, hlam]
      simp [List.getElem?_range hj])
    refine ⟨x, hx, fun l hl => ?_⟩
    rw [hx' l (by rw [htp]; exact hl), hh.mean, hh.transform, esg, enz, hz, hp, add_comm]
    rfl

/-- **C110**, mean: without elitism, the mean after any generation of a period is the mean of the first generation of
the period plus one step `sigma * A d`, with `d` in the convex hull of the draws of that generation alone, so the moves
made in the generations before, in the same period, are lost. -/
theorem C110_mean (env : Env n) (p : Params n) (s u : Strat n) (hc : Configured p)
    (hsep : p.sep = false) (hvd : p.vd = false) (hlz : p.lazyUpdate = true) (hg : p.withGradient = false)
    (ht : p.tpa ≠ 2) (he1 : p.elitist = false) (he2 : p.initialElitist = false) (he3 : p.initialElitistOnRestart = false)
    (h0 : Strat.new env .plain p = .ok s) (q : ℕ) (hu : s.generations env (lazyPeriod p * q) = .ok u) :
    ∃ A : Mat n, A * Aᵀ = u.sol.cov ∧ ∀ i < lazyPeriod p, ∀ t t1,
      s.generations env (lazyPeriod p * q + i) = .ok t → t.generation env = .ok t1 →
        ∃ d ∈ convexHull ℝ {z | ∃ j < p.lambda, z = env.z ((lazyPeriod p * q + i) * p.lambda + j)},
          ∀ l, Free p l → t1.sol.xmean l = u.sol.xmean l + t.sol.sigma * A.mulVec d l := by
  obtain ⟨A, hA, hpts⟩ := C110_points env p s u hc hsep hvd hlz hg ht h0 q hu
  refine ⟨A, hA, fun i hi t t1 h hgen => ?_⟩
  obtain ⟨_, _, _, hp, _, hfr, hn, _⟩ := Strat.new_ok h0
  obtain ⟨tr', _, hr'⟩ := Strat.generations_run _ h
  have htp : t.p = { p with sigmaInit := s.sol.sigma } := (run_p hr').1.trans hp
  have hgood : GoodParams t.p := by rw [htp]; exact hc.with_sigmaInit _
  have hcl : t.sol.cands.length = t.p.lambda := by
    have := generations_cands (env := env) (s0 := s) (by rw [hp]; exact hc.with_sigmaInit _) (by rw [hfr.cands, hp]) _ h
    rw [this, hp, htp]
  obtain ⟨pop, s1, phen, s2, s3, ha, _, hev, htl, es, hperm, hlen, hin⟩ := generation_points hgood hcl hgen
  have e2 : s2.p = t.p := by
    obtain ⟨⟨es, ei, ue, c, nz, x1, x2, p1, p2, e1⟩, _⟩ := Strat.ask_frame ha
    obtain ⟨c2, nu, nzuh, lr, cu, cs, e2, _⟩ := Strat.eval_frame hev
    rw [e2, e1]
  set Z : Set (Vec n) := {z | ∃ j < p.lambda, z = env.z ((lazyPeriod p * q + i) * p.lambda + j)} with hZ
  set K : Set (Vec n) := {x | ∃ d ∈ convexHull ℝ Z, ∀ l, Free p l →
    x l = u.sol.xmean l + t.sol.sigma * A.mulVec d l} with hK
  have hKc : Convex ℝ K := by
    rintro x ⟨d, hd, hx⟩ y ⟨e, he, hy⟩ a b ha hb hab
    refine ⟨a • d + b • e, convex_convexHull ℝ Z hd he ha hb hab, fun l hl => ?_⟩
    rw [Pi.add_apply, Pi.smul_apply, Pi.smul_apply, hx l hl, hy l hl, mulVec_add, mulVec_smul, mulVec_smul]
    simp only [Pi.add_apply, Pi.smul_apply, smul_eq_mul]
    have : b = 1 - a := by linarith
    rw [this]; ring
  have := (C25_mean_convex env s2 s3 (by rw [e2]; exact hgood.weights) htl).2 K hKc ?_
  · rw [es]; exact this
  · intro c hcm
    rcases hin c (by rw [es]; exact List.mem_of_mem_take hcm) with h | h
    · obtain ⟨j, hj, e⟩ := List.getElem_of_mem h
      have hjl : j < p.lambda := by
        have := (Strat.ask_frame ha).2
        rw [htp] at this
        exact this ▸ hj
      obtain ⟨x, hx, hxl⟩ := hpts i hi t pop s1 (by assumption) ha j hjl
      rw [List.getElem?_eq_getElem hj, e] at hx
      injection hx with hx
      exact ⟨_, subset_convexHull ℝ Z ⟨j, hjl, rfl⟩, fun l hl => by rw [hx, hxl l hl]⟩
    · unfold Strat.elitistRef at h
      rw [htp] at h
      simp [he1, he2, he3] at h

/-- **C110**, small dimensions: up to dimension 16, with the default population size or at most 28 candidates, the
threshold is less than one generation, so that each generation has its own decomposition, `set_lazy_update` or not. -/
theorem C110_small (x0 : Vec n) (sigma : ℝ) (lambda : ℤ) (seed clock : ℕ) (gp : GenoPheno) (p : Params n)
    (h : Params.make x0 sigma lambda seed clock gp = .ok p) (hn : n ≤ 16) (hl : lambda < 2 ∨ p.lambda ≤ 28) :
    0 < p.lazyValue ∧ p.lazyValue < 1 ∧ lazyPeriod p = 1 := by
  obtain ⟨q, hs⟩ : ∃ q : Params n, InitSpec q p := by
    unfold Params.make at h
    obtain ⟨l, h1, h⟩ := Out.bind_eq_ok.1 h
    exact ⟨_, initializeParameters_spec h⟩
  have hn1 := hs.n_real
  have hn2 : (n : ℝ) ≤ 16 := by exact_mod_cast hn
  have hm : ((n : ℝ) + 1.3) ^ 2 + p.muw < 20 * n := by
    rcases hl with hl | hl
    · obtain ⟨_, _, hm⟩ := default_muw_le hl h
      have h1 : Real.sqrt n ≤ 4 := by
        rw [show (4 : ℝ) = Real.sqrt 16 by rw [show (16 : ℝ) = 4 ^ 2 by norm_num, Real.sqrt_sq (by norm_num)]]
        exact Real.sqrt_le_sqrt hn2
      nlinarith
    · have h2 : p.muw ≤ p.mu := by rw [hs.muw]; exact muwOf_le hs.mu_pos
      have h3 : p.mu ≤ 14 := by have := hs.mu; rw [hs.lambda] at hl; omega
      have h4 : (p.mu : ℝ) ≤ 14 := by exact_mod_cast h3
      nlinarith
  have hmu := hs.one_le_muw
  have hc1 := hs.c1_pos
  have hcmu : 0 ≤ p.cmu := by
    have hg : GoodParams p := (Configured.make h).good.1
    exact hg.rates.cmu_nonneg
  have hc : 1 / (10 * (n : ℝ)) < p.c1 + p.cmu := by
    have : 1 / (10 * (n : ℝ)) < p.c1 := by
      rw [hs.c1, div_lt_div_iff₀ (by positivity) (by positivity)]
      linarith
    linarith
  have hpos : 0 < p.c1 + p.cmu := by linarith
  have e : p.lazyValue = 1 / (10 * n) / (p.c1 + p.cmu) := by
    rw [hs.lazyValue]; field_simp
  have h1 : 0 < p.lazyValue := by rw [e]; positivity
  have h2 : p.lazyValue < 1 := by rw [e, div_lt_one hpos]; exact hc
  exact ⟨h1, h2, by unfold lazyPeriod; rw [Nat.floor_eq_zero.2 h2]⟩

/-- Non-trivial periods exist, and the searches never fail: in dimension 18 with two candidates the period is 2, for any
NaN-free objective, draws and number of generations. -/
theorem lazy_two (env : Env 18) (hf : ∀ k y, (env.f k y).IsNum) (x0 : Vec 18) (sigma : ℝ) (seed clock : ℕ) :
    ∃ p s, Params.make x0 sigma 2 seed clock GenoPheno.plain = .ok p ∧
      Strat.new env .plain { p with lazyUpdate := true } = .ok s ∧ lazyPeriod { p with lazyUpdate := true } = 2 ∧
      Configured { p with lazyUpdate := true } ∧ p.sep = false ∧ p.vd = false ∧ p.withGradient = false ∧ p.tpa ≠ 2 ∧
      p.elitist = false ∧ p.initialElitist = false ∧ p.initialElitistOnRestart = false ∧
      ∀ k, ∃ t, s.generations env k = .ok t := by
  obtain ⟨p, hp, _⟩ := C11_weights (by norm_num : 1 ≤ 18) x0 sigma 2 seed clock GenoPheno.plain
  obtain ⟨hlam, hcmu, hc1, hlz⟩ := make_two hp
  obtain ⟨u1, u2, u3, u4, u5, u6, u7, u8, u9, u10, u11, u12, u13, u14⟩ := Params.make_plain hp
  have hconf : Configured { p with lazyUpdate := true } := .other (.make hp)
    ⟨rfl, rfl, rfl, rfl, rfl, rfl, rfl, rfl, rfl, rfl, rfl, rfl, rfl, rfl, rfl, rfl, rfl⟩
  obtain ⟨hsep, hvd⟩ := Params.make_flags hp
  have hu : Usual .plain { p with lazyUpdate := true } := by
    refine ⟨⟨hconf, ⟨?_, ?_⟩, by decide, hvd, ?_, u2, u4, ?_⟩, u1, u3⟩
    · show p.c1 + p.cmu < 1
      rw [hc1, hcmu]; norm_num
    · show p.c1 < 0.66 * (1 - p.cmu)
      rw [hc1, hcmu]; norm_num
    · intro h; cases h
    · rintro ⟨h, -⟩
      have : p.elitist = true := h
      rw [u5] at this; cases this
  obtain ⟨s, hs⟩ := new_plain (env := env) (kind := .plain) (p := { p with lazyUpdate := true }) u10 hconf.good.1
  refine ⟨p, s, hp, hs, ?_, hconf, hsep, hvd, u2, u3, u5, u4, u6, fun k => ?_⟩
  · show ⌊p.lazyValue⌋₊ + 1 = 2
    have : ⌊p.lazyValue⌋₊ = 1 := by
      rw [hlz, Nat.floor_eq_iff (by positivity)]
      norm_num
    rw [this]
  · rcases C67_total env .plain _ s hu hf hs k with h | ⟨x, e, h1, _⟩
    · exact h
    · have : (p.gp : GenoPheno) = GenoPheno.plain := u10
      rw [show phenoV ({ p with lazyUpdate := true } : Params 18).gp x = phenoV p.gp x from rfl, this, phenoV_plain] at h1
      cases h1

/-- The hypotheses of `C110_points` and `C110_mean` are met, in the second generation of the fourth period. -/
example (env : Env 18) (hf : ∀ k y, (env.f k y).IsNum) (x0 : Vec 18) (sigma : ℝ) (seed clock : ℕ) :
    ∃ p s u t t1, Strat.new env .plain p = .ok s ∧ p.lazyUpdate = true ∧ lazyPeriod p = 2 ∧
      s.generations env 6 = .ok u ∧ s.generations env 7 = .ok t ∧ t.generation env = .ok t1 ∧
      ∃ A : Mat 18, A * Aᵀ = u.sol.cov ∧ ∃ d ∈ convexHull ℝ {z | ∃ j < p.lambda, z = env.z (7 * p.lambda + j)},
        ∀ l, Free p l → t1.sol.xmean l = u.sol.xmean l + t.sol.sigma * A.mulVec d l := by
  obtain ⟨p, s, hp, hs, hP, hc, h1, h2, h3, h4, h5, h6, h7, htot⟩ := lazy_two env hf x0 sigma seed clock
  obtain ⟨u, hu⟩ := htot 6
  obtain ⟨t1, ht1⟩ := htot 8
  obtain ⟨t, ht, hg⟩ := Strat.generations_succ_last 7 ht1
  obtain ⟨A, hA, hm⟩ := C110_mean env _ s u hc h1 h2 rfl h3 h4 h5 h6 h7 hs 3 (by rw [hP]; exact hu)
  refine ⟨_, s, u, t, t1, hs, rfl, hP, hu, ht, hg, A, hA, ?_⟩
  have := hm 1 (by rw [hP]; norm_num) t t1 (by rw [hP]; exact ht) hg
  rw [hP] at this
  exact this

end Libcmaes
