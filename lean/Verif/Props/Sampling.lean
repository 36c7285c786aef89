import Verif.Spec.Sampling
import Verif.Lemmas.Witness
import Verif.Props.Params

/-!
# C19: the candidates returned by `ask`
-/

namespace Libcmaes

open Spec Matrix

variable {n : ℕ}

theorem free_ne {p : Params n} {i : Fin n} (h : Free p i) : ∀ q ∈ p.fixedP, q.1 ≠ i := by
  rintro ⟨a, v⟩ hq rfl
  exact h v hq

/-- **C19**, size and fixed coordinates, whatever the settings, gradient step and the points of the two-point
adaptation included. -/
theorem C19_fixed (env : Env n) (s s1 : Strat n) (pop : List (Vec n))
    (hd : (s.p.fixedP.map Prod.fst).Nodup) (h : s.ask env = .ok (pop, s1)) :
    pop.length = s.p.lambda ∧ ∀ x ∈ pop, FixedAt s.p x := by
  refine ⟨(Strat.ask_frame h).2, fun x hx i v hv => ?_⟩
  unfold Strat.ask at h
  obtain ⟨t1, h1, h⟩ := Out.bind_eq_ok.1 h
  obtain ⟨⟨pop1, t2⟩, h2, h⟩ := Out.bind_eq_ok.1 h
  obtain ⟨⟨pop2, t3⟩, h3, h⟩ := Out.bind_eq_ok.1 h
  obtain ⟨⟨pop3, t4⟩, h4, h⟩ := Out.bind_eq_ok.1 h
  obtain ⟨pop4, h5, h⟩ := Out.bind_eq_ok.1 h
  injection h with h; injection h with h6 h7
  subst h6
  obtain ⟨y, _, hy⟩ := Out.mapM_mem h5 hx
  exact setFixed_of_mem hy hd i v hv

/-- Without gradient injection and two-point adaptation, `ask` samples and writes the fixed coordinates. -/
theorem ask_plain {env : Env n} {s s1 : Strat n} {pop : List (Vec n)} (hg : s.p.withGradient = false)
    (ht : s.p.tpa ≠ 2 ∨ s.niter = 0) (h : s.ask env = .ok (pop, s1)) :
    ∃ t pop1, s.askPrepare env = .ok t ∧ t.askSample env = .ok (pop1, s1) ∧
      pop1.mapM (setFixed s.p.fixedP) = .ok pop := by
  unfold Strat.ask at h
  obtain ⟨t1, h1, h⟩ := Out.bind_eq_ok.1 h
  obtain ⟨⟨pop1, t2⟩, h2, h⟩ := Out.bind_eq_ok.1 h
  obtain ⟨⟨pop2, t3⟩, h3, h⟩ := Out.bind_eq_ok.1 h
  obtain ⟨⟨pop3, t4⟩, h4, h⟩ := Out.bind_eq_ok.1 h
  obtain ⟨pop4, h5, h⟩ := Out.bind_eq_ok.1 h
  injection h with h; injection h with h6 h7
  subst h6 h7
  obtain ⟨es, ei, ue, e1⟩ := Strat.askPrepare_frame h1
  obtain ⟨e2, -⟩ := Strat.askSample_frame h2
  have ep : t2.p = s.p := by rw [e2, e1]
  have en : t2.niter = s.niter := by rw [e2, e1]
  unfold Strat.askGradient at h3
  simp only at h3
  rw [if_pos (by rw [ep]; exact hg)] at h3
  injection h3 with h3; injection h3 with h6 h7
  subst h6 h7
  unfold Strat.askTpa at h4
  simp only at h4
  rw [if_neg (by rw [ep, en]; rintro ⟨a, b⟩; rcases ht with h | h <;> omega)] at h4
  injection h4 with h4; injection h4 with h6 h7
  subst h6 h7
  exact ⟨t1, pop1, h1, h2, h5⟩

/-- Candidates as a function of the draws. -/
theorem fixed_sample {p : Params n} {zs pop : List (Vec n)} {F : Vec n → Vec n}
    (h : (zs.map F).mapM (setFixed p.fixedP) = .ok pop) {j : ℕ} {z : Vec n} (hj : zs[j]? = some z) :
    ∃ x, pop[j]? = some x ∧ ∀ i, Free p i → x i = F z i := by
  have hf := Out.mapM_eq_ok.1 h
  have hlt : j < (zs.map F).length := by
    rw [List.length_map]; exact (List.getElem?_eq_some_iff.1 hj).1
  have hlt' : j < pop.length := by rw [← hf.length_eq]; exact hlt
  have := (List.forall₂_iff_get.1 hf).2 j hlt hlt'
  refine ⟨pop[j], List.getElem?_eq_getElem hlt', fun i hi => ?_⟩
  simp only [List.get_eq_getElem, List.getElem_map] at this
  have hz : zs[j]'(by simpa using hlt) = z := (List.getElem?_eq_some_iff.1 hj).2
  rw [hz] at this
  exact setFixed_of_not_mem this i (free_ne hi)

/-- **C19**, full covariance: there is a square root `A` of the covariance, depending on it and on the
eigensolver only, such that in each state with this covariance the candidates are, up to fixed
coordinates, `mean + sigma * A z` for the numbers `z` drawn. -/
theorem C19_full (eig : EigSolver n) (C : Mat n) (hC : PSD C) :
    ∃ A : Mat n, A * Aᵀ = C ∧ ∀ (env : Env n) (s s1 : Strat n) (pop : List (Vec n)), env.eig = eig →
      s.sol.cov = C → s.p.sep = false → s.p.vd = false → s.p.withGradient = false →
      (s.p.tpa ≠ 2 ∨ s.niter = 0) → (s.p.lazyUpdate = false ∨ s.niter = 0) → s.ask env = .ok (pop, s1) →
      ∀ j < s.p.lambda, ∃ x, pop[j]? = some x ∧
        ∀ i, Free s.p i → x i = s.sol.xmean i + s.sol.sigma * A.mulVec (env.z (s.nz + j)) i := by
  refine ⟨(eig.solve C).2 * diagonal fun i => Real.sqrt (max ((eig.solve C).1 i) 0), ?_, ?_⟩
  · have hd := eig.decomp C hC.symm
    rw [transpose_mul, diagonal_transpose, Matrix.mul_assoc, ← Matrix.mul_assoc (diagonal _) (diagonal _),
      diagonal_mul_diagonal, ← Matrix.mul_assoc]
    have : (fun i => Real.sqrt (max ((eig.solve C).1 i) 0) * Real.sqrt (max ((eig.solve C).1 i) 0)) =
        (eig.solve C).1 := by
      funext i
      rw [Real.mul_self_sqrt (le_max_right _ _), max_eq_left (eig_nonneg eig hC i)]
    rw [this]
    exact hd
  · intro env s s1 pop he hc hsep hvd hg ht hlz h j hj
    obtain ⟨t, pop1, h1, h2, h3⟩ := ask_plain hg ht h
    unfold Strat.askPrepare at h1
    rw [if_pos (by simp [hsep, hvd]), if_pos (by rcases hlz with h | h <;> simp [h])] at h1
    split_ifs at h1 with hcov
    injection h1 with h1
    subst h1
    unfold Strat.askSample at h2
    simp only at h2
    rw [if_pos (by simp [hsep, hvd]), if_neg (by simp)] at h2
    injection h2 with h2; injection h2 with h4 h5
    subst h4
    obtain ⟨x, hx, hx'⟩ := fixed_sample (j := j) (z := env.z (s.nz + j)) h3 (by
      simp [List.getElem?_range hj])
    refine ⟨x, hx, fun i hi => ?_⟩
    rw [hx' i hi, he, hc, add_comm]
    rfl

/-- **C19**, diagonal covariance. -/
theorem C19_sep (env : Env n) (s s1 : Strat n) (pop : List (Vec n)) (hsep : s.p.sep = true)
    (hg : s.p.withGradient = false) (ht : s.p.tpa ≠ 2 ∨ s.niter = 0) (h : s.ask env = .ok (pop, s1)) :
    (∀ i, 0 ≤ s.sol.sepcov i) ∧ ∀ j < s.p.lambda, ∃ x, pop[j]? = some x ∧
      ∀ i, Free s.p i → x i = s.sol.xmean i + s.sol.sigma * (Real.sqrt (s.sol.sepcov i) * env.z (s.nz + j) i) := by
  obtain ⟨t, pop1, h1, h2, h3⟩ := ask_plain hg ht h
  unfold Strat.askPrepare at h1
  rw [if_neg (by simp [hsep])] at h1
  split_ifs at h1 with a b
  injection h1 with h1
  subst h1
  refine ⟨b, fun j hj => ?_⟩
  unfold Strat.askSample at h2
  simp only at h2
  rw [if_neg (by simp [hsep]), if_pos hsep] at h2
  injection h2 with h2; injection h2 with h4 h5
  subst h4
  obtain ⟨x, hx, hx'⟩ := fixed_sample (j := j) (z := env.z (s.nz + j)) h3 (by
    simp [List.getElem?_range hj])
  refine ⟨x, hx, fun i hi => ?_⟩
  rw [hx' i hi]
  simp only [Pi.add_apply, Pi.mul_apply, Pi.smul_apply, smul_eq_mul]
  ring

/-- **C19**, VD-CMA: the candidates are `mean + sigma * A z` with `A Aᵀ = D (I + v vᵀ) D`. -/
theorem C19_vd (d v : Vec n) (hv : v ≠ 0) :
    ∃ A : Mat n, A * Aᵀ = diagonal d * (1 + vecMulVec v v) * diagonal d ∧
    ∀ (env : Env n) (s s1 : Strat n) (pop : List (Vec n)), s.sol.sepcov = d → s.sol.v = v →
      s.p.sep = false → s.p.vd = true → s.p.withGradient = false → (s.p.tpa ≠ 2 ∨ s.niter = 0) →
      s.ask env = .ok (pop, s1) → ∀ j < s.p.lambda, ∃ x, pop[j]? = some x ∧
        ∀ i, Free s.p i → x i = s.sol.xmean i + s.sol.sigma * A.mulVec (env.z (s.nz + j)) i := by
  set w := sqNorm v with hw
  have hwp : 0 < w := by
    obtain ⟨i, hi⟩ : ∃ i, v i ≠ 0 := by
      by_contra h0; push Not at h0; exact hv (funext h0)
    have : v i * v i ≤ w := Finset.single_le_sum (f := fun i => v i * v i)
      (fun j _ => mul_self_nonneg (v j)) (Finset.mem_univ i)
    exact lt_of_lt_of_le (mul_self_pos.2 hi) this
  set f := (Real.sqrt (1 + w) - 1) / w with hf
  refine ⟨diagonal d * (1 + f • vecMulVec v v), ?_, ?_⟩
  · have hvv : vecMulVec v v * vecMulVec v v = w • vecMulVec v v := by
      rw [vecMulVec_mul_vecMulVec]
      ext i j
      simp only [vecMulVec_apply, Matrix.smul_apply, smul_eq_mul, Pi.smul_apply, dotProduct, hw, sqNorm]
      ring
    have hff : f + f + f * f * w = 1 := by
      have hs : Real.sqrt (1 + w) * Real.sqrt (1 + w) = 1 + w := Real.mul_self_sqrt (by linarith)
      have h0 := hwp.ne'
      have : f * w = Real.sqrt (1 + w) - 1 := by rw [hf]; field_simp
      have h2 : (f + f + f * f * w) * w = w := by
        have : (f + f + f * f * w) * w = 2 * (f * w) + (f * w) * (f * w) := by ring
        rw [this, ‹f * w = _›]
        nlinarith
      exact mul_right_cancel₀ h0 (by rw [h2, one_mul])
    have hsq : (1 + f • vecMulVec v v) * (1 + f • vecMulVec v v) = 1 + vecMulVec v v := by
      rw [Matrix.add_mul, Matrix.mul_add, Matrix.one_mul, Matrix.one_mul, Matrix.mul_add, Matrix.mul_one, Matrix.smul_mul,
        Matrix.mul_smul, hvv, smul_smul, smul_smul, add_assoc, ← add_smul, ← add_smul]
      have : f + (f + f * f * w) = 1 := by linarith
      rw [this, one_smul]
    rw [transpose_mul, diagonal_transpose, transpose_add, transpose_one, transpose_smul, transpose_vecMulVec,
      Matrix.mul_assoc, ← Matrix.mul_assoc (1 + _) (1 + _), hsq, ← Matrix.mul_assoc]
  · intro env s s1 pop hd hv' hsep hvd hg ht h j hj
    obtain ⟨t, pop1, h1, h2, h3⟩ := ask_plain hg ht h
    unfold Strat.askPrepare at h1
    rw [if_neg (by simp [hvd])] at h1
    by_cases a : s.sol.hasSep = false
    · rw [if_pos a] at h1; exact absurd h1 (by simp)
    rw [if_neg a, if_neg (by simp [hsep])] at h1
    injection h1 with h1
    subst h1
    unfold Strat.askSample at h2
    simp only at h2
    rw [if_neg (by simp [hvd]), if_neg (by simp [hsep])] at h2
    split_ifs at h2 with b c
    injection h2 with h2; injection h2 with h4 h5
    subst h4
    obtain ⟨x, hx, hx'⟩ := fixed_sample (j := j) (z := env.z (s.nz + j)) h3 (by
      simp [List.getElem?_range hj])
    refine ⟨x, hx, fun i hi => ?_⟩
    rw [hx' i hi, hv', hd, ← hw, ← Matrix.mulVec_mulVec, mulVec_diagonal, Matrix.add_mulVec, Matrix.one_mulVec,
      Matrix.smul_mulVec]
    have hdot : (vecMulVec v v).mulVec (env.z (s.nz + j)) i = v i * (v ⬝ᵥ env.z (s.nz + j)) := by
      simp only [mulVec, dotProduct, vecMulVec_apply, Finset.mul_sum, mul_assoc]
    have hbar : (fun k => v k / Real.sqrt w) ⬝ᵥ env.z (s.nz + j) =
        (v ⬝ᵥ env.z (s.nz + j)) / Real.sqrt w := by
      simp only [dotProduct, Finset.sum_div]
      exact Finset.sum_congr rfl fun k _ => by ring
    have hsw : Real.sqrt w * Real.sqrt w = w := Real.mul_self_sqrt hwp.le
    have hs0 : Real.sqrt w ≠ 0 := (Real.sqrt_pos.2 hwp).ne'
    simp only [Pi.add_apply, Pi.mul_apply, Pi.smul_apply, smul_eq_mul, hdot, hbar, hf]
    have : (Real.sqrt (1 + w) - 1) * ((v ⬝ᵥ env.z (s.nz + j)) / Real.sqrt w) * (v i / Real.sqrt w) =
        (Real.sqrt (1 + w) - 1) / w * (v i * (v ⬝ᵥ env.z (s.nz + j))) := by
      have : ((v ⬝ᵥ env.z (s.nz + j)) / Real.sqrt w) * (v i / Real.sqrt w) =
          v i * (v ⬝ᵥ env.z (s.nz + j)) / w := by
        rw [div_mul_div_comm, hsw, mul_comm]
      rw [mul_assoc, this]; ring
    rw [this]

/-- The hypotheses of `C19_full` and `C19_fixed` are met, e.g. by the first call with default settings and the first of
two or more coordinates fixed; `C67_default` gives all later generations. -/
example (hn : 2 ≤ n) (env : Env n) : ∃ (s : Strat n) (pop : List (Vec n)) (s1 : Strat n), PSD s.sol.cov ∧ s.p.sep = false ∧ s.p.vd = false ∧
    s.p.withGradient = false ∧ s.p.tpa ≠ 2 ∧ s.p.lazyUpdate = false ∧ s.p.fixedP = [(0, 1)] ∧
    s.ask env = .ok (pop, s1) := by
  obtain ⟨p, hp, _⟩ := C11_weights (by omega : 1 ≤ n) (fun _ => 0) 1 (-1) 1 1 GenoPheno.plain
  obtain ⟨hu, hgp, hfp, _⟩ := usual_default (kind := .active) (by norm_num) hp (by decide)
  have hu' := usual_fix (i := 0) (v := 1) hu (by omega) (by rw [hfp]; simp; omega)
  obtain ⟨s, hs⟩ := new_plain (env := env) (kind := .active) (p := p.setFixedP 0 1) hgp hu'.configured.good.1
  obtain ⟨_, _, _, hsp, _, hfr, _⟩ := Strat.new_ok hs
  obtain ⟨pop, s1, ha, _⟩ := Strat.ask_total (env := env) (askLive_new hu'.configured hu'.vd hu'.grad hu'.tpa hs)
  have hsep : p.sep = false := by
    unfold Params.make at hp
    obtain ⟨l, -, hp⟩ := Out.bind_eq_ok.1 hp
    obtain ⟨mu, w, muw, cs, cc, c1, cm, ds, fs, fc, ch, lv, rl, al, e⟩ := initializeParameters_frame hp
    rw [e]; rfl
  refine ⟨s, pop, s1, ?_, ?_, ?_, ?_, ?_, ?_, ?_, ha⟩
  · rw [hfr.cov]; exact PD_one.psd
  all_goals rw [hsp]
  · exact hsep
  · exact hu.vd
  · exact hu.grad
  · exact hu.tpa
  · exact hu.lazy rfl
  · show mapInsert p.fixedP 0 1 = _
    rw [hfp]; simp [mapInsert]

/-- The hypotheses of `C19_sep` are met. -/
example (hn : 1 ≤ n) (env : Env n) : ∃ (s : Strat n) (pop : List (Vec n)) (s1 : Strat n), s.p.sep = true ∧ s.p.withGradient = false ∧ s.p.tpa ≠ 2 ∧
    s.ask env = .ok (pop, s1) := by
  obtain ⟨p, hp, _⟩ := C11_weights hn (fun _ => 0) 1 (-1) 1 1 GenoPheno.plain
  obtain ⟨hu, hgp, hfp, _⟩ := usual_default (kind := .plain) (by norm_num) hp (by decide)
  have hsep : p.sep = false := by
    unfold Params.make at hp
    obtain ⟨l, -, hp⟩ := Out.bind_eq_ok.1 hp
    obtain ⟨mu, w, muw, cs, cc, c1, cm, ds, fs, fc, ch, lv, rl, al, e⟩ := initializeParameters_frame hp
    rw [e]; rfl
  have hc : Configured p.setSep := .sep hu.configured hsep hu.vd
  obtain ⟨s, hs⟩ := new_plain (env := env) (kind := .plain) (p := p.setSep) hgp hc.good.1
  obtain ⟨_, _, _, hsp, _⟩ := Strat.new_ok hs
  obtain ⟨pop, s1, ha, _⟩ := Strat.ask_total (env := env) (askLive_new hc hu.vd hu.grad hu.tpa hs)
  refine ⟨s, pop, s1, by rw [hsp]; rfl, by rw [hsp]; exact hu.grad, by rw [hsp]; exact hu.tpa, ha⟩

/-- The hypotheses of `C19_vd` are met, in each dimension from 6 on, if the first draw is not zero. -/
theorem vd_asks (hn : 6 ≤ n) (env : Env n) (hz : env.z 0 ≠ 0) : ∃ (s : Strat n), s.sol.v ≠ 0 ∧ s.p.sep = false ∧
    s.p.vd = true ∧ s.p.withGradient = false ∧ s.p.tpa ≠ 2 ∧ s.p.fixedP = [] ∧
    ∀ env' : Env n, ∃ (pop : List (Vec n)) (s1 : Strat n), s.ask env' = .ok (pop, s1) := by
  obtain ⟨p0, hp, _⟩ := C11_weights (by omega : 1 ≤ n) (fun _ => 0) 1 (-1) 1 1 GenoPheno.plain
  obtain ⟨hu0, hgp, hfp, _⟩ := usual_default (kind := .plain) (by norm_num) hp (by decide)
  have hsep : p0.sep = false := by
    unfold Params.make at hp
    obtain ⟨l, -, hp⟩ := Out.bind_eq_ok.1 hp
    obtain ⟨mu, w, muw, cs, cc, c1, cm, ds, fs, fc, ch, lv, rl, al, e⟩ := initializeParameters_frame hp
    rw [e]; rfl
  set p : Params n := { p0 with algo := 12 } with hpd
  have hc : Configured p.setVd := .vd (.other hu0.configured
    ⟨rfl, rfl, rfl, rfl, rfl, rfl, rfl, rfl, rfl, rfl, rfl, rfl, rfl, rfl, rfl, rfl, rfl⟩) hsep hu0.vd hn
  have hvd : p.setVd.vd = true := by unfold Params.setVd; rw [if_neg (by simp [hpd])]
  have hsep' : p.setVd.sep = false := by unfold Params.setVd; rw [if_neg (by simp [hpd])]; exact hsep
  have hgp' : p.setVd.gp = GenoPheno.plain := by unfold Params.setVd; rw [if_neg (by simp [hpd])]; exact hgp
  have hgr : p.setVd.withGradient = false := by unfold Params.setVd; rw [if_neg (by simp [hpd])]; exact hu0.grad
  have htp : p.setVd.tpa ≠ 2 := by unfold Params.setVd; rw [if_neg (by simp [hpd])]; exact hu0.tpa
  obtain ⟨s, hs⟩ := new_plain (env := env) (kind := .vd) (p := p.setVd) hgp' hc.good.1
  obtain ⟨h1, h2, h3, h4, h5, h6, h7, h8, h9, h10, h11, h12, h13, h14, h15, h16, h17, h18, h19, h20⟩ :=
    Strat.new_ok hs
  have hv : s.sol.v ≠ 0 := by
    unfold Strat.new Sol.make at hs
    obtain ⟨⟨q, sol⟩, hm, hs⟩ := Out.bind_eq_ok.1 hs
    obtain ⟨m, _, hm⟩ := Out.bind_eq_ok.1 hm
    rw [if_neg (by rintro (h | h); exacts [h2 h, h1 h])] at hm
    injection hm with hm; injection hm with _ hm
    injection hs with hs
    rw [← hs, ← hm]
    intro h0
    apply hz
    funext i
    have := congrFun h0 i
    simp only [hvd, if_true, Pi.zero_apply] at this
    have hn0 : Real.sqrt n ≠ 0 := (Real.sqrt_pos.2 (by exact_mod_cast (by omega : 0 < n))).ne'
    exact (div_eq_zero_iff.1 this).resolve_right hn0
  have hsv : s.p.vd = true := by rw [h4]; exact hvd
  have hss : s.p.sep = false := by rw [h4]; exact hsep'
  have hsg : s.p.withGradient = false := by rw [h4]; exact hgr
  have hst : s.p.tpa ≠ 2 := by rw [h4]; exact htp
  have hsf : ∀ q ∈ s.p.fixedP, q.1 < n := by rw [h4]; exact hc.good.1.fixed_lt
  have hnv : sqNorm s.sol.v ≠ 0 := by
    intro h0
    apply hv
    funext i
    have := (Finset.sum_eq_zero_iff_of_nonneg (fun j _ => mul_self_nonneg (s.sol.v j))).1 h0 i (Finset.mem_univ i)
    exact mul_self_eq_zero.1 this
  have hs0 : s.p.fixedP = [] := by
    rw [h4]
    show p.setVd.fixedP = []
    unfold Params.setVd; rw [if_neg (by simp [hpd])]; exact hfp
  have : ∀ env' : Env n, ∃ pop s1, s.ask env' = .ok (pop, s1) := by
    intro env'
    unfold Strat.ask Strat.askPrepare
    rw [if_neg (by simp [hsv]), if_neg (by rw [h12]; simp [hvd]), if_neg (by simp [hss]), Out.ok_bind]
    unfold Strat.askSample
    simp only
    rw [if_neg (by simp [hsv]), if_neg (by simp [hss]), if_neg (by rw [h13]; simp [hvd]), if_neg hnv, Out.ok_bind]
    unfold Strat.askGradient
    simp only
    rw [if_pos hsg, Out.ok_bind]
    unfold Strat.askTpa
    simp only
    rw [if_neg (fun h => hst h.1), Out.ok_bind]
    simp only
    obtain ⟨pop', hp'⟩ := Out.mapM_ok_of (f := setFixed s.p.fixedP) (fun x _ => (setFixed_ok_iff s.p.fixedP x).2 hsf)
    rw [hp']
    exact ⟨_, _, rfl⟩
  exact ⟨s, hv, hss, hsv, hsg, hst, hs0, this⟩

end Libcmaes
