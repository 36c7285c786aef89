import Verif.Lemmas.Neutral

/-!
# C95–C97: the laws of the candidates, of the update and of the starting point

`StdDraws P Z`: the vectors `Z 0, Z 1, …` given by the generator are independent standard normal vectors on a
probability space.  `drawn env Z ω` is the environment with these draws.  See Spec/Law.lean.
-/

namespace Libcmaes

open MeasureTheory ProbabilityTheory Matrix WithLp Spec

variable {n : ℕ} {Ω : Type*} [MeasurableSpace Ω] {P : Measure Ω}

/-! ### C95 -/

/-- **C95.** In each generation of each run the candidates returned by `ask()` are independent, and each is normal with
the mean and the covariance held by the solution object, `sigma² C`, on the coordinates that are not fixed.  The past of
the run, and with it the state, is given; the draws of this generation are random. -/
theorem C95_sampled {Z : ℕ → Ω → Vec n} (hZ : StdDraws P Z) (env0 env : Env n) (kind : CovKind) (p : Params n)
    (s0 s : Strat n) (tr : List (List (Cand n))) (pop : Ω → List (Vec n)) (s1 : Ω → Strat n) (hu : Usual kind p)
    (hd : (p.fixedP.map Prod.fst).Nodup) (hl : p.sep = true ∨ p.lazyUpdate = false)
    (h0 : Strat.new env0 kind p = .ok s0) (h : AskRun env0 s0 tr s)
    (ha : ∀ ω, s.ask (drawn env Z ω) = .ok (pop ω, s1 ω)) :
    Sampled P p s.sol.xmean s.sol.sigma (searchCov p s.sol) pop := by
  obtain ⟨_, _, hkd, hp0, _, hf, hn0, _⟩ := Strat.new_ok h0
  obtain ⟨r1, _⟩ := run_p h.run
  have hp : s.p = { p with sigmaInit := s0.sol.sigma } := by rw [r1, hp0]
  have hfix : ∀ ω, (pop ω).length = p.lambda ∧ ∀ x ∈ pop ω, FixedAt p x := by
    intro ω
    have := C19_fixed (drawn env Z ω) s (s1 ω) (pop ω) (by rw [hp]; exact hd) (ha ω)
    rw [hp] at this
    exact this
  unfold searchCov
  by_cases hsep : p.sep = true
  · rw [if_pos hsep]
    have hg := fun ω => C19_sep (drawn env Z ω) s (s1 ω) (pop ω) (by rw [hp]; exact hsep) (by rw [hp]; exact hu.grad)
      (Or.inl (by rw [hp]; exact hu.tpa)) (ha ω)
    obtain ⟨ω0⟩ : Nonempty Ω := @nonempty_of_isProbabilityMeasure _ _ P hZ.indep.isProbabilityMeasure
    have hA : (diagonal fun i => Real.sqrt (s.sol.sepcov i)) * (diagonal fun i => Real.sqrt (s.sol.sepcov i))ᵀ =
        diagonal s.sol.sepcov := by
      rw [diagonal_transpose, diagonal_mul_diagonal]
      congr 1
      funext i
      exact Real.mul_self_sqrt ((hg ω0).1 i)
    refine sampled_of hZ hA (nz := s.nz) (fun ω => (hfix ω).1) (fun ω => (hfix ω).2) fun ω j hj => ?_
    obtain ⟨x, h1, h2⟩ := (hg ω).2 j (by rw [hp]; exact hj)
    refine ⟨x, h1, fun i hi => ?_⟩
    rw [h2 i (by rw [hp]; exact hi), mulVec_diagonal]
    rfl
  · rw [if_neg hsep]
    have hsep' : p.sep = false := by simpa using hsep
    have hlz : p.lazyUpdate = false := by simpa [hsep] using hl
    have hpsd : PSD s.sol.cov := by
      rcases kind with _ | _ | _
      · exact (C26_cov_from_start env0 p s0 s tr hu.configured h0 h.run).1
      · exact (C27_active_pd_from_start env0 p s0 s tr hu.configured hu.strict hsep' hu.vd hlz h0 h).psd
      · exact absurd rfl hu.update
    obtain ⟨A, hA, hg⟩ := C19_full env.eig s.sol.cov hpsd
    refine sampled_of hZ hA (nz := s.nz) (fun ω => (hfix ω).1) (fun ω => (hfix ω).2) fun ω j hj => ?_
    obtain ⟨x, h1, h2⟩ := hg (drawn env Z ω) s (s1 ω) (pop ω) rfl rfl (by rw [hp]; exact hsep') (by rw [hp]; exact hu.vd)
      (by rw [hp]; exact hu.grad) (Or.inl (by rw [hp]; exact hu.tpa)) (Or.inl (by rw [hp]; exact hlz)) (ha ω) j
      (by rw [hp]; exact hj)
    exact ⟨x, h1, fun i hi => h2 i (by rw [hp]; exact hi)⟩

/-- **C95**, first generation: independent samples of the normal distribution around the starting point with standard
deviation `sigma` in each coordinate. -/
theorem C95_first {Z : ℕ → Ω → Vec n} (hZ : StdDraws P Z) (env0 env : Env n) (kind : CovKind) (p : Params n) (s0 : Strat n)
    (pop : Ω → List (Vec n)) (s1 : Ω → Strat n) (hu : Usual kind p) (hd : (p.fixedP.map Prod.fst).Nodup)
    (hl : p.sep = true ∨ p.lazyUpdate = false) (h0 : Strat.new env0 kind p = .ok s0)
    (ha : ∀ ω, s0.ask (drawn env Z ω) = .ok (pop ω, s1 ω)) : Sampled P p s0.sol.xmean s0.sol.sigma 1 pop := by
  have hf := (Strat.new_ok h0).2.2.2.2.2.1
  have h := C95_sampled hZ env0 env kind p s0 s0 [] pop s1 hu hd hl h0 (.refl _) ha
  have e : searchCov p s0.sol = 1 := by
    unfold searchCov
    split_ifs
    · rw [← diagonal_one]
      congr 1
      funext i
      exact hf.sepcov i
    · exact hf.cov
  rwa [e] at h

/-- **C95**, VD variant: the covariance is `sigma² D (I + v vᵀ) D`. -/
theorem C95_vd {Z : ℕ → Ω → Vec n} (hZ : StdDraws P Z) (env : Env n) (s : Strat n) (pop : Ω → List (Vec n)) (s1 : Ω → Strat n)
    (hv : s.sol.v ≠ 0) (hsep : s.p.sep = false) (hvd : s.p.vd = true) (hg : s.p.withGradient = false) (ht : s.p.tpa ≠ 2)
    (hd : (s.p.fixedP.map Prod.fst).Nodup) (ha : ∀ ω, s.ask (drawn env Z ω) = .ok (pop ω, s1 ω)) :
    Sampled P s.p s.sol.xmean s.sol.sigma
      (diagonal s.sol.sepcov * (1 + vecMulVec s.sol.v s.sol.v) * diagonal s.sol.sepcov) pop := by
  have hfix := fun ω => C19_fixed (drawn env Z ω) s (s1 ω) (pop ω) hd (ha ω)
  obtain ⟨A, hA, hx⟩ := C19_vd s.sol.sepcov s.sol.v hv
  exact sampled_of hZ hA (nz := s.nz) (fun ω => (hfix ω).1) (fun ω => (hfix ω).2) fun ω j hj =>
    hx (drawn env Z ω) s (s1 ω) (pop ω) rfl rfl hsep hvd hg (Or.inl ht) (ha ω) j hj

/-- **C95**, in moments: each free coordinate of each candidate has the mean of the state, and the covariances of the
coordinates are the entries of `sigma² C`. -/
theorem C95_moments {p : Params n} {m : Vec n} {sigma : ℝ} {C : Mat n} {pop : Ω → List (Vec n)}
    (h : Sampled P p m sigma C pop) (r : ℕ) (hr : r < p.lambda) (i j : Fin n) (hi : Free p i) (hj : Free p j) :
    ∫ ω, (pop ω).getD r 0 i ∂P = m i ∧
      cov[fun ω => (pop ω).getD r 0 i, fun ω => (pop ω).getD r 0 j; P] = sigma ^ 2 * C i j := by
  have hn := h.normal r hr 2 ![i, j] (by intro a; fin_cases a <;> assumption)
  exact ⟨by simpa using hn.mean 0, hn.cov 0 1⟩

/-! ### C96 -/

/-- **C96.** If the objective does not depend on the point (a flat function, or pure noise), the search makes an unbiased
random walk: in each generation of each run of the default or active update, full or diagonal, the new mean is normal
around the old one with covariance `sigma²/muw C`, and the path of the step size is the old path, damped, plus
normal noise with covariance `csigma (2 - csigma) I`, whatever the covariance matrix. -/
theorem C96_neutral {Z : ℕ → Ω → Vec n} (hZ : StdDraws P Z) (env0 env : Env n) (kind : CovKind) (p : Params n)
    (s0 s : Strat n) (tr : List (List (Cand n))) (s' : Ω → Strat n) (hu : Usual kind p) (hx : NoExtras p)
    (hl : p.sep = true ∨ p.lazyUpdate = false) (hneu : Neutral env) (h0 : Strat.new env0 kind p = .ok s0)
    (h : AskRun env0 s0 tr s) (hg : ∀ ω, s.generation (drawn env Z ω) = .ok (s' ω)) :
    IsNormal P (fun ω => (s' ω).sol.xmean) s.sol.xmean ((s.sol.sigma ^ 2 / p.muw) • searchCov p s.sol) ∧
      IsNormal P (fun ω => (s' ω).sol.psigma) ((1 - p.csigma) • s.sol.psigma)
        ((p.csigma * (2 - p.csigma)) • (1 : Mat n)) := by
  obtain ⟨hN, hp⟩ := neutralSet_of hu hx h0 h
  obtain ⟨ω0⟩ : Nonempty Ω := @nonempty_of_isProbabilityMeasure _ _ P hZ.indep.isProbabilityMeasure
  have em : s.p.muw = p.muw := by rw [hp]
  have ec : s.p.csigma = p.csigma := by rw [hp]
  have hperm := orderBy_perm (neutralValue env s) s.p.lambda
  unfold searchCov
  by_cases hsep : p.sep = true
  · rw [if_pos hsep, ← em, ← ec]
    have hk := fun ω => neutral_sep hN (by rw [hp]; exact hsep) hneu (hg ω)
    obtain ⟨hA, hB⟩ := sep_inv (hk ω0).1
    exact neutral_laws hZ hN.good hN.muw hA hB hperm (fun ω => (hk ω).2.2) fun ω => (hk ω).2.1
  · rw [if_neg hsep, ← em, ← ec]
    have hsep' : p.sep = false := by simpa using hsep
    have hlz : p.lazyUpdate = false := by simpa [hsep] using hl
    have hpsd : PSD s.sol.cov := by
      rcases kind with _ | _ | _
      · exact (C26_cov_from_start env0 p s0 s tr hu.configured h0 h.run).1
      · exact (C27_active_pd_from_start env0 p s0 s tr hu.configured hu.strict hsep' hu.vd hlz h0 h).psd
      · exact absurd rfl hu.update
    obtain ⟨A, B, hA, hAB⟩ := neutral_full env.eig s.sol.cov hpsd
    have hk := fun ω => hAB Z ω env s (s' ω) rfl rfl hN (by rw [hp]; exact hsep') (by rw [hp]; exact hlz) hneu (hg ω)
    exact neutral_laws hZ hN.good hN.muw hA (hk ω0).1 hperm (fun ω => (hk ω).2.2) fun ω => (hk ω).2.1

/-- **C96**, the standard normal distribution is stationary for the path: if the path is one more standard draw, it is
standard normal after the generation.  The constant `chi` with which the length of the path is compared is the
length expected in this situation. -/
theorem C96_stationary {Z : ℕ → Ω → Vec n} {Ψ : Ω → Vec n}
    (hZ : StdDraws P (fun k => match k with | 0 => Ψ | k + 1 => Z k)) (env0 env : Env n) (kind : CovKind) (p : Params n)
    (s0 s : Strat n) (tr : List (List (Cand n))) (s' : Ω → Strat n) (hu : Usual kind p) (hx : NoExtras p)
    (hl : p.sep = true ∨ p.lazyUpdate = false) (hneu : Neutral env) (h0 : Strat.new env0 kind p = .ok s0)
    (h : AskRun env0 s0 tr s)
    (hg : ∀ ω, { s with sol := { s.sol with psigma := Ψ ω } }.generation (drawn env Z ω) = .ok (s' ω)) :
    IsNormal P (fun ω => (s' ω).sol.psigma) 0 (1 : Mat n) := by
  obtain ⟨hN, hp⟩ := neutralSet_of hu hx h0 h
  obtain ⟨ω0⟩ : Nonempty Ω := @nonempty_of_isProbabilityMeasure _ _ P hZ.indep.isProbabilityMeasure
  have hN' : ∀ ω, NeutralSet { s with sol := { s.sol with psigma := Ψ ω } } := fun ω =>
    ⟨hN.1, hN.2, hN.3, hN.4, hN.5, hN.6, hN.7, hN.8, hN.9, hN.10⟩
  have hperm := orderBy_perm (neutralValue env s) s.p.lambda
  by_cases hsep : p.sep = true
  · have hk := fun ω => neutral_sep (hN' ω) (by show s.p.sep = true; rw [hp]; exact hsep) hneu (hg ω)
    obtain ⟨hA, hB⟩ := sep_inv (hk ω0).1
    exact neutral_stationary (p := s.p) (s := fun ω => { s.sol with psigma := Ψ ω }) hZ hN.good hN.muw hA hB hperm (fun _ => rfl) (fun _ => rfl) (fun _ => rfl)
      (fun ω => (hk ω).2.2) fun ω => (hk ω).2.1
  · have hsep' : p.sep = false := by simpa using hsep
    have hlz : p.lazyUpdate = false := by simpa [hsep] using hl
    have hpsd : PSD s.sol.cov := by
      rcases kind with _ | _ | _
      · exact (C26_cov_from_start env0 p s0 s tr hu.configured h0 h.run).1
      · exact (C27_active_pd_from_start env0 p s0 s tr hu.configured hu.strict hsep' hu.vd hlz h0 h).psd
      · exact absurd rfl hu.update
    obtain ⟨A, B, hA, hAB⟩ := neutral_full env.eig s.sol.cov hpsd
    have hk := fun ω => hAB Z ω env { s with sol := { s.sol with psigma := Ψ ω } } (s' ω) rfl rfl (hN' ω) (by show s.p.sep = false; rw [hp]; exact hsep')
      (by show s.p.lazyUpdate = false; rw [hp]; exact hlz) hneu (hg ω)
    exact neutral_stationary (p := s.p) (s := fun ω => { s.sol with psigma := Ψ ω }) hZ hN.good hN.muw hA (hk ω0).1 hperm (fun _ => rfl) (fun _ => rfl)
      (fun _ => rfl) (fun ω => (hk ω).2.2) fun ω => (hk ω).2.1

/-- **C96**, whole runs of the diagonal variant: after `k` generations on such an objective the path of the step size is
normal with mean zero and covariance `(1 - (1 - csigma)^(2k)) I`. -/
theorem C96_sep_run {Z : ℕ → Ω → Vec n} (hZ : StdDraws P Z) (env0 env : Env n) (kind : CovKind) (p : Params n)
    (s0 : Strat n) (s' : Ω → Strat n) (hu : Usual kind p) (hx : NoExtras p) (hsep : p.sep = true) (hneu : Neutral env)
    (h0 : Strat.new env0 kind p = .ok s0) (k : ℕ) (hg : ∀ ω, s0.generations (drawn env Z ω) k = .ok (s' ω)) :
    IsNormal P (fun ω => (s' ω).sol.psigma) 0 ((1 - (1 - p.csigma) ^ (2 * k)) • (1 : Mat n)) := by
  obtain ⟨hN, hp⟩ := neutralSet_of hu hx h0 (.refl _)
  have hf := (Strat.new_ok h0).2.2.2.2.2.1
  obtain ⟨m, q, v, hq, _, hv, hpath⟩ := sep_path (Z := Z) hN (by rw [hp]; exact hsep) hneu hf.psigma k
  have h := isNormal_weighted hZ q hq v (1 : Mat n) 0
  have e1 : (fun ω => (0 : Vec n) + ∑ i, v i • (1 : Mat n).mulVec (Z (q i) ω)) = fun ω => (s' ω).sol.psigma := by
    funext ω
    rw [(hpath ω _ (hg ω)).2.2.2.2.2, zero_add]
    exact Finset.sum_congr rfl fun i _ => by rw [one_mulVec]
  have ec : s0.p.csigma = p.csigma := by rw [hp]
  rwa [e1, hv, ec, transpose_one, Matrix.one_mul] at h

/-! ### C97 -/

/-- **C97.** A starting point that is not given is drawn uniformly: from the box given by `set_x0` with two bounds, each
coordinate independently of the others, or from `[-4, 4]` if nothing is given; fixed coordinates have their
values.  A given starting point is taken as it is. -/
theorem C97_start (p : Params n) (R : Ω → Vec n) (z0 : Ω → Vec n) (p' : Ω → Params n) (sol : Ω → Sol n) (hR : UniformDraws P R)
    (hs : p.gp.scale = .noScaling) (hd : (p.fixedP.map Prod.fst).Nodup)
    (h : ∀ ω, Sol.make p (R ω) (z0 ω) = .ok (p' ω, sol ω)) :
    (∀ ω, FixedAt p (sol ω).xmean) ∧ iIndepFun (fun i ω => (sol ω).xmean i) P ∧
      (p.x0min ≠ p.x0max → ∀ i, Free p i →
        (p.x0min i < p.x0max i → UniformOn P (fun ω => (sol ω).xmean i) (p.x0min i) (p.x0max i)) ∧
        (p.x0min i = p.x0max i → ∀ ω, (sol ω).xmean i = p.x0min i)) ∧
      (p.x0min = p.x0max → (p.x0min = fun _ => -dblMax) → ∀ i, Free p i → UniformOn P (fun ω => (sol ω).xmean i) (-4) 4) ∧
      (p.x0min = p.x0max → (p.x0min ≠ fun _ => -dblMax) → ∀ i, Free p i → ∀ ω, (sol ω).xmean i = p.x0min i) := by
  have hm : ∀ ω, setFixed p.fixedP (if p.x0min = p.x0max then
      if p.x0min = fun _ => -dblMax then fun i => R ω i * 4 else p.x0min
      else fun i => 0.5 * (R ω i + 1) * (p.x0max i - p.x0min i) + p.x0min i) = .ok (sol ω).xmean := by
    intro ω
    have := (Sol.make_eq_ok (h ω)).1
    unfold initialMean at this
    obtain ⟨m, h1, h2⟩ := Out.bind_eq_ok.1 this
    unfold scaleToInternalV at h2
    rw [hs] at h2
    rw [Except.ok.inj h2] at h1
    exact h1
  have hfix : ∀ ω, FixedAt p (sol ω).xmean := fun ω i v hv => setFixed_of_mem (hm ω) hd i v hv
  have hfree : ∀ i, Free p i → ∀ ω, (sol ω).xmean i = (if p.x0min = p.x0max then
      if p.x0min = fun _ => -dblMax then fun i => R ω i * 4 else p.x0min
      else fun i => 0.5 * (R ω i + 1) * (p.x0max i - p.x0min i) + p.x0min i) i := fun i hi ω =>
    setFixed_of_not_mem (hm ω) i (free_ne hi)
  refine ⟨hfix, ?_, fun hne i hi => ⟨fun hlt t h1 h2 => ?_, fun heq ω => ?_⟩, fun he hb i hi t h1 h2 => ?_, fun he hb i hi ω => ?_⟩
  · classical
    have hfun : ∀ i, ∃ g : ℝ → ℝ, Measurable g ∧ ∀ ω, (sol ω).xmean i = g (R ω i) := by
      intro i
      by_cases hi : Free p i
      · by_cases he : p.x0min = p.x0max
        · by_cases hb : p.x0min = fun _ => -dblMax
          · exact ⟨fun r => r * 4, by fun_prop, fun ω => by rw [hfree i hi ω, if_pos he, if_pos hb]⟩
          · exact ⟨fun _ => p.x0min i, by fun_prop, fun ω => by rw [hfree i hi ω, if_pos he, if_neg hb]⟩
        · exact ⟨fun r => 0.5 * (r + 1) * (p.x0max i - p.x0min i) + p.x0min i, by fun_prop, fun ω => by
            rw [hfree i hi ω, if_neg he]⟩
      · unfold Free at hi
        push Not at hi
        obtain ⟨v, hv⟩ := hi
        exact ⟨fun _ => v, by fun_prop, fun ω => hfix ω i v hv⟩
    choose g hg1 hg2 using hfun
    have := hR.indep.comp g hg1
    have e : (fun i ω => (sol ω).xmean i) = fun i => g i ∘ fun ω => R ω i := by
      funext i ω
      exact hg2 i ω
    rw [e]
    exact this
  · have hpos : 0 < p.x0max i - p.x0min i := by linarith
    have := hR.uniform i (2 * ((t - p.x0min i) / (p.x0max i - p.x0min i)) - 1)
      (by have : 0 ≤ (t - p.x0min i) / (p.x0max i - p.x0min i) := div_nonneg (by linarith) hpos.le
          linarith)
      (by have : (t - p.x0min i) / (p.x0max i - p.x0min i) ≤ 1 := by rw [div_le_one hpos]; linarith
          linarith)
    have e : {ω | (sol ω).xmean i ≤ t} = {ω | R ω i ≤ 2 * ((t - p.x0min i) / (p.x0max i - p.x0min i)) - 1} := by
      ext ω
      simp only [Set.mem_ofPred_eq]
      rw [hfree i hi ω, if_neg hne]
      have e1 : 2 * ((t - p.x0min i) / (p.x0max i - p.x0min i)) - 1 =
          (2 * (t - p.x0min i) - (p.x0max i - p.x0min i)) / (p.x0max i - p.x0min i) := by field_simp
      rw [e1, le_div_iff₀ hpos]
      constructor <;> intro h3 <;> nlinarith
    rw [e, this]
    congr 1
    ring
  · rw [hfree i hi ω, if_neg hne]
    show 0.5 * (R ω i + 1) * (p.x0max i - p.x0min i) + p.x0min i = _
    rw [heq]
    ring
  · have := hR.uniform i (t / 4) (by linarith) (by linarith)
    have e : {ω | (sol ω).xmean i ≤ t} = {ω | R ω i ≤ t / 4} := by
      ext ω
      simp only [Set.mem_ofPred_eq]
      rw [hfree i hi ω, if_pos he, if_pos hb, le_div_iff₀ (by norm_num)]
    rw [e, this]
    congr 1
    ring
  · rw [hfree i hi ω, if_pos he, if_neg hb]

/-! ### Cases that meet the hypotheses -/

/-- The hypotheses of `C95_sampled`, `C95_first` and the theorems on C96 are met in every generation of a run with default
settings, default or active update, full or diagonal, in any dimension, on a constant function. -/
example (hn : 1 ≤ n) (kind : CovKind) (hk : kind ≠ .vd) (diag : Bool) (x0 : Vec n) (sigma : ℝ) (k : ℕ) :
    ∃ (Ω : Type) (_ : MeasurableSpace Ω) (P : Measure Ω) (Z : ℕ → Ω → Vec n) (env0 env : Env n) (p : Params n) (s0 s : Strat n)
      (tr : List (List (Cand n))) (s' s'' : Ω → Strat n), StdDraws P Z ∧ Usual kind p ∧ NoExtras p ∧ p.sep = diag ∧ p.lazyUpdate = false ∧
      Neutral env ∧ Strat.new env0 kind p = .ok s0 ∧ AskRun env0 s0 tr s ∧ tr.length = k ∧
      (∀ ω, s.generation (drawn env Z ω) = .ok (s' ω)) ∧ ∀ ω, s0.generations (drawn env Z ω) k = .ok (s'' ω) := by
  obtain ⟨P, hZ⟩ := stdDraws_exist n
  obtain ⟨q, hq1, hq2, hq3, hq4, hq5⟩ := flat_setup hn kind hk diag x0 sigma
  set env : Env n := Env.basic (fun _ _ => .num 1) fun _ _ => 0 with henv
  obtain ⟨s0, hs0⟩ := new_plain (env := env) (kind := kind) hq5 hq1.configured.good.1
  obtain ⟨hL, hr⟩ := live_new hq1 hs0
  have hgp0 : s0.p.gp = GenoPheno.plain := by rw [(Strat.new_ok hs0).2.2.2.1]; exact hq5
  have hruns : ∀ env : Env n, (∀ k y, (env.f k y).IsNum) →
      ∃ s, s0.generations env k = .ok s ∧ Live s ∧ RefNum s ∧ s.p = s0.p := by
    intro env hf
    rcases generations_total (env := env) hL hf hr k with ⟨s, h⟩ | ⟨x, e, h1, _⟩
    · exact ⟨s, h⟩
    · rw [hgp0, phenoV_plain] at h1; cases h1
  obtain ⟨s, h1, h2, h3, h4⟩ := hruns env fun _ _ => trivial
  obtain ⟨tr, htr, hrun⟩ := Strat.generations_askRun k h1
  have hgen : ∀ ω, ∃ s', s.generation (drawn env (fun k (ω : ℕ → EuclideanSpace ℝ (Fin n)) => ofLp (ω k)) ω) = .ok s' := by
    intro ω
    rcases generation_total_num (env := drawn env (fun k (ω : ℕ → EuclideanSpace ℝ (Fin n)) => ofLp (ω k)) ω) h2 (fun _ _ => trivial) h3 with
      ⟨s', a, _⟩ | ⟨x, e, a, _⟩
    · exact ⟨s', a⟩
    · rw [h4, hgp0, phenoV_plain] at a; cases a
  choose s' hs' using hgen
  choose s'' hs'' using fun ω => hruns (drawn env (fun k (ω : ℕ → EuclideanSpace ℝ (Fin n)) => ofLp (ω k)) ω) fun _ _ => trivial
  exact ⟨_, _, P, _, env, env, q, s0, s, tr, s', s'', hZ, hq1, hq2, hq3, hq4, fun _ _ _ => rfl, hs0, hrun, htr, hs',
    fun ω => (hs'' ω).1⟩

/-- The hypotheses of `C96_stationary` are met, in the first generation of such a run. -/
example (hn : 1 ≤ n) (kind : CovKind) (hk : kind ≠ .vd) (diag : Bool) (x0 : Vec n) (sigma : ℝ) :
    ∃ (Ω : Type) (_ : MeasurableSpace Ω) (P : Measure Ω) (Z : ℕ → Ω → Vec n) (Ψ : Ω → Vec n) (env0 env : Env n) (p : Params n)
      (s0 : Strat n) (s' : Ω → Strat n), StdDraws P (fun k => match k with | 0 => Ψ | k + 1 => Z k) ∧ Usual kind p ∧
      NoExtras p ∧ p.sep = diag ∧ p.lazyUpdate = false ∧ Neutral env ∧ Strat.new env0 kind p = .ok s0 ∧
      ∀ ω, { s0 with sol := { s0.sol with psigma := Ψ ω } }.generation (drawn env Z ω) = .ok (s' ω) := by
  obtain ⟨P, hZ⟩ := stdDraws_exist n
  obtain ⟨q, hq1, hq2, hq3, hq4, hq5⟩ := flat_setup hn kind hk diag x0 sigma
  set env : Env n := Env.basic (fun _ _ => .num 1) fun _ _ => 0 with henv
  obtain ⟨s0, hs0⟩ := new_plain (env := env) (kind := kind) hq5 hq1.configured.good.1
  obtain ⟨hL, hr⟩ := live_new hq1 hs0
  have hgp0 : s0.p.gp = GenoPheno.plain := by rw [(Strat.new_ok hs0).2.2.2.1]; exact hq5
  have hgen : ∀ ω : ℕ → EuclideanSpace ℝ (Fin n), ∃ s', { s0 with sol := { s0.sol with psigma := ofLp (ω 0) } }.generation
      (drawn env (fun k (ω : ℕ → EuclideanSpace ℝ (Fin n)) => ofLp (ω (k + 1))) ω) = .ok s' := by
    intro ω
    have hL' : Live { s0 with sol := { s0.sol with psigma := ofLp (ω 0) } } :=
      ⟨⟨hL.good, hL.strict, hL.kind, hL.vd, hL.lazy, hL.grad, hL.tpaPos, hL.eig, hL.paths, hL.sigma, hL.cands, hL.kcand, hL.niter, hL.full,
        hL.sep, hL.seen, hL.init⟩, hL.uh, hL.tpa⟩
    rcases generation_total_num (env := drawn env (fun k (ω : ℕ → EuclideanSpace ℝ (Fin n)) => ofLp (ω (k + 1))) ω) hL'
      (fun _ _ => trivial) ⟨hr.1, hr.2⟩ with ⟨s', a, _⟩ | ⟨x, e, a, _⟩
    · exact ⟨s', a⟩
    · replace a : phenoV s0.p.gp x = .error e := a
      rw [hgp0, phenoV_plain] at a; cases a
  choose s' hs' using hgen
  refine ⟨_, _, P, fun k ω => ofLp (ω (k + 1)), fun ω => ofLp (ω 0), env, env, q, s0, s', ?_, hq1, hq2, hq3, hq4, fun _ _ _ => rfl, hs0, hs'⟩
  have e : (fun k (ω : ℕ → EuclideanSpace ℝ (Fin n)) => ofLp (ω k)) =
      (fun k => match k with | 0 => fun ω => ofLp (ω 0) | k + 1 => fun ω => ofLp (ω (k + 1))) := by
    funext k
    cases k <;> rfl
  rw [← e]
  exact hZ

/-- The hypotheses of `C95_vd` are met, in each dimension from 6 on, if the vector the strategy starts from is not zero. -/
example (hn : 6 ≤ n) (env0 : Env n) (hz : env0.z 0 ≠ 0) :
    ∃ (Ω : Type) (_ : MeasurableSpace Ω) (P : Measure Ω) (Z : ℕ → Ω → Vec n) (s : Strat n) (pop : Ω → List (Vec n)) (s1 : Ω → Strat n),
      StdDraws P Z ∧ s.sol.v ≠ 0 ∧ s.p.sep = false ∧ s.p.vd = true ∧ s.p.withGradient = false ∧ s.p.tpa ≠ 2 ∧
      (s.p.fixedP.map Prod.fst).Nodup ∧ ∀ ω, s.ask (drawn env0 Z ω) = .ok (pop ω, s1 ω) := by
  obtain ⟨P, hZ⟩ := stdDraws_exist n
  obtain ⟨s, h1, h2, h3, h4, h5, h6, h7⟩ := vd_asks hn env0 hz
  choose pop s1 hs using fun ω => h7 (drawn env0 (fun k (ω : ℕ → EuclideanSpace ℝ (Fin n)) => ofLp (ω k)) ω)
  exact ⟨_, _, P, _, s, pop, s1, hZ, h1, h2, h3, h4, h5, by rw [h6]; simp, hs⟩

/-- The hypotheses of `C97_start` are met, e.g. by the box `[-1, 3]²` in dimension 2, nothing fixed. -/
example : ∃ (Ω : Type) (_ : MeasurableSpace Ω) (P : Measure Ω) (R : Ω → Vec 2) (p : Params 2) (p' : Ω → Params 2) (sol : Ω → Sol 2),
    UniformDraws P R ∧ p.gp.scale = .noScaling ∧ (p.fixedP.map Prod.fst).Nodup ∧ (∀ i, p.x0min i = -1 ∧ p.x0max i = 3) ∧
    ∀ ω, Sol.make p (R ω) 0 = .ok (p' ω, sol ω) := by
  obtain ⟨P, R, hR⟩ := uniformDraws_exist 2
  obtain ⟨p, hp, _⟩ := C11_weights (n := 2) (by norm_num) 0 1 (-1) 1 1 GenoPheno.plain
  obtain ⟨hu, hgp, hfx, _⟩ := usual_default (kind := .plain) (by norm_num) hp (by decide)
  have hl : p.lambda ≠ 0 := by have := hu.configured.good.1.lambda; omega
  set q : Params 2 := { p with x0min := fun _ => -1, x0max := fun _ => 3 } with hq
  have hmake : ∀ ω, ∃ r : Params 2 × Sol 2, Sol.make q (R ω) 0 = .ok r := by
    intro ω
    have hm : ∃ m, initialMean q (R ω) = .ok m := by
      unfold initialMean scaleToInternalV
      rw [show q.fixedP = [] from hfx, show q.gp = GenoPheno.plain from hgp]
      exact ⟨_, rfl⟩
    obtain ⟨m, hm⟩ := hm
    unfold Sol.make
    rw [hm, Out.ok_bind, if_neg (by rintro (h | h); exacts [hl h, by omega])]
    exact ⟨_, rfl⟩
  choose r hr using hmake
  exact ⟨_, _, P, R, q, fun ω => (r ω).1, fun ω => (r ω).2, hR, by show p.gp.scale = _; rw [hgp]; rfl, by show (p.fixedP.map _).Nodup; rw [hfx]; simp,
    fun i => ⟨rfl, rfl⟩, hr⟩

end Libcmaes
