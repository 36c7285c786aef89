import Verif.Lemmas.Setters
import Verif.Spec.Good

/-! # Configured parameters are good -/

namespace Libcmaes

open Finset Spec

variable {n : ℕ}

/-- What `initialize_parameters` establishes besides the rates. -/
structure InitRest (p q : Params n) : Prop where
  alphathuh : q.alphathuh = 1 + 2 / ((n : ℝ) + 10)
  rlambda : q.rlambda = max 0.1 (2 / (q.lambda : ℝ))
  fixedP : q.fixedP = p.fixedP
  chi : q.chi = chiOf n
  sep : q.sep = p.sep
  vd : q.vd = p.vd

theorem initializeParameters_rest {p q : Params n} (h : initializeParameters p = .ok q) :
    InitRest p q := by
  unfold initializeParameters at h
  by_cases hg : p.lambda / 2 = 0 ∨ n = 0
  · simp only [hg, if_true] at h
    cases h
  · simp only [hg, if_false, Except.ok.injEq] at h
    subst h
    exact ⟨rfl, rfl, rfl, rfl, rfl, rfl⟩

theorem InitSpec.weights_good {p q : Params n} (hs : InitSpec p q) : GoodWeights q := by
  have hsum := sumRaw_pos hs.mu_pos
  refine ⟨hs.mu_pos, ?_, ?_, ?_⟩
  · intro i hi
    rw [hs.weights]
    exact div_pos (rawWeight_pos hi) hsum
  · intro i j hij hj
    rw [hs.weights, hs.weights]
    exact div_lt_div_of_pos_right (rawWeight_lt hij) hsum
  · simp only [hs.weights]
    rw [← Finset.sum_div, div_self hsum.ne']

/-- The part of `GoodParams` about fixed parameters. -/
structure FixOk (n : ℕ) (l : List (ℕ × ℝ)) : Prop where
  lt : ∀ q ∈ l, q.1 < n
  nodup : (l.map Prod.fst).Nodup
  len : l.length < n

theorem goodParams_init {p q : Params n} (h : initializeParameters p = .ok q) (hf : FixOk n p.fixedP) :
    GoodParams q := by
  have hs := initializeParameters_spec h
  have hr := initializeParameters_rest h
  refine ⟨hs.n_pos, hs.base.lambda, ?_, hs.weights_good, hs.admissible, hs.one_le_muw, ?_, ?_,
    hr.rlambda, ?_, ?_, ?_⟩
  · rw [hs.mu, hs.lambda]
  · rw [hr.chi]; exact chiOf_pos hs.n_real
  · rw [hr.alphathuh]
    have : (0 : ℝ) ≤ 2 / ((n : ℝ) + 10) := by positivity
    linarith
  · rw [hr.fixedP]; exact hf.lt
  · rw [hr.fixedP]; exact hf.nodup
  · rw [hr.fixedP]; exact hf.len

theorem Spec.GoodParams.one_le_alphathuh {p : Params n} (h : GoodParams p) : 1 ≤ p.alphathuh := h.alphathuh

theorem Spec.GoodParams.fixOk {p : Params n} (h : GoodParams p) : FixOk n p.fixedP :=
  ⟨h.fixed_lt, h.fixed_nodup, h.fixed_len⟩

/-- Changing members that `GoodParams` only constrains through the rates. -/
theorem Spec.GoodParams.of_rates {p q : Params n} (h : GoodParams p) (ha : Admissible q)
    (h1 : q.lambda = p.lambda) (h2 : q.mu = p.mu) (h3 : q.weights = p.weights) (h4 : q.muw = p.muw)
    (h5 : 0 < q.chi) (h6 : q.alphathuh = p.alphathuh) (h7 : q.rlambda = p.rlambda) (h8 : FixOk n q.fixedP) :
    GoodParams q := by
  refine ⟨h.dim, h1 ▸ h.lambda, by rw [h1, h2]; exact h.mu, ?_, ha, h4 ▸ h.muw, h5, h6 ▸ h.alphathuh,
    by rw [h1, h7]; exact h.rlambda, h8.lt, h8.nodup, h8.len⟩
  exact ⟨h2 ▸ h.weights.mu_pos, by rw [h2, h3]; exact h.weights.pos, by rw [h2, h3]; exact h.weights.dec,
    by rw [h2, h3]; exact h.weights.sum_one⟩

theorem Spec.GoodParams.same {p q : Params n} (h : GoodParams p) (hs : SameRates p q) : GoodParams q := by
  obtain ⟨h1, h2, h3, h4, h5, h6, h7, h8, h9, h10, h11, h12, h13, h14, h15, h16, h17⟩ := hs
  refine h.of_rates ?_ h1 h2 h3 h4 (h12 ▸ h.chi) h13 h14 ⟨h15 ▸ h.fixed_lt, h15 ▸ h.fixed_nodup, h15 ▸ h.fixed_len⟩
  have := h.rates
  exact ⟨h6 ▸ this.c1_pos, h7 ▸ this.cmu_nonneg, by rw [h6, h7]; exact this.c1_cmu_le, h8 ▸ this.cc_pos,
    h8 ▸ this.cc_le, h5 ▸ this.csigma_pos, h5 ▸ this.csigma_lt, h9 ▸ this.dsigma_pos⟩

theorem fixOk_insert {p q : Params n} (h : FixOk n p.fixedP) (i : ℕ) (v : ℝ) (hi : i < n)
    (hl : p.fixedP.length + 1 < n) (e : q.fixedP = mapInsert p.fixedP i v) : FixOk n q.fixedP := by
  unfold mapInsert at e
  split_ifs at e with hm
  · exact ⟨e ▸ h.lt, e ▸ h.nodup, e ▸ h.len⟩
  · refine ⟨?_, ?_, ?_⟩
    · rw [e]
      intro r hr
      rcases List.mem_append.1 hr with hr | hr
      · exact h.lt r hr
      · rw [List.mem_singleton.1 hr]; exact hi
    · rw [e, List.map_append]
      refine List.Nodup.append h.nodup (by simp) ?_
      intro a ha hb
      simp at hb
      exact hm (hb ▸ ha)
    · rw [e]; simp; omega

theorem fixOk_erase {p q : Params n} (h : FixOk n p.fixedP) (i : ℕ) (e : q.fixedP = mapErase p.fixedP i) :
    FixOk n q.fixedP := by
  unfold mapErase at e
  have hsub : q.fixedP.Sublist p.fixedP := e ▸ List.filter_sublist
  exact ⟨fun r hr => h.lt r (hsub.subset hr), h.nodup.sublist (hsub.map _),
    lt_of_le_of_lt hsub.length_le h.len⟩

theorem refresh_chi_pos {l : List (ℕ × ℝ)} (h : FixOk n l) : 0 < chiOf ((n : ℝ) - l.length) := by
  apply chiOf_pos
  have : l.length + 1 ≤ n := h.len
  have : ((l.length : ℝ) + 1) ≤ n := by exact_mod_cast this
  linarith

theorem goodParams_call {p q : Params n} (h : GoodParams p) {c : RateCall}
    (hc : ∀ i v, c = .fix i v → i < n ∧ p.fixedP.length + 1 < n) (hr : c.run p = .ok q) :
    GoodParams q := by
  have ha := RateCall.run_admissible h.dim h.rates hr
  cases c with
  | noisy =>
    change p.setNoisy = .ok q at hr
    unfold Params.setNoisy at hr
    obtain ⟨r, hr', hr⟩ := Out.bind_eq_ok.1 hr
    have hg := goodParams_init hr' h.fixOk
    injection hr with hr
    subst hr
    exact hg.of_rates ha rfl rfl rfl rfl hg.chi rfl rfl hg.fixOk
  | tpa b => injection hr with hr; subst hr; exact h.of_rates ha rfl rfl rfl rfl h.chi rfl rfl h.fixOk
  | fix i v =>
    injection hr with hr; subst hr
    obtain ⟨h1, h2⟩ := hc i v rfl
    have hf : FixOk n (p.setFixedP i v).fixedP := fixOk_insert h.fixOk i v h1 h2 rfl
    exact h.of_rates ha rfl rfl rfl rfl (refresh_chi_pos hf) rfl rfl hf
  | unfix i =>
    injection hr with hr; subst hr
    have hf : FixOk n (p.unsetFixedP i).fixedP := fixOk_erase h.fixOk i rfl
    exact h.of_rates ha rfl rfl rfl rfl (refresh_chi_pos hf) rfl rfl hf
  | elitism e =>
    injection hr with hr; subst hr
    unfold Params.setElitism at ha ⊢
    split_ifs at ha ⊢ <;>
    exact h.of_rates ha rfl rfl rfl rfl h.chi rfl rfl h.fixOk
  | algo a => injection hr with hr; subst hr; exact h.of_rates ha rfl rfl rfl rfl h.chi rfl rfl h.fixOk

theorem RateCall.run_flags {p q : Params n} {c : RateCall} (hr : c.run p = .ok q) :
    q.sep = p.sep ∧ q.vd = p.vd := by
  cases c with
  | noisy =>
    change p.setNoisy = .ok q at hr
    unfold Params.setNoisy at hr
    obtain ⟨r, hr', hr⟩ := Out.bind_eq_ok.1 hr
    have := initializeParameters_rest hr'
    injection hr with hr
    subst hr
    exact ⟨this.sep, this.vd⟩
  | tpa b => injection hr with hr; subst hr; exact ⟨rfl, rfl⟩
  | fix i v => injection hr with hr; subst hr; exact ⟨rfl, rfl⟩
  | unfix i => injection hr with hr; subst hr; exact ⟨rfl, rfl⟩
  | elitism e =>
    injection hr with hr; subst hr
    unfold Params.setElitism
    split_ifs <;> exact ⟨rfl, rfl⟩
  | algo a => injection hr with hr; subst hr; exact ⟨rfl, rfl⟩

/-- Parameters set up by the documented calls are good, and as long as no diagonal model was selected
the rank-one rate is not above its default. -/
theorem Spec.Configured.good {p : Params n} (h : Configured p) :
    GoodParams p ∧ (p.sep = false → p.vd = false → BaseRates p) := by
  induction h with
  | make hm =>
    unfold Params.make at hm
    obtain ⟨l, -, hm⟩ := Out.bind_eq_ok.1 hm
    have hs := initializeParameters_spec hm
    have hn := hs.n_pos
    exact ⟨goodParams_init hm ⟨by simp [Params.blank], by simp [Params.blank],
      by simp [Params.blank]; omega⟩, fun _ _ => hs.base⟩
  | call _ hc hr ih =>
    refine ⟨goodParams_call ih.1 hc hr, fun h1 h2 => ?_⟩
    obtain ⟨e1, e2⟩ := RateCall.run_flags hr
    exact RateCall.run_base (ih.2 (e1 ▸ h1) (e2 ▸ h2)) hr
  | sep _ h1 h2 ih =>
    refine ⟨ih.1.of_rates (setSep_admissible (ih.2 h1 h2)) rfl rfl rfl rfl ih.1.chi rfl rfl ih.1.fixOk, ?_⟩
    intro h; simp [Params.setSep] at h
  | @vd p _ h1 h2 h6 ih =>
    have ha := setVd_admissible (ih.2 h1 h2) h6
    refine ⟨?_, ?_⟩
    · unfold Params.setVd at ha ⊢
      by_cases hc : p.algo ≠ 12 ∧ p.algo ≠ 13 ∧ p.algo ≠ 14
      · rw [if_pos hc]; exact ih.1
      · rw [if_neg hc] at ha ⊢
        exact ih.1.of_rates ha rfl rfl rfl rfl ih.1.chi rfl rfl ih.1.fixOk
    · intro h3 h4
      unfold Params.setVd at h3 h4 ⊢
      split_ifs at h3 h4 ⊢
      exact ih.2 h1 h2
  | other _ hs ih =>
    obtain ⟨e1, e2, e3, e4, e5, e6, e7, e8, e9, e10, e11, e12, e13, e14, e15, e16, e17⟩ := hs
    refine ⟨ih.1.of_rates (ih.1.rates.of_rates e6 e7 e8 e5 (e9 ▸ ih.1.rates.dsigma_pos)) e1 e2 e3 e4
      (e12 ▸ ih.1.chi) e13 e14 ⟨e15 ▸ ih.1.fixed_lt, e15 ▸ ih.1.fixed_nodup, e15 ▸ ih.1.fixed_len⟩, ?_⟩
    intro h1 h2
    have hb := ih.2 (e16 ▸ h1) (e17 ▸ h2)
    exact ⟨hb.adm.of_rates e6 e7 e8 e5 (e9 ▸ hb.adm.dsigma_pos), e1 ▸ hb.lambda, hb.n_pos, e4 ▸ hb.muw,
      by rw [e6, e4]; exact hb.c1⟩

/-- The factor of the uncertainty handling is the one set by the constructor. -/
theorem Spec.Configured.alphathuh {p : Params n} (h : Configured p) : p.alphathuh = 1 + 2 / ((n : ℝ) + 10) := by
  induction h with
  | make hm =>
    unfold Params.make at hm
    obtain ⟨l, -, hm⟩ := Out.bind_eq_ok.1 hm
    exact (initializeParameters_rest hm).alphathuh
  | @call p q c _ _ hr ih =>
    cases c with
    | noisy =>
      change p.setNoisy = .ok q at hr
      unfold Params.setNoisy at hr
      obtain ⟨r, hr', hr⟩ := Out.bind_eq_ok.1 hr
      have := (initializeParameters_rest hr').alphathuh
      injection hr with hr
      subst hr
      exact this
    | tpa b => injection hr with hr; subst hr; exact ih
    | fix i v => injection hr with hr; subst hr; exact ih
    | unfix i => injection hr with hr; subst hr; exact ih
    | elitism e =>
      injection hr with hr; subst hr
      unfold Params.setElitism
      split_ifs <;> exact ih
    | algo a => injection hr with hr; subst hr; exact ih
  | sep _ _ _ ih => exact ih
  | vd _ _ _ _ ih =>
    unfold Params.setVd
    split_ifs <;> exact ih
  | other _ hs ih => exact hs.2.2.2.2.2.2.2.2.2.2.2.2.1.trans ih

/-- The parameters kept by a strategy are as good as the ones given to it. -/
theorem Spec.Configured.with_sigmaInit {p : Params n} (h : Configured p) (x : ℝ) :
    GoodParams { p with sigmaInit := x } :=
  (Configured.other (q := { p with sigmaInit := x }) h ⟨rfl, rfl, rfl, rfl, rfl, rfl, rfl, rfl, rfl, rfl, rfl, rfl, rfl, rfl, rfl, rfl,
    rfl⟩).good.1

theorem Params.make_flags {x0 : Vec n} {sigma : ℝ} {lambda : ℤ} {seed clock : ℕ} {gp : GenoPheno}
    {p : Params n} (h : Params.make x0 sigma lambda seed clock gp = .ok p) :
    p.sep = false ∧ p.vd = false := by
  unfold Params.make at h
  obtain ⟨l, -, h⟩ := Out.bind_eq_ok.1 h
  have := initializeParameters_rest h
  exact ⟨this.sep, this.vd⟩

/-- What `initialize_parameters` may change. -/
theorem initializeParameters_frame {p q : Params n} (h : initializeParameters p = .ok q) :
    ∃ mu w muw cs cc c1 cm ds fs fc ch lv rl al, q = { p with
      mu := mu, weights := w, muw := muw, csigma := cs, cc := cc, c1 := c1, cmu := cm, dsigma := ds
      factPs := fs, factPc := fc, chi := ch, lazyValue := lv, rlambda := rl, alphathuh := al } := by
  unfold initializeParameters at h
  by_cases hg : p.lambda / 2 = 0 ∨ n = 0
  · simp only [hg, if_true] at h; cases h
  · simp only [hg, if_false, Except.ok.injEq] at h
    exact ⟨_, _, _, _, _, _, _, _, _, _, _, _, _, _, h.symm⟩

end Libcmaes
