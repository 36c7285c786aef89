import Verif.Lemmas.TpaLinear
import Verif.Props.Tpa

/-!
# C112: two-point adaptation on linear objectives
-/

namespace Libcmaes

open Matrix Spec

variable {n : ℕ}

/-- **C112**, one generation, whatever the covariance model and the update: the signal rises by at least `0.3 / (lambda - 1)`
over its faded value if the last move of the mean went down, and falls by as much if it went up. -/
theorem C112_signal (env : Env n) (kind : CovKind) (p : Params n) (s t t' t'' : Strat n) (w : Vec n) (j : ℕ) (hc : Configured p)
    (hp : PlainTpa p) (hr : RanksBy env p w) (hz : ∀ i, env.z i ≠ 0) (h0 : Strat.new env kind p = .ok s)
    (hj : s.generations env j = .ok t) (h1 : t.generation env = .ok t') (h2 : t'.generation env = .ok t'') :
    (w ⬝ᵥ t'.sol.xmean < w ⬝ᵥ t.sol.xmean →
      0.7 * t'.sol.tpaS + 0.3 / ((p.lambda : ℝ) - 1) ≤ t''.sol.tpaS) ∧
    (w ⬝ᵥ t.sol.xmean < w ⬝ᵥ t'.sol.xmean →
      t''.sol.tpaS ≤ 0.7 * t'.sol.tpaS - 0.3 / ((p.lambda : ℝ) - 1)) := by
  obtain ⟨hT, hpt⟩ := tpaState_run (TpaState.new hc hp h0) j hj
  obtain ⟨hT', hp', hn', hx, -⟩ := hT.generation h1
  have hps := (Strat.new_ok h0).2.2.2.1
  obtain ⟨g, phi, hdet, hmono, hF⟩ := hr
  have hF' : Scores t'.p g fun x => phi (w ⬝ᵥ x) := by rw [hp', hpt, hps]; exact hF
  have hlam : t'.p.lambda = p.lambda := by rw [hp', hpt, hps]
  obtain ⟨a, ha, k1, k2⟩ := hT'.signal (by omega) hdet hF' h2 (hz _)
  rw [hlam, hx] at k1 k2
  have e1 : w ⬝ᵥ (t'.sol.xmean + a • (t'.sol.xmean - t.sol.xmean)) =
      w ⬝ᵥ t'.sol.xmean + a * (w ⬝ᵥ t'.sol.xmean - w ⬝ᵥ t.sol.xmean) := by
    rw [dotProduct_add, dotProduct_smul, dotProduct_sub, smul_eq_mul]
  have e2 : w ⬝ᵥ (t'.sol.xmean - a • (t'.sol.xmean - t.sol.xmean)) =
      w ⬝ᵥ t'.sol.xmean - a * (w ⬝ᵥ t'.sol.xmean - w ⬝ᵥ t.sol.xmean) := by
    rw [dotProduct_sub, dotProduct_smul, dotProduct_sub, smul_eq_mul]
  simp only [e1, e2, hmono.lt_iff_lt] at k1 k2
  exact ⟨fun h => k1 (by nlinarith), fun h => k2 (by nlinarith)⟩

/-- **C112**, runs: as long as the mean goes down, the signal is at least `(1 - 0.7^k) / (lambda - 1)` and the step size grows
by a factor of at least `exp(0.3 / ((lambda - 1) dsigma))` in each generation, so without bound. -/
theorem C112_grows (env : Env n) (kind : CovKind) (p : Params n) (s t : Strat n) (w : Vec n) (k : ℕ) (hc : Configured p)
    (hp : PlainTpa p) (hr : RanksBy env p w) (hz : ∀ i, env.z i ≠ 0) (h0 : Strat.new env kind p = .ok s)
    (hd : Downhill env s w k) (hk : s.generations env (k + 1) = .ok t) :
    (1 - 0.7 ^ k) / ((p.lambda : ℝ) - 1) ≤ t.sol.tpaS ∧
      s.sol.sigma * Real.exp (0.3 * k / (((p.lambda : ℝ) - 1) * p.dsigma)) ≤ t.sol.sigma := by
  have hps := (Strat.new_ok h0).2.2.2.1
  have hl : 2 ≤ p.lambda := hc.good.1.lambda
  have hl1 : (0 : ℝ) < (p.lambda : ℝ) - 1 := by
    have : (2 : ℝ) ≤ p.lambda := by exact_mod_cast hl
    linarith
  have hds := hc.good.1.rates.dsigma_pos
  have hT0 := TpaState.new hc hp h0
  induction k generalizing t with
  | zero =>
    obtain ⟨t0, a1, a2⟩ := Strat.generations_succ_last 0 hk
    injection a1 with a1
    subst a1
    have hS := (generation_tpa hT0.good hT0.cands a2).1 (by rw [(Strat.new_ok h0).2.2.2.2.2.2.1]; omega)
    obtain ⟨-, -, -, -, hsg⟩ := hT0.generation a2
    rw [if_neg (by rw [(Strat.new_ok h0).2.2.2.2.2.2.1]; omega)] at hsg
    rw [hS, (Strat.new_ok h0).2.2.2.2.2.2.2.2.2.2.2.2.2.2.2.2.2.1, hsg]
    simp
  | succ k ih =>
    obtain ⟨t1, a1, a2⟩ := Strat.generations_succ_last (k + 1) hk
    obtain ⟨t0, b1, b2⟩ := Strat.generations_succ_last k a1
    obtain ⟨i1, i2⟩ := ih t1 (fun j u u' hj => hd j u u' (by omega)) a1
    have hstep := (C112_signal env kind p s t0 t1 t w k hc hp hr hz h0 b1 b2 a2).1 (hd k t0 t1 (by omega) b1 b2)
    obtain ⟨hT1, hp1⟩ := tpaState_run hT0 (k + 1) a1
    obtain ⟨hT00, hp00⟩ := tpaState_run hT0 k b1
    obtain ⟨-, -, hn1, -⟩ := hT00.generation b2
    obtain ⟨-, -, -, -, hsg⟩ := hT1.generation a2
    rw [if_pos (by omega), hp1, hps] at hsg
    have hsig : (1 - 0.7 ^ (k + 1)) / ((p.lambda : ℝ) - 1) ≤ t.sol.tpaS := by
      refine le_trans ?_ hstep
      have : (1 - 0.7 ^ (k + 1)) / ((p.lambda : ℝ) - 1) =
          0.7 * ((1 - 0.7 ^ k) / ((p.lambda : ℝ) - 1)) + 0.3 / ((p.lambda : ℝ) - 1) := by
        field_simp
        ring
      rw [this]
      linarith
    refine ⟨hsig, ?_⟩
    have hlow : 0.3 / ((p.lambda : ℝ) - 1) ≤ t.sol.tpaS := by
      have : 0 ≤ t1.sol.tpaS := le_trans (div_nonneg (by
        have : (0.7 : ℝ) ^ k ≤ 1 := pow_le_one₀ (by norm_num) (by norm_num)
        linarith) hl1.le) i1
      linarith
    have e : 0.3 * ((k + 1 : ℕ) : ℝ) / (((p.lambda : ℝ) - 1) * p.dsigma) =
        0.3 * k / (((p.lambda : ℝ) - 1) * p.dsigma) + 0.3 / ((p.lambda : ℝ) - 1) / p.dsigma := by
      push_cast
      field_simp
    rw [hsg, e, Real.exp_add, ← mul_assoc]
    exact mul_le_mul i2 (Real.exp_le_exp.2 (div_le_div_of_nonneg_right hlow hds.le)) (Real.exp_pos _).le hT1.sigma.le

/-- **C112**, a case: separable search under default settings with two-point adaptation, in any dimension, on any linear
function, all draws `-w`; the run goes on forever, goes down in each generation, and its step size passes every bound. -/
theorem C112_case (hn : 1 ≤ n) (x0 : Vec n) (sigma : ℝ) (w : Vec n) (hw : w ≠ 0) :
    ∃ (env : Env n) (p : Params n) (s : Strat n), env.f = (fun _ y => FVal.ofReal (w ⬝ᵥ y)) ∧ Configured p ∧ PlainTpa p ∧
      RanksBy env p w ∧ (∀ i, env.z i ≠ 0) ∧ Strat.new env .plain p = .ok s ∧
      (∀ k, Downhill env s w k ∧ ∃ t, s.generations env k = .ok t) ∧
      ∀ B : ℝ, ∃ k t, s.generations env k = .ok t ∧ B < t.sol.sigma := by
  set env : Env n := Env.basic (fun _ y => FVal.ofReal (w ⬝ᵥ y)) fun _ => -w with henv
  obtain ⟨p, s, hc, hp, hsep, hgp, hmax, hs, hL, hr⟩ := sepTpa_new env hn x0 sigma
  have hsp := (Strat.new_ok hs).2.2.2.1
  have hpt : ∀ x : Vec n, phenoV p.gp x = .ok x := by rw [hgp]; exact fun x => phenoV_plain x
  have hsc : ∀ q : Params n, q.gp = p.gp → q.maximize = p.maximize →
      Scores q (fun y => FVal.ofReal (w ⬝ᵥ y)) fun x => id (w ⬝ᵥ x) := by
    intro q h1 h2 x
    refine ⟨x, by rw [h1]; exact hpt x, ?_⟩
    rw [h2, hmax]
    rfl
  have hrk : RanksBy env p w := ⟨_, id, fun _ _ => rfl, strictMono_id, hsc p rfl rfl⟩
  have hz : ∀ i, env.z i ≠ 0 := fun _ => neg_ne_zero.2 hw
  have hT := TpaState.new hc hp hs
  have hrun : ∀ k, Downhill env s w k ∧ ∃ t, s.generations env k = .ok t ∧ TpaState t ∧ LiveCore t ∧ RefNum t ∧ t.p = s.p ∧
      (0 < t.niter → w ⬝ᵥ t.sol.xmean < w ⬝ᵥ t.sol.xmeanPrev) := by
    intro k
    induction k with
    | zero =>
      refine ⟨fun j _ _ hj => absurd hj (by omega), s, rfl, hT, hL, hr, rfl, fun h => ?_⟩
      rw [(Strat.new_ok hs).2.2.2.2.2.2.1] at h
      omega
    | succ k ih =>
      obtain ⟨hd, t, a1, a2, a3, a4, a5, a6⟩ := ih
      have hmv : Moved t := fun _ hn h => by
        have := a6 hn
        rw [h] at this
        exact lt_irrefl _ this
      have hstep : ∀ t', t.generation env = .ok t' → w ⬝ᵥ t'.sol.xmean < w ⬝ᵥ t.sol.xmean := fun t' ht' =>
        a2.goesDown (by rw [a5, hsp]; exact hsep) (a3.sep (by rw [a5, hsp]; exact hsep)).2 hw (fun _ => rfl) strictMono_id
          (fun _ _ => rfl) (hsc t.p (by rw [a5, hsp]) (by rw [a5, hsp])) a6 ht'
      rcases generation_total_num_core (env := env) a3 (by rw [a5, hsp]; exact hp.uh) hmv (fun _ _ => trivial) a4 with
        ⟨t', b1, b2, b3, b4⟩ | ⟨x, e, h, -⟩
      · refine ⟨fun j u u' hj h1 h2 => ?_, t', ?_, (a2.generation b1).1, b2, b3, b4.trans a5, fun _ => ?_⟩
        · by_cases hjk : j < k
          · exact hd j u u' hjk h1 h2
          · have : j = k := by omega
            subst this
            rw [a1] at h1
            injection h1 with h1
            subst h1
            exact hstep u' h2
        · exact Strat.generations_snoc k a1 b1
        · rw [(a2.generation b1).2.2.2.1]; exact hstep t' b1
      · rw [a5, hsp] at h
        have : phenoV p.gp x = .error e := h
        rw [hpt] at this
        cases this
  refine ⟨env, p, s, rfl, hc, hp, hrk, hz, hs, fun k => ?_, fun B => ?_⟩
  · obtain ⟨h1, t, h2, -⟩ := hrun k
    exact ⟨h1, t, h2⟩
  · have hl : 2 ≤ p.lambda := hc.good.1.lambda
    have hl1 : (0 : ℝ) < (p.lambda : ℝ) - 1 := by
      have : (2 : ℝ) ≤ p.lambda := by exact_mod_cast hl
      linarith
    have hds := hc.good.1.rates.dsigma_pos
    have hc0 : 0 < 0.3 / (((p.lambda : ℝ) - 1) * p.dsigma) := by positivity
    obtain ⟨k, hk⟩ := exists_nat_gt (B / (s.sol.sigma * (0.3 / (((p.lambda : ℝ) - 1) * p.dsigma))))
    obtain ⟨-, t, ht, -⟩ := hrun (k + 1)
    refine ⟨k + 1, t, ht, ?_⟩
    have h1 := (C112_grows env .plain p s t w k hc hp hrk hz hs (hrun k).1 ht).2
    rw [div_lt_iff₀ (mul_pos hT.sigma hc0)] at hk
    have h2 := Real.add_one_le_exp (0.3 * k / (((p.lambda : ℝ) - 1) * p.dsigma))
    have h3 : 0.3 * k / (((p.lambda : ℝ) - 1) * p.dsigma) = k * (0.3 / (((p.lambda : ℝ) - 1) * p.dsigma)) := by ring
    rw [h3] at h1 h2
    have h4 := mul_le_mul_of_nonneg_left h2 hT.sigma.le
    nlinarith [hT.sigma]

/-- **C112**, the other way round: the same search with all draws `w`: the mean goes up in the first generation, and the second
one lowers the signal and the step size. -/
theorem C112_up_case (hn : 1 ≤ n) (x0 : Vec n) (sigma : ℝ) (w : Vec n) (hw : w ≠ 0) :
    ∃ (env : Env n) (p : Params n) (s t t' : Strat n), env.f = (fun _ y => FVal.ofReal (w ⬝ᵥ y)) ∧ Configured p ∧ PlainTpa p ∧
      RanksBy env p w ∧ (∀ i, env.z i ≠ 0) ∧ Strat.new env .plain p = .ok s ∧ s.generation env = .ok t ∧
      t.generation env = .ok t' ∧ w ⬝ᵥ s.sol.xmean < w ⬝ᵥ t.sol.xmean ∧ t'.sol.tpaS < 0 ∧ t'.sol.sigma < t.sol.sigma := by
  set env : Env n := Env.basic (fun _ y => FVal.ofReal (w ⬝ᵥ y)) fun _ => w with henv
  obtain ⟨p, s, hc, hp, hsep, hgp, hmax, hs, hL, hr⟩ := sepTpa_new env hn x0 sigma
  obtain ⟨h1, h2, h3, h4, h5, h6, h7, h8, h9, h10, h11, h12, h13, h14, h15, h16, h17, h18, h19, h20⟩ := Strat.new_ok hs
  have hpt : ∀ x : Vec n, phenoV p.gp x = .ok x := by rw [hgp]; exact fun x => phenoV_plain x
  have hrk : RanksBy env p w := ⟨_, id, fun _ _ => rfl, strictMono_id, fun x => ⟨x, hpt x, by rw [hmax]; rfl⟩⟩
  have hz : ∀ i, env.z i ≠ 0 := fun _ => hw
  have hT := TpaState.new hc hp hs
  have hnofail : ∀ t : Strat n, t.p = s.p → ∀ (x : Vec n) (e : Err), phenoV t.p.gp x ≠ .error e := by
    intro t ht x e h
    rw [ht, h4] at h
    have : phenoV p.gp x = .error e := h
    rw [hpt] at this
    cases this
  obtain ⟨t, a1, a2, a3, a4⟩ : ∃ t, s.generation env = .ok t ∧ LiveCore t ∧ RefNum t ∧ t.p = s.p := by
    rcases generation_total_num_core (env := env) hL (by rw [h4]; exact hp.uh) (fun _ h => by omega) (fun _ _ => trivial) hr with
      h | ⟨x, e, h, -⟩
    · exact h
    · exact absurd h (hnofail s rfl x e)
  have hup := hT.goesUp (by rw [h4]; exact hsep) (hL.sep (by rw [h4]; exact hsep)).2 hw (fun _ => rfl) h7 a1
  obtain ⟨hT', -, hn', hpv, -⟩ := hT.generation a1
  obtain ⟨t', b1, -⟩ : ∃ t', t.generation env = .ok t' ∧ LiveCore t' ∧ RefNum t' ∧ t'.p = t.p := by
    rcases generation_total_num_core (env := env) a2 (by rw [a4, h4]; exact hp.uh) (fun _ _ h => by
        rw [h, hpv] at hup; exact lt_irrefl _ hup) (fun _ _ => trivial) a3 with h | ⟨x, e, h, -⟩
    · exact h
    · exact absurd h (hnofail t a4 x e)
  have hl : 2 ≤ p.lambda := hc.good.1.lambda
  have hl1 : (0 : ℝ) < (p.lambda : ℝ) - 1 := by
    have : (2 : ℝ) ≤ p.lambda := by exact_mod_cast hl
    linarith
  have hS0 : t.sol.tpaS = 0 := by
    rw [(generation_tpa hT.good hT.cands a1).1 (by rw [h7]; omega)]
    exact h18
  have hS := (C112_signal env .plain p s s t t' w 0 hc hp hrk hz hs rfl a1 b1).2 hup
  rw [hS0] at hS
  have hneg : t'.sol.tpaS < 0 := by
    have : 0 < 0.3 / ((p.lambda : ℝ) - 1) := by positivity
    linarith
  refine ⟨env, p, s, t, t', rfl, hc, hp, hrk, hz, hs, a1, b1, hup, hneg, ?_⟩
  obtain ⟨-, -, -, -, hsg⟩ := hT'.generation b1
  rw [if_pos (by omega)] at hsg
  rw [hsg]
  have hds : 0 < t.p.dsigma := hT'.good.rates.dsigma_pos
  have : Real.exp (t'.sol.tpaS / t.p.dsigma) < 1 := Real.exp_lt_one_iff.2 (div_neg_of_neg_of_pos hneg hds)
  nlinarith [hT'.sigma]

end Libcmaes
