import Verif.Lemmas.GradientTpa
import Verif.Lemmas.TpaLinear
import Verif.Lemmas.GradientWit
import Verif.Props.Tpa

/-!
# C115: gradient injection together with two-point adaptation
-/

namespace Libcmaes

open Spec Matrix

variable {n : ℕ}

/-- **C115**, the test points: if `ask` succeeds then there are at least three offspring, and the candidates 1 and 2 (0 is the
injected one) lie symmetrically to the mean on the line of its last move. -/
theorem C115_points (env : Env n) (s s1 : Strat n) (pop : List (Vec n)) (hs : 0 < s.sol.sigma) (hg : s.p.withGradient = true)
    (ht : s.p.tpa = 2) (hn : 0 < s.niter) (hf : s.p.fixedP = []) (h : s.ask env = .ok (pop, s1)) :
    3 ≤ s.p.lambda ∧ s1.sol.tpaP1 = 1 ∧ s1.sol.tpaP2 = 2 ∧ ∃ a : ℝ, 0 ≤ a ∧
      pop[1]? = some (s.sol.xmean + a • (s.sol.xmean - s.sol.xmeanPrev)) ∧
      pop[2]? = some (s.sol.xmean - a • (s.sol.xmean - s.sol.xmeanPrev)) := by
  unfold Strat.ask at h
  obtain ⟨t1, h1, h⟩ := Out.bind_eq_ok.1 h
  obtain ⟨⟨pop1, t2⟩, h2, h⟩ := Out.bind_eq_ok.1 h
  obtain ⟨⟨pop2, t3⟩, h3, h⟩ := Out.bind_eq_ok.1 h
  obtain ⟨⟨pop3, t4⟩, h4, h⟩ := Out.bind_eq_ok.1 h
  obtain ⟨pop4, h5, h⟩ := Out.bind_eq_ok.1 h
  injection h with h; injection h with h6 h7
  subst h6 h7
  obtain ⟨es, ei, ue, e1⟩ := Strat.askPrepare_frame h1
  obtain ⟨e2, hl2⟩ := Strat.askSample_frame h2
  obtain ⟨⟨c, e3⟩, hpop⟩ := Strat.askGradient_frame h3
  have hp2 : pop2.length = s.p.lambda := by
    rcases hpop with e | ⟨nx, e⟩
    · rw [e, hl2, e1]
    · rw [e, List.length_set, hl2, e1]
  have ep : t3.p = s.p := by rw [e3, e2, e1]
  have ex : t3.sol.xmean = s.sol.xmean := by rw [e3, e2, e1]
  have exp : t3.sol.xmeanPrev = s.sol.xmeanPrev := by rw [e3, e2, e1]
  have esg : 0 < t3.sol.sigma := by rw [e3, e2, e1]; exact hs
  have hw : t3.p.withGradient = true := by rw [ep]; exact hg
  have ht3 : t3.p.tpa = 2 ∧ t3.niter > 0 := by rw [e3, e2, e1]; exact ⟨ht, hn⟩
  unfold Strat.askTpa at h4
  rw [if_pos ht3] at h4
  rw [if_neg esg.ne'] at h4
  simp only at h4
  obtain ⟨nrm, g2, h4⟩ := Out.bind_eq_ok.1 h4
  by_cases g3 : nrm = 0
  · rw [if_pos g3] at h4; cases h4
  rw [if_neg g3] at h4
  simp only [hw, if_true] at h4
  split_ifs at h4 with g5
  push Not at g5
  rw [hp2] at g5
  injection h4 with h4
  injection h4 with h6 h7
  rw [hf] at h5
  have hid : pop4 = pop3 := tpa_setFixed_nil h5
  have hL0 := meanShiftNorm_nonneg esg g2
  refine ⟨g5.2, by rw [← h7], by rw [← h7], vnorm (env.z t3.nz) / nrm, div_nonneg (Real.sqrt_nonneg _) hL0, ?_, ?_⟩
  all_goals
    rw [hid, ← h6, ex, exp]
    have hz : (vnorm (env.z t3.nz) • fun i => (s.sol.xmean - s.sol.xmeanPrev) i / nrm) =
        (vnorm (env.z t3.nz) / nrm) • (s.sol.xmean - s.sol.xmeanPrev) := by
      funext i
      simp only [Pi.smul_apply, smul_eq_mul]
      ring
    rw [hz]
  · rw [List.getElem?_set_ne (by decide), List.getElem?_set_self (by rw [hp2]; omega)]
  · rw [List.getElem?_set_self (by rw [List.length_set, hp2]; omega)]

/-- **C115**, no failure: with at least three offspring, a transform defined everywhere, no NaN and a computable gradient, the only
way for a run to fail is that some generation left the mean exactly where it was. -/
theorem C115_total_partial (env : Env n) (kind : CovKind) (p : Params n) (s : Strat n) (k : ℕ)
    (hu : UsualCore kind { p with withGradient := false }) (huh : p.uh = false) (hg : p.withGradient = true)
    (hl : 3 ≤ p.lambda) (h0 : Strat.new env kind p = .ok s) (hph : ∀ x : Vec n, ∃ y : Vec n, phenoV p.gp x = .ok y)
    (hf : ∀ k y, (env.f k y).IsNum)
    (hG : env.gfunc.isSome = true ∨ ((∀ k y, ∃ r : ℝ, env.f k y = FVal.ofReal r) ∧ ∀ i : Fin n, ∃ u, p.gp.uBound i = .ok u)) :
    (∃ t, s.generations env k = .ok t) ∨
      p.tpa = 2 ∧ ∃ j t t', j + 1 < k ∧ s.generations env j = .ok t ∧ t.generation env = .ok t' ∧
        t'.sol.xmean = t.sol.xmean := by
  obtain ⟨hL, hr⟩ := liveCore_new_gradient hu h0
  have hsp := (Strat.new_ok h0).2.2.2.1
  have htp : s.p.tpa = p.tpa := by rw [hsp]
  by_cases hstuck : p.tpa = 2 ∧ ∃ j t t', j + 1 < k ∧ s.generations env j = .ok t ∧
      t.generation env = .ok t' ∧ t'.sol.xmean = t.sol.xmean
  · exact Or.inr hstuck
  refine Or.inl ?_
  have key : ∀ j ≤ k, ∃ s', s.generations env j = .ok s' ∧ LiveCore s'.noGrad ∧ RefNum s' ∧ s'.p = s.p ∧
      (j < k → Moved s') := by
    intro j
    induction j with
    | zero =>
      intro _
      refine ⟨s, rfl, hL, hr, rfl, fun _ _ h => ?_⟩
      rw [(Strat.new_ok h0).2.2.2.2.2.2.1] at h; omega
    | succ j ih =>
      intro hj
      obtain ⟨t, h1, h2, h3, h4, h5⟩ := ih (by omega)
      have hgp : t.p.gp = p.gp := by rw [h4, hsp]
      obtain ⟨pop, s1, ha, hR⟩ := ask_gradient_tpa_ok (env := env) h2 (by rw [hgp]; exact hG)
        (by rw [hgp]; exact ⟨hph _, hph _, hph _⟩) (by rw [h4, hsp]; exact hg) (h5 (by omega)) (by rw [h4, hsp]; exact hl)
      obtain ⟨t', g1, g2, g3, g4⟩ := generation_of_ready h2 (by rw [h4, hsp]; exact huh) (by rw [hgp]; exact hph) hf h3 ha hR
      refine ⟨t', Strat.generations_snoc _ h1 g1, g2, g3, g4.trans h4, fun hlt htt _ hm => ?_⟩
      have ht : p.tpa = 2 := by rw [← htp, ← h4, ← g4]; exact htt
      refine hstuck ⟨ht, j, t, t', hlt, h1, g1, ?_⟩
      rw [hm, (C66_direction env t t' (by rw [h4, htp]; exact ht) g1).1]
  obtain ⟨t, h1, -⟩ := key k le_rfl
  exact ⟨t, h1⟩

/-- **C115 fails with two offspring**, whatever the objective, the gradient and the draws: the first generation succeeds and, if it
moved the mean, the second one writes its second test point behind the last column of the population. -/
theorem C115_lambda_false (env : Env n) (kind : CovKind) (p : Params n) (s : Strat n)
    (hu : UsualCore kind { p with withGradient := false }) (huh : p.uh = false) (hg : p.withGradient = true) (ht : p.tpa = 2)
    (hl : p.lambda = 2) (h0 : Strat.new env kind p = .ok s) (hph : ∀ x : Vec n, ∃ y : Vec n, phenoV p.gp x = .ok y)
    (hf : ∀ k y, (env.f k y).IsNum)
    (hG : env.gfunc.isSome = true ∨ ((∀ k y, ∃ r : ℝ, env.f k y = FVal.ofReal r) ∧ ∀ i : Fin n, ∃ u, p.gp.uBound i = .ok u)) :
    ∃ s1, s.generation env = .ok s1 ∧
      (s1.sol.xmean ≠ s.sol.xmean → ∀ k, s.generations env (k + 2) = .error .ub) := by
  obtain ⟨hL, hr⟩ := liveCore_new_gradient hu h0
  have hsp := (Strat.new_ok h0).2.2.2.1
  have hgp : s.p.gp = p.gp := by rw [hsp]
  obtain ⟨pop, t, ha, hR⟩ := ask_gradient_first (env := env) hL (by rw [hgp]; exact hG)
    (by rw [hgp]; exact ⟨hph _, hph _, hph _⟩) (Strat.new_ok h0).2.2.2.2.2.2.1
  obtain ⟨s1, g1, g2, g3, g4⟩ := generation_of_ready hL (by rw [hsp]; exact huh) (by rw [hgp]; exact hph) hf hr ha hR
  refine ⟨s1, g1, fun hm k => ?_⟩
  have hdir := (C66_direction env s s1 (by rw [hsp]; exact ht) g1).1
  have hni : s1.niter = 1 := by
    have hg := g1
    unfold Strat.generation at hg
    obtain ⟨⟨pop, t1⟩, ha, hg⟩ := Out.bind_eq_ok.1 hg
    obtain ⟨phen, hph, hg⟩ := Out.bind_eq_ok.1 hg
    obtain ⟨t2, he, hg⟩ := Out.bind_eq_ok.1 hg
    obtain ⟨t3, ht, hg⟩ := Out.bind_eq_ok.1 hg
    injection hg with hg
    have : AskRun env s [t2.sol.cands] s1 := hg ▸ .turn ha he ht (.refl _)
    have := (run_p this.run).2.2.2.1
    rw [this, (Strat.new_ok h0).2.2.2.2.2.2.1]; rfl
  have hgp1 : s1.p.gp = p.gp := by rw [g4]; exact hgp
  have hub := ask_gradient_tpa_ub (env := env) g2 (by rw [hgp1]; exact hG) (by rw [hgp1]; exact ⟨hph _, hph _, hph _⟩)
    (by rw [g4, hsp]; exact hg) (by rw [g4, hsp]; exact ht) (by omega) (by rw [hdir]; exact hm) (by rw [g4, hsp]; exact hl)
  have h2 : s1.generation env = .error .ub := by
    unfold Strat.generation
    rw [hub]; rfl
  show (s.generation env >>= fun t => t.generations env (k + 1)) = _
  rw [g1, Out.ok_bind]
  show (s1.generation env >>= fun t => t.generations env k) = _
  rw [h2]; rfl

/-- A concrete case, in any dimension, from any starting point, for any objective without NaN: the user's gradient is zero, and all
draws are equal, so that the mean moves.  The run
with two offspring ends in undefined behaviour. -/
theorem C115_case (hn : 1 ≤ n) (x0 : Vec n) (sigma : ℝ) (f : ℕ → Vec n → FVal) (hf : ∀ k y, (f k y).IsNum) :
    ∃ (env : Env n) (p : Params n) (s : Strat n), env.f = f ∧ Params.make x0 sigma 2 0 0 GenoPheno.plain = .ok p ∧
      Configured { p.setTpa 2 with withGradient := true } ∧
      Strat.new env .plain { p.setTpa 2 with withGradient := true } = .ok s ∧
      ∀ k, s.generations env (k + 2) = .error .ub := by
  set env : Env n := { Env.basic f (fun _ _ => 1) with gfunc := some fun _ _ _ => 0 } with henv
  obtain ⟨p0, hp, hlam, hmu, -, -, hw1, hw2⟩ := C11_weights hn x0 sigma 2 0 0 GenoPheno.plain
  have hlam : p0.lambda = 2 := (Except.ok.inj hlam).symm
  have hmuw : p0.muw = 1 := by
    refine le_antisymm (hw2.trans ?_) hw1
    rw [hmu, hlam]; norm_num
  have hc0 : Configured p0 := .make hp
  have hst0 : StrictRates p0 ∧ p0.lazyUpdate = false := by
    unfold Params.make at hp
    obtain ⟨l, -, hm⟩ := Out.bind_eq_ok.1 hp
    have hs := initializeParameters_spec hm
    have h3 := hs.c1_lt
    have hc : p0.cmu ≤ 0 := by
      rw [hs.cmu]
      refine (min_le_right _ _).trans ?_
      rw [hmuw]; norm_num
    obtain ⟨mu, w, muw, cs, cc, c1, cm, ds, fs, fc, ch, lv, rl, al, e⟩ := initializeParameters_frame hm
    refine ⟨⟨by linarith, by norm_num at h3 ⊢; linarith⟩, by rw [e]; rfl⟩
  obtain ⟨u1, u2, u3, u4, u5, u6, u7, u8, u9, hgp, hfx, -⟩ := Params.make_plain hp
  obtain ⟨hsep, hvd⟩ := Params.make_flags hp
  set p : Params n := { p0.setTpa 2 with withGradient := true } with hpd
  have hc1 : Configured (p0.setTpa 2) := .call (c := .tpa 2) hc0 (fun _ _ h => by cases h) rfl
  have other : ∀ b : Bool, Configured { p0.setTpa 2 with withGradient := b } := fun b =>
    hc1.other ⟨rfl, rfl, rfl, rfl, rfl, rfl, rfl, rfl, rfl, rfl, rfl, rfl, rfl, rfl, rfl, rfl, rfl⟩
  have hu : UsualCore .plain { p with withGradient := false } :=
    ⟨other false, ⟨hst0.1.lt_one, hst0.1.active⟩, by decide, hvd, (fun h => by cases h), rfl, u4,
      fun h => by have : p0.elitist = true := h.1; rw [u5] at this; cases this⟩
  obtain ⟨s, hs⟩ := new_plain (env := env) (kind := .plain) (p := p) hgp (other true).good.1
  obtain ⟨h1, h2, h3, h4, h5, h6, h7, h8, h9, h10, h11, h12, h13, h14, h15, h16, h17, h18, h19, h20⟩ :=
    Strat.new_ok hs
  obtain ⟨s1, g1, hub⟩ := C115_lambda_false env .plain p s hu u1 rfl rfl hlam hs
    (fun x => ⟨x, by show phenoV p0.gp x = _; rw [hgp]; exact phenoV_plain x⟩) hf (Or.inl rfl)
  refine ⟨env, p0, s, rfl, hp, other true, hs, hub ?_⟩
  obtain ⟨hL, -⟩ := liveCore_new_gradient hu hs
  have hgd : GoodParams s.p := hL.good.noGrad
  obtain ⟨pop, t1, phen, t2, t3, ha, hph, he, ht, es, hperm, hlen, hmem⟩ := generation_points hgd hL.cands g1
  have ha' := ask_zeroGrad (env := env) rfl h7 ha
  obtain ⟨A, hA, hpts⟩ := C19_full env.eig 1 PD_one.psd
  have hpop := hpts env s.noGrad t1.noGrad pop rfl h6.cov (by show s.p.sep = false; rw [h4]; exact hsep)
    (by show s.p.vd = false; rw [h4]; exact hvd) rfl (Or.inr h7) (Or.inr h7) ha'
  set q : Vec n := fun i => s.sol.xmean i + s.sol.sigma * A.mulVec (fun _ => 1) i with hq
  have hall : ∀ x ∈ pop, x = q := by
    intro x hx
    obtain ⟨j, hj, e⟩ := List.mem_iff_getElem.1 hx
    obtain ⟨y, hy, hy'⟩ := hpop j (by show j < s.p.lambda; rw [← (Strat.ask_frame ha).2]; exact hj)
    rw [List.getElem?_eq_getElem hj, e] at hy
    injection hy with hy
    subst hy
    funext i
    exact hy' i (by
      intro v hv
      have hv : (i.val, v) ∈ s.p.fixedP := hv
      rw [h4] at hv
      have : (i.val, v) ∈ p0.fixedP := hv
      rw [hfx] at this; cases this)
  obtain ⟨⟨es1, ei, ue, c, nz, x1, x2, p1, p2, e1⟩, hpl⟩ := Strat.ask_frame ha
  obtain ⟨c2, nu, nzuh, lr, cu, cs, e2, _⟩ := Strat.eval_frame he
  have hp2 : t2.p = s.p := by rw [e2, e1]
  have hK := (C25_mean_convex env t2 t3 (by rw [hp2]; exact hgd.weights) ht).2 {q} (convex_singleton q) (by
    intro c hcm
    have hcm' : c ∈ s1.sol.cands := by rw [es]; exact List.mem_of_mem_take hcm
    rcases hmem c hcm' with h | h
    · exact hall _ h
    · exfalso
      unfold Strat.elitistRef at h
      rw [h4] at h
      have a1 : p.initialElitistOnRestart = false := u6
      have a2 : p.initialElitist = false := u4
      have a3 : p.elitist = false := u5
      simp [a1, a2, a3] at h)
  have hx : s1.sol.xmean = q := by rw [es]; exact hK
  intro h0
  rw [hx] at h0
  have hAv : A.mulVec (fun _ => (1 : ℝ)) = 0 := by
    funext i
    have := congrFun h0 i
    simp only [hq] at this
    have h : s.sol.sigma * A.mulVec (fun _ => 1) i = 0 := by linarith
    rcases mul_eq_zero.1 h with h | h
    · exact absurd h h5.ne'
    · exact h
  have : (fun _ : Fin n => (1 : ℝ)) = 0 := by
    have h := congrArg Aᵀ.mulVec hAv
    rw [mulVec_mulVec, mul_eq_one_comm.1 hA, one_mulVec, mulVec_zero] at h
    exact h
  have := congrFun this ⟨0, by omega⟩
  simp at this

end Libcmaes
