import Verif.Props.Sampling
import Verif.Props.Total
import Verif.Lemmas.FixInv

/-!
# C19 is false with lazy update
-/

namespace Libcmaes

open Spec Matrix

variable {n : ℕ}

/-- Rates for a population of two. -/
theorem make_two {x0 : Vec n} {sigma : ℝ} {seed clock : ℕ} {gp : GenoPheno} {p : Params n}
    (h : Params.make x0 sigma 2 seed clock gp = .ok p) :
    p.lambda = 2 ∧ p.cmu = 0 ∧ p.c1 = 2 / (((n : ℝ) + 1.3) ^ 2 + 1) ∧
      p.lazyValue = (((n : ℝ) + 1.3) ^ 2 + 1) / 2 / n / 10 := by
  unfold Params.make lambdaOf at h
  rw [if_neg (by norm_num)] at h
  replace h : initializeParameters (Params.blank 2 x0 sigma (if seed = 0 then clock else seed) gp) = .ok p := h
  unfold initializeParameters at h
  have hl : (Params.blank 2 x0 sigma (if seed = 0 then clock else seed) gp).lambda / 2 = 1 := by simp [Params.blank]
  by_cases hn : n = 0
  · rw [if_pos (Or.inr hn)] at h; cases h
  rw [hl, if_neg (by simp [hn])] at h
  injection h with h
  have hlog : Real.log 2 ≠ 0 := (Real.log_pos (by norm_num)).ne'
  have hmuw : (∑ i ∈ Finset.range 1, rawWeight 1 i) * (∑ i ∈ Finset.range 1, rawWeight 1 i) /
      ∑ i ∈ Finset.range 1, rawWeight 1 i * rawWeight 1 i = 1 := by
    have : rawWeight 1 0 = Real.log 2 := by
      unfold rawWeight; norm_num
    rw [Finset.sum_range_one, Finset.sum_range_one, this]
    exact div_self (mul_ne_zero hlog hlog)
  rw [hmuw] at h
  have hd : (0 : ℝ) < n := by exact_mod_cast Nat.pos_of_ne_zero hn
  have hc1 : (2 : ℝ) / (((n : ℝ) + 1.3) ^ 2 + 1) ≤ 1 := by
    rw [div_le_one (by positivity)]; nlinarith
  have hcmu : min (1 - 2 / (((n : ℝ) + 1.3) ^ 2 + 1)) (2 * ((1 : ℝ) - 2 + 1 / 1) / (((n : ℝ) + 2) ^ 2 + 1)) = 0 := by
    have : (2 * ((1 : ℝ) - 2 + 1 / 1) / (((n : ℝ) + 2) ^ 2 + 1)) = 0 := by norm_num
    rw [this]
    exact min_eq_right (by linarith)
  rw [hcmu] at h
  subst h
  refine ⟨rfl, rfl, rfl, ?_⟩
  show 1 / (2 / (((n : ℝ) + 1.3) ^ 2 + 1) + 0) / n / 10 = _
  rw [add_zero, one_div_div]

/-- **C19** fails with lazy update: in an iteration without eigendecomposition the candidates are drawn around the mean
of an earlier iteration.  In dimension 18 with two candidates: whatever the (NaN-free) objective and the
solver, if the four first draws are `e, e, 0, 0` with `e ≠ 0`, then the candidates of the second generation
are the initial mean, although the mean is another point and the draws are zero; so they are not
`mean + sigma * A z`, for any matrix `A` and any `sigma`. -/
theorem C19_lazy_false (env : Env 18) (e : Vec 18) (he : e ≠ 0) (h0 : env.z 0 = e) (h1 : env.z 1 = e)
    (h2 : env.z 2 = 0) (h3 : env.z 3 = 0) (hf : ∀ k y, (env.f k y).IsNum) (x0 : Vec 18) (sigma : ℝ)
    (seed clock : ℕ) :
    ∃ p s s' pop s1, Params.make x0 sigma 2 seed clock GenoPheno.plain = .ok p ∧
      Strat.new env .plain { p with lazyUpdate := true } = .ok s ∧ s.generation env = .ok s' ∧
      s'.ask env = .ok (pop, s1) ∧ s'.sol.xmean ≠ s.sol.xmean ∧
      ∀ (A : Mat 18) (a : ℝ), ∀ j < 2, ∃ x, pop[j]? = some x ∧
        x ≠ s'.sol.xmean + a • A.mulVec (env.z (s'.nz + j)) := by
  obtain ⟨p, hp, _⟩ := C11_weights (by norm_num : 1 ≤ 18) x0 sigma 2 seed clock GenoPheno.plain
  obtain ⟨hlam, hcmu, hc1, hlz⟩ := make_two hp
  obtain ⟨u1, u2, u3, u4, u5, u6, u7, u8, u9, u10, u11, u12, u13, u14⟩ := Params.make_plain hp
  set q : Params 18 := { p with lazyUpdate := true } with hq
  have hconf : Configured q := .other (.make hp)
    ⟨rfl, rfl, rfl, rfl, rfl, rfl, rfl, rfl, rfl, rfl, rfl, rfl, rfl, rfl, rfl, rfl, rfl⟩
  have hsv : p.sep = false ∧ p.vd = false := by
    unfold Params.make at hp
    obtain ⟨l, -, hp⟩ := Out.bind_eq_ok.1 hp
    obtain ⟨mu, w, muw, cs, cc, c1, cm, ds, fs, fc, ch, lv, rl, al, e⟩ := initializeParameters_frame hp
    rw [e]; exact ⟨rfl, rfl⟩
  have hu : Usual .plain q := by
    refine ⟨⟨hconf, ⟨?_, ?_⟩, by decide, hsv.2, ?_, u2, u4, ?_⟩, u1, u3⟩
    · show p.c1 + p.cmu < 1
      rw [hc1, hcmu]; norm_num
    · show p.c1 < 0.66 * (1 - p.cmu)
      rw [hc1, hcmu]; norm_num
    · intro h; cases h
    · rintro ⟨h, -⟩
      have : p.elitist = true := h
      rw [u5] at this; cases this
  obtain ⟨s, hs⟩ := new_plain (env := env) (kind := .plain) (p := q) u10 hconf.good.1
  obtain ⟨_, _, _, hsp, hsig, hfr, hsn, _, _, _, hcov, _, _, _, _, _, _, _, hsm, _⟩ := Strat.new_ok hs
  have hplain : ∀ x : Vec 18, phenoV q.gp x = .ok x := by
    intro x
    have : q.gp = GenoPheno.plain := u10
    rw [this, phenoV_plain]
  obtain ⟨s'', hg2⟩ : ∃ s'', s.generations env 2 = .ok s'' := by
    rcases C67_total env .plain q s hu hf hs 2 with h | ⟨x, e, h1, _⟩
    · exact h
    · rw [hplain] at h1; cases h1
  unfold Strat.generations at hg2
  obtain ⟨s', hg, hg2⟩ := Out.bind_eq_ok.1 hg2
  unfold Strat.generations at hg2
  obtain ⟨s3, hg3, _⟩ := Out.bind_eq_ok.1 hg2
  unfold Strat.generation at hg3
  obtain ⟨⟨pop', t1⟩, ha', _⟩ := Out.bind_eq_ok.1 hg3
  have hnz : s.nz = 0 := by
    unfold Strat.new at hs
    obtain ⟨⟨p', sol⟩, hm, hs⟩ := Out.bind_eq_ok.1 hs
    injection hs with hs; rw [← hs]
  -- the first generation
  have hgood : GoodParams s.p := by
    rw [hsp]; exact hconf.good.1.same ⟨rfl, rfl, rfl, rfl, rfl, rfl, rfl, rfl, rfl, rfl, rfl, rfl, rfl, rfl, rfl, rfl, rfl⟩
  have hsl : s.p.lambda = 2 := by rw [hsp]; exact hlam
  have hssep : s.p.sep = false := by rw [hsp]; exact hsv.1
  have hsvd : s.p.vd = false := by rw [hsp]; exact hsv.2
  have hsg : s.p.withGradient = false := by rw [hsp]; exact u2
  have hsf : s.p.fixedP = [] := by rw [hsp]; exact u11
  have hst : s.p.tpa ≠ 2 := by rw [hsp]; exact u3
  obtain ⟨pop, s1, phen, s2, s3', ha, hph, hev, ht, es', hperm, hlen, hpts⟩ :=
    generation_points hgood (by rw [hfr.cands, hsp]) hg
  have hcov1 : s.sol.cov = 1 := hfr.cov
  obtain ⟨A, hA, hAs⟩ := C19_full env.eig 1 ⟨isSymm_one, fun x => by
    rw [quad_one]; exact Finset.sum_nonneg fun i _ => mul_self_nonneg _⟩
  have hcand := hAs env s s1 pop rfl hcov1 hssep hsvd hsg (Or.inl hst) (Or.inr hsn) ha
  set m1 : Vec 18 := s.sol.xmean + s.sol.sigma • A.mulVec e with hm1
  have hpop : ∀ x ∈ pop, x = m1 := by
    intro x hx
    obtain ⟨j, hj, e⟩ := List.getElem_of_mem hx
    have hj2 : j < 2 := by
      have := (Strat.ask_frame ha).2
      omega
    obtain ⟨y, hy, hyi⟩ := hcand j (by rw [hsl]; exact hj2)
    rw [List.getElem?_eq_getElem hj, e] at hy
    injection hy with hy
    funext i
    rw [hy, hyi i (by intro v hv; rw [hsf] at hv; cases hv), hnz, zero_add]
    have hz : env.z j = env.z 0 := by
      interval_cases j
      · rfl
      · rw [h1, h0]
    rw [hz, h0]; rfl
  have hmean : s'.sol.xmean = m1 := by
    have he2 : s2.p = s.p := by
      obtain ⟨⟨es, ei, ue, c, nz, x1, x2, p1, p2, e1⟩, _⟩ := Strat.ask_frame ha
      obtain ⟨c2, nu, nzuh, lr, cu, cs, e2, _⟩ := Strat.eval_frame hev
      rw [e2, e1]
    have := (C25_mean_convex env s2 s3' (by rw [he2]; exact hgood.weights) ht).2 {m1} (convex_singleton m1) ?_
    · rw [es']; exact this
    · intro c hc
      rcases hpts c (by rw [es']; exact List.mem_of_mem_take hc) with h | h
      · exact hpop _ h
      · unfold Strat.elitistRef at h
        have e1 : s.p.initialElitistOnRestart = false := by rw [hsp]; exact u6
        have e2 : s.p.initialElitist = false := by rw [hsp]; exact u4
        have e3 : s.p.elitist = false := by rw [hsp]; exact u5
        simp [e1, e2, e3] at h
  have hne : m1 ≠ s.sol.xmean := by
    intro h
    have h5 : s.sol.sigma • A.mulVec e = 0 := by
      have : s.sol.xmean + s.sol.sigma • A.mulVec e = s.sol.xmean + 0 := by rw [← hm1, h, add_zero]
      exact add_left_cancel this
    have h6 : A.mulVec e = 0 := (smul_eq_zero.1 h5).resolve_left hsig.ne'
    have hA' : Aᵀ * A = 1 := mul_eq_one_comm.1 hA
    apply he
    rw [← one_mulVec e, ← hA', ← mulVec_mulVec, h6, mulVec_zero]
  -- the second ask
  obtain ⟨t0, pop1, hpr, hsa, hfx⟩ := ask_plain (s := s) hsg (Or.inl hst) ha
  have hs1 : s1.es.mean = s.sol.xmean ∧ s1.sol.eigeniter = 0 ∧ s1.es.eig.isSome = true ∧ s1.nz = 2 ∧ s1.p = s.p ∧
      s1.niter = 0 := by
    unfold Strat.askPrepare at hpr
    rw [if_pos (by simp [hssep, hsvd]), if_pos (Or.inl hsn), if_neg (by rw [hcov]; simp [hq, hsv.1, hsv.2])] at hpr
    injection hpr with hpr
    obtain ⟨ef, _⟩ := Strat.askSample_frame hsa
    rw [ef, ← hpr]
    simp [hsn, hnz, hsl]
  have hs' : s'.es = s1.es ∧ s'.sol.eigeniter = 0 ∧ s'.nz = 2 ∧ s'.p = s.p ∧ s'.niter = 1 := by
    obtain ⟨c2, nu, nzuh, lr, cu, cs, e2, _⟩ := Strat.eval_frame hev
    obtain ⟨cs', cu', su, ts, sol3, hs', hb, csq, hc, sc, ps, hs'', pc, cov, sep, v, sg, xp, xm, mx, mn, lv, le,
      e3⟩ := Strat.tell_frame ht
    obtain ⟨c0, ck, cl, med, _, _, _, _, eb, _⟩ := Sol.updateBest_ok hb
    obtain ⟨b1, b2, b3, b4, b5, b6⟩ := hs1
    rw [es', e3, eb, e2]
    refine ⟨rfl, b2, b4, b5, ?_⟩
    show s1.niter + 1 = 1
    rw [b6]
  obtain ⟨b1, b2, b3, b4, b5, b6⟩ := hs1
  obtain ⟨a1, a2, a3, a4, a5⟩ := hs'
  obtain ⟨t0', pop1', hpr', hsa', hfx'⟩ := ask_plain (s := s') (by rw [a4]; exact hsg) (Or.inl (by rw [a4]; exact hst)) ha'
  have hlzv : s'.p.lazyValue ≥ 1 := by
    rw [a4, hsp]
    show p.lazyValue ≥ 1
    rw [hlz]; norm_num
  unfold Strat.askPrepare at hpr'
  rw [if_pos (by simp [a4, hssep, hsvd]), if_neg (by
    rw [a5, a2]
    have : s'.p.lazyUpdate = true := by rw [a4, hsp]
    rintro (h | h | h)
    · cases h
    · rw [this] at h; cases h
    · norm_num at h; linarith)] at hpr'
  injection hpr' with hpr'
  subst hpr'
  unfold Strat.askSample at hsa'
  simp only at hsa'
  rw [if_pos (by simp [a4, hssep, hsvd]), if_neg (by rw [a1]; rw [Option.isNone_eq_false_iff.2 b3]; simp)] at hsa'
  injection hsa' with hsa'; injection hsa' with hsa1 hsa2
  rw [← hsa1] at hfx'
  refine ⟨p, s, s', pop', t1, hp, hs, hg, ha', by rw [hmean]; exact hne, fun B a j hj => ?_⟩
  have hz0 : env.z (s'.nz + j) = 0 := by
    rw [a3]; interval_cases j
    · exact h2
    · exact h3
  obtain ⟨x, hx, hxi⟩ := fixed_sample (p := s'.p) (j := j) (z := env.z (s'.nz + j)) hfx' (by
    rw [a4, hsl]
    simp [List.getElem?_range hj])
  refine ⟨x, hx, fun hcon => hne ?_⟩
  rw [← hmean]
  funext i
  have h7 := hxi i (by intro v hv; rw [a4, hsf] at hv; cases hv)
  rw [hcon, hz0] at h7
  simp only [mulVec_zero, smul_zero, add_zero, zero_add] at h7
  rw [h7, a1, b1]

/-- Such environments exist. -/
example : ∃ (env : Env 18) (e : Vec 18), e ≠ 0 ∧ env.z 0 = e ∧ env.z 1 = e ∧ env.z 2 = 0 ∧ env.z 3 = 0 ∧
    ∀ k y, (env.f k y).IsNum :=
  ⟨Env.basic (fun _ x => .num ((∑ i, x i ^ 2 : ℝ) : EReal)) (fun k _ => if k < 2 then 1 else 0), fun _ => 1,
    by intro h; have := congrFun h 0; norm_num at this, by rfl, rfl, by funext i; rfl, by funext i; rfl, fun _ _ => trivial⟩

end Libcmaes
