import Verif.Lemmas.StopWit
import Verif.Props.Stop
import Verif.Props.Solutions
import Verif.Props.Published
import Verif.Props.Stale

/-!
# C44: the three criteria whose coded condition is not the documented one
-/

namespace Libcmaes

open Spec Matrix

variable {n : ℕ}

/-- EQUALFUNVALS cannot stop a run whose histories are longer than the dimension. -/
theorem C44_equalFunVals_never (env : Env n) (kind : CovKind) (p : Params n) (s t : Strat n) (k : ℕ)
    (hs : Started env kind p s) (hk : UniqueKeys p) (hv : ValObjective env p) (hr : GenRun env s (k + 1) t)
    (hp : env.pfunc t.npf t.p t.sol = 0) (h0 : 0 ≤ t.sol.runStatus) (hc : OnlyActive p 5)
    (hm : (n : ℤ) < s.sol.maxHist) : ∃ t', t.stop env = .ok (false, t') := by
  obtain ⟨b, t', h1, h2⟩ := C44_single env kind p s t k 5 hs hk hv hr hp h0 hc
  obtain ⟨tr, _, hrun⟩ := hr.askRun
  have hmt : t.sol.maxHist = s.sol.maxHist := (run_p hrun.run).2.2.1
  cases b with
  | false => exact ⟨t', h1⟩
  | true =>
    have := h2.1 rfl
    unfold Fires at this
    simp only [Int.reduceEq, Int.reduceNeg, false_and, true_and, false_or, or_false] at this
    have := this.1
    omega

/-- **C44** fails for EQUALFUNVALS: with the default length of the histories, at most 30 candidates per
iteration and this criterion alone, a run on a constant objective has equal values in all iterations, and
goes on for ever. -/
theorem C44_equalFunVals_false (env : Env n) (kind : CovKind) (p : Params n) (s : Strat n) (v : FVal) (hn : 1 ≤ n)
    (hu : Usual kind p) (h0 : Strat.new env kind p = .ok s) (hk : UniqueKeys p) (hc : OnlyActive p 5)
    (hm : p.maxHist ≤ 0) (hl : p.lambda ≤ 30) (hv : Val v)
    (hf : ∀ k y, (if p.maximize then (env.f k y).neg else env.f k y) = v)
    (hp : ∀ k q sol, env.pfunc k q sol = 0) (hg : ∀ x : Vec n, ∃ y : Vec n, phenoV p.gp x = .ok y) (k : ℕ)
    (hkn : n ≤ k) :
    ∃ t t', GenRun env s k t ∧ EqualFunVals t.sol ∧ t.stop env = .ok (false, t') := by
  have hst : Started env kind p s := Or.inr ⟨hu, h0⟩
  have hv0 : ValObjective env p := fun k y => by rw [hf]; exact hv
  obtain ⟨hL, hR, hv'⟩ := hst.live hv0
  obtain ⟨g1, g2, g3, g4, g5, g6, g7, g8, g9, g10, g11, g12, g13, g14, g15, g16, g17, g18, g19, g20⟩ :=
    Strat.new_ok h0
  have hlam := hu.configured.good.1.lambda
  have hms : (n : ℤ) < s.sol.maxHist := by
    rw [g15]
    unfold maxHistOf
    rw [if_neg (by omega)]
    have : n ≤ 30 * n / p.lambda := by
      rw [Nat.le_div_iff_mul_le (by omega)]; nlinarith
    omega
  obtain ⟨t, ht⟩ : ∃ t, s.generations env k = .ok t := by
    rcases C67_total env kind p s hu (val_isNum_f hv') h0 k with h | ⟨x, e, h1, _⟩
    · exact h
    · obtain ⟨y, hy⟩ := hg x
      rw [hy] at h1; cases h1
  obtain ⟨hr, hnp, hrs⟩ := generations_genRun k ht
  obtain ⟨j, rfl⟩ : ∃ j, k = j + 1 := ⟨k - 1, by omega⟩
  obtain ⟨t', ht'⟩ := C44_equalFunVals_never env kind p s t j hst hk hv0 hr (hp _ _ _)
    (by rw [hrs, g6.runStatus]) hc hms
  refine ⟨t, t', hr, ?_, ht'⟩
  have hF := genRun_flat hr hL hR (flat_new h0) hv (by
    intro k y; rw [g10]; exact hf k y)
  obtain ⟨_, hRt, _⟩ := genRun_live hr hL hR hv'
  obtain ⟨tr, hlen, hrun⟩ := hr.askRun
  obtain ⟨m, hm'⟩ : ∃ m : ℕ, s.sol.maxHist = m := ⟨s.sol.maxHist.toNat, by omega⟩
  obtain ⟨hb, _⟩ := C21_bounded env s t tr m (by omega) hm' g6.bestHist g6.kBestHist g6.bfvalues hrun.run
  have hnb : n ≤ t.sol.bestHist.length := by rw [hb, hlen]; omega
  refine ⟨hnb, ?_⟩
  rw [equalCount_flat hF hv hnb hRt.len]
  have : (1 : ℝ) ≤ n := by exact_mod_cast hn
  linarith

/-- The settings after switching off all criteria but `c`. -/
def onlyCrit (c : ℤ) (p : Params n) : Params n :=
  { p with stoppingCrit := (stopCodes.filter (· ≠ c)).map fun d => (d, false) }

theorem onlyCrit_active {c : ℤ} (hc : c ∈ stopCodes) (p : Params n) :
    UniqueKeys (onlyCrit c p) ∧ OnlyActive (onlyCrit c p) c := by
  have key : ∀ d, (d, false) ∈ (onlyCrit c p).stoppingCrit ↔ d ∈ stopCodes ∧ d ≠ c := by
    intro d; simp [onlyCrit]
  refine ⟨?_, ⟨hc, fun h => ((key c).1 h).2 rfl⟩, fun d hd => ?_⟩
  · unfold UniqueKeys onlyCrit
    rw [List.map_map]
    have : (Prod.fst ∘ fun d : ℤ => (d, false)) = id := rfl
    rw [this, List.map_id]
    exact (by decide : stopCodes.Nodup).filter _
  · by_contra h
    exact hd.2 ((key d).2 ⟨hd.1, h⟩)

/-- Two candidates per iteration and one criterion: the settings are those of `Usual`. -/
theorem usual_two {x0 : Vec n} {sigma : ℝ} {seed clock : ℕ} {p : Params n} (hn : 1 ≤ n)
    (hp : Params.make x0 sigma 2 seed clock GenoPheno.plain = .ok p) (c : ℤ) (x : ℝ) :
    Usual .plain { onlyCrit c p with xtol := x } ∧ p.sep = false ∧ p.lazyUpdate = false ∧ p.tpa < 2 ∧
      p.maxHist = -1 ∧ p.c1 < 1 / 2 := by
  obtain ⟨hlam, hcmu, hc1, hlz⟩ := make_two hp
  obtain ⟨u1, u2, u3, u4, u5, u6, u7, u8, u9, u10, u11, u12, u13, u14⟩ := Params.make_plain hp
  have hconf : Configured { onlyCrit c p with xtol := x } := .other (.make hp)
    ⟨rfl, rfl, rfl, rfl, rfl, rfl, rfl, rfl, rfl, rfl, rfl, rfl, rfl, rfl, rfl, rfl, rfl⟩
  have hsv : p.sep = false ∧ p.vd = false ∧ p.lazyUpdate = false ∧ p.tpa < 2 ∧ p.maxHist = -1 := by
    have hp' := hp
    unfold Params.make at hp'
    obtain ⟨l, -, hp'⟩ := Out.bind_eq_ok.1 hp'
    obtain ⟨mu, w, muw, cs, cc, c1, cm, ds, fs, fc, ch, lv, rl, al, e⟩ := initializeParameters_frame hp'
    rw [e]; exact ⟨rfl, rfl, rfl, by simp [Params.blank], rfl⟩
  have hnr : (1 : ℝ) ≤ n := by exact_mod_cast hn
  have hc1' : p.c1 < 1 / 2 := by
    rw [hc1, div_lt_div_iff₀ (by positivity) (by norm_num)]; nlinarith
  refine ⟨⟨⟨hconf, ⟨?_, ?_⟩, by decide, hsv.2.1, ?_, u2, u4, ?_⟩, u1, u3⟩, hsv.1, hsv.2.2.1, hsv.2.2.2.1,
    hsv.2.2.2.2, hc1'⟩
  · show p.c1 + p.cmu < 1
    rw [hcmu]; linarith
  · show p.c1 < 0.66 * (1 - p.cmu)
    rw [hcmu]; linarith
  · intro h; cases h
  · rintro ⟨h, -⟩
    have : p.elitist = true := h
    rw [u5] at this; cases this

/-- The hypotheses of `C44_equalFunVals_false` are met, in any dimension, with two candidates. -/
example (hn : 1 ≤ n) (x0 : Vec n) (sigma : ℝ) (seed clock : ℕ) :
    ∃ (env : Env n) (p : Params n) (s : Strat n), Usual .plain p ∧ Strat.new env .plain p = .ok s ∧
      UniqueKeys p ∧ OnlyActive p 5 ∧ p.maxHist ≤ 0 ∧ p.lambda ≤ 30 ∧
      (∀ k y, (if p.maximize then (env.f k y).neg else env.f k y) = .num 0) ∧
      (∀ k q sol, env.pfunc k q sol = 0) ∧ ∀ x : Vec n, ∃ y : Vec n, phenoV p.gp x = .ok y := by
  obtain ⟨p, hp, _⟩ := C11_weights hn x0 sigma 2 seed clock GenoPheno.plain
  obtain ⟨hu, _, _, _, hm, _⟩ := usual_two hn hp 5 p.xtol
  have hgp : (onlyCrit 5 p).gp = GenoPheno.plain := (Params.make_plain hp).2.2.2.2.2.2.2.2.2.1
  have hmx : p.maximize = false := (Params.make_plain hp).2.2.2.2.2.2.2.1
  obtain ⟨s, hs⟩ := new_plain (env := Env.basic (fun _ _ => .num 0) (fun _ _ => 0)) (kind := .plain)
    (p := onlyCrit 5 p) hgp hu.configured.good.1
  refine ⟨_, onlyCrit 5 p, s, hu, hs, (onlyCrit_active (by decide) p).1, (onlyCrit_active (by decide) p).2, ?_, ?_,
    ?_, fun _ _ _ => rfl, fun x => ⟨x, by rw [hgp, phenoV_plain]⟩⟩
  · show p.maxHist ≤ 0
    rw [hm]; norm_num
  · show p.lambda ≤ 30
    rw [(make_two hp).1]; norm_num
  · intro k y
    have : (onlyCrit 5 p).maximize = false := hmx
    rw [this]; rfl

/-- **C44** fails for TOLX: two candidates per iteration, the tolerance `√(1 - c1)`, this criterion alone.
If the draws of the first generation are zero, then after it the path is zero and the standard deviations are
`√(1 - c1)`; in units of the initial step size they are below the tolerance, and `stop()` goes on. -/
theorem C44_tolX_false (hn : 1 ≤ n) (env : Env n) (hz0 : env.z 0 = 0) (hz1 : env.z 1 = 0)
    (hv : ∀ k y, Val (env.f k y)) (hpf : ∀ k q sol, env.pfunc k q sol = 0) (x0 : Vec n) (sigma : ℝ)
    (seed clock : ℕ) :
    ∃ p q s t t', Params.make x0 sigma 2 seed clock GenoPheno.plain = .ok p ∧
      q = { onlyCrit 2 p with xtol := Real.sqrt (1 - p.c1) } ∧ Strat.new env .plain q = .ok s ∧
      GenRun env s 1 t ∧ TolX t.p t.sol ∧ t.stop env = .ok (false, t') := by
  obtain ⟨p, hp, _⟩ := C11_weights hn x0 sigma 2 seed clock GenoPheno.plain
  obtain ⟨hlam, hcmu, hc1, hlz⟩ := make_two hp
  obtain ⟨u1, u2, u3, u4, u5, u6, u7, u8, u9, u10, u11, u12, u13, u14⟩ := Params.make_plain hp
  set q : Params n := { onlyCrit 2 p with xtol := Real.sqrt (1 - p.c1) } with hq
  obtain ⟨hu, hsep0, hlz0, htpa0, _, hc1'⟩ := usual_two hn hp 2 (Real.sqrt (1 - p.c1))
  have hconf : Configured q := hu.configured
  have hvd0 : p.vd = false := hu.vd
  obtain ⟨s, hs⟩ := new_plain (env := env) (kind := .plain) (p := q) u10 hconf.good.1
  obtain ⟨_, _, _, hsp, hsig, hfr, hsn, _, _, _, hcov, _, _, _, _, _, _, _, hsm, _⟩ := Strat.new_ok hs
  have hplain : ∀ x : Vec n, phenoV q.gp x = .ok x := by
    intro x
    have : q.gp = GenoPheno.plain := u10
    rw [this, phenoV_plain]
  have hst : Started env .plain q s := Or.inr ⟨hu, hs⟩
  have hv0 : ValObjective env q := fun k y => by
    have : q.maximize = false := u8
    rw [this]; exact hv k y
  obtain ⟨t, hgs⟩ : ∃ t, s.generations env 1 = .ok t := by
    rcases C67_total env .plain q s hu (fun k y => (hv k y).isNum) hs 1 with h | ⟨x, e, h1, _⟩
    · exact h
    · rw [hplain] at h1; cases h1
  obtain ⟨hr, hnp, hrs⟩ := generations_genRun 1 hgs
  have hact := onlyCrit_active (c := 2) (by decide) p
  obtain ⟨b, t', h1, h2⟩ := C44_single env .plain q s t 0 2 hst hact.1 hv0 hr (hpf _ _ _)
    (by rw [hrs, hfr.runStatus]) hact.2
  have hg : s.generation env = .ok t := by
    unfold Strat.generations at hgs
    obtain ⟨t1, hg, hgs⟩ := Out.bind_eq_ok.1 hgs
    injection hgs with hgs
    rw [hg, hgs]
  have hnz : s.nz = 0 := by
    have hs' := hs
    unfold Strat.new at hs'
    obtain ⟨⟨p', sol⟩, hm, hs'⟩ := Out.bind_eq_ok.1 hs'
    injection hs' with hs'; rw [← hs']
  have hgood : GoodParams s.p := by rw [hsp]; exact hconf.with_sigmaInit _
  have hsl : s.p.lambda = 2 := by rw [hsp]; exact hlam
  have hssep : s.p.sep = false := by rw [hsp]; exact hsep0
  have hsvd : s.p.vd = false := by rw [hsp]; exact hvd0
  have hsg : s.p.withGradient = false := by rw [hsp]; exact u2
  have hsf : s.p.fixedP = [] := by rw [hsp]; exact u11
  have hstpa : s.p.tpa ≠ 2 := by rw [hsp]; exact u3
  obtain ⟨pop, s1, phen, s2, s3, ha, hph, hev, ht, es', hperm, hlen, hpts⟩ :=
    generation_points hgood (by rw [hfr.cands, hsp]) hg
  obtain ⟨A, hA, hAs⟩ := C19_full env.eig 1 ⟨isSymm_one, fun x => by
    rw [quad_one]; exact Finset.sum_nonneg fun i _ => mul_self_nonneg _⟩
  have hcand := hAs env s s1 pop rfl hfr.cov hssep hsvd hsg (Or.inl hstpa) (Or.inr hsn) ha
  have hpop : ∀ x ∈ pop, x = s.sol.xmean := by
    intro x hx
    obtain ⟨j, hj, e⟩ := List.getElem_of_mem hx
    have hj2 : j < 2 := by
      have := (Strat.ask_frame ha).2
      omega
    obtain ⟨y, hy, hyi⟩ := hcand j (by rw [hsl]; exact hj2)
    rw [List.getElem?_eq_getElem hj, e] at hy
    injection hy with hy
    funext i
    have hz : env.z j = 0 := by
      interval_cases j
      · exact hz0
      · exact hz1
    rw [hy, hyi i (by intro v hv; rw [hsf] at hv; cases hv), hnz, zero_add, hz]
    simp
  have hcands : ∀ c ∈ t.sol.cands, c.x = s.sol.xmean := by
    intro c hc
    rcases hpts c hc with h | h
    · exact hpop _ h
    · unfold Strat.elitistRef at h
      have e1 : s.p.initialElitistOnRestart = false := by rw [hsp]; exact u6
      have e2 : s.p.initialElitist = false := by rw [hsp]; exact u4
      have e3 : s.p.elitist = false := by rw [hsp]; exact u5
      simp [e1, e2, e3] at h
  have htc : s3.sol.cands = t.sol.cands := by rw [es']; rfl
  have hmu : q.mu ≤ q.lambda := by
    rw [hconf.good.1.mu]; omega
  have hstep : ∀ i < q.mu, selStep (stateOf s.sol) (ranked s3.sol.cands) i = 0 := by
    intro i hi
    have hi' : i < t.sol.cands.length := by
      rw [hlen, hsl]
      have : q.lambda = 2 := hlam
      omega
    unfold selStep ranked
    rw [htc, List.getElem?_eq_getElem hi']
    simp only
    rw [hcands _ (List.getElem_mem hi')]
    simp [stateOf]
  have hmean : meanStep (constsOf q) (stateOf s.sol) (ranked s3.sol.cands) = 0 := by
    unfold meanStep
    refine Finset.sum_eq_zero fun i hi => ?_
    rw [hstep i (Finset.mem_range.1 hi), smul_zero]
  obtain ⟨B, hs1, hB, hP, hC⟩ := C68_default env q s s s1 s2 s3 [] pop pop phen hconf hsep0 hvd0 hlz0 u1
    htpa0 hs (.refl _) ha hev ht
  have hadm := hconf.good.1.rates
  have hps : (stateOf s3.sol).ps = 0 := by
    rw [hP.ps, hmean]
    have : (stateOf s.sol).ps = 0 := hfr.psigma
    rw [this]; simp
  have hpc : (stateOf s3.sol).pc = 0 := by
    rw [hP.pc, hmean]
    have : (stateOf s.sol).pc = 0 := hfr.pc
    rw [this]; simp
  have hl0 : len (stateOf s3.sol).ps = 0 := by rw [hps]; simp [len]
  have hchi : 0 < (constsOf q).chi := hconf.good.1.chi
  have hh : hs1 = 1 := by
    rcases hP.hsig with ⟨_, h⟩ | ⟨h, _⟩
    · exact h
    · refine absurd ?_ h
      unfold NotStalled
      rw [hl0, zero_div]
      have hd : (constsOf q).dim = n := by
        show (n : ℝ) - (q.fixedP.length : ℕ) = n
        have : q.fixedP = [] := u11
        rw [this]; simp
      rw [hd]; positivity
  have hcov' : s3.sol.cov = (1 - p.c1) • (1 : Mat n) := by
    rw [hC, hpc, hh]
    have e : (constsOf q).cmu = 0 := hcmu
    rw [e, show s.sol.cov = 1 from hfr.cov]
    simp [constsOf, hq, onlyCrit]
  have hsg' : s3.sol.sigma < s.sol.sigma := by
    have : (stateOf s3.sol).sigma = _ := hP.sigma
    rw [hl0, zero_div, zero_sub] at this
    show (stateOf s3.sol).sigma < s.sol.sigma
    rw [this]
    have h3 : Real.exp ((constsOf q).cs / (constsOf q).ds * -1) < 1 := by
      rw [Real.exp_lt_one_iff]
      have : 0 < (constsOf q).cs / (constsOf q).ds := div_pos hadm.csigma_pos hadm.dsigma_pos
      linarith
    show s.sol.sigma * _ < _
    nlinarith
  have hsp3 : 0 < s3.sol.sigma := by
    have : (stateOf s3.sol).sigma = _ := hP.sigma
    show 0 < (stateOf s3.sol).sigma
    rw [this]
    exact mul_pos hsig (Real.exp_pos _)
  have htp : t.p = s.p := by
    obtain ⟨tr, _, hrun⟩ := hr.askRun
    exact (run_p hrun.run).1
  have hsr : t.sol.sigma / t.p.sigmaInit < 1 := by
    rw [htp, hsp, es', div_lt_one hsig]
    exact hsg'
  have hvar : ∀ i, varOf t.p t.sol i = 1 - p.c1 := by
    intro i
    unfold varOf
    rw [if_pos (by rw [htp]; exact ⟨hssep, hsvd⟩), es']
    show s3.sol.cov i i = _
    rw [hcov']; simp
  have hpc' : ∀ i, t.sol.pc i = 0 := by
    intro i
    rw [es']
    show (stateOf s3.sol).pc i = 0
    rw [hpc]; rfl
  have hx : t.p.xtol = Real.sqrt (1 - p.c1) := by rw [htp, hsp]
  have hr1 : (1e-12 : ℝ) ≤ Real.sqrt (1 - p.c1) := by
    refine Real.le_sqrt_of_sq_le ?_
    norm_num; linarith
  have hr0 : 0 < Real.sqrt (1 - p.c1) := by linarith
  refine ⟨p, q, s, t, t', hp, rfl, hs, hr, fun i => ?_, ?_⟩
  · rw [hpc', hvar, hx, max_eq_left hr1]
    refine ⟨by simpa using hr0, ?_⟩
    nlinarith
  · cases b with
    | false => exact h1
    | true =>
      have := h2.1 rfl
      unfold Fires at this
      simp only [Int.reduceEq, Int.reduceNeg, false_and, true_and, false_or, or_false] at this
      have := (this ⟨0, hn⟩).2
      rw [hvar, hx, max_eq_left hr1] at this
      nlinarith

/-- Eigenvectors of `a I + b w wᵀ`, `w = (1, 1)`: all coordinates have the same size. -/
theorem axes_diagonal {B : Mat 2} {d : Vec 2} {a b : ℝ} (hb : b ≠ 0) (hO : B * Bᵀ = 1)
    (hD : B * diagonal d * Bᵀ = a • (1 : Mat 2) + b • vecMulVec (fun _ => 1) (fun _ => 1)) :
    (∀ i j, B i j ^ 2 = 1 / 2) ∧ d 0 ≠ d 1 := by
  have hO' : Bᵀ * B = 1 := mul_eq_one_comm.1 hO
  have o00 := congrFun (congrFun hO 0) 0
  have o11 := congrFun (congrFun hO 1) 1
  have o01 := congrFun (congrFun hO 0) 1
  have p00 := congrFun (congrFun hO' 0) 0
  have d00 := congrFun (congrFun hD 0) 0
  have d11 := congrFun (congrFun hD 1) 1
  have d01 := congrFun (congrFun hD 0) 1
  simp [Matrix.mul_apply, Fin.sum_univ_two, diagonal, vecMulVec_apply] at o00 o11 o01 p00 d00 d11 d01
  have hne : d 0 ≠ d 1 := by
    intro h
    apply hb
    rw [← d01, h]
    linear_combination d 1 * o01
  have h1 : (d 0 - d 1) * (B 0 0 ^ 2 - B 1 0 ^ 2) = 0 := by
    linear_combination d00 - d11 - d 1 * o00 + d 1 * o11
  have h2 : B 0 0 ^ 2 - B 1 0 ^ 2 = 0 := (mul_eq_zero.1 h1).resolve_left (sub_ne_zero.2 hne)
  refine ⟨?_, hne⟩
  have e00 : B 0 0 ^ 2 = 1 / 2 := by nlinarith
  have e10 : B 1 0 ^ 2 = 1 / 2 := by nlinarith
  intro i j
  fin_cases i <;> fin_cases j <;> simp only [Fin.zero_eta, Fin.mk_one]
  · exact e00
  · nlinarith
  · exact e10
  · nlinarith

theorem mapM_setFixed_nil {l l' : List (Vec n)} (h : l.mapM (setFixed []) = .ok l') : l = l' := by
  have := Out.mapM_eq_ok.1 h
  clear h
  induction this with
  | nil => rfl
  | cons a _ ih => rw [setFixed_nil] at a; injection a with a; rw [a, ih]

/-- The settings of these examples, in a running strategy. -/
structure PlainSet (s : Strat n) : Prop where
  good : GoodParams s.p
  cands : s.sol.cands.length = s.p.lambda
  sep : s.p.sep = false
  vd : s.p.vd = false
  grad : s.p.withGradient = false
  tpa : s.p.tpa ≠ 2
  lazy : s.p.lazyUpdate = false
  fixed : s.p.fixedP = []
  noElitism : s.p.initialElitistOnRestart = false ∧ s.p.initialElitist = false ∧ s.p.elitist = false

/-- A generation in which all draws are equal: all points are equal, and the new mean is this point. -/
theorem equal_draws {env : Env n} {s s' : Strat n} (hs : PlainSet s) (h : s.generation env = .ok s') (e : Vec n)
    (he : ∀ j < s.p.lambda, env.z (s.nz + j) = e) :
    ∃ pop s1 phen s2 s3, s.ask env = .ok (pop, s1) ∧ s1.eval env pop phen = .ok s2 ∧ s2.tell env = .ok s3 ∧
      s' = s3.incIter ∧ s'.nz = s.nz + s.p.lambda ∧ s'.sol.cands.length = s.p.lambda ∧ s'.p = s.p ∧
      s'.sol.leigenvalues = (env.eig.solve s.sol.cov).1 ∧ s'.sol.leigenvectors = (env.eig.solve s.sol.cov).2 ∧
      (∀ c ∈ s'.sol.cands, c.x = s.sol.sigma • ((env.eig.solve s.sol.cov).2 *
        diagonal fun i => Real.sqrt (max ((env.eig.solve s.sol.cov).1 i) 0)).mulVec e + s.sol.xmean) ∧
      s'.sol.xmean = s.sol.sigma • ((env.eig.solve s.sol.cov).2 *
        diagonal fun i => Real.sqrt (max ((env.eig.solve s.sol.cov).1 i) 0)).mulVec e + s.sol.xmean := by
  obtain ⟨pop, s1, phen, s2, s3, ha, hph, hev, ht, es', hperm, hlen, hpts⟩ := generation_points hs.good hs.cands h
  obtain ⟨t0, pop1, hpr, hsa, hfx⟩ := ask_plain hs.grad (Or.inl hs.tpa) ha
  unfold Strat.askPrepare at hpr
  rw [if_pos (by simp [hs.sep, hs.vd]), if_pos (Or.inr (Or.inl hs.lazy))] at hpr
  by_cases hcv : s.sol.hasCov = false
  · rw [if_pos hcv] at hpr; cases hpr
  rw [if_neg hcv] at hpr
  injection hpr with hpr
  unfold Strat.askSample at hsa
  rw [← hpr] at hsa
  simp only at hsa
  rw [if_pos (by simp [hs.sep, hs.vd]), if_neg (by simp)] at hsa
  injection hsa with hsa; injection hsa with hsa1 hsa2
  have hpop1 : pop1 = pop := by
    rw [hs.fixed] at hfx
    exact mapM_setFixed_nil hfx
  set m1 : Vec n := s.sol.sigma • ((env.eig.solve s.sol.cov).2 *
        diagonal fun i => Real.sqrt (max ((env.eig.solve s.sol.cov).1 i) 0)).mulVec e + s.sol.xmean with hm1
  have hpop : ∀ x ∈ pop, x = m1 := by
    intro x hx
    rw [← hpop1, ← hsa1] at hx
    obtain ⟨z, hz, rfl⟩ := List.mem_map.1 hx
    obtain ⟨j, hj, rfl⟩ := List.mem_map.1 hz
    rw [he j (List.mem_range.1 hj)]
  have hcands : ∀ c ∈ s'.sol.cands, c.x = m1 := by
    intro c hc
    rcases hpts c hc with h | h
    · exact hpop _ h
    · obtain ⟨e1, e2, e3⟩ := hs.noElitism
      unfold Strat.elitistRef at h
      simp [e1, e2, e3] at h
  obtain ⟨c2, nu, nzuh, lr, cu, cs, e2, _⟩ := Strat.eval_frame hev
  have hp2 : s2.p = s.p := by rw [e2, ← hsa2]
  have hsol := Strat.tell_step ht
  obtain ⟨sol3, sol4, _, _, _, _, mx, mn, lv, le, e3⟩ := hsol
  have hlv : s3.sol.leigenvalues = (env.eig.solve s.sol.cov).1 ∧
      s3.sol.leigenvectors = (env.eig.solve s.sol.cov).2 := by
    obtain ⟨t1, tS, u3, u4, _, _, _, _, hfin⟩ := Strat.tell_ok ht
    unfold Strat.tellFinish at hfin
    simp only at hfin
    have hn0 : n ≠ 0 := by have := hs.good.dim; omega
    have hee : s2.es.eig = some (env.eig.solve s.sol.cov) := by rw [e2, ← hsa2]
    rw [if_neg hn0, if_pos (by rw [hp2]; simp [hs.sep, hs.vd]), hee] at hfin
    injection hfin with hfin
    rw [← hfin]
    exact ⟨rfl, rfl⟩
  refine ⟨pop, s1, phen, s2, s3, ha, hev, ht, es', ?_, hlen, ?_, ?_, ?_, hcands, ?_⟩
  · rw [es', e3, e2, ← hsa2]; rfl
  · rw [es', e3]; exact hp2
  · rw [es']; exact hlv.1
  · rw [es']; exact hlv.2
  · have := (C25_mean_convex env s2 s3 (by rw [hp2]; exact hs.good.weights) ht).2 {m1} (convex_singleton m1) ?_
    · rw [es']; exact this
    · intro c hc
      exact hcands c (by rw [es']; exact List.mem_of_mem_take hc)

/-- **C44** fails for NOEFFECTAXIS: two candidates per iteration in dimension 2, this criterion alone.
Whatever the solver of the eigenvalue problem and the starting point (with two different coordinates), there are
draws and a rounding addition `fladd`, which absorbs small steps, such that after two generations a step of
`0.1 σ √λ` along an axis changes the mean, and `stop()` stops the loop with code 3. -/
theorem C44_noEffectAxis_false (eig : EigSolver 2) (x0 : Vec 2) (hx : x0 0 ≠ x0 1) (sigma : ℝ) (seed clock : ℕ) :
    ∃ (env : Env 2) (δ : ℝ → ℝ) (p : Params 2) (s t t' : Strat 2), env.eig = eig ∧
      env.fladd = (fun x y => open Classical in if |y| ≤ δ x then x else x + y) ∧
      Params.make x0 sigma 2 seed clock GenoPheno.plain = .ok p ∧ Strat.new env .plain (onlyCrit 3 p) = .ok s ∧
      GenRun env s 2 t ∧ ¬ NoEffectAxis env.fladd t.p t.sol ∧ t.stop env = .ok (true, t') := by
  obtain ⟨p, hp, _, hpmu, _, _, hmuw1, hmuw2⟩ := C11_weights (n := 2) (by norm_num) x0 sigma 2 seed clock GenoPheno.plain
  obtain ⟨hlam, hcmu, hc1, hlz⟩ := make_two hp
  obtain ⟨u1, u2, u3, u4, u5, u6, u7, u8, u9, u10, u11, u12, u13, u14⟩ := Params.make_plain hp
  obtain ⟨hu, hsep0, hlz0, htpa0, _, hc1'⟩ := usual_two (by norm_num) hp 3 p.xtol
  set q : Params 2 := onlyCrit 3 p with hq
  replace hu : Usual .plain q := hu
  have hconf : Configured q := hu.configured
  have hvd0 : p.vd = false := hu.vd
  -- the environment, up to `fladd`
  set A : Mat 2 := (eig.solve 1).2 * diagonal fun i => Real.sqrt (max ((eig.solve 1).1 i) 0) with hA
  have hPSD1 : PSD (1 : Mat 2) := ⟨isSymm_one, fun x => by
    rw [quad_one]; exact Finset.sum_nonneg fun i _ => mul_self_nonneg _⟩
  have hAA : A * Aᵀ = 1 := by
    have hd := eig.decomp 1 hPSD1.symm
    rw [hA, transpose_mul, diagonal_transpose, Matrix.mul_assoc, ← Matrix.mul_assoc (diagonal _) (diagonal _),
      diagonal_mul_diagonal, ← Matrix.mul_assoc]
    have : (fun i => Real.sqrt (max ((eig.solve 1).1 i) 0) * Real.sqrt (max ((eig.solve 1).1 i) 0)) =
        (eig.solve 1).1 := by
      funext i
      rw [Real.mul_self_sqrt (le_max_right _ _), max_eq_left (eig_nonneg eig hPSD1 i)]
    rw [this]
    exact hd
  set w : Vec 2 := fun _ => 1 with hw
  set env : Env 2 := { Env.basic (fun _ _ => .num 0) (fun k => if k < 2 then Aᵀ.mulVec w else 0) with
    eig := eig } with henv
  obtain ⟨s, hs⟩ := new_plain (env := env) (kind := .plain) (p := q) u10 hconf.good.1
  obtain ⟨_, _, _, hsp, hsig, hfr, hsn, _, _, _, hcov, _, _, _, _, _, _, _, hsm, _⟩ := Strat.new_ok hs
  have hplain : ∀ x : Vec 2, phenoV q.gp x = .ok x := by
    intro x
    have : q.gp = GenoPheno.plain := u10
    rw [this, phenoV_plain]
  have hval : ∀ k y, Val (env.f k y) := fun k y => Or.inr ⟨0, by
    have := dblMax_ge
    simp only [abs_zero]; linarith, rfl⟩
  obtain ⟨t, hgs⟩ : ∃ t, s.generations env 2 = .ok t := by
    rcases C67_total env .plain q s hu (fun k y => (hval k y).isNum) hs 2 with h | ⟨x, e, h1, _⟩
    · exact h
    · rw [hplain] at h1; cases h1
  have hnz : s.nz = 0 := by
    have hs' := hs
    unfold Strat.new at hs'
    obtain ⟨⟨p', sol⟩, hm, hs'⟩ := Out.bind_eq_ok.1 hs'
    injection hs' with hs'; rw [← hs']
  have hxm : s.sol.xmean = x0 := by
    have e : initialMean q (env.rnd 0) = .ok x0 := by
      unfold initialMean
      have e1 : q.x0min = x0 := u12
      have e2 : q.x0max = x0 := u13
      have e3 : q.fixedP = [] := u11
      have e4 : q.gp = GenoPheno.plain := u10
      rw [e1, e2, e3, e4, if_pos rfl, if_neg (by
        intro h; exact hx (by rw [h]))]
      rfl
    rw [e] at hsm
    injection hsm with hsm
    exact hsm.symm
  have hps : PlainSet s := ⟨by rw [hsp]; exact hconf.with_sigmaInit _, by rw [hfr.cands, hsp], by rw [hsp]; exact hsep0,
    by rw [hsp]; exact hvd0, by rw [hsp]; exact u2, by rw [hsp]; exact u3, by rw [hsp]; exact hlz0,
    by rw [hsp]; exact u11, by rw [hsp]; exact ⟨u6, u4, u5⟩⟩
  have hsl : s.p.lambda = 2 := by rw [hsp]; exact hlam
  -- the two generations
  unfold Strat.generations at hgs
  obtain ⟨t1, hg1, hgs⟩ := Out.bind_eq_ok.1 hgs
  unfold Strat.generations at hgs
  obtain ⟨t2, hg2, hgs⟩ := Out.bind_eq_ok.1 hgs
  injection hgs with hgs
  subst hgs
  obtain ⟨pop, s1, phen, s2, s3, ha, hev, ht, es', hnz1, hlen1, hp1, -, -, hc, hm1⟩ :=
    equal_draws hps hg1 (Aᵀ.mulVec w) (by
      intro j hj
      rw [hsl] at hj
      rw [hnz, zero_add]
      show (if j < 2 then _ else _) = _
      rw [if_pos hj])
  have heig : env.eig = eig := rfl
  rw [hfr.cov, heig, ← hA, mulVec_mulVec, hAA, one_mulVec] at hc hm1
  have hp1s : PlainSet t1 := ⟨by rw [hp1]; exact hps.good, by rw [hp1]; exact hlen1, by rw [hp1]; exact hps.sep,
    by rw [hp1]; exact hps.vd, by rw [hp1]; exact hps.grad, by rw [hp1]; exact hps.tpa, by rw [hp1]; exact hps.lazy,
    by rw [hp1]; exact hps.fixed, by rw [hp1]; exact hps.noElitism⟩
  obtain ⟨_, _, _, _, _, _, _, _, _, _, _, hp2, hlv, hle, _, hm2⟩ := equal_draws hp1s hg2 0 (by
      intro j hj
      rw [hnz1, hnz, hsl]
      show (if 0 + 2 + j < 2 then _ else _) = _
      rw [if_neg (by omega)])
  rw [mulVec_zero, smul_zero, zero_add] at hm2
  -- the covariance after the first
  have hgood := hconf.good.1
  have hmu1 : q.mu = 1 := by
    rw [hgood.mu]
    have : q.lambda = 2 := hlam
    rw [this]
  have htc : s3.sol.cands = t1.sol.cands := by rw [es']; rfl
  have hstep : ∀ i < q.mu, selStep (stateOf s.sol) (ranked s3.sol.cands) i = w := by
    intro i hi
    have hi' : i < t1.sol.cands.length := by
      rw [hlen1, hsl]; omega
    unfold selStep ranked
    rw [htc, List.getElem?_eq_getElem hi']
    simp only
    rw [hc _ (List.getElem_mem hi')]
    simp only [stateOf, add_sub_cancel_right]
    rw [smul_smul, inv_mul_cancel₀ hsig.ne', one_smul]
  have hmean : meanStep (constsOf q) (stateOf s.sol) (ranked s3.sol.cands) = w := by
    unfold meanStep
    rw [Finset.sum_congr rfl fun i hi => by rw [hstep i (Finset.mem_range.1 hi)], ← Finset.sum_smul]
    have : ∑ i ∈ Finset.range (constsOf q).mu, (constsOf q).w i = 1 := hgood.weights.sum_one
    rw [this, one_smul]
  obtain ⟨B, hs1, hB, hP, hC⟩ := C68_default env q s s s1 s2 s3 [] pop pop phen hconf hsep0 hvd0 hlz0 u1
    htpa0 hs (.refl _) ha hev ht
  have hadm := hgood.rates
  have hpc0 : (stateOf s.sol).pc = 0 := hfr.pc
  have hps0 : (stateOf s.sol).ps = 0 := hfr.psigma
  have hchi : p.chi = chiOf (2 : ℕ) := by
    have hp' := hp
    unfold Params.make at hp'
    obtain ⟨l, -, hp'⟩ := Out.bind_eq_ok.1 hp'
    exact (initializeParameters_rest hp').chi
  have hmuw : p.muw = 1 := by
    have e : p.mu = 1 := hmu1
    rw [e] at hmuw2
    exact le_antisymm (by simpa using hmuw2) hmuw1
  have hlenB : len (B.mulVec w) = Real.sqrt 2 := by
    unfold len
    congr 1
    have h1 : B * B = 1 := by have := hB.inv; rwa [hfr.cov, Matrix.mul_one] at this
    have h2 : ∑ i, B.mulVec w i ^ 2 = B.mulVec w ⬝ᵥ B.mulVec w := by
      unfold dotProduct; exact Finset.sum_congr rfl fun i _ => sq _
    rw [h2, dotProduct_mulVec, ← mulVec_transpose, hB.pd.symm.eq, mulVec_mulVec, h1, one_mulVec]
    simp [dotProduct, hw]
  have hcs := hadm.csigma_pos
  have hcs1 := hadm.csigma_lt
  have hh : hs1 = 1 := by
    rcases hP.hsig with ⟨_, h⟩ | ⟨h, _⟩
    · exact h
    · refine absurd ?_ h
      unfold NotStalled
      have hd : (constsOf q).dim = 2 := by
        show ((2 : ℕ) : ℝ) - (q.fixedP.length : ℕ) = 2
        have : q.fixedP = [] := u11
        rw [this]; simp
      have hc' : 0 < q.csigma * (2 - q.csigma) := mul_pos hcs (by linarith)
      have e1 : len (stateOf s3.sol).ps = Real.sqrt (q.csigma * (2 - q.csigma)) * Real.sqrt 2 := by
        rw [hP.ps, hmean, hps0, smul_zero, zero_add]
        have em : (constsOf q).mueff = 1 := hmuw
        rw [em, mul_one, ← hlenB]
        unfold len
        rw [← Real.sqrt_mul hc'.le]
        congr 1
        rw [Finset.mul_sum]
        refine Finset.sum_congr rfl fun i _ => ?_
        rw [Pi.smul_apply, smul_eq_mul, mul_pow]
        rw [Real.sq_sqrt (show 0 ≤ (constsOf q).cs * (2 - (constsOf q).cs) from hc'.le)]
        rfl
      have e2 : 1 - (1 - (constsOf q).cs) ^ (2 * (([] : List (List (Cand 2))).length + 1)) =
          q.csigma * (2 - q.csigma) := by
        show 1 - (1 - q.csigma) ^ 2 = _
        ring
      rw [e1, e2, hd, mul_div_assoc, mul_comm, div_mul_cancel₀ _ (Real.sqrt_pos.2 hc').ne']
      have e3 : (constsOf q).chi = chiOf (2 : ℕ) := hchi
      rw [e3]
      unfold chiOf
      have : 0 < Real.sqrt 2 := by positivity
      push_cast
      nlinarith
  have hpc : (stateOf s3.sol).pc = pathNorm (constsOf q) • w := by
    rw [hP.pc, hmean, hpc0, hh]; simp
  have hf0 : 0 < pathNorm (constsOf q) := by
    unfold pathNorm
    have h1 : 0 < (constsOf q).cc := hadm.cc_pos
    have h2 : (constsOf q).cc ≤ 1 := hadm.cc_le
    have h3 : 1 ≤ (constsOf q).mueff := hgood.muw
    apply Real.sqrt_pos.2
    have : 0 < 2 - (constsOf q).cc := by linarith
    positivity
  have hc10 : 0 < p.c1 := hadm.c1_pos
  have hcov1 : t1.sol.cov = (1 - p.c1) • (1 : Mat 2) +
      (p.c1 * (pathNorm (constsOf q) * pathNorm (constsOf q))) • vecMulVec w w := by
    have e0 : t1.sol.cov = s3.sol.cov := by rw [es']; rfl
    rw [e0, hC, hpc, hh]
    have e : (constsOf q).cmu = 0 := hcmu
    have e' : (constsOf q).c1 = p.c1 := rfl
    rw [e, e', show s.sol.cov = 1 from hfr.cov]
    ext i j
    simp [vecMulVec_apply, hw]
  have hsym : t1.sol.cov.IsSymm := by
    rw [hcov1]
    ext i j
    simp [vecMulVec_apply, hw, Matrix.one_apply, eq_comm]
  obtain ⟨hBsq, hdne⟩ := axes_diagonal (B := t2.sol.leigenvectors) (d := t2.sol.leigenvalues) (a := 1 - p.c1)
    (b := p.c1 * (pathNorm (constsOf q) * pathNorm (constsOf q))) (by positivity)
    (by rw [hle]; exact env.eig.orth _ hsym) (by rw [hle, hlv, env.eig.decomp _ hsym]; exact hcov1)
  -- the rounding addition
  have hst : Started env .plain q s := Or.inr ⟨hu, hs⟩
  have hv0 : ValObjective env q := fun k y => by
    have : q.maximize = false := u8
    rw [this]; exact hval k y
  obtain ⟨hL, hR, hv'⟩ := hst.live hv0
  have hr : GenRun env s 2 t2 := .turn (.turn (.refl _) hg1) hg2
  obtain ⟨_, hRt, _⟩ := genRun_live hr hL hR hv'
  obtain ⟨tr, htrl, hrun⟩ := hr.askRun
  have hnit : t2.niter ≠ 0 := by rw [(run_p hrun.run).2.2.2.1, htrl]; omega
  obtain ⟨_, hlpos, _, _⟩ := hRt.eig hnit
  have hsig2 : 0 < t2.sol.sigma := (genRun_live hr hL hR hv').1.sigma
  have hxne : t2.sol.xmean 0 ≠ t2.sol.xmean 1 := by
    rw [hm2, hm1, hxm]
    simp only [Pi.add_apply, Pi.smul_apply, hw]
    intro h
    exact hx (add_left_cancel h)
  have habs : ∀ i j, |t2.sol.leigenvectors i j| = Real.sqrt (1 / 2) := by
    intro i j
    rw [← Real.sqrt_sq_eq_abs, hBsq]
  obtain ⟨k, l, hkl, hlt⟩ : ∃ k l : Fin 2, (∀ i, i = k ∨ i = l) ∧ t2.sol.leigenvalues k < t2.sol.leigenvalues l := by
    rcases lt_or_gt_of_ne hdne with h | h
    · exact ⟨0, 1, by decide, h⟩
    · exact ⟨1, 0, by decide, h⟩
  have hkne : k ≠ l := by rintro rfl; exact lt_irrefl _ hlt
  have hxkl : t2.sol.xmean l ≠ t2.sol.xmean k := by
    intro h
    have : ∀ k l : Fin 2, k ≠ l → t2.sol.xmean l = t2.sol.xmean k → t2.sol.xmean 0 = t2.sol.xmean 1 := by
      intro k l; fin_cases k <;> fin_cases l <;> simp [eq_comm]
    exact hxne (this k l hkne h)
  set stp : Fin 2 → ℝ := fun i => 0.1 * t2.sol.sigma * Real.sqrt (t2.sol.leigenvalues i) * Real.sqrt (1 / 2) with hstp
  have hsp0 : ∀ i, 0 < stp i := fun i => by
    have := Real.sqrt_pos.2 (hlpos i)
    simp only [hstp]; positivity
  have hstplt : stp k < stp l := by
    have := Real.sqrt_lt_sqrt (hlpos k).le hlt
    have h2 : (0 : ℝ) < Real.sqrt (1 / 2) := by positivity
    simp only [hstp]
    exact mul_lt_mul_of_pos_right (mul_lt_mul_of_pos_left this (by positivity)) h2
  have hsz : ∀ i m j, |0.1 * t2.sol.sigma * Real.sqrt (t2.sol.leigenvalues i) * t2.sol.leigenvectors m j| = stp i := by
    intro i m j
    rw [abs_mul, habs, abs_of_nonneg (by positivity)]
  classical
  set δ : ℝ → ℝ := fun x => if x = t2.sol.xmean k then stp k else stp l with hδ
  have hδ1 : δ (t2.sol.xmean k) = stp k := by simp only [hδ, if_true]
  have hδ2 : δ (t2.sol.xmean l) = stp l := by simp only [hδ, if_neg hxkl]
  set env' : Env 2 := { env with fladd := fun x y => if |y| ≤ δ x then x else x + y } with henv'
  have hr' : GenRun env' s 2 t2 := .turn (.turn (.refl _) hg1) hg2
  have hs' : Strat.new env' .plain q = .ok s := hs
  have hact := onlyCrit_active (c := 3) (by decide) p
  obtain ⟨b, t', h1, h2⟩ := C44_single env' .plain q s t2 1 3 (Or.inr ⟨hu, hs'⟩) hact.1 hv0 hr' rfl
    (by rw [(generation_npf hg2).2, (generation_npf hg1).2, hfr.runStatus]) hact.2
  have hfull : t2.p.sep = false ∧ t2.p.vd = false := by
    rw [hp2]; exact ⟨hp1s.sep, hp1s.vd⟩
  refine ⟨env', δ, p, s, t2, t', rfl, by rw [henv'], hp, hs', hr', ?_, ?_⟩
  · intro h
    unfold NoEffectAxis at h
    rw [if_pos hfull] at h
    have h3 := h k l
    simp only [henv'] at h3
    rw [hsz, hδ1, if_neg (not_le.2 hstplt)] at h3
    have h4 := hsz l k l
    have h5 : 0.1 * t2.sol.sigma * Real.sqrt (t2.sol.leigenvalues l) * t2.sol.leigenvectors k l = 0 := by linarith
    rw [h5, abs_zero] at h4
    exact absurd h4 (hsp0 l).ne
  · have : b = true := by
      rw [h2]
      unfold Fires
      simp only [Int.reduceEq, Int.reduceNeg, false_and, true_and, false_or, or_false]
      unfold NoEffectAxisCoded
      rw [if_pos hfull]
      intro i j
      simp only [henv']
      rw [hsz]
      rcases hkl i with rfl | rfl
      · rw [hδ1, if_pos le_rfl]
      · rw [hδ2, if_pos le_rfl]
    rw [this] at h1
    exact h1

/-! ### C45: MAXFEVALS, and runs that meet the hypotheses of C46-C50 -/

/-- **C45**, MAXFEVALS active and a budget set, no uncertainty handling and no gradient: the run ends, after at
most `max 1 max_fevals` iterations. -/
theorem C45_maxFevals (env : Env n) (kind : CovKind) (p : Params n) (s : Strat n)
    (h0 : Strat.new env kind p = .ok s) (hk : UniqueKeys p) (ha : CritActive p 8) (hm : p.maxFevals ≠ -1)
    (hr : p.initialElitistOnRestart = false) (huh : p.uh = false) (hg : p.withGradient = false) :
    ∃ o, o ≠ .ok none ∧ (∀ fuel, max 1 p.maxFevals.toNat + 1 ≤ fuel → s.optimize env fuel = o) ∧
      ∀ s', o = .ok (some s') → s'.niter ≤ max 1 p.maxFevals.toNat := by
  have hnew := Strat.new_ok h0
  have hev : ∀ {k : ℕ} {s0 t : Strat n}, GenRun env s0 k t → s0.p = { p with sigmaInit := s.sol.sigma } →
      t.p = s0.p ∧ s0.sol.nevals + k ≤ t.sol.nevals := by
    intro k s0 t h hp
    induction h with
    | refl => exact ⟨rfl, le_rfl⟩
    | stop _ i ih =>
      obtain ⟨k, r, e⟩ := Strat.stop_frame i
      rw [e]; exact ih
    | turn _ i ih =>
      obtain ⟨j1, j2⟩ := ih
      obtain ⟨tr, hrun⟩ := Strat.generation_run i
      have := generation_evals (by rw [j1, hp]; exact huh) (by rw [j1, hp]; exact hg) i
      rw [this, j1, hp]
      refine ⟨by rw [(run_p hrun).1, j1, hp], ?_⟩
      have : p.lambda ≠ 0 := hnew.2.1
      show _ ≤ _ + p.lambda
      omega
  obtain ⟨h1, h2, h3⟩ := optimize_ends (env := env) (s := s) (N := max 1 p.maxFevals.toNat)
    (by rw [hnew.2.2.2.1]; exact hr) fun s0 tr t t' i1 i2 i3 hf => by
      obtain ⟨e1, e2, e3, e4, _⟩ := evalInitial_kept i1
      obtain ⟨_, _, _, r4, r5, _, r7, _⟩ := run_p i2.askRun.run
      have hc : FlagsOf p t.crit := by rw [r7, e2]; exact new_crit h0 hk
      have hp0 : s0.p = { p with sigmaInit := s.sol.sigma } := by rw [e1, hnew.2.2.2.1]
      obtain ⟨j1, j2⟩ := hev i2.genRun hp0
      have hpl : t.p = { p with sigmaInit := s.sol.sigma } := j1.trans hp0
      rcases (stop_false hf).2.2 with ⟨h2, _⟩ | ⟨_, h2, _⟩
      · rw [r4, e3, hnew.2.2.2.2.2.2.1] at h2; omega
      · have := stopCrit_zero h2 8 ((hc.mem 8).2 ha)
        rw [show critFun env.fladd 8 t.p t.sol = critMaxFEvals t.p t.sol from rfl] at this
        classical
        rw [crit_maxFEvals] at this
        injection this with this
        by_cases ham : MaxFEvals t.p t.sol
        · rw [if_pos ham] at this; cases this
        · refine ham ⟨by rw [hpl]; exact hm, ?_⟩
          rw [hpl]
          show p.maxFevals ≤ _
          have := Int.self_le_toNat p.maxFevals
          omega
  refine ⟨_, h2, h1, fun s' h => ?_⟩
  have := h3 s' h
  rwa [hnew.2.2.2.2.2.2.1, Nat.zero_add] at this

/-- The settings of the runs below: one criterion, 3 iterations, 7 evaluations, target 0. -/
noncomputable def budgeted (c : ℤ) (p : Params n) : Params n :=
  { onlyCrit c p with maxIter := 3, maxFevals := 7, ftarget := .num 0 }

/-- Each of the three criteria ends a run on the constant objective 0, with a result, for any progress function.
In particular the hypotheses of C46, C47, C48, C49 and C50 are met. -/
theorem C46_witness (hn : 1 ≤ n) (x0 : Vec n) (sigma : ℝ) (seed clock : ℕ) (c : ℤ) (hc : c = 8 ∨ c = 9 ∨ c = 10)
    (env : Env n) (hf : ∀ k y, env.f k y = .num 0) :
    ∃ p s s' fuel, Params.make x0 sigma 2 seed clock GenoPheno.plain = .ok p ∧ Usual .plain (budgeted c p) ∧
      UniqueKeys (budgeted c p) ∧ OnlyActive (budgeted c p) c ∧ (budgeted c p).initialElitistOnRestart = false ∧
      (budgeted c p).withEdm = false ∧ ValObjective env (budgeted c p) ∧
      Strat.new env .plain (budgeted c p) = .ok s ∧ s.optimize env fuel = .ok (some s') := by
  obtain ⟨p, hp, _⟩ := C11_weights hn x0 sigma 2 seed clock GenoPheno.plain
  obtain ⟨hu0, _⟩ := usual_two hn hp c p.xtol
  obtain ⟨u1, u2, u3, u4, u5, u6, u7, u8, u9, u10, u11, u12, u13, u14⟩ := Params.make_plain hp
  have hcs : c ∈ stopCodes := by rcases hc with rfl | rfl | rfl <;> decide
  have hact : UniqueKeys (budgeted c p) ∧ OnlyActive (budgeted c p) c := onlyCrit_active hcs p
  have hconf : Configured (budgeted c p) := .other (.make hp)
    ⟨rfl, rfl, rfl, rfl, rfl, rfl, rfl, rfl, rfl, rfl, rfl, rfl, rfl, rfl, rfl, rfl, rfl⟩
  have hu : Usual .plain (budgeted c p) :=
    ⟨⟨hconf, ⟨hu0.strict.lt_one, hu0.strict.active⟩, by decide, hu0.vd, (fun h => by cases h), u2, u4, hu0.elitist⟩, u1, u3⟩
  have hedm : p.withEdm = false := by
    have hp' := hp
    unfold Params.make at hp'
    obtain ⟨l, -, hp'⟩ := Out.bind_eq_ok.1 hp'
    obtain ⟨mu, w, muw, cs, cc, c1, cm, ds, fs, fc, ch, lv, rl, al, e⟩ := initializeParameters_frame hp'
    rw [e]; rfl
  obtain ⟨s, hs⟩ := new_plain (env := env) (kind := .plain) (p := budgeted c p) u10 hconf.good.1
  have hval : Val (.num 0) := Or.inr ⟨0, by
    have := dblMax_ge
    simp only [abs_zero]; linarith, rfl⟩
  have hv : ValObjective env (budgeted c p) := fun k y => by
    have : (budgeted c p).maximize = false := u8
    rw [this, hf]; exact hval
  have hg : ∀ x : Vec n, ∃ y : Vec n, phenoV (budgeted c p).gp x = .ok y := fun x => ⟨x, by
    have : (budgeted c p).gp = GenoPheno.plain := u10
    rw [this, phenoV_plain]⟩
  have hend : ∃ fuel, s.optimize env fuel ≠ .ok none := by
    rcases hc with rfl | rfl | rfl
    · obtain ⟨o, h1, h2, _⟩ := C45_maxFevals env .plain _ s hs hact.1 hact.2.1 (by simp [budgeted]) u6 u1 u2
      exact ⟨_, by rw [h2 _ le_rfl]; exact h1⟩
    · obtain ⟨o, h1, h2, _⟩ := C45_maxIter env .plain _ s hs hact.1 hact.2.1 (by simp [budgeted]) u6
      exact ⟨_, by rw [h2 _ le_rfl]; exact h1⟩
    · have hnew := Strat.new_ok hs
      refine ⟨2, (optimize_ends (env := env) (s := s) (N := 1) (by rw [hnew.2.2.2.1]; exact u6) ?_).2.1⟩
      intro s0 tr t t' i1 i2 i3 i4
      have hs0 : s0 = s := by
        unfold Strat.evalInitial at i1
        have e1 : s.p.elitist = false := by rw [hnew.2.2.2.1]; exact u5
        have e2 : s.p.initialElitist = false := by rw [hnew.2.2.2.1]; exact u4
        have e3 : s.initialElitist = false := hnew.2.2.2.2.2.2.2.2.2.2.2.2.2.2.2.2.2.2.2
        have e4 : s.p.initialFvalue = false := by rw [hnew.2.2.2.1]; exact u7
        rw [if_neg (by simp [e1, e2, e3, e4])] at i1
        injection i1 with i1
        exact i1.symm
      subst hs0
      have hst : Started env .plain (budgeted 10 p) s0 := Or.inr ⟨hu, hs⟩
      obtain ⟨hL, hR, hv'⟩ := hst.live hv
      have hF := genRun_flat (v := .num 0) i2.genRun hL hR (flat_new hs) hval (by
        intro k y
        rw [hnew.2.2.2.2.2.2.2.2.2.1]
        have : (budgeted 10 p).maximize = false := u8
        rw [this, hf]; rfl)
      obtain ⟨_, _, _, r4, r5, _, r7, _⟩ := run_p i2.askRun.run
      have hc : FlagsOf (budgeted 10 p) t.crit := by rw [r7]; exact new_crit hs hact.1
      obtain ⟨m, hm'⟩ : ∃ m : ℕ, s0.sol.maxHist = m := ⟨s0.sol.maxHist.toNat, by
        have := hR.maxHist; omega⟩
      obtain ⟨hb, _⟩ := C21_bounded env s0 t tr m (by have := hR.maxHist; omega) hm'
        hnew.2.2.2.2.2.1.bestHist hnew.2.2.2.2.2.1.kBestHist hnew.2.2.2.2.2.1.bfvalues i2.askRun.run
      have hbn : t.sol.bestHist ≠ [] := by
        intro h
        rw [h] at hb
        have := hR.maxHist
        rw [List.length_nil] at hb
        omega
      have hbc : t.sol.bestCandidate.fvalue = .num 0 := by
        unfold Sol.bestCandidate
        obtain ⟨l, b, e⟩ := List.eq_nil_or_concat t.sol.bestHist |>.resolve_left hbn
        rw [List.concat_eq_append] at e
        rw [e, List.getLast?_concat]
        exact hF.best b (by rw [e]; simp)
      rcases (stop_false i4).2.2 with ⟨h2, _⟩ | ⟨_, h2, _⟩
      · rw [r4, hnew.2.2.2.2.2.2.1] at h2; omega
      · have := stopCrit_zero h2 10 ((hc.mem 10).2 hact.2.1)
        rw [show critFun env.fladd 10 t.p t.sol = critFTarget t.p t.sol from rfl] at this
        classical
        rw [crit_fTarget] at this
        injection this with this
        by_cases ham : FTarget t.p t.sol
        · rw [if_pos ham] at this; cases this
        · have ht : t.p.ftarget = .num 0 := by
            rw [(run_p i2.askRun.run).1, hnew.2.2.2.1]; rfl
          refine ham ⟨by rw [ht]; simp, ?_⟩
          rw [hbc, ht]
          exact le_refl (0 : EReal)
  obtain ⟨fuel, hfuel⟩ := hend
  obtain ⟨s', hs'⟩ := ends_well hu.run.good (begins_new hs) (esSound_new hs) (new_crit hs hact.1) hv hg hedm u6 fuel hfuel
  exact ⟨p, s, s', fuel, hp, hu, hact.1, hact.2, u6, hedm, hv, hs, hs'⟩

end Libcmaes
