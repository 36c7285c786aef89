import Verif.Lemmas.Resume
import Verif.Lemmas.RestartWit
import Verif.Props.Sampling
import Verif.Props.Eval
import Verif.Props.Solutions
import Verif.Props.Distribution
import Verif.Props.Params

/-!
# C55: starting from an existing solution

`Strat.newFromSolution` is the constructor from parameters and a solution (`start_from_solution`).
-/

namespace Libcmaes

open Spec Matrix Finset

variable {n : ℕ}

/-- The lengths of the histories of a resumed run. -/
theorem resume_histories {env : Env n} {kind : CovKind} {q : Params n} {sol : Sol n} {t : Strat n} {k : ℕ}
    (hm : 0 < sol.maxHist) (hr : q.initialElitistOnRestart = false) (he : q.withEdm = false)
    (h : (Strat.newFromSolution kind q sol).optimize env k = .ok (some t)) :
    (t.sol.bestHist.length : ℤ) = min sol.maxHist t.niter ∧ (t.sol.kBestHist.length : ℤ) = min sol.maxHist t.niter ∧
      t.sol.bfvalues.length = min 20 t.niter := by
  obtain ⟨s0, s2, tr, u, j1, j2, j3, j4⟩ := optimize_plain hr h
  obtain ⟨e1, e2, e3, e4, _, e6, e7, _⟩ := evalInitial_kept j1
  have hrun := j2.askRun.run
  obtain ⟨r1, _, _, r4, r5, _, r7, _⟩ := run_p hrun
  obtain ⟨kk, r, e⟩ := Strat.stop_frame j3
  rw [if_neg (by rw [e, r1, e1]; simp [Strat.newFromSolution, he])] at j4
  injection j4 with j4
  have hin : s0.sol.maxHist = sol.maxHist ∧ s0.sol.bestHist = [] ∧ s0.sol.kBestHist = [] ∧ s0.sol.bfvalues = [] := by
    rcases Strat.evalInitial_frame j1 with e | ⟨y, v, _, _, e⟩ <;> rw [e] <;> exact ⟨rfl, rfl, rfl, rfl⟩
  obtain ⟨m, hm'⟩ := Int.eq_ofNat_of_zero_le hm.le
  obtain ⟨b1, b2, b3⟩ := C21_bounded env s0 u tr m (by omega) (by rw [hin.1, hm']) hin.2.1 hin.2.2.1 hin.2.2.2 hrun
  have hn : t.niter = tr.length := by
    rw [← j4, e]
    show u.niter = _
    rw [r4, e3]
    show 0 + tr.length = _
    omega
  rw [hn, ← j4, e, hm']
  refine ⟨?_, ?_, b3⟩
  · show (u.sol.bestHist.length : ℤ) = _
    rw [b1]; exact Nat.cast_min _ _
  · show (u.sol.kBestHist.length : ℤ) = _
    rw [b2]; exact Nat.cast_min _ _

/-- **C55**, what holds.  A run with usual settings and full covariance that made a generation, then a second
search, with settings of its own but the same population size, from its solution: it ends within the automatic limit
on iterations, and counts iterations, evaluations and calls from zero; the histories hold its own generations
only.  Its first candidates are drawn around the mean of the solution, with the step size of the solution and
the identity as covariance; the evolution paths are zero. -/
theorem C55_resume_partial (env env' : Env n) (kind kind' : CovKind) (p q : Params n) (s s1 : Strat n) (fuel : ℕ)
    (hu : UsualRun kind p) (hk : UniqueKeys p) (hv : ValObjective env p)
    (hg : ∀ x : Vec n, ∃ y : Vec n, phenoV p.gp x = .ok y)
    (hs : ∀ x : Vec n, ∃ y : Vec n, scaleToInternalV p.gp x = .ok y)
    (he : p.withEdm = false) (hr : p.initialElitistOnRestart = false) (ha : CritActive p 7)
    (hsep : p.sep = false) (h0 : Strat.new env kind p = .ok s) (h1 : s.optimize env fuel = .ok (some s1))
    (hi : s1.niter ≠ 0)
    (hu' : UsualRun kind' q) (hq : q.sep = false) (hl : q.lambda = p.lambda) (hsg : 0 < q.sigmaInit)
    (hv' : ∀ k y, Val (env'.f k y)) (hg' : ∀ x : Vec n, ∃ y : Vec n, phenoV q.gp x = .ok y)
    (he' : q.withEdm = false) (hr' : q.initialElitistOnRestart = false) :
    ∃ r t, r = Strat.newFromSolution kind' q s1.sol ∧
      (∀ k, ⌈autoLimit q⌉₊ + 1 ≤ k → r.optimize env' k = .ok (some t)) ∧
      t.niter ≤ ⌈autoLimit q⌉₊ ∧ t.sol.niter = t.niter ∧
      (∃ e ≤ 1, t.calls.length = t.niter * q.lambda + e ∧ t.sol.nevals = t.niter * q.lambda + e ∧
        t.nevals = t.calls.length) ∧
      (t.sol.bestHist.length : ℤ) = min s1.sol.maxHist t.niter ∧
      (t.sol.kBestHist.length : ℤ) = min s1.sol.maxHist t.niter ∧ t.sol.bfvalues.length = min 20 t.niter ∧
      r.sol.psigma = 0 ∧ r.sol.pc = 0 ∧
      ∃ A : Mat n, A * Aᵀ = 1 ∧ ∃ pop r1, r.ask env' = .ok (pop, r1) ∧ ∀ j < q.lambda, ∃ x, pop[j]? = some x ∧
        ∀ i, Free q i → x i = s1.sol.xmean i + s1.sol.sigma * A.mulVec (env'.z j) i := by
  have hp := (begins_new h0).params
  have hR := runReady_new hu.good h0 hk he hr ha hg hs
  have hvs : ValObjective env s.p := by rw [hp]; exact hv
  obtain ⟨hL1, hR1⟩ := hR.end_live hvs h1
  have hp1 : s1.p = s.p := (hR.done hvs h1).2.2.2.2.2
  have hsep1 : s1.p.sep = false := by rw [hp1, hp]; exact hsep
  have hl1 : q.lambda = s1.p.lambda := by rw [hp1, hp]; exact hl
  obtain ⟨t, t1, t2, t3, -⟩ := resume_run (resumeSol hL1 hR1 hi hsep1 hl1) hu'.good hq hsg hv' hg' he' hr'
  set r := Strat.newFromSolution kind' q s1.sol with hrdef
  have ht := t1 _ le_rfl
  obtain ⟨e, hee, e1, e2⟩ := run_evals (s := r) hr' he' hu'.uh hu'.grad rfl ht
  obtain ⟨b1, b2, b3⟩ := resume_histories hR1.maxHist hr' he' ht
  refine ⟨r, t, rfl, t1, t2, t3, ⟨e, hee, ?_, ?_, ?_⟩, b1, b2, b3, rfl, rfl, ?_⟩
  · rw [e1]; simp [hrdef, Strat.newFromSolution]
  · rw [e2]; simp [hrdef, Strat.newFromSolution, Sol.reset]
  · exact (optimize_counted _ ⟨rfl, Nat.zero_le _⟩ ht).1
  · obtain ⟨A, hA, hAs⟩ := C19_full env'.eig (1 : Mat n) PD_one.psd
    have hgd : GoodParams r.p := hu'.good.good.same
      ⟨rfl, rfl, rfl, rfl, rfl, rfl, rfl, rfl, rfl, rfl, rfl, rfl, rfl, rfl, rfl, rfl, rfl⟩
    have hA1 : AskLive r := ⟨hgd.fixed_lt, hu'.vd, hu'.grad,
      fun _ => ⟨((hL1.full hsep1).2.2 hi).1, fun h => absurd rfl h⟩,
      fun h => absurd (hq.symm.trans h) (by decide), fun h => absurd h hu'.tpa⟩
    obtain ⟨pop, r1, hask, -⟩ := Strat.ask_total (env := env') hA1
    refine ⟨A, hA, pop, r1, hask, fun j hj => ?_⟩
    obtain ⟨x, hx, hx'⟩ := hAs env' r r1 pop rfl rfl hq hu'.vd hu'.grad (Or.inr rfl) (Or.inr rfl) hask j hj
    refine ⟨x, hx, fun i hi => ?_⟩
    have := hx' i hi
    rwa [show r.nz + j = j from Nat.zero_add j] at this

/-- **C55** fails as to the stopping criteria: whatever criteria the user deactivates, they are active in a
resumed search.  Here the user deactivates all of them and the progress function asks for no stop: the
search ends by one of the deactivated criteria. -/
theorem C55_crit_false (env env' : Env n) (kind kind' : CovKind) (p q : Params n) (s s1 : Strat n) (fuel : ℕ)
    (hu : UsualRun kind p) (hk : UniqueKeys p) (hv : ValObjective env p)
    (hg : ∀ x : Vec n, ∃ y : Vec n, phenoV p.gp x = .ok y)
    (hs : ∀ x : Vec n, ∃ y : Vec n, scaleToInternalV p.gp x = .ok y)
    (he : p.withEdm = false) (hr : p.initialElitistOnRestart = false) (ha : CritActive p 7)
    (hsep : p.sep = false) (h0 : Strat.new env kind p = .ok s) (h1 : s.optimize env fuel = .ok (some s1))
    (hi : s1.niter ≠ 0)
    (hu' : UsualRun kind' q) (hq : q.sep = false) (hl : q.lambda = p.lambda) (hsg : 0 < q.sigmaInit)
    (hv' : ∀ k y, Val (env'.f k y)) (hg' : ∀ x : Vec n, ∃ y : Vec n, phenoV q.gp x = .ok y)
    (he' : q.withEdm = false) (hr' : q.initialElitistOnRestart = false)
    (hoff : ∀ c, ¬ CritActive q c) (hpf : ∀ k q sol, env'.pfunc k q sol = 0) :
    ∃ t, (∀ k, ⌈autoLimit q⌉₊ + 1 ≤ k →
        (Strat.newFromSolution kind' q s1.sol).optimize env' k = .ok (some t)) ∧
      t.niter ≠ 0 ∧ t.sol.runStatus ∈ stopCodes ∧ ¬ CritActive q t.sol.runStatus ∧
      critFun env'.fladd t.sol.runStatus t.p t.sol = .ok t.sol.runStatus := by
  have hp := (begins_new h0).params
  have hR := runReady_new hu.good h0 hk he hr ha hg hs
  have hvs : ValObjective env s.p := by rw [hp]; exact hv
  obtain ⟨hL1, hR1⟩ := hR.end_live hvs h1
  have hp1 : s1.p = s.p := (hR.done hvs h1).2.2.2.2.2
  have hsep1 : s1.p.sep = false := by rw [hp1, hp]; exact hsep
  have hl1 : q.lambda = s1.p.lambda := by rw [hp1, hp]; exact hl
  obtain ⟨t, t1, t2, t3, t4⟩ := resume_run (resumeSol hL1 hR1 hi hsep1 hl1) hu'.good hq hsg hv' hg' he' hr'
  obtain ⟨t5, t6, t7⟩ := t4 hpf
  exact ⟨t, t1, t5, t6, hoff _, t7⟩

/-- All criteria deactivated. -/
def allOff (p : Params n) : Params n := { p with stoppingCrit := stopCodes.map fun c => (c, false) }

/-- The hypotheses of `C55_resume_partial` and of `C55_crit_false` are met by default settings in each dimension, the
second search having all criteria deactivated. -/
theorem C55_witness (env : Env n) (kind : CovKind) (x0 : Vec n) (sigma : ℝ) (seed clock : ℕ) (p : Params n)
    (hk : kind ≠ .vd) (hsg : 0 < sigma) (hv : ∀ k y, Val (env.f k y)) (hpf : ∀ k q sol, env.pfunc k q sol = 0)
    (hp : Params.make x0 sigma (-1) seed clock GenoPheno.plain = .ok p) :
    UsualRun kind p ∧ UniqueKeys p ∧ ValObjective env p ∧ p.withEdm = false ∧ p.initialElitistOnRestart = false ∧
      CritActive p 7 ∧ p.sep = false ∧ (∃ s s1 fuel, Strat.new env kind p = .ok s ∧
        s.optimize env fuel = .ok (some s1) ∧ s1.niter ≠ 0) ∧
      UsualRun kind (allOff p) ∧ 0 < (allOff p).sigmaInit ∧ ∀ c, ¬ CritActive (allOff p) c := by
  obtain ⟨u1, u2, u3, u4, u5, u6, u7, u8, u9, u10, u11, u12, u13, u14⟩ := Params.make_plain hp
  obtain ⟨l1, l2, l3, l4⟩ := Params.make_limits hp
  obtain ⟨f1, f2⟩ := Params.make_flags hp
  obtain ⟨hu, s, hs, hR⟩ := default_ready (env := env) (p.nrestarts) hk hp (Or.inl rfl)
  have hvo : ValObjective env p := by intro k y; rw [u8]; exact hv k y
  have hR' : RunReady kind s := hR
  have hsp := (begins_new hs).params
  obtain ⟨s1, a1, a2, a3, a4, a5, a6, a7, a8, a9, a10, _⟩ := hR'.run (env := env) (by
    intro k y; rw [hsp]; exact hvo k y)
  refine ⟨hu, by unfold UniqueKeys; rw [l1]; simp, hvo, l2, u6, ⟨by decide, by rw [l1]; simp⟩, f1,
    ⟨s, s1, _, hs, a1 _ le_rfl, a10 fun q sol _ => hpf _ _ _⟩, ?_, by rw [← u14] at hsg; exact hsg, ?_⟩
  · have hu' := hu
    obtain ⟨h1, h2, h3, h4, h5, h6, h7, h8⟩ := hu'
    exact ⟨h1.other ⟨rfl, rfl, rfl, rfl, rfl, rfl, rfl, rfl, rfl, rfl, rfl, rfl, rfl, rfl, rfl, rfl, rfl⟩,
      ⟨h2.1, h2.2⟩, h3, h4, h5, h6, h7, h8⟩
  · rintro c ⟨h1, h2⟩
    exact h2 (List.mem_map.2 ⟨c, h1, rfl⟩)

/-- **C55** fails with a diagonal covariance: after any number of generations, the first generation of a
search that starts from the solution has undefined behaviour (the evolution paths, reset to the size of a
matrix that was never computed, are empty). -/
theorem C55_sep_false (env env' : Env n) (kind kind' : CovKind) (p q : Params n) (s s1 : Strat n) (k : ℕ)
    (hu : Usual kind p) (hsep : p.sep = true) (h0 : Strat.new env kind p = .ok s)
    (h1 : s.generations env k = .ok s1) (hf : ∀ k y, (env.f k y).IsNum)
    (hu' : Usual kind' q) (hq : q.sep = true) (hl : q.lambda = p.lambda) (hf' : ∀ k y, (env'.f k y).IsNum)
    (hg' : ∀ x : Vec n, ∃ y : Vec n, phenoV q.gp x = .ok y) :
    (Strat.newFromSolution kind' q s1.sol).generation env' = .error .ub := by
  obtain ⟨hL, hr⟩ := live_new hu h0
  have hp := (begins_new h0).params
  have hsep0 : s.p.sep = true := by rw [hp]; exact hsep
  obtain ⟨hL1, hr1, hp1⟩ : Live s1 ∧ RefNum s1 ∧ s1.p = s.p := by
    rcases generations_total hL hf hr k with ⟨s', e1, e2, e3, e4⟩ | ⟨x, e, _, h2⟩
    · rw [e1] at h1; injection h1 with h1; exact h1 ▸ ⟨e2, e3, e4⟩
    · rw [h2] at h1; cases h1
  have hcsq : s1.sol.hasCsq = false := by
    rw [generations_hasCsq k hsep0 h1]
    unfold Strat.new at h0
    obtain ⟨⟨p', sol⟩, hm, h0⟩ := Out.bind_eq_ok.1 h0
    injection h0 with h0
    rw [← h0]
    exact Sol.make_hasCsq hm
  have hl1 : q.lambda = s1.p.lambda := by rw [hp1, hp]; exact hl
  refine generation_paths ?_ hu'.vd hu'.grad hu'.uh hu'.tpa hq ?_ ?_ ?_ rfl hr1 hf' hg' hcsq
  · exact hu'.run.good.good.same
      ⟨rfl, rfl, rfl, rfl, rfl, rfl, rfl, rfl, rfl, rfl, rfl, rfl, rfl, rfl, rfl, rfl, rfl⟩
  · exact hL1.sep (by rw [hp1]; exact hsep0)
  · show s1.sol.cands.length = q.lambda
    rw [hl1]; exact hL1.cands
  · show s1.sol.kcand < q.lambda
    rw [hl1]; exact hL1.kcand

/-- The hypotheses are met by the default settings with `set_sep`, in each dimension. -/
theorem C55_sep_witness (env : Env n) (kind : CovKind) (x0 : Vec n) (sigma : ℝ) (seed clock : ℕ) (p : Params n)
    (hk : kind ≠ .vd) (hf : ∀ k y, (env.f k y).IsNum)
    (hp : Params.make x0 sigma (-1) seed clock GenoPheno.plain = .ok p) (k : ℕ) :
    Usual kind p.setSep ∧ p.setSep.sep = true ∧
      ∃ s s1, Strat.new env kind p.setSep = .ok s ∧ s.generations env k = .ok s1 := by
  obtain ⟨u1, u2, u3, u4, u5, u6, u7, u8, u9, u10, u11, u12, u13, u14⟩ := Params.make_plain hp
  obtain ⟨hu, s, hs, hR⟩ := default_ready (env := env) p.setSep.nrestarts hk hp (Or.inr rfl)
  obtain ⟨h1, h2, h3, h4, h5, h6, h7, h8⟩ := hu
  have hU : Usual kind p.setSep := ⟨⟨h1, h2, h3, h4, h5, h6, u4, by
    rintro ⟨h, _⟩
    exact absurd (u5.symm.trans h) (by decide)⟩, h7, h8⟩
  refine ⟨hU, rfl, s, ?_⟩
  have hp' := (begins_new hs).params
  obtain ⟨hL, hr⟩ := live_new hU hs
  rcases generations_total hL hf hr k with ⟨s', e1, e2, e3, e4⟩ | ⟨x, e, h1, _⟩
  · exact ⟨s', hs, e1⟩
  · rw [hp', show ({ p.setSep with sigmaInit := _ } : Params n).gp = GenoPheno.plain from u10, phenoV_plain] at h1
    cases h1

/-- **C55** fails for BIPOP: the budget of evaluations and the step size to be used by the runs are left
uninitialised by the constructor from a solution, and read at the first run. -/
theorem C55_bipop_false (env : Env n) (kind : CovKind) (q : Params n) (sol : Sol n) (fuel : ℕ)
    (hr : q.nrestarts ≠ 0) : (Bipop.newFromSolution kind q sol).optimize env fuel = .error .ub := by
  unfold Bipop.optimize
  obtain ⟨k, hk⟩ : ∃ k, q.nrestarts = k + 1 := ⟨q.nrestarts - 1, by omega⟩
  have : (Bipop.newFromSolution kind q sol).s.p.nrestarts = k + 1 := hk
  rw [this, Bipop.outer]
  have h1 : Bipop.smallLoop env fuel fuel ⟨Bipop.newFromSolution kind q sol, 0, 0, none⟩ =
      .ok (some ⟨Bipop.newFromSolution kind q sol, 0, 0, none⟩) := by
    cases fuel <;> rfl
  rw [h1, Out.ok_bind]
  have h2 : Bipop.largeRun env fuel 0 ⟨Bipop.newFromSolution kind q sol, 0, 0, none⟩ = .error .ub := by
    unfold Bipop.largeRun
    rfl
  simp only [h2]
  rfl

/-- **C55** fails as to the starting point: the search goes on from the mean of the solution, not from its best
candidate.  Dimension 1, default settings, `x ↦ x`, one generation; then the first candidate of the resumed
search, for which the draw is zero, is the mean of the solution and not its best candidate. -/
theorem C55_mean_false :
    ∃ (env : Env 1) (p : Params 1) (s s1 s2 : Strat 1) (pop : List (Vec 1)) (x : Vec 1),
      env.f = (fun _ y => FVal.ofReal (y 0)) ∧ env.z 0 = 0 ∧ Usual .plain p ∧ Strat.new env .plain p = .ok s ∧
      s.generations env 1 = .ok s1 ∧ (Strat.newFromSolution .plain p s1.sol).ask env = .ok (pop, s2) ∧
      pop[0]? = some x ∧ x = s1.sol.xmean ∧ x ≠ s1.sol.bestCandidate.x := by
  set env : Env 1 := Env.basic (fun _ x => FVal.ofReal (x 0)) (fun j _ => j) with henv
  obtain ⟨p, hp, _⟩ := C11_weights (n := 1) le_rfl (fun _ => 0) 1 (-1) 0 0 GenoPheno.plain
  obtain ⟨hu, hgp, hfx, -⟩ := usual_default (by norm_num) hp (kind := .plain) (by decide)
  obtain ⟨f1, f2⟩ := Params.make_flags hp
  obtain ⟨-, -, -, hlz⟩ := Params.make_limits hp
  have hmx := (Params.make_plain hp).2.2.2.2.2.2.2.1
  have hg := hu.configured.good.1
  have hlam : 4 ≤ p.lambda := by
    unfold Params.make at hp
    obtain ⟨l, hl, hp⟩ := Out.bind_eq_ok.1 hp
    rw [(initializeParameters_spec hp).lambda]
    unfold lambdaOf at hl
    simp at hl
    show 4 ≤ l
    rw [← hl]
  have hmu : 2 ≤ p.mu := by rw [hg.mu]; omega
  obtain ⟨s, hs⟩ := new_plain (env := env) (kind := .plain) (p := p) hgp hg
  obtain ⟨hL, hr⟩ := live_new hu hs
  have hB := begins_new hs
  have hsp := hB.params
  rcases generation_total_num (env := env) hL (fun _ _ => trivial) hr with ⟨s1, h1, hL1, hr1⟩ | ⟨x, e, h1, _⟩
  swap
  · rw [hsp] at h1
    rw [show ({ p with sigmaInit := _ } : Params 1).gp = GenoPheno.plain from hgp, phenoV_plain] at h1; cases h1
  have hg1 : s.generations env 1 = .ok s1 := by rw [Strat.generations, h1]; rfl
  obtain ⟨pop, t1, phen, t2, t3, ha, hph, hev, htl, es1, hperm, hlen, -⟩ := generation_points hL.good hL.cands h1
  have hpt : s.p.lambda = p.lambda := by rw [hsp]
  obtain ⟨⟨es, ei, ue, c, nz, x1, x2, p1, p2, e1⟩, hpl⟩ := Strat.ask_frame ha
  have hphen : phen = pop := by
    rw [phenoCols_plain (by rw [e1]; show s.p.gp = _; rw [hsp]; exact hgp)] at hph
    injection hph with hph; exact hph.symm
  subst hphen
  have hsp1 : s1.p = s.p := by
    obtain ⟨tr, hrun⟩ := Strat.generation_run h1
    exact (run_p hrun).1
  -- the candidates are pairwise different
  have hel : t1.elitismOn = false := by
    rw [e1]; simp [Strat.elitismOn, hB.niter]
  have hneg : t1.negate = false := by rw [e1]; show s.negate = _; rw [hB.negate]; exact hmx
  obtain ⟨o, ho, cl, hcl, hfst, hval, hcd⟩ := C37_eval env t1 t2 phen phen (by rw [e1]; exact hL.uh) rfl hev
  have hsep0 : s.p.sep = false := by rw [hsp]; exact f1
  obtain ⟨A, hA, hAs⟩ := C19_full env.eig (1 : Mat 1) PD_one.psd
  have hfree : ∀ q : Params 1, q.fixedP = [] → Free q 0 := by
    intro q hq v hv; rw [hq] at hv; cases hv
  have hcand := hAs env s t1 phen rfl hB.fresh.cov hsep0 hL.vd hL.grad (Or.inl hL.tpa) (Or.inr hB.niter) ha
  have hA0 : A 0 0 ≠ 0 := by
    intro h0
    have := congrFun (congrFun hA 0) 0
    simp [mul_apply, h0] at this
  have hz : ∀ j : ℕ, A.mulVec (env.z j) 0 = A 0 0 * j := by
    intro j
    simp [mulVec, dotProduct, henv, Env.basic]
  have hpts : ∀ r < p.lambda, ∃ v, t2.sol.cands[r]? = some ⟨FVal.ofReal (v 0), v, r⟩ ∧
      v 0 = s.sol.xmean 0 + s.sol.sigma * (A 0 0 * ((s.nz + r : ℕ) : ℝ)) := by
    intro r hr
    obtain ⟨x, hx, hx'⟩ := hcand r (by rw [hpt]; exact hr)
    obtain ⟨j, y, v, _, h4, h5, h6⟩ := hcd r x hx (Or.inr hel)
    rw [hx] at h4
    injection h4 with h4
    have h7 : v = FVal.ofReal (y 0) := hval j _ h5
    rw [hneg, h7, ← h4] at h6
    refine ⟨x, h6, ?_⟩
    rw [hx' 0 (hfree _ (by rw [hsp]; exact hfx)), hz]
  have hlen2 : t2.sol.cands.length = p.lambda := by rw [← hperm.length_eq, hlen, hpt]
  have hnd : (t2.sol.cands.map fun c : Cand 1 => c.x 0).Nodup := by
    rw [List.nodup_iff_injective_getElem]
    intro i j hij
    have hi : i.1 < p.lambda := lt_of_lt_of_eq i.2 (by rw [List.length_map, hlen2])
    have hj : j.1 < p.lambda := lt_of_lt_of_eq j.2 (by rw [List.length_map, hlen2])
    obtain ⟨v, hv1, hv2⟩ := hpts i hi
    obtain ⟨w, hw1, hw2⟩ := hpts j hj
    simp only [List.getElem_map] at hij
    rw [List.getElem?_eq_some_iff] at hv1 hw1
    obtain ⟨_, hv1⟩ := hv1
    obtain ⟨_, hw1⟩ := hw1
    rw [hv1, hw1] at hij
    simp only at hij
    rw [hv2, hw2] at hij
    have hsg : s.sol.sigma ≠ 0 := hL.sigma.ne'
    have h8 : s.sol.sigma * A 0 0 * ((s.nz + i.1 : ℕ) : ℝ) = s.sol.sigma * A 0 0 * ((s.nz + j.1 : ℕ) : ℝ) := by
      linarith
    have h9 := mul_left_cancel₀ (mul_ne_zero hsg hA0) h8
    have h10 : s.nz + i.1 = s.nz + j.1 := by exact_mod_cast h9
    exact Fin.ext (by omega)
  -- the best one is below the mean
  have hmaxH : 0 < t2.sol.maxHist := by
    obtain ⟨c2, nu, nzuh, lr, cu, cs, e2, hcs, _⟩ := Strat.eval_frame hev
    rw [e2, e1]
    show 0 < s.sol.maxHist
    rw [(Strat.new_ok hs).2.2.2.2.2.2.2.2.2.2.2.2.2.2.1]; exact maxHistOf_pos _ _ _
  have hp2 : t2.p = s.p := by
    obtain ⟨c2, nu, nzuh, lr, cu, cs, e2, hcs, _⟩ := Strat.eval_frame hev
    rw [e2, e1]
  obtain ⟨-, ⟨pre, post, hb1, hb2, hb3⟩, -⟩ := C20_tell_ranks env t2 t3 (by rw [hp2]; exact hL.uh) hmaxH htl
  have hb : s1.sol.bestCandidate = t3.sol.bestCandidate := by rw [es1]; rfl
  set b := t3.sol.bestCandidate with hbdef
  have hbm : b ∈ t2.sol.cands := by rw [hb1]; simp
  have hfv : ∀ d ∈ t2.sol.cands, d.fvalue = FVal.ofReal (d.x 0) := by
    intro d hd
    obtain ⟨i, hi, hd⟩ := List.getElem_of_mem hd
    obtain ⟨v, hv1, _⟩ := hpts i (by rw [← hlen2]; exact hi)
    rw [List.getElem?_eq_getElem hi] at hv1
    injection hv1 with hv1
    rw [← hd, hv1]
  have hle : ∀ d ∈ t2.sol.cands, b.x 0 ≤ d.x 0 := by
    intro d hd
    by_contra hlt
    push Not at hlt
    have hnl : ¬ FVal.lt d.fvalue b.fvalue := by
      have hd' := hd
      rw [hb1] at hd'
      rcases List.mem_append.1 hd' with h | h
      · intro h'
        have := hb2 d h
        rw [hfv d hd, hfv b hbm] at *
        simp only [FVal.ofReal, FVal.lt, EReal.coe_lt_coe_iff] at this h'
        linarith
      · rcases List.mem_cons.1 h with h | h
        · rw [h]; exact FVal.lt_irrefl _
        · exact hb3 d h
    apply hnl
    rw [hfv d hd, hfv b hbm]
    simpa [FVal.ofReal, FVal.lt] using hlt
  have hw : GoodWeights t2.p := by rw [hp2]; exact hL.good.weights
  obtain ⟨⟨hmul, hmean⟩, -⟩ := C25_mean_convex env t2 t3 hw htl
  have hmu2 : 2 ≤ t2.p.mu := by rw [hp2, hsp]; exact hmu
  have hperm3 : t3.sol.cands.Perm t2.sol.cands := by rw [es1] at hperm; exact hperm
  have hne : s1.sol.xmean ≠ s1.sol.bestCandidate.x := by
    intro heq
    have h0 : t3.sol.xmean 0 = b.x 0 := by
      have := congrFun heq 0
      rw [hb] at this
      rw [← this, es1]; rfl
    rw [hmean 0] at h0
    have hge : ∀ i : Fin t2.p.mu, b.x 0 ≤ (t3.sol.cands[i.val]'(lt_of_lt_of_le i.2 hmul)).x 0 := fun i =>
      hle _ (hperm3.mem_iff.1 (List.getElem_mem _))
    have hsum : ∑ i : Fin t2.p.mu, t2.p.weights i * ((t3.sol.cands[i.val]'(lt_of_lt_of_le i.2 hmul)).x 0 - b.x 0) = 0 := by
      simp only [mul_sub, sum_sub_distrib]
      rw [h0, ← sum_mul, Fin.sum_univ_eq_sum_range (fun i => t2.p.weights i), hw.sum_one]
      ring
    have hz0 := (sum_eq_zero_iff_of_nonneg fun (i : Fin t2.p.mu) _ =>
      mul_nonneg (hw.pos i i.2).le (sub_nonneg.2 (hge i))).1 hsum
    have hx : ∀ i : Fin t2.p.mu, (t3.sol.cands[i.val]'(lt_of_lt_of_le i.2 hmul)).x 0 = b.x 0 := by
      intro i
      rcases mul_eq_zero.1 (hz0 i (mem_univ i)) with h | h
      · exact absurd h (hw.pos i i.2).ne'
      · linarith
    have hnd3 : (t3.sol.cands.map fun c : Cand 1 => c.x 0).Nodup := (hperm3.map _).nodup_iff.2 hnd
    have h1 := hx ⟨0, by omega⟩
    have h2 := hx ⟨1, by omega⟩
    have := List.nodup_iff_injective_getElem.1 hnd3
      (a₁ := ⟨0, by rw [List.length_map]; omega⟩) (a₂ := ⟨1, by rw [List.length_map]; omega⟩) (by
        simp only [List.getElem_map]
        rw [h1, h2])
    simp at this
  -- the resumed search
  have hi1 : s1.niter ≠ 0 := by rw [es1]; exact Nat.succ_ne_zero _
  set r := Strat.newFromSolution .plain p s1.sol with hrdef
  have hsep1 : s1.p.sep = false := by rw [hsp1]; exact hsep0
  have hgd : GoodParams r.p := hg.same
    ⟨rfl, rfl, rfl, rfl, rfl, rfl, rfl, rfl, rfl, rfl, rfl, rfl, rfl, rfl, rfl, rfl, rfl⟩
  have hA1 : AskLive r := ⟨hgd.fixed_lt, hu.vd, hu.grad,
    fun _ => ⟨((hL1.full hsep1).2.2 hi1).1, fun h => absurd rfl h⟩,
    fun h => absurd (f1.symm.trans h) (by decide), fun h => absurd h hu.tpa⟩
  obtain ⟨pop', r1, hask, -⟩ := Strat.ask_total (env := env) hA1
  obtain ⟨x, hx, hx'⟩ := hAs env r r1 pop' rfl rfl f1 hu.vd hu.grad (Or.inr rfl) (Or.inr rfl) hask 0
    (show 0 < p.lambda by omega)
  have hxm : x = s1.sol.xmean := by
    funext i
    obtain rfl : i = 0 := Subsingleton.elim _ _
    rw [hx' 0 (hfree _ hfx), hz]
    show s1.sol.xmean 0 + s1.sol.sigma * (A 0 0 * ((0 + 0 : ℕ) : ℝ)) = _
    simp
  exact ⟨env, p, s, s1, r1, pop', x, rfl, by funext i; simp [henv, Env.basic], hu, hs, hg1, hask, hx, hxm,
    by rw [hxm]; exact hne⟩

end Libcmaes
