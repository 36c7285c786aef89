import Verif.Lemmas.RestartRun
import Verif.Props.StopCrit
import Verif.Lemmas.RestartWit

/-!
# C51, C52, C53: the restarts of IPOP

`SubRun`, `History`, `Afresh`, `DefaultRates`, `BestRun`: Spec/Restart.lean.
-/

namespace Libcmaes

open Spec

variable {n : ℕ}

/-- **C51.** An IPOP search is a sequence of runs, each one from scratch; the `i`-th one has `λ·2^i`
candidates per generation, the settings and the step size given by the user, and (from the second one on)
the rates that the constructor derives from that population size.  There are as many of them as the user
asked for, unless the budget of evaluations is exhausted before. -/
theorem C51_ipop (env : Env n) (kind : CovKind) (p : Params n) (s s' : Strat n) (b : Option (Sol n)) (fuel : ℕ)
    (hg : GoodParams p) (h0 : Strat.new env kind p = .ok s)
    (h : s.ipopOptimize env fuel = .ok (some (s', b))) :
    ∃ runs, History env s runs s' ∧ runs.length ≤ p.nrestarts ∧ (p.nrestarts ≠ 0 → runs ≠ []) ∧
      (runs.length = p.nrestarts ∨ 0 < p.maxFevals ∧ p.maxFevals ≤ s'.calls.length) ∧
      ∀ (i : ℕ) (r : SubRun n), runs[i]? = some r →
        r.start.p.lambda = p.lambda * 2 ^ i ∧ r.start.sol.cands.length = p.lambda * 2 ^ i ∧
        r.fin.sol.cands.length = p.lambda * 2 ^ i ∧
        r.start.sol.sigma = (if 0 < p.sigmaInit then p.sigmaInit else 1 / n) ∧
        (i ≠ 0 → DefaultRates r.start.p) ∧
        ∃ a b : Vec n, KeepsSettings { p with x0min := a, x0max := b } r.start.p := by
  obtain ⟨runs, hH, hI, hb⟩ := ipop_runs hg h0 h
  refine ⟨runs, hH, hI.count, hI.ne, ?_, fun i r hr => ?_⟩
  · rcases hI.enough with e | e
    · exact Or.inl e
    · have := C36_ipop env kind p s s' fuel b h0 h
      rw [this.1] at e
      exact Or.inr e
  · obtain ⟨i1, i2, i3, i4, i5, i6, i7, i8⟩ := hI.each i r hr
    exact ⟨i1, i2, i3, i4, fun hi => (i7 hi).1, i8⟩

/-- **C51**, evaluations: without uncertainty handling, gradients, expected distance and elitist restarts,
each run calls the objective `λ·2^i` times per iteration, and once more if the initial point is to be
evaluated; the count reported by the solution of a run is that of the run alone. -/
theorem C51_evals (env : Env n) (kind : CovKind) (p : Params n) (s s' : Strat n) (b : Option (Sol n)) (fuel : ℕ)
    (hg : GoodParams p) (h0 : Strat.new env kind p = .ok s) (hr : p.initialElitistOnRestart = false)
    (he : p.withEdm = false) (huh : p.uh = false) (hgr : p.withGradient = false)
    (h : s.ipopOptimize env fuel = .ok (some (s', b))) :
    ∃ runs, History env s runs s' ∧ ∀ (i : ℕ) (r : SubRun n), runs[i]? = some r →
      ∃ e ≤ 1, r.fin.calls.length = r.start.calls.length + r.fin.niter * (p.lambda * 2 ^ i) + e ∧
        r.fin.sol.nevals = r.fin.niter * (p.lambda * 2 ^ i) + e := by
  obtain ⟨runs, hH, hI, hb⟩ := ipop_runs hg h0 h
  refine ⟨runs, hH, fun i r hi => ?_⟩
  obtain ⟨i1, i2, i3, i4, i5, i6, i7, x, y, i8⟩ := hI.each i r hi
  obtain ⟨k, hk⟩ := hH.done r (List.mem_of_getElem? hi)
  have hfr : r.start.niter = 0 ∧ r.start.sol.nevals = 0 := by
    refine chain_all (P := fun _ r => r.start.niter = 0 ∧ r.start.sol.nevals = 0) hH.next ?_ ?_ i hi
    · intro a ha
      rw [hH.first a ha]
      exact ⟨(begins_new h0).niter, (begins_new h0).fresh.nevals⟩
    · intro i a c _ _ hA _
      exact ⟨hA.niter, hA.fresh.nevals⟩
  unfold KeepsSettings at i8
  obtain ⟨e, he1, he2, he3⟩ := run_evals (by rw [i8]; exact hr) (by rw [i8]; exact he) (by rw [i8]; exact huh)
    (by rw [i8]; exact hgr) hfr.1 hk
  refine ⟨e, he1, ?_, ?_⟩
  · rw [he2, i1]
  · rw [he3, i1, hfr.2, Nat.zero_add]

/-- **C51**, an IPOP search ends with a result, whatever the objective (with values in `Val`), the draws and
the progress function, as long as the largest population it uses has at most `(n+2)²` candidates. -/
theorem C51_result (env : Env n) (kind : CovKind) (p : Params n) (s : Strat n) (hu : UsualRun kind p)
    (hk : UniqueKeys p) (hv : ValObjective env p) (hg : ∀ x : Vec n, ∃ y : Vec n, phenoV p.gp x = .ok y)
    (hs : ∀ x : Vec n, ∃ y : Vec n, scaleToInternalV p.gp x = .ok y)
    (he : p.withEdm = false) (hr : p.initialElitistOnRestart = false) (ha : CritActive p 7)
    (h0 : Strat.new env kind p = .ok s) (hl : p.lambda * 2 ^ (p.nrestarts - 1) ≤ (n + 2) ^ 2) :
    ∃ s' b, ∀ fuel, ⌈autoLimit p⌉₊ + 1 ≤ fuel → s.ipopOptimize env fuel = .ok (some (s', b)) := by
  have hp := (begins_new h0).params
  obtain ⟨s', b, h⟩ := ipopLoop_total (env := env) s.p.nrestarts none
    (runReady_new hu.good h0 hk he hr ha hg hs) (by rw [hp]; exact hv) (by
      intro i hi q hq1 hq2
      refine defaultRates_strict hq1 (le_trans ?_ hl)
      rw [hq2, hp]
      rw [hp] at hi
      exact Nat.mul_le_mul_left _ (Nat.pow_le_pow_right (by norm_num) (by have : i + 1 < p.nrestarts := hi; omega)))
  refine ⟨s', b, fun fuel hf => h fuel ?_⟩
  have : autoLimit s.p = autoLimit p := by rw [hp]; rfl
  rw [this]; exact hf

/-- **C51**, the default set-up with one restart, in any dimension: the search ends, and consists of a run with
the default number of candidates and a run with twice as many. -/
theorem C51_default (hn : 1 ≤ n) (env : Env n) (kind : CovKind) (x0 : Vec n) (sigma : ℝ) (seed clock : ℕ)
    (hk : kind ≠ .vd) (hv : ∀ k y, Val (env.f k y)) :
    ∃ p s s' b, Params.make x0 sigma (-1) seed clock GenoPheno.plain = .ok p ∧
      Strat.new env kind { p with nrestarts := 2 } = .ok s ∧
      (∃ N, ∀ fuel, N ≤ fuel → s.ipopOptimize env fuel = .ok (some (s', b))) ∧
      ∃ r1 r2, History env s [r1, r2] s' ∧ r1.start.p.lambda = p.lambda ∧ r2.start.p.lambda = 2 * p.lambda := by
  obtain ⟨p, hp, _⟩ := C11_weights hn x0 sigma (-1) seed clock GenoPheno.plain
  obtain ⟨s, s', b, r1, r2, hs, h, hH, hI, _⟩ := default_two_runs (env := env) hk hv hp (Or.inl rfl)
  refine ⟨p, s, s', b, hp, hs, h, r1, r2, hH, ?_, ?_⟩
  · have := (hI.each 0 r1 rfl).1
    rw [this]; simp
  · have := (hI.each 1 r2 rfl).1
    rw [this]; show p.lambda * 2 ^ 1 = _; ring

/-- **C51** fails for the separable variant: the second run still is separable, but its rates are those of the
full covariance, not those that `set_sep` gives to this population size.  So it is in every dimension from 2 on,
whatever the objective, the draws and the initial point. -/
theorem C51_sep_rates_false (hn : 2 ≤ n) (env : Env n) (kind : CovKind) (x0 : Vec n) (sigma : ℝ)
    (seed clock : ℕ) (hk : kind ≠ .vd) (hv : ∀ k y, Val (env.f k y)) :
    ∃ p s s' b, Params.make x0 sigma (-1) seed clock GenoPheno.plain = .ok p ∧
      Strat.new env kind { p.setSep with nrestarts := 2 } = .ok s ∧
      (∃ N, ∀ fuel, N ≤ fuel → s.ipopOptimize env fuel = .ok (some (s', b))) ∧
      ∃ r1 r2 p2, History env s [r1, r2] s' ∧ r1.start.p.sep = true ∧ r2.start.p.sep = true ∧
        Params.make x0 sigma r2.start.p.lambda seed clock GenoPheno.plain = .ok p2 ∧
        r2.start.p.c1 = p2.c1 ∧ r2.start.p.c1 ≠ p2.setSep.c1 := by
  obtain ⟨p, hp, _⟩ := C11_weights (by omega : 1 ≤ n) x0 sigma (-1) seed clock GenoPheno.plain
  obtain ⟨s, s', b, r1, r2, hs, h, hH, hI, _, hR1, hR2, _⟩ := default_two_runs (env := env) hk hv hp (Or.inr rfl)
  obtain ⟨a1, a2, a3, a4, a5, a6, a7, x, y, a8⟩ := hI.each 0 r1 rfl
  obtain ⟨c1, c2, c3, c4, c5, c6, c7, x', y', c8⟩ := hI.each 1 r2 rfl
  unfold KeepsSettings at a8 c8
  obtain ⟨p2, hp2, hpl, -⟩ := C11_weights (by omega : 1 ≤ n) x0 sigma r2.start.p.lambda seed clock GenoPheno.plain
  obtain ⟨q, hq, hql, hqm, hqw, hqmu, hqs, hqc, _⟩ := (c7 one_ne_zero).1
  have hpq : p2.c1 = q.c1 ∧ 0 < q.c1 := by
    unfold Params.make at hq hp2
    obtain ⟨l, e1, hq⟩ := Out.bind_eq_ok.1 hq
    obtain ⟨l', e2, hp2⟩ := Out.bind_eq_ok.1 hp2
    rw [e1] at e2
    injection e2 with e2; subst e2
    have s1 := initializeParameters_spec hq
    have s2 := initializeParameters_spec hp2
    refine ⟨?_, s1.c1_pos⟩
    rw [s1.c1, s2.c1, s1.muw, s2.muw, s1.mu, s2.mu]
    rfl
  refine ⟨p, s, s', b, hp, hs, h, r1, r2, p2, hH, by rw [a8]; rfl, by rw [c8]; rfl, hp2, by rw [hqc, hpq.1], ?_⟩
  show _ ≠ p2.c1 * (((n : ℝ) + 2) / 3)
  rw [hqc, hpq.1]
  have hn' : (2 : ℝ) ≤ n := by exact_mod_cast hn
  intro e
  have : q.c1 * (((n : ℝ) + 2) / 3 - 1) = 0 := by linarith
  rcases mul_eq_zero.1 this with h | h
  · exact hpq.2.ne' h
  · linarith

/-! ### C52 -/

/-- **C52**, IPOP: if the first run does not end with NaN, the solution returned is that of the best run. -/
theorem C52_ipop (env : Env n) (kind : CovKind) (p : Params n) (s s' : Strat n) (b : Option (Sol n)) (fuel : ℕ)
    (hg : GoodParams p) (h0 : Strat.new env kind p = .ok s)
    (h : s.ipopOptimize env fuel = .ok (some (s', b))) :
    ∃ runs, History env s runs s' ∧ runs.length ≤ p.nrestarts ∧
      ((∃ a, runs.head? = some a ∧ a.value.IsNum) → ∃ r, BestRun runs r ∧ b = some r.fin.sol) ∧
      (∀ a, runs.head? = some a → ¬ a.value.IsNum → b = some a.fin.sol) ∧
      (p.nrestarts = 0 ↔ b = none) := by
  obtain ⟨runs, hH, hI, hb⟩ := ipop_runs hg h0 h
  have hc : ∀ r ∈ runs, r.fin.sol.cands ≠ [] := by
    intro r hr
    obtain ⟨i, hi⟩ := List.mem_iff_getElem?.1 hr
    have := (hI.each i r hi).2.2.1
    have hl := hg.lambda
    intro e
    rw [e] at this
    have : 0 < p.lambda * 2 ^ i := by positivity
    simp at *
    omega
  have hbest : (∃ a, runs.head? = some a ∧ a.value.IsNum) → ∃ r, BestRun runs r ∧ b = some r.fin.sol := by
    rintro ⟨a, ha, hn⟩
    rw [hb]
    exact bestOf_best ha hn hc
  have hnan : ∀ a, runs.head? = some a → ¬ a.value.IsNum → b = some a.fin.sol := by
    intro a ha hn
    rw [hb]
    exact bestOf_nan ha hn (hc a (List.mem_of_head? ha))
  refine ⟨runs, hH, hI.count, hbest, hnan, ?_, ?_⟩
  · intro h
    have : runs = [] := by rw [← List.length_eq_zero_iff]; have := hI.count; omega
    rw [hb, this]; rfl
  · intro hn
    by_contra hr
    obtain ⟨a, ha⟩ : ∃ a, runs.head? = some a := by
      cases hruns : runs with
      | nil => exact absurd hruns (hI.ne hr)
      | cons a l => exact ⟨a, rfl⟩
    by_cases hv : a.value.IsNum
    · obtain ⟨r, _, e⟩ := hbest ⟨a, ha, hv⟩
      rw [e] at hn; cases hn
    · have := hnan a ha hv
      rw [this] at hn; cases hn

/-- **C52**, no restarts asked for: the search does nothing and returns an empty solution with the code of
success. -/
theorem C52_none (env : Env n) (s : Strat n) (fuel : ℕ) (h : s.p.nrestarts = 0) :
    s.ipopOptimize env fuel = .ok (some (s, none)) ∧ solCode (none : Option (Sol n)) = 0 := by
  unfold Strat.ipopOptimize
  rw [h]
  exact ⟨rfl, rfl⟩

/-- **C52** fails if the first run ends with NaN: this happens if the progress function stops it before its first
iteration.  The second run ends with a value that is not NaN, yet the solution of the first one is returned. -/
theorem C52_nan_false (hn : 1 ≤ n) (env : Env n) (kind : CovKind) (x0 : Vec n) (sigma : ℝ) (seed clock : ℕ)
    (hk : kind ≠ .vd) (hv : ∀ k y, Val (env.f k y)) (hp0 : ∀ q sol, env.pfunc 0 q sol ≠ 0)
    (hp1 : ∀ q sol, env.pfunc 1 q sol = 0) :
    ∃ p s s' b, Params.make x0 sigma (-1) seed clock GenoPheno.plain = .ok p ∧
      Strat.new env kind { p with nrestarts := 2 } = .ok s ∧
      (∃ N, ∀ fuel, N ≤ fuel → s.ipopOptimize env fuel = .ok (some (s', b))) ∧
      ∃ r1 r2, History env s [r1, r2] s' ∧ Val r2.value ∧ r1.value = .nan ∧ b = some r1.fin.sol := by
  obtain ⟨p, hp, _⟩ := C11_weights hn x0 sigma (-1) seed clock GenoPheno.plain
  obtain ⟨s, s', b, r1, r2, hs, h, hH, hI, hb, hR1, hR2, hm1, hm2⟩ :=
    default_two_runs (env := env) hk hv hp (Or.inl rfl)
  obtain ⟨u1, u2, u3, u4, u5, u6, u7, u8, u9, u10, u11, u12, u13, u14⟩ := Params.make_plain hp
  have hr1 : r1.start = s := hH.first r1 rfl
  have hnpf : s.npf = 0 := by
    unfold Strat.new at hs
    obtain ⟨⟨p', sol⟩, _, hs⟩ := Out.bind_eq_ok.1 hs
    injection hs with hs; rw [← hs]
  have hsp := (begins_new hs).params
  obtain ⟨k1, hk1⟩ := hH.done r1 (by simp)
  have hfin := optimize_at_once hR1.begins hR1.flags hR1.norestart hR1.edm
    (by rw [hr1, hsp]; exact u4) (by rw [hr1, hsp]; exact u5) (by rw [hr1, hsp]; exact u7)
    (by rw [hr1, hnpf]; exact hp0) hk1
  have hval : r1.value = .nan := by
    unfold SubRun.value Sol.bestCandidate
    rw [hfin]
    simp only
    rw [hR1.begins.fresh.bestHist, hR1.begins.initialCand]
    rfl
  have hnext : IpopNext r1 r2 := by
    have := hI.chain
    rw [List.isChain_cons] at this
    exact this.1 r2 rfl
  obtain ⟨k2, hk2⟩ := hH.done r2 (by simp)
  obtain ⟨_, d2, d3, _⟩ := hR2.done (by intro k y; rw [hm2]; exact hv k y) hk2
  have hv2 := d3 (d2 (by
    intro q sol _
    rw [hnext.npf, hfin, hr1]
    show env.pfunc (s.npf + 1) q sol = 0
    rw [hnpf]; exact hp1 q sol))
  refine ⟨p, s, s', b, hp, hs, h, r1, r2, hH, hv2, hval, ?_⟩
  rw [hb]
  refine bestOf_nan (a := r1) rfl (by rw [hval]; exact id) ?_
  have := (hI.each 0 r1 rfl).2.2.1
  have hl := hR1.begins.lambda
  have hl' := (hI.each 0 r1 rfl).1
  intro e
  rw [e, ← hl'] at this
  exact hl this.symm

/-! ### C53 -/

/-- The budget of evaluations at the start of each run of IPOP. -/
theorem ipop_start {env : Env n} {kind : CovKind} {p : Params n} {s s' : Strat n} {runs : List (SubRun n)}
    (h0 : Strat.new env kind p = .ok s) (hm : 0 < p.maxFevals) (hH : History env s runs s')
    (hI : IpopRuns p s s' runs) (i : ℕ) {r : SubRun n} (hi : runs[i]? = some r) (hne : i ≠ 0) :
    (r.start.calls.length : ℤ) < p.maxFevals := by
  have h1 := ((hI.each i r hi).2.2.2.2.2.2.1 hne).2
  obtain ⟨_, _, _, _, _, hF, _, hn, hc, _⟩ := Strat.new_ok h0
  have h2 : r.start.nevals = r.start.calls.length ∧ r.start.sol.nevals ≤ r.start.calls.length := by
    refine chain_all (P := fun _ r => r.start.nevals = r.start.calls.length ∧
      r.start.sol.nevals ≤ r.start.calls.length) hH.next ?_ ?_ i hi
    · intro a ha
      rw [hH.first a ha]
      exact ⟨by rw [hn, hc]; rfl, by rw [hF.nevals]; exact Nat.zero_le _⟩
    · intro i a c ha _ hA hn
      obtain ⟨k, hk⟩ := hH.done a ha
      exact ⟨by rw [hA.nevals, hA.calls]; exact (optimize_counted k hn hk).1,
        by rw [hA.fresh.nevals]; exact Nat.zero_le _⟩
  rw [h2.1] at h1
  by_contra hc
  exact h1 ⟨hm, by omega⟩

/-- **C53.** No run but the first one starts after the objective has been called `max_fevals` times. -/
theorem C53_start (env : Env n) (kind : CovKind) (p : Params n) (s s' : Strat n) (b : Option (Sol n)) (fuel : ℕ)
    (hg : GoodParams p) (h0 : Strat.new env kind p = .ok s) (hm : 0 < p.maxFevals)
    (h : s.ipopOptimize env fuel = .ok (some (s', b))) :
    ∃ runs, History env s runs s' ∧ ∀ (i : ℕ) (r : SubRun n), runs[i]? = some r → i ≠ 0 →
      (r.start.calls.length : ℤ) < p.maxFevals := by
  obtain ⟨runs, hH, hI, hb⟩ := ipop_runs hg h0 h
  refine ⟨runs, hH, fun i r hi hne => ?_⟩
  exact ipop_start h0 hm hH hI i hi hne

/-- **C53**, the bound: with the criterion on the number of evaluations active, a search calls the objective less
often than `max_fevals`, plus `max_fevals` (or 2) and one generation for the last run. -/
theorem C53_total (env : Env n) (kind : CovKind) (p : Params n) (s s' : Strat n) (b : Option (Sol n)) (fuel : ℕ)
    (hg : GoodParams p) (h0 : Strat.new env kind p = .ok s) (hk : UniqueKeys p) (hm : 0 < p.maxFevals)
    (ha : CritActive p 8) (hr : p.initialElitistOnRestart = false) (he : p.withEdm = false) (huh : p.uh = false)
    (hgr : p.withGradient = false) (h : s.ipopOptimize env fuel = .ok (some (s', b))) :
    (s'.calls.length : ℤ) < p.maxFevals + max p.maxFevals 2 + (p.lambda * 2 ^ (p.nrestarts - 1) : ℕ) := by
  obtain ⟨runs, hH, hI, hb⟩ := ipop_runs hg h0 h
  have hB := begins_new h0
  have hc0 : s.calls = [] := (Strat.new_ok h0).2.2.2.2.2.2.2.2.1
  have hl2 : 0 < p.lambda := by have := hg.lambda; omega
  cases hlast : runs.getLast? with
  | none =>
    rw [List.getLast?_eq_none_iff] at hlast
    rw [hH.none hlast, hc0]
    have : 0 < p.lambda * 2 ^ (p.nrestarts - 1) := by positivity
    simp only [List.length_nil, Nat.cast_zero]
    omega
  | some r =>
    have hr' := hH.last r hlast
    rw [List.getLast?_eq_getElem?] at hlast
    set i := runs.length - 1 with hi
    have hB' : Begins kind s.p s := (begins_self h0)
    have hsp := hB.params
    obtain ⟨b1, b2, b3⟩ := chain_begins hH (hI.chain.imp fun _ _ h => h.toRestarted) hB' (by rw [hsp]; exact hr)
      (by have := new_crit h0 hk; rw [hsp]; exact this) i hlast
    obtain ⟨e1, e2, e3, e4, e5, e6, e7, x, y, e8⟩ := hI.each i r hlast
    unfold KeepsSettings at e8
    have hcr : r.start.p.stoppingCrit = p.stoppingCrit := by rw [e8]
    obtain ⟨k, hk'⟩ := hH.done r (List.mem_of_getElem? hlast)
    have hbud := budget_run b1 b3 (by unfold CritActive; rw [hcr]; exact ha) (by rw [e5]; omega) b2
      (by rw [e8]; exact he) (by rw [e8]; exact huh) (by rw [e8]; exact hgr) hk'
    obtain ⟨e, _, f1, f2⟩ := run_evals b2 (by rw [e8]; exact he) (by rw [e8]; exact huh) (by rw [e8]; exact hgr)
      b1.niter hk'
    rw [b1.fresh.nevals, Nat.zero_add] at f2
    rw [e5, e1] at hbud
    have hpow : p.lambda * 2 ^ i ≤ p.lambda * 2 ^ (p.nrestarts - 1) := by
      have := hI.count
      exact Nat.mul_le_mul_left _ (Nat.pow_le_pow_right (by norm_num) (by omega))
    have hs : (r.start.calls.length : ℤ) < p.maxFevals := by
      by_cases hi0 : i = 0
      · have : runs.head? = some r := by rw [← hlast, hi0]; exact List.head?_eq_getElem?
        rw [hH.first r this, hc0]; exact hm
      · exact ipop_start h0 hm hH hI i hlast hi0
    rw [hr'.1]
    have hpow' : ((p.lambda * 2 ^ i : ℕ) : ℤ) ≤ ((p.lambda * 2 ^ (p.nrestarts - 1) : ℕ) : ℤ) := by exact_mod_cast hpow
    omega

/-- **C53**, the default set-up with one restart and a budget, in any dimension. -/
theorem C53_default (hn : 1 ≤ n) (env : Env n) (kind : CovKind) (x0 : Vec n) (sigma : ℝ) (seed clock : ℕ) (m : ℤ)
    (hk : kind ≠ .vd) (hv : ∀ k y, Val (env.f k y)) (hm : 0 < m) :
    ∃ p s s' b, Params.make x0 sigma (-1) seed clock GenoPheno.plain = .ok p ∧
      Strat.new env kind { p with nrestarts := 2, maxFevals := m } = .ok s ∧
      (∃ N, ∀ fuel, N ≤ fuel → s.ipopOptimize env fuel = .ok (some (s', b))) ∧
      (s'.calls.length : ℤ) < m + max m 2 + (p.lambda * 2 : ℕ) := by
  obtain ⟨p, hp, _⟩ := C11_weights hn x0 sigma (-1) seed clock GenoPheno.plain
  obtain ⟨hu, hgp, _⟩ := usual_default (by norm_num) hp hk
  obtain ⟨u1, u2, u3, u4, u5, u6, u7, u8, u9, u10, u11, u12, u13, u14⟩ := Params.make_plain hp
  obtain ⟨l1, l2, l3, l4⟩ := Params.make_limits hp
  have hu' : UsualRun kind { p with nrestarts := 2, maxFevals := m } := ⟨.other hu.configured
      ⟨rfl, rfl, rfl, rfl, rfl, rfl, rfl, rfl, rfl, rfl, rfl, rfl, rfl, rfl, rfl, rfl, rfl⟩,
    ⟨hu.strict.1, hu.strict.2⟩, hk, hu.vd, hu.lazy, hu.grad, hu.uh, hu.tpa⟩
  obtain ⟨s, hs⟩ := new_plain (env := env) (kind := kind) (p := { p with nrestarts := 2, maxFevals := m }) hgp
    hu'.configured.good.1
  have hkeys : UniqueKeys { p with nrestarts := 2, maxFevals := m } := by
    show (p.stoppingCrit.map Prod.fst).Nodup; rw [l1]; simp
  have hact : ∀ c ∈ stopCodes, CritActive { p with nrestarts := 2, maxFevals := m } c :=
    fun c hc => ⟨hc, by show ¬ _ ∈ p.stoppingCrit; rw [l1]; simp⟩
  obtain ⟨s', b, h⟩ := C51_result env kind { p with nrestarts := 2, maxFevals := m } s hu' hkeys
    (by intro k y; show Val (if p.maximize then _ else _); rw [u8]; exact hv k y)
    (by intro x; show ∃ y : Vec n, phenoV p.gp x = .ok y; rw [hgp, phenoV_plain]; exact ⟨_, rfl⟩)
    (by intro x; show ∃ y : Vec n, scaleToInternalV p.gp x = .ok y; rw [hgp]; exact ⟨x, rfl⟩)
    l2 u6 (hact 7 (by decide)) hs (by have := Params.make_lambda_le (by norm_num) hp; exact this)
  refine ⟨p, s, s', b, hp, hs, ⟨_, h⟩, ?_⟩
  exact C53_total env kind { p with nrestarts := 2, maxFevals := m } s s' b _ hu'.configured.good.1 hs hkeys hm
    (hact 8 (by decide)) u6 l2 u1 u2 (h _ le_rfl)

end Libcmaes
