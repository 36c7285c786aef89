import Verif.Lemmas.Begin
import Verif.Lemmas.Witness
import Verif.Props.Total
import Verif.Props.Params

/-!
# C43-C50: stopping

Conditions of the criteria: Spec/Stop.lean.  The criteria are evaluated on `t.p` and `t.sol`, the parameters
and the solution of the running strategy; `p` are the parameters given by the user.  They differ in
`sigmaInit` only, which is resolved to a number when the strategy is created.
-/

namespace Libcmaes

open Spec

variable {n : ℕ}

/-! ### C43 -/

/-- **C43.** In every state reached by one generation or more, under any objective with values in `Val` and
any random draws, `stop()` reports the smallest code among the criteria that the user left active and whose
condition holds, and 0 if there is none; it stops the loop iff this is not 0.  (The progress function asks
to go on, and the status is not negative already; otherwise see C50 and `C43_negative`.) -/
theorem C43_status (env : Env n) (kind : CovKind) (p : Params n) (s t : Strat n) (k : ℕ)
    (hs : Started env kind p s) (hk : UniqueKeys p) (hv : ValObjective env p) (hr : GenRun env s (k + 1) t)
    (hp : env.pfunc t.npf t.p t.sol = 0) (h0 : 0 ≤ t.sol.runStatus) :
    ∃ r t', StopStatus env.fladd p t.p t.sol r ∧ t.stop env = .ok (decide (r ≠ 0), t') ∧
      t'.sol.runStatus = r := by
  obtain ⟨hL, hR, hv'⟩ := hs.live hv
  obtain ⟨hL', hR', _⟩ := genRun_live hr hL hR hv'
  obtain ⟨tr, hl, hrun⟩ := hr.askRun
  obtain ⟨_, _, _, hn, _, _, hc, _⟩ := run_p hrun.run
  obtain ⟨r, h1, h2⟩ := stop_total hL' hR' (p := p) (by rw [hc]; exact hs.flags hk) hp h0 (by rw [hn, hl]; omega)
  exact ⟨r, _, h2, h1, rfl⟩

/-- The report is determined by the criteria. -/
theorem C43_unique (fladd : ℝ → ℝ → ℝ) (p q : Params n) (s : Sol n) (r r' : ℤ)
    (h : StopStatus fladd p q s r) (h' : StopStatus fladd p q s r') : r = r' := by
  have hz : ∀ c, CritActive p c → c ≠ 0 := fun c hc => stopCodes_ne_zero hc.1
  rcases h with ⟨h1, h2⟩ | ⟨h1, h2, h3⟩ <;> rcases h' with ⟨i1, i2⟩ | ⟨i1, i2, i3⟩
  · rw [h1, i1]
  · exact absurd i2 (h2 _ i1)
  · exact absurd h2 (i2 _ h1)
  · rcases lt_trichotomy r r' with h | h | h
    · exact absurd h2 (i3 _ h h1)
    · exact h
    · exact absurd i2 (h3 _ h i1)

/-- Once the status is negative the search has ended for good: `stop()` keeps it and stops. -/
theorem C43_negative (env : Env n) (t : Strat n) (h : t.sol.runStatus < 0) : t.stop env = .ok (true, t) := by
  unfold Strat.stop
  rw [if_pos h]

/-- A switched off criterion is not reported, whatever the others do. -/
theorem C43_inactive (env : Env n) (kind : CovKind) (p : Params n) (s t t' : Strat n) (k : ℕ) (b : Bool) (c : ℤ)
    (hs : Started env kind p s) (hk : UniqueKeys p) (hv : ValObjective env p) (hr : GenRun env s (k + 1) t)
    (hp : env.pfunc t.npf t.p t.sol = 0) (h0 : 0 ≤ t.sol.runStatus)
    (hc : (c, false) ∈ p.stoppingCrit) (h : t.stop env = .ok (b, t')) (hne : c ≠ 0) : t'.sol.runStatus ≠ c := by
  obtain ⟨r, t1, h1, h2, h3⟩ := C43_status env kind p s t k hs hk hv hr hp h0
  rw [h] at h2
  injection h2 with h2
  injection h2 with _ h2
  rw [h2, h3]
  rintro rfl
  rcases h1 with ⟨h1, _⟩ | ⟨h1, _⟩
  · exact hne h1
  · exact h1.2 hc

/-- The flags come from any sequence of calls of `set_stopping_criteria`; then the keys are unique, and a
criterion is active iff no call switched it off, or a call to switch it on came first (see
`C15_reset_criterion_false`). -/
theorem C43_flags (p : Params n) (hp : p.stoppingCrit = []) (h : List (ℤ × Bool)) (c : ℤ) :
    UniqueKeys (runCrit p h) ∧
      (CritActive (runCrit p h) c ↔ c ∈ stopCodes ∧ mapFind (runCrit p h).stoppingCrit c ≠ some false) := by
  have hnd : UniqueKeys (runCrit p h) := by
    induction h using List.reverseRecOn with
    | nil => simp [UniqueKeys, runCrit, hp]
    | append_singleton l q ih =>
      have hr : runCrit p (l ++ [q]) = (runCrit p l).setStoppingCriteria q.1 q.2 := by simp [runCrit]
      rw [hr]
      exact mapInsert_nodup ih _ _
  refine ⟨hnd, ?_⟩
  unfold CritActive
  refine and_congr_right fun _ => not_congr ?_
  unfold UniqueKeys at hnd
  generalize (runCrit p h).stoppingCrit = m at hnd
  induction m with
  | nil => simp [mapFind]
  | cons q m ih =>
    rw [List.map_cons, List.nodup_cons] at hnd
    have ih := ih hnd.2
    unfold mapFind at ih ⊢
    rw [List.find?_cons, List.mem_cons]
    by_cases hq : q.1 = c
    · have hm : (c, false) ∉ m := fun hm => hnd.1 (hq ▸ List.mem_map_of_mem (f := Prod.fst) hm)
      simp only [hq, decide_true, Option.map_some, Option.some.injEq, hm, or_false]
      constructor
      · intro e; rw [← e]
      · intro e; exact (Prod.ext hq e).symm
    · simp only [hq, decide_false]
      rw [← ih]
      constructor
      · rintro (e | e)
        · exact absurd (by rw [← e]) hq
        · exact e
      · exact Or.inr

/-! ### C44 -/

/-- **C44**, as coded: if only the criterion `c` is active, `stop()` stops the loop iff its condition
`Fires c` holds of the observable state. -/
theorem C44_single (env : Env n) (kind : CovKind) (p : Params n) (s t : Strat n) (k : ℕ) (c : ℤ)
    (hs : Started env kind p s) (hk : UniqueKeys p) (hv : ValObjective env p) (hr : GenRun env s (k + 1) t)
    (hp : env.pfunc t.npf t.p t.sol = 0) (h0 : 0 ≤ t.sol.runStatus) (hc : OnlyActive p c) :
    ∃ b t', t.stop env = .ok (b, t') ∧ (b = true ↔ Fires env.fladd c t.p t.sol) := by
  obtain ⟨r, t', h1, h2, h3⟩ := C43_status env kind p s t k hs hk hv hr hp h0
  refine ⟨_, t', h2, ?_⟩
  rw [decide_eq_true_iff]
  rcases h1 with ⟨h1, h4⟩ | ⟨h1, h4, _⟩
  · exact ⟨fun h => absurd h1 h, fun h => absurd h (h4 c hc.1)⟩
  · exact ⟨fun _ => hc.2 r h1 ▸ h4, fun _ => stopCodes_ne_zero h1.1⟩

/-- **C44** for the criteria whose coded condition is the documented one; TOLX (2), NOEFFECTAXIS (3) and
EQUALFUNVALS (5) are missing, see `C44_tolX_false`, `C44_noEffectAxis_false`, `C44_equalFunVals_false`. -/
theorem C44_documented_partial (env : Env n) (kind : CovKind) (p : Params n) (s t : Strat n) (k : ℕ) (c : ℤ)
    (hs : Started env kind p s) (hk : UniqueKeys p) (hv : ValObjective env p) (hr : GenRun env s (k + 1) t)
    (hp : env.pfunc t.npf t.p t.sol = 0) (h0 : 0 ≤ t.sol.runStatus) (hc : OnlyActive p c)
    (h2 : c ≠ 2) (h3 : c ≠ 3) (h5 : c ≠ 5) :
    ∃ b t', t.stop env = .ok (b, t') ∧ (b = true ↔ Documented env.fladd c t.p t.sol) := by
  obtain ⟨b, t', h, hb⟩ := C44_single env kind p s t k c hs hk hv hr hp h0 hc
  refine ⟨b, t', h, hb.trans ?_⟩
  unfold Fires Documented
  simp [h2, h3, h5]

/-! ### C45 -/

/-- **C45.** `optimize()` always ends if AUTOMAXITER is active (no elitism on restart): for all settings,
objectives (NaN included), draws and progress functions there is an outcome `o` (a result or an error) that
is reached after at most `⌈autoLimit p⌉` iterations, `autoLimit p = 100 + 50 (n+3)²/√λ` (for VD in less
than ten dimensions, a thousand times this). -/
theorem C45_auto (env : Env n) (kind : CovKind) (p : Params n) (s : Strat n)
    (h0 : Strat.new env kind p = .ok s) (hk : UniqueKeys p) (ha : CritActive p 7)
    (hr : p.initialElitistOnRestart = false) :
    ∃ o, o ≠ .ok none ∧ (∀ fuel, ⌈autoLimit p⌉₊ + 1 ≤ fuel → s.optimize env fuel = o) ∧
      ∀ s', o = .ok (some s') → s'.niter ≤ ⌈autoLimit p⌉₊ := by
  obtain ⟨h1, h2, h3⟩ := optimize_ends (env := env) (s := s) (N := ⌈autoLimit p⌉₊)
    (by rw [(Strat.new_ok h0).2.2.2.1]; exact hr) fun s0 tr t t' i1 i2 i3 => auto_limit (begins_new h0) (new_crit h0 hk) ha i1 i2 i3
  refine ⟨_, h2, h1, fun s' h => ?_⟩
  have := h3 s' h
  rwa [(Strat.new_ok h0).2.2.2.2.2.2.1, Nat.zero_add] at this

/-- **C45**, MAXITER active and a limit set: the same with the limit `max 1 max_iter`. -/
theorem C45_maxIter (env : Env n) (kind : CovKind) (p : Params n) (s : Strat n)
    (h0 : Strat.new env kind p = .ok s) (hk : UniqueKeys p) (ha : CritActive p 9) (hm : p.maxIter ≠ -1)
    (hr : p.initialElitistOnRestart = false) :
    ∃ o, o ≠ .ok none ∧ (∀ fuel, max 1 p.maxIter.toNat + 1 ≤ fuel → s.optimize env fuel = o) ∧
      ∀ s', o = .ok (some s') → s'.niter ≤ max 1 p.maxIter.toNat := by
  obtain ⟨h1, h2, h3⟩ := optimize_ends (env := env) (s := s) (N := max 1 p.maxIter.toNat)
    (by rw [(Strat.new_ok h0).2.2.2.1]; exact hr) fun s0 tr t t' i1 i2 i3 => iter_limit (begins_new h0) (new_crit h0 hk) ha hm i1 i2 i3
  refine ⟨_, h2, h1, fun s' h => ?_⟩
  have := h3 s' h
  rwa [(Strat.new_ok h0).2.2.2.2.2.2.1, Nat.zero_add] at this

/-- **C45**, success: a run with these settings ends with a result, after at most `⌈autoLimit p⌉`
iterations. -/
theorem C45_result (env : Env n) (kind : CovKind) (p : Params n) (s : Strat n) (hu : UsualRun kind p)
    (hk : UniqueKeys p) (hv : ValObjective env p) (hg : ∀ x : Vec n, ∃ y : Vec n, phenoV p.gp x = .ok y)
    (he : p.withEdm = false) (hr : p.initialElitistOnRestart = false) (ha : CritActive p 7)
    (h0 : Strat.new env kind p = .ok s) :
    ∃ s', (∀ fuel, ⌈autoLimit p⌉₊ + 1 ≤ fuel → s.optimize env fuel = .ok (some s')) ∧
      s'.niter ≤ ⌈autoLimit p⌉₊ := by
  obtain ⟨o, h1, h2, h3⟩ := C45_auto env kind p s h0 hk ha hr
  obtain ⟨s', hs'⟩ := ends_well hu.good (begins_new h0) (esSound_new h0) (new_crit h0 hk) hv hg he hr (⌈autoLimit p⌉₊ + 1) (by rw [h2 _ le_rfl]; exact h1)
  have ho : o = .ok (some s') := by rw [← h2 _ le_rfl, hs']
  exact ⟨s', fun fuel hf => by rw [h2 fuel hf, ho], h3 s' ho⟩

/-- **C45**, the default set-up in any dimension: for every starting point, step size, seed, objective with
values in `Val`, sequence of draws and progress function, `optimize()` ends with a result. -/
theorem C45_default (hn : 1 ≤ n) (env : Env n) (kind : CovKind) (x0 : Vec n) (sigma : ℝ) (seed clock : ℕ)
    (hk : kind ≠ .vd) (hv : ∀ k y, Val (env.f k y)) :
    ∃ p s s', Params.make x0 sigma (-1) seed clock GenoPheno.plain = .ok p ∧ Strat.new env kind p = .ok s ∧
      ∃ N, ∀ fuel, N ≤ fuel → s.optimize env fuel = .ok (some s') := by
  obtain ⟨p, hp, _⟩ := C11_weights hn x0 sigma (-1) seed clock GenoPheno.plain
  obtain ⟨hu, hgp, _⟩ := usual_default (by norm_num) hp hk
  obtain ⟨s, hs⟩ := new_plain (env := env) (kind := kind) hgp hu.configured.good.1
  have hfl : p.maximize = false ∧ p.stoppingCrit = [] ∧ p.withEdm = false ∧
      p.initialElitistOnRestart = false := by
    unfold Params.make at hp
    obtain ⟨l, -, hp⟩ := Out.bind_eq_ok.1 hp
    obtain ⟨mu, w, muw, cs, cc, c1, cm, ds, fs, fc, ch, lv, rl, al, e⟩ := initializeParameters_frame hp
    rw [e]; exact ⟨rfl, rfl, rfl, rfl⟩
  obtain ⟨s', h1, _⟩ := C45_result env kind p s hu.run (by rw [UniqueKeys, hfl.2.1]; simp)
    (by intro k y; rw [hfl.1]; exact hv k y) (by intro x; rw [hgp, phenoV_plain]; exact ⟨_, rfl⟩) hfl.2.2.1
    hfl.2.2.2 (by rw [CritActive, hfl.2.1]; decide) hs
  exact ⟨p, s, s', hp, hs, _, h1⟩

/-- With all criteria switched off and no progress function nothing ever ends the run. -/
theorem C45_all_off_false (env : Env n) (kind : CovKind) (p : Params n) (s : Strat n)
    (h0 : Strat.new env kind p = .ok s) (hk : UniqueKeys p) (hoff : ∀ c, ¬ CritActive p c)
    (hpf : ∀ k q sol, env.pfunc k q sol = 0) (hr : p.initialElitistOnRestart = false) (fuel : ℕ) (s' : Strat n) :
    s.optimize env fuel ≠ .ok (some s') := by
  intro h
  obtain ⟨s0, s1, tr, t, h1, h2, h3, _⟩ := optimize_plain (by rw [(Strat.new_ok h0).2.2.2.1]; exact hr) h
  have hc : FlagsOf p t.crit := by
    rw [(run_p h2.askRun.run).2.2.2.2.2.2.1, (evalInitial_kept h1).2.1]; exact new_crit h0 hk
  have hst := (h2.npf (by rw [(evalInitial_kept h1).2.2.2.2.2.2.1]; exact (Strat.new_ok h0).2.2.2.2.2.1.runStatus)).2
  rcases stop_true h3 with ⟨a, _⟩ | ⟨_, a, _⟩ | ⟨_, _, _, c, a, b, _⟩
  · omega
  · exact a (hpf _ _ _)
  · obtain ⟨d, hd, _⟩ := stopCrit_code b a
    exact hoff d ((hc.mem d).1 hd)

/-! ### C46 -/

/-- **C46.** With MAXITER active and `max_iter = m` set, `optimize()` performs at most `max 1 m` iterations,
whatever the settings, the objective and the draws. -/
theorem C46_at_most (env : Env n) (kind : CovKind) (p : Params n) (s s' : Strat n) (fuel : ℕ)
    (h0 : Strat.new env kind p = .ok s) (hk : UniqueKeys p) (ha : CritActive p 9) (hm : p.maxIter ≠ -1)
    (hr : p.initialElitistOnRestart = false) (h : s.optimize env fuel = .ok (some s')) :
    s'.niter ≤ max 1 p.maxIter.toNat := by
  obtain ⟨o, h1, h2, h3⟩ := C45_maxIter env kind p s h0 hk ha hm hr
  refine h3 s' ?_
  rw [← h2 (max fuel (max 1 p.maxIter.toNat + 1)) (le_max_right _ _),
    optimize_mono_le (le_max_left _ _) (by rw [h]; simp), h]

/-- **C46**, exactness: a run that reports MAXITER performed `max 1 m` iterations, no less. -/
theorem C46_exact (env : Env n) (kind : CovKind) (p : Params n) (s s' : Strat n) (fuel : ℕ)
    (h0 : Strat.new env kind p = .ok s) (hk : UniqueKeys p)
    (hr : p.initialElitistOnRestart = false) (he : p.withEdm = false)
    (h : s.optimize env fuel = .ok (some s')) (h9 : s'.sol.runStatus = 9) :
    s'.niter = max 1 p.maxIter.toNat := by
  obtain ⟨s0, tr, t, i1, i2, i3, i4, i5, i6, i7, i8, i9, i10⟩ := optimize_end (begins_new h0) (new_crit h0 hk) hr he h
  rcases i10 with ⟨_, e⟩ | ⟨_, hn, c, ha, hc, _, e⟩
  · rw [e] at h9
    have : t.sol.runStatus = 9 := h9
    omega
  · rw [e] at h9
    have h9' : c = 9 := h9
    subst h9'
    have hm : MaxIter t.p t.sol := by
      classical
      rw [show critFun env.fladd 9 t.p t.sol = critMaxIter t.p t.sol from rfl, crit_maxIter] at hc
      injection hc with hc
      by_contra hx
      rw [if_neg hx] at hc
      cases hc
    have h1 := C46_at_most env kind p s s' fuel h0 hk ha (by have := hm.1; rwa [i5] at this) hr h
    have hni : s'.niter = tr.length := by rw [e]; exact i6
    have h2 := hm.2
    rw [i5, i7] at h2
    have h2' : p.maxIter ≤ (tr.length : ℤ) := h2
    rw [hni] at h1 ⊢
    omega

/-- **C46**, nothing else active: exactly `max 1 m` iterations, and MAXITER is reported. -/
theorem C46_only (env : Env n) (kind : CovKind) (p : Params n) (s s' : Strat n) (fuel : ℕ)
    (h0 : Strat.new env kind p = .ok s) (hk : UniqueKeys p) (ha : OnlyActive p 9)
    (hpf : ∀ k q sol, env.pfunc k q sol = 0) (hr : p.initialElitistOnRestart = false) (he : p.withEdm = false)
    (h : s.optimize env fuel = .ok (some s')) :
    s'.niter = max 1 p.maxIter.toNat ∧ s'.sol.runStatus = 9 := by
  obtain ⟨s0, tr, t, i1, i2, i3, i4, i5, i6, i7, i8, i9, i10⟩ := optimize_end (begins_new h0) (new_crit h0 hk) hr he h
  have h9 : s'.sol.runStatus = 9 := by
    rcases i10 with ⟨a, _⟩ | ⟨_, _, c, hc, _, _, e⟩
    · exact absurd (hpf _ _ _) a
    · rw [e]; exact ha.2 c hc
  exact ⟨C46_exact env kind p s s' fuel h0 hk hr he h h9, h9⟩

/-! ### C47 -/

/-- **C47**, for all settings: with MAXFEVALS active and `max_fevals = m` set, when a run of two iterations
or more stops, the count of evaluations was below `m` before the last generation. -/
theorem C47_last_generation (env : Env n) (kind : CovKind) (p : Params n) (s s' : Strat n) (fuel : ℕ)
    (h0 : Strat.new env kind p = .ok s) (hk : UniqueKeys p) (ha : CritActive p 8) (hm : p.maxFevals ≠ -1)
    (hr : p.initialElitistOnRestart = false) (he : p.withEdm = false)
    (h : s.optimize env fuel = .ok (some s')) :
    ∃ s0, s.evalInitial env = .ok s0 ∧ (s'.niter = 0 ∧ s'.sol.nevals = s0.sol.nevals ∨
      ∃ t t1 t2, GenRun env s0 (s'.niter - 1) t ∧ t.stop env = .ok (false, t1) ∧ t1.generation env = .ok t2 ∧
        s'.sol.nevals = t2.sol.nevals ∧ t1.sol.nevals = t.sol.nevals ∧
        (s'.niter ≠ 1 → (t.sol.nevals : ℤ) < p.maxFevals) ∧
        (s'.niter = 1 → t.sol.nevals = s0.sol.nevals)) :=
  last_generation (begins_new h0) (new_crit h0 hk) ha hm hr he h

/-- **C47**, plain settings: the count stays below `max m 2 + λ`.  (The first generation, of `λ` evaluations
after at most one for the initial point, is always carried out.) -/
theorem C47_budget (env : Env n) (kind : CovKind) (p : Params n) (s s' : Strat n) (fuel : ℕ)
    (h0 : Strat.new env kind p = .ok s) (hk : UniqueKeys p) (ha : CritActive p 8) (hm : p.maxFevals ≠ -1)
    (hr : p.initialElitistOnRestart = false) (he : p.withEdm = false) (huh : p.uh = false)
    (hg : p.withGradient = false) (h : s.optimize env fuel = .ok (some s')) :
    (s'.sol.nevals : ℤ) < max p.maxFevals 2 + p.lambda :=
  budget_run (begins_new h0) (new_crit h0 hk) ha hm hr he huh hg h

/-! ### C48 -/

/-- **C48**, for all settings: the return value is 0 (success) iff the status is not negative, -1 (error) otherwise;
the status is 0 or the code of an active criterion; it is 0 only if the progress function stopped the run. -/
theorem C48_status (env : Env n) (kind : CovKind) (p : Params n) (s s' : Strat n) (fuel : ℕ)
    (h0 : Strat.new env kind p = .ok s) (hk : UniqueKeys p)
    (hr : p.initialElitistOnRestart = false) (he : p.withEdm = false)
    (h : s.optimize env fuel = .ok (some s')) :
    (s'.retCode = 0 ∧ 0 ≤ s'.sol.runStatus ∨ s'.retCode = -1 ∧ s'.sol.runStatus < 0) ∧
    (s'.sol.runStatus = 0 ∨ CritActive p s'.sol.runStatus) ∧
    (s'.retCode = -1 ↔ s'.sol.runStatus = -13 ∨ s'.sol.runStatus = -15) ∧
    (s'.sol.runStatus = 0 → env.pfunc (s'.npf - 1) s'.p s'.sol ≠ 0) := by
  obtain ⟨s0, tr, t, i1, i2, i3, i4, i5, i6, i7, i8, i9, i10⟩ := optimize_end (begins_new h0) (new_crit h0 hk) hr he h
  have hst : s'.sol.runStatus = 0 ∨ CritActive p s'.sol.runStatus := by
    rcases i10 with ⟨_, e⟩ | ⟨_, _, c, hc, _, _, e⟩
    · left; rw [e]; exact i9
    · right; rw [e]; exact hc
  refine ⟨?_, hst, ?_, ?_⟩
  · unfold Strat.retCode
    split_ifs with hc
    · exact Or.inl ⟨rfl, hc⟩
    · exact Or.inr ⟨rfl, by omega⟩
  · unfold Strat.retCode
    rcases hst with hz | ⟨hc, _⟩
    · rw [hz]; decide
    · unfold stopCodes at hc
      simp only [List.mem_cons, List.not_mem_nil, or_false] at hc
      rcases hc with hc | hc | hc | hc | hc | hc | hc | hc | hc | hc | hc | hc <;> rw [hc] <;> decide
  · intro hz
    rcases i10 with ⟨a, e⟩ | ⟨_, _, c, hc, _, _, e⟩
    · rw [e]; exact a
    · rw [e] at hz
      exact absurd hz (stopCodes_ne_zero hc.1)

/-- **C48**, the reported criterion holds of the returned solution, and is the first one that does. -/
theorem C48_criterion (env : Env n) (kind : CovKind) (p : Params n) (s s' : Strat n) (fuel : ℕ)
    (hu : UsualRun kind p) (hv : ValObjective env p) (h0 : Strat.new env kind p = .ok s) (hk : UniqueKeys p)
    (hr : p.initialElitistOnRestart = false) (he : p.withEdm = false)
    (h : s.optimize env fuel = .ok (some s')) (hne : s'.sol.runStatus ≠ 0) :
    CritActive p s'.sol.runStatus ∧ Fires env.fladd s'.sol.runStatus s'.p s'.sol ∧
      ∀ c, c < s'.sol.runStatus → CritActive p c → ¬ Fires env.fladd c s'.p s'.sol := by
  obtain ⟨s0, tr, t, i1, i2, i3, i4, i5, i6, i7, i8, i9, i10⟩ := optimize_end (begins_new h0) (new_crit h0 hk) hr he h
  rcases i10 with ⟨_, e⟩ | ⟨_, hn, c, hc, hcf, hcr, e⟩
  · exfalso
    rw [e] at hne
    exact hne i9
  · have hst : Started env kind p s0 := Or.inl ⟨hu, s, h0, i1⟩
    obtain ⟨hL, hR, hv'⟩ := hst.live hv
    obtain ⟨hL', hR', _⟩ := genRun_live i2.genRun hL hR hv'
    obtain ⟨r, h1, h2⟩ := stopCrit_spec (fladd := env.fladd) (hR'.ready hL'.toLiveCore hn) i4
    rw [hcr] at h1
    injection h1 with h1
    subst h1
    rcases h2 with ⟨h2, _⟩ | h2
    · exact absurd h2 (stopCodes_ne_zero hc.1)
    · rw [e]; exact h2

/-! ### C49 -/

/-- **C49.** Only FTARGET active, target `v` set, no uncertainty handling: the run consists of generations
whose best value is not `≤ v`, followed by one whose best value is, and FTARGET is reported.  `tr` lists the
populations evaluated before the last one; values are negated for a maximisation, as in the whole search. -/
theorem C49_target (env : Env n) (kind : CovKind) (p : Params n) (s s' : Strat n) (fuel : ℕ)
    (h0 : Strat.new env kind p = .ok s) (hk : UniqueKeys p) (ha : OnlyActive p 10) (huh : p.uh = false)
    (hv : p.ftarget ≠ .num ⊤) (hpf : ∀ k q sol, env.pfunc k q sol = 0)
    (hr : p.initialElitistOnRestart = false) (he : p.withEdm = false)
    (h : s.optimize env fuel = .ok (some s')) :
    ∃ s0 tr last c, s.evalInitial env = .ok s0 ∧ AskRun env s0 (tr ++ [last]) s' ∧
      FirstMin last c ∧ FVal.le c.fvalue p.ftarget ∧ s'.sol.runStatus = 10 ∧
      s'.sol.bestCandidate = c ∧ ∀ pop ∈ tr, ∀ d, FirstMin pop d → ¬ FVal.le d.fvalue p.ftarget := by
  obtain ⟨s0, tr, t, i1, i2, i3, i4, i5, i6, i7, i8, i9, i10⟩ := optimize_end (begins_new h0) (new_crit h0 hk) hr he h
  have hnew := Strat.new_ok h0
  obtain ⟨g1, g2, g3, g4, g5, g6, g7, g8, g9⟩ := evalInitial_kept i1
  have huh0 : s0.p.uh = false := by rw [g1, hnew.2.2.2.1]; exact huh
  have hmh : 0 < s0.sol.maxHist := by rw [g9, hnew.2.2.2.2.2.2.2.2.2.2.2.2.2.2.1]; exact maxHistOf_pos _ _ _
  rcases i10 with ⟨a, _⟩ | ⟨_, hn, c, hc, hcf, hcr, e⟩
  · exact absurd (hpf _ _ _) a
  · have hc10 := ha.2 c hc
    subst hc10
    have hft : FTarget t.p t.sol := by
      classical
      rw [show critFun env.fladd 10 t.p t.sol = critFTarget t.p t.sol from rfl, crit_fTarget] at hcf
      injection hcf with hcf
      by_contra hx
      rw [if_neg hx] at hcf
      cases hcf
    obtain ⟨tr', last, rfl⟩ : ∃ tr' last, tr = tr' ++ [last] := by
      rcases List.eq_nil_or_concat tr with e | ⟨a, b, e⟩
      · rw [e] at i6; exact absurd i6 hn
      · exact ⟨a, b, by rw [e, List.concat_eq_append]⟩
    have hbest := askRun_best huh0 hmh i2.askRun
    refine ⟨s0, tr', last, t.sol.bestCandidate, i1, ?_, hbest, by have := hft.2; rwa [i5] at this, by rw [e],
      by rw [e]; rfl, ?_⟩
    · simpa using i2.askRun.trans (.stop i3 (.refl _))
    · intro pop hpop d hd hle
      obtain ⟨a, b, rfl⟩ := List.append_of_mem hpop
      obtain ⟨t1, t2, k1, k2⟩ := i2.prefix (a := a ++ [pop]) (b := b ++ [last]) (by simp) (by simp)
      obtain ⟨r1, _, _, r4, r5, _, r7, _⟩ := run_p k1.askRun.run
      have hb1 := askRun_best huh0 hmh k1.askRun
      have hp1 : t1.p = { p with sigmaInit := s.sol.sigma } := by rw [r1, g1, hnew.2.2.2.1]
      rcases (stop_false k2).2.2 with ⟨h2, _⟩ | ⟨_, h2, _⟩
      · rw [r4] at h2; simp at h2
      · have hfl : FlagsOf p t1.crit := by rw [r7, g2]; exact new_crit h0 hk
        have := stopCrit_zero h2 10 ((hfl.mem 10).2 ha.1)
        rw [show critFun env.fladd 10 t1.p t1.sol = critFTarget t1.p t1.sol from rfl] at this
        classical
        rw [crit_fTarget] at this
        injection this with this
        rw [if_pos ⟨by rw [hp1]; exact hv, by rw [hp1, ← FirstMin_unique hd hb1]; exact hle⟩] at this
        cases this

/-! ### C50 -/

/-- **C50**, one test: if the progress function returns non-zero (and the status is not negative), `stop()`
ends the loop at once and changes nothing but the count of its calls: no objective call, same solution, same
status. -/
theorem C50_stop (env : Env n) (t : Strat n) (h : env.pfunc t.npf t.p t.sol ≠ 0) (h0 : 0 ≤ t.sol.runStatus) :
    t.stop env = .ok (true, { t with npf := t.npf + 1 }) := by
  unfold Strat.stop
  rw [if_neg (by omega)]
  simp only
  rw [if_pos h]

/-- **C50**, whole run: if the progress function returns non-zero at its `j`-th call (counting from 0),
whatever it is given, then the run performs at most `j` generations; if it performs `j`, it is the progress
function that stopped it: the final state is that after these `j` generations, the objective is not called
any more, and the status is still 0, a success. -/
theorem C50_run (env : Env n) (kind : CovKind) (p : Params n) (s s' : Strat n) (fuel j : ℕ)
    (h0 : Strat.new env kind p = .ok s) (hk : UniqueKeys p)
    (hr : p.initialElitistOnRestart = false) (he : p.withEdm = false)
    (hj : ∀ q sol, env.pfunc j q sol ≠ 0) (h : s.optimize env fuel = .ok (some s')) :
    s'.niter ≤ j ∧ (s'.niter = j → ∃ s0 t, s.evalInitial env = .ok s0 ∧ GenRun env s0 j t ∧
      s'.calls = t.calls ∧ s'.sol = t.sol ∧ s'.sol.runStatus = 0 ∧ s'.retCode = 0) := by
  obtain ⟨s0, tr, t, i1, i2, i3, i4, i5, i6, i7, i8, i9, i10⟩ := optimize_end (begins_new h0) (new_crit h0 hk) hr he h
  have hz : s.npf = 0 := by
    unfold Strat.new at h0
    obtain ⟨⟨p', sol⟩, hm, h0⟩ := Out.bind_eq_ok.1 h0
    injection h0 with h0
    rw [← h0]
  have hni : s'.niter = tr.length := by
    rcases i10 with ⟨_, e⟩ | ⟨_, _, c, _, _, _, e⟩ <;> rw [e] <;> exact i6
  obtain ⟨g1, g2, g3, g4, g5, g6, g7, g8, g9⟩ := evalInitial_kept i1
  constructor
  · by_contra hlt
    have hlt' : j < tr.length := by omega
    obtain ⟨t1, t2, k1, k2⟩ := i2.prefix (a := tr.take j) (b := tr.drop j) (by simp) (by simp; omega)
    have := (k1.npf (by rw [g7]; exact (Strat.new_ok h0).2.2.2.2.2.1.runStatus)).1
    rw [g6, hz, List.length_take, min_eq_left hlt'.le, Nat.zero_add] at this
    have := (stop_false k2).1
    rw [‹t1.npf = j›] at this
    exact hj _ _ this
  · intro hji
    have hnj : t.npf = j := by rw [i8, hz, ← hji, hni, Nat.zero_add]
    rcases i10 with ⟨_, e⟩ | ⟨a, _⟩
    · refine ⟨s0, t, i1, by rw [← hji, hni]; exact i2.genRun, by rw [e], by rw [e], by rw [e]; exact i9, ?_⟩
      unfold Strat.retCode
      rw [e, if_pos (by show t.sol.runStatus ≥ 0; omega)]
    · rw [hnj] at a; exact absurd a (hj _ _)

end Libcmaes
