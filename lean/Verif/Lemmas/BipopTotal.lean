import Verif.Lemmas.Bipop
import Verif.Lemmas.RestartWit

/-!
# BIPOP ends with a result
-/

namespace Libcmaes

open Spec

variable {n : ℕ}

/-- The end of a run with sound settings. -/
def AfterRun (kind : CovKind) (mx : Bool) (t : Strat n) : Prop :=
  ∃ s, RunReady kind s ∧ t.p = s.p ∧ EsSound t ∧ t.initialElitist = false ∧ t.crit = s.crit ∧
    t.negate = s.negate ∧ t.kind = kind ∧ s.p.maximize = mx

theorem RunReady.after {env : Env n} {kind : CovKind} {s : Strat n} (h : RunReady kind s)
    (hv : ValObjective env s.p) :
    ∃ s1, (∀ fuel, ⌈autoLimit s.p⌉₊ + 1 ≤ fuel → s.optimize env fuel = .ok (some s1)) ∧ s1.p = s.p ∧
      AfterRun kind s.p.maximize s1 ∧
      ((∀ q sol, sol.niter = 0 → env.pfunc s.npf q sol = 0) → s1.sol.niter ≠ 0) := by
  obtain ⟨s1, a1, a2, a3, a4, a5, a6, a7, a8, a9, a10, a11, a12⟩ := h.run hv
  exact ⟨s1, a1, a4, ⟨s, h, a4, a5, a6, a7, a8, a9, rfl⟩, fun h => by rw [a3]; exact a10 h⟩

/-- A restart with another population, step size and budget, and the run that follows. -/
theorem AfterRun.restart {env : Env n} {kind : CovKind} {mx : Bool} {t : Strat n} (h : AfterRun kind mx t)
    (hv : ∀ k y, Val (negIf mx (env.f k y))) (lam : ℕ) (sg : ℝ) (h2 : 2 ≤ lam)
    (hst : ∀ q : Params n, DefaultRates q → q.lambda = lam → StrictRates q) :
    ∃ q, initializeParameters { t.p with lambda := lam, sigmaInit := sg } = .ok q ∧ q.lambda = lam ∧
      q.sigmaInit = sg ∧ ∀ (sg' : ℝ) (mf : ℤ), ∃ s3 s4 N,
        ({ t with p := { q with sigmaInit := sg', maxFevals := mf } } : Strat n).resetSearchState env = .ok s3 ∧
        s3.p.maxFevals = mf ∧ (∀ fuel, N ≤ fuel → s3.optimize env fuel = .ok (some s4)) ∧
        s4.p.lambda = lam ∧ AfterRun kind mx s4 ∧
        ((∀ q sol, sol.niter = 0 → env.pfunc t.npf q sol = 0) → s4.sol.niter ≠ 0) := by
  obtain ⟨s, hR, b1, b2, b3, b4, b5, b6, b7⟩ := h
  obtain ⟨q, hq⟩ := initializeParameters_ok { t.p with lambda := lam, sigmaInit := sg } h2 hR.good.good.dim
  obtain ⟨mu, w, muw, cs, cc, c1, cm, ds, fs, fc, ch, lv, rl, al, e⟩ := initializeParameters_frame hq
  have hql : q.lambda = lam := by rw [e]
  have hqs : q.sigmaInit = sg := by rw [e]
  refine ⟨q, hq, hql, hqs, fun sg' mf => ?_⟩
  have hgq := goodParams_init hq (by show FixOk n t.p.fixedP; rw [b1]; exact hR.good.good.fixOk)
  have hstq := hst q (defaultRates_of_init hq) hql
  obtain ⟨s3, d1, d2, d3⟩ := hR.restart (env := env) (q := { q with sigmaInit := sg', maxFevals := mf }) b1 b2 b3 b4
    b5 b6 (by rw [e]; rfl)
    (hgq.same ⟨rfl, rfl, rfl, rfl, rfl, rfl, rfl, rfl, rfl, rfl, rfl, rfl, rfl, rfl, rfl, rfl, rfl⟩)
    ⟨hstq.1, hstq.2⟩
  have hmx : s3.p.maximize = mx := by
    rw [d3]
    show q.maximize = _
    rw [e, b1]; exact b7
  obtain ⟨s4, e1, e2, e3, e4⟩ := d2.after (env := env) (by intro k y; rw [hmx]; exact hv k y)
  have hnpf : s3.npf = t.npf := by
    obtain ⟨q', sol, _, e'⟩ := Strat.resetSearchState_ok d1
    rw [e']
  refine ⟨s3, s4, _, d1, by rw [d3], e1, by rw [e2, d3]; exact hql, hmx ▸ e3, hnpf ▸ e4⟩

/-- What the loops of BIPOP keep when nothing stops the runs before their first iteration. -/
structure BiReady (kind : CovKind) (mx : Bool) (lam0 j : ℕ) (l : Bipop.Loop n) : Prop where
  after : AfterRun kind mx l.b.s
  lambdaDef : l.b.lambdaDef = lam0
  lambdaL : l.b.lambdaL = lam0 * 2 ^ j
  sigma0 : ∃ sg, l.b.sigmaInit0 = some sg
  max0 : ∃ m, l.b.maxFevals0 = some m

theorem BiReady.small {env : Env n} {kind : CovKind} {mx : Bool} {lam0 j : ℕ} {l : Bipop.Loop n}
    (h : BiReady kind mx lam0 j l) (hv : ∀ k y, Val (negIf mx (env.f k y)))
    (hpf : ∀ k q sol, sol.niter = 0 → env.pfunc k q sol = 0) (h2 : 2 ≤ lam0)
    (hst : ∀ q : Params n, DefaultRates q → q.lambda ≤ lam0 * 2 ^ j → StrictRates q) :
    ∃ l' N, (∀ fuel, N ≤ fuel → Bipop.smallRun env fuel l = .ok (some l')) ∧ BiReady kind mx lam0 j l' ∧
      l'.budget0 = l.budget0 ∧ l.budget1 + 1 ≤ l'.budget1 := by
  obtain ⟨u1, u2⟩ := env.ub_mem l.b.nub
  obtain ⟨r1, r2, r3⟩ := smallLambda_range (j := j) h2 u1 u2
  have hj : lam0 ≤ lam0 * 2 ^ j := Nat.le_mul_of_pos_right _ (by positivity)
  obtain ⟨q, hq, hql, hqs, hall⟩ := h.after.restart hv
    (Bipop.smallLambda lam0 (lam0 * 2 ^ j) (env.ub l.b.nub)) (2 * (10 : ℝ) ^ (-2 * env.ub (l.b.nub + 1))) r1
    (fun q hq hl => hst q hq (by rw [hl]; omega))
  obtain ⟨s3, s4, N, d1, d2, d3, d4, d5, d6⟩ := hall q.sigmaInit (l.budget0 / 2)
  have hr2 : l.b.r2 env = .ok { l.b with s := { l.b.s with p := q }, nub := l.b.nub + 2 } := by
    have hq' := hq
    rw [← h.lambdaL, ← h.lambdaDef] at hq'
    unfold Bipop.r2
    simp only
    rw [hq', Out.ok_bind]; rfl
  refine ⟨⟨{ ({ l.b with s := { l.b.s with p := q }, nub := l.b.nub + 2 } : Bipop n).setMaxFevals (l.budget0 / 2) with s := s4 },
    l.budget0, l.budget1 + Bipop.charge s4, s4.captureBest l.best⟩, N, fun fuel hf => ?_,
    ⟨d5, h.lambdaDef, h.lambdaL, h.sigma0, h.max0⟩, rfl, ?_⟩
  · unfold Bipop.smallRun
    rw [hr2, Out.ok_bind]
    simp only
    have d1' : (({ l.b with s := { l.b.s with p := q }, nub := l.b.nub + 2 } : Bipop n).setMaxFevals (l.budget0 / 2)).s.resetSearchState env = .ok s3 := d1
    rw [d1', Out.ok_bind, d3 fuel hf, Out.ok_bind]
    rfl
  · have h1 := d6 fun q sol h => hpf _ q sol h
    show l.budget1 + 1 ≤ l.budget1 + Bipop.charge s4
    have : 1 ≤ s4.sol.niter * s4.p.lambda := by
      rw [d4]
      exact Nat.succ_le_of_lt (Nat.mul_pos (Nat.pos_of_ne_zero h1) (by omega))
    unfold Bipop.charge
    have : (1 : ℤ) ≤ ((s4.sol.niter * s4.p.lambda : ℕ) : ℤ) := by exact_mod_cast this
    push_cast at this
    linarith

theorem BiReady.smalls {env : Env n} {kind : CovKind} {mx : Bool} {lam0 j : ℕ}
    (hv : ∀ k y, Val (negIf mx (env.f k y))) (hpf : ∀ k q sol, sol.niter = 0 → env.pfunc k q sol = 0) (h2 : 2 ≤ lam0)
    (hst : ∀ q : Params n, DefaultRates q → q.lambda ≤ lam0 * 2 ^ j → StrictRates q) (m : ℕ) {l : Bipop.Loop n}
    (h : BiReady kind mx lam0 j l) (hm : l.budget0 - l.budget1 ≤ m) :
    ∃ l' N, (∀ fuel, N ≤ fuel → ∀ k, m ≤ k → Bipop.smallLoop env fuel k l = .ok (some l')) ∧
      BiReady kind mx lam0 j l' := by
  induction m generalizing l with
  | zero =>
    refine ⟨l, 0, fun fuel _ k _ => ?_, h⟩
    have hb : ¬ l.budget0 > l.budget1 := by push_cast at hm; omega
    cases k <;> (unfold Bipop.smallLoop; rw [if_neg hb])
  | succ m ih =>
    by_cases hb : l.budget0 > l.budget1
    · obtain ⟨l1, N, a1, a2, a3, a4⟩ := h.small hv hpf h2 hst
      obtain ⟨l', N', b1, b2⟩ := ih a2 (by rw [a3]; push_cast at hm ⊢; omega)
      refine ⟨l', max N N', fun fuel hf k hk => ?_, b2⟩
      obtain ⟨k, rfl⟩ : ∃ k', k = k' + 1 := ⟨k - 1, by omega⟩
      unfold Bipop.smallLoop
      rw [if_pos hb, a1 fuel (le_trans (le_max_left _ _) hf), Out.ok_bind]
      exact b1 fuel (le_trans (le_max_right _ _) hf) k (by omega)
    · refine ⟨l, 0, fun fuel _ k _ => ?_, h⟩
      cases k <;> (unfold Bipop.smallLoop; rw [if_neg hb])

theorem BiReady.big {env : Env n} {kind : CovKind} {mx : Bool} {lam0 j r : ℕ} {l : Bipop.Loop n}
    (h : BiReady kind mx lam0 j l) (hv : ∀ k y, Val (negIf mx (env.f k y))) (h2 : 2 ≤ lam0) (hr : 0 < r)
    (hst : ∀ q : Params n, DefaultRates q → q.lambda ≤ lam0 * 2 ^ (j + 1) → StrictRates q) :
    ∃ l' N, (∀ fuel, N ≤ fuel → Bipop.largeRun env fuel r l = .ok (some l')) ∧ BiReady kind mx lam0 (j + 1) l' := by
  obtain ⟨sg, hsg⟩ := h.sigma0
  obtain ⟨m, hm⟩ := h.max0
  have hlam : l.b.lambdaL * 2 = lam0 * 2 ^ (j + 1) := by rw [h.lambdaL, pow_succ, mul_assoc]
  have hge : lam0 ≤ lam0 * 2 ^ (j + 1) := Nat.le_mul_of_pos_right _ (by positivity)
  obtain ⟨q, hq, hql, hqs, hall⟩ := h.after.restart hv (lam0 * 2 ^ (j + 1)) l.b.s.p.sigmaInit (by omega)
    (fun q hq hl => hst q hq hl.le)
  obtain ⟨s3, s4, N, d1, d2, d3, d4, d5, d6⟩ := hall sg m
  have hr1 : l.b.r1 = .ok { l.b with s := { l.b.s with p := { q with sigmaInit := sg } }, lambdaL := q.lambda } := by
    unfold Bipop.r1 Strat.lambdaInc
    simp only
    rw [hlam]
    have hq' : initializeParameters { l.b.s.p with lambda := lam0 * 2 ^ (j + 1) } = .ok q := hq
    rw [hq', Out.ok_bind, Out.pure_eq, Out.ok_bind, hsg]
    rfl
  have d1' := Strat.reset_maxFevals q.maxFevals d1
  refine ⟨⟨{ l.b with s := s4, lambdaL := q.lambda }, l.budget0 + Bipop.charge s4, l.budget1, s4.captureBest l.best⟩, N,
    fun fuel hf => ?_, ⟨d5, h.lambdaDef, hql, h.sigma0, h.max0⟩⟩
  unfold Bipop.largeRun
  rw [if_pos hr, hr1, Out.ok_bind]
  have d1'' : (({ l.b with s := { l.b.s with p := { q with sigmaInit := sg } }, lambdaL := q.lambda } : Bipop n)).s.resetSearchState env =
      .ok { s3 with p := { s3.p with maxFevals := q.maxFevals } } := d1'
  rw [d1'', Out.ok_bind, Out.pure_eq, Out.ok_bind]
  simp only
  rw [hm]
  have e3 : (Bipop.setMaxFevals ({ l.b with s := { s3 with p := { s3.p with maxFevals := q.maxFevals } }, lambdaL := q.lambda } : Bipop n) m).s = s3 := by
    unfold Bipop.setMaxFevals
    simp only
    rw [← d2]
  simp only
  have d3' := d3 fuel hf
  rw [← e3] at d3'
  erw [d3', Out.ok_bind]
  rfl

theorem BiReady.outer {env : Env n} {kind : CovKind} {mx : Bool} {lam0 : ℕ}
    (hv : ∀ k y, Val (negIf mx (env.f k y))) (hpf : ∀ k q sol, sol.niter = 0 → env.pfunc k q sol = 0) (h2 : 2 ≤ lam0) (k : ℕ)
    {j r : ℕ} {l : Bipop.Loop n} (h : BiReady kind mx lam0 j l) (hr : 0 < r)
    (hst : ∀ q : Params n, DefaultRates q → q.lambda ≤ lam0 * 2 ^ (j + k) → StrictRates q) :
    ∃ l' N, ∀ fuel, N ≤ fuel → Bipop.outer env fuel k r l = .ok (some l') := by
  induction k generalizing j r l with
  | zero => exact ⟨l, 0, fun _ _ => rfl⟩
  | succ k ih =>
    have hmono : ∀ i, i ≤ j + (k + 1) → lam0 * 2 ^ i ≤ lam0 * 2 ^ (j + (k + 1)) := fun i hi =>
      Nat.mul_le_mul_left _ (Nat.pow_le_pow_right (by norm_num) hi)
    obtain ⟨l1, N1, a1, a2⟩ := h.smalls hv hpf h2 (fun q hq hl => hst q hq (hl.trans (hmono j (by omega))))
      (l.budget0 - l.budget1).toNat (by omega)
    obtain ⟨l2, N2, b1, b2⟩ := a2.big hv h2 hr (fun q hq hl => hst q hq (hl.trans (hmono (j + 1) (by omega))))
    obtain ⟨l3, N3, c1⟩ := ih (r := r + 1) b2 (by omega) (by
      intro q hq hl
      exact hst q hq (by rwa [show j + 1 + k = j + (k + 1) by ring] at hl))
    refine ⟨l3, max (max N1 (l.budget0 - l.budget1).toNat) (max N2 N3), fun fuel hf => ?_⟩
    unfold Bipop.outer
    rw [a1 fuel (by omega) fuel (by omega), Out.ok_bind]
    simp only
    rw [b1 fuel (by omega), Out.ok_bind]
    exact c1 fuel (by omega)

theorem BiReady.first {env : Env n} {kind : CovKind} {p : Params n} {b : Bipop n} (hg : GoodParams p)
    (h0 : Bipop.new env kind p = .ok b) (hR : RunReady kind b.s) (hv : ValObjective env p) :
    ∃ l' N, (∀ fuel, N ≤ fuel → Bipop.largeRun env fuel 0 ⟨b, 0, 0, none⟩ = .ok (some l')) ∧
      BiReady kind p.maximize p.lambda 0 l' := by
  obtain ⟨s, h1, h2, d1, d2, d3, d4, _⟩ := Bipop.new_ok h0
  obtain ⟨e1, e2, e3, _⟩ := Bipop.new_start hg h0
  have hmx : b.s.p.maximize = p.maximize := by rw [e1]
  obtain ⟨s1, a1, a2, a3, a4⟩ := hR.after (env := env) (by intro k y; rw [hmx]; exact hv k y)
  refine ⟨⟨{ b with s := s1 }, 0 + Bipop.charge s1, 0, s1.captureBest none⟩, ⌈autoLimit b.s.p⌉₊ + 1, fun fuel hf => ?_,
    ⟨hmx ▸ a3, d1, by simpa using d2, ⟨_, d3⟩, ⟨_, d4⟩⟩⟩
  unfold Bipop.largeRun
  rw [if_neg (by decide), Out.pure_eq, Out.ok_bind]
  simp only
  rw [d4]
  have hb : (b.setMaxFevals p.maxFevals).s = b.s := by
    have : b.s.p.maxFevals = p.maxFevals := by rw [e1]
    rw [← this]; rfl
  simp only
  rw [hb, a1 fuel hf, Out.ok_bind]
  simp only [Bipop.setMaxFevals, d4]
  rfl

/-- The search ends with a result. -/
theorem bipop_total {env : Env n} {kind : CovKind} {p : Params n} {b : Bipop n} (hg : GoodParams p)
    (h0 : Bipop.new env kind p = .ok b) (hR : RunReady kind b.s) (hv : ValObjective env p)
    (hpf : ∀ k q sol, sol.niter = 0 → env.pfunc k q sol = 0)
    (hst : ∀ q : Params n, DefaultRates q → q.lambda ≤ p.lambda * 2 ^ (p.nrestarts - 1) → StrictRates q) :
    ∃ l N, ∀ fuel, N ≤ fuel → b.optimize env fuel = .ok (some l) := by
  obtain ⟨e1, _⟩ := Bipop.new_start hg h0
  have hnr : b.s.p.nrestarts = p.nrestarts := by rw [e1]
  unfold Bipop.optimize
  rw [hnr]
  cases hr : p.nrestarts with
  | zero => exact ⟨_, 0, fun _ _ => rfl⟩
  | succ k =>
    obtain ⟨l1, N1, a1, a2⟩ := BiReady.first hg h0 hR hv
    obtain ⟨l2, N2, b1⟩ := a2.outer (r := 0 + 1) hv hpf hg.lambda k (by omega) (by
      intro q hq hl
      exact hst q hq (by rw [hr]; simpa using hl))
    refine ⟨l2, max N1 N2, fun fuel hf => ?_⟩
    unfold Bipop.outer
    have hsm : Bipop.smallLoop env fuel fuel (⟨b, 0, 0, none⟩ : Bipop.Loop n) = .ok (some ⟨b, 0, 0, none⟩) := by
      cases fuel <;> (unfold Bipop.smallLoop; rw [if_neg (by simp)])
    rw [hsm, Out.ok_bind]
    simp only
    rw [a1 fuel (by omega), Out.ok_bind]
    exact b1 fuel (by omega)

theorem runReady_bipop {env : Env n} {kind : CovKind} {p : Params n} {b : Bipop n} (hu : GoodRun kind p)
    (h0 : Bipop.new env kind p = .ok b) (hk : UniqueKeys p) (he : p.withEdm = false)
    (hr : p.initialElitistOnRestart = false) (ha : CritActive p 7)
    (hg : ∀ x : Vec n, ∃ y : Vec n, phenoV p.gp x = .ok y)
    (hs : ∀ x : Vec n, ∃ y : Vec n, scaleToInternalV p.gp x = .ok y) : RunReady kind b.s := by
  obtain ⟨hp, e2, e3, e4, e5, e6, e7, e8⟩ := Bipop.new_start hu.good h0
  refine ⟨e3, e4, e8 hk, ?_, ?_, ?_, ?_, ?_, ?_⟩
  · rw [hp]
    exact ⟨hu.good.same ⟨rfl, rfl, rfl, rfl, rfl, rfl, rfl, rfl, rfl, rfl, rfl, rfl, rfl, rfl, rfl, rfl, rfl⟩,
      ⟨hu.strict.1, hu.strict.2⟩, hu.update, hu.vd, hu.lazy, hu.grad, hu.uh, hu.tpa⟩
  · rw [hp]; exact he
  · rw [hp]; exact hr
  · rw [hp]; exact ha
  · rw [hp]; exact hg
  · rw [hp]; exact hs

theorem bipop_new {env : Env n} {kind : CovKind} {p : Params n} (hgp : p.gp = GenoPheno.plain)
    (hg : GoodParams p) : ∃ b, Bipop.new env kind p = .ok b := by
  obtain ⟨s, h1⟩ := new_plain (env := env) (kind := kind) hgp hg
  have hp := (begins_new h1).params
  have hq : ({ s.p with lambda := p.lambda, mu := p.lambda / 2 } : Params n) = s.p := by
    rw [hp]; show ({ p with sigmaInit := _, mu := _ } : Params n) = _; rw [← hg.mu]
  have hgs : GoodParams s.p := by
    rw [hp]
    exact hg.same ⟨rfl, rfl, rfl, rfl, rfl, rfl, rfl, rfl, rfl, rfl, rfl, rfl, rfl, rfl, rfl, rfl, rfl⟩
  obtain ⟨s', h2⟩ := reset_total (env := env) (s := s) hgs (by
    intro x; rw [hp]; show ∃ y : Vec n, scaleToInternalV p.gp x = .ok y; rw [hgp]; exact ⟨x, rfl⟩)
  obtain ⟨q, sol, hm, e⟩ := Strat.resetSearchState_ok h2
  have hm' : Sol.make ({ s.p with lambda := p.lambda, mu := p.lambda / 2 } : Params n) (env.rnd s.nrnd) (env.z 0) =
      .ok (q, sol) := by rw [hq]; exact hm
  unfold Bipop.new
  rw [h1, Out.ok_bind]
  simp only
  rw [hm', Out.ok_bind]
  exact ⟨_, rfl⟩

end Libcmaes
