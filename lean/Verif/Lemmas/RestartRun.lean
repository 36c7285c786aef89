import Verif.Lemmas.Restart
import Verif.Lemmas.Witness
import Verif.Props.Solutions
import Verif.Props.Eval

/-! # Every run of the restart strategies ends, and well -/

namespace Libcmaes

open Spec

variable {n : ℕ}

/-- Up to `(n + 2)²` candidates, the default rates leave something of the old covariance. -/
theorem strict_small {p q : Params n} (h : initializeParameters p = .ok q) (hl : p.lambda ≤ (n + 2) ^ 2) :
    StrictRates q := by
  have hs := initializeParameters_spec h
  have hn := hs.n_real
  have h1 := hs.one_le_muw
  have h3 := hs.c1_lt
  have h4 := hs.c1_pos
  have hm : q.muw ≤ ((n : ℝ) + 2) ^ 2 / 2 := by
    have h5 : q.muw ≤ q.mu := by rw [hs.muw]; exact muwOf_le hs.mu_pos
    have h6 : (q.mu : ℝ) ≤ p.lambda / 2 := by rw [hs.mu]; exact Nat.cast_div_le
    have h7 : (p.lambda : ℝ) ≤ ((n : ℝ) + 2) ^ 2 := by exact_mod_cast hl
    linarith
  have hinv : 1 / q.muw ≤ 1 := by rw [div_le_one (by linarith)]; exact h1
  have hN : 0 < ((n : ℝ) + 2) ^ 2 + q.muw := by positivity
  have hM : 0 < ((n : ℝ) + 1.3) ^ 2 + q.muw := by positivity
  have hcmu : q.cmu ≤ 2 * (q.muw - 1) / (((n : ℝ) + 2) ^ 2 + q.muw) := by
    rw [hs.cmu]
    refine (min_le_right _ _).trans ?_
    gcongr
    linarith
  have key : q.c1 < 0.66 * (1 - q.cmu) := by
    have h8 : q.c1 < 0.66 * (1 - 2 * (q.muw - 1) / (((n : ℝ) + 2) ^ 2 + q.muw)) := by
      have e : (0.66 : ℝ) * (1 - 2 * (q.muw - 1) / (((n : ℝ) + 2) ^ 2 + q.muw)) =
          0.66 * (((n : ℝ) + 2) ^ 2 - q.muw + 2) / (((n : ℝ) + 2) ^ 2 + q.muw) := by
        field_simp; ring
      rw [e, hs.c1, div_lt_div_iff₀ hM hN]
      generalize q.muw = m at *
      generalize (n : ℝ) = d at *
      norm_num
      have hd : 0 ≤ (d - 1) := by linarith
      nlinarith [mul_nonneg hd hd, mul_nonneg (sub_nonneg.2 h1) (sub_nonneg.2 hm), mul_nonneg hd (sub_nonneg.2 hm), mul_nonneg hd (sub_nonneg.2 h1), mul_nonneg (mul_nonneg hd hd) (sub_nonneg.2 hm),mul_nonneg (mul_nonneg hd hd) (sub_nonneg.2 h1), mul_nonneg (mul_nonneg hd hd) hd, mul_nonneg (mul_nonneg (mul_nonneg hd hd) hd) hd]
    linarith
  refine ⟨?_, key⟩
  linarith

/-- A state in which a run with sound settings starts. -/
structure RunReady (kind : CovKind) (s : Strat n) : Prop where
  begins : Begins kind s.p s
  es : EsSound s
  flags : FlagsOf s.p s.crit
  good : GoodRun kind s.p
  edm : s.p.withEdm = false
  norestart : s.p.initialElitistOnRestart = false
  auto : CritActive s.p 7
  pheno : ∀ x : Vec n, ∃ y : Vec n, phenoV s.p.gp x = .ok y
  scale : ∀ x : Vec n, ∃ y : Vec n, scaleToInternalV s.p.gp x = .ok y

/-- Such a run ends, and the state it leaves is fit for a restart. -/
theorem RunReady.run {env : Env n} {kind : CovKind} {s : Strat n} (h : RunReady kind s)
    (hv : ValObjective env s.p) :
    ∃ s1, (∀ fuel, ⌈autoLimit s.p⌉₊ + 1 ≤ fuel → s.optimize env fuel = .ok (some s1)) ∧
      s1.niter ≤ ⌈autoLimit s.p⌉₊ ∧ s1.sol.niter = s1.niter ∧
      s1.p = s.p ∧ EsSound s1 ∧ s1.initialElitist = false ∧ s1.crit = s.crit ∧ s1.negate = s.negate ∧
      s1.kind = kind ∧ ((∀ q sol, sol.niter = 0 → env.pfunc s.npf q sol = 0) → s1.niter ≠ 0) ∧
      (s1.niter ≠ 0 → Val s1.sol.bestCandidate.fvalue) ∧ s.npf < s1.npf := by
  obtain ⟨a1, a2, a3⟩ := optimize_ends (env := env) (s := s) (N := ⌈autoLimit s.p⌉₊) h.norestart
    fun s0 tr t t' i1 i2 i3 => auto_limit h.begins h.flags h.auto i1 i2 i3
  obtain ⟨s1, h1⟩ := ends_well h.good h.begins h.es h.flags hv h.pheno h.edm h.norestart _ a2
  obtain ⟨s0, tr, t, i1, i2, i3, i4, i5, i6, i7, i8, i9, i10⟩ :=
    optimize_end h.begins h.flags h.norestart h.edm h1
  obtain ⟨hL, hR⟩ := start_live h.good h.begins h.es i1 hv
  have hneg : s0.negate = s.p.maximize := by rw [(evalInitial_kept i1).2.2.2.2.1]; exact h.begins.negate
  obtain ⟨hL', hR', _⟩ := genRun_live i2.genRun hL hR (by rw [hneg]; exact hv)
  have hst : s1.p = t.p ∧ s1.es = t.es ∧ s1.niter = t.niter ∧ s1.sol.niter = t.sol.niter ∧
      s1.initialElitist = t.initialElitist ∧ s1.sol.bestCandidate = t.sol.bestCandidate ∧
      s1.npf = t.npf + 1 := by
    rcases i10 with ⟨_, e⟩ | ⟨_, _, c, _, _, _, e⟩ <;> rw [e] <;> exact ⟨rfl, rfl, rfl, rfl, rfl, rfl, rfl⟩
  obtain ⟨_, _, k3, k4, k5⟩ := optimize_keeps h1
  have hn := a3 _ h1
  rw [h.begins.niter, Nat.zero_add] at hn
  refine ⟨s1, fun fuel hf => by rw [a1 fuel hf, h1], hn, by rw [hst.2.2.1, hst.2.2.2.1, i6, i7], ?_, ?_, ?_, k3, k4,
    by rw [k5, h.begins.kind_eq], ?_, ?_, by rw [hst.2.2.2.2.2.2, i8]; omega⟩
  · rw [hst.1, i5]; exact h.begins.params.symm
  · intro e he; rw [hst.2.1] at he; exact hL'.eig e he
  · rw [hst.2.2.2.2.1, (run_p i2.askRun.run).2.2.2.2.2.2.2.2.1]
    have : s0.initialElitist = s.initialElitist := by
      rcases Strat.evalInitial_frame i1 with e | ⟨y, v, _, _, e⟩ <;> rw [e]
    rw [this]; exact h.begins.elitist
  · intro hp
    rcases i10 with ⟨hx, _⟩ | ⟨_, hx, _⟩
    · rw [hst.2.2.1]
      intro h0
      rw [i6] at h0
      rw [i8, h0] at hx
      exact hx (hp _ _ (by rw [i7]; exact h0))
    · rw [hst.2.2.1]; exact hx
  · intro hne
    rw [hst.2.2.2.2.2.1]
    have hf0 : s0.sol.bestHist = [] ∧ s0.sol.kBestHist = [] ∧ s0.sol.bfvalues = [] := by
      rcases Strat.evalInitial_frame i1 with e | ⟨y, v, _, _, e⟩ <;> rw [e] <;>
        exact ⟨h.begins.fresh.bestHist, h.begins.fresh.kBestHist, h.begins.fresh.bfvalues⟩
    have hmx := hR.maxHist
    obtain ⟨hb, _⟩ := C21_bounded env s0 t tr s0.sol.maxHist.toNat (by omega) (by omega) hf0.1 hf0.2.1 hf0.2.2
      i2.askRun.run
    have hlen : 0 < t.sol.bestHist.length := by
      rw [hb]
      rw [hst.2.2.1, i6] at hne
      omega
    unfold Sol.bestCandidate
    cases hgl : t.sol.bestHist.getLast? with
    | none => rw [List.getLast?_eq_none_iff] at hgl; rw [hgl] at hlen; simp at hlen
    | some c => exact hR'.best c (List.mem_of_getLast? hgl)

theorem reset_total {env : Env n} {s : Strat n} (hg : GoodParams s.p)
    (hs : ∀ x : Vec n, ∃ y : Vec n, scaleToInternalV s.p.gp x = .ok y) :
    ∃ s', s.resetSearchState env = .ok s' := by
  have h1 : ∃ m, initialMean s.p (env.rnd s.nrnd) = .ok m := by
    unfold initialMean
    simp only
    obtain ⟨m, hm⟩ := (setFixed_ok_iff s.p.fixedP (if s.p.x0min = s.p.x0max then
      if s.p.x0min = fun _ => -dblMax then fun i => env.rnd s.nrnd i * 4 else s.p.x0min
      else fun i => 0.5 * (env.rnd s.nrnd i + 1) * (s.p.x0max i - s.p.x0min i) + s.p.x0min i)).2 hg.fixed_lt
    rw [hm, Out.ok_bind]
    exact hs m
  obtain ⟨m, hm⟩ := h1
  unfold Strat.resetSearchState Sol.make
  rw [hm, Out.ok_bind, if_neg (by have := hg.dim; have := hg.lambda; omega)]
  exact ⟨_, rfl⟩

/-- The state after it, with new parameters and reset, is ready again. -/
theorem RunReady.restart {env : Env n} {kind : CovKind} {s s1 : Strat n} {q : Params n} (h : RunReady kind s)
    (hp : s1.p = s.p) (hes : EsSound s1) (hi : s1.initialElitist = false) (hc : s1.crit = s.crit)
    (hn : s1.negate = s.negate) (hk : s1.kind = kind) (hq : KeepsSettings s1.p q) (hg : GoodParams q)
    (hst : StrictRates q) :
    ∃ s3, ({ s1 with p := q } : Strat n).resetSearchState env = .ok s3 ∧ RunReady kind s3 ∧
      s3.p = { q with sigmaInit := s3.sol.sigma } := by
  have hgp : q.gp = s.p.gp := by rw [hq, hp]
  obtain ⟨s3, h3⟩ := reset_total (env := env) (s := { s1 with p := q }) hg (by rw [show ({ s1 with p := q } : Strat n).p.gp = s.p.gp from hgp]; exact h.scale)
  obtain ⟨b1, b2, b3, b4, b5⟩ := afresh_reset h3 hq
  have hB := begins_reset h3 (by
    show s1.negate = q.maximize
    rw [hn, h.begins.negate, hq, hp]) hi
  have hgp3 : s3.p.gp = s.p.gp := by rw [b2]; exact hgp
  have hcr : s3.p.stoppingCrit = s.p.stoppingCrit := by rw [b2]; show q.stoppingCrit = _; rw [hq, hp]
  refine ⟨s3, h3, ⟨?_, ?_, ?_, ⟨?_, ?_, h.good.update, ?_, ?_, ?_, ?_, ?_⟩, ?_, ?_, ?_, ?_, ?_⟩, b2⟩
  · have : ({ s1 with p := q } : Strat n).kind = kind := hk
    rw [this] at hB; exact hB
  · intro e he; rw [b4] at he; exact hes e he
  · unfold FlagsOf
    rw [b1.crit, hc, hcr]; exact h.flags
  · rw [b2]; exact hg.same ⟨rfl, rfl, rfl, rfl, rfl, rfl, rfl, rfl, rfl, rfl, rfl, rfl, rfl, rfl, rfl, rfl, rfl⟩
  · rw [b2]; exact ⟨hst.1, hst.2⟩
  · rw [b2]; show q.vd = _; rw [hq, hp]; exact h.good.vd
  · intro e; rw [b2]; show q.lazyUpdate = _; rw [hq, hp]; exact h.good.lazy e
  · rw [b2]; show q.withGradient = _; rw [hq, hp]; exact h.good.grad
  · rw [b2]; show q.uh = _; rw [hq, hp]; exact h.good.uh
  · rw [b2]; show q.tpa ≠ _; rw [hq, hp]; exact h.good.tpa
  · rw [b2]; show q.withEdm = _; rw [hq, hp]; exact h.edm
  · rw [b2]; show q.initialElitistOnRestart = _; rw [hq, hp]; exact h.norestart
  · unfold CritActive; rw [hcr]; exact h.auto
  · rw [hgp3]; exact h.pheno
  · rw [hgp3]; exact h.scale

theorem autoLimit_mono {p q : Params n} (hv : p.vd = false) (hv' : q.vd = false) (h0 : 0 < p.lambda)
    (hl : p.lambda ≤ q.lambda) : autoLimit q ≤ autoLimit p := by
  unfold autoLimit
  simp only [hv, hv', Bool.false_eq_true, false_and, if_false, mul_one]
  have h1 : 0 < Real.sqrt p.lambda := Real.sqrt_pos.2 (by exact_mod_cast h0)
  have h2 : Real.sqrt p.lambda ≤ Real.sqrt q.lambda := Real.sqrt_le_sqrt (by exact_mod_cast hl)
  gcongr

/-- IPOP ends with a result. -/
theorem ipopLoop_total {env : Env n} {kind : CovKind} (r : ℕ) {s : Strat n} (b : Option (Sol n))
    (h : RunReady kind s) (hv : ValObjective env s.p)
    (hst : ∀ i, i + 1 < r → ∀ q : Params n, DefaultRates q → q.lambda = s.p.lambda * 2 ^ (i + 1) → StrictRates q) :
    ∃ s' b', ∀ fuel, ⌈autoLimit s.p⌉₊ + 1 ≤ fuel → s.ipopLoop env fuel r b = .ok (some (s', b')) := by
  induction r generalizing s b with
  | zero => exact ⟨s, b, fun _ _ => rfl⟩
  | succ r ih =>
    obtain ⟨s1, a1, a2, a3, a4, a5, a6, a7, a8, a9, _⟩ := h.run hv
    obtain ⟨q, hq⟩ := initializeParameters_ok { s1.p with lambda := s1.p.lambda * 2 }
      (by show 2 ≤ s1.p.lambda * 2; rw [a4]; have := h.good.good.lambda; omega) h.good.good.dim
    obtain ⟨mu, w, muw, cs, cc, c1, cm, ds, fs, fc, ch, lv, rl, al, e⟩ := initializeParameters_frame hq
    have hkeep : KeepsSettings s1.p q := by rw [e]; rfl
    have hql : q.lambda = s.p.lambda * 2 := by rw [e, a4]
    have hdr := defaultRates_of_init hq
    have hgq := goodParams_init hq (by rw [a4]; exact h.good.good.fixOk)
    by_cases hr0 : r = 0
    · subst hr0
      obtain ⟨s3, b1⟩ := reset_total (env := env) (s := { s1 with p := q }) hgq (by
        show ∀ x : Vec n, ∃ y : Vec n, scaleToInternalV q.gp x = .ok y
        rw [hkeep, a4]; exact h.scale)
      refine ⟨s3, s1.captureBest b, fun fuel hf => ?_⟩
      rw [Strat.ipopLoop, a1 fuel hf, Out.ok_bind]
      simp only
      rw [Strat.lambdaInc, hq, Out.ok_bind, Out.pure_eq, Out.ok_bind, b1, Out.ok_bind]
      split_ifs <;> rfl
    obtain ⟨s3, b1, b2, b3⟩ := h.restart (env := env) a4 a5 a6 a7 a8 a9 hkeep
      hgq (hst 0 (by omega) q hdr (by rw [hql]; ring))
    have hl3 : s3.p.lambda = s.p.lambda * 2 := by rw [b3]; exact hql
    have hv3 : ValObjective env s3.p := by
      intro k y
      have : s3.p.maximize = s.p.maximize := by rw [b3]; show q.maximize = _; rw [hkeep, a4]
      rw [this]; exact hv k y
    obtain ⟨s', b', hi⟩ := ih (s := s3) (s1.captureBest b) b2 hv3 (by
      intro i hi q hq1 hq2
      refine hst (i + 1) (by omega) q hq1 ?_
      rw [hq2, hl3]; ring)
    have hmono : ⌈autoLimit s3.p⌉₊ ≤ ⌈autoLimit s.p⌉₊ := by
      refine Nat.ceil_mono (autoLimit_mono h.good.vd b2.good.vd ?_ ?_)
      · have := h.good.good.lambda; omega
      · rw [hl3]; omega
    by_cases hb : s3.budgetSpent = true
    · refine ⟨s3, s1.captureBest b, fun fuel hf => ?_⟩
      rw [Strat.ipopLoop, a1 fuel hf, Out.ok_bind]
      simp only
      rw [Strat.lambdaInc, hq, Out.ok_bind, Out.pure_eq, Out.ok_bind, b1, Out.ok_bind, if_pos hb]
      rfl
    · refine ⟨s', b', fun fuel hf => ?_⟩
      rw [Strat.ipopLoop, a1 fuel hf, Out.ok_bind]
      simp only
      rw [Strat.lambdaInc, hq, Out.ok_bind, Out.pure_eq, Out.ok_bind, b1, Out.ok_bind, if_neg hb]
      exact hi fuel (by omega)

theorem begins_self {env : Env n} {kind : CovKind} {p : Params n} {s : Strat n}
    (h0 : Strat.new env kind p = .ok s) : Begins kind s.p s := by
  have hB := begins_new h0
  obtain ⟨h1, h2, h3, h4, h5, h6, h7, h10, h11, h12, h14, h15, h16, h17, h20, t1, t2⟩ := hB
  refine ⟨h1, ?_, h3, ?_, h5, ?_, h7, ?_, ?_, ?_, h14, ?_, ?_, h17, h20, t1, t2⟩
  · rw [h4]; exact h2
  · rw [h4]
  · rw [h4]; exact h6
  · rw [h4]; exact h10
  · rw [h4]; exact h11
  · rw [h4]; exact h12
  · rw [h4]; exact h15
  · rw [h4]; exact h16

theorem runReady_new {env : Env n} {kind : CovKind} {p : Params n} {s : Strat n} (hu : GoodRun kind p)
    (h0 : Strat.new env kind p = .ok s) (hk : UniqueKeys p) (he : p.withEdm = false)
    (hr : p.initialElitistOnRestart = false) (ha : CritActive p 7)
    (hg : ∀ x : Vec n, ∃ y : Vec n, phenoV p.gp x = .ok y)
    (hs : ∀ x : Vec n, ∃ y : Vec n, scaleToInternalV p.gp x = .ok y) : RunReady kind s := by
  have hB' := begins_self h0
  have hp := (begins_new h0).params
  refine ⟨hB', esSound_new h0, ?_, ?_, ?_, ?_, ?_, ?_, ?_⟩
  · have := new_crit h0 hk
    rw [hp]; exact this
  · rw [hp]
    exact ⟨hu.good.same ⟨rfl, rfl, rfl, rfl, rfl, rfl, rfl, rfl, rfl, rfl, rfl, rfl, rfl, rfl, rfl, rfl, rfl⟩,
      ⟨hu.strict.1, hu.strict.2⟩, hu.update, hu.vd, hu.lazy, hu.grad, hu.uh, hu.tpa⟩
  · rw [hp]; exact he
  · rw [hp]; exact hr
  · rw [hp]; exact ha
  · rw [hp]; exact hg
  · rw [hp]; exact hs

/-- The calls of a run without uncertainty handling, gradients, expected distance and elitist restarts. -/
theorem run_evals {env : Env n} {k : ℕ} {s s' : Strat n} (hr : s.p.initialElitistOnRestart = false)
    (he : s.p.withEdm = false) (huh : s.p.uh = false) (hg : s.p.withGradient = false) (h0 : s.niter = 0)
    (h : s.optimize env k = .ok (some s')) :
    ∃ e ≤ 1, s'.calls.length = s.calls.length + s'.niter * s.p.lambda + e ∧
      s'.sol.nevals = s.sol.nevals + s'.niter * s.p.lambda + e := by
  obtain ⟨s0, s1, tr, t, i1, i2, i3, i4⟩ := optimize_plain hr h
  obtain ⟨g1, g2, g3, g4, _⟩ := evalInitial_kept i1
  have hrun : ∀ m u, GenRun env s0 m u → u.p = s.p ∧ u.niter = m ∧
      u.calls.length = s0.calls.length + m * s.p.lambda ∧ u.sol.nevals = s0.sol.nevals + m * s.p.lambda := by
    intro m u hu
    induction hu with
    | refl => exact ⟨g1, by rw [g3, h0], by simp, by simp⟩
    | stop _ hst ih =>
      obtain ⟨k, r, e⟩ := Strat.stop_frame hst
      rw [e]; exact ih
    | @turn m u u' _ hgen ih =>
      obtain ⟨j1, j2, j3, j4⟩ := ih
      obtain ⟨tr', hrun'⟩ := Strat.generation_run hgen
      have hcalls : ∃ c, u'.calls = u.calls ++ c ∧ u'.sol.nevals = u.sol.nevals + c.length ∧ u'.niter = u.niter + 1 := by
        have hgen' := hgen
        unfold Strat.generation at hgen'
        obtain ⟨⟨pop, v1⟩, ha, hgen'⟩ := Out.bind_eq_ok.1 hgen'
        obtain ⟨phen, hp, hgen'⟩ := Out.bind_eq_ok.1 hgen'
        obtain ⟨v2, he, hgen'⟩ := Out.bind_eq_ok.1 hgen'
        obtain ⟨v3, ht, hgen'⟩ := Out.bind_eq_ok.1 hgen'
        injection hgen' with hgen'
        obtain ⟨⟨es, ei, ue, d1, nz, x1, x2, p1, p2, e1⟩, _⟩ := Strat.ask_frame ha
        obtain ⟨d2, nu, nzuh, lr, cu, cs, e2, _⟩ := Strat.eval_frame he
        obtain ⟨cs', cu', su, ts, sol3, hs, hb, csq, hc, sc, ps, hs', pc, cov, sep, v, sg, xp, xm, mx, mn, lv, le,
          e3⟩ := Strat.tell_frame ht
        obtain ⟨c0, ck, cl, med, _, _, _, _, eb, _⟩ := Sol.updateBest_ok hb
        refine ⟨d1 ++ d2, ?_, ?_, ?_⟩
        · rw [← hgen', e3, e2, e1]; simp [Strat.incIter]
        · rw [← hgen', e3, eb, e2, e1]; simp [Strat.incIter]; omega
        · rw [← hgen', e3, e2, e1]; rfl
      obtain ⟨c, hc1, hc2, hc3⟩ := hcalls
      have hev := generation_evals (by rw [j1]; exact huh) (by rw [j1]; exact hg) hgen
      have hlen : c.length = s.p.lambda := by rw [j1] at hev; omega
      have hp := run_p hrun'
      refine ⟨by rw [hp.1, j1], ?_, ?_, ?_⟩
      · rw [hc3, j2]
      · rw [hc1, List.length_append, j3, hlen]; ring
      · rw [hc2, j4, hlen]; ring
  obtain ⟨j1, j2, j3, j4⟩ := hrun _ _ i2.genRun
  obtain ⟨kk, r, e⟩ := Strat.stop_frame i3
  have hs' : s' = s1 := by
    rw [if_neg (by rw [e]; show ¬ t.p.withEdm = true; rw [j1, he]; simp)] at i4
    injection i4 with i4; exact i4.symm
  have e0 : ∃ e ≤ 1, s0.calls.length = s.calls.length + e ∧ s0.sol.nevals = s.sol.nevals + e := by
    rcases Strat.evalInitial_frame i1 with e | ⟨y, v, _, _, e⟩
    · exact ⟨0, by omega, by rw [e]; rfl, by rw [e]; rfl⟩
    · exact ⟨1, le_rfl, by rw [e]; simp, by rw [e]⟩
  obtain ⟨x, hx, hx1, hx2⟩ := e0
  refine ⟨x, hx, ?_, ?_⟩
  · rw [hs', e]; show t.calls.length = _ + t.niter * _ + _; rw [j3, j2, hx1]; ring
  · rw [hs', e]; show t.sol.nevals = _ + t.niter * _ + _; rw [j4, j2, hx2]; ring

theorem new_sigma {env : Env n} {kind : CovKind} {p : Params n} {s : Strat n}
    (h : Strat.new env kind p = .ok s) : s.sol.sigma = if 0 < p.sigmaInit then p.sigmaInit else 1 / n := by
  unfold Strat.new at h
  obtain ⟨⟨p', sol⟩, hm, h⟩ := Out.bind_eq_ok.1 h
  injection h with h
  rw [← h]
  exact (Sol.make_eq_ok hm).2.2.2.2.1

theorem defaultRates_strict {q : Params n} (h : DefaultRates q) (hl : q.lambda ≤ (n + 2) ^ 2) : StrictRates q := by
  obtain ⟨q', h1, h2, _, _, _, _, h7, h8, _⟩ := h
  unfold Params.make at h1
  obtain ⟨l, -, h1⟩ := Out.bind_eq_ok.1 h1
  have hs := initializeParameters_spec h1
  have := strict_small h1 (by rw [← hs.lambda, ← h2]; exact hl)
  exact ⟨by rw [h7, h8]; exact this.1, by rw [h7, h8]; exact this.2⟩

/-- What is known of the runs of IPOP. -/
structure IpopRuns (p : Params n) (s s' : Strat n) (runs : List (SubRun n)) : Prop where
  count : runs.length ≤ p.nrestarts
  ne : p.nrestarts ≠ 0 → runs ≠ []
  enough : runs.length = p.nrestarts ∨ 0 < p.maxFevals ∧ p.maxFevals ≤ s'.nevals
  chain : runs.IsChain IpopNext
  each : ∀ (i : ℕ) (r : SubRun n), runs[i]? = some r →
    r.start.p.lambda = p.lambda * 2 ^ i ∧ r.start.sol.cands.length = p.lambda * 2 ^ i ∧
    r.fin.sol.cands.length = p.lambda * 2 ^ i ∧
    r.start.sol.sigma = (if 0 < p.sigmaInit then p.sigmaInit else 1 / n) ∧
    r.start.p.maxFevals = p.maxFevals ∧ GoodParams r.start.p ∧
    (i ≠ 0 → DefaultRates r.start.p ∧ ¬ (0 < p.maxFevals ∧ p.maxFevals ≤ r.start.nevals)) ∧
    ∃ a b : Vec n, KeepsSettings { p with x0min := a, x0max := b } r.start.p

theorem ipop_runs {env : Env n} {kind : CovKind} {p : Params n} {s s' : Strat n} {b : Option (Sol n)} {fuel : ℕ}
    (hg : GoodParams p) (h0 : Strat.new env kind p = .ok s)
    (h : s.ipopOptimize env fuel = .ok (some (s', b))) :
    ∃ runs, History env s runs s' ∧ IpopRuns p s s' runs ∧ b = bestOf none runs := by
  have hB := begins_new h0
  have hp := hB.params
  have hnr : s.p.nrestarts = p.nrestarts := by rw [hp]
  unfold Strat.ipopOptimize at h
  obtain ⟨runs, hH, h1, h2, h3, h4, h5⟩ := ipopLoop_history _ h
  have hsig := new_sigma h0
  have hsp := hB.sigma
  have hpre : ∀ (i : ℕ) (r : SubRun n), runs[i]? = some r →
      r.start.p.lambda = p.lambda * 2 ^ i ∧ r.start.sol.cands.length = p.lambda * 2 ^ i ∧
      r.start.sol.sigma = s.sol.sigma ∧ r.start.p.sigmaInit = s.sol.sigma ∧
      r.start.p.maxFevals = p.maxFevals ∧ GoodParams r.start.p ∧
      (i ≠ 0 → DefaultRates r.start.p ∧ ¬ (0 < p.maxFevals ∧ p.maxFevals ≤ r.start.nevals)) ∧
      ∃ a b : Vec n, KeepsSettings { p with x0min := a, x0max := b } r.start.p := by
    intro i r hr
    refine chain_all (P := fun i r => r.start.p.lambda = p.lambda * 2 ^ i ∧
      r.start.sol.cands.length = p.lambda * 2 ^ i ∧
      r.start.sol.sigma = s.sol.sigma ∧ r.start.p.sigmaInit = s.sol.sigma ∧
      r.start.p.maxFevals = p.maxFevals ∧ GoodParams r.start.p ∧
      (i ≠ 0 → DefaultRates r.start.p ∧ ¬ (0 < p.maxFevals ∧ p.maxFevals ≤ r.start.nevals)) ∧
      ∃ a b : Vec n, KeepsSettings { p with x0min := a, x0max := b } r.start.p) h4 ?_ ?_ i hr
    · intro a ha
      rw [hH.first a ha]
      refine ⟨by rw [hp]; simp, by rw [hB.fresh.cands]; simp, rfl, by rw [hp], by rw [hp], ?_, by simp, p.x0min, p.x0max, ?_⟩
      · rw [hp]; exact hg.same ⟨rfl, rfl, rfl, rfl, rfl, rfl, rfl, rfl, rfl, rfl, rfl, rfl, rfl, rfl, rfl, rfl, rfl⟩
      · rw [hp]; rfl
    · rintro i a c ha _ hn ⟨i1, i2, i3, i4, i5, i6, i7, x1, x2, i8⟩
      obtain ⟨k, hk⟩ := hH.done a ha
      obtain ⟨⟨y1, y2, sg, k1, k1'⟩, _⟩ := optimize_keeps hk
      have hl : c.start.p.lambda = p.lambda * 2 ^ (i + 1) := by rw [hn.lambda, i1]; ring
      have hs : c.start.p.sigmaInit = s.sol.sigma := by rw [hn.sigma (by rw [i4]; exact hsp), i4]
      have hmf : c.start.p.maxFevals = p.maxFevals := by rw [hn.maxFevals, i5]
      refine ⟨hl, by rw [hn.afresh.fresh.cands, hl], by rw [hn.afresh.sigma, hs], hs, hmf, hn.good i6,
        fun _ => ⟨hn.rates, ?_⟩, y1, y2, ?_⟩
      · have := hn.budget
        unfold Strat.budgetSpent at this
        rw [hmf] at this
        simpa using this
      · have := hn.afresh.settings
        unfold KeepsSettings at this i8 ⊢
        rw [this, k1, i8]
  refine ⟨runs, hH, ⟨hnr ▸ h1, hnr ▸ h2, ?_, h4, ?_⟩, h5⟩
  · rcases h3 with e | e
    · exact Or.inl (hnr ▸ e)
    · refine Or.inr ?_
      have hmf : s'.p.maxFevals = p.maxFevals := by
        refine Strat.ipopLoop_induct (I := fun t => t.p.maxFevals = p.maxFevals) ?_ ?_ ?_ _ (by rw [hp]) h
        · intro t t' ht h
          obtain ⟨⟨y1, y2, sg, k1, _⟩, _⟩ := optimize_keeps h
          rw [k1]; exact ht
        · intro t t' ht h
          obtain ⟨q, hq, e⟩ := Strat.lambdaInc_ok h
          rw [e]
          exact (initializeParameters_spec hq).maxFevals.trans ht
        · intro t t' ht h
          obtain ⟨q, sol, hm, e⟩ := Strat.resetSearchState_ok h
          rw [e]
          show q.maxFevals = _
          rw [(Sol.make_eq_ok hm).2.2.2.2.2.1]; exact ht
      unfold Strat.budgetSpent at e
      rw [hmf] at e
      simpa using e
  · intro i r hr
    obtain ⟨i1, i2, i3, i4, i5, i6, i7, i8⟩ := hpre i r hr
    obtain ⟨k, hk⟩ := hH.done r (List.mem_of_getElem? hr)
    obtain ⟨⟨y1, y2, sg, k1, _⟩, k2, _⟩ := optimize_keeps hk
    refine ⟨i1, i2, ?_, by rw [i3, hsig], i5, i6, i7, i8⟩
    rw [k2 i6 (by rw [i2, i1]), k1]
    exact i1

/-! ### The runs of IPOP, one by one -/

theorem optimize_elitist {env : Env n} {k : ℕ} {s s' : Strat n} (hr : s.p.initialElitistOnRestart = false)
    (h : s.optimize env k = .ok (some s')) : s'.initialElitist = s.initialElitist ∧ s'.p = s.p := by
  obtain ⟨s0, s1, tr, t, i1, i2, i3, i4⟩ := optimize_plain hr h
  have h1 : s0.initialElitist = s.initialElitist := by
    rcases Strat.evalInitial_frame i1 with e | ⟨y, v, _, _, e⟩ <;> rw [e]
  have hrp := run_p i2.askRun.run
  obtain ⟨kk, r, e⟩ := Strat.stop_frame i3
  have h3 : s1.initialElitist = t.initialElitist ∧ s1.p = t.p := by rw [e]; exact ⟨rfl, rfl⟩
  have h4 : s'.initialElitist = s1.initialElitist ∧ s'.p = s1.p := by
    split_ifs at i4
    · obtain ⟨c, ed, e⟩ := Strat.edm_frame i4
      rw [e]; exact ⟨rfl, rfl⟩
    · injection i4 with i4; rw [i4]; exact ⟨rfl, rfl⟩
  exact ⟨by rw [h4.1, h3.1, hrp.2.2.2.2.2.2.2.2.1, h1], by rw [h4.2, h3.2, hrp.1, (evalInitial_kept i1).1]⟩

/-- Every run of a restart strategy starts as the first one does. -/
theorem chain_begins {env : Env n} {kind : CovKind} {s s' : Strat n} {runs : List (SubRun n)}
    (hH : History env s runs s') (hc : runs.IsChain Restarted) (hB : Begins kind s.p s)
    (hr : s.p.initialElitistOnRestart = false) (hf : FlagsOf s.p s.crit) (i : ℕ) {r : SubRun n}
    (hi : runs[i]? = some r) :
    Begins kind r.start.p r.start ∧ r.start.p.initialElitistOnRestart = false ∧
      FlagsOf r.start.p r.start.crit := by
  refine chain_all (P := fun _ r => Begins kind r.start.p r.start ∧ r.start.p.initialElitistOnRestart = false ∧
      FlagsOf r.start.p r.start.crit) hc ?_ ?_ i hi
  · intro a ha
    rw [hH.first a ha]; exact ⟨hB, hr, hf⟩
  · rintro i a c ha _ hn ⟨j1, j2, j3⟩
    obtain ⟨k, hk⟩ := hH.done a ha
    obtain ⟨_, _, k3, k4, k5⟩ := optimize_keeps hk
    obtain ⟨e1, e2⟩ := optimize_elitist j2 hk
    have hset := hn.afresh.settings
    unfold KeepsSettings at hset
    rw [e2] at hset
    have hcr : c.start.p.stoppingCrit = a.start.p.stoppingCrit := by rw [hset]
    refine ⟨?_, by rw [hset]; exact j2, ?_⟩
    · have := hn.begins (by rw [k4, e2]; exact j1.negate) (by rw [e1]; exact j1.elitist)
      rwa [k5, j1.kind_eq] at this
    · unfold FlagsOf at j3 ⊢
      rw [hn.afresh.crit, k3, hcr]; exact j3

/-- A run whose end is known. -/
theorem RunReady.done {env : Env n} {kind : CovKind} {s s' : Strat n} {fuel : ℕ} (h : RunReady kind s)
    (hv : ValObjective env s.p) (h1 : s.optimize env fuel = .ok (some s')) :
    EsSound s' ∧ ((∀ q sol, sol.niter = 0 → env.pfunc s.npf q sol = 0) → s'.niter ≠ 0) ∧
      (s'.niter ≠ 0 → Val s'.sol.bestCandidate.fvalue) ∧ s.npf < s'.npf ∧ s'.sol.niter = s'.niter ∧ s'.p = s.p := by
  obtain ⟨s1, a1, a2, a3, a4, a5, a6, a7, a8, a9, a10, a11, a12⟩ := h.run hv
  have e1 := optimize_mono_le (le_max_left fuel (⌈autoLimit s.p⌉₊ + 1)) (s := s) (env := env) (by rw [h1]; simp)
  rw [a1 _ (le_max_right _ _), h1] at e1
  injection e1 with e1; injection e1 with e1
  rw [← e1]; exact ⟨a5, a10, a11, a12, a3, a4⟩

/-- Every run of a restart strategy has sound settings if the first one has. -/
theorem chain_ready {env : Env n} {kind : CovKind} {s s' : Strat n} {runs : List (SubRun n)}
    (hH : History env s runs s') (hc : runs.IsChain Restarted) (hR : RunReady kind s) (hv : ValObjective env s.p)
    (hst : ∀ (i : ℕ) (r : SubRun n), runs[i]? = some r → i ≠ 0 → StrictRates r.start.p) (i : ℕ) {r : SubRun n}
    (hi : runs[i]? = some r) : RunReady kind r.start ∧ r.start.p.maximize = s.p.maximize := by
  induction i generalizing r with
  | zero =>
    have : runs.head? = some r := by rw [← hi]; exact List.head?_eq_getElem?
    rw [hH.first r this]; exact ⟨hR, rfl⟩
  | succ i ih =>
    obtain ⟨hi2, e⟩ := List.getElem?_eq_some_iff.1 hi
    have hi' : i < runs.length := by omega
    have hn := List.isChain_iff_getElem.1 hc i (by omega)
    rw [e] at hn
    generalize hai : runs[i] = a at hn
    have ha : runs[i]? = some a := by rw [← hai]; exact List.getElem?_eq_getElem hi'
    obtain ⟨hRa, hma⟩ := ih ha
    obtain ⟨b1, b2, b3⟩ := chain_begins hH hc hR.begins hR.norestart hR.flags (i + 1) hi
    obtain ⟨k, hk⟩ := hH.done a (List.mem_of_getElem? ha)
    obtain ⟨e1, e2⟩ := optimize_elitist hRa.norestart hk
    have hset := hn.afresh.settings
    unfold KeepsSettings at hset
    rw [e2] at hset
    have hva : ValObjective env a.start.p := by
      intro k y; rw [hma]; exact hv k y
    have hes := (hRa.done hva hk).1
    have hcr : r.start.p.stoppingCrit = a.start.p.stoppingCrit := by rw [hset]
    have hgp : r.start.p.gp = a.start.p.gp := by rw [hset]
    refine ⟨⟨b1, ?_, b3, ⟨hn.good hRa.good.good, hst _ r hi (by omega), ?_, ?_, ?_, ?_, ?_, ?_⟩, ?_, b2, ?_, ?_, ?_⟩, ?_⟩
    · intro x hx; rw [hn.es] at hx; exact hes x hx
    · exact hRa.good.update
    · rw [hset]; exact hRa.good.vd
    · rw [hset]; exact hRa.good.lazy
    · rw [hset]; exact hRa.good.grad
    · rw [hset]; exact hRa.good.uh
    · rw [hset]; exact hRa.good.tpa
    · rw [hset]; exact hRa.edm
    · unfold CritActive; rw [hcr]; exact hRa.auto
    · rw [hgp]; exact hRa.pheno
    · rw [hgp]; exact hRa.scale
    · rw [hset]; exact hma

/-- A run which the progress function stops at once. -/
theorem optimize_at_once {env : Env n} {kind : CovKind} {s s' : Strat n} {fuel : ℕ} (hB : Begins kind s.p s)
    (hf : FlagsOf s.p s.crit) (hr : s.p.initialElitistOnRestart = false) (he : s.p.withEdm = false)
    (hie : s.p.initialElitist = false) (hel : s.p.elitist = false) (hif : s.p.initialFvalue = false)
    (hp : ∀ q sol, env.pfunc s.npf q sol ≠ 0) (h : s.optimize env fuel = .ok (some s')) :
    s' = { s with npf := s.npf + 1 } := by
  obtain ⟨s0, tr, t, i1, i2, i3, i4, i5, i6, i7, i8, i9, i10⟩ := optimize_end hB hf hr he h
  have hs0 : s0 = s := by
    unfold Strat.evalInitial at i1
    rw [if_neg (by rw [hie, hel, hif, hB.elitist]; decide)] at i1
    injection i1 with i1; exact i1.symm
  subst hs0
  have hst : s0.stop env = .ok (true, { s0 with npf := s0.npf + 1 }) := by
    unfold Strat.stop
    rw [if_neg (by rw [hB.fresh.runStatus]; decide)]
    exact if_pos (hp _ _)
  have htr : ∀ tr t, LoopTo env s0 tr t → t = s0 := by
    intro tr t h
    induction h with
    | refl => rfl
    | step _ j1 _ _ ih => rw [ih, hst] at j1; cases j1
  rw [htr _ _ i2, hst] at i3
  injection i3 with i3; injection i3 with _ i3
  exact i3.symm

end Libcmaes
