import Verif.Lemmas.ElitistRestartWit
import Verif.Props.Solutions

/-! # C94: the elitist restart -/

namespace Libcmaes

open Spec

variable {n : ℕ}

/-! ### When and from where -/

/-- **C94.** With elitism mode 3, what `optimize()` returns, after however many restarts, does not ask for
another one: the best candidate ever seen is not better than the best of the last population, or it was seen
less than three iterations before the end. -/
theorem C94_end (env : Env n) (k : ℕ) (s s' : Strat n) (hf : s.p.initialElitistOnRestart = true)
    (h : s.optimize env k = .ok (some s')) : s'.p.initialElitistOnRestart = true ∧ ¬ NeedsRestart s' := by
  have hfl : ∀ t t' : Strat n, t.elitistRestart env = .ok t' →
      t'.p.initialElitistOnRestart = t.p.initialElitistOnRestart := by
    intro t t' ht
    obtain ⟨b, q, sol, -, hm, e⟩ := Strat.elitistRestart_ok ht
    rw [e]
    show q.initialElitistOnRestart = _
    rw [(Sol.make_eq_ok hm).2.2.2.2.2.1]
  induction k generalizing s with
  | zero => cases h
  | succ k ih =>
    obtain ⟨s0, s1, s2, b, g0, g1, g2, g3, g4⟩ := Strat.optimize_succ_ok h
    have h0 : s0.p.initialElitistOnRestart = true := by
      rcases Strat.evalInitial_frame g0 with e | ⟨y, v, -, -, e⟩
      all_goals rw [e]; exact hf
    have h1 : s1.p.initialElitistOnRestart = true := by
      refine Strat.loop_induct (I := fun t => t.p.initialElitistOnRestart = true) ?_ ?_ _ h0 g1
      · intro t b t' ht hst
        obtain ⟨j, r, e⟩ := Strat.stop_frame hst
        rw [e]; exact ht
      · intro t t' ht hg
        obtain ⟨tr, hrun⟩ := Strat.generation_run hg
        rw [(run_p hrun).1]; exact ht
    have h2 : s2.p.initialElitistOnRestart = true := by
      split_ifs at g2
      · obtain ⟨c, ed, e⟩ := Strat.edm_frame g2
        rw [e]; exact h1
      · injection g2 with g2
        rw [← g2]; exact h1
    rcases g4 with ⟨_, s3, g5, g6⟩ | ⟨rfl, rfl⟩
    · exact ih s3 ((hfl _ _ g5).trans h2) g6
    · exact ⟨h2, fun hn => by simpa using (wantsRestart_iff h2 g3).2 hn⟩

/-- **C94.** The state in which a restart begins, without scaling and unless the best candidate is the point
that stands for "no starting point": the mean is the best candidate seen; the evaluations made and the calls
are those of the runs before; the iterations are counted anew; distribution, paths, histories and records are
those of a new solution; the starting point will be evaluated and protected. -/
theorem C94_restart (env : Env n) (s s' : Strat n) (b : Cand n) (hg : GoodParams s.p)
    (hsc : s.p.gp.scale = .noScaling) (hb : s.sol.bestSeen = some b) (hfx : FixedAt s.p b.x)
    (hne : b.x ≠ fun _ => -dblMax) (h : s.elitistRestart env = .ok s') :
    s'.sol.xmean = b.x ∧ s'.p = { s.p with x0min := b.x, x0max := b.x, sigmaInit := s'.sol.sigma } ∧
      s'.nevals = s.nevals ∧ s'.sol.nevals = s.nevals ∧ s'.calls = s.calls ∧ s'.niter = 0 ∧
      Fresh s.p.lambda { s'.sol with nevals := 0 } ∧
      (0 < s.p.sigmaInit → s'.sol.sigma = s.p.sigmaInit) ∧ s'.initialElitist = true ∧ s'.crit = s.crit := by
  obtain ⟨b', q, sol, hb', hm, e⟩ := Strat.elitistRestart_ok h
  have : b' = b := by rw [hb] at hb'; injection hb' with hb'; exact hb'.symm
  subst this
  obtain ⟨a1, a2, a3, a4, a5, a6, _⟩ := Sol.make_eq_ok hm
  rw [initialMean_restart hsc hg hfx hne] at a1
  injection a1 with a1
  have hs0 : ({ sol with nevals := 0 } : Sol n) = sol := by rw [← a4.nevals]
  rw [e]
  refine ⟨a1.symm, a6, rfl, rfl, rfl, rfl, ?_, fun hp => ?_, rfl, rfl⟩
  · show Fresh _ ({ sol with nevals := 0 } : Sol n)
    rw [hs0]; exact a4
  · show sol.sigma = _
    rw [a5]
    exact if_pos hp

/-! ### Nothing is lost -/

/-- **C94, partial.** With elitism mode 3, an objective that is a function of the point, neither scaling nor
uncertainty handling: what `optimize()` returns is as good as the best candidate of the first run.
Missing: scaled parameters (`C94_scaled_false`), and that `optimize()` does return (`C94_uninit_false`). -/
theorem C94_kept_partial (env : Env n) (kind : CovKind) (p : Params n) (f : Vec n → FVal) (k : ℕ)
    (s s0 s1 s' : Strat n) (b : Cand n) (hp : Configured p) (hsc : p.gp.scale = .noScaling) (huh : p.uh = false)
    (hf : ∀ k y, env.f k y = f y) (h : Strat.new env kind p = .ok s) (h0 : s.evalInitial env = .ok s0)
    (h1 : s0.loop env (k + 1) = .ok (some s1)) (hb : s1.sol.bestSeen = some b)
    (hfar : ∀ w, ValueAt f p (fun _ => -dblMax) w → FVal.lt b.fvalue w)
    (h' : s.optimize env (k + 1) = .ok (some s')) :
    ∃ b', s'.sol.bestSeen = some b' ∧ AsGoodAs b'.fvalue b.fvalue ∧ ValueAt f p b.x b.fvalue := by
  obtain ⟨t0, t1, s2, a, g0, g1, g2, g3, g4⟩ := Strat.optimize_succ_ok h'
  rw [h0] at g0; injection g0 with g0; subst g0
  rw [h1] at g1; injection g1 with g1; injection g1 with g1; subst g1
  have hi := (HonestInv.new (f := f) hp.good.1 hsc huh h).evalInitial hf h0
  have hi1 : HonestInv f p.fixedP p s1 := by
    refine Strat.loop_induct (I := fun t => HonestInv f p.fixedP p t) ?_ ?_ _ hi h1
    · intro t b t' ht hst; exact (ht.stop hst).1
    · intro t t' ht hg; exact (ht.generation hf hg).1
  obtain ⟨hi2, e2⟩ := hi1.edm g2
  have hv := hi1.seen b hb
  rw [← e2] at hb
  rcases g4 with ⟨_, s3, g5, g6⟩ | ⟨_, rfl⟩
  · have hne : b.x ≠ fun _ => -dblMax := by
      intro he
      rw [he] at hv
      have := hfar _ hv
      exact FVal.lt_irrefl _ this
    obtain ⟨hi3, hx, hel⟩ := hi2.restart hb hne g5
    obtain ⟨b', q1, q2⟩ := restarted_kept k hf hi3 hel (by rw [hx]; exact hv) hfar g6
    exact ⟨b', q1, q2, hv⟩
  · exact ⟨b, hb, Or.inl rfl, hv⟩

/-- The hypotheses are met, by a run that is restarted: in any dimension, a spike at the point of the first
generation; `optimize()` returns, its result has the value of the spike. -/
theorem C94_kept_run (hn : 1 ≤ n) (x0 : Vec n) (sigma : ℝ) (seed clock : ℕ) :
    ∃ (env : Env n) (p : Params n) (f : Vec n → FVal) (s s1 s' : Strat n) (b : Cand n), Usual .plain p ∧
      ElitismMode p 3 ∧ p.gp.scale = .noScaling ∧ (∀ k y, env.f k y = f y) ∧ Strat.new env .plain p = .ok s ∧
      s.evalInitial env = .ok s ∧ (∀ k, s.loop env (k + 5) = .ok (some s1)) ∧ s1.sol.bestSeen = some b ∧
      NeedsRestart s1 ∧ (∀ w, ValueAt f p (fun _ => -dblMax) w → FVal.lt b.fvalue w) ∧
      ∀ k, s.optimize env (k + 6) = .ok (some s') := by
  obtain ⟨env, p, s, s1, b, hp, hu, hs, hf, c0, c1, c2, c3, c4, -, c6, c7, c8, c9, c10, c11⟩ :=
    two_stages hn GenoPheno.plain id (fun x => phenoV_plain x) (fun x => ⟨x, rfl⟩) Function.injective_id x0 sigma seed
      clock (fun _ => -dblMax) 0 0
  have hmx : p.maximize = false := (Params.make_plain hp).2.2.2.2.2.2.2.1
  have hgp : (budget4 p).gp = GenoPheno.plain := (Params.make_plain hp).2.2.2.2.2.2.2.2.2.1
  have hel : ElitismMode (budget4 p) 3 := by simp [ElitismMode, budget4, Params.setElitism]
  obtain ⟨s3, s4, s5, j, x, v, d1, d2, d3, d4, d5, d6, d7, d8, -, -, d9⟩ := c11 b.x
    (initialMean_restart (by rw [c8]; rfl) c9 (by intro i v hv; rw [c10] at hv; cases hv) c4)
  rw [drift_zero, d8] at d7 d9
  have hv : ∀ k, env.f k (id b.x) = .num 0 := by intro k; rw [hf]; exact spike_at _ _
  rw [hv] at d6 d7 d9
  obtain ⟨c, q1, q2, q3, q4⟩ := d9 (by rw [d6]; exact FVal.lt_irrefl _)
  refine ⟨env, budget4 p, spike b.x 0, s, s1, s5, b, hu, hel, by rw [hgp]; rfl, ?_, hs, c0, c1, c2, ?_, ?_, fun k => ?_⟩
  · intro k y; rw [hf]; rfl
  · refine (wantsRestart_iff ?_ c6).1 rfl
    by_contra h
    unfold Strat.wantsRestart at c6
    rw [if_neg h] at c6
    cases c6
  · rintro w ⟨y, hy, hw⟩
    rw [hgp, phenoV_plain] at hy
    injection hy with hy
    rw [hw, show (budget4 p).maximize = false from hmx, ← hy]
    simp only [Bool.false_eq_true, if_false]
    rw [c3, spike_off (Ne.symm c4)]
    simp [FVal.lt]
  · rw [optimize_again c0 (c1 (k + 1)) c7 c6 d1, optimize_last d2 (d3 (k + 3)) d4]
    unfold Strat.wantsRestart
    rw [if_pos d5, q1]
    simp only
    rw [q2, d6, d7, if_neg (FVal.lt_irrefl _)]
    rfl

/-! ### Where the restart goes wrong -/

/-- **C94** fails: in any dimension, from any starting point and step size, there are an objective (0 at one
point, 1 elsewhere) and draws for which `optimize()` with elitism mode 3 and a budget of evaluations reads a
variable that was never written.  The first run needs a restart; it has used up the budget, so the second run
makes one generation; if that is worse than the starting point, the iteration in which the best candidate was
seen is read, and only a candidate of a population sets it. -/
theorem C94_uninit_false (hn : 1 ≤ n) (x0 : Vec n) (sigma : ℝ) (seed clock : ℕ) :
    ∃ (env : Env n) (p : Params n) (f : Vec n → FVal) (s : Strat n), Usual .plain p ∧ ElitismMode p 3 ∧
      p.gp = GenoPheno.plain ∧ OnlyActive p 8 ∧ (∀ k y, env.f k y = f y ∧ (f y = .num 0 ∨ f y = .num 1)) ∧
      Strat.new env .plain p = .ok s ∧ ∀ k, s.optimize env (k + 6) = .error .ub := by
  have : Nonempty (Fin n) := ⟨⟨0, hn⟩⟩
  have hw : (1 : Vec n) ≠ 0 := one_ne_zero
  obtain ⟨env, p, s, s1, b, hp, hu, hs, hf, c0, c1, c2, c3, c4, -, c6, c7, c8, c9, c10, c11⟩ :=
    two_stages hn GenoPheno.plain id (fun x => phenoV_plain x) (fun x => ⟨x, rfl⟩) Function.injective_id x0 sigma seed
      clock (fun _ => -dblMax) 0 1
  have hgp : (budget4 p).gp = GenoPheno.plain := (Params.make_plain hp).2.2.2.2.2.2.2.2.2.1
  have hel : ElitismMode (budget4 p) 3 := by simp [ElitismMode, budget4, Params.setElitism]
  obtain ⟨s3, s4, s5, j, x, v, d1, d2, d3, d4, d5, d6, d7, d8, d10, d11, d9⟩ := c11 b.x
    (initialMean_restart (by rw [c8]; rfl) c9 (by intro i v hv; rw [c10] at hv; cases hv) c4)
  have hd : drift env s4 1 ≠ b.x := by rw [← d8]; exact drift_ne d10 d11.1 hw
  have hv : ∀ k, env.f k (id b.x) = .num 0 := by intro k; rw [hf]; exact spike_at _ _
  have hv' : ∀ k, env.f k (id (drift env s4 1)) = .num 1 := by intro k; rw [hf]; exact spike_off hd _
  rw [hv] at d6
  rw [hv'] at d7 d9
  obtain ⟨c, q1, q2, q3, q4⟩ := d9 (by rw [d6]; simp [FVal.lt])
  refine ⟨env, budget4 p, spike b.x 0, s, hu, hel, hgp, (onlyCrit_active (by decide) p).2, ?_, hs, fun k => ?_⟩
  · intro k y
    refine ⟨by rw [hf]; rfl, ?_⟩
    unfold spike
    split_ifs
    · exact Or.inl rfl
    · exact Or.inr rfl
  · rw [optimize_again c0 (c1 (k + 1)) c7 c6 d1, optimize_last d2 (d3 (k + 3)) d4]
    unfold Strat.wantsRestart
    rw [if_pos d5, q1]
    simp only
    rw [q2, d6, d7, if_pos (by simp [FVal.lt]), q4]
    rfl

/-- **C94** fails with linear scaling: the internal coordinates of the best candidate are scaled once more, so
the restart begins elsewhere.  In any dimension, from any starting point and step size, with a scaling by two
there are an objective and draws for which the best candidate of the first run has the value 0, and the one
`optimize()` returns the value 1. -/
theorem C94_scaled_false (hn : 1 ≤ n) (x0 : Vec n) (sigma : ℝ) (seed clock : ℕ) :
    ∃ (env : Env n) (p : Params n) (f : Vec n → FVal) (s s1 s' : Strat n) (b b' : Cand n), Usual .plain p ∧
      ElitismMode p 3 ∧ p.gp = doubled n ∧ (∀ k y, env.f k y = f y) ∧ Strat.new env .plain p = .ok s ∧
      s.evalInitial env = .ok s ∧ (∀ k, s.loop env (k + 5) = .ok (some s1)) ∧ s1.sol.bestSeen = some b ∧
      b.fvalue = .num 0 ∧ (∀ k, s.optimize env (k + 6) = .ok (some s')) ∧ s'.sol.bestSeen = some b' ∧
      b'.fvalue = .num 1 ∧ b'.x = 2 • b.x := by
  have hinj : Function.Injective fun (x : Vec n) (i : Fin n) => x i / 2 := by
    intro x y h
    funext i
    have := congrFun h i
    simp only at this
    linarith
  obtain ⟨env, p, s, s1, b, hp, hu, hs, hf, c0, c1, c2, c3, c4, c5, c6, c7, c8, c9, c10, c11⟩ :=
    two_stages hn (doubled n) (fun x i => x i / 2) (fun x => phenoV_doubled x)
      (fun x => ⟨_, scaleToInternalV_doubled x⟩) hinj x0 sigma seed clock (fun _ => -dblMax) 0 0
  have hgp : (budget4 p).gp = doubled n := (Params.make_plain hp).2.2.2.2.2.2.2.2.2.1
  have hel : ElitismMode (budget4 p) 3 := by simp [ElitismMode, budget4, Params.setElitism]
  have hm : initialMean { s1.p with x0min := b.x, x0max := b.x } (env.rnd s1.nrnd) = .ok fun i => b.x i * 2 := by
    have e : initialMean { s1.p with x0min := b.x, x0max := b.x } (env.rnd s1.nrnd) =
        (setFixed s1.p.fixedP (if b.x = b.x then if b.x = (fun _ => -dblMax) then (fun i => env.rnd s1.nrnd i * 4)
          else b.x else fun i => 0.5 * (env.rnd s1.nrnd i + 1) * (b.x i - b.x i) + b.x i) >>=
          fun m1 => scaleToInternalV s1.p.gp m1) := rfl
    rw [e, if_pos rfl, if_neg c4, c10, c8]
    exact scaleToInternalV_doubled _
  obtain ⟨s3, s4, s5, j, x, v, d1, d2, d3, d4, d5, d6, d7, d8, -, -, d9⟩ := c11 _ hm
  rw [drift_zero, d8] at d7 d9
  have hne : (fun i => b.x i * 2 / 2) ≠ fun i => b.x i / 2 := by
    intro h
    refine c5 ?_
    funext i
    have : b.x i * 2 / 2 = b.x i / 2 := congrFun h i
    show b.x i = 0
    linarith
  have hv : ∀ k, env.f k (fun i => b.x i * 2 / 2) = .num 1 := by intro k; rw [hf]; exact spike_off hne _
  simp only [hv] at d6 d7 d9
  obtain ⟨c, q1, q2, q3, q4⟩ := d9 (by rw [d6]; exact FVal.lt_irrefl _)
  refine ⟨env, budget4 p, spike (fun i => b.x i / 2) 0, s, s1, s5, b, c, hu, hel, hgp, ?_, hs, c0, c1, c2, c3,
    fun k => ?_, q1, q2.trans d6, ?_⟩
  · intro k y; rw [hf]; rfl
  · rw [optimize_again c0 (c1 (k + 1)) c7 c6 d1, optimize_last d2 (d3 (k + 3)) d4]
    unfold Strat.wantsRestart
    rw [if_pos d5, q1]
    simp only
    rw [q2, d6, d7, if_neg (FVal.lt_irrefl _)]
    rfl
  · rw [q3]
    funext i
    simp [mul_comm]

/-! ### The iteration of the best candidate -/

/-- **C94.** Over any execution without NaN that begins with no iteration counted: the iteration kept with the
best candidate is the one in which it was told; the candidate is the first minimum of that population, better
than all told before, and not worse than all told after.  If none is kept, the best candidate is the one at the
start, and none told is better. -/
theorem C94_iter (env : Env n) (s s' : Strat n) (tr : List (List (Cand n))) (huh : s.p.uh = false)
    (h0 : s.sol.niter = 0) (h1 : s.sol.bestSeenIter = none) (hn : NoNaN (s.sol.bestSeen.toList ++ tr.flatten))
    (h : Run env s tr s') :
    (∀ i, s'.sol.bestSeenIter = some i → ∃ pop b, tr[i]? = some pop ∧ s'.sol.bestSeen = some b ∧ FirstMin pop b ∧
      (∀ c ∈ s.sol.bestSeen.toList ++ (tr.take i).flatten, FVal.lt b.fvalue c.fvalue) ∧
      ∀ c ∈ (tr.drop i).flatten, ¬ FVal.lt c.fvalue b.fvalue) ∧
    (s'.sol.bestSeenIter = none → s'.sol.bestSeen = s.sol.bestSeen ∧
      ∀ c ∈ tr.flatten, ∀ b, s.sol.bestSeen = some b → ¬ FVal.lt c.fvalue b.fvalue) := by
  have key := h.induct (I := fun t past => t.p.uh = false ∧ t.sol.niter = past.length ∧
      (NoNaN (s.sol.bestSeen.toList ++ past.flatten) →
        (∀ i, t.sol.bestSeenIter = some i → ∃ pop b, past[i]? = some pop ∧ t.sol.bestSeen = some b ∧ FirstMin pop b ∧
          (∀ c ∈ s.sol.bestSeen.toList ++ (past.take i).flatten, FVal.lt b.fvalue c.fvalue) ∧
          ∀ c ∈ (past.drop i).flatten, ¬ FVal.lt c.fvalue b.fvalue) ∧
        (t.sol.bestSeenIter = none → t.sol.bestSeen = s.sol.bestSeen ∧ (s.sol.bestSeen = none → past = []) ∧
          ∀ c ∈ past.flatten, ∀ b, s.sol.bestSeen = some b → ¬ FVal.lt c.fvalue b.fvalue)))
    (past := []) ?_ ?_ ?_ ⟨huh, h0, fun _ => ⟨fun i hi => (by rw [h1] at hi; cases hi), fun _ => ⟨rfl, fun _ => rfl,
      by simp⟩⟩⟩
  · rw [List.nil_append] at key
    obtain ⟨k1, k2⟩ := key.2.2 hn
    exact ⟨k1, fun hi => ⟨(k2 hi).1, (k2 hi).2.2⟩⟩
  · intro t past pop t' hi hh
    obtain ⟨⟨es, ei, ue, c, nz, x1, x2, p1, p2, e⟩, _⟩ := Strat.ask_frame hh
    subst e; exact hi
  · intro t past b t' hi hh
    obtain ⟨k, r, e⟩ := Strat.stop_frame hh
    subst e; exact hi
  · intro t past cols phen t2 t3 ⟨hu, hni, hi⟩ hh hh'
    have hp := run_p (.turn hh hh' (.refl _))
    obtain ⟨c, nu, nzuh, lr, cu, cs, e, _⟩ := Strat.eval_frame hh
    obtain ⟨cs', cu', su, ts, sol3, hs, hb, csq, hc, sc, ps, hs', pc, cov, sep, v, sg, xp, xm, mx, mn, lv, le,
      e'⟩ := Strat.tell_frame hh'
    obtain ⟨c0, ck, cl, med, h0', hk, hl, hmed, e3, b1, b2, b3, b4, _⟩ := Sol.updateBest_ok hb
    have hmin : FirstMin t2.sol.cands c0 := firstMin_of_stableSort (hs (by rw [e]; exact hu)) h0'
    have hle : ∀ d ∈ t2.sol.cands, ¬ FVal.lt d.fvalue c0.fvalue := by
      obtain ⟨pre, post, e1, m1, m2⟩ := hmin
      intro d hd
      rw [e1] at hd
      rcases List.mem_append.1 hd with hd | hd
      · exact fun hlt => FVal.lt_irrefl _ (FVal.lt_trans hlt (m1 d hd))
      · rcases List.mem_cons.1 hd with rfl | hd
        · exact FVal.lt_irrefl _
        · exact m2 d hd
    have hc0 : c0 ∈ t2.sol.cands := by
      obtain ⟨pre, post, e1, _⟩ := hmin
      rw [e1]; simp
    have ebs : t2.sol.bestSeen = t.sol.bestSeen := by rw [e]
    have ebi : t2.sol.bestSeenIter = t.sol.bestSeenIter := by rw [e]
    have eni : t2.sol.niter = t.sol.niter := by rw [e]
    have efin : t3.incIter.sol.bestSeen = sol3.bestSeen := by rw [e']; rfl
    have efi : t3.incIter.sol.bestSeenIter = sol3.bestSeenIter := by rw [e']; rfl
    have efn : t3.incIter.sol.niter = t.sol.niter + 1 := by rw [e', e3, e]; rfl
    refine ⟨by rw [hp.1]; exact hu, by rw [efn, hni]; simp, fun hnn => ?_⟩
    rw [List.flatten_append, List.flatten_singleton, ← List.append_assoc] at hnn
    have hnp : NoNaN (s.sol.bestSeen.toList ++ past.flatten) := fun c hc => hnn c (List.mem_append_left _ hc)
    have hnc : ∀ d ∈ t2.sol.cands, d.fvalue.IsNum := fun d hd => hnn d (List.mem_append_right _ hd)
    obtain ⟨i1, i2⟩ := hi hnp
    have hget : (past ++ [t2.sol.cands])[past.length]? = some t2.sol.cands := by simp
    rw [efin, efi]
    -- the first minimum of the new population is the best candidate from now on
    have hnew : (∀ d ∈ s.sol.bestSeen.toList ++ past.flatten, FVal.lt c0.fvalue d.fvalue) →
        sol3.bestSeen = some c0 → sol3.bestSeenIter = some past.length →
        (∀ i, sol3.bestSeenIter = some i → ∃ pop b, (past ++ [t2.sol.cands])[i]? = some pop ∧ sol3.bestSeen = some b ∧
          FirstMin pop b ∧ (∀ c ∈ s.sol.bestSeen.toList ++ ((past ++ [t2.sol.cands]).take i).flatten,
            FVal.lt b.fvalue c.fvalue) ∧
          ∀ c ∈ ((past ++ [t2.sol.cands]).drop i).flatten, ¬ FVal.lt c.fvalue b.fvalue) ∧
        (sol3.bestSeenIter = none → sol3.bestSeen = s.sol.bestSeen ∧
          (s.sol.bestSeen = none → past ++ [t2.sol.cands] = []) ∧
          ∀ c ∈ (past ++ [t2.sol.cands]).flatten, ∀ b, s.sol.bestSeen = some b → ¬ FVal.lt c.fvalue b.fvalue) := by
      intro hlt g1 g2
      refine ⟨fun i hi => ?_, fun hi => by rw [g2] at hi; cases hi⟩
      rw [g2] at hi
      injection hi with hi
      subst hi
      refine ⟨_, c0, hget, g1, hmin, ?_, ?_⟩
      · rw [List.take_left' rfl]; exact hlt
      · rw [List.drop_left' rfl]; simpa using hle
    cases hbs : t.sol.bestSeen with
    | none =>
      have hbi : t.sol.bestSeenIter = none := by
        by_contra hx
        obtain ⟨i, hx⟩ := Option.ne_none_iff_exists'.1 hx
        obtain ⟨pop, b, -, hy, -⟩ := i1 i hx
        rw [hbs] at hy; cases hy
      obtain ⟨j1, j2, -⟩ := i2 hbi
      rw [hbs] at j1
      have hpast := j2 j1.symm
      have hn0 : t.sol.niter = 0 := by rw [hni, hpast]; rfl
      obtain ⟨g1, g2⟩ := b1 (ebs.trans hbs) (eni.trans hn0)
      refine hnew ?_ g1 (by rw [g2, hpast]; rfl)
      rw [← j1, hpast]; simp
    | some b =>
      by_cases hlt : FVal.lt c0.fvalue b.fvalue
      · obtain ⟨g1, g2⟩ := b3 b (ebs.trans hbs) hlt
        refine hnew ?_ g1 (by rw [g2, eni, hni])
        intro d hd
        have hdn := hnp d hd
        cases hbi : t.sol.bestSeenIter with
        | none =>
          obtain ⟨j1, -, j3⟩ := i2 hbi
          rw [hbs] at j1
          rcases List.mem_append.1 hd with hd | hd
          · rw [← j1] at hd
            rw [Option.mem_toList] at hd
            injection hd with hd
            rw [← hd]; exact hlt
          · exact FVal.lt_of_lt_of_not_lt hlt (j3 d hd b j1.symm) hdn
        | some i =>
          obtain ⟨pop, b', a1, a2, a3, a4, a5⟩ := i1 i hbi
          rw [hbs] at a2
          injection a2 with a2
          subst a2
          have hd' : d ∈ s.sol.bestSeen.toList ++ (past.take i).flatten ∨ d ∈ (past.drop i).flatten := by
            rw [← List.take_append_drop i past, List.flatten_append, ← List.append_assoc] at hd
            exact List.mem_append.1 hd
          rcases hd' with hd' | hd'
          · exact FVal.lt_trans hlt (a4 d hd')
          · exact FVal.lt_of_lt_of_not_lt hlt (a5 d hd') hdn
      · obtain ⟨g1, g2⟩ := b4 b (ebs.trans hbs) hlt
        have hbn : ∀ d ∈ t2.sol.cands, ¬ FVal.lt d.fvalue b.fvalue := fun d hd hdb => by
          exact hlt (FVal.lt_of_not_lt_of_lt (hle d hd) hdb (hnc c0 hc0))
        rw [ebi] at g2
        rw [g1, g2]
        refine ⟨fun i hbi => ?_, fun hbi => ?_⟩
        · obtain ⟨pop, b', a1, a2, a3, a4, a5⟩ := i1 i hbi
          rw [hbs] at a2
          injection a2 with a2
          subst a2
          have hil : i < past.length := (List.getElem?_eq_some_iff.1 a1).1
          refine ⟨pop, b, by rw [List.getElem?_append_left hil]; exact a1, rfl, a3, ?_, ?_⟩
          · rw [List.take_append_of_le_length hil.le]; exact a4
          · rw [List.drop_append_of_le_length hil.le, List.flatten_append]
            intro d hd
            rcases List.mem_append.1 hd with hd | hd
            · exact a5 d hd
            · exact hbn d (by simpa using hd)
        · obtain ⟨j1, j2, j3⟩ := i2 hbi
          rw [hbs] at j1
          refine ⟨j1, fun hx => (by rw [← j1] at hx; cases hx), ?_⟩
          intro d hd b' hb'
          rw [List.flatten_append] at hd
          rcases List.mem_append.1 hd with hd | hd
          · exact j3 d hd b' hb'
          · rw [← j1] at hb'
            injection hb' with hb'
            rw [← hb']
            exact hbn d (by simpa using hd)

/-- Such executions exist, of any length, with any objective without NaN. -/
example (hn : 1 ≤ n) (env : Env n) (x0 : Vec n) (sigma : ℝ) (hf : ∀ k y, (env.f k y).IsNum) (k : ℕ) :
    ∃ s s' tr, s.p.uh = false ∧ s.sol.niter = 0 ∧ s.sol.bestSeenIter = none ∧
      NoNaN (s.sol.bestSeen.toList ++ tr.flatten) ∧ Run env s tr s' ∧ tr.length = k := by
  obtain ⟨p, hp, _⟩ := C11_weights hn x0 sigma (-1) 0 0 GenoPheno.plain
  obtain ⟨hu, hgp, _⟩ := usual_default (kind := .plain) (by norm_num) hp (by decide)
  obtain ⟨s, hs⟩ := new_plain (env := env) (kind := .plain) hgp hu.configured.good.1
  obtain ⟨tr, s', h1, h2, h3⟩ := noNaN_runs hu hf (fun x => ⟨x, by rw [hgp, phenoV_plain]⟩) hs k
  obtain ⟨-, -, -, h4, -, h6, -⟩ := Strat.new_ok hs
  refine ⟨s, s', tr, by rw [h4]; exact hu.uh, h6.niter, ?_, by rw [h6.bestSeen]; exact h3, h1, h2⟩
  unfold Strat.new at hs
  obtain ⟨⟨p', sol⟩, hm, hs⟩ := Out.bind_eq_ok.1 hs
  injection hs with hs
  rw [← hs]
  exact (Sol.make_eq_ok hm).2.2.2.2.2.2.2.2.2.2.2.2.2.2

end Libcmaes
