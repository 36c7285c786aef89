import Verif.Lemmas.GradientTotal
import Verif.Lemmas.Tpa

/-!
# A generation with both gradient injection and two-point adaptation
-/

namespace Libcmaes

open Matrix Spec

variable {n : ℕ}

/-- The same state without gradient injection and two-point adaptation. -/
def Strat.bare (s : Strat n) : Strat n := { s with p := { s.p with withGradient := false, tpa := 0 } }

theorem Strat.askPrepare_bare (env : Env n) (s : Strat n) :
    s.bare.askPrepare env = Except.map Strat.bare (s.askPrepare env) := by
  unfold askPrepare
  branches

theorem Strat.askSample_bare (env : Env n) (s : Strat n) :
    s.bare.askSample env = Except.map (fun q => (q.1, q.2.bare)) (s.askSample env) := by
  unfold askSample
  branches

theorem LiveCore.bare {s : Strat n} (h : LiveCore s.noGrad) : LiveCore s.bare :=
  ⟨⟨h.good.dim, h.good.lambda, h.good.mu, ⟨h.good.weights.1, h.good.weights.2, h.good.weights.3, h.good.weights.4⟩,
      ⟨h.good.rates.1, h.good.rates.2, h.good.rates.3, h.good.rates.4, h.good.rates.5, h.good.rates.6, h.good.rates.7,
        h.good.rates.8⟩,
      h.good.muw, h.good.chi, h.good.alphathuh, h.good.rlambda, h.good.fixed_lt, h.good.fixed_nodup, h.good.fixed_len⟩,
    ⟨h.strict.1, h.strict.2⟩, h.kind, h.vd, h.lazy, rfl, h.tpaPos, h.eig, h.paths, h.sigma, h.cands, h.kcand, h.niter,
    h.full, h.sep, h.seen, h.init⟩

/-- Being ready does not depend on two-point adaptation and the injection. -/
theorem Ready.noGrad {env : Env n} {s : Strat n} (h : Ready env s.bare) (hg : GoodParams s.p) : Ready env s.noGrad :=
  ⟨⟨hg.dim, hg.lambda, hg.mu, ⟨hg.weights.1, hg.weights.2, hg.weights.3, hg.weights.4⟩,
      ⟨hg.rates.1, hg.rates.2, hg.rates.3, hg.rates.4, hg.rates.5, hg.rates.6, hg.rates.7, hg.rates.8⟩,
      hg.muw, hg.chi, hg.alphathuh, hg.rlambda, hg.fixed_lt, hg.fixed_nodup, hg.fixed_len⟩,
    ⟨h.strict.1, h.strict.2⟩, h.kind, h.vd, h.lazy, rfl, h.tpaPos, h.eig, h.paths, h.sigma, h.kcand, h.niter, h.full, h.sep,
    h.seen, h.init⟩

/-- `ask` up to the test points: sampling and injection succeed. -/
theorem ask_upto_tpa {env : Env n} {s : Strat n} (hL : LiveCore s.noGrad) (hG : GradientComputable env s.p.gp)
    (hph : PhenoNear s.p.gp s.sol.xmean) :
    ∃ (pop : List (Vec n)) (t : Strat n), Ready env t.noGrad ∧ pop.length = s.p.lambda ∧ t.p = s.p ∧ t.niter = s.niter ∧ t.sol.xmean = s.sol.xmean ∧
      t.sol.xmeanPrev = s.sol.xmeanPrev ∧
      s.ask env = (t.askTpa env pop >>= fun q => q.1.mapM (setFixed s.p.fixedP) >>= fun pop4 => pure (pop4, q.2)) := by
  obtain ⟨pop', s1', h', hR⟩ := (LiveCore.bare hL).ready (env := env) (fun h => by cases h)
  obtain ⟨t1, t2, pop0, h1, h2, rfl, h3⟩ : ∃ t1 t2 pop0, s.askPrepare env = .ok t1 ∧ t1.askSample env = .ok (pop0, t2) ∧
      s1' = t2.bare ∧ pop0.mapM (setFixed s.p.fixedP) = .ok pop' := by
    have h := h'
    unfold Strat.ask at h
    rw [Strat.askPrepare_bare, Out.bind_map] at h
    obtain ⟨t1, h1, h⟩ := Out.bind_eq_ok.1 h
    rw [Strat.askSample_bare, Out.bind_map] at h
    obtain ⟨⟨pop0, t2⟩, h2, h⟩ := Out.bind_eq_ok.1 h
    have hg : t2.bare.askGradient env pop0 = .ok (pop0, t2.bare) := by
      unfold Strat.askGradient; exact if_pos rfl
    simp only at h
    rw [hg, Out.ok_bind] at h
    have ht : t2.bare.askTpa env pop0 = .ok (pop0, t2.bare) := by
      unfold Strat.askTpa
      exact if_neg (fun h => by cases h.1)
    simp only at h
    rw [ht, Out.ok_bind] at h
    obtain ⟨pop4, h5, h⟩ := Out.bind_eq_ok.1 h
    injection h with h; injection h with h6 h7
    subst h6
    exact ⟨t1, t2, pop0, h1, h2, h7.symm, h5⟩
  obtain ⟨es, ei, ue, e1⟩ := Strat.askPrepare_frame h1
  obtain ⟨e2, hl⟩ := Strat.askSample_frame h2
  have hp2 : t2.p = s.p := by rw [e2, e1]
  have hp1 : t1.p = s.p := by rw [e1]
  have hgood : 2 ≤ s.p.lambda := hL.good.lambda
  have hgd : GoodParams s.p := hL.good.noGrad
  obtain ⟨⟨pop2, t3⟩, h4⟩ := askGradient_total (env := env) (s := t2) (pop := pop0) (by rw [hp2]; exact hG)
    (by rw [hp2, show t2.sol.xmean = s.sol.xmean by rw [e2, e1]]; exact hph)
    (by intro h; rw [h, hp1] at hl; simp at hl; omega) (by rw [hp2]; exact hL.vd)
    (fun hs => (hR.sep (show t2.bare.p.sep = true from hs)).2) (fun hs => by
      obtain ⟨_, _, f3, _⟩ := hR.full (show t2.bare.p.sep = false from hs)
      obtain ⟨e, he⟩ := Option.isSome_iff_exists.1 f3
      exact ⟨e, he, hR.eig e he⟩)
  obtain ⟨⟨c, e3⟩, hpop⟩ := Strat.askGradient_frame h4
  have hR3 : Ready env t3.bare := by
    rw [e3]
    exact hR.change (c := t2.calls ++ c) (ne := t2.nevals + c.length) (nu := t2.nu) (nz := t2.nzuh) (lr := t2.sol.lambdaReev)
      (cr := t2.crit) (cu := t2.sol.candsUh) (cs := t2.sol.cands) (sne := t2.sol.nevals + c.length)
  have hp3 : t3.p = s.p := by rw [e3, ← hp2]
  refine ⟨pop2, t3, hR3.noGrad (by rw [hp3]; exact hgd), ?_, hp3, ?_, ?_, ?_, ?_⟩
  · rcases hpop with e | ⟨nx, e⟩
    · rw [e, hl, hp1]
    · rw [e, List.length_set, hl, hp1]
  · rw [e3, e2, e1]
  · rw [e3, e2, e1]
  · rw [e3, e2, e1]
  · unfold Strat.ask
    rw [h1, Out.ok_bind, h2, Out.ok_bind]
    show (t2.askGradient env pop0 >>= _) = _
    rw [h4, Out.ok_bind]

/-- The norm of the last move. -/
theorem Ready.shift {env : Env n} {t : Strat n} (h : Ready env t.noGrad) (hm : t.sol.xmean ≠ t.sol.xmeanPrev) :
    ∃ r, t.meanShiftNorm (t.sol.xmean - t.sol.xmeanPrev) = .ok r ∧ r ≠ 0 :=
  Strat.meanShiftNorm_total (sub_ne_zero.2 hm) h.sigma.ne' h.vd (fun hs => (h.sep hs).2) fun hs => by
    obtain ⟨_, _, f3, _⟩ := h.full hs
    obtain ⟨e, he⟩ := Option.isSome_iff_exists.1 f3
    exact ⟨e, he, h.eig e he⟩

/-- Two offspring: the second test point is written behind the last column. -/
theorem ask_gradient_tpa_ub {env : Env n} {s : Strat n} (hL : LiveCore s.noGrad) (hG : GradientComputable env s.p.gp)
    (hph : PhenoNear s.p.gp s.sol.xmean) (hg : s.p.withGradient = true) (ht : s.p.tpa = 2) (hn : 0 < s.niter)
    (hm : s.sol.xmean ≠ s.sol.xmeanPrev) (hl : s.p.lambda = 2) : s.ask env = .error .ub := by
  obtain ⟨pop, t, hR, h1, h2, h3, h4, h5, h6⟩ := ask_upto_tpa hL hG hph
  rw [h6]
  obtain ⟨r, hr, hr0⟩ := hR.shift (by rw [h4, h5]; exact hm)
  have hw : t.p.withGradient = true := by rw [h2]; exact hg
  have hs : t.sol.sigma ≠ 0 := (show (0 : ℝ) < t.sol.sigma from hR.sigma).ne'
  have : t.askTpa env pop = .error .ub := by
    unfold Strat.askTpa
    rw [if_pos ⟨by rw [h2]; exact ht, by rw [h3]; exact hn⟩, if_neg hs]
    simp only
    rw [hr, Out.ok_bind, if_neg hr0]
    simp only [hw, if_true]
    rw [if_pos (Or.inr (by rw [h1, hl]))]
  rw [this]; rfl

/-- At least three offspring: `ask` succeeds, and the columns 1 and 2 are the test points. -/
theorem ask_gradient_tpa_ok {env : Env n} {s : Strat n} (hL : LiveCore s.noGrad) (hG : GradientComputable env s.p.gp)
    (hph : PhenoNear s.p.gp s.sol.xmean) (hg : s.p.withGradient = true) (hm : Moved s) (hl : 3 ≤ s.p.lambda) :
    ∃ pop s1, s.ask env = .ok (pop, s1) ∧ Ready env s1.noGrad := by
  obtain ⟨pop, t, hR, h1, h2, h3, h4, h5, h6⟩ := ask_upto_tpa hL hG hph
  obtain ⟨pop2, t2, h7, hR2⟩ : ∃ pop2 t2, t.askTpa env pop = .ok (pop2, t2) ∧ Ready env t2.noGrad := by
    unfold Strat.askTpa
    by_cases hc : t.p.tpa = 2 ∧ t.niter > 0
    · obtain ⟨r, hr, hr0⟩ := hR.shift (by rw [h4, h5]; exact hm (by rw [← h2]; exact hc.1) (by rw [← h3]; exact hc.2))
      have hw : t.p.withGradient = true := by rw [h2]; exact hg
      have hs : t.sol.sigma ≠ 0 := (show (0 : ℝ) < t.sol.sigma from hR.sigma).ne'
      rw [if_pos hc, if_neg hs]
      simp only
      rw [hr, Out.ok_bind, if_neg hr0]
      simp only [hw, if_true]
      rw [if_neg (by rw [h1]; omega)]
      refine ⟨_, _, rfl, ?_⟩
      have hlt : 1 < t.p.lambda ∧ 2 < t.p.lambda := by rw [h2]; omega
      exact ⟨hR.good, hR.strict, hR.kind, hR.vd, hR.lazy, rfl, hlt, hR.eig, hR.paths, hR.sigma, hR.kcand, hR.niter, hR.full,
        hR.sep, hR.seen, hR.init⟩
    · rw [if_neg hc]
      exact ⟨_, _, rfl, hR⟩
  obtain ⟨pop4, h8⟩ : ∃ pop4, pop2.mapM (setFixed s.p.fixedP) = .ok pop4 :=
    Out.mapM_ok_of fun x _ => (setFixed_ok_iff s.p.fixedP x).2 hL.good.fixed_lt
  refine ⟨pop4, t2, ?_, hR2⟩
  rw [h6, h7, Out.ok_bind]
  show (pop2.mapM (setFixed s.p.fixedP) >>= _) = _
  rw [h8]; rfl

/-- A generation after a successful `ask`. -/
theorem generation_of_ready {env : Env n} {s s1 : Strat n} {pop : List (Vec n)} (hL : LiveCore s.noGrad) (huh : s.p.uh = false)
    (hph : ∀ x : Vec n, ∃ y : Vec n, phenoV s.p.gp x = .ok y) (hf : ∀ k y, (env.f k y).IsNum) (hr : RefNum s)
    (ha : s.ask env = .ok (pop, s1)) (hR : Ready env s1.noGrad) :
    ∃ s', s.generation env = .ok s' ∧ LiveCore s'.noGrad ∧ RefNum s' ∧ s'.p = s.p := by
  obtain ⟨⟨es, ei, ue, c, nz, x1, x2, p1, p2, e1⟩, hpl⟩ := Strat.ask_frame ha
  have hp1 : s1.p = s.p := by rw [e1]
  obtain ⟨phen, hphn⟩ : ∃ phen, s1.phenoCols pop = .ok phen := by
    unfold Strat.phenoCols
    rw [hp1]
    exact Out.mapM_ok_of fun x _ => hph x
  have hphl : phen.length = s.p.lambda := by rw [← hpl]; exact (Out.mapM_length hphn).symm
  have hcd : s1.sol.cands.length = s.p.lambda := by rw [e1]; exact hL.cands
  obtain ⟨s2, hev⟩ := Strat.eval_total (env := env) (s := s1) (cols := pop) (phen := phen)
    (by rw [hp1]; exact huh) (by rw [hp1]; exact hL.good.lambda) (by rw [hp1]; exact hcd)
    (by rw [hpl, hp1]) (by rw [hphl, hp1]) (by
      intro hel
      rw [e1] at hel ⊢
      exact LiveCore.elitist (s := s.noGrad) hL hel)
  have hnn : NoNaN s2.sol.cands := by
    refine eval_noNaN (by rw [hp1]; exact huh) ?_ hf ?_ hev
    · rw [hpl, hcd]
    · rw [e1]; exact hr
  obtain ⟨c2, nu, nzuh, lr, cu, cs, e2, hcs, _⟩ := Strat.eval_frame hev
  have hp2 : s2.p = s.p := by rw [e2, e1]
  have hR2 : Ready env s2.noGrad := by rw [e2]; exact hR.change
  have hl2 : s2.sol.cands.length = s.p.lambda := by rw [e2]; exact hcs.trans hcd
  obtain ⟨s3, htl⟩ := Strat.tell_total (env := env) (s := s2) (by rw [hp2]; exact hL.good.noGrad)
    (by rw [hp2]; exact ⟨hL.strict.1, hL.strict.2⟩) hR2.kind hR2.vd (by rw [hp2]; exact huh) hR2.paths hR2.sigma
    (by rw [hp2]; exact hl2) hR2.kcand hR2.sep (fun hs => ⟨(hR2.full hs).1, (hR2.full hs).2.2.1, (hR2.full hs).2.2.2.1⟩)
    (strictWeakOn_of_noNaN hnn)
  refine ⟨s3.incIter, ?_, ?_⟩
  · unfold Strat.generation
    rw [ha, Out.ok_bind]
    simp only
    rw [hphn, Out.ok_bind, hev, Out.ok_bind, htl]
    rfl
  have hperm : ∃ cs', stableSort candLt s2.sol.cands = .ok cs' := by
    unfold stableSort; rw [if_pos (strictWeakOn_of_noNaN hnn)]; exact ⟨_, rfl⟩
  obtain ⟨cs', hcs'⟩ := hperm
  have hpm := (stableSort_eq_ok hcs').2.perm
  obtain ⟨t1, ts, sol3, sol4, k1, k2, k3, k4, k5⟩ := Strat.tell_ok htl
  have ht1 : t1 = { s2 with sol := { s2.sol with cands := cs' } } := by
    unfold Strat.rank at k1
    rw [if_neg (by rw [hp2]; simp [huh])] at k1
    unfold Sol.sortCandidates at k1
    rw [hcs'] at k1
    exact (Except.ok.inj k1).symm
  subst ht1
  obtain ⟨c0, ck, cl, med, _, _, _, _, f3, _⟩ := Sol.updateBest_ok k3
  obtain ⟨_, mx, mn, lv, le, f5⟩ := Strat.tellFinish_ok k5
  have hrun : AskRun env s [s2.sol.cands] s3.incIter := .turn ha hev htl (.refl _)
  obtain ⟨r1, r2, r3, r4, r5, r6, r7, r8, r9, r10⟩ := run_p hrun.run
  have hseen := (updateBest_seen k3)
  refine ⟨?_, ⟨fun c hc => ?_, fun c hc => ?_⟩, r1⟩
  · rw [f5]
    refine hR2.live (sol3 := sol3) (sol4 := sol4) ?_ ?_ ?_ ?_ ?_
    · rw [f3]; exact ⟨_, _, _, _, _, _, _, _, _, _, _, rfl⟩
    · exact (Strat.covarianceUpdate_noGrad env.eig s2.kind s2.p s2.es sol3).trans k4
    · rw [f3]
      show cs'.length = s2.p.lambda
      rw [hpm.length_eq, hl2, hp2]
    · refine hseen.1 ?_
      show s2.sol.niter = 0 ∨ s2.sol.bestSeen.isSome = true
      by_cases h0 : s2.niter = 0
      · exact Or.inl (hR2.niter.trans h0)
      · exact Or.inr (hR2.seen h0)
    · intro h4
      show 0 < if s2.p.uh = true ∧ sol4.suh > 0 then sol4.sigma * s2.p.alphathuh else sol4.sigma
      rw [hp2, if_neg (by rw [huh]; simp)]
      exact h4
  · obtain ⟨csq, hc', sc, ps, hs', pc, cov, sep, v, sg', xp, xm, e4⟩ := covarianceUpdate_frame k4
    have : s3.incIter.sol.bestSeen = sol3.bestSeen := by rw [f5, e4]; rfl
    rw [this] at hc
    rcases hseen.2 c hc with h | h
    · exact hnn c (hpm.mem_iff.1 h)
    · refine hr.1 c ?_
      have h : s2.sol.bestSeen = some c := h
      rw [e2, e1] at h; exact h
  · refine hr.2 c ?_
    rw [← r10]; exact hc

theorem liveCore_new_gradient {env : Env n} {kind : CovKind} {p : Params n} {s : Strat n}
    (hu : UsualCore kind { p with withGradient := false }) (h : Strat.new env kind p = .ok s) :
    LiveCore s.noGrad ∧ RefNum s := by
  have h1 : Strat.new env kind { p with withGradient := false } = .ok s.noGrad := by
    rw [Strat.new_noGrad, h]; rfl
  obtain ⟨h2, h3⟩ := liveCore_new hu h1
  exact ⟨h2, h3⟩

/-- The first generation does not set test points. -/
theorem ask_gradient_first {env : Env n} {s : Strat n} (hL : LiveCore s.noGrad) (hG : GradientComputable env s.p.gp)
    (hph : PhenoNear s.p.gp s.sol.xmean) (h0 : s.niter = 0) :
    ∃ pop s1, s.ask env = .ok (pop, s1) ∧ Ready env s1.noGrad := by
  obtain ⟨pop, t, hR, h1, h2, h3, h4, h5, h6⟩ := ask_upto_tpa hL hG hph
  have h7 : t.askTpa env pop = .ok (pop, t) := by
    unfold Strat.askTpa
    exact if_neg (fun h => by rw [h3, h0] at h; exact absurd h.2 (by decide))
  obtain ⟨pop4, h8⟩ : ∃ pop4, pop.mapM (setFixed s.p.fixedP) = .ok pop4 :=
    Out.mapM_ok_of fun x _ => (setFixed_ok_iff s.p.fixedP x).2 hL.good.fixed_lt
  refine ⟨pop4, t, ?_, hR⟩
  rw [h6, h7, Out.ok_bind]
  show (pop.mapM (setFixed s.p.fixedP) >>= _) = _
  rw [h8]; rfl

theorem tpa_setFixed_nil {l l' : List (Vec n)} (h : l.mapM (setFixed []) = .ok l') : l' = l := by
  induction l generalizing l' with
  | nil => exact (Except.ok.inj h).symm
  | cons a l ih =>
    rw [List.mapM_cons, setFixed_nil, Out.ok_bind] at h
    obtain ⟨r, h9, h10⟩ := Out.bind_eq_ok.1 h
    rw [← Except.ok.inj h10, ih h9]

/-- A zero gradient injects nothing. -/
theorem ask_zeroGrad {env : Env n} {s s1 : Strat n} {pop : List (Vec n)} (hz : env.gfunc = some fun _ _ _ => 0) (hn : s.niter = 0)
    (h : s.ask env = .ok (pop, s1)) : s.noGrad.ask env = .ok (pop, s1.noGrad) := by
  unfold Strat.ask at h
  obtain ⟨t1, h1, h⟩ := Out.bind_eq_ok.1 h
  obtain ⟨⟨pop1, t2⟩, h2, h⟩ := Out.bind_eq_ok.1 h
  obtain ⟨⟨pop2, t3⟩, h3, h⟩ := Out.bind_eq_ok.1 h
  obtain ⟨⟨pop3, t4⟩, h4, h⟩ := Out.bind_eq_ok.1 h
  obtain ⟨pop4, h5, h⟩ := Out.bind_eq_ok.1 h
  injection h with h; injection h with h6 h7
  subst h6 h7
  obtain ⟨es, ei, ue, e1⟩ := Strat.askPrepare_frame h1
  obtain ⟨e2, -⟩ := Strat.askSample_frame h2
  obtain ⟨⟨c, e3⟩, -⟩ := Strat.askGradient_frame h3
  have h3' : t2.askGradient env pop1 = .ok (pop2, t3) := h3
  have hgr : pop2 = pop1 ∧ t3 = t2 := by
    unfold Strat.askGradient at h3'
    by_cases hw : t2.p.withGradient = false
    · rw [if_pos hw] at h3'
      injection h3' with h; injection h with a b
      exact ⟨a.symm, b.symm⟩
    rw [if_neg hw] at h3'
    obtain ⟨ph, k1, h3'⟩ := Out.bind_eq_ok.1 h3'
    have hgf : t2.gradf env ph = .ok (t2, 0) := by unfold Strat.gradf; rw [hz]; rfl
    rw [hgf, Out.ok_bind] at h3'
    obtain ⟨gg, k2, h3'⟩ := Out.bind_eq_ok.1 h3'
    rw [if_pos (zero_mul gg)] at h3'
    injection h3' with h; injection h with a b
    exact ⟨a.symm, b.symm⟩
  obtain ⟨rfl, rfl⟩ := hgr
  have hni : t3.niter = 0 := by rw [e2, e1]; exact hn
  have h4' : t3.askTpa env pop2 = .ok (pop3, t4) := h4
  have h45 : pop3 = pop2 ∧ t4 = t3 := (Strat.askTpa_frame h4').2.2 (fun h => by omega)
  obtain ⟨rfl, rfl⟩ := h45
  unfold Strat.ask
  rw [Strat.askPrepare_noGrad, Out.bind_map, h1, Out.ok_bind, Strat.askSample_noGrad, Out.bind_map, h2, Out.ok_bind]
  have hg : t4.noGrad.askGradient env pop3 = .ok (pop3, t4.noGrad) := by
    unfold Strat.askGradient; exact if_pos rfl
  show (t4.noGrad.askGradient env pop3 >>= _) = _
  rw [hg, Out.ok_bind]
  have ht : t4.noGrad.askTpa env pop3 = .ok (pop3, t4.noGrad) := by
    unfold Strat.askTpa
    exact if_neg (fun h => by have : t4.niter > 0 := h.2; omega)
  show (t4.noGrad.askTpa env pop3 >>= _) = _
  rw [ht, Out.ok_bind]
  show (pop3.mapM (setFixed s.p.fixedP) >>= _) = _
  have h5' : pop3.mapM (setFixed s.p.fixedP) = .ok pop4 := h5
  rw [h5']; rfl

end Libcmaes
