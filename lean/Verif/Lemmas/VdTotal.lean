import Verif.Lemmas.Total
import Verif.Lemmas.VdStep

/-!
# Generations of the VD variant

A generation succeeds as long as `v` is not zero and no component of `D` is.
-/

namespace Libcmaes

open Spec Matrix Finset

variable {n : ℕ}

theorem sqNorm_ne_zero {v : Vec n} (hv : v ≠ 0) : sqNorm v ≠ 0 := fun h0 => hv <| funext fun i =>
  mul_self_eq_zero.1 ((Finset.sum_eq_zero_iff_of_nonneg fun j _ => mul_self_nonneg (v j)).1 h0 i (Finset.mem_univ i))

/-- A state of the VD variant from which generations succeed, up to zeros in `v` and `D`. -/
structure VdLive (s : Strat n) : Prop where
  good : GoodParams s.p
  kind : s.kind = .vd
  vd : s.p.vd = true
  sep : s.p.sep = false
  grad : s.p.withGradient = false
  uh : s.p.uh = false
  tpa : s.p.tpa ≠ 2
  paths : s.sol.pathsOk = true
  sigma : 0 < s.sol.sigma
  cands : s.sol.cands.length = s.p.lambda
  kcand : s.sol.kcand < s.p.lambda
  niter : s.sol.niter = s.niter
  hasSep : s.sol.hasSep = true
  hasV : s.sol.hasV = true
  seen : s.niter ≠ 0 → s.sol.bestSeen.isSome = true
  init : (s.p.initialElitistOnRestart || s.p.initialElitist) = true →
    (s.p.elitist || s.p.initialElitist || (s.initialElitist && s.p.initialElitistOnRestart)) = true →
    s.sol.initialCand.isSome = true

theorem VdLive.elitist {s : Strat n} (hL : VdLive s) (hel : s.elitismOn = true) :
    s.elitistRef.isSome = true := by
  unfold Strat.elitismOn at hel
  simp only [Bool.and_eq_true, decide_eq_true_eq] at hel
  unfold Strat.elitistRef
  split_ifs with a1 a2
  · exact hL.init a1 hel.2
  · exact hL.seen (by omega)
  · exfalso
    have := hel.2
    simp_all

theorem VdLive.ask {env : Env n} {s : Strat n} (hL : VdLive s) (hv : sqNorm s.sol.v ≠ 0) :
    ∃ pop s1, s.ask env = .ok (pop, s1) := by
  unfold Strat.ask Strat.askPrepare
  rw [if_neg (by simp [hL.vd]), if_neg (by simp [hL.hasSep]), if_neg (by simp [hL.sep]), Out.ok_bind]
  unfold Strat.askSample
  simp only
  rw [if_neg (by simp [hL.vd]), if_neg (by simp [hL.sep]), if_neg (by simp [hL.hasV]), if_neg hv, Out.ok_bind]
  unfold Strat.askGradient
  simp only
  rw [if_pos hL.grad, Out.ok_bind]
  unfold Strat.askTpa
  simp only
  rw [if_neg (fun h => hL.tpa h.1), Out.ok_bind]
  simp only
  obtain ⟨pop', hp'⟩ := Out.mapM_ok_of (f := setFixed s.p.fixedP)
    (fun x _ => (setFixed_ok_iff s.p.fixedP x).2 hL.good.fixed_lt)
  rw [hp']
  exact ⟨_, _, rfl⟩

/-- The update of the VD variant succeeds unless `v` or a component of `D` is zero. -/
theorem vdUpdate_total {p : Params n} {s : Sol n} (hg : GoodParams p) (h1 : s.cands.length = p.lambda)
    (h2 : s.pathsOk = true) (h3 : 0 < s.sigma) (h4 : s.hasSep = true) (h5 : s.hasV = true)
    (hd : ∀ k, s.sepcov k ≠ 0) (hv : sqNorm s.v ≠ 0) : ∃ s', vdUpdate p s = .ok s' := by
  obtain ⟨hb, hhb⟩ := Strat.hsigBound_total hg s.niter
  unfold vdUpdate
  rw [Strat.updatePre_total hg h1 h2 h3, Out.ok_bind, if_neg (by simp [h4, h5]), if_neg (by push Not; exact hd), hhb,
    Out.ok_bind]
  simp only
  rw [if_neg hv]
  split_ifs
  · obtain ⟨g, hgr⟩ := vdGradient_total (p := p) (s := vdPaths p s hb) hv
    change vdGradient p (vdPaths p s hb) (sqNorm s.v) = _ at hgr
    rw [hgr]
    exact ⟨_, rfl⟩
  · exact ⟨_, rfl⟩

theorem VdLive.tell {env : Env n} {s : Strat n} (hL : VdLive s) (hsw : StrictWeakOn candLt s.sol.cands)
    (hd : ∀ k, s.sol.sepcov k ≠ 0) (hv : sqNorm s.sol.v ≠ 0) :
    ∃ s', s.tell env = .ok s' ∧ VdLive s'.incIter := by
  obtain ⟨cs, hcs⟩ : ∃ cs, stableSort candLt s.sol.cands = .ok cs := by
    unfold stableSort; rw [if_pos hsw]; exact ⟨_, rfl⟩
  have hperm := (stableSort_eq_ok hcs).2.perm
  have hlen : cs.length = s.p.lambda := by rw [hperm.length_eq, hL.cands]
  have hr : s.rank env = .ok { s with sol := { s.sol with cands := cs } } := by
    unfold Strat.rank
    rw [if_neg (by simp [hL.uh])]
    unfold Sol.sortCandidates
    rw [hcs]; rfl
  obtain ⟨sol3, h3⟩ := Strat.updateBest_total (s := { s.sol with cands := cs })
    (by show s.sol.kcand < cs.length; rw [hlen]; exact hL.kcand)
  obtain ⟨c0, ck, cl, med, _, _, _, _, e3, _⟩ := Sol.updateBest_ok h3
  obtain ⟨sol4, h4⟩ := vdUpdate_total (p := s.p) (s := sol3) hL.good (by rw [e3]; exact hlen)
    (by rw [e3]; exact hL.paths) (by rw [e3]; exact hL.sigma) (by rw [e3]; exact hL.hasSep)
    (by rw [e3]; exact hL.hasV) (by rw [e3]; exact hd) (by rw [e3]; exact hv)
  have h4' : covarianceUpdate env.eig s.kind s.p s.es sol3 = .ok sol4 := by
    unfold covarianceUpdate; rw [hL.kind]; exact h4
  have h5 : Strat.tellFinish { s with sol := sol4 } = .ok { s with sol := { sol4 with
      maxEigenv := maxCoeff sol4.sepcov, minEigenv := minCoeff sol4.sepcov
      leigenvalues := sol4.sepcov, leigenvectors := 1, hasLeig := true } } := by
    unfold Strat.tellFinish
    simp only
    rw [if_neg (by have := hL.good.dim; omega), if_neg (by simp [hL.vd]), if_neg (by simp [hL.uh])]
  have ht : s.tell env = .ok { s with sol := { sol4 with
      maxEigenv := maxCoeff sol4.sepcov, minEigenv := minCoeff sol4.sepcov
      leigenvalues := sol4.sepcov, leigenvectors := 1, hasLeig := true } } := by
    unfold Strat.tell
    rw [hr, Out.ok_bind, if_neg (fun h => hL.tpa h.1)]
    show (Sol.updateBest { s.sol with cands := cs } >>= _) = _
    rw [h3, Out.ok_bind]
    show (covarianceUpdate env.eig s.kind s.p s.es sol3 >>= _) = _
    rw [h4', Out.ok_bind]
    exact h5
  refine ⟨_, ht, ?_⟩
  obtain ⟨csq, hc', sc, ps, hs', pc, cov, sep, v, sg', xp, xm, e4⟩ := covarianceUpdate_frame h4'
  have hsg : 0 < sol4.sigma := by
    rw [covarianceUpdate_sigma h4']
    exact sigmaUpdate_pos (by rw [e3]; exact hL.sigma) _
  refine ⟨hL.good, hL.kind, hL.vd, hL.sep, hL.grad, hL.uh, hL.tpa, ?_, hsg, ?_, ?_, ?_, ?_, ?_, ?_, ?_⟩
  · show sol4.pathsOk = true
    rw [e4, e3]; exact hL.paths
  · show sol4.cands.length = _
    rw [e4, e3]; exact hlen
  · show sol4.kcand < _
    rw [e4, e3]; exact hL.kcand
  · show sol4.niter + 1 = s.niter + 1
    rw [e4, e3, ← hL.niter]
  · show sol4.hasSep = true
    rw [e4, e3]; exact hL.hasSep
  · show sol4.hasV = true
    rw [e4, e3]; exact hL.hasV
  · intro _
    show sol4.bestSeen.isSome = true
    rw [e4]
    refine (updateBest_seen h3).1 ?_
    by_cases h0 : s.niter = 0
    · left; exact hL.niter.trans h0
    · exact Or.inr (hL.seen h0)
  · intro i1 i2
    show sol4.initialCand.isSome = true
    rw [e4, e3]; exact hL.init i1 i2

/-- A generation succeeds, or fails with an error of the transform. -/
theorem VdLive.generation {env : Env n} {s : Strat n} (hL : VdLive s) (hf : ∀ k y, (env.f k y).IsNum)
    (hr : RefNum s) (hd : ∀ k, s.sol.sepcov k ≠ 0) (hv : sqNorm s.sol.v ≠ 0) :
    (∃ s', s.generation env = .ok s' ∧ VdLive s' ∧ RefNum s' ∧ s'.p = s.p) ∨
      ∃ (x : Vec n) (e : Err), phenoV s.p.gp x = .error e ∧ s.generation env = .error e := by
  obtain ⟨pop, s1, hask⟩ := hL.ask (env := env) hv
  obtain ⟨⟨es, ei, ue, c, nz, x1, x2, p1, p2, e1⟩, hpl⟩ := Strat.ask_frame hask
  cases hph : s1.phenoCols pop with
  | error e =>
    right
    obtain ⟨x, _, hx⟩ := Out.mapM_eq_error hph
    refine ⟨x, e, by rw [e1] at hx; exact hx, ?_⟩
    unfold Strat.generation
    rw [hask, Out.ok_bind]
    simp only
    rw [hph]; rfl
  | ok phen =>
    left
    have hphl : phen.length = s.p.lambda := by rw [← hpl]; exact (Out.mapM_length hph).symm
    obtain ⟨s2, hev⟩ := Strat.eval_total (env := env) (s := s1) (cols := pop) (phen := phen)
      (by rw [e1]; exact hL.uh) (by rw [e1]; exact hL.good.lambda) (by rw [e1]; exact hL.cands)
      (by rw [hpl, e1]) (by rw [hphl, e1]) (by
        intro hel
        rw [e1] at hel ⊢
        exact hL.elitist hel)
    have hnn : NoNaN s2.sol.cands := by
      refine eval_noNaN (by rw [e1]; exact hL.uh) ?_ hf ?_ hev
      · rw [hpl, e1]; exact hL.cands.le
      · rw [e1]; exact hr
    obtain ⟨c2, nu, nzuh, lr, cu, cs, e2, hcs, _⟩ := Strat.eval_frame hev
    have hL2 : VdLive s2 := by
      rw [e2, e1]
      exact ⟨hL.good, hL.kind, hL.vd, hL.sep, hL.grad, hL.uh, hL.tpa, hL.paths, hL.sigma,
        (hcs.trans (by rw [e1]; exact hL.cands)), hL.kcand, hL.niter, hL.hasSep, hL.hasV, hL.seen, hL.init⟩
    obtain ⟨s3, htl, hL3⟩ := hL2.tell (env := env) (strictWeakOn_of_noNaN hnn) (by rw [e2, e1]; exact hd)
      (by rw [e2, e1]; exact hv)
    have hgen : s.generation env = .ok s3.incIter := by
      unfold Strat.generation
      rw [hask, Out.ok_bind]
      simp only
      rw [hph, Out.ok_bind, hev, Out.ok_bind, htl]; rfl
    obtain ⟨tr, hrun⟩ := Strat.generation_run hgen
    refine ⟨s3.incIter, hgen, hL3, ⟨fun c hc => ?_, fun c hc => ?_⟩, (run_p hrun).1⟩
    · obtain ⟨cs', cu', su, ts, sol3, hs, hb, csq, hc', sc, ps, hs', pc, cov, sep, v, sg, xp, xm, mx, mn, lv, le,
        e3⟩ := Strat.tell_frame htl
      have hperm := (stableSort_eq_ok (hs hL2.uh)).2.perm
      have : s3.incIter.sol.bestSeen = sol3.bestSeen := by rw [e3]; rfl
      rw [this] at hc
      rcases (updateBest_seen hb).2 c hc with h | h
      · exact hnn c (hperm.mem_iff.1 h)
      · refine hr.1 c ?_
        rw [e2, e1] at h; exact h
    · refine hr.2 c ?_
      obtain ⟨r1, r2, r3, r4, r5, r6, r7, r8, r9, r10⟩ := run_p hrun
      rw [← r10]; exact hc

/-- A fresh strategy of the VD variant is live. -/
theorem vdLive_new {env : Env n} {p : Params n} {s : Strat n} (hc : Configured p) (hvd : p.vd = true)
    (hsep : p.sep = false) (hgr : p.withGradient = false) (huh : p.uh = false) (htpa : p.tpa ≠ 2)
    (hie : p.initialElitist = false) (hel : ¬ (p.elitist = true ∧ p.initialElitistOnRestart = true))
    (h : Strat.new env .vd p = .ok s) :
    VdLive s ∧ RefNum s ∧ (∀ k, s.sol.sepcov k = 1) := by
  obtain ⟨h1, h2, h3, h4, h5, h6, h7, h8, h9, h10, h11, h12, h13, h14, h15, h16, h17, h18, h19, h20⟩ :=
    Strat.new_ok h
  have hg : GoodParams s.p := by rw [h4]; exact hc.with_sigmaInit _
  have hl := hg.lambda
  have hlam : s.p.lambda = p.lambda := by rw [h4]
  refine ⟨⟨hg, h3, ?_, ?_, ?_, ?_, ?_, h14, h5, ?_, ?_, ?_, ?_, ?_, ?_, ?_⟩, ⟨?_, ?_⟩, h6.sepcov⟩
  · rw [h4]; exact hvd
  · rw [h4]; exact hsep
  · rw [h4]; exact hgr
  · rw [h4]; exact huh
  · rw [h4]; exact htpa
  · rw [hlam]; exact h6.cands
  · rw [h16, hlam]; exact kcandOf_lt (by rw [← hlam]; exact hl)
  · rw [h7, h6.niter]
  · rw [h12]; simp [hvd]
  · rw [h13]; simp [hvd]
  · intro h; exact absurd h7 h
  · intro a b
    exfalso
    rw [h4, h20] at b
    rw [h4] at a
    simp only [hie, Bool.or_false, Bool.false_and] at a b
    exact hel ⟨b, a⟩
  · intro c hc; rw [h6.bestSeen] at hc; cases hc
  · intro c hc; rw [h17] at hc; cases hc

end Libcmaes
