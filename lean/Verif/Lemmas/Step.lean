import Verif.Lemmas.Best
import Verif.Lemmas.Quad
import Verif.Lemmas.Init

/-! # One `tell`, seen from the distribution parameters -/

namespace Libcmaes

open Spec

variable {n : ℕ}

theorem Strat.tellFinish_ok {s s' : Strat n} (h : s.tellFinish = .ok s') :
    n ≠ 0 ∧ ∃ mx mn lv le, s' = { s with sol := { s.sol with
      sigma := if s.p.uh = true ∧ s.sol.suh > 0 then s.sol.sigma * s.p.alphathuh else s.sol.sigma
      maxEigenv := mx, minEigenv := mn, leigenvalues := lv, leigenvectors := le, hasLeig := true } } := by
  unfold tellFinish at h
  simp only at h
  by_cases h0 : n = 0
  · rw [if_pos h0] at h; cases h
  rw [if_neg h0] at h
  refine ⟨h0, ?_⟩
  by_cases h1 : (!s.p.sep && !s.p.vd) = true
  · rw [if_pos h1] at h
    cases he : s.es.eig with
    | none => rw [he] at h; cases h
    | some e =>
      rw [he] at h
      injection h with h
      exact ⟨_, _, _, _, h.symm⟩
  · rw [if_neg h1] at h
    injection h with h
    exact ⟨_, _, _, _, h.symm⟩

/-- `sol3` is the solution object handed to the covariance update, `sol4` its result. -/
theorem Strat.tell_step {env : Env n} {s s' : Strat n} (h : s.tell env = .ok s') :
    ∃ sol3 sol4, covarianceUpdate env.eig s.kind s.p s.es sol3 = .ok sol4 ∧
      sol3.cands = s'.sol.cands ∧
      (s.p.uh = false → stableSort candLt s.sol.cands = .ok sol3.cands) ∧
      (∃ cu su ts bh kb bf mf bs bi ws, sol3 = { s.sol with
        cands := sol3.cands, candsUh := cu, suh := su, tpaS := ts, bestHist := bh, kBestHist := kb
        bfvalues := bf, medianFvalues := mf, bestSeen := bs, bestSeenIter := bi, worstSeen := ws }) ∧
      (∃ mx mn lv le, s' = { s with sol := { sol4 with
        sigma := if s.p.uh = true ∧ sol4.suh > 0 then sol4.sigma * s.p.alphathuh else sol4.sigma
        maxEigenv := mx, minEigenv := mn, leigenvalues := lv, leigenvectors := le, hasLeig := true } }) := by
  obtain ⟨s1, tS, sol3, sol4, h1, _, h3, h4, h5⟩ := tell_ok h
  obtain ⟨_, mx, mn, lv, le, e5⟩ := tellFinish_ok h5
  obtain ⟨cu, su, cs, e1⟩ := rank_frame h1
  obtain ⟨c0, ck, cl, med, h0, hk, hl, hmed, e3, _⟩ := Sol.updateBest_ok h3
  obtain ⟨csq, hc, sc, ps, hs, pc, cov, sep, v, sg, xp, xm, e4⟩ := covarianceUpdate_frame h4
  refine ⟨sol3, sol4, h4, ?_, ?_, ?_, mx, mn, lv, le, e5⟩
  · rw [e5, e4]
  · intro huh
    obtain ⟨cs', hcs', e⟩ := rank_ok huh h1
    rw [hcs', e3, e]
  · rw [e3, e1]
    exact ⟨_, _, _, _, _, _, _, _, _, _, rfl⟩

/-- The eigendecomposition left by `ask` when it is not lazy. -/
theorem Strat.ask_eig {env : Env n} {s s' : Strat n} {pop : List (Vec n)}
    (h : s.ask env = .ok (pop, s')) (hsep : s.p.sep = false) (hvd : s.p.vd = false)
    (hl : s.niter = 0 ∨ s.p.lazyUpdate = false) :
    s'.es.eig = some (env.eig.solve s.sol.cov) ∧ s'.sol.updatedEigen = true ∧ s'.es.mean = s.sol.xmean := by
  unfold ask at h
  obtain ⟨s1, h1, h⟩ := Out.bind_eq_ok.1 h
  obtain ⟨⟨pop1, s2⟩, h2, h⟩ := Out.bind_eq_ok.1 h
  obtain ⟨⟨pop2, s3⟩, h3, h⟩ := Out.bind_eq_ok.1 h
  obtain ⟨⟨pop3, s4⟩, h4, h⟩ := Out.bind_eq_ok.1 h
  obtain ⟨pop4, h5, h⟩ := Out.bind_eq_ok.1 h
  injection h with h; injection h with h6 h7
  subst h6; subst h7
  obtain ⟨e2, _⟩ := askSample_frame h2
  obtain ⟨⟨c, e3⟩, _⟩ := askGradient_frame h3
  obtain ⟨⟨nz, x1, x2, p1, p2, e4⟩, _, _⟩ := askTpa_frame h4
  unfold askPrepare at h1
  rw [if_pos (by simp [hsep, hvd]), if_pos (by tauto)] at h1
  by_cases hc : s.sol.hasCov = false
  · rw [if_pos hc] at h1; cases h1
  rw [if_neg hc] at h1
  injection h1 with h1
  rw [e4, e3, e2, ← h1]
  exact ⟨rfl, rfl, rfl⟩

end Libcmaes
