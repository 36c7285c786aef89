import Verif.Lemmas.GenoPheno
import Verif.Model.Update

/-! # Inversion of the covariance updates -/

namespace Libcmaes

variable {n : ℕ}

theorem updatePre_ok {p : Params n} {s : Sol n} (h : updatePre p s = .ok ()) :
    p.mu ≤ s.cands.length ∧ s.pathsOk = true ∧ s.sigma ≠ 0 ∧ p.chi ≠ 0 ∧ p.dsigma ≠ 0 := by
  unfold updatePre at h
  split_ifs at h with h1 h2 h3
  push Not at h3
  exact ⟨not_lt.1 h1, by simpa using h2, h3.1, h3.2.1, h3.2.2⟩

theorem covUpdateFull_ok {p : Params n} {es : Es n} {s s' : Sol n}
    (h : covUpdateFull p es s = .ok s') :
    updatePre p s = .ok () ∧ s.hasCov = true ∧ ∃ csq hb, csqinvOf es s = .ok csq ∧
      hsigBound p s.niter = .ok hb ∧ s' = covNext p s csq hb := by
  unfold covUpdateFull at h
  obtain ⟨_, h0, h⟩ := Out.bind_eq_ok.1 h
  by_cases h1 : s.hasCov = false
  · rw [if_pos h1] at h; cases h
  rw [if_neg h1] at h
  obtain ⟨csq, h2, h⟩ := Out.bind_eq_ok.1 h
  obtain ⟨hb, h3, h⟩ := Out.bind_eq_ok.1 h
  injection h with h
  exact ⟨h0, by simpa using h1, csq, hb, h2, h3, h.symm⟩

theorem covUpdateSep_ok {p : Params n} {s s' : Sol n} (h : covUpdateSep p s = .ok s') :
    updatePre p s = .ok () ∧ s.hasSep = true ∧ ∃ csq hb, sepcsqinvOf s = .ok csq ∧
      hsigBound p s.niter = .ok hb ∧ s' = covNextSep p s csq hb := by
  unfold covUpdateSep at h
  obtain ⟨_, h0, h⟩ := Out.bind_eq_ok.1 h
  by_cases h1 : s.hasSep = false
  · rw [if_pos h1] at h; cases h
  rw [if_neg h1] at h
  obtain ⟨csq, h2, h⟩ := Out.bind_eq_ok.1 h
  obtain ⟨hb, h3, h⟩ := Out.bind_eq_ok.1 h
  injection h with h
  exact ⟨h0, by simpa using h1, csq, hb, h2, h3, h.symm⟩

theorem acovUpdateFull_ok {eig : EigSolver n} {p : Params n} {es : Es n} {s s' : Sol n}
    (h : acovUpdateFull eig p es s = .ok s') :
    updatePre p s = .ok () ∧ s.hasCov = true ∧ p.lambda ≤ s.cands.length ∧ p.mu ≤ p.lambda ∧
      ∃ csq hb cm, csqinvOf es s = .ok csq ∧ hsigBound p s.niter = .ok hb ∧
      cminusOf p (maxCoeff (eig.solve (csq * rankMuMinus p s * csq)).1) = .ok cm ∧
      s' = acovNext p s csq hb cm := by
  unfold acovUpdateFull at h
  obtain ⟨_, h0, h⟩ := Out.bind_eq_ok.1 h
  by_cases h1 : s.hasCov = false
  · rw [if_pos h1] at h; cases h
  rw [if_neg h1] at h
  by_cases h2 : s.cands.length < p.lambda ∨ p.lambda < p.mu
  · rw [if_pos h2] at h; cases h
  rw [if_neg h2] at h
  push Not at h2
  obtain ⟨csq, h3, h⟩ := Out.bind_eq_ok.1 h
  obtain ⟨hb, h4, h⟩ := Out.bind_eq_ok.1 h
  obtain ⟨cm, h5, h⟩ := Out.bind_eq_ok.1 h
  injection h with h
  exact ⟨h0, by simpa using h1, h2.1, h2.2, csq, hb, cm, h3, h4, h5, h.symm⟩

theorem acovUpdateSep_ok {p : Params n} {s s' : Sol n} (h : acovUpdateSep p s = .ok s') :
    updatePre p s = .ok () ∧ s.hasSep = true ∧ p.lambda ≤ s.cands.length ∧ p.mu ≤ p.lambda ∧
      ∃ csq hb cm, sepcsqinvOf s = .ok csq ∧ hsigBound p s.niter = .ok hb ∧
      cminusOf p (maxCoeff (csq * (rankMuMinusSep p s * csq))) = .ok cm ∧
      s' = acovNextSep p s csq hb cm := by
  unfold acovUpdateSep at h
  obtain ⟨_, h0, h⟩ := Out.bind_eq_ok.1 h
  by_cases h1 : s.hasSep = false
  · rw [if_pos h1] at h; cases h
  rw [if_neg h1] at h
  by_cases h2 : s.cands.length < p.lambda ∨ p.lambda < p.mu
  · rw [if_pos h2] at h; cases h
  rw [if_neg h2] at h
  push Not at h2
  obtain ⟨csq, h3, h⟩ := Out.bind_eq_ok.1 h
  obtain ⟨hb, h4, h⟩ := Out.bind_eq_ok.1 h
  obtain ⟨cm, h5, h⟩ := Out.bind_eq_ok.1 h
  injection h with h
  exact ⟨h0, by simpa using h1, h2.1, h2.2, csq, hb, cm, h3, h4, h5, h.symm⟩

theorem vdUpdate_ok {p : Params n} {s s' : Sol n} (h : vdUpdate p s = .ok s') :
    updatePre p s = .ok () ∧ s.hasSep = true ∧ s.hasV = true ∧ (∀ k, s.sepcov k ≠ 0) ∧ sqNorm s.v ≠ 0 ∧
      ∃ hb g, hsigBound p s.niter = .ok hb ∧
      (if p.cmu + p.c1 * hsigR (vdPaths p s hb).hsig > 0 then vdGradient p (vdPaths p s hb) (sqNorm s.v)
        else pure ⟨s.v, s.sepcov⟩) = .ok g ∧ s' = vdNext p s hb g := by
  unfold vdUpdate at h
  obtain ⟨_, h0, h⟩ := Out.bind_eq_ok.1 h
  by_cases h1 : s.hasSep = false ∨ s.hasV = false
  · rw [if_pos h1] at h; cases h
  rw [if_neg h1] at h
  by_cases h2 : ∃ k, s.sepcov k = 0
  · rw [if_pos h2] at h; cases h
  rw [if_neg h2] at h
  obtain ⟨hb, h3, h⟩ := Out.bind_eq_ok.1 h
  by_cases h4 : sqNorm s.v = 0
  · simp only at h
    rw [if_pos h4] at h; cases h
  simp only at h
  rw [if_neg h4] at h
  obtain ⟨g, h5, h⟩ := Out.bind_eq_ok.1 h
  injection h with h
  push Not at h1 h2
  exact ⟨h0, by simpa using h1.1, by simpa using h1.2, h2, h4, hb, g, h3, h5, h.symm⟩

/-- The new mean is the weighted sum of the selected points, in every variant. -/
theorem covarianceUpdate_mean {eig : EigSolver n} {k : CovKind} {p : Params n} {es : Es n} {s s' : Sol n}
    (hw : ∑ i ∈ Finset.range p.mu, p.weights i = 1) (h : covarianceUpdate eig k p es s = .ok s') :
    p.mu ≤ s.cands.length ∧ s'.xmean = recombine p s.cands := by
  have hact : recombineActive p s = recombine p s.cands := by
    funext j
    unfold recombineActive recombine
    simp only [mul_sub, Finset.sum_sub_distrib, ← Finset.sum_mul, hw]
    ring
  unfold covarianceUpdate at h
  cases k with
  | plain =>
    simp only at h
    split_ifs at h with hs
    · obtain ⟨h0, _, csq, hb, _, _, rfl⟩ := covUpdateSep_ok h
      exact ⟨(updatePre_ok h0).1, rfl⟩
    · obtain ⟨h0, _, csq, hb, _, _, rfl⟩ := covUpdateFull_ok h
      exact ⟨(updatePre_ok h0).1, rfl⟩
  | active =>
    simp only at h
    split_ifs at h with hs
    · obtain ⟨h0, _, _, _, csq, hb, cm, _, _, _, rfl⟩ := acovUpdateSep_ok h
      exact ⟨(updatePre_ok h0).1, hact⟩
    · obtain ⟨h0, _, _, _, csq, hb, cm, _, _, _, rfl⟩ := acovUpdateFull_ok h
      exact ⟨(updatePre_ok h0).1, hact⟩
  | vd =>
    obtain ⟨h0, _, _, _, _, hb, g, _, _, rfl⟩ := vdUpdate_ok h
    exact ⟨(updatePre_ok h0).1, rfl⟩

/-- The new step size is the old one times an exponential, in every variant. -/
theorem covarianceUpdate_sigma {eig : EigSolver n} {k : CovKind} {p : Params n} {es : Es n} {s s' : Sol n}
    (h : covarianceUpdate eig k p es s = .ok s') :
    s'.sigma = sigmaUpdate p s (vnorm s'.psigma) := by
  unfold covarianceUpdate at h
  cases k with
  | plain =>
    simp only at h
    split_ifs at h with hs
    · obtain ⟨h0, _, csq, hb, _, _, rfl⟩ := covUpdateSep_ok h; rfl
    · obtain ⟨h0, _, csq, hb, _, _, rfl⟩ := covUpdateFull_ok h; rfl
  | active =>
    simp only at h
    split_ifs at h with hs
    · obtain ⟨h0, _, _, _, csq, hb, cm, _, _, _, rfl⟩ := acovUpdateSep_ok h; rfl
    · obtain ⟨h0, _, _, _, csq, hb, cm, _, _, _, rfl⟩ := acovUpdateFull_ok h; rfl
  | vd =>
    obtain ⟨h0, _, _, _, _, hb, g, _, _, rfl⟩ := vdUpdate_ok h; rfl

theorem sigmaUpdate_pos {p : Params n} {s : Sol n} (h : 0 < s.sigma) (x : ℝ) : 0 < sigmaUpdate p s x := by
  unfold sigmaUpdate
  split_ifs
  · positivity
  · positivity
  · exact h

end Libcmaes
