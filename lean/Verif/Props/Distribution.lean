import Verif.Lemmas.Cov
import Verif.Lemmas.Strict
import Mathlib.Analysis.Convex.Combination

/-!
# C25–C29: the parameters of the search distribution

`Run`, `AskRun`: Spec/Run.lean; `PSD`, `PD`: Spec/Matrix.lean; `GoodWeights`, `Admissible`,
`GoodParams`, `StrictRates`, `Configured`: Spec/Rates.lean, Spec/Good.lean.  Every parameter set a user can
configure meets `GoodParams` (`C25_configured`), the default population size gives `StrictRates`
(`C26_strict_default`).
-/

namespace Libcmaes

open Spec Matrix Finset

variable {n : ℕ}

/-! ### C25 -/

/-- **C25.** Whatever the variant and the flags, after `tell()` the mean is the weighted sum of the `mu`
first ranked candidates, and lies in each convex set containing these. -/
theorem C25_mean_convex (env : Env n) (s s' : Strat n) (hw : GoodWeights s.p) (h : s.tell env = .ok s') :
    (∃ hmu : s.p.mu ≤ s'.sol.cands.length, ∀ k, s'.sol.xmean k = ∑ i : Fin s.p.mu,
      s.p.weights i * (s'.sol.cands[i.val]'(lt_of_lt_of_le i.2 hmu)).x k) ∧
    ∀ K : Set (Vec n), Convex ℝ K → (∀ c ∈ s'.sol.cands.take s.p.mu, c.x ∈ K) → s'.sol.xmean ∈ K := by
  obtain ⟨sol3, sol4, hc, hcs, _, _, mx, mn, lv, le, e⟩ := Strat.tell_step h
  obtain ⟨hmu, hx⟩ := covarianceUpdate_mean hw.sum_one hc
  have hx' : s'.sol.xmean = recombine s.p s'.sol.cands := by rw [← hcs, ← hx, e]
  rw [hcs] at hmu
  refine ⟨⟨hmu, fun k => ?_⟩, fun K hK hsel => ?_⟩
  · rw [hx']
    unfold recombine
    rw [← Fin.sum_univ_eq_sum_range (fun i => s.p.weights i * candX s'.sol.cands i k)]
    refine sum_congr rfl fun i _ => ?_
    have hi : (i : ℕ) < s'.sol.cands.length := lt_of_lt_of_le i.2 hmu
    simp [candX, List.getD, List.getElem?_eq_getElem hi]
  · have : s'.sol.xmean = ∑ i ∈ range s.p.mu, s.p.weights i • candX s'.sol.cands i := by
      rw [hx']; funext k; simp [recombine, Finset.sum_apply]
    rw [this]
    refine hK.sum_mem (fun i hi => GoodWeights_nonneg hw hi) hw.sum_one fun i hi => ?_
    have hi' : i < s.p.mu := mem_range.1 hi
    have hl : i < s'.sol.cands.length := lt_of_lt_of_le hi' hmu
    have : candX s'.sol.cands i = s'.sol.cands[i].x := by
      simp [candX, List.getD, List.getElem?_eq_getElem hl]
    rw [this]
    refine hsel _ (List.mem_take_iff_getElem.2 ⟨i, ?_, rfl⟩)
    omega

/-- Every parameter set a user can set up is good, in particular has good weights and admissible
rates. -/
theorem C25_configured (p : Params n) (h : Configured p) : GoodParams p := h.good.1

/-! ### C26 -/

/-- **C26.** Default update, any execution: a positive semi-definite covariance stays so, and a positive
definite one too if `c1 + cmu < 1`. -/
theorem C26_cov (env : Env n) (s s' : Strat n) (tr : List (List (Cand n))) (hk : s.kind = .plain)
    (hg : GoodParams s.p) (h : Run env s tr s') :
    (PSD s.sol.cov → PSD s'.sol.cov) ∧
    (s.p.c1 + s.p.cmu < 1 → PD s.sol.cov → PD s'.sol.cov) := by
  have key := h.induct (past := []) (I := fun t _ => t.kind = .plain ∧ t.p = s.p ∧
    (PSD s.sol.cov → PSD t.sol.cov) ∧ (s.p.c1 + s.p.cmu < 1 → PD s.sol.cov → PD t.sol.cov))
    ?_ ?_ ?_ ⟨hk, rfl, id, fun _ => id⟩
  · exact key.2.2
  · intro t past pop t' hi hh
    obtain ⟨⟨es, ei, ue, c, nz, x1, x2, p1, p2, e⟩, _⟩ := Strat.ask_frame hh
    subst e; exact hi
  · intro t past b t' hi hh
    obtain ⟨k, r, e⟩ := Strat.stop_frame hh
    subst e; exact hi
  · intro t past cols phen t2 t3 ⟨hk, hp, h1, h2⟩ hh hh'
    obtain ⟨c, nu, nzuh, lr, cu, cs, e, _⟩ := Strat.eval_frame hh
    obtain ⟨sol3, sol4, hc, _, _, ⟨_, _, _, _, _, _, _, _, _, _, e3⟩, mx, mn, lv, le, e'⟩ := Strat.tell_step hh'
    have ek : t2.kind = .plain := by rw [e]; exact hk
    have ep : t2.p = s.p := by rw [e]; exact hp
    have ec : sol3.cov = t.sol.cov := by rw [e3, e]
    have ec' : t3.incIter.sol.cov = sol4.cov := by rw [e']; rfl
    have ep' : t3.incIter.p = s.p := by rw [e']; exact ep
    have ek' : t3.incIter.kind = .plain := by rw [e']; exact ek
    refine ⟨ek', ep', ?_⟩
    rw [ec']
    unfold covarianceUpdate at hc
    rw [ek, ep] at hc
    simp only at hc
    split_ifs at hc with hs
    · obtain ⟨_, _, csq, hb, _, _, rfl⟩ := covUpdateSep_ok hc
      show (_ → PSD sol3.cov) ∧ (_ → _ → PD sol3.cov)
      rw [ec]; exact ⟨h1, h2⟩
    · obtain ⟨_, _, csq, hb, _, _, rfl⟩ := covUpdateFull_ok hc
      constructor
      · intro h0
        have hC : PSD sol3.cov := ec ▸ h1 h0
        obtain ⟨h3, h4⟩ := covNext_quad (csq := csq) (hb := hb) hg.weights hg.rates hC
        exact ⟨h3, fun x => le_trans (mul_nonneg (by have := hg.rates.c1_cmu_le; linarith)
          (hC.nonneg x)) (h4 x)⟩
      · intro hlt h0
        have hC : PD sol3.cov := ec ▸ h2 hlt h0
        obtain ⟨h3, h4⟩ := covNext_quad (csq := csq) (hb := hb) hg.weights hg.rates hC.psd
        exact ⟨h3, fun x hx => lt_of_lt_of_le (mul_pos (by linarith) (hC.pos x hx)) (h4 x)⟩

/-- **C26** for a search started from any configured parameters. -/
theorem C26_cov_from_start (env : Env n) (p : Params n) (s s' : Strat n) (tr : List (List (Cand n)))
    (hc : Configured p) (h0 : Strat.new env .plain p = .ok s) (h : Run env s tr s') :
    PSD s'.sol.cov ∧ (p.c1 + p.cmu < 1 → PD s'.sol.cov) := by
  obtain ⟨_, _, hk, hp, _, hf, _⟩ := Strat.new_ok h0
  have hg : GoodParams s.p := by
    rw [hp]
    exact hc.with_sigmaInit _
  have hcov : PD s.sol.cov := by rw [hf.cov]; exact PD_one
  obtain ⟨h1, h2⟩ := C26_cov env s s' tr hk hg h
  refine ⟨h1 hcov.psd, fun hlt => h2 ?_ hcov⟩
  rw [hp]; exact hlt

/-- With the default population size `c1 + cmu < 1`, and the bound asked for in C27 and C29 holds too,
also for the diagonal model. -/
theorem C26_strict_default (x0 : Vec n) (sigma : ℝ) (lambda : ℤ) (seed clock : ℕ) (gp : GenoPheno)
    (p : Params n) (hl : lambda < 2) (h : Params.make x0 sigma lambda seed clock gp = .ok p) :
    StrictRates p ∧ StrictRates p.setSep := strictRates_default hl h

/-! ### C27 -/

/-- **C27.** Active update, any execution in which each generation begins with `ask()` and the
eigendecomposition is not lazy: the covariance stays symmetric positive definite, whatever the points
and values. -/
theorem C27_active_pd (env : Env n) (s s' : Strat n) (tr : List (List (Cand n))) (hk : s.kind = .active)
    (hg : GoodParams s.p) (hst : StrictRates s.p) (hsep : s.p.sep = false) (hvd : s.p.vd = false)
    (hlazy : s.p.lazyUpdate = false) (h0 : PD s.sol.cov) (h : AskRun env s tr s') : PD s'.sol.cov := by
  have key := h.induct (past := []) (I := fun t _ => t.kind = .active ∧ t.p = s.p ∧ PD t.sol.cov)
    ?_ ?_ ⟨hk, rfl, h0⟩
  · exact key.2.2
  · intro t past b t' hi hh
    obtain ⟨k, r, e⟩ := Strat.stop_frame hh
    subst e; exact hi
  · intro t past pop t1 cols phen t2 t3 ⟨hk, hp, hC⟩ ha hh hh'
    obtain ⟨⟨es, ei, ue, c, nz, x1, x2, p1, p2, e⟩, _⟩ := Strat.ask_frame ha
    obtain ⟨a1, a2, _⟩ := Strat.ask_eig ha (by rw [hp]; exact hsep) (by rw [hp]; exact hvd)
      (Or.inr (by rw [hp]; exact hlazy))
    obtain ⟨c, nu, nzuh, lr, cu, cs, e1, _⟩ := Strat.eval_frame hh
    obtain ⟨sol3, sol4, hc, _, _, ⟨_, _, _, _, _, _, _, _, _, _, e3⟩, mx, mn, lv, le, e'⟩ := Strat.tell_step hh'
    have ek : t2.kind = .active := by rw [e1, e]; exact hk
    have ep : t2.p = s.p := by rw [e1, e]; exact hp
    have ees : t2.es.eig = some (env.eig.solve t.sol.cov) := by rw [← a1, e1]
    have eue : sol3.updatedEigen = true := by rw [e3, ← a2, e1]
    have ec : sol3.cov = t.sol.cov := by rw [e3, e1, e]
    have ec' : t3.incIter.sol.cov = sol4.cov := by rw [e']; rfl
    have ep' : t3.incIter.p = s.p := by rw [e']; exact ep
    have ek' : t3.incIter.kind = .active := by rw [e']; exact ek
    refine ⟨ek', ep', ?_⟩
    rw [ec']
    unfold covarianceUpdate at hc
    rw [ek, ep] at hc
    simp only [hsep] at hc
    obtain ⟨_, _, _, _, csq, hb, cm, h1, _, h3, rfl⟩ := acovUpdateFull_ok hc
    unfold csqinvOf at h1
    rw [eue, if_pos rfl, ees] at h1
    exact acovNext_pd env.eig hg.dim hg.weights hg.rates hst (ec ▸ hC) hg.muw (ec ▸ h1) h3

/-- **C27** for a search started from any configured parameters with strict rates. -/
theorem C27_active_pd_from_start (env : Env n) (p : Params n) (s s' : Strat n)
    (tr : List (List (Cand n))) (hc : Configured p) (hst : StrictRates p) (hsep : p.sep = false)
    (hvd : p.vd = false) (hlazy : p.lazyUpdate = false) (h0 : Strat.new env .active p = .ok s)
    (h : AskRun env s tr s') : PD s'.sol.cov := by
  obtain ⟨_, _, hk, hp, _, hf, _⟩ := Strat.new_ok h0
  refine C27_active_pd env s s' tr hk ?_ ?_ ?_ ?_ ?_ ?_ h
  · rw [hp]
    exact hc.with_sigmaInit _
  · rw [hp]; exact ⟨hst.1, hst.2⟩
  · rw [hp]; exact hsep
  · rw [hp]; exact hvd
  · rw [hp]; exact hlazy
  · rw [hf.cov]; exact PD_one

/-! ### C28 -/

/-- **C28.** In every variant, with any flags, the step size stays positive over any execution. -/
theorem C28_sigma_pos (env : Env n) (s s' : Strat n) (tr : List (List (Cand n)))
    (ha : 0 < s.p.alphathuh) (h0 : 0 < s.sol.sigma) (h : Run env s tr s') : 0 < s'.sol.sigma := by
  have key := h.induct (past := []) (I := fun t _ => t.p = s.p ∧ 0 < t.sol.sigma) ?_ ?_ ?_ ⟨rfl, h0⟩
  · exact key.2
  · intro t past pop t' hi hh
    obtain ⟨⟨es, ei, ue, c, nz, x1, x2, p1, p2, e⟩, _⟩ := Strat.ask_frame hh
    subst e; exact hi
  · intro t past b t' hi hh
    obtain ⟨k, r, e⟩ := Strat.stop_frame hh
    subst e; exact hi
  · intro t past cols phen t2 t3 ⟨hp, hs⟩ hh hh'
    obtain ⟨c, nu, nzuh, lr, cu, cs, e, _⟩ := Strat.eval_frame hh
    obtain ⟨sol3, sol4, hc, _, _, ⟨_, _, _, _, _, _, _, _, _, _, e3⟩, mx, mn, lv, le, e'⟩ := Strat.tell_step hh'
    have ep : t2.p = s.p := by rw [e]; exact hp
    have es3 : sol3.sigma = t.sol.sigma := by rw [e3, e]
    have h4 : 0 < sol4.sigma := by
      rw [covarianceUpdate_sigma hc]
      exact sigmaUpdate_pos (by rw [es3]; exact hs) _
    rw [e']
    refine ⟨ep, ?_⟩
    show 0 < if t2.p.uh = true ∧ sol4.suh > 0 then sol4.sigma * t2.p.alphathuh else sol4.sigma
    split_ifs
    · rw [ep]; positivity
    · exact h4

/-- **C28** for a search started from any configured parameters. -/
theorem C28_sigma_pos_from_start (env : Env n) (kind : CovKind) (p : Params n) (s s' : Strat n)
    (tr : List (List (Cand n))) (hc : Configured p) (h0 : Strat.new env kind p = .ok s)
    (h : Run env s tr s') : 0 < s'.sol.sigma := by
  obtain ⟨_, _, hk, hp, hs, _⟩ := Strat.new_ok h0
  refine C28_sigma_pos env s s' tr ?_ hs h
  rw [hp]
  exact lt_of_lt_of_le one_pos hc.good.1.one_le_alphathuh

/-! ### C29 -/

/-- **C29.** Diagonal model, default or active update, any execution: the variances stay positive. -/
theorem C29_sep_pos (env : Env n) (s s' : Strat n) (tr : List (List (Cand n))) (hk : s.kind ≠ .vd)
    (hg : GoodParams s.p) (hst : StrictRates s.p) (hsep : s.p.sep = true)
    (h0 : ∀ i, 0 < s.sol.sepcov i) (h : Run env s tr s') : ∀ i, 0 < s'.sol.sepcov i := by
  have key := h.induct (past := []) (I := fun t _ => t.p = s.p ∧ t.kind = s.kind ∧ ∀ i, 0 < t.sol.sepcov i)
    ?_ ?_ ?_ ⟨rfl, rfl, h0⟩
  · exact key.2.2
  · intro t past pop t' hi hh
    obtain ⟨⟨es, ei, ue, c, nz, x1, x2, p1, p2, e⟩, _⟩ := Strat.ask_frame hh
    subst e; exact hi
  · intro t past b t' hi hh
    obtain ⟨k, r, e⟩ := Strat.stop_frame hh
    subst e; exact hi
  · intro t past cols phen t2 t3 ⟨hp, hkk, hs⟩ hh hh'
    obtain ⟨c, nu, nzuh, lr, cu, cs, e, _⟩ := Strat.eval_frame hh
    obtain ⟨sol3, sol4, hc, _, _, ⟨_, _, _, _, _, _, _, _, _, _, e3⟩, mx, mn, lv, le, e'⟩ := Strat.tell_step hh'
    have ep : t2.p = s.p := by rw [e]; exact hp
    have ek : t2.kind = s.kind := by rw [e]; exact hkk
    have es3 : sol3.sepcov = t.sol.sepcov := by rw [e3, e]
    have h4 : ∀ i, 0 < sol4.sepcov i := by
      unfold covarianceUpdate at hc
      rw [ek, ep] at hc
      cases hkd : s.kind with
      | vd => exact absurd hkd hk
      | plain =>
        rw [hkd] at hc
        simp only [hsep] at hc
        obtain ⟨_, _, csq, hb, _, _, rfl⟩ := covUpdateSep_ok hc
        intro i
        have h5 := hs i
        rw [← es3] at h5
        refine lt_of_lt_of_le (mul_pos ?_ h5) (covNextSep_ge hg.weights hg.rates i h5.le)
        have := hst.lt_one; linarith
      | active =>
        rw [hkd] at hc
        simp only [hsep] at hc
        obtain ⟨_, _, _, _, csq, hb, cm, h1, _, h3, rfl⟩ := acovUpdateSep_ok hc
        exact acovNextSep_pos hg.weights hg.rates hst hg.muw h1 h3
    rw [e']
    exact ⟨ep, ek, h4⟩

/-- **C29** for a search started with the default population size. -/
theorem C29_sep_pos_from_start (env : Env n) (kind : CovKind) (x0 : Vec n) (sigma : ℝ) (lambda : ℤ)
    (seed clock : ℕ) (gp : GenoPheno) (p : Params n) (s s' : Strat n) (tr : List (List (Cand n)))
    (hl : lambda < 2) (hm : Params.make x0 sigma lambda seed clock gp = .ok p) (hk : kind ≠ .vd)
    (h0 : Strat.new env kind p.setSep = .ok s) (h : Run env s tr s') : ∀ i, 0 < s'.sol.sepcov i := by
  obtain ⟨_, _, hkd, hp, _, hf, _⟩ := Strat.new_ok h0
  have hfl := Params.make_flags hm
  have hcf : Configured p.setSep := .sep (.make hm) hfl.1 hfl.2
  refine C29_sep_pos env s s' tr (hkd ▸ hk) ?_ ?_ ?_ ?_ h
  · rw [hp]
    exact hcf.with_sigmaInit _
  · rw [hp]
    have := (strictRates_default hl hm).2
    exact ⟨this.1, this.2⟩
  · rw [hp]; rfl
  · intro i; rw [hf.sepcov i]; norm_num

end Libcmaes
