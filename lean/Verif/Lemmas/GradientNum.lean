import Verif.Lemmas.Gradient
import Verif.Lemmas.Calls
import Verif.Props.Distribution
import Mathlib.Analysis.Calculus.Deriv.MeanValue

/-!
# The numerical gradient, and the transforms of the witnesses
-/

namespace Libcmaes

open Matrix Spec

variable {n : ℕ}

theorem finite_ofReal (a : ℝ) : Strat.finite (FVal.ofReal a) = .ok a := by
  unfold Strat.finite FVal.ofReal
  simp

/-- The difference quotients. -/
noncomputable def quotient (F : Vec n → ℝ) (x ub : Vec n) : Vec n :=
  fun i => (F (gradPoint x i (ub i)) - F x) / Strat.gradEps x i

theorem gradFold_numeric {env : Env n} {F : Vec n → ℝ} {x ub : Vec n} {b : Bool} {gp : GenoPheno}
    (hF : ∀ k y, negIf b (env.f k y) = FVal.ofReal (F y)) (hub : ∀ i : Fin n, gp.uBound i = .ok (ub i)) (l : List (Fin n))
    (s : Strat n) (g : Vec n) (hb : s.negate = b) (hgp : s.p.gp = gp) (hnd : l.Nodup) :
    ∃ s' g', (l.map Fin.val).foldlM (Strat.gradStep env x (F x)) (s, g) = .ok (s', g') ∧
      (∀ i, g' i = if i ∈ l then quotient F x ub i else g i) ∧
      s'.calls.map Prod.fst = s.calls.map Prod.fst ++ l.map fun i => gradPoint x i (ub i) := by
  induction l generalizing s g with
  | nil => exact ⟨s, g, rfl, fun i => by simp, by simp⟩
  | cons i l ih =>
    rw [List.map_cons, List.foldlM_cons]
    have h1 : Strat.gradStep env x (F x) (s, g) i = .ok
        ({ s with calls := s.calls ++ [(gradPoint x i (ub i), env.f s.calls.length (gradPoint x i (ub i)))] },
          Function.update g i (quotient F x ub i)) := by
      unfold Strat.gradStep
      rw [dif_pos i.2]
      simp only [hgp, hub i, Out.ok_bind, Strat.callF, Fin.eta]
      have : (if s.negate = true then (env.f s.calls.length (gradPoint x i (ub i))).neg
          else env.f s.calls.length (gradPoint x i (ub i))) = FVal.ofReal (F (gradPoint x i (ub i))) := by
        rw [hb]; exact hF _ _
      unfold gradPoint at this ⊢
      rw [this, finite_ofReal, Out.ok_bind]
      rfl
    rw [h1, Out.ok_bind]
    obtain ⟨s', g', a1, a2, a3⟩ := ih { s with calls := s.calls ++ [(gradPoint x i (ub i),
      env.f s.calls.length (gradPoint x i (ub i)))] } (Function.update g i (quotient F x ub i)) hb hgp
      (List.nodup_cons.1 hnd).2
    refine ⟨s', g', a1, fun j => ?_, ?_⟩
    · rw [a2 j]
      by_cases hj : j ∈ l
      · rw [if_pos hj, if_pos (List.mem_cons_of_mem _ hj)]
      · rw [if_neg hj]
        by_cases hij : j = i
        · subst hij; simp
        · rw [Function.update_of_ne hij, if_neg (by simp [hij, hj])]
    · rw [a3]; simp

/-- The numerical gradient of an objective with real values. -/
theorem gradf_numeric {env : Env n} {s : Strat n} {F : Vec n → ℝ} {ub : Vec n} (x : Vec n) (hG : env.gfunc = none)
    (hF : ∀ k y, negIf s.negate (env.f k y) = FVal.ofReal (F y)) (hub : ∀ i : Fin n, s.p.gp.uBound i = .ok (ub i)) :
    ∃ s' l, s.gradf env x = .ok (s', quotient F x ub) ∧ s'.nevals = s.nevals + (n + 1) ∧ List.Perm l (List.finRange n) ∧
      s'.calls.map Prod.fst = s.calls.map Prod.fst ++ x :: l.map fun i => gradPoint x i (ub i) := by
  unfold Strat.gradf
  rw [hG]
  simp only [Strat.callF]
  have h1 : (if s.negate = true then (env.f s.calls.length x).neg else env.f s.calls.length x) = FVal.ofReal (F x) := hF _ _
  rw [h1, finite_ofReal, Out.ok_bind]
  set s1 : Strat n := { s with calls := s.calls ++ [(x, env.f s.calls.length x)] } with hs1
  have hperm := Strat.order_perm env s1 n
  obtain ⟨l, hl⟩ : ∃ l : List (Fin n), l.map Fin.val = s1.order env n := by
    refine ⟨(s1.order env n).pmap (fun i hi => ⟨i, hi⟩) fun i hi => List.mem_range.1 (hperm.mem_iff.1 hi), ?_⟩
    rw [List.map_pmap]
    simp
  have hlp : List.Perm l (List.finRange n) := by
    have : (l.map Fin.val).Perm ((List.finRange n).map Fin.val) := by
      rw [hl, List.map_coe_finRange_eq_range]; exact hperm
    exact (List.map_perm_map_iff Fin.val_injective).1 this
  obtain ⟨s2, g, a1, a2, a3⟩ := gradFold_numeric (x := x) hF hub l s1 (fun _ => 0) rfl rfl
    (hlp.nodup_iff.2 (List.nodup_finRange n))
  rw [hl] at a1
  obtain ⟨c, hc, e⟩ := Strat.gradFold_frame _ a1
  have hg : g = quotient F x ub := by
    funext i
    rw [a2 i, if_pos (hlp.mem_iff.2 (List.mem_finRange i))]
  refine ⟨s2.updateFevals (n + 1), l, ?_, ?_, hlp, ?_⟩
  · rw [a1, Out.ok_bind, hg]; rfl
  · show s2.nevals + (n + 1) = _
    have : s2.nevals = s1.nevals := by
      have e' : s2 = _ := e
      rw [e']
    rw [this]
  · show s2.calls.map Prod.fst = _
    rw [a3, hs1]
    simp

/-- Away from the upper bound a quotient is a slope taken within the step. -/
theorem quotient_slope {F : Vec n → ℝ} {x ub : Vec n} {i : Fin n} (hF : Differentiable ℝ F)
    (hi : x i + Strat.gradEps x i ≤ ub i) :
    ∃ t, 0 < t ∧ t < Strat.gradEps x i ∧ quotient F x ub i = fderiv ℝ F (x + t • Pi.single i 1) (Pi.single i 1) := by
  have he := gradEps_pos x i
  set φ : ℝ → ℝ := fun t => F (x + t • Pi.single i 1) with hφ
  have hd : ∀ t, HasDerivAt φ (fderiv ℝ F (x + t • Pi.single i 1) (Pi.single i 1)) t := by
    intro t
    have hl : HasDerivAt (fun t : ℝ => x + t • (Pi.single i 1 : Vec n)) (Pi.single i 1) t := by
      have := ((hasDerivAt_id t).smul_const (Pi.single i 1 : Vec n)).const_add x
      simpa using this
    exact (hF _).hasFDerivAt.comp_hasDerivAt t hl
  obtain ⟨t, ⟨h1, h2⟩, h3⟩ := exists_hasDerivAt_eq_slope φ (fun t => fderiv ℝ F (x + t • Pi.single i 1) (Pi.single i 1)) he
    (fun t _ => (hd t).continuousAt.continuousWithinAt) (fun t _ => hd t)
  refine ⟨t, h1, h2, ?_⟩
  rw [h3]
  unfold quotient gradPoint
  rw [min_eq_left hi, hφ]
  simp only [sub_zero, zero_smul, add_zero]
  congr 3
  funext j
  by_cases hj : j = i
  · subst hj; simp
  · simp [hj]

/-- On a linear function it is exact. -/
theorem quotient_linear {w x ub : Vec n} {d : ℝ} {i : Fin n} (hi : x i + Strat.gradEps x i ≤ ub i) :
    quotient (fun y => w ⬝ᵥ y + d) x ub i = w i := by
  have he := gradEps_pos x i
  unfold quotient gradPoint
  rw [min_eq_left hi, div_eq_iff he.ne']
  have : Function.update x i (x i + Strat.gradEps x i) = x + Pi.single i (Strat.gradEps x i) := by
    funext j
    by_cases hj : j = i
    · subst hj; simp
    · simp [hj]
  rw [this]
  show w ⬝ᵥ (x + Pi.single i (Strat.gradEps x i)) + d - (w ⬝ᵥ x + d) = _
  rw [dotProduct_add]
  simp

theorem hasFDerivAt_linear (w : Vec n) (d : ℝ) (x : Vec n) :
    ∃ L : Vec n →L[ℝ] ℝ, HasFDerivAt (fun y => w ⬝ᵥ y + d) L x ∧ ∀ i, L (Pi.single i 1) = w i := by
  refine ⟨∑ i, w i • ContinuousLinearMap.proj i, ?_, fun i => ?_⟩
  · have h : ∀ y, w ⬝ᵥ y = (∑ i, w i • ContinuousLinearMap.proj (R := ℝ) (φ := fun _ : Fin n => ℝ) i) y := by
      intro y
      simp [dotProduct]
    simp_rw [h]
    exact (ContinuousLinearMap.hasFDerivAt _).add_const d
  · simp [Pi.single_apply]

/-- The covariance is positive definite along a run with `ask` in each turn. -/
theorem searchCov_pd {env : Env n} {kind : CovKind} {p : Params n} {s t : Strat n} {tr : List (List (Cand n))}
    (hc : Configured p) (hst : StrictRates p) (hk : kind ≠ .vd) (hvd : p.vd = false) (hlz : p.lazyUpdate = false)
    (h0 : Strat.new env kind p = .ok s) (h : AskRun env s tr t) : t.p = s.p ∧ PD (searchCov t.p t.sol) ∧ 0 < t.sol.sigma := by
  obtain ⟨_, _, hkd, hp, _, hf, _⟩ := Strat.new_ok h0
  have htp := (run_p h.run).1
  have hs : t.p.sep = p.sep := by rw [htp, hp]
  refine ⟨htp, ?_, C28_sigma_pos_from_start env kind p s t tr hc h0 h.run⟩
  unfold searchCov
  by_cases hsep : p.sep = true
  · rw [if_pos (hs.trans hsep)]
    have := C29_sep_pos env s t tr (hkd ▸ hk) (by rw [hp]; exact hc.with_sigmaInit _)
      (by rw [hp]; exact ⟨hst.1, hst.2⟩) (by rw [hp]; exact hsep) (fun i => by rw [hf.sepcov]; norm_num) h.run
    refine ⟨isSymm_diagonal _, fun x hx => ?_⟩
    rw [quad_diagonal]
    obtain ⟨j, hj⟩ := Function.ne_iff.1 hx
    refine Finset.sum_pos' (fun i _ => mul_nonneg (this i).le (sq_nonneg _)) ⟨j, Finset.mem_univ j, ?_⟩
    exact mul_pos (this j) (by have : x j ≠ 0 := hj; positivity)
  · have hsep : p.sep = false := by simpa using hsep
    rw [if_neg (by rw [hs, hsep]; simp)]
    cases kind with
    | plain => exact (C26_cov_from_start env p s t tr hc h0 h.run).2 hst.1
    | active => exact C27_active_pd_from_start env p s t tr hc hst hsep hvd hlz h0 h
    | vd => exact absurd rfl hk

end Libcmaes
