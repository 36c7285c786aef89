import Verif.Spec.Gradient
import Verif.Lemmas.Edm
import Verif.Lemmas.RsvmRun
import Mathlib.Analysis.Calculus.FDeriv.Mul
import Mathlib.Analysis.Calculus.FDeriv.Comp
import Mathlib.Analysis.Calculus.FDeriv.Add

/-!
# The candidate made from the gradient
-/

namespace Libcmaes

open Matrix Spec

variable {n : ℕ}

/-! ### The steepest point of an ellipsoid -/

theorem Spec.PD.isUnit_det {C : Mat n} (h : PD C) : IsUnit C.det := by
  rw [← Matrix.isUnit_iff_isUnit_det, ← Matrix.mulVec_injective_iff_isUnit]
  exact PD.inj h

theorem quad_inv {C : Mat n} (h : PD C) (x : Vec n) : quad C⁻¹ (C.mulVec x) = quad C x := by
  unfold quad
  rw [mulVec_mulVec, Matrix.nonsing_inv_mul _ h.isUnit_det, one_mulVec, dotProduct_comm]

theorem quad_inv_pos {C : Mat n} (h : PD C) {x : Vec n} (hx : x ≠ 0) : 0 < quad C⁻¹ x := by
  have e : C.mulVec (C⁻¹.mulVec x) = x := by rw [mulVec_mulVec, Matrix.mul_nonsing_inv _ h.isUnit_det, one_mulVec]
  rw [← e, quad_inv h]
  refine h.pos _ fun h0 => hx ?_
  rw [← e, h0, mulVec_zero]

/-- Expanding the square of the distance between `d` and `-k C g`. -/
theorem quad_inv_add {C : Mat n} (h : PD C) (d g : Vec n) (k : ℝ) :
    quad C⁻¹ (d + k • C.mulVec g) = quad C⁻¹ d + 2 * k * (g ⬝ᵥ d) + k ^ 2 * quad C g := by
  have hs : (C⁻¹).IsSymm := by
    unfold Matrix.IsSymm
    rw [Matrix.transpose_nonsing_inv, h.symm]
  have e1 : C⁻¹.mulVec (C.mulVec g) = g := by rw [mulVec_mulVec, Matrix.nonsing_inv_mul _ h.isUnit_det, one_mulVec]
  have e2 : C.mulVec g ⬝ᵥ C⁻¹.mulVec d = g ⬝ᵥ d := by
    rw [dotProduct_mulVec, ← mulVec_transpose, hs, e1]
  have e3 : C.mulVec g ⬝ᵥ g = quad C g := dotProduct_comm _ _
  unfold quad at e3 ⊢
  rw [mulVec_add, mulVec_smul, e1, dotProduct_add, add_dotProduct, add_dotProduct, smul_dotProduct, smul_dotProduct,
    dotProduct_smul, dotProduct_smul, e2, e3, dotProduct_comm d g]
  simp only [smul_eq_mul]
  ring

theorem steepest_of {F : Vec n → ℝ} {L : Vec n →L[ℝ] ℝ} {m g : Vec n} {sigma : ℝ} {C : Mat n} (hF : HasFDerivAt F L m)
    (hL : ∀ v, L v = g ⬝ᵥ v) (hg : g ≠ 0) (hC : PD C) (hs : 0 < sigma) :
    SteepestPoint F m sigma C (m - (sigma * Real.sqrt (n / quad C g)) • C.mulVec g) := by
  have hq := hC.pos g hg
  have hn : (0 : ℝ) < n := by
    rcases Nat.eq_zero_or_pos n with h | h
    · subst h
      exact absurd (Subsingleton.elim g 0) hg
    · exact_mod_cast h
  set k := sigma * Real.sqrt (n / quad C g) with hk
  have hk0 : 0 < k := mul_pos hs (Real.sqrt_pos.2 (div_pos hn hq))
  have hk2 : k ^ 2 * quad C g = n * sigma ^ 2 := by
    rw [hk, mul_pow, Real.sq_sqrt (div_pos hn hq).le]
    field_simp
  have hs2 : 0 < sigma ^ 2 := by positivity
  have hx : m - k • C.mulVec g - m = (-k) • C.mulVec g := by
    rw [neg_smul]; abel
  have hd : fderiv ℝ F m = L := hF.fderiv
  have hgx : L ((-k) • C.mulVec g) = -(k * quad C g) := by
    rw [hL, dotProduct_smul, smul_eq_mul]
    unfold quad
    ring
  refine ⟨?_, ?_, fun y hy hne => ?_⟩
  · unfold distSq
    rw [hx, div_eq_iff hs2.ne', ← hk2]
    have := quad_inv_add hC 0 g (-k)
    rw [zero_add] at this
    rw [this]
    simp [quad]
  · rw [hd, hx, hgx]
    have := mul_pos hk0 hq
    linarith
  · rw [hd, hx, hgx, hL]
    have h1 : 0 < quad C⁻¹ ((y - m) + k • C.mulVec g) := by
      refine quad_inv_pos hC fun h0 => hne ?_
      have : y - m = -(k • C.mulVec g) := eq_neg_of_add_eq_zero_left h0
      rw [sub_eq_iff_eq_add] at this
      rw [this]; abel
    rw [quad_inv_add hC, hk2] at h1
    unfold distSq at hy
    rw [div_le_iff₀ hs2] at hy
    have h2 : 0 < k * (k * quad C g + g ⬝ᵥ (y - m)) := by nlinarith
    have := (mul_pos_iff_of_pos_left hk0).1 h2
    linarith

/-! ### The two gradients -/

theorem gradEps_pos (x : Vec n) (i : Fin n) : 0 < Strat.gradEps x i := by
  unfold Strat.gradEps
  have := abs_nonneg (x i)
  positivity

theorem gradgp_quadratic {s : Strat n} {m c b a : Vec n} (h : QuadraticNear s.p.gp m c b a) :
    phenoV s.p.gp m = .ok (c * m * m + b * m + a) ∧ s.gradgp m = .ok (2 * c * m + b) := by
  have hx : ∀ i, |(m + Strat.gradEps m) i - m i| ≤ 1e-8 * (1 + |m i|) := fun i => by
    rw [Pi.add_apply, add_sub_cancel_left, abs_of_pos (gradEps_pos m i)]; exact le_rfl
  have hy : ∀ i, |(m - Strat.gradEps m) i - m i| ≤ 1e-8 * (1 + |m i|) := fun i => by
    rw [Pi.sub_apply, sub_sub_cancel_left, abs_neg, abs_of_pos (gradEps_pos m i)]; exact le_rfl
  refine ⟨h m fun i => ?_, ?_⟩
  · rw [sub_self, abs_zero]; exact (gradEps_pos m i).le
  · unfold Strat.gradgp
    rw [h _ hx, h _ hy, Out.ok_bind, Out.ok_bind]
    refine congrArg Except.ok (funext fun i => ?_)
    have := gradEps_pos m i
    simp only [Pi.add_apply, Pi.mul_apply, Pi.sub_apply, Pi.ofNat_apply]
    rw [div_eq_iff (by positivity)]
    ring

/-- The chain rule. -/
theorem chain_quadratic {F : Vec n → ℝ} {m c b a g : Vec n} {L : Vec n →L[ℝ] ℝ}
    (h : HasFDerivAt F L (c * m * m + b * m + a)) (hg : ∀ i, L (Pi.single i 1) = g i) :
    ∃ L' : Vec n →L[ℝ] ℝ, HasFDerivAt (fun x => F (c * x * x + b * x + a)) L' m ∧
      ∀ v, L' v = (g * (2 * c * m + b)) ⬝ᵥ v := by
  have hL : ∀ x, L x = ∑ i, x i * g i := by
    intro x
    conv_lhs => rw [show x = ∑ i, x i • Pi.single i (1 : ℝ) by
      ext k; simp [Finset.sum_apply, Pi.single_apply]]
    rw [map_sum]
    exact Finset.sum_congr rfl fun i _ => by rw [map_smul, hg, smul_eq_mul]
  have h1 : HasFDerivAt (fun x : Vec n => c * x) (c • ContinuousLinearMap.id ℝ (Vec n)) m :=
    (hasFDerivAt_id m).const_mul c
  have h2 := ((h1.mul (hasFDerivAt_id m)).add ((hasFDerivAt_id m).const_mul b)).add_const a
  refine ⟨_, HasFDerivAt.comp m h h2, fun v => ?_⟩
  rw [ContinuousLinearMap.comp_apply, hL]
  unfold dotProduct
  refine Finset.sum_congr rfl fun i _ => ?_
  simp
  ring

/-- With the user's gradient function nothing is called. -/
theorem gradf_given {env : Env n} {s s' : Strat n} {x g : Vec n} {G : ℕ → Vec n → Vec n} (hG : env.gfunc = some G)
    (h : s.gradf env x = .ok (s', g)) : s' = s ∧ g = G s.calls.length x := by
  unfold Strat.gradf at h
  rw [hG] at h
  injection h with h
  injection h with h1 h2
  exact ⟨h1.symm, h2.symm⟩

/-! ### What `ask` injects -/

theorem sqrtMul_sq {e : Vec n × Mat n} (h0 : ∀ i, 0 ≤ e.1 i) (ho : e.2 * e.2ᵀ = 1) (x : Vec n) :
    sqNorm ((e.2 * diagonal (fun i => Real.sqrt (e.1 i)) * e.2ᵀ).mulVec x) = quad (e.2 * diagonal e.1 * e.2ᵀ) x := by
  have h1 : sqNorm ((e.2 * diagonal (fun i => Real.sqrt (e.1 i)) * e.2ᵀ).mulVec x) =
      ∑ i, (Real.sqrt (e.1 i) * e.2ᵀ.mulVec x i) ^ 2 := by
    have e1 : (e.2 * diagonal (fun i => Real.sqrt (e.1 i)) * e.2ᵀ).mulVec x =
        e.2.mulVec fun i => Real.sqrt (e.1 i) * e.2ᵀ.mulVec x i := by
      rw [← mulVec_mulVec, ← mulVec_mulVec]
      congr 1
      funext i
      rw [mulVec_diagonal]
    have e2 : ∀ y : Vec n, sqNorm y = y ⬝ᵥ y := fun y => rfl
    rw [e1, e2, dotProduct_mulVec, ← mulVec_transpose, mulVec_mulVec, mul_eq_one_comm.1 ho, one_mulVec]
    unfold dotProduct
    exact Finset.sum_congr rfl fun i _ => (sq _).symm
  rw [h1, quad_conj, quad_diagonal]
  refine Finset.sum_congr rfl fun i _ => ?_
  rw [mul_pow, Real.sq_sqrt (h0 i)]

/-- The covariance of the model is positive definite, for the full and the diagonal variant. -/
theorem sep_pos {p : Params n} {s : Sol n} (h : PD (searchCov p s)) (hs : p.sep = true) (i : Fin n) : 0 < s.sepcov i := by
  have := h.pos (Pi.single i 1) (by simp)
  unfold searchCov at this
  rw [if_pos hs, quad_diagonal, Finset.sum_eq_single i] at this
  · simpa using this
  · intro j _ hj; simp [hj]
  · simp

theorem ask_first {env : Env n} {s s' : Strat n} {pop : List (Vec n)} (hvd : s.p.vd = false)
    (hlz : s.niter = 0 ∨ s.p.lazyUpdate = false) (hw : s.p.withGradient = true) (hfx : s.p.fixedP = [])
    (hC : PD (searchCov s.p s.sol)) (h : s.ask env = .ok (pop, s')) :
    ∃ (sa sb : Strat n) (pop0 : List (Vec n)) (ph g gg : Vec n), sa.calls = s.calls ∧ sa.p = s.p ∧ sa.negate = s.negate ∧
      sa.nevals = s.nevals ∧ phenoV s.p.gp s.sol.xmean = .ok ph ∧ sa.gradf env ph = .ok (sb, g) ∧
      sb.gradgp s.sol.xmean = .ok gg ∧ s'.calls = sb.calls ∧ s'.nevals = sb.nevals ∧
      (s.askPrepare env >>= fun s1 => s1.askSample env >>= fun q => pure q.1) = .ok pop0 ∧
      (g * gg = 0 → pop[0]? = pop0[0]?) ∧
      (g * gg ≠ 0 → pop[0]? = some (s.sol.xmean - (s.sol.sigma * Real.sqrt (n / quad (searchCov s.p s.sol) (g * gg))) •
        (searchCov s.p s.sol).mulVec (g * gg))) ∧
      (¬ (s.p.tpa = 2 ∧ s.niter > 0) → ∀ i, i ≠ 0 → pop[i]? = pop0[i]?) := by
  unfold Strat.ask at h
  obtain ⟨s1, h1, h⟩ := Out.bind_eq_ok.1 h
  obtain ⟨⟨pop1, s2⟩, h2, h⟩ := Out.bind_eq_ok.1 h
  obtain ⟨⟨pop2, s3⟩, h3, h⟩ := Out.bind_eq_ok.1 h
  obtain ⟨⟨pop3, s4⟩, h4, h⟩ := Out.bind_eq_ok.1 h
  obtain ⟨pop4, h5, h⟩ := Out.bind_eq_ok.1 h
  injection h with h; injection h with h6 h7
  subst h6; subst h7
  obtain ⟨es, ei, ue, e1⟩ := Strat.askPrepare_frame h1
  obtain ⟨e2, l2⟩ := Strat.askSample_frame h2
  obtain ⟨⟨nz, x1, x2, p1, p2, e4⟩, l4, i4⟩ := Strat.askTpa_frame h4
  have hfix : pop4 = pop3 := by
    rw [hfx] at h5
    have : pop3.mapM (setFixed (n := n) []) = .ok pop3 := by
      have : (setFixed (n := n) []) = pure := rfl
      rw [this, List.mapM_pure, List.map_id']
      rfl
    rw [this] at h5
    injection h5 with h5
    exact h5.symm
  have ep : s2.p = s.p := by rw [e2, e1]
  obtain ⟨hw3, hn3⟩ : s3.p = s.p ∧ s3.niter = s.niter := by
    obtain ⟨⟨c, e3⟩, _⟩ := Strat.askGradient_frame h3
    rw [e3, e2, e1]
    exact ⟨rfl, rfl⟩
  -- two-point adaptation leaves the first column
  have h30 : pop3[0]? = pop2[0]? := by
    unfold Strat.askTpa at h4
    by_cases c1 : s3.p.tpa = 2 ∧ s3.niter > 0
    · rw [if_pos c1] at h4
      by_cases c2 : s3.sol.sigma = 0
      · rw [if_pos c2] at h4; cases h4
      rw [if_neg c2] at h4
      obtain ⟨nrm, _, h4⟩ := Out.bind_eq_ok.1 h4
      have hwt : s3.p.withGradient = true := by rw [hw3, hw]
      simp only [hwt, if_true] at h4
      split_ifs at h4
      injection h4 with h4; injection h4 with h4 _
      rw [← h4]
      simp
    · rw [if_neg c1] at h4
      injection h4 with h4; injection h4 with h4 _
      rw [h4]
  have hpop0 : (s.askPrepare env >>= fun s1 => s1.askSample env >>= fun q => pure q.1) = .ok pop1 := by
    rw [h1, Out.ok_bind, h2]
    rfl
  unfold Strat.askGradient at h3
  rw [if_neg (by rw [ep, hw]; simp)] at h3
  obtain ⟨ph, hph, h3⟩ := Out.bind_eq_ok.1 h3
  obtain ⟨⟨sb, g⟩, hgr, h3⟩ := Out.bind_eq_ok.1 h3
  obtain ⟨gg, hgg, h3⟩ := Out.bind_eq_ok.1 h3
  simp only at h3 hgg
  have hm : s2.sol.xmean = s.sol.xmean := by rw [e2, e1]
  have hsg : s2.sol.sigma = s.sol.sigma := by rw [e2, e1]
  have hcov : s2.sol.cov = s.sol.cov := by rw [e2, e1]
  have hsc : s2.sol.sepcov = s.sol.sepcov := by rw [e2, e1]
  rw [hm] at hph hgg h3
  rw [ep] at hph
  rw [hfix]
  refine ⟨s2, sb, pop1, ph, g, gg, by rw [e2, e1], ep, by rw [e2, e1], by rw [e2, e1], hph, hgr, hgg, ?_⟩
  have hs4 : s4.calls = s3.calls ∧ s4.nevals = s3.nevals := by rw [e4]; exact ⟨rfl, rfl⟩
  rw [hs4.1, hs4.2]
  by_cases h0 : g * gg = 0
  · rw [if_pos h0] at h3
    injection h3 with h3; injection h3 with h31 h32
    refine ⟨by rw [h32], by rw [h32], hpop0, fun _ => by rw [h30, h31], fun h => absurd h0 h, fun ht i hi => ?_⟩
    rw [(i4 (by rw [hw3, hn3]; exact ht)).1, h31]
  rw [if_neg h0] at h3
  by_cases hp : pop1 = []
  · rw [if_pos hp] at h3; cases h3
  rw [if_neg hp] at h3
  have hlen : 0 < pop1.length := List.length_pos_iff.2 hp
  suffices hfin : pop2 = pop1.set 0 (s.sol.xmean - (s.sol.sigma * Real.sqrt (n / quad (searchCov s.p s.sol) (g * gg))) •
        (searchCov s.p s.sol).mulVec (g * gg)) ∧ s3 = sb by
    obtain ⟨f1, f2⟩ := hfin
    refine ⟨by rw [f2], by rw [f2], hpop0, fun h => absurd h h0, fun _ => ?_, fun ht i hi => ?_⟩
    · rw [h30, f1]
      simp [hlen]
    · rw [(i4 (by rw [hw3, hn3]; exact ht)).1, f1]
      rw [List.getElem?_set_ne (by omega)]
  by_cases hs : s.p.sep = true
  · rw [if_neg (by rw [ep, hs]; simp), if_pos (fun i => by rw [hsc]; exact (sep_pos hC hs i).le)] at h3
    split_ifs at h3 with hq
    injection h3 with h3; injection h3 with h31 h32
    refine ⟨?_, h32.symm⟩
    rw [← h31, hsg, hsc]
    have hCe : searchCov s.p s.sol = diagonal s.sol.sepcov := by unfold searchCov; rw [if_pos hs]
    have hqe : vnorm (fun i => Real.sqrt (s.sol.sepcov i) * (g * gg) i) = Real.sqrt (quad (diagonal s.sol.sepcov) (g * gg)) := by
      unfold vnorm sqNorm
      rw [quad_diagonal]
      congr 1
      refine Finset.sum_congr rfl fun i _ => ?_
      rw [mul_mul_mul_comm, Real.mul_self_sqrt (sep_pos hC hs i).le]
      ring
    rw [hCe, hqe, Real.sqrt_div (Nat.cast_nonneg n)]
    congr 3
    funext i
    rw [mulVec_diagonal]
    rfl
  · have hs' : s.p.sep = false := by simpa using hs
    have hCe : searchCov s.p s.sol = s.sol.cov := by unfold searchCov; rw [if_neg hs]
    rw [hCe] at hC
    rw [if_pos (by rw [ep, hs', hvd]; rfl)] at h3
    have hes : s2.es.eig = some (env.eig.solve s.sol.cov) := by
      unfold Strat.askPrepare at h1
      rw [if_pos (by simp [hs', hvd]), if_pos (by tauto)] at h1
      split_ifs at h1
      injection h1 with h1
      rw [e2, ← h1]
    rw [hes] at h3
    simp only at h3
    rw [if_pos (fun i => (eig_pos env.eig hC i).le)] at h3
    split_ifs at h3 with hq
    injection h3 with h3; injection h3 with h31 h32
    refine ⟨?_, h32.symm⟩
    rw [← h31, hsg, hcov, sqrtMul_sq (fun i => (eig_pos env.eig hC i).le) (env.eig.orth _ hC.symm), env.eig.decomp _ hC.symm,
      hCe]

/-- The first candidate is the steepest point. -/
theorem ask_steepest {env : Env n} {s s' : Strat n} {pop : List (Vec n)} {F : Vec n → ℝ} {c b a : Vec n}
    (hvd : s.p.vd = false) (hlz : s.niter = 0 ∨ s.p.lazyUpdate = false) (hw : s.p.withGradient = true)
    (hfx : s.p.fixedP = []) (hC : PD (searchCov s.p s.sol)) (hsg : 0 < s.sol.sigma)
    (hQ : QuadraticNear s.p.gp s.sol.xmean c b a)
    (hG : ∀ (sa sb : Strat n) (ph g : Vec n), sa.calls = s.calls → sa.p = s.p → sa.negate = s.negate →
      phenoV s.p.gp s.sol.xmean = .ok ph → sa.gradf env ph = .ok (sb, g) →
      ∃ L : Vec n →L[ℝ] ℝ, HasFDerivAt F L ph ∧ ∀ i, L (Pi.single i 1) = g i)
    (h : s.ask env = .ok (pop, s')) (hne : fderiv ℝ (fun x => F (c * x * x + b * x + a)) s.sol.xmean ≠ 0) :
    ∃ x, pop[0]? = some x ∧
      SteepestPoint (fun x => F (c * x * x + b * x + a)) s.sol.xmean s.sol.sigma (searchCov s.p s.sol) x := by
  obtain ⟨sa, sb, pop0, ph, g, gg, h1, h2, h3, h4, h5, h6, h7, h8, h9, h10, h11, h12, h13⟩ := ask_first hvd hlz hw hfx hC h
  obtain ⟨L, hL, hLg⟩ := hG sa sb ph g h1 h2 h3 h5 h6
  have hpb : sb.p = s.p := by
    obtain ⟨cs, e⟩ := Strat.gradf_frame h6
    rw [e, ← h2]
  obtain ⟨k1, k2⟩ := gradgp_quadratic (s := sb) (by rw [hpb]; exact hQ)
  rw [hpb] at k1
  rw [k1] at h5
  injection h5 with h5
  rw [k2] at h7
  injection h7 with h7
  rw [← h5] at hL
  obtain ⟨L', hL', hLv⟩ := chain_quadratic hL hLg
  rw [h7] at hLv
  have h0 : g * gg ≠ 0 := by
    intro h0
    apply hne
    rw [hL'.fderiv]
    ext v
    rw [hLv, h0, zero_dotProduct]
    rfl
  exact ⟨_, h12 h0, steepest_of hL' hLv h0 hC hsg⟩

end Libcmaes
