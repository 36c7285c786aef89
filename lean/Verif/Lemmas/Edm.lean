import Verif.Spec.Edm
import Verif.Lemmas.Tell
import Verif.Lemmas.StopRun
import Verif.Lemmas.Published
import Mathlib.Analysis.Calculus.Deriv.Comp
import Mathlib.Analysis.Calculus.Deriv.Mul
import Mathlib.Analysis.Calculus.Deriv.Add

/-!
# The expected distance to the minimum
-/

namespace Libcmaes

open Matrix Spec

variable {n : ℕ}

/-- The chain rule: the slopes are `σ Aᵀ (a g)`, `g` the gradient in phenotype space. -/
theorem slopes_affine {F : Vec n → ℝ} {m a b g : Vec n} {sigma : ℝ} {A : Mat n} {L : Vec n →L[ℝ] ℝ}
    (h : HasFDerivAt F L (a * m + b)) (hg : ∀ i, L (Pi.single i 1) = g i) :
    slopes (fun x => F (a * x + b)) m sigma A = sigma • Aᵀ.mulVec (a * g) := by
  have hL : ∀ x, L x = ∑ i, x i * g i := by
    intro x
    conv_lhs => rw [show x = ∑ i, x i • Pi.single i (1 : ℝ) by
      ext k; simp [Finset.sum_apply, Pi.single_apply]]
    rw [map_sum]
    exact Finset.sum_congr rfl fun i _ => by rw [map_smul, hg, smul_eq_mul]
  funext j
  unfold slopes
  set d : Vec n := fun i => a i * (sigma * A i j) with hd
  have e : (fun t : ℝ => F (a * (m + sigma • A.mulVec (Pi.single j t)) + b)) =
      fun t : ℝ => F ((a * m + b) + t • d) := by
    funext t
    congr 1
    funext i
    simp only [Pi.add_apply, Pi.mul_apply, Pi.smul_apply, smul_eq_mul, mulVec_single, hd, MulOpposite.smul_eq_mul_unop,
      Matrix.col_apply, MulOpposite.unop_op]
    ring
  rw [e]
  have hl : HasDerivAt (fun t : ℝ => (a * m + b) + t • d) d 0 := by
    have := ((hasDerivAt_id (0 : ℝ)).smul_const d).const_add (a * m + b)
    simpa using this
  have h0 : HasFDerivAt F L ((fun t : ℝ => (a * m + b) + t • d) 0) := by simpa using h
  have := (h0.comp_hasDerivAt (0 : ℝ) hl).deriv
  refine this.trans ?_
  rw [hL]
  simp only [Pi.smul_apply, smul_eq_mul, mulVec, dotProduct, transpose_apply, Pi.mul_apply, hd, Finset.mul_sum]
  exact Finset.sum_congr rfl fun i _ => by ring

/-- `gradgp` of an affine transform. -/
theorem gradgp_affine {s : Strat n} {a b : Vec n} (h : AffinePheno s.p.gp a b) (x : Vec n) : s.gradgp x = .ok a := by
  unfold Strat.gradgp
  rw [h, h, Out.ok_bind, Out.ok_bind]
  refine congrArg Except.ok (funext fun i => ?_)
  have : 0 < Strat.gradEps x i := by
    unfold Strat.gradEps
    have := abs_nonneg (x i)
    positivity
  simp only [Pi.add_apply, Pi.mul_apply, Pi.sub_apply]
  rw [div_eq_iff (by positivity)]
  ring

theorem len_smul (c : ℝ) (hc : 0 ≤ c) (x : Vec n) : len (c • x) = c * len x := by
  unfold len
  rw [← Real.sqrt_sq hc, ← Real.sqrt_mul (sq_nonneg c), Finset.mul_sum, Real.sqrt_sq hc]
  congr 1
  exact Finset.sum_congr rfl fun i _ => by rw [Pi.smul_apply, smul_eq_mul, mul_pow]

/-- A change of coordinates by an orthogonal matrix keeps lengths. -/
theorem len_orth {B : Mat n} (h : Bᵀ * B = 1) (x : Vec n) : len (B.mulVec x) = len x := by
  unfold len
  congr 1
  have : ∀ y : Vec n, ∑ i, y i ^ 2 = y ⬝ᵥ y := fun y => by
    unfold dotProduct; exact Finset.sum_congr rfl fun i _ => sq _
  rw [this, this, dotProduct_mulVec, ← mulVec_transpose, mulVec_mulVec, h, one_mulVec]

theorem edm_factor {l : ℕ} : (n : ℝ) / (10 * (Real.sqrt (l / 4 + 0.5) - 1)) =
    n / (10 * (Real.sqrt (l / 4 + 1 / 2) - 1)) := by
  rw [show (0.5 : ℝ) = 1 / 2 by norm_num]

theorem edm_den_pos {l : ℕ} (h : 2 < l) : 0 < 10 * (Real.sqrt (l / 4 + 1 / 2) - 1) := by
  have hl : (3 : ℝ) ≤ l := by exact_mod_cast h
  have : 1 < Real.sqrt (l / 4 + 1 / 2) := by
    apply Real.lt_sqrt_of_sq_lt
    linarith
  linarith

/-- What `edm` stores when the user gives the gradient and the transform is affine. -/
theorem edm_value {env : Env n} {s s' : Strat n} {G : ℕ → Vec n → Vec n} {a b : Vec n} (hG : env.gfunc = some G)
    (ha : AffinePheno s.p.gp a b) (h : s.edm env = .ok s') :
    10 * (Real.sqrt ((s.p.lambda : ℝ) / 4 + 0.5) - 1) ≠ 0 ∧ ∃ nrm,
      s'.sol.edm = (n : ℝ) / (10 * (Real.sqrt (s.p.lambda / 4 + 0.5) - 1)) * (s.sol.sigma * nrm) ∧
      (s.p.sep = false → s.sol.hasLeig = true ∧ (∀ i, 0 ≤ s.sol.leigenvalues i) ∧
        nrm = vnorm (s.sol.leigenvectors.mulVec fun i => Real.sqrt (s.sol.leigenvalues i) *
          (G s.calls.length (a * s.sol.xmean + b) * a) i)) ∧
      (s.p.sep = true → (∀ i, 0 ≤ s.sol.sepcov i) ∧
        nrm = vnorm fun i => Real.sqrt (s.sol.sepcov i) * (G s.calls.length (a * s.sol.xmean + b) * a) i) := by
  unfold Strat.edm at h
  by_cases hd : 10 * (Real.sqrt ((s.p.lambda : ℝ) / 4 + 0.5) - 1) = 0
  · rw [if_pos hd] at h; cases h
  rw [if_neg hd, ha, Out.ok_bind] at h
  unfold Strat.gradf at h
  rw [hG] at h
  simp only [Out.ok_bind, gradgp_affine ha] at h
  refine ⟨hd, ?_⟩
  obtain ⟨nrm, h1, h2⟩ := Out.bind_eq_ok.1 h
  injection h2 with h2
  refine ⟨nrm, by rw [← h2], fun hs => ?_, fun hs => ?_⟩
  · rw [if_pos hs] at h1
    split_ifs at h1 with c1 c2
    injection h1 with h1
    push Not at c1
    exact ⟨by cases hq : s.sol.hasLeig; exact absurd hq c1.1; rfl, c2, h1.symm⟩
  · rw [if_neg (by rw [hs]; simp)] at h1
    split_ifs at h1 with c1 c2
    injection h1 with h1
    exact ⟨c2, h1.symm⟩

/-- After a generation of the full model, the stored eigenpairs are those of the sampler. -/
theorem generation_leig {env : Env n} {s s' : Strat n} (hs : s.p.sep = false) (hv : s.p.vd = false)
    (h : s.generation env = .ok s') :
    ∃ e, s'.es.eig = some e ∧ s'.sol.hasLeig = true ∧ s'.sol.leigenvalues = e.1 ∧ s'.sol.leigenvectors = e.2 := by
  obtain ⟨_, hrun⟩ := Strat.generation_run h
  have hp := (run_p hrun).1
  unfold Strat.generation at h
  obtain ⟨⟨pop, t1⟩, ha, h⟩ := Out.bind_eq_ok.1 h
  obtain ⟨phen, _, h⟩ := Out.bind_eq_ok.1 h
  obtain ⟨t2, he, h⟩ := Out.bind_eq_ok.1 h
  obtain ⟨t3, ht, h⟩ := Out.bind_eq_ok.1 h
  injection h with h
  obtain ⟨u1, tS, u3, u4, _, _, _, _, hfin⟩ := Strat.tell_ok ht
  unfold Strat.tellFinish at hfin
  simp only at hfin
  by_cases hn : n = 0
  · rw [if_pos hn] at hfin; cases hfin
  rw [if_neg hn] at hfin
  by_cases hc : (!t2.p.sep && !t2.p.vd) = true
  · rw [if_pos hc] at hfin
    cases hq : t2.es.eig with
    | none => rw [hq] at hfin; cases hfin
    | some e =>
      rw [hq] at hfin
      injection hfin with hfin
      rw [← h, ← hfin]
      exact ⟨e, hq, rfl, rfl, rfl⟩
  · rw [if_neg hc] at hfin
    injection hfin with hfin
    exfalso
    apply hc
    have : t2.p = s.p := by
      rw [← hp, ← h, ← hfin]; rfl
    rw [this, hs, hv]; rfl

/-- The same along a run of the loop. -/
theorem genRun_leig {env : Env n} {s t : Strat n} {k : ℕ} (hs : s.p.sep = false) (hv : s.p.vd = false)
    (h : GenRun env s k t) : t.p = s.p ∧ (k ≠ 0 →
    ∃ e, t.es.eig = some e ∧ t.sol.hasLeig = true ∧ t.sol.leigenvalues = e.1 ∧ t.sol.leigenvectors = e.2) := by
  induction h with
  | refl => exact ⟨rfl, fun h => absurd rfl h⟩
  | stop _ i ih =>
    obtain ⟨k, r, e⟩ := Strat.stop_frame i
    rw [e]
    exact ih
  | turn _ i ih =>
    obtain ⟨a, _⟩ := ih
    obtain ⟨_, hrun⟩ := Strat.generation_run i
    exact ⟨by rw [(run_p hrun).1, a], fun _ => generation_leig (by rw [a]; exact hs) (by rw [a]; exact hv) i⟩

/-- Weighing coordinates with factors between two bounds. -/
theorem len_scaled {d x : Vec n} {lo hi : ℝ} (h0 : 0 ≤ lo) (h : ∀ i, lo ≤ d i ∧ d i ≤ hi) :
    Real.sqrt lo * len x ≤ len (fun i => Real.sqrt (d i) * x i) ∧
      len (fun i => Real.sqrt (d i) * x i) ≤ Real.sqrt hi * len x := by
  have e : ∀ i, (Real.sqrt (d i) * x i) ^ 2 = d i * x i ^ 2 := fun i => by
    rw [mul_pow, Real.sq_sqrt (h0.trans (h i).1)]
  unfold len
  rw [← Real.sqrt_mul h0]
  constructor
  · apply Real.sqrt_le_sqrt
    rw [Finset.mul_sum]
    exact Finset.sum_le_sum fun i _ => by
      rw [e]; exact mul_le_mul_of_nonneg_right (h i).1 (sq_nonneg _)
  · by_cases hn : Nonempty (Fin n)
    · have hhi : 0 ≤ hi := hn.elim fun i => h0.trans ((h i).1.trans (h i).2)
      rw [← Real.sqrt_mul hhi]
      apply Real.sqrt_le_sqrt
      rw [Finset.mul_sum]
      exact Finset.sum_le_sum fun i _ => by
        rw [e]; exact mul_le_mul_of_nonneg_right (h i).2 (sq_nonneg _)
    · have : ∀ f : Fin n → ℝ, ∑ i, f i = 0 := fun f => by
        rw [not_nonempty_iff] at hn
        exact Fintype.sum_empty f
      rw [this, this]; simp

/-- With at least two parents, the rank-mu update has a positive rate. -/
theorem make_cmu_pos {x0 : Vec n} {sigma : ℝ} {lambda : ℤ} {seed clock : ℕ} {gp : GenoPheno} {p : Params n}
    (h : Params.make x0 sigma lambda seed clock gp = .ok p) (hmu : 2 ≤ p.mu) : 0 < p.cmu := by
  unfold Params.make at h
  obtain ⟨l, -, h⟩ := Out.bind_eq_ok.1 h
  have hs := initializeParameters_spec h
  have h1 : 1 < p.muw := by
    rw [hs.muw]
    unfold muwOf
    rw [lt_div_iff₀ (sqRaw_pos (by omega)), one_mul, Finset.sum_mul]
    apply Finset.sum_lt_sum_of_nonempty ⟨0, Finset.mem_range.2 (by omega)⟩
    intro i hi
    have hi' := Finset.mem_range.1 hi
    refine mul_lt_mul_of_pos_left ?_ (rawWeight_pos hi')
    obtain ⟨j, hj, hne⟩ : ∃ j < p.mu, j ≠ i := by
      by_cases h0 : i = 0
      · exact ⟨1, by omega, by omega⟩
      · exact ⟨0, by omega, by omega⟩
    exact Finset.single_lt_sum hne hi (Finset.mem_range.2 hj) (rawWeight_pos hj)
      fun k hk _ => (rawWeight_pos (Finset.mem_range.1 hk)).le
  have h3 := hs.c1_lt
  rw [hs.cmu]
  refine lt_min (by linarith) ?_
  have h0 : 0 < p.muw := by linarith
  have e : p.muw - 2 + 1 / p.muw = (p.muw - 1) ^ 2 / p.muw := by field_simp; ring
  rw [e]
  have : 0 < p.muw - 1 := by linarith
  positivity

end Libcmaes
