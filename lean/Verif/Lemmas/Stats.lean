import Verif.Model.Stats
import Verif.Spec.Stats
import Verif.Lemmas.Quad
import Verif.Lemmas.Witness
import Mathlib.Tactic.FieldSimp

/-! # Covariances, correlations and standard deviations -/

namespace Libcmaes

open Spec Matrix Finset

variable {n : ℕ}

/-- `x^T C x` on the plane of two coordinates. -/
theorem quad_two {C : Mat n} (hC : C.IsSymm) (i j : Fin n) (a b : ℝ) :
    quad C (Pi.single i a + Pi.single j b) = a ^ 2 * C i i + 2 * a * b * C i j + b ^ 2 * C j j := by
  have hs : C j i = C i j := by
    have := congrFun (congrFun hC i) j
    simpa using this
  unfold quad
  rw [mulVec_add, add_dotProduct, dotProduct_add, dotProduct_add]
  rw [mulVec_single, mulVec_single, single_dotProduct, single_dotProduct, single_dotProduct, single_dotProduct]
  simp [hs]
  ring

theorem quad_single (C : Mat n) (i : Fin n) (a : ℝ) : quad C (Pi.single i a) = a ^ 2 * C i i := by
  unfold quad
  rw [mulVec_single, single_dotProduct]
  simp
  ring

theorem Spec.PD.diag_pos {C : Mat n} (h : PD C) (i : Fin n) : 0 < C i i := by
  have := h.pos (Pi.single i 1) (by
    intro he
    have := congrFun he i
    simp at this)
  rw [quad_single] at this
  linarith

theorem Spec.PD.minor_pos {C : Mat n} (h : PD C) {i j : Fin n} (hij : i ≠ j) :
    C i j ^ 2 < C i i * C j j := by
  have hj := h.diag_pos j
  have := h.pos (Pi.single i (C j j) + Pi.single j (-C i j)) (by
    intro he
    have := congrFun he i
    simp [hij] at this
    exact hj.ne' this)
  rw [quad_two h.symm i j] at this
  have h2 : 0 < C j j * (C i i * C j j - C i j ^ 2) := by nlinarith
  have := pos_of_mul_pos_right h2 hj.le
  linarith

theorem sqrtV_pos {d : Vec n} (h : ∀ i, 0 < d i) : sqrtV d = .ok fun i => Real.sqrt (d i) := by
  unfold sqrtV
  rw [if_pos fun i => (h i).le]

theorem corrOf_pd {C : Mat n} (h : PD C) :
    corrOf C = .ok fun i j => C i j * (Real.sqrt (C i i))⁻¹ * (Real.sqrt (C j j))⁻¹ := by
  unfold corrOf
  rw [sqrtV_pos h.diag_pos, Out.ok_bind]
  unfold invV
  rw [if_pos fun i => (Real.sqrt_pos.2 (h.diag_pos i)).ne', Out.ok_bind]
  rfl

theorem isCorrelation_of_pd {C : Mat n} (h : PD C) :
    IsCorrelation C fun i j => C i j * (Real.sqrt (C i i))⁻¹ * (Real.sqrt (C j j))⁻¹ := by
  have hs : ∀ i, 0 < Real.sqrt (C i i) := fun i => Real.sqrt_pos.2 (h.diag_pos i)
  have hq : ∀ i, Real.sqrt (C i i) * Real.sqrt (C i i) = C i i := fun i => Real.mul_self_sqrt (h.diag_pos i).le
  have hd : ∀ i, C i i * (Real.sqrt (C i i))⁻¹ * (Real.sqrt (C i i))⁻¹ = 1 := fun i => by
    have := (hs i).ne'
    field_simp
    rw [pow_two]; exact (hq i).symm
  have hst : ∀ i j, i ≠ j → -1 < C i j * (Real.sqrt (C i i))⁻¹ * (Real.sqrt (C j j))⁻¹ ∧
      C i j * (Real.sqrt (C i i))⁻¹ * (Real.sqrt (C j j))⁻¹ < 1 := by
    intro i j hij
    have hm := h.minor_pos hij
    have h1 : |C i j| < Real.sqrt (C i i) * Real.sqrt (C j j) := by
      rw [← Real.sqrt_mul (h.diag_pos i).le, ← Real.sqrt_sq_eq_abs]
      exact Real.sqrt_lt_sqrt (sq_nonneg _) hm
    rw [← abs_lt, mul_assoc, ← mul_inv, ← div_eq_mul_inv, abs_div, abs_of_pos (mul_pos (hs i) (hs j)),
      div_lt_one (mul_pos (hs i) (hs j))]
    exact h1
  refine ⟨fun i j => ?_, ?_, hd, fun i j => ?_, hst, ?_, ?_⟩
  · have := (hs i).ne'; have := (hs j).ne'
    field_simp
  · ext i j
    show C j i * (Real.sqrt (C j j))⁻¹ * (Real.sqrt (C i i))⁻¹ = C i j * (Real.sqrt (C i i))⁻¹ * (Real.sqrt (C j j))⁻¹
    have : C j i = C i j := congrFun (congrFun h.symm i) j
    rw [this]; ring
  · by_cases hij : i = j
    · subst hij; rw [hd i]; norm_num
    · exact ⟨(hst i j hij).1.le, (hst i j hij).2.le⟩
  · ext i j
    show C j i * (Real.sqrt (C j j))⁻¹ * (Real.sqrt (C i i))⁻¹ = C i j * (Real.sqrt (C i i))⁻¹ * (Real.sqrt (C j j))⁻¹
    have : C j i = C i j := congrFun (congrFun h.symm i) j
    rw [this]; ring
  · intro x hx
    have he : quad (fun i j => C i j * (Real.sqrt (C i i))⁻¹ * (Real.sqrt (C j j))⁻¹) x =
        quad C (fun i => (Real.sqrt (C i i))⁻¹ * x i) := by
      unfold quad dotProduct mulVec dotProduct
      refine sum_congr rfl fun i _ => ?_
      rw [mul_sum, mul_sum]
      refine sum_congr rfl fun j _ => ?_
      ring
    rw [he]
    refine h.pos _ fun h0 => hx ?_
    ext i
    have := congrFun h0 i
    simp only [Pi.zero_apply] at this ⊢
    rcases mul_eq_zero.1 this with h1 | h1
    · exact absurd h1 (inv_pos.2 (hs i)).ne'
    · exact h1

theorem vdCov_apply {m : ℕ} (d v : Fin m → ℝ) (i j : Fin m) :
    vdCov d v i j = d i * ((1 : Matrix (Fin m) (Fin m) ℝ) i j + v i * v j) * d j := by
  unfold vdCov
  rw [mul_diagonal, diagonal_mul]
  rfl

theorem quad_vdCov (d v x : Vec n) :
    quad (vdCov d v) x = ∑ i, (d i * x i) ^ 2 + (∑ i, v i * (d i * x i)) ^ 2 := by
  have h : vdCov d v = diagonal d * (1 + vecMulVec v v) * (diagonal d)ᵀ := by
    rw [diagonal_transpose]; rfl
  rw [h, quad_conj, quad_add, quad_one, quad_vecMulVec, diagonal_transpose]
  have e : (diagonal d).mulVec x = fun i => d i * x i := by ext i; rw [mulVec_diagonal]
  rw [e]
  unfold dotProduct
  congr 1
  exact sum_congr rfl fun i _ => by ring

theorem vdCov_symm (d v : Vec n) : (vdCov d v).IsSymm := by
  ext i j
  show vdCov d v j i = vdCov d v i j
  rw [vdCov_apply, vdCov_apply]
  by_cases h : i = j
  · subst h; rfl
  · rw [one_apply_ne h, one_apply_ne (Ne.symm h)]; ring

theorem vdCov_pd (d v : Vec n) : PD (vdCov d v) ↔ ∀ i, d i ≠ 0 := by
  constructor
  · intro h i hi
    have := h.diag_pos i
    rw [vdCov_apply, hi] at this
    simp at this
  · intro h
    refine ⟨vdCov_symm d v, fun x hx => ?_⟩
    rw [quad_vdCov]
    have : ∃ i, x i ≠ 0 := by
      by_contra hc
      push Not at hc
      exact hx (funext hc)
    obtain ⟨i, hi⟩ := this
    have h1 : 0 < ∑ i, (d i * x i) ^ 2 :=
      sum_pos' (fun i _ => sq_nonneg _) ⟨i, mem_univ i, by have := mul_ne_zero (h i) hi; positivity⟩
    have h2 := sq_nonneg (∑ i, v i * (d i * x i))
    linarith

theorem vdCov_diag (d v : Vec n) (i : Fin n) : vdCov d v i i = (1 + v i * v i) * (d i * d i) := by
  rw [vdCov_apply, one_apply_eq]; ring

theorem sqrt_vd_diag (d v : Vec n) (i : Fin n) :
    Real.sqrt (vdCov d v i i) = Real.sqrt (1 + v i * v i) * |d i| := by
  rw [vdCov_diag, Real.sqrt_mul (by nlinarith [mul_self_nonneg (v i)]), Real.sqrt_mul_self_eq_abs]

/-- `stds` with the identity transform and no flag. -/
theorem stds_full {s : Sol n} (hc : s.hasCov = true) (h : ∀ i, 0 ≤ s.cov i i) :
    s.stds GenoPheno.plain false false = .ok fun i => Real.sqrt (s.cov i i) := by
  unfold Sol.stds Sol.rawStds
  rw [phenoV_plain, Out.ok_bind]
  simp only [Bool.not_false, Bool.and_self, if_true, hc]
  unfold sqrtV
  rw [if_pos h, Out.ok_bind, phenoV_plain, Out.ok_bind]
  show Except.ok _ = Except.ok _
  congr 1
  ext i
  rw [add_sub_cancel_left, abs_of_nonneg (Real.sqrt_nonneg _)]

theorem stds_sep {s : Sol n} {vd : Bool} (hc : s.hasSep = true) (h : ∀ i, 0 ≤ s.sepcov i) :
    s.stds GenoPheno.plain true vd = .ok fun i => Real.sqrt (s.sepcov i) := by
  unfold Sol.stds Sol.rawStds
  rw [phenoV_plain, Out.ok_bind]
  simp only [Bool.not_true, Bool.false_and, if_true, hc, Bool.false_eq_true, if_false]
  unfold sqrtV
  rw [if_pos h, Out.ok_bind, phenoV_plain, Out.ok_bind]
  show Except.ok _ = Except.ok _
  congr 1
  ext i
  rw [add_sub_cancel_left, abs_of_nonneg (Real.sqrt_nonneg _)]

theorem stds_vd {s : Sol n} (hc : s.hasV = true) (hs : s.hasSep = true) :
    s.stds GenoPheno.plain false true = .ok fun i => Real.sqrt (vdCov s.sepcov s.v i i) := by
  unfold Sol.stds Sol.rawStds
  rw [phenoV_plain, Out.ok_bind]
  simp only [Bool.not_true, Bool.and_false, hc, hs, Bool.false_eq_true, if_false, Bool.and_self, if_true]
  rw [sqrtV_pos fun i => by nlinarith [mul_self_nonneg (s.v i)], Out.ok_bind, Out.pure_eq, Out.ok_bind, phenoV_plain,
    Out.ok_bind]
  show Except.ok _ = Except.ok _
  congr 1
  ext i
  rw [add_sub_cancel_left, abs_mul, abs_of_nonneg (Real.sqrt_nonneg _), sqrt_vd_diag]

theorem Strat.new_sigma {env : Env n} {kind : CovKind} {p : Params n} {s : Strat n}
    (h : Strat.new env kind p = .ok s) (hp : 0 < p.sigmaInit) : s.sol.sigma = p.sigmaInit := by
  unfold Strat.new at h
  obtain ⟨⟨p', sol⟩, hm, h⟩ := Out.bind_eq_ok.1 h
  injection h with h
  subst h
  obtain ⟨-, -, -, -, h5, -⟩ := Sol.make_eq_ok hm
  show sol.sigma = _
  rw [h5, if_pos hp]

end Libcmaes
