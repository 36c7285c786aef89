import Verif.Spec.Vd
import Verif.Lemmas.Published
import Verif.Lemmas.Quad

/-! # The Fisher information of the VD model -/

namespace Libcmaes

open Spec Matrix Finset

variable {n : ℕ}

/-- `(1 + v vᵀ)⁻¹`. -/
noncomputable def vdW (v : Vec n) : Mat n := 1 - (1 + v ⬝ᵥ v)⁻¹ • vecMulVec v v

theorem vdW_mul (v : Vec n) : vdW v * (1 + vecMulVec v v) = 1 := by
  have h : 1 + v ⬝ᵥ v ≠ 0 := by have := dot_self_nonneg v; positivity
  unfold vdW
  rw [sub_mul, one_mul, smul_mul_assoc, mul_add, mul_one, vecMulVec_mul_vecMulVec]
  have : (1 + v ⬝ᵥ v)⁻¹ • (vecMulVec v v + vecMulVec v ((v ⬝ᵥ v) • v)) = vecMulVec v v := by
    rw [vecMulVec_smul]
    ext i j
    show (1 + v ⬝ᵥ v)⁻¹ * (v i * v j + (v ⬝ᵥ v) * (v i * v j)) = v i * v j
    field_simp
  rw [this]
  abel

theorem mul_vdW (v : Vec n) : (1 + vecMulVec v v) * vdW v = 1 :=
  mul_eq_one_comm.1 (vdW_mul v)

theorem vdW_symm (v : Vec n) : (vdW v)ᵀ = vdW v := by
  unfold vdW
  rw [transpose_sub, transpose_smul, transpose_one, transpose_vecMulVec]

theorem vdW_mulVec (v x : Vec n) : (vdW v).mulVec x = fun k => x k - v k * (v ⬝ᵥ x) / (1 + v ⬝ᵥ v) := by
  funext k
  unfold vdW
  rw [sub_mulVec, one_mulVec, smul_mulVec, vecMulVec_mulVec]
  simp only [Pi.sub_apply, Pi.smul_apply, smul_eq_mul, MulOpposite.smul_eq_mul_unop, MulOpposite.unop_op]
  ring

theorem vdW_mulVec_self (v : Vec n) : (vdW v).mulVec v = (1 + v ⬝ᵥ v)⁻¹ • v := by
  have h : 1 + v ⬝ᵥ v ≠ 0 := by have := dot_self_nonneg v; positivity
  rw [vdW_mulVec]
  funext k
  simp only [Pi.smul_apply, smul_eq_mul]
  field_simp
  ring

theorem vdMat_inv {d : Vec n} (hd : ∀ k, d k ≠ 0) (v : Vec n) :
    (vdMat d v)⁻¹ = diagonal (fun k => (d k)⁻¹) * vdW v * diagonal (fun k => (d k)⁻¹) := by
  have h1 : diagonal d * diagonal (fun k => (d k)⁻¹) = (1 : Mat n) := by
    rw [diagonal_mul_diagonal, ← diagonal_one]
    exact congrArg diagonal (funext fun k => mul_inv_cancel₀ (hd k))
  apply inv_eq_right_inv
  unfold vdMat
  calc diagonal d * (1 + vecMulVec v v) * diagonal d * (diagonal (fun k => (d k)⁻¹) * vdW v * diagonal (fun k => (d k)⁻¹))
      = diagonal d * (1 + vecMulVec v v) * (diagonal d * diagonal (fun k => (d k)⁻¹)) * vdW v
          * diagonal (fun k => (d k)⁻¹) := by simp only [Matrix.mul_assoc]
    _ = diagonal d * ((1 + vecMulVec v v) * vdW v) * diagonal (fun k => (d k)⁻¹) := by
        rw [h1]; simp only [Matrix.mul_assoc, Matrix.one_mul]
    _ = 1 := by rw [mul_vdW, Matrix.mul_one, h1]

/-- The Fisher information, in coordinates scaled by `d`. -/
theorem fisher_scaled {d : Vec n} (hd : ∀ k, d k ≠ 0) (v : Vec n) (X Y : Mat n) :
    fisher (vdMat d v) (diagonal d * X * diagonal d) (diagonal d * Y * diagonal d) =
      1 / 2 * trace (vdW v * X * vdW v * Y) := by
  have h1 : diagonal (fun k => (d k)⁻¹) * diagonal d = (1 : Mat n) := by
    rw [diagonal_mul_diagonal, ← diagonal_one]
    exact congrArg diagonal (funext fun k => inv_mul_cancel₀ (hd k))
  have h2 : diagonal d * diagonal (fun k => (d k)⁻¹) = (1 : Mat n) := by
    rw [diagonal_mul_diagonal, ← diagonal_one]
    exact congrArg diagonal (funext fun k => mul_inv_cancel₀ (hd k))
  unfold fisher
  rw [vdMat_inv hd]
  congr 1
  set A := diagonal (fun k => (d k)⁻¹)
  set B := diagonal d
  calc trace (A * vdW v * A * (B * X * B) * (A * vdW v * A) * (B * Y * B))
      = trace (A * (vdW v * (A * B) * X * (B * A) * vdW v * (A * B) * Y * B)) := by
        simp only [Matrix.mul_assoc]
    _ = trace (vdW v * X * vdW v * Y * (B * A)) := by
        rw [h1, trace_mul_comm]; simp only [Matrix.mul_one, Matrix.mul_assoc, h2]
    _ = _ := by rw [h2, Matrix.mul_one]

/-- The Fisher product with a change of `v`, for symmetric `X`. -/
theorem trace_v (v u : Vec n) {X : Mat n} (hX : Xᵀ = X) :
    1 / 2 * trace (vdW v * X * vdW v * (vecMulVec u v + vecMulVec v u)) =
      (1 + v ⬝ᵥ v)⁻¹ * (u ⬝ᵥ (vdW v).mulVec (X.mulVec v)) := by
  have e : ∀ (M : Mat n) (x y : Vec n), trace (M * vecMulVec x y) = y ⬝ᵥ M.mulVec x := by
    intro M x y
    rw [mul_vecMulVec, trace_vecMulVec, dotProduct_comm]
  have hs : (vdW v * X * vdW v)ᵀ = vdW v * X * vdW v := by
    rw [transpose_mul, transpose_mul, vdW_symm, hX, Matrix.mul_assoc]
  rw [Matrix.mul_add, trace_add, e, e]
  have h1 : v ⬝ᵥ (vdW v * X * vdW v).mulVec u = u ⬝ᵥ (vdW v * X * vdW v).mulVec v := by
    rw [dotProduct_mulVec, ← mulVec_transpose, hs, dotProduct_comm]
  rw [h1, ← mulVec_mulVec, vdW_mulVec_self, mulVec_smul, dotProduct_smul, ← mulVec_mulVec, smul_eq_mul]
  ring

/-- The Fisher product with a change of `d`, for symmetric `X`. -/
theorem trace_d (v e : Vec n) {X : Mat n} (hX : Xᵀ = X) :
    1 / 2 * trace (vdW v * X * vdW v * (diagonal e * (1 + vecMulVec v v) + (1 + vecMulVec v v) * diagonal e)) =
      ∑ k, e k * (vdW v * X) k k := by
  have h1 : trace (vdW v * X * vdW v * (diagonal e * (1 + vecMulVec v v))) = trace (vdW v * X * diagonal e) := by
    rw [← Matrix.mul_assoc, trace_mul_comm]
    rw [show (1 + vecMulVec v v) * (vdW v * X * vdW v * diagonal e) =
      ((1 + vecMulVec v v) * vdW v) * (X * vdW v * diagonal e) by simp only [Matrix.mul_assoc], mul_vdW, Matrix.one_mul,
      ← trace_transpose, transpose_mul, transpose_mul, vdW_symm, hX, diagonal_transpose, trace_mul_comm]
  have h2 : trace (vdW v * X * vdW v * ((1 + vecMulVec v v) * diagonal e)) = trace (vdW v * X * diagonal e) := by
    rw [show vdW v * X * vdW v * ((1 + vecMulVec v v) * diagonal e) =
      vdW v * X * (vdW v * (1 + vecMulVec v v)) * diagonal e by simp only [Matrix.mul_assoc], vdW_mul, Matrix.mul_one]
  rw [Matrix.mul_add, trace_add, h1, h2]
  unfold trace
  rw [show ∀ t : ℝ, 1 / 2 * (t + t) = t from fun t => by ring]
  refine sum_congr rfl fun k _ => ?_
  rw [diag_apply, mul_diagonal, mul_comm]

/-- The change of the scaled matrix when `v` moves in direction `u`. -/
def vdTv (v u : Vec n) : Mat n := vecMulVec u v + vecMulVec v u

/-- The change of the scaled matrix when `d` moves by the relative amounts `e`. -/
def vdTd (v e : Vec n) : Mat n := diagonal e * (1 + vecMulVec v v) + (1 + vecMulVec v v) * diagonal e

/-- The Fisher products of a change `X` with the changes of `v`. -/
noncomputable def vdGv (v : Vec n) (X : Mat n) : Vec n := (1 + v ⬝ᵥ v)⁻¹ • (vdW v).mulVec (X.mulVec v)

/-- The Fisher products of a change `X` with the relative changes of `d`. -/
noncomputable def vdGd (v : Vec n) (X : Mat n) : Vec n := fun k => (vdW v * X) k k

theorem vdTv_symm (v u : Vec n) : (vdTv v u)ᵀ = vdTv v u := by
  unfold vdTv
  rw [transpose_add, transpose_vecMulVec, transpose_vecMulVec, add_comm]

theorem vdTd_symm (v e : Vec n) : (vdTd v e)ᵀ = vdTd v e := by
  unfold vdTd
  rw [transpose_add, transpose_mul, transpose_mul, transpose_add, transpose_one, transpose_vecMulVec,
    diagonal_transpose, add_comm]

theorem vdMatV_eq (d v u : Vec n) : vdMatV d v u = diagonal d * vdTv v u * diagonal d := rfl

theorem vdMatD_eq {d : Vec n} (hd : ∀ k, d k ≠ 0) (v e : Vec n) :
    vdMatD d v e = diagonal d * vdTd v (fun k => e k / d k) * diagonal d := by
  have h : diagonal d * diagonal (fun k => e k / d k) = diagonal e := by
    rw [diagonal_mul_diagonal]
    exact congrArg diagonal (funext fun k => mul_div_cancel₀ _ (hd k))
  have h' : diagonal (fun k => e k / d k) * diagonal d = diagonal e := by
    rw [diagonal_mul_diagonal]
    exact congrArg diagonal (funext fun k => div_mul_cancel₀ _ (hd k))
  unfold vdMatD vdTd
  generalize 1 + vecMulVec v v = V
  rw [Matrix.mul_add, Matrix.add_mul, ← Matrix.mul_assoc, h]
  congr 1
  simp only [Matrix.mul_assoc, h']

theorem vdGv_add (v : Vec n) (X Y : Mat n) : vdGv v (X + Y) = vdGv v X + vdGv v Y := by
  unfold vdGv
  rw [add_mulVec, mulVec_add, smul_add]

theorem vdGv_smul (v : Vec n) (c : ℝ) (X : Mat n) : vdGv v (c • X) = c • vdGv v X := by
  unfold vdGv
  rw [smul_mulVec, mulVec_smul, smul_comm]

theorem vdGd_add (v : Vec n) (X Y : Mat n) : vdGd v (X + Y) = vdGd v X + vdGd v Y := by
  unfold vdGd
  rw [Matrix.mul_add]
  rfl

theorem vdGd_smul (v : Vec n) (c : ℝ) (X : Mat n) : vdGd v (c • X) = c • vdGd v X := by
  unfold vdGd
  rw [Matrix.mul_smul]
  rfl

/-- The two systems of equations for the natural gradient. -/
theorem natGrad_of {d : Vec n} (hd : ∀ k, d k ≠ 0) {a : ℝ} {v u e : Vec n} {X : Mat n} (hX : Xᵀ = X)
    (h1 : vdGv v (vdTv v u) + a • vdGv v (vdTd v e) = vdGv v X)
    (h2 : a • vdGd v (vdTv v u) + vdGd v (vdTd v e) = vdGd v X) :
    NatGrad a d v (diagonal d * X * diagonal d) u (d * e) := by
  intro u' e'
  have hde : vdMatD d v (d * e) = diagonal d * vdTd v e * diagonal d := by
    rw [vdMatD_eq hd]
    congr 3
    funext k
    exact mul_div_cancel_left₀ _ (hd k)
  have fv : ∀ {Y : Mat n}, Yᵀ = Y → fisher (vdMat d v) (diagonal d * Y * diagonal d) (vdMatV d v u') =
      u' ⬝ᵥ vdGv v Y := by
    intro Y hY
    rw [vdMatV_eq, fisher_scaled hd]
    unfold vdTv vdGv
    rw [trace_v v u' hY, dotProduct_smul, smul_eq_mul]
  have fd : ∀ {Y : Mat n}, Yᵀ = Y → fisher (vdMat d v) (diagonal d * Y * diagonal d) (vdMatD d v e') =
      (fun k => e' k / d k) ⬝ᵥ vdGd v Y := by
    intro Y hY
    rw [vdMatD_eq hd, fisher_scaled hd]
    unfold vdTd
    rw [trace_d v _ hY]
    rfl
  have hadd : ∀ A B C : Mat n, fisher (vdMat d v) A (B + C) = fisher (vdMat d v) A B + fisher (vdMat d v) A C := by
    intro A B C
    unfold fisher
    rw [Matrix.mul_add, trace_add, mul_add]
  rw [hadd, hde, vdMatV_eq d v u, fv (vdTv_symm v u), fv (vdTd_symm v e), fd (vdTv_symm v u), fd (vdTd_symm v e),
    fv hX, fd hX, ← h1, ← h2, dotProduct_add, dotProduct_add, dotProduct_smul, dotProduct_smul, smul_eq_mul,
    smul_eq_mul]
  ring

theorem vdGv_tv (v u : Vec n) (k : Fin n) : vdGv v (vdTv v u) k =
    (1 + v ⬝ᵥ v)⁻¹ * ((v ⬝ᵥ v) * (u k - v k * (v ⬝ᵥ u) / (1 + v ⬝ᵥ v)) + (v ⬝ᵥ u) * v k / (1 + v ⬝ᵥ v)) := by
  have h : (vdTv v u).mulVec v = (v ⬝ᵥ v) • u + (v ⬝ᵥ u) • v := by
    unfold vdTv
    rw [add_mulVec, vecMulVec_mulVec, vecMulVec_mulVec, dotProduct_comm u v]
    funext i
    simp only [Pi.add_apply, Pi.smul_apply, smul_eq_mul, MulOpposite.smul_eq_mul_unop, MulOpposite.unop_op]
    ring
  unfold vdGv
  rw [h, mulVec_add, mulVec_smul, mulVec_smul, vdW_mulVec_self, vdW_mulVec]
  simp only [Pi.add_apply, Pi.smul_apply, smul_eq_mul]
  ring

theorem vdGv_td (v e : Vec n) (k : Fin n) : vdGv v (vdTd v e) k =
    (1 + (1 + v ⬝ᵥ v)⁻¹) * (e k * v k) - (1 + v ⬝ᵥ v)⁻¹ * (v k * (v ⬝ᵥ (e * v))) := by
  have h0 : 1 + v ⬝ᵥ v ≠ 0 := by have := dot_self_nonneg v; positivity
  have hv : (1 + vecMulVec v v).mulVec v = (1 + v ⬝ᵥ v) • v := by
    rw [add_mulVec, one_mulVec, vecMulVec_mulVec]
    funext i
    simp only [Pi.add_apply, Pi.smul_apply, smul_eq_mul, MulOpposite.smul_eq_mul_unop, MulOpposite.unop_op]
    ring
  have hd : ∀ x : Vec n, (diagonal e).mulVec x = e * x := fun x => funext fun i => mulVec_diagonal _ _ _
  have h : (vdW v).mulVec ((vdTd v e).mulVec v) = (1 + v ⬝ᵥ v) • (vdW v).mulVec (e * v) + e * v := by
    unfold vdTd
    rw [add_mulVec, ← mulVec_mulVec, ← mulVec_mulVec, hv, mulVec_smul, hd, mulVec_add, mulVec_mulVec, vdW_mul,
      one_mulVec, mulVec_smul]
  unfold vdGv
  rw [h, vdW_mulVec]
  simp only [Pi.add_apply, Pi.smul_apply, Pi.mul_apply, smul_eq_mul]
  field_simp
  ring

theorem vdGd_tv (v u : Vec n) (k : Fin n) : vdGd v (vdTv v u) k =
    v k * (u k - v k * (v ⬝ᵥ u) / (1 + v ⬝ᵥ v)) + (1 + v ⬝ᵥ v)⁻¹ * v k * u k := by
  unfold vdGd vdTv
  rw [Matrix.mul_add, mul_vecMulVec, mul_vecMulVec, vdW_mulVec_self, vdW_mulVec]
  show (u k - v k * (v ⬝ᵥ u) / (1 + v ⬝ᵥ v)) * v k + (1 + v ⬝ᵥ v)⁻¹ * v k * u k = _
  ring

theorem vdGd_td (v e : Vec n) (k : Fin n) : vdGd v (vdTd v e) k =
    2 * e k + (1 - (1 + v ⬝ᵥ v)⁻¹) * (v k * v k) * e k - (1 + v ⬝ᵥ v)⁻¹ * (v k * v k) * (v ⬝ᵥ (e * v)) := by
  have h : vdW v * vdTd v e = vdW v * diagonal e * (1 + vecMulVec v v) + diagonal e := by
    unfold vdTd
    rw [Matrix.mul_add, ← Matrix.mul_assoc, ← Matrix.mul_assoc, vdW_mul, Matrix.one_mul]
  unfold vdGd
  rw [h]
  have h2 : (vdW v * diagonal e * (1 + vecMulVec v v)) k k =
      vdW v k k * e k + (vdW v).mulVec (e * v) k * v k := by
    rw [Matrix.mul_add, Matrix.mul_one, mul_vecMulVec, ← mulVec_mulVec]
    show (vdW v * diagonal e) k k + (vdW v).mulVec ((diagonal e).mulVec v) k * v k = _
    rw [mul_diagonal]
    congr 3
    exact funext fun i => mulVec_diagonal _ _ _
  have h3 : vdW v k k = 1 - (1 + v ⬝ᵥ v)⁻¹ * (v k * v k) := by
    show (1 : Mat n) k k - (1 + v ⬝ᵥ v)⁻¹ * (v k * v k) = _
    rw [one_apply_eq]
  show (vdW v * diagonal e * (1 + vecMulVec v v)) k k + diagonal e k k = _
  rw [h2, h3, vdW_mulVec, diagonal_apply_eq]
  simp only [Pi.mul_apply]
  ring

/-- The Fisher products of the change towards a point `y`. -/
theorem vdGv_pt (v y : Vec n) (k : Fin n) : vdGv v (vecMulVec y y - (1 + vecMulVec v v)) k =
    (1 + v ⬝ᵥ v)⁻¹ * ((v ⬝ᵥ y) * (y k - v k * (v ⬝ᵥ y) / (1 + v ⬝ᵥ v)) - v k) := by
  have h : (vdW v).mulVec ((vecMulVec y y - (1 + vecMulVec v v)).mulVec v) =
      (v ⬝ᵥ y) • (vdW v).mulVec y - v := by
    rw [sub_mulVec, mulVec_sub, mulVec_mulVec _ (vdW v) (1 + vecMulVec v v), vdW_mul, one_mulVec]
    congr 1
    rw [← mulVec_smul]
    congr 1
    rw [vecMulVec_mulVec, dotProduct_comm]
    funext i
    simp only [Pi.smul_apply, smul_eq_mul, MulOpposite.smul_eq_mul_unop, MulOpposite.unop_op]
    ring
  unfold vdGv
  rw [h, vdW_mulVec]
  rfl

theorem vdGd_pt (v y : Vec n) (k : Fin n) : vdGd v (vecMulVec y y - (1 + vecMulVec v v)) k =
    y k * (y k - v k * (v ⬝ᵥ y) / (1 + v ⬝ᵥ v)) - 1 := by
  unfold vdGd
  rw [Matrix.mul_sub, vdW_mul, mul_vecMulVec, vdW_mulVec]
  show (y k - v k * (v ⬝ᵥ y) / (1 + v ⬝ᵥ v)) * y k - (1 : Mat n) k k = _
  rw [one_apply_eq]
  ring

end Libcmaes
