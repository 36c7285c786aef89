import Verif.Lemmas.VdStep
import Verif.Lemmas.Turn

/-! # The VD update in terms of the published quantities -/

namespace Libcmaes

open Spec Matrix Finset

variable {n : ℕ}

theorem diag_outer (d y v : Vec n) :
    diagonal d * (vecMulVec y y - (1 + vecMulVec v v)) * diagonal d = vecMulVec (d * y) (d * y) - vdMat d v := by
  unfold vdMat
  rw [Matrix.mul_sub, Matrix.sub_mul]
  congr 1
  ext i j
  rw [mul_diagonal, diagonal_mul]
  show d i * (y i * y j) * d j = d i * y i * (d j * y j)
  ring

/-- The change asked for is the published one. -/
theorem vdX_target {p : Params n} {s : Sol n} {hb : ℝ} {g : VdStep n} (hw : GoodWeights p) (hs : s.sigma ≠ 0)
    (hd : ∀ k, s.sepcov k ≠ 0) :
    diagonal s.sepcov * vdX p (vdPaths p s hb) * diagonal s.sepcov =
      vdTarget (constsOf p) (ranked s.cands) (hsigR (vdPaths p s hb).hsig) (stateOf s) (stateOf (vdNext p s hb g))
        (vdMat s.sepcov s.v) := by
  have hy : ∀ i, s.sepcov * vdY (vdPaths p s hb) i = selStep (stateOf s) (ranked s.cands) i := by
    intro i
    funext k
    show s.sepcov k * (1 / s.sepcov k * (candX s.cands i k - s.xmean k) / s.sigma) =
      s.sigma⁻¹ * (ranked s.cands i k - s.xmean k)
    rw [candX_eq_ranked]
    have := hd k
    field_simp
  have hpc : s.sepcov * ((vdPaths p s hb).sepcsqinv * (vdPaths p s hb).pc) = (vdPaths p s hb).pc := by
    funext k
    show s.sepcov k * (1 / s.sepcov k * (vdPaths p s hb).pc k) = _
    have := hd k
    field_simp
  unfold vdX vdTarget
  rw [Matrix.mul_add, Matrix.add_mul, Matrix.mul_smul, Matrix.smul_mul, Matrix.mul_smul, Matrix.smul_mul]
  have hv : (vdPaths p s hb).v = s.v := rfl
  rw [hv, diag_outer, hpc]
  congr 2
  rw [Finset.mul_sum, Finset.sum_mul]
  unfold rankMuOf
  have hC : vdMat s.sepcov s.v = ∑ i ∈ range p.mu, p.weights i • vdMat s.sepcov s.v := by
    rw [← Finset.sum_smul, hw.sum_one, one_smul]
  conv_rhs => rw [hC]
  show _ = ∑ i ∈ range p.mu, p.weights i • _ - _
  rw [← Finset.sum_sub_distrib]
  refine sum_congr rfl fun i _ => ?_
  rw [Matrix.mul_smul, Matrix.smul_mul, diag_outer, hy, smul_sub]

/-- With no rank-mu part and the path stalled nothing is asked for. -/
theorem natGrad_zero (a : ℝ) (d v : Vec n) : NatGrad a d v 0 0 0 := by
  have h1 : vdMatV d v 0 = 0 := by
    unfold vdMatV
    rw [zero_vecMulVec, vecMulVec_zero, add_zero, Matrix.mul_zero, Matrix.zero_mul]
  have h2 : vdMatD d v 0 = 0 := by
    unfold vdMatD
    rw [show diagonal (0 : Vec n) = 0 from diagonal_zero]
    simp
  intro u' e'
  rw [h1, h2]
  unfold fisher
  simp

theorem vdAlpha_eq (v : Vec n) :
    vdAlpha (sqNorm v) (fun k => v k ^ 2 / sqNorm v) = vdDamp (len v ^ 2) (⨆ k, v k ^ 2 / len v ^ 2) := by
  have h : len v ^ 2 = sqNorm v := by
    unfold len sqNorm
    rw [Real.sq_sqrt (sum_nonneg fun i _ => sq_nonneg _)]
    exact sum_congr rfl fun i _ => pow_two _
  rw [h]
  unfold vdAlpha vdDamp maxCoeff
  rw [pow_two (sqNorm v)]

/-- A parameter object with the VD model selected is not diagonal. -/
theorem Spec.Configured.vd_not_sep {p : Params n} (h : Configured p) : p.vd = true → p.sep = false := by
  induction h with
  | make hm => intro h; exact (Params.make_flags hm).1
  | call _ hc hr ih =>
    obtain ⟨e1, e2⟩ := RateCall.run_flags hr
    rw [e1, e2]; exact ih
  | sep _ h1 h2 ih => intro h; exact absurd (h2.symm.trans h) (by simp)
  | @vd p _ h1 h2 h6 ih =>
    intro _
    unfold Params.setVd
    split_ifs <;> exact h1
  | other _ hs ih =>
    obtain ⟨e1, e2, e3, e4, e5, e6, e7, e8, e9, e10, e11, e12, e13, e14, e15, e16, e17⟩ := hs
    rw [e16, e17]; exact ih

end Libcmaes
