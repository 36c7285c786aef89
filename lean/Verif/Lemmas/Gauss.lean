import Verif.Spec.Law
import Mathlib.Probability.Independence.CharacteristicFunction

/-!
# Weighted sums of linear images of independent standard normal vectors
-/

namespace Libcmaes

open MeasureTheory ProbabilityTheory Matrix WithLp Spec
open scoped RealInnerProductSpace

variable {n : ℕ} {Ω : Type*} [MeasurableSpace Ω] {P : Measure Ω} {ι κ : Type*} [Fintype ι] [Fintype κ] [DecidableEq ι]

/-- The linear map of a matrix between Euclidean spaces. -/
noncomputable def euclMap (M : Matrix ι κ ℝ) : EuclideanSpace ℝ κ →L[ℝ] EuclideanSpace ℝ ι :=
  LinearMap.toContinuousLinearMap
    ((WithLp.linearEquiv 2 ℝ (ι → ℝ)).symm.toLinearMap ∘ₗ M.mulVecLin ∘ₗ (WithLp.linearEquiv 2 ℝ (κ → ℝ)).toLinearMap)

omit [DecidableEq ι] in
theorem euclMap_apply (M : Matrix ι κ ℝ) (x : EuclideanSpace ℝ κ) :
    euclMap M x = toLp 2 (M.mulVec (ofLp x)) := rfl

omit [DecidableEq ι] in
theorem posSemidef_mul_transpose (M : Matrix ι κ ℝ) : (M * Mᵀ).PosSemidef := by
  have := Matrix.posSemidef_self_mul_conjTranspose M
  rwa [conjTranspose_eq_transpose_of_trivial] at this

omit [DecidableEq ι] in
/-- The characteristic function of `μ + M g` for standard normal `g`. -/
theorem charFun_affine (μ : ι → ℝ) (M : Matrix ι κ ℝ) (t : EuclideanSpace ℝ ι) :
    charFun ((stdGaussian (EuclideanSpace ℝ κ)).map fun x => toLp 2 μ + euclMap M x) t =
      Complex.exp (⟪t, toLp 2 μ⟫ * Complex.I - ((ofLp t ⬝ᵥ (M * Mᵀ).mulVec (ofLp t) : ℝ) : ℂ) / 2) := by
  rw [charFun_apply, integral_map (by fun_prop) (by fun_prop)]
  have hin : ∀ x : EuclideanSpace ℝ κ, ⟪toLp 2 μ + euclMap M x, t⟫ =
      ⟪t, toLp 2 μ⟫ + ⟪x, toLp 2 (Mᵀ.mulVec (ofLp t))⟫ := by
    intro x
    rw [inner_add_left, real_inner_comm]
    congr 1
    rw [euclMap_apply, EuclideanSpace.inner_eq_star_dotProduct, EuclideanSpace.inner_eq_star_dotProduct]
    simp only [star_trivial]
    rw [dotProduct_mulVec, ← mulVec_transpose]
  simp_rw [hin, Complex.ofReal_add, add_mul, Complex.exp_add]
  rw [integral_const_mul, ← charFun_apply, charFun_stdGaussian, ← Complex.exp_add]
  congr 1
  rw [sub_eq_add_neg, neg_div]
  congr 3
  rw [← Complex.ofReal_pow, EuclideanSpace.real_norm_sq_eq, ← mulVec_mulVec, dotProduct_mulVec, ← mulVec_transpose]
  simp [dotProduct, pow_two]

/-- A sum of linear images of independent standard normal vectors. -/
theorem isNormal_sum {Z : ℕ → Ω → Vec n} (hZ : StdDraws P Z) {m : ℕ} (q : Fin m → ℕ) (hq : q.Injective)
    (A : Fin m → Matrix ι (Fin n) ℝ) (μ : ι → ℝ) :
    IsNormal P (fun ω => μ + ∑ i, (A i).mulVec (Z (q i) ω)) μ (∑ i, A i * (A i)ᵀ) := by
  have hP : IsProbabilityMeasure P := hZ.indep.isProbabilityMeasure
  have hS : (∑ i, A i * (A i)ᵀ).PosSemidef :=
    Matrix.posSemidef_sum _ fun i _ => posSemidef_mul_transpose (A i)
  refine ⟨hS, ?_⟩
  have hX : ∀ i, HasLaw (fun ω => euclMap (A i) (toLp 2 (Z (q i) ω)))
      ((stdGaussian (EuclideanSpace ℝ (Fin n))).map fun x => toLp 2 0 + euclMap (A i) x) P := by
    intro i
    have h1 : HasLaw (fun x : EuclideanSpace ℝ (Fin n) => euclMap (A i) x)
        ((stdGaussian (EuclideanSpace ℝ (Fin n))).map fun x => toLp 2 0 + euclMap (A i) x)
        (stdGaussian (EuclideanSpace ℝ (Fin n))) :=
      ⟨by fun_prop, by simp⟩
    exact h1.comp (hZ.normal (q i))
  have hind : iIndepFun (fun i ω => euclMap (A i) (toLp 2 (Z (q i) ω))) P :=
    (hZ.indep.precomp hq).comp (fun i x => euclMap (A i) (toLp 2 x)) fun i => by fun_prop
  have hae : ∀ i, AEMeasurable (fun ω => euclMap (A i) (toLp 2 (Z (q i) ω))) P := fun i => (hX i).aemeasurable
  have hfun : (fun ω => toLp 2 (μ + ∑ i, (A i).mulVec (Z (q i) ω))) =
      fun ω => (∑ i, euclMap (A i) (toLp 2 (Z (q i) ω))) + toLp 2 μ := by
    funext ω
    ext a
    simp [euclMap_apply, Finset.sum_apply, add_comm]
  rw [hfun]
  have hsum : AEMeasurable (fun ω => ∑ i, euclMap (A i) (toLp 2 (Z (q i) ω))) P :=
    Finset.aemeasurable_fun_sum _ fun i _ => hae i
  refine ⟨hsum.add_const _, ?_⟩
  have hm : P.map (fun ω => (∑ i, euclMap (A i) (toLp 2 (Z (q i) ω))) + toLp 2 μ) =
      (P.map fun ω => ∑ i, euclMap (A i) (toLp 2 (Z (q i) ω))).map (· + toLp 2 μ) := by
    rw [AEMeasurable.map_map_of_aemeasurable (by fun_prop) hsum]
    rfl
  rw [hm]
  have : IsProbabilityMeasure (P.map fun ω => ∑ i, euclMap (A i) (toLp 2 (Z (q i) ω))) :=
    Measure.isProbabilityMeasure_map hsum
  have : IsProbabilityMeasure ((P.map fun ω => ∑ i, euclMap (A i) (toLp 2 (Z (q i) ω))).map (· + toLp 2 μ)) :=
    Measure.isProbabilityMeasure_map (by fun_prop)
  refine Measure.ext_of_charFun ?_
  funext t
  rw [charFun_map_add_const, hind.charFun_map_fun_sum_eq_prod hae, Finset.prod_apply,
    charFun_multivariateGaussian hS]
  simp_rw [(hX _).map_eq, charFun_affine]
  rw [← Complex.exp_sum, ← Complex.exp_add]
  congr 1
  have hz : (toLp 2 (0 : ι → ℝ)) = 0 := rfl
  simp_rw [hz, inner_zero_right, Complex.ofReal_zero, zero_mul, zero_sub]
  rw [Finset.sum_neg_distrib, ← Finset.sum_div, Matrix.sum_mulVec, dotProduct_sum, Complex.ofReal_sum, real_inner_comm]
  ring

/-- A weighted sum of independent standard normal vectors, mapped by `A`. -/
theorem isNormal_weighted {Z : ℕ → Ω → Vec n} (hZ : StdDraws P Z) {m : ℕ} (q : Fin m → ℕ) (hq : q.Injective)
    (w : Fin m → ℝ) (A : Matrix ι (Fin n) ℝ) (μ : ι → ℝ) :
    IsNormal P (fun ω => μ + ∑ i, w i • A.mulVec (Z (q i) ω)) μ ((∑ i, w i ^ 2) • (A * Aᵀ)) := by
  have h := isNormal_sum hZ q hq (fun i => w i • A) μ
  have e : ∑ i, (w i • A) * (w i • A)ᵀ = (∑ i, w i ^ 2) • (A * Aᵀ) := by
    rw [Finset.sum_smul]
    refine Finset.sum_congr rfl fun i _ => ?_
    rw [transpose_smul, Matrix.smul_mul, Matrix.mul_smul, smul_smul, pow_two]
  simp only [smul_mulVec] at h
  rwa [e] at h

end Libcmaes
