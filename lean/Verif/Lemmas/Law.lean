import Verif.Lemmas.Gauss
import Verif.Props.Sampling
import Mathlib.Probability.Independence.InfinitePi

/-!
# From the formula of the candidates to their law
-/

namespace Libcmaes

open MeasureTheory ProbabilityTheory Matrix WithLp Spec

variable {n : ℕ} {Ω : Type*} [MeasurableSpace Ω] {P : Measure Ω} {ι : Type*} [Fintype ι] [DecidableEq ι]

theorem Spec.IsNormal.mean {X : Ω → ι → ℝ} {m : ι → ℝ} {S : Matrix ι ι ℝ} (h : IsNormal P X m S) (i : ι) :
    ∫ ω, X ω i ∂P = m i := by
  have h1 := h.2.integral_comp (f := fun x : EuclideanSpace ℝ ι => x i) (by fun_prop)
  have h2 : ∫ x, x i ∂(multivariateGaussian (toLp 2 m) S) = m i := by
    have := (EuclideanSpace.proj i : EuclideanSpace ℝ ι →L[ℝ] ℝ).integral_comp_comm
      (φ := fun x => x) (μ := multivariateGaussian (toLp 2 m) S) IsGaussian.integrable_fun_id
    rw [integral_id_multivariateGaussian] at this
    exact this
  exact h1.trans h2

theorem Spec.IsNormal.cov {X : Ω → ι → ℝ} {m : ι → ℝ} {S : Matrix ι ι ℝ} (h : IsNormal P X m S) (i j : ι) :
    cov[fun ω => X ω i, fun ω => X ω j; P] = S i j := by
  have h1 := h.2.covariance_fun_comp (f := fun x : EuclideanSpace ℝ ι => x i) (g := fun x : EuclideanSpace ℝ ι => x j)
    (by fun_prop) (by fun_prop)
  exact h1.trans (covariance_eval_multivariateGaussian h.1 i j)

theorem isNormal_affine {Z : ℕ → Ω → Vec n} (hZ : StdDraws P Z) (k : ℕ) (A : Matrix ι (Fin n) ℝ) (μ : ι → ℝ) :
    IsNormal P (fun ω => μ + A.mulVec (Z k ω)) μ (A * Aᵀ) := by
  have := isNormal_weighted hZ (m := 1) (fun _ => k) (fun a b _ => Subsingleton.elim a b) (fun _ => 1) A μ
  simpa using this

open Classical in
/-- The candidates that `sigma A z` gives, the fixed coordinates written. -/
theorem sampled_of {Z : ℕ → Ω → Vec n} (hZ : StdDraws P Z) {p : Params n} {m : Vec n} {sigma : ℝ} {A C : Mat n}
    (hA : A * Aᵀ = C) {pop : Ω → List (Vec n)} {nz : ℕ} (hl : ∀ ω, (pop ω).length = p.lambda)
    (hfix : ∀ ω, ∀ x ∈ pop ω, FixedAt p x)
    (hx : ∀ ω, ∀ j < p.lambda, ∃ x, (pop ω)[j]? = some x ∧
      ∀ i, Free p i → x i = m i + sigma * A.mulVec (Z (nz + j) ω) i) :
    Sampled P p m sigma C pop := by
  refine ⟨hl, fun j hj k e he => ?_, ?_⟩
  · have h := isNormal_affine hZ (nz + j) (sigma • A.submatrix e id) (fun a => m (e a))
    have e1 : (fun ω => (fun a => m (e a)) + (sigma • A.submatrix e id).mulVec (Z (nz + j) ω)) =
        fun ω a => (pop ω).getD j 0 (e a) := by
      funext ω a
      obtain ⟨x, h1, h2⟩ := hx ω j hj
      rw [List.getD, h1, Option.getD_some, h2 _ (he a), smul_mulVec]
      rfl
    have e2 : sigma • A.submatrix e id * (sigma • A.submatrix e id)ᵀ = sigma ^ 2 • C.submatrix e e := by
      rw [transpose_smul, Matrix.smul_mul, Matrix.mul_smul, smul_smul, ← pow_two, ← hA, transpose_submatrix]
      congr 1
    rwa [e1, e2] at h
  · have hq : Function.Injective fun j : Fin p.lambda => nz + j.val := fun a b h => by
      have : nz + a.val = nz + b.val := h
      exact Fin.ext (by omega)
    have h := (hZ.indep.precomp hq).comp
      (fun _ z i => if h : ∃ v, (i.val, v) ∈ p.fixedP then h.choose else m i + sigma * A.mulVec z i)
      (fun _ => by
        refine measurable_pi_iff.2 fun i => ?_
        by_cases h : ∃ v, (i.val, v) ∈ p.fixedP
        · simp only [h, dif_pos, measurable_const]
        · simp only [h, dif_neg, not_false_eq_true]
          unfold Matrix.mulVec dotProduct
          fun_prop)
    refine h.congr fun j => Filter.Eventually.of_forall fun ω => ?_
    obtain ⟨x, h1, h2⟩ := hx ω j j.2
    show _ = (pop ω).getD j 0
    rw [List.getD, h1, Option.getD_some]
    funext i
    show (if h : ∃ v, (i.val, v) ∈ p.fixedP then h.choose else m i + sigma * A.mulVec (Z (nz + j) ω) i) = x i
    split_ifs with hi
    · exact (hfix ω x (List.mem_of_getElem? h1) i _ hi.choose_spec).symm
    · exact (h2 i fun v hv => hi ⟨v, hv⟩).symm

/-- Independent standard normal draws exist. -/
theorem stdDraws_exist (n : ℕ) : ∃ (P : Measure (ℕ → EuclideanSpace ℝ (Fin n))),
    StdDraws P (fun k (ω : ℕ → EuclideanSpace ℝ (Fin n)) => ofLp (ω k)) := by
  refine ⟨Measure.infinitePi fun _ => stdGaussian (EuclideanSpace ℝ (Fin n)), fun k => ⟨?_, ?_⟩, ?_⟩
  · exact (measurable_pi_apply k).aemeasurable
  · exact Measure.infinitePi_map_eval _ k
  · exact iIndepFun_infinitePi (X := fun _ x => ofLp x) fun _ => by fun_prop

/-- Independent uniform draws exist. -/
theorem uniformDraws_exist (n : ℕ) : ∃ (P : Measure (Fin n → ℝ)) (R : (Fin n → ℝ) → Vec n), UniformDraws P R := by
  set U : Measure ℝ := (ENNReal.ofReal 2)⁻¹ • volume.restrict (Set.Icc (-1) 1) with hU
  have hp : IsProbabilityMeasure U := by
    constructor
    rw [hU, Measure.smul_apply, Measure.restrict_apply_univ, Real.volume_Icc, smul_eq_mul]
    norm_num
    exact ENNReal.inv_mul_cancel (by norm_num) (by norm_num)
  refine ⟨Measure.pi fun _ => U, fun ω => ω, fun i t h1 h2 => ?_, ?_⟩
  · have e : {ω : Fin n → ℝ | ω i ≤ t} = (fun ω => ω i) ⁻¹' Set.Iic t := rfl
    rw [e, ← Measure.map_apply (measurable_pi_apply i) measurableSet_Iic, (measurePreserving_eval _ i).map_eq, hU,
      Measure.smul_apply, Measure.restrict_apply measurableSet_Iic, smul_eq_mul]
    have : Set.Iic t ∩ Set.Icc (-1) 1 = Set.Icc (-1) t := by
      ext x
      simp only [Set.mem_inter_iff, Set.mem_Iic, Set.mem_Icc]
      constructor
      · rintro ⟨a, b, c⟩; exact ⟨b, a⟩
      · rintro ⟨a, b⟩; exact ⟨b, a, by linarith⟩
    rw [this, Real.volume_Icc, ← ENNReal.ofReal_inv_of_pos (by norm_num), ← ENNReal.ofReal_mul (by norm_num)]
    congr 1
    ring
  · exact iIndepFun_pi (X := fun _ x => x) fun _ => aemeasurable_id

end Libcmaes
