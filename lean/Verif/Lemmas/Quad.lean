import Verif.Spec.Matrix
import Verif.Model.Update
import Mathlib.LinearAlgebra.Matrix.DotProduct
import Mathlib.LinearAlgebra.Matrix.NonsingularInverse
import Mathlib.Tactic.Linarith
import Mathlib.Tactic.Positivity

/-! # Quadratic forms, and what an eigensolver gives -/

namespace Libcmaes

open Spec Matrix Finset

variable {n : ℕ}

theorem quad_add (A B : Mat n) (x : Vec n) : quad (A + B) x = quad A x + quad B x := by
  unfold quad; rw [add_mulVec, dotProduct_add]

theorem quad_sub (A B : Mat n) (x : Vec n) : quad (A - B) x = quad A x - quad B x := by
  unfold quad; rw [sub_mulVec, dotProduct_sub]

theorem quad_smul (a : ℝ) (A : Mat n) (x : Vec n) : quad (a • A) x = a * quad A x := by
  unfold quad; rw [smul_mulVec, dotProduct_smul, smul_eq_mul]

theorem quad_zero (x : Vec n) : quad (0 : Mat n) x = 0 := by
  unfold quad; rw [zero_mulVec, dotProduct_zero]

theorem quad_sum {ι : Type} (s : Finset ι) (A : ι → Mat n) (x : Vec n) :
    quad (∑ i ∈ s, A i) x = ∑ i ∈ s, quad (A i) x := by
  classical
  induction s using Finset.induction_on with
  | empty => simp [quad_zero]
  | insert a s ha ih => rw [sum_insert ha, sum_insert ha, quad_add, ih]

theorem quad_vecMulVec (u x : Vec n) : quad (vecMulVec u u) x = (u ⬝ᵥ x) ^ 2 := by
  unfold quad
  rw [vecMulVec_mulVec, dotProduct_comm, pow_two]
  simp [dotProduct_comm]

theorem quad_one (x : Vec n) : quad (1 : Mat n) x = x ⬝ᵥ x := by
  unfold quad; rw [one_mulVec]

theorem dot_self_nonneg (x : Vec n) : 0 ≤ x ⬝ᵥ x := by
  unfold dotProduct
  exact sum_nonneg fun i _ => mul_self_nonneg _

theorem dot_self_pos {x : Vec n} (h : x ≠ 0) : 0 < x ⬝ᵥ x := by
  rcases (dot_self_nonneg x).lt_or_eq with h1 | h1
  · exact h1
  · exact absurd (dotProduct_self_eq_zero.1 h1.symm) h

theorem quad_diagonal (d x : Vec n) : quad (diagonal d) x = ∑ i, d i * (x i) ^ 2 := by
  unfold quad dotProduct
  refine sum_congr rfl fun i _ => ?_
  rw [mulVec_diagonal]; ring

/-- `x^T (A M A^T) x = (A^T x)^T M (A^T x)`. -/
theorem quad_conj (A M : Mat n) (x : Vec n) : quad (A * M * Aᵀ) x = quad M (Aᵀ.mulVec x) := by
  unfold quad
  rw [← mulVec_mulVec, ← mulVec_mulVec, dotProduct_mulVec, ← mulVec_transpose]

theorem isSymm_vecMulVec (u : Vec n) : (vecMulVec u u).IsSymm := by
  unfold Matrix.IsSymm
  ext i j
  simp [vecMulVec, mul_comm]

theorem isSymm_sum {ι : Type} (s : Finset ι) (A : ι → Mat n) (h : ∀ i ∈ s, (A i).IsSymm) :
    (∑ i ∈ s, A i).IsSymm := by
  unfold Matrix.IsSymm
  rw [transpose_sum]
  exact sum_congr rfl fun i hi => h i hi

theorem Spec.PD.psd {C : Mat n} (h : PD C) : PSD C :=
  ⟨h.symm, fun x => by
    by_cases hx : x = 0
    · rw [hx]; simp [quad]
    · exact (h.pos x hx).le⟩

theorem PD_one : PD (1 : Mat n) :=
  ⟨isSymm_one, fun x hx => by rw [quad_one]; exact dot_self_pos hx⟩

/-! ### Eigensolver -/

theorem EigSolver.orth' (eig : EigSolver n) (C : Mat n) (h : C.IsSymm) :
    (eig.solve C).2ᵀ * (eig.solve C).2 = 1 :=
  mul_eq_one_comm.1 (eig.orth C h)

theorem le_maxCoeff (x : Vec n) (i : Fin n) : x i ≤ maxCoeff x :=
  le_ciSup (Set.finite_range x).bddAbove i

theorem maxCoeff_le [NeZero n] {x : Vec n} {a : ℝ} (h : ∀ i, x i ≤ a) : maxCoeff x ≤ a :=
  ciSup_le h

theorem minCoeff_le (x : Vec n) (i : Fin n) : minCoeff x ≤ x i :=
  ciInf_le (Set.finite_range x).bddBelow i

/-- The form in eigen coordinates. -/
theorem quad_eig (eig : EigSolver n) {C : Mat n} (h : C.IsSymm) (x : Vec n) :
    quad C x = ∑ i, (eig.solve C).1 i * ((eig.solve C).2ᵀ.mulVec x i) ^ 2 := by
  conv_lhs => rw [← eig.decomp C h]
  rw [quad_conj, quad_diagonal]

theorem dot_eig (eig : EigSolver n) {C : Mat n} (h : C.IsSymm) (x : Vec n) :
    x ⬝ᵥ x = ∑ i, ((eig.solve C).2ᵀ.mulVec x i) ^ 2 := by
  have h1 : x ⬝ᵥ x = quad ((eig.solve C).2 * 1 * (eig.solve C).2ᵀ) x := by
    rw [Matrix.mul_one, eig.orth C h, quad_one]
  rw [h1, quad_conj, quad_one]
  unfold dotProduct
  exact sum_congr rfl fun i _ => (pow_two _).symm

/-- The largest eigenvalue bounds the form. -/
theorem quad_le_maxCoeff (eig : EigSolver n) {C : Mat n} (h : C.IsSymm) (x : Vec n) :
    quad C x ≤ maxCoeff (eig.solve C).1 * (x ⬝ᵥ x) := by
  rw [quad_eig eig h, dot_eig eig h, mul_sum]
  exact sum_le_sum fun i _ => mul_le_mul_of_nonneg_right (le_maxCoeff _ i) (sq_nonneg _)

/-- The i-th eigenvalue is the value of the form at the i-th eigenvector. -/
theorem quad_eigvec (eig : EigSolver n) {C : Mat n} (h : C.IsSymm) (i : Fin n) :
    quad C ((eig.solve C).2.mulVec (Pi.single i 1)) = (eig.solve C).1 i ∧
      (eig.solve C).2.mulVec (Pi.single i 1) ≠ 0 := by
  have h1 : (eig.solve C).2ᵀ.mulVec ((eig.solve C).2.mulVec (Pi.single i 1)) = Pi.single i 1 := by
    rw [mulVec_mulVec, eig.orth' C h, one_mulVec]
  constructor
  · rw [quad_eig eig h, h1, sum_eq_single i]
    · simp
    · intro j _ hj; simp [hj]
    · simp
  · intro h2
    rw [h2, mulVec_zero] at h1
    have := congrFun h1 i
    simp at this

/-- The eigenvalues of a positive definite matrix are positive. -/
theorem eig_pos (eig : EigSolver n) {C : Mat n} (h : PD C) (i : Fin n) : 0 < (eig.solve C).1 i := by
  rw [← (quad_eigvec eig h.symm i).1]
  exact h.pos _ (quad_eigvec eig h.symm i).2

theorem eig_nonneg (eig : EigSolver n) {C : Mat n} (h : PSD C) (i : Fin n) : 0 ≤ (eig.solve C).1 i := by
  rw [← (quad_eigvec eig h.symm i).1]
  exact h.nonneg _

/-- `operatorInverseSqrt` of a symmetric matrix with positive eigenvalues: symmetric, and its inverse
`r` satisfies `r r = C`. -/
theorem inverseSqrt_spec (eig : EigSolver n) {C csq : Mat n} (h : C.IsSymm)
    (hs : inverseSqrt (eig.solve C) = .ok csq) :
    csq.IsSymm ∧ (∀ i, 0 < (eig.solve C).1 i) ∧
      ∃ r : Mat n, r.IsSymm ∧ csq * r = 1 ∧ r * csq = 1 ∧ r * r = C := by
  unfold inverseSqrt at hs
  split_ifs at hs with hp
  injection hs with hs
  have hsy : ∀ d : Vec n, ((eig.solve C).2 * diagonal d * (eig.solve C).2ᵀ).IsSymm := by
    intro d
    unfold Matrix.IsSymm
    rw [transpose_mul, transpose_mul, transpose_transpose, diagonal_transpose, Matrix.mul_assoc]
  have hm : ∀ d e : Vec n, (eig.solve C).2 * diagonal d * (eig.solve C).2ᵀ *
      ((eig.solve C).2 * diagonal e * (eig.solve C).2ᵀ) =
      (eig.solve C).2 * diagonal (fun i => d i * e i) * (eig.solve C).2ᵀ := by
    intro d e
    calc _ = (eig.solve C).2 * diagonal d * ((eig.solve C).2ᵀ * (eig.solve C).2) * diagonal e *
          (eig.solve C).2ᵀ := by simp only [Matrix.mul_assoc]
      _ = _ := by
        rw [eig.orth' C h, Matrix.mul_one, Matrix.mul_assoc (eig.solve C).2, diagonal_mul_diagonal]
  have h1 : (eig.solve C).2 * diagonal (fun _ => (1 : ℝ)) * (eig.solve C).2ᵀ = 1 := by
    rw [diagonal_one, Matrix.mul_one, eig.orth C h]
  have hq : ∀ i, Real.sqrt ((eig.solve C).1 i) ≠ 0 := fun i => (Real.sqrt_pos.2 (hp i)).ne'
  refine ⟨hs ▸ hsy _, hp, (eig.solve C).2 * diagonal (fun i => Real.sqrt ((eig.solve C).1 i)) *
    (eig.solve C).2ᵀ, hsy _, ?_, ?_, ?_⟩
  · rw [← hs, hm]
    rw [show (fun i => 1 / Real.sqrt ((eig.solve C).1 i) * Real.sqrt ((eig.solve C).1 i)) = fun _ => 1 from
      funext fun i => by field_simp [hq i], h1]
  · rw [← hs, hm]
    rw [show (fun i => Real.sqrt ((eig.solve C).1 i) * (1 / Real.sqrt ((eig.solve C).1 i))) = fun _ => 1 from
      funext fun i => by field_simp [hq i], h1]
  · rw [hm]
    conv_rhs => rw [← eig.decomp C h]
    congr 3
    funext i
    exact Real.mul_self_sqrt (hp i).le

end Libcmaes
