import Verif.Model.Benchmarks
import Verif.Spec.Benchmarks
import Verif.Lemmas.Out
import Mathlib.Analysis.Calculus.Deriv.Add
import Mathlib.Analysis.Calculus.Deriv.Mul
import Mathlib.Analysis.Calculus.Deriv.Pow
import Mathlib.Algebra.BigOperators.Intervals
import Mathlib.Algebra.BigOperators.Fin
import Mathlib.LinearAlgebra.Matrix.NonsingularInverse

/-!
# Lemmas on the benchmark functions
-/

namespace Libcmaes

open Matrix Spec Bench Finset

variable {n : ℕ}

theorem foldl_add (t : ℕ → ℝ) (l : List ℕ) (v : ℝ) : l.foldl (fun val i => val + t i) v = v + (l.map t).sum := by
  induction l generalizing v with
  | nil => simp
  | cons a l ih => rw [List.foldl_cons, ih, List.map_cons, List.sum_cons, add_assoc]

theorem addLoop_eq (v : ℝ) (a b : ℕ) (t : ℕ → ℝ) : addLoop v a b t = v + ∑ i ∈ Ico a b, t i := by
  unfold addLoop
  rw [foldl_add]
  rfl

theorem ext_val (x : Vec n) (i : Fin n) : ext x i.val = x i := by
  unfold Bench.ext
  rw [dif_pos i.2]

theorem sum_ext (x : Vec n) (t : ℕ → ℝ → ℝ) : ∑ i ∈ Ico 0 n, t i (ext x i) = ∑ i : Fin n, t i (x i) := by
  rw [Nat.Ico_zero_eq_range, ← Fin.sum_univ_eq_sum_range (fun i => t i (ext x i))]
  exact Finset.sum_congr rfl fun i _ => by rw [ext_val]

theorem ext_update (x : Vec n) (i : Fin n) (t : ℝ) : ext (Function.update x i t) = Function.update (ext x) i.val t := by
  funext j
  unfold Bench.ext
  by_cases h : j < n
  · rw [dif_pos h]
    by_cases hj : j = i.val
    · subst hj; simp
    · rw [Function.update_of_ne hj, Function.update_of_ne (by intro e; exact hj (congrArg Fin.val e)), dif_pos h]
  · rw [dif_neg h, Function.update_of_ne (by rintro rfl; exact h i.2), dif_neg h]

theorem fsphere_eq (x : Vec n) : fsphere x = ∑ i, 1 * (x i * x i) := by
  unfold fsphere
  rw [addLoop_eq, zero_add, sum_ext x fun _ v => v * v]
  simp

theorem elli_eq (x : Vec n) : elli x = ∑ i : Fin n, (if n = 1 then 1 else elliScale n i) * (x i * x i) := by
  unfold elli
  by_cases h : n = 1
  · subst h
    simp [Bench.ext]
  · rw [if_neg h, addLoop_eq, zero_add, sum_ext x fun i v => elliScale n i * v * v]
    exact Finset.sum_congr rfl fun i _ => by rw [if_neg h]; ring

theorem tablet_eq (hn : 1 ≤ n) (x : Vec n) : tablet x = ∑ i : Fin n, (if i.val = 0 then 1e6 else 1) * (x i * x i) := by
  unfold tablet
  rw [addLoop_eq, ← sum_ext x fun i v => (if i = 0 then 1e6 else 1) * (v * v), Finset.sum_eq_sum_Ico_succ_bot (a := 0) (b := n) (by omega)]
  rw [if_pos rfl]
  congr 1
  · ring
  · exact Finset.sum_congr rfl fun i hi => by rw [if_neg (by have := (Finset.mem_Ico.1 hi).1; omega), one_mul]

theorem cigar_eq (hn : 1 ≤ n) (x : Vec n) : cigar x = ∑ i : Fin n, (if i.val = 0 then 1 else 1e6) * (x i * x i) := by
  unfold cigar
  rw [addLoop_eq, ← sum_ext x fun i v => (if i = 0 then 1 else 1e6) * (v * v), Finset.sum_eq_sum_Ico_succ_bot (a := 0) (b := n) (by omega)]
  rw [if_pos rfl, zero_add, Finset.sum_mul, one_mul, add_comm]
  congr 1
  exact Finset.sum_congr rfl fun i hi => by rw [if_neg (by have := (Finset.mem_Ico.1 hi).1; omega)]; ring

/-- The gradient of a weighted sum of squares. -/
theorem gradientAt_squares (a : Fin n → ℝ) (x : Vec n) :
    GradientAt (fun x => ∑ i, a i * (x i * x i)) (fun i => a i * (2 * x i)) x := by
  intro i
  have h : ∀ j ∈ (univ : Finset (Fin n)), HasDerivAt (fun t => a j * (Function.update x i t j * Function.update x i t j))
      (if j = i then a i * (2 * x i) else 0) (x i) := by
    intro j _
    by_cases hj : j = i
    · subst hj
      simp only [Function.update_self, if_true]
      have := ((hasDerivAt_id (x j)).mul (hasDerivAt_id (x j))).const_mul (a j)
      refine this.congr_deriv ?_
      simp only [id]
      ring
    · simp only [Function.update_of_ne hj, if_neg hj]
      exact hasDerivAt_const _ _
  have := HasDerivAt.fun_sum h
  simpa using this

/-- A sum of squares with positive weights has its minimum at the origin only. -/
theorem uniqueMin_squares (a : Fin n → ℝ) (ha : ∀ i, 0 < a i) : UniqueMin (fun x => ∑ i, a i * (x i * x i)) 0 0 := by
  refine ⟨by simp, fun y => ⟨Finset.sum_nonneg fun i _ => mul_nonneg (ha i).le (mul_self_nonneg _), fun h => ?_⟩⟩
  rw [Finset.sum_eq_zero_iff_of_nonneg fun i _ => mul_nonneg (ha i).le (mul_self_nonneg _)] at h
  funext i
  have := h i (mem_univ i)
  rcases mul_eq_zero.1 this with h | h
  · exact absurd h (ha i).ne'
  · exact mul_self_eq_zero.1 h

theorem elliScale_pos (m i : ℕ) : 0 < elliScale m i := Real.exp_pos _

/-- What the loop of `grad_rosenbrock` leaves after `k` passes. -/
theorem rosenbrock_fold (X : ℕ → ℝ) (k j : ℕ) :
    (List.range k).foldl (rosenbrockStep X) (fun _ => 0) j =
      if j < k then -400 * X j * (X (j + 1) - X j * X j) - 2 * (1 - X j)
      else if j = k ∧ 0 < k then 200 * (X k - X (k - 1) * X (k - 1)) else 0 := by
  induction k generalizing j with
  | zero => simp
  | succ k ih =>
    rw [List.range_succ, List.foldl_append, List.foldl_cons, List.foldl_nil]
    simp only [rosenbrockStep]
    by_cases h1 : j = k + 1
    · subst h1
      rw [Function.update_self, Function.update_of_ne (by omega), ih, if_neg (by omega), if_neg (by omega), if_neg (by omega),
        if_pos ⟨rfl, by omega⟩]
      simp
    · rw [Function.update_of_ne h1]
      by_cases h2 : j = k
      · subst h2
        rw [Function.update_self, if_pos (by omega)]
      · rw [Function.update_of_ne h2, ih]
        by_cases h3 : j < k
        · rw [if_pos h3, if_pos (by omega)]
        · rw [if_neg h3, if_neg (by omega), if_neg (by omega), if_neg (by omega)]

/-- The partial derivatives of `rosenbrock`. -/
def rosenbrockGrad (x : Vec n) : Vec n := fun j =>
  (if j.val < n - 1 then -400 * ext x j * (ext x (j + 1) - ext x j * ext x j) - 2 * (1 - ext x j) else 0) +
    if 0 < j.val then 200 * (ext x j - ext x (j - 1) * ext x (j - 1)) else 0

theorem rosenbrock_gradient (x : Vec n) : GradientAt rosenbrock (rosenbrockGrad x) x := by
  intro j
  have hf : (fun t => rosenbrock (Function.update x j t)) = fun t => ∑ i ∈ Ico 0 (n - 1),
      (100 * (Function.update (ext x) j.val t (i + 1) - Function.update (ext x) j.val t i * Function.update (ext x) j.val t i) ^ 2 +
        (Function.update (ext x) j.val t i - 1) ^ 2) := by
    funext t
    unfold rosenbrock
    rw [addLoop_eq, zero_add, ext_update]
  rw [hf, ← ext_val x j]
  have hu : ∀ i, HasDerivAt (fun t => Function.update (ext x) j.val t i) (if i = j.val then 1 else 0) (ext x j) := by
    intro i
    by_cases hi : i = j.val
    · subst hi
      simp only [Function.update_self, if_true]
      exact hasDerivAt_id _
    · simp only [Function.update_of_ne hi, if_neg hi]
      exact hasDerivAt_const _ _
  have he : ∀ i, Function.update (ext x) j.val (ext x j) i = ext x i := fun i => by rw [Function.update_eq_self]
  have h : ∀ i ∈ Ico 0 (n - 1), HasDerivAt (fun t =>
      100 * (Function.update (ext x) j.val t (i + 1) - Function.update (ext x) j.val t i * Function.update (ext x) j.val t i) ^ 2 +
        (Function.update (ext x) j.val t i - 1) ^ 2)
      ((if i = j.val then -400 * ext x j * (ext x (j + 1) - ext x j * ext x j) - 2 * (1 - ext x j) else 0) +
        if i + 1 = j.val then 200 * (ext x j - ext x (j - 1) * ext x (j - 1)) else 0) (ext x j) := by
    intro i _
    refine HasDerivAt.congr_deriv (((((hu (i + 1)).sub ((hu i).mul (hu i))).pow 2).const_mul 100).add
      (((hu i).sub_const 1).pow 2)) ?_
    simp only [he, Pi.sub_apply, Pi.mul_apply]
    by_cases h1 : i = j.val
    · subst h1
      rw [if_neg (by omega), if_pos rfl, if_pos rfl, if_neg (by omega)]
      push_cast
      ring
    · by_cases h2 : i + 1 = j.val
      · rw [if_pos h2, if_neg h1, if_neg h1, if_pos h2]
        have h3 : j.val - 1 = i := by omega
        rw [h3, h2]
        push_cast
        ring
      · rw [if_neg h2, if_neg h1, if_neg h1, if_neg h2]
        push_cast
        ring
  refine (HasDerivAt.fun_sum h).congr_deriv ?_
  rw [Finset.sum_add_distrib]
  unfold rosenbrockGrad
  congr 1
  · rw [Finset.sum_ite_eq']
    simp
  · by_cases hj : 0 < j.val
    · rw [if_pos hj]
      have : ∀ i, (i + 1 = j.val) ↔ (i = j.val - 1) := fun i => by omega
      simp only [this]
      rw [Finset.sum_ite_eq', if_pos (by have := j.2; simp; omega)]
    · rw [if_neg hj]
      exact Finset.sum_eq_zero fun i _ => if_neg (by omega)

/-- At most one vector is the gradient. -/
theorem Spec.GradientAt.unique {f : Vec n → ℝ} {g g' x : Vec n} (h : GradientAt f g x) (h' : GradientAt f g' x) : g = g' :=
  funext fun i => (h i).unique (h' i)

theorem Spec.GradientAt.congr {f : Vec n → ℝ} {g g' x : Vec n} (h : GradientAt f g x) (e : g' = g) : GradientAt f g' x := e ▸ h

theorem tablet_fold (X : ℕ → ℝ) (g : ℕ → ℝ) (k j : ℕ) :
    (List.range k).foldl (fun g j => Function.update g j (2 * X j)) g j = if j < k then 2 * X j else g j := by
  induction k generalizing j with
  | zero => simp
  | succ k ih =>
    rw [List.range_succ, List.foldl_append, List.foldl_cons, List.foldl_nil]
    by_cases h : j = k
    · subst h
      rw [Function.update_self, if_pos (by omega)]
    · rw [Function.update_of_ne h, ih]
      by_cases h2 : j < k
      · rw [if_pos h2, if_pos (by omega)]
      · rw [if_neg h2, if_neg (by omega)]

theorem deflate_dot_of_orthogonal (r : Vec n) (rows : List (Vec n)) (v : Vec n) (h : ∀ b ∈ rows, b ⬝ᵥ r = 0) :
    deflate rows v ⬝ᵥ r = v ⬝ᵥ r := by
  induction rows generalizing v with
  | nil => rfl
  | cons b bs ih =>
    show deflate bs (v - (v ⬝ᵥ b) • b) ⬝ᵥ r = _
    rw [ih _ fun c hc => h c (List.mem_cons_of_mem _ hc), sub_dotProduct, smul_dotProduct, h b List.mem_cons_self, smul_zero,
      sub_zero]

/-- After the inner loop the new row is orthogonal to the rows already there. -/
theorem deflate_orthogonal (rows : List (Vec n)) (v : Vec n) (ho : rows.Pairwise fun a b => a ⬝ᵥ b = 0)
    (hu : ∀ b ∈ rows, b ⬝ᵥ b = 1) : ∀ b ∈ rows, deflate rows v ⬝ᵥ b = 0 := by
  induction rows generalizing v with
  | nil => intro b hb; cases hb
  | cons c cs ih =>
    obtain ⟨ho1, ho2⟩ := List.pairwise_cons.1 ho
    intro b hb
    show deflate cs (v - (v ⬝ᵥ c) • c) ⬝ᵥ b = 0
    rcases List.mem_cons.1 hb with rfl | hb
    · rw [deflate_dot_of_orthogonal b cs _ fun d hd => by rw [dotProduct_comm]; exact ho1 d hd, sub_dotProduct, smul_dotProduct,
        hu b List.mem_cons_self, smul_eq_mul, mul_one, sub_self]
    · exact ih _ ho2 (fun d hd => hu d (List.mem_cons_of_mem _ hd)) b hb

theorem sqNorm_dot (v : Vec n) : sqNorm v = v ⬝ᵥ v := rfl

theorem basisRows_orthonormal (zs rows : List (Vec n)) (h : basisRows zs = .ok rows) :
    rows.length = zs.length ∧ (rows.Pairwise fun a b => a ⬝ᵥ b = 0) ∧ ∀ b ∈ rows, b ⬝ᵥ b = 1 := by
  induction zs generalizing rows with
  | nil => cases h; exact ⟨rfl, List.Pairwise.nil, fun b hb => by cases hb⟩
  | cons z zs ih =>
    unfold basisRows at h
    cases hr : basisRows zs with
    | error e => rw [hr] at h; cases h
    | ok rs =>
      rw [hr] at h
      obtain ⟨hl, ho, hu⟩ := ih rs hr
      change (if sqNorm (deflate rs z) = 0 then .error .notReal else .ok _) = (Except.ok rows : Out _) at h
      by_cases h0 : sqNorm (deflate rs z) = 0
      · rw [if_pos h0] at h; cases h
      · rw [if_neg h0] at h
        injection h with h
        subst h
        have hs : (fun k => deflate rs z k / Real.sqrt (sqNorm (deflate rs z))) =
            (Real.sqrt (sqNorm (deflate rs z)))⁻¹ • deflate rs z := by
          funext k
          rw [Pi.smul_apply, smul_eq_mul, div_eq_inv_mul]
        have hpos : 0 ≤ sqNorm (deflate rs z) := Finset.sum_nonneg fun i _ => mul_self_nonneg _
        rw [hs]
        refine ⟨by simp [hl], List.pairwise_cons.2 ⟨fun b hb => ?_, ho⟩, fun b hb => ?_⟩
        · rw [smul_dotProduct, deflate_orthogonal rs z ho hu b hb, smul_zero]
        · rcases List.mem_cons.1 hb with rfl | hb
          · rw [smul_dotProduct, dotProduct_smul, ← sqNorm_dot, smul_eq_mul, smul_eq_mul]
            have h1 : Real.sqrt (sqNorm (deflate rs z)) * Real.sqrt (sqNorm (deflate rs z)) = sqNorm (deflate rs z) :=
              Real.mul_self_sqrt hpos
            have h2 : Real.sqrt (sqNorm (deflate rs z)) ≠ 0 := fun e => h0 (by rw [← h1, e, zero_mul])
            have h3 : ∀ s N : ℝ, s * s = N → s ≠ 0 → s⁻¹ * (s⁻¹ * N) = 1 := by
              rintro s _ rfl hs
              field_simp
            exact h3 _ _ h1 h2
          · exact hu b hb

theorem ellirot_eq (b : Fin n → Vec n) (x : Vec n) (h : n ≠ 1) :
    ellirot b x = ∑ i : Fin n, elliScale n i * ((b i ⬝ᵥ x) * (b i ⬝ᵥ x)) := by
  unfold ellirot
  rw [if_neg h, addLoop_eq, zero_add, Nat.Ico_zero_eq_range, ← Fin.sum_univ_eq_sum_range]
  refine Finset.sum_congr rfl fun i _ => ?_
  have : (addLoop 0 0 n fun k => Bench.ext (b i) k * Bench.ext x k) = b i ⬝ᵥ x := by
    rw [addLoop_eq, zero_add, Nat.Ico_zero_eq_range, ← Fin.sum_univ_eq_sum_range]
    exact Finset.sum_congr rfl fun k _ => by rw [ext_val, ext_val]
  simp only [Fin.is_lt, dif_pos, Fin.eta, this]
  ring

end Libcmaes
