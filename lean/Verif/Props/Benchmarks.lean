import Verif.Lemmas.Benchmarks
import Mathlib.Analysis.SpecialFunctions.Trigonometric.Bounds
import Mathlib.Tactic.NormNum
import Mathlib.Tactic.Linarith

/-!
# C113: the benchmark functions of the test program

The test program (tests/test-functions.cc) states for some of its functions where the minimum is (`msols`, all with value 0) and
how to compute the gradient (`mgfuncs`).  The full statement would be: each stated gradient is the gradient at every point, and
each stated point is the one minimum.  It holds of `fsphere` and `elli`, and of all stated minima but that of `rastrigin`; the
gradients of `tablet` and `rosenbrock` are right at some points only.
-/

namespace Libcmaes

open Matrix Spec Bench Finset

variable {n : ℕ}

/-- **C113** (gradients; partial).  The gradients of `fsphere` and `elli` are right at every point.  That of `tablet` is right
exactly where the first coordinate is 0, and that of `rosenbrock` exactly where each coordinate but the first and the last is the
square of the one before it.  (Missing: all points for these two; see `C113_tablet_false`, `C113_rosenbrock_false`.) -/
theorem C113_gradient_partial (x : Vec n) :
    GradientAt fsphere (gradFsphere x) x ∧
      GradientAt elli (gradElli x) x ∧
      (∀ h : 0 < n, GradientAt tablet (gradTablet x) x ↔ x ⟨0, h⟩ = 0) ∧
      (GradientAt rosenbrock (gradRosenbrock x) x ↔
        ∀ (i : ℕ) (h : i + 2 < n), x ⟨i + 1, by omega⟩ = x ⟨i, by omega⟩ * x ⟨i, by omega⟩) := by
  refine ⟨?_, ?_, fun h => ?_, ?_⟩
  · rw [show (fsphere : Vec n → ℝ) = _ from funext fsphere_eq]
    refine (gradientAt_squares (fun _ => 1) x).congr ?_
    funext i
    simp [gradFsphere]
  · rw [show (elli : Vec n → ℝ) = _ from funext elli_eq]
    refine (gradientAt_squares (fun i : Fin n => if n = 1 then 1 else elliScale n i) x).congr ?_
    funext i
    unfold gradElli
    by_cases h : n = 1
    · subst h
      rw [if_pos rfl, if_pos rfl, one_mul, ← ext_val x i, show i.val = 0 by omega]
    · rw [if_neg h, if_neg h, mul_assoc]
  · have hg : GradientAt tablet (fun i : Fin n => (if i.val = 0 then 1e6 else 1) * (2 * x i)) x := by
      rw [show (tablet : Vec n → ℝ) = _ from funext (tablet_eq h)]
      exact gradientAt_squares _ x
    have ht : gradTablet x = fun i => 2 * x i := by
      funext i
      unfold gradTablet
      rw [tablet_fold, if_pos i.2, ext_val]
    constructor
    · intro hc
      have := congrFun (hc.unique hg) ⟨0, h⟩
      rw [ht] at this
      simp only [if_true] at this
      norm_num at this
      linarith
    · intro h0
      refine hg.congr ?_
      rw [ht]
      funext i
      by_cases hi : i.val = 0
      · rw [show i = ⟨0, h⟩ from Fin.ext hi, h0]
        simp
      · rw [if_neg hi, one_mul]
  · have hg := rosenbrock_gradient x
    have ht : ∀ j : Fin n, gradRosenbrock x j = if j.val < n - 1 then
        -400 * Bench.ext x j * (Bench.ext x (j + 1) - Bench.ext x j * Bench.ext x j) - 2 * (1 - Bench.ext x j)
        else if j.val = n - 1 ∧ 0 < n - 1 then
          200 * (Bench.ext x (n - 1) - Bench.ext x (n - 1 - 1) * Bench.ext x (n - 1 - 1)) else 0 :=
      fun j => rosenbrock_fold (Bench.ext x) (n - 1) j
    constructor
    · intro hc i h
      have := congrFun (hc.unique hg) ⟨i + 1, by omega⟩
      rw [ht] at this
      simp only [rosenbrockGrad] at this
      rw [if_pos (by omega), if_pos (by omega), if_pos (by omega)] at this
      have e : Bench.ext x (i + 1) - Bench.ext x (i + 1 - 1) * Bench.ext x (i + 1 - 1) = 0 := by linarith
      have e1 := ext_val x ⟨i + 1, by omega⟩
      have e2 := ext_val x ⟨i, by omega⟩
      simp only [Nat.add_sub_cancel] at e e1 e2
      rw [e1, e2] at e
      linarith
    · intro hc
      refine hg.congr ?_
      funext j
      rw [ht]
      unfold rosenbrockGrad
      by_cases h1 : j.val < n - 1
      · rw [if_pos h1, if_pos h1]
        by_cases h0 : 0 < j.val
        · rw [if_pos h0]
          have := hc (j.val - 1) (by omega)
          have e1 := ext_val x j
          have e2 := ext_val x ⟨j.val - 1, by omega⟩
          simp only at e2
          have e3 : (⟨j.val - 1 + 1, by omega⟩ : Fin n) = j := Fin.ext (by simp; omega)
          rw [e3] at this
          rw [e1, e2, this]
          ring
        · rw [if_neg h0, add_zero]
      · have hj : j.val = n - 1 := by omega
        rw [if_neg h1, if_neg h1, zero_add]
        by_cases h0 : 0 < j.val
        · rw [if_pos h0, if_pos ⟨hj, by omega⟩, hj]
        · rw [if_neg h0, if_neg (by omega)]

/-- **C113** (gradient of `tablet`; negation).  At every point whose first coordinate is not 0 the gradient given for `tablet` is
wrong: the true first component is a million times the one given, because the loop overwrites it. -/
theorem C113_tablet_false (hn : 0 < n) (x : Vec n) (hx : x ⟨0, hn⟩ ≠ 0) :
    ¬ GradientAt tablet (gradTablet x) x ∧
      ∀ g, GradientAt tablet g x → g ⟨0, hn⟩ = 1e6 * gradTablet x ⟨0, hn⟩ := by
  refine ⟨fun h => hx (((C113_gradient_partial x).2.2.1 hn).1 h), fun g hg => ?_⟩
  have hg' : GradientAt tablet (fun i : Fin n => (if i.val = 0 then 1e6 else 1) * (2 * x i)) x := by
    rw [show (tablet : Vec n → ℝ) = _ from funext (tablet_eq hn)]
    exact gradientAt_squares _ x
  rw [hg.unique hg']
  unfold gradTablet
  rw [tablet_fold, if_pos hn, ext_val x ⟨0, hn⟩]
  simp

/-- **C113** (gradient of `rosenbrock`; negation).  In every dimension from 3 on there is a point where the gradient given for
`rosenbrock` is wrong: all coordinates equal to some `c` other than 0 and 1. -/
theorem C113_rosenbrock_false (hn : 3 ≤ n) (c : ℝ) (h0 : c ≠ 0) (h1 : c ≠ 1) :
    ¬ GradientAt rosenbrock (gradRosenbrock (statedPoint n c)) (statedPoint n c) := by
  intro h
  have := ((C113_gradient_partial (statedPoint n c)).2.2.2.1 h) 0 (by omega)
  simp only [statedPoint] at this
  have : c * (c - 1) = 0 := by linarith
  rcases mul_eq_zero.1 this with h | h
  · exact h0 h
  · exact h1 (by linarith)

/-- **C113** (minima).  The points stated as solutions for `ackleys`, `fsphere`, `rosenbrock`, `elli`, `tablet` and `cigar` are the
one point where the function takes its least value, and that is the stated 0. -/
theorem C113_minima :
    UniqueMin ackleys 0 (statedPoint 2 0) ∧
      UniqueMin fsphere 0 (statedPoint n 0) ∧
      (2 ≤ n → UniqueMin rosenbrock 0 (statedPoint n 1)) ∧
      UniqueMin elli 0 (statedPoint n 0) ∧
      (1 ≤ n → UniqueMin tablet 0 (statedPoint n 0)) ∧
      (1 ≤ n → UniqueMin cigar 0 (statedPoint n 0)) := by
  refine ⟨?_, ?_, fun h => ?_, ?_, fun h => ?_, fun h => ?_⟩
  · have key : ∀ y : Vec 2, 0 ≤ ackleys y ∧ (ackleys y = 0 → y = statedPoint 2 0) := by
      intro y
      have hs : 0 ≤ Real.sqrt (0.5 * (y 0 * y 0 + y 1 * y 1)) := Real.sqrt_nonneg _
      have h1 : Real.exp (-0.2 * Real.sqrt (0.5 * (y 0 * y 0 + y 1 * y 1))) ≤ 1 := Real.exp_le_one_iff.2 (by linarith)
      have h2 : Real.exp (0.5 * (Real.cos (2 * Real.pi * y 0) + Real.cos (2 * Real.pi * y 1))) ≤ Real.exp 1 :=
        Real.exp_le_exp.2 (by linarith [Real.cos_le_one (2 * Real.pi * y 0), Real.cos_le_one (2 * Real.pi * y 1)])
      unfold ackleys
      refine ⟨by linarith, fun h => ?_⟩
      have h3 : Real.exp (-0.2 * Real.sqrt (0.5 * (y 0 * y 0 + y 1 * y 1))) = 1 := by linarith
      rw [Real.exp_eq_one_iff] at h3
      have h4 : Real.sqrt (0.5 * (y 0 * y 0 + y 1 * y 1)) = 0 := by linarith
      rw [Real.sqrt_eq_zero (by nlinarith [mul_self_nonneg (y 0), mul_self_nonneg (y 1)])] at h4
      have e0 : y 0 = 0 := mul_self_eq_zero.1 (by nlinarith [mul_self_nonneg (y 0), mul_self_nonneg (y 1)])
      have e1 : y 1 = 0 := mul_self_eq_zero.1 (by nlinarith [mul_self_nonneg (y 0), mul_self_nonneg (y 1)])
      funext i
      fin_cases i
      · exact e0
      · exact e1
    refine ⟨?_, key⟩
    simp [ackleys, statedPoint]
    norm_num
    ring
  · rw [show (fsphere : Vec n → ℝ) = _ from funext fsphere_eq]
    exact uniqueMin_squares _ fun _ => one_pos
  · have e : ∀ y : Vec n, rosenbrock y = ∑ i ∈ Ico 0 (n - 1),
        (100 * (Bench.ext y (i + 1) - Bench.ext y i * Bench.ext y i) ^ 2 + (Bench.ext y i - 1) ^ 2) := fun y => by
      unfold rosenbrock
      rw [addLoop_eq, zero_add]
    have hp : ∀ (y : Vec n), ∀ i ∈ Ico 0 (n - 1),
        0 ≤ 100 * (Bench.ext y (i + 1) - Bench.ext y i * Bench.ext y i) ^ 2 + (Bench.ext y i - 1) ^ 2 := fun y i _ => by positivity
    refine ⟨?_, fun y => ⟨?_, fun hy => ?_⟩⟩
    · rw [e]
      refine Finset.sum_eq_zero fun i hi => ?_
      have hi' := (Finset.mem_Ico.1 hi).2
      have e1 := ext_val (statedPoint n 1) ⟨i, by omega⟩
      have e2 := ext_val (statedPoint n 1) ⟨i + 1, by omega⟩
      simp only [statedPoint] at e1 e2
      simp only [e1, e2]
      norm_num
    · rw [e]
      exact Finset.sum_nonneg (hp y)
    · rw [e, Finset.sum_eq_zero_iff_of_nonneg (hp y)] at hy
      have h1 : ∀ i, i < n - 1 → Bench.ext y i = 1 := fun i hi => by
        have := hy i (Finset.mem_Ico.2 ⟨by omega, hi⟩)
        nlinarith [sq_nonneg (Bench.ext y (i + 1) - Bench.ext y i * Bench.ext y i), sq_nonneg (Bench.ext y i - 1)]
      funext i
      show y i = 1
      rw [← ext_val y i]
      by_cases hi : i.val < n - 1
      · exact h1 _ hi
      · have hi' : i.val = (n - 2) + 1 := by omega
        have h2 := h1 (n - 2) (by omega)
        have := hy (n - 2) (Finset.mem_Ico.2 ⟨by omega, by omega⟩)
        rw [hi']
        rw [h2] at this
        have h3 : (Bench.ext y (n - 2 + 1) - 1 * 1) ^ 2 = 0 := by nlinarith [sq_nonneg (Bench.ext y (n - 2 + 1) - 1 * 1)]
        have := pow_eq_zero_iff (two_ne_zero) |>.1 h3
        linarith
  · rw [show (elli : Vec n → ℝ) = _ from funext elli_eq]
    refine uniqueMin_squares _ fun i => ?_
    split
    · exact one_pos
    · exact elliScale_pos _ _
  · rw [show (tablet : Vec n → ℝ) = _ from funext (tablet_eq h)]
    refine uniqueMin_squares _ fun i => ?_
    split <;> norm_num
  · rw [show (cigar : Vec n → ℝ) = _ from funext (cigar_eq h)]
    refine uniqueMin_squares _ fun i => ?_
    split <;> norm_num

/-- **C113** (minimum of `rastrigin`; negation).  The point stated for `rastrigin`, all ones, is not its minimum and its value is
not the stated 0 but the dimension; the one minimum, with value 0, is the origin. -/
theorem C113_rastrigin_false :
    rastrigin (statedPoint n 1) = n ∧
      (0 < n → ¬ UniqueMin rastrigin 0 (statedPoint n 1)) ∧
      UniqueMin rastrigin 0 (statedPoint n 0) := by
  have e : ∀ y : Vec n, rastrigin y = ∑ i, (10 + (y i * y i - 10 * Real.cos (2 * Real.pi * y i))) := fun y => by
    unfold rastrigin
    rw [addLoop_eq, sum_ext y fun _ v => v * v - 10 * Real.cos (2 * Real.pi * v), Finset.sum_add_distrib]
    simp [mul_comm]
  have h1 : rastrigin (statedPoint n 1) = n := by
    rw [e]
    simp [statedPoint]
  have hp : ∀ (y : Vec n), ∀ i ∈ univ, y i * y i ≤ 10 + (y i * y i - 10 * Real.cos (2 * Real.pi * y i)) := fun y i _ => by
    linarith [Real.cos_le_one (2 * Real.pi * y i)]
  have hq : ∀ y : Vec n, ∑ i, y i * y i ≤ rastrigin y := fun y => by
    rw [e]
    exact Finset.sum_le_sum (hp y)
  refine ⟨h1, fun hn hc => ?_, ?_, fun y => ⟨?_, fun hy => ?_⟩⟩
  · have := hc.1
    rw [h1] at this
    have : n = 0 := by exact_mod_cast this
    omega
  · rw [e]
    simp [statedPoint]
  · exact le_trans (Finset.sum_nonneg fun i _ => mul_self_nonneg _) (hq y)
  · have h0 : ∑ i, y i * y i = 0 := le_antisymm (hy ▸ hq y) (Finset.sum_nonneg fun i _ => mul_self_nonneg _)
    rw [Finset.sum_eq_zero_iff_of_nonneg fun i _ => mul_self_nonneg _] at h0
    funext i
    exact mul_self_eq_zero.1 (h0 i (mem_univ i))

/-- **C113** (rotated ellipsoid).  For all draws for which `orthogonalBasis` divides by no zero, its rows are orthonormal, and
`ellirot` with these rows has its one minimum at the origin, with value 0. -/
theorem C113_basis (zs : List (Vec n)) (b : Fin n → Vec n) (h : basisRows zs = .ok (List.ofFn b).reverse) :
    (∀ i j, b i ⬝ᵥ b j = if i = j then 1 else 0) ∧ UniqueMin (ellirot b) 0 (statedPoint n 0) := by
  obtain ⟨-, ho, hu⟩ := basisRows_orthonormal zs _ h
  have hon : ∀ i j, b i ⬝ᵥ b j = if i = j then 1 else 0 := by
    rw [List.pairwise_reverse, List.pairwise_ofFn] at ho
    intro i j
    by_cases hij : i = j
    · subst hij
      rw [if_pos rfl]
      exact hu _ (by simp)
    · rw [if_neg hij]
      rcases lt_or_gt_of_ne hij with hl | hl
      · rw [dotProduct_comm]
        exact ho hl
      · exact ho hl
  refine ⟨hon, ?_⟩
  by_cases hn : n = 1
  · subst hn
    have e : ∀ x : Vec 1, ellirot b x = ∑ i, 1 * (x i * x i) := fun x => by simp [ellirot, Bench.ext]
    rw [show (ellirot b : Vec 1 → ℝ) = _ from funext e]
    exact uniqueMin_squares _ fun _ => one_pos
  · have hp : ∀ (y : Vec n), ∀ i ∈ univ, 0 ≤ elliScale n i.val * ((b i ⬝ᵥ y) * (b i ⬝ᵥ y)) := fun y i _ =>
      mul_nonneg (elliScale_pos _ _).le (mul_self_nonneg _)
    refine ⟨?_, fun y => ⟨?_, fun hy => ?_⟩⟩
    · rw [ellirot_eq b _ hn, show statedPoint n 0 = 0 from rfl]
      simp
    · rw [ellirot_eq b _ hn]
      exact Finset.sum_nonneg (hp y)
    · rw [ellirot_eq b _ hn, Finset.sum_eq_zero_iff_of_nonneg (hp y)] at hy
      have hB : (Matrix.of b) * (Matrix.of b)ᵀ = 1 := by
        ext i j
        rw [Matrix.mul_apply, Matrix.one_apply, ← hon i j]
        rfl
      have hB' := mul_eq_one_comm.1 hB
      have hz : (Matrix.of b) *ᵥ y = 0 := by
        funext i
        rcases mul_eq_zero.1 (hy i (mem_univ i)) with h | h
        · exact absurd h (elliScale_pos _ _).ne'
        · exact mul_self_eq_zero.1 h
      show y = 0
      rw [← Matrix.one_mulVec y, ← hB', ← Matrix.mulVec_mulVec, hz, Matrix.mulVec_zero]

/-- The hypotheses are met: the draws (3, 4) and then (1, 0) give the rows (3/5, 4/5) and (4/5, -3/5). -/
theorem C113_basis_case :
    basisRows [![1, 0], ![3, 4]] = .ok (List.ofFn ![![3 / 5, 4 / 5], ![4 / 5, -(3 / 5)]]).reverse := by
  have s1 : Real.sqrt (sqNorm ![(3 : ℝ), 4]) = 5 := by
    rw [show sqNorm ![(3 : ℝ), 4] = 5 * 5 by simp [sqNorm, Fin.sum_univ_two]; norm_num]
    exact Real.sqrt_mul_self (by norm_num)
  have n1 : sqNorm ![(3 : ℝ), 4] ≠ 0 := by simp [sqNorm, Fin.sum_univ_two]; norm_num
  have b1 : basisRows [![(3 : ℝ), 4]] = .ok [![3 / 5, 4 / 5]] := by
    show (if sqNorm ![(3 : ℝ), 4] = 0 then .error .notReal else .ok _) = (Except.ok _ : Out _)
    rw [if_neg n1]
    congr 1
    refine congrArg (· :: []) ?_
    funext k
    show ![(3 : ℝ), 4] k / Real.sqrt (sqNorm ![(3 : ℝ), 4]) = _
    rw [s1]
    fin_cases k <;> simp
  have d2 : deflate [![(3 : ℝ) / 5, 4 / 5]] ![1, 0] = ![16 / 25, -(12 / 25)] := by
    funext k
    show (![(1 : ℝ), 0] - (![(1 : ℝ), 0] ⬝ᵥ ![(3 : ℝ) / 5, 4 / 5]) • ![(3 : ℝ) / 5, 4 / 5]) k = _
    fin_cases k <;> simp [dotProduct, Fin.sum_univ_two] <;> norm_num
  have s2 : Real.sqrt (sqNorm ![(16 : ℝ) / 25, -(12 / 25)]) = 4 / 5 := by
    rw [show sqNorm ![(16 : ℝ) / 25, -(12 / 25)] = 4 / 5 * (4 / 5) by simp [sqNorm, Fin.sum_univ_two]; norm_num]
    exact Real.sqrt_mul_self (by norm_num)
  have n2 : sqNorm ![(16 : ℝ) / 25, -(12 / 25)] ≠ 0 := by simp [sqNorm, Fin.sum_univ_two]; norm_num
  unfold basisRows
  rw [b1]
  show (if sqNorm (deflate [![(3 : ℝ) / 5, 4 / 5]] ![1, 0]) = 0 then .error .notReal else
    .ok ((fun k => deflate [![(3 : ℝ) / 5, 4 / 5]] ![1, 0] k / Real.sqrt (sqNorm (deflate [![(3 : ℝ) / 5, 4 / 5]] ![1, 0])))
      :: [![(3 : ℝ) / 5, 4 / 5]])) = (Except.ok _ : Out _)
  rw [d2, if_neg n2, s2]
  congr 1
  simp only [List.ofFn_succ, List.ofFn_zero, List.reverse_cons, List.reverse_nil, List.nil_append, List.cons_append]
  refine congrArg₂ List.cons ?_ rfl
  funext k
  fin_cases k <;> simp <;> norm_num

end Libcmaes
