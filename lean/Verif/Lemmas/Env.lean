import Verif.Model.Strategy
import Verif.Lemmas.Sort
import Mathlib.Analysis.Matrix.Spectrum

/-!
# The contracts collected in `Env` can be met

The theorems quantify over all environments; here is one, with any objective and any normal numbers.
-/

namespace Libcmaes

open Matrix

variable {n : ℕ}

open Classical in
/-- An eigensolver, from the spectral theorem. -/
noncomputable def EigSolver.spectral (n : ℕ) : EigSolver n where
  solve C := if h : C.IsHermitian then (h.eigenvalues, (h.eigenvectorUnitary : Mat n)) else (fun _ => 0, 1)
  orth C hC := by
    have h : C.IsHermitian := by
      rw [IsHermitian, conjTranspose_eq_transpose_of_trivial]; exact hC
    rw [dif_pos h]
    have := Unitary.coe_mul_star_self h.eigenvectorUnitary
    rwa [Unitary.coe_star, star_eq_conjTranspose, conjTranspose_eq_transpose_of_trivial] at this
  decomp C hC := by
    have h : C.IsHermitian := by
      rw [IsHermitian, conjTranspose_eq_transpose_of_trivial]; exact hC
    rw [dif_pos h]
    have := h.spectral_theorem
    rw [Unitary.conjStarAlgAut_apply, star_eq_conjTranspose, conjTranspose_eq_transpose_of_trivial] at this
    exact this.symm

open Classical in
/-- A `std::sort`. -/
noncomputable def USort.merge (α : Type) : USort α where
  sort lt l := if StrictWeakOn lt l then l.mergeSort fun a b => decide (¬ lt b a) else l
  perm lt l h := by rw [if_pos h]; exact (stableSort_eq_ok (if_pos h)).2.perm
  sorted lt l h := by rw [if_pos h]; exact (stableSort_eq_ok (if_pos h)).2.sorted

/-- An environment with objective `f` and normal columns `z`. -/
noncomputable def Env.basic (f : ℕ → Vec n → FVal) (z : ℕ → Vec n) : Env n where
  f := f
  gfunc := none
  eig := EigSolver.spectral n
  sched _ m := ⟨List.range m, List.Perm.refl _⟩
  usort := USort.merge _
  z := z
  zuh := z
  u _ := 0
  u_mem _ := ⟨le_refl _, one_pos⟩
  ub _ := 0
  ub_mem _ := ⟨le_refl _, one_pos⟩
  rnd _ _ := 0
  rnd_mem _ _ := ⟨by norm_num, by norm_num⟩
  pfunc _ _ _ := 0
  fladd a b := a + b

end Libcmaes
