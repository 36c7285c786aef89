import Verif.Lemmas.Rotated
import Mathlib.Logic.Equiv.Fin.Rotate

/-!
# C119: the rotated benchmark functions over the calls of a process

`OrthonormalRows`, `rotValue`: Spec/Rotated.lean; `UniqueMin`: Spec/Benchmarks.lean.

The full statement would be: in every process the calls in each dimension return one rotated function.  It holds of processes that use
one dimension (and dimension 1, which needs no rotation).
-/

namespace Libcmaes

open Matrix Spec Bench Finset

/-- **C119** for one dimension `N`: all the calls of a process, however many and of whichever of the two functions, in any order,
with calls in dimension 1 between, return values of one ellipsoid and one sum of powers turned by the same rotation, with their one
minimum at the origin.  `z`: the draws; the hypothesis says that no row has length 0 when divided by its length. -/
theorem C119_calls_partial (z : (m : ℕ) → Fin m → Vec m) (N : ℕ) (hN : N ≠ 1)
    (hz : ∃ rows, basisRows (List.ofFn (z N)).reverse = .ok rows) :
    ∃ b : Fin N → Vec N, OrthonormalRows b ∧ (∀ f, UniqueMin (rotValue b f) 0 0) ∧
      ∀ qs : List (RotFunc × (Vec N ⊕ ℝ)),
        rotCalls z none (qs.map fun q => match q.2 with
          | .inl x => ⟨N, q.1, x⟩
          | .inr a => ⟨1, q.1, fun _ => a⟩) =
        .ok (qs.map fun q => match q.2 with
          | .inl x => rotValue b q.1 x
          | .inr a => a * a) := by
  obtain ⟨rows, hr⟩ := hz
  obtain ⟨b, rfl⟩ := basis_rows hr
  have hb := basis_orthonormal hr
  refine ⟨b, hb, rotValue_min hb, fun qs => ?_⟩
  have key : ∀ c : Option Basis, c = none ∨ c = some ⟨N, b⟩ → rotCalls z c (qs.map fun q => match q.2 with
          | .inl x => ⟨N, q.1, x⟩
          | .inr a => ⟨1, q.1, fun _ => a⟩) =
        .ok (qs.map fun q => match q.2 with
          | .inl x => rotValue b q.1 x
          | .inr a => a * a) := by
    induction qs with
    | nil => intro c _; rfl
    | cons q qs ih =>
      intro c hc
      obtain ⟨f, x | a⟩ := q
      · have h1 : rotCall z c f x = .ok (rotValue b f x, some ⟨N, b⟩) := by
          rcases hc with rfl | rfl
          · rw [rotCall_first z f x hN hr, rotCall_value z b f x hN]
          · exact rotCall_value z b f x hN
        rw [List.map_cons, List.map_cons]
        unfold rotCalls
        simp only
        rw [h1, Out.ok_bind, ih _ (Or.inr rfl)]
        rfl
      · have h1 : rotCall z c f (fun _ : Fin 1 => a) = .ok (a * a, c) := by
          unfold rotCall
          rw [if_pos rfl]
          rfl
        rw [List.map_cons, List.map_cons]
        unfold rotCalls
        simp only
        rw [h1, Out.ok_bind, ih _ hc]
        rfl
  exact key none (Or.inl rfl)

/-- **C119** is false of a process that goes on to a larger dimension: the second call reads outside the matrix, whichever functions
and points. -/
theorem C119_larger_false (z : (m : ℕ) → Fin m → Vec m) (M N : ℕ) (hM : M ≠ 1) (hMN : M < N) (hN : N ≠ 1)
    (hz : ∃ rows, basisRows (List.ofFn (z M)).reverse = .ok rows) (f g : RotFunc) (x : Vec M) (y : Vec N) :
    rotCalls z none [⟨M, f, x⟩, ⟨N, g, y⟩] = .error .ub := by
  obtain ⟨rows, hr⟩ := hz
  obtain ⟨b, rfl⟩ := basis_rows hr
  unfold rotCalls
  simp only
  rw [rotCall_first z f x hM hr, rotCall_value z b f x hM, Out.ok_bind]
  unfold rotCalls
  simp only
  rw [rotCall_out z ⟨M, b⟩ g y hN hMN]
  rfl

/-- **C119** is false of a process that goes on to a smaller dimension, if one of the first `N` rows of the matrix has a part
beyond the first `N` columns: all further calls are answered, but the values of `ellirot` in dimension `N` are those of no rotated
ellipsoid. -/
theorem C119_smaller_false (z : (m : ℕ) → Fin m → Vec m) (M N : ℕ) (hN : N ≠ 1) (hMN : N < M) (hM : M ≠ 1) (b : Fin M → Vec M)
    (hz : basisRows (List.ofFn (z M)).reverse = .ok (List.ofFn b).reverse) (i k : Fin M) (hi : (i : ℕ) < N) (hk : N ≤ (k : ℕ))
    (hik : b i k ≠ 0) :
    ∃ v : Vec N → ℝ, (∀ f x y, rotCalls z none [⟨M, f, x⟩, ⟨N, .ellirot, y⟩] = .ok [rotValue b f x, v y]) ∧
      ¬ ∃ b' : Fin N → Vec N, OrthonormalRows b' ∧ ∀ y, v y = rotValue b' .ellirot y := by
  have hb := basis_orthonormal hz
  set B : Basis := ⟨M, b⟩ with hB
  refine ⟨fun y => ∑ i ∈ range N, RotFunc.ellirot.term N i (∑ k ∈ range N, B.at0 i k * Bench.ext y k), ?_, ?_⟩
  · intro f x y
    unfold rotCalls
    simp only
    rw [rotCall_first z f x hM hz, rotCall_value z b f x hM, Out.ok_bind]
    unfold rotCalls
    simp only
    rw [rotCall_in z B .ellirot y hN hMN.le]
    rfl
  · rintro ⟨b', ho, hv⟩
    let w : Fin N → ℝ := fun i => Real.exp (Real.log 1e3 * 2 * (i : ℕ) / ((N : ℝ) - 1))
    have hw : ∀ i, 0 < w i := fun i => Real.exp_pos _
    -- the sum over the unit points
    have s1 : ∑ l : Fin N, rotValue b' .ellirot (Pi.single l 1) = ∑ i, w i := by
      show ∑ l : Fin N, ∑ i : Fin N, w i * (b' i ⬝ᵥ Pi.single l 1) ^ 2 = _
      rw [sum_comm]
      refine sum_congr rfl fun i _ => ?_
      rw [← mul_sum]
      have : ∑ l : Fin N, (b' i ⬝ᵥ Pi.single l 1) ^ 2 = b' i ⬝ᵥ b' i := by
        refine sum_congr rfl fun l _ => ?_
        rw [dotProduct_single, mul_one, sq]
      rw [this, ho, if_pos rfl, mul_one]
    have s2 : ∑ l : Fin N, (∑ i ∈ range N, RotFunc.ellirot.term N i (∑ k ∈ range N, B.at0 i k * Bench.ext (Pi.single l 1 : Vec N) k)) =
        ∑ i : Fin N, w i * ∑ l : Fin N, B.at0 i l ^ 2 := by
      have h1 : ∀ l : Fin N, (∑ i ∈ range N, RotFunc.ellirot.term N i (∑ k ∈ range N, B.at0 i k * Bench.ext (Pi.single l 1 : Vec N) k)) =
          ∑ i : Fin N, w i * B.at0 i l ^ 2 := by
        intro l
        rw [← Fin.sum_univ_eq_sum_range (fun i => RotFunc.ellirot.term N i (∑ k ∈ range N, B.at0 i k * Bench.ext (Pi.single l 1 : Vec N) k))]
        refine sum_congr rfl fun i _ => ?_
        rw [← Fin.sum_univ_eq_sum_range (fun k => B.at0 i k * Bench.ext (Pi.single l 1 : Vec N) k)]
        have : ∑ k : Fin N, B.at0 i k * Bench.ext (Pi.single l 1 : Vec N) k = B.at0 i l := by
          rw [Finset.sum_eq_single l]
          · rw [ext_val, Pi.single_eq_same, mul_one]
          · intro k _ hk
            rw [ext_val, Pi.single_eq_of_ne hk, mul_zero]
          · intro h; exact absurd (mem_univ l) h
        rw [this]
        show elliScale N i * _ * _ = _
        unfold elliScale
        rw [Nat.cast_sub (by have := i.2; omega), Nat.cast_one, mul_assoc, ← sq]
      rw [sum_congr rfl fun l _ => h1 l, sum_comm]
      exact sum_congr rfl fun i _ => (mul_sum _ _ _).symm
    have hrow : ∀ j : Fin N, ∑ l : Fin N, B.at0 j l ^ 2 = 1 - ∑ l ∈ range M \ range N, B.at0 j l ^ 2 := by
      intro j
      have h1 : ∑ l ∈ range M, B.at0 j l ^ 2 = 1 := by
        rw [← Fin.sum_univ_eq_sum_range (fun l => B.at0 j l ^ 2)]
        have : b ⟨j, by omega⟩ ⬝ᵥ b ⟨j, by omega⟩ = 1 := by rw [hb, if_pos rfl]
        rw [← this]
        refine sum_congr rfl fun l _ => ?_
        unfold Basis.at0
        rw [dif_pos ⟨by show (j : ℕ) < M; omega, l.2⟩, sq]
      rw [Fin.sum_univ_eq_sum_range (fun l => B.at0 j l ^ 2), ← h1,
        ← Finset.sum_sdiff (Finset.range_subset_range.2 hMN.le)]
      ring
    have hlt : ∑ i : Fin N, w i * ∑ l : Fin N, B.at0 i l ^ 2 < ∑ i, w i := by
      refine Finset.sum_lt_sum (fun j _ => ?_) ⟨⟨i, hi⟩, mem_univ _, ?_⟩
      · rw [hrow]
        have : 0 ≤ ∑ l ∈ range M \ range N, B.at0 j l ^ 2 := sum_nonneg fun _ _ => sq_nonneg _
        have := hw j
        nlinarith
      · rw [hrow]
        have h2 : 0 < ∑ l ∈ range M \ range N, B.at0 i l ^ 2 := by
          refine sum_pos' (fun _ _ => sq_nonneg _) ⟨k, ?_, ?_⟩
          · rw [mem_sdiff, mem_range, mem_range]; exact ⟨k.2, by omega⟩
          · unfold Basis.at0
            rw [dif_pos ⟨i.2, k.2⟩]
            exact lt_of_le_of_ne (sq_nonneg _) (Ne.symm (pow_ne_zero 2 hik))
        have := hw ⟨i, hi⟩
        nlinarith
    rw [← s2, ← s1] at hlt
    exact absurd (sum_congr rfl fun l _ => hv (Pi.single l 1)) hlt.ne

/-- Draws that meet the hypotheses of all three theorems, for all dimensions: the unit vectors, from the second on and the first
last. -/
theorem C119_case : ∃ z : (m : ℕ) → Fin m → Vec m, ∀ M, basisRows (List.ofFn (z M)).reverse = .ok (List.ofFn (z M)).reverse ∧
    ∀ N, 1 ≤ N → N < M → ∃ i k : Fin M, (i : ℕ) < N ∧ N ≤ (k : ℕ) ∧ z M i k ≠ 0 := by
  refine ⟨fun m i => Pi.single (finRotate m i) 1, fun M => ⟨basisRows_orthonormal_draws fun i j => ?_, fun N h1 h2 => ?_⟩⟩
  · show Pi.single (finRotate M i) (1 : ℝ) ⬝ᵥ Pi.single (finRotate M j) 1 = _
    rw [dotProduct_single, mul_one, Pi.single_apply]
    refine if_congr ?_ rfl rfl
    rw [(finRotate M).injective.eq_iff]
    exact eq_comm
  · obtain ⟨m, rfl⟩ : ∃ m, M = m + 1 := ⟨M - 1, by omega⟩
    refine ⟨⟨N - 1, by omega⟩, ⟨N, h2⟩, by show N - 1 < N; omega, le_rfl, ?_⟩
    have : finRotate (m + 1) ⟨N - 1, by omega⟩ = ⟨N, h2⟩ := by
      rw [finRotate_of_lt (by omega)]
      exact Fin.ext (by show N - 1 + 1 = N; omega)
    show (Pi.single (finRotate (m + 1) ⟨N - 1, by omega⟩) (1 : ℝ) : Vec (m + 1)) ⟨N, h2⟩ ≠ 0
    rw [this, Pi.single_eq_same]
    exact one_ne_zero

end Libcmaes
