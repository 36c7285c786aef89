import Verif.Spec.Rotated
import Verif.Lemmas.Benchmarks

/-!
# Lemmas on the rotated benchmark functions
-/

namespace Libcmaes

open Matrix Spec Bench Finset

variable {n : ℕ}

/-- An entry of the kept matrix, 0 outside. -/
def Bench.Basis.at0 (b : Basis) (i k : ℕ) : ℝ := if h : i < b.dim ∧ k < b.dim then b.row ⟨i, h.1⟩ ⟨k, h.2⟩ else 0

theorem entry_in {b : Basis} {i k : ℕ} (hi : i < b.dim) (hk : k < b.dim) : b.entry i k = .ok (b.at0 i k) := by
  unfold Basis.entry Basis.at0
  rw [dif_pos ⟨hi, hk⟩, dif_pos ⟨hi, hk⟩]

theorem rotInner_in {b : Basis} (x : Vec n) {i : ℕ} (hi : i < b.dim) (m : ℕ) (hm : m ≤ b.dim) :
    rotInner b x i m = .ok (∑ k ∈ range m, b.at0 i k * Bench.ext x k) := by
  induction m with
  | zero => rfl
  | succ m ih =>
    unfold rotInner at ih ⊢
    rw [List.range_succ, List.foldlM_append, ih (by omega), Out.ok_bind, List.foldlM_cons, entry_in hi (by omega), sum_range_succ]
    rfl

theorem rotInner_out {b : Basis} (x : Vec n) (i m : ℕ) (hm : b.dim < m) : rotInner b x i m = .error .ub := by
  have he : b.entry i b.dim = .error .ub := by
    unfold Basis.entry
    rw [dif_neg (by omega)]
  have hs : ∀ m, rotInner b x i m = .error .ub ∨ ∃ v, rotInner b x i m = .ok v := by
    intro m
    induction m with
    | zero => exact Or.inr ⟨0, rfl⟩
    | succ m ih =>
      unfold rotInner at ih ⊢
      rw [List.range_succ, List.foldlM_append]
      rcases ih with h | ⟨v, h⟩
      · rw [h]; exact Or.inl rfl
      · rw [h, Out.ok_bind, List.foldlM_cons]
        by_cases hk : i < b.dim ∧ m < b.dim
        · rw [entry_in hk.1 hk.2]; exact Or.inr ⟨_, rfl⟩
        · rw [show b.entry i m = .error .ub by unfold Basis.entry; rw [dif_neg hk]]; exact Or.inl rfl
  induction m with
  | zero => omega
  | succ m ih =>
    by_cases h : b.dim < m
    · have := ih h
      unfold rotInner at this ⊢
      rw [List.range_succ, List.foldlM_append, this]
      rfl
    · have hd : m = b.dim := by omega
      have := hs m
      unfold rotInner at this ⊢
      rw [List.range_succ, List.foldlM_append]
      rcases this with h | ⟨v, h⟩
      · rw [h]; rfl
      · rw [h, Out.ok_bind, List.foldlM_cons, hd, he]; rfl

/-- A call finding a matrix that is large enough. -/
theorem rotCall_in (z : (m : ℕ) → Fin m → Vec m) (b : Basis) (f : RotFunc) (x : Vec n) (hn : n ≠ 1) (hd : n ≤ b.dim) :
    rotCall z (some b) f x =
      .ok (∑ i ∈ range n, f.term n i (∑ k ∈ range n, b.at0 i k * Bench.ext x k), some b) := by
  have h : ∀ m ≤ n, (List.range m).foldlM (fun val i => do let y ← rotInner b x i n; pure (val + f.term n i y)) (0 : ℝ) =
      (.ok (∑ i ∈ range m, f.term n i (∑ k ∈ range n, b.at0 i k * Bench.ext x k)) : Out ℝ) := by
    intro m hm
    induction m with
    | zero => rfl
    | succ m ih =>
      rw [List.range_succ, List.foldlM_append, ih (by omega), Out.ok_bind, List.foldlM_cons, rotInner_in x (by omega) n hd,
        sum_range_succ]
      rfl
  unfold rotCall
  rw [if_neg hn]
  rw [show orthogonalBasis z (some b) n = .ok b from rfl, Out.ok_bind, h n le_rfl]
  rfl

/-- A call finding a matrix that is too small. -/
theorem rotCall_out (z : (m : ℕ) → Fin m → Vec m) (b : Basis) (f : RotFunc) (x : Vec n) (hn : n ≠ 1) (hd : b.dim < n) :
    rotCall z (some b) f x = .error .ub := by
  unfold rotCall
  rw [if_neg hn]
  rw [show orthogonalBasis z (some b) n = .ok b from rfl, Out.ok_bind]
  obtain ⟨m, rfl⟩ : ∃ m, n = m + 1 := ⟨n - 1, by omega⟩
  rw [List.range_succ_eq_map, List.foldlM_cons, rotInner_out x 0 _ hd]
  rfl

theorem rotCall_first (z : (m : ℕ) → Fin m → Vec m) {b : Fin n → Vec n} (f : RotFunc) (x : Vec n) (hn : n ≠ 1)
    (hz : basisRows (List.ofFn (z n)).reverse = .ok (List.ofFn b).reverse) :
    rotCall z none f x = rotCall z (some ⟨n, b⟩) f x := by
  unfold rotCall
  rw [if_neg hn, if_neg hn]
  have : orthogonalBasis z none n = .ok ⟨n, b⟩ := by
    unfold orthogonalBasis
    simp only
    rw [hz, Out.ok_bind]
    show Except.ok _ = _
    congr 2
    funext i
    rw [List.reverse_reverse, List.getD_eq_getElem?_getD, List.getElem?_eq_getElem (by simp)]
    simp
  rw [this]
  rfl

/-- With a matrix of its own dimension a call returns the rotated function. -/
theorem rotCall_value (z : (m : ℕ) → Fin m → Vec m) (b : Fin n → Vec n) (f : RotFunc) (x : Vec n) (hn : n ≠ 1) :
    rotCall z (some ⟨n, b⟩) f x = .ok (rotValue b f x, some ⟨n, b⟩) := by
  rw [rotCall_in z _ f x hn le_rfl]
  have hy : ∀ i : Fin n, ∑ k ∈ range n, (⟨n, b⟩ : Basis).at0 i k * Bench.ext x k = b i ⬝ᵥ x := by
    intro i
    rw [← Fin.sum_univ_eq_sum_range (fun k => (⟨n, b⟩ : Basis).at0 i k * Bench.ext x k)]
    refine sum_congr rfl fun k _ => ?_
    rw [ext_val]
    unfold Basis.at0
    rw [dif_pos ⟨i.2, k.2⟩]
  rw [← Fin.sum_univ_eq_sum_range (fun i => f.term n i (∑ k ∈ range n, (⟨n, b⟩ : Basis).at0 i k * Bench.ext x k))]
  simp only [hy]
  cases f with
  | ellirot =>
    congr 2
    refine sum_congr rfl fun i _ => ?_
    show elliScale n i * _ * _ = _
    unfold elliScale
    rw [Nat.cast_sub (by have := i.2; omega), Nat.cast_one]
    ring
  | diffpowrot => rfl

theorem basis_orthonormal {zs : List (Vec n)} {b : Fin n → Vec n} (h : basisRows zs = .ok (List.ofFn b).reverse) :
    OrthonormalRows b := by
  obtain ⟨-, ho, hu⟩ := basisRows_orthonormal zs _ h
  rw [List.pairwise_reverse, List.pairwise_ofFn] at ho
  intro i j
  by_cases hij : i = j
  · subst hij
    rw [if_pos rfl]
    exact hu _ (by simp)
  · rw [if_neg hij]
    rcases lt_or_gt_of_ne hij with hl | hl
    · rw [dotProduct_comm]
      exact ho hl
    · exact ho hl

/-- The rows of a completed basis. -/
theorem basis_rows {z : Fin n → Vec n} {rows : List (Vec n)} (h : basisRows (List.ofFn z).reverse = .ok rows) :
    ∃ b : Fin n → Vec n, rows = (List.ofFn b).reverse := by
  obtain ⟨hl, -, -⟩ := basisRows_orthonormal _ _ h
  rw [List.length_reverse, List.length_ofFn] at hl
  refine ⟨fun i => rows.reverse.get ⟨i, by rw [List.length_reverse, hl]; exact i.2⟩, ?_⟩
  rw [eq_comm, List.reverse_eq_iff]
  refine List.ext_getElem (by simp [hl]) fun i h1 h2 => ?_
  simp

/-- Orthonormal draws are kept as they are. -/
theorem basisRows_same (zs : List (Vec n)) (ho : zs.Pairwise fun a b => a ⬝ᵥ b = 0) (hu : ∀ b ∈ zs, b ⬝ᵥ b = 1) :
    basisRows zs = .ok zs := by
  induction zs with
  | nil => rfl
  | cons v zs ih =>
    obtain ⟨h1, h2⟩ := List.pairwise_cons.1 ho
    have hd : ∀ l : List (Vec n), (∀ b ∈ l, v ⬝ᵥ b = 0) → deflate l v = v := by
      intro l hl
      induction l with
      | nil => rfl
      | cons a l ih' =>
        unfold deflate at ih' ⊢
        rw [List.foldl_cons, hl a List.mem_cons_self, zero_smul, sub_zero]
        exact ih' fun b hb => hl b (List.mem_cons_of_mem _ hb)
    unfold basisRows
    rw [ih h2 fun b hb => hu b (List.mem_cons_of_mem _ hb), Out.ok_bind]
    simp only
    rw [hd zs h1, sqNorm_dot, hu v List.mem_cons_self, if_neg one_ne_zero, Real.sqrt_one]
    simp

theorem basisRows_orthonormal_draws {b : Fin n → Vec n} (h : OrthonormalRows b) :
    basisRows (List.ofFn b).reverse = .ok (List.ofFn b).reverse := by
  refine basisRows_same _ ?_ ?_
  · rw [List.pairwise_reverse, List.pairwise_ofFn]
    intro i j hij
    rw [h, if_neg (by omega)]
  · intro v hv
    rw [List.mem_reverse, List.mem_ofFn] at hv
    obtain ⟨i, rfl⟩ := hv
    rw [h, if_pos rfl]

/-- Both rotated functions have their one minimum at the origin. -/
theorem rotValue_min {b : Fin n → Vec n} (h : OrthonormalRows b) (f : RotFunc) : UniqueMin (rotValue b f) 0 0 := by
  have hker : ∀ y : Vec n, (∀ i, b i ⬝ᵥ y = 0) → y = 0 := by
    intro y hy
    have hB : (Matrix.of b) * (Matrix.of b)ᵀ = 1 := by
      ext i j
      rw [Matrix.mul_apply, Matrix.one_apply, ← h i j]
      rfl
    have hB' := mul_eq_one_comm.1 hB
    have hz : (Matrix.of b) *ᵥ y = 0 := funext hy
    rw [← Matrix.one_mulVec y, ← hB', ← Matrix.mulVec_mulVec, hz, Matrix.mulVec_zero]
  have he : ∀ i : Fin n, 0 < 2 + 10 * (i : ℝ) / ((n : ℝ) - 1) := by
    intro i
    have hi := i.2
    have : (1 : ℝ) ≤ n := by exact_mod_cast (by omega : 1 ≤ n)
    have : 0 ≤ 10 * (i : ℝ) / ((n : ℝ) - 1) := div_nonneg (by positivity) (by linarith)
    linarith
  cases f with
  | ellirot =>
    have hp : ∀ (y : Vec n), ∀ i ∈ univ, 0 ≤ Real.exp (Real.log 1e3 * 2 * ((i : Fin n) : ℕ) / ((n : ℝ) - 1)) * (b i ⬝ᵥ y) ^ 2 :=
      fun y i _ => mul_nonneg (Real.exp_pos _).le (sq_nonneg _)
    refine ⟨by simp [rotValue], fun y => ⟨sum_nonneg (hp y), fun hy => hker y fun i => ?_⟩⟩
    have := (sum_eq_zero_iff_of_nonneg (hp y)).1 hy i (mem_univ i)
    rcases mul_eq_zero.1 this with h | h
    · exact absurd h (Real.exp_pos _).ne'
    · exact pow_eq_zero_iff (two_ne_zero) |>.1 h
  | diffpowrot =>
    have hp : ∀ (y : Vec n), ∀ i ∈ univ, 0 ≤ |b i ⬝ᵥ y| ^ (2 + 10 * ((i : Fin n) : ℝ) / ((n : ℝ) - 1)) :=
      fun y i _ => Real.rpow_nonneg (abs_nonneg _) _
    refine ⟨?_, fun y => ⟨sum_nonneg (hp y), fun hy => hker y fun i => ?_⟩⟩
    · show ∑ i : Fin n, _ = _
      refine sum_eq_zero fun i _ => ?_
      rw [dotProduct_zero, abs_zero, Real.zero_rpow (he i).ne']
    · have := (sum_eq_zero_iff_of_nonneg (hp y)).1 hy i (mem_univ i)
      rw [Real.rpow_eq_zero (abs_nonneg _) (he i).ne'] at this
      exact abs_eq_zero.1 this

end Libcmaes
