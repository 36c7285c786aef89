import Verif.Lemmas.Good

/-! # With the default population size the rates keep the covariance positive definite -/

namespace Libcmaes

open Finset Spec

variable {n : ℕ}

/-- The default `mu` is at most `3 sqrt(dim) - 1`. -/
theorem default_mu_le (hn : 1 ≤ n) {lambda : ℤ} (hl : lambda < 2) {l : ℕ} (h : lambdaOf n lambda = .ok l) :
    ((l / 2 : ℕ) : ℝ) ≤ 3 * Real.sqrt n - 1 := by
  unfold lambdaOf at h
  rw [if_pos hl, if_neg (by omega)] at h
  injection h with h
  have hn' : (1 : ℝ) ≤ n := by exact_mod_cast hn
  have hlog : 0 ≤ Real.log n := Real.log_nonneg hn'
  have hfl : 0 ≤ ⌊3 * Real.log n⌋ := Int.floor_nonneg.2 (by linarith)
  have hle : (l : ℝ) ≤ 4 + 3 * Real.log n := by
    have h1 : (l : ℤ) = 4 + ⌊3 * Real.log n⌋ := by omega
    have h2 : (l : ℝ) = 4 + ⌊3 * Real.log n⌋ := by exact_mod_cast h1
    rw [h2]
    have := Int.floor_le (3 * Real.log n)
    linarith
  have hs : 0 < Real.sqrt n := Real.sqrt_pos.2 (by linarith)
  have hl2 : Real.log n ≤ 2 * (Real.sqrt n - 1) := by
    have h1 := Real.log_le_sub_one_of_pos hs
    rw [Real.log_sqrt (by linarith)] at h1
    linarith
  have hd : ((l / 2 : ℕ) : ℝ) ≤ l / 2 := Nat.cast_div_le
  linarith

/-- Twice the default population is at most `(dim+2)²`. -/
theorem default_lambda_le (hn : 1 ≤ n) {lambda : ℤ} (hl : lambda < 2) {l : ℕ} (h : lambdaOf n lambda = .ok l) :
    l * 2 ≤ (n + 2) ^ 2 := by
  unfold lambdaOf at h
  rw [if_pos hl, if_neg (by omega)] at h
  injection h with h
  have hn' : (1 : ℝ) ≤ n := by exact_mod_cast hn
  have hlog : 0 ≤ Real.log n := Real.log_nonneg hn'
  have hfl : 0 ≤ ⌊3 * Real.log n⌋ := Int.floor_nonneg.2 (by linarith)
  have hle : (l : ℝ) ≤ 4 + 3 * Real.log n := by
    have h1 : (l : ℤ) = 4 + ⌊3 * Real.log n⌋ := by omega
    have h2 : (l : ℝ) = 4 + ⌊3 * Real.log n⌋ := by exact_mod_cast h1
    rw [h2]
    have := Int.floor_le (3 * Real.log n)
    linarith
  have h2 := Real.log_le_sub_one_of_pos (show (0 : ℝ) < n by linarith)
  have : ((l * 2 : ℕ) : ℝ) ≤ ((n + 2) ^ 2 : ℕ) := by
    push_cast
    nlinarith [sq_nonneg ((n : ℝ) - 1)]
  exact_mod_cast this

theorem default_muw_le {x0 : Vec n} {sigma : ℝ} {lambda : ℤ} {seed clock : ℕ} {gp : GenoPheno}
    {p : Params n} (hl : lambda < 2) (h : Params.make x0 sigma lambda seed clock gp = .ok p) :
    ∃ q : Params n, InitSpec q p ∧ p.muw ≤ 3 * Real.sqrt n - 1 := by
  unfold Params.make at h
  obtain ⟨l, h1, h⟩ := Out.bind_eq_ok.1 h
  have hs := initializeParameters_spec h
  refine ⟨_, hs, ?_⟩
  have hmu : p.mu = l / 2 := hs.mu
  have h2 : p.muw ≤ p.mu := by rw [hs.muw]; exact muwOf_le hs.mu_pos
  rw [hmu] at h2
  exact h2.trans (default_mu_le hs.n_pos hl h1)

theorem strictRates_default {x0 : Vec n} {sigma : ℝ} {lambda : ℤ} {seed clock : ℕ} {gp : GenoPheno}
    {p : Params n} (hl : lambda < 2) (h : Params.make x0 sigma lambda seed clock gp = .ok p) :
    StrictRates p ∧ StrictRates p.setSep := by
  obtain ⟨q, hs, hm⟩ := default_muw_le hl h
  have hn := hs.n_real
  have h1 := hs.one_le_muw
  have h3 := hs.c1_lt
  have h4 := hs.c1_pos
  obtain ⟨s, hsq, hs1⟩ : ∃ s : ℝ, (n : ℝ) = s ^ 2 ∧ 1 ≤ s ∧ Real.sqrt n = s :=
    ⟨Real.sqrt n, (Real.sq_sqrt (by linarith)).symm, by rw [Real.one_le_sqrt]; exact hn, rfl⟩
  obtain ⟨hs1, hs2⟩ := hs1
  rw [hs2] at hm
  have hinv : 1 / p.muw ≤ 1 := by rw [div_le_one (by linarith)]; exact h1
  constructor
  · have hc : p.cmu ≤ 1 / 4 := by
      rw [hs.cmu]
      refine (min_le_right _ _).trans ?_
      rw [div_le_div_iff₀ (by positivity) (by norm_num), hsq]
      nlinarith [sq_nonneg (s ^ 2 - 2), sq_nonneg (s - 21 / 16)]
    constructor
    · linarith
    · linarith
  · have hc1 : p.setSep.c1 < 1 / 3 := by
      show p.c1 * (((n : ℝ) + 2) / 3) < 1 / 3
      rw [hs.c1, div_mul_div_comm, div_lt_div_iff₀ (by positivity) (by norm_num)]
      nlinarith
    have hcmu : p.setSep.cmu ≤ 0.4 := by
      show min _ _ ≤ _
      refine (min_le_right _ _).trans ?_
      rw [hs2, div_le_iff₀ (by positivity), hsq]
      nlinarith [sq_nonneg (s - 1)]
    constructor
    · norm_num at hcmu; linarith
    · norm_num at hcmu ⊢; linarith

end Libcmaes
