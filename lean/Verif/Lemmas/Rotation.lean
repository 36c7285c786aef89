import Verif.Spec.Rotation
import Verif.Lemmas.Neutral

/-!
# The published equations commute with rotations
-/

namespace Libcmaes

open Spec Matrix Finset

variable {n : ℕ} {R : Mat n}

theorem Spec.Rotation.symm (h : Rotation R) : Rᵀ * R = 1 := mul_eq_one_comm.1 h

theorem Spec.Rotation.back (h : Rotation R) (x : Vec n) : Rᵀ.mulVec (R.mulVec x) = x := by
  rw [mulVec_mulVec, h.symm, one_mulVec]

theorem Spec.Rotation.dot (h : Rotation R) (x y : Vec n) : R.mulVec x ⬝ᵥ R.mulVec y = x ⬝ᵥ y := by
  rw [dotProduct_mulVec, ← mulVec_transpose, h.back]

theorem Spec.Rotation.len (h : Rotation R) (x : Vec n) : Spec.len (R.mulVec x) = Spec.len x := by
  unfold Spec.len
  congr 1
  have := h.dot x x
  unfold dotProduct at this
  simpa only [pow_two] using this

/-- Positive definite roots of the same matrix are equal. -/
theorem root_unique {A B : Mat n} (hA : PD A) (hB : PD B) (h : A * A = B * B) : A = B := by
  set D := A - B with hD
  have hs : Dᵀ = D := by rw [hD, transpose_sub, hA.symm, hB.symm]
  have h0 : A * D + D * B = 0 := by
    rw [hD, Matrix.mul_sub, Matrix.sub_mul, h]
    abel
  have htr : trace (D * A * Dᵀ) + trace (D * B * Dᵀ) = 0 := by
    rw [hs, Matrix.trace_mul_comm (D * B), Matrix.mul_assoc, ← trace_add, ← Matrix.mul_add, h0, Matrix.mul_zero, trace_zero]
  have hq : ∀ (M : Mat n) (j : Fin n), (D * M * Dᵀ) j j = quad M (D.mulVec (Pi.single j 1)) := by
    intro M j
    have := quad_conj D M (Pi.single j 1)
    rw [hs] at this
    rw [← this, hs]
    unfold quad
    simp
  unfold trace at htr
  simp only [diag_apply, hq] at htr
  rw [← Finset.sum_add_distrib, Finset.sum_eq_zero_iff_of_nonneg fun j _ => add_nonneg (hA.psd.nonneg _) (hB.psd.nonneg _)] at htr
  have hz : D = 0 := by
    ext i j
    have h1 : D.mulVec (Pi.single j 1) = 0 := by
      by_contra hne
      have h2 := htr j (Finset.mem_univ _)
      have h3 := hA.pos _ hne
      have h4 := hB.pos _ hne
      linarith
    have := congrFun h1 i
    simpa using this
  exact sub_eq_zero.1 hz

theorem isInvSqrt_unique {C A B : Mat n} (hA : IsInvSqrt C A) (hB : IsInvSqrt C B) : A = B := by
  have h : ∀ {D : Mat n}, D * C * D = 1 → (D * D) * C = 1 ∧ C * (D * D) = 1 := by
    intro D h
    have h1 : D * (C * D) = 1 := by rw [← Matrix.mul_assoc]; exact h
    have h2 : C * D * D = 1 := mul_eq_one_comm.1 h1
    have h3 : C * (D * D) = 1 := by rw [← Matrix.mul_assoc]; exact h2
    exact ⟨mul_eq_one_comm.1 h3, h3⟩
  refine root_unique hA.pd hB.pd ?_
  have a := (h hA.inv).1
  have b := (h hB.inv).2
  calc A * A = A * A * (C * (B * B)) := by rw [b, Matrix.mul_one]
    _ = A * A * C * (B * B) := by rw [Matrix.mul_assoc (A * A)]
    _ = B * B := by rw [a, Matrix.one_mul]

theorem rotated_pd (h : Rotation R) {B : Mat n} (hB : PD B) : PD (R * B * Rᵀ) := by
  refine ⟨?_, fun x hx => ?_⟩
  · unfold Matrix.IsSymm
    rw [transpose_mul, transpose_mul, transpose_transpose, hB.symm, Matrix.mul_assoc]
  · rw [quad_conj]
    refine hB.pos _ fun h0 => hx ?_
    have : R.mulVec (Rᵀ.mulVec x) = 0 := by rw [h0, mulVec_zero]
    rwa [mulVec_mulVec, h, one_mulVec] at this

theorem rotated_invSqrt (h : Rotation R) {C B : Mat n} (hB : IsInvSqrt C B) : IsInvSqrt (R * C * Rᵀ) (R * B * Rᵀ) := by
  refine ⟨rotated_pd h hB.pd, ?_⟩
  calc R * B * Rᵀ * (R * C * Rᵀ) * (R * B * Rᵀ) = R * B * (Rᵀ * R) * C * (Rᵀ * R) * B * Rᵀ := by simp only [Matrix.mul_assoc]
    _ = R * (B * C * B) * Rᵀ := by rw [h.symm]; simp only [Matrix.mul_one, Matrix.mul_assoc]
    _ = 1 := by rw [hB.inv, Matrix.mul_one, h]

/-- The state turned by `R`. -/
def turned (R : Mat n) (st : CmaState n) : CmaState n := ⟨R.mulVec st.m, st.sigma, R.mulVec st.ps, R.mulVec st.pc⟩

theorem selStep_turned (st : CmaState n) (x : ℕ → Vec n) (i : ℕ) :
    selStep (turned R st) (fun i => R.mulVec (x i)) i = R.mulVec (selStep st x i) := by
  unfold selStep turned
  simp only
  rw [mulVec_smul, mulVec_sub]

theorem meanStep_turned (k : CmaConsts) (st : CmaState n) (x : ℕ → Vec n) :
    meanStep k (turned R st) (fun i => R.mulVec (x i)) = R.mulVec (meanStep k st x) := by
  unfold meanStep
  rw [mulVec_sum]
  exact Finset.sum_congr rfl fun i _ => by rw [selStep_turned, mulVec_smul]

theorem rankMu_turned (k : CmaConsts) (st : CmaState n) (x : ℕ → Vec n) :
    rankMuOf k (turned R st) (fun i => R.mulVec (x i)) = R * rankMuOf k st x * Rᵀ := by
  unfold rankMuOf
  rw [Matrix.mul_sum, Matrix.sum_mul]
  exact Finset.sum_congr rfl fun i _ => by
    rw [selStep_turned, Matrix.mul_smul, Matrix.smul_mul, mul_vecMulVec, vecMulVec_mul, vecMul_transpose]

theorem notStalled_turned (h : Rotation R) (k : CmaConsts) (g : ℕ) (ps : Vec n) :
    NotStalled k g (R.mulVec ps) ↔ NotStalled k g ps := by
  unfold NotStalled
  rw [h.len]

theorem cmaPaths_turned (h : Rotation R) {k : CmaConsts} {f : ℝ} {g : ℕ} {x : ℕ → Vec n} {z : Vec n} {a a' : ℝ}
    {st st1 st1' : CmaState n} (h1 : CmaPaths k f g x z a st st1)
    (h2 : CmaPaths k f g (fun i => R.mulVec (x i)) (R.mulVec z) a' (turned R st) st1') : st1' = turned R st1 ∧ a' = a := by
  have e1 : st1'.m = R.mulVec st1.m := by
    rw [h2.mean, h1.mean, meanStep_turned, mulVec_add, mulVec_smul]; rfl
  have e2 : st1'.ps = R.mulVec st1.ps := by
    rw [h2.ps, h1.ps, mulVec_add, mulVec_smul, mulVec_smul]; rfl
  have e3 : a' = a := by
    have := notStalled_turned h k g st1.ps
    rcases h1.hsig with ⟨b1, b2⟩ | ⟨b1, b2⟩ <;> rcases h2.hsig with ⟨c1, c2⟩ | ⟨c1, c2⟩
    · rw [b2, c2]
    · rw [e2, this] at c1; exact absurd b1 c1
    · rw [e2, this] at c1; exact absurd c1 b1
    · rw [b2, c2]
  have e4 : st1'.pc = R.mulVec st1.pc := by
    rw [h2.pc, h1.pc, meanStep_turned, mulVec_add, mulVec_smul, mulVec_smul, e3]; rfl
  have e5 : st1'.sigma = st1.sigma := by
    rw [h2.sigma, h1.sigma, e2, h.len]; rfl
  refine ⟨?_, e3⟩
  obtain ⟨m, s, ps, pc⟩ := st1'
  simp only at e1 e2 e4 e5
  rw [e1, e2, e4, e5]
  rfl

theorem vecMulVec_turned (x : Vec n) : vecMulVec (R.mulVec x) (R.mulVec x) = R * vecMulVec x x * Rᵀ := by
  rw [mul_vecMulVec, vecMulVec_mul, vecMul_transpose]

theorem covStep_turned {k : CmaConsts} {x : ℕ → Vec n} {a : ℝ} {st st1 : CmaState n} {C C1 C1' : Mat n}
    (h1 : CovStep k x a st st1 C C1)
    (h2 : CovStep k (fun i => R.mulVec (x i)) a (turned R st) (turned R st1) (R * C * Rᵀ) C1') : C1' = R * C1 * Rᵀ := by
  unfold CovStep at h1 h2
  rw [h1, h2, rankMu_turned]
  show _ + _ • vecMulVec (R.mulVec st1.pc) (R.mulVec st1.pc) + _ = _
  rw [vecMulVec_turned]
  simp only [Matrix.mul_add, Matrix.add_mul, Matrix.mul_smul, Matrix.smul_mul]

theorem activeStep_turned (h : Rotation R) {k : CmaConsts} {x : ℕ → Vec n} {st st1 : CmaState n} {C C1 C1' : Mat n}
    (h1 : ActiveStep k x st st1 C C1)
    (h2 : ActiveStep k (fun i => R.mulVec (x i)) (turned R st) (turned R st1) (R * C * Rᵀ) C1') : C1' = R * C1 * Rᵀ := by
  obtain ⟨c1, g1, e1⟩ := h1
  obtain ⟨c2, g2, e2⟩ := h2
  have hw : worst k (fun i => R.mulVec (x i)) = fun i => R.mulVec (worst k x i) := rfl
  rw [hw, rankMu_turned] at g2 e2
  have hset : ∀ c : ℝ, (∀ u, c * quad (R * rankMuOf k st (worst k x) * Rᵀ) u ≤ 0.34 * (1 - k.cmu) * quad (R * C * Rᵀ) u) ↔
      ∀ u, c * quad (rankMuOf k st (worst k x)) u ≤ 0.34 * (1 - k.cmu) * quad C u := by
    intro c
    constructor
    · intro hc u
      have := hc (R.mulVec u)
      rwa [quad_conj, quad_conj, h.back] at this
    · intro hc u
      rw [quad_conj, quad_conj]
      exact hc _
  simp only [hset] at g2
  rw [e2, e1, g2.unique g1, rankMu_turned]
  show _ + _ • vecMulVec (R.mulVec st1.pc) (R.mulVec st1.pc) + _ - _ = _
  rw [vecMulVec_turned]
  simp only [Matrix.mul_add, Matrix.add_mul, Matrix.mul_sub, Matrix.sub_mul, Matrix.mul_smul, Matrix.smul_mul]

end Libcmaes
