import Verif.Spec.Rsvm
import Verif.Lemmas.Out
import Mathlib.Tactic.Linarith
import Mathlib.Tactic.Positivity
import Mathlib.Tactic.FieldSimp
import Mathlib.Tactic.Ring
import Mathlib.Tactic.NormNum

/-! # Lemmas on the ranking SVM -/

namespace Libcmaes

open Matrix

variable {n m k : ℕ}

theorem svmDK_eq_pairK (K : Mat (m + 1)) (i j : Fin m) : svmDK K i j = Spec.pairK K i j := by
  simp only [svmDK, Spec.pairK]; ring

theorem kernelMat_symm {K : Vec n → Vec n → ℝ} {x : Pts n k} (i j : Fin k) :
    kernelMat K x i j = kernelMat K x j i := by
  rcases lt_trichotomy i j with h | h | h
  · simp [kernelMat, h.le, not_le.2 h]
  · rw [h]
  · simp [kernelMat, h.le, not_le.2 h]

theorem svmDK_symm {K : Mat (m + 1)} (h : ∀ i j, K i j = K j i) (i j : Fin m) :
    svmDK K i j = svmDK K j i := by
  simp only [svmDK]
  rw [h i.castSucc j.castSucc, h i.castSucc j.succ, h i.succ j.castSucc, h i.succ j.succ]; ring

theorem svmDK_diag {K : Vec n → Vec n → ℝ} {x : Pts n (m + 1)} (i : Fin m) :
    svmDK (kernelMat K x) i i =
      K (x i.castSucc) (x i.castSucc) - 2 * K (x i.castSucc) (x i.succ) + K (x i.succ) (x i.succ) := by
  have h1 : i.castSucc ≤ i.succ := Fin.castSucc_lt_succ.le
  have h2 : ¬ i.succ ≤ i.castSucc := not_le.2 Fin.castSucc_lt_succ
  simp only [svmDK, kernelMat, le_refl, if_true, h1, h2, if_false]; ring

theorem sqNorm_nonneg' (x : Vec n) : 0 ≤ sqNorm x :=
  Finset.sum_nonneg fun i _ => mul_self_nonneg (x i)

theorem linearK_gap (x y : Vec n) :
    linearK x x - 2 * linearK x y + linearK y y = sqNorm (x - y) := by
  simp only [linearK, dotProduct, sqNorm, Finset.mul_sum, ← Finset.sum_sub_distrib,
    ← Finset.sum_add_distrib, Pi.sub_apply]
  exact Finset.sum_congr rfl fun i _ => by ring

theorem cauchy (x y : Vec n) : (x ⬝ᵥ y) ^ 2 ≤ (x ⬝ᵥ x) * (y ⬝ᵥ y) := by
  have h := Finset.sum_mul_sq_le_sq_mul_sq Finset.univ x y
  simpa [dotProduct, sq] using h

theorem polyK_gap {d : ℕ} {c : ℤ} (hc : 0 ≤ c) (x y : Vec n) :
    0 ≤ polyK d c x x - 2 * polyK d c x y + polyK d c y y := by
  simp only [polyK]
  have hc' : (0 : ℝ) ≤ c := by exact_mod_cast hc
  have hx : 0 ≤ x ⬝ᵥ x := sqNorm_nonneg' x
  have hy : 0 ≤ y ⬝ᵥ y := sqNorm_nonneg' y
  set a := x ⬝ᵥ x + c
  set b := y ⬝ᵥ y + c
  have ha : 0 ≤ a := by positivity
  have hb : 0 ≤ b := by positivity
  have hxy := cauchy x y
  have hlin : 0 ≤ x ⬝ᵥ x - 2 * (x ⬝ᵥ y) + y ⬝ᵥ y := by
    have := linearK_gap x y
    simp only [linearK] at this
    rw [this]; exact sqNorm_nonneg' _
  have hsq : (x ⬝ᵥ y + c) ^ 2 ≤ a * b := by
    have : a * b - (x ⬝ᵥ y + c) ^ 2 =
        ((x ⬝ᵥ x) * (y ⬝ᵥ y) - (x ⬝ᵥ y) ^ 2) + c * (x ⬝ᵥ x - 2 * (x ⬝ᵥ y) + y ⬝ᵥ y) := by
      simp only [a, b]; ring
    nlinarith [mul_nonneg hc' hlin]
  have hpow : ((x ⬝ᵥ y + c) ^ d) ^ 2 ≤ a ^ d * b ^ d := by
    rw [← pow_mul, mul_comm d 2, pow_mul, ← mul_pow]
    exact pow_le_pow_left₀ (sq_nonneg _) hsq d
  have hA : 0 ≤ a ^ d := pow_nonneg ha d
  have hB : 0 ≤ b ^ d := pow_nonneg hb d
  set t := (x ⬝ᵥ y + (c : ℝ)) ^ d
  by_contra hneg
  push Not at hneg
  have h1 : a ^ d + b ^ d < 2 * t := by linarith
  have h2 : (a ^ d + b ^ d) ^ 2 < (2 * t) ^ 2 := by
    apply pow_lt_pow_left₀ h1 (by positivity) (by norm_num)
  nlinarith [sq_nonneg (a ^ d - b ^ d)]

theorem rbfK_self (g : ℝ) (x : Vec n) : rbfK g x x = 1 := by simp [rbfK, sqNorm]

theorem rbfK_gap (g : ℝ) (x y : Vec n) :
    rbfK g x x - 2 * rbfK g x y + rbfK g y y = 2 - 2 * Real.exp (-g * sqNorm (x - y)) := by
  rw [rbfK_self, rbfK_self, rbfK]; ring

theorem divR_eq_ok {a b c : ℝ} (h : divR a b = .ok c) : b ≠ 0 ∧ c = a / b := by
  simp only [divR] at h
  split_ifs at h with hb
  injection h with h
  exact ⟨hb, h.symm⟩

theorem rbfInit_pos {a b g : ℝ} {x : Pts n k} (h : rbfInit a b x = .ok g) : 0 < g := by
  simp only [rbfInit] at h
  obtain ⟨v, _, h⟩ := Out.bind_eq_ok.1 h
  obtain ⟨hne, rfl⟩ := divR_eq_ok h
  have : a * v ^ b ≠ 0 := fun h0 => hne (by rw [h0]; ring)
  have hp : 0 < (a * v ^ b) * (a * v ^ b) := mul_self_pos.2 this
  have : 0 < 2 * (a * v ^ b) * (a * v ^ b) := by linarith
  positivity

theorem kernel_gap {q : Kernel} (hq : q.Sound) {z : Pts n k} {kf : Vec n → Vec n → ℝ}
    (h : q.init z = .ok kf) (x y : Vec n) : 0 ≤ kf x x - 2 * kf x y + kf y y := by
  cases q with
  | linear =>
    injection h with h; subst h
    rw [linearK_gap]; exact sqNorm_nonneg' _
  | poly d c =>
    injection h with h; subst h
    exact polyK_gap hq x y
  | rbf a b =>
    obtain ⟨g, hg, h⟩ := Out.bind_eq_ok.1 h
    injection h with h; subst h
    rw [rbfK_gap]
    have := rbfInit_pos hg
    have hn := sqNorm_nonneg' (x - y)
    have : Real.exp (-g * sqNorm (x - y)) ≤ 1 := by
      rw [Real.exp_le_one_iff]; nlinarith
    linarith

/-- Dual objective in matrix form. -/
theorem dual_eq {K : Mat (m + 1)} {eps : ℝ} (a : Vec m) :
    Spec.dual K eps a = eps * ∑ i, a i - 1 / 2 * (a ⬝ᵥ (svmDK K).mulVec a) := by
  simp only [Spec.dual, dotProduct, mulVec, Finset.mul_sum]
  congr 1
  refine Finset.sum_congr rfl fun i _ => Finset.sum_congr rfl fun j _ => ?_
  rw [svmDK_eq_pairK]; ring

/-- The gain of moving one multiplier. -/
theorem dual_update {K : Mat (m + 1)} (hs : ∀ i j, svmDK K i j = svmDK K j i) {eps : ℝ} (a : Vec m)
    (i : Fin m) (v : ℝ) :
    Spec.dual K eps (Function.update a i v) = Spec.dual K eps a
      + (v - a i) * (eps - ∑ j, a j * svmDK K i j) - 1 / 2 * (v - a i) ^ 2 * svmDK K i i := by
  have hu : Function.update a i v = a + Pi.single i (v - a i) := by
    funext j
    by_cases hj : j = i
    · subst hj; simp
    · simp [Function.update_of_ne hj, Pi.single_eq_of_ne hj]
  have hrow : (svmDK K).mulVec (Pi.single i (v - a i)) = fun j => (v - a i) * svmDK K i j := by
    funext j
    rw [mulVec_single, hs i j]; simp [mul_comm]
  rw [hu, dual_eq, dual_eq, mulVec_add, hrow]
  rw [dotProduct_add, add_dotProduct, add_dotProduct]
  have e1 : Pi.single i (v - a i) ⬝ᵥ (svmDK K).mulVec a = (v - a i) * ∑ j, a j * svmDK K i j := by
    rw [single_dotProduct]; simp only [mulVec, dotProduct]
    congr 1; exact Finset.sum_congr rfl fun j _ => mul_comm _ _
  have e2 : a ⬝ᵥ (fun j => (v - a i) * svmDK K i j) = (v - a i) * ∑ j, a j * svmDK K i j := by
    simp only [dotProduct, Finset.mul_sum]
    exact Finset.sum_congr rfl fun j _ => by ring
  have e3 : Pi.single i (v - a i) ⬝ᵥ (fun j => (v - a i) * svmDK K i j)
      = (v - a i) * ((v - a i) * svmDK K i i) := single_dotProduct _ _ _
  have e4 : ∑ j, (a + Pi.single i (v - a i) : Vec m) j = ∑ j, a j + (v - a i) := by
    simp [Finset.sum_add_distrib]
  rw [e1, e2, e3, e4]; ring

/-- What holds throughout `optimize`. -/
structure SvmInv (eps : ℝ) (dK : Mat m) (c : Vec m) (s : SvmState m) : Prop where
  box : ∀ i, 0 ≤ s.alpha i ∧ s.alpha i ≤ c i
  sums : ∀ i, s.sums i * dK i i = eps - ∑ j, s.alpha j * dK i j

theorem svmStep_inv {eps : ℝ} {K : Mat (m + 1)} {c : Vec m} {s s' : SvmState m} {i : ℕ}
    (hs : ∀ i j, svmDK K i j = svmDK K j i) (hd : ∀ i, 0 < svmDK K i i) (hc : ∀ i, 0 ≤ c i)
    (hi : SvmInv eps (svmDK K) c s) (h : svmStep eps (svmDK K) c s i = .ok s') :
    SvmInv eps (svmDK K) c s' ∧ Spec.dual K eps s.alpha ≤ Spec.dual K eps s'.alpha := by
  simp only [svmStep] at h
  split_ifs at h with hm hdl
  · injection h with h
    subst h
    set i1 : Fin m := ⟨i % m, Nat.mod_lt i hm⟩
    set new := max (min (s.alpha i1 + s.sums i1) (c i1)) 0 with hnew
    have hb := hi.box i1
    refine ⟨⟨fun j => ?_, fun j => ?_⟩, ?_⟩
    · by_cases hj : j = i1
      · subst hj
        simp only [Function.update_self]
        exact ⟨le_max_right _ _, max_le (min_le_right _ _) (hc _)⟩
      · simp only [Function.update_of_ne hj]; exact hi.box j
    · have hne := (hd j).ne'
      have hsum : ∑ l, Function.update s.alpha i1 new l * svmDK K j l
          = ∑ l, s.alpha l * svmDK K j l + (new - s.alpha i1) * svmDK K j i1 := by
        have hu : ∀ l, Function.update s.alpha i1 new l
            = s.alpha l + (Pi.single i1 (new - s.alpha i1) : Vec m) l := by
          intro l
          by_cases hl : l = i1
          · subst hl; simp
          · simp [Function.update_of_ne hl, Pi.single_eq_of_ne hl]
        simp only [hu, add_mul, Finset.sum_add_distrib]
        congr 1
        rw [Finset.sum_eq_single i1]
        · simp
        · intro l _ hl; simp [Pi.single_eq_of_ne hl]
        · simp
      show (s.sums j - (new - s.alpha i1) * svmDiv (svmDK K) i1 j) * svmDK K j j = _
      rw [hsum, svmDiv, sub_mul, hi.sums j, mul_assoc, div_mul_cancel₀ _ hne, hs i1 j]; ring
    · rw [dual_update hs, ← hi.sums i1]
      have hdi := hd i1
      set δ := new - s.alpha i1 with hδ
      have key : 0 ≤ δ * (s.sums i1 - δ / 2) := by
        rcases le_total 0 (s.sums i1) with hp | hp
        · have h1 : 0 ≤ δ := by
            have : s.alpha i1 ≤ new := by
              rw [hnew]; exact le_max_of_le_left (le_min (by linarith) hb.2)
            linarith
          have h2 : δ ≤ s.sums i1 := by
            have : new ≤ s.alpha i1 + s.sums i1 := by
              rw [hnew]; exact max_le (min_le_left _ _) (by linarith [hb.1])
            linarith
          exact mul_nonneg h1 (by linarith)
        · have h1 : δ ≤ 0 := by
            have : new ≤ s.alpha i1 := by
              rw [hnew]; exact max_le ((min_le_left _ _).trans (by linarith)) hb.1
            linarith
          have h2 : s.sums i1 ≤ δ := by
            have : s.alpha i1 + s.sums i1 ≤ new := by
              rw [hnew]
              exact le_max_of_le_left (le_min le_rfl (by linarith [hb.2]))
            linarith
          exact mul_nonneg_of_nonpos_of_nonpos h1 (by linarith)
      nlinarith [mul_nonneg hdi.le key]
  · injection h with h
    subst h
    exact ⟨hi, le_rfl⟩

theorem svmC_nonneg {cval : ℝ} (h : 0 ≤ cval) (i : Fin m) : 0 ≤ svmC cval m i :=
  mul_nonneg h (sq_nonneg _)

theorem svmInv_start {cfg : SvmConfig} (hc : 0 ≤ cfg.cval) {dK : Mat m} (hd : ∀ i, dK i i ≠ 0)
    {u : Vec m} (hu : ∀ i, 0 ≤ u i ∧ u i ≤ 1) :
    SvmInv cfg.epsilon dK (svmC cfg.cval m)
      ⟨svmAlpha0 (svmC cfg.cval m) u, svmSums0 cfg.epsilon dK (svmAlpha0 (svmC cfg.cval m) u)⟩ where
  box i := by
    have h0 := svmC_nonneg (m := m) hc i
    have := hu i
    constructor
    · exact mul_nonneg h0 (by nlinarith)
    · calc svmC cfg.cval m i * (0.95 + 0.05 * u i) ≤ svmC cfg.cval m i * 1 :=
          mul_le_mul_of_nonneg_left (by nlinarith) h0
        _ = _ := mul_one _
  sums i := div_mul_cancel₀ _ (hd i)

theorem svmLoop_inv {eps : ℝ} {K : Mat (m + 1)} {c : Vec m} {s : SvmState m}
    (hs : ∀ i j, svmDK K i j = svmDK K j i) (hd : ∀ i, 0 < svmDK K i i) (hc : ∀ i, 0 ≤ c i)
    (hi : SvmInv eps (svmDK K) c s) : ∀ (l : List ℕ) {s' : SvmState m},
    l.foldlM (svmStep eps (svmDK K) c) s = .ok s' →
    SvmInv eps (svmDK K) c s' ∧ Spec.dual K eps s.alpha ≤ Spec.dual K eps s'.alpha := by
  intro l
  induction l generalizing s with
  | nil => intro s' h; injection h with h; subst h; exact ⟨hi, le_rfl⟩
  | cons i l ih =>
    intro s' h
    rw [List.foldlM_cons] at h
    obtain ⟨s1, h1, h2⟩ := Out.bind_eq_ok.1 h
    obtain ⟨hi1, hd1⟩ := svmStep_inv hs hd hc hi h1
    obtain ⟨hi2, hd2⟩ := ih hi1 h2
    exact ⟨hi2, hd1.trans hd2⟩

theorem svmLoop_total {eps : ℝ} {dK : Mat m} {c : Vec m} (hm : 0 < m) :
    ∀ (l : List ℕ) (s : SvmState m), ∃ s', l.foldlM (svmStep eps dK c) s = .ok s' := by
  intro l
  induction l with
  | nil => intro s; exact ⟨s, rfl⟩
  | cons i l ih =>
    intro s
    rw [List.foldlM_cons]
    have : ∃ s1, svmStep eps dK c s i = .ok s1 := by
      simp only [svmStep, hm, dif_pos]
      split_ifs
      · exact ⟨_, rfl⟩
      · exact ⟨_, rfl⟩
    obtain ⟨s1, h1⟩ := this
    rw [h1]
    exact ih s1

end Libcmaes
