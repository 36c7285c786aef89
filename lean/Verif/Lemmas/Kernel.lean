import Verif.Lemmas.Rsvm
import Verif.Spec.Matrix
import Mathlib.Analysis.Matrix.Order
import Mathlib.Analysis.SpecialFunctions.Exponential

/-! # The kernel matrices of the ranking SVM are positive semi-definite -/

namespace Libcmaes

open Matrix

variable {n m k : ℕ}

theorem Spec.PSD.posSemidef {C : Mat k} (h : Spec.PSD C) : C.PosSemidef := by
  refine Matrix.PosSemidef.of_dotProduct_mulVec_nonneg ?_ fun x => ?_
  · have := h.symm
    rw [IsHermitian, conjTranspose_eq_transpose_of_trivial]; exact this
  · exact h.nonneg x

theorem Spec.psd_of_posSemidef {C : Mat k} (h : C.PosSemidef) : Spec.PSD C where
  symm := by
    have := h.isHermitian
    rw [IsHermitian, conjTranspose_eq_transpose_of_trivial] at this
    exact this
  nonneg x := h.dotProduct_mulVec_nonneg x

theorem quad_expand (C : Mat k) (a : Vec k) :
    Spec.quad C a = ∑ i, ∑ j, a i * a j * C i j := by
  simp only [Spec.quad, dotProduct, mulVec, Finset.mul_sum]
  exact Finset.sum_congr rfl fun i _ => Finset.sum_congr rfl fun j _ => by ring

theorem psd_const {c : ℝ} (hc : 0 ≤ c) : Spec.PSD (of fun _ _ => c : Mat k) where
  symm := by ext i j; rfl
  nonneg a := by
    rw [quad_expand]
    simp only [of_apply]
    have : ∑ i, ∑ j, a i * a j * c = c * (∑ i, a i) * (∑ i, a i) := by
      simp only [Finset.mul_sum, Finset.sum_mul]
      exact Finset.sum_congr rfl fun i _ => Finset.sum_congr rfl fun j _ => by ring
    rw [this, mul_assoc]
    exact mul_nonneg hc (mul_self_nonneg _)

theorem psd_linear (x : Pts n k) : Spec.PSD (of fun i j => x i ⬝ᵥ x j : Mat k) where
  symm := by ext i j; exact dotProduct_comm (x j) (x i)
  nonneg a := by
    rw [quad_expand]
    simp only [of_apply]
    have : ∑ i, ∑ j, a i * a j * (x i ⬝ᵥ x j) = ∑ l, (∑ i, a i * x i l) * (∑ i, a i * x i l) := by
      simp only [dotProduct, Finset.mul_sum, Finset.sum_mul]
      rw [show (∑ i, ∑ j, ∑ l, a i * a j * (x i l * x j l))
          = ∑ i, ∑ l, ∑ j, a i * a j * (x i l * x j l) from
        Finset.sum_congr rfl fun i _ => Finset.sum_comm]
      rw [Finset.sum_comm]
      refine Finset.sum_congr rfl fun l _ => ?_
      rw [Finset.sum_comm]
      exact Finset.sum_congr rfl fun i _ => Finset.sum_congr rfl fun j _ => by ring
    rw [this]
    exact Finset.sum_nonneg fun l _ => mul_self_nonneg _

theorem psd_add {A B : Mat k} (hA : Spec.PSD A) (hB : Spec.PSD B) :
    Spec.PSD (of fun i j => A i j + B i j) where
  symm := by
    ext i j
    have h1 : A j i = A i j := congrFun (congrFun hA.symm i) j
    have h2 : B j i = B i j := congrFun (congrFun hB.symm i) j
    show A j i + B j i = A i j + B i j
    rw [h1, h2]
  nonneg a := by
    have : Spec.quad (of fun i j => A i j + B i j) a = Spec.quad A a + Spec.quad B a := by
      simp only [quad_expand, of_apply, ← Finset.sum_add_distrib]
      exact Finset.sum_congr rfl fun i _ => Finset.sum_congr rfl fun j _ => by ring
    rw [this]
    exact add_nonneg (hA.nonneg a) (hB.nonneg a)

theorem psd_mul {A B : Mat k} (hA : Spec.PSD A) (hB : Spec.PSD B) :
    Spec.PSD (of fun i j => A i j * B i j) :=
  Spec.psd_of_posSemidef (hA.posSemidef.hadamard hB.posSemidef)

theorem psd_pow {A : Mat k} (hA : Spec.PSD A) (d : ℕ) : Spec.PSD (of fun i j => A i j ^ d) := by
  induction d with
  | zero => simpa using psd_const (k := k) zero_le_one
  | succ d ih => simpa only [pow_succ, of_apply] using psd_mul ih hA

theorem psd_exp {A : Mat k} (hA : Spec.PSD A) : Spec.PSD (of fun i j => Real.exp (A i j)) where
  symm := by
    ext i j
    have h1 : A j i = A i j := congrFun (congrFun hA.symm i) j
    show Real.exp (A j i) = Real.exp (A i j)
    rw [h1]
  nonneg a := by
    rw [quad_expand]
    simp only [of_apply]
    have hs : HasSum (fun q : ℕ => ∑ i, ∑ j, a i * a j * (A i j ^ q / q.factorial))
        (∑ i, ∑ j, a i * a j * Real.exp (A i j)) := by
      refine hasSum_sum fun i _ => hasSum_sum fun j _ => ?_
      have := NormedSpace.expSeries_div_hasSum_exp (A i j)
      rw [← Real.exp_eq_exp_ℝ] at this
      exact this.mul_left (a i * a j)
    refine hs.nonneg fun q => ?_
    have : ∑ i, ∑ j, a i * a j * (A i j ^ q / q.factorial)
        = (1 / (q.factorial : ℝ)) * Spec.quad (of fun i j => A i j ^ q) a := by
      rw [quad_expand]
      simp only [of_apply, Finset.mul_sum]
      exact Finset.sum_congr rfl fun i _ => Finset.sum_congr rfl fun j _ => by ring
    rw [this]
    exact mul_nonneg (by positivity) ((psd_pow hA q).nonneg a)

theorem psd_scale {A : Mat k} (hA : Spec.PSD A) (d : Vec k) :
    Spec.PSD (of fun i j => d i * A i j * d j) where
  symm := by
    ext i j
    have h1 : A j i = A i j := congrFun (congrFun hA.symm i) j
    show d j * A j i * d i = d i * A i j * d j
    rw [h1]; ring
  nonneg a := by
    have : Spec.quad (of fun i j => d i * A i j * d j) a = Spec.quad A (fun i => a i * d i) := by
      simp only [quad_expand, of_apply]
      exact Finset.sum_congr rfl fun i _ => Finset.sum_congr rfl fun j _ => by ring
    rw [this]; exact hA.nonneg _

theorem psd_rbf {g : ℝ} (hg : 0 ≤ g) (x : Pts n k) :
    Spec.PSD (of fun i j => rbfK g (x i) (x j) : Mat k) := by
  have hl : Spec.PSD (of fun i j => (2 * g) * (x i ⬝ᵥ x j) : Mat k) :=
    psd_mul (psd_const (mul_nonneg zero_le_two hg)) (psd_linear x)
  have h := psd_scale (psd_exp hl) (fun i => Real.exp (-g * sqNorm (x i)))
  have he : (of fun i j => rbfK g (x i) (x j) : Mat k) = of fun i j =>
      Real.exp (-g * sqNorm (x i)) * Real.exp ((2 * g) * (x i ⬝ᵥ x j)) * Real.exp (-g * sqNorm (x j)) := by
    ext i j
    simp only [of_apply]
    rw [rbfK, ← Real.exp_add, ← Real.exp_add]
    congr 1
    have := linearK_gap (x i) (x j)
    rw [← this]
    simp only [linearK]
    have h1 : sqNorm (x i) = x i ⬝ᵥ x i := rfl
    have h2 : sqNorm (x j) = x j ⬝ᵥ x j := rfl
    rw [h1, h2]; ring
  rw [he]; exact h

theorem kernelMat_of_symm {K : Vec n → Vec n → ℝ} (h : ∀ x y, K x y = K y x) (x : Pts n k) :
    kernelMat K x = of fun i j => K (x i) (x j) := by
  ext i j
  simp only [kernelMat]
  split_ifs
  · rfl
  · exact h _ _

/-- The kernel matrix of every training set is positive semi-definite. -/
theorem kernelMat_psd {q : Kernel} (hq : q.Sound) {z : Pts n k} {kf : Vec n → Vec n → ℝ}
    (h : q.init z = .ok kf) (x : Pts n k) : Spec.PSD (kernelMat kf x) := by
  cases q with
  | linear =>
    injection h with h; subst h
    rw [kernelMat_of_symm (K := linearK) (fun x y => dotProduct_comm x y)]
    exact psd_linear x
  | poly d c =>
    injection h with h; subst h
    rw [kernelMat_of_symm (fun x y => by rw [polyK, polyK, dotProduct_comm])]
    exact psd_pow (psd_add (psd_linear x) (psd_const (Int.cast_nonneg hq))) d
  | rbf a b =>
    obtain ⟨g, hg, h⟩ := Out.bind_eq_ok.1 h
    injection h with h; subst h
    rw [kernelMat_of_symm]
    · exact psd_rbf (rbfInit_pos hg).le x
    · intro x y
      rw [rbfK, rbfK]
      congr 2
      simp only [sqNorm, Pi.sub_apply]
      exact Finset.sum_congr rfl fun i _ => by ring

/-- The matrix of the pairs is positive semi-definite. -/
theorem svmDK_psd {K : Mat (m + 1)} (h : Spec.PSD K) : Spec.PSD (svmDK K) where
  symm := by
    ext i j
    exact svmDK_symm (fun a b => congrFun (congrFun h.symm b) a) j i
  nonneg a := by
    let b : Vec (m + 1) := fun i => (Fin.snoc (α := fun _ => ℝ) a 0 i) - (Fin.cons (α := fun _ => ℝ) 0 a i)
    have : Spec.quad (svmDK K) a = Spec.quad K b := by
      rw [quad_expand, quad_expand]
      have hb : ∀ g : Fin (m + 1) → ℝ, ∑ i, b i * g i = ∑ i : Fin m, a i * (g i.castSucc - g i.succ) := by
        intro g
        simp only [b, sub_mul, Finset.sum_sub_distrib, mul_sub]
        congr 1
        · rw [Fin.sum_univ_castSucc]; simp
        · rw [Fin.sum_univ_succ]; simp
      have e1 : ∑ i, ∑ j, b i * b j * K i j = ∑ i, b i * ∑ j, b j * K i j := by
        simp only [Finset.mul_sum, mul_assoc]
      rw [e1, hb]
      refine Finset.sum_congr rfl fun i _ => ?_
      rw [hb, hb, ← Finset.sum_sub_distrib, Finset.mul_sum]
      refine Finset.sum_congr rfl fun j _ => ?_
      simp only [svmDK]; ring
    rw [this]; exact h.nonneg b

/-- What a successful call of `train` went through. -/
theorem svmTrain_ok {cfg : SvmConfig} {x : Pts n (m + 1)} {niter : ℤ} {covinv : Option (CovInv n)}
    {xmean : Vec n} {u : Vec m} {r : Svm n m}
    (h : svmTrain cfg x niter covinv xmean u = .ok r) :
    ∃ (y : Pts n (m + 1)) (kf : Vec n → Vec n → ℝ) (s : SvmState m),
      (if cfg.encode then encodePts covinv xmean x else .ok x) = .ok y ∧
      cfg.kernel.init y = .ok kf ∧ (∀ i, svmDK (kernelMat kf y) i i ≠ 0) ∧
      (List.range niter.toNat).foldlM
        (svmStep cfg.epsilon (svmDK (kernelMat kf y)) (svmC cfg.cval m))
        ⟨svmAlpha0 (svmC cfg.cval m) u, svmSums0 cfg.epsilon (svmDK (kernelMat kf y))
          (svmAlpha0 (svmC cfg.cval m) u)⟩ = .ok s ∧
      r = ⟨cfg, kf, kernelMat kf y, s.alpha, s.sums⟩ := by
  simp only [svmTrain] at h
  obtain ⟨y, hy, h⟩ := Out.bind_eq_ok.1 h
  obtain ⟨kf, hkf, h⟩ := Out.bind_eq_ok.1 h
  obtain ⟨s, hs, h⟩ := Out.bind_eq_ok.1 h
  injection h with h
  simp only [svmOptimize] at hs
  split_ifs at hs with hd
  exact ⟨y, kf, s, hy, hkf, fun i hi => hd ⟨i, hi⟩, hs, h.symm⟩

theorem svmDK_pos {q : Kernel} (hq : q.Sound) {y : Pts n (m + 1)} {kf : Vec n → Vec n → ℝ}
    (h : q.init y = .ok kf) (hd : ∀ i, svmDK (kernelMat kf y) i i ≠ 0) (i : Fin m) :
    0 < svmDK (kernelMat kf y) i i := by
  refine lt_of_le_of_ne ?_ (hd i).symm
  rw [svmDK_diag]; exact kernel_gap hq h _ _

/-- The state after `train`. -/
theorem svmTrain_inv {cfg : SvmConfig} (hq : cfg.kernel.Sound) (hc : 0 ≤ cfg.cval)
    {x : Pts n (m + 1)} {niter : ℤ} {covinv : Option (CovInv n)}
    {xmean : Vec n} {u : Vec m} (hu : ∀ i, 0 ≤ u i ∧ u i < 1) {r : Svm n m}
    (h : svmTrain cfg x niter covinv xmean u = .ok r) :
    SvmInv cfg.epsilon (svmDK r.kmat) (svmC cfg.cval m) ⟨r.alpha, r.sums⟩ ∧
      (∀ i, 0 < svmDK r.kmat i i) ∧ Spec.PSD r.kmat := by
  obtain ⟨y, kf, s, hy, hkf, hd, hs, rfl⟩ := svmTrain_ok h
  have hp := svmDK_pos hq hkf hd
  exact ⟨(svmLoop_inv (svmDK_symm kernelMat_symm) hp (svmC_nonneg hc)
    (svmInv_start hc hd fun i => ⟨(hu i).1, (hu i).2.le⟩) _ hs).1, hp, kernelMat_psd hq hkf y⟩

/-- The gap of concavity: how far another vector of multipliers can be above. -/
theorem dual_le_grad {K : Mat (m + 1)} (hK : Spec.PSD K) {eps : ℝ} (a b : Vec m) :
    Spec.dual K eps b ≤ Spec.dual K eps a
      + ∑ i, (eps - ∑ j, a j * svmDK K i j) * (b i - a i) := by
  have hs := svmDK_symm (K := K) (fun i j => congrFun (congrFun hK.symm j) i)
  have hq := (svmDK_psd hK).nonneg (b - a)
  rw [dual_eq, dual_eq]
  rw [Spec.quad, mulVec_sub, sub_dotProduct, dotProduct_sub, dotProduct_sub] at hq
  have hsym : a ⬝ᵥ (svmDK K).mulVec b = b ⬝ᵥ (svmDK K).mulVec a := by
    rw [dotProduct_mulVec, ← mulVec_transpose, dotProduct_comm,
      show (svmDK K)ᵀ = svmDK K from (svmDK_psd hK).symm]
  have hsum : ∑ i, (eps - ∑ j, a j * svmDK K i j) * (b i - a i)
      = eps * ∑ i, b i - eps * ∑ i, a i - b ⬝ᵥ (svmDK K).mulVec a + a ⬝ᵥ (svmDK K).mulVec a := by
    have : ∀ i, ∑ j, a j * svmDK K i j = (svmDK K).mulVec a i := fun i => by
      simp only [mulVec, dotProduct]
      exact Finset.sum_congr rfl fun j _ => mul_comm _ _
    simp only [this, dotProduct, Finset.mul_sum, ← Finset.sum_sub_distrib, ← Finset.sum_add_distrib]
    exact Finset.sum_congr rfl fun i _ => by ring
  rw [hsum]
  rw [hsym] at hq
  linarith

theorem svmStep_strict {eps : ℝ} {K : Mat (m + 1)} {c : Vec m} {s s' : SvmState m} {i : ℕ}
    (hs : ∀ i j, svmDK K i j = svmDK K j i) (hd : ∀ i, 0 < svmDK K i i)
    (hi : SvmInv eps (svmDK K) c s) (h : svmStep eps (svmDK K) c s i = .ok s') :
    s' = s ∨ Spec.dual K eps s.alpha < Spec.dual K eps s'.alpha := by
  simp only [svmStep] at h
  split_ifs at h with hm hdl
  · right
    injection h with h
    subst h
    set i1 : Fin m := ⟨i % m, Nat.mod_lt i hm⟩
    set new := max (min (s.alpha i1 + s.sums i1) (c i1)) 0 with hnew
    have hb := hi.box i1
    rw [dual_update hs, ← hi.sums i1]
    have hdi := hd i1
    set δ := new - s.alpha i1 with hδ
    have hne : δ ≠ 0 := fun h0 => by rw [h0] at hdl; simp at hdl
    have key : 0 < δ * (s.sums i1 - δ / 2) := by
      rcases le_total 0 (s.sums i1) with hp | hp
      · have h1 : 0 ≤ δ := by
          have : s.alpha i1 ≤ new := by
            rw [hnew]; exact le_max_of_le_left (le_min (by linarith) hb.2)
          linarith
        have h2 : δ ≤ s.sums i1 := by
          have : new ≤ s.alpha i1 + s.sums i1 := by
            rw [hnew]; exact max_le (min_le_left _ _) (by linarith [hb.1])
          linarith
        have h1' : 0 < δ := lt_of_le_of_ne h1 hne.symm
        exact mul_pos h1' (by linarith)
      · have h1 : δ ≤ 0 := by
          have : new ≤ s.alpha i1 := by
            rw [hnew]; exact max_le ((min_le_left _ _).trans (by linarith)) hb.1
          linarith
        have h2 : s.sums i1 ≤ δ := by
          have : s.alpha i1 + s.sums i1 ≤ new := by
            rw [hnew]
            exact le_max_of_le_left (le_min le_rfl (by linarith [hb.2]))
          linarith
        have h1' : δ < 0 := lt_of_le_of_ne h1 hne
        exact mul_pos_of_neg_of_neg h1' (by linarith)
    nlinarith [mul_pos hdi key]
  · injection h with h
    exact Or.inl h.symm

/-- A stretch of the loop that ends with the multipliers it began with accepted nothing. -/
theorem svmLoop_idle {eps : ℝ} {K : Mat (m + 1)} {c : Vec m}
    (hs : ∀ i j, svmDK K i j = svmDK K j i) (hd : ∀ i, 0 < svmDK K i i) (hc : ∀ i, 0 ≤ c i) :
    ∀ (l : List ℕ) {s s' : SvmState m}, SvmInv eps (svmDK K) c s →
    l.foldlM (svmStep eps (svmDK K) c) s = .ok s' → s'.alpha = s.alpha →
    ∀ i ∈ l, svmStep eps (svmDK K) c s i = .ok s := by
  intro l
  induction l with
  | nil => intro s s' _ _ _ i hi; cases hi
  | cons a l ih =>
    intro s s' hi h hal i hmem
    rw [List.foldlM_cons] at h
    obtain ⟨s1, h1, h2⟩ := Out.bind_eq_ok.1 h
    obtain ⟨hi1, _⟩ := svmStep_inv hs hd hc hi h1
    obtain ⟨_, hd2⟩ := svmLoop_inv hs hd hc hi1 l h2
    rcases svmStep_strict hs hd hi h1 with he | hlt
    · subst he
      rcases List.mem_cons.1 hmem with rfl | hmem
      · exact h1
      · exact ih hi h2 hal i hmem
    · rw [hal] at hd2
      exact absurd (hlt.trans_le hd2) (lt_irrefl _)

/-- What a rejected step says of its coordinate. -/
theorem svmStep_rejected {eps : ℝ} (he : 0 ≤ eps) {dK : Mat m} {c : Vec m} {s : SvmState m} {i : ℕ}
    (hd : ∀ i, 0 < dK i i) (hi : SvmInv eps dK c s) (hm : 0 < m)
    (h : svmStep eps dK c s i = .ok s) {b : ℝ} (hb : 0 ≤ b) (hbc : b ≤ c ⟨i % m, Nat.mod_lt i hm⟩) :
    s.sums ⟨i % m, Nat.mod_lt i hm⟩ * dK ⟨i % m, Nat.mod_lt i hm⟩ ⟨i % m, Nat.mod_lt i hm⟩
        * (b - s.alpha ⟨i % m, Nat.mod_lt i hm⟩)
      ≤ 2 * eps * (s.alpha ⟨i % m, Nat.mod_lt i hm⟩
        * dK ⟨i % m, Nat.mod_lt i hm⟩ ⟨i % m, Nat.mod_lt i hm⟩) := by
  simp only [svmStep, hm, dif_pos] at h
  set i1 : Fin m := ⟨i % m, Nat.mod_lt i hm⟩
  set new := max (min (s.alpha i1 + s.sums i1) (c i1)) 0 with hnew
  obtain ⟨ha0, hac⟩ := hi.box i1
  have hdi := hd i1
  set δ := new - s.alpha i1 with hδ
  have hdl : δ * dK i1 i1 * (s.sums i1 - 0.5 * δ + eps) ≤ 0 := by
    by_contra hpos
    push Not at hpos
    rw [if_pos hpos] at h
    injection h with h
    have h1 := congrFun (congrArg SvmState.alpha h) i1
    simp only [Function.update_self] at h1
    have : δ = 0 := by rw [hδ, h1]; ring
    rw [this] at hpos
    simp at hpos
  have hrhs : 0 ≤ 2 * eps * (s.alpha i1 * dK i1 i1) := by positivity
  rcases le_or_gt 0 (s.sums i1) with hp | hp
  · have h1 : 0 ≤ δ := by
      have : s.alpha i1 ≤ new := by
        rw [hnew]; exact le_max_of_le_left (le_min (by linarith) hac)
      linarith
    have h2 : δ ≤ s.sums i1 := by
      have : new ≤ s.alpha i1 + s.sums i1 := by
        rw [hnew]; exact max_le (min_le_left _ _) (by linarith)
      linarith
    have h0 : δ = 0 := by
      by_contra hne
      have hpos : 0 < δ := lt_of_le_of_ne h1 (Ne.symm hne)
      have : 0 < δ * dK i1 i1 * (s.sums i1 - 0.5 * δ + eps) := by
        apply mul_pos (mul_pos hpos hdi); linarith
      linarith
    rcases le_or_gt (s.alpha i1 + s.sums i1) (c i1) with hle | hgt
    · have : new = s.alpha i1 + s.sums i1 := by
        rw [hnew, min_eq_left hle]; exact max_eq_left (by linarith)
      have h00 : s.sums i1 = 0 := by rw [hδ, this] at h0; linarith
      rw [h00]; simpa using hrhs
    · have : new = c i1 := by
        rw [hnew, min_eq_right hgt.le]; exact max_eq_left (by linarith)
      have hcc : s.alpha i1 = c i1 := by rw [hδ, this] at h0; linarith
      have : s.sums i1 * dK i1 i1 * (b - s.alpha i1) ≤ 0 :=
        mul_nonpos_of_nonneg_of_nonpos (mul_nonneg hp hdi.le) (by linarith)
      linarith
  · have h2 : s.sums i1 ≤ δ := by
      have : s.alpha i1 + s.sums i1 ≤ new := by
        rw [hnew]
        exact le_max_of_le_left (le_min le_rfl (by linarith))
      linarith
    have h1 : δ ≤ 0 := by
      have : new ≤ s.alpha i1 := by
        rw [hnew]; exact max_le ((min_le_left _ _).trans (by linarith)) ha0
      linarith
    rcases h1.lt_or_eq with hlt | heq
    · have hge : 0 ≤ s.sums i1 - 0.5 * δ + eps := by
        by_contra hneg
        push Not at hneg
        have : 0 < δ * dK i1 i1 * (s.sums i1 - 0.5 * δ + eps) :=
          mul_pos_of_neg_of_neg (mul_neg_of_neg_of_pos hlt hdi) hneg
        linarith
      have hsl : -(2 * eps) ≤ s.sums i1 := by linarith
      have e1 : s.sums i1 * dK i1 i1 * b ≤ 0 :=
        mul_nonpos_of_nonpos_of_nonneg (mul_nonpos_of_nonpos_of_nonneg hp.le hdi.le) hb
      have e2 : -(2 * eps) * (dK i1 i1 * s.alpha i1) ≤ s.sums i1 * (dK i1 i1 * s.alpha i1) :=
        mul_le_mul_of_nonneg_right hsl (mul_nonneg hdi.le ha0)
      nlinarith
    · have hz : s.alpha i1 = 0 := by
        have hn : new = s.alpha i1 := by linarith
        have hlt : min (s.alpha i1 + s.sums i1) (c i1) < s.alpha i1 :=
          lt_of_le_of_lt (min_le_left _ _) (by linarith)
        rcases max_cases (min (s.alpha i1 + s.sums i1) (c i1)) 0 with ⟨he', _⟩ | ⟨he', _⟩
        · rw [hnew, he'] at hn; linarith
        · rw [hnew, he'] at hn; linarith
      rw [hz]
      have : s.sums i1 * dK i1 i1 * (b - 0) ≤ 0 :=
        mul_nonpos_of_nonpos_of_nonneg (mul_nonpos_of_nonpos_of_nonneg hp.le hdi.le) (by linarith)
      simpa using this

theorem sumDist_pos {x : Pts n (m + 1)} {i : Fin m} (h : x i.castSucc ≠ x i.succ) : 0 < sumDist x := by
  have hterm : ∀ a b : Fin (m + 1), 0 ≤ (if a < b then vnorm (x a - x b) else 0) := fun a b => by
    split_ifs
    · exact Real.sqrt_nonneg _
    · exact le_rfl
  refine Finset.sum_pos' (fun a _ => Finset.sum_nonneg fun b _ => hterm a b)
    ⟨i.castSucc, Finset.mem_univ _, ?_⟩
  refine Finset.sum_pos' (fun b _ => hterm _ b) ⟨i.succ, Finset.mem_univ _, ?_⟩
  rw [if_pos Fin.castSucc_lt_succ]
  apply Real.sqrt_pos.2
  obtain ⟨l, hl⟩ := Function.ne_iff.1 h
  refine Finset.sum_pos' (fun a _ => mul_self_nonneg _) ⟨l, Finset.mem_univ _, ?_⟩
  have : (x i.castSucc - x i.succ) l ≠ 0 := by
    rw [Pi.sub_apply]; exact sub_ne_zero.2 hl
  exact mul_self_pos.2 this

theorem rbfInit_total {a b : ℝ} (ha : a ≠ 0) {x : Pts n (m + 1)} {i : Fin m}
    (h : x i.castSucc ≠ x i.succ) : ∃ g, rbfInit a b x = .ok g := by
  have hm : 0 < m := lt_of_le_of_lt (Nat.zero_le _) i.2
  have hm' : (0 : ℝ) < m := by exact_mod_cast hm
  have hk : (0.5 : ℝ) * (((m + 1 : ℕ) : ℝ) * (((m + 1 : ℕ) : ℝ) - 1)) ≠ 0 := by
    push_cast
    have : (0 : ℝ) < 0.5 * (((m : ℝ) + 1) * ((m : ℝ) + 1 - 1)) := by
      have : (m : ℝ) + 1 - 1 = m := by ring
      rw [this]; positivity
    exact this.ne'
  have hk' : (0 : ℝ) < 0.5 * (((m + 1 : ℕ) : ℝ) * (((m + 1 : ℕ) : ℝ) - 1)) := by
    push_cast
    have : (m : ℝ) + 1 - 1 = m := by ring
    rw [this]; positivity
  simp only [rbfInit]
  rw [show divR (sumDist x) (0.5 * (((m + 1 : ℕ) : ℝ) * (((m + 1 : ℕ) : ℝ) - 1)))
    = .ok (sumDist x / (0.5 * (((m + 1 : ℕ) : ℝ) * (((m + 1 : ℕ) : ℝ) - 1)))) from if_neg hk]
  rw [Out.ok_bind]
  have hpos : 0 < sumDist x / (0.5 * (((m + 1 : ℕ) : ℝ) * (((m + 1 : ℕ) : ℝ) - 1))) :=
    div_pos (sumDist_pos h) hk'
  have hr := Real.rpow_pos_of_pos hpos b
  have hne : 2 * (a * (sumDist x / (0.5 * (((m + 1 : ℕ) : ℝ) * (((m + 1 : ℕ) : ℝ) - 1)))) ^ b)
      * (a * (sumDist x / (0.5 * (((m + 1 : ℕ) : ℝ) * (((m + 1 : ℕ) : ℝ) - 1)))) ^ b) ≠ 0 := by
    have := hr.ne'
    positivity
  exact ⟨_, if_neg hne⟩

theorem sqNorm_pos {x y : Vec n} (h : x ≠ y) : 0 < sqNorm (x - y) := by
  obtain ⟨l, hl⟩ := Function.ne_iff.1 h
  refine Finset.sum_pos' (fun a _ => mul_self_nonneg _) ⟨l, Finset.mem_univ _, ?_⟩
  have : (x - y) l ≠ 0 := by
    rw [Pi.sub_apply]; exact sub_ne_zero.2 hl
  exact mul_self_pos.2 this

end Libcmaes
