import Verif.Props.Rsvm
import Verif.Spec.RsvmAffine

/-! # Rankers of two sets of points with the same kernel values -/

namespace Libcmaes

open Matrix

variable {n m k : ℕ}

/-- Two encodings of points that keep the inner products. -/
def SameDots {α : Type} (e e' : α → Vec n) : Prop := ∀ a b, e a ⬝ᵥ e b = e' a ⬝ᵥ e' b

/-- Two encodings of points that a kernel cannot tell apart, whatever the training set. -/
def SameKernel {α : Type} (q : Kernel) (e e' : α → Vec n) : Prop :=
  ∀ (k : ℕ) (x : Fin k → α),
    (∃ er, q.init (fun i => e (x i)) = .error er ∧ q.init (fun i => e' (x i)) = .error er) ∨
    ∃ kf kf', q.init (fun i => e (x i)) = .ok kf ∧ q.init (fun i => e' (x i)) = .ok kf' ∧
      ∀ a b, kf (e a) (e b) = kf' (e' a) (e' b)

theorem sqNorm_dot (x : Vec n) : sqNorm x = x ⬝ᵥ x := rfl

theorem sqNorm_sub_dot (x y : Vec n) : sqNorm (x - y) = x ⬝ᵥ x - 2 * (x ⬝ᵥ y) + y ⬝ᵥ y := by
  rw [sqNorm_dot, sub_dotProduct, dotProduct_sub, dotProduct_sub, dotProduct_comm y x]
  ring

/-- Kernels see inner products only. -/
theorem SameDots.kernel {α : Type} {e e' : α → Vec n} (h : SameDots e e') (q : Kernel) : SameKernel q e e' := by
  intro k x
  have hs : ∀ a b, sqNorm (e a - e b) = sqNorm (e' a - e' b) := fun a b => by
    rw [sqNorm_sub_dot, sqNorm_sub_dot, h a a, h a b, h b b]
  cases q with
  | linear => exact Or.inr ⟨_, _, rfl, rfl, h⟩
  | poly d c => exact Or.inr ⟨_, _, rfl, rfl, fun a b => by rw [polyK, polyK, h a b]⟩
  | rbf s p =>
    have hg : rbfInit s p (fun i => e (x i)) = rbfInit s p (fun i => e' (x i)) := by
      have hd : sumDist (fun i => e (x i)) = sumDist (fun i => e' (x i)) := by
        unfold sumDist vnorm
        simp only [hs]
      unfold rbfInit
      rw [hd]
    unfold Kernel.init
    simp only [hg]
    cases hr : rbfInit s p (fun i => e' (x i)) with
    | error er => exact Or.inl ⟨er, rfl, rfl⟩
    | ok g => exact Or.inr ⟨_, _, rfl, rfl, fun a b => by rw [rbfK, rbfK, hs a b]⟩

theorem mapM_alike {α : Type} {f g : Vec n → Out ℝ} {e e' : α → Vec n} (h : ∀ a, f (e a) = g (e' a)) (l : List α) :
    (l.map e).mapM f = (l.map e').mapM g := by
  induction l with
  | nil => rfl
  | cons a l ih => rw [List.map_cons, List.map_cons, List.mapM_cons, List.mapM_cons, ih, h]

/-- Training and predicting in coordinates a kernel cannot tell apart. -/
theorem scores_alike {α : Type} {cfg : SvmConfig} {e e' : α → Vec n} (hk : SameKernel cfg.kernel e e')
    {pt pt' : α → Vec n} {cov cov' : Option (CovInv n)} {mu mu' : Vec n}
    (h1 : ∀ (k : ℕ) (x : Fin k → α), (if cfg.encode then encodePts cov mu fun i => pt (x i) else .ok fun i => pt (x i))
      = .ok fun i => e (x i))
    (h2 : ∀ (k : ℕ) (x : Fin k → α),
      (if cfg.encode then encodePts cov' mu' fun i => pt' (x i) else .ok fun i => pt' (x i)) = .ok fun i => e' (x i))
    (x : Fin (m + 1) → α) (iter : ℤ) (u : Vec m) (test : List α) :
    (do let r ← svmTrain cfg (fun i => pt (x i)) iter cov mu u
        let fit ← r.predict (test.map pt) (fun i => pt (x i)) cov mu
        pure (r.alpha, fit)) =
    (do let r ← svmTrain cfg (fun i => pt' (x i)) iter cov' mu' u
        let fit ← r.predict (test.map pt') (fun i => pt' (x i)) cov' mu'
        pure (r.alpha, fit)) := by
  have ht : ∀ (p : α → Vec n), (fun i : Fin (test.map p).length => (test.map p)[i]) =
      fun i => p (test[i.cast (List.length_map p)]) := fun p => by
    funext i; exact List.getElem_map ..
  have hof : ∀ (p g : α → Vec n),
      List.ofFn (fun i : Fin (test.map p).length => g (test[i.cast (List.length_map p)])) = test.map g := fun p g => by
    apply List.ext_getElem
    · simp
    · intro i h1 h2; simp
  unfold svmTrain
  rw [h1 _ x, h2 _ x]
  simp only [Out.ok_bind]
  rcases hk _ x with ⟨er, ha, hb⟩ | ⟨kf, kf', ha, hb, hkk⟩
  · rw [ha, hb]; rfl
  · rw [ha, hb]
    simp only [Out.ok_bind]
    have hK : kernelMat kf (fun i => e (x i)) = kernelMat kf' (fun i => e' (x i)) := by
      funext i j
      simp only [kernelMat, hkk]
    rw [hK]
    cases svmOptimize cfg (kernelMat kf' fun i => e' (x i)) iter u with
    | error er => rfl
    | ok s =>
      simp only [Out.ok_bind, pure_bind]
      have hp : Svm.predict ⟨cfg, kf, kernelMat kf' fun i => e' (x i), s.alpha, s.sums⟩ (test.map pt)
            (fun i => pt (x i)) cov mu =
          Svm.predict ⟨cfg, kf', kernelMat kf' fun i => e' (x i), s.alpha, s.sums⟩ (test.map pt')
            (fun i => pt' (x i)) cov' mu' := by
        unfold Svm.predict
        by_cases hm : m = 0
        · rw [if_pos hm, if_pos hm]
        · rw [if_neg hm, if_neg hm]
          simp only [ht]
          rw [h1 _ x, h2 _ x, h1, h2]
          simp only [Out.ok_bind]
          rw [hof pt e, hof pt' e']
          rw [mapM_alike (f := svmFit s.alpha kf fun i => e (x i)) (g := svmFit s.alpha kf' fun i => e' (x i))
            (e := e) (e' := e')]
          intro a
          simp only [svmFit, hkk]
      rw [hp]

/-- The inverse square roots of a covariance matrix before and after a change of coordinates. -/
theorem InvRoot.dots {A W W' C : Mat n} (h : Spec.InvRoot W C) (h' : Spec.InvRoot W' (A * C * Aᵀ)) :
    Aᵀ * (W' * W') * A = W * W := by
  have h1 : Aᵀ * (W' * W') * A * C = 1 := by
    have : (W' * W' * A * C) * Aᵀ = 1 := by
      have := h'.2
      simpa only [Matrix.mul_assoc] using this
    have := mul_eq_one_comm.1 this
    simpa only [Matrix.mul_assoc] using this
  have h2 : C * (W * W) = 1 := mul_eq_one_comm.1 h.2
  calc Aᵀ * (W' * W') * A = Aᵀ * (W' * W') * A * (C * (W * W)) := by rw [h2, Matrix.mul_one]
    _ = (Aᵀ * (W' * W') * A * C) * (W * W) := by simp only [Matrix.mul_assoc]
    _ = W * W := by rw [h1, Matrix.one_mul]

theorem dot_root {W : Mat n} (h : Wᵀ = W) (x y : Vec n) : W.mulVec x ⬝ᵥ W.mulVec y = x ⬝ᵥ (W * W).mulVec y := by
  rw [← mulVec_mulVec, dotProduct_mulVec x, ← mulVec_transpose, h]

/-- Kernels of width proportional to the mean distance do not see a similarity. -/
theorem rbf_similar {s a : ℝ} (hs : s ≠ 0) {T : Vec n → Vec n} (h : Spec.Similarity s T) :
    SameKernel (.rbf a 1) id T := by
  intro k x
  have hsq : ∀ v w, sqNorm (T v - T w) = s ^ 2 * sqNorm (v - w) := fun v w => h v w
  have hd : sumDist (fun i => T (x i)) = |s| * sumDist (fun i => id (x i)) := by
    unfold sumDist vnorm
    rw [Finset.mul_sum]
    refine Finset.sum_congr rfl fun i _ => ?_
    rw [Finset.mul_sum]
    refine Finset.sum_congr rfl fun j _ => ?_
    split
    · rw [hsq, Real.sqrt_mul (sq_nonneg s), Real.sqrt_sq_eq_abs]; rfl
    · rw [mul_zero]
  unfold Kernel.init rbfInit
  rw [hd]
  by_cases h0 : (0.5 * ((k : ℝ) * ((k : ℝ) - 1))) = 0
  · refine Or.inl ⟨.notReal, ?_, ?_⟩
    · simp only [divR, h0, if_true]; rfl
    · simp only [divR, h0, if_true]; rfl
  · generalize hS : sumDist (fun i => id (x i)) = S
    generalize hN : (0.5 * ((k : ℝ) * ((k : ℝ) - 1))) = N at h0
    have e1 : divR S N = .ok (S / N) := by rw [divR, if_neg h0]
    have e2 : divR (|s| * S) N = .ok (|s| * (S / N)) := by rw [divR, if_neg h0, mul_div_assoc]
    rw [e1, e2]
    simp only [Out.ok_bind, Real.rpow_one]
    have hs2 : |s| * |s| = s ^ 2 := by rw [abs_mul_abs_self, sq]
    have e3 : 2 * (a * (|s| * (S / N))) * (a * (|s| * (S / N))) = s ^ 2 * (2 * (a * (S / N)) * (a * (S / N))) := by
      rw [← hs2]; ring
    rw [e3]
    generalize 2 * (a * (S / N)) * (a * (S / N)) = D
    by_cases hD : D = 0
    · refine Or.inl ⟨.notReal, ?_, ?_⟩
      · simp only [divR, hD, if_true]; rfl
      · simp only [divR, hD, mul_zero, if_true]; rfl
    · have hs3 : s ^ 2 ≠ 0 := pow_ne_zero 2 hs
      refine Or.inr ⟨rbfK (1 / D), rbfK (1 / (s ^ 2 * D)), ?_, ?_, fun v w => ?_⟩
      · simp only [divR, if_neg hD]; rfl
      · simp only [divR, if_neg (mul_ne_zero hs3 hD)]; rfl
      · rw [rbfK, rbfK, hsq]
        congr 1
        simp only [id]
        field_simp

/-- With one multiplier, every turn of the loop keeps it positive. -/
theorem pair_loop {eps : ℝ} {dK : Mat 1} {c : Vec 1} (hd : dK 0 0 ≠ 0) (hc : 0 < c 0) {q : ℝ} (hq : 0 < q) :
    ∀ (l : List ℕ) {s s' : SvmState 1}, 0 < s.alpha 0 → s.alpha 0 + s.sums 0 = q →
      l.foldlM (svmStep eps dK c) s = .ok s' → 0 < s'.alpha 0 := by
  intro l
  induction l with
  | nil => intro s s' ha _ h; injection h with h; subst h; exact ha
  | cons i l ih =>
    intro s s' ha hs h
    rw [List.foldlM_cons] at h
    obtain ⟨s1, h1, h2⟩ := Out.bind_eq_ok.1 h
    have hj : i % 1 = ((0 : Fin 1) : ℕ) := Nat.mod_one i
    by_cases hp : 0 < (max (min (s.alpha 0 + s.sums 0) (c 0)) 0 - s.alpha 0) * dK 0 0 *
        (s.sums 0 - 0.5 * (max (min (s.alpha 0 + s.sums 0) (c 0)) 0 - s.alpha 0) + eps)
    · rw [svmStep_take hj rfl hp] at h1
      injection h1 with h1
      subst h1
      refine ih ?_ ?_ h2
      · simp only [Function.update_self, hs]
        exact lt_max_of_lt_left (lt_min hq hc)
      · simp only [Function.update_self, div_self hd]
        linarith
    · rw [svmStep_skip hj rfl (not_lt.1 hp)] at h1
      injection h1 with h1
      subst h1
      exact ih ha hs h2

/-- A ranker trained on two points scores by the difference of the two kernel values. -/
theorem pair_score {x y : Pts n 2} {cov : Option (CovInv n)} {mean t z : Vec n}
    (hy : encodePts cov mean x = .ok y) (hne : y 0 ≠ y 1) (hz : encodePts cov mean (fun _ : Fin 1 => t) = .ok fun _ => z)
    (iter : ℤ) (u : Vec 1) (hu : ∀ i, 0 ≤ u i) :
    ∃ (r : Svm n 1) (a g : ℝ), svmTrain ⟨true, .rbf 1 1, 1e6, 1⟩ x iter cov mean u = .ok r ∧ 0 < a ∧ 0 < g ∧
      r.predict [t] x cov mean = .ok (some [a * (rbfK g z (y 0) - rbfK g z (y 1))]) := by
  obtain ⟨r, hr⟩ := C62_total true 1 1 1e6 1 one_ne_zero x y one_pos cov mean (by rw [if_pos rfl]; exact hy)
    (fun i => by rw [Fin.fin_one_eq_zero i]; exact hne) iter u
  obtain ⟨y', kf, s, hy', hkf, hd, hl, e⟩ := svmTrain_ok hr
  rw [if_pos rfl, hy] at hy'
  injection hy' with hy'
  subst hy'
  simp only [Kernel.init] at hkf
  obtain ⟨g, hg, hkf⟩ := Out.bind_eq_ok.1 hkf
  have hkf : rbfK g = kf := Except.ok.inj hkf
  subst hkf
  have hgp := rbfInit_pos hg
  have hdp : 0 < svmDK (kernelMat (rbfK g) y) 0 0 := by
    refine lt_of_le_of_ne ?_ (Ne.symm (hd 0))
    rw [svmDK_diag, rbfK_gap]
    have h1 : rbfK g (y (Fin.castSucc 0)) (y (Fin.succ 0)) ≤ 1 := by
      unfold rbfK
      rw [Real.exp_le_one_iff]
      have := sqNorm_nonneg' (y (Fin.castSucc (0 : Fin 1)) - y (Fin.succ 0))
      nlinarith
    unfold rbfK at h1
    linarith
  have ha0 : 0 < svmAlpha0 (svmC 1e6 1) u 0 := by
    have := hu 0
    simp only [svmAlpha0, svmC]
    norm_num
    linarith
  have ha : 0 < s.alpha 0 := by
    refine pair_loop (hd 0) (by simp only [svmC]; norm_num) (one_div_pos.2 hdp) _ ha0 ?_ hl
    simp only [svmSums0, Fin.sum_univ_one]
    field_simp
    ring
  refine ⟨r, s.alpha 0, g, hr, ha, hgp, ?_⟩
  have hz' : encodePts cov mean (fun i : Fin [t].length => [t][i]) = .ok fun _ => z := by
    have ht : (fun i : Fin [t].length => [t][i]) = fun _ => t := by
      funext i
      have : i = ⟨0, Nat.one_pos⟩ := Fin.ext (Nat.lt_one_iff.1 i.2)
      rw [this]
      rfl
    rw [ht]
    exact hz
  rw [e]
  unfold Svm.predict
  rw [if_neg one_ne_zero]
  simp only [if_true, hy, hz', Out.ok_bind]
  have hf : (List.ofFn fun _ : Fin [t].length => z) = [z] := rfl
  rw [hf, List.mapM_cons, List.mapM_nil]
  have : svmFit s.alpha (rbfK g) y z = .ok (s.alpha 0 * (rbfK g z (y 0) - rbfK g z (y 1))) := by
    rw [svmFit, dif_pos le_rfl, Fin.sum_univ_one]
    rfl
  rw [this]
  rfl

end Libcmaes
