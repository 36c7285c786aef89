import Verif.Lemmas.RsvmAffine
import Verif.Lemmas.Quad

/-! # C120: the ranking SVM does not depend on the coordinates -/

namespace Libcmaes

open Matrix Spec

variable {n m : ℕ}

/-- **C120** (full covariance matrix): a ranker trained and used in the coordinates `A x + b`, with the mean and the
covariance matrix in these coordinates, ends with the same multipliers and gives every tested point the same score as in
the coordinates `x`; or training fails in both.  It holds of every kernel, number of iterations and random numbers. -/
theorem C120_affine (cfg : SvmConfig) (he : cfg.encode = true) {A C W W' : Mat n} (b mean : Vec n)
    (hW : InvRoot W C) (hW' : InvRoot W' (A * C * Aᵀ)) (x : Pts n (m + 1)) (iter : ℤ) (u : Vec m)
    (test : List (Vec n)) :
    (do let r ← svmTrain cfg x iter (some (.full W)) mean u
        let fit ← r.predict test x (some (.full W)) mean
        pure (r.alpha, fit)) =
    (do let r ← svmTrain cfg (fun i => affine A b (x i)) iter (some (.full W')) (affine A b mean) u
        let fit ← r.predict (test.map (affine A b)) (fun i => affine A b (x i)) (some (.full W')) (affine A b mean)
        pure (r.alpha, fit)) := by
  have hd : SameDots (fun v => W.mulVec (v - mean)) (fun v => W'.mulVec (affine A b v - affine A b mean)) := by
    intro v w
    have ha : ∀ v, affine A b v - affine A b mean = A.mulVec (v - mean) := fun v => by
      rw [affine, affine, add_sub_add_right_eq_sub, mulVec_sub]
    simp only [ha]
    rw [dot_root hW.1, dot_root hW'.1, ← InvRoot.dots hW hW', mulVec_mulVec]
    generalize v - mean = p
    generalize w - mean = q
    rw [Matrix.mul_assoc Aᵀ, ← mulVec_mulVec, dotProduct_mulVec p, vecMul_transpose]
  have h := scores_alike (cfg := cfg) (hd.kernel cfg.kernel) (pt := id) (pt' := affine A b) (cov := some (.full W))
    (cov' := some (.full W')) (mu := mean) (mu' := affine A b mean)
    (fun k x => by rw [if_pos he]; rfl) (fun k x => by rw [if_pos he]; rfl) x iter u test
  rw [List.map_id] at h
  exact h

/-- **C120** (with the matrices the search computes): `W` and `W'` are what `operatorInverseSqrt()` returns for a
covariance matrix and for the same in the other coordinates, whatever eigenvectors the two solvers choose. -/
theorem C120_solver (cfg : SvmConfig) (he : cfg.encode = true) (eig eig' : EigSolver n) {A C W W' : Mat n}
    (hC : C.IsSymm) (hW : inverseSqrt (eig.solve C) = .ok W) (hW' : inverseSqrt (eig'.solve (A * C * Aᵀ)) = .ok W')
    (b mean : Vec n) (x : Pts n (m + 1)) (iter : ℤ) (u : Vec m) (test : List (Vec n)) :
    (do let r ← svmTrain cfg x iter (some (.full W)) mean u
        let fit ← r.predict test x (some (.full W)) mean
        pure (r.alpha, fit)) =
    (do let r ← svmTrain cfg (fun i => affine A b (x i)) iter (some (.full W')) (affine A b mean) u
        let fit ← r.predict (test.map (affine A b)) (fun i => affine A b (x i)) (some (.full W')) (affine A b mean)
        pure (r.alpha, fit)) := by
  have root : ∀ (eig : EigSolver n) {C W : Mat n}, C.IsSymm → inverseSqrt (eig.solve C) = .ok W → InvRoot W C := by
    intro eig C W hC hW
    obtain ⟨h1, -, r, -, h2, h3, h4⟩ := inverseSqrt_spec eig hC hW
    refine ⟨h1, ?_⟩
    rw [← h4, Matrix.mul_assoc, ← Matrix.mul_assoc W r, h2, Matrix.one_mul, h2]
  have hC' : (A * C * Aᵀ).IsSymm := by
    unfold IsSymm
    rw [transpose_mul, transpose_mul, transpose_transpose, hC.eq, Matrix.mul_assoc]
  exact C120_affine cfg he b mean (root eig hC hW) (root eig' hC' hW') x iter u test

/-- **C120** (diagonal models): the same for a change of the scale and origin of each axis; `c` and `c'` are the inverse
square roots of the variances `v` and `d^2 v`. -/
theorem C120_axes (cfg : SvmConfig) (he : cfg.encode = true) {d v c c' : Vec n} (b mean : Vec n)
    (hc : ∀ i, c i ^ 2 * v i = 1) (hc' : ∀ i, c' i ^ 2 * (d i ^ 2 * v i) = 1) (x : Pts n (m + 1)) (iter : ℤ)
    (u : Vec m) (test : List (Vec n)) :
    (do let r ← svmTrain cfg x iter (some (.diag c)) mean u
        let fit ← r.predict test x (some (.diag c)) mean
        pure (r.alpha, fit)) =
    (do let r ← svmTrain cfg (fun i => axisScale d b (x i)) iter (some (.diag c')) (axisScale d b mean) u
        let fit ← r.predict (test.map (axisScale d b)) (fun i => axisScale d b (x i)) (some (.diag c'))
          (axisScale d b mean)
        pure (r.alpha, fit)) := by
  have hd : SameDots (fun v => c * (v - mean)) (fun v => c' * (axisScale d b v - axisScale d b mean)) := by
    intro p q
    refine Finset.sum_congr rfl fun i _ => ?_
    have hv : v i ≠ 0 := fun h => by have := hc i; rw [h, mul_zero] at this; exact zero_ne_one this
    have h2 : c i ^ 2 = c' i ^ 2 * d i ^ 2 := by
      apply mul_right_cancel₀ hv
      rw [hc i, mul_assoc, hc' i]
    simp only [Pi.mul_apply, Pi.sub_apply, axisScale, Pi.add_apply]
    calc c i * (p i - mean i) * (c i * (q i - mean i)) = c i ^ 2 * ((p i - mean i) * (q i - mean i)) := by ring
      _ = c' i ^ 2 * d i ^ 2 * ((p i - mean i) * (q i - mean i)) := by rw [h2]
      _ = _ := by ring
  have h := scores_alike (cfg := cfg) (hd.kernel cfg.kernel) (pt := id) (pt' := axisScale d b)
    (cov := some (.diag c)) (cov' := some (.diag c')) (mu := mean) (mu' := axisScale d b mean)
    (fun k x => by rw [if_pos he]; rfl) (fun k x => by rw [if_pos he]; rfl) x iter u test
  rw [List.map_id] at h
  exact h

/-- **C120** (no encoding): the default kernel takes its width from the mean distance of the training points, so that
without encoding the scores do not depend on the origin, the unit and the orientation of the axes. -/
theorem C120_similarity (cfg : SvmConfig) (he : cfg.encode = false) {a : ℝ} (hq : cfg.kernel = .rbf a 1) {s : ℝ}
    (hs : s ≠ 0) {T : Vec n → Vec n} (hT : Similarity s T) (cov cov' : Option (CovInv n)) (mean mean' : Vec n)
    (x : Pts n (m + 1)) (iter : ℤ) (u : Vec m) (test : List (Vec n)) :
    (do let r ← svmTrain cfg x iter cov mean u
        let fit ← r.predict test x cov mean
        pure (r.alpha, fit)) =
    (do let r ← svmTrain cfg (fun i => T (x i)) iter cov' mean' u
        let fit ← r.predict (test.map T) (fun i => T (x i)) cov' mean'
        pure (r.alpha, fit)) := by
  have h := scores_alike (cfg := cfg) (e := id) (e' := T) (by rw [hq]; exact rbf_similar hs hT) (pt := id) (pt' := T)
    (cov := cov) (cov' := cov') (mu := mean) (mu' := mean')
    (fun k x => by rw [he]; rfl) (fun k x => by rw [he]; rfl) x iter u test
  rw [List.map_id] at h
  exact h

/-- A shear with a turn meets the hypotheses of `C120_affine`. -/
example : InvRoot (1 : Mat 2) 1 ∧
    InvRoot (!![2, -1; -1, 1] : Mat 2) ((!![1, -1; 2, -1] : Mat 2) * 1 * (!![1, -1; 2, -1] : Mat 2)ᵀ) := by
  have e : (!![1, -1; 2, -1] : Mat 2) * 1 * (!![1, -1; 2, -1] : Mat 2)ᵀ = !![2, 3; 3, 5] := by
    rw [Matrix.mul_one]
    ext i j
    rw [Matrix.mul_apply, Fin.sum_univ_two]
    simp only [transpose_apply]
    fin_cases i <;> fin_cases j <;> simp <;> norm_num
  rw [e]
  refine ⟨⟨transpose_one, by simp⟩, ?_, ?_⟩ <;>
    (ext i j; fin_cases i <;> fin_cases j <;> simp [Matrix.mul_apply, Fin.sum_univ_two] <;> norm_num)

/-- `C120_axes` and `C120_similarity` with scales other than one. -/
example : (∀ i : Fin 2, (![1, 1 / 2] : Vec 2) i ^ 2 * (![1, 4] : Vec 2) i = 1) ∧
    (∀ i : Fin 2, (![1 / 3, -1 / 10] : Vec 2) i ^ 2 * ((![3, 5] : Vec 2) i ^ 2 * (![1, 4] : Vec 2) i) = 1) ∧
    Similarity (-2) (fun x : Vec 2 => (-2 : ℝ) • x + ![1, 7]) := by
  refine ⟨fun i => ?_, fun i => ?_, fun x y => ?_⟩
  · fin_cases i <;> norm_num
  · fin_cases i <;> norm_num
  · rw [add_sub_add_right_eq_sub, ← smul_sub, smul_dotProduct, dotProduct_smul, smul_eq_mul, smul_eq_mul]
    ring

/-- **C120 is false of the diagonal models for a turn of the axes.**  The worse point is `(1,0)`, the better one
`(0,3/4)`, the variances are 1 and 9/16; a turn by 45 degrees, with a scaling by the square root of two, makes both
variances 25/16 (the diagonal of the turned covariance matrix).  The ranker holds the origin for equally far from both
points before the turn, and for nearer to the better one after it, whatever the number of iterations and the random
numbers. -/
theorem C120_turned_false (iter : ℤ) (u : Vec 1) (hu : ∀ i, 0 ≤ u i) :
    let A : Mat 2 := !![1, -1; 1, 1]
    let x : Pts 2 2 := ![![1, 0], ![0, 3 / 4]]
    let c : Vec 2 := ![1, 4 / 3]
    let c' : Vec 2 := ![4 / 5, 4 / 5]
    let cfg : SvmConfig := { SvmConfig.default with encode := true }
    ∃ v : Vec 2, (∀ i, c i ^ 2 * v i = 1) ∧ (∀ i, c' i ^ 2 * (A * diagonal v * Aᵀ) i i = 1) ∧
    ∃ r r' f, svmTrain cfg x iter (some (.diag c)) 0 u = .ok r ∧
      r.predict [0] x (some (.diag c)) 0 = .ok (some [0]) ∧
      svmTrain cfg (fun i => affine A 0 (x i)) iter (some (.diag c')) (affine A 0 0) u = .ok r' ∧
      r'.predict [affine A 0 0] (fun i => affine A 0 (x i)) (some (.diag c')) (affine A 0 0) = .ok (some [f]) ∧ f < 0 := by
  intro A x c c' cfg
  have hA0 : affine A 0 0 = 0 := by simp [affine]
  refine ⟨![1, 9 / 16], ?_, ?_, ?_⟩
  · intro i; fin_cases i <;> simp [c] <;> norm_num
  · intro i
    rw [Matrix.mul_apply, Fin.sum_univ_two, mul_diagonal, mul_diagonal]
    simp only [transpose_apply]
    fin_cases i <;> simp [c', A] <;> norm_num
  have hy : encodePts (some (.diag c)) 0 x = .ok ![![1, 0], ![0, 1]] := by
    rw [encodePts]
    congr 1
    funext i j
    fin_cases i <;> fin_cases j <;> simp [c, x]
  have hy' : encodePts (some (.diag c')) 0 (fun i => affine A 0 (x i)) = .ok ![![4 / 5, 4 / 5], ![-3 / 5, 3 / 5]] := by
    rw [encodePts]
    congr 1
    funext i j
    fin_cases i <;> fin_cases j <;> simp [c', x, A, affine] <;> norm_num
  have hz : ∀ c : Vec 2, encodePts (some (.diag c)) 0 (fun _ : Fin 1 => (0 : Vec 2)) = .ok fun _ => 0 := fun c => by
    rw [encodePts, sub_zero, mul_zero]
  obtain ⟨r, a, g, h1, ha, hg, h2⟩ := pair_score hy (fun h => by simpa using congrFun h 0) (hz c) iter u hu
  obtain ⟨r', a', g', h1', ha', hg', h2'⟩ := pair_score hy'
    (fun h => by have := congrFun h 0; norm_num at this) (hz c') iter u hu
  rw [hA0]
  refine ⟨r, r', _, h1, ?_, h1', h2', ?_⟩
  · rw [h2]
    have : rbfK g 0 ((![![1, 0], ![0, 1]] : Pts 2 2) 0) = rbfK g 0 ((![![1, 0], ![0, 1]] : Pts 2 2) 1) := by
      simp [rbfK, sqNorm, Fin.sum_univ_two]
    rw [this, sub_self, mul_zero]
  · refine mul_neg_of_pos_of_neg ha' (sub_neg.2 ?_)
    unfold rbfK
    rw [Real.exp_lt_exp]
    simp only [sqNorm, Fin.sum_univ_two, Pi.sub_apply, Pi.zero_apply, cons_val_zero, cons_val_one]
    norm_num
    nlinarith

end Libcmaes
