import Verif.Lemmas.RsvmWit

/-!
# Properties of the ranking SVM

C62: the multipliers stay in their box, the cached gradient is exact, and training never decreases
the dual objective.  C71: training that has come to rest is near the maximum of the dual; it need not
be at the maximum.  C72: the predicted values of the training points.  C73: the error of a ranker.
-/

namespace Libcmaes

open Matrix

variable {n m : ℕ}

/-! ## C62 -/

/-- **C62 (box).** Whatever the training points, the kernel, the encoding, the number of iterations and
the random numbers drawn, every multiplier of the trained ranker lies between 0 and its bound
`C_i = Cval (i+1)²`. -/
theorem C62_box (cfg : SvmConfig) (hq : cfg.kernel.Sound) (hc : 0 ≤ cfg.cval) (x : Pts n (m + 1))
    (niter : ℤ) (covinv : Option (CovInv n)) (xmean : Vec n) (u : Vec m)
    (hu : ∀ i, 0 ≤ u i ∧ u i < 1) (r : Svm n m) (h : svmTrain cfg x niter covinv xmean u = .ok r) :
    Spec.InSvmBox cfg.cval r.alpha :=
  (svmTrain_inv hq hc hu h).1.box

/-- **C62 (cached gradient).** After any number of iterations the cached `sum_alphas(i)` times the
diagonal entry is the derivative of the dual objective with respect to multiplier `i`, computed from
scratch. -/
theorem C62_gradient (cfg : SvmConfig) (hq : cfg.kernel.Sound) (hc : 0 ≤ cfg.cval)
    (x : Pts n (m + 1)) (niter : ℤ) (covinv : Option (CovInv n)) (xmean : Vec n) (u : Vec m)
    (hu : ∀ i, 0 ≤ u i ∧ u i < 1) (r : Svm n m) (h : svmTrain cfg x niter covinv xmean u = .ok r)
    (i : Fin m) :
    r.sums i * Spec.pairK r.kmat i i = cfg.epsilon - ∑ j, r.alpha j * Spec.pairK r.kmat i j := by
  have := (svmTrain_inv hq hc hu h).1.sums i
  simpa only [svmDK_eq_pairK] using this

/-- **C62 (ascent).** More iterations on the same data with the same random numbers never lower the
dual objective: no accepted step decreases it. -/
theorem C62_ascent (cfg : SvmConfig) (hq : cfg.kernel.Sound) (hc : 0 ≤ cfg.cval) (x : Pts n (m + 1))
    (covinv : Option (CovInv n)) (xmean : Vec n) (u : Vec m) (hu : ∀ i, 0 ≤ u i ∧ u i < 1)
    (niter niter' : ℤ) (hle : niter ≤ niter') (r r' : Svm n m)
    (h : svmTrain cfg x niter covinv xmean u = .ok r)
    (h' : svmTrain cfg x niter' covinv xmean u = .ok r') :
    r'.kmat = r.kmat ∧
      Spec.dual r.kmat cfg.epsilon r.alpha ≤ Spec.dual r.kmat cfg.epsilon r'.alpha := by
  obtain ⟨y, kf, s, hy, hkf, hd, hs, rfl⟩ := svmTrain_ok h
  obtain ⟨y', kf', s', hy', hkf', hd', hs', rfl⟩ := svmTrain_ok h'
  rw [hy] at hy'; injection hy' with hy'; subst hy'
  rw [hkf] at hkf'; injection hkf' with hkf'; subst hkf'
  refine ⟨rfl, ?_⟩
  have hp := svmDK_pos hq hkf hd
  have hsym := svmDK_symm (m := m) (kernelMat_symm (K := kf) (x := y))
  have h0 := svmInv_start (cfg := cfg) hc hd (fun i => ⟨(hu i).1, (hu i).2.le⟩)
  obtain ⟨hi, _⟩ := svmLoop_inv hsym hp (svmC_nonneg hc) h0 _ hs
  have hsplit : niter'.toNat = niter.toNat + (niter'.toNat - niter.toNat) := by omega
  rw [hsplit, List.range_add, List.foldlM_append, hs] at hs'
  exact (svmLoop_inv hsym hp (svmC_nonneg hc) hi _ hs').2

/-- **C62 (training succeeds).** With the radial kernel, training goes through for every number of
iterations as soon as no two consecutive (encoded) training points coincide. -/
theorem C62_total (e : Bool) (a b cval eps : ℝ) (ha : a ≠ 0) (x y : Pts n (m + 1)) (hm : 0 < m)
    (covinv : Option (CovInv n)) (xmean : Vec n)
    (hy : (if e then encodePts covinv xmean x else .ok x) = .ok y)
    (hne : ∀ i : Fin m, y i.castSucc ≠ y i.succ) (niter : ℤ) (u : Vec m) :
    ∃ r, svmTrain ⟨e, .rbf a b, cval, eps⟩ x niter covinv xmean u = .ok r := by
  obtain ⟨g, hg⟩ := rbfInit_total (b := b) ha (hne ⟨0, hm⟩)
  have hkf : Kernel.init (.rbf a b) y = .ok (rbfK g) := by
    simp only [Kernel.init, hg, Out.ok_bind, Out.pure_eq]
  have hgp := rbfInit_pos hg
  have hd : ¬ ∃ i, svmDK (kernelMat (rbfK g) y) i i = 0 := by
    rintro ⟨i, hi⟩
    rw [svmDK_diag, rbfK_gap] at hi
    have hn := sqNorm_pos (hne i)
    have : Real.exp (-g * sqNorm (y i.castSucc - y i.succ)) < 1 := by
      rw [Real.exp_lt_one_iff]; nlinarith
    linarith
  obtain ⟨s, hs⟩ := svmLoop_total (eps := eps) (dK := svmDK (kernelMat (rbfK g) y))
    (c := svmC cval m) hm (List.range niter.toNat)
    ⟨svmAlpha0 (svmC cval m) u, svmSums0 eps (svmDK (kernelMat (rbfK g) y))
      (svmAlpha0 (svmC cval m) u)⟩
  refine ⟨⟨⟨e, .rbf a b, cval, eps⟩, rbfK g, kernelMat (rbfK g) y, s.alpha, s.sums⟩, ?_⟩
  simp only [svmTrain, hy, Out.ok_bind, hkf, svmOptimize, if_neg hd, hs, Out.pure_eq]

/-- The hypotheses of the C62 theorems are met by the default configuration on three points. -/
example (u : Vec 2) : ∃ r, svmTrain SvmConfig.default threePts 1000000 none (fun _ => 0) u = .ok r :=
  C62_total false 1 1 1e6 1 one_ne_zero threePts threePts (by norm_num) none _ rfl threePts_ne _ u

/-- **C62 (fails): repeated points.** If two training points that follow each other in the ranking
coincide, training divides by zero: no ranker with real multipliers comes out, whatever the kernel. -/
theorem C62_duplicate_false (cfg : SvmConfig) (x y : Pts n (m + 1)) (niter : ℤ)
    (covinv : Option (CovInv n)) (xmean : Vec n) (u : Vec m)
    (hy : (if cfg.encode then encodePts covinv xmean x else .ok x) = .ok y)
    (i : Fin m) (hi : y i.castSucc = y i.succ) (r : Svm n m) :
    svmTrain cfg x niter covinv xmean u ≠ .ok r := by
  intro h
  obtain ⟨y', kf, s, hy', hkf, hd, _⟩ := svmTrain_ok h
  rw [hy] at hy'; injection hy' with hy'; subst hy'
  apply hd i
  rw [svmDK_diag, hi]; ring

/-- **C62 (fails): a single point.** One training point gives no multiplier, and the first iteration
takes a remainder modulo zero. -/
theorem C62_single_false (cfg : SvmConfig) (x : Pts n 1) (niter : ℤ) (hn : 0 < niter)
    (covinv : Option (CovInv n)) (xmean : Vec n) (u : Vec 0) (r : Svm n 0) :
    svmTrain cfg x niter covinv xmean u ≠ .ok r := by
  intro h
  obtain ⟨y, kf, s, _, _, _, hs, _⟩ := svmTrain_ok h
  have : niter.toNat = (niter.toNat - 1) + 1 := by omega
  rw [this, List.range_succ_eq_map, List.foldlM_cons] at hs
  simp [svmStep, bind, Except.bind] at hs

/-! ## C71 -/

/-- **C71 (partial).** When a whole sweep over the multipliers changes nothing, the dual objective is
within `2 ε Σ α_i ‖φ(x_i) - φ(x_{i+1})‖²` of its maximum over the box.
Full statement (false, see `C71_stall_false`): it is at its maximum. -/
theorem C71_rest_partial (cfg : SvmConfig) (hq : cfg.kernel.Sound) (hc : 0 ≤ cfg.cval)
    (he : 0 ≤ cfg.epsilon) (x : Pts n (m + 1)) (hm : 0 < m)
    (covinv : Option (CovInv n)) (xmean : Vec n) (u : Vec m) (hu : ∀ i, 0 ≤ u i ∧ u i < 1)
    (niter : ℕ) (r r' : Svm n m)
    (h : svmTrain cfg x niter covinv xmean u = .ok r)
    (h' : svmTrain cfg x (niter + m : ℕ) covinv xmean u = .ok r') (hrest : r'.alpha = r.alpha)
    (b : Vec m) (hb : Spec.InSvmBox cfg.cval b) :
    Spec.dual r.kmat cfg.epsilon b ≤ Spec.dual r.kmat cfg.epsilon r.alpha
      + 2 * cfg.epsilon * ∑ i, r.alpha i * Spec.pairK r.kmat i i := by
  obtain ⟨hinv, hp, hpsd⟩ := svmTrain_inv hq hc hu h
  obtain ⟨y, kf, s, hy, hkf, hd, hs, rfl⟩ := svmTrain_ok h
  obtain ⟨y', kf', s', hy', hkf', hd', hs', rfl⟩ := svmTrain_ok h'
  rw [hy] at hy'; injection hy' with hy'; subst hy'
  rw [hkf] at hkf'; injection hkf' with hkf'; subst hkf'
  have hsym := svmDK_symm (m := m) (kernelMat_symm (K := kf) (x := y))
  rw [Int.toNat_natCast, List.range_add, List.foldlM_append] at hs'
  rw [Int.toNat_natCast] at hs
  rw [hs] at hs'
  have hidle := svmLoop_idle hsym hp (svmC_nonneg hc) _ (s := s) hinv hs' hrest
  have hcoord : ∀ j : Fin m, s.sums j * svmDK (kernelMat kf y) j j * (b j - s.alpha j)
      ≤ 2 * cfg.epsilon * (s.alpha j * svmDK (kernelMat kf y) j j) := by
    intro j
    obtain ⟨t, ht, hmod⟩ : ∃ t < m, (niter + t) % m = j := by
      refine ⟨(j + (m - niter % m)) % m, Nat.mod_lt _ hm, ?_⟩
      have h1 : niter % m < m := Nat.mod_lt _ hm
      rw [Nat.add_mod_mod, Nat.add_mod, Nat.add_mod (j : ℕ), ]
      rw [← Nat.add_mod (j : ℕ), ← Nat.add_mod]
      have : niter + (j + (m - niter % m)) = j + m * (niter / m + 1) := by
        have := Nat.div_add_mod niter m
        have h2 : m * (niter / m + 1) = m * (niter / m) + m := by ring
        omega
      rw [this, Nat.add_mul_mod_self_left, Nat.mod_eq_of_lt j.2]
    have hmem : niter + t ∈ (List.range m).map (niter + ·) :=
      List.mem_map.2 ⟨t, List.mem_range.2 ht, rfl⟩
    have hj : (⟨(niter + t) % m, Nat.mod_lt _ hm⟩ : Fin m) = j := Fin.ext hmod
    have hbj := hb j
    have := svmStep_rejected he hp hinv hm (hidle _ hmem) (b := b j) hbj.1 (by rw [hj]; exact hbj.2)
    rwa [hj] at this
  have hgrad := dual_le_grad hpsd (eps := cfg.epsilon) s.alpha b
  refine hgrad.trans ?_
  rw [Finset.mul_sum]
  have : ∑ i, (cfg.epsilon - ∑ j, s.alpha j * svmDK (kernelMat kf y) i j) * (b i - s.alpha i)
      ≤ ∑ i, 2 * cfg.epsilon * (s.alpha i * Spec.pairK (kernelMat kf y) i i) := by
    refine Finset.sum_le_sum fun i _ => ?_
    rw [← hinv.sums i, ← svmDK_eq_pairK]
    exact hcoord i
  show Spec.dual (kernelMat kf y) cfg.epsilon s.alpha + _ ≤ Spec.dual (kernelMat kf y) cfg.epsilon s.alpha + _
  linarith

/-- **C71 (fails).** The default ranker, trained on the three points 0, 1, 2 of the line, comes to rest
after three steps, whatever the random numbers: however many more iterations are allowed, the
multipliers do not change, although other admissible multipliers have a larger dual objective.  The
acceptance test adds `epsilon` to a gradient that already contains it, and so rejects small decreases
of a multiplier. -/
theorem C71_stall_false (u : Vec 2) (hu : ∀ i, 0 ≤ u i ∧ u i < 1) :
    ∃ (alpha : Vec 2) (K : Mat 3),
      (∀ niter : ℤ, 3 ≤ niter → ∃ r, svmTrain SvmConfig.default threePts niter none (fun _ => 0) u = .ok r ∧
        r.kmat = K ∧ r.alpha = alpha) ∧
      ∃ b : Vec 2, Spec.InSvmBox SvmConfig.default.cval b ∧
        Spec.dual K SvmConfig.default.epsilon alpha < Spec.dual K SvmConfig.default.epsilon b := by
  set e := Real.exp (-(9 / 32)) with he
  have hlo : 23 / 32 ≤ e := by
    have := Real.add_one_le_exp (-(9 / 32) : ℝ); linarith
  have hhi : e ≤ 32 / 41 := by
    have h1 := Real.add_one_le_exp (9 / 32 : ℝ)
    have h2 : e * Real.exp (9 / 32) = 1 := by rw [he, ← Real.exp_add]; norm_num
    have h3 : 0 < e := Real.exp_pos _
    nlinarith
  have hK : ∀ i j : Fin 3, kernelMat (rbfK (9 / 32)) threePts i j
      = Real.exp (-(9 / 32) * ((((i : ℕ) : ℝ) - (j : ℕ)) * (((i : ℕ) : ℝ) - (j : ℕ)))) := by
    intro i j
    have hx : ∀ a b : Fin 3, rbfK (9 / 32) (threePts a) (threePts b)
        = Real.exp (-(9 / 32) * ((((a : ℕ) : ℝ) - (b : ℕ)) * (((a : ℕ) : ℝ) - (b : ℕ)))) := by
      intro a b
      simp only [rbfK, sqNorm, threePts, Pi.sub_apply, Finset.univ_unique, Finset.sum_singleton]
    simp only [kernelMat]
    split_ifs
    · exact hx i j
    · rw [hx j i]; congr 1; ring
  have he4 : Real.exp (-(9 / 32) * 4) = e ^ 4 := by
    rw [he, ← Real.exp_nat_mul]; congr 1; norm_num
  set K := kernelMat (rbfK (9 / 32)) threePts with hKdef
  have k00 : K 0 0 = 1 := by rw [hK]; norm_num
  have k11 : K 1 1 = 1 := by rw [hK]; norm_num
  have k22 : K 2 2 = 1 := by rw [hK]; norm_num
  have k01 : K 0 1 = e := by rw [hK, he]; norm_num
  have k10 : K 1 0 = e := by rw [hK, he]; norm_num
  have k12 : K 1 2 = e := by rw [hK, he]; norm_num
  have k21 : K 2 1 = e := by rw [hK, he]; norm_num
  have k02 : K 0 2 = e ^ 4 := by rw [hK, ← he4]; norm_num
  have k20 : K 2 0 = e ^ 4 := by rw [hK, ← he4]; norm_num
  have h00 : svmDK K 0 0 = 2 - 2 * e := by
    show K 0 0 - K 0 1 - K 1 0 + K 1 1 = _; rw [k00, k01, k10, k11]; ring
  have h11 : svmDK K 1 1 = 2 - 2 * e := by
    show K 1 1 - K 1 2 - K 2 1 + K 2 2 = _; rw [k11, k12, k21, k22]; ring
  have h01 : svmDK K 0 1 = 2 * e - 1 - e ^ 4 := by
    show K 0 1 - K 0 2 - K 1 1 + K 1 2 = _; rw [k01, k02, k11, k12]; ring
  have h10 : svmDK K 1 0 = 2 * e - 1 - e ^ 4 := by
    show K 1 0 - K 1 1 - K 2 0 + K 2 1 = _; rw [k10, k11, k20, k21]; ring
  set a := 2 - 2 * e with ha
  set b := 2 * e - 1 - e ^ 4 with hb
  have ha0 : 1 / 4 ≤ a := by rw [ha]; linarith
  have ha1 : a ≤ 1 := by rw [ha]; linarith
  have hap : 0 < a := by linarith
  have he3 : e ^ 3 ≤ (32 / 41) ^ 3 := pow_le_pow_left₀ (by linarith) hhi 3
  have hb0 : 1 / 20 ≤ b := by
    have : e ^ 4 = e * e ^ 3 := by ring
    rw [hb, this]; nlinarith
  have hba : b < a := by
    have h1 : 0 < (1 - e) ^ 2 := by nlinarith
    have h2 : 0 < e ^ 2 + 2 * e + 3 := by nlinarith
    have h3 : a - b = (1 - e) ^ 2 * (e ^ 2 + 2 * e + 3) := by rw [ha, hb]; ring
    have := mul_pos h1 h2
    linarith
  have hdiag : ¬ ∃ i, svmDK K i i = 0 := by
    rintro ⟨i, hi⟩
    fin_cases i
    · exact hap.ne' (h00.symm.trans hi)
    · exact hap.ne' (h11.symm.trans hi)
  refine ⟨(stalled a b).alpha, K, fun niter hn => ?_, ?_⟩
  · obtain ⟨k, hk⟩ : ∃ k : ℕ, niter.toNat = 3 + k := ⟨niter.toNat - 3, by omega⟩
    refine ⟨⟨SvmConfig.default, rbfK (9 / 32), K, (stalled a b).alpha, (stalled a b).sums⟩, ?_, rfl, rfl⟩
    have hl := stalled_loop h00 h11 h01 h10 ha0 ha1 hb0 hba hu k
    simp only [svmTrain, SvmConfig.default, Bool.false_eq_true, if_false, Out.ok_bind, Kernel.init,
      threePts_gamma, Out.pure_eq, svmOptimize, ← hKdef, if_neg hdiag, hk, hl]
  · have hsym : ∀ i j, svmDK K i j = svmDK K j i := svmDK_symm kernelMat_symm
    set q := b / a with hq
    have hq0 : 0 < q := div_pos (by linarith) hap
    have hq1 : q < 1 := (div_lt_one hap).2 hba
    have hpp : 1 / a ≤ 4 := by rw [div_le_iff₀ hap]; linarith
    have hp0 : 0 < 1 / a := by positivity
    set v := 1 / a - (1 - q) * (1 / a) * q with hv
    have hw : 0 < (1 - q) * (1 / a) * q := mul_pos (mul_pos (by linarith) hp0) hq0
    have hw1 : (1 - q) * (1 / a) * q ≤ 1 / a := by nlinarith [sq_nonneg (q - 1 / 2)]
    refine ⟨Function.update (stalled a b).alpha 1 v, ?_, ?_⟩
    · intro i
      fin_cases i
      · show 0 ≤ (1 - q) / a ∧ (1 - q) / a ≤ 1e6 * (((0 : ℕ) : ℝ) + 1) ^ 2
        have : (1 - q) / a = (1 - q) * (1 / a) := by ring
        rw [this]
        constructor
        · exact mul_nonneg (by linarith) hp0.le
        · have h6 : (1e6 : ℝ) * (((0 : ℕ) : ℝ) + 1) ^ 2 = 1000000 := by norm_num
          have h7 : (1 - q) * (1 / a) ≤ 1 * (1 / a) :=
            mul_le_mul_of_nonneg_right (by linarith) hp0.le
          rw [h6]; linarith
      · show 0 ≤ v ∧ v ≤ 1e6 * (((1 : ℕ) : ℝ) + 1) ^ 2
        constructor
        · rw [hv]; linarith
        · norm_num; linarith
    · rw [dual_update hsym]
      have hgrad : SvmConfig.default.epsilon - ∑ j, (stalled a b).alpha j * svmDK K 1 j
          = -((1 - q) * (1 / a) * q) * a := by
        rw [Fin.sum_univ_two, h10, h11]
        show 1 - ((1 - q) / a * b + 1 / a * a) = _
        have : b = q * a := by rw [hq]; field_simp
        rw [this]; field_simp; ring
      rw [hgrad, h11]
      show _ < _ + (v - 1 / a) * _ - 1 / 2 * (v - 1 / a) ^ 2 * a
      have hd : v - 1 / a = -((1 - q) * (1 / a) * q) := by rw [hv]; ring
      rw [hd]
      have hfin : ∀ D w : ℝ, 0 < w * w * a → D < D + -w * (-w * a) - 1 / 2 * (-w) ^ 2 * a := by
        intro D w h0; nlinarith
      exact hfin _ _ (mul_pos (mul_pos hw hw) hap)

/-- The hypotheses of `C71_rest_partial` are met by the default ranker on three points. -/
example (u : Vec 2) (hu : ∀ i, 0 ≤ u i ∧ u i < 1) : ∃ r r' : Svm 1 2,
    svmTrain SvmConfig.default threePts (3 : ℕ) none (fun _ => 0) u = .ok r ∧
    svmTrain SvmConfig.default threePts (3 + 2 : ℕ) none (fun _ => 0) u = .ok r' ∧
    r'.alpha = r.alpha := by
  obtain ⟨al, K, h, _⟩ := C71_stall_false u hu
  obtain ⟨r, hr, _, e⟩ := h (3 : ℕ) (by norm_num)
  obtain ⟨r', hr', _, e'⟩ := h (3 + 2 : ℕ) (by norm_num)
  exact ⟨r, r', hr, hr', e'.trans e.symm⟩

/-! ## C72 -/

/-- **C72 (predictions are pointwise).** A ranker trained on `x` gives each tested point, in order, the
score of that point alone: `Σ α_j (K(·, x_j) - K(·, x_{j+1}))`, all points being encoded alike. -/
theorem C72_pointwise (cfg : SvmConfig) (x : Pts n (m + 1)) (hm : 0 < m) (niter : ℤ)
    (covinv : Option (CovInv n)) (xmean : Vec n) (u : Vec m) (r : Svm n m)
    (h : svmTrain cfg x niter covinv xmean u = .ok r) :
    ∃ g : Vec n → Vec n, r.kmat = kernelMat r.kfun (fun i => g (x i)) ∧
      ∀ test : List (Vec n), r.predict test x covinv xmean
        = .ok (some (test.map fun z => Spec.rankScore r.alpha r.kfun (fun i => g (x i)) (g z))) := by
  obtain ⟨y, kf, s, hy, hkf, hd, hs, rfl⟩ := svmTrain_ok h
  obtain ⟨g, rfl, hg⟩ := encodePts_pointwise hy
  refine ⟨g, rfl, fun test => ?_⟩
  have hof : List.ofFn (fun i : Fin test.length => g test[i]) = test.map g := by
    apply List.ext_getElem <;> simp
  simp only [Svm.predict, hm.ne', if_false, hg, Out.ok_bind]
  have : (List.ofFn fun i : Fin test.length => g test[i]).mapM (svmFit s.alpha kf fun i => g (x i))
      = .ok (test.map fun z => Spec.rankScore s.alpha kf (fun i => g (x i)) (g z)) := by
    rw [hof]
    have hf : (svmFit s.alpha kf fun i => g (x i))
        = fun z => (pure (Spec.rankScore s.alpha kf (fun i => g (x i)) z) : Out ℝ) := by
      funext z; exact svmFit_eq
    rw [hf, List.mapM_pure, List.map_map]
    rfl
  rw [this]
  rfl

/-- **C72 (margins).** On its own training points the ranker predicts values whose successive
differences are the margins of the dual problem: `ε` minus the cached gradient. -/
theorem C72_margin (cfg : SvmConfig) (hq : cfg.kernel.Sound) (hc : 0 ≤ cfg.cval)
    (x : Pts n (m + 1)) (hm : 0 < m) (niter : ℤ)
    (covinv : Option (CovInv n)) (xmean : Vec n) (u : Vec m) (hu : ∀ i, 0 ≤ u i ∧ u i < 1)
    (r : Svm n m) (h : svmTrain cfg x niter covinv xmean u = .ok r) :
    ∃ fit : Vec (m + 1), r.predict (List.ofFn x) x covinv xmean = .ok (some (List.ofFn fit)) ∧
      ∀ j : Fin m, fit j.castSucc - fit j.succ = cfg.epsilon - r.sums j * Spec.pairK r.kmat j j := by
  have hgrad := C62_gradient cfg hq hc x niter covinv xmean u hu r h
  obtain ⟨g, hk, hp⟩ := C72_pointwise cfg x hm niter covinv xmean u r h
  have hsym : ∀ a b, r.kfun a b = r.kfun b a := by
    obtain ⟨y, kf, s, hy, hkf, hd, hs, rfl⟩ := svmTrain_ok h
    exact kernel_symm hkf
  refine ⟨fun i => Spec.rankScore r.alpha r.kfun (fun i => g (x i)) (g (x i)), ?_, fun j => ?_⟩
  · rw [hp, List.map_ofFn]; rfl
  · rw [hgrad j, sub_sub_cancel]
    simp only [Spec.rankScore, ← Finset.sum_sub_distrib]
    refine Finset.sum_congr rfl fun l _ => ?_
    rw [Spec.pairK, hk, kernelMat_of_symm hsym]
    simp only [of_apply]; ring

/-- **C72 (ranking).** A ranker whose multipliers solve the dual problem predicts each training point
whose multiplier is below its bound at least `ε` above the next, better one.  (Training points come
worst first.) -/
theorem C72_ranked (cfg : SvmConfig) (hq : cfg.kernel.Sound) (hc : 0 ≤ cfg.cval)
    (x : Pts n (m + 1)) (hm : 0 < m) (niter : ℤ)
    (covinv : Option (CovInv n)) (xmean : Vec n) (u : Vec m) (hu : ∀ i, 0 ≤ u i ∧ u i < 1)
    (r : Svm n m) (h : svmTrain cfg x niter covinv xmean u = .ok r)
    (hopt : ∀ b : Vec m, Spec.InSvmBox cfg.cval b →
      Spec.dual r.kmat cfg.epsilon b ≤ Spec.dual r.kmat cfg.epsilon r.alpha) :
    ∃ fit : Vec (m + 1), r.predict (List.ofFn x) x covinv xmean = .ok (some (List.ofFn fit)) ∧
      ∀ j : Fin m, r.alpha j < cfg.cval * ((j : ℕ) + 1 : ℝ) ^ 2 →
        fit j.succ + cfg.epsilon ≤ fit j.castSucc := by
  obtain ⟨fit, hfit, hmar⟩ := C72_margin cfg hq hc x hm niter covinv xmean u hu r h
  obtain ⟨hinv, hp, hpsd⟩ := svmTrain_inv hq hc hu h
  refine ⟨fit, hfit, fun j hj => ?_⟩
  have hsym := svmDK_symm (K := r.kmat) (fun i j => congrFun (congrFun hpsd.symm j) i)
  have hd := hp j
  have hle : r.sums j ≤ 0 := by
    by_contra hpos
    push Not at hpos
    set t := min (cfg.cval * ((j : ℕ) + 1 : ℝ) ^ 2 - r.alpha j) (r.sums j) with ht
    have ht0 : 0 < t := lt_min (by linarith) hpos
    have htC : t ≤ cfg.cval * ((j : ℕ) + 1 : ℝ) ^ 2 - r.alpha j := min_le_left _ _
    have hts : t ≤ r.sums j := min_le_right _ _
    have hbox : Spec.InSvmBox cfg.cval (Function.update r.alpha j (r.alpha j + t)) := by
      intro i
      by_cases hi : i = j
      · subst hi
        simp only [Function.update_self]
        exact ⟨by linarith [(hinv.box i).1], by linarith⟩
      · simp only [Function.update_of_ne hi]; exact hinv.box i
    have hgain := hopt _ hbox
    have hs := hinv.sums j
    simp only at hs
    rw [dual_update hsym, ← hs, add_sub_cancel_left] at hgain
    have : 0 < t * (r.sums j - t / 2) * svmDK r.kmat j j := mul_pos (mul_pos ht0 (by linarith)) hd
    nlinarith
  have := hmar j
  rw [← svmDK_eq_pairK] at this
  have h2 : r.sums j * svmDK r.kmat j j ≤ 0 := mul_nonpos_of_nonpos_of_nonneg hle hd.le
  linarith

/-- The hypotheses of the C72 theorems are met by the default ranker on two points. -/
example (u : Vec 1) (hu : ∀ i, 0 ≤ u i ∧ u i < 1) : ∃ r,
    svmTrain SvmConfig.default twoPts 1 none (fun _ => 0) u = .ok r ∧
    (∀ b : Vec 1, Spec.InSvmBox SvmConfig.default.cval b →
      Spec.dual r.kmat SvmConfig.default.epsilon b ≤ Spec.dual r.kmat SvmConfig.default.epsilon r.alpha) ∧
    r.alpha 0 < SvmConfig.default.cval * (((0 : Fin 1) : ℕ) + 1 : ℝ) ^ 2 := by
  obtain ⟨r, hr, hopt, hlt⟩ := twoPts_optimal u hu
  exact ⟨r, hr, fun b _ => hopt b, by simpa using hlt⟩

/-! ## C73 -/

/-- **C73.** The error of a trained ranker on at least two points lies in `[0,1]`, and is zero exactly
when no two points are predicted in the order opposite to that of their reference values. -/
theorem C73_error (cfg : SvmConfig) (x : Pts n (m + 1)) (hm : 0 < m) (niter : ℤ)
    (covinv : Option (CovInv n)) (xmean : Vec n) (u : Vec m) (r : Svm n m)
    (h : svmTrain cfg x niter covinv xmean u = .ok r) (test : List (Vec n)) (ref : List ℝ)
    (hl : ref.length = test.length) (h2 : 2 ≤ test.length) :
    ∃ (fit : List ℝ) (err : ℝ), r.predict test x covinv xmean = .ok (some fit) ∧
      fit.length = test.length ∧ r.error test x ref covinv xmean = .ok err ∧ 0 ≤ err ∧ err ≤ 1 ∧
      (err = 0 ↔ ∀ i j (hi : i < ref.length) (hj : j < ref.length) (hi' : i < fit.length)
        (hj' : j < fit.length), ref[i] < ref[j] → fit[i] ≤ fit[j]) := by
  classical
  have gd : ∀ {l : List ℝ} {i : ℕ} (hi : i < l.length), l.getD i 0 = l[i] := fun hi => by simp [hi]
  obtain ⟨g, hk, hp⟩ := C72_pointwise cfg x hm niter covinv xmean u r h
  set fit := test.map fun z => Spec.rankScore r.alpha r.kfun (fun i => g (x i)) (g z) with hfit
  have hfl : fit.length = test.length := List.length_map _
  set S := (Finset.range ref.length ×ˢ Finset.range ref.length).filter fun q =>
        q.1 ≠ q.2 ∧ svmReversed ref fit q.1 q.2 with hS
  have hL : (2 : ℝ) ≤ ref.length := by rw [hl]; exact_mod_cast h2
  have hden : 0 < (ref.length : ℝ) * ref.length - ref.length := by nlinarith
  have hcard : S.card ≤ ref.length * ref.length - ref.length := by
    have : S ⊆ (Finset.range ref.length).offDiag := by
      intro q hq
      rw [hS, Finset.mem_filter, Finset.mem_product] at hq
      exact Finset.mem_offDiag.2 ⟨hq.1.1, hq.1.2, hq.2.1⟩
    have h1 := Finset.card_le_card this
    rwa [Finset.offDiag_card, Finset.card_range] at h1
  have hcard' : (S.card : ℝ) ≤ (ref.length : ℝ) * ref.length - ref.length := by
    have hle : ref.length ≤ ref.length * ref.length := Nat.le_mul_self _
    have : (S.card : ℝ) ≤ ((ref.length * ref.length - ref.length : ℕ) : ℝ) := by exact_mod_cast hcard
    rwa [Nat.cast_sub hle, Nat.cast_mul] at this
  refine ⟨fit, S.card / ((ref.length : ℝ) * ref.length - ref.length), hp test, hfl, ?_, ?_, ?_, ?_⟩
  · simp only [Svm.error, hp test, Out.ok_bind]
    rw [if_neg (by rw [← hfit, hfl]; omega), if_neg (by rw [← hfit, hfl]; omega)]
    rw [divR, if_neg hden.ne']
  · positivity
  · rw [div_le_one hden]; exact hcard'
  · rw [div_eq_zero_iff, or_iff_left hden.ne', Nat.cast_eq_zero, Finset.card_eq_zero]
    constructor
    · intro he i j hi hj hi' hj' hlt
      by_contra hcon
      push Not at hcon
      have hmem : (j, i) ∈ S := by
        rw [hS, Finset.mem_filter, Finset.mem_product]
        refine ⟨⟨Finset.mem_range.2 hj, Finset.mem_range.2 hi⟩, ?_, ?_⟩
        · intro hji
          have hji : j = i := hji
          subst hji; exact lt_irrefl _ hlt
        · left
          show ref.getD j 0 > ref.getD i 0 ∧ fit.getD j 0 < fit.getD i 0
          simp only [gd hi, gd hj,
            gd hi', gd hj']
          exact ⟨hlt, hcon⟩
      rw [he] at hmem
      exact absurd hmem (Finset.notMem_empty _)
    · intro hall
      rw [Finset.eq_empty_iff_forall_notMem]
      rintro ⟨i, j⟩ hq
      rw [hS, Finset.mem_filter, Finset.mem_product] at hq
      obtain ⟨⟨hi, hj⟩, _, hrev⟩ := hq
      have hi := Finset.mem_range.1 hi
      have hj := Finset.mem_range.1 hj
      have hi' : i < fit.length := by rw [hfl, ← hl]; exact hi
      have hj' : j < fit.length := by rw [hfl, ← hl]; exact hj
      simp only [svmReversed, gd hi, gd hj,
            gd hi', gd hj'] at hrev
      rcases hrev with ⟨h1, h2⟩ | ⟨h1, h2⟩
      · exact absurd (hall j i hj hi hj' hi' h1) (not_le.2 h2)
      · exact absurd (hall i j hi hj hi' hj' h1) (not_le.2 h2)

/-- **C73 (fails): one point.** On a single point the error of a trained ranker is 0/0. -/
theorem C73_single_false (cfg : SvmConfig) (x : Pts n (m + 1)) (hm : 0 < m) (niter : ℤ)
    (covinv : Option (CovInv n)) (xmean : Vec n) (u : Vec m) (r : Svm n m)
    (h : svmTrain cfg x niter covinv xmean u = .ok r) (z : Vec n) (v : ℝ) :
    r.error [z] x [v] covinv xmean = .error .notReal := by
  obtain ⟨g, hk, hp⟩ := C72_pointwise cfg x hm niter covinv xmean u r h
  simp only [Svm.error, hp [z], Out.ok_bind]
  simp [divR]

/-- **C73 (no multiplier).** A ranker without multipliers, as before training, predicts nothing and has the
largest error, whatever the test set. -/
theorem C73_empty (r : Svm n 0) {k : ℕ} (train : Pts n (k + 1)) (test : List (Vec n)) (ref : List ℝ)
    (covinv : Option (CovInv n)) (xmean : Vec n) :
    r.predict test train covinv xmean = .ok none ∧ r.error test train ref covinv xmean = .ok 1 :=
  ⟨rfl, rfl⟩

/-- Witness: zero iterations of training on a single point leave such a ranker. -/
example (x : Pts n 1) : ∃ r : Svm n 0,
    svmTrain ⟨false, .linear, 1e6, 1⟩ x 0 none 0 (fun i => i.elim0) = .ok r :=
  ⟨_, by
    simp only [svmTrain, Bool.false_eq_true, if_false, Out.ok_bind, Kernel.init, svmOptimize]
    rw [if_neg (by rintro ⟨i, _⟩; exact i.elim0)]
    rfl⟩

end Libcmaes
