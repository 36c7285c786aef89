import Verif.Lemmas.Kernel

/-! # A small training set, and predictions of a trained ranker -/

namespace Libcmaes

open Matrix

variable {n m k : ℕ}

/-- Three points on a line. -/
def threePts : Pts 1 3 := fun i _ => (i : ℕ)

theorem threePts_ne (i : Fin 2) : threePts i.castSucc ≠ threePts i.succ := by
  intro h
  have := congrFun h 0
  simp [threePts] at this

/-- The ranker the default configuration ends with on three equidistant points: `a` and `b` are the
diagonal and the off-diagonal entry of the matrix of the pairs. -/
noncomputable def stalled (a b : ℝ) : SvmState 2 :=
  ⟨![(1 - b / a) / a, 1 / a], ![0, -((1 - b / a) / a * (b / a))]⟩

theorem svmStep_take {eps : ℝ} {dK : Mat m} {c : Vec m} {s : SvmState m} {i : ℕ} {j : Fin m}
    (hj : i % m = j) {v : ℝ} (hv : max (min (s.alpha j + s.sums j) (c j)) 0 = v)
    (hpos : 0 < (v - s.alpha j) * dK j j * (s.sums j - 0.5 * (v - s.alpha j) + eps)) :
    svmStep eps dK c s i = .ok ⟨Function.update s.alpha j v,
      fun l => s.sums l - (v - s.alpha j) * (dK j l / dK l l)⟩ := by
  have hm : 0 < m := lt_of_le_of_lt (Nat.zero_le _) j.2
  have hj' : (⟨i % m, Nat.mod_lt i hm⟩ : Fin m) = j := Fin.ext hj
  simp only [svmStep, hm, dif_pos, hj', hv, hpos, if_true, svmDiv]

theorem svmStep_skip {eps : ℝ} {dK : Mat m} {c : Vec m} {s : SvmState m} {i : ℕ} {j : Fin m}
    (hj : i % m = j) {v : ℝ} (hv : max (min (s.alpha j + s.sums j) (c j)) 0 = v)
    (hpos : (v - s.alpha j) * dK j j * (s.sums j - 0.5 * (v - s.alpha j) + eps) ≤ 0) :
    svmStep eps dK c s i = .ok s := by
  have hm : 0 < m := lt_of_le_of_lt (Nat.zero_le _) j.2
  have hj' : (⟨i % m, Nat.mod_lt i hm⟩ : Fin m) = j := Fin.ext hj
  simp only [svmStep, hm, dif_pos, hj', hv, gt_iff_lt, not_lt.2 hpos, if_false]

theorem stalled_loop {dK : Mat 2} {a b : ℝ} (h00 : dK 0 0 = a) (h11 : dK 1 1 = a) (h01 : dK 0 1 = b)
    (h10 : dK 1 0 = b) (ha : 1 / 4 ≤ a) (ha1 : a ≤ 1) (hb : 1 / 20 ≤ b) (hba : b < a) {u : Vec 2}
    (hu : ∀ i, 0 ≤ u i ∧ u i < 1) (k : ℕ) :
    (List.range (3 + k)).foldlM (svmStep 1 dK (svmC 1e6 2))
      ⟨svmAlpha0 (svmC 1e6 2) u, svmSums0 1 dK (svmAlpha0 (svmC 1e6 2) u)⟩ = .ok (stalled a b) := by
  have hap : 0 < a := by linarith
  have hane := hap.ne'
  have hq0 : 0 < b / a := div_pos (by linarith) hap
  have hq1 : b / a < 1 := (div_lt_one hap).2 hba
  have hi1 : 1 ≤ 1 / a := by rw [le_div_iff₀ hap]; linarith
  have hi4 : 1 / a ≤ 4 := by rw [div_le_iff₀ hap]; linarith
  have hc0 : svmC 1e6 2 0 = 1000000 := by norm_num [svmC]
  have hc1 : svmC 1e6 2 1 = 4000000 := by norm_num [svmC]
  obtain ⟨A, hA⟩ : ∃ A, svmAlpha0 (svmC 1e6 2) u 0 = A := ⟨_, rfl⟩
  obtain ⟨B, hB⟩ : ∃ B, svmAlpha0 (svmC 1e6 2) u 1 = B := ⟨_, rfl⟩
  have hA0 : 900000 ≤ A := by
    rw [← hA, svmAlpha0, hc0]; have := (hu 0).1; linarith
  have hB0 : 3000000 ≤ B := by
    rw [← hB, svmAlpha0, hc1]; have := (hu 1).1; linarith
  have hs0 : svmSums0 1 dK (svmAlpha0 (svmC 1e6 2) u) 0 = (1 - (A * a + B * b)) / a := by
    simp only [svmSums0, Fin.sum_univ_two, hA, hB, h00, h01]
  have hs1 : svmSums0 1 dK (svmAlpha0 (svmC 1e6 2) u) 1 = (1 - (A * b + B * a)) / a := by
    simp only [svmSums0, Fin.sum_univ_two, hA, hB, h10, h11]
  have hq20 : 1 / 20 ≤ b / a := by rw [le_div_iff₀ hap]; nlinarith
  -- the three accepted steps
  have e0 : (1 - (A * a + B * b)) / a = 1 / a - A - B * (b / a) := by field_simp; ring
  have e1 : (1 - (A * b + B * a)) / a = 1 / a - B - A * (b / a) := by field_simp; ring
  set p := 1 / a with hp
  set q := b / a with hq
  have hBq : 150000 ≤ B * q := by nlinarith
  have hv1 : (1 - q) / a = (1 - q) * p := by rw [hp]; ring
  have hstep1 : svmStep 1 dK (svmC 1e6 2)
      ⟨svmAlpha0 (svmC 1e6 2) u, svmSums0 1 dK (svmAlpha0 (svmC 1e6 2) u)⟩ 0
      = .ok ⟨![0, B], ![p - B * q, p - B]⟩ := by
    rw [svmStep_take (j := 0) (v := 0) rfl]
    · congr 2
      · funext l; fin_cases l
        · rfl
        · exact hB
      · funext l; fin_cases l
        · show svmSums0 1 dK _ 0 - (0 - svmAlpha0 (svmC 1e6 2) u 0) * (dK 0 0 / dK 0 0) = p - B * q
          rw [hs0, hA, h00, div_self hane, e0]; ring
        · show svmSums0 1 dK _ 1 - (0 - svmAlpha0 (svmC 1e6 2) u 0) * (dK 0 1 / dK 1 1) = p - B
          rw [hs1, hA, h01, h11, e1]; ring
    · show max (min (svmAlpha0 (svmC 1e6 2) u 0 + svmSums0 1 dK _ 0) _) 0 = 0
      rw [hA, hs0, e0]
      exact max_eq_right ((min_le_left _ _).trans (by linarith))
    · show 0 < (0 - svmAlpha0 (svmC 1e6 2) u 0) * dK 0 0 *
        (svmSums0 1 dK _ 0 - 0.5 * (0 - svmAlpha0 (svmC 1e6 2) u 0) + 1)
      rw [hA, hs0, e0, h00]
      apply mul_pos_of_neg_of_neg
      · exact mul_neg_of_neg_of_pos (by linarith) hap
      · linarith
  have hstep2 : svmStep 1 dK (svmC 1e6 2) ⟨![0, B], ![p - B * q, p - B]⟩ 1
      = .ok ⟨![0, p], ![p - p * q, 0]⟩ := by
    rw [svmStep_take (j := 1) (v := p) rfl]
    · congr 2
      · funext l; fin_cases l <;> rfl
      · funext l; fin_cases l
        · show p - B * q - (p - B) * (dK 1 0 / dK 0 0) = p - p * q
          rw [h10, h00]; ring
        · show p - B - (p - B) * (dK 1 1 / dK 1 1) = 0
          rw [h11, div_self hane]; ring
    · show max (min (B + (p - B)) (svmC 1e6 2 1)) 0 = p
      rw [show B + (p - B) = p by ring, hc1, min_eq_left (by linarith)]
      exact max_eq_left (by linarith)
    · show 0 < (p - B) * dK 1 1 * (p - B - 0.5 * (p - B) + 1)
      rw [h11]
      apply mul_pos_of_neg_of_neg
      · exact mul_neg_of_neg_of_pos (by linarith) hap
      · linarith
  have hpq : 0 < p - p * q := by nlinarith
  have hpq4 : p - p * q ≤ 4 := by nlinarith
  have hstep3 : svmStep 1 dK (svmC 1e6 2) ⟨![0, p], ![p - p * q, 0]⟩ 2 = .ok (stalled a b) := by
    rw [svmStep_take (j := 0) (v := p - p * q) rfl]
    · simp only [stalled]
      congr 2
      · funext l; fin_cases l
        · show p - p * q = (1 - q) / a
          rw [hv1]; ring
        · rfl
      · funext l; fin_cases l
        · show p - p * q - (p - p * q - 0) * (dK 0 0 / dK 0 0) = 0
          rw [h00, div_self hane]; ring
        · show 0 - (p - p * q - 0) * (dK 0 1 / dK 1 1) = -((1 - q) / a * q)
          rw [h01, h11, hv1]; ring
    · show max (min (0 + (p - p * q)) (svmC 1e6 2 0)) 0 = p - p * q
      rw [zero_add, hc0, min_eq_left (by linarith)]
      exact max_eq_left hpq.le
    · show 0 < (p - p * q - 0) * dK 0 0 * (p - p * q - 0.5 * (p - p * q - 0) + 1)
      rw [h00]
      apply mul_pos (mul_pos (by linarith) hap) (by linarith)
  -- afterwards nothing is accepted
  have hidle : ∀ i, svmStep 1 dK (svmC 1e6 2) (stalled a b) i = .ok (stalled a b) := by
    intro i
    have hq2 : (1 - q) * p * q ≤ 1 := by nlinarith [sq_nonneg (q - 1 / 2)]
    have hq3 : 0 < (1 - q) * p * q := mul_pos (mul_pos (by linarith) (by linarith)) hq0
    rcases Nat.mod_two_eq_zero_or_one i with hi | hi
    · refine svmStep_skip (j := 0) (v := (1 - q) / a) hi ?_ ?_
      · show max (min ((1 - q) / a + 0) (svmC 1e6 2 0)) 0 = (1 - q) / a
        rw [add_zero, hc0, hv1, min_eq_left (by nlinarith)]
        exact max_eq_left (by nlinarith)
      · show ((1 - q) / a - (1 - q) / a) * _ * _ ≤ 0
        rw [sub_self]; simp
    · refine svmStep_skip (j := 1) (v := p - (1 - q) * p * q) hi ?_ ?_
      · show max (min (1 / a + -((1 - q) / a * q)) (svmC 1e6 2 1)) 0 = _
        rw [hv1, hc1, ← hp, ← sub_eq_add_neg, min_eq_left (by linarith)]
        exact max_eq_left (by linarith)
      · show (p - (1 - q) * p * q - 1 / a) * dK 1 1 *
          (-((1 - q) / a * q) - 0.5 * (p - (1 - q) * p * q - 1 / a) + 1) ≤ 0
        rw [hv1, ← hp, h11]
        apply mul_nonpos_of_nonpos_of_nonneg
        · exact mul_nonpos_of_nonpos_of_nonneg (by linarith) hap.le
        · linarith
  induction k with
  | zero =>
    show (List.range 3).foldlM _ _ = _
    rw [show List.range 3 = [0, 1, 2] from rfl, List.foldlM_cons, hstep1, Out.ok_bind,
      List.foldlM_cons, hstep2, Out.ok_bind, List.foldlM_cons, hstep3]
    rfl
  | succ k ih =>
    rw [show 3 + (k + 1) = (3 + k) + 1 by ring, List.range_succ, List.foldlM_append, ih]
    show (List.foldlM _ (stalled a b) [3 + k] : Out _) = _
    rw [List.foldlM_cons, hidle]
    rfl

theorem threePts_gamma : rbfInit 1 1 threePts = .ok (9 / 32) := by
  have hv : ∀ i j : Fin 3, vnorm (threePts i - threePts j) = |((i : ℕ) : ℝ) - (j : ℕ)| := by
    intro i j
    simp only [vnorm, sqNorm, threePts, Pi.sub_apply, Finset.univ_unique, Finset.sum_singleton]
    exact Real.sqrt_mul_self_eq_abs _
  have hsum : sumDist threePts = 4 := by
    simp only [sumDist, hv, Fin.sum_univ_three]
    norm_num [Fin.lt_def, abs_of_nonneg]
  simp only [rbfInit, hsum, divR]
  rw [if_neg (by norm_num), Out.ok_bind, Real.rpow_one, if_neg (by norm_num)]
  norm_num

/-- `encode` treats every point by itself. -/
theorem encodePts_pointwise {e : Bool} {covinv : Option (CovInv n)} {xmean : Vec n} {k : ℕ}
    {x y : Pts n k} (h : (if e then encodePts covinv xmean x else .ok x) = .ok y) :
    ∃ g : Vec n → Vec n, (y = fun i => g (x i)) ∧ ∀ (l : ℕ) (z : Pts n l),
      (if e then encodePts covinv xmean z else .ok z) = .ok fun i => g (z i) := by
  cases e with
  | false =>
    injection h with h
    exact ⟨id, h.symm, fun l z => rfl⟩
  | true =>
    refine ⟨fun v => match encodePts covinv xmean (fun _ : Fin 1 => v) with | .ok w => w 0 | .error _ => 0, ?_⟩
    match covinv, h with
    | some (.full c), h =>
      injection h with h
      exact ⟨h.symm, fun l z => rfl⟩
    | some (.diag c), h =>
      injection h with h
      exact ⟨h.symm, fun l z => rfl⟩

theorem svmFit_eq {a : Vec m} {kf : Vec n → Vec n → ℝ} {y : Pts n (m + 1)} {x : Vec n} :
    svmFit a kf y x = .ok (Spec.rankScore a kf y x) := by
  simp only [svmFit, le_refl, dif_pos, Spec.rankScore]
  rfl

theorem kernel_symm {q : Kernel} {z : Pts n k} {kf : Vec n → Vec n → ℝ} (h : q.init z = .ok kf)
    (x y : Vec n) : kf x y = kf y x := by
  cases q with
  | linear => injection h with h; subst h; exact dotProduct_comm x y
  | poly d c => injection h with h; subst h; rw [polyK, polyK, dotProduct_comm]
  | rbf a b =>
    obtain ⟨g, hg, h⟩ := Out.bind_eq_ok.1 h
    injection h with h; subst h
    rw [rbfK, rbfK]
    congr 2
    simp only [sqNorm, Pi.sub_apply]
    exact Finset.sum_congr rfl fun i _ => by ring

/-- Two points on a line. -/
def twoPts : Pts 1 2 := fun i _ => (i : ℕ)

theorem twoPts_gamma : rbfInit 1 1 twoPts = .ok (1 / 2) := by
  have hv : ∀ i j : Fin 2, vnorm (twoPts i - twoPts j) = |((i : ℕ) : ℝ) - (j : ℕ)| := by
    intro i j
    simp only [vnorm, sqNorm, twoPts, Pi.sub_apply, Finset.univ_unique, Finset.sum_singleton]
    exact Real.sqrt_mul_self_eq_abs _
  have hsum : sumDist twoPts = 1 := by
    simp only [sumDist, hv, Fin.sum_univ_two]
    norm_num [Fin.lt_def]
  simp only [rbfInit, hsum, divR]
  rw [if_neg (by norm_num), Out.ok_bind, Real.rpow_one, if_neg (by norm_num)]
  norm_num

/-- On two points one iteration of the default configuration reaches the maximum of the dual. -/
theorem twoPts_optimal (u : Vec 1) (hu : ∀ i, 0 ≤ u i ∧ u i < 1) :
    ∃ r, svmTrain SvmConfig.default twoPts 1 none (fun _ => 0) u = .ok r ∧
      (∀ b : Vec 1, Spec.dual r.kmat SvmConfig.default.epsilon b
        ≤ Spec.dual r.kmat SvmConfig.default.epsilon r.alpha) ∧
      r.alpha 0 < SvmConfig.default.cval := by
  set e := Real.exp (-(1 / 2)) with he
  have hlo : 1 / 2 ≤ e := by
    have := Real.add_one_le_exp (-(1 / 2) : ℝ); linarith
  have hhi : e ≤ 2 / 3 := by
    have h1 := Real.add_one_le_exp (1 / 2 : ℝ)
    have h2 : e * Real.exp (1 / 2) = 1 := by rw [he, ← Real.exp_add]; norm_num
    have h3 : 0 < e := Real.exp_pos _
    nlinarith
  set K := kernelMat (rbfK (1 / 2)) twoPts with hK
  set a := 2 - 2 * e with ha
  have h00 : ∀ i : Fin 1, svmDK K i i = a := by
    intro i
    fin_cases i
    rw [hK, svmDK_diag, rbfK_gap, ha, he]
    congr 3
    simp [sqNorm, twoPts]
  have hap : 2 / 3 ≤ a := by rw [ha]; linarith
  have ha1 : a ≤ 1 := by rw [ha]; linarith
  have hap' : 0 < a := by linarith
  have hinv : 1 / a ≤ 2 := by rw [div_le_iff₀ hap']; linarith
  have hinv0 : 0 < 1 / a := by positivity
  have hdiag : ¬ ∃ i, svmDK K i i = 0 := by
    rintro ⟨i, hi⟩; rw [h00] at hi; linarith
  have hc0 : svmC 1e6 1 0 = 1000000 := by norm_num [svmC]
  obtain ⟨A, hA⟩ : ∃ A, svmAlpha0 (svmC 1e6 1) u 0 = A := ⟨_, rfl⟩
  have hA0 : 900000 ≤ A := by
    rw [← hA, svmAlpha0, hc0]; have := (hu 0).1; linarith
  have hs0 : svmSums0 1 (svmDK K) (svmAlpha0 (svmC 1e6 1) u) 0 = 1 / a - A := by
    simp only [svmSums0, Finset.univ_unique, Finset.sum_singleton, Fin.default_eq_zero, hA, h00]
    field_simp
  have hstep : svmStep 1 (svmDK K) (svmC 1e6 1)
      ⟨svmAlpha0 (svmC 1e6 1) u, svmSums0 1 (svmDK K) (svmAlpha0 (svmC 1e6 1) u)⟩ 0
      = .ok ⟨fun _ => 1 / a, fun _ => 0⟩ := by
    rw [svmStep_take (j := 0) (v := 1 / a) rfl]
    · congr 2
      · funext l; fin_cases l; rfl
      · funext l; fin_cases l
        show svmSums0 1 (svmDK K) _ 0 - (1 / a - svmAlpha0 (svmC 1e6 1) u 0) *
          (svmDK K 0 0 / svmDK K 0 0) = 0
        rw [hs0, hA, h00, div_self hap'.ne']; ring
    · show max (min (svmAlpha0 (svmC 1e6 1) u 0 + svmSums0 1 (svmDK K) _ 0) _) 0 = 1 / a
      rw [hA, hs0, hc0, add_sub_cancel, min_eq_left (by linarith)]
      exact max_eq_left hinv0.le
    · show 0 < (1 / a - svmAlpha0 (svmC 1e6 1) u 0) * svmDK K 0 0 *
        (svmSums0 1 (svmDK K) _ 0 - 0.5 * (1 / a - svmAlpha0 (svmC 1e6 1) u 0) + 1)
      rw [hA, hs0, h00]
      apply mul_pos_of_neg_of_neg
      · exact mul_neg_of_neg_of_pos (by linarith) hap'
      · linarith
  refine ⟨⟨SvmConfig.default, rbfK (1 / 2), K, fun _ => 1 / a, fun _ => 0⟩, ?_, fun b => ?_, ?_⟩
  · have hl : (List.range (1 : ℤ).toNat).foldlM (svmStep 1 (svmDK K) (svmC 1e6 1))
      ⟨svmAlpha0 (svmC 1e6 1) u, svmSums0 1 (svmDK K) (svmAlpha0 (svmC 1e6 1) u)⟩
      = .ok ⟨fun _ => 1 / a, fun _ => 0⟩ := by
      show (List.range 1).foldlM _ _ = _
      rw [show List.range 1 = [0] from rfl, List.foldlM_cons, hstep]
      rfl
    simp only [svmTrain, SvmConfig.default, Bool.false_eq_true, if_false, Out.ok_bind, Kernel.init,
      twoPts_gamma, Out.pure_eq, svmOptimize, ← hK, if_neg hdiag, hl]
  · have hd : ∀ v : Vec 1, Spec.dual K 1 v = v 0 - 1 / 2 * (v 0 * v 0 * a) := by
      intro v
      rw [Spec.dual]
      simp only [Finset.univ_unique, Finset.sum_singleton, Fin.default_eq_zero, ← svmDK_eq_pairK, h00,
        one_mul]
    show Spec.dual K 1 b ≤ Spec.dual K 1 _
    rw [hd, hd]
    have h1 : (1 / a) * (1 / a) * a = 1 / a := by field_simp
    show _ ≤ 1 / a - 1 / 2 * ((1 / a) * (1 / a) * a)
    rw [h1]
    have h2 : 0 ≤ a * (b 0 - 1 / a) ^ 2 := mul_nonneg hap'.le (sq_nonneg _)
    have h3 : a * (b 0 - 1 / a) ^ 2 = b 0 * b 0 * a - 2 * b 0 + 1 / a := by field_simp; ring
    linarith
  · show 1 / a < 1e6
    linarith

end Libcmaes
