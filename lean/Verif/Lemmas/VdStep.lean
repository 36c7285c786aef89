import Verif.Lemmas.Vd

/-! # The code's VD update solves the equations of the natural gradient -/

namespace Libcmaes

open Spec Matrix Finset

variable {n : ℕ}

section solve

variable {v w q p s u : Vec n} {a r al b : ℝ}

/-- The Sherman-Morrison step: `(diag(den) + b z zᵀ) s = rv`. -/
theorem sherman_morrison {den z rv : Vec n} (hden : ∀ k, den k ≠ 0)
    (h1 : 1 + b * (((fun k => 1 / den k) * z) ⬝ᵥ z) ≠ 0)
    (hs : ∀ k, s k = rv k * (1 / den k) -
      b * (((fun k => 1 / den k) * z) ⬝ᵥ rv) / (1 + b * (((fun k => 1 / den k) * z) ⬝ᵥ z)) * (1 / den k * z k))
    (k : Fin n) : den k * s k + b * (s ⬝ᵥ z) * z k = rv k := by
  set nu := ((fun k => 1 / den k) * z) ⬝ᵥ rv with hnu
  set nu2 := ((fun k => 1 / den k) * z) ⬝ᵥ z with hnu2
  have hz : s ⬝ᵥ z = nu / (1 + b * nu2) := by
    have key : ∀ c : ℝ, (∀ k, s k = rv k * (1 / den k) - c * (1 / den k * z k)) → s ⬝ᵥ z = nu - c * nu2 := by
      intro c hc
      rw [hnu, hnu2]
      unfold dotProduct
      rw [Finset.mul_sum, ← Finset.sum_sub_distrib]
      refine sum_congr rfl fun i _ => ?_
      rw [hc i]
      simp only [Pi.mul_apply]
      ring
    rw [key _ hs]
    field_simp
    ring
  rw [hz, hs k]
  have := hden k
  field_simp
  ring

theorem vd_solve (hr : 0 < r) (hra : r * r = a) (hw : w ⬝ᵥ w = 1) (hv : ∀ k, v k = r * w k)
    (hb : b = -(1 - al * al) * a * a / (1 + a) + 2 * al * al)
    (hs : ∀ k, (2 - (b + 2 * al * al) * (w k * w k)) * s k + b * (s ⬝ᵥ (w * w)) * (w k * w k) =
      p k - al / (1 + a) * ((2 + a) * (w k * q k) - a * (w ⬝ᵥ q) * (w k * w k)))
    (hu : ∀ k, u k = (q k - al * ((2 + a) * (w k * s k) - (s ⬝ᵥ (w * w)) * w k)) / r) :
    vdGv v (vdTv v u) + al • vdGv v (vdTd v s) = vdGv v (vdTv v (fun k => q k / r)) ∧
    al • vdGd v (vdTv v u) + vdGd v (vdTd v s) = p := by
  have ha : 0 < a := hra ▸ mul_pos hr hr
  have hva : v ⬝ᵥ v = a := by
    rw [show v = r • w from funext hv, smul_dotProduct, dotProduct_smul, hw, smul_eq_mul, smul_eq_mul, mul_one, hra]
  set S := s ⬝ᵥ (w * w) with hS
  set Q := w ⬝ᵥ q with hQ
  have hvu : v ⬝ᵥ u = Q - al * ((1 + a) * S) := by
    have h1 : v ⬝ᵥ u = ∑ k, (w k * q k - al * ((2 + a) * (s k * (w k * w k)) - S * (w k * w k))) := by
      unfold dotProduct
      refine sum_congr rfl fun k _ => ?_
      rw [hu k, hv k]
      field_simp
    rw [h1, Finset.sum_sub_distrib, ← Finset.mul_sum, Finset.sum_sub_distrib, ← Finset.mul_sum, ← Finset.mul_sum]
    rw [show ∑ k, w k * q k = Q from rfl, show ∑ k, s k * (w k * w k) = S from rfl,
      show ∑ k, w k * w k = 1 from hw]
    ring
  have hvs : v ⬝ᵥ (s * v) = a * S := by
    rw [hS]
    unfold dotProduct
    rw [Finset.mul_sum]
    refine sum_congr rfl fun k _ => ?_
    simp only [Pi.mul_apply]
    rw [hv k, ← hra]
    ring
  have hvq : (v ⬝ᵥ fun k => q k / r) = Q := by
    rw [hQ]
    unfold dotProduct
    refine sum_congr rfl fun k _ => ?_
    rw [hv k]
    field_simp
  have h1a : 1 + a ≠ 0 := by positivity
  constructor
  · funext k
    simp only [Pi.add_apply, Pi.smul_apply, smul_eq_mul]
    rw [vdGv_tv, vdGv_td, vdGv_tv, hva, hvu, hvs, hvq, hu k, hv k, ← hra]
    rw [← hra] at h1a
    field_simp
    ring
  · funext k
    simp only [Pi.add_apply, Pi.smul_apply, smul_eq_mul]
    rw [vdGd_tv, vdGd_td, hva, hvu, hvs, hu k, hv k]
    have hk := hs k
    have hp : p k = (2 - (b + 2 * al * al) * (w k * w k)) * s k + b * S * (w k * w k) +
      al / (1 + a) * ((2 + a) * (w k * q k) - a * Q * (w k * w k)) := by linarith
    rw [hp, hb, ← hra]
    rw [← hra] at h1a
    field_simp
    ring

/-- The inverse of the `v` block of the Fisher information, applied to the change towards a point. -/
theorem vd_point (hr : 0 < r) (hra : r * r = a) (hw : w ⬝ᵥ w = 1) (hv : ∀ k, v k = r * w k) (y : Vec n) :
    vdGv v (vdTv v (fun k => (y k * (w ⬝ᵥ y) - 0.5 * w k * ((w ⬝ᵥ y) * (w ⬝ᵥ y) + (1 + a))) / r)) =
      vdGv v (vecMulVec y y - (1 + vecMulVec v v)) ∧
    (fun k => y k * y k - a / (1 + a) * (w k * (w ⬝ᵥ y) * y k) - 1) =
      vdGd v (vecMulVec y y - (1 + vecMulVec v v)) := by
  have ha : 0 < a := hra ▸ mul_pos hr hr
  have hva : v ⬝ᵥ v = a := by
    rw [show v = r • w from funext hv, smul_dotProduct, dotProduct_smul, hw, smul_eq_mul, smul_eq_mul, mul_one, hra]
  have hvy : v ⬝ᵥ y = r * (w ⬝ᵥ y) := by
    rw [show v = r • w from funext hv, smul_dotProduct, smul_eq_mul]
  set T := w ⬝ᵥ y with hT
  have hvq : (v ⬝ᵥ fun k => (y k * T - 0.5 * w k * (T * T + (1 + a))) / r) = T * T - 0.5 * (T * T + (1 + a)) := by
    have h1 : (v ⬝ᵥ fun k => (y k * T - 0.5 * w k * (T * T + (1 + a))) / r) =
        ∑ k, (T * (w k * y k) - 0.5 * (T * T + (1 + a)) * (w k * w k)) := by
      unfold dotProduct
      refine sum_congr rfl fun k _ => ?_
      rw [hv k]
      field_simp
    rw [h1, Finset.sum_sub_distrib, ← Finset.mul_sum, ← Finset.mul_sum, show ∑ k, w k * y k = T from rfl,
      show ∑ k, w k * w k = 1 from hw]
    ring
  have h1a : 1 + r * r ≠ 0 := by positivity
  constructor
  · funext k
    rw [vdGv_tv, vdGv_pt, hva, hvq, hvy, hv k, ← hra, show (0.5 : ℝ) = 1 / 2 by norm_num]
    field_simp
    ring
  · funext k
    rw [vdGd_pt, hva, hvy, hv k, ← hra]
    field_simp

end solve

section sums

theorem vdGv_sum (v : Vec n) (m : ℕ) (X : ℕ → Mat n) :
    vdGv v (∑ i ∈ range m, X i) = ∑ i ∈ range m, vdGv v (X i) := by
  induction m with
  | zero =>
    rw [range_zero, sum_empty, sum_empty]
    unfold vdGv
    rw [zero_mulVec, mulVec_zero, smul_zero]
  | succ m ih => rw [sum_range_succ, sum_range_succ, vdGv_add, ih]

theorem vdGd_sum (v : Vec n) (m : ℕ) (X : ℕ → Mat n) :
    vdGd v (∑ i ∈ range m, X i) = ∑ i ∈ range m, vdGd v (X i) := by
  induction m with
  | zero =>
    rw [range_zero, sum_empty, sum_empty]
    unfold vdGd
    rw [Matrix.mul_zero]
    rfl
  | succ m ih => rw [sum_range_succ, sum_range_succ, vdGd_add, ih]

theorem vdTv_add (v x y : Vec n) : vdTv v (x + y) = vdTv v x + vdTv v y := by
  unfold vdTv
  rw [add_vecMulVec, vecMulVec_add]
  abel

theorem vdTv_smul (v : Vec n) (c : ℝ) (x : Vec n) : vdTv v (c • x) = c • vdTv v x := by
  unfold vdTv
  rw [smul_vecMulVec, vecMulVec_smul, smul_add]

theorem vdTv_sum (v : Vec n) (m : ℕ) (x : ℕ → Vec n) :
    vdTv v (∑ i ∈ range m, x i) = ∑ i ∈ range m, vdTv v (x i) := by
  induction m with
  | zero =>
    rw [range_zero, sum_empty, sum_empty]
    unfold vdTv
    rw [zero_vecMulVec, vecMulVec_zero, add_zero]
  | succ m ih => rw [sum_range_succ, sum_range_succ, vdTv_add, ih]

end sums

section gradient

variable {p : Params n} {s : Sol n}

theorem vbar_unit {v : Vec n} (hv : sqNorm v ≠ 0) :
    0 < Real.sqrt (sqNorm v) ∧ Real.sqrt (sqNorm v) * Real.sqrt (sqNorm v) = sqNorm v ∧
      ((fun k => v k / Real.sqrt (sqNorm v)) ⬝ᵥ fun k => v k / Real.sqrt (sqNorm v)) = 1 ∧
      ∀ k, v k = Real.sqrt (sqNorm v) * (v k / Real.sqrt (sqNorm v)) := by
  have h0 : 0 ≤ sqNorm v := sum_nonneg fun i _ => mul_self_nonneg _
  have h1 : 0 < Real.sqrt (sqNorm v) := Real.sqrt_pos.2 (lt_of_le_of_ne h0 (Ne.symm hv))
  have h2 := Real.mul_self_sqrt h0
  refine ⟨h1, h2, ?_, fun k => (mul_div_cancel₀ _ h1.ne').symm⟩
  have : ∑ k, v k / Real.sqrt (sqNorm v) * (v k / Real.sqrt (sqNorm v)) =
      (∑ k, v k * v k) / (Real.sqrt (sqNorm v) * Real.sqrt (sqNorm v)) := by
    rw [Finset.sum_div]
    refine sum_congr rfl fun k _ => ?_
    rw [div_mul_div_comm]
  rw [h2] at this
  exact this.trans (div_self hv)

/-- The scaled change asked for. -/
noncomputable def vdX (p : Params n) (s : Sol n) : Mat n :=
  p.cmu • ∑ i ∈ range p.mu, p.weights i • (vecMulVec (vdY s i) (vdY s i) - (1 + vecMulVec s.v s.v))
    + (hsigR s.hsig * p.c1) • (vecMulVec (s.sepcsqinv * s.pc) (s.sepcsqinv * s.pc) - (1 + vecMulVec s.v s.v))

theorem vdX_symm : (vdX p s)ᵀ = vdX p s := by
  have h : ∀ y v : Vec n, (vecMulVec y y - (1 + vecMulVec v v))ᵀ = vecMulVec y y - (1 + vecMulVec v v) := by
    intro y v
    rw [transpose_sub, transpose_add, transpose_vecMulVec, transpose_vecMulVec, transpose_one]
  unfold vdX
  rw [transpose_add, transpose_smul, transpose_smul, h, transpose_sum]
  congr 2
  exact sum_congr rfl fun i _ => by rw [transpose_smul, h]

theorem vdPvec_eq (hv : sqNorm s.v ≠ 0) :
    vdPvec p s (sqNorm s.v) (fun k => s.v k / Real.sqrt (sqNorm s.v)) = vdGd s.v (vdX p s) := by
  obtain ⟨h1, h2, h3, h4⟩ := vbar_unit hv
  have hpt := fun y => (vd_point h1 h2 h3 h4 y).2
  have hP : vdP p s (sqNorm s.v) (fun k => s.v k / Real.sqrt (sqNorm s.v)) =
      ∑ i ∈ range p.mu, p.weights i • vdGd s.v (vecMulVec (vdY s i) (vdY s i) - (1 + vecMulVec s.v s.v)) := by
    funext k
    rw [Finset.sum_apply]
    refine sum_congr rfl fun i _ => ?_
    rw [← hpt (vdY s i)]
    simp only [Pi.smul_apply, smul_eq_mul]
    ring
  have hone : vdPone (sqNorm s.v) (fun k => s.v k / Real.sqrt (sqNorm s.v)) (s.sepcsqinv * s.pc) = _ :=
    hpt (s.sepcsqinv * s.pc)
  unfold vdPvec vdX
  rw [hP, hone, vdGd_add, vdGd_smul, vdGd_smul, vdGd_sum]
  simp only [vdGd_smul]
  cases s.hsig
  · simp [hsigR]
  · simp [hsigR]

theorem vdQvec_eq (hv : sqNorm s.v ≠ 0) :
    vdGv s.v (vdTv s.v fun k => vdQvec p s (sqNorm s.v) (fun k => s.v k / Real.sqrt (sqNorm s.v)) k
      / Real.sqrt (sqNorm s.v)) = vdGv s.v (vdX p s) := by
  obtain ⟨h1, h2, h3, h4⟩ := vbar_unit hv
  set w : Vec n := fun k => s.v k / Real.sqrt (sqNorm s.v) with hw
  set r := Real.sqrt (sqNorm s.v) with hr
  have hpt := fun y => (vd_point h1 h2 h3 h4 y).1
  have hq : (fun k => vdQvec p s (sqNorm s.v) w k / r) =
      p.cmu • (∑ i ∈ range p.mu, p.weights i • (fun k => (vdY s i k * (w ⬝ᵥ vdY s i) - 0.5 * w k *
        ((w ⬝ᵥ vdY s i) * (w ⬝ᵥ vdY s i) + (1 + sqNorm s.v))) / r : Vec n)) +
      (hsigR s.hsig * p.c1) • (fun k => ((s.sepcsqinv * s.pc) k * (w ⬝ᵥ (s.sepcsqinv * s.pc)) - 0.5 * w k *
        ((w ⬝ᵥ (s.sepcsqinv * s.pc)) * (w ⬝ᵥ (s.sepcsqinv * s.pc)) + (1 + sqNorm s.v))) / r : Vec n) := by
    have hQ : (r⁻¹ • vdQ p s (sqNorm s.v) w : Vec n) = ∑ i ∈ range p.mu, p.weights i • (fun k =>
        (vdY s i k * (w ⬝ᵥ vdY s i) - 0.5 * w k *
        ((w ⬝ᵥ vdY s i) * (w ⬝ᵥ vdY s i) + (1 + sqNorm s.v))) / r : Vec n) := by
      funext k
      rw [Finset.sum_apply]
      show r⁻¹ * vdQ p s (sqNorm s.v) w k = _
      unfold vdQ
      rw [Finset.mul_sum]
      refine sum_congr rfl fun i _ => ?_
      simp only [Pi.smul_apply, smul_eq_mul]
      ring
    rw [← hQ]
    funext k
    unfold vdQvec
    cases s.hsig
    · simp [hsigR]
      ring
    · simp [hsigR, vdQone]
      ring
  rw [hq, vdTv_add, vdTv_smul, vdTv_smul, vdTv_sum, vdGv_add, vdGv_smul, vdGv_smul, vdGv_sum, hpt]
  simp only [vdTv_smul, vdGv_smul]
  unfold vdX
  rw [vdGv_add, vdGv_smul, vdGv_smul, vdGv_sum]
  simp only [vdGv_smul, hpt]

/-- **The step of `v` and `D` is the damped natural gradient.** -/
theorem vdGradient_natGrad {g : VdStep n} (hv : sqNorm s.v ≠ 0) (hd : ∀ k, s.sepcov k ≠ 0)
    (hg : vdGradient p s (sqNorm s.v) = .ok g) :
    NatGrad (vdAlpha (sqNorm s.v) fun k => s.v k ^ 2 / sqNorm s.v) s.sepcov s.v
      (diagonal s.sepcov * vdX p s * diagonal s.sepcov) (g.v - s.v) (g.sepcov - s.sepcov) := by
  obtain ⟨h1, h2, h3, h4⟩ := vbar_unit hv
  unfold vdGradient at hg
  simp only at hg
  split_ifs at hg with c1 c2
  push Not at c1
  obtain rfl := Except.ok.inj hg
  have hvbb : ((fun k => s.v k / Real.sqrt (sqNorm s.v)) * (fun k => s.v k / Real.sqrt (sqNorm s.v)) : Vec n) =
      fun k => s.v k ^ 2 / sqNorm s.v := by
    funext k
    simp only [Pi.mul_apply]
    rw [div_mul_div_comm, h2, pow_two]
  rw [hvbb] at c1 c2
  simp only [add_sub_cancel_left, hvbb]
  set w : Vec n := fun k => s.v k / Real.sqrt (sqNorm s.v) with hw
  set z : Vec n := fun k => s.v k ^ 2 / sqNorm s.v with hz
  set al := vdAlpha (sqNorm s.v) z with hal
  set S := vdS (vdB (sqNorm s.v) al) (fun k => 1 / vdDen (sqNorm s.v) al z k) z
    (vdR (sqNorm s.v) al w (vdPvec p s (sqNorm s.v) w) (vdQvec p s (sqNorm s.v) w)) with hS
  have hsm := sherman_morrison (b := vdB (sqNorm s.v) al) (s := S) (den := vdDen (sqNorm s.v) al z) (z := z)
    (rv := vdR (sqNorm s.v) al w (vdPvec p s (sqNorm s.v) w) (vdQvec p s (sqNorm s.v) w)) c1 c2 (fun k => rfl)
  have hzk : ∀ k, z k = w k * w k := fun k => (congrFun hvbb k).symm
  obtain ⟨e1, e2⟩ := vd_solve (v := s.v) (w := w) (a := sqNorm s.v) (r := Real.sqrt (sqNorm s.v)) (al := al)
    (b := vdB (sqNorm s.v) al) (s := S) (p := vdPvec p s (sqNorm s.v) w) (q := vdQvec p s (sqNorm s.v) w)
    (u := vdNgv (sqNorm s.v) al w (vdQvec p s (sqNorm s.v) w) S) h1 h2 h3 h4 rfl
    (fun k => by
      have := hsm k
      rw [← hvbb] at this
      exact this) (fun k => rfl)
  rw [vdQvec_eq hv] at e1
  rw [vdPvec_eq hv] at e2
  exact natGrad_of hd vdX_symm e1 e2

end gradient

section total

variable {p : Params n} {s : Sol n}

/-- The denominators of the VD update are positive. -/
theorem vdDen_pos {a : ℝ} {z : Vec n} (ha : 0 < a) (h0 : ∀ k, 0 ≤ z k) (h1 : ∑ k, z k = 1) (k : Fin n) :
    0 < vdDen a (vdAlpha a z) z k ∧ 0 ≤ vdAlpha a z ∧ vdAlpha a z ≤ 1 := by
  have hm : 0 < maxCoeff z := by
    by_contra hc
    have : ∑ k, z k ≤ 0 := sum_nonpos fun i _ => (le_maxCoeff z i).trans (not_lt.1 hc)
    linarith
  have hg : 0 < Real.sqrt (1 + a) := Real.sqrt_pos.2 (by linarith)
  have hg1 : 1 ≤ Real.sqrt (1 + a) := by rw [Real.one_le_sqrt]; linarith
  set c := 2 - 1 / Real.sqrt (1 + a) with hc
  have hc1 : 0 < c := by
    have : 1 / Real.sqrt (1 + a) ≤ 1 := by rw [div_le_one hg]; exact hg1
    rw [hc]; linarith
  have hc2 : c < 2 := by
    have : 0 < 1 / Real.sqrt (1 + a) := by positivity
    rw [hc]; linarith
  set al := vdAlpha a z with hal
  have hal0 : 0 ≤ al := le_min zero_le_one (by positivity)
  have hal1 : al ≤ 1 := min_le_left _ _
  have hal2 : al * al * (2 + a) ^ 2 ≤ a * a + c * (1 + a) / maxCoeff z := by
    have hle : al ≤ Real.sqrt (a * a + c * (1 + a) / maxCoeff z) / (2 + a) := min_le_right _ _
    rw [le_div_iff₀ (by linarith)] at hle
    have hx : 0 ≤ a * a + c * (1 + a) / maxCoeff z := by positivity
    have := mul_self_le_mul_self (by positivity) hle
    rw [Real.mul_self_sqrt hx] at this
    nlinarith
  refine ⟨?_, hal0, hal1⟩
  have hb : vdB a al + 2 * al * al = (al * al * (2 + a) ^ 2 - a * a) / (1 + a) := by
    unfold vdB
    have : 1 + a ≠ 0 := by linarith
    field_simp
    ring
  have hle : vdB a al + 2 * al * al ≤ c / maxCoeff z := by
    rw [hb, div_le_iff₀ (by linarith)]
    have : c / maxCoeff z * (1 + a) = c * (1 + a) / maxCoeff z := by ring
    linarith
  have hz : (vdB a al + 2 * al * al) * z k ≤ c := by
    calc (vdB a al + 2 * al * al) * z k ≤ c / maxCoeff z * z k := mul_le_mul_of_nonneg_right hle (h0 k)
      _ ≤ c / maxCoeff z * maxCoeff z := mul_le_mul_of_nonneg_left (le_maxCoeff z k) (by positivity)
      _ = c := div_mul_cancel₀ _ hm.ne'
  unfold vdDen
  linarith

/-- The denominator of the Sherman-Morrison step is positive. -/
theorem vdShm_pos {a : ℝ} {z : Vec n} (ha : 0 < a) (h0 : ∀ k, 0 ≤ z k) (h1 : ∑ k, z k = 1) :
    0 < 1 + vdB a (vdAlpha a z) * (((fun k => 1 / vdDen a (vdAlpha a z) z k) * z) ⬝ᵥ z) := by
  have hn : ∃ k, 0 < z k := by
    by_contra hc
    push Not at hc
    have : ∑ k, z k ≤ 0 := sum_nonpos fun i _ => hc i
    linarith
  have hden := fun k => (vdDen_pos ha h0 h1 k).1
  obtain ⟨k0, hk0⟩ := hn
  obtain ⟨_, hal0, hal1⟩ := vdDen_pos ha h0 h1 k0
  set al := vdAlpha a z
  set b := vdB a al with hb
  have hnu : (((fun k => 1 / vdDen a al z k) * z) ⬝ᵥ z) = ∑ k, 1 / vdDen a al z k * z k * z k := rfl
  rw [hnu]
  by_cases hbs : 0 ≤ b
  · have : 0 ≤ ∑ k, 1 / vdDen a al z k * z k * z k :=
      sum_nonneg fun k _ => by have := hden k; have := h0 k; positivity
    positivity
  push Not at hbs
  have hlt : al < 1 := by
    rcases hal1.lt_or_eq with h | h
    · exact h
    · rw [hb, h] at hbs
      unfold vdB at hbs
      norm_num at hbs
  have hz1 : ∀ k, z k ≤ 1 := fun k => h1 ▸ Finset.single_le_sum (fun i _ => h0 i) (Finset.mem_univ k)
  have hkey : ∀ k, -b * z k < vdDen a al z k := by
    intro k
    show -b * z k < 2 - (b + 2 * al * al) * z k
    have h2 : al * al * z k < 1 := by
      have : al * al < 1 := by nlinarith
      have hz := hz1 k
      have hz0 := h0 k
      nlinarith [mul_nonneg (mul_self_nonneg al) (sub_nonneg.2 hz)]
    linarith
  have hsum : ∑ k, -b * (1 / vdDen a al z k * z k * z k) < ∑ k, z k := by
    refine Finset.sum_lt_sum (fun k _ => ?_) ⟨k0, Finset.mem_univ _, ?_⟩
    · have hd := hden k
      have : -b * (1 / vdDen a al z k * z k * z k) = (-b * z k / vdDen a al z k) * z k := by ring
      rw [this]
      have h3 : -b * z k / vdDen a al z k ≤ 1 := by rw [div_le_one hd]; exact (hkey k).le
      nlinarith [h0 k]
    · have hd := hden k0
      have : -b * (1 / vdDen a al z k0 * z k0 * z k0) = (-b * z k0 / vdDen a al z k0) * z k0 := by ring
      rw [this]
      have h3 : -b * z k0 / vdDen a al z k0 < 1 := by rw [div_lt_one hd]; exact hkey k0
      nlinarith
  rw [h1, ← Finset.mul_sum] at hsum
  linarith

/-- The natural gradient step is always defined. -/
theorem vdGradient_total (hv : sqNorm s.v ≠ 0) : ∃ g, vdGradient p s (sqNorm s.v) = .ok g := by
  obtain ⟨h1, h2, h3, h4⟩ := vbar_unit hv
  set w : Vec n := fun k => s.v k / Real.sqrt (sqNorm s.v) with hw
  have ha : 0 < sqNorm s.v := h2 ▸ mul_pos h1 h1
  have h0 : ∀ k, 0 ≤ (w * w) k := fun k => mul_self_nonneg _
  unfold vdGradient
  simp only
  rw [if_neg, if_neg]
  · exact ⟨_, rfl⟩
  · exact (vdShm_pos ha h0 h3).ne'
  · rintro ⟨k, hk⟩
    exact absurd hk (vdDen_pos ha h0 h3 k).1.ne'

end total

end Libcmaes
