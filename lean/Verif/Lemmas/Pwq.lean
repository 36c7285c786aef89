import Verif.Model.Pwq
import Verif.Lemmas.Out
import Mathlib.Tactic.Linarith
import Mathlib.Tactic.Ring
import Mathlib.Tactic.FieldSimp
import Mathlib.Tactic.Positivity
import Mathlib.Tactic.NormNum

namespace Libcmaes

theorem castInt_ok_iff {q : ℝ} {k : ℤ} (h0 : 0 ≤ q) :
    castInt q = .ok k ↔ q < 2147483648 ∧ k = ⌊q⌋ := by
  unfold castInt
  by_cases h : q < 2147483648
  · have : -2147483649 < q := by linarith
    simp [h, this, h0, eq_comm]
  · simp [h]

/-- Everything the proofs need about the derived members of a coordinate. -/
structure PwqCoord.WF (c : PwqCoord) : Prop where
  al_pos : 0 < c.al
  au_pos : 0 < c.au
  al_le : c.al ≤ (c.ub - c.lb) / 2
  au_le : c.au ≤ (c.ub - c.lb) / 2
  xlow_eq : c.xlow = c.lb - 2 * c.al - (c.ub - c.lb) / 2
  xup_eq : c.xup = c.ub + 2 * c.au + (c.ub - c.lb) / 2
  r_eq : c.r = 2 * (c.ub - c.lb + c.al + c.au)

theorem PwqCoord.mk'_lb (lb ub : ℝ) : (PwqCoord.mk' lb ub).lb = lb := rfl
theorem PwqCoord.mk'_ub (lb ub : ℝ) : (PwqCoord.mk' lb ub).ub = ub := rfl

theorem PwqCoord.mk'_wf {lb ub : ℝ} (h : lb < ub) : (PwqCoord.mk' lb ub).WF := by
  have h1 : 0 ≤ |lb| := abs_nonneg _
  have h2 : 0 ≤ |ub| := abs_nonneg _
  constructor <;> simp only [PwqCoord.mk']
  · apply lt_min <;> linarith
  · apply lt_min <;> linarith
  · refine (min_le_left _ _).trans ?_; linarith
  · refine (min_le_left _ _).trans ?_; linarith
  · ring
  · ring

namespace PwqCoord
variable {c : PwqCoord}

theorem WF.r_pos (h : c.WF) : 0 < c.r := by
  have := h.al_pos; have := h.au_pos; have := h.al_le; rw [h.r_eq]; linarith

theorem WF.lb_lt (h : c.WF) : c.lb < c.ub := by
  have := h.al_pos; have := h.al_le; linarith

theorem WF.xup_sub (h : c.WF) : c.xup = c.xlow + c.r := by
  rw [h.xup_eq, h.xlow_eq, h.r_eq]; ring

/-- The two shift counts fit a C++ `int`. -/
def Fits (c : PwqCoord) (x : ℝ) : Prop :=
  (x < c.xlow → (c.xlow - x) / c.r < 2147483648) ∧
  (c.xup < x → (x - c.xup) / c.r < 2147483648)

/-- Reflection step of `shift`, after the period shift. -/
theorem reflect_spec (h : c.WF) {x : ℝ} (h1 : c.xlow ≤ x) (h2 : x ≤ c.xup) :
    let x3 := if x < c.lb - c.al then x + 2 * (c.lb - c.al - x) else x
    let x4 := if x3 > c.ub + c.au then x3 - 2 * (x3 - c.ub - c.au) else x3
    ∃ m : ℤ, x4 = c.lb - c.al + |x - (c.lb - c.al) - c.r * m| ∧
      |x - (c.lb - c.al) - c.r * m| ≤ c.r / 2 := by
  have a1 := h.al_pos; have a2 := h.au_pos; have a3 := h.al_le; have a4 := h.au_le
  rw [h.xlow_eq] at h1; rw [h.xup_eq] at h2
  have hr := h.r_eq
  by_cases hx : x < c.lb - c.al
  · refine ⟨0, ?_⟩
    have e : |x - (c.lb - c.al) - c.r * ((0 : ℤ) : ℝ)| = (c.lb - c.al) - x := by
      rw [abs_of_nonpos]
      · simp
      · simp; linarith
    rw [e]
    have hx3 : ¬ (x + 2 * (c.lb - c.al - x) > c.ub + c.au) := by linarith
    simp only [hx, if_true, hx3, if_false]
    constructor
    · ring
    · rw [hr]; linarith
  · by_cases hy : x > c.ub + c.au
    · refine ⟨1, ?_⟩
      have e : |x - (c.lb - c.al) - c.r * ((1 : ℤ) : ℝ)| = c.r - (x - (c.lb - c.al)) := by
        rw [abs_of_nonpos]
        · simp
        · rw [hr]; simp; linarith
      rw [e]
      simp only [hx, if_false, hy, if_true]
      rw [hr]
      constructor
      · ring
      · linarith
    · refine ⟨0, ?_⟩
      have e : |x - (c.lb - c.al) - c.r * ((0 : ℤ) : ℝ)| = x - (c.lb - c.al) := by
        rw [abs_of_nonneg]
        · simp
        · simp; linarith
      rw [e]
      simp only [hx, if_false, hy]
      constructor
      · ring
      · rw [hr]; linarith

/-- The period shift of `shift`. -/
theorem period_spec (h : c.WF) {x : ℝ} (hf : c.Fits x) :
    ∃ (x2 : ℝ) (m : ℤ), c.xlow ≤ x2 ∧ x2 ≤ c.xup ∧ x2 = x + c.r * m ∧
      ((if x < c.xlow then do
          let k ← castQuot (c.xlow - x) c.r
          pure (x + c.r * (1 + (k : ℝ)))
        else pure x : Out ℝ) >>= fun x1 =>
        (if x1 > c.xup then do
          let k ← castQuot (x1 - c.xup) c.r
          pure (x1 - c.r * (1 + (k : ℝ)))
        else pure x1 : Out ℝ)) = .ok x2 := by
  have hr := h.r_pos
  have hxu := h.xup_sub
  by_cases hlo : x < c.xlow
  · have hq : 0 ≤ (c.xlow - x) / c.r := div_nonneg (by linarith) hr.le
    set k := ⌊(c.xlow - x) / c.r⌋ with hk
    have hcast : castQuot (c.xlow - x) c.r = .ok k := by
      unfold castQuot
      rw [if_neg hr.ne', castInt_ok_iff hq]
      exact ⟨hf.1 hlo, rfl⟩
    have k1 : (k : ℝ) ≤ (c.xlow - x) / c.r := Int.floor_le _
    have k2 : (c.xlow - x) / c.r < k + 1 := Int.lt_floor_add_one _
    rw [le_div_iff₀ hr] at k1
    rw [div_lt_iff₀ hr] at k2
    have n1 : ¬ (x + c.r * (1 + (k : ℝ)) > c.xup) := by rw [hxu]; nlinarith
    refine ⟨x + c.r * (1 + (k : ℝ)), 1 + k, ?_, ?_, ?_, ?_⟩
    · nlinarith
    · linarith
    · push_cast; ring
    · simp only [hlo, if_true, hcast, Out.ok_bind, Out.pure_eq, n1, if_false]
  · by_cases hhi : x > c.xup
    · have hq : 0 ≤ (x - c.xup) / c.r := div_nonneg (by linarith) hr.le
      set k := ⌊(x - c.xup) / c.r⌋ with hk
      have hcast : castQuot (x - c.xup) c.r = .ok k := by
        unfold castQuot
        rw [if_neg hr.ne', castInt_ok_iff hq]
        exact ⟨hf.2 hhi, rfl⟩
      have k1 : (k : ℝ) ≤ (x - c.xup) / c.r := Int.floor_le _
      have k2 : (x - c.xup) / c.r < k + 1 := Int.lt_floor_add_one _
      rw [le_div_iff₀ hr] at k1
      rw [div_lt_iff₀ hr] at k2
      refine ⟨x - c.r * (1 + (k : ℝ)), -(1 + k), ?_, ?_, ?_, ?_⟩
      · rw [hxu] at k1; nlinarith
      · nlinarith
      · push_cast; ring
      · simp only [hlo, if_false, Out.pure_eq, Out.ok_bind, hhi, if_true, hcast]
    · refine ⟨x, 0, ?_, ?_, ?_, ?_⟩
      · linarith
      · linarith
      · simp
      · simp only [hlo, if_false, Out.pure_eq, Out.ok_bind, hhi]

/-- `shift` in closed form: distance of `x` to the lattice of lower turning points. -/
theorem shift_spec (h : c.WF) {x : ℝ} (hf : c.Fits x) :
    ∃ (y : ℝ) (m : ℤ), c.shift x = .ok y ∧
      y = c.lb - c.al + |x - (c.lb - c.al) - c.r * m| ∧
      |x - (c.lb - c.al) - c.r * m| ≤ c.r / 2 := by
  obtain ⟨x2, m, l1, l2, hx2, he⟩ := period_spec h hf
  obtain ⟨m', e1, e2⟩ := reflect_spec h l1 l2
  have hr := h.r_eq
  have habs := abs_nonneg (x2 - (c.lb - c.al) - c.r * (m' : ℝ))
  refine ⟨_, m' - m, ?_, rfl, ?_⟩
  · have hxe : x - (c.lb - c.al) - c.r * ((m' - m : ℤ) : ℝ)
        = x2 - (c.lb - c.al) - c.r * (m' : ℝ) := by
      rw [hx2]; push_cast; ring
    rw [hxe, ← e1]
    have hno : ¬ ((c.lb - c.al + |x2 - (c.lb - c.al) - c.r * (m' : ℝ)|) < c.lb - c.al - 1e-15 ∨
        (c.lb - c.al + |x2 - (c.lb - c.al) - c.r * (m' : ℝ)|) > c.ub + c.au + 1e-15) := by
      rw [not_or]; constructor <;> norm_num <;> linarith
    rw [← e1] at hno
    unfold shift
    have : ∀ (f : ℝ → Out ℝ),
      ((if x < c.xlow then do
          let k ← castQuot (c.xlow - x) c.r
          pure (x + c.r * (1 + (k : ℝ)))
        else pure x : Out ℝ) >>= fun x1 =>
        (if x1 > c.xup then do
          let k ← castQuot (x1 - c.xup) c.r
          pure (x1 - c.r * (1 + (k : ℝ)))
        else pure x1 : Out ℝ) >>= f) = f x2 := by
      intro f
      have := congrArg (fun z : Out ℝ => z >>= f) he
      simpa only [bind_assoc, Out.ok_bind] using this
    refine (this _).trans ?_
    simp only []
    rw [if_neg hno]
  · have hxe : x - (c.lb - c.al) - c.r * ((m' - m : ℤ) : ℝ)
        = x2 - (c.lb - c.al) - c.r * (m' : ℝ) := by
      rw [hx2]; push_cast; ring
    rw [hxe]; exact e2

/-- When the shift count does not fit, the behaviour is undefined. -/
theorem shift_ub (h : c.WF) {x : ℝ} (hf : ¬ c.Fits x) : c.shift x = .error .ub := by
  have hr := h.r_pos
  have hxu := h.xup_sub
  unfold Fits at hf
  rw [not_and_or, Classical.not_imp, Classical.not_imp] at hf
  rcases hf with ⟨hlo, hq⟩ | ⟨hhi, hq⟩
  · have : castQuot (c.xlow - x) c.r = .error .ub := by
      unfold castQuot castInt
      rw [if_neg hr.ne', if_neg]; exact fun hh => hq hh.2
    unfold shift
    simp only [hlo, if_true, this, Out.error_bind]
  · have : castQuot (x - c.xup) c.r = .error .ub := by
      unfold castQuot castInt
      rw [if_neg hr.ne', if_neg]; exact fun hh => hq hh.2
    have hnlo : ¬ x < c.xlow := by linarith
    have hhi' : x > c.xup := hhi
    unfold shift
    simp only [hnlo, if_false, Out.pure_eq, Out.ok_bind, hhi', if_true, this, Out.error_bind]

/-- The fold as a function on reals. -/
noncomputable def foldR (c : PwqCoord) (y : ℝ) : ℝ :=
  if y < c.lb + c.al then c.lb + (y - (c.lb - c.al)) * (y - (c.lb - c.al)) / 4 / c.al
  else if y > c.ub - c.au then c.ub - (y - (c.ub + c.au)) * (y - (c.ub + c.au)) / 4 / c.au
  else y

theorem fold_eq (h : c.WF) (y : ℝ) : c.fold y = .ok (c.foldR y) := by
  unfold fold foldR
  have := h.al_pos.ne'; have := h.au_pos.ne'
  split_ifs <;> simp_all

theorem toF_eq (h : c.WF) {x : ℝ} (hf : c.Fits x) :
    ∃ (y : ℝ) (m : ℤ), c.shift x = .ok y ∧ c.toF x = .ok (c.foldR y) ∧
      y = c.lb - c.al + |x - (c.lb - c.al) - c.r * m| ∧
      |x - (c.lb - c.al) - c.r * m| ≤ c.r / 2 := by
  obtain ⟨y, m, e, h1, h2⟩ := shift_spec h hf
  refine ⟨y, m, e, ?_, h1, h2⟩
  unfold toF
  rw [e, Out.ok_bind, fold_eq h]

/-- Left parabola. -/
theorem foldR_left (h : c.WF) {y : ℝ} (hy : y ≤ c.lb + c.al) :
    c.foldR y = c.lb + (y - (c.lb - c.al)) ^ 2 / (4 * c.al) := by
  have ha := h.al_pos; have := h.au_pos; have := h.al_le; have := h.au_le
  unfold foldR
  rcases hy.lt_or_eq with hy | hy
  · rw [if_pos hy]; field_simp
  · rw [if_neg (by linarith), if_neg (by linarith), hy]
    field_simp; ring

theorem foldR_right (h : c.WF) {y : ℝ} (hy : c.ub - c.au ≤ y) :
    c.foldR y = c.ub - (y - (c.ub + c.au)) ^ 2 / (4 * c.au) := by
  have ha := h.al_pos; have hu := h.au_pos; have hl := h.al_le; have hl' := h.au_le
  rcases hy.lt_or_eq with hy | hy
  · unfold foldR
    rw [if_neg (by linarith), if_pos hy]; field_simp
  · by_cases hc : y < c.lb + c.al
    · linarith
    · unfold foldR
      rw [if_neg hc, if_neg (by linarith), ← hy]
      field_simp; ring

theorem foldR_mid (_h : c.WF) {y : ℝ} (h1 : c.lb + c.al ≤ y) (h2 : y ≤ c.ub - c.au) :
    c.foldR y = y := by
  unfold foldR
  rw [if_neg (by linarith), if_neg (by linarith)]

/-- The fold is monotone and 1-Lipschitz over the central interval. -/
theorem foldR_mono_lip (h : c.WF) {y z : ℝ} (h1 : c.lb - c.al ≤ y) (hyz : y ≤ z)
    (h2 : z ≤ c.ub + c.au) :
    c.foldR y ≤ c.foldR z ∧ c.foldR z - c.foldR y ≤ z - y := by
  have ha := h.al_pos; have hu := h.au_pos; have hl := h.al_le; have hl' := h.au_le
  -- the three pieces
  have L : ∀ {p q : ℝ}, c.lb - c.al ≤ p → p ≤ q → q ≤ c.lb + c.al →
      c.foldR p ≤ c.foldR q ∧ c.foldR q - c.foldR p ≤ q - p := by
    intro p q hp hpq hq
    rw [foldR_left h (hpq.trans hq), foldR_left h hq]
    have e : (q - (c.lb - c.al)) ^ 2 / (4 * c.al) - (p - (c.lb - c.al)) ^ 2 / (4 * c.al)
        = (q - p) * ((q + p - 2 * (c.lb - c.al)) / (4 * c.al)) := by
      field_simp; ring
    have f1 : 0 ≤ (q + p - 2 * (c.lb - c.al)) / (4 * c.al) :=
      div_nonneg (by linarith) (by linarith)
    have f2 : (q + p - 2 * (c.lb - c.al)) / (4 * c.al) ≤ 1 := by
      rw [div_le_one (by linarith)]; linarith
    have f3 : 0 ≤ q - p := by linarith
    constructor <;> nlinarith [mul_nonneg f3 f1, mul_le_of_le_one_right f3 f2]
  have R : ∀ {p q : ℝ}, c.ub - c.au ≤ p → p ≤ q → q ≤ c.ub + c.au →
      c.foldR p ≤ c.foldR q ∧ c.foldR q - c.foldR p ≤ q - p := by
    intro p q hp hpq hq
    rw [foldR_right h (hp.trans hpq), foldR_right h hp]
    have e : (p - (c.ub + c.au)) ^ 2 / (4 * c.au) - (q - (c.ub + c.au)) ^ 2 / (4 * c.au)
        = (q - p) * ((2 * (c.ub + c.au) - q - p) / (4 * c.au)) := by
      field_simp; ring
    have f1 : 0 ≤ (2 * (c.ub + c.au) - q - p) / (4 * c.au) :=
      div_nonneg (by linarith) (by linarith)
    have f2 : (2 * (c.ub + c.au) - q - p) / (4 * c.au) ≤ 1 := by
      rw [div_le_one (by linarith)]; linarith
    have f3 : 0 ≤ q - p := by linarith
    constructor <;> nlinarith [mul_nonneg f3 f1, mul_le_of_le_one_right f3 f2]
  have M : ∀ {p q : ℝ}, c.lb + c.al ≤ p → p ≤ q → q ≤ c.ub - c.au →
      c.foldR p ≤ c.foldR q ∧ c.foldR q - c.foldR p ≤ q - p := by
    intro p q hp hpq hq
    rw [foldR_mid h hp (hpq.trans hq), foldR_mid h (hp.trans hpq) hq]
    exact ⟨hpq, le_rfl⟩
  by_cases hy1 : y ≤ c.lb + c.al
  · by_cases hz1 : z ≤ c.lb + c.al
    · exact L h1 hyz hz1
    · by_cases hz2 : z ≤ c.ub - c.au
      · have A := L h1 hy1 le_rfl
        have B := M le_rfl (not_le.1 hz1).le hz2
        constructor <;> linarith [A.1, A.2, B.1, B.2]
      · have A := L h1 hy1 le_rfl
        have B := M (p := c.lb + c.al) (q := c.ub - c.au) le_rfl (by linarith) le_rfl
        have C := R le_rfl (not_le.1 hz2).le h2
        constructor <;> linarith [A.1, A.2, B.1, B.2, C.1, C.2]
  · by_cases hy2 : y ≤ c.ub - c.au
    · by_cases hz2 : z ≤ c.ub - c.au
      · exact M (not_le.1 hy1).le hyz hz2
      · have B := M (not_le.1 hy1).le hy2 le_rfl
        have C := R le_rfl (not_le.1 hz2).le h2
        constructor <;> linarith [B.1, B.2, C.1, C.2]
    · exact R (not_le.1 hy2).le hyz h2

theorem foldR_low (h : c.WF) : c.foldR (c.lb - c.al) = c.lb := by
  rw [foldR_left h (by linarith [h.al_pos])]; simp

theorem foldR_high (h : c.WF) : c.foldR (c.ub + c.au) = c.ub := by
  rw [foldR_right h (by linarith [h.au_pos])]; simp

theorem foldR_mem (h : c.WF) {y : ℝ} (h1 : c.lb - c.al ≤ y) (h2 : y ≤ c.ub + c.au) :
    c.lb ≤ c.foldR y ∧ c.foldR y ≤ c.ub := by
  have A := foldR_mono_lip h le_rfl h1 h2
  have B := foldR_mono_lip h h1 h2 le_rfl
  rw [foldR_low h] at A; rw [foldR_high h] at B
  exact ⟨A.1, B.1⟩

/-- Distance to a lattice is attained by any point at distance at most half a period. -/
theorem lattice_min {u r : ℝ} (hr : 0 < r) {m : ℤ} (hm : |u - r * m| ≤ r / 2) (m' : ℤ) :
    |u - r * m| ≤ |u - r * m'| := by
  by_cases e : m = m'
  · rw [e]
  · have h1 : (1 : ℝ) ≤ |((m - m' : ℤ) : ℝ)| := by
      have : (1 : ℤ) ≤ |m - m'| := Int.one_le_abs (sub_ne_zero.2 e)
      exact_mod_cast this
    have h2 : r ≤ |r * m - r * m'| := by
      have : r * (m : ℝ) - r * (m' : ℝ) = r * ((m - m' : ℤ) : ℝ) := by push_cast; ring
      rw [this, abs_mul, abs_of_pos hr]; nlinarith
    have h3 : |r * (m : ℝ) - r * m'| ≤ |u - r * m'| + |u - r * m| := by
      have : r * (m : ℝ) - r * m' = (u - r * m') - (u - r * m) := by ring
      rw [this]; exact abs_sub _ _
    linarith

end PwqCoord
end Libcmaes
