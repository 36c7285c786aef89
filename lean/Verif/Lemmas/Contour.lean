import Verif.Model.Contour
import Verif.Spec.Contour
import Verif.Lemmas.ErrStatsOpt

/-!
# Lemmas for contours
-/

namespace Libcmaes

namespace FVal

theorem div_ofReal {s : Bool} {a b : ℝ} (hb : b ≠ 0) : FVal.div s (ofReal a) (ofReal b) = ofReal (a / b) := by
  unfold FVal.div ofReal
  simp only
  rw [if_neg (by exact_mod_cast hb), if_neg (by simp), EReal.coe_div]

theorem div_zero {s : Bool} {a : ℝ} (ha : 0 < a) :
    FVal.div s (ofReal a) (ofReal 0) = num (if s then ⊥ else ⊤) := by
  unfold FVal.div ofReal
  simp only
  rw [if_pos (by rfl), if_neg (by exact_mod_cast ha.ne')]
  have : (0 : EReal) < (a : EReal) := by exact_mod_cast ha
  cases s <;> simp [this]

theorem sqrt_ofReal {a : ℝ} (ha : 0 ≤ a) : FVal.sqrt (ofReal a) = ofReal (Real.sqrt a) := by
  unfold FVal.sqrt ofReal
  simp only
  rw [if_neg (by rw [not_lt]; exact_mod_cast ha), if_neg (EReal.coe_ne_top a), EReal.toReal_coe]

theorem finite_ofReal (a : ℝ) : (ofReal a).finite = .ok a := by
  unfold finite ofReal
  simp only
  rw [if_neg (by simp), EReal.toReal_coe]

theorem stdMax_ofReal (a b : ℝ) : stdMax (ofReal a) (ofReal b) = ofReal (max a b) := by
  unfold stdMax
  by_cases h : a < b
  · rw [if_pos (lt_ofReal.2 h), max_eq_right h.le]
  · rw [if_neg (fun h' => h (lt_ofReal.1 h')), max_eq_left (not_lt.1 h)]

theorem stdMin_ofReal (a b : ℝ) : stdMin (ofReal a) (ofReal b) = ofReal (min a b) := by
  unfold stdMin
  by_cases h : b < a
  · rw [if_pos (lt_ofReal.2 h), min_eq_right h.le]
  · rw [if_neg (fun h' => h (lt_ofReal.1 h')), min_eq_left (not_lt.1 h)]

end FVal

namespace ErrStats

variable {n : ℕ}

namespace Crossing

/-- With two parameters nothing is optimised, and the best candidate of the "optimisation" is the old one. -/
theorem opt_two (c : Crossing 2) (hx : c.px = 0) (hy : c.py = 1) (no : ℕ) (d : Cand 2) (cands : List (Cand 2)) (v : ℝ × ℝ) :
    c.opt no (d :: cands) v = .ok ⟨(d.fvalue, List.ofFn d.x), (c.f [v.1, v.2], [v.1, v.2]), 1, 0⟩ := by
  unfold opt
  rw [hx, hy]
  rfl

/-- All points have the value `a` and the slope is 0. -/
structure Flat (a : ℝ) (s : St) : Prop where
  fl0 : s.fl 0 = FVal.ofReal a
  fl1 : s.fl 1 = FVal.ofReal a
  dfda : s.dfda = FVal.ofReal 0

variable {c : Crossing 2} {d : Cand 2} {cands : List (Cand 2)} {a : ℝ}

theorem slopeLoop_flat (hx : c.px = 0) (hy : c.py = 1) (hc : c.cands = d :: cands) (hd : d.fvalue = FVal.ofReal a) :
    ∀ (k it : ℕ) (s : St), s.fl 1 = FVal.ofReal a → (k = 0 → Flat a s) →
      ∃ s', c.slopeLoop k it s = .ok s' ∧ Flat a s'
  | 0, _, s, _, h => ⟨s, rfl, h rfl⟩
  | k + 1, it, s, h1, _ => by
    unfold slopeLoop
    simp only [hc, opt_two c hx hy, Out.ok_bind, hd, h1, FVal.sub_ofReal, sub_self]
    have hne : s.al 1 + 0.2 * ((it : ℝ) + 1) - s.al 1 ≠ 0 := by
      have : (0 : ℝ) ≤ it := Nat.cast_nonneg it
      have : (0 : ℝ) < 0.2 * ((it : ℝ) + 1) := by positivity
      linarith
    rw [FVal.div_ofReal hne, zero_div, if_neg (by rw [FVal.lt_ofReal]; exact lt_irrefl _)]
    exact slopeLoop_flat hx hy hc hd k (it + 1) _ rfl (fun _ => ⟨rfl, rfl, rfl⟩)

theorem rank_flat {fup : ℝ} (hup : 0 < fup) {fl : Fin 3 → FVal} (h : ∀ i, fl i = FVal.ofReal a) :
    (rank (FVal.ofReal (a + fup)) fl).ibest = 2 ∧ (rank (FVal.ofReal (a + fup)) fl).iworst = 0 ∧
      (rank (FVal.ofReal (a + fup)) fl).noless = 3 := by
  have e : |a - (a + fup)| = fup := by rw [show a - (a + fup) = -fup by ring, abs_neg, abs_of_pos hup]
  simp only [rank, List.foldl_cons, List.foldl_nil, rankStep, h, FVal.sub_ofReal, FVal.abs_ofReal, e, FVal.lt_ofReal, hup,
    if_true, lt_irrefl, if_false, lt_add_iff_pos_right]
  exact ⟨trivial, trivial, trivial⟩

theorem third_flat {s : St} (hs : Flat a s) (hmin : c.minf = FVal.ofReal a) (hup : 0 < c.fup) :
    (c.third s).1 = FVal.num (if c.sz s.no then ⊥ else ⊤) ∧ ¬ (c.third s).2.2 := by
  have haim : c.aim = FVal.ofReal (a + c.fup) := by unfold aim; rw [hmin, FVal.add_ofReal]
  have h1 : (c.third s).1 = FVal.num (if c.sz s.no then ⊥ else ⊤) := by
    simp only [third, haim, hs.fl1, hs.dfda, FVal.sub_ofReal, add_sub_cancel_left, FVal.div_zero hup]
    unfold FVal.add FVal.ofReal
    cases c.sz s.no <;> simp
  refine ⟨h1, ?_⟩
  have h2 : ∀ b : ℝ, (FVal.sub (c.third s).1 (FVal.ofReal b)).abs = FVal.num ⊤ := by
    intro b
    rw [h1]
    unfold FVal.sub FVal.neg FVal.add FVal.abs FVal.ofReal
    have e : -(b : EReal) = ((-b : ℝ) : EReal) := rfl
    simp only [e]
    cases c.sz s.no <;> simp
  have h3 : (c.third s).2.2 ↔ FVal.lt (FVal.stdMin ((c.third s).1.sub (FVal.ofReal (s.al 0))).abs
      ((c.third s).1.sub (FVal.ofReal (s.al 1))).abs) (c.third s).2.1 ∧ _ := Iff.rfl
  rw [h3, h2, h2]
  rintro ⟨h, _⟩
  have : FVal.stdMin (FVal.num ⊤) (FVal.num ⊤) = FVal.num ⊤ := by unfold FVal.stdMin; split_ifs <;> rfl
  rw [this] at h
  cases hz : (c.third s).2.1 with
  | nan => rw [hz] at h; exact h
  | num z => rw [hz] at h; exact not_top_lt (show ⊤ < z from h)

theorem limited_flat (s : St) (b : Bool) : ∃ e, (limited s (FVal.num (if b then ⊥ else ⊤))).finite = .ok e ∧
    e ≠ s.al 1 := by
  have hmm : min (s.al 0) (s.al 1) - 1 < max (s.al 0) (s.al 1) + 1 := by
    have := min_le_max (a := s.al 0) (b := s.al 1)
    linarith
  cases b with
  | false =>
    refine ⟨max (s.al 0) (s.al 1) + 1, ?_, by have := le_max_right (s.al 0) (s.al 1); intro h; linarith⟩
    have : limited s (FVal.num (if false then ⊥ else ⊤)) = FVal.ofReal (max (s.al 0) (s.al 1) + 1) := by
      unfold limited
      simp only [Bool.false_eq_true, if_false]
      rw [if_neg (show ¬ FVal.lt (FVal.num ⊤) _ from not_top_lt), if_pos (show FVal.lt (FVal.ofReal _) (FVal.num ⊤) from EReal.coe_lt_top _)]
    rw [this, FVal.finite_ofReal]
  | true =>
    refine ⟨min (s.al 0) (s.al 1) - 1, ?_, by have := min_le_right (s.al 0) (s.al 1); intro h; linarith⟩
    have : limited s (FVal.num (if true then ⊥ else ⊤)) = FVal.ofReal (min (s.al 0) (s.al 1) - 1) := by
      unfold limited
      simp only [if_true]
      rw [if_pos (show FVal.lt (FVal.num ⊥) (FVal.ofReal _) from EReal.bot_lt_coe _), if_neg (by rw [FVal.lt_ofReal]; exact not_lt.2 hmm.le)]
    rw [this, FVal.finite_ofReal]

theorem loop_flat (hx : c.px = 0) (hy : c.py = 1) (hc : c.cands = d :: cands) (hd : d.fvalue = FVal.ofReal a)
    (hmin : c.minf = FVal.ofReal a) (hup : 0 < c.fup) (r2 : VpkRes) : ∀ (k fuel : ℕ) (s : St), Flat a s → s.tent + k = 9 →
    c.loop r2 (k + 1 + fuel) true s = .ok (some FCross.empty)
  | k, fuel, s, hs, hk => by
    rw [show k + 1 + fuel = (k + fuel) + 1 by omega, loop]
    obtain ⟨h1, h2⟩ := third_flat hs hmin hup
    simp only
    rw [if_neg h2, h1]
    obtain ⟨e, he, hne⟩ := limited_flat s (c.sz s.no)
    rw [he, Out.ok_bind, hc, opt_two c hx hy, Out.ok_bind]
    simp only
    have haim : c.aim = FVal.ofReal (a + c.fup) := by unfold aim; rw [hmin, FVal.add_ofReal]
    have hfl : ∀ i, (![s.fl 0, s.fl 1, d.fvalue] : Fin 3 → FVal) i = FVal.ofReal a := by
      intro i
      fin_cases i
      · exact hs.fl0
      · exact hs.fl1
      · exact hd
    rw [haim]
    obtain ⟨q1, q2, q3⟩ := rank_flat hup hfl
    rw [if_neg (by rw [q3]; omega), if_neg (by rw [q3]; omega), if_neg (by rw [q1]; simp), q2]
    have hs2 : Flat a { s with
          al := Function.update ![s.al 0, s.al 1, e] 0 e
          fl := Function.update ![s.fl 0, s.fl 1, d.fvalue] 0 d.fvalue
          sols := ![s.sols 0, s.sols 1, ⟨(d.fvalue, List.ofFn d.x), (c.f [(c.at' e).1, (c.at' e).2], [(c.at' e).1, (c.at' e).2]), 1, 0⟩]
          tla := (c.third s).2.1
          nfcn := s.nfcn + 1
          tent := s.tent + 1
          no := s.no + 1
          dfda := FVal.div (c.sz (s.no + 1)) ((Function.update ![s.fl 0, s.fl 1, d.fvalue] 0 d.fvalue 1).sub
            (Function.update ![s.fl 0, s.fl 1, d.fvalue] 0 d.fvalue 0)) (FVal.ofReal
              (Function.update ![s.al 0, s.al 1, e] 0 e 1 - Function.update ![s.al 0, s.al 1, e] 0 e 0)) } := by
      refine ⟨hd, hs.fl1, ?_⟩
      show FVal.div _ ((s.fl 1).sub d.fvalue) (FVal.ofReal (s.al 1 - e)) = _
      rw [hs.fl1, hd, FVal.sub_ofReal, sub_self, FVal.div_ofReal (sub_ne_zero.2 hne.symm), zero_div]
    cases k with
    | zero => rw [if_neg (by omega)]; rfl
    | succ k =>
      rw [if_pos (by omega)]
      have := loop_flat hx hy hc hd hmin hup r2 k fuel _ hs2 (by simp only; omega)
      rw [show k + 1 + fuel = k + 1 + fuel from rfl] at this
      exact this

/-- With two parameters `cross` finds nothing, whatever the objective. -/
theorem cross_two (hx : c.px = 0) (hy : c.py = 1) (hc : c.cands = d :: cands) (hd : d.fvalue = FVal.ofReal a)
    (hmin : c.minf = FVal.ofReal a) (hup : 0 < c.fup) (fuel no : ℕ) :
    c.cross (11 + fuel) no = .ok (some FCross.empty) := by
  unfold cross begin
  rw [hc, opt_two c hx hy, Out.ok_bind]
  simp only
  have hm : max a (a + 0.1 * c.fup) = a + 0.1 * c.fup := max_eq_right (by norm_num; linarith)
  rw [hd, hmin, FVal.add_ofReal, FVal.stdMax_ofReal, hm, FVal.sub_ofReal, add_sub_cancel_left, FVal.div_ofReal (by positivity),
    show c.fup / (0.1 * c.fup) = 10 by field_simp; norm_num, FVal.sqrt_ofReal (by norm_num), FVal.sub_ofReal,
    if_pos (by
      rw [FVal.lt_ofReal]
      have : (2 : ℝ) < Real.sqrt 10 := by rw [Real.lt_sqrt (by norm_num)]; norm_num
      linarith), FVal.finite_ofReal, Out.ok_bind, opt_two c hx hy, Out.ok_bind]
  simp only [Out.pure_eq, Out.ok_bind]
  rw [show 11 + fuel = (10 + fuel) + 1 by omega, loop]
  simp only
  rw [hd, FVal.sub_ofReal, FVal.div_ofReal (by norm_num), if_pos (by rw [FVal.lt_ofReal]; norm_num; linarith)]
  generalize hs : (St.mk _ _ _ _ _ _ _ _) = s
  obtain ⟨s', hs', hf⟩ := slopeLoop_flat hx hy hc hd 13 0 s (by rw [← hs]; rfl) (fun h => nomatch h)
  rw [hs', Out.ok_bind]
  exact loop_flat hx hy hc hd hmin hup _ 9 fuel _ ⟨hf.fl0, hf.fl1, hf.dfda⟩ rfl

end Crossing

end ErrStats

end Libcmaes
