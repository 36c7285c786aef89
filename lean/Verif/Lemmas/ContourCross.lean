import Verif.Lemmas.Contour

/-!
# Lemmas for contours: where the crossing points come from
-/

namespace Libcmaes

namespace ErrStats

namespace Crossing

variable {n : ℕ} {c : Crossing n}

/-- The solution of an optimisation with the two parameters fixed on the line. -/
def OnLine (c : Crossing n) (r : VpkRes) : Prop := ∃ no a, c.opt no c.cands (c.at' a) = .ok r

/-- The solution of an optimisation with the two parameters fixed at `v`, not above the aim; one step further an optimisation is above
it.  The step is a tenth of the coordinates of a solution on the line. -/
def Stepped (c : Crossing n) (r : VpkRes) : Prop :=
  ∃ no e v, c.opt no [e] v = .ok r ∧ ¬ FVal.lt c.aim r.best.1 ∧ ∃ (no' : ℕ) (e' : Cand n) (r' : VpkRes) (d : ℝ × ℝ)
    (r0 : VpkRes) (y : List ℝ) (x1 x2 : ℝ),
    c.opt no' [e'] (v.1 + d.1, v.2 + d.2) = .ok r' ∧ FVal.lt c.aim r'.best.1 ∧ c.OnLine r0 ∧ c.pheno r0.best.2 = .ok y ∧
    y[c.px]? = some x1 ∧ y[c.py]? = some x2 ∧ |d.1| = |x1| * 0.1 ∧ |d.2| = |x2| * 0.1

theorem lineLoop_spec {d : ℝ × ℝ} : ∀ (fuel : ℕ) (x : ℝ × ℝ) (sol : VpkRes) (no : ℕ) {r : VpkRes},
    c.lineLoop d fuel x sol no = .ok (some r) →
    ∃ v, ((r = sol ∧ v = x) ∨ ∃ no e, c.opt no [e] v = .ok r ∧ ¬ FVal.lt c.aim r.best.1) ∧ ∃ no' e' r',
      c.opt no' [e'] (v.1 + d.1, v.2 + d.2) = .ok r' ∧ FVal.lt c.aim r'.best.1
  | 0, x, sol, no, r, h => nomatch h
  | fuel + 1, x, sol, no, r, h => by
    unfold lineLoop at h
    simp only at h
    obtain ⟨r1, h1, h⟩ := Out.bind_eq_ok.1 h
    by_cases ha : FVal.lt c.aim r1.best.1
    · rw [if_pos ha] at h
      exact ⟨x, Or.inl ⟨(Option.some.inj (Except.ok.inj h)).symm, rfl⟩, no, _, r1, h1, ha⟩
    · rw [if_neg ha] at h
      obtain ⟨v, h2, h3⟩ := lineLoop_spec fuel _ r1 (no + 1) h
      refine ⟨v, ?_, h3⟩
      rcases h2 with ⟨rfl, rfl⟩ | h2
      · exact Or.inr ⟨no, _, h1, ha⟩
      · exact Or.inr h2

/-- What a result of `cross` is: nothing, the point of a solution on the line, or that of a later step. -/
def Comes (c : Crossing n) (fc : FCross) : Prop :=
  fc = FCross.empty ∨ (∃ r, c.OnLine r ∧ (c.pheno r.best.2 = .ok fc.x ∨ c.pheno r.cand.2 = .ok fc.x)) ∨
    ∃ r, c.Stepped r ∧ c.pheno r.cand.2 = .ok fc.x

theorem between_spec {fuel : ℕ} {s : St} {q : Rank} {fc : FCross} (hs : ∀ i, c.OnLine (s.sols i))
    (h : c.between fuel s q = .ok (some fc)) : c.Comes fc := by
  unfold between at h
  cases hr : refp c.aim s.fl q with
  | none => rw [hr] at h; exact nomatch h
  | some ir =>
    rw [hr] at h
    simp only at h
    obtain ⟨xr, hxr, h⟩ := Out.bind_eq_ok.1 h
    obtain ⟨xb, hxb, h⟩ := Out.bind_eq_ok.1 h
    obtain ⟨rx, hrx, h⟩ := Out.bind_eq_ok.1 h
    obtain ⟨bx, hbx, h⟩ := Out.bind_eq_ok.1 h
    obtain ⟨ry, hry, h⟩ := Out.bind_eq_ok.1 h
    obtain ⟨by', hby, h⟩ := Out.bind_eq_ok.1 h
    rw [idx_eq_ok] at hrx hbx hry hby
    obtain ⟨o, ho, h⟩ := Out.bind_eq_ok.1 h
    cases o with
    | none => exact nomatch h
    | some sol =>
      obtain ⟨y, hy, h⟩ := Out.bind_eq_ok.1 h
      obtain rfl := Option.some.inj (Except.ok.inj h)
      generalize hd : ((_, _) : ℝ × ℝ) = d at ho
      obtain ⟨v, h1, no', e', r', h2, h3⟩ := lineLoop_spec fuel _ _ _ ho
      rcases h1 with ⟨rfl, _⟩ | ⟨no, e, h1, ha⟩
      · exact Or.inr (Or.inl ⟨_, hs _, Or.inr hy⟩)
      · refine Or.inr (Or.inr ⟨sol, ⟨no, e, v, h1, ha, no', e', r', d, ?_⟩, hy⟩)
        have hab : ∀ (b : Prop) [Decidable b] (x : ℝ), |(if b then 1 else -1) * |x| * 0.1| = |x| * 0.1 := by
          intro b _ x
          rw [abs_mul, abs_mul, abs_abs, show |(0.1 : ℝ)| = 0.1 by norm_num]
          split_ifs <;> simp
        by_cases hlt : FVal.lt (s.sols q.ibest).best.1 c.aim
        · refine ⟨s.sols q.ibest, xb, bx, by', h2, h3, hs _, hxb, hbx, hby, ?_, ?_⟩
          · simp only [← hd, if_pos hlt, hab]
          · simp only [← hd, if_pos hlt, hab]
        · refine ⟨s.sols ir, xr, rx, ry, h2, h3, hs _, hxr, hrx, hry, ?_, ?_⟩
          · simp only [← hd, if_neg hlt, hab]
          · simp only [← hd, if_neg hlt, hab]

theorem slopeLoop_spec : ∀ (k it : ℕ) (s : St) {s' : St}, (∀ i, c.OnLine (s.sols i)) → c.slopeLoop k it s = .ok s' →
    ∀ i, c.OnLine (s'.sols i)
  | 0, it, s, s', hs, h => by
    obtain rfl := Except.ok.inj h
    exact hs
  | k + 1, it, s, s', hs, h => by
    unfold slopeLoop at h
    simp only at h
    obtain ⟨r, hr, h⟩ := Out.bind_eq_ok.1 h
    have hs1 : ∀ i, c.OnLine ((![s.sols 0, r, s.sols 2] : Fin 3 → VpkRes) i) := by
      intro i
      fin_cases i
      · exact hs 0
      · exact ⟨_, _, hr⟩
      · exact hs 2
    by_cases h0 : FVal.lt (FVal.ofReal 0) (FVal.div (c.sz s.no) (r.best.1.sub (s.fl 1)) (FVal.ofReal
        (s.al 1 + 0.2 * ((it : ℝ) + 1) - s.al 1)))
    · rw [if_pos h0] at h
      obtain rfl := Except.ok.inj h
      exact hs1
    · rw [if_neg h0] at h
      exact slopeLoop_spec k (it + 1) _ hs1 h

theorem loop_spec {r2 : VpkRes} (h2 : c.OnLine r2) : ∀ (fuel : ℕ) (up : Bool) (s : St) {fc : FCross},
    (∀ i, c.OnLine (s.sols i)) → c.loop r2 fuel up s = .ok (some fc) → c.Comes fc
  | 0, _, _, _, _, h => by
    unfold loop at h
    exact nomatch h
  | fuel + 1, false, s, fc, hs, h => by
    rw [loop] at h
    obtain ⟨s1, h1, h⟩ := Out.bind_eq_ok.1 h
    refine loop_spec h2 fuel true _ (fun i => ?_) h
    by_cases hd : FVal.lt s.dfda (FVal.ofReal 0)
    · rw [if_pos hd] at h1
      exact slopeLoop_spec 13 0 s hs h1 i
    · rw [if_neg hd] at h1
      obtain rfl := Except.ok.inj h1
      exact hs i
  | fuel + 1, true, s, fc, hs, h => by
    rw [loop] at h
    simp only at h
    by_cases ht : (c.third s).2.2
    · rw [if_pos ht] at h
      obtain ⟨y, hy, h⟩ := Out.bind_eq_ok.1 h
      obtain rfl := Option.some.inj (Except.ok.inj h)
      exact Or.inr (Or.inl ⟨r2, h2, Or.inl hy⟩)
    rw [if_neg ht] at h
    obtain ⟨a, ha, h⟩ := Out.bind_eq_ok.1 h
    obtain ⟨r, hr, h⟩ := Out.bind_eq_ok.1 h
    have hs1 : ∀ i, c.OnLine ((![s.sols 0, s.sols 1, r] : Fin 3 → VpkRes) i) := by
      intro i
      fin_cases i
      · exact hs 0
      · exact hs 1
      · exact ⟨_, _, hr⟩
    generalize rank c.aim ![s.fl 0, s.fl 1, r.best.1] = q at h
    by_cases c1 : q.noless = 1 ∨ q.noless = 2
    · rw [if_pos c1] at h
      exact between_spec hs1 h
    rw [if_neg c1] at h
    by_cases c2 : q.noless = 0 ∧ q.ibest ≠ 2
    · rw [if_pos c2] at h
      obtain ⟨y, hy, h⟩ := Out.bind_eq_ok.1 h
      obtain rfl := Option.some.inj (Except.ok.inj h)
      exact Or.inr (Or.inl ⟨_, hs1 q.ibest, Or.inl hy⟩)
    rw [if_neg c2] at h
    by_cases c3 : q.noless = 3 ∧ q.ibest ≠ 2
    · rw [if_pos c3] at h
      exact loop_spec h2 fuel false _ hs1 h
    rw [if_neg c3] at h
    by_cases c4 : s.tent + 1 < 10
    · rw [if_pos c4] at h
      exact loop_spec h2 fuel true _ hs1 h
    · rw [if_neg c4] at h
      exact Or.inl (Option.some.inj (Except.ok.inj h)).symm

theorem cross_spec {fuel no : ℕ} {fc : FCross} (h : c.cross fuel no = .ok (some fc)) : c.Comes fc := by
  unfold cross at h
  obtain ⟨s, hs, h⟩ := Out.bind_eq_ok.1 h
  unfold begin at hs
  obtain ⟨r1, h1, hs⟩ := Out.bind_eq_ok.1 hs
  simp only at hs
  obtain ⟨a, ha, hs⟩ := Out.bind_eq_ok.1 hs
  obtain ⟨r2, h2, hs⟩ := Out.bind_eq_ok.1 hs
  obtain rfl := Except.ok.inj hs
  have e1 : c.OnLine r1 := ⟨no, 0, by
    rw [show c.at' 0 = c.mid by unfold at'; simp]
    exact h1⟩
  have e2 : c.OnLine r2 := ⟨_, _, h2⟩
  refine loop_spec e2 fuel false _ (fun i => ?_) h
  fin_cases i
  · exact e1
  · exact e2
  · exact e2

end Crossing

end ErrStats

end Libcmaes
