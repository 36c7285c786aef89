import Verif.Lemmas.StopWit

/-!
# The recorded values of a run are values of the objective
-/

namespace Libcmaes

open Spec

variable {n : ℕ}

/-- All recorded best values have the property `P`. -/
structure Within (P : FVal → Prop) (s : Strat n) : Prop where
  bestSeen : ∀ c, s.sol.bestSeen = some c → P c.fvalue
  initialCand : ∀ c, s.sol.initialCand = some c → P c.fvalue
  best : ∀ c ∈ s.sol.bestHist, P c.fvalue
  bf : ∀ v ∈ s.sol.bfvalues, P v
  med : ∀ v ∈ s.sol.medianFvalues, P v

/-- With `P` of all values of a population, it holds of their median. -/
def MedClosed (P : FVal → Prop) : Prop := ∀ l m, (∀ v ∈ l, P v) → Sol.medianOf l = .ok m → P m

theorem Within.generation {P : FVal → Prop} {env : Env n} {s s' : Strat n} (hR : Within P s) (hL : Live s)
    (hP : MedClosed P) (hv : ∀ k y, P (negIf s.negate (env.f k y))) (h : s.generation env = .ok s') : Within P s' := by
  obtain ⟨tr, hrun⟩ := Strat.generation_run h
  obtain ⟨r1, r2, r3, r4, r5, r6, r7, r8, r9, r10⟩ := run_p hrun
  unfold Strat.generation at h
  obtain ⟨⟨pop, s1⟩, ha, h⟩ := Out.bind_eq_ok.1 h
  obtain ⟨phen, hp, h⟩ := Out.bind_eq_ok.1 h
  obtain ⟨s2, he, h⟩ := Out.bind_eq_ok.1 h
  obtain ⟨s3, ht, h⟩ := Out.bind_eq_ok.1 h
  injection h with h
  subst h
  obtain ⟨⟨es, ei, ue, c, nz, x1, x2, p1, p2, e1⟩, hpl⟩ := Strat.ask_frame ha
  obtain ⟨c2, nu, nzuh, lr, cu, cs, e2, hcs, _⟩ := Strat.eval_frame he
  have hval : ∀ d ∈ s2.sol.cands, P d.fvalue := by
    intro d hd
    rcases Strat.eval_values (by rw [e1]; exact hL.uh) (by rw [hpl, e1]; exact hL.cands.le) he d hd with
      ⟨j, y, e, _⟩ | ⟨_, e⟩
    · rw [e, e1]; exact hv j y
    · rcases elitistRef_mem e with h | h
      · exact hR.bestSeen d (by rw [e1] at h; exact h)
      · exact hR.initialCand d (by rw [e1] at h; exact h)
  obtain ⟨cs', cu', su, ts, sol3, hs, hb, csq, hc, sc, ps, hs', pc, cov, sep, vv, sg, xp, xm, mx, mn, lv, le,
    e3⟩ := Strat.tell_frame ht
  have hsort := hs (by rw [e2, e1]; exact hL.uh)
  have hperm := (stableSort_eq_ok hsort).2.perm
  have hval' : ∀ d ∈ cs', P d.fvalue := fun d hd => hval d (hperm.mem_iff.1 hd)
  have hseen := (updateBest_seen hb).2
  obtain ⟨c0, ck, cl, med, h0, hk, hl, hmed, eb, _⟩ := Sol.updateBest_ok hb
  have v0 : P c0.fvalue := hval' c0 (List.mem_of_getElem? h0)
  have eh : s2.sol.bestHist = s.sol.bestHist := by rw [e2, e1]
  have ebs : s2.sol.bestSeen = s.sol.bestSeen := by rw [e2, e1]
  have ebf : s2.sol.bfvalues = s.sol.bfvalues := by rw [e2, e1]
  have emd : s2.sol.medianFvalues = s.sol.medianFvalues := by rw [e2, e1]
  refine ⟨?_, ?_, ?_, ?_, ?_⟩
  · intro d hd
    have : s3.incIter.sol.bestSeen = sol3.bestSeen := by rw [e3]; rfl
    rw [this] at hd
    rcases hseen d hd with h | h
    · exact hval' d h
    · exact hR.bestSeen d (ebs ▸ h)
  · intro d hd; rw [r10] at hd; exact hR.initialCand d hd
  · intro d hd
    have e : s3.incIter.sol.bestHist = sol3.bestHist := by rw [e3]; rfl
    rw [e, eb] at hd
    have hd' : d ∈ s2.sol.bestHist ++ [c0] := by
      simp only at hd
      split_ifs at hd
      · exact List.mem_of_mem_tail hd
      · exact hd
    rcases List.mem_append.1 hd' with h | h
    · exact hR.best d (eh ▸ h)
    · rw [List.mem_singleton.1 h]; exact v0
  · intro w hw
    have e : s3.incIter.sol.bfvalues = sol3.bfvalues := by rw [e3]; rfl
    rw [e, eb] at hw
    rcases mem_pushBounded hw with h | h
    · exact hR.bf w (ebf ▸ h)
    · rw [h]; exact v0
  · intro w hw
    have e : s3.incIter.sol.medianFvalues = sol3.medianFvalues := by rw [e3]; rfl
    rw [e, eb] at hw
    rcases mem_pushBounded hw with h | h
    · exact hR.med w (emd ▸ h)
    · rw [h]
      refine hP _ _ ?_ hmed
      intro u hu
      obtain ⟨d, hd, rfl⟩ := List.mem_map.1 hu
      exact hval' d hd

theorem genRun_within {P : FVal → Prop} {env : Env n} {s t : Strat n} {k : ℕ} (h : GenRun env s k t) (hL : Live s)
    (hR : Recorded s) (hF : Within P s) (hP : MedClosed P) (hv : ∀ k y, Val (negIf s.negate (env.f k y)))
    (hf : ∀ k y, P (negIf s.negate (env.f k y))) : Within P t := by
  induction h with
  | refl => exact hF
  | stop _ i ih =>
    obtain ⟨k, r, e⟩ := Strat.stop_frame i
    rw [e]
    exact ⟨ih.1, ih.2, ih.3, ih.4, ih.5⟩
  | turn j i ih =>
    obtain ⟨a, _, c⟩ := genRun_live j hL hR hv
    exact ih.generation a hP (by rw [c]; exact hf) i

theorem within_start {P : FVal → Prop} {env : Env n} {kind : CovKind} {p : Params n} {s s0 : Strat n}
    (h : Strat.new env kind p = .ok s) (h0 : s.evalInitial env = .ok s0)
    (hf : ∀ k y, P (negIf s.negate (env.f k y))) : Within P s0 := by
  obtain ⟨h1, h2, h3, h4, h5, h6, h7, h8, h9, h10, h11, h12, h13, h14, h15, h16, h17, h18, h19, h20⟩ :=
    Strat.new_ok h
  have hw : Within P s := by
    refine ⟨?_, ?_, ?_, ?_, ?_⟩
    · intro c hc; rw [h6.bestSeen] at hc; cases hc
    · intro c hc; rw [h17] at hc; cases hc
    · rw [h6.bestHist]; simp
    · rw [h6.bfvalues]; simp
    · rw [h6.medianFvalues]; simp
  unfold Strat.evalInitial at h0
  split_ifs at h0 with hc
  · obtain ⟨y, hy, h0⟩ := Out.bind_eq_ok.1 h0
    injection h0 with h0
    subst h0
    refine ⟨?_, ?_, ?_, ?_, ?_⟩
    · intro c hc; injection hc with hc; subst hc; exact hf _ _
    · intro c hc; injection hc with hc; subst hc; exact hf _ _
    · exact hw.best
    · exact hw.bf
    · exact hw.med
  · injection h0 with h0
    subst h0
    exact hw

/-- A real number between `a` and `b`. -/
def Between (a b : ℝ) (v : FVal) : Prop := ∃ r : ℝ, a ≤ r ∧ r ≤ b ∧ v = .num (r : EReal)

theorem medClosed_between (a b : ℝ) : MedClosed (Between a b) := by
  intro l m h hm
  unfold Sol.medianOf at hm
  split_ifs at hm with h0 h1
  · obtain ⟨u, hu, hm⟩ := Out.bind_eq_ok.1 hm
    obtain ⟨w, hw, hm⟩ := Out.bind_eq_ok.1 hm
    injection hm with hm
    subst hm
    obtain ⟨x, x1, x2, rfl⟩ := h u (List.mem_of_getElem? (idx_eq_ok.1 hu))
    obtain ⟨y, y1, y2, rfl⟩ := h w (List.mem_of_getElem? (idx_eq_ok.1 hw))
    rw [half_add (by simp) (by simp)]
    exact ⟨(x + y) * (1 / 2), by linarith, by linarith, by norm_cast⟩
  · exact h m (List.mem_of_getElem? (idx_eq_ok.1 hm))

theorem medClosed_top : MedClosed fun v => v = .num ⊤ := by
  intro l m h hm
  unfold Sol.medianOf at hm
  split_ifs at hm with h0 h1
  · obtain ⟨u, hu, hm⟩ := Out.bind_eq_ok.1 hm
    obtain ⟨w, hw, hm⟩ := Out.bind_eq_ok.1 hm
    injection hm with hm
    subst hm
    have h1 := h u (List.mem_of_getElem? (idx_eq_ok.1 hu))
    have h2 := h w (List.mem_of_getElem? (idx_eq_ok.1 hw))
    simp only at h1 h2
    subst h1 h2
    rw [half_add (by simp) (by simp), EReal.top_add_of_ne_bot (by simp), EReal.top_mul_coe_of_pos (by norm_num)]
  · exact h m (List.mem_of_getElem? (idx_eq_ok.1 hm))

theorem medianBound_ge (k m c : ℕ) : 120 ≤ Sol.medianBound k m c := by
  unfold Sol.medianBound
  have h1 : (120 : ℝ) ≤ (0.2 : ℝ) * k + 120 + 30 * m / c := by
    have h2 : (0 : ℝ) ≤ (0.2 : ℝ) * k := by positivity
    have h3 : (0 : ℝ) ≤ 30 * m / c := by positivity
    linarith
  have h2 : ((120 : ℤ) : ℝ) ≤ ((⌈(0.2 : ℝ) * k + 120 + 30 * m / c⌉ : ℤ) : ℝ) :=
    le_trans (by exact_mod_cast h1) (Int.le_ceil _)
  have h3 : (120 : ℤ) ≤ ⌈(0.2 : ℝ) * k + 120 + 30 * m / c⌉ := by exact_mod_cast h2
  omega

/-- The list of medians holds at least the last 120. -/
theorem genRun_medians {env : Env n} {s t : Strat n} {k : ℕ} (h : GenRun env s k t) :
    min 120 k ≤ t.sol.medianFvalues.length := by
  induction h with
  | refl => simp
  | stop _ i ih =>
    obtain ⟨k, r, e⟩ := Strat.stop_frame i
    rw [e]; exact ih
  | @turn k t t' _ i ih =>
    unfold Strat.generation at i
    obtain ⟨⟨pop, s1⟩, ha, i⟩ := Out.bind_eq_ok.1 i
    obtain ⟨phen, hp, i⟩ := Out.bind_eq_ok.1 i
    obtain ⟨s2, he, i⟩ := Out.bind_eq_ok.1 i
    obtain ⟨s3, ht, i⟩ := Out.bind_eq_ok.1 i
    injection i with i
    subst i
    obtain ⟨⟨es, ei, ue, c, nz, x1, x2, p1, p2, e1⟩, hpl⟩ := Strat.ask_frame ha
    obtain ⟨c2, nu, nzuh, lr, cu, cs, e2, hcs, _⟩ := Strat.eval_frame he
    obtain ⟨cs', cu', su, ts, sol3, hs, hb, csq, hc, sc, ps, hs', pc, cov, sep, vv, sg, xp, xm, mx, mn, lv, le,
      e3⟩ := Strat.tell_frame ht
    obtain ⟨c0, ck, cl, med, h0, hk, hl, hmed, eb, _⟩ := Sol.updateBest_ok hb
    have e : s3.incIter.sol.medianFvalues = sol3.medianFvalues := by rw [e3]; rfl
    have emd : s2.sol.medianFvalues = t.sol.medianFvalues := by rw [e2, e1]
    rw [e, eb]
    have hm := medianBound_ge s2.sol.niter n cs'.length
    unfold Sol.pushBounded
    simp only [emd] at hm ⊢
    split_ifs with h1
    · rw [List.length_append, List.length_singleton] at h1
      rw [List.length_tail, List.length_append, List.length_singleton]
      omega
    · rw [List.length_append, List.length_singleton]
      omega

end Libcmaes
