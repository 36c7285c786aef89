import Verif.Lemmas.Elitism
import Verif.Lemmas.Run
import Verif.Lemmas.Quad
import Verif.Lemmas.Step

/-! # Two-point adaptation -/

namespace Libcmaes

open Spec Matrix

variable {n : ℕ}

theorem posOfId_of_mem {cs : List (Cand n)} {id : ℤ} (h : ∃ c ∈ cs, c.id = id) :
    ∃ (r : ℕ) (c : Cand n), Strat.posOfId cs id = r ∧ cs[r]? = some c ∧ c.id = id ∧ r < cs.length := by
  unfold Strat.posOfId
  obtain ⟨c, hc, hid⟩ := h
  cases hf : cs.findIdx? (fun c => decide (c.id = id)) with
  | none =>
    rw [List.findIdx?_eq_none_iff] at hf
    have := hf c hc
    simp [hid] at this
  | some r =>
    obtain ⟨h1, h2, _⟩ := List.findIdx?_eq_some_iff_getElem.1 hf
    exact ⟨r, cs[r], rfl, List.getElem?_eq_getElem h1, by simpa using h2, h1⟩

theorem posOfId_bounds (cs : List (Cand n)) (id : ℤ) :
    -1 ≤ Strat.posOfId cs id ∧ (cs ≠ [] → Strat.posOfId cs id ≤ (cs.length : ℤ) - 1) := by
  by_cases h : ∃ c ∈ cs, c.id = id
  · obtain ⟨r, c, h1, _, _, h2⟩ := posOfId_of_mem h
    rw [h1]
    exact ⟨by omega, fun _ => by omega⟩
  · unfold Strat.posOfId
    rw [List.findIdx?_eq_none_iff.2 (by
      intro c hc
      simp only [decide_eq_false_iff_not]
      exact fun hid => h ⟨c, hc, hid⟩)]
    refine ⟨le_refl _, fun hne => ?_⟩
    have := List.length_pos_iff.2 hne
    show (-1 : ℤ) ≤ _
    omega

/-- What `tell` does to the members of the two-point adaptation. -/
theorem tell_tpa {env : Env n} {s s' : Strat n} (h : s.tell env = .ok s') :
    s'.sol.tpaP1 = s.sol.tpaP1 ∧ s'.sol.tpaP2 = s.sol.tpaP2 ∧
    (¬ (s.p.tpa = 2 ∧ s.niter > 0) → s'.sol.tpaS = s.sol.tpaS) ∧
    (s.p.tpa = 2 → s.niter > 0 → s.p.lambda ≠ 1 ∧ s'.sol.tpaS = (1 - 0.3) * s.sol.tpaS +
      0.3 * ((Strat.posOfId s'.sol.cands s.sol.tpaP2 - Strat.posOfId s'.sol.cands s.sol.tpaP1 : ℤ) : ℝ) /
        ((s.p.lambda : ℝ) - 1)) ∧
    (s.p.tpa = 2 → s.p.uh = false → s'.sol.sigma =
      if s.sol.niter > 0 then s.sol.sigma * Real.exp (s'.sol.tpaS / s.p.dsigma) else s.sol.sigma) := by
  obtain ⟨s1, tS, sol3, sol4, h1, h2, h3, h4, h5⟩ := Strat.tell_ok h
  obtain ⟨cu, su, cs, e1⟩ := Strat.rank_frame h1
  obtain ⟨c0, ck, cl, med, _, _, _, _, e3, _⟩ := Sol.updateBest_ok h3
  obtain ⟨csq, hc, sc, ps, hs, pc, cov, sep, v, sg, xp, xm, e4⟩ := covarianceUpdate_frame h4
  obtain ⟨_, mx, mn, lv, le, e5⟩ := Strat.tellFinish_ok h5
  have hS : s'.sol.tpaS = tS := by rw [e5, e4, e3]
  have hC : s'.sol.cands = cs := by rw [e5, e4, e3, e1]
  have h1S : s1.sol.tpaS = s.sol.tpaS := by rw [e1]
  refine ⟨by rw [e5, e4, e3, e1], by rw [e5, e4, e3, e1], ?_, ?_, ?_⟩
  · intro hn
    rw [if_neg hn] at h2
    injection h2 with h2
    rw [hS, ← h1S, h2]
  · intro ha hb
    rw [if_pos ⟨ha, hb⟩] at h2
    unfold Strat.tpaUpdate at h2
    by_cases hl : s1.p.lambda = 1
    · rw [if_pos hl] at h2; cases h2
    rw [if_neg hl] at h2
    injection h2 with h2
    have h2S := congrArg (fun t : Strat n => t.sol.tpaS) h2
    simp only at h2S
    rw [hS, ← h2S, hC, e1]
    refine ⟨by rw [e1] at hl; exact hl, rfl⟩
  · intro ht huh
    have hsg := covarianceUpdate_sigma h4
    have : s'.sol.sigma = sol4.sigma := by
      rw [e5]
      show (if s.p.uh = true ∧ sol4.suh > 0 then _ else sol4.sigma) = _
      rw [if_neg (by simp [huh])]
    rw [this, hsg, hS]
    unfold sigmaUpdate
    rw [if_neg (by omega)]
    have a1 : sol3.niter = s.sol.niter := by rw [e3, e1]
    have a2 : sol3.sigma = s.sol.sigma := by rw [e3, e1]
    have a3 : sol3.tpaS = tS := by rw [e3]
    rw [a1, a2, a3]

/-- The positions of the two points are positions of the population. -/
theorem ask_tpa {env : Env n} {s s' : Strat n} {pop : List (Vec n)} (h : s.ask env = .ok (pop, s'))
    (ht : s.p.tpa = 2) (hn : s.niter > 0) :
    s'.sol.tpaP1 < s.p.lambda ∧ s'.sol.tpaP2 < s.p.lambda := by
  unfold Strat.ask at h
  obtain ⟨s1, h1, h⟩ := Out.bind_eq_ok.1 h
  obtain ⟨⟨pop1, s2⟩, h2, h⟩ := Out.bind_eq_ok.1 h
  obtain ⟨⟨pop2, s3⟩, h3, h⟩ := Out.bind_eq_ok.1 h
  obtain ⟨⟨pop3, s4⟩, h4, h⟩ := Out.bind_eq_ok.1 h
  obtain ⟨pop4, h5, h⟩ := Out.bind_eq_ok.1 h
  injection h with h; injection h with h6 h7
  obtain ⟨es, ei, ue, e1⟩ := Strat.askPrepare_frame h1
  obtain ⟨e2, hl2⟩ := Strat.askSample_frame h2
  obtain ⟨⟨c, e3⟩, hpop⟩ := Strat.askGradient_frame h3
  have hp2 : pop2.length = s.p.lambda := by
    rcases hpop with e | ⟨nx, e⟩
    · rw [e, hl2, e1]
    · rw [e, List.length_set, hl2, e1]
  have ht3 : s3.p.tpa = 2 ∧ s3.niter > 0 := by rw [e3, e2, e1]; exact ⟨ht, hn⟩
  unfold Strat.askTpa at h4
  rw [if_pos ht3] at h4
  by_cases g1 : s3.sol.sigma = 0
  · simp only [if_pos g1] at h4; cases h4
  simp only [if_neg g1] at h4
  obtain ⟨nrm, g2, h4⟩ := Out.bind_eq_ok.1 h4
  by_cases g3 : nrm = 0
  · rw [if_pos g3] at h4; cases h4
  rw [if_neg g3] at h4
  split_ifs at h4 with g4 g5 g5
  all_goals
    push Not at g5
    injection h4 with h4
    injection h4 with h4 h8
    rw [← h7, ← h8]
    simp only [hp2] at g5
    exact g5

theorem eval_ids {env : Env n} {s s' : Strat n} {cols phen : List (Vec n)} (hp : GoodParams s.p)
    (hc : s.sol.cands.length = s.p.lambda) (hl : cols.length = s.p.lambda) (hl' : phen.length = s.p.lambda)
    (hoff : s.elitismOn = false) (h : s.eval env cols phen = .ok s') (r : ℕ) (hr : r < s.p.lambda) :
    ∃ c ∈ s'.sol.cands, c.id = r ∧ c.x = colX cols r := by
  have h1 : cols.length ≤ s.sol.cands.length := by omega
  have hev := Strat.evaluated_cands (env := env) (phen := phen) h1 r
  rw [if_pos (by omega)] at hev
  have key : ∀ t t' : Strat n, t.reinject cols.length = .ok t' →
      t.sol.cands = (s.evaluated env cols phen).sol.cands → t.elitismOn = s.elitismOn →
      ∃ c ∈ t'.sol.cands, c.id = r ∧ c.x = colX cols r := by
    intro t t' ht htc hte
    rw [reinject_off _ (by rw [hte]; exact hoff)] at ht
    injection ht with ht
    rw [← ht, htc]
    exact ⟨_, List.mem_iff_getElem?.2 ⟨r, hev⟩, rfl, rfl⟩
  by_cases huh : s.p.uh = true
  · obtain ⟨a1, a2, -⟩ := lambdaReev_good env s.p s.nu hp
    rw [eval_uh_eq huh h1 (fun _ => by omega) (by omega)] at h
    obtain ⟨s3, h3, h⟩ := Out.bind_eq_ok.1 h
    injection h with h
    rw [← h]
    have := key _ _ h3 rfl rfl
    exact this
  · obtain ⟨s3, h3, e⟩ := Strat.eval_ok (by simpa using huh) h
    rw [e]
    have := key _ _ h3 rfl rfl
    exact this

/-- The step of the signal in one generation, and the bound it gives. -/
theorem generation_tpa {env : Env n} {s s' : Strat n} (hp : GoodParams s.p)
    (hc : s.sol.cands.length = s.p.lambda) (h : s.generation env = .ok s') :
    (¬ (s.p.tpa = 2 ∧ s.niter > 0) → s'.sol.tpaS = s.sol.tpaS) ∧
    (s.p.tpa = 2 → s.niter > 0 →
      (∃ d : ℤ, |d| ≤ s.p.lambda ∧
        s'.sol.tpaS = (1 - 0.3) * s.sol.tpaS + 0.3 * (d : ℝ) / ((s.p.lambda : ℝ) - 1)) ∧
      (s.elitismOn = false → ∃ r1 r2 : ℕ, r1 < s.p.lambda ∧ r2 < s.p.lambda ∧
        (∃ c, s'.sol.cands[r1]? = some c ∧ c.id = s'.sol.tpaP1) ∧
        (∃ c, s'.sol.cands[r2]? = some c ∧ c.id = s'.sol.tpaP2) ∧
        s'.sol.tpaS = (1 - 0.3) * s.sol.tpaS +
          0.3 * (((r2 : ℤ) - r1 : ℤ) : ℝ) / ((s.p.lambda : ℝ) - 1))) := by
  obtain ⟨pop, s1, phen, s2, s3, ha, hph, he, ht, es', hperm, hlen, -⟩ := generation_points hp hc h
  obtain ⟨⟨es, ei, ue, c, nz, x1, x2, p1, p2, e1⟩, hpl⟩ := Strat.ask_frame ha
  obtain ⟨c2, nu, nzuh, lr, cu, cs, e2, _⟩ := Strat.eval_frame he
  obtain ⟨t1, t2, t3, t4, -⟩ := tell_tpa ht
  have q1 : s2.p = s.p := by rw [e2, e1]
  have q2 : s2.niter = s.niter := by rw [e2, e1]
  have q3 : s2.sol.tpaS = s.sol.tpaS := by rw [e2, e1]
  have q4 : s'.sol.tpaS = s3.sol.tpaS := by rw [es']; rfl
  have q5 : s'.sol.cands = s3.sol.cands := by rw [es']; rfl
  have q6 : s'.sol.tpaP1 = s3.sol.tpaP1 := by rw [es']; rfl
  have q7 : s'.sol.tpaP2 = s3.sol.tpaP2 := by rw [es']; rfl
  rw [q1, q2, q3] at t3 t4
  rw [q4]
  refine ⟨t3, fun h1 h2 => ?_⟩
  obtain ⟨hne, t4⟩ := t4 h1 h2
  have hl2 := hp.lambda
  refine ⟨⟨_, ?_, t4⟩, fun hoff => ?_⟩
  · rw [← q5]
    have hne : s'.sol.cands ≠ [] := by
      intro h0; rw [h0] at hlen; simp at hlen; omega
    have b1 := posOfId_bounds s'.sol.cands s2.sol.tpaP1
    have b2 := posOfId_bounds s'.sol.cands s2.sol.tpaP2
    have b3 := b1.2 hne
    have b4 := b2.2 hne
    rw [hlen] at b3 b4
    rw [abs_le]
    constructor <;> omega
  · obtain ⟨l1, l2⟩ := ask_tpa ha h1 h2
    have hc1 : s1.sol.cands.length = s1.p.lambda := by rw [e1]; exact hc
    have hp1 : s1.p = s.p := by rw [e1]
    have hl1 : pop.length = s1.p.lambda := by rw [hp1]; exact hpl
    have hm := Out.mapM_length hph
    have ids := eval_ids (hp1 ▸ hp) hc1 hl1 (by rw [← hm]; exact hl1) (by rw [e1]; exact hoff) he
    have w1 : s2.sol.tpaP1 = s1.sol.tpaP1 := by rw [e2]
    have w2 : s2.sol.tpaP2 = s1.sol.tpaP2 := by rw [e2]
    obtain ⟨c1, m1, i1, -⟩ := ids s1.sol.tpaP1 (by rw [hp1]; exact l1)
    obtain ⟨c2, m2, i2, -⟩ := ids s1.sol.tpaP2 (by rw [hp1]; exact l2)
    obtain ⟨r1, d1, f1, f2, f3, f4⟩ := posOfId_of_mem (cs := s'.sol.cands) (id := s2.sol.tpaP1)
      ⟨c1, hperm.mem_iff.2 m1, by rw [i1, w1]⟩
    obtain ⟨r2, d2, g1, g2, g3, g4⟩ := posOfId_of_mem (cs := s'.sol.cands) (id := s2.sol.tpaP2)
      ⟨c2, hperm.mem_iff.2 m2, by rw [i2, w2]⟩
    refine ⟨r1, r2, by omega, by omega, ⟨d1, f2, by rw [f3, q6, t1]⟩, ⟨d2, g2, by rw [g3, q7, t2]⟩, ?_⟩
    rw [t4, ← q5, f1, g1]

/-- A smoothed quantity stays within the bound of its input. -/
theorem smooth_bound {a d l B : ℝ} (hl : 0 < l) (ha : |a| ≤ B) (hd : |d| ≤ B * l) :
    |(1 - 0.3) * a + 0.3 * d / l| ≤ B := by
  have h1 : |d / l| ≤ B := by
    rw [abs_div, abs_of_pos hl, div_le_iff₀ hl]; exact hd
  rw [abs_le] at *
  have e : 0.3 * d / l = 0.3 * (d / l) := by ring
  rw [e]
  constructor <;> nlinarith [h1.1, h1.2, ha.1, ha.2]

/-- What the bounds need of a state. -/
structure TpaInv (p : Params n) (t : Strat n) : Prop where
  params : t.p.tpa = p.tpa ∧ t.p.lambda = p.lambda ∧ t.p.elitist = p.elitist ∧
    t.p.initialElitist = p.initialElitist ∧ t.p.initialElitistOnRestart = p.initialElitistOnRestart
  good : GoodParams t.p
  cands : t.sol.cands.length = t.p.lambda

theorem TpaInv.new {env : Env n} {kind : CovKind} {p : Params n} {s : Strat n} (hc : Configured p)
    (h : Strat.new env kind p = .ok s) : TpaInv p s := by
  obtain ⟨_, _, _, hp, _, hf, _⟩ := Strat.new_ok h
  refine ⟨by rw [hp]; exact ⟨rfl, rfl, rfl, rfl, rfl⟩, by rw [hp]; exact hc.with_sigmaInit _, ?_⟩
  rw [hf.cands, hp]

theorem TpaInv.generation {env : Env n} {p : Params n} {s s' : Strat n} (hi : TpaInv p s)
    (h : s.generation env = .ok s') : TpaInv p s' := by
  obtain ⟨_, _, _, _, _, _, _, _, _, _, _, hlen, _⟩ := generation_points hi.good hi.cands h
  obtain ⟨tr, hr⟩ := Strat.generation_run h
  have hp := (run_p hr).1
  exact ⟨hp ▸ hi.params, hp ▸ hi.good, by rw [hp]; exact hlen⟩

theorem TpaInv.bound {env : Env n} {p : Params n} (k : ℕ) {s s' : Strat n} (hi : TpaInv p s)
    (h : s.generations env k = .ok s') {B : ℝ} (hB : |s.sol.tpaS| ≤ B)
    (hstep : ∀ t t' : Strat n, TpaInv p t → t.generation env = .ok t' → |t.sol.tpaS| ≤ B → |t'.sol.tpaS| ≤ B) :
    TpaInv p s' ∧ |s'.sol.tpaS| ≤ B := by
  induction k generalizing s with
  | zero => injection h with h; subst h; exact ⟨hi, hB⟩
  | succ k ih =>
    unfold Strat.generations at h
    obtain ⟨s1, h1, h⟩ := Out.bind_eq_ok.1 h
    exact ih (hi.generation h1) h (hstep _ _ hi h1 hB)

/-- The two columns written by the fourth part of `ask`. -/
theorem ask_tpa_points {env : Env n} {s s1 : Strat n} {pop : List (Vec n)} (ht : s.p.tpa = 2)
    (hn : 0 < s.niter) (hg : s.p.withGradient = false) (hne : s.sol.tpaP1 ≠ s.sol.tpaP2)
    (h : s.ask env = .ok (pop, s1)) :
    ∃ t nrm x1 x2, s.askPrepare env = .ok t ∧ s.sol.sigma ≠ 0 ∧ nrm ≠ 0 ∧
      t.meanShiftNorm (s.sol.xmean - s.sol.xmeanPrev) = .ok nrm ∧
      pop[s.sol.tpaP1]? = some x1 ∧ pop[s.sol.tpaP2]? = some x2 ∧
      setFixed s.p.fixedP (s.sol.xmean + (vnorm (env.z (s.nz + s.p.lambda)) / nrm) •
        (s.sol.xmean - s.sol.xmeanPrev)) = .ok x1 ∧
      setFixed s.p.fixedP (s.sol.xmean - (vnorm (env.z (s.nz + s.p.lambda)) / nrm) •
        (s.sol.xmean - s.sol.xmeanPrev)) = .ok x2 := by
  unfold Strat.ask at h
  obtain ⟨t1, h1, h⟩ := Out.bind_eq_ok.1 h
  obtain ⟨⟨pop1, t2⟩, h2, h⟩ := Out.bind_eq_ok.1 h
  obtain ⟨⟨pop2, t3⟩, h3, h⟩ := Out.bind_eq_ok.1 h
  obtain ⟨⟨pop3, t4⟩, h4, h⟩ := Out.bind_eq_ok.1 h
  obtain ⟨pop4, h5, h⟩ := Out.bind_eq_ok.1 h
  injection h with h; injection h with h6 h7
  subst h6 h7
  obtain ⟨es, ei, ue, e1⟩ := Strat.askPrepare_frame h1
  obtain ⟨e2, -⟩ := Strat.askSample_frame h2
  have ep : t2.p = s.p := by rw [e2, e1]
  unfold Strat.askGradient at h3
  simp only at h3
  rw [if_pos (by rw [ep]; exact hg)] at h3
  injection h3 with h3; injection h3 with h6 h7
  subst h6 h7
  unfold Strat.askTpa at h4
  simp only at h4
  rw [if_pos (by rw [ep, e2, e1]; exact ⟨ht, hn⟩)] at h4
  by_cases g1 : t2.sol.sigma = 0
  · rw [if_pos g1] at h4; cases h4
  rw [if_neg g1] at h4
  obtain ⟨nrm, g2, h4⟩ := Out.bind_eq_ok.1 h4
  by_cases g3 : nrm = 0
  · rw [if_pos g3] at h4; cases h4
  have hw : t2.p.withGradient = false := by rw [ep]; exact hg
  rw [if_neg g3] at h4
  simp only [hw, Bool.false_eq_true, if_false] at h4
  split_ifs at h4 with g5
  push Not at g5
  injection h4 with h4
  injection h4 with h6 h7
  have q1 : t2.sol.tpaP1 = s.sol.tpaP1 := by rw [e2, e1]
  have q2 : t2.sol.tpaP2 = s.sol.tpaP2 := by rw [e2, e1]
  have q3 : t2.sol.xmean = s.sol.xmean := by rw [e2, e1]
  have q4 : t2.sol.xmeanPrev = s.sol.xmeanPrev := by rw [e2, e1]
  have q5 : t2.nz = s.nz + s.p.lambda := by rw [e2, e1]
  have q6 : t2.meanShiftNorm (s.sol.xmean - s.sol.xmeanPrev) = t1.meanShiftNorm (s.sol.xmean - s.sol.xmeanPrev) := by
    unfold Strat.meanShiftNorm
    rw [e2]
  rw [q3, q4] at g2
  rw [q6] at g2
  have q7 : t2.sol.sigma = s.sol.sigma := by rw [e2, e1]
  have hsm : ∀ v : Vec n, (vnorm (env.z (s.nz + s.p.lambda)) • fun i => v i / nrm) =
      (vnorm (env.z (s.nz + s.p.lambda)) / nrm) • v := by
    intro v; funext i; simp only [Pi.smul_apply, smul_eq_mul]; ring
  rw [q1, q2, q3, q4, q5, hsm] at h6
  rw [q1, q2] at g5
  have hf := Out.mapM_eq_ok.1 h5
  have get : ∀ (j : ℕ) (x : Vec n), pop3[j]? = some x → ∃ y, pop4[j]? = some y ∧ setFixed s.p.fixedP x = .ok y := by
    intro j x hx
    obtain ⟨hlt, hx⟩ := List.getElem?_eq_some_iff.1 hx
    have hlt' : j < pop4.length := by rw [← hf.length_eq]; exact hlt
    have := (List.forall₂_iff_get.1 hf).2 j hlt hlt'
    simp only [List.get_eq_getElem, hx] at this
    exact ⟨_, List.getElem?_eq_getElem hlt', this⟩
  obtain ⟨x1, a1, b1⟩ := get s.sol.tpaP1 (s.sol.xmean + (vnorm (env.z (s.nz + s.p.lambda)) / nrm) •
        (s.sol.xmean - s.sol.xmeanPrev)) (by
    rw [← h6, List.getElem?_set_ne hne.symm, List.getElem?_set_self g5.1])
  obtain ⟨x2, a2, b2⟩ := get s.sol.tpaP2 (s.sol.xmean - (vnorm (env.z (s.nz + s.p.lambda)) / nrm) •
        (s.sol.xmean - s.sol.xmeanPrev)) (by
    rw [← h6, List.getElem?_set_self (by rw [List.length_set]; exact g5.2)])
  exact ⟨t1, nrm, x1, x2, h1, by rw [← q7]; exact g1, g3, g2, a1, a2, b1, b2⟩

/-- The inverse of the covariance in eigen coordinates. -/
theorem quad_inv_eig (eig : EigSolver n) {C : Mat n} (h : PD C) (x : Vec n) :
    quad C⁻¹ x = vnorm (fun i => 1 / Real.sqrt ((eig.solve C).1 i) * (eig.solve C).2ᵀ.mulVec x i) ^ 2 := by
  have hp := fun i => eig_pos eig h i
  have hinv : C⁻¹ = (eig.solve C).2 * diagonal (fun i => ((eig.solve C).1 i)⁻¹) * (eig.solve C).2ᵀ := by
    refine inv_eq_right_inv ?_
    have : C * ((eig.solve C).2 * diagonal (fun i => ((eig.solve C).1 i)⁻¹) * (eig.solve C).2ᵀ) =
        (eig.solve C).2 * (diagonal (eig.solve C).1 * ((eig.solve C).2ᵀ * (eig.solve C).2) *
          diagonal (fun i => ((eig.solve C).1 i)⁻¹)) * (eig.solve C).2ᵀ := by
      conv_lhs => enter [1]; rw [← eig.decomp C h.symm]
      simp only [Matrix.mul_assoc]
    rw [this, eig.orth' C h.symm, Matrix.mul_one, diagonal_mul_diagonal]
    have : (fun i => (eig.solve C).1 i * ((eig.solve C).1 i)⁻¹) = fun _ => 1 := by
      funext i; exact mul_inv_cancel₀ (hp i).ne'
    rw [this, diagonal_one, Matrix.mul_one, eig.orth C h.symm]
  rw [hinv, quad_conj, quad_diagonal]
  unfold vnorm sqNorm
  rw [Real.sq_sqrt (Finset.sum_nonneg fun i _ => mul_self_nonneg _)]
  refine Finset.sum_congr rfl fun i _ => ?_
  have hs : Real.sqrt ((eig.solve C).1 i) * Real.sqrt ((eig.solve C).1 i) = (eig.solve C).1 i :=
    Real.mul_self_sqrt (hp i).le
  have hne : Real.sqrt ((eig.solve C).1 i) ≠ 0 := (Real.sqrt_pos.2 (hp i)).ne'
  have e1 : ((eig.solve C).1 i)⁻¹ = (1 / Real.sqrt ((eig.solve C).1 i)) * (1 / Real.sqrt ((eig.solve C).1 i)) := by
    conv_lhs => rw [← hs]
    field_simp
  rw [e1]
  ring

theorem covarianceUpdate_prev {eig : EigSolver n} {k : CovKind} {p : Params n} {es : Es n} {s s' : Sol n}
    (ht : p.tpa ≠ 0) (h : covarianceUpdate eig k p es s = .ok s') : s'.xmeanPrev = s.xmean := by
  unfold covarianceUpdate at h
  cases k with
  | plain =>
    simp only at h
    split_ifs at h with hs
    · obtain ⟨h0, _, csq, hb, _, _, rfl⟩ := covUpdateSep_ok h
      exact if_pos ht
    · obtain ⟨h0, _, csq, hb, _, _, rfl⟩ := covUpdateFull_ok h
      exact if_pos ht
  | active =>
    simp only at h
    split_ifs at h with hs
    · obtain ⟨h0, _, _, _, csq, hb, cm, _, _, _, rfl⟩ := acovUpdateSep_ok h; rfl
    · obtain ⟨h0, _, _, _, csq, hb, cm, _, _, _, rfl⟩ := acovUpdateFull_ok h; rfl
  | vd =>
    obtain ⟨h0, _, _, _, _, hb, g, _, _, rfl⟩ := vdUpdate_ok h
    exact if_pos ht

theorem ask_tpaPos {env : Env n} {s s1 : Strat n} {pop : List (Vec n)} (h : s.ask env = .ok (pop, s1))
    (hg : s.p.withGradient = false) : s1.sol.tpaP1 = s.sol.tpaP1 ∧ s1.sol.tpaP2 = s.sol.tpaP2 := by
  unfold Strat.ask at h
  obtain ⟨t1, h1, h⟩ := Out.bind_eq_ok.1 h
  obtain ⟨⟨pop1, t2⟩, h2, h⟩ := Out.bind_eq_ok.1 h
  obtain ⟨⟨pop2, t3⟩, h3, h⟩ := Out.bind_eq_ok.1 h
  obtain ⟨⟨pop3, t4⟩, h4, h⟩ := Out.bind_eq_ok.1 h
  obtain ⟨pop4, h5, h⟩ := Out.bind_eq_ok.1 h
  injection h with h; injection h with h6 h7
  subst h6 h7
  obtain ⟨es, ei, ue, e1⟩ := Strat.askPrepare_frame h1
  obtain ⟨e2, -⟩ := Strat.askSample_frame h2
  have ep : t2.p = s.p := by rw [e2, e1]
  unfold Strat.askGradient at h3
  simp only at h3
  rw [if_pos (by rw [ep]; exact hg)] at h3
  injection h3 with h3; injection h3 with h6 h7
  subst h6 h7
  have q : t2.sol.tpaP1 = s.sol.tpaP1 ∧ t2.sol.tpaP2 = s.sol.tpaP2 := by rw [e2, e1]; exact ⟨rfl, rfl⟩
  unfold Strat.askTpa at h4
  simp only at h4
  by_cases hc : t2.p.tpa = 2 ∧ t2.niter > 0
  · rw [if_pos hc] at h4
    by_cases g1 : t2.sol.sigma = 0
    · rw [if_pos g1] at h4; cases h4
    rw [if_neg g1] at h4
    obtain ⟨nrm, g2, h4⟩ := Out.bind_eq_ok.1 h4
    by_cases g3 : nrm = 0
    · rw [if_pos g3] at h4; cases h4
    have hw : t2.p.withGradient = false := by rw [ep]; exact hg
    rw [if_neg g3] at h4
    simp only [hw, Bool.false_eq_true, if_false] at h4
    split_ifs at h4 with g5
    injection h4 with h4
    injection h4 with h6 h7
    rw [← h7]; exact q
  · rw [if_neg hc] at h4
    injection h4 with h4; injection h4 with h6 h7
    rw [← h7]; exact q

end Libcmaes
