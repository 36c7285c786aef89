import Verif.Spec.TpaLinear
import Verif.Lemmas.Tpa
import Verif.Lemmas.Luck
import Verif.Lemmas.Progress
import Verif.Lemmas.VdWit
import Verif.Props.Distribution
import Verif.Props.Params

/-!
# Lemmas on two-point adaptation on linear objectives
-/

namespace Libcmaes

open Matrix Spec

variable {n : ℕ}

theorem Spec.PlainTpa.off {s : Strat n} (h : PlainTpa s.p) : s.elitismOn = false := by
  unfold Strat.elitismOn
  rw [h.elitist, h.initialElitist, h.elitistOnRestart]
  simp

/-- What a state of such a run keeps. -/
structure TpaState (t : Strat n) : Prop where
  plain : PlainTpa t.p
  good : GoodParams t.p
  cands : t.sol.cands.length = t.p.lambda
  pos1 : t.sol.tpaP1 = 0
  pos2 : t.sol.tpaP2 = 1
  niter : t.sol.niter = t.niter
  neg : t.negate = t.p.maximize
  sigma : 0 < t.sol.sigma

theorem TpaState.new {env : Env n} {kind : CovKind} {p : Params n} {s : Strat n} (hc : Configured p) (hp : PlainTpa p)
    (h : Strat.new env kind p = .ok s) : TpaState s := by
  obtain ⟨h1, h2, h3, h4, h5, h6, h7, h8, h9, h10, h11, h12, h13, h14, h15, h16, h17, h18, h19, h20⟩ := Strat.new_ok h
  obtain ⟨a1, a2, -⟩ := new_tpa h
  refine ⟨?_, by rw [h4]; exact hc.with_sigmaInit _, by rw [h6.cands, h4], a1, a2, by rw [h6.niter, h7], by rw [h10, h4], h5⟩
  rw [h4]
  exact ⟨hp.tpa, hp.grad, hp.uh, hp.fixed, hp.elitist, hp.initialElitist, hp.elitistOnRestart⟩

/-- A length is not negative. -/
theorem meanShiftNorm_nonneg {s : Strat n} {v : Vec n} {r : ℝ} (hs : 0 < s.sol.sigma) (h : s.meanShiftNorm v = .ok r) : 0 ≤ r := by
  unfold Strat.meanShiftNorm at h
  split at h
  · split at h
    · cases h
    · split at h
      · injection h with h; rw [← h]; exact div_nonneg (Real.sqrt_nonneg _) hs.le
      · cases h
  · split at h
    · injection h with h; rw [← h]; exact div_nonneg (Real.sqrt_nonneg _) hs.le
    · cases h

/-- The parts of a generation and the values of its candidates. -/
theorem TpaState.values {env : Env n} {s s' : Strat n} (hT : TpaState s) {g : Vec n → FVal} {F : Vec n → ℝ}
    (hdet : ∀ k y, env.f k y = g y) (hF : Scores s.p g F) (h : s.generation env = .ok s') :
    ∃ pop s1 phen s2 s3, s.ask env = .ok (pop, s1) ∧ s1.eval env pop phen = .ok s2 ∧ s2.tell env = .ok s3 ∧
      s' = s3.incIter ∧ s2.p = s.p ∧ pop.length = s.p.lambda ∧ s2.sol.cands.length = s.p.lambda ∧
      s2.sol.sigma = s.sol.sigma ∧ s2.sol.niter = s.sol.niter ∧
      ∀ r, r < s.p.lambda → ∃ x, pop[r]? = some x ∧ s2.sol.cands[r]? = some ⟨FVal.ofReal (F x), x, r⟩ := by
  obtain ⟨pop, s1, phen, s2, s3, ha, hp, he, ht, rfl⟩ := generation_parts h
  obtain ⟨⟨es, ei, ue, cc, nz, x1, x2, p1, p2, es1⟩, hpl⟩ := Strat.ask_frame ha
  obtain ⟨hb1, hb2⟩ := Strat.eval_bounds he
  obtain ⟨s3', h3, e3⟩ := Strat.eval_ok (by rw [es1]; exact hT.plain.uh) he
  have h3' : s3' = s1.evaluated env pop phen := by
    rw [reinject_off _ (by
      rw [show (s1.evaluated env pop phen).elitismOn = s.elitismOn by rw [es1]; rfl]; exact hT.plain.off)] at h3
    injection h3 with h3; exact h3.symm
  unfold Strat.phenoCols at hp
  rw [Out.mapM_eq_ok] at hp
  have egp : s1.p.gp = s.p.gp := by rw [es1]
  have e4 : s2.sol.cands = (s1.evaluated env pop phen).sol.cands := by rw [e3, h3']; rfl
  refine ⟨pop, s1, phen, s2, s3, ha, he, ht, rfl, by rw [e3, h3', es1]; rfl, hpl, ?_, by rw [e3, h3', es1]; rfl,
    by rw [e3, h3', es1]; rfl, ?_⟩
  · rw [e4, Strat.evaluated_length, es1]
    exact hT.cands
  · intro r hr
    rw [← hpl] at hr
    have hr' : r < phen.length := by rw [← hp.length_eq]; exact hr
    refine ⟨pop[r], List.getElem?_eq_getElem hr, ?_⟩
    have hy : phenoV s.p.gp pop[r] = .ok phen[r] := by
      rw [← egp]
      exact (List.forall₂_iff_get.1 hp).2 r hr hr'
    rw [e4, Strat.evaluated_cands hb1, if_pos hr, hdet]
    have ey : colY pop phen r = phen[r] := by
      unfold colY colX
      rw [if_neg (by rw [List.isEmpty_iff]; rintro rfl; simp at hr'), List.getD, List.getElem?_eq_getElem hr',
        Option.getD_some]
    have ex : colX pop r = pop[r] := by
      unfold colX
      rw [List.getD, List.getElem?_eq_getElem hr, Option.getD_some]
    obtain ⟨y, c1, c2⟩ := hF pop[r]
    rw [hy] at c1
    injection c1 with c1
    subst c1
    rw [ey, ex, show s1.negate = s.p.maximize by rw [es1]; exact hT.neg]
    unfold negIf
    rw [c2]
    rfl

theorem TpaState.generation {env : Env n} {s s' : Strat n} (hT : TpaState s) (h : s.generation env = .ok s') :
    TpaState s' ∧ s'.p = s.p ∧ s'.niter = s.niter + 1 ∧ s'.sol.xmeanPrev = s.sol.xmean ∧
      s'.sol.sigma = if s.niter > 0 then s.sol.sigma * Real.exp (s'.sol.tpaS / s.p.dsigma) else s.sol.sigma := by
  obtain ⟨pop, s1, phen, s2, s3, ha, hp, he, ht, e⟩ := generation_parts h
  obtain ⟨_, _, _, _, _, _, _, _, _, _, _, hlen, _⟩ := generation_points hT.good hT.cands h
  obtain ⟨⟨es, ei, ue, c, nz, x1, x2, p1, p2, e1⟩, hpl⟩ := Strat.ask_frame ha
  obtain ⟨c2, nu, nzuh, lr, cu, cs, e2, _⟩ := Strat.eval_frame he
  obtain ⟨t1, t2, -, -, t5⟩ := tell_tpa ht
  have hsg := t5 (by rw [e2, e1]; exact hT.plain.tpa) (by rw [e2, e1]; exact hT.plain.uh)
  have hsg' : s'.sol.sigma = if s.niter > 0 then s.sol.sigma * Real.exp (s'.sol.tpaS / s.p.dsigma) else s.sol.sigma := by
    rw [e]
    show s3.sol.sigma = _
    rw [hsg, e2, e1]
    show (if s.sol.niter > 0 then _ else _) = _
    rw [hT.niter]
    rfl
  have hprev : s'.sol.xmeanPrev = s.sol.xmean := by
    obtain ⟨t1, tS, sol3, sol4, h1, h2, h3, h4, h5⟩ := Strat.tell_ok ht
    obtain ⟨cu, su, cs, r1⟩ := Strat.rank_frame h1
    obtain ⟨c0, ck, cl, med, _, _, _, _, e3, _⟩ := Sol.updateBest_ok h3
    obtain ⟨_, mx, mn, lv, le, e5⟩ := Strat.tellFinish_ok h5
    have hx := covarianceUpdate_prev (by rw [e2, e1]; exact (by rw [hT.plain.tpa]; norm_num : s.p.tpa ≠ 0)) h4
    rw [e]
    show s3.sol.xmeanPrev = _
    rw [e5]
    show sol4.xmeanPrev = _
    rw [hx, e3, r1, e2, e1]
  obtain ⟨q1, q2⟩ := ask_tpaPos ha hT.plain.grad
  have hrun : Run env s [s2.sol.cands] s' := by
    have : AskRun env s [s2.sol.cands] s' := e ▸ .turn ha he ht (.refl _)
    exact this.run
  obtain ⟨hp', -, -, hn, hn', -, -, hng, -, -⟩ := run_p hrun
  refine ⟨⟨hp' ▸ hT.plain, hp' ▸ hT.good, by rw [hp']; exact hlen, ?_, ?_, ?_, by rw [hng, hp']; exact hT.neg, ?_⟩, hp', hn, hprev, hsg'⟩
  · rw [e]; show s3.sol.tpaP1 = 0; rw [t1, e2]; show s1.sol.tpaP1 = 0; rw [q1]; exact hT.pos1
  · rw [e]; show s3.sol.tpaP2 = 1; rw [t2, e2]; show s1.sol.tpaP2 = 1; rw [q2]; exact hT.pos2
  · rw [hn, hn', hT.niter]
  · rw [hsg']
    have := hT.sigma
    split_ifs <;> positivity

/-- The two test points. -/
theorem TpaState.points {env : Env n} {s s1 : Strat n} {pop : List (Vec n)} (hT : TpaState s) (hn : 0 < s.niter)
    (ha : s.ask env = .ok (pop, s1)) (hz : env.z (s.nz + s.p.lambda) ≠ 0) :
    ∃ a : ℝ, 0 < a ∧ pop[0]? = some (s.sol.xmean + a • (s.sol.xmean - s.sol.xmeanPrev)) ∧
      pop[1]? = some (s.sol.xmean - a • (s.sol.xmean - s.sol.xmeanPrev)) := by
  obtain ⟨t, nrm, x1, x2, hp, hs0, hn0, hm, g1, g2, f1, f2⟩ := ask_tpa_points hT.plain.tpa hn hT.plain.grad
    (by rw [hT.pos1, hT.pos2]; decide) ha
  rw [hT.plain.fixed] at f1 f2
  rw [setFixed_nil] at f1 f2
  injection f1 with f1
  injection f2 with f2
  subst f1 f2
  rw [hT.pos1] at g1
  rw [hT.pos2] at g2
  obtain ⟨es, ei, ue, e1⟩ := Strat.askPrepare_frame hp
  have hnn := meanShiftNorm_nonneg (by rw [e1]; exact hT.sigma) hm
  refine ⟨_, div_pos (lt_of_le_of_ne (Real.sqrt_nonneg _) (vnorm_ne_zero hz).symm) (lt_of_le_of_ne hnn hn0.symm), g1, g2⟩

theorem ofReal_lt {a b : ℝ} : FVal.lt (FVal.ofReal a) (FVal.ofReal b) ↔ a < b := by
  show (a : EReal) < (b : EReal) ↔ _
  exact EReal.coe_lt_coe_iff

/-- The signal after a generation: the better test point comes before the other. -/
theorem TpaState.signal {env : Env n} {s s' : Strat n} (hT : TpaState s) (hn : 0 < s.niter) {g : Vec n → FVal} {F : Vec n → ℝ}
    (hdet : ∀ k y, env.f k y = g y) (hF : Scores s.p g F) (h : s.generation env = .ok s')
    (hz : env.z (s.nz + s.p.lambda) ≠ 0) :
    ∃ a : ℝ, 0 < a ∧
      (F (s.sol.xmean + a • (s.sol.xmean - s.sol.xmeanPrev)) < F (s.sol.xmean - a • (s.sol.xmean - s.sol.xmeanPrev)) →
        0.7 * s.sol.tpaS + 0.3 / ((s.p.lambda : ℝ) - 1) ≤ s'.sol.tpaS) ∧
      (F (s.sol.xmean - a • (s.sol.xmean - s.sol.xmeanPrev)) < F (s.sol.xmean + a • (s.sol.xmean - s.sol.xmeanPrev)) →
        s'.sol.tpaS ≤ 0.7 * s.sol.tpaS - 0.3 / ((s.p.lambda : ℝ) - 1)) := by
  obtain ⟨pop, s1, phen, s2, s3, ha, he, ht, e, hp2, hpl, hcl, -, -, hval⟩ := hT.values hdet hF h
  obtain ⟨a, ha0, hx1, hx2⟩ := hT.points hn ha hz
  have hl := hT.good.lambda
  have hl1 : (0 : ℝ) < (s.p.lambda : ℝ) - 1 := by
    have : (2 : ℝ) ≤ s.p.lambda := by exact_mod_cast hl
    linarith
  obtain ⟨r1, r2, l1, l2, ⟨c1, k1, i1⟩, ⟨c2, k2, i2⟩, hS⟩ := ((generation_tpa hT.good hT.cands h).2 hT.plain.tpa hn).2 hT.plain.off
  obtain ⟨hT', -⟩ := hT.generation h
  rw [hT'.pos1] at i1
  rw [hT'.pos2] at i2
  have hcs : s'.sol.cands = s3.sol.cands := by rw [e]; rfl
  -- sorted permutation of the evaluated candidates
  obtain ⟨hperm, hsort⟩ : s'.sol.cands.Perm s2.sol.cands ∧ s'.sol.cands.Pairwise fun a b => ¬ FVal.lt b.fvalue a.fvalue := by
    obtain ⟨cs', cu', su, ts, sol3, hs, hb, csq, hc, sc, ps, hs', pc, cov, sep, v, sg, xp, xm, mx, mn, lv, le, e'⟩ :=
      Strat.tell_frame ht
    obtain ⟨c0, ck, cl, med, h0, hk, hl, hmed, e3, _⟩ := Sol.updateBest_ok hb
    have hs1 := hs (by rw [hp2]; exact hT.plain.uh)
    have : s3.sol.cands = cs' := by rw [e', e3]
    rw [hcs, this]
    have := ranked_of_sorts (stableSort_eq_ok hs1).2
    exact ⟨this.perm, this.sorted⟩
  -- the candidate with a given id
  have hid : ∀ (c : Cand n) (r r' : ℕ) (x : Vec n), s'.sol.cands[r]? = some c → c.id = r' → r' < s.p.lambda → pop[r']? = some x →
      c.fvalue = FVal.ofReal (F x) := by
    intro c r r' x hc hi hr' hx
    have hmem : c ∈ s2.sol.cands := hperm.mem_iff.1 (List.mem_iff_getElem?.2 ⟨r, hc⟩)
    obtain ⟨q, hq⟩ := List.mem_iff_getElem?.1 hmem
    have hql : q < s.p.lambda := by
      have := (List.getElem?_eq_some_iff.1 hq).1
      omega
    obtain ⟨y, hy1, hy2⟩ := hval q hql
    rw [hq] at hy2
    injection hy2 with hy2
    rw [hy2] at hi ⊢
    have : q = r' := by
      have hi : (q : ℤ) = r' := hi
      exact_mod_cast hi
    subst this
    rw [hx] at hy1
    injection hy1 with hy1
    rw [hy1]
  have v1 := hid c1 r1 0 _ k1 (by simpa using i1) (by omega) hx1
  have v2 := hid c2 r2 1 _ k2 (by simpa using i2) (by omega) hx2
  have hne : r1 ≠ r2 := by
    rintro rfl
    rw [k1] at k2
    injection k2 with k2
    rw [k2, i2] at i1
    simp at i1
  have hsorted : ∀ (i j : ℕ) (c d : Cand n), s'.sol.cands[i]? = some c → s'.sol.cands[j]? = some d → i < j →
      ¬ FVal.lt d.fvalue c.fvalue := by
    intro i j c d hi hj hij
    obtain ⟨hi', hi⟩ := List.getElem?_eq_some_iff.1 hi
    obtain ⟨hj', hj⟩ := List.getElem?_eq_some_iff.1 hj
    have := List.pairwise_iff_getElem.1 hsort i j hi' hj' hij
    rw [hi, hj] at this
    exact this
  refine ⟨a, ha0, fun hlt => ?_, fun hlt => ?_⟩
  · have hlt12 : r1 < r2 := by
      by_contra hge
      refine hsorted r2 r1 c2 c1 k2 k1 (by omega) ?_
      rw [v1, v2, ofReal_lt]
      exact hlt
    rw [hS]
    have : (1 : ℝ) ≤ (((r2 : ℤ) - r1 : ℤ) : ℝ) := by exact_mod_cast (by omega : (1 : ℤ) ≤ (r2 : ℤ) - r1)
    have h2 : 0.3 / ((s.p.lambda : ℝ) - 1) ≤ 0.3 * (((r2 : ℤ) - r1 : ℤ) : ℝ) / ((s.p.lambda : ℝ) - 1) :=
      div_le_div_of_nonneg_right (by linarith) hl1.le
    linarith
  · have hlt12 : r2 < r1 := by
      by_contra hge
      refine hsorted r1 r2 c1 c2 k1 k2 (by omega) ?_
      rw [v1, v2, ofReal_lt]
      exact hlt
    rw [hS]
    have : (((r2 : ℤ) - r1 : ℤ) : ℝ) ≤ -1 := by exact_mod_cast (by omega : (r2 : ℤ) - r1 ≤ (-1 : ℤ))
    have h2 : 0.3 * (((r2 : ℤ) - r1 : ℤ) : ℝ) / ((s.p.lambda : ℝ) - 1) ≤ (-0.3) / ((s.p.lambda : ℝ) - 1) :=
      div_le_div_of_nonneg_right (by linarith) hl1.le
    rw [neg_div] at h2
    linarith

theorem tpaState_run {env : Env n} {s : Strat n} (hT : TpaState s) (k : ℕ) {t : Strat n} (h : s.generations env k = .ok t) :
    TpaState t ∧ t.p = s.p := by
  induction k generalizing t with
  | zero => injection h with h; subst h; exact ⟨hT, rfl⟩
  | succ k ih =>
    obtain ⟨t0, a1, a2⟩ := Strat.generations_succ_last k h
    obtain ⟨h1, h2⟩ := ih a1
    obtain ⟨h3, h4, -⟩ := h1.generation a2
    exact ⟨h3, h4.trans h2⟩

/-- The candidates that are not test points, separable model. -/
theorem TpaState.others {env : Env n} {s s1 : Strat n} {pop : List (Vec n)} (hT : TpaState s) (hsep : s.p.sep = true)
    (ha : s.ask env = .ok (pop, s1)) {r : ℕ} (hr : r < s.p.lambda) (h2 : s.niter = 0 ∨ 2 ≤ r) :
    pop[r]? = some fun i => s.sol.xmean i + s.sol.sigma * (Real.sqrt (s.sol.sepcov i) * env.z (s.nz + r) i) := by
  unfold Strat.ask at ha
  obtain ⟨t1, a1, ha⟩ := Out.bind_eq_ok.1 ha
  obtain ⟨⟨pop1, t2⟩, a2, ha⟩ := Out.bind_eq_ok.1 ha
  obtain ⟨⟨pop2, t3⟩, a3, ha⟩ := Out.bind_eq_ok.1 ha
  obtain ⟨⟨pop3, t4⟩, a4, ha⟩ := Out.bind_eq_ok.1 ha
  obtain ⟨pop4, a5, ha⟩ := Out.bind_eq_ok.1 ha
  injection ha with ha; injection ha with e6 e7
  subst e6 e7
  obtain ⟨es, ei, ue, e1⟩ := Strat.askPrepare_frame a1
  obtain ⟨e2, -⟩ := Strat.askSample_frame a2
  have ep : t2.p = s.p := by rw [e2, e1]
  unfold Strat.askGradient at a3
  simp only at a3
  rw [if_pos (by rw [ep]; exact hT.plain.grad)] at a3
  injection a3 with a3; injection a3 with e3 e4
  subst e3 e4
  unfold Strat.askSample at a2
  simp only at a2
  have hs1 : t1.p.sep = true := by rw [e1]; exact hsep
  rw [if_neg (by simp [hs1]), if_pos hs1] at a2
  injection a2 with a2; injection a2 with b1 b2
  have hes : t1.es.mean = s.sol.xmean ∧ ∀ i, t1.es.sepTransform i = Real.sqrt (s.sol.sepcov i) := by
    unfold Strat.askPrepare at a1
    rw [if_neg (by simp [hsep])] at a1
    split_ifs at a1 with a b
    injection a1 with a1
    subst a1
    exact ⟨rfl, fun _ => rfl⟩
  have hq : pop1[r]? = some fun i => s.sol.xmean i + s.sol.sigma * (Real.sqrt (s.sol.sepcov i) * env.z (s.nz + r) i) := by
    have hsg : t1.sol.sigma = s.sol.sigma := by rw [e1]
    have hnz : t1.nz = s.nz := by rw [e1]
    have hlm : t1.p.lambda = s.p.lambda := by rw [e1]
    rw [← b1]
    rw [← hlm] at hr
    simp only [List.map_map, List.getElem?_map, List.getElem?_range hr, Option.map_some, Function.comp]
    congr 1
    funext i
    simp only [Pi.add_apply, Pi.mul_apply, Pi.smul_apply, smul_eq_mul, hes.1, hes.2, hsg, hnz]
    ring
  have h3 : pop3[r]? = pop1[r]? := by
    unfold Strat.askTpa at a4
    simp only at a4
    by_cases g : t2.p.tpa = 2 ∧ t2.niter > 0
    · rw [if_pos g] at a4
      have hr2 : 2 ≤ r := by
        refine h2.resolve_left fun h => ?_
        have : t2.niter = s.niter := by rw [e2, e1]
        omega
      by_cases g1 : t2.sol.sigma = 0
      · rw [if_pos g1] at a4; cases a4
      rw [if_neg g1] at a4
      obtain ⟨nrm, -, a4⟩ := Out.bind_eq_ok.1 a4
      by_cases g3 : nrm = 0
      · rw [if_pos g3] at a4; cases a4
      have hw : t2.p.withGradient = false := by rw [ep]; exact hT.plain.grad
      rw [if_neg g3] at a4
      simp only [hw, Bool.false_eq_true, if_false] at a4
      split_ifs at a4 with g5
      injection a4 with a4
      injection a4 with c1 c2
      have q1 : t2.sol.tpaP1 = 0 := by rw [e2, e1]; exact hT.pos1
      have q2 : t2.sol.tpaP2 = 1 := by rw [e2, e1]; exact hT.pos2
      rw [← c1, q1, q2, List.getElem?_set_ne (by omega), List.getElem?_set_ne (by omega)]
    · rw [if_neg g] at a4
      injection a4 with a4
      injection a4 with c1 c2
      rw [c1]
  rw [hT.plain.fixed] at a5
  have h4 : pop4[r]? = pop3[r]? := by
    have hf := Out.mapM_eq_ok.1 a5
    have hl3 : r < pop3.length := by
      exact (List.getElem?_eq_some_iff.1 (h3.trans hq)).1
    have hl4 : r < pop4.length := by rw [← hf.length_eq]; exact hl3
    have := (List.forall₂_iff_get.1 hf).2 r hl3 hl4
    rw [setFixed_nil] at this
    injection this with this
    rw [List.getElem?_eq_getElem hl3, List.getElem?_eq_getElem hl4]
    exact congrArg some this.symm
  rw [h4, h3, hq]

/-- Where all draws are `-w`, the mean goes down in each generation. -/
theorem TpaState.goesDown {env : Env n} {s s' : Strat n} {w : Vec n} (hT : TpaState s) (hsep : s.p.sep = true)
    (hD : ∀ i, 0 < s.sol.sepcov i) (hw : w ≠ 0) (hz : ∀ j, env.z j = -w) {g : Vec n → FVal} {phi : ℝ → ℝ} (hmono : StrictMono phi)
    (hdet : ∀ k y, env.f k y = g y) (hF : Scores s.p g fun x => phi (w ⬝ᵥ x))
    (hm : 0 < s.niter → w ⬝ᵥ s.sol.xmean < w ⬝ᵥ s.sol.xmeanPrev) (h : s.generation env = .ok s') :
    w ⬝ᵥ s'.sol.xmean < w ⬝ᵥ s.sol.xmean := by
  obtain ⟨pop, s1, phen, s2, s3, ha, he, ht, e, hp2, hpl, hcl, -, -, hval⟩ := hT.values hdet hF h
  have hlam := hT.good.lambda
  have hmu := hT.good.mu
  -- all but the second candidate are below the mean
  have hgood : ∀ r x, r < s.p.lambda → r ≠ 1 → pop[r]? = some x → w ⬝ᵥ x < w ⬝ᵥ s.sol.xmean := by
    intro r x hr hr1 hx
    by_cases hc : s.niter = 0 ∨ 2 ≤ r
    · have := hT.others hsep ha hr hc
      rw [hx] at this
      injection this with this
      rw [this]
      have e1 : (w ⬝ᵥ fun i => s.sol.xmean i + s.sol.sigma * (Real.sqrt (s.sol.sepcov i) * env.z (s.nz + r) i)) =
          w ⬝ᵥ s.sol.xmean - s.sol.sigma * ∑ i, Real.sqrt (s.sol.sepcov i) * (w i * w i) := by
        unfold dotProduct
        rw [Finset.mul_sum, ← Finset.sum_sub_distrib]
        refine Finset.sum_congr rfl fun i _ => ?_
        rw [hz]
        simp only [Pi.neg_apply]
        ring
      have e2 : 0 < ∑ i, Real.sqrt (s.sol.sepcov i) * (w i * w i) := by
        obtain ⟨i, hi⟩ : ∃ i, w i ≠ 0 := by
          by_contra h0; push Not at h0; exact hw (funext h0)
        exact Finset.sum_pos' (fun j _ => mul_nonneg (Real.sqrt_nonneg _) (mul_self_nonneg _))
          ⟨i, Finset.mem_univ i, mul_pos (Real.sqrt_pos.2 (hD i)) (mul_self_pos.2 hi)⟩
      have := mul_pos hT.sigma e2
      linarith
    · push Not at hc
      have hr0 : r = 0 := by omega
      subst hr0
      obtain ⟨a, ha0, hx1, -⟩ := hT.points (by omega) ha (by rw [hz]; exact neg_ne_zero.2 hw)
      rw [hx] at hx1
      injection hx1 with hx1
      rw [hx1, dotProduct_add, dotProduct_smul, dotProduct_sub, smul_eq_mul]
      have := hm (by omega)
      nlinarith
  -- the ranked candidates
  have hrk : Ranked s2.sol.cands s3.sol.cands := by
    obtain ⟨cs', cu', su, ts, sol3, hs, hb, csq, hc, sc, ps, hs', pc, cov, sep, v, sg, xp, xm, mx, mn, lv, le, e'⟩ :=
      Strat.tell_frame ht
    obtain ⟨c0, ck, cl, med, h0, hk, hl, hmed, e3, _⟩ := Sol.updateBest_ok hb
    have hs1 := hs (by rw [hp2]; exact hT.plain.uh)
    have : s3.sol.cands = cs' := by rw [e', e3]
    rw [this]
    exact ranked_of_sorts (stableSort_eq_ok hs1).2
  have hids : (s2.sol.cands.map Cand.id).Nodup := by
    rw [List.nodup_iff_injective_get]
    intro i j hij
    have hi : i.val < s.p.lambda := lt_of_lt_of_eq i.2 (by rw [List.length_map, hcl])
    have hj : j.val < s.p.lambda := lt_of_lt_of_eq j.2 (by rw [List.length_map, hcl])
    obtain ⟨x, -, hx⟩ := hval _ hi
    obtain ⟨y, -, hy⟩ := hval _ hj
    have ex : (s2.sol.cands.map Cand.id).get i = (i.val : ℤ) := by
      have : (s2.sol.cands.map Cand.id)[i.val]? = some (i.val : ℤ) := by rw [List.getElem?_map, hx]; rfl
      rw [List.getElem?_eq_getElem i.2] at this
      injection this
    have ey : (s2.sol.cands.map Cand.id).get j = (j.val : ℤ) := by
      have : (s2.sol.cands.map Cand.id)[j.val]? = some (j.val : ℤ) := by rw [List.getElem?_map, hy]; rfl
      rw [List.getElem?_eq_getElem j.2] at this
      injection this
    rw [ex, ey] at hij
    exact Fin.ext (by exact_mod_cast hij)
  have hids' : (s3.sol.cands.map Cand.id).Nodup := ((hrk.perm.map Cand.id).nodup_iff).2 hids
  have hl3 : s3.sol.cands.length = s.p.lambda := by rw [hrk.perm.length_eq, hcl]
  -- a candidate that is not below the mean is the second one
  have hbad : ∀ c ∈ s3.sol.cands, c.fvalue = FVal.ofReal (phi (w ⬝ᵥ c.x)) ∧ (w ⬝ᵥ c.x < w ⬝ᵥ s.sol.xmean ∨ c.id = 1) := by
    intro c hc
    obtain ⟨q, hq⟩ := List.mem_iff_getElem?.1 (hrk.perm.mem_iff.1 hc)
    have hql : q < s.p.lambda := by
      have := (List.getElem?_eq_some_iff.1 hq).1
      omega
    obtain ⟨y, hy1, hy2⟩ := hval q hql
    rw [hq] at hy2
    injection hy2 with hy2
    rw [hy2]
    refine ⟨rfl, ?_⟩
    by_cases h1 : q = 1
    · right; subst h1; rfl
    · left; exact hgood q y hql h1 hy1
  have hK := (C25_mean_convex env s2 s3 (by rw [hp2]; exact hT.good.weights) ht).2 {x | w ⬝ᵥ x < w ⬝ᵥ s.sol.xmean}
    (convex_halfSpace_lt ⟨fun a b => dotProduct_add w a b, fun c a => dotProduct_smul c w a⟩ _) (by
    intro c hc
    show w ⬝ᵥ c.x < _
    obtain ⟨i, hi⟩ := List.mem_iff_getElem?.1 hc
    rw [List.getElem?_take] at hi
    split_ifs at hi with him
    rw [hp2] at him
    by_contra hcon
    have hmem : c ∈ s3.sol.cands := List.mem_iff_getElem?.2 ⟨i, hi⟩
    obtain ⟨v1, b1⟩ := hbad c hmem
    have hi1 : i + 1 < s3.sol.cands.length := by omega
    obtain ⟨v2, b2⟩ := hbad _ (List.getElem_mem hi1)
    have hil : i < s3.sol.cands.length := by omega
    have hci : s3.sol.cands[i] = c := by
      rw [List.getElem?_eq_getElem hil] at hi
      injection hi
    have hs := List.pairwise_iff_getElem.1 hrk.sorted i (i + 1) hil hi1 (by omega)
    rw [hci, v1, v2, ofReal_lt, hmono.lt_iff_lt] at hs
    have k1 := b1.resolve_left hcon
    have k2 := b2.resolve_left (by linarith)
    have := List.nodup_iff_injective_get.1 hids' (a₁ := ⟨i, by rw [List.length_map]; exact hil⟩)
      (a₂ := ⟨i + 1, by rw [List.length_map]; exact hi1⟩) (by
        simp only [List.get_eq_getElem, List.getElem_map, hci, k1, k2])
    simp at this)
  rw [e]
  exact hK

/-- Where all draws are `w`, the mean goes up in the first generation. -/
theorem TpaState.goesUp {env : Env n} {s s' : Strat n} {w : Vec n} (hT : TpaState s) (hsep : s.p.sep = true)
    (hD : ∀ i, 0 < s.sol.sepcov i) (hw : w ≠ 0) (hz : ∀ j, env.z j = w) (hn : s.niter = 0) (h : s.generation env = .ok s') :
    w ⬝ᵥ s.sol.xmean < w ⬝ᵥ s'.sol.xmean := by
  obtain ⟨pop, s1, phen, s2, s3, ha, hph, he, ht, e, hperm, hlen, hmem⟩ := generation_points hT.good hT.cands h
  obtain ⟨⟨es, ei, ue, c, nz, x1, x2, p1, p2, e1⟩, hpl⟩ := Strat.ask_frame ha
  obtain ⟨c2, nu, nzuh, lr, cu, cs, e2, _⟩ := Strat.eval_frame he
  have hp2 : s2.p = s.p := by rw [e2, e1]
  have href : s.elitistRef = none := by
    unfold Strat.elitistRef
    rw [hT.plain.elitistOnRestart, hT.plain.initialElitist, hT.plain.elitist]
    rfl
  have hall : ∀ x ∈ pop, w ⬝ᵥ s.sol.xmean < w ⬝ᵥ x := by
    intro x hx
    obtain ⟨r, hr⟩ := List.mem_iff_getElem?.1 hx
    have hrl : r < s.p.lambda := by rw [← hpl]; exact (List.getElem?_eq_some_iff.1 hr).1
    have := hT.others hsep ha hrl (Or.inl hn)
    rw [hr] at this
    injection this with this
    rw [this]
    have e1 : (w ⬝ᵥ fun i => s.sol.xmean i + s.sol.sigma * (Real.sqrt (s.sol.sepcov i) * env.z (s.nz + r) i)) =
        w ⬝ᵥ s.sol.xmean + s.sol.sigma * ∑ i, Real.sqrt (s.sol.sepcov i) * (w i * w i) := by
      unfold dotProduct
      rw [Finset.mul_sum, ← Finset.sum_add_distrib]
      refine Finset.sum_congr rfl fun i _ => ?_
      rw [hz]
      ring
    have e2 : 0 < ∑ i, Real.sqrt (s.sol.sepcov i) * (w i * w i) := by
      obtain ⟨i, hi⟩ : ∃ i, w i ≠ 0 := by
        by_contra h0; push Not at h0; exact hw (funext h0)
      exact Finset.sum_pos' (fun j _ => mul_nonneg (Real.sqrt_nonneg _) (mul_self_nonneg _))
        ⟨i, Finset.mem_univ i, mul_pos (Real.sqrt_pos.2 (hD i)) (mul_self_pos.2 hi)⟩
    have := mul_pos hT.sigma e2
    linarith
  have hK := (C25_mean_convex env s2 s3 (by rw [hp2]; exact hT.good.weights) ht).2 {x | w ⬝ᵥ s.sol.xmean < w ⬝ᵥ x}
    (convex_halfSpace_gt ⟨fun a b => dotProduct_add w a b, fun c a => dotProduct_smul c w a⟩ _) (by
    intro c hc
    have hc' : c ∈ s'.sol.cands := by rw [e]; exact List.mem_of_mem_take hc
    rcases hmem c hc' with h1 | h1
    · exact hall _ h1
    · rw [href] at h1; cases h1)
  rw [e]
  exact hK

/-- Separable search with two-point adaptation under default settings. -/
theorem sepTpa_new (env : Env n) (hn : 1 ≤ n) (x0 : Vec n) (sigma : ℝ) :
    ∃ (p : Params n) (s : Strat n), Configured p ∧ PlainTpa p ∧ p.sep = true ∧ p.gp = GenoPheno.plain ∧ p.maximize = false ∧
      Strat.new env .plain p = .ok s ∧ LiveCore s ∧ RefNum s := by
  obtain ⟨p0, hp, _⟩ := C11_weights hn x0 sigma (-1) 0 0 GenoPheno.plain
  obtain ⟨hu, hgp, hfx, -⟩ := usual_default (by norm_num) hp (kind := .plain) (by decide)
  obtain ⟨u1, u2, u3, u4, u5, u6, u7, u8, -⟩ := Params.make_plain hp
  have hst := (strictRates_default (by norm_num) hp).2
  have hc0 : Configured p0.setSep := .sep (.make hp) (Params.make_flags hp).1 (Params.make_flags hp).2
  set p := p0.setSep.setTpa 2 with hpd
  have hc : Configured p := .call (c := .tpa 2) hc0 (fun _ _ h => by cases h) rfl
  have hu' : UsualCore .plain p := ⟨hc, ⟨hst.1, hst.2⟩, by decide, hu.vd, hu.lazy, hu.grad, hu.initialElitist, hu.elitist⟩
  obtain ⟨s, hs⟩ := new_plain (env := env) (kind := .plain) (p := p) hgp hc.good.1
  obtain ⟨hL, hr⟩ := liveCore_new hu' hs
  exact ⟨p, s, hc, ⟨rfl, u2, u1, hfx, u5, u4, u6⟩, rfl, hgp, u8, hs, hL, hr⟩

end Libcmaes
