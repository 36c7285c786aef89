import Verif.Lemmas.SurrTotal

/-! # Generations of a simple surrogate strategy that use the model only -/

namespace Libcmaes

open Spec

variable {n : ℕ} {M : Type}

namespace Surr

/-- A generation that does not use the true objective: the candidates are the sampled points with predicted
values, in ascending order. -/
theorem quiet_generation {env : Env n} {sf : SurrFuncs n M} {g} {t t' : Surr n M} (hp : Pointwise sf g)
    (huh : t.s.p.uh = false) (hlen : t.s.sol.cands.length = t.s.p.lambda) (hlam : 1 ≤ t.s.p.lambda)
    (hq : t.trueEval = .ok false) (h : t.simpleGeneration env sf = .ok t') :
    ∃ (pop : List (Vec n)) (s1 : Strat n) (cs0 : List (Cand n)), t.s.ask env = .ok (pop, s1) ∧
      cs0.map (·.x) = pop ∧
      t'.s.sol.cands.Perm (predicted (g t.m t.tset { s1.sol with cands := cs0 }) cs0) ∧
      t'.s.sol.cands.Pairwise (fun a b => ¬ candLt b a) ∧
      t'.m = t.m ∧ t'.tset = t.tset ∧
      (∃ sol3 sol4 : Sol n, sol4.cands = t'.s.sol.cands ∧ sol4.bestSeen = t.s.sol.bestSeen ∧
        sol4.maxHist = t.s.sol.maxHist ∧
        sol4.updateBest = .ok sol3 ∧ t'.s.sol.bestSeen = sol3.bestSeen ∧ t'.s.sol.bestHist = sol3.bestHist) := by
  unfold simpleGeneration at h
  obtain ⟨⟨pop, s1⟩, hask, h⟩ := Out.bind_eq_ok.1 h
  obtain ⟨phen, hph, h⟩ := Out.bind_eq_ok.1 h
  obtain ⟨t2, hev, h⟩ := Out.bind_eq_ok.1 h
  obtain ⟨t3, htl, h⟩ := Out.bind_eq_ok.1 h
  injection h with h
  obtain ⟨⟨es, ei, ue, c0, nz, x1, x2, p1, p2, e1⟩, hpl⟩ := Strat.ask_frame hask
  have hq1 : ({ t with s := s1 } : Surr n M).trueEval = .ok false := by
    have : ({ t with s := s1 } : Surr n M).trueEval = t.trueEval := by
      unfold trueEval full
      rw [e1]
    rw [this, hq]
  unfold simpleEval at hev
  rw [hq1, Out.ok_bind, if_neg (by simp)] at hev
  have hc1 : s1.sol.cands = t.s.sol.cands := by rw [e1]
  obtain ⟨cs, h1, h2, h3, h4⟩ := exploitFold_pointwise hp pop.zipIdx
    (t := ({ t with s := s1 } : Surr n M).setCrit 10 false) (by
      intro q hq
      have := (List.mem_zipIdx hq).2.1
      show q.2 < s1.sol.cands.length
      rw [hc1, hlen]; omega)
  have hne : pop.zipIdx ≠ [] := by
    intro h
    have : pop.length = 0 := by rw [← List.length_zipIdx (l := pop) (i := 0), h]; rfl
    omega
  obtain ⟨cs0, h4⟩ := h4 hne
  rw [h1] at hev
  injection hev with hev
  have h3' : cs.map (·.x) = pop := by
    rw [h3]
    show pop.zipIdx.foldl (fun l q => l.set q.2 q.1) (s1.sol.cands.map (·.x)) = pop
    have := foldl_set_zipIdx pop (s1.sol.cands.map (·.x)) 0 [] rfl (by rw [List.length_map, hc1, hlen, hpl])
    simpa using this
  have hcs0 : cs0.map (·.x) = pop := by rw [← h3', h4, predicted_x]
  obtain ⟨s3, m, htl', e3⟩ := simpleTell_ok htl
  have hp2 : t2.s.p = t.s.p := by rw [← hev]; show s1.p = _; rw [e1]
  have hm : t3.m = t.m := by
    unfold simpleTell at htl
    rw [htl', Out.ok_bind] at htl
    obtain ⟨_, _, _, _, _, _, _, _, _, _, _, _, _, _, _, _, _, _, _, _, _, _, _, e'⟩ := Strat.tell_frame htl'
    have hn3 : s3.niter = t.s.niter := by rw [e', ← hev]; show s1.niter = _; rw [e1]
    have hdt : ({ t2 with s := s3 } : Surr n M).simpleDoTrain = .ok false := by
      have hx : t2.exploit = t.exploit := by rw [← hev]; rfl
      have ht : t2.tset = t.tset := by rw [← hev]; rfl
      have hl : t2.l = t.l := by rw [← hev]; rfl
      have hs : t2.nsteps = t.nsteps := by rw [← hev]; rfl
      unfold trueEval at hq
      split_ifs at hq with a b
      · exact absurd (Except.ok.inj hq) (by simp)
      replace hq := Except.ok.inj hq
      simp only [Bool.or_eq_false_iff, decide_eq_false_iff_not, Bool.not_eq_false'] at hq
      unfold simpleDoTrain full
      simp only [hx, ht, hl, hs, hn3]
      have h0 : (t.s.niter : ℕ) ≠ 0 := by
        intro h0
        apply hq.1
        rw [h0]; simp
      rw [if_neg (by simpa using fun h => absurd h (by simpa using a)), if_neg h0, if_neg b]
      congr 1
      simp [hq.1]
    simp only at htl
    rw [hdt, Out.ok_bind, if_neg (by simp)] at htl
    injection htl with htl
    rw [← htl, ← hev]; rfl
  have ht3 : t3.tset = t.tset := by rw [e3, ← hev]; rfl
  have hs3 : t3.s = s3 := by rw [e3]
  obtain ⟨cs', cu', su, ts, sol3, hsort, hb, csq, hc, sc, ps, hs', pc, cov, sep, v, sg, xp, xm, mx, mn, lv, le,
    e'⟩ := Strat.tell_frame htl'
  have hso := hsort (by rw [hp2]; exact huh)
  obtain ⟨_, _, _, _, _, _, _, _, eb, _⟩ := Sol.updateBest_ok hb
  have hc2 : t2.s.sol.cands = cs := by rw [← hev]
  have hct : t'.s.sol.cands = cs' := by rw [← h]; show t3.s.sol.cands = _; rw [hs3, e', eb]
  refine ⟨pop, s1, cs0, hask, hcs0, ?_, ?_, ?_, ?_, ?_⟩
  · rw [hct]
    refine (stableSort_eq_ok hso).2.perm.trans ?_
    rw [hc2, h4]
    exact List.Perm.refl _
  · rw [hct]; exact (stableSort_eq_ok hso).2.sorted
  · rw [← h]; exact hm
  · rw [← h]; exact ht3
  · refine ⟨sol3, _, ?_, ?_, ?_, hb, ?_, ?_⟩
    · rw [hct]
    · show t2.s.sol.bestSeen = _
      rw [← hev]; show s1.sol.bestSeen = _; rw [e1]
    · show t2.s.sol.maxHist = _
      rw [← hev]; show s1.sol.maxHist = _; rw [e1]
    · rw [← h]; show t3.s.sol.bestSeen = _; rw [hs3, e']
    · rw [← h]; show t3.s.sol.bestHist = _; rw [hs3, e']

/-- The error on points whose values are the predictions themselves. -/
theorem computeError_self {sf : SurrFuncs n M} {g} {t : Surr n M} {test : List (Cand n)} {e : Option ℝ}
    (hp : Pointwise sf g) (hk : 2 ≤ test.length) (hn : NoNaN test)
    (hv : ∀ c ∈ test, c.fvalue = g t.m t.tset t.s.sol c.x) (h : t.computeError sf test = .ok e) : e = some 0 := by
  obtain ⟨ctest, h1, h2, h3⟩ := computeError_pointwise hp (t := t) hk hn
  have hmap : (ctest.map fun c => ({ c with fvalue := g t.m t.tset t.s.sol c.x } : Cand n)) = ctest := by
    rw [List.map_congr_left (g := id) (fun c hc => by rw [← hv c (h1.mem_iff.1 hc)]; rfl), List.map_id]
  have hd : ∀ l : List (Cand n), NoNaN l → l.Pairwise (fun a b => ¬ FVal.lt a.fvalue b.fvalue) → disorder l = 0 := by
    intro l hl hs
    induction l with
    | nil => rfl
    | cons c r ih =>
      obtain ⟨q1, q2⟩ := List.pairwise_cons.1 hs
      unfold disorder
      rw [ih (fun d hd => hl d (by simp [hd])) q2]
      rw [List.filter_eq_nil_iff.2]
      · rfl
      intro d hd
      have hc := hl c (by simp)
      have hd' := hl d (by simp [hd])
      have := q1 d hd
      simp only [decide_eq_true_eq, not_not]
      cases hcv : c.fvalue with
      | nan => rw [hcv] at hc; exact absurd hc (by simp [FVal.IsNum])
      | num a =>
        cases hdv : d.fvalue with
        | nan => rw [hdv] at hd'; exact absurd hd' (by simp [FVal.IsNum])
        | num b =>
          rw [hcv, hdv] at this
          simpa [FVal.lt, FVal.le] using this
  rw [h] at h3
  injection h3 with h3
  rw [h3, hmap, hd ctest (fun c hc => hn c (h1.mem_iff.1 hc)) h2]
  simp

/-- Three generations, with two steps between trainings and room for one population in the training set: the model
is used in the second. -/
theorem three_turns {env : Env n} {sf : SurrFuncs n M} {g} {kind : CovKind} {p : Params n} {m : M} {t : Surr n M}
    (hu : Usual kind p) (hS : Sane env sf g) (hgp : ∀ x : Vec n, ∃ y, phenoV p.gp x = .ok y)
    (h : SimpleStart env kind p m t) (hl : t.l = p.lambda) (hns : t.nsteps = 2)
    (hx : t.exploit = true) :
    ∃ (t1 t2 t3 : Surr n M) (c1 c2 c3 : List (Vec n × FVal)), t.simpleGeneration env sf = .ok t1 ∧
      t1.simpleGeneration env sf = .ok t2 ∧ t2.simpleGeneration env sf = .ok t3 ∧ SimpleLive t1 ∧ SimpleLive t2 ∧
      SimpleLive t3 ∧ SimpleStep sf t t1 true c1 ∧ SimpleStep sf t1 t2 false c2 ∧ SimpleStep sf t2 t3 true c3 ∧
      t1.tset.length = p.lambda := by
  obtain ⟨⟨s, cr, hs, e, _⟩, _, ht0, _⟩ := simpleStart_ok h
  obtain ⟨_, _, _, hsp, _, _, hsn, _⟩ := Strat.new_ok hs
  have hp : t.s.p.gp = p.gp := by rw [e]; show s.p.gp = _; rw [hsp]
  have hlam : t.s.p.lambda = p.lambda := by rw [e]; show s.p.lambda = _; rw [hsp]
  have hn0 : t.s.niter = 0 := by rw [e]; exact hsn
  have honly := onlyValues_of_pointwise hS.predict
  have hL := simpleLive_start hu h
  have step : ∀ u : Surr n M, SimpleLive u → u.s.p.gp = p.gp → ∃ u' b c, u.simpleGeneration env sf = .ok u' ∧
      SimpleLive u' ∧ SimpleStep sf u u' b c := by
    intro u hu hup
    obtain ⟨u', h1, h2⟩ := simpleGeneration_total hS (by rw [hup]; exact hgp) hu
    obtain ⟨b, c, h3⟩ := simpleGeneration_step honly hu.live.uh hu.live.grad hu.live.cands h1
    exact ⟨u', b, c, h1, h2, h3⟩
  obtain ⟨t1, b1, c1, g1, L1, s1⟩ := step t hL hp
  have p1 : t1.s.p.gp = p.gp := by rw [s1.p]; exact hp
  obtain ⟨t2, b2, c2, g2, L2, s2⟩ := step t1 L1 p1
  have p2 : t2.s.p.gp = p.gp := by rw [s2.p]; exact p1
  obtain ⟨t3, b3, c3, g3, L3, s3⟩ := step t2 L2 p2
  have hb1 : b1 = true := by
    have := s1.trueEval
    unfold trueEval at this
    rw [if_neg (by simp [hx]), if_neg (by rw [hns]; norm_num), hn0] at this
    have := Except.ok.inj this
    rw [← this]; simp
  subst hb1
  obtain ⟨_, added, a1, _, a2, _, _, a4, _⟩ := s1.busy rfl
  have hns1 : t1.nsteps = 2 := by rw [(a4 (fun h => h.1 hn0)).2]; exact hns
  have hts : t1.tset.length = p.lambda := by
    rw [a2, ht0]
    have := foldl_push (l := t.l) (h := ([] : List (Cand n))) added
    rw [lastN_self (by simp)] at this
    rw [this, List.nil_append, length_lastN, a1, hL.live.cands, hlam, hl]
    simp
  have hb2 : b2 = false := by
    have := s2.trueEval
    unfold trueEval at this
    rw [if_neg (by rw [s1.exploit]; simp [hx]), if_neg (by rw [hns1]; norm_num), hns1, s1.niter, hn0] at this
    have := Except.ok.inj this
    rw [← this]
    have hf : t1.full = true := by unfold full; rw [hts, s1.l, hl]; simp
    rw [hf]
    decide
  subst hb2
  have hb3 : b3 = true := by
    have := s3.trueEval
    obtain ⟨_, _, _, q⟩ := s2.quiet rfl
    unfold trueEval at this
    rw [if_neg (by rw [s2.exploit, s1.exploit]; simp [hx]), if_neg (by rw [q, hns1]; norm_num), q, hns1, s2.niter,
      s1.niter, hn0] at this
    have := Except.ok.inj this
    rw [← this]
    simp
  subst hb3
  exact ⟨t1, t2, t3, c1, c2, c3, g1, g2, g3, L1, L2, L3, s1, s2, s3, hts⟩

end Surr

end Libcmaes
