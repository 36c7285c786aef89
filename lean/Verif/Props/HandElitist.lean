import Verif.Props.HandLoop
import Verif.Spec.Setters

/-!
# C111, elitism in a loop written by hand
-/

namespace Libcmaes

open Matrix Spec

variable {n : ℕ}

/-- **C111** is false with `set_elitism(2)`: the point to be reinjected is recorded by `optimize()` only, so in a loop written by
hand each `eval()` of two or more points after the first generation injects an empty candidate, whatever the objective returns. -/
theorem C111_elitist_false (env : Env n) (kind : CovKind) (p : Params n) (s t : Strat n) (tr : List (List (Cand n)))
    (cols phen : List (Vec n)) (hel : ElitismMode p 2) (huh : p.uh = false) (h0 : Strat.new env kind p = .ok s)
    (hr : Run env s tr t) (htr : tr ≠ []) (h2 : 2 ≤ cols.length) (hm : cols.length ≤ t.sol.cands.length)
    (hp : phen ≠ [] → phen.length = cols.length) : t.eval env cols phen = .error .ub := by
  obtain ⟨h1, h2', h3, h4, h5, h6, h7, h8, h9, h10, h11, h12, h13, h14, h15, h16, h17, h18, h19, h20⟩ := Strat.new_ok h0
  obtain ⟨q1, -, -, q4, -, -, -, -, -, q10⟩ := run_p hr
  have hie : t.p.initialElitist = true := by rw [q1, h4]; exact hel.2.1.2 rfl
  have hn : t.niter > 0 := by
    rw [q4, h7]
    have := List.length_pos_iff.2 htr
    omega
  unfold Strat.eval
  rw [Strat.eval_loop hm fun h => (hp h).ge, Out.ok_bind, if_neg (by simp [Strat.evaluated, show t.p.uh = false by rw [q1, h4]; exact huh])]
  have key : ∀ u : Strat n, u.p = t.p → u.niter = t.niter → u.sol.initialCand = t.sol.initialCand →
      cols.length ≤ u.sol.cands.length → u.reinject cols.length = .error .ub := by
    intro u e1 e2 e3 e4
    have href : u.elitistRef = none := by
      unfold Strat.elitistRef
      rw [if_pos (by rw [e1, hie]; simp), e3, q10, h17]
    unfold Strat.reinject
    rw [if_pos (by unfold Strat.elitismOn; rw [e1, e2, hie]; simp [hn]), if_neg (by omega)]
    have hi : u.improvers cols.length = 0 := by
      unfold Strat.improvers Strat.elitistRefValue
      rw [href, List.length_eq_zero_iff, List.filter_eq_nil_iff]
      intro c _
      rw [decide_eq_true_eq]
      cases c.fvalue <;> exact id
    rw [if_pos (by omega), href]
  show ((t.evaluated env cols phen).reinject cols.length >>= fun s3 => pure (s3.updateFevals cols.length)) = _
  rw [key (t.evaluated env cols phen) rfl rfl rfl (by rw [Strat.evaluated_length]; exact hm)]
  rfl

/-- A case: separable search under default settings with `set_elitism(2)` on any objective that does not return NaN; the first
turn of the loop succeeds, the second `eval()` is undefined behaviour. -/
theorem C111_elitist_case (env : Env n) (hn : 1 ≤ n) (x0 : Vec n) (sigma : ℝ) (hf : ∀ k y, (env.f k y).IsNum) :
    ∃ (p : Params n) (s t t1 : Strat n) (pop phen : List (Vec n)), Configured p ∧ ElitismMode p 2 ∧
      Strat.new env .plain p = .ok s ∧ s.generation env = .ok t ∧ t.ask env = .ok (pop, t1) ∧ t1.phenoCols pop = .ok phen ∧
      t1.eval env pop phen = .error .ub := by
  obtain ⟨p0, hp, _⟩ := C11_weights hn x0 sigma (-1) 0 0 GenoPheno.plain
  obtain ⟨hu, hgp, hfx, -⟩ := usual_default (by norm_num) hp (kind := .plain) (by decide)
  obtain ⟨u1, u2, u3, u4, u5, u6, u7, u8, -⟩ := Params.make_plain hp
  have hst := (strictRates_default (by norm_num) hp).2
  have hc0 : Configured p0.setSep := .sep (.make hp) (Params.make_flags hp).1 (Params.make_flags hp).2
  set p := p0.setSep.setElitism 2 with hpd
  have hpe : p = { p0.setSep with initialElitist := true, elitist := false, initialElitistOnRestart := false } := by
    rw [hpd]; simp [Params.setElitism]
  have hc : Configured p := by
    rw [hpe]
    exact .other hc0 ⟨rfl, rfl, rfl, rfl, rfl, rfl, rfl, rfl, rfl, rfl, rfl, rfl, rfl, rfl, rfl, rfl, rfl⟩
  have hel : ElitismMode p 2 := by rw [hpe]; simp [ElitismMode]
  have hgp' : p.gp = GenoPheno.plain := by rw [hpe]; exact hgp
  obtain ⟨s, hs⟩ := new_plain (env := env) (kind := .plain) (p := p) hgp' hc.good.1
  obtain ⟨h1, h2, h3, h4, h5, h6, h7, h8, h9, h10, h11, h12, h13, h14, h15, h16, h17, h18, h19, h20⟩ := Strat.new_ok hs
  have hg : GoodParams s.p := by rw [h4]; exact hc.with_sigmaInit _
  have hl := hg.lambda
  have hsep : s.p.sep = true := by rw [h4, hpe]; rfl
  have hvd : s.p.vd = false := by rw [h4, hpe]; exact hu.vd
  have hgr : s.p.withGradient = false := by rw [h4, hpe]; exact u2
  have huh : s.p.uh = false := by rw [h4, hpe]; exact u1
  have htpa : s.p.tpa ≠ 2 := by rw [h4, hpe]; exact u3
  have hgps : s.p.gp = GenoPheno.plain := by rw [h4]; exact hgp'
  have hlam : s.p.lambda = p.lambda := by rw [h4]
  have hD : s.sol.hasSep = true ∧ ∀ i, 0 < s.sol.sepcov i := by
    refine ⟨?_, fun i => by rw [h6.sepcov i]; norm_num⟩
    rw [h12, hpe]; rfl
  have hlen : s.sol.cands.length = s.p.lambda := by rw [hlam]; exact h6.cands
  have hph : ∀ (u : Strat n) (pop : List (Vec n)), u.p = s.p → u.phenoCols pop = .ok pop := by
    intro u pop hup
    unfold Strat.phenoCols
    rw [hup, hgps]
    have e : (fun x : Vec n => phenoV GenoPheno.plain x) = fun x => .ok (id x) := funext fun x => phenoV_plain x
    show pop.mapM (fun x : Vec n => phenoV GenoPheno.plain x) = _
    rw [e, mapM_ok, List.map_id]
  -- the first turn
  obtain ⟨pop, s1, ha, -⟩ := Strat.ask_total (env := env) (s := s) ⟨hg.fixed_lt, hvd, hgr, (fun h => by rw [hsep] at h; cases h),
    fun _ => hD, fun h => absurd h htpa⟩
  obtain ⟨⟨es, ei, ue, c, nz, x1, x2, p1, p2, e1⟩, hpl⟩ := Strat.ask_frame ha
  have hoff : s1.elitismOn = false := by rw [e1]; unfold Strat.elitismOn; simp [h7]
  obtain ⟨s2, he⟩ := Strat.eval_total (env := env) (s := s1) (cols := pop) (phen := pop) (by rw [e1]; exact huh)
    (by rw [e1]; exact hl) (by rw [e1]; exact hlen) (by rw [hpl, e1]) (by rw [hpl, e1]) (fun h => by rw [hoff] at h; cases h)
  have hnn : NoNaN s2.sol.cands := eval_noNaN (by rw [e1]; exact huh) (by rw [hpl, e1]; exact hlen.le) hf
    ⟨(fun c hc => by rw [e1] at hc; rw [show s.sol.bestSeen = none from h6.bestSeen] at hc; cases hc),
      fun c hc => by rw [e1] at hc; rw [show s.sol.initialCand = none from h17] at hc; cases hc⟩ he
  obtain ⟨c2, nu, nzuh, lr, cu, cs, e2, hcs, _⟩ := Strat.eval_frame he
  have hp2 : s2.p = s.p := by rw [e2, e1]
  obtain ⟨s3, ht⟩ := Strat.tell_total (env := env) (s := s2) (by rw [hp2]; exact hg)
    (by rw [hp2, h4, hpe]; exact ⟨hst.1, hst.2⟩) (by rw [e2, e1]; show s.kind ≠ _; rw [h3]; decide) (by rw [hp2]; exact hvd)
    (by rw [hp2]; exact huh) (by rw [e2, e1]; exact h14) (by rw [e2, e1]; exact h5)
    (by rw [hp2, e2]; show cs.length = _; rw [hcs, e1]; exact hlen)
    (by rw [hp2, e2, e1]; show s.sol.kcand < _; rw [h16, hlam]; exact kcandOf_lt (by rw [← hlam]; exact hl))
    (fun _ => by rw [e2, e1]; exact hD) (fun h => by rw [hp2, hsep] at h; cases h) (strictWeakOn_of_noNaN hnn)
  have hgen : s.generation env = .ok s3.incIter := by
    unfold Strat.generation
    rw [ha, Out.ok_bind]
    simp only
    rw [hph s1 pop (by rw [e1]), Out.ok_bind, he, Out.ok_bind, ht]
    rfl
  have hrun : AskRun env s [s2.sol.cands] s3.incIter := .turn ha he ht (.refl _)
  obtain ⟨q1, -, -, q4, -⟩ := run_p hrun.run
  obtain ⟨_, _, _, _, _, _, _, _, _, _, _, hlen', _⟩ := generation_points hg hlen hgen
  have hD' : s3.incIter.sol.hasSep = true ∧ ∀ i, 0 < s3.incIter.sol.sepcov i := by
    refine ⟨?_, C29_sep_pos env s s3.incIter _ (by rw [h3]; decide) hg (by rw [h4, hpe]; exact ⟨hst.1, hst.2⟩) hsep hD.2 hrun.run⟩
    obtain ⟨cs', cu', su, ts, sol3, hs, hb, csq, hc, sc, ps, hs', pc, cov, sep, v, sg, xp, xm, mx, mn, lv, le, e'⟩ :=
      Strat.tell_frame ht
    obtain ⟨c0, ck, cl, med, _, _, _, _, e3, _⟩ := Sol.updateBest_ok hb
    show s3.sol.hasSep = true
    rw [e', e3, e2, e1]
    exact hD.1
  obtain ⟨pop', t1, ha', -⟩ := Strat.ask_total (env := env) (s := s3.incIter) ⟨by rw [q1]; exact hg.fixed_lt, by rw [q1]; exact hvd,
    by rw [q1]; exact hgr, (fun h => by rw [q1, hsep] at h; cases h), fun _ => hD', (fun h => by rw [q1] at h; exact absurd h htpa)⟩
  obtain ⟨⟨es', ei', ue', c', nz', x1', x2', p1', p2', e1'⟩, hpl'⟩ := Strat.ask_frame ha'
  have hp1 : t1.p = s.p := by rw [e1']; exact q1
  refine ⟨p, s, s3.incIter, t1, pop', pop', hc, hel, hs, hgen, ha', hph t1 pop' hp1, ?_⟩
  refine C111_elitist_false env .plain p s t1 _ pop' pop' hel (by rw [h4] at huh; exact huh) hs
    (.ask ha <| .turn he ht (.ask ha' (.refl _))) (by simp) ?_ ?_ fun _ => rfl
  · rw [hpl', q1]; exact hl
  · rw [hpl', e1', q1]; exact hlen'.ge

end Libcmaes
