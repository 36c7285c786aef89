import Verif.Spec.Sampling
import Verif.Lemmas.Points
import Verif.Lemmas.Optimize
import Verif.Props.Distribution

/-! # Fixed coordinates over whole runs -/

namespace Libcmaes

open Spec

variable {n : ℕ}

theorem convex_fixedAt (p : Params n) : Convex ℝ {x | FixedAt p x} := by
  intro x hx y hy a b _ _ hab i v hv
  have h1 := hx i v hv
  have h2 := hy i v hv
  simp only [Pi.add_apply, Pi.smul_apply, smul_eq_mul, h1, h2]
  rw [← add_mul, hab, one_mul]

/-- What holds between runs. -/
structure FixBase (fp : List (ℕ × ℝ)) (s : Strat n) : Prop where
  good : GoodParams s.p
  unscaled : s.p.gp.scale = .noScaling
  fixed : s.p.fixedP = fp
  mean : FixedAt s.p s.sol.xmean
  seen : ∀ c, s.sol.bestSeen = some c → FixedAt s.p c.x
  init : ∀ c, s.sol.initialCand = some c → FixedAt s.p c.x

/-- What holds during a run. -/
structure FixInv (fp : List (ℕ × ℝ)) (s : Strat n) : Prop extends FixBase fp s where
  cands : s.sol.cands.length = s.p.lambda

theorem initialMean_fixed {p : Params n} {r m : Vec n} (hsc : p.gp.scale = .noScaling)
    (hd : (p.fixedP.map Prod.fst).Nodup) (h : initialMean p r = .ok m) : FixedAt p m := by
  unfold initialMean at h
  obtain ⟨m1, h1, h⟩ := Out.bind_eq_ok.1 h
  unfold scaleToInternalV at h
  rw [hsc] at h
  injection h with h
  subst h
  exact fun i v hv => setFixed_of_mem h1 hd i v hv

/-- Starting over keeps the fixed coordinates. -/
theorem fixInv_make {fp : List (ℕ × ℝ)} {s : Strat n} {p q : Params n} {r z : Vec n} {sol : Sol n}
    (hg : GoodParams p) (hsc : p.gp.scale = .noScaling) (hf : p.fixedP = fp)
    (h : Sol.make p r z = .ok (q, sol)) (hp : s.p = q) (h1 : s.sol.xmean = sol.xmean)
    (h2 : s.sol.bestSeen = sol.bestSeen) (h3 : s.sol.initialCand = sol.initialCand)
    (h4 : s.sol.cands = sol.cands) : FixInv fp s := by
  obtain ⟨a1, a2, a3, a4, a5, a6, a7, a8, a9, _⟩ := Sol.make_eq_ok h
  rw [a6] at hp
  refine ⟨⟨?_, ?_, ?_, ?_, ?_, ?_⟩, ?_⟩
  · rw [hp]; exact hg.same ⟨rfl, rfl, rfl, rfl, rfl, rfl, rfl, rfl, rfl, rfl, rfl, rfl, rfl, rfl, rfl, rfl, rfl⟩
  · rw [hp]; exact hsc
  · rw [hp]; exact hf
  · rw [hp, h1]; exact initialMean_fixed hsc hg.fixed_nodup a1
  · intro c hc; rw [h2, a4.bestSeen] at hc; cases hc
  · intro c hc; rw [h3, a9] at hc; cases hc
  · rw [hp, h4]; exact a4.cands

theorem FixInv.generation {fp : List (ℕ × ℝ)} {env : Env n} {s s' : Strat n} (hi : FixInv fp s)
    (h : s.generation env = .ok s') : FixInv fp s' ∧ ∀ c ∈ s'.sol.cands, FixedAt s'.p c.x := by
  obtain ⟨pop, s1, phen, s2, s3, ha, hph, he, ht, e, hperm, hlen, hpts⟩ := generation_points hi.good hi.cands h
  obtain ⟨tr, hrun⟩ := Strat.generation_run h
  have hp := (run_p hrun).1
  have hpop : ∀ x ∈ pop, FixedAt s.p x := by
    intro x hx i v hv
    unfold Strat.ask at ha
    obtain ⟨t1, h1, ha⟩ := Out.bind_eq_ok.1 ha
    obtain ⟨⟨pop1, t2⟩, h2, ha⟩ := Out.bind_eq_ok.1 ha
    obtain ⟨⟨pop2, t3⟩, h3, ha⟩ := Out.bind_eq_ok.1 ha
    obtain ⟨⟨pop3, t4⟩, h4, ha⟩ := Out.bind_eq_ok.1 ha
    obtain ⟨pop4, h5, ha⟩ := Out.bind_eq_ok.1 ha
    injection ha with ha; injection ha with h6 h7
    subst h6
    obtain ⟨y, _, hy⟩ := Out.mapM_mem h5 hx
    exact setFixed_of_mem hy hi.good.fixed_nodup i v hv
  have hcs : ∀ c ∈ s'.sol.cands, FixedAt s.p c.x := by
    intro c hc
    rcases hpts c hc with h | h
    · exact hpop _ h
    · rcases elitistRef_mem h with h | h
      · exact hi.seen c h
      · exact hi.init c h
  obtain ⟨⟨es, ei, ue, c, nz, x1, x2, p1, p2, e1⟩, hpl⟩ := Strat.ask_frame ha
  obtain ⟨c2, nu, nzuh, lr, cu, cs, e2, hcs2, _⟩ := Strat.eval_frame he
  have hp2 : s2.p = s.p := by rw [e2, e1]
  have hmean := (C25_mean_convex env s2 s3 (by rw [hp2]; exact hi.good.weights) ht).2 {x | FixedAt s.p x}
    (convex_fixedAt s.p) (fun c hc => hcs c (by rw [e]; exact List.mem_of_mem_take hc))
  obtain ⟨cs', cu', su, ts, sol3, hs, hb, csq, hc, sc, ps, hs', pc, cov, sep, v, sg, xp, xm, mx, mn, lv, le,
    e3⟩ := Strat.tell_frame ht
  obtain ⟨c0, ck, cl, med, _, _, _, _, eb, _⟩ := Sol.updateBest_ok hb
  refine ⟨⟨⟨?_, ?_, ?_, ?_, ?_, ?_⟩, ?_⟩, ?_⟩
  · rw [hp]; exact hi.good
  · rw [hp]; exact hi.unscaled
  · rw [hp]; exact hi.fixed
  · rw [hp, e]; exact hmean
  · intro c hc
    rw [hp]
    have : s'.sol.bestSeen = sol3.bestSeen := by rw [e, e3]; rfl
    rw [this] at hc
    rcases (updateBest_seen hb).2 c hc with h | h
    · refine hcs c ?_
      have : s'.sol.cands = cs' := by rw [e, e3, eb]; rfl
      rw [this]; exact h
    · refine hi.seen c ?_
      have : s2.sol.bestSeen = s.sol.bestSeen := by rw [e2, e1]
      rw [← this]; exact h
  · intro c hc
    rw [hp]
    refine hi.init c ?_
    have : s'.sol.initialCand = s.sol.initialCand := by rw [e, e3, eb, e2, e1]; rfl
    rw [← this]; exact hc
  · rw [hp]; exact hlen
  · rw [hp]; exact hcs

theorem FixInv.optimize {fp : List (ℕ × ℝ)} {env : Env n} (k : ℕ) {s s' : Strat n} (hi : FixInv fp s)
    (h : s.optimize env k = .ok (some s')) : FixInv fp s' := by
  refine Strat.optimize_induct_gen ?_ ?_ ?_ ?_ ?_ k hi h
  · intro s s' hi h
    rcases Strat.evalInitial_frame h with e | ⟨y, v, hy, _, e⟩
    · rw [e]; exact hi
    · rw [e]
      refine ⟨⟨hi.good, hi.unscaled, hi.fixed, hi.mean, ?_, ?_⟩, hi.cands⟩
      · intro c hc; injection hc with hc; subst hc; exact hi.mean
      · intro c hc; injection hc with hc; subst hc; exact hi.mean
  · intro s b s' hi h
    obtain ⟨k, r, e⟩ := Strat.stop_frame h
    rw [e]; exact ⟨⟨hi.good, hi.unscaled, hi.fixed, hi.mean, hi.seen, hi.init⟩, hi.cands⟩
  · intro s s' hi h; exact (hi.generation h).1
  · intro s s' hi _ h
    obtain ⟨c, ed, e⟩ := Strat.edm_frame h
    rw [e]; exact ⟨⟨hi.good, hi.unscaled, hi.fixed, hi.mean, hi.seen, hi.init⟩, hi.cands⟩
  · intro s s' hi h
    obtain ⟨b, p, sol, hb, hm, e⟩ := Strat.elitistRestart_ok h
    refine fixInv_make (p := { s.p with x0min := b.x, x0max := b.x }) ?_ hi.unscaled hi.fixed hm (by rw [e])
      (by rw [e]) (by rw [e]) (by rw [e]) (by rw [e])
    exact hi.good.same ⟨rfl, rfl, rfl, rfl, rfl, rfl, rfl, rfl, rfl, rfl, rfl, rfl, rfl, rfl, rfl, rfl, rfl⟩

theorem FixBase.reset {fp : List (ℕ × ℝ)} {env : Env n} {s s' : Strat n} (hi : FixBase fp s)
    (h : s.resetSearchState env = .ok s') : FixInv fp s' := by
  obtain ⟨p, sol, hm, e⟩ := Strat.resetSearchState_ok h
  exact fixInv_make hi.good hi.unscaled hi.fixed hm (by rw [e]) (by rw [e]) (by rw [e]) (by rw [e]) (by rw [e])

theorem FixBase.param {fp : List (ℕ × ℝ)} {s : Strat n} {q : Params n} (hi : FixBase fp s)
    (h : Bipop.ParamStep s.p q) : FixBase fp { s with p := q } := by
  have hg : GoodParams q := by
    cases h with
    | init lam sg h => exact goodParams_init h hi.good.fixOk
    | sigma sg => exact hi.good.same ⟨rfl, rfl, rfl, rfl, rfl, rfl, rfl, rfl, rfl, rfl, rfl, rfl, rfl, rfl, rfl, rfl, rfl⟩
    | budget m => exact hi.good.same ⟨rfl, rfl, rfl, rfl, rfl, rfl, rfl, rfl, rfl, rfl, rfl, rfl, rfl, rfl, rfl, rfl, rfl⟩
    | pop => exact hi.good.same ⟨rfl, hi.good.mu.symm, rfl, rfl, rfl, rfl, rfl, rfl, rfl, rfl, rfl, rfl, rfl, rfl, rfl, rfl, rfl⟩
  obtain ⟨_, _, _, _, _, _, _, _, _, _, _, _, _, _, _, _, _, e⟩ := h.frame
  have hf : q.fixedP = s.p.fixedP := by rw [e]
  have hfa : ∀ x, FixedAt s.p x → FixedAt q x := by
    intro x hx i v hv
    rw [hf] at hv; exact hx i v hv
  exact ⟨hg, by rw [e]; exact hi.unscaled, hf.trans hi.fixed, hfa _ hi.mean, fun c h => hfa _ (hi.seen c h),
    fun c h => hfa _ (hi.init c h)⟩

theorem FixInv.new {env : Env n} {kind : CovKind} {p : Params n} {s : Strat n} (hg : GoodParams p)
    (hsc : p.gp.scale = .noScaling) (h : Strat.new env kind p = .ok s) : FixInv p.fixedP s := by
  unfold Strat.new at h
  obtain ⟨⟨p', sol⟩, hm, h⟩ := Out.bind_eq_ok.1 h
  injection h with h
  exact fixInv_make hg hsc rfl hm (by rw [← h]) (by rw [← h]) (by rw [← h]) (by rw [← h]) (by rw [← h])

end Libcmaes
