import Verif.Lemmas.FixInv
import Verif.Lemmas.Calls

/-! # Fixed coordinates at the calls of the objective -/

namespace Libcmaes

open Spec

variable {n : ℕ}

/-- The transform does not touch the fixed coordinates. -/
def PhenoKeeps (p : Params n) : Prop := ∀ x y, phenoV p.gp x = .ok y → FixedAt p x → FixedAt p y

/-- `FixBase` with the calls made so far. -/
structure FixCalls (p0 : Params n) (s : Strat n) : Prop where
  geno : s.p.gp = p0.gp
  fp : s.p.fixedP = p0.fixedP
  uh : s.p.uh = false
  grad : s.p.withGradient = false
  edm : s.p.withEdm = false
  keeps : PhenoKeeps p0
  calls : CallsIn (FixedAt p0) s

theorem FixCalls.p {p0 : Params n} {s s' : Strat n} (h : FixCalls p0 s) (h1 : s'.p.gp = s.p.gp)
    (h0 : s'.p.fixedP = s.p.fixedP)
    (h2 : s'.p.uh = s.p.uh) (h3 : s'.p.withGradient = s.p.withGradient) (h4 : s'.p.withEdm = s.p.withEdm)
    (hc : CallsIn (FixedAt p0) s') : FixCalls p0 s' :=
  ⟨h1.trans h.geno, h0.trans h.fp, h2.trans h.uh, h3.trans h.grad, h4.trans h.edm, h.keeps, hc⟩

theorem FixCalls.fixed {p0 : Params n} {s : Strat n} (h : FixCalls p0 s) {x : Vec n} :
    FixedAt s.p x ↔ FixedAt p0 x := by
  unfold FixedAt
  rw [h.fp]

theorem FixCalls.generation {fp : List (ℕ × ℝ)} {p0 : Params n} {env : Env n} {s s' : Strat n}
    (hb : FixInv fp s) (hi : FixCalls p0 s) (h : s.generation env = .ok s') : FixCalls p0 s' := by
  obtain ⟨tr, hr⟩ := Strat.generation_run h
  have hp := (run_p hr).1
  refine hi.p (by rw [hp]) (by rw [hp]) (by rw [hp]) (by rw [hp]) (by rw [hp]) ?_
  unfold Strat.generation at h
  obtain ⟨⟨pop, s1⟩, ha, h⟩ := Out.bind_eq_ok.1 h
  obtain ⟨phen, hph, h⟩ := Out.bind_eq_ok.1 h
  obtain ⟨s2, he, h⟩ := Out.bind_eq_ok.1 h
  obtain ⟨s3, ht, h⟩ := Out.bind_eq_ok.1 h
  injection h with h
  obtain ⟨⟨es, ei, ue, c, nz, x1, x2, p1, p2, e1⟩, hpl⟩ := Strat.ask_frame ha
  have hp1 : s1.p = s.p := by rw [e1]
  have hpop : ∀ x ∈ pop, FixedAt s.p x := by
    intro x hx i v hv
    unfold Strat.ask at ha
    obtain ⟨t1, h1, ha⟩ := Out.bind_eq_ok.1 ha
    obtain ⟨⟨pop1, t2⟩, h2, ha⟩ := Out.bind_eq_ok.1 ha
    obtain ⟨⟨pop2, t3⟩, h3, ha⟩ := Out.bind_eq_ok.1 ha
    obtain ⟨⟨pop3, t4⟩, h4, ha⟩ := Out.bind_eq_ok.1 ha
    obtain ⟨pop4, h5, ha⟩ := Out.bind_eq_ok.1 ha
    injection ha with ha; injection ha with h6 h7
    subst h6
    obtain ⟨y, _, hy⟩ := Out.mapM_mem h5 hx
    exact setFixed_of_mem hy hb.good.fixed_nodup i v hv
  have hc1 : CallsIn (FixedAt p0) s1 := by
    have := Strat.ask_calls ha hi.grad
    intro q hq; rw [this] at hq; exact hi.calls q hq
  have hlen := Out.mapM_length hph
  have hc2 : CallsIn (FixedAt p0) s2 := by
    refine Strat.eval_callsIn (by rw [hp1]; exact hi.uh) ?_ ?_ he hc1
    · intro y hy
      unfold Strat.phenoCols at hph
      obtain ⟨x, hx, hxy⟩ := Out.mapM_mem hph hy
      rw [hp1, hi.geno] at hxy
      exact hi.keeps x y hxy (hi.fixed.1 (hpop x hx))
    · intro h0
      rw [h0] at hlen
      exact List.eq_nil_of_length_eq_zero (by simpa using hlen)
  obtain ⟨cs', cu', su, ts, sol3, hs, hb, csq, hc, sc, ps, hs', pc, cov, sep, v, sg, xp, xm, mx, mn, lv, le,
    e3⟩ := Strat.tell_frame ht
  intro q hq
  rw [← h, e3] at hq
  exact hc2 q hq

theorem FixCalls.optimize {fp : List (ℕ × ℝ)} {p0 : Params n} {env : Env n} (k : ℕ) {s s' : Strat n}
    (hb : FixInv fp s) (hi : FixCalls p0 s) (h : s.optimize env k = .ok (some s')) :
    FixInv fp s' ∧ FixCalls p0 s' := by
  refine Strat.optimize_induct_gen (I := fun s => FixInv fp s ∧ FixCalls p0 s) ?_ ?_ ?_ ?_ ?_ k ⟨hb, hi⟩ h
  · rintro s s' ⟨hb, hi⟩ h
    rcases Strat.evalInitial_frame h with e | ⟨y, v, hy, _, e⟩
    · rw [e]; exact ⟨hb, hi⟩
    · have hy' := hi.keeps _ _ (by rw [← hi.geno]; exact hy) (hi.fixed.1 hb.mean)
      rw [e]
      refine ⟨⟨⟨hb.good, hb.unscaled, hb.fixed, hb.mean, ?_, ?_⟩, hb.cands⟩, ?_⟩
      · intro c hc; injection hc with hc; subst hc; exact hb.mean
      · intro c hc; injection hc with hc; subst hc; exact hb.mean
      · refine hi.p rfl rfl rfl rfl rfl (hi.calls.append (c := [(y, v)]) rfl ?_)
        intro q hq
        rw [List.mem_singleton] at hq
        rw [hq]; exact hy'
  · rintro s b s' ⟨hb, hi⟩ h
    obtain ⟨k, r, e⟩ := Strat.stop_frame h
    rw [e]
    exact ⟨⟨⟨hb.good, hb.unscaled, hb.fixed, hb.mean, hb.seen, hb.init⟩, hb.cands⟩,
      hi.p rfl rfl rfl rfl rfl hi.calls⟩
  · rintro s s' ⟨hb, hi⟩ h; exact ⟨(hb.generation h).1, hi.generation hb h⟩
  · rintro s s' ⟨hb, hi⟩ hw h
    rw [hi.edm] at hw; cases hw
  · rintro s s' ⟨hb, hi⟩ h
    obtain ⟨b, p, sol, hbs, hm, e⟩ := Strat.elitistRestart_ok h
    have hp := (Sol.make_eq_ok hm).2.2.2.2.2.1
    refine ⟨fixInv_make (p := { s.p with x0min := b.x, x0max := b.x }) ?_ hb.unscaled hb.fixed hm (by rw [e])
      (by rw [e]) (by rw [e]) (by rw [e]) (by rw [e]), ?_⟩
    · exact hb.good.same ⟨rfl, rfl, rfl, rfl, rfl, rfl, rfl, rfl, rfl, rfl, rfl, rfl, rfl, rfl, rfl, rfl, rfl⟩
    · rw [e]
      exact hi.p (by rw [hp]) (by rw [hp]) (by rw [hp]) (by rw [hp]) (by rw [hp]) hi.calls

theorem FixCalls.reset {p0 : Params n} {env : Env n} {s s' : Strat n}
    (hi : FixCalls p0 s) (h : s.resetSearchState env = .ok s') : FixCalls p0 s' := by
  obtain ⟨p, sol, hm, e⟩ := Strat.resetSearchState_ok h
  have hp := (Sol.make_eq_ok hm).2.2.2.2.2.1
  rw [e]
  exact hi.p (by rw [hp]) (by rw [hp]) (by rw [hp]) (by rw [hp]) (by rw [hp]) hi.calls

theorem FixCalls.param {p0 : Params n} {s : Strat n} {q : Params n}
    (hi : FixCalls p0 s) (h : Bipop.ParamStep s.p q) : FixCalls p0 { s with p := q } := by
  obtain ⟨_, _, _, _, _, _, _, _, _, _, _, _, _, _, _, _, _, e⟩ := h.frame
  exact hi.p (by rw [e]) (by rw [e]) (by rw [e]) (by rw [e]) (by rw [e]) hi.calls

theorem FixCalls.new {env : Env n} {kind : CovKind} {p : Params n} {s : Strat n}
    (huh : p.uh = false) (hg : p.withGradient = false) (he : p.withEdm = false) (hk : PhenoKeeps p)
    (h : Strat.new env kind p = .ok s) : FixCalls p s := by
  obtain ⟨_, _, _, hp, _, _, _, _, hc, _⟩ := Strat.new_ok h
  refine ⟨by rw [hp], by rw [hp], by rw [hp]; exact huh, by rw [hp]; exact hg, by rw [hp]; exact he, hk, ?_⟩
  intro q hq; rw [hc] at hq; cases hq

/-- The increase of the population is one of the changes of parameters. -/
theorem lambdaInc_step {s s' : Strat n} (h : s.lambdaInc = .ok s') :
    ∃ q, Bipop.ParamStep s.p q ∧ s' = { s with p := q } := by
  obtain ⟨p, hm, e⟩ := Strat.lambdaInc_ok h
  exact ⟨p, .init (s.p.lambda * 2) s.p.sigmaInit hm, e⟩

end Libcmaes
