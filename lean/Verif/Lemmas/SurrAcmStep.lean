import Verif.Lemmas.SurrAcm

/-! # One generation of the ACM surrogate strategy -/

namespace Libcmaes

open Spec

variable {n : ℕ} {M : Type}

namespace Surr

/-- The strategy as `ask` sees it, after the reset in the first generation. -/
noncomputable def begun (t : Surr n M) : Surr n M :=
  if t.s.niter = 0 then
    { t with prelambda := if t.tset.isEmpty then t.prelambda else 50 * t.s.p.lambda }.resetTrainingSet
  else t

theorem begun_frame (t : Surr n M) : ∃ ts tr te sm pl, t.begun = { t with
    tset := ts, trainErr := tr, testErr := te, smooth := sm, prelambda := pl } := by
  unfold begun
  by_cases h : t.s.niter = 0
  · rw [if_pos h]; exact ⟨_, _, _, _, _, rfl⟩
  · rw [if_neg h]; exact ⟨_, _, _, _, _, rfl⟩

theorem begun_of_ne {t : Surr n M} (h : t.s.niter ≠ 0) : t.begun = t := by unfold begun; rw [if_neg h]

theorem begun_tset {t : Surr n M} (h : t.s.niter ≠ 0 ∨ t.tset = []) : t.begun.tset = t.tset := by
  by_cases h0 : t.s.niter = 0
  · rcases h with h | h
    · exact absurd h0 h
    · unfold begun; rw [if_pos h0, h]; rfl
  · rw [begun_of_ne h0]

theorem begun_s (t : Surr n M) : t.begun.s = t.s := by
  obtain ⟨ts, tr, te, sm, pl, e⟩ := begun_frame t; rw [e]

theorem begun_exploit (t : Surr n M) : t.begun.exploit = t.exploit := by
  obtain ⟨ts, tr, te, sm, pl, e⟩ := begun_frame t; rw [e]

theorem begun_smooth {t : Surr n M} (h : ∃ v, t.smooth = some v ∧ 0 ≤ v ∧ v ≤ 1) :
    ∃ v, t.begun.smooth = some v ∧ 0 ≤ v ∧ v ≤ 1 := by
  by_cases h0 : t.s.niter = 0
  · unfold begun; rw [if_pos h0]
    exact ⟨0.5, rfl, by norm_num, by norm_num⟩
  · rw [begun_of_ne h0]; exact h

theorem acmAsk_eq (env : Env n) (t : Surr n M) : t.acmAsk env =
    if (t.exploit && t.begun.full) = true then
      if t.begun.prelambda < 0 then .error .ub else
      ({ t.s with p := { t.s.p with lambda := t.begun.prelambda.toNat } }).ask env >>= fun q =>
        .ok (q.1, { t.begun with s := { q.2 with p := { q.2.p with lambda := t.s.p.lambda } } })
    else t.s.ask env >>= fun q => .ok (q.1, { t.begun with s := q.2 }) := by
  have hs := begun_s t
  have hx := begun_exploit t
  have : t.acmAsk env = if (t.begun.exploit && t.begun.full) = true then
      if t.begun.prelambda < 0 then .error .ub else
      ({ t.begun.s with p := { t.begun.s.p with lambda := t.begun.prelambda.toNat } }).ask env >>= fun q =>
        .ok (q.1, { t.begun with s := { q.2 with p := { q.2.p with lambda := t.begun.s.p.lambda } } })
    else t.begun.s.ask env >>= fun q => .ok (q.1, { t.begun with s := q.2 }) := rfl
  rw [this, hs, hx]

theorem acmAsk_ok {env : Env n} {t t1 : Surr n M} {pop : List (Vec n)} (hgr : t.s.p.withGradient = false)
    (h : t.acmAsk env = .ok (pop, t1)) :
    (∃ es ei ue nz x1 x2 p1 p2, t1 = { t.begun with s := { t.s with
      es := es, nz := nz, sol := { t.s.sol with
        eigeniter := ei, updatedEigen := ue, tpaX1 := x1, tpaX2 := x2, tpaP1 := p1, tpaP2 := p2 } } }) ∧
      pop.length = if (t.exploit && t.begun.full) = true then t.begun.prelambda.toNat else t.s.p.lambda := by
  rw [acmAsk_eq] at h
  by_cases hb : (t.exploit && t.begun.full) = true
  · rw [if_pos hb] at h ⊢
    by_cases hneg : t.begun.prelambda < 0
    · rw [if_pos hneg] at h; cases h
    rw [if_neg hneg] at h
    obtain ⟨⟨pop', s⟩, ha, h⟩ := Out.bind_eq_ok.1 h
    injection h with h
    injection h with h1 h2
    subst h1
    have hcl := Strat.ask_calls ha hgr
    obtain ⟨⟨es, ei, ue, c0, nz, x1, x2, p1, p2, e1⟩, hpl⟩ := Strat.ask_frame ha
    have hc0 : c0 = [] := by
      rw [e1] at hcl
      simpa using hcl
    subst hc0
    refine ⟨⟨es, ei, ue, nz, x1, x2, p1, p2, ?_⟩, hpl⟩
    rw [← h2, e1]
    simp
  · rw [if_neg hb] at h ⊢
    obtain ⟨⟨pop', s⟩, ha, h⟩ := Out.bind_eq_ok.1 h
    injection h with h
    injection h with h1 h2
    subst h1
    have hcl := Strat.ask_calls ha hgr
    obtain ⟨⟨es, ei, ue, c0, nz, x1, x2, p1, p2, e1⟩, hpl⟩ := Strat.ask_frame ha
    have hc0 : c0 = [] := by
      rw [e1] at hcl
      simpa using hcl
    subst hc0
    refine ⟨⟨es, ei, ue, nz, x1, x2, p1, p2, ?_⟩, hpl⟩
    rw [← h2, e1]
    simp

theorem acmEigenv_frame {s s' : Strat n} (h : acmEigenv s = .ok s') : ∃ mx mn lv le, s' = { s with sol := { s.sol with
    maxEigenv := mx, minEigenv := mn, leigenvalues := lv, leigenvectors := le, hasLeig := true } } := by
  unfold acmEigenv at h
  split_ifs at h with h0 h1
  · cases he : s.es.eig with
    | none => rw [he] at h; cases h
    | some e =>
      rw [he] at h
      injection h with h
      exact ⟨_, _, _, _, h.symm⟩
  · injection h with h
    exact ⟨_, _, _, _, h.symm⟩

/-- `tell` of the ACM strategy: `cs` are the candidates as they are ranked. -/
theorem acmTell_ok {env : Env n} {sf : SurrFuncs n M} {t t' : Surr n M} (h : t.acmTell env sf = .ok t') :
    ∃ cs sol2 sol3, ((t.exploit && t.full) = true → cs = t.s.sol.cands) ∧
      ((t.exploit && t.full) = false → stableSort candLt t.s.sol.cands = .ok cs) ∧
      ({ t.s.sol with cands := cs } : Sol n).updateBest = .ok sol2 ∧
      covarianceUpdate env.eig t.s.kind t.s.p t.s.es sol2 = .ok sol3 ∧
      ∃ mx mn lv le m tr, t' = { t with
        m := m, trainErr := tr
        s := { t.s with sol := { sol3 with
          maxEigenv := mx, minEigenv := mn, leigenvalues := lv, leigenvectors := le, hasLeig := true } } } := by
  unfold acmTell at h
  obtain ⟨sol1, h1, h⟩ := Out.bind_eq_ok.1 h
  obtain ⟨sol2, h2, h⟩ := Out.bind_eq_ok.1 h
  obtain ⟨sol3, h3, h⟩ := Out.bind_eq_ok.1 h
  obtain ⟨s4, h4, h⟩ := Out.bind_eq_ok.1 h
  obtain ⟨b, _, h⟩ := Out.bind_eq_ok.1 h
  obtain ⟨mx, mn, lv, le, e4⟩ := acmEigenv_frame h4
  have hs1 : ∃ cs, ((t.exploit && t.full) = true → cs = t.s.sol.cands) ∧
      ((t.exploit && t.full) = false → stableSort candLt t.s.sol.cands = .ok cs) ∧
      sol1 = { t.s.sol with cands := cs } := by
    split_ifs at h1 with hc
    · unfold Sol.sortCandidates at h1
      obtain ⟨cs, hcs, h1⟩ := Out.bind_eq_ok.1 h1
      injection h1 with h1
      refine ⟨cs, fun hf => ?_, fun _ => hcs, h1.symm⟩
      rw [← Bool.not_and, hf] at hc
      cases hc
    · injection h1 with h1
      refine ⟨t.s.sol.cands, fun _ => rfl, fun hf => ?_, h1.symm⟩
      rw [← Bool.not_and, hf] at hc
      simp at hc
  obtain ⟨cs, c1, c2, e1⟩ := hs1
  refine ⟨cs, sol2, sol3, c1, c2, by rw [← e1]; exact h2, h3, mx, mn, lv, le, ?_⟩
  split_ifs at h
  · obtain ⟨m, _, h⟩ := Out.bind_eq_ok.1 h
    obtain ⟨e, _, h⟩ := Out.bind_eq_ok.1 h
    injection h with h
    exact ⟨m, e, by rw [← h, e4]⟩
  · injection h with h
    exact ⟨t.m, t.trainErr, by rw [← h, e4]⟩

theorem full_push {l : ℤ} {ts : List (Cand n)} (cs : List (Cand n)) (h : (ts.length : ℤ) ≥ l) :
    ((cs.foldl (push l) ts).length : ℤ) ≥ l := by
  induction cs generalizing ts with
  | nil => exact h
  | cons c cs ih =>
    rw [List.foldl_cons]
    refine ih ?_
    unfold push
    split_ifs <;> simp <;> omega

/-- One generation of the ACM strategy from `t` to `t'`; the objective was called as in `c`; `added`: the candidates
added to the training set. -/
structure AcmStep (env : Env n) (sf : SurrFuncs n M) (t t' : Surr n M) (c : List (Vec n × FVal))
    (added : List (Cand n)) : Prop where
  p : t'.s.p = t.s.p
  kind : t'.s.kind = t.s.kind
  negate : t'.s.negate = t.s.negate
  niter : t'.s.niter = t.s.niter + 1
  initialElitist : t'.s.initialElitist = t.s.initialElitist
  maxHist : t'.s.sol.maxHist = t.s.sol.maxHist
  l : t'.l = t.l
  exploit : t'.exploit = t.exploit
  lambdaprime : t'.lambdaprime = t.lambdaprime
  prelambda : t'.prelambda = t.begun.prelambda
  nsteps : t'.nsteps = t.nsteps
  dev0 : t'.dev0 = t.dev0
  dev1 : t'.dev1 = t.dev1
  best : ∃ s0 sol2 : Sol n, s0.updateBest = .ok sol2 ∧ s0.cands = t'.s.sol.cands ∧
    s0.bestSeen = t.s.sol.bestSeen ∧ s0.worstSeen = t.s.sol.worstSeen ∧ s0.bestHist = t.s.sol.bestHist ∧
    s0.niter = t.s.sol.niter ∧ s0.maxHist = t.s.sol.maxHist ∧ t'.s.sol.bestSeen = sol2.bestSeen ∧
    t'.s.sol.worstSeen = sol2.worstSeen ∧ t'.s.sol.bestHist = sol2.bestHist ∧
    t'.s.sol.initialCand = t.s.sol.initialCand ∧ t'.s.sol.niter = t.s.sol.niter + 1
  calls : t'.s.calls = t.s.calls ++ c
  truth : ∀ q ∈ c, ∃ k, q.2 = env.f k q.1
  nevals : t'.s.nevals = t.s.nevals + c.length
  tset : t'.tset = added.foldl (push t.l) t.begun.tset
  cands : t'.s.sol.cands.length = t.s.p.lambda
  pre : (t.exploit && t.begun.full) = true → ∃ (pop : List (Vec n)) (t1 : Surr n M) (pr : List (Cand n))
      (E rest L : List (Cand n × Cand n)), t.acmAsk env = .ok (pop, t1) ∧
    pop.length = t.begun.prelambda.toNat ∧
    sf.predict t1.m t1.tset { t1.s.sol with cands := pop.map fun x => ⟨FVal.ofReal 0, x, -1⟩ }
        (pop.map fun x => ⟨FVal.ofReal 0, x, -1⟩) = .ok pr ∧
    Preselected t.s.negate t.s.p.gp pr c E rest L ∧ t'.s.sol.cands = L.map Prod.fst ∧ added = E.map Prod.fst ∧
    (c.length : ℤ) = max 1 t.lambdaprime ∧ ∃ (e : Option ℝ) (t2 : Surr n M), t2.computeError sf added = .ok e ∧
      t'.smooth = (t.begun.setTestError e).smooth ∧ t'.testErr = e ∧ t2.m = t.m ∧ t2.tset = t'.tset
  plain : (t.exploit && t.begun.full) = false → c.length = t.s.p.lambda ∧ t'.s.sol.cands.Perm added ∧
    ((t.exploit && t'.full) = false → t'.s.sol.cands.Pairwise fun a b => ¬ FVal.lt b.fvalue a.fvalue) ∧
    ((t.exploit && t'.full) = true → t'.s.sol.cands = added) ∧
    (t.s.elitismOn = false → ∃ c' : List (Vec n × FVal), c'.Perm c ∧ (t.s.p.mtFeval = false → c' = c) ∧
      List.Forall₂ (Answers t.s.negate t.s.p.gp) added c') ∧
    ((t.s.niter ≠ 0 ∧ t.begun.full = true) → ∃ (e : Option ℝ) (t2 : Surr n M),
      t2.computeError sf t.s.sol.cands = .ok e ∧ t'.smooth = (t.begun.setTestError e).smooth) ∧
    (¬ (t.s.niter ≠ 0 ∧ t.begun.full = true) → t'.smooth = t.begun.smooth)
  points : (t.exploit && t.begun.full) = false → t.s.elitismOn = false →
    ∃ pop s1, t.s.ask env = .ok (pop, s1) ∧ added.map (·.x) = pop

set_option maxHeartbeats 1000000 in
theorem acmGeneration_step {env : Env n} {sf : SurrFuncs n M} {fuel : ℕ} {t t' : Surr n M}
    (huh : t.s.p.uh = false) (hgr : t.s.p.withGradient = false) (hlen : t.s.sol.cands.length = t.s.p.lambda)
    (hl1 : 1 ≤ t.s.p.lambda) (h : t.acmGeneration env sf fuel = .ok (some t')) :
    ∃ c added, AcmStep env sf t t' c added := by
  unfold acmGeneration at h
  obtain ⟨⟨pop, t1⟩, hask, h⟩ := Out.bind_eq_ok.1 h
  obtain ⟨phen, hph, h⟩ := Out.bind_eq_ok.1 h
  obtain ⟨o, hev, h⟩ := Out.bind_eq_ok.1 h
  rcases o with _ | t2
  · injection h with h; cases h
  simp only at h
  obtain ⟨t3, htl, h⟩ := Out.bind_eq_ok.1 h
  have hfin := Option.some.inj (Except.ok.inj h)
  clear h
  obtain ⟨⟨es, ei, ue, nz, x1, x2, p1, p2, e1⟩, hpl⟩ := acmAsk_ok hgr hask
  obtain ⟨ts0, tr0, te0, sm0, pl0, e0⟩ := begun_frame t
  obtain ⟨cs, sol2, sol3, k1, k2, k3, k4, mx, mn, lv, le, m, tr, e3⟩ := acmTell_ok htl
  obtain ⟨_, ck, cl, med, _, _, _, _, eb, _⟩ := Sol.updateBest_ok k3
  obtain ⟨csq, hc', sc, ps, hs', pc, cov, sep, v, sg, xp, xm, e4⟩ := covarianceUpdate_frame k4
  have hcs' : t'.s.sol.cands = cs := by
    rw [← hfin, e3]
    show sol3.cands = _
    rw [e4, eb]
  have hmh : t'.s.sol.maxHist = t2.s.sol.maxHist := by
    rw [← hfin, e3]
    show sol3.maxHist = _
    rw [e4, eb]
  have hbest : t2.s.sol.bestSeen = t.s.sol.bestSeen → t2.s.sol.worstSeen = t.s.sol.worstSeen →
      t2.s.sol.bestHist = t.s.sol.bestHist → t2.s.sol.niter = t.s.sol.niter →
      t2.s.sol.maxHist = t.s.sol.maxHist → t2.s.sol.initialCand = t.s.sol.initialCand →
      ∃ s0 sol2 : Sol n, s0.updateBest = .ok sol2 ∧ s0.cands = t'.s.sol.cands ∧
      s0.bestSeen = t.s.sol.bestSeen ∧ s0.worstSeen = t.s.sol.worstSeen ∧ s0.bestHist = t.s.sol.bestHist ∧
      s0.niter = t.s.sol.niter ∧ s0.maxHist = t.s.sol.maxHist ∧ t'.s.sol.bestSeen = sol2.bestSeen ∧
      t'.s.sol.worstSeen = sol2.worstSeen ∧ t'.s.sol.bestHist = sol2.bestHist ∧
      t'.s.sol.initialCand = t.s.sol.initialCand ∧ t'.s.sol.niter = t.s.sol.niter + 1 := by
    intro b1 b2 b3 b4 b5 b6
    refine ⟨_, sol2, k3, hcs'.symm, b1, b2, b3, b4, b5, ?_, ?_, ?_, ?_, ?_⟩
    · rw [← hfin, e3]; show sol3.bestSeen = _; rw [e4]
    · rw [← hfin, e3]; show sol3.worstSeen = _; rw [e4]
    · rw [← hfin, e3]; show sol3.bestHist = _; rw [e4]
    · rw [← hfin, e3]; show sol3.initialCand = _; rw [e4, eb]; exact b6
    · rw [← hfin, e3]; show sol3.niter + 1 = _; rw [e4, eb, ← b4]
  have ht' : ∃ s', t' = { t2 with m := m, trainErr := tr, s := { t2.s with niter := t2.s.niter + 1, sol := s' } } := by
    rw [← hfin, e3]
    exact ⟨_, rfl⟩
  obtain ⟨s', ht'⟩ := ht'
  have hex : t1.exploit = t.exploit := by rw [e1]; exact begun_exploit t
  have hfu : t1.full = t.begun.full := by rw [e1]; rfl
  have hx2 : ∀ b, (t1.exploit && t1.full) = b ↔ (t.exploit && t.begun.full) = b := by rw [hex, hfu]; exact fun _ => Iff.rfl
  unfold acmEval at hev
  by_cases hb : (t.exploit && t.begun.full) = true
  · rw [if_pos ((hx2 _).2 hb)] at hev
    rw [if_pos hb] at hpl
    obtain ⟨o, hpre, hev⟩ := Out.bind_eq_ok.1 hev
    rcases o with _ | ⟨nc, tp⟩
    · injection hev with hev; cases hev
    simp only at hev
    obtain ⟨pr, c, E, rest, L, k0, k1', e, sol1, a1, a2, a3, a4, a5, a6, a7⟩ := preselected hpre hev
    have en : t1.s.negate = t.s.negate := by rw [e1]
    have egp : t1.s.p = t.s.p := by rw [e1]
    have elp : t1.lambdaprime = t.lambdaprime := by rw [e1, e0]
    have eL : t1.l = t.l := by rw [e1, e0]
    rw [en, egp] at a2
    rw [egp] at a3
    rw [elp] at a4
    have hf2 : (t2.exploit && t2.full) = true := by
      rw [Bool.and_eq_true] at hb ⊢
      refine ⟨by rw [a6]; show t1.exploit = true; rw [hex]; exact hb.1, ?_⟩
      rw [a6]
      unfold full
      rw [decide_eq_true_eq]
      refine full_push _ ?_
      have := hb.2
      rw [← hfu] at this
      unfold full at this
      rwa [decide_eq_true_eq] at this
    have hcs2 : cs = L.map Prod.fst := by rw [k1 hf2, a6]
    refine ⟨c, E.map Prod.fst, ?_, ?_, ?_, ?_, ?_, ?_, ?_, ?_, ?_, ?_, ?_, ?_, ?_, ?_, ?_, ?_, ?_, ?_, ?_, fun _ => ?_, fun hf => ?_, fun hf => ?_⟩
    · rw [ht', a6, e1]
    · rw [ht', a6, e1]
    · rw [ht', a6, e1]
    · rw [ht', a6, e1]
    · rw [ht', a6, e1]
    · rw [hmh, a6, e1]
    · rw [ht', a6, e1, e0]
    · rw [ht', a6, e1, e0]
    · rw [ht', a6, e1, e0]
    · rw [ht', a6, e1]
    · rw [ht', a6, e1, e0]
    · rw [ht', a6, e1, e0]
    · rw [ht', a6, e1, e0]
    · exact hbest (by rw [a6, e1]) (by rw [a6, e1]) (by rw [a6, e1]) (by rw [a6, e1]) (by rw [a6, e1])
        (by rw [a6, e1])
    · rw [ht', a6, e1]
    · exact a7
    · rw [ht', a6, e1]
    · rw [ht', a6]
      show (E.map Prod.fst).foldl (push t1.l) t1.tset = _
      rw [eL, e1]
    · rw [hcs', hcs2, List.length_map]; omega
    · refine ⟨pop, t1, pr, E, rest, L, hask, hpl, a1, a2, by rw [hcs', hcs2], rfl, a4, e, _, a5, ?_, ?_, ?_, ?_⟩
      · rw [ht', a6]
        show (t1.setTestError e).smooth = _
        rw [e1]; rfl
      · rw [ht', a6]
      · show t1.m = t.m
        rw [e1, e0]
      · rw [ht', a6]
    · rw [hb] at hf; cases hf
    · rw [hb] at hf; cases hf
  · have hb' : (t.exploit && t.begun.full) = false := by simpa using hb
    rw [if_neg (by rw [(hx2 _).2 hb']; simp)] at hev
    rw [if_neg hb] at hpl
    obtain ⟨tt, htt, hev⟩ := Out.bind_eq_ok.1 hev
    obtain ⟨tc, hcol, hev⟩ := Out.bind_eq_ok.1 hev
    have htc := Option.some.inj (Except.ok.inj hev)
    rw [htc] at hcol
    clear hev
    have htest : ∃ te sm, tt = { t1 with testErr := te, smooth := sm } ∧
        ((t.s.niter ≠ 0 ∧ t.begun.full = true) → ∃ (e : Option ℝ) (t2 : Surr n M),
          t2.computeError sf t.s.sol.cands = .ok e ∧ sm = (t.begun.setTestError e).smooth) ∧
        (¬ (t.s.niter ≠ 0 ∧ t.begun.full = true) → sm = t.begun.smooth) := by
      have hni : t1.s.niter = t.s.niter := by rw [e1]
      rw [hni, hfu] at htt
      by_cases hc : t.s.niter ≠ 0 ∧ t.begun.full = true
      · rw [if_pos hc] at htt
        obtain ⟨e, he, htt⟩ := Out.bind_eq_ok.1 htt
        injection htt with htt
        refine ⟨e, (t1.setTestError e).smooth, htt.symm, fun _ => ⟨e, t1, ?_, by rw [e1]; rfl⟩, fun h => absurd hc h⟩
        rw [← he, e1]
      · rw [if_neg hc] at htt
        injection htt with htt
        exact ⟨t1.testErr, t1.smooth, htt.symm, fun h => absurd h hc, fun _ => by rw [e1]⟩
    obtain ⟨te, sm, ett, g1, g2⟩ := htest
    unfold evalAndCollect at hcol
    obtain ⟨s2, hs2, hev⟩ := Out.bind_eq_ok.1 hcol
    injection hev with hev
    rw [foldl_add] at hev
    have e5 : tt.s = t1.s := by rw [ett]
    rw [e5] at hs2
    have ep : t1.s.p = t.s.p := by rw [e1]
    have hs1uh : t1.s.p.uh = false := by rw [ep]; exact huh
    obtain ⟨c, nu, nzuh, lr, cu, csv, e6, hcsl, hcl1, hcl2⟩ := Strat.eval_frame hs2
    have hclen : c.length = pop.length := by
      obtain ⟨s4, h4, e7⟩ := Strat.eval_ok hs1uh hs2
      have : s2.nevals = t1.s.nevals + pop.length := by
        rw [e7]
        show s4.nevals + pop.length = _
        rcases Strat.reinject_frame h4 with h | ⟨_, _, _, h⟩ <;> rw [h] <;> rfl
      rw [e6] at this
      simpa using this
    have ht2s : t2.s = s2 := by rw [← hev]
    have hfull : t'.full = t2.full := by rw [ht']; rfl
    have hex2 : t2.exploit = t.exploit := by rw [← hev, ett]; exact hex
    have hperm : cs.Perm s2.sol.cands := by
      by_cases hf : (t2.exploit && t2.full) = true
      · rw [k1 hf, ht2s]
      · have := k2 (by simpa using hf)
        rw [ht2s] at this
        exact (stableSort_eq_ok this).2.perm
    have hll : s2.sol.cands.length = t.s.p.lambda := by
      rw [e6]; show csv.length = _; rw [hcsl, e1]; exact hlen
    refine ⟨c, s2.sol.cands, ?_, ?_, ?_, ?_, ?_, ?_, ?_, ?_, ?_, ?_, ?_, ?_, ?_, ?_, ?_, ?_, ?_, ?_, ?_, fun hf => ?_, fun _ => ?_, fun _ hel => ?_⟩
    · rw [ht']; show t2.s.p = _; rw [ht2s, e6]; exact ep
    · rw [ht']; show t2.s.kind = _; rw [ht2s, e6, e1]
    · rw [ht']; show t2.s.negate = _; rw [ht2s, e6, e1]
    · rw [ht']; show t2.s.niter + 1 = _; rw [ht2s, e6, e1]
    · rw [ht']; show t2.s.initialElitist = _; rw [ht2s, e6, e1]
    · rw [hmh, ht2s, e6, e1]
    · rw [ht', ← hev, ett, e1, e0]
    · rw [ht', ← hev, ett, e1, e0]
    · rw [ht', ← hev, ett, e1, e0]
    · rw [ht', ← hev, ett, e1]
    · rw [ht', ← hev, ett, e1, e0]
    · rw [ht', ← hev, ett, e1, e0]
    · rw [ht', ← hev, ett, e1, e0]
    · exact hbest (by rw [ht2s, e6, e1]) (by rw [ht2s, e6, e1]) (by rw [ht2s, e6, e1]) (by rw [ht2s, e6, e1])
        (by rw [ht2s, e6, e1]) (by rw [ht2s, e6, e1])
    · rw [ht']; show t2.s.calls = _; rw [ht2s, e6, e1]
    · obtain ⟨c2, w1, w2⟩ := Strat.eval_truth hs1uh hs2
      have h1 : s2.calls = t1.s.calls ++ c := by rw [e6]
      rw [h1] at w1
      rw [List.append_cancel_left w1]
      exact w2
    · rw [ht']; show t2.s.nevals = _; rw [ht2s, e6, e1]
    · rw [ht', ← hev, ett]
      show s2.sol.cands.foldl (push t1.l) t1.tset = _
      rw [show t1.l = t.l by rw [e1, e0], e1]
    · rw [hcs', hperm.length_eq, hll]
    · rw [hb'] at hf; cases hf
    · refine ⟨by rw [hclen, hpl], by rw [hcs']; exact hperm, ?_, ?_, ?_, ?_, ?_⟩
      · intro hf
        rw [hfull, ← hex2] at hf
        rw [hcs']
        exact (stableSort_eq_ok (k2 hf)).2.sorted
      · intro hf
        rw [hfull, ← hex2] at hf
        rw [hcs', k1 hf, ht2s]
      · intro hel
        obtain ⟨c1, c', a1, a2, a3, a4⟩ := Strat.eval_answers (env := env) hs1uh
          (by rw [e1]; exact hel) (by rw [e1, hpl]; exact hlen) hph hs2
        have : c1 = c := by
          have h1 : s2.calls = t1.s.calls ++ c := by rw [e6]
          exact List.append_cancel_left (a1.symm.trans h1)
        subst this
        refine ⟨c', a2, fun hm => a3 (by rw [ep]; exact hm), ?_⟩
        have b1 : t1.s.negate = t.s.negate := by rw [e1]
        rw [b1, ep] at a4
        exact a4
      · intro hc
        obtain ⟨e, tx, q1, q2⟩ := g1 hc
        exact ⟨e, tx, q1, by rw [ht', ← hev, ett]; exact q2⟩
      · intro hc
        rw [ht', ← hev, ett]; exact g2 hc
    · rw [acmAsk_eq, if_neg hb] at hask
      obtain ⟨⟨pop', s1⟩, ha, hask⟩ := Out.bind_eq_ok.1 hask
      have hq := (Prod.mk.inj (Except.ok.inj hask)).1
      simp only at hq
      exact ⟨pop', s1, ha, by rw [hq]; exact Strat.eval_points hs1uh (by rw [e1]; exact hel) (by rw [e1, hpl]; exact hlen) hs2⟩

end Surr

end Libcmaes
