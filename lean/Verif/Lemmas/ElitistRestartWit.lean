import Verif.Lemmas.ElitistRestart
import Verif.Lemmas.Quad
import Verif.Lemmas.RestartWit
import Verif.Props.StopCrit

/-! # Runs with an elitist restart: examples -/

namespace Libcmaes

open Spec Matrix

variable {n : ℕ}

/-- A running strategy of these examples: full covariance, no fixed coordinate, a transform `g` that does not
fail, MAXFEVALS the only criterion. -/
structure Still (g : Vec n → Vec n) (p : Params n) (s : Strat n) : Prop where
  live : Live s
  recorded : Recorded s
  flags : FlagsOf p s.crit
  only : OnlyActive p 8
  sep : s.p.sep = false
  lazy : s.p.lazyUpdate = false
  fixed : s.p.fixedP = []
  pheno : ∀ x, phenoV s.p.gp x = .ok (g x)
  negate : s.negate = false
  status : s.sol.runStatus = 0
  evals : s.nevals = s.sol.nevals

/-- The candidate made from the draw `e`. -/
noncomputable def drift (env : Env n) (s : Strat n) (e : Vec n) : Vec n :=
  s.sol.sigma • ((env.eig.solve s.sol.cov).2 *
    diagonal fun i => Real.sqrt (max ((env.eig.solve s.sol.cov).1 i) 0)).mulVec e + s.sol.xmean

theorem drift_zero (env : Env n) (s : Strat n) : drift env s 0 = s.sol.xmean := by
  unfold drift
  rw [mulVec_zero, smul_zero, zero_add]

theorem drift_ne {env : Env n} {s : Strat n} {e : Vec n} (hs : 0 < s.sol.sigma) (hC : PD s.sol.cov) (he : e ≠ 0) :
    drift env s e ≠ s.sol.xmean := by
  intro h
  unfold drift at h
  have h1 : s.sol.sigma • ((env.eig.solve s.sol.cov).2 *
    diagonal fun i => Real.sqrt (max ((env.eig.solve s.sol.cov).1 i) 0)).mulVec e = 0 := by
    simpa using h
  have h2 := (smul_eq_zero.1 h1).resolve_left hs.ne'
  rw [← mulVec_mulVec] at h2
  have ho := env.eig.orth s.sol.cov hC.symm
  have ho' : (env.eig.solve s.sol.cov).2ᵀ * (env.eig.solve s.sol.cov).2 = 1 := mul_eq_one_comm.1 ho
  have h3 : (diagonal fun i => Real.sqrt (max ((env.eig.solve s.sol.cov).1 i) 0)).mulVec e = 0 := by
    have := congrArg ((env.eig.solve s.sol.cov).2ᵀ.mulVec) h2
    rwa [mulVec_mulVec, ho', one_mulVec, mulVec_zero] at this
  refine he ?_
  funext i
  have h4 := congrFun h3 i
  rw [mulVec_diagonal] at h4
  have hp := eig_pos env.eig hC i
  have : Real.sqrt (max ((env.eig.solve s.sol.cov).1 i) 0) ≠ 0 := by
    rw [max_eq_left hp.le]
    exact (Real.sqrt_pos.2 hp).ne'
  exact (mul_eq_zero.1 h4).resolve_left this

/-- A generation in which all draws are equal. -/
theorem Still.generation {g : Vec n → Vec n} {p : Params n} {env : Env n} {s : Strat n} (hS : Still g p s)
    (hv : ∀ k y, Val (env.f k y)) (e : Vec n) (he : ∀ j < s.p.lambda, env.z (s.nz + j) = e) :
    ∃ s' c0, s.generation env = .ok s' ∧ Still g p s' ∧ s'.nz = s.nz + s.p.lambda ∧
      s'.sol.nevals = s.sol.nevals + s.p.lambda ∧ s'.niter = s.niter + 1 ∧ s'.p = s.p ∧
      s'.initialElitist = s.initialElitist ∧ s'.sol.initialCand = s.sol.initialCand ∧ s'.kind = s.kind ∧
      (s.elitismOn = false → s'.sol.xmean = drift env s e) ∧
      s'.sol.bestCandidate = c0 ∧
      ((c0.x = drift env s e ∧ ∃ j, c0.fvalue = env.f j (g (drift env s e))) ∨
        s.elitismOn = true ∧ s.elitistRef = some c0) ∧
      (s.sol.bestSeen = none → s.niter = 0 → s'.sol.bestSeen = some c0 ∧ s'.sol.bestSeenIter = some 0) ∧
      (∀ b, s.sol.bestSeen = some b → ¬ FVal.lt c0.fvalue b.fvalue →
        s'.sol.bestSeen = some b ∧ s'.sol.bestSeenIter = s.sol.bestSeenIter) := by
  have hvn : ∀ k y, Val (negIf s.negate (env.f k y)) := by intro k y; rw [hS.negate]; exact hv k y
  obtain ⟨s', h, hL', hR'⟩ : ∃ s', s.generation env = .ok s' ∧ Live s' ∧ Recorded s' := by
    rcases generation_total_num hS.live (val_isNum_f hvn) hS.recorded.refNum with ⟨s', h1, h2, _⟩ | ⟨x, er, h1, _⟩
    · exact ⟨s', h1, h2, hS.recorded.generation hS.live h2 hvn h1⟩
    · rw [hS.pheno] at h1; cases h1
  have hev' := generation_evals hS.live.uh hS.live.grad h
  obtain ⟨tr, hrun⟩ := Strat.generation_run h
  obtain ⟨r1, r2, r3, -, -, r6, r7, r8, r9, r10⟩ := run_p hrun
  obtain ⟨pop, s1, phen, s2, s3, ha, hph, hev, ht, es', hperm, hlen, -⟩ :=
    generation_points hS.live.good hS.live.cands h
  obtain ⟨⟨es, ei, ue, cc, nz, x1, x2, p1, p2, e1⟩, hpl⟩ := Strat.ask_frame ha
  obtain ⟨t0, pop1, hpr, hsa, hfx⟩ := ask_plain hS.live.grad (Or.inl hS.live.tpa) ha
  unfold Strat.askPrepare at hpr
  rw [if_pos (by simp [hS.sep, hS.live.vd]), if_pos (Or.inr (Or.inl hS.lazy)),
    if_neg (by rw [(hS.live.full hS.sep).1]; simp)] at hpr
  injection hpr with hpr
  unfold Strat.askSample at hsa
  rw [← hpr] at hsa
  simp only at hsa
  rw [if_pos (by simp [hS.sep, hS.live.vd]), if_neg (by simp)] at hsa
  injection hsa with hsa; injection hsa with hsa1 hsa2
  have hpop1 : pop1 = pop := by
    rw [hS.fixed] at hfx
    exact mapM_setFixed_nil hfx
  have hpop : ∀ x ∈ pop, x = drift env s e := by
    intro x hx
    rw [← hpop1, ← hsa1] at hx
    obtain ⟨z, hz, rfl⟩ := List.mem_map.1 hx
    obtain ⟨j, hj, rfl⟩ := List.mem_map.1 hz
    rw [he j (List.mem_range.1 hj)]
    rfl
  have hgp1 : ∀ x, phenoV s1.p.gp x = .ok (g x) := by rw [e1]; exact hS.pheno
  have hcands : ∀ c ∈ s'.sol.cands, (c.x = drift env s e ∧ ∃ j, c.fvalue = env.f j (g (drift env s e))) ∨
      s.elitismOn = true ∧ s.elitistRef = some c := by
    intro c hc
    have hc2 := hperm.mem_iff.1 hc
    obtain ⟨h1, h2⟩ := Strat.eval_bounds hev
    obtain ⟨s4, h3, e4⟩ := Strat.eval_ok (by rw [e1]; exact hS.live.uh) hev
    have key : ∀ d ∈ (s1.evaluated env pop phen).sol.cands, d.x = drift env s e ∧
        ∃ j, d.fvalue = env.f j (g (drift env s e)) := by
      intro d hd
      obtain ⟨r, hr, hd'⟩ := List.mem_iff_getElem.1 hd
      have h4 := Strat.evaluated_cands (env := env) (phen := phen) h1 r
      rw [Strat.evaluated_length] at hr
      have hl1 : s1.sol.cands.length = pop.length := by rw [hpl, e1]; exact hS.live.cands
      have hr' : r < pop.length := by omega
      have hlp := Out.mapM_length hph
      rw [if_pos hr', List.getElem?_eq_getElem (by rwa [Strat.evaluated_length]), hd'] at h4
      injection h4 with h4
      have hx : colX pop r = drift env s e := by
        have : colX pop r = pop[r] := by simp [colX, List.getD, List.getElem?_eq_getElem hr']
        rw [this]; exact hpop _ (List.getElem_mem _)
      have hy : colY pop phen r = g (drift env s e) := by
        have hne : phen.isEmpty = false := by
          cases phen with
          | nil => rw [List.length_nil] at hlp; omega
          | cons => rfl
        have : colY pop phen r = phen[r] := by
          unfold colY
          rw [hne]
          simp [colX, List.getD, List.getElem?_eq_getElem (show r < phen.length by omega)]
        rw [this]
        obtain ⟨a, ha1, ha2⟩ := Out.mapM_mem hph (List.getElem_mem (show r < phen.length by omega))
        rw [hgp1, hpop a ha1] at ha2
        injection ha2 with ha2
        exact ha2.symm
      have hn1 : s1.negate = false := by rw [e1]; exact hS.negate
      rw [hn1, hy, hx] at h4
      exact ⟨by rw [h4], _, by rw [h4]; rfl⟩
    rcases Strat.reinject_frame h3 with h4 | ⟨c', h4, h5, h6⟩
    · left
      refine key c ?_
      rw [e4, h4] at hc2; exact hc2
    · rw [e4, h6] at hc2
      rcases List.mem_or_eq_of_mem_set (show c ∈ List.set _ 1 c' from hc2) with h | h
      · exact Or.inl (key c h)
      · subst h
        refine Or.inr ⟨?_, ?_⟩
        · have : s1.elitismOn = true := h5
          rw [e1] at this; exact this
        · have : s1.elitistRef = some c := h4
          rw [e1] at this; exact this
  obtain ⟨c2, nu, nzuh, lr, cu, cs, e2, _⟩ := Strat.eval_frame hev
  have hp2 : s2.p = s.p := by rw [e2, e1]
  obtain ⟨cs', cu', su, ts, sol3, hs, hb, csq, hc, sc, ps, hs', pc, cov, sep, v, sg, xp, xm, mx, mn, lv, le,
    e3⟩ := Strat.tell_frame ht
  obtain ⟨c0, ck, cl, med, h0, _, _, _, eb, b1, b2, b3, b4, _⟩ := Sol.updateBest_ok hb
  have ecs : s'.sol.cands = cs' := by rw [es', e3, eb]; rfl
  have hc0 : c0 ∈ s'.sol.cands := by rw [ecs]; exact List.mem_of_getElem? h0
  have ebs : s'.sol.bestSeen = sol3.bestSeen := by rw [es', e3]; rfl
  have ebi : s'.sol.bestSeenIter = sol3.bestSeenIter := by rw [es', e3]; rfl
  have ebs2 : s2.sol.bestSeen = s.sol.bestSeen := by rw [e2, e1]
  have ebi2 : s2.sol.bestSeenIter = s.sol.bestSeenIter := by rw [e2, e1]
  have eni2 : s2.sol.niter = s.niter := by rw [e2, e1]; exact hS.live.niter
  have hbest : s'.sol.bestCandidate = c0 := by
    have hbh : s'.sol.bestHist = sol3.bestHist := by rw [es', e3]; rfl
    have hmh : 0 < s2.sol.maxHist := by
      have : s2.sol.maxHist = s.sol.maxHist := by rw [e2, e1]
      rw [this]; exact hS.recorded.maxHist
    have hl : s'.sol.bestHist.getLast? = some c0 := by
      rw [hbh, eb]
      simp only
      split_ifs with hgt
      · cases hbb : s2.sol.bestHist with
        | nil => rw [hbb] at hgt; simp at hgt; omega
        | cons a t => simp
      · simp
    unfold Sol.bestCandidate
    rw [hl]
  have hnit : s'.niter = s.niter + 1 := by rw [es', e3, e2, e1]; rfl
  refine ⟨s', c0, h, ⟨hL', hR', by rw [r7]; exact hS.flags, hS.only, by rw [r1]; exact hS.sep,
    by rw [r1]; exact hS.lazy, by rw [r1]; exact hS.fixed, by rw [r1]; exact hS.pheno, by rw [r8]; exact hS.negate,
    ?_, ?_⟩, ?_, hev', hnit, r1, r9, r10, r6, ?_, hbest, hcands c0 hc0, ?_, ?_⟩
  · have : s'.sol.runStatus = s.sol.runStatus := by rw [es', e3, eb, e2, e1]; rfl
    rw [this]; exact hS.status
  · have h1 : s'.nevals = s.nevals + cc.length + c2.length := by rw [es', e3, e2, e1]; rfl
    have h2 : s'.sol.nevals = s.sol.nevals + cc.length + c2.length := by rw [es', e3, eb, e2, e1]; rfl
    rw [h1, h2, hS.evals]
  · rw [es', e3, e2, ← hsa2]; rfl
  · intro hoff
    have := (C25_mean_convex env s2 s3 (by rw [hp2]; exact hS.live.good.weights) ht).2 {drift env s e}
      (convex_singleton _) ?_
    · rw [es']; exact this
    · intro c hc
      rcases hcands c (by rw [es']; exact List.mem_of_mem_take hc) with h | h
      · exact h.1
      · rw [hoff] at h; cases h.1
  · intro h1 h2
    rw [ebs, ebi]
    exact b1 (ebs2.trans h1) (eni2.trans h2)
  · intro b h1 h2
    rw [ebs, ebi, ← ebi2]
    exact b4 b (ebs2.trans h1) h2

/-- The test of the loop lets it go on. -/
theorem Still.go {g : Vec n → Vec n} {p : Params n} {env : Env n} {s : Strat n} (hS : Still g p s)
    (hpf : ∀ k q sol, env.pfunc k q sol = 0)
    (hm : s.niter = 0 ∨ (s.sol.nevals : ℤ) < s.p.maxFevals) :
    s.stop env = .ok (false, { s with npf := s.npf + 1 }) := by
  by_cases h0 : s.niter = 0
  · unfold Strat.stop
    rw [if_neg (by rw [hS.status]; simp)]
    simp only
    rw [if_neg (by simp [hpf]), if_pos h0]
  · obtain ⟨r, h1, h2⟩ := stop_total hS.live hS.recorded hS.flags (hpf _ _ _) (by rw [hS.status]) h0
    rcases h2 with ⟨rfl, _⟩ | ⟨h2, h3, _⟩
    · rw [h1]
      have : ({ s.sol with runStatus := 0 } : Sol n) = s.sol := by rw [← hS.status]
      rw [this]; rfl
    · exfalso
      have := hS.only.2 _ h2
      subst this
      have h4 : MaxFEvals s.p s.sol := by
        rcases h3 with h | h | h | h | h | h | h | h | h | h | h | h
        all_goals first | exact h.2 | (exact absurd h.1 (by norm_num))
      rcases hm with h | h
      · exact h0 h
      · have := h4.2; omega

/-- The test of the loop stops it. -/
theorem Still.halt {g : Vec n → Vec n} {p : Params n} {env : Env n} {s : Strat n} (hS : Still g p s)
    (hpf : ∀ k q sol, env.pfunc k q sol = 0) (h0 : s.niter ≠ 0) (hm : s.p.maxFevals ≠ -1)
    (hm' : s.p.maxFevals ≤ s.sol.nevals) :
    s.stop env = .ok (true, { s with npf := s.npf + 1, sol := { s.sol with runStatus := 8 } }) := by
  obtain ⟨r, h1, h2⟩ := stop_total hS.live hS.recorded hS.flags (hpf _ _ _) (by rw [hS.status]) h0
  rcases h2 with ⟨rfl, h2⟩ | ⟨h2, h3, _⟩
  · exact absurd (show Fires env.fladd 8 s.p s.sol from
      .inr <| .inr <| .inr <| .inr <| .inr <| .inr <| .inr <| .inr <| .inr <| .inl ⟨rfl, hm, hm'⟩)
      (h2 8 hS.only.1)
  · have := hS.only.2 _ h2
    subst this
    rw [h1]; rfl

theorem Still.npf {g : Vec n → Vec n} {p : Params n} {s : Strat n} (hS : Still g p s) (k : ℕ) :
    Still g p { s with npf := k } := by
  have h1 := hS.live.withRun k s.sol.runStatus
  have h2 := hS.recorded.withRun k s.sol.runStatus
  exact ⟨h1, h2, hS.flags, hS.only, hS.sep, hS.lazy, hS.fixed, hS.pheno, hS.negate, hS.status, hS.evals⟩

/-- One turn of the loop. -/
theorem Still.turn {g : Vec n → Vec n} {p : Params n} {env : Env n} {s : Strat n} (hS : Still g p s)
    (hv : ∀ k y, Val (env.f k y)) (hpf : ∀ k q sol, env.pfunc k q sol = 0)
    (hm : s.niter = 0 ∨ (s.sol.nevals : ℤ) < s.p.maxFevals)
    (e : Vec n) (he : ∀ j < s.p.lambda, env.z (s.nz + j) = e) :
    ∃ s' c0, (∀ k, s.loop env (k + 1) = s'.loop env k) ∧ Still g p s' ∧ s'.nz = s.nz + s.p.lambda ∧
      s'.sol.nevals = s.sol.nevals + s.p.lambda ∧ s'.niter = s.niter + 1 ∧ s'.p = s.p ∧
      s'.initialElitist = s.initialElitist ∧ s'.sol.initialCand = s.sol.initialCand ∧ s'.kind = s.kind ∧
      (s.elitismOn = false → s'.sol.xmean = drift env s e) ∧
      s'.sol.bestCandidate = c0 ∧
      ((c0.x = drift env s e ∧ ∃ j, c0.fvalue = env.f j (g (drift env s e))) ∨
        s.elitismOn = true ∧ s.elitistRef = some c0) ∧
      (s.sol.bestSeen = none → s.niter = 0 → s'.sol.bestSeen = some c0 ∧ s'.sol.bestSeenIter = some 0) ∧
      (∀ b, s.sol.bestSeen = some b → ¬ FVal.lt c0.fvalue b.fvalue →
        s'.sol.bestSeen = some b ∧ s'.sol.bestSeenIter = s.sol.bestSeenIter) := by
  obtain ⟨s', c0, h, hrest⟩ := (hS.npf (s.npf + 1)).generation hv e he
  refine ⟨s', c0, fun k => ?_, hrest⟩
  rw [Strat.loop, hS.go hpf hm, Out.ok_bind]
  show (({ s with npf := s.npf + 1 } : Strat n).generation env >>= fun s2 => Strat.loop env k s2) = _
  rw [h, Out.ok_bind]

theorem optimize_again {env : Env n} {k : ℕ} {s s0 s1 s3 : Strat n} (h0 : s.evalInitial env = .ok s0)
    (h1 : s0.loop env (k + 1) = .ok (some s1)) (he : s1.p.withEdm = false) (hw : s1.wantsRestart = .ok true)
    (h3 : s1.elitistRestart env = .ok s3) : s.optimize env (k + 1) = s3.optimize env k := by
  rw [Strat.optimize, h0, Out.ok_bind, h1]
  show ((if s1.p.withEdm then s1.edm env else pure s1) >>= fun s2 => s2.wantsRestart >>= fun b =>
      if b then s2.elitistRestart env >>= fun s3 => s3.optimize env k else pure (some s2)) = _
  rw [he, if_neg (by simp), Out.pure_eq, Out.ok_bind, hw, Out.ok_bind, if_pos rfl, h3, Out.ok_bind]

theorem optimize_last {env : Env n} {k : ℕ} {s s0 s1 : Strat n} (h0 : s.evalInitial env = .ok s0)
    (h1 : s0.loop env (k + 1) = .ok (some s1)) (he : s1.p.withEdm = false) :
    s.optimize env (k + 1) = s1.wantsRestart >>= fun b =>
      if b then s1.elitistRestart env >>= fun s3 => s3.optimize env k else pure (some s1) := by
  rw [Strat.optimize, h0, Out.ok_bind, h1]
  show ((if s1.p.withEdm then s1.edm env else pure s1) >>= fun s2 => s2.wantsRestart >>= fun b =>
      if b then s2.elitistRestart env >>= fun s3 => s3.optimize env k else pure (some s2)) = _
  rw [he, if_neg (by simp), Out.pure_eq, Out.ok_bind]

/-- The objective of these examples: 0 at one point, 1 elsewhere. -/
noncomputable def spike (y0 : Vec n) : ℕ → Vec n → FVal := fun _ y => open Classical in
  if y = y0 then .num 0 else .num 1

theorem spike_val (y0 : Vec n) (k : ℕ) (y : Vec n) : Val (spike y0 k y) := by
  have := dblMax_ge
  unfold spike
  split_ifs
  · exact Or.inr ⟨0, by simp only [abs_zero]; linarith, rfl⟩
  · exact Or.inr ⟨1, by simp only [abs_one]; linarith, rfl⟩

theorem spike_at (y0 : Vec n) (k : ℕ) : spike y0 k y0 = .num 0 := by unfold spike; rw [if_pos rfl]

theorem spike_off {y0 y : Vec n} (h : y ≠ y0) (k : ℕ) : spike y0 k y = .num 1 := by unfold spike; rw [if_neg h]

/-- The first run: four generations, the first at the best point, the others elsewhere. -/
theorem first_run {g : Vec n → Vec n} {p : Params n} {env : Env n} {s : Strat n} {e : Vec n} (hS : Still g p s)
    (hpf : ∀ k q sol, env.pfunc k q sol = 0) (hn : s.niter = 0) (hne : s.sol.nevals = 0)
    (hbs : s.sol.bestSeen = none) (hel : s.initialElitist = false) (he1 : s.p.elitist = false)
    (he2 : s.p.initialElitist = false) (hmf : s.p.maxFevals = 4 * s.p.lambda)
    (hf : env.f = spike (g (drift env s e))) (hinj : ∀ x, g x = g (drift env s e) → x = drift env s e)
    (hz : ∀ j < 2 * s.p.lambda, env.z (s.nz + j) = e) (hz' : ∀ j < 2 * s.p.lambda, env.z (s.nz + (2 * s.p.lambda + j)) = 0)
    (hez : e ≠ 0) :
    ∃ s1 b, (∀ k, s.loop env (k + 5) = .ok (some s1)) ∧ s1.sol.bestSeen = some b ∧ b.x = drift env s e ∧
      b.fvalue = .num 0 ∧ s1.sol.bestSeenIter = some 0 ∧ s1.niter = 4 ∧ s1.sol.bestCandidate.fvalue = .num 1 ∧
      s1.nz = s.nz + 4 * s.p.lambda ∧ s1.nevals = 4 * s.p.lambda ∧ s1.p = s.p ∧ EsSound s1 ∧ s1.crit = s.crit ∧
      s1.negate = false ∧ s1.kind = s.kind := by
  have hv : ∀ k y, Val (env.f k y) := by intro k y; rw [hf]; exact spike_val _ _ _
  have hlam := hS.live.good.lambda
  have hoff : ∀ t : Strat n, t.p = s.p → t.initialElitist = s.initialElitist → t.elitismOn = false := by
    intro t h1 h2
    unfold Strat.elitismOn
    rw [h1, h2, hel, he1, he2]
    simp
  have hlt : ¬ FVal.lt (.num 1) (.num 0) := by
    simp [FVal.lt]
  obtain ⟨t1, c1, l1, S1, n1, v1, i1, p1, a1, _, k1, m1, b1, x1, y1, -⟩ := hS.turn hv hpf (Or.inl hn) e
    (fun j hj => hz j (by omega))
  have x1 := x1.resolve_right (by rw [hoff s rfl rfl]; simp)
  obtain ⟨x1, j1, w1⟩ := x1
  rw [hf, spike_at] at w1
  obtain ⟨y1, z1⟩ := y1 hbs hn
  have m1 := m1 (hoff s rfl rfl)
  obtain ⟨t2, c2, l2, S2, n2, v2, i2, p2, a2, _, k2, m2, b2, x2, -, y2⟩ := S1.turn hv hpf (Or.inr (by
      rw [p1, hmf, v1, hne]; push_cast; omega)) e
    (fun j hj => by rw [p1] at hj; rw [n1, Nat.add_assoc]; exact hz _ (by omega))
  have x2 := x2.resolve_right (by rw [hoff t1 p1 a1]; simp)
  obtain ⟨x2, j2, w2⟩ := x2
  have hd2 : drift env t1 e ≠ drift env s e := by
    rw [← m1]; exact drift_ne S1.live.sigma (S1.live.full S1.sep).2.1 hez
  have hg2 : g (drift env t1 e) ≠ g (drift env s e) := fun h => hd2 (hinj _ h)
  rw [hf, spike_off hg2] at w2
  obtain ⟨y2, z2⟩ := y2 c1 y1 (by rw [w2, w1]; exact hlt)
  have m2 := m2 (hoff t1 p1 a1)
  obtain ⟨t3, c3, l3, S3, n3, v3, i3, p3, a3, _, k3, m3, b3, x3, -, y3⟩ := S2.turn hv hpf (Or.inr (by
      rw [p2, p1, hmf, v2, v1, hne, p1]; push_cast; omega)) 0
    (fun j hj => by
      rw [p2, p1] at hj; rw [n2, n1, p1, show s.nz + s.p.lambda + s.p.lambda + j = s.nz + (2 * s.p.lambda + j) by ring]
      exact hz' _ (by omega))
  have x3 := x3.resolve_right (by rw [hoff t2 (p2.trans p1) (a2.trans a1)]; simp)
  obtain ⟨x3, j3, w3⟩ := x3
  rw [hf, drift_zero, m2, spike_off hg2] at w3
  obtain ⟨y3, z3⟩ := y3 c1 y2 (by rw [w3, w1]; exact hlt)
  have m3 := m3 (hoff t2 (p2.trans p1) (a2.trans a1))
  rw [drift_zero, m2] at m3
  obtain ⟨t4, c4, l4, S4, n4, v4, i4, p4, a4, _, k4, m4, b4, x4, -, y4⟩ := S3.turn hv hpf (Or.inr (by
      rw [p3, p2, p1, hmf, v3, v2, v1, hne, p2, p1]; push_cast; omega)) 0
    (fun j hj => by
      rw [p3, p2, p1] at hj
      rw [n3, n2, n1, p2, p1, show s.nz + s.p.lambda + s.p.lambda + s.p.lambda + j =
        s.nz + (2 * s.p.lambda + (s.p.lambda + j)) by ring]
      exact hz' _ (by omega))
  have x4 := x4.resolve_right (by rw [hoff t3 (p3.trans (p2.trans p1)) (a3.trans (a2.trans a1))]; simp)
  obtain ⟨x4, j4, w4⟩ := x4
  rw [hf, drift_zero, m3, spike_off hg2] at w4
  obtain ⟨y4, z4⟩ := y4 c1 y3 (by rw [w4, w1]; exact hlt)
  have hp4 : t4.p = s.p := p4.trans (p3.trans (p2.trans p1))
  have hv4 : t4.sol.nevals = 4 * s.p.lambda := by
    rw [v4, v3, v2, v1, hne, p3, p2, p1]; ring
  have hh := S4.halt hpf (by omega) (by rw [hp4, hmf]; omega) (by rw [hp4, hmf, hv4]; push_cast; exact le_rfl)
  refine ⟨{ t4 with npf := t4.npf + 1, sol := { t4.sol with runStatus := 8 } }, c1, fun k => ?_, y4, x1, w1, z4.trans (z3.trans (z2.trans z1)), ?_, ?_, ?_, ?_, hp4, ?_, ?_, S4.negate, ?_⟩
  · rw [l1, l2, l3, l4, Strat.loop, hh, Out.ok_bind]
    simp only [if_true]
    rfl
  · show t4.niter = 4
    omega
  · show t4.sol.bestCandidate.fvalue = _
    rw [b4, w4]
  · show t4.nz = _
    rw [n4, n3, n2, n1, p3, p2, p1]; ring
  · show t4.nevals = _
    rw [S4.evals, hv4]
  · intro q hq
    exact S4.live.eig q hq
  · show t4.crit = s.crit
    have h1 := S4.flags
    have h2 := hS.flags
    unfold FlagsOf at h1 h2
    rw [h1, h2]
  · show t4.kind = s.kind
    rw [k4, k3, k2, k1]

/-- The restart, which begins at `m`, and its only generation. -/
theorem second_run {g : Vec n → Vec n} {p : Params n} {env : Env n} {s : Strat n} {b : Cand n} {m e : Vec n}
    (hg : GoodRun s.kind s.p) (hpf : ∀ k q sol, env.pfunc k q sol = 0) (hv : ∀ k y, Val (env.f k y))
    (hb : s.sol.bestSeen = some b) (hes : EsSound s) (hflags : FlagsOf p s.crit)
    (honly : OnlyActive p 8) (hsep : s.p.sep = false) (hlz : s.p.lazyUpdate = false) (hfx : s.p.fixedP = [])
    (hph : ∀ x, phenoV s.p.gp x = .ok (g x)) (hneg : s.negate = false) (hmx : s.p.maximize = false)
    (hmf : s.p.maxFevals ≠ -1) (hmf' : s.p.maxFevals ≤ s.nevals)
    (hm : initialMean { s.p with x0min := b.x, x0max := b.x } (env.rnd s.nrnd) = .ok m)
    (hz : ∀ j < s.p.lambda, env.z (s.nz + j) = e) :
    ∃ s3 s4 s5 j x v, s.elitistRestart env = .ok s3 ∧ s3.evalInitial env = .ok s4 ∧
      (∀ k, s4.loop env (k + 2) = .ok (some s5)) ∧ s3.sol.xmean = m ∧
      s5.p.withEdm = s.p.withEdm ∧ s5.p.initialElitistOnRestart = s.p.initialElitistOnRestart ∧
      v = env.f j (g m) ∧ s5.sol.bestCandidate.fvalue = env.f x (g (drift env s4 e)) ∧ s4.sol.xmean = m ∧
      Still g p s4 ∧
      (¬ FVal.lt (env.f x (g (drift env s4 e))) v → ∃ c, s5.sol.bestSeen = some c ∧ c.fvalue = v ∧ c.x = m ∧
        s5.sol.bestSeenIter = none) := by
  have hgd := hg.good
  obtain ⟨q, sol, hmk⟩ : ∃ q sol, Sol.make { s.p with x0min := b.x, x0max := b.x } (env.rnd s.nrnd) (env.z 0) =
      .ok (q, sol) := by
    unfold Sol.make
    rw [hm, Out.ok_bind, if_neg (by
      rintro (h | h)
      · replace h : s.p.lambda = 0 := h
        have := hgd.lambda; omega
      · have := hgd.dim; omega)]
    exact ⟨_, _, rfl⟩
  obtain ⟨a1, a2, a3, a4, a5, a6, a7, a8, a9, a10, a11, a12, a13, a14, a15⟩ := Sol.make_eq_ok hmk
  have hsol : sol.xmean = m := by rw [hm] at a1; injection a1 with a1; exact a1.symm
  set p2 : Params n := { s.p with x0min := b.x, x0max := b.x } with hp2
  have hsg : 0 < sol.sigma := by
    rw [a5]
    split_ifs with h
    · exact h
    · have : (0 : ℝ) < n := by exact_mod_cast hgd.dim
      positivity
  obtain ⟨s3, h3, e3⟩ : ∃ s3, s.elitistRestart env = .ok s3 ∧
      s3 = { s with initialElitist := true, p := q, sol := { sol with nevals := s.nevals }, niter := 0
                    nrnd := s.nrnd + 1, nz := if s.p.vd then 1 else s.nz } := by
    refine ⟨_, ?_, rfl⟩
    unfold Strat.elitistRestart
    rw [hb]
    simp only
    rw [hmk, Out.ok_bind]
    rfl
  have htpa : sol.tpaP1 = 0 ∧ sol.tpaP2 = 1 := by
    unfold Sol.make at hmk
    rw [hm, Out.ok_bind, if_neg (by
      rintro (h | h)
      · exact a2 h
      · exact a3 h)] at hmk
    injection hmk with hmk; injection hmk with _ hmk
    rw [← hmk]
    exact ⟨rfl, rfl⟩
  have hgr : GoodRun s.kind p2 := by
    obtain ⟨h1, h2, h3, h4, h5, h6, h7, h8⟩ := hg
    exact ⟨h1.same ⟨rfl, rfl, rfl, rfl, rfl, rfl, rfl, rfl, rfl, rfl, rfl, rfl, rfl, rfl, rfl, rfl, rfl⟩,
      ⟨h2.1, h2.2⟩, h3, h4, h5, h6, h7, h8⟩
  have hB : Begins s.kind p2 { s3 with initialElitist := false, sol := { s3.sol with nevals := 0 } } := by
    rw [e3]
    have hs0 : ({ sol with nevals := 0 } : Sol n) = sol := by rw [← a4.nevals]
    refine ⟨a3, a2, rfl, a6, hsg, ?_, rfl, hneg.trans hmx.symm, a10, a11, a13, a7, a8, a9, rfl, htpa.1, htpa.2⟩
    show Fresh _ ({ sol with nevals := 0 } : Sol n)
    rw [hs0]; exact a4
  have hq : q = { p2 with sigmaInit := sol.sigma } := a6
  have hx3 : s3.sol.xmean = m := by rw [e3]; exact hsol
  have hp3 : s3.p = q := by rw [e3]
  have hph3 : phenoV s3.p.gp s3.sol.xmean = .ok (g m) := by
    rw [hp3, hq, hx3]; exact hph m
  obtain ⟨s4, h4, e4⟩ : ∃ s4, s3.evalInitial env = .ok s4 ∧
      s4 = { s3 with calls := s3.calls ++ [(g m, env.f s3.calls.length (g m))], nevals := s3.nevals + 1
                     sol := { s3.sol with
                      nevals := s3.sol.nevals + 1
                      initialCand := some ⟨env.f s3.calls.length (g m), m, -1⟩
                      bestSeen := some ⟨env.f s3.calls.length (g m), m, -1⟩ } } := by
    have hne : s3.negate = false := by rw [e3]; exact hneg
    obtain ⟨s4, h4⟩ : ∃ s4, s3.evalInitial env = .ok s4 := by
      unfold Strat.evalInitial
      rw [if_pos (by rw [e3]; rfl), hph3, Out.ok_bind]
      exact ⟨_, rfl⟩
    refine ⟨s4, h4, ?_⟩
    unfold Strat.evalInitial at h4
    rw [if_pos (by rw [e3]; rfl), hph3, Out.ok_bind] at h4
    injection h4 with h4
    rw [← h4, ← hx3]
    simp only [hne]
    rfl
  have hS4 : Still g p s4 := by
    obtain ⟨hL, hR⟩ := start_live_any hgr hB (by intro e he; rw [e3] at he; exact hes e he) h4 (by
      intro k y
      have : p2.maximize = false := hmx
      rw [this]; exact hv k y)
    refine ⟨hL, hR, ?_, honly, ?_, ?_, ?_, ?_, ?_, ?_, ?_⟩
    · rw [e4, e3]; exact hflags
    · rw [e4, e3]; show q.sep = _; rw [hq]; exact hsep
    · rw [e4, e3]; show q.lazyUpdate = _; rw [hq]; exact hlz
    · rw [e4, e3]; show q.fixedP = _; rw [hq]; exact hfx
    · intro x; rw [e4, e3]; show phenoV q.gp x = _; rw [hq]; exact hph x
    · rw [e4, e3]; exact hneg
    · rw [e4, e3]; exact a4.runStatus
    · rw [e4, e3]
  have hnz4 : s4.nz = s.nz := by
    rw [e4, e3]
    show (if s.p.vd then 1 else s.nz) = _
    rw [if_neg (by rw [hg.vd]; simp)]
  have hl4 : s4.p.lambda = s.p.lambda := by rw [e4, e3]; show q.lambda = _; rw [hq]
  have hn4 : s4.niter = 0 := by rw [e4, e3]
  obtain ⟨t, c0, l1, S1, n1, v1, i1, p1, -, -, -, -, b1, x1, -, y1⟩ := hS4.turn hv hpf (Or.inl hn4) e (by
    rw [hl4, hnz4]; exact hz)
  have hoff : s4.elitismOn = false := by unfold Strat.elitismOn; rw [hn4]; rfl
  obtain ⟨x1, j1, w1⟩ := x1.resolve_right (by rw [hoff]; simp)
  have hpm : t.p.maxFevals = s.p.maxFevals := by rw [p1, e4, e3]; show q.maxFevals = _; rw [hq]
  have hv4 : s4.sol.nevals = s.nevals + 1 := by rw [e4, e3]
  have hh := S1.halt hpf (by omega) (by rw [hpm]; exact hmf) (by rw [hpm, v1, hv4]; push_cast; linarith)
  refine ⟨s3, s4, { t with npf := t.npf + 1, sol := { t.sol with runStatus := 8 } }, s3.calls.length, j1, env.f s3.calls.length (g m), h3, h4, fun k => ?_, hx3, ?_, ?_, rfl, ?_, ?_,
    hS4, fun hlt => ?_⟩
  · rw [l1, Strat.loop, hh, Out.ok_bind]
    simp only [if_true]
    rfl
  · show t.p.withEdm = _
    rw [p1, e4, e3]; show q.withEdm = _; rw [hq]
  · show t.p.initialElitistOnRestart = _
    rw [p1, e4, e3]; show q.initialElitistOnRestart = _; rw [hq]
  · show t.sol.bestCandidate.fvalue = _
    rw [b1, w1]
  · rw [e4]; exact hx3
  · obtain ⟨y2, z2⟩ := y1 ⟨env.f s3.calls.length (g m), m, -1⟩ (by rw [e4]) (by rw [w1]; exact hlt)
    refine ⟨_, y2, rfl, rfl, ?_⟩
    show t.sol.bestSeenIter = none
    rw [z2, e4, e3]; exact a15

theorem drift_injective {env : Env n} {s : Strat n} (hs : 0 < s.sol.sigma) (hC : PD s.sol.cov) :
    Function.Injective (drift env s) := by
  intro a b h
  by_contra hne
  refine drift_ne (env := env) hs hC (sub_ne_zero.2 hne) ?_
  unfold drift at h ⊢
  rw [mulVec_sub, smul_sub]
  have h1 := add_right_cancel h
  rw [h1, sub_self, zero_add]

/-- A draw that leads to none of two given points. -/
theorem draw_avoiding (hn : 1 ≤ n) {env : Env n} {s : Strat n} (hs : 0 < s.sol.sigma) (hC : PD s.sol.cov)
    (a b : Vec n) : ∃ e : Vec n, e ≠ 0 ∧ drift env s e ≠ a ∧ drift env s e ≠ b := by
  have : Nonempty (Fin n) := ⟨⟨0, hn⟩⟩
  have hf : (({0} : Set (Vec n)) ∪ drift env s ⁻¹' {a, b}).Finite :=
    (Set.finite_singleton _).union ((Set.toFinite _).preimage (drift_injective hs hC).injOn)
  obtain ⟨e, he⟩ := hf.exists_notMem
  refine ⟨e, fun h => he (Or.inl h), fun h => he (Or.inr (Or.inl h)), fun h => he (Or.inr (Or.inr h))⟩

/-- The settings of these examples: elitism mode 3, a budget of four generations as the only criterion. -/
noncomputable def budget4 (p : Params n) : Params n :=
  { (onlyCrit 8 p).setElitism 3 with maxFevals := 4 * p.lambda }

/-- The first run of these examples, and what the second one does from its mean `m` if its draws are `w`. -/
theorem two_stages (hn : 1 ≤ n) (gp : GenoPheno) (g : Vec n → Vec n) (hph : ∀ x : Vec n, phenoV gp x = .ok (g x))
    (hsc : ∀ x : Vec n, ∃ y, scaleToInternalV gp x = .ok y) (hinj : Function.Injective g)
    (x0 : Vec n) (sigma : ℝ) (seed clock : ℕ) (a a' w : Vec n) :
    ∃ env p s s1 b, Params.make x0 sigma (-1) seed clock gp = .ok p ∧ Usual .plain (budget4 p) ∧
      Strat.new env .plain (budget4 p) = .ok s ∧
      env.f = spike (g b.x) ∧ s.evalInitial env = .ok s ∧ (∀ k, s.loop env (k + 5) = .ok (some s1)) ∧
      s1.sol.bestSeen = some b ∧ b.fvalue = .num 0 ∧ b.x ≠ a ∧ b.x ≠ a' ∧ s1.wantsRestart = .ok true ∧
      s1.p.withEdm = false ∧ s1.p.gp = gp ∧ GoodParams s1.p ∧ s1.p.fixedP = [] ∧
      ∀ m, initialMean { s1.p with x0min := b.x, x0max := b.x } (env.rnd s1.nrnd) = .ok m →
        ∃ s3 s4 s5 j x v, s1.elitistRestart env = .ok s3 ∧ s3.evalInitial env = .ok s4 ∧
          (∀ k, s4.loop env (k + 2) = .ok (some s5)) ∧ s5.p.withEdm = false ∧
          s5.p.initialElitistOnRestart = true ∧ v = env.f j (g m) ∧
          s5.sol.bestCandidate.fvalue = env.f x (g (drift env s4 w)) ∧ s4.sol.xmean = m ∧
          0 < s4.sol.sigma ∧ (PD s4.sol.cov ∧ Live s4 ∧ Recorded s4 ∧ ∀ k q sol, env.pfunc k q sol = 0) ∧
          (¬ FVal.lt (env.f x (g (drift env s4 w))) v → ∃ c, s5.sol.bestSeen = some c ∧ c.fvalue = v ∧ c.x = m ∧
            s5.sol.bestSeenIter = none) := by
  obtain ⟨p, hp, _⟩ := C11_weights hn x0 sigma (-1) seed clock gp
  obtain ⟨hu0, hgp, hfx, -⟩ := usual_default (kind := .plain) (by norm_num) hp (by decide)
  obtain ⟨u1, u2, u3, u4, u5, u6, u7, u8, u9, u10, u11, u12, u13, u14⟩ := Params.make_plain hp
  obtain ⟨l1, l2, l3, l4⟩ := Params.make_limits hp
  obtain ⟨f1, f2⟩ := Params.make_flags hp
  have hu : Usual .plain (budget4 p) := by
    refine ⟨⟨.other hu0.configured ⟨rfl, rfl, rfl, rfl, rfl, rfl, rfl, rfl, rfl, rfl, rfl, rfl, rfl, rfl, rfl, rfl, rfl⟩,
      ⟨hu0.strict.1, hu0.strict.2⟩, hu0.update, hu0.vd, hu0.lazy, hu0.grad, rfl, ?_⟩, hu0.uh, hu0.tpa⟩
    rintro ⟨h, -⟩
    cases h
  have hgood := hu.configured.good.1
  have hlam := hgood.lambda
  have hnew : ∀ env : Env n, ∃ s, Strat.new env .plain (budget4 p) = .ok s := by
    intro env
    have h1 : ∃ m, initialMean (budget4 p) (env.rnd 0) = .ok m := by
      unfold initialMean
      simp only
      obtain ⟨m, hm⟩ := (setFixed_ok_iff (budget4 p).fixedP (if (budget4 p).x0min = (budget4 p).x0max then
        if (budget4 p).x0min = fun _ => -dblMax then fun i => env.rnd 0 i * 4 else (budget4 p).x0min
        else fun i => 0.5 * (env.rnd 0 i + 1) * ((budget4 p).x0max i - (budget4 p).x0min i) + (budget4 p).x0min i)).2
        hgood.fixed_lt
      rw [hm, Out.ok_bind, show (budget4 p).gp = gp from hgp]
      exact hsc m
    obtain ⟨m, hm⟩ := h1
    unfold Strat.new Sol.make
    rw [hm, Out.ok_bind, if_neg (by have := hgood.dim; omega)]
    exact ⟨_, rfl⟩
  obtain ⟨s, hs⟩ := hnew (Env.basic (fun _ _ => .num 0) fun _ => 0)
  have hB := begins_new hs
  have hpd : PD s.sol.cov := by rw [hB.fresh.cov]; exact PD_one
  obtain ⟨e, he, hea, hea'⟩ := draw_avoiding hn (env := Env.basic (fun _ _ => .num 0) fun _ => 0) hB.sigma hpd a a'
  set u0 := drift (Env.basic (fun _ _ => .num 0) fun _ => 0) s e with hu0'
  set env : Env n := { Env.basic (spike (g u0)) (fun k => if k < 2 * p.lambda then e else
    if k < 4 * p.lambda then 0 else w) with eig := (Env.basic (n := n) (fun _ _ => .num 0) fun _ => 0).eig } with henv
  have hs' : Strat.new env .plain (budget4 p) = .ok s := by
    rw [← hs]
    unfold Strat.new Sol.make
    have : (budget4 p).vd = false := hu.vd
    rw [this]
    rfl
  have hdr : drift env s e = u0 := rfl
  have hv : ∀ k y, Val (env.f k y) := fun k y => spike_val (g u0) k y
  have hpf : ∀ k q sol, env.pfunc k q sol = 0 := fun _ _ _ => rfl
  have hps : s.p = { budget4 p with sigmaInit := s.sol.sigma } := hB.params
  have hact := onlyCrit_active (c := 8) (by decide) p
  have hev : s.evalInitial env = .ok s := by
    unfold Strat.evalInitial
    have h1 : (budget4 p).initialFvalue = false := u7
    rw [hB.elitist, hps]
    simp only [h1]
    rfl
  have hmx : (budget4 p).maximize = false := u8
  obtain ⟨hL, hR⟩ := start_live hu.run.good (begins_new hs') (esSound_new hs') hev (by
    intro k y; rw [hmx]; exact hv k y)
  have hflags : FlagsOf (budget4 p) s.crit := new_crit hs' hact.1
  have honly : OnlyActive (budget4 p) 8 := hact.2
  have hneg : s.negate = false := hB.negate.trans hmx
  have hnz : s.nz = 0 ∧ s.nevals = 0 ∧ s.sol.bestSeenIter = none := by
    unfold Strat.new at hs
    obtain ⟨⟨p', sol⟩, hm, hs⟩ := Out.bind_eq_ok.1 hs
    injection hs with hs
    rw [← hs]
    exact ⟨rfl, rfl, (Sol.make_eq_ok hm).2.2.2.2.2.2.2.2.2.2.2.2.2.2⟩
  have hS : Still g (budget4 p) s := by
    refine ⟨hL, hR, hflags, honly, ?_, ?_, ?_, ?_, hneg, hB.fresh.runStatus, ?_⟩
    · rw [hps]; exact f1
    · rw [hps]; exact l4
    · rw [hps]; exact hfx
    · intro x; rw [hps]; show phenoV p.gp x = _; rw [hgp]; exact hph x
    · rw [hnz.2.1, hB.fresh.nevals]
  have hlp : s.p.lambda = p.lambda := by rw [hps]; rfl
  obtain ⟨s1, b, r1, r2, r3, r4, r5, r6, r7, r8, r9, r10, r11, r12, r13, r14⟩ := first_run (e := e) hS hpf hB.niter
    hB.fresh.nevals hB.fresh.bestSeen hB.elitist (by rw [hps]; rfl) (by rw [hps]; rfl) (by rw [hps]; rfl) rfl
    (fun x hx => hinj hx)
    (by intro j hj
        rw [hlp] at hj
        rw [hnz.1, Nat.zero_add]
        exact if_pos hj)
    (by intro j hj
        rw [hlp] at hj
        rw [hnz.1, Nat.zero_add, hlp]
        show (if 2 * p.lambda + j < 2 * p.lambda then e else if 2 * p.lambda + j < 4 * p.lambda then 0 else w) = _
        rw [if_neg (by omega), if_pos (by omega)])
    he
  have hp1 : s1.p = { budget4 p with sigmaInit := s.sol.sigma } := r10.trans hps
  have hg1 : GoodParams s1.p := by
    rw [hp1]
    exact hgood.same ⟨rfl, rfl, rfl, rfl, rfl, rfl, rfl, rfl, rfl, rfl, rfl, rfl, rfl, rfl, rfl, rfl, rfl⟩
  refine ⟨env, p, s, s1, b, hp, hu, hs', (by rw [r3]; rfl), hev, r1, r2, r4, by rw [r3]; exact hea, by rw [r3]; exact hea',
    ?_, by rw [hp1]; exact l2, by rw [hp1]; exact hgp, hg1, by rw [hp1]; exact hfx, ?_⟩
  · unfold Strat.wantsRestart
    rw [if_pos (by rw [hp1]; rfl), r2]
    simp only
    rw [r4, r7, if_pos (by simp [FVal.lt]), r5]
    simp only [r6]
    rfl
  · intro m hm
    have hgr : GoodRun s1.kind s1.p := by
      have hk : s1.kind = .plain := by rw [r14, hB.kind_eq]
      rw [hk, hp1]
      exact ⟨by rw [← hp1]; exact hg1, ⟨hu.strict.1, hu.strict.2⟩, by decide, hu.vd, fun h => (nomatch h), hu.grad,
        hu.uh, hu.tpa⟩
    obtain ⟨s3, s4, s5, j, x, v, c1, c2, c3, c4, c5, c6, c7, c8, c9, c10, c11⟩ := second_run (g := g) (p := budget4 p)
      (env := env) (s := s1) (e := w) hgr hpf hv r2 r11 (by rw [r12]; exact hflags) honly (by rw [hp1]; exact f1)
      (by rw [hp1]; exact l4) (by rw [hp1]; exact hfx)
      (by intro x; rw [hp1]; show phenoV p.gp x = _; rw [hgp]; exact hph x) r13 (by rw [hp1]; exact hmx)
      (by rw [hp1]; show (4 * (p.lambda : ℤ)) ≠ -1; omega)
      (by rw [hp1, r9, hlp]; show (4 * (p.lambda : ℤ)) ≤ _; push_cast; exact le_rfl) hm
      (by
        intro j _
        rw [r8, hnz.1, hlp]
        show (if 0 + 4 * p.lambda + j < 2 * p.lambda then e else if 0 + 4 * p.lambda + j < 4 * p.lambda then 0
          else w) = w
        rw [if_neg (by omega), if_neg (by omega)])
    exact ⟨s3, s4, s5, j, x, v, c1, c2, c3, by rw [c5, hp1]; exact l2, by rw [c6, hp1]; rfl, c7, c8, c9,
      c10.live.sigma, ⟨(c10.live.full c10.sep).2.1, c10.live, c10.recorded, hpf⟩, c11⟩

end Libcmaes
