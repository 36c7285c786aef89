import Verif.Lemmas.RestartRun

/-!
# Starting from an existing solution
-/

namespace Libcmaes

open Spec

variable {n : ℕ}

/-- The end of a run with sound settings is a live state. -/
theorem RunReady.end_live {env : Env n} {kind : CovKind} {s s1 : Strat n} {fuel : ℕ} (h : RunReady kind s)
    (hv : ValObjective env s.p) (h1 : s.optimize env fuel = .ok (some s1)) : Live s1 ∧ Recorded s1 := by
  obtain ⟨s0, tr, t, i1, i2, i3, i4, i5, i6, i7, i8, i9, i10⟩ :=
    optimize_end h.begins h.flags h.norestart h.edm h1
  obtain ⟨hL, hR⟩ := start_live h.good h.begins h.es i1 hv
  have hneg : s0.negate = s.p.maximize := by rw [(evalInitial_kept i1).2.2.2.2.1]; exact h.begins.negate
  obtain ⟨hL', hR', _⟩ := genRun_live i2.genRun hL hR (by rw [hneg]; exact hv)
  obtain ⟨k, r, e⟩ := Strat.stop_frame i3
  rw [e]
  exact ⟨hL'.withRun _ _, hR'.withRun _ _⟩

/-- What a search with the parameters `q` needs of the solution it starts from. -/
structure ResumeSol (q : Params n) (sol : Sol n) : Prop where
  csq : sol.hasCsq = true
  sigma : 0 < sol.sigma
  tpaPos : sol.tpaP1 < q.lambda ∧ sol.tpaP2 < q.lambda
  cands : sol.cands.length = q.lambda
  kcand : sol.kcand < q.lambda
  bestSeen : ∀ c, sol.bestSeen = some c → Val c.fvalue
  initialCand : ∀ c, sol.initialCand = some c → Val c.fvalue
  maxHist : 0 < sol.maxHist

/-- The solution of a run with full covariance is one. -/
theorem resumeSol {q : Params n} {s1 : Strat n} (hL : Live s1) (hR : Recorded s1) (hi : s1.niter ≠ 0)
    (hsep : s1.p.sep = false) (hl : q.lambda = s1.p.lambda) : ResumeSol q s1.sol :=
  ⟨((hL.full hsep).2.2 hi).1, hL.sigma, hl ▸ hL.tpaPos, hl ▸ hL.cands, hl ▸ hL.kcand, hR.bestSeen, hR.initialCand,
    hR.maxHist⟩

/-- The state in which the loop of `optimize` starts, when resuming from a solution. -/
theorem resume_live {env : Env n} {kind : CovKind} {q : Params n} {sol : Sol n} {s0 : Strat n}
    (hS : ResumeSol q sol) (hu : GoodRun kind q) (hq : q.sep = false) (hsg : 0 < q.sigmaInit)
    (hv : ∀ k y, Val (env.f k y)) (he : (Strat.newFromSolution kind q sol).evalInitial env = .ok s0) :
    Live s0 ∧ Recorded s0 := by
  have g4 := hS.csq
  set s := Strat.newFromSolution kind q sol with hs
  have hinit : s0 = s ∧ (s.p.elitist || s.p.initialElitist) = false ∨
      ∃ c : Cand n, Val c.fvalue ∧ s0.sol.initialCand = some c ∧ s0.sol.bestSeen = some c := by
    unfold Strat.evalInitial at he
    split_ifs at he with hc
    · right
      obtain ⟨y, hy, he⟩ := Out.bind_eq_ok.1 he
      injection he with he
      subst he
      exact ⟨_, hv s.calls.length y, rfl, rfl⟩
    · left
      injection he with he
      simp only [Bool.or_eq_true, not_or, Bool.not_eq_true] at hc
      exact ⟨he.symm, by simp [hc]⟩
  have hf := Strat.evalInitial_frame he
  have f1 : s0.p = s.p := by rcases hf with e | ⟨y, v, _, _, e⟩ <;> rw [e]
  have f2 : s0.kind = s.kind := by rcases hf with e | ⟨y, v, _, _, e⟩ <;> rw [e]
  have f3 : s0.es = s.es := by rcases hf with e | ⟨y, v, _, _, e⟩ <;> rw [e]
  have f4 : s0.niter = s.niter := by rcases hf with e | ⟨y, v, _, _, e⟩ <;> rw [e]
  have f5 : s0.initialElitist = s.initialElitist := by rcases hf with e | ⟨y, v, _, _, e⟩ <;> rw [e]
  have g1 : s0.sol.tpaP1 = s.sol.tpaP1 ∧ s0.sol.tpaP2 = s.sol.tpaP2 ∧ s0.sol.pathsOk = s.sol.pathsOk ∧
      s0.sol.sigma = s.sol.sigma ∧ s0.sol.cands = s.sol.cands ∧ s0.sol.kcand = s.sol.kcand ∧
      s0.sol.niter = s.sol.niter ∧ s0.sol.hasCov = s.sol.hasCov ∧ s0.sol.cov = s.sol.cov ∧
      s0.sol.bestHist = s.sol.bestHist ∧
      s0.sol.kBestHist = s.sol.kBestHist ∧ s0.sol.bfvalues = s.sol.bfvalues ∧
      s0.sol.medianFvalues = s.sol.medianFvalues ∧ s0.sol.maxHist = s.sol.maxHist := by
    rcases hf with e | ⟨y, v, _, _, e⟩ <;> rw [e] <;>
      exact ⟨rfl, rfl, rfl, rfl, rfl, rfl, rfl, rfl, rfl, rfl, rfl, rfl, rfl, rfl⟩
  obtain ⟨g1, g2, g3, g4', g5, g6, g7, g8, g9, g12, g13, g14, g15, g16⟩ := g1
  have hg : GoodParams s.p :=
    hu.good.same ⟨rfl, rfl, rfl, rfl, rfl, rfl, rfl, rfl, rfl, rfl, rfl, rfl, rfl, rfl, rfl, rfl, rfl⟩
  refine ⟨⟨⟨f1 ▸ hg, ?_, f2 ▸ hu.update, ?_, ?_, ?_, ?_, ?_, g3 ▸ g4, g4' ▸ hS.sigma, ?_, ?_, ?_, ?_, ?_, ?_, ?_⟩,
    ?_, ?_⟩, ?_, ?_, ?_, ?_, ?_, ?_, ?_, ?_, ?_⟩
  · rw [f1]; exact ⟨hu.strict.1, hu.strict.2⟩
  · rw [f1]; exact hu.vd
  · rw [f1, f2]; exact hu.lazy
  · rw [f1]; exact hu.grad
  · rw [g1, g2, f1]
    exact hS.tpaPos
  · intro e he; rw [f3] at he; cases he
  · rw [f1, g5]
    exact hS.cands
  · rw [f1, g6]
    exact hS.kcand
  · rw [g7, f4]; rfl
  · intro _
    exact ⟨by rw [g8]; exact g4, by rw [g9]; exact PD_one, fun h => absurd f4 h⟩
  · intro h
    rw [f1] at h
    exact absurd (hq.symm.trans h) (by decide)
  · intro h; exact absurd f4 h
  · intro a b
    rcases hinit with ⟨e, hc⟩ | ⟨c, _, hc, _⟩
    · exfalso
      rw [f1, f5, hc] at b
      simp [hs, Strat.newFromSolution] at b
    · rw [hc]; rfl
  · rw [f1]; exact hu.uh
  · rw [f1]; exact hu.tpa
  · intro c hc
    rcases hinit with ⟨e, _⟩ | ⟨d, hd, _, hd2⟩
    · rw [e] at hc; exact hS.bestSeen c hc
    · rw [hd2] at hc; injection hc with hc; exact hc ▸ hd
  · intro c hc
    rcases hinit with ⟨e, _⟩ | ⟨d, hd, hd2, _⟩
    · rw [e] at hc; exact hS.initialCand c hc
    · rw [hd2] at hc; injection hc with hc; exact hc ▸ hd
  · rw [g12]; intro c hc; cases hc
  · rw [g14]; intro c hc; cases hc
  · rw [g15]; intro c hc; cases hc
  · rw [g12, g13]; rfl
  · rw [g16]; exact hS.maxHist
  · rw [f1]; exact hsg
  · intro h; exact absurd f4 h

theorem flagsOf_default (q : Params n) : FlagsOf { q with stoppingCrit := [] } critDefault := by
  unfold FlagsOf critDefault
  show List.map _ stopCodes = _
  refine List.map_congr_left fun c _ => ?_
  simp

/-- No test beyond the automatic limit lets the loop go on. -/
theorem auto_limit_all {env : Env n} {s s0 t t' : Strat n} {tr} (hs : s.niter = 0) (hsn : s.sol.niter = 0)
    (hc : s.crit = critDefault) (hl0 : 0 < s.p.lambda) (hn : 0 < autoLimit s.p)
    (h0 : s.evalInitial env = .ok s0) (h1 : LoopTo env s0 tr t) (hl : ⌈autoLimit s.p⌉₊ ≤ tr.length) :
    t.stop env ≠ .ok (false, t') := by
  intro hf
  obtain ⟨e1, e2, e3, e4, _⟩ := evalInitial_kept h0
  obtain ⟨r1, _, _, r4, r5, _, r7, _⟩ := run_p h1.askRun.run
  have hc' : FlagsOf { s.p with stoppingCrit := [] } t.crit := by rw [r7, e2, hc]; exact flagsOf_default _
  have hsn : t.sol.niter = tr.length := by rw [r5, e4, hsn]; omega
  have hpl : t.p = s.p := by rw [r1, e1]
  have hpos : 0 < tr.length := lt_of_lt_of_le (Nat.ceil_pos.2 hn) hl
  rcases (stop_false hf).2.2 with ⟨h2, _⟩ | ⟨_, h2, _⟩
  · rw [r4, e3, hs] at h2; omega
  · have := stopCrit_zero h2 7 ((hc'.mem 7).2 ⟨by decide, by simp⟩)
    rw [show critFun env.fladd 7 t.p t.sol = critAutoMaxIter t.p t.sol from rfl] at this
    classical
    rw [crit_autoMaxIter (by rw [hpl]; exact hl0)] at this
    injection this with this
    by_cases ham : AutoMaxIter t.p t.sol
    · rw [if_pos ham] at this; cases this
    · refine ham ?_
      unfold AutoMaxIter
      rw [hpl, hsn]
      exact le_trans (Nat.le_ceil _) (by exact_mod_cast hl)

/-- A resumed run: it ends, and all criteria are active in it. -/
theorem resume_run {env : Env n} {kind : CovKind} {q : Params n} {sol : Sol n}
    (hS : ResumeSol q sol) (hu : GoodRun kind q) (hq : q.sep = false) (hsg : 0 < q.sigmaInit) (hv : ∀ k y, Val (env.f k y))
    (hg : ∀ x : Vec n, ∃ y : Vec n, phenoV q.gp x = .ok y) (he : q.withEdm = false)
    (hr : q.initialElitistOnRestart = false) :
    ∃ t, (∀ fuel, ⌈autoLimit q⌉₊ + 1 ≤ fuel →
        (Strat.newFromSolution kind q sol).optimize env fuel = .ok (some t)) ∧
      t.niter ≤ ⌈autoLimit q⌉₊ ∧ t.sol.niter = t.niter ∧
      ((∀ k q sol, env.pfunc k q sol = 0) → t.niter ≠ 0 ∧ t.sol.runStatus ∈ stopCodes ∧
        critFun env.fladd t.sol.runStatus t.p t.sol = .ok t.sol.runStatus) := by
  set s := Strat.newFromSolution kind q sol with hs
  have hlam := hu.good.lambda
  have hpos : 0 < autoLimit s.p := by unfold autoLimit; positivity
  have hlim : autoLimit s.p = autoLimit q := rfl
  obtain ⟨a1, a2, a3⟩ := optimize_ends (env := env) (s := s) (N := ⌈autoLimit q⌉₊) hr
    fun s0 tr t t' i1 i2 i3 => auto_limit_all rfl rfl rfl (by show 0 < q.lambda; omega) hpos i1 i2 (by rw [hlim]; exact i3)
  have hini : ∃ s0, s.evalInitial env = .ok s0 := by
    unfold Strat.evalInitial
    split_ifs
    · obtain ⟨y, hy⟩ := hg s.sol.xmean
      have hy' : phenoV s.p.gp s.sol.xmean = .ok y := hy
      rw [hy']
      exact ⟨_, rfl⟩
    · exact ⟨_, rfl⟩
  obtain ⟨s0, h1⟩ := hini
  obtain ⟨hL0, hR0⟩ := resume_live hS hu hq hsg hv h1
  have hp0 : s0.p = s.p := (evalInitial_kept h1).1
  obtain ⟨o, ho⟩ := loop_total (env := env) (p := { q with stoppingCrit := [] }) (⌈autoLimit q⌉₊ + 1) hL0 hR0
    (by rw [(evalInitial_kept h1).2.1]; exact flagsOf_default q)
    (by rw [(evalInitial_kept h1).2.2.2.2.1]; exact hv) (by rw [hp0]; exact hg)
  have hend : ∃ t, s.optimize env (⌈autoLimit q⌉₊ + 1) = .ok (some t) := by
    rw [Strat.optimize, h1, Out.ok_bind, ho, Out.ok_bind] at a2 ⊢
    cases o with
    | none => exact absurd rfl a2
    | some s2 =>
      simp only at a2 ⊢
      have hp1 : s2.p = s.p := by
        obtain ⟨_, hrun⟩ := Strat.loop_run _ ho
        rw [(run_p hrun).1, hp0]
      rw [if_neg (by rw [hp1, hs]; simp [Strat.newFromSolution, he]), Out.pure_eq, Out.ok_bind,
        wantsRestart_off (by rw [hp1]; exact hr), Out.ok_bind]
      exact ⟨s2, rfl⟩
  obtain ⟨t, ht⟩ := hend
  have hn := a3 _ ht
  refine ⟨t, fun fuel hf => by rw [a1 fuel hf, ht], by simpa [hs, Strat.newFromSolution] using hn, ?_⟩
  obtain ⟨s0', s2, tr, u, j1, j2, j3, j4⟩ := optimize_plain hr ht
  obtain ⟨e1, e2, e3, e4, _, e6, e7, _⟩ := evalInitial_kept j1
  obtain ⟨r1, _, _, r4, r5, _, r7, _⟩ := run_p j2.askRun.run
  obtain ⟨n1, n2⟩ := j2.npf (by rw [e7]; rfl)
  have hup : u.p = s.p := by rw [r1, e1]
  obtain ⟨k, r, e⟩ := Strat.stop_frame j3
  rw [if_neg (by rw [e, hup]; simp [hs, Strat.newFromSolution, he])] at j4
  injection j4 with j4
  subst j4
  refine ⟨by rw [e]; show u.sol.niter = u.niter; rw [r4, r5, e3, e4]; rfl, fun hp => ?_⟩
  rcases stop_true j3 with ⟨a, _⟩ | ⟨_, a, b⟩ | ⟨_, a, b, c, d, e, f⟩
  · omega
  · exact absurd (hp _ _ _) a
  · have hc' : FlagsOf { q with stoppingCrit := [] } u.crit := by rw [r7, e2]; exact flagsOf_default q
    obtain ⟨g1, g2⟩ := stopCrit_status hc' e d
    rw [f]
    exact ⟨b, g1.1, g2⟩

/-! ### Diagonal covariance -/

/-- With a diagonal covariance the inverse square root of the full one is never computed. -/
theorem generation_hasCsq {env : Env n} {s s' : Strat n} (hsep : s.p.sep = true) (h : s.generation env = .ok s') :
    s'.sol.hasCsq = s.sol.hasCsq := by
  unfold Strat.generation at h
  obtain ⟨⟨pop, s1⟩, ha, h⟩ := Out.bind_eq_ok.1 h
  obtain ⟨phen, hp, h⟩ := Out.bind_eq_ok.1 h
  obtain ⟨s2, he, h⟩ := Out.bind_eq_ok.1 h
  obtain ⟨s3, ht, h⟩ := Out.bind_eq_ok.1 h
  injection h with h
  subst h
  obtain ⟨⟨es, ei, ue, c, nz, x1, x2, p1, p2, e1⟩, hpl⟩ := Strat.ask_frame ha
  obtain ⟨c2, nu, nzuh, lr, cu, cs, e2, hcs, _⟩ := Strat.eval_frame he
  have hq : s2.sol.hasCsq = s.sol.hasCsq := by rw [e2, e1]
  have hs2 : s2.p.sep = true := by rw [e2, e1]; exact hsep
  obtain ⟨t, tS, sol3, sol4, h1, _, h3, h4, h5⟩ := Strat.tell_ok ht
  obtain ⟨cu', su, cs', e3⟩ := Strat.rank_frame h1
  obtain ⟨c0, ck, cl, med, _, _, _, _, e4, _⟩ := Sol.updateBest_ok h3
  obtain ⟨sg', mx, mn, lv, le, e5⟩ := Strat.tellFinish_frame h5
  show s3.sol.hasCsq = _
  rw [← hq, e5]
  show sol4.hasCsq = _
  have h6 : sol3.hasCsq = s2.sol.hasCsq := by rw [e4, e3]
  have h7 : sol4.hasCsq = sol3.hasCsq := by
    unfold covarianceUpdate at h4
    split at h4
    · rw [if_pos hs2] at h4
      obtain ⟨_, _, csq, hb, _, _, rfl⟩ := covUpdateSep_ok h4
      rfl
    · rw [if_pos hs2] at h4
      obtain ⟨_, _, _, _, csq, hb, cm, _, _, _, rfl⟩ := acovUpdateSep_ok h4
      rfl
    · obtain ⟨_, _, _, _, _, hb, g, _, _, rfl⟩ := vdUpdate_ok h4
      rfl
  rw [h7, h6]

theorem generations_hasCsq {env : Env n} {s s' : Strat n} (k : ℕ) (hsep : s.p.sep = true)
    (h : s.generations env k = .ok s') : s'.sol.hasCsq = s.sol.hasCsq := by
  induction k generalizing s with
  | zero => injection h with h; rw [h]
  | succ k ih =>
    obtain ⟨s1, h1, h2⟩ := Out.bind_eq_ok.1 h
    obtain ⟨tr, hr⟩ := Strat.generation_run h1
    rw [ih (by rw [(run_p hr).1]; exact hsep) h2, generation_hasCsq hsep h1]

theorem Sol.make_hasCsq {p p' : Params n} {rnd z0 : Vec n} {s : Sol n}
    (h : Sol.make p rnd z0 = .ok (p', s)) : s.hasCsq = false := by
  unfold Sol.make at h
  obtain ⟨m, hm, h⟩ := Out.bind_eq_ok.1 h
  by_cases h0 : p.lambda = 0 ∨ n = 0
  · rw [if_pos h0] at h; cases h
  · rw [if_neg h0] at h
    injection h with h
    injection h with h1 h2
    rw [← h2]

/-- An update with paths of the wrong size. -/
theorem covarianceUpdate_paths {eig : EigSolver n} {k : CovKind} {p : Params n} {es : Es n} {s : Sol n}
    (hm : p.mu ≤ s.cands.length) (hp : s.pathsOk = false) : covarianceUpdate eig k p es s = .error .ub := by
  have : updatePre p s = .error .ub := by
    unfold updatePre
    rw [if_neg (by omega), if_pos hp]
  unfold covarianceUpdate
  cases k with
  | plain =>
    simp only
    split_ifs
    · unfold covUpdateSep; rw [this]; rfl
    · unfold covUpdateFull; rw [this]; rfl
  | active =>
    simp only
    split_ifs
    · unfold acovUpdateSep; rw [this]; rfl
    · unfold acovUpdateFull; rw [this]; rfl
  | vd => simp only; unfold vdUpdate; rw [this]; rfl

/-- A generation from a state with paths of the wrong size. -/
theorem generation_paths {env : Env n} {s : Strat n} (hg : GoodParams s.p) (hvd : s.p.vd = false)
    (hgr : s.p.withGradient = false) (huh : s.p.uh = false) (htpa : s.p.tpa ≠ 2)
    (hsep : s.p.sep = true) (hs : s.sol.hasSep = true ∧ ∀ i, 0 < s.sol.sepcov i)
    (hc : s.sol.cands.length = s.p.lambda) (hk : s.sol.kcand < s.p.lambda)
    (hel : s.elitismOn = false) (hr : RefNum s) (hf : ∀ k y, (env.f k y).IsNum)
    (hph : ∀ x : Vec n, ∃ y : Vec n, phenoV s.p.gp x = .ok y) (hp : s.sol.pathsOk = false) :
    s.generation env = .error .ub := by
  have hA : AskLive s := ⟨hg.fixed_lt, hvd, hgr, fun h => absurd h (by simp [hsep]), fun _ => hs, fun h => absurd h htpa⟩
  obtain ⟨pop, s1, hask, -⟩ := Strat.ask_total (env := env) hA
  obtain ⟨⟨es, ei, ue, c, nz, x1, x2, p1, p2, e1⟩, hpl⟩ := Strat.ask_frame hask
  have hel1 : s1.elitismOn = false := by rw [e1]; exact hel
  obtain ⟨phen, hphen⟩ : ∃ phen, s1.phenoCols pop = .ok phen :=
    Out.mapM_ok_of fun x _ => by rw [e1]; exact hph x
  have hphl : phen.length = s.p.lambda := by rw [← hpl]; exact (Out.mapM_length hphen).symm
  obtain ⟨s2, hev⟩ := Strat.eval_total (env := env) (s := s1) (cols := pop) (phen := phen)
    (by rw [e1]; exact huh) (by rw [e1]; exact hg.lambda) (by rw [e1]; exact hc)
    (by rw [hpl, e1]) (by rw [hphl, e1]) (by rw [hel1]; intro h; cases h)
  have hnn : NoNaN s2.sol.cands := eval_noNaN (by rw [e1]; exact huh) (by rw [hpl, e1]; exact hc.le) hf
    (by rw [e1]; exact hr) hev
  obtain ⟨c2, nu, nzuh, lr, cu, cs, e2, hcs, _⟩ := Strat.eval_frame hev
  obtain ⟨cs', hcs'⟩ : ∃ cs', stableSort candLt s2.sol.cands = .ok cs' := by
    unfold stableSort; rw [if_pos (strictWeakOn_of_noNaN hnn)]; exact ⟨_, rfl⟩
  have hlen : cs'.length = s.p.lambda := by
    rw [(stableSort_eq_ok hcs').2.perm.length_eq, e2]
    show cs.length = _
    rw [hcs, e1]; exact hc
  have hrank : s2.rank env = .ok { s2 with sol := { s2.sol with cands := cs' } } := by
    unfold Strat.rank
    rw [if_neg (by rw [e2, e1]; simp [huh])]
    unfold Sol.sortCandidates
    rw [hcs']; rfl
  obtain ⟨sol3, h3⟩ := Strat.updateBest_total (s := { s2.sol with cands := cs' }) (by
    show s2.sol.kcand < cs'.length
    rw [hlen, e2, e1]; exact hk)
  obtain ⟨c0, ck, cl, med, _, _, _, _, e3, _⟩ := Sol.updateBest_ok h3
  have h4 : covarianceUpdate env.eig s2.kind s2.p s2.es sol3 = .error .ub := covarianceUpdate_paths
    (by
      have hmu : s.p.mu ≤ s.p.lambda := by rw [hg.mu]; omega
      rw [e3]
      show s2.p.mu ≤ cs'.length
      rw [hlen, e2, e1]; exact hmu)
    (by rw [e3]; show s2.sol.pathsOk = false; rw [e2, e1]; exact hp)
  unfold Strat.generation
  rw [hask, Out.ok_bind]
  simp only
  rw [hphen, Out.ok_bind, hev, Out.ok_bind]
  have : s2.tell env = .error .ub := by
    unfold Strat.tell
    rw [hrank, Out.ok_bind, if_neg (by
      rintro ⟨h, _⟩
      exact htpa (by rw [e2, e1] at h; exact h)), Out.pure_eq, Out.ok_bind]
    show (Sol.updateBest { s2.sol with cands := cs' } >>= _) = _
    rw [h3, Out.ok_bind]
    show (covarianceUpdate env.eig s2.kind s2.p s2.es sol3 >>= _) = _
    rw [h4]; rfl
  rw [this]; rfl

end Libcmaes
