import Verif.Model.Plot
import Verif.Spec.Plot
import Verif.Lemmas.StopWit
import Verif.Lemmas.Elitism
import Verif.Lemmas.Quad
import Verif.Lemmas.Stats

/-!
# The plot file: helper lemmas
-/

namespace Libcmaes

open Spec

variable {n : ℕ}

theorem stopPlot_ok {env : Env n} {pl : PlotFn n} {s s' : Strat n} {b : Bool} {rows : List PlotRow}
    (h : s.stopPlot env pl = .ok (b, s', rows)) :
    s.stop env = .ok (b, s') ∧
      (rows = [] ∧ b = true ∧ (s.sol.runStatus < 0 ∨ env.pfunc s.npf s.p s.sol ≠ 0) ∨
        0 ≤ s.sol.runStatus ∧ env.pfunc s.npf s.p s.sol = 0 ∧ pl s.npf s.p s.sol = .ok rows) := by
  unfold Strat.stopPlot at h
  unfold Strat.stop
  by_cases h1 : s.sol.runStatus < 0
  · rw [if_pos h1] at h ⊢
    injection h with h
    injection h with ha h
    injection h with hb hc
    subst ha hb hc
    exact ⟨rfl, Or.inl ⟨rfl, rfl, Or.inl h1⟩⟩
  rw [if_neg h1] at h ⊢
  simp only at h ⊢
  by_cases h2 : env.pfunc s.npf s.p s.sol ≠ 0
  · rw [if_pos h2] at h ⊢
    injection h with h
    injection h with ha h
    injection h with hb hc
    subst ha hb hc
    exact ⟨rfl, Or.inl ⟨rfl, rfl, Or.inr h2⟩⟩
  rw [if_neg h2] at h ⊢
  obtain ⟨r, hr, h⟩ := Out.bind_eq_ok.1 h
  have h2' : env.pfunc s.npf s.p s.sol = 0 := not_not.1 h2
  by_cases h3 : s.niter = 0
  · rw [if_pos h3] at h ⊢
    injection h with h
    injection h with ha h
    injection h with hb hc
    subst ha hb hc
    exact ⟨rfl, Or.inr ⟨not_lt.1 h1, h2', hr⟩⟩
  · rw [if_neg h3] at h ⊢
    obtain ⟨c, hc', h⟩ := Out.bind_eq_ok.1 h
    injection h with h
    injection h with ha h
    injection h with hb hc
    subst ha hb hc
    rw [hc', Out.ok_bind]
    exact ⟨rfl, Or.inr ⟨not_lt.1 h1, h2', hr⟩⟩

theorem stopPlot_of {env : Env n} {pl : PlotFn n} {s s' : Strat n} {b : Bool} (h : s.stop env = .ok (b, s'))
    (hp : ∃ rows, pl s.npf s.p s.sol = .ok rows) : ∃ rows, s.stopPlot env pl = .ok (b, s', rows) := by
  obtain ⟨rows, hp⟩ := hp
  unfold Strat.stop at h
  unfold Strat.stopPlot
  by_cases h1 : s.sol.runStatus < 0
  · rw [if_pos h1] at h ⊢
    injection h with h
    injection h with ha hb
    subst ha hb
    exact ⟨_, rfl⟩
  rw [if_neg h1] at h ⊢
  simp only at h ⊢
  by_cases h2 : env.pfunc s.npf s.p s.sol ≠ 0
  · rw [if_pos h2] at h ⊢
    injection h with h
    injection h with ha hb
    subst ha hb
    exact ⟨_, rfl⟩
  rw [if_neg h2] at h ⊢
  rw [hp, Out.ok_bind]
  by_cases h3 : s.niter = 0
  · rw [if_pos h3] at h ⊢
    injection h with h
    injection h with ha hb
    subst ha hb
    exact ⟨_, rfl⟩
  · rw [if_neg h3] at h ⊢
    obtain ⟨c, hc', h⟩ := Out.bind_eq_ok.1 h
    injection h with h
    injection h with ha hb
    subst ha hb
    rw [hc', Out.ok_bind]
    exact ⟨_, rfl⟩

/-- A test that lets the loop go on leaves a status that is not negative. -/
theorem stop_goes_on {env : Env n} {s s' : Strat n} (h : s.stop env = .ok (false, s')) : 0 ≤ s'.sol.runStatus := by
  unfold Strat.stop at h
  by_cases h1 : s.sol.runStatus < 0
  · rw [if_pos h1] at h
    injection h with h
    injection h with h _
    cases h
  rw [if_neg h1] at h
  simp only at h
  by_cases h2 : env.pfunc s.npf s.p s.sol ≠ 0
  · rw [if_pos h2] at h
    injection h with h
    injection h with h _
    cases h
  rw [if_neg h2] at h
  by_cases h3 : s.niter = 0
  · rw [if_pos h3] at h
    injection h with h
    injection h with _ h
    rw [← h]
    exact not_lt.1 h1
  · rw [if_neg h3] at h
    obtain ⟨c, hc, h⟩ := Out.bind_eq_ok.1 h
    injection h with h
    injection h with ha hb
    rw [← hb]
    have : c = 0 := by simpa using ha
    show 0 ≤ c
    rw [this]

theorem genRun_stop_cons {env : Env n} {s s1 t : Strat n} {b : Bool} {k : ℕ} (h : s.stop env = .ok (b, s1))
    (hr : GenRun env s1 k t) : GenRun env s k t := by
  induction hr with
  | refl => exact .stop (.refl _) h
  | stop _ i ih => exact .stop ih i
  | turn _ i ih => exact .turn ih i

/-- The loop with a plot file: the same search, and a block of rows for each test. -/
theorem loopPlot_blocks {env : Env n} {pl : PlotFn n} (k : ℕ) {s s' : Strat n} {file : List PlotRow}
    (h0 : 0 ≤ s.sol.runStatus) (h : s.loopPlot env pl k = .ok (some (s', file))) :
    s.loop env k = .ok (some s') ∧ ∃ (g : ℕ) (t : Strat n) (blocks : List (List PlotRow)), GenRun env s g t ∧ t.stop env = .ok (true, s') ∧
      file = blocks.flatten ∧
      (∀ j rows, blocks[j]? = some rows → ∃ u, GenRun env s j u ∧ pl u.npf u.p u.sol = .ok rows) ∧
      (blocks.length = g + 1 ∧ env.pfunc t.npf t.p t.sol = 0 ∨ blocks.length = g ∧ env.pfunc t.npf t.p t.sol ≠ 0) := by
  induction k generalizing s file with
  | zero => cases h
  | succ k ih =>
    rw [Strat.loopPlot] at h
    obtain ⟨⟨b, s1, rows⟩, h1, h⟩ := Out.bind_eq_ok.1 h
    obtain ⟨hs, hrows⟩ := stopPlot_ok h1
    simp only at h
    rw [Strat.loop, hs, Out.ok_bind]
    cases b with
    | true =>
      simp only [if_true] at h ⊢
      injection h with h
      injection h with h
      injection h with ha hb
      subst ha hb
      refine ⟨rfl, ?_⟩
      rcases hrows with ⟨e1, -, e2⟩ | ⟨-, e2, e3⟩
      · refine ⟨0, s, [], .refl _, hs, by rw [e1]; rfl, by simp, Or.inr ⟨rfl, e2.resolve_left (by omega)⟩⟩
      · refine ⟨0, s, [rows], .refl _, hs, by simp, ?_, Or.inl ⟨rfl, e2⟩⟩
        intro j r hj
        cases j with
        | zero => simp at hj; subst hj; exact ⟨s, .refl _, e3⟩
        | succ j => simp at hj
    | false =>
      simp only [Bool.false_eq_true, if_false] at h ⊢
      obtain ⟨s2, h2, h⟩ := Out.bind_eq_ok.1 h
      obtain ⟨o, h3, h⟩ := Out.bind_eq_ok.1 h
      rw [h2, Out.ok_bind]
      match o, h3, h with
      | none, _, h => cases h
      | some (t', file'), h3, h =>
        simp only at h
        injection h with h
        injection h with h
        injection h with ha hb
        subst ha hb
        have hge : 0 ≤ s2.sol.runStatus := by rw [(generation_npf h2).2]; exact stop_goes_on hs
        obtain ⟨hl, g, t, blocks, q1, q2, q3, q4, q5⟩ := ih hge h3
        refine ⟨hl, g + 1, t, rows :: blocks, genRun_stop_cons hs (genRun_cons h2 q1), q2, ?_, ?_, ?_⟩
        · rw [q3, List.flatten_cons]
        · intro j r hj
          cases j with
          | zero =>
            simp at hj
            subst hj
            rcases hrows with ⟨-, e, -⟩ | ⟨-, -, e3⟩
            · cases e
            · exact ⟨s, .refl _, e3⟩
          | succ j =>
            rw [List.getElem?_cons_succ] at hj
            obtain ⟨u, hu, hp⟩ := q4 j r hj
            exact ⟨u, genRun_stop_cons hs (genRun_cons h2 hu), hp⟩
        · rcases q5 with ⟨a, b⟩ | ⟨a, b⟩
          · exact Or.inl ⟨by simp [a], b⟩
          · exact Or.inr ⟨by simp [a], b⟩

/-- If the plot function is defined in every state of the run, so is the loop with a plot file. -/
theorem loopPlot_of {env : Env n} {pl : PlotFn n} (k : ℕ) {s s' : Strat n} (h : s.loop env k = .ok (some s'))
    (hp : ∀ j u, GenRun env s j u → ∃ rows, pl u.npf u.p u.sol = .ok rows) :
    ∃ file, s.loopPlot env pl k = .ok (some (s', file)) := by
  induction k generalizing s with
  | zero => cases h
  | succ k ih =>
    rw [Strat.loop] at h
    obtain ⟨⟨b, s1⟩, h1, h⟩ := Out.bind_eq_ok.1 h
    obtain ⟨rows, hr⟩ := stopPlot_of h1 (hp 0 s (.refl _))
    rw [Strat.loopPlot, hr, Out.ok_bind]
    simp only at h ⊢
    cases b with
    | true =>
      simp only [if_true] at h ⊢
      injection h with h
      injection h with h
      subst h
      exact ⟨rows, rfl⟩
    | false =>
      simp only [Bool.false_eq_true, if_false] at h ⊢
      obtain ⟨s2, h2, h⟩ := Out.bind_eq_ok.1 h
      rw [h2, Out.ok_bind]
      obtain ⟨file, hf⟩ := ih h fun j u hu => hp (j + 1) u (genRun_stop_cons h1 (genRun_cons h2 hu))
      rw [hf, Out.ok_bind]
      exact ⟨rows ++ file, rfl⟩

theorem cut {α : Type} {A B C : List α} {a b : ℕ} (ha : A.length = a) (hb : B.length = b) :
    ((A ++ B ++ C).drop a).take b = B := by
  subst ha hb
  simp

theorem vecCols_length (x : Vec n) : (vecCols x).length = n := by simp [vecCols]

theorem eigCols_length (s : Sol n) : (eigCols s).length = n := by
  unfold eigCols
  split_ifs <;> exact vecCols_length _

/-- `stds` is defined wherever the transform is. -/
theorem stds_defined {s : Strat n} (hL : LiveCore s) (hg : ∀ x : Vec n, ∃ y : Vec n, phenoV s.p.gp x = .ok y) :
    ∃ sd, s.sol.stds s.p.gp s.p.sep s.p.vd = .ok sd := by
  have hraw : ∃ r, s.sol.rawStds s.p.sep s.p.vd = .ok r := by
    unfold Sol.rawStds
    rw [hL.vd]
    cases hs : s.p.sep with
    | false =>
      obtain ⟨h1, h2, _⟩ := hL.full hs
      simp only [Bool.not_false, Bool.and_self, if_true, h1]
      unfold sqrtV
      rw [if_pos fun i => (h2.diag_pos i).le]
      exact ⟨_, rfl⟩
    | true =>
      obtain ⟨h1, h2⟩ := hL.sep hs
      simp only [Bool.not_true, Bool.false_and, if_true, h1, Bool.false_eq_true, if_false]
      unfold sqrtV
      rw [if_pos fun i => (h2 i).le]
      exact ⟨_, rfl⟩
  obtain ⟨r, hr⟩ := hraw
  obtain ⟨m, hm⟩ := hg s.sol.xmean
  obtain ⟨m', hm'⟩ := hg fun i => s.sol.xmean i + r i
  unfold Sol.stds
  rw [hm, Out.ok_bind, hr, Out.ok_bind, hm', Out.ok_bind]
  exact ⟨_, rfl⟩

theorem plotLine_defined {s : Strat n} (tms : List ℝ) (hL : LiveCore s)
    (hg : ∀ x : Vec n, ∃ y : Vec n, phenoV s.p.gp x = .ok y) : ∃ rows, plotLine tms s.p s.sol = .ok rows := by
  obtain ⟨sd, h1⟩ := stds_defined hL hg
  obtain ⟨m, h2⟩ := hg s.sol.xmean
  unfold plotLine
  rw [h1, Out.ok_bind, h2, Out.ok_bind]
  exact ⟨_, rfl⟩

theorem plotLineFull_defined {s : Strat n} (tms : List ℝ) (hL : LiveCore s)
    (hg : ∀ x : Vec n, ∃ y : Vec n, phenoV s.p.gp x = .ok y) : ∃ rows, plotLineFull tms s.p s.sol = .ok rows := by
  obtain ⟨sd, h1⟩ := stds_defined hL hg
  obtain ⟨m, h2⟩ := hg s.sol.xmean
  have hlen : s.sol.cands.length / 2 < s.sol.cands.length := by
    have := hL.cands
    have := hL.good.lambda
    omega
  unfold plotLineFull
  simp only
  rw [List.getElem?_eq_getElem hlen]
  simp only
  rw [Out.ok_bind, h1, Out.ok_bind, h2, Out.ok_bind]
  exact ⟨_, rfl⟩

/-- After a generation, the extreme eigenvalues are those of the list. -/
theorem genRun_eig {env : Env n} {s t : Strat n} {k : ℕ} (h : GenRun env s k t) (hk : k ≠ 0) :
    t.sol.maxEigenv = maxCoeff t.sol.leigenvalues ∧ t.sol.minEigenv = minCoeff t.sol.leigenvalues := by
  induction h with
  | refl => exact absurd rfl hk
  | stop _ i ih =>
    obtain ⟨k, r, e⟩ := Strat.stop_frame i
    rw [e]
    exact ih hk
  | turn _ i ih =>
    unfold Strat.generation at i
    obtain ⟨⟨pop, s1⟩, ha, i⟩ := Out.bind_eq_ok.1 i
    obtain ⟨phen, hp, i⟩ := Out.bind_eq_ok.1 i
    obtain ⟨s2, he, i⟩ := Out.bind_eq_ok.1 i
    obtain ⟨s3, ht, i⟩ := Out.bind_eq_ok.1 i
    injection i with i
    subst i
    obtain ⟨t1, tS, u3, u4, _, _, _, _, hfin⟩ := Strat.tell_ok ht
    unfold Strat.tellFinish at hfin
    simp only at hfin
    by_cases h0 : n = 0
    · rw [if_pos h0] at hfin; cases hfin
    rw [if_neg h0] at hfin
    by_cases hc : (!s2.p.sep && !s2.p.vd) = true
    · rw [if_pos hc] at hfin
      cases hes : s2.es.eig with
      | none => rw [hes] at hfin; cases hfin
      | some ee =>
        rw [hes] at hfin
        injection hfin with hfin
        subst hfin
        exact ⟨rfl, rfl⟩
    · rw [if_neg hc] at hfin
      injection hfin with hfin
      subst hfin
      exact ⟨rfl, rfl⟩

/-- After a generation, the best candidate is the first of the population, and none has a smaller value. -/
theorem genRun_best {env : Env n} {s t : Strat n} {k : ℕ} (h : GenRun env s k t) (hk : k ≠ 0)
    (huh : s.p.uh = false) (hm : 0 < s.sol.maxHist) :
    t.sol.cands[0]? = some t.sol.bestCandidate ∧
      ∀ c ∈ t.sol.cands, ¬ FVal.lt c.fvalue t.sol.bestCandidate.fvalue := by
  induction h with
  | refl => exact absurd rfl hk
  | stop _ i ih =>
    obtain ⟨k, r, e⟩ := Strat.stop_frame i
    rw [e]
    exact ih hk
  | turn hr i ih =>
    obtain ⟨tr, _, hrun⟩ := hr.askRun
    obtain ⟨p1, -, p3, -⟩ := run_p hrun.run
    unfold Strat.generation at i
    obtain ⟨⟨pop, s1⟩, ha, i⟩ := Out.bind_eq_ok.1 i
    obtain ⟨phen, hp, i⟩ := Out.bind_eq_ok.1 i
    obtain ⟨s2, he, i⟩ := Out.bind_eq_ok.1 i
    obtain ⟨s3, ht, i⟩ := Out.bind_eq_ok.1 i
    injection i with i
    subst i
    obtain ⟨⟨es, ei, ue, c, nz, x1, x2, q1, q2, e1⟩, hpl⟩ := Strat.ask_frame ha
    obtain ⟨c2, nu, nzuh, lr, cu, cs, e2, hcs, _⟩ := Strat.eval_frame he
    have hu : s2.p.uh = false := by rw [e2, e1]; show _ = _; rw [p1]; exact huh
    have hmh : 0 < s2.sol.maxHist := by rw [e2, e1]; show 0 < _; rw [p3]; exact hm
    obtain ⟨cs', cu', su, ts, sol3, hs, hb, csq, hc, sc, ps, hs', pc, cov, sep, v, sg, xp, xm, mx, mn, lv, le,
      e3⟩ := Strat.tell_frame ht
    obtain ⟨c0, ck, cl, med, h0, hk', hl, hmed, eb, _⟩ := Sol.updateBest_ok hb
    have hmin : FirstMin s2.sol.cands c0 := firstMin_of_stableSort (hs hu) h0
    have hperm := (stableSort_eq_ok (hs hu)).2.perm
    have hcand : s3.incIter.sol.cands = cs' := by rw [e3, eb]; rfl
    have hne : sol3.bestHist.getLast? = some c0 := by
      rw [eb]
      simp only
      split_ifs with hif
      · rw [List.getLast?_tail, if_neg]
        · simp
        · intro hlen
          rw [hlen] at hif
          omega
      · simp
    have hbest : s3.incIter.sol.bestCandidate = c0 := by
      rw [e3]
      show (match sol3.bestHist.getLast? with | some c => c | none => _) = _
      rw [hne]
    rw [hcand, hbest]
    refine ⟨h0, fun d hd => ?_⟩
    have hd' := hperm.mem_iff.1 hd
    obtain ⟨pre, post, hl', hpre, hpost⟩ := hmin
    rw [hl'] at hd'
    rcases List.mem_append.1 hd' with h | h
    · exact FVal.lt_asymm (hpre d h)
    · rcases List.mem_cons.1 h with h | h
      · rw [h]; exact FVal.lt_irrefl _
      · exact hpost d h

/-- A fresh solution has no eigenvalues yet. -/
theorem new_noeig {env : Env n} {kind : CovKind} {p : Params n} {s : Strat n} (h : Strat.new env kind p = .ok s) :
    s.sol.hasLeig = false ∧ s.sol.minEigenv = 0 ∧ s.sol.maxEigenv = 0 := by
  unfold Strat.new at h
  obtain ⟨⟨p', sol⟩, hm, h⟩ := Out.bind_eq_ok.1 h
  injection h with h
  subst h
  unfold Sol.make at hm
  obtain ⟨m, -, hm⟩ := Out.bind_eq_ok.1 hm
  by_cases h0 : p.lambda = 0 ∨ n = 0
  · rw [if_pos h0] at hm; cases hm
  · rw [if_neg h0] at hm
    injection hm with hm
    injection hm with _ hm
    subst hm
    exact ⟨rfl, rfl, rfl⟩

theorem started_noeig {env : Env n} {kind : CovKind} {p : Params n} {s : Strat n} (h : Started env kind p s) :
    s.sol.hasLeig = false ∧ s.sol.minEigenv = 0 ∧ s.sol.maxEigenv = 0 := by
  rcases h with ⟨-, s0, h0, h1⟩ | ⟨-, h0⟩
  · have := new_noeig h0
    rcases Strat.evalInitial_frame h1 with e | ⟨y, v, -, -, e⟩ <;> rw [e] <;> exact this
  · exact new_noeig h0

theorem genRun_noeig {env : Env n} {s t : Strat n} {k : ℕ} (h : GenRun env s k t) (hk : k = 0)
    (h0 : s.sol.hasLeig = false ∧ s.sol.minEigenv = 0 ∧ s.sol.maxEigenv = 0) :
    t.sol.hasLeig = false ∧ t.sol.minEigenv = 0 ∧ t.sol.maxEigenv = 0 := by
  induction h with
  | refl => exact h0
  | stop _ i ih =>
    obtain ⟨k, r, e⟩ := Strat.stop_frame i
    rw [e]
    exact ih hk
  | turn _ i ih => cases hk

/-- Blocks of one row each. -/
theorem flatten_singletons {α : Type} {bs : List (List α)} (h : ∀ b ∈ bs, ∃ r, b = [r]) :
    bs.flatten.length = bs.length ∧ ∀ (j : ℕ) r, bs.flatten[j]? = some r → bs[j]? = some [r] := by
  induction bs with
  | nil => simp
  | cons b bs ih =>
    obtain ⟨r, rfl⟩ := h b (by simp)
    obtain ⟨h1, h2⟩ := ih fun b hb => h b (by simp [hb])
    refine ⟨by simp only [List.flatten_cons, List.singleton_append, List.length_cons, h1], fun j q hq => ?_⟩
    cases j with
    | zero => simpa using hq
    | succ j => exact h2 j q (by simpa using hq)

theorem plotLine_ok {tms : List ℝ} {p : Params n} {s : Sol n} {rows : List PlotRow}
    (h : plotLine tms p s = .ok rows) :
    ∃ sd m, s.stds p.gp p.sep p.vd = .ok sd ∧ phenoV p.gp s.xmean = .ok m ∧
      rows = [.data ([s.bestCandidate.fvalue.abs, .ofReal s.nevals, .ofReal s.sigma, condCol s] ++ eigCols s ++
        vecCols sd ++ vecCols m ++ tms.map FVal.ofReal)] := by
  unfold plotLine at h
  obtain ⟨sd, h1, h⟩ := Out.bind_eq_ok.1 h
  obtain ⟨m, h2, h⟩ := Out.bind_eq_ok.1 h
  injection h with h
  exact ⟨sd, m, h1, h2, h.symm⟩

theorem plotLineFull_ok {tms : List ℝ} {p : Params n} {s : Sol n} {rows : List PlotRow}
    (h : plotLineFull tms p s = .ok rows) :
    ∃ c sd m, s.cands[s.cands.length / 2]? = some c ∧ s.stds p.gp p.sep p.vd = .ok sd ∧
      phenoV p.gp s.xmean = .ok m ∧
      rows = (if s.niter = 0 then [.head n p.getSeed] else []) ++
      [.data ([s.bestCandidate.fvalue.abs, .ofReal s.nevals, .ofReal s.sigma, condCol s,
        (s.bestSeen.elim .nan (·.fvalue)), c.fvalue, (s.worstSeen.elim .nan (·.fvalue)),
        .ofReal s.minEigenv, .ofReal s.maxEigenv] ++ vecCols (s.bestSeen.elim 0 (·.x)) ++ eigCols s ++
        vecCols sd ++ vecCols m ++ tms.map FVal.ofReal)] := by
  unfold plotLineFull at h
  obtain ⟨med, h0, h⟩ := Out.bind_eq_ok.1 h
  obtain ⟨sd, h1, h⟩ := Out.bind_eq_ok.1 h
  obtain ⟨m, h2, h⟩ := Out.bind_eq_ok.1 h
  injection h with h
  cases hc : s.cands[s.cands.length / 2]? with
  | none => rw [hc] at h0; cases h0
  | some c =>
    rw [hc] at h0
    injection h0 with h0
    subst h0
    exact ⟨c, sd, m, rfl, h1, h2, h.symm⟩

theorem loopPlot_search {env : Env n} {pl : PlotFn n} (k : ℕ) {s : Strat n} {o : Option (Strat n × List PlotRow)}
    (h : s.loopPlot env pl k = .ok o) : s.loop env k = .ok (o.map Prod.fst) := by
  induction k generalizing s o with
  | zero => injection h with h; subst h; rfl
  | succ k ih =>
    rw [Strat.loopPlot] at h
    obtain ⟨⟨b, s1, rows⟩, h1, h⟩ := Out.bind_eq_ok.1 h
    obtain ⟨hs, -⟩ := stopPlot_ok h1
    rw [Strat.loop, hs, Out.ok_bind]
    simp only at h ⊢
    cases b with
    | true =>
      simp only [if_true] at h ⊢
      injection h with h
      subst h
      rfl
    | false =>
      simp only [Bool.false_eq_true, if_false] at h ⊢
      obtain ⟨s2, h2, h⟩ := Out.bind_eq_ok.1 h
      obtain ⟨o', h3, h⟩ := Out.bind_eq_ok.1 h
      rw [h2, Out.ok_bind, ih h3]
      cases o' with
      | none => injection h with h; subst h; rfl
      | some q => injection h with h; subst h; rfl

/-- Cutting the line of the default format. -/
theorem read_default {tms : List ℝ} {a b c d : FVal} {E S M : List FVal} (hE : E.length = n) (hS : S.length = n)
    (hM : M.length = n) (ht : tms.length = 1) :
    readLine ([a, b, c, d] ++ E ++ S ++ M ++ tms.map FVal.ofReal) = ⟨n, a, b, c, d, E, S, M⟩ := by
  have hd : (([a, b, c, d] ++ E ++ S ++ M ++ tms.map FVal.ofReal).length - 4) / 3 = n := by
    simp only [List.length_append, List.length_map, hE, hS, hM, ht, List.length_cons, List.length_nil]
    omega
  unfold readLine
  simp only [hd]
  have e1 : (([a, b, c, d] ++ E ++ S ++ M ++ tms.map FVal.ofReal).drop 4).take n = E := by
    rw [List.append_assoc, List.append_assoc]
    exact cut rfl hE
  have e2 : (([a, b, c, d] ++ E ++ S ++ M ++ tms.map FVal.ofReal).drop (4 + n)).take n = S := by
    rw [List.append_assoc]
    exact cut (by simp [hE]; omega) hS
  have e3 : (([a, b, c, d] ++ E ++ S ++ M ++ tms.map FVal.ofReal).drop (4 + n + n)).take n = M :=
    cut (by simp [hE, hS]; omega) hM
  rw [e1, e2, e3]
  rfl

/-- Cutting the line of a surrogate strategy. -/
theorem read_surr {a b c d t x y z : FVal} {E S M : List FVal} (hE : E.length = n) (hS : S.length = n)
    (hM : M.length = n) :
    readSurr ([a, b, c, d] ++ E ++ S ++ M ++ [t] ++ [x, y, z]) = ⟨⟨n, a, b, c, d, E, S, M⟩, x, y, z⟩ := by
  have hd : (([a, b, c, d] ++ E ++ S ++ M ++ [t] ++ [x, y, z]).length - 4 - 3) / 3 = n := by
    simp only [List.length_append, hE, hS, hM, List.length_cons, List.length_nil]
    omega
  unfold readSurr
  simp only [hd]
  have e1 : (([a, b, c, d] ++ E ++ S ++ M ++ [t] ++ [x, y, z]).drop 4).take n = E := by
    rw [List.append_assoc, List.append_assoc, List.append_assoc]
    exact cut rfl hE
  have e2 : (([a, b, c, d] ++ E ++ S ++ M ++ [t] ++ [x, y, z]).drop (4 + n)).take n = S := by
    rw [List.append_assoc, List.append_assoc]
    exact cut (by simp [hE]; omega) hS
  have e3 : (([a, b, c, d] ++ E ++ S ++ M ++ [t] ++ [x, y, z]).drop (4 + n + n)).take n = M := by
    rw [List.append_assoc]
    exact cut (by simp [hE, hS]; omega) hM
  have hl : ([a, b, c, d] ++ E ++ S ++ M ++ [t]).length = 4 + 3 * n + 1 := by
    simp only [List.length_append, hE, hS, hM, List.length_cons, List.length_nil]
    omega
  have e4 : ∀ i, ([a, b, c, d] ++ E ++ S ++ M ++ [t] ++ [x, y, z]).getD (4 + 3 * n + 1 + i) .nan =
      [x, y, z].getD i .nan := by
    intro i
    rw [← hl, List.getD_eq_getElem?_getD, List.getElem?_append_right (by omega), Nat.add_sub_cancel_left,
      List.getD_eq_getElem?_getD]
  rw [e1, e2, e3, e4 0, show 4 + 3 * n + 2 = 4 + 3 * n + 1 + 1 from rfl, e4 1,
    show 4 + 3 * n + 3 = 4 + 3 * n + 1 + 2 from rfl, e4 2]
  rfl

/-- Cutting the line of the complete format. -/
theorem read_full {T : List FVal} {a b c d e f g h k : FVal} {X E S M : List FVal} (hX : X.length = n)
    (hE : E.length = n) (hS : S.length = n) (hM : M.length = n) :
    readLegacy n ([a, b, c, d, e, f, g, h, k] ++ X ++ E ++ S ++ M ++ T) =
      ⟨⟨n, a, b, c, d, E, S, M⟩, e, f, g, h, k, X⟩ := by
  have e0 : (([a, b, c, d, e, f, g, h, k] ++ X ++ E ++ S ++ M ++ T).drop 9).take n = X := by
    rw [List.append_assoc, List.append_assoc, List.append_assoc]
    exact cut rfl hX
  have e1 : (([a, b, c, d, e, f, g, h, k] ++ X ++ E ++ S ++ M ++ T).drop (9 + n)).take n = E := by
    rw [List.append_assoc, List.append_assoc]
    exact cut (by simp [hX]; omega) hE
  have e2 : (([a, b, c, d, e, f, g, h, k] ++ X ++ E ++ S ++ M ++ T).drop (9 + n + n)).take n = S := by
    rw [List.append_assoc]
    exact cut (by simp [hX, hE]; omega) hS
  have e3 : (([a, b, c, d, e, f, g, h, k] ++ X ++ E ++ S ++ M ++ T).drop (9 + n + n + n)).take n = M :=
    cut (by simp [hX, hE, hS]; omega) hM
  unfold readLegacy
  rw [e0, e1, e2, e3]
  rfl

theorem stopped_niter {env : Env n} {kind : CovKind} {p : Params n} {s t s' : Strat n} {g : ℕ} {b : Bool}
    (hs : Started env kind p s) (hr : GenRun env s g t) (h : t.stop env = .ok (b, s')) : s'.niter = g := by
  obtain ⟨tr, hl, hrun⟩ := (GenRun.stop hr h).askRun
  obtain ⟨_, _, _, hn, _⟩ := run_p hrun.run
  rw [hn, hs.zero.1, hl]; omega

end Libcmaes
