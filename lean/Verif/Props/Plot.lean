import Verif.Lemmas.Plot
import Verif.Lemmas.ElitistRestartWit
import Verif.Props.Eval
import Verif.Props.ElitistRestart

/-!
# C101: the plot file
-/

namespace Libcmaes

open Spec

variable {n : ℕ}

/-- **C101**: writing a plot file, by whatever function, does not influence the search: when `optimize()` with
the file returns, `optimize()` without it returns the same, after the same restarts. -/
theorem C101_search (env : Env n) (pl : PlotFn n) (k : ℕ) (s : Strat n) (o : Option (Strat n × List PlotRow))
    (h : s.optimizePlot env pl k = .ok o) : s.optimize env k = .ok (o.map Prod.fst) := by
  induction k generalizing s o with
  | zero => injection h with h; subst h; rfl
  | succ k ih =>
    rw [Strat.optimizePlot] at h
    obtain ⟨s0, h0, h⟩ := Out.bind_eq_ok.1 h
    obtain ⟨o1, h1, h⟩ := Out.bind_eq_ok.1 h
    rw [Strat.optimize, h0, Out.ok_bind, loopPlot_search _ h1, Out.ok_bind]
    cases o1 with
    | none => injection h with h; subst h; rfl
    | some q =>
      obtain ⟨s1, file⟩ := q
      simp only [Option.map_some] at h ⊢
      obtain ⟨s2, h2, h⟩ := Out.bind_eq_ok.1 h
      obtain ⟨b, hb, h⟩ := Out.bind_eq_ok.1 h
      rw [h2, Out.ok_bind, hb, Out.ok_bind]
      cases b with
      | false =>
        simp only [Bool.false_eq_true, if_false] at h ⊢
        injection h with h
        subst h
        rfl
      | true =>
        simp only [if_true] at h ⊢
        obtain ⟨s3, h3, h⟩ := Out.bind_eq_ok.1 h
        obtain ⟨o2, h4, h⟩ := Out.bind_eq_ok.1 h
        rw [h3, Out.ok_bind, ih _ _ h4]
        cases o2 with
        | none => injection h with h; subst h; rfl
        | some q => injection h with h; subst h; rfl

/-- The number of calls at the start. -/
theorem started_calls {env : Env n} {kind : CovKind} {p : Params n} {s : Strat n} (h : Started env kind p s) :
    s.sol.nevals = s.calls.length := by
  rcases h with ⟨-, s0, h0, h1⟩ | ⟨-, h0⟩
  · have e1 : s0.calls = [] := (Strat.new_ok h0).2.2.2.2.2.2.2.2.1
    have e2 : s0.sol.nevals = 0 := (Strat.new_ok h0).2.2.2.2.2.1.nevals
    rcases Strat.evalInitial_frame h1 with e | ⟨y, v, -, -, e⟩
    · rw [e, e1, e2]; rfl
    · rw [e]; simp [e1, e2]
  · rw [(Strat.new_ok h0).2.2.2.2.2.2.2.2.1, (Strat.new_ok h0).2.2.2.2.2.1.nevals]; rfl

/-- The facts about a state of the run on which the lines rest. -/
theorem line_facts {env : Env n} {kind : CovKind} {p : Params n} {s t : Strat n} {j : ℕ} (hs : Started env kind p s)
    (hv : ValObjective env p) (hr : GenRun env s j t) {m sd : Vec n} {r : Reading}
    (hm : phenoV t.p.gp t.sol.xmean = .ok m) (hsd : t.sol.stds t.p.gp t.p.sep t.p.vd = .ok sd)
    (d1 : r.dim = n) (d2 : r.fevals = .ofReal t.sol.nevals) (d3 : r.sigma = .ofReal t.sol.sigma)
    (d4 : r.xmean = vecCols m) (d5 : r.stds = vecCols sd) (d6 : r.eigenv = eigCols t.sol)
    (d7 : r.kappa = condCol t.sol) (d8 : r.fvalue = t.sol.bestCandidate.fvalue.abs) : Describes j t r := by
  obtain ⟨hL, hR, hv'⟩ := hs.live hv
  obtain ⟨hL', hR', _⟩ := genRun_live hr hL hR hv'
  obtain ⟨tr, hl, hrun⟩ := hr.askRun
  obtain ⟨_, _, _, hn, _⟩ := run_p hrun.run
  have hnj : t.niter = j := by rw [hn, hs.zero.1, hl]; omega
  refine ⟨d1, ?_, d3, ⟨m, hm, d4⟩, ⟨sd, hsd, d5, ?_⟩, fun hj => ?_, fun hj => ?_, fun hj => ?_⟩
  · obtain ⟨c, e1, -, e3⟩ := C36_run env s t tr hrun.run
    rw [d2, e3, e1, started_calls hs, List.length_append]
  · unfold Sol.stds at hsd
    obtain ⟨m1, _, hsd⟩ := Out.bind_eq_ok.1 hsd
    obtain ⟨r1, _, hsd⟩ := Out.bind_eq_ok.1 hsd
    obtain ⟨ms, _, hsd⟩ := Out.bind_eq_ok.1 hsd
    injection hsd with hsd
    subst hsd
    exact fun i => abs_nonneg _
  · have hz : t.sol.hasLeig = false ∧ t.sol.minEigenv = 0 := by
      subst hj
      exact ⟨(genRun_noeig hr rfl (started_noeig hs)).1, (genRun_noeig hr rfl (started_noeig hs)).2.1⟩
    refine ⟨?_, ?_⟩
    · rw [d6, eigCols, hz.1]; rfl
    · rw [d7, condCol, if_pos hz.2]
  · obtain ⟨e1, e2, e3, e4⟩ := hR'.eig (by rw [hnj]; exact hj)
    obtain ⟨f1, f2⟩ := genRun_eig hr hj
    have hne : Nonempty (Fin n) := ⟨⟨0, hL'.good.dim⟩⟩
    refine ⟨by rw [d6, eigCols, e1]; rfl, t.sol.minEigenv, t.sol.maxEigenv, fun i => ?_, ?_, ?_, e4, ?_⟩
    · rw [f1, f2]; exact ⟨minCoeff_le _ _, le_maxCoeff _ _⟩
    · rw [f2]; exact exists_eq_ciInf_of_finite
    · rw [f1]; exact exists_eq_ciSup_of_finite
    · rw [d7, condCol, if_neg e4.ne', sqrtF, if_neg (not_lt.2 (div_nonneg e3 e4.le))]
  · obtain ⟨b1, b2⟩ := genRun_best hr hj hL.uh hR.maxHist
    exact ⟨_, b1, b2, d8⟩

/-- A line of the default format, written at any time of a run, describes the search at that time. -/
theorem line_default {env : Env n} {kind : CovKind} {p : Params n} {s t : Strat n} {j : ℕ}
    (hs : Started env kind p s) (hv : ValObjective env p) (hr : GenRun env s j t) {tm : ℝ} {rows : List PlotRow}
    (h : plotLine [tm] t.p t.sol = .ok rows) :
    ∃ cols, rows = [.data cols] ∧ cols.length = 5 + 3 * n ∧ Describes j t (readLine cols) := by
  obtain ⟨sd, m, h1, h2, rfl⟩ := plotLine_ok h
  refine ⟨_, rfl, ?_, ?_⟩
  · simp only [List.length_append, List.length_map, eigCols_length, vecCols_length, List.length_cons, List.length_nil]
    omega
  · rw [read_default (eigCols_length _) (vecCols_length _) (vecCols_length _) rfl]
    exact line_facts hs hv hr h2 h1 rfl rfl rfl rfl rfl rfl rfl rfl

/-- **C101**, the default format.  The loop of `optimize()`, or a loop written by hand with the same steps,
leaves one line for each generation and one for the start (no line for the last test if the progress function
ended the run).  Line `j` has `5 + 3 n` columns, and the script `cma_multiplt.py`, which has to guess the
dimension, reads from it the state of the search after `j` generations: see `Describes`. -/
theorem C101_file (env : Env n) (kind : CovKind) (p : Params n) (s s' : Strat n) (tm : ℕ → ℝ) (k : ℕ)
    (file : List PlotRow) (hs : Started env kind p s) (hv : ValObjective env p)
    (h : s.loopPlot env (fun k => plotLine [tm k]) k = .ok (some (s', file))) :
    (file.length = s'.niter + 1 ∨
      file.length = s'.niter ∧ ∃ t, GenRun env s s'.niter t ∧ env.pfunc t.npf t.p t.sol ≠ 0) ∧
    ∀ j row, file[j]? = some row → ∃ t cols, GenRun env s j t ∧ row = .data cols ∧ cols.length = 5 + 3 * n ∧
      Describes j t (readLine cols) := by
  obtain ⟨-, g, t, blocks, h1, h2, rfl, h4, h5⟩ := loopPlot_blocks k hs.zero.2.2.ge h
  have hone : ∀ b ∈ blocks, ∃ r, b = [r] := by
    intro b hb
    obtain ⟨i, hi⟩ := List.mem_iff_getElem?.1 hb
    obtain ⟨u, hu, hp⟩ := h4 i b hi
    obtain ⟨cols, e, -⟩ := line_default hs hv hu hp
    exact ⟨_, e⟩
  obtain ⟨hlen, hat⟩ := flatten_singletons hone
  have hg := stopped_niter hs h1 h2
  refine ⟨?_, fun j row hj => ?_⟩
  · rw [hlen, hg]
    rcases h5 with ⟨e, -⟩ | ⟨e, hp⟩
    · exact Or.inl e
    · exact Or.inr ⟨e, t, h1, hp⟩
  · obtain ⟨u, hu, hp⟩ := h4 j _ (hat j row hj)
    obtain ⟨cols, e, e1, e2⟩ := line_default hs hv hu hp
    exact ⟨u, cols, hu, by injection e, e1, e2⟩

theorem line_full {env : Env n} {kind : CovKind} {p : Params n} {s t : Strat n} {j : ℕ}
    (hs : Started env kind p s) (hv : ValObjective env p) (hr : GenRun env s j t) {tms : List ℝ}
    {rows : List PlotRow} (h : plotLineFull tms t.p t.sol = .ok rows) :
    ∃ cols, rows = (if j = 0 then [.head n p.getSeed] else []) ++ [.data cols] ∧ cols.length = 9 + 4 * n + tms.length ∧
      Describes j t (readLegacy n cols).toReading ∧ DescribesFull t (readLegacy n cols) := by
  obtain ⟨c, sd, m, h0, h1, h2, rfl⟩ := plotLineFull_ok h
  obtain ⟨hL, hR, hv'⟩ := hs.live hv
  obtain ⟨hL', hR', _⟩ := genRun_live hr hL hR hv'
  obtain ⟨tr, hl, hrun⟩ := hr.askRun
  obtain ⟨hp, _, _, hn, _⟩ := run_p hrun.run
  have hnj : t.sol.niter = j := by rw [hL'.niter, hn, hs.zero.1, hl]; omega
  have hseed : t.p.getSeed = p.getSeed := by rw [hp, hs.p]; rfl
  refine ⟨_, by rw [hnj, hseed], ?_, ?_⟩
  · simp only [List.length_append, List.length_map, eigCols_length, vecCols_length, List.length_cons, List.length_nil]
    omega
  · rw [read_full (vecCols_length _) (eigCols_length _) (vecCols_length _) (vecCols_length _)]
    refine ⟨line_facts hs hv hr h2 h1 rfl rfl rfl rfl rfl rfl rfl rfl, ⟨?_, ?_, ⟨c, ?_, rfl⟩, rfl, rfl⟩⟩
    · intro b hb; simp only [hb]; exact ⟨rfl, rfl⟩
    · intro b hb; simp only [hb]; rfl
    · rw [← hL'.cands]; exact h0

/-- **C101**, the complete format (`set_full_fplot`), without restarts (with them see `C101_header_false`) and
up to the coordinates of the best point (see `C101_bestx_false`): the file is the first line with
dimension and seed, then the lines for the start and each generation, from which `cma_legacyplt.py` reads the
state of the search. -/
theorem C101_full_partial (env : Env n) (kind : CovKind) (p : Params n) (s s' : Strat n) (tms : ℕ → List ℝ) (k : ℕ)
    (file : List PlotRow) (hs : Started env kind p s) (hv : ValObjective env p)
    (h : s.loopPlot env (fun k => plotLineFull (tms k)) k = .ok (some (s', file))) (h0 : file ≠ []) :
    ∃ lines, file = .head n p.getSeed :: lines ∧
      (lines.length = s'.niter + 1 ∨
        lines.length = s'.niter ∧ ∃ t, GenRun env s s'.niter t ∧ env.pfunc t.npf t.p t.sol ≠ 0) ∧
      ∀ j row, lines[j]? = some row → ∃ t cols, GenRun env s j t ∧ row = .data cols ∧
        Describes j t (readLegacy n cols).toReading ∧ DescribesFull t (readLegacy n cols) := by
  obtain ⟨-, g, t, blocks, h1, h2, rfl, h4, h5⟩ := loopPlot_blocks k hs.zero.2.2.ge h
  cases blocks with
  | nil => exact absurd rfl h0
  | cons b bs =>
    obtain ⟨u0, hu0, hp0⟩ := h4 0 b rfl
    obtain ⟨cols0, rfl, -, e0⟩ := line_full hs hv hu0 hp0
    have hone : ∀ b ∈ [PlotRow.data cols0] :: bs, ∃ r, b = [r] := by
      intro b hb
      rcases List.mem_cons.1 hb with rfl | hb
      · exact ⟨_, rfl⟩
      · obtain ⟨i, hi⟩ := List.mem_iff_getElem?.1 hb
        obtain ⟨u, hu, hp⟩ := h4 (i + 1) b (by simpa using hi)
        obtain ⟨cols, e, -⟩ := line_full hs hv hu hp
        rw [if_neg (by omega), List.nil_append] at e
        exact ⟨_, e⟩
    obtain ⟨hlen, hat⟩ := flatten_singletons hone
    have hg := stopped_niter hs h1 h2
    refine ⟨([PlotRow.data cols0] :: bs).flatten, ?_, ?_, fun j row hj => ?_⟩
    · simp
    · rw [hlen, hg]
      rcases h5 with ⟨e, -⟩ | ⟨e, hp⟩
      · exact Or.inl (by simpa using e)
      · exact Or.inr ⟨by simpa using e, t, h1, hp⟩
    · have hj' := hat j row hj
      cases j with
      | zero =>
        simp only [List.getElem?_cons_zero, Option.some.injEq, List.cons.injEq, and_true] at hj'
        exact ⟨u0, cols0, hu0, hj'.symm, e0⟩
      | succ j =>
        obtain ⟨u, hu, hp⟩ := h4 (j + 1) [row] (by simpa using hj')
        obtain ⟨cols, e, -, e2⟩ := line_full hs hv hu hp
        rw [if_neg (by omega), List.nil_append] at e
        exact ⟨u, cols, hu, by injection e, e2⟩

/-- **C101**: without elitist restarts, the file of `optimize()` is that of its loop. -/
theorem C101_optimize (env : Env n) (pl : PlotFn n) (s s' : Strat n) (k : ℕ) (file : List PlotRow)
    (hr : s.p.initialElitistOnRestart = false) (h : s.optimizePlot env pl k = .ok (some (s', file))) :
    ∃ s0 s1, s.evalInitial env = .ok s0 ∧ s0.loopPlot env pl k = .ok (some (s1, file)) ∧ s1.niter = s'.niter := by
  cases k with
  | zero => cases h
  | succ k =>
    rw [Strat.optimizePlot] at h
    obtain ⟨s0, h0, h⟩ := Out.bind_eq_ok.1 h
    obtain ⟨o1, h1, h⟩ := Out.bind_eq_ok.1 h
    cases o1 with
    | none => cases h
    | some q =>
      obtain ⟨s1, file1⟩ := q
      simp only at h
      obtain ⟨s2, h2, h⟩ := Out.bind_eq_ok.1 h
      have hl := loopPlot_search _ h1
      have e1 : s1.p = s.p := by
        rw [← (evalInitial_kept h0).1]
        obtain ⟨tr, t, -, a, b⟩ := loop_some _ hl
        obtain ⟨tr', -, hrun⟩ := (GenRun.stop a.genRun b).askRun
        exact (run_p hrun.run).1
      have e2 : s2.p = s1.p ∧ s2.niter = s1.niter := by
        split_ifs at h2
        · exact ⟨(edm_p h2).1, (edm_p h2).2.1⟩
        · injection h2 with h2; subst h2; exact ⟨rfl, rfl⟩
      rw [wantsRestart_off (by rw [e2.1, e1]; exact hr), Out.ok_bind, if_neg (by simp)] at h
      injection h with h
      injection h with h
      injection h with ha hb
      subst ha hb
      exact ⟨s0, s1, h0, h1, e2.2.symm⟩

/-- **C101**: the file can always be written, in both formats, if the transform to the user's coordinates is
defined everywhere: the loop with the file ends as the loop without it. -/
theorem C101_total (env : Env n) (kind : CovKind) (p : Params n) (s s' : Strat n) (tms : ℕ → List ℝ) (k : ℕ)
    (full : Bool) (hs : Started env kind p s) (hv : ValObjective env p)
    (hg : ∀ x : Vec n, ∃ y : Vec n, phenoV p.gp x = .ok y) (h : s.loop env k = .ok (some s')) :
    ∃ file, s.loopPlot env (plotFnOf full tms none) k = .ok (some (s', file)) := by
  refine loopPlot_of k h fun j u hu => ?_
  obtain ⟨hL, hR, hv'⟩ := hs.live hv
  obtain ⟨hL', -, -⟩ := genRun_live hu hL hR hv'
  obtain ⟨tr, hl, hrun⟩ := hu.askRun
  have hp : u.p.gp = p.gp := by rw [(run_p hrun.run).1, hs.p]
  unfold plotFnOf
  cases full with
  | false => exact plotLine_defined _ hL'.toLiveCore (by rw [hp]; exact hg)
  | true => exact plotLineFull_defined _ hL'.toLiveCore (by rw [hp]; exact hg)

theorem spike_val_neg (y0 : Vec n) (k : ℕ) (y : Vec n) (b : Bool) : Val (negIf b (spike y0 k y)) := by
  cases b with
  | false => exact spike_val y0 k y
  | true =>
    have := dblMax_ge
    unfold spike negIf
    simp only [if_true]
    split_ifs
    · exact Or.inr ⟨0, by simp only [abs_zero]; linarith, by simp [FVal.neg]⟩
    · refine Or.inr ⟨-1, by simp only [abs_neg, abs_one]; linarith, ?_⟩
      show FVal.num (-1) = FVal.num _
      simp

/-- The hypotheses are met, in any dimension, by a run of several generations. -/
theorem C101_run (hn : 1 ≤ n) (x0 : Vec n) (sigma : ℝ) (seed clock : ℕ) (tms : ℕ → List ℝ) (full : Bool) :
    ∃ (env : Env n) (p : Params n) (s s' : Strat n) (k : ℕ) (file : List PlotRow), Started env .plain p s ∧
      ValObjective env p ∧ s.loopPlot env (plotFnOf full tms none) k = .ok (some (s', file)) ∧ file ≠ [] ∧
      3 ≤ s'.niter := by
  obtain ⟨env, p, s, s1, b, hp, hu, hs, hf, c0, c1, c2, c3, c4, -, c6, c7, c8, c9, c10, c11⟩ :=
    two_stages hn GenoPheno.plain id (fun x => phenoV_plain x) (fun x => ⟨x, rfl⟩) Function.injective_id x0 sigma seed
      clock (fun _ => -dblMax) 0 0
  have hst : Started env .plain (budget4 p) s := Or.inl ⟨hu.run, s, hs, c0⟩
  have hv : ValObjective env (budget4 p) := by
    intro k y; rw [hf]; exact spike_val_neg _ _ _ _
  have hgp : (budget4 p).gp = GenoPheno.plain := (Params.make_plain hp).2.2.2.2.2.2.2.2.2.1
  obtain ⟨file, hfile⟩ := C101_total env .plain (budget4 p) s s1 tms 5 full hst hv
    (fun x => ⟨x, by rw [hgp]; exact phenoV_plain x⟩) (c1 0)
  have h3 : 3 ≤ s1.niter := by
    unfold Strat.wantsRestart at c6
    rw [c2] at c6
    simp only at c6
    split_ifs at c6
    · cases hi : s1.sol.bestSeenIter with
      | none => rw [hi] at c6; cases c6
      | some i =>
        rw [hi] at c6
        injection c6 with c6
        have := of_decide_eq_true c6
        omega
    · cases c6
    · cases c6
  refine ⟨env, budget4 p, s, s1, 5, file, hst, hv, hfile, ?_, h3⟩
  obtain ⟨-, g, t, blocks, h1, h2, rfl, h4, h5⟩ := loopPlot_blocks 5 hst.zero.2.2.ge hfile
  have hg := stopped_niter hst h1 h2
  cases blocks with
  | nil => simp at h5; omega
  | cons r rs =>
    obtain ⟨u, -, hu⟩ := h4 0 r rfl
    cases full with
    | false =>
      obtain ⟨sd, m, -, -, rfl⟩ := plotLine_ok hu
      simp
    | true =>
      obtain ⟨c, sd, m, -, -, -, rfl⟩ := plotLineFull_ok hu
      simp

/-- **C101** fails for a library built with `HAVE_DEBUG`: whatever the state, the four columns of timings added
to the line make `cma_multiplt.py` find one dimension too many. -/
theorem C101_debug_false (tms : List ℝ) (ht : tms.length = 5) (p : Params n) (s : Sol n) (rows : List PlotRow)
    (h : plotLine tms p s = .ok rows) :
    ∃ cols, rows = [.data cols] ∧ (readLine cols).dim = n + 1 ∧ (readLine cols).eigenv.length = n + 1 := by
  obtain ⟨sd, m, -, -, rfl⟩ := plotLine_ok h
  refine ⟨_, rfl, ?_, ?_⟩
  · unfold readLine
    simp only [List.length_append, List.length_map, eigCols_length, vecCols_length, List.length_cons, List.length_nil, ht]
    omega
  · unfold readLine
    simp only [List.length_take, List.length_drop, List.length_append, List.length_map, eigCols_length, vecCols_length,
      List.length_cons, List.length_nil, ht]
    omega

/-- **C101**, surrogate strategies: in any state, the script `cma_multiplt_surr.py` finds in the line the dimension, the
counted evaluations, the step size, the mean in the user's coordinates and the three errors of the surrogate at their
places.  The deviations are the diagonal of the square root of the covariance, or the roots of the variances (separable),
or the deviations `D` (VD). -/
theorem C101_surrogate (msqrt : Mat n → Mat n) (tm : ℝ) (e1 e2 e3 : FVal) (p : Params n) (s : Sol n) (rows : List PlotRow)
    (h : plotLineSurr msqrt tm [e1, e2, e3] p s = .ok rows) :
    ∃ cols m, rows = [.data cols] ∧ phenoV p.gp s.xmean = .ok m ∧ (readSurr cols).dim = n ∧
      (readSurr cols).fvalue = s.bestCandidate.fvalue.abs ∧
      (readSurr cols).fevals = .ofReal s.nevals ∧ (readSurr cols).sigma = .ofReal s.sigma ∧
      (readSurr cols).xmean = printed m ∧ (readSurr cols).eigenv = eigCols s ∧
      (readSurr cols).trainErr = e1 ∧ (readSurr cols).testErr = e2 ∧ (readSurr cols).smoothTestErr = e3 ∧
      (p.sep = false → p.vd = false → (readSurr cols).stds = printed fun i => msqrt s.cov i i) ∧
      (p.sep = true → (∀ i, 0 ≤ s.sepcov i) → (readSurr cols).stds = printed fun i => Real.sqrt (s.sepcov i)) ∧
      (p.sep = false → p.vd = true → (readSurr cols).stds = printed s.sepcov) := by
  unfold plotLineSurr at h
  obtain ⟨sd, hsd, h⟩ := Out.bind_eq_ok.1 h
  obtain ⟨m, hm, h⟩ := Out.bind_eq_ok.1 h
  injection h with h
  subst h
  have hl : sd.length = n := by
    split_ifs at hsd <;> injection hsd with hsd <;> subst hsd <;> simp [vecCols]
  refine ⟨_, m, rfl, hm, ?_⟩
  rw [read_surr (eigCols_length _) hl (vecCols_length _)]
  refine ⟨rfl, rfl, rfl, rfl, rfl, rfl, rfl, rfl, rfl, fun a b => ?_, fun a b => ?_, fun a b => ?_⟩
  · rw [if_pos (by simp [a, b])] at hsd
    split_ifs at hsd
    injection hsd with hsd
    exact hsd.symm
  · rw [if_neg (by simp [a])] at hsd
    split_ifs at hsd
    injection hsd with hsd
    rw [← hsd]
    show (List.ofFn s.sepcov).map sqrtF = (List.ofFn fun i => Real.sqrt (s.sepcov i)).map FVal.ofReal
    rw [List.map_ofFn, List.map_ofFn]
    congr 1
    funext i
    exact if_neg (not_lt.2 (b i))
  · rw [if_neg (by simp [b])] at hsd
    split_ifs at hsd with c d
    · rw [a] at d; cases d
    · injection hsd with hsd
      exact hsd.symm

/-- **C101**, a plot function of the user: the file consists of what this function writes for the solution after 0, 1, 2,
... generations, and nothing else; with the complete format it is never called. -/
theorem C101_user (env : Env n) (kind : CovKind) (p : Params n) (s s' : Strat n) (tms : ℕ → List ℝ) (full : Bool)
    (u : PlotFn n) (k : ℕ) (file : List PlotRow) (hs : Started env kind p s)
    (h : s.loopPlot env (plotFnOf full tms (some u)) k = .ok (some (s', file))) :
    (full = false → ∃ blocks : List (List PlotRow), file = blocks.flatten ∧ s'.niter ≤ blocks.length ∧
      ∀ j rows, blocks[j]? = some rows → ∃ t, GenRun env s j t ∧ u t.npf t.p t.sol = .ok rows) ∧
    (full = true → ∀ u', s.loopPlot env (plotFnOf full tms u') k = .ok (some (s', file))) := by
  refine ⟨?_, ?_⟩
  · rintro rfl
    obtain ⟨-, g, t, blocks, h1, h2, h3, h4, h5⟩ := loopPlot_blocks k hs.zero.2.2.ge h
    have hg := stopped_niter hs h1 h2
    exact ⟨blocks, h3, by omega, h4⟩
  · rintro rfl u'
    exact h

/-- With a surrogate strategy the condition number on the first line is the quotient of zeros. -/
theorem C101_surrogate_false (env : Env n) (kind : CovKind) (p : Params n) (s t : Strat n) (msqrt : Mat n → Mat n)
    (tm : ℝ) (errs : List FVal) (hs : Started env kind p s) (hr : GenRun env s 0 t) (rows : List PlotRow)
    (h : plotLineSurr msqrt tm errs t.p t.sol = .ok rows) :
    ∃ cols, rows = [.data cols] ∧ (readLine cols).kappa = .nan := by
  obtain ⟨-, h1, h2⟩ := genRun_noeig hr rfl (started_noeig hs)
  unfold plotLineSurr at h
  obtain ⟨sd, -, h⟩ := Out.bind_eq_ok.1 h
  obtain ⟨m, -, h⟩ := Out.bind_eq_ok.1 h
  injection h with h
  subst h
  refine ⟨_, rfl, ?_⟩
  unfold condColSurr
  rw [if_pos h1, if_pos h2]
  rfl

/-- The case is met: a fresh search, e.g. in dimension 3, diagonal square root. -/
example : ∃ (env : Env 3) (p : Params 3) (s : Strat 3) (rows : List PlotRow), Started env .plain p s ∧
    GenRun env s 0 s ∧ plotLineSurr (fun C => Matrix.diagonal fun i => Real.sqrt (C i i)) 0 [.nan, .nan, .nan] s.p s.sol =
      .ok rows := by
  obtain ⟨p, hp, _⟩ := C11_weights (n := 3) (by norm_num) 0 1 (-1) 0 0 GenoPheno.plain
  obtain ⟨hu, hgp, -⟩ := usual_default (by norm_num) hp (kind := .plain) (by decide)
  obtain ⟨f1, f2⟩ := Params.make_flags hp
  obtain ⟨s, hs⟩ := new_plain (env := Env.basic (fun _ _ => .num 0) fun _ => 0) (kind := .plain) hgp
    hu.configured.good.1
  obtain ⟨-, -, -, hps, -, -, -, -, -, -, h1, -⟩ := Strat.new_ok hs
  have hrow : ∃ rows, plotLineSurr (fun C => Matrix.diagonal fun i => Real.sqrt (C i i)) 0 [.nan, .nan, .nan] s.p
      s.sol = .ok rows := by
    unfold plotLineSurr
    rw [hps]
    simp only [f1, f2, h1, hgp, Bool.not_false, Bool.and_self, if_true]
    rw [Out.ok_bind, phenoV_plain, Out.ok_bind]
    exact ⟨_, rfl⟩
  obtain ⟨rows, hrow⟩ := hrow
  exact ⟨_, p, s, rows, Or.inr ⟨hu, hs⟩, .refl _, hrow⟩

/-- and later: the column of deviations, the diagonal of the square root of the covariance, is smaller than the
standard deviation of every coordinate that is correlated with another. -/
theorem C101_surrogate_stds (msqrt : Mat n → Mat n) (C : Mat n)
    (hS : (msqrt C).IsSymm ∧ msqrt C * msqrt C = C) (i : Fin n) :
    msqrt C i i ≤ Real.sqrt (C i i) ∧ ((∃ j, j ≠ i ∧ C i j ≠ 0) → msqrt C i i < Real.sqrt (C i i)) := by
  obtain ⟨h1, h2⟩ := hS
  set S := msqrt C
  have hsq : C i i = S i i ^ 2 + ∑ k ∈ Finset.univ.erase i, S i k ^ 2 := by
    rw [← h2, Matrix.mul_apply, ← Finset.add_sum_erase _ _ (Finset.mem_univ i)]
    congr 1
    · ring
    · refine Finset.sum_congr rfl fun k _ => ?_
      rw [h1.apply i k]; ring
  have hnn : 0 ≤ ∑ k ∈ Finset.univ.erase i, S i k ^ 2 := Finset.sum_nonneg fun k _ => sq_nonneg _
  refine ⟨Real.le_sqrt_of_sq_le (by rw [hsq]; linarith), fun ⟨j, hj, hc⟩ => Real.lt_sqrt_of_sq_lt ?_⟩
  rw [hsq]
  have hpos : 0 < ∑ k ∈ Finset.univ.erase i, S i k ^ 2 := by
    refine lt_of_le_of_ne hnn fun h0 => hc ?_
    have hz := (Finset.sum_eq_zero_iff_of_nonneg fun k _ => sq_nonneg (S i k)).1 h0.symm
    have hz' : ∀ k, k ≠ i → S i k = 0 := fun k hk => by
      simpa using hz k (by simp [hk])
    rw [← h2, Matrix.mul_apply]
    refine Finset.sum_eq_zero fun k _ => ?_
    by_cases hk : k = i
    · rw [hk, hz' j hj, mul_zero]
    · rw [hz' k hk, zero_mul]
  linarith

/-- For instance, coordinates of variance 5 and covariance 4: the column shows 2 for both. -/
example : ∃ (S C : Mat 2), (S.IsSymm ∧ S * S = C) ∧ C 0 1 ≠ 0 ∧ C 0 0 = 5 ∧ S 0 0 = 2 := by
  refine ⟨!![2, 1; 1, 2], !![5, 4; 4, 5], ⟨?_, ?_⟩, ?_, ?_, ?_⟩
  · ext i j; fin_cases i <;> fin_cases j <;> rfl
  · ext i j; fin_cases i <;> fin_cases j <;> simp [Matrix.mul_apply, Fin.sum_univ_two] <;> norm_num
  · simp
  · simp
  · simp

/-- **C101** fails for the complete format when the search is restarted: the first line is written whenever
the counter of iterations is 0, so an elitist restart puts a second one in the middle of the numbers, where
`cma_legacyplt.py` (which skips it at the top only) cannot read the file.  In any dimension, from any
starting point. -/
theorem C101_header_false (hn : 1 ≤ n) (x0 : Vec n) (sigma : ℝ) (seed clock : ℕ) (tms : ℕ → List ℝ) :
    ∃ (env : Env n) (p : Params n) (s s' : Strat n) (k : ℕ) (file : List PlotRow), Usual .plain p ∧
      ElitismMode p 3 ∧ ValObjective env p ∧ Strat.new env .plain p = .ok s ∧
      s.optimizePlot env (plotFnOf true tms none) k = .ok (some (s', file)) ∧
      ∃ i cols sd, i ≠ 0 ∧ file[i]? = some (.head n sd) ∧ (.data cols) ∈ file.take i := by
  obtain ⟨env, p, s, s1, b, hp, hu, hs, hf, c0, c1, c2, c3, c4, -, c6, c7, c8, c9, c10, c11⟩ :=
    two_stages hn GenoPheno.plain id (fun x => phenoV_plain x) (fun x => ⟨x, rfl⟩) Function.injective_id x0 sigma seed
      clock (fun _ => -dblMax) 0 0
  have hst : Started env .plain (budget4 p) s := Or.inl ⟨hu.run, s, hs, c0⟩
  have hv : ValObjective env (budget4 p) := by
    intro k y; rw [hf]; exact spike_val_neg _ _ _ _
  have hgp : (budget4 p).gp = GenoPheno.plain := (Params.make_plain hp).2.2.2.2.2.2.2.2.2.1
  have hel : ElitismMode (budget4 p) 3 := by simp [ElitismMode, budget4, Params.setElitism]
  obtain ⟨s3, s4, s5, j, x, v, d1, d2, d3, d4, d5, d6, d7, d8, -, ⟨-, hL4, hR4, hpf⟩, d9⟩ := c11 b.x
    (initialMean_restart (by rw [c8]; rfl) c9 (by intro i v hv; rw [c10] at hv; cases hv) c4)
  rw [drift_zero, d8] at d7 d9
  have hv0 : ∀ k, env.f k (id b.x) = .num 0 := by intro k; rw [hf]; exact spike_at _ _
  rw [hv0] at d6 d7 d9
  obtain ⟨c, q1, q2, q3, q4⟩ := d9 (by rw [d6]; exact FVal.lt_irrefl _)
  have hw : s5.wantsRestart = .ok false := by
    unfold Strat.wantsRestart
    rw [if_pos d5, q1]
    simp only
    rw [q2, d6, d7, if_neg (FVal.lt_irrefl _)]
  obtain ⟨file1, hf1⟩ := C101_total env .plain (budget4 p) s s1 tms 6 true hst hv
    (fun x => ⟨x, by rw [hgp]; exact phenoV_plain x⟩) (c1 1)
  have hp4 : s4.p.gp = GenoPheno.plain ∧ s4.niter = 0 := by
    obtain ⟨e1, -, e3, -⟩ := evalInitial_kept d2
    rw [e1, e3]
    unfold Strat.elitistRestart at d1
    rw [c2] at d1
    simp only at d1
    obtain ⟨⟨p', sol⟩, hm, d1⟩ := Out.bind_eq_ok.1 d1
    injection d1 with d1
    rw [← d1]
    refine ⟨?_, rfl⟩
    show p'.gp = _
    rw [(Sol.make_eq_ok hm).2.2.2.2.2.1]
    exact c8
  have hv4 : ∀ k y, Val (negIf s4.negate (env.f k y)) := by intro k y; rw [hf]; exact spike_val_neg _ _ _ _
  obtain ⟨file2, hf2⟩ := loopPlot_of (pl := plotFnOf true tms none) 5 (d3 3) (by
    intro j u hu
    obtain ⟨hL', -, -⟩ := genRun_live hu hL4 hR4 hv4
    obtain ⟨tr, hl, hrun⟩ := hu.askRun
    refine plotLineFull_defined _ hL'.toLiveCore fun x => ⟨x, ?_⟩
    rw [(run_p hrun.run).1, hp4.1]
    exact phenoV_plain x)
  have hopt : s.optimizePlot env (plotFnOf true tms none) 6 = .ok (some (s5, file1 ++ file2)) := by
    rw [Strat.optimizePlot, c0, Out.ok_bind, hf1, Out.ok_bind]
    simp only
    rw [c7, if_neg (by simp), Out.pure_eq, Out.ok_bind, c6, Out.ok_bind, if_pos rfl, d1, Out.ok_bind,
      Strat.optimizePlot, d2, Out.ok_bind, hf2, Out.ok_bind]
    simp only
    rw [d4, if_neg (by simp), Out.pure_eq, Out.ok_bind, hw, Out.ok_bind, if_neg (by simp), Out.pure_eq, Out.ok_bind]
    rfl
  have hb1 : ∃ cols, PlotRow.data cols ∈ file1 := by
    obtain ⟨-, g, t, blocks, h1, h2, rfl, h4, h5⟩ := loopPlot_blocks 6 hst.zero.2.2.ge hf1
    cases blocks with
    | nil => exact absurd (hpf _ _ _) (h5.resolve_left (by simp)).2
    | cons r rs =>
      obtain ⟨u, -, hu⟩ := h4 0 r rfl
      obtain ⟨c, sd, m, -, -, -, rfl⟩ := plotLineFull_ok hu
      exact ⟨_, by simp only [List.flatten_cons, List.mem_append, List.mem_singleton]; exact Or.inl (Or.inr rfl)⟩
  have hb2 : ∃ sd rest, file2 = .head n sd :: rest := by
    have hr4 : 0 ≤ s4.sol.runStatus := by
      rw [(evalInitial_kept d2).2.2.2.2.2.2.1]
      unfold Strat.elitistRestart at d1
      rw [c2] at d1
      simp only at d1
      obtain ⟨⟨p', sol⟩, hm, d1⟩ := Out.bind_eq_ok.1 d1
      injection d1 with d1
      rw [← d1]
      show 0 ≤ sol.runStatus
      rw [(Sol.make_eq_ok hm).2.2.2.1.runStatus]
    obtain ⟨-, g, t, blocks, h1, h2, rfl, h4, h5⟩ := loopPlot_blocks 5 hr4 hf2
    cases blocks with
    | nil => exact absurd (hpf _ _ _) (h5.resolve_left (by simp)).2
    | cons r rs =>
      obtain ⟨u, hu0, hu⟩ := h4 0 r rfl
      obtain ⟨c, sd, m, -, -, -, rfl⟩ := plotLineFull_ok hu
      have hz : u.sol.niter = 0 := by
        obtain ⟨hL', -, -⟩ := genRun_live hu0 hL4 hR4 hv4
        obtain ⟨tr, hl, hrun⟩ := hu0.askRun
        rw [hL'.niter, (run_p hrun.run).2.2.2.1, hl, hp4.2]
      rw [if_pos hz]
      exact ⟨_, _, rfl⟩
  obtain ⟨cols, hc⟩ := hb1
  obtain ⟨sd, rest, rfl⟩ := hb2
  refine ⟨env, budget4 p, s, s5, 6, _, hu, hel, hv, hs, hopt, file1.length, cols, sd, ?_, ?_, ?_⟩
  · intro h0
    rw [List.length_eq_zero_iff] at h0
    rw [h0] at hc
    cases hc
  · simp
  · simpa using hc

/-- **C101** fails for the point of the best candidate in the complete format: it is not transformed to the
user's coordinates, unlike the mean in the same line.  With a scaling by 2 in any dimension, a run writes
`b` where the objective was called with `b / 2`. -/
theorem C101_bestx_false (hn : 1 ≤ n) (x0 : Vec n) (sigma : ℝ) (seed clock : ℕ) (tms : List ℝ) :
    ∃ (env : Env n) (p : Params n) (s t : Strat n) (j : ℕ) (b : Cand n) (cols : List FVal),
      Started env .plain p s ∧ ValObjective env p ∧ GenRun env s j t ∧ j ≠ 0 ∧ t.sol.bestSeen = some b ∧
      plotLineFull tms t.p t.sol = .ok [.data cols] ∧ (readLegacy n cols).bestX = printed b.x ∧
      phenoV t.p.gp b.x = .ok (fun i => b.x i / 2) ∧ (fun i => b.x i / 2) ≠ b.x := by
  have hinj : Function.Injective fun (x : Vec n) i => x i / 2 := by
    intro x y h
    funext i
    have := congrFun h i
    simp only at this
    linarith
  obtain ⟨env, p, s, s1, b, hp, hu, hs, hf, c0, c1, c2, c3, c4, c5, c6, c7, c8, c9, c10, c11⟩ :=
    two_stages hn (doubled n) (fun x i => x i / 2) (fun x => phenoV_doubled x)
      (fun x => ⟨_, scaleToInternalV_doubled x⟩) hinj x0 sigma seed clock (fun _ => -dblMax) 0 0
  have hst : Started env .plain (budget4 p) s := Or.inl ⟨hu.run, s, hs, c0⟩
  have hv : ValObjective env (budget4 p) := by
    intro k y; rw [hf]; exact spike_val_neg _ _ _ _
  obtain ⟨tr, t, -, h1, h2⟩ := loop_some _ (c1 0)
  have hr := GenRun.stop h1.genRun h2
  obtain ⟨hL, hR, hv'⟩ := hst.live hv
  obtain ⟨hL', -, -⟩ := genRun_live hr hL hR hv'
  obtain ⟨rows, hrows⟩ := plotLineFull_defined tms hL'.toLiveCore fun x => ⟨_, by rw [c8]; exact phenoV_doubled x⟩
  have hj : tr.length ≠ 0 := by
    intro h0
    have hn0 := stopped_niter hst h1.genRun h2
    unfold Strat.wantsRestart at c6
    rw [c2] at c6
    simp only at c6
    split_ifs at c6
    · cases hi : s1.sol.bestSeenIter with
      | none => rw [hi] at c6; cases c6
      | some i =>
        rw [hi] at c6
        injection c6 with c6
        have := of_decide_eq_true c6
        omega
    · cases c6
    · cases c6
  obtain ⟨cols, e1, -, -, e4⟩ := line_full hst hv hr hrows
  rw [if_neg hj, List.nil_append] at e1
  refine ⟨env, budget4 p, s, s1, _, b, cols, hst, hv, hr, hj, c2, by rw [hrows, e1], (e4.best b c2).2,
    by rw [c8]; exact phenoV_doubled _, fun h => c5 ?_⟩
  funext i
  have : b.x i / 2 = b.x i := congrFun h i
  show b.x i = 0
  linarith

end Libcmaes
