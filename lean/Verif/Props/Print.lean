import Verif.Lemmas.PrintWit
import Verif.Lemmas.Luck
import Verif.Lemmas.StopWit
import Verif.Props.Loss

/-!
# C108: the printed summary of a solution

`CMASolutions::print` (and `operator<<`) is how the sample programs report the result of a search.
-/

namespace Libcmaes

open Spec ErrStats

variable {n : ℕ}

/-- **C108**, the first line: print the solution after at least one generation, whatever the algorithm, the transformation and
the settings but uncertainty handling, in a loop written by hand or that of `optimize` (`evalInitial` is what it does
before its loop): value, point and counts are those of the last population and of the calls made. -/
theorem C108_summary {f : Vec n → FVal} {env : Env n} {kind : CovKind} {p : Params n} {s s0 t : Strat n} {k : ℕ}
    {pls : Pls n} {verb : Bool} {o : Option (Printed n)} (hp : Configured p) (huh : p.uh = false)
    (hf : ∀ j y, env.f j y = f y) (hnew : Strat.new env kind p = .ok s) (h0 : s0 = s ∨ s.evalInitial env = .ok s0)
    (hrun : GenRun env s0 k t) (hk : k ≠ 0) (h : t.sol.print pls verb p.gp = .ok o) :
    ∃ q, o = some q ∧ HonestSummary f p k t q := by
  have hi := PrintInv.new (f := f) hp huh hnew
  have hB := begins_new hnew
  have h1 : PrintInv f p s0 ∧ s0.sol.niter = 0 := by
    rcases h0 with rfl | h0
    · exact ⟨hi, hB.fresh.niter⟩
    · obtain ⟨a, b⟩ := hi.evalInitial hf h0
      exact ⟨a, b.trans hB.fresh.niter⟩
  obtain ⟨a, b⟩ := h1.1.genRun hf hrun
  obtain ⟨tr, htr, hr⟩ := hrun.askRun
  have hn : t.sol.niter = k := by
    rw [(run_p hr.run).2.2.2.2.1, h1.2, htr, Nat.zero_add]
  rw [← hn]
  exact summary_of a (b hk) h

/-- **C108**, the first line after `optimize`, at least one generation having been done; settings without restarts. -/
theorem C108_optimize {f : Vec n → FVal} {env : Env n} {kind : CovKind} {p : Params n} {s t : Strat n} {fuel : ℕ}
    {pls : Pls n} {verb : Bool} {o : Option (Printed n)} (hp : Configured p) (huh : p.uh = false)
    (hre : p.initialElitistOnRestart = false) (hf : ∀ j y, env.f j y = f y) (hnew : Strat.new env kind p = .ok s)
    (hopt : s.optimize env fuel = .ok (some t)) (hk : t.sol.niter ≠ 0) (h : t.sol.print pls verb p.gp = .ok o) :
    ∃ q, o = some q ∧ HonestSummary f p t.sol.niter t q := by
  have hB := begins_new hnew
  obtain ⟨s0, s1, tr, u, h0, h1, h2, h3⟩ := optimize_plain (by rw [hB.params]; exact hre) hopt
  obtain ⟨a, b⟩ := (PrintInv.new (f := f) hp huh hnew).evalInitial hf h0
  obtain ⟨c, d⟩ := a.genRun hf (GenRun.stop h1.genRun h2)
  obtain ⟨e1, e2, e3⟩ := c.edm h3
  have hn : s1.sol.niter = tr.length := by
    obtain ⟨tr', htr, hr⟩ := (GenRun.stop h1.genRun h2).askRun
    rw [(run_p hr.run).2.2.2.2.1, b, hB.fresh.niter, htr, Nat.zero_add]
  exact summary_of e1 (e2 (d (by rw [← hn, ← e3]; exact hk))) h

/-- **C108**, the confidence intervals: whatever profiles the solution holds, printing them is defined; there is one line for
each, in increasing order of the parameters; bounds, errors, values and the first status are those of the profile. -/
theorem C108_intervals_partial {p : Params n} {sol : Sol n} {pls : Pls n} {y : Vec n} (hp : Profiled p sol pls)
    (hc : sol.cands ≠ []) (hy : phenoV p.gp sol.bestCandidate.x = .ok y) (verb : Bool) :
    ∃ q, sol.print pls verb p.gp = .ok (some q) ∧ q.x = y ∧
      q.intervals.map (·.dim) = (List.range n).filter (fun k => (pls k).isSome) ∧
      ∀ I ∈ q.intervals, ∃ le, pls I.dim = some le ∧ HonestInterval le q I := by
  obtain ⟨l, hl⟩ := Out.mapM_ok_of
    (l := (List.range n).filterMap fun k => (pls k).map fun q => (k, q))
    (f := fun a => printInterval verb a.1 a.2) (by
      intro a ha
      obtain ⟨k, _, hk⟩ := List.mem_filterMap.1 ha
      cases hkk : pls k with
      | none => rw [hkk] at hk; cases hk
      | some le =>
        rw [hkk] at hk
        obtain rfl := Option.some.inj hk
        obtain ⟨I, h1, _⟩ := hp.mem verb k le hkk
        exact ⟨I, h1⟩)
  have hpr : sol.print pls verb p.gp = .ok (some ⟨sol.bestCandidate.fvalue, sol.nevals, sol.sigma, sol.niter, y,
      if verb then some (if sol.hasCov then List.ofFn fun i => sol.cov i i else [], sol.psigma, sol.pc) else none, l⟩) := by
    unfold Sol.print
    rw [if_neg hc, hy, Out.ok_bind, hl]
    rfl
  refine ⟨_, hpr, rfl, ?_, ?_⟩
  · have h2 := Out.mapM_eq_ok.1 hl
    have h3 : l.map (·.dim) = ((List.range n).filterMap fun k => (pls k).map fun q => (k, q)).map Prod.fst := by
      refine List.ext_getElem (by simp [(List.forall₂_iff_get.1 h2).1]) fun i i1 i2 => ?_
      rw [List.length_map] at i1 i2
      have h4 := (List.forall₂_iff_get.1 h2).2 i i2 i1
      simp only [List.getElem_map]
      have hm := List.getElem_mem (l := (List.range n).filterMap fun k => (pls k).map fun q => (k, q)) i2
      obtain ⟨k, _, hk⟩ := List.mem_filterMap.1 hm
      cases hkk : pls k with
      | none => rw [hkk] at hk; cases hk
      | some le =>
        rw [hkk] at hk
        have hk' := Option.some.inj hk
        simp only [List.get_eq_getElem] at h4
        rw [← hk'] at h4 ⊢
        obtain ⟨I, g1, g2, _⟩ := hp.mem verb k le hkk
        rw [show printInterval verb (k, le).1 (k, le).2 = printInterval verb k le from rfl, g1] at h4
        injection h4 with h4
        rw [← h4]
        exact g2
    show l.map (·.dim) = _
    rw [h3]
    generalize List.range n = r
    induction r with
    | nil => rfl
    | cons a r ih =>
      rw [List.filterMap_cons, List.filter_cons]
      cases hkk : pls a <;> simp [ih]
  · intro I hI
    obtain ⟨a, ha, hIa⟩ := Out.mapM_mem hl hI
    obtain ⟨k, _, hk⟩ := List.mem_filterMap.1 ha
    cases hkk : pls k with
    | none => rw [hkk] at hk; cases hk
    | some le =>
      rw [hkk] at hk
      obtain rfl := Option.some.inj hk
      obtain ⟨J, g1, g2, g3⟩ := hp.mem verb k le hkk
      have : I = J := by
        have := hIa.symm.trans g1
        injection this
      subst this
      exact ⟨le, by rw [g2]; exact hkk, g3 _ hy⟩

/-- A run of `k` generations with the default settings and a transformation `gp`, whose solution is printed. -/
theorem C108_case (hn : 1 ≤ n) (gp : GenoPheno) (hph : ∀ x : Vec n, ∃ y, phenoV gp x = .ok y)
    (hsc : ∀ x : Vec n, ∃ y, scaleToInternalV gp x = .ok y) (x0 : Vec n) (sigma : ℝ) (k : ℕ) (env : Env n)
    (hnum : ∀ j y, (env.f j y).IsNum) (verb : Bool) :
    ∃ p s t q, Configured p ∧ p.uh = false ∧ p.gp = gp ∧ Strat.new env .plain p = .ok s ∧ GenRun env s k t ∧
      t.sol.cands ≠ [] ∧ t.sol.print (fun _ => none) verb p.gp = .ok (some q) := by
  obtain ⟨p, hp, _⟩ := C11_weights hn x0 sigma (-1) 1 1 gp
  obtain ⟨hu, hgp, hfx, -⟩ := usual_default (kind := .plain) (by norm_num) hp (by decide)
  have hgood := hu.configured.good.1
  obtain ⟨m, hm⟩ : ∃ m, initialMean p (env.rnd 0) = .ok m := by
    unfold initialMean
    simp only
    rw [hfx, setFixed_nil, Out.ok_bind, hgp]
    exact hsc _
  obtain ⟨s, hs⟩ : ∃ s, Strat.new env .plain p = .ok s := by
    unfold Strat.new Sol.make
    rw [hm, Out.ok_bind, if_neg (by have := hgood.dim; have := hgood.lambda; omega)]
    exact ⟨_, rfl⟩
  have hsp : s.p.gp = gp := by rw [(begins_new hs).params]; exact hgp
  obtain ⟨hL, hr⟩ := live_new hu hs
  obtain ⟨tr, t, h1, _, _, _, hL', _, ep⟩ := generations_noNaN hL hr hnum (fun x => by rw [hsp]; exact hph x) k
  have hc : t.sol.cands ≠ [] := by
    intro hc
    have h2 := hL'.cands
    rw [hc, ep, (begins_new hs).params] at h2
    have := hgood.lambda
    simp at h2
    omega
  obtain ⟨y, hy⟩ := hph t.sol.bestCandidate.x
  obtain ⟨q, hq, _⟩ := C108_intervals_partial (p := p) (sol := t.sol) .none hc (by rw [hgp]; exact hy) verb
  exact ⟨p, s, t, q, hu.configured, hu.uh, hgp, hs, (generations_genRun k h1).1, hc, hq⟩

/-- A case of `C108_summary` in any dimension, for any number of generations: the default settings. -/
example (hn : 1 ≤ n) (k : ℕ) (f : Vec n → ℝ) (z : ℕ → Vec n) :
    ∃ (p : Params n) (s t : Strat n) (q : Printed n),
      Strat.new (Env.basic (fun _ y => .num (f y : EReal)) z) .plain p = .ok s ∧
      t.sol.print (fun _ => none) true p.gp = .ok (some q) ∧
      HonestSummary (fun y => .num (f y : EReal)) p (k + 1) t q := by
  obtain ⟨p, s, t, q, h1, h2, h3, h4, h5, h6, h7⟩ := C108_case hn GenoPheno.plain (fun x => ⟨x, phenoV_plain x⟩)
    (fun x => ⟨x, rfl⟩) (fun _ => 1) 1 (k + 1) (Env.basic (fun _ y => .num (f y : EReal)) z) (fun _ _ => trivial) true
  obtain ⟨q', e, h⟩ := C108_summary (f := fun y => .num (f y : EReal)) h1 h2 (fun _ _ => rfl) h4 (Or.inl rfl) h5 (by omega) h7
  injection e with e
  subst e
  exact ⟨p, s, t, q, h4, h7, h⟩

/-- A case of `C108_intervals_partial`: two parameters, optimum (1,1), objective |x-1|/2+|y-1|, default arguments of
`profile_likelihood`, the profile of the first parameter.  It prints: dim 0 in [0.8,1.2] with error [-0.2,0.2] /
fvalue=(0.1,0.1). -/
theorem C108_interval_case (fuel : ℕ) : ∃ le pls q I,
    profileLikelihood (probe fun a => |a - 1| / 2) (reporting fun _ => 0) (fuel + 1) (exParams 2) (exSol 1 (optAt 1))
      (fun _ => none) 0 false 10 0.1 0.1 10000 = .ok (some (le, pls)) ∧
    (exSol 1 (optAt 1)).print pls true (exParams 2).gp = .ok (some q) ∧ q.intervals = [I] ∧ I.dim = 0 ∧ I.lo = 0.8 ∧ I.hi = 1.2 ∧
    I.errlo = -0.2 ∧ I.errhi = 0.2 ∧ I.fvalues = (FVal.ofReal 0.1, FVal.ofReal 0.1) ∧ I.status = none ∧
    I.ends = some (beside 0.8, beside 1.2) := by
  have t1 : tipOf 1 true = 0.8 := by norm_num [tipOf]
  have t2 : tipOf 1 false = 1.2 := by norm_num [tipOf]
  have w1 : |(0.8 : ℝ) - 1| / 2 = 0.1 := by norm_num [abs_of_neg]
  have w2 : |(1.2 : ℝ) - 1| / 2 = 0.1 := by norm_num [abs_of_pos]
  obtain ⟨le, pls, h1, h2, h3, -, h5⟩ := printed_probe (w := fun a => |a - 1| / 2) (e := 1) (by norm_num)
    (by rw [abs_one]; linarith [dblMax_ge]) (fun _ => 0) fuel (s := 10) (by norm_num) 10000
    (by intro neg; cases neg <;> norm_num [t1, t2, w1, w2]) (by intro neg; cases neg <;> norm_num [t1, t2, w1, w2])
  have e1 : endOf 1 ((0 : ℤ) < 0) true = 0.8 := by rw [endOf, if_neg (by norm_num), t1]
  have e2 : endOf 1 ((0 : ℤ) < 0) false = 1.2 := by rw [endOf, if_neg (by norm_num), t2]
  obtain ⟨q, hq, hm⟩ := print_one (sol := exSol 1 (optAt 1)) (by simp [exSol]) h2 h3 (h5 true)
  refine ⟨le, pls, q, _, h1, hq, hm, rfl, ?_, ?_, ?_, ?_, ?_, rfl, ?_⟩ <;> simp only [e1, e2, w1, w2] <;> norm_num

/-- **C108** is false of the status of the interval's upper end: the statuses printed are `_err[_minindex]` and
`_err[_maxindex]`, the second being that of another point of the first half of the profile.  Here, with the default
arguments, the inner optimisation of the upper side fails with status -5 (the bound is then the optimum itself, with error 0)
and that of the lower side succeeds: the interval is printed as [0.8,1] with error [-0.2,0], without any status. -/
theorem C108_status_false (fuel : ℕ) : ∃ le pls q I,
    profileLikelihood (probe fun a => |a - 1| / 2) (reporting fun no => if no = 0 then -5 else 0) (fuel + 1) (exParams 2)
      (exSol 1 (optAt 1)) (fun _ => none) 0 false 10 0.1 0.1 10000 = .ok (some (le, pls)) ∧
    (exSol 1 (optAt 1)).print pls false (exParams 2).gp = .ok (some q) ∧ q.intervals = [I] ∧ I.dim = 0 ∧ I.lo = 0.8 ∧ I.hi = 1 ∧
    I.errlo = -0.2 ∧ I.errhi = 0 ∧ I.status = none ∧ ¬ HonestStatus le I := by
  have t1 : tipOf 1 true = 0.8 := by norm_num [tipOf]
  have t2 : tipOf 1 false = 1.2 := by norm_num [tipOf]
  have w1 : |(0.8 : ℝ) - 1| / 2 = 0.1 := by norm_num [abs_of_neg]
  have w2 : |(1.2 : ℝ) - 1| / 2 = 0.1 := by norm_num [abs_of_pos]
  obtain ⟨le, pls, h1, h2, h3, ⟨i, j, i1, i2, i3, i4⟩, h5⟩ := printed_probe (w := fun a => |a - 1| / 2) (e := 1) (by norm_num)
    (by rw [abs_one]; linarith [dblMax_ge]) (fun no => if no = 0 then -5 else 0) fuel (s := 10) (by norm_num) 10000
    (by intro neg; cases neg <;> norm_num [t1, t2, w1, w2]) (by intro neg; cases neg <;> norm_num [t1, t2, w1, w2])
  have e1 : endOf 1 ((if 1 = 0 then (-5 : ℤ) else 0) < 0) true = 0.8 := by rw [endOf, if_neg (by norm_num), t1]
  have e2 : endOf 1 ((if 0 = 0 then (-5 : ℤ) else 0) < 0) false = 1 := by rw [endOf, if_pos (by norm_num)]
  obtain ⟨q, hq, hm⟩ := print_one (sol := exSol 1 (optAt 1)) (by simp [exSol]) h2 h3 (h5 false)
  refine ⟨le, pls, q, _, h1, hq, hm, rfl, ?_, ?_, ?_, ?_, rfl, ?_⟩
  · show min _ _ = _; rw [e1, e2]; norm_num
  · show max _ _ = _; rw [e1, e2]; norm_num
  · show min _ _ - _ = _; rw [e1, e2]; norm_num
  · show max _ _ - _ = _; rw [e1, e2]; norm_num
  · rintro ⟨i', j', sa, sb, a1, a2, a3, a4, a5⟩
    rw [i2] at a2
    have : j = j' := by exact_mod_cast a2
    subst this
    rw [i4] at a4
    obtain rfl := Option.some.inj a4
    simp at a5

/-- **C108** is false of the values beside an interval when the optimum is negative: the bounds are put in order but neither
the two values nor the two points are.  Here the optimum is (-1,1); the bounds are printed as [-1.2,-0.8] and the values as
(0.1,0.105), though the objective is 0.105 at the lower bound and 0.1 at the upper one. -/
theorem C108_order_false (fuel : ℕ) : ∃ f : List ℝ → FVal, ∃ le pls q I,
    profileLikelihood f (reporting fun _ => 0) (fuel + 1) (exParams 2) (exSol 1 (optAt (-1)))
      (fun _ => none) 0 false 10 0.1 0.1 10000 = .ok (some (le, pls)) ∧
    (exSol 1 (optAt (-1))).print pls true (exParams 2).gp = .ok (some q) ∧ q.intervals = [I] ∧ I.dim = 0 ∧ I.lo = -1.2 ∧
    I.hi = -0.8 ∧ I.fvalues = (FVal.ofReal 0.1, FVal.ofReal 0.105) ∧ I.ends = some (beside (-0.8), beside (-1.2)) ∧
    f [-1.2, 1] = FVal.ofReal 0.105 ∧ f [-0.8, 1] = FVal.ofReal 0.1 := by
  set w : ℝ → ℝ := fun a => if -1 ≤ a then (a + 1) / 2 else 0.525 * (-1 - a) with hw
  have t1 : tipOf (-1) true = -0.8 := by norm_num [tipOf]
  have t2 : tipOf (-1) false = -1.2 := by norm_num [tipOf]
  have w0 : w (-1) = 0 := by norm_num [hw]
  have w1 : w (-0.8) = 0.1 := by norm_num [hw]
  have w2 : w (-1.2) = 0.105 := by norm_num [hw]
  obtain ⟨le, pls, h1, h2, h3, -, h5⟩ := printed_probe (w := w) (e := -1) w0
    (by rw [abs_neg, abs_one]; linarith [dblMax_ge]) (fun _ => 0) fuel (s := 10) (by norm_num) 10000
    (by intro neg; cases neg <;> simp only [t1, t2, w1, w2] <;> norm_num)
    (by intro neg; cases neg <;> simp only [t1, t2, w1, w2] <;> norm_num)
  have e1 : endOf (-1) ((0 : ℤ) < 0) true = -0.8 := by rw [endOf, if_neg (by norm_num), t1]
  have e2 : endOf (-1) ((0 : ℤ) < 0) false = -1.2 := by rw [endOf, if_neg (by norm_num), t2]
  obtain ⟨q, hq, hm⟩ := print_one (sol := exSol 1 (optAt (-1))) (by simp [exSol]) h2 h3 (h5 true)
  refine ⟨probe w, le, pls, q, _, h1, hq, hm, rfl, ?_, ?_, ?_, ?_, ?_, ?_⟩
  · simp only [e1, e2]; norm_num
  · simp only [e1, e2]; norm_num
  · simp only [e1, e2, w1, w2]
  · simp only [e1, e2, if_true]
  · rw [probe_one, w2]
  · rw [probe_one, w1]

/-- **C108** is false of the line's title, "best solution": what is printed is the best of the last generation.  In any
dimension, with the default settings and elitism, in the run of `C40_loss_false`: a point of value 0 was evaluated, and after
any number of generations the value printed is 1. -/
theorem C108_best_false (hn : 1 ≤ n) (env : Env n) (x0 : Vec n) (hx0 : x0 ≠ fun _ => -dblMax) (sigma : ℝ)
    (seed clock : ℕ) (p : Params n) (hp : Params.make x0 sigma (-1) seed clock GenoPheno.plain = .ok p)
    (hz : ∀ j, env.z j = 0 ↔ j ≠ p.lambda + 1) (hf : env.f = awayFrom x0) (k : ℕ) (hk : 2 ≤ k) :
    ∃ s t q, Strat.new env .plain (p.setElitism 1) = .ok s ∧ s.generations env k = .ok t ∧
      t.sol.print (fun _ => none) false p.gp = .ok (some q) ∧ q.fvalue = .num 1 ∧ ∃ y, (y, FVal.num 0) ∈ t.calls := by
  obtain ⟨s, hs, hall⟩ := C40_loss_false hn env x0 hx0 sigma seed clock p hp hz hf
  obtain ⟨t, ht, hc, -, hb⟩ := hall k hk
  obtain ⟨hu, hm⟩ := usual_elitist (kind := .plain) hp (by decide)
  have hi := ((PrintInv.new (f := awayFrom x0 0) hu.configured hu.uh hs).genRun (env := env) (fun j y => by rw [hf]; rfl)
    (generations_genRun k ht).1)
  have hgp : p.gp = GenoPheno.plain := (Params.make_plain hp).2.2.2.2.2.2.2.2.2.1
  obtain ⟨q, hq, -⟩ := C108_intervals_partial (p := p) (sol := t.sol) .none (List.ne_nil_of_mem (hi.2 (by omega)).mem)
    (y := t.sol.bestCandidate.x) (by rw [hgp, phenoV_plain]) false
  obtain ⟨q', e, q1, -⟩ := print_eq (List.ne_nil_of_mem (hi.2 (by omega)).mem) hq
  injection e with e
  subst e
  exact ⟨s, t, q, hs, ht, hq, by rw [q1, hb], hc⟩

/-- **C108** is false of `operator<<`: it prints the point in the internal coordinates of the search, whatever the
transformation.  In any dimension, for any objective without NaN and any number of generations: with the shift by 1, the
point printed differs in every coordinate from that of `print` with the transformation. -/
theorem C108_stream_false (hn : 1 ≤ n) (k : ℕ) (env : Env n) (hnum : ∀ j y, (env.f j y).IsNum) (x0 : Vec n) (sigma : ℝ) :
    ∃ p s t q q', p.gp = GenoPheno.ofVectorsNoBound (List.replicate n 1) (List.replicate n 1) ∧
      Strat.new env .plain p = .ok s ∧ GenRun env s k t ∧
      t.sol.print (fun _ => none) false p.gp = .ok (some q) ∧ t.sol.stream (fun _ => none) = .ok (some q') ∧
      ∀ i, q'.x i = q.x i + 1 := by
  have hph : ∀ x : Vec n, phenoV (GenoPheno.ofVectorsNoBound (List.replicate n 1) (List.replicate n 1)) x =
      .ok fun i => x i - 1 := by
    intro x
    unfold phenoV
    show ((LinScaling.ofVectors (List.replicate n 1) (List.replicate n 1)).toF (List.ofFn x) >>= fun y => toVec n y) = _
    rw [LinScaling.toF_eq (by simp [LinScaling.ofVectors]) (by simp [LinScaling.ofVectors]) (by
      intro d hd
      obtain ⟨_, rfl⟩ := List.mem_replicate.1 hd
      norm_num), Out.ok_bind]
    have : List.zipWith (· / ·) (List.zipWith (· - ·) (List.ofFn x) (List.replicate n (1 : ℝ))) (List.replicate n 1) =
        List.ofFn fun i => x i - 1 := by
      apply List.ext_getElem
      · simp
      · intro i h1 h2
        simp
    show toVec n (List.zipWith (· / ·) (List.zipWith (· - ·) (List.ofFn x) (List.replicate n (1 : ℝ))) (List.replicate n 1)) = _
    rw [this, toVec_ofFn]
  obtain ⟨p, s, t, q, h1, h2, h3, h4, h5, h6, h7⟩ := C108_case hn _ (fun x => ⟨_, hph x⟩) (by
    intro x
    show ∃ y, ((LinScaling.ofVectors (List.replicate n 1) (List.replicate n 1)).toInternal (List.ofFn x) >>= fun y => toVec n y) = _
    rw [LinScaling.toInternal_eq (by simp [LinScaling.ofVectors]) (by simp [LinScaling.ofVectors]), Out.ok_bind]
    obtain ⟨y, hy⟩ := toVec_of_length (n := n) (l := List.zipWith (· + ·) (List.zipWith (· * ·) (List.ofFn x)
      (LinScaling.ofVectors (List.replicate n 1) (List.replicate n 1)).scaling)
      (LinScaling.ofVectors (List.replicate n 1) (List.replicate n 1)).shift) (by simp [LinScaling.ofVectors])
    exact ⟨y, hy⟩) x0 sigma k env hnum false
  have hs : t.sol.stream (fun _ => none) = .ok (some { q with x := t.sol.bestCandidate.x }) := by
    obtain ⟨q0, e, q1, q2, q3, q4, q5, q6⟩ := print_eq h6 h7
    injection e with e
    subst e
    unfold Sol.print at h7
    rw [if_neg h6, q5, Out.ok_bind, q6, Out.ok_bind] at h7
    injection h7 with h7
    injection h7 with h7
    unfold Sol.stream Sol.print
    rw [if_neg h6, phenoV_plain, Out.ok_bind, q6, Out.ok_bind, ← h7]
    rfl
  refine ⟨p, s, t, q, _, h3, h4, h5, h7, hs, fun i => ?_⟩
  obtain ⟨q0, e, q1, q2, q3, q4, q5, q6⟩ := print_eq h6 h7
  injection e with e
  subst e
  rw [h3, hph] at q5
  injection q5 with q5
  rw [← q5]
  simp

end Libcmaes
