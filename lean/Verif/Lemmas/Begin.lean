import Verif.Lemmas.StopRun

/-! # Runs from a starting state: limits, success, budgets -/

namespace Libcmaes

open Spec

variable {n : ℕ}

/-- No test beyond the automatic limit lets the loop go on. -/
theorem auto_limit {env : Env n} {kind : CovKind} {p : Params n} {s s0 t t' : Strat n} {tr}
    (h : Begins kind p s) (hk : FlagsOf p s.crit) (ha : CritActive p 7)
    (h0 : s.evalInitial env = .ok s0) (h1 : LoopTo env s0 tr t) (hl : ⌈autoLimit p⌉₊ ≤ tr.length) :
    t.stop env ≠ .ok (false, t') := by
  intro hf
  obtain ⟨e1, e2, e3, e4, _⟩ := evalInitial_kept h0
  obtain ⟨r1, _, _, r4, r5, _, r7, _⟩ := run_p h1.askRun.run
  have hc : FlagsOf p t.crit := by rw [r7, e2]; exact hk
  have hsn : t.sol.niter = tr.length := by rw [r5, e4, h.fresh.niter]; omega
  have hpl : t.p = { p with sigmaInit := s.sol.sigma } := by rw [r1, e1, h.params]
  have hpos : 0 < tr.length := by
    refine lt_of_lt_of_le (Nat.ceil_pos.2 ?_) hl
    unfold autoLimit
    positivity
  rcases (stop_false hf).2.2 with ⟨h2, _⟩ | ⟨_, h2, _⟩
  · rw [r4, e3, h.niter] at h2; omega
  · have := stopCrit_zero h2 7 ((hc.mem 7).2 ha)
    rw [show critFun env.fladd 7 t.p t.sol = critAutoMaxIter t.p t.sol from rfl] at this
    classical
    rw [crit_autoMaxIter (by rw [hpl]; exact Nat.pos_of_ne_zero h.lambda)] at this
    injection this with this
    by_cases ham : AutoMaxIter t.p t.sol
    · rw [if_pos ham] at this; cases this
    · refine ham ?_
      unfold AutoMaxIter
      have : autoLimit t.p = autoLimit p := by rw [hpl]; rfl
      rw [this, hsn]
      exact le_trans (Nat.le_ceil _) (by exact_mod_cast hl)

theorem iter_limit {env : Env n} {kind : CovKind} {p : Params n} {s s0 t t' : Strat n} {tr}
    (h : Begins kind p s) (hk : FlagsOf p s.crit) (ha : CritActive p 9) (hm : p.maxIter ≠ -1)
    (h0 : s.evalInitial env = .ok s0) (h1 : LoopTo env s0 tr t) (hl : max 1 p.maxIter.toNat ≤ tr.length) :
    t.stop env ≠ .ok (false, t') := by
  intro hf
  obtain ⟨e1, e2, e3, e4, _⟩ := evalInitial_kept h0
  obtain ⟨r1, _, _, r4, r5, _, r7, _⟩ := run_p h1.askRun.run
  have hc : FlagsOf p t.crit := by rw [r7, e2]; exact hk
  have hsn : t.sol.niter = tr.length := by rw [r5, e4, h.fresh.niter]; omega
  have hpl : t.p = { p with sigmaInit := s.sol.sigma } := by rw [r1, e1, h.params]
  rcases (stop_false hf).2.2 with ⟨h2, _⟩ | ⟨_, h2, _⟩
  · rw [r4, e3, h.niter] at h2; omega
  · have := stopCrit_zero h2 9 ((hc.mem 9).2 ha)
    rw [show critFun env.fladd 9 t.p t.sol = critMaxIter t.p t.sol from rfl] at this
    classical
    rw [crit_maxIter] at this
    injection this with this
    by_cases ham : MaxIter t.p t.sol
    · rw [if_pos ham] at this; cases this
    · refine ham ⟨by rw [hpl]; exact hm, ?_⟩
      rw [hpl, hsn]
      show p.maxIter ≤ _
      have := Int.self_le_toNat p.maxIter
      omega

/-- What ends, ends well: with the settings of `GoodRun`, values in `Val` and a transform that does not
fail, the outcome is a result. -/
theorem ends_well {env : Env n} {kind : CovKind} {p : Params n} {s : Strat n} (hu : GoodRun kind p)
    (h0 : Begins kind p s) (hes : EsSound s) (hk : FlagsOf p s.crit) (hv : ValObjective env p) (hg : ∀ x : Vec n, ∃ y : Vec n, phenoV p.gp x = .ok y)
    (he : p.withEdm = false) (hr : p.initialElitistOnRestart = false)
    (fuel : ℕ) (hf : s.optimize env fuel ≠ .ok none) : ∃ s', s.optimize env fuel = .ok (some s') := by
  cases fuel with
  | zero => exact absurd rfl hf
  | succ k =>
    have hp : s.p = { p with sigmaInit := s.sol.sigma } := h0.params
    have hi : ∃ s0, s.evalInitial env = .ok s0 := by
      unfold Strat.evalInitial
      split_ifs
      · obtain ⟨y, hy⟩ := hg s.sol.xmean
        rw [hp]
        simp only
        rw [hy]
        exact ⟨_, rfl⟩
      · exact ⟨_, rfl⟩
    obtain ⟨s0, h1⟩ := hi
    obtain ⟨hL, hR⟩ := start_live hu h0 hes h1 hv
    have hp0 : s0.p = s.p := (evalInitial_kept h1).1
    obtain ⟨o, ho⟩ := loop_total (p := p) (k + 1) hL hR (by rw [(evalInitial_kept h1).2.1]; exact hk)
      (by rw [(evalInitial_kept h1).2.2.2.2.1, h0.negate]; exact hv) (by rw [hp0, hp]; exact hg)
    rw [Strat.optimize, h1, Out.ok_bind, ho, Out.ok_bind] at hf ⊢
    cases o with
    | none => exact absurd rfl hf
    | some s1 =>
      simp only at hf ⊢
      have hp1 : s1.p = s.p := by
        obtain ⟨_, hrun⟩ := Strat.loop_run _ ho
        rw [(run_p hrun).1, hp0]
      rw [if_neg (by rw [hp1, hp]; simp [he]), Out.pure_eq, Out.ok_bind,
        wantsRestart_off (by rw [hp1, hp]; exact hr), Out.ok_bind]
      exact ⟨s1, rfl⟩

/-- The count of evaluations before the last generation. -/
theorem last_generation {env : Env n} {kind : CovKind} {p : Params n} {s s' : Strat n} {fuel : ℕ}
    (h0 : Begins kind p s) (hk : FlagsOf p s.crit) (ha : CritActive p 8) (hm : p.maxFevals ≠ -1)
    (hr : p.initialElitistOnRestart = false) (he : p.withEdm = false)
    (h : s.optimize env fuel = .ok (some s')) :
    ∃ s0, s.evalInitial env = .ok s0 ∧ (s'.niter = 0 ∧ s'.sol.nevals = s0.sol.nevals ∨
      ∃ t t1 t2, GenRun env s0 (s'.niter - 1) t ∧ t.stop env = .ok (false, t1) ∧ t1.generation env = .ok t2 ∧
        s'.sol.nevals = t2.sol.nevals ∧ t1.sol.nevals = t.sol.nevals ∧
        (s'.niter ≠ 1 → (t.sol.nevals : ℤ) < p.maxFevals) ∧
        (s'.niter = 1 → t.sol.nevals = s0.sol.nevals)) := by
  obtain ⟨s0, tr, t, i1, i2, i3, i4, i5, i6, i7, i8, i9, i10⟩ := optimize_end h0 hk hr he h
  have hev : s'.sol.nevals = t.sol.nevals ∧ s'.niter = tr.length := by
    rcases i10 with ⟨_, e⟩ | ⟨_, _, c, _, _, _, e⟩ <;> rw [e] <;> exact ⟨rfl, i6⟩
  refine ⟨s0, i1, ?_⟩
  cases i2 with
  | refl => exact Or.inl ⟨hev.2, hev.1⟩
  | @step t1 _ tr' pop t0 j0 j1 j2 j3 =>
    right
    obtain ⟨g1, g2, g3, g4, g5, g6, g7, g8, g9⟩ := evalInitial_kept i1
    obtain ⟨r1, _, _, r4, r5, _, r7, _⟩ := run_p j0.askRun.run
    have hlen : s'.niter = tr'.length + 1 := by rw [hev.2]; simp
    obtain ⟨k, r, e⟩ := Strat.stop_frame j1
    refine ⟨t0, t1, t, by rw [hlen]; exact j0.genRun, j1, j2, hev.1, by rw [e], ?_, ?_⟩
    · intro hne
      have hc : FlagsOf p t0.crit := by rw [r7, g2]; exact hk
      have hp : t0.p = { p with sigmaInit := s.sol.sigma } := by rw [r1, g1, h0.params]
      rcases (stop_false j1).2.2 with ⟨h2, _⟩ | ⟨_, h2, _⟩
      · rw [r4, g3, h0.niter] at h2; omega
      · have := stopCrit_zero h2 8 ((hc.mem 8).2 ha)
        rw [show critFun env.fladd 8 t0.p t0.sol = critMaxFEvals t0.p t0.sol from rfl] at this
        classical
        rw [crit_maxFEvals] at this
        injection this with this
        by_contra hlt
        rw [if_pos ⟨by rw [hp]; exact hm, by rw [hp]; exact not_lt.1 hlt⟩] at this
        cases this
    · intro h1
      have : tr' = [] := by rw [← List.length_eq_zero_iff]; omega
      rw [j0.nil this]

/-- The budget of evaluations of a run. -/
theorem budget_run {env : Env n} {kind : CovKind} {p : Params n} {s s' : Strat n} {fuel : ℕ}
    (h0 : Begins kind p s) (hk : FlagsOf p s.crit) (ha : CritActive p 8) (hm : p.maxFevals ≠ -1)
    (hr : p.initialElitistOnRestart = false) (he : p.withEdm = false) (huh : p.uh = false)
    (hg : p.withGradient = false) (h : s.optimize env fuel = .ok (some s')) :
    (s'.sol.nevals : ℤ) < max p.maxFevals 2 + p.lambda := by
  obtain ⟨s0, i1, hd⟩ := last_generation h0 hk ha hm hr he h
  obtain ⟨g1, g2, g3, g4, g5, g6, g7, g8, g9⟩ := evalInitial_kept i1
  rw [h0.fresh.nevals] at g8
  have hl := h0.lambda
  rcases hd with ⟨_, e⟩ | ⟨t, t1, t2, j1, j2, j3, j4, j5, j6, j7⟩
  · rw [e]; omega
  · obtain ⟨tr, _, hrun⟩ := (GenRun.stop j1 j2).askRun
    have hp : t1.p = { p with sigmaInit := s.sol.sigma } := by rw [(run_p hrun.run).1, g1, h0.params]
    have := generation_evals (by rw [hp]; exact huh) (by rw [hp]; exact hg) j3
    rw [j4, this, j5, hp]
    show ((t.sol.nevals + p.lambda : ℕ) : ℤ) < _
    by_cases h1 : s'.niter = 1
    · have := j7 h1
      push_cast
      omega
    · have := j6 h1
      push_cast
      omega

end Libcmaes
