import Verif.Lemmas.ErrStatsMore

/-!
# Profiles that end, and examples
-/

namespace Libcmaes

namespace ErrStats

variable {n : ℕ}

theorem Optimum.rotates {f : List ℝ → FVal} {p : Params n} {sol : Sol n} {a : ℝ} (h : Optimum f p sol a) (k : Fin n)
    (curve : Bool) (s : ℕ) (fup delta : ℝ) (maxiters : ℤ) :
    Rotates (profileOf f p sol k curve s fup delta maxiters).toLine := by
  refine ⟨h.told, ?_⟩
  show (p.sep || p.vd) = false
  rw [h.sep, h.vd]
  rfl

/-- No error. -/
theorem profile_ok {f : List ℝ → FVal} {inner : Inner} {p : Params n} {sol : Sol n} {a : ℝ} (h : Optimum f p sol a)
    (hi : Inner.Fits inner) (fuel : ℕ) (pls : Pls n) (k : Fin n) (curve : Bool) {s : ℕ} (hs : 0 < s) (fup delta : ℝ)
    (maxiters : ℤ) : ∃ o, profileLikelihood f inner fuel p sol pls k curve s fup delta maxiters = .ok o := by
  unfold profileLikelihood
  simp only [h.gp, phenoV_plain, Out.ok_bind]
  have sh0 := Pli.make_shaped k.val s sol.bestCandidate.x sol.bestCandidate.fvalue fup delta
  have hok : ∀ (neg : Bool) (le : Pli n) (no : ℕ), le.Shaped → le.samplesize = s →
      ∃ o, search (profileOf f p sol k curve s fup delta maxiters) inner fuel neg le no = .ok o :=
    fun neg le no sh e => searchLoop_plain_ok hi h.gp (h.rotates k curve s fup delta maxiters) h.cands fuel neg fuel 0 true
      _ _ le no sh e (fun _ => hs)
  obtain ⟨o1, h1⟩ := hok false _ 0 sh0 rfl
  rw [h1, Out.ok_bind]
  rcases o1 with _ | ⟨le1, no1⟩
  · exact ⟨_, rfl⟩
  have l1 := searchLoop_like fuel sh0 h1
  have sh1 := l1.shaped sh0
  have e1 : le1.samplesize = s := l1.s
  obtain ⟨o2, h2⟩ := hok true le1 no1 sh1 e1
  simp only
  rw [h2, Out.ok_bind]
  rcases o2 with _ | ⟨le2, no2⟩
  · exact ⟨_, rfl⟩
  have l2 := searchLoop_like fuel sh1 h2
  obtain ⟨le3, h3⟩ := Pli.setErrMinMax_ok (l2.shaped sh1) (by rw [l2.k, l1.k]; exact k.2) (by rw [l2.s, e1]; exact hs)
  simp only
  rw [h3]
  exact ⟨_, rfl⟩

/-- If the first steps end, so does the whole computation. -/
theorem profile_ends_of_first {f : List ℝ → FVal} {inner : Inner} {fuel : ℕ} {p : Params n} {sol : Sol n} {pls : Pls n}
    {k : Fin n} {curve : Bool} {s : ℕ} {fup delta : ℝ} {maxiters : ℤ} (hm : 1 ≤ maxiters) (hf : maxiters ≤ fuel)
    (hf' : 10 ≤ fuel)
    (hfirst : ∀ neg : Bool, takeLinearStep (profileOf f p sol k curve s fup delta maxiters).toLine fuel 10 true
      ((if neg then -1 else 1) * sol.bestCandidate.x k * 0.1) sol.bestCandidate.x ≠ .ok none) :
    profileLikelihood f inner fuel p sol pls k curve s fup delta maxiters ≠ .ok none := by
  intro h
  unfold profileLikelihood at h
  simp only [Out.bind_eq_ok] at h
  obtain ⟨y, _, t, ht, h⟩ := h
  obtain ⟨r1, rfl, _⟩ := searchLoop_first hf' (q := profileOf f p sol k curve s fup delta maxiters) hm hf
    (hfirst false) ht
  simp only [Out.bind_eq_ok] at h
  obtain ⟨t2, ht2, h⟩ := h
  obtain ⟨r2, rfl, _⟩ := searchLoop_first hf' (q := profileOf f p sol k curve s fup delta maxiters) hm hf
    (hfirst true) ht2
  simp only [Out.bind_eq_ok] at h
  obtain ⟨_, _, h⟩ := h
  exact nomatch Except.ok.inj h

/-- Conditions under which a profile is computed whatever the objective. -/
theorem profile_never_stuck {f : List ℝ → FVal} {p : Params n} {sol : Sol n} {a : ℝ} (h : Optimum f p sol a) (k : Fin n)
    (hx : sol.bestCandidate.x k ≠ 0) (hE : sol.leigenvectors k k ≠ 0) {fup delta : ℝ} (hup : 0 ≤ fup) (hd : 0 ≤ delta)
    {maxiters : ℤ} (hm : 1 ≤ maxiters) : ∃ N, ∀ fuel ≥ N, ∀ (inner : Inner) (pls : Pls n) (curve : Bool) (s : ℕ),
      profileLikelihood f inner fuel p sol pls k curve s fup delta maxiters ≠ .ok none := by
  have h0 : 0 ≤ fup + delta * fup := add_nonneg hup (mul_nonneg hd hup)
  have key : ∀ neg : Bool, ∃ N, ∀ fuel ≥ N, ∀ curve s nmax,
      takeLinearStep (profileOf f p sol k curve s fup delta maxiters).toLine fuel nmax true
        ((if neg then -1 else 1) * sol.bestCandidate.x k * 0.1) sol.bestCandidate.x ≠ .ok none := by
    intro neg
    have hne : (if neg then (-1 : ℝ) else 1) * sol.bestCandidate.x k * 0.1 ≠ 0 := by
      refine mul_ne_zero (mul_ne_zero ?_ hx) (by norm_num)
      split_ifs <;> norm_num
    obtain ⟨N, hN⟩ := takeLinearStep_first_ends (l := (profileOf f p sol k false 0 fup delta maxiters).toLine) h.gp
      (h.rotates k false 0 fup delta maxiters) (x := sol.bestCandidate.x) h.value h.best h0 hne hE
    exact ⟨N, fun fuel hf _ _ nmax => hN fuel hf nmax⟩
  obtain ⟨N1, h1⟩ := key false
  obtain ⟨N2, h2⟩ := key true
  refine ⟨max (max N1 N2) (max maxiters.toNat 10), fun fuel hf inner pls curve s => ?_⟩
  have hf1 : N1 ≤ fuel := le_trans (le_trans (le_max_left _ _) (le_max_left _ _)) hf
  have hf2 : N2 ≤ fuel := le_trans (le_trans (le_max_right _ _) (le_max_left _ _)) hf
  have hf3 : maxiters.toNat ≤ fuel := le_trans (le_trans (le_max_left _ _) (le_max_right _ _)) hf
  have hf4 : 10 ≤ fuel := le_trans (le_trans (le_max_right _ _) (le_max_right _ _)) hf
  refine profile_ends_of_first hm (by omega) hf4 (fun neg => ?_)
  cases neg
  · exact h1 fuel hf1 curve s 10
  · exact h2 fuel hf2 curve s 10

/-- A first step that stops after one doubling. -/
theorem takeLinearStep_double {l : Line n} (hg : l.gp = GenoPheno.plain) (hr : Rotates l) {x : Vec n} {a d : ℝ}
    (hf : l.f (List.ofFn x) = FVal.ofReal a) (hm : l.minf = FVal.ofReal a) (hup : 0 < l.fup) (hd : 0 ≤ l.delta)
    (hd1 : l.delta < 1) (hx : |x l.k| ≤ dblMax)
    (hfar : ¬ FVal.lt (FVal.sub (l.f (List.ofFn (x + fun i => l.sol.leigenvectors l.k i * (d * 2)))) l.minf).abs
      (FVal.ofReal (l.fup - l.delta * l.fup))) (fuel : ℕ) :
    takeLinearStep l (fuel + 1) 10 true d x =
      .ok (some (d * 2, Function.update x l.k (x l.k + l.sol.leigenvectors l.k l.k * (d * 2)), 2)) := by
  have h1 : ¬ FVal.lt (FVal.ofReal (l.fup + l.delta * l.fup)) (FVal.ofReal 0) := by
    rw [FVal.lt_ofReal]
    have : 0 ≤ l.delta * l.fup := mul_nonneg hd hup.le
    linarith
  have hgo : l.goesOn false (FVal.ofReal 0) 10 x = .ok true := by
    unfold Line.goesOn
    rw [hg]
    rw [abs_le] at hx
    simp only [Bool.false_eq_true, if_false]
    exact congrArg Except.ok (decide_eq_true ⟨FVal.lt_ofReal.2 (by nlinarith), by norm_num, hx.1, hx.2⟩)
  have hfd : (FVal.sub (l.f (List.ofFn x)) l.minf).abs = FVal.ofReal 0 := by
    rw [hf, hm, FVal.sub_ofReal, FVal.abs_ofReal, sub_self, abs_zero]
  obtain ⟨o, ho⟩ := takeLinearStep_plain_ok (l := l) hg hr (fuel + 1) 10 true d x
  obtain ⟨y, fd, x1, r, hy, hfd', h3, h4⟩ := takeLinearStep_eq ho
  rw [hg, phenoV_plain] at hy
  obtain rfl := Except.ok.inj hy
  rw [hfd] at hfd'
  subst hfd'
  rcases h3 with ⟨h3, _⟩ | ⟨_, rfl, h3⟩
  · exact absurd h3 h1
  rcases loop_cases h3 with ⟨h5, _⟩ | ⟨_, ⟨h5, _⟩ | ⟨f', dv, y', hf', hdv, hy', h5⟩⟩
  · rw [hgo] at h5
    exact nomatch Except.ok.inj h5
  · exact nomatch h5
  simp only [Bool.false_eq_true, if_false] at hdv h5
  rw [rotated_ok hr] at hdv
  obtain rfl := Except.ok.inj hdv
  rw [hg, phenoV_plain] at hy'
  obtain rfl := Except.ok.inj hy'
  rcases loop_cases h5 with ⟨_, h6⟩ | ⟨h6, _⟩
  · subst h6
    rw [ho, h4]
    rfl
  · exact absurd (goesOn_below h6) hfar

/-- A direction that ends in its first round. -/
theorem search_first {q : Profile n} {inner : Inner} {fuel : ℕ} {neg : Bool} {le : Pli n} {no : ℕ} {d1 : ℝ} {x1 x2 bx : Vec n}
    {ev : ℕ} {r : VpkRes} (hcu : q.curve = false)
    (ht : takeLinearStep q.toLine (fuel + 1) 10 true ((if neg then -1 else 1) * q.sol.bestCandidate.x q.k * 0.1)
      q.sol.bestCandidate.x = .ok (some (d1, x1, ev)))
    (hopt : optimizeVpk q.f inner no q.gp q.sol.cands [(q.k.val, x1 q.k)] (List.ofFn x1) false false = .ok r)
    (hgood : ¬ (r.status < 0 ∨ FVal.lt r.best.1 q.minf.tenth)) (hx2 : r.best.2 = List.ofFn x2)
    (hbx : phenoV q.gp x2 = .ok bx)
    (hcl : FVal.le ((FVal.sub (FVal.sub r.best.1 q.minf) (FVal.ofReal q.fup)).abs) (FVal.ofReal (0.1 * q.fup))) :
    search q inner (fuel + 1) neg le no = (do
      let le2 ← le.pad neg r.best.1 bx r.status
      pure (some (le2, no + 1))) := by
  unfold search searchLoop
  simp only
  rw [ht, Out.ok_bind]
  simp only
  rw [hopt, Out.ok_bind, if_neg hgood, hx2, toVec_ofFn, Out.ok_bind, hbx, Out.ok_bind, hcu]
  simp only [Bool.false_eq_true, if_false, Out.pure_eq, Out.ok_bind, true_and]
  rw [if_pos hcl]

/-! ## Examples -/

/-- A solution whose best candidate is `c`, with eigenvectors `E`. -/
noncomputable def exSol (E : Mat n) (c : Cand n) : Sol n where
  hasCov := true
  hasSep := false
  hasCsq := true
  hasV := false
  hasLeig := true
  pathsOk := true
  cov := 1
  csqinv := 1
  sepcov := 1
  sepcsqinv := 1
  xmean := c.x
  psigma := 0
  pc := 0
  hsig := true
  sigma := 1
  cands := [c]
  bestHist := [c]
  maxHist := -1
  maxEigenv := 1
  minEigenv := 1
  leigenvalues := 1
  leigenvectors := E
  niter := 1
  nevals := 1
  kcand := 1
  kBestHist := [c]
  bfvalues := [c.fvalue]
  medianFvalues := [c.fvalue]
  eigeniter := 0
  updatedEigen := true
  runStatus := 0
  edm := 0
  bestSeen := some c
  bestSeenIter := some 0
  worstSeen := some c
  initialCand := none
  v := 0
  candsUh := []
  lambdaReev := 0
  suh := 0
  tpaS := 0
  tpaP1 := 0
  tpaP2 := 0
  tpaX1 := 0
  tpaX2 := 0
  xmeanPrev := 0

/-- Default settings. -/
noncomputable def exParams (n : ℕ) : Params n := Params.blank 4 0 1 1 GenoPheno.plain

/-- A candidate at (1,...,1). -/
noncomputable def exCand (n : ℕ) (a : ℝ) : Cand n := ⟨FVal.ofReal a, fun _ => 1, 0⟩

theorem exSol_optimum {f : List ℝ → FVal} {a : ℝ} (E : Mat n) (h : f (List.replicate n 1) = FVal.ofReal a) :
    Optimum f (exParams n) (exSol E (exCand n a)) a := by
  refine ⟨rfl, rfl, rfl, rfl, by simp [exSol], rfl, ?_⟩
  show f (List.ofFn fun _ : Fin n => (1 : ℝ)) = _
  rw [List.ofFn_const]
  exact h

/-- Inner optimisations that always answer (1,...,1). -/
noncomputable def ones : Inner := fun _ g x0 _ gp => do
  let y ← gp.pheno (x0.map fun _ => 1)
  pure ⟨g y, x0.map fun _ => 1, 1, 0⟩

theorem ones_fits : Inner.Fits ones := fun _ f x0 _ => ⟨⟨f (x0.map fun _ => 1), x0.map fun _ => 1, 1, 0⟩, rfl, by simp⟩

theorem ones_honest : Inner.Honest ones := by
  intro no g x0 σ gp r h
  unfold ones at h
  rw [Out.bind_eq_ok] at h
  obtain ⟨y, h1, h2⟩ := h
  obtain rfl := Except.ok.inj h2
  exact ⟨y, h1, rfl⟩

end ErrStats

end Libcmaes
