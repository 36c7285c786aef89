import Verif.Lemmas.ErrStatsWit

/-!
# C56, C57, C84, C85, C86: profile likelihood (src/errstats.cc, include/libcmaes/pli.h)
-/

namespace Libcmaes

open ErrStats

variable {n : ℕ}

/-! ## C56: the interval -/

/-- **C56**, the interval: for every profile that was computed, the bounds are ordered, the errors are their distances to the
optimum, which sits in the middle of the profile; the two bounds are the coordinates of one point of each side, and no
point of that side has a value nearer to the minimum plus `fup`. -/
theorem C56_interval {f : List ℝ → FVal} {inner : Inner} {fuel : ℕ} {p : Params n} {sol : Sol n} {pls pls' : Pls n}
    {k : Fin n} {curve : Bool} {s : ℕ} {fup delta : ℝ} {maxiters : ℤ} {le : Pli n}
    (h : profileLikelihood f inner fuel p sol pls k curve s fup delta maxiters = .ok (some (le, pls'))) :
    le.min ≤ le.max ∧ le.errmin ≤ le.errmax ∧
    (∃ y, phenoV p.gp sol.bestCandidate.x = .ok y ∧ le.errmin = le.min - y k ∧ le.errmax = le.max - y k ∧
      le.xm[s]? = some y ∧ le.fvaluem[s]? = some sol.bestCandidate.fvalue) ∧
    le.fvaluem.length = 2 * s + 1 ∧ le.xm.length = 2 * s + 1 ∧
    ∃ (i j : ℕ) (lo hi : Vec n) (vlo vhi : FVal), i < s ∧ j < s ∧ le.minindex = i ∧ le.maxindex = j ∧
      le.xm[i]? = some lo ∧ le.fvaluem[i]? = some vlo ∧ le.xm[s + 1 + j]? = some hi ∧ le.fvaluem[s + 1 + j]? = some vhi ∧
      le.min = min (lo k) (hi k) ∧ le.max = max (lo k) (hi k) ∧
      (∀ i' < s, ∀ w, le.fvaluem[i']? = some w →
        ¬ FVal.lt (FVal.sub w (sol.bestCandidate.fvalue.add (FVal.ofReal fup))).abs
          (FVal.sub vlo (sol.bestCandidate.fvalue.add (FVal.ofReal fup))).abs) ∧
      (∀ j' < s, ∀ w, le.fvaluem[s + 1 + j']? = some w →
        ¬ FVal.lt (FVal.sub w (sol.bestCandidate.fvalue.add (FVal.ofReal fup))).abs
          (FVal.sub vhi (sol.bestCandidate.fvalue.add (FVal.ofReal fup))).abs) := by
  obtain ⟨y, le1, le2, no1, no2, hy, h1, h2, h3, _⟩ := profileLikelihood_eq h
  have sh0 := Pli.make_shaped k.val s y sol.bestCandidate.fvalue fup delta
  have hl1 := searchLoop_like fuel sh0 h1
  have sh1 := hl1.shaped sh0
  have hl2 := searchLoop_like fuel sh1 h2
  have hl := hl1.trans hl2
  have sh2 := hl2.shaped sh1
  have e2 : le2.samplesize = s := hl.s
  have ek : le2.k = k.val := hl.k
  have eup : le2.fup = fup := hl.fup
  have cf : le2.fvaluem[s]? = some sol.bestCandidate.fvalue :=
    hl.cf.trans (List.getElem?_set_self (by simp; omega))
  have cx : le2.xm[s]? = some y := hl.cx.trans (List.getElem?_set_self (by simp; omega))
  obtain ⟨hk, i, j, v, vi, vj, x, xi, xj, hi, hj, rfl, hv, hx, hvi, hxi, hvj, hxj, hm1, hm2⟩ :=
    Pli.setErrMinMax_spec sh2 h3
  have ek' : (⟨le2.k, hk⟩ : Fin n) = k := Fin.ext ek
  rw [e2] at hi hj hv hx hvj hxj
  simp only [e2, eup] at hm1 hm2
  rw [cf] at hv
  rw [cx] at hx
  obtain rfl := Option.some.inj hv
  obtain rfl := Option.some.inj hx
  simp only [ek']
  refine ⟨min_le_max, sub_le_sub_right min_le_max _, ⟨y, hy, rfl, rfl, cx, cf⟩, ?_, ?_, i, j, xi, xj, vi, vj, hi, hj, rfl,
    rfl, hxi, hvi, hxj, hvj, rfl, rfl, hm1, hm2⟩
  · rw [sh2.fv, e2]
  · rw [sh2.xm, e2]

/-- **C56**, no error: after an unconstrained search with the full covariance matrix the profile of any parameter is computed
without error, with or without curve, for any number of samples but 0. -/
theorem C56_total {f : List ℝ → FVal} {inner : Inner} {p : Params n} {sol : Sol n} {a : ℝ} (h : Optimum f p sol a)
    (hi : Inner.Fits inner) (fuel : ℕ) (pls : Pls n) (k : Fin n) (curve : Bool) {s : ℕ} (hs : 0 < s) (fup delta : ℝ)
    (maxiters : ℤ) : ∃ o, profileLikelihood f inner fuel p sol pls k curve s fup delta maxiters = .ok o :=
  profile_ok h hi fuel pls k curve hs fup delta maxiters

/-- **C56**, `get_pli`: a profile computed for a parameter that had none is the one found afterwards; profiles of other
parameters stay. -/
theorem C56_get_partial {f : List ℝ → FVal} {inner : Inner} {fuel : ℕ} {p : Params n} {sol : Sol n} {pls pls' : Pls n}
    {k : Fin n} {curve : Bool} {s : ℕ} {fup delta : ℝ} {maxiters : ℤ} {le : Pli n}
    (h : profileLikelihood f inner fuel p sol pls k curve s fup delta maxiters = .ok (some (le, pls'))) :
    (getPli pls k = none → getPli pls' k = some le) ∧ ∀ k', k' ≠ k.val → getPli pls' k' = getPli pls k' := by
  obtain ⟨y, le1, le2, no1, no2, _, _, _, _, rfl⟩ := profileLikelihood_eq h
  unfold getPli insertPli
  constructor
  · intro h0
    rw [h0]
    exact Function.update_self ..
  · intro k' hk'
    cases pls k.val with
    | some _ => rfl
    | none => exact Function.update_of_ne hk' ..

/-- The objective |x-1|/2 + |y-1|/2 + ... of the examples. -/
noncomputable def valley (l : List ℝ) : FVal := FVal.ofReal ((l.map fun x => |x - 1| / 2).sum)

theorem valley_ones (n : ℕ) : valley (List.replicate n 1) = FVal.ofReal 0 := by
  unfold valley
  simp

/-- A case that meets the hypotheses of `C56_interval`, `C56_total` and `C56_get_partial`: two parameters, default arguments. -/
example : Optimum valley (exParams 2) (exSol 1 (exCand 2 0)) 0 ∧ Inner.Fits ones ∧
    ∃ fuel le pls, profileLikelihood valley ones fuel (exParams 2) (exSol 1 (exCand 2 0)) (fun _ => none) 0 false 10 0.1 0.1
      10000 = .ok (some (le, pls)) := by
  have ho := exSol_optimum (n := 2) 1 (valley_ones 2)
  refine ⟨ho, ones_fits, ?_⟩
  obtain ⟨N, hN⟩ := profile_never_stuck ho (0 : Fin 2) (by simp [exSol, Sol.bestCandidate, exCand]) (by simp [exSol])
    (fup := 0.1) (delta := 0.1) (by norm_num) (by norm_num) (maxiters := 10000) (by norm_num)
  obtain ⟨o, h⟩ := profile_ok ho ones_fits N (fun _ => none) (0 : Fin 2) false (s := 10) (by norm_num) 0.1 0.1 10000
  rcases o with _ | ⟨le, pls⟩
  · exact absurd h (hN N le_rfl ones _ false 10)
  · exact ⟨N, le, pls, h⟩

/-- **C56** is false of `get_pli` when a profile is computed again: whatever the new arguments, the profile found afterwards is
the old one.  Here a second computation asks for `fup = 1` after a first one with `fup = 0.1`. -/
theorem C56_recompute_false : ∃ (f : List ℝ → FVal) (inner : Inner) (fuel : ℕ) (p : Params 2) (sol : Sol 2)
    (le le' : Pli 2) (pls pls' : Pls 2),
    profileLikelihood f inner fuel p sol (fun _ => none) 0 false 10 0.1 0.1 10000 = .ok (some (le, pls)) ∧
    profileLikelihood f inner fuel p sol pls 0 false 10 1 0.1 10000 = .ok (some (le', pls')) ∧
    getPli pls' 0 = some le ∧ le.fup = 0.1 ∧ le'.fup = 1 := by
  have ho := exSol_optimum (n := 2) 1 (valley_ones 2)
  have hx : (exSol 1 (exCand 2 0)).bestCandidate.x (0 : Fin 2) ≠ 0 := by simp [exSol, Sol.bestCandidate, exCand]
  have hE : (exSol 1 (exCand 2 0)).leigenvectors (0 : Fin 2) (0 : Fin 2) ≠ 0 := by simp [exSol]
  obtain ⟨N1, h1⟩ := profile_never_stuck ho (0 : Fin 2) hx hE (fup := 0.1) (delta := 0.1) (by norm_num) (by norm_num)
    (maxiters := 10000) (by norm_num)
  obtain ⟨N2, h2⟩ := profile_never_stuck ho (0 : Fin 2) hx hE (fup := 1) (delta := 0.1) (by norm_num) (by norm_num)
    (maxiters := 10000) (by norm_num)
  have fupOf : ∀ {fuel : ℕ} {pls pls' : Pls 2} {fup : ℝ} {le : Pli 2},
      profileLikelihood valley ones fuel (exParams 2) (exSol 1 (exCand 2 0)) pls 0 false 10 fup 0.1 10000 =
        .ok (some (le, pls')) → le.fup = fup := by
    intro fuel pls pls' fup le h
    obtain ⟨y, le1, le2, no1, no2, _, a1, a2, a3, _⟩ := profileLikelihood_eq h
    have sh0 := Pli.make_shaped (0 : Fin 2).val 10 y (exSol 1 (exCand 2 0)).bestCandidate.fvalue fup 0.1
    have l1 := searchLoop_like fuel sh0 a1
    have l2 := searchLoop_like fuel (l1.shaped sh0) a2
    obtain ⟨_, _, _, _, _, _, _, _, _, _, _, rfl, _⟩ := Pli.setErrMinMax_spec (l2.shaped (l1.shaped sh0)) a3
    exact l2.fup.trans l1.fup
  obtain ⟨o, e1⟩ := profile_ok ho ones_fits (max N1 N2) (fun _ => none) (0 : Fin 2) false (s := 10) (by norm_num) 0.1 0.1
    10000
  rcases o with _ | ⟨le, pls⟩
  · exact absurd e1 (h1 _ (le_max_left _ _) ones _ false 10)
  obtain ⟨o', e2⟩ := profile_ok ho ones_fits (max N1 N2) pls (0 : Fin 2) false (s := 10) (by norm_num) 1 0.1 10000
  rcases o' with _ | ⟨le', pls'⟩
  · exact absurd e2 (h2 _ (le_max_right _ _) ones _ false 10)
  refine ⟨valley, ones, max N1 N2, exParams 2, exSol 1 (exCand 2 0), le, le', pls, pls', e1, e2, ?_, fupOf e1, fupOf e2⟩
  have hg := (C56_get_partial e1).1 rfl
  obtain ⟨_, _, _, _, _, _, _, _, _, rfl⟩ := profileLikelihood_eq e2
  have hg' : pls 0 = some le := hg
  unfold getPli insertPli
  rw [show ((0 : Fin 2).val) = 0 from rfl, hg']
  exact hg'

/-- **C56** is false of separable and VD searches: in dimension 2 and more, for every objective, asking for a profile of their
solution is undefined behaviour (the eigenvectors they leave are a single column). -/
theorem C56_separable_false {f : List ℝ → FVal} {p : Params n} {sol : Sol n} {a : ℝ} (hn : n ≠ 1)
    (hgp : p.gp = GenoPheno.plain) (hsep : p.sep = true ∨ p.vd = true) (hb : sol.bestCandidate.fvalue = FVal.ofReal a)
    (hv : f (List.ofFn sol.bestCandidate.x) = FVal.ofReal a) (k : Fin n) (hk : |sol.bestCandidate.x k| ≤ dblMax) {fup delta : ℝ}
    (hup : 0 < fup) (hd : 0 ≤ delta) (hd1 : delta < 1) (inner : Inner) (fuel : ℕ) (pls : Pls n) (curve : Bool) (s : ℕ)
    (maxiters : ℤ) : profileLikelihood f inner (fuel + 1) p sol pls k curve s fup delta maxiters = .error .ub := by
  have h1 : ¬ FVal.lt (FVal.ofReal (fup + delta * fup)) (FVal.ofReal 0) := by
    rw [FVal.lt_ofReal]
    have : 0 ≤ delta * fup := mul_nonneg hd hup.le
    linarith
  have hdiag : (p.sep || p.vd) = true := by
    rcases hsep with h | h <;> simp [h]
  have hgo : (profileOf f p sol k curve s fup delta maxiters).toLine.goesOn false (FVal.ofReal 0) 10 sol.bestCandidate.x =
      .ok true := by
    unfold Line.goesOn
    rw [abs_le] at hk
    rw [show (profileOf f p sol k curve s fup delta maxiters).toLine.gp = GenoPheno.plain from hgp]
    simp only [Bool.false_eq_true, if_false]
    exact congrArg Except.ok (decide_eq_true ⟨FVal.lt_ofReal.2 (show 0 < fup - delta * fup by nlinarith), by norm_num, hk.1, hk.2⟩)
  have hrot : ∀ d, rotated sol (p.sep || p.vd) k d = .error .ub := by
    intro d
    unfold rotated
    rw [if_pos (Or.inr ⟨hdiag, hn⟩)]
  have ht : ∀ d, takeLinearStep (profileOf f p sol k curve s fup delta maxiters).toLine (fuel + 1) 10 true d
      sol.bestCandidate.x = .error .ub := by
    intro d
    unfold takeLinearStep
    show (phenoV p.gp sol.bestCandidate.x >>= _) = _
    rw [hgp, phenoV_plain, Out.ok_bind]
    show ((if decide (FVal.lt (FVal.ofReal (fup + delta * fup)) (FVal.sub (f (List.ofFn sol.bestCandidate.x))
      sol.bestCandidate.fvalue).abs) = true then _ else _) >>= _) = _
    simp only [show (profileOf f p sol k curve s fup delta maxiters).f = f from rfl,
      show (profileOf f p sol k curve s fup delta maxiters).minf = sol.bestCandidate.fvalue from rfl,
      show (profileOf f p sol k curve s fup delta maxiters).fup = fup from rfl,
      show (profileOf f p sol k curve s fup delta maxiters).delta = delta from rfl,
      hv, hb, FVal.sub_ofReal, FVal.abs_ofReal, sub_self, abs_zero, decide_eq_false h1, Bool.false_eq_true, if_false,
      Out.pure_eq, Out.ok_bind]
    rw [loop_eq, hgo, Out.ok_bind, if_pos rfl]
    simp only
    show ((rotated sol (p.sep || p.vd) k _ >>= _) >>= _) = _
    rw [hrot]
    rfl
  unfold profileLikelihood
  rw [hgp, phenoV_plain, Out.ok_bind]
  unfold search searchLoop
  show ((takeLinearStep (profileOf f p sol k curve s fup delta maxiters).toLine (fuel + 1) 10 true _
    sol.bestCandidate.x >>= _) >>= _) = _
  rw [ht]
  rfl

example : ∃ (p : Params 2) (sol : Sol 2), p.gp = GenoPheno.plain ∧ p.sep = true ∧
    sol.bestCandidate.fvalue = FVal.ofReal 0 ∧ valley (List.ofFn sol.bestCandidate.x) = FVal.ofReal 0 ∧
    |sol.bestCandidate.x 0| ≤ dblMax := by
  refine ⟨{ exParams 2 with sep := true }, exSol 1 (exCand 2 0), rfl, rfl, rfl,
    (exSol_optimum (n := 2) 1 (valley_ones 2)).value, ?_⟩
  show |(1 : ℝ)| ≤ dblMax
  rw [abs_one]
  linarith [dblMax_ge]

/-! ## C57: termination -/

/-- **C57**, steps after the first: with `nmax` allowed, any such step that meets no error ends after at most `nmax + 1` calls of
the objective, whatever the objective, the transformation and the starting point. -/
theorem C57_later (l : Line n) {fuel nmax : ℕ} (hf : nmax ≤ fuel) (d : ℝ) (x : Vec n) {o : Option (ℝ × Vec n × ℕ)}
    (h : takeLinearStep l fuel nmax false d x = .ok o) : ∃ d' x' ev, o = some (d', x', ev) ∧ ev ≤ nmax + 1 := by
  obtain ⟨y, fd, x1, r, _, _, h3, h4⟩ := takeLinearStep_eq h
  have : ∃ t, r = some t ∧ t.2.2 ≤ 1 + nmax := by
    rcases h3 with ⟨_, _, h3⟩ | ⟨_, _, h3⟩
    · exact loop_later fuel hf h3
    · exact loop_later fuel hf h3
  obtain ⟨t, rfl, ht⟩ := this
  exact ⟨_, _, _, h4, by omega⟩

/-- **C57**, rounds: a direction makes between 1 and `maxiters` inner optimisations, or is stuck in its first step. -/
theorem C57_rounds {q : Profile n} {inner : Inner} {fuel : ℕ} (hm : 1 ≤ q.maxiters) (hf : q.maxiters ≤ fuel) (hf' : 10 ≤ fuel)
    {neg : Bool} {le : Pli n} {no : ℕ} {o : Option (Pli n × ℕ)} (h : search q inner fuel neg le no = .ok o) :
    takeLinearStep q.toLine fuel 10 true ((if neg then -1 else 1) * q.sol.bestCandidate.x q.k * 0.1) q.sol.bestCandidate.x =
      .ok none ∨
    ∃ le' no', o = some (le', no') ∧ no + 1 ≤ no' ∧ (no' : ℤ) ≤ no + q.maxiters := by
  by_cases ht : takeLinearStep q.toLine fuel 10 true ((if neg then -1 else 1) * q.sol.bestCandidate.x q.k * 0.1)
      q.sol.bestCandidate.x = .ok none
  · exact Or.inl ht
  · obtain ⟨r, hr, h1, h2⟩ := searchLoop_first hf' hm hf ht h
    exact Or.inr ⟨r.1, r.2, hr, h1, h2⟩

/-- **C57**, partial: after an unconstrained search with the full covariance matrix, a profile ends for every objective and every
behaviour of the inner optimisations if the parameter is not 0 at the optimum and the line search moves it.  The full
property asks for no condition on the parameter. -/
theorem C57_ends_partial {f : List ℝ → FVal} {p : Params n} {sol : Sol n} {a : ℝ} (h : Optimum f p sol a) (k : Fin n)
    (hx : sol.bestCandidate.x k ≠ 0) (hE : sol.leigenvectors k k ≠ 0) {fup delta : ℝ} (hup : 0 ≤ fup) (hd : 0 ≤ delta)
    {maxiters : ℤ} (hm : 1 ≤ maxiters) : ∃ N, ∀ fuel ≥ N, ∀ (inner : Inner) (pls : Pls n) (curve : Bool) (s : ℕ),
      profileLikelihood f inner fuel p sol pls k curve s fup delta maxiters ≠ .ok none :=
  profile_never_stuck h k hx hE hup hd hm

/-- **C57** is false when the parameter is 0 at the optimum: then, for every objective, the step is 0, and the first line search
never ends. -/
theorem C57_zero_false {f : List ℝ → FVal} {p : Params n} {sol : Sol n} {a : ℝ} (h : Optimum f p sol a) (k : Fin n)
    (hx : sol.bestCandidate.x k = 0) {fup delta : ℝ} (hup : 0 < fup) (hd : 0 ≤ delta) (hd1 : delta < 1) (maxiters : ℤ)
    (inner : Inner) (fuel : ℕ) (pls : Pls n) (curve : Bool) (s : ℕ) :
    profileLikelihood f inner fuel p sol pls k curve s fup delta maxiters = .ok none := by
  unfold profileLikelihood
  rw [h.gp, phenoV_plain, Out.ok_bind]
  simp only
  rw [search_zero (q := profileOf f p sol k curve s fup delta maxiters) h.gp (h.rotates k curve s fup delta maxiters) h.value
    h.best hup hd hd1 hx fuel false 0]
  rfl

/-- The sphere function, whose optimum is 0, meets the hypotheses of `C57_zero_false`. -/
example : ∃ (f : List ℝ → FVal) (p : Params 2) (sol : Sol 2), Optimum f p sol 0 ∧ sol.bestCandidate.x 0 = 0 := by
  refine ⟨fun l => FVal.ofReal ((l.map fun x => x ^ 2).sum), exParams 2, exSol 1 ⟨FVal.ofReal 0, 0, 0⟩,
    ⟨rfl, rfl, rfl, rfl, by simp [exSol], rfl, ?_⟩, rfl⟩
  show FVal.ofReal (((List.ofFn (0 : Vec 2)).map fun x => x ^ 2).sum) = _
  simp

/-! ## C84: the ends of the interval -/

/-- **C84**, partial: in dimension 2 or more, without curve, each end of the interval is the coordinate of a point whose value is the
minimum plus `fup` up to a tenth of `fup`; or of the optimum itself, when an inner optimisation failed or reported less
than a tenth of the minimum; or of the origin, when the value of the last of `maxiters` rounds was not near.  The full
property asks for the first case. -/
theorem C84_partial {f : List ℝ → FVal} {inner : Inner} {fuel : ℕ} {p : Params n} {sol : Sol n} {pls pls' : Pls n}
    {k : Fin n} {s : ℕ} {fup delta : ℝ} {maxiters : ℤ} {le : Pli n} (hn : n ≠ 1)
    (hgp : p.gp = GenoPheno.plain ∨ ∃ lb ub, lb.length = n ∧ ub.length = n ∧ p.gp = GenoPheno.ofBounds none lb ub)
    (hh : Inner.Honest inner)
    (h : profileLikelihood f inner fuel p sol pls k false s fup delta maxiters = .ok (some (le, pls'))) :
    ∃ y lo hi, phenoV p.gp sol.bestCandidate.x = .ok y ∧ le.min = min (lo k) (hi k) ∧ le.max = max (lo k) (hi k) ∧
      ∀ e, e = lo ∨ e = hi → Near sol.bestCandidate.fvalue fup (f (List.ofFn e)) ∨
        (e = y ∧ ∃ no g x0 σ gp r, inner no g x0 σ gp = .ok r ∧
          (r.status < 0 ∨ FVal.lt r.fvalue sol.bestCandidate.fvalue.tenth)) ∨
        (e = 0 ∧ ∃ (no : ℕ) (g : List ℝ → FVal) (x0 : List ℝ) (σ : ℝ) (gp : GenoPheno) (r : InnerRes),
          maxiters ≤ no + 1 ∧ inner no g x0 σ gp = .ok r ∧
          ¬ Near sol.bestCandidate.fvalue fup r.fvalue) := by
  have hsp : Splits p.gp n k := by
    rcases hgp with e | ⟨lb, ub, h1, h2, e⟩
    · rw [e]; exact splits_plain k.2
    · rw [e]; exact splits_ofBounds h1 h2 k.2
  obtain ⟨y, lo, hi, vlo, vhi, hy, hlo, hhi, h1, h2, _, _⟩ := profile_ends h (J := fun _ => True)
    (Q := fun v x2 => ∀ e, phenoV p.gp x2 = .ok e → f (List.ofFn e) = v) trivial
    (fun linit d x d1 x1 ev no r x2 _ _ hopt _ hx2 => ⟨trivial, fun e he => optimizeVpk_value hh hsp (fun h1 => absurd h1 hn) hopt hx2 he⟩)
  have key : ∀ {v : FVal} {e : Vec n}, EndPoint (profileOf f p sol k false s fup delta maxiters) inner
      (fun v x2 => ∀ e, phenoV p.gp x2 = .ok e → f (List.ofFn e) = v) y v e →
      Near sol.bestCandidate.fvalue fup (f (List.ofFn e)) ∨
        (e = y ∧ ∃ no g x0 σ gp r, inner no g x0 σ gp = .ok r ∧
          (r.status < 0 ∨ FVal.lt r.fvalue sol.bestCandidate.fvalue.tenth)) ∨
        (e = 0 ∧ ∃ (no : ℕ) (g : List ℝ → FVal) (x0 : List ℝ) (σ : ℝ) (gp : GenoPheno) (r : InnerRes),
          maxiters ≤ no + 1 ∧ inner no g x0 σ gp = .ok r ∧
          ¬ Near sol.bestCandidate.fvalue fup r.fvalue) := by
    intro v e he
    rcases he with ⟨_, he, no, x1, r, x2, hm, hopt, hfar, _⟩ | ⟨_, he, no, x1, r, hopt, hbad⟩ | ⟨x2, he, hQ, hcl⟩
    · obtain ⟨g, x0, σ, gp, ir, hir, e1, e2⟩ := optimizeVpk_inner hsp hn hopt
      rw [e1] at hfar
      exact Or.inr (Or.inr ⟨he, no, g, x0, σ, gp, ir, hm, hir, hfar⟩)
    · obtain ⟨g, x0, σ, gp, ir, hir, e1, e2⟩ := optimizeVpk_inner hsp hn hopt
      rw [e1, e2] at hbad
      exact Or.inr (Or.inl ⟨he, no, g, x0, σ, gp, ir, hir, hbad⟩)
    · left
      rw [hQ e he]
      exact hcl
  refine ⟨y, lo, hi, hy, h1, h2, ?_⟩
  rintro e (rfl | rfl)
  · exact key hlo
  · exact key hhi

/-- A case of `C84_partial` with both ends found: two parameters, optimum (1,1), default arguments; the interval for the first
parameter is [0.8,1.2], where the objective is the minimum plus `fup`. -/
theorem C84_found (fuel : ℕ) (pls : Pls 2) {s : ℕ} (hs : 0 < s) (maxiters : ℤ) :
    ∃ le pls', profileLikelihood valley ones (fuel + 1) (exParams 2) (exSol 1 (exCand 2 0)) pls 0 false s 0.1 0.1 maxiters =
        .ok (some (le, pls')) ∧ le.min = 0.8 ∧ le.max = 1.2 ∧ le.errmin = -0.2 ∧ le.errmax = 0.2 ∧
      valley [0.8, 1] = FVal.ofReal 0.1 ∧ valley [1.2, 1] = FVal.ofReal 0.1 := by
  have ho := exSol_optimum (n := 2) 1 (valley_ones 2)
  have hval : ∀ a : ℝ, valley [a, 1] = FVal.ofReal (|a - 1| / 2) := by
    intro a
    unfold valley
    simp
  have hside : ∀ (neg : Bool) (le : Pli 2) (no : ℕ),
      search (profileOf valley (exParams 2) (exSol 1 (exCand 2 0)) 0 false s 0.1 0.1 maxiters) ones (fuel + 1) neg le no =
        (do
          let le2 ← le.pad neg (FVal.ofReal 0.1) (fun i => if i = 0 then (if neg then 0.8 else 1.2) else 1) 0
          pure (some (le2, no + 1))) := by
    intro neg le no
    have hab : |(if neg then (0.8 : ℝ) else 1.2) - 1| / 2 = 0.1 := by cases neg <;> norm_num [abs_of_pos, abs_of_neg]
    have hx : ((1 : ℝ) + (1 : Mat 2) 0 0 * ((if neg then (-1 : ℝ) else 1) * 1 * 0.1 * 2)) = if neg then 0.8 else 1.2 := by
      cases neg <;> norm_num
    have ht := takeLinearStep_double
      (l := (profileOf valley (exParams 2) (exSol 1 (exCand 2 0)) 0 false s 0.1 0.1 maxiters).toLine)
      (x := fun _ => 1) (a := 0) (d := (if neg then -1 else 1) * 1 * 0.1) rfl (ho.rotates 0 false s 0.1 0.1 maxiters)
      ho.value rfl (by norm_num [profileOf]) (by norm_num [profileOf]) (by norm_num [profileOf])
      (by rw [abs_one]; linarith [dblMax_ge]) (by
        have : List.ofFn ((fun _ => (1 : ℝ)) + fun i : Fin 2 => (1 : Mat 2) 0 i * ((if neg then (-1 : ℝ) else 1) * 1 * 0.1 * 2)) =
            [if neg then 0.8 else 1.2, 1] := by
          rw [List.ofFn_succ, List.ofFn_succ, List.ofFn_zero]
          congr 1
          congr 1
          simp
        show ¬ FVal.lt (FVal.sub (valley (List.ofFn ((fun _ => (1 : ℝ)) + fun i : Fin 2 =>
          (1 : Mat 2) 0 i * ((if neg then (-1 : ℝ) else 1) * 1 * 0.1 * 2)))) (FVal.ofReal 0)).abs (FVal.ofReal (0.1 - 0.1 * 0.1))
        rw [this, hval, hab, FVal.sub_ofReal, FVal.abs_ofReal, FVal.lt_ofReal]
        norm_num) fuel
    have ht' : takeLinearStep (profileOf valley (exParams 2) (exSol 1 (exCand 2 0)) 0 false s 0.1 0.1 maxiters).toLine (fuel + 1) 10
        true ((if neg then -1 else 1) * 1 * 0.1) (fun _ => 1) =
        .ok (some ((if neg then -1 else 1) * 1 * 0.1 * 2, fun i => if i = 0 then (if neg then 0.8 else 1.2) else 1, 2)) := by
      rw [ht]
      congr 3
      congr 1
      funext i
      show Function.update (fun _ => (1 : ℝ)) 0 (1 + (1 : Mat 2) 0 0 * ((if neg then (-1 : ℝ) else 1) * 1 * 0.1 * 2)) i = _
      rw [hx, Function.update_apply]
    have hopt : optimizeVpk valley ones no GenoPheno.plain [exCand 2 0] [((0 : Fin 2).val, if neg then (0.8 : ℝ) else 1.2)]
        (List.ofFn fun i : Fin 2 => if i = 0 then (if neg then (0.8 : ℝ) else 1.2) else 1) false false =
        .ok ⟨(FVal.ofReal 0.1, [if neg then 0.8 else 1.2, 1]), (FVal.ofReal 0.1, [if neg then 0.8 else 1.2, 1]), 1, 0⟩ := by
      rw [optimizeVpk_one]
      have e1 : List.ofFn (fun i : Fin 2 => if i = 0 then (if neg then (0.8 : ℝ) else 1.2) else 1) =
          [if neg then 0.8 else 1.2, 1] := by
        rw [List.ofFn_succ, List.ofFn_succ, List.ofFn_zero]
        rfl
      have e3 : removeElement [if neg then (0.8 : ℝ) else 1.2, 1] (0 : Fin 2).val = [1] := rfl
      simp only [e1, show ∀ l, GenoPheno.plain.pheno l = .ok l from fun _ => rfl, Out.ok_bind, e3]
      show (Except.ok (exCand 2 0) >>= fun c => _) = _
      rw [Out.ok_bind, if_neg (by simp)]
      show (Except.ok ⟨(rfunc valley [0] [if neg then 0.8 else 1.2, 0] [1], [if neg then 0.8 else 1.2, 1]),
        (rfunc valley [0] [if neg then 0.8 else 1.2, 0] [1], [if neg then 0.8 else 1.2, 1]), 1, 0⟩ : Out VpkRes) = _
      have e2 : rfunc valley [0] [if neg then 0.8 else 1.2, 0] [1] = FVal.ofReal 0.1 := by
        rw [← hab, ← hval]
        rfl
      rw [e2]
    refine search_first (q := profileOf valley (exParams 2) (exSol 1 (exCand 2 0)) 0 false s 0.1 0.1 maxiters) rfl ht' hopt ?_
      (x2 := fun i => if i = 0 then (if neg then 0.8 else 1.2) else 1) ?_ (phenoV_plain _) ?_
    · rintro (h | h)
      · exact absurd h (by norm_num)
      · have h' : FVal.lt (FVal.ofReal 0.1) (FVal.ofReal 0).tenth := h
        rw [FVal.tenth_ofReal, FVal.lt_ofReal] at h'
        norm_num at h'
    · rw [List.ofFn_succ, List.ofFn_succ, List.ofFn_zero]
      rfl
    · show FVal.le (FVal.sub (FVal.sub (FVal.ofReal 0.1) (FVal.ofReal 0)) (FVal.ofReal 0.1)).abs (FVal.ofReal (0.1 * 0.1))
      rw [FVal.sub_ofReal, FVal.sub_ofReal, FVal.abs_ofReal, FVal.le_ofReal]
      norm_num
  obtain ⟨o, h⟩ := profile_ok ho ones_fits (fuel + 1) pls (0 : Fin 2) false hs 0.1 0.1 maxiters
  have sh0 := Pli.make_shaped (0 : Fin 2).val s (fun _ : Fin 2 => (1 : ℝ)) (FVal.ofReal 0) 0.1 0.1
  obtain ⟨le1, p1, l1, g1⟩ := Pli.pad_spec sh0 false (FVal.ofReal 0.1) (fun i : Fin 2 => if i = 0 then 1.2 else 1) 0
  have sh1 := l1.shaped sh0
  obtain ⟨le2, p2, l2, g2⟩ := Pli.pad_spec sh1 true (FVal.ofReal 0.1) (fun i : Fin 2 => if i = 0 then 0.8 else 1) 0
  have e1 : le1.samplesize = s := l1.s
  have e2 : le2.samplesize = s := l2.s.trans e1
  unfold profileLikelihood at h ⊢
  have hy : phenoV (exParams 2).gp (exSol 1 (exCand 2 0)).bestCandidate.x = .ok (fun _ => 1) := phenoV_plain _
  simp only [hy, Out.ok_bind, hside] at h ⊢
  simp only [if_true, Bool.false_eq_true, if_false] at h ⊢
  erw [p1] at h ⊢
  simp only [Out.ok_bind, Out.pure_eq, p2] at h ⊢
  rw [Out.bind_eq_ok] at h
  obtain ⟨le, hle, _⟩ := h
  rw [hle, Out.ok_bind]
  refine ⟨le, _, rfl, ?_⟩
  obtain ⟨hk, i, j, v, vi, vj, x, xi, xj, hi, hj, rfl, hv, hx, hvi, hxi, hvj, hxj, _, _⟩ :=
    Pli.setErrMinMax_spec (l2.shaped sh1) hle
  have ek : (⟨le2.k, hk⟩ : Fin 2) = 0 := Fin.ext (l2.k.trans l1.k)
  rw [e2] at hi hj hx hxj
  rw [(g2 i).2, if_pos (by rw [e1]; simp only [Pli.OnSide, if_true]; omega)] at hxi
  rw [(g2 _).2, if_neg (by rw [e1]; simp only [Pli.OnSide, if_true]; omega), (g1 _).2,
    if_pos (by show Pli.OnSide s false s _; simp only [Pli.OnSide, Bool.false_eq_true, if_false]; omega)] at hxj
  have hc : (Pli.make (0 : Fin 2).val s (fun _ : Fin 2 => (1 : ℝ)) (FVal.ofReal 0) 0.1 0.1).xm[s]? = some (fun _ => 1) :=
    List.getElem?_set_self (by simp; omega)
  rw [(g2 _).2, if_neg (by rw [e1]; simp only [Pli.OnSide, if_true]; omega), (g1 _).2,
    if_neg (by show ¬ Pli.OnSide s false s _; simp only [Pli.OnSide, Bool.false_eq_true, if_false]; omega), hc] at hx
  obtain rfl := Option.some.inj hxi
  obtain rfl := Option.some.inj hxj
  obtain rfl := Option.some.inj hx
  simp only [ek, hval, if_true]
  norm_num [abs_of_pos, abs_of_neg]

/-- **C84** is false in dimension 1: for every objective whose minimum is not negative, the interval is reduced to 0 and both
errors are the opposite of the optimum. -/
theorem C84_dim1_false {f : List ℝ → FVal} {p : Params 1} {sol : Sol 1} {a : ℝ} (ho : Optimum f p sol a) (ha : 0 ≤ a)
    (hc : sol.cands[0]? = some sol.bestCandidate) (hx : sol.bestCandidate.x 0 ≠ 0) (hE : sol.leigenvectors 0 0 ≠ 0)
    {fup delta : ℝ} (hup : 0 < fup) (hd : 0 ≤ delta) {maxiters : ℤ} (hm : 1 ≤ maxiters) {s : ℕ} (hs : 0 < s) (inner : Inner)
    (hi : Inner.Fits inner) (pls : Pls 1) :
    ∃ N, ∀ fuel ≥ N, ∃ le pls', profileLikelihood f inner fuel p sol pls 0 false s fup delta maxiters =
        .ok (some (le, pls')) ∧ le.min = 0 ∧ le.max = 0 ∧ le.errmin = -sol.bestCandidate.x 0 ∧
      le.errmax = -sol.bestCandidate.x 0 := by
  obtain ⟨N, hN⟩ := profile_never_stuck ho (0 : Fin 1) hx hE hup.le hd hm
  refine ⟨N, fun fuel hf => ?_⟩
  obtain ⟨o, h⟩ := profile_ok ho hi fuel pls (0 : Fin 1) false hs fup delta maxiters
  rcases o with _ | ⟨le, pls'⟩
  · exact absurd h (hN fuel hf inner pls false s)
  have hsp : Splits p.gp 1 (0 : Fin 1) := by rw [ho.gp]; exact splits_plain (by norm_num)
  have hbest : ∀ {no : ℕ} {v : ℝ} {x : Vec 1} {r : VpkRes},
      optimizeVpk f inner no p.gp sol.cands [((0 : Fin 1).val, v)] (List.ofFn x) false false = .ok r →
      r.best.1 = FVal.ofReal a ∧ r.status = 0 := by
    intro no v x r hopt
    obtain ⟨c, h1, h2, h3⟩ := optimizeVpk_dim1 hsp hopt
    rw [hc] at h1
    obtain rfl := Option.some.inj h1
    rw [h2]
    exact ⟨ho.best, h3⟩
  obtain ⟨y, lo, hi', vlo, vhi, hy, hlo, hhi, h1, h2, h3, h4⟩ := profile_ends h (J := fun _ => True)
    (Q := fun v _ => v = FVal.ofReal a) trivial (fun linit d x d1 x1 ev no r x2 _ _ hopt _ _ => ⟨trivial, (hbest hopt).1⟩)
  have key : ∀ {v : FVal} {e : Vec 1}, EndPoint (profileOf f p sol 0 false s fup delta maxiters) inner
      (fun v _ => v = FVal.ofReal a) y v e → e = 0 := by
    intro v e he
    rcases he with ⟨_, he, _⟩ | ⟨_, _, no, x1, r, hopt, hbad⟩ | ⟨x2, he, hQ, hcl⟩
    · exact he
    · exfalso
      have hb := hbest hopt
      rcases hbad with hbad | hbad
      · rw [hb.2] at hbad
        exact lt_irrefl _ hbad
      · rw [hb.1, show (profileOf f p sol 0 false s fup delta maxiters).minf = FVal.ofReal a from ho.best,
          FVal.tenth_ofReal, FVal.lt_ofReal] at hbad
        linarith
    · exfalso
      rw [hQ, show (profileOf f p sol 0 false s fup delta maxiters).minf = FVal.ofReal a from ho.best, FVal.sub_ofReal,
        show (profileOf f p sol 0 false s fup delta maxiters).fup = fup from rfl, FVal.sub_ofReal, FVal.abs_ofReal,
        FVal.le_ofReal, sub_self, zero_sub, abs_neg, abs_of_pos hup] at hcl
      linarith
  rw [ho.gp, phenoV_plain] at hy
  obtain rfl := Except.ok.inj hy
  rw [key hlo, key hhi] at h1 h2
  simp only [Pi.zero_apply, min_self, max_self] at h1 h2
  rw [h1] at h3
  rw [h2] at h4
  exact ⟨le, pls', h, h1, h2, by rw [h3, zero_sub], by rw [h4, zero_sub]⟩

example : Optimum valley (exParams 1) (exSol 1 (exCand 1 0)) 0 ∧
    (exSol 1 (exCand 1 0)).cands[0]? = some (exSol (n := 1) 1 (exCand 1 0)).bestCandidate ∧
    (exSol 1 (exCand 1 0)).bestCandidate.x (0 : Fin 1) ≠ 0 ∧
    (exSol 1 (exCand 1 0)).leigenvectors (0 : Fin 1) (0 : Fin 1) ≠ 0 :=
  ⟨exSol_optimum 1 (valley_ones 1), rfl, by simp [exSol, Sol.bestCandidate, exCand], by simp [exSol]⟩

/-- **C84** fails whenever the eigenvector matrix has a 0 at the parameter's place of the diagonal (as a permutation matrix may):
parameter `k` never moves, and each end of the interval is the optimum or 0. -/
theorem C84_rotated_stuck_false {f : List ℝ → FVal} {inner : Inner} {fuel : ℕ} {p : Params n} {sol : Sol n} {pls pls' : Pls n}
    {k : Fin n} {s : ℕ} {fup delta : ℝ} {maxiters : ℤ} {le : Pli n} {a : ℝ} (hn : n ≠ 1) (ho : Optimum f p sol a)
    (hE : sol.leigenvectors k k = 0)
    (h : profileLikelihood f inner fuel p sol pls k false s fup delta maxiters = .ok (some (le, pls'))) :
    (le.min = 0 ∨ le.min = sol.bestCandidate.x k) ∧ (le.max = 0 ∨ le.max = sol.bestCandidate.x k) := by
  have hsp : Splits p.gp n k := by rw [ho.gp]; exact splits_plain k.2
  obtain ⟨y, lo, hi, vlo, vhi, hy, hlo, hhi, h1, h2, _, _⟩ := profile_ends h
    (J := fun x => x k = sol.bestCandidate.x k) (Q := fun _ x => x k = sol.bestCandidate.x k) rfl
    (fun linit d x d1 x1 ev no r x2 hJ ht hopt _ hx2 => by
      have h3 := takeLinearStep_orthogonal (ho.rotates k false s fup delta maxiters) hE ht
      have h4 := optimizeVpk_coord hsp hn hopt hx2
      have h5 : x2 k = sol.bestCandidate.x k := h4.trans (Eq.trans h3 hJ)
      exact ⟨h5, h5⟩)
  rw [ho.gp, phenoV_plain] at hy
  obtain rfl := Except.ok.inj hy
  have key : ∀ {v : FVal} {e : Vec n}, EndPoint (profileOf f p sol k false s fup delta maxiters) inner
      (fun _ x => x k = sol.bestCandidate.x k) sol.bestCandidate.x v e → e k = 0 ∨ e k = sol.bestCandidate.x k := by
    intro v e he
    rcases he with ⟨_, rfl, _⟩ | ⟨_, rfl, _⟩ | ⟨x2, he, hQ, _⟩
    · exact Or.inl rfl
    · exact Or.inr rfl
    · have he' : phenoV p.gp x2 = .ok e := he
      rw [ho.gp, phenoV_plain] at he'
      obtain rfl := Except.ok.inj he'
      exact Or.inr hQ
  rw [h1, h2]
  refine ⟨?_, ?_⟩
  · rcases min_choice (lo k) (hi k) with e | e <;> rw [e]
    · exact key hlo
    · exact key hhi
  · rcases max_choice (lo k) (hi k) with e | e <;> rw [e]
    · exact key hlo
    · exact key hhi

/-- A case of `C84_rotated_stuck_false`: eigenvectors in the order of the axes 2, 1, defaults, exact inner optimisations.  At neither end of
the interval is the least value of the objective near the minimum plus `fup`. -/
theorem C84_rotated_false : ∃ (f : List ℝ → FVal) (p : Params 2) (sol : Sol 2) (inner : Inner) (fuel : ℕ) (le : Pli 2)
    (pls : Pls 2), Optimum f p sol 0 ∧ Inner.Honest inner ∧ (∀ a z, FVal.le (f [a, 1]) (f [a, z])) ∧
    profileLikelihood f inner fuel p sol (fun _ => none) 0 false 10 0.1 0.1 10000 = .ok (some (le, pls)) ∧
    ¬ Near (FVal.ofReal 0) 0.1 (f [le.min, 1]) ∧ ¬ Near (FVal.ofReal 0) 0.1 (f [le.max, 1]) := by
  have ho := exSol_optimum (n := 2) (Matrix.of fun i j => if i = j then (0 : ℝ) else 1) (valley_ones 2)
  have hval : ∀ a z : ℝ, valley [a, z] = FVal.ofReal (|a - 1| / 2 + |z - 1| / 2) := by
    intro a z
    unfold valley
    simp
  have hfirst : ∀ neg : Bool, takeLinearStep (profileOf valley (exParams 2)
      (exSol (Matrix.of fun i j => if i = j then (0 : ℝ) else 1) (exCand 2 0)) 0 false 10 0.1 0.1 10000).toLine 10000 10 true
      ((if neg then -1 else 1) * 1 * 0.1) (fun _ => 1) ≠ .ok none := by
    intro neg
    rw [takeLinearStep_double
      (l := (profileOf valley (exParams 2) (exSol (Matrix.of fun i j => if i = j then (0 : ℝ) else 1) (exCand 2 0)) 0 false 10
        0.1 0.1 10000).toLine) (x := fun _ => 1) (a := 0) (d := (if neg then -1 else 1) * 1 * 0.1) rfl
      (ho.rotates 0 false 10 0.1 0.1 10000) ho.value rfl (by norm_num [profileOf]) (by norm_num [profileOf])
      (by norm_num [profileOf]) (by rw [abs_one]; linarith [dblMax_ge]) (by
        have : List.ofFn ((fun _ => (1 : ℝ)) + fun i : Fin 2 => (if (0 : Fin 2) = i then (0 : ℝ) else 1) *
            ((if neg then (-1 : ℝ) else 1) * 1 * 0.1 * 2)) = [1, if neg then 0.8 else 1.2] := by
          rw [List.ofFn_succ, List.ofFn_succ, List.ofFn_zero]
          cases neg <;> norm_num
        show ¬ FVal.lt (FVal.sub (valley (List.ofFn ((fun _ => (1 : ℝ)) + fun i : Fin 2 =>
          (if (0 : Fin 2) = i then (0 : ℝ) else 1) * ((if neg then (-1 : ℝ) else 1) * 1 * 0.1 * 2)))) (FVal.ofReal 0)).abs
          (FVal.ofReal (0.1 - 0.1 * 0.1))
        rw [this, hval, FVal.sub_ofReal, FVal.abs_ofReal, FVal.lt_ofReal]
        cases neg <;> norm_num [abs_of_pos, abs_of_neg]) 9999]
    exact fun h => nomatch Except.ok.inj h
  obtain ⟨o, h⟩ := profile_ok ho ones_fits 10000 (fun _ => none) (0 : Fin 2) false (s := 10) (by norm_num) 0.1 0.1 10000
  rcases o with _ | ⟨le, pls⟩
  · exact absurd h (profile_ends_of_first (by norm_num) (by norm_num) (by norm_num) hfirst)
  refine ⟨valley, exParams 2, _, ones, 10000, le, pls, ho, ones_honest, ?_, h, ?_⟩
  · intro a z
    rw [hval, hval, FVal.le_ofReal, sub_self, abs_zero, zero_div]
    have := abs_nonneg (z - 1)
    linarith
  · have hfar : ∀ a : ℝ, a = 0 ∨ a = 1 → ¬ Near (FVal.ofReal 0) 0.1 (valley [a, 1]) := by
      intro a ha hn
      unfold Near at hn
      rw [hval, FVal.sub_ofReal, FVal.sub_ofReal, FVal.abs_ofReal, FVal.le_ofReal] at hn
      rcases ha with rfl | rfl <;> norm_num [abs_of_pos, abs_of_neg] at hn
    have := C84_rotated_stuck_false (by norm_num) ho rfl h
    exact ⟨hfar _ this.1, hfar _ this.2⟩

/-- An objective with minimum -1 at (1,1). -/
noncomputable def basin : List ℝ → FVal
  | [x, y] => FVal.ofReal (min (|x - 1| / 2) 0.15 + |y - 1| - 1)
  | _ => .nan

/-- **C84** is false for an objective with a negative minimum: a tenth of it is above it, so that a proper value is taken for a new
minimum.  With exact inner optimisations and default arguments, the interval is the optimum alone, although the
objective rises by `fup` on both sides. -/
theorem C84_negative_false : ∃ (f : List ℝ → FVal) (p : Params 2) (sol : Sol 2) (inner : Inner) (fuel : ℕ) (le : Pli 2)
    (pls : Pls 2), Optimum f p sol (-1) ∧ Inner.Honest inner ∧
    profileLikelihood f inner fuel p sol (fun _ => none) 0 false 10 0.1 0.1 10000 = .ok (some (le, pls)) ∧
    le.min = sol.bestCandidate.x 0 ∧ le.max = sol.bestCandidate.x 0 ∧ le.errmin = 0 ∧ le.errmax = 0 ∧
    Near (FVal.ofReal (-1)) 0.1 (f [0.8, 1]) ∧ Near (FVal.ofReal (-1)) 0.1 (f [1.2, 1]) := by
  have hb : basin (List.replicate 2 1) = FVal.ofReal (-1) := by
    show FVal.ofReal (min (|(1 : ℝ) - 1| / 2) 0.15 + |(1 : ℝ) - 1| - 1) = _
    norm_num
  have ho := exSol_optimum (n := 2) 1 hb
  have hx : (exSol 1 (exCand 2 (-1))).bestCandidate.x (0 : Fin 2) ≠ 0 := by simp [exSol, Sol.bestCandidate, exCand]
  have hE : (exSol 1 (exCand 2 (-1))).leigenvectors (0 : Fin 2) (0 : Fin 2) ≠ 0 := by simp [exSol]
  obtain ⟨N, hN⟩ := profile_never_stuck ho (0 : Fin 2) hx hE (fup := 0.1) (delta := 0.1) (by norm_num) (by norm_num)
    (maxiters := 10000) (by norm_num)
  obtain ⟨o, h⟩ := profile_ok ho ones_fits N (fun _ => none) (0 : Fin 2) false (s := 10) (by norm_num) 0.1 0.1 10000
  rcases o with _ | ⟨le, pls⟩
  · exact absurd h (hN N le_rfl ones _ false 10)
  have hn1 : Near (FVal.ofReal (-1)) 0.1 (basin [0.8, 1]) := by
    unfold Near basin
    rw [FVal.sub_ofReal, FVal.sub_ofReal, FVal.abs_ofReal, FVal.le_ofReal]
    norm_num [abs_of_pos, abs_of_neg]
  have hn2 : Near (FVal.ofReal (-1)) 0.1 (basin [1.2, 1]) := by
    unfold Near basin
    rw [FVal.sub_ofReal, FVal.sub_ofReal, FVal.abs_ofReal, FVal.le_ofReal]
    norm_num [abs_of_pos, abs_of_neg]
  refine ⟨basin, exParams 2, _, ones, N, le, pls, ho, ones_honest, h, ?_⟩
  have hlow : ∀ {no : ℕ} {v : ℝ} {x : Vec 2} {r : VpkRes},
      optimizeVpk basin ones no GenoPheno.plain [exCand 2 (-1)] [((0 : Fin 2).val, v)] (List.ofFn x) false false = .ok r →
      FVal.lt r.best.1 (FVal.ofReal (-1)).tenth := by
    intro no v x r hr
    obtain ⟨rx, c, w, h1, h2, h3, h4⟩ := optimizeVpk_cases hr
    obtain rfl : List.ofFn x = rx := Except.ok.inj h1
    obtain rfl : (List.replicate 2 (0 : ℝ)).set (0 : Fin 2).val v = w := Except.ok.inj h3
    have e1 : removeElement (List.ofFn x) (0 : Fin 2).val = [x 1] := by
      rw [List.ofFn_succ, List.ofFn_succ, List.ofFn_zero]
      rfl
    rw [e1] at h4
    rcases h4 with ⟨h4, _⟩ | ⟨_, ir, hir, _, hbest, _⟩
    · exact nomatch h4
    · obtain rfl := Except.ok.inj hir
      rw [hbest]
      show FVal.lt (FVal.ofReal (min (|v - 1| / 2) 0.15 + |(1 : ℝ) - 1| - 1)) _
      rw [FVal.tenth_ofReal, FVal.lt_ofReal]
      have := min_le_right (|v - 1| / 2) (0.15 : ℝ)
      rw [sub_self, abs_zero]
      linarith
  obtain ⟨y, lo, hi, vlo, vhi, hy, hlo, hhi, h1, h2, h3, h4⟩ := profile_ends h (J := fun _ => True) (Q := fun _ _ => False)
    trivial (fun linit d x d1 x1 ev no r x2 _ _ hopt hgood _ => absurd (Or.inr (hlow hopt)) hgood)
  have key : ∀ {v : FVal} {e : Vec 2}, EndPoint (profileOf basin (exParams 2) (exSol 1 (exCand 2 (-1))) 0 false 10 0.1 0.1
      10000) ones (fun _ _ => False) y v e → e = y := by
    intro v e he
    rcases he with ⟨_, _, _, _, _, _, _, _, _, hf⟩ | ⟨_, he, _⟩ | ⟨_, _, hf, _⟩
    · exact hf.elim
    · exact he
    · exact hf.elim
  rw [key hlo, key hhi] at h1 h2
  rw [min_self] at h1
  rw [max_self] at h2
  rw [ho.gp, phenoV_plain] at hy
  obtain rfl := Except.ok.inj hy
  exact ⟨h1, h2, by rw [h3, h1, sub_self], by rw [h4, h2, sub_self], hn1, hn2⟩

/-! ## C85: the points of a profile -/

/-- **C85**: every point of a computed profile, with or without curve, is stored with the value of the objective there; the other
positions hold the value 0 at the origin. -/
theorem C85_values {f : List ℝ → FVal} {inner : Inner} {fuel : ℕ} {p : Params n} {sol : Sol n} {pls pls' : Pls n}
    {k : Fin n} {curve : Bool} {s : ℕ} {fup delta : ℝ} {maxiters : ℤ} {le : Pli n}
    (hgp : p.gp = GenoPheno.plain ∨ ∃ lb ub, lb.length = n ∧ ub.length = n ∧ p.gp = GenoPheno.ofBounds none lb ub)
    (hh : Inner.Honest inner)
    (hb : ∀ y, phenoV p.gp sol.bestCandidate.x = .ok y → f (List.ofFn y) = sol.bestCandidate.fvalue)
    (hc : ∀ c, sol.cands[0]? = some c → ∀ y, phenoV p.gp c.x = .ok y → f (List.ofFn y) = c.fvalue)
    (h : profileLikelihood f inner fuel p sol pls k curve s fup delta maxiters = .ok (some (le, pls'))) :
    ∀ i < 2 * s + 1, ∃ v x, le.fvaluem[i]? = some v ∧ le.xm[i]? = some x ∧
      (f (List.ofFn x) = v ∨ (v = FVal.ofReal 0 ∧ x = 0)) := by
  have hsp : Splits p.gp n k := by
    rcases hgp with e | ⟨lb, ub, h1, h2, e⟩
    · rw [e]; exact splits_plain k.2
    · rw [e]; exact splits_ofBounds h1 h2 k.2
  obtain ⟨_, _, _, hlf, hlx, _⟩ := C56_interval h
  obtain ⟨y, le1, le2, no1, no2, hy, h1, h2, h3, _⟩ := profileLikelihood_eq h
  have sh0 := Pli.make_shaped k.val s y sol.bestCandidate.fvalue fup delta
  have sh1 := (searchLoop_like fuel sh0 h1).shaped sh0
  have sh2 := (searchLoop_like fuel sh1 h2).shaped sh1
  have c1 := searchLoop_carries (q := profileOf f p sol k curve s fup delta maxiters) hh hsp (fun _ => hc) fuel sh0
    (carries_make (hb y hy)) h1
  have c2 := searchLoop_carries (q := profileOf f p sol k curve s fup delta maxiters) hh hsp (fun _ => hc) fuel sh1 c1 h2
  obtain ⟨_, _, _, _, _, _, _, _, _, _, _, rfl, _⟩ := Pli.setErrMinMax_spec sh2 h3
  intro i hi
  have hv := List.getElem?_eq_getElem (l := le2.fvaluem) (i := i) (by rw [show le2.fvaluem.length = _ from hlf]; exact hi)
  have hx := List.getElem?_eq_getElem (l := le2.xm) (i := i) (by rw [show le2.xm.length = _ from hlx]; exact hi)
  exact ⟨_, _, hv, hx, c2 i _ _ hv hx⟩

/-- The profile of `C84_found` meets the hypotheses of `C85_values`. -/
example : Inner.Honest ones ∧ (∀ y, phenoV (exParams 2).gp (exSol 1 (exCand 2 0)).bestCandidate.x = .ok y →
    valley (List.ofFn y) = FVal.ofReal 0) := by
  refine ⟨ones_honest, fun y hy => ?_⟩
  have hy' : phenoV GenoPheno.plain (exSol 1 (exCand 2 0)).bestCandidate.x = .ok y := hy
  rw [phenoV_plain] at hy'
  obtain rfl := Except.ok.inj hy'
  exact (exSol_optimum (n := 2) 1 (valley_ones 2)).value

/-! ## C86: optimisation with several fixed parameters -/

/-- **C86**, partial: in an unconstrained search, with the fixed parameters given in increasing order, the inner optimisation starts
from the free coordinates of the given point, with the greatest distance to the candidate as step-size; each of its
calls evaluates the objective at the point with the fixed values at their places and its own elsewhere; and so is the
returned point built.  The full property asks for any order and for bounds. -/
theorem C86_points_partial {f : List ℝ → FVal} {inner : Inner} {no : ℕ} {cands : List (Cand n)} {c : Cand n}
    {kv : List (ℕ × ℝ)} {x0 : List ℝ} {phenoX0 phenoVk : Bool} {r : VpkRes} (hc : cands[0]? = some c) (hx0 : x0.length = n)
    (hne : kv ≠ []) (hlt : kv.length < n) (hord : (kv.map Prod.fst).Pairwise (· < ·)) (hk : ∀ a ∈ kv, a.1 < n)
    (h : optimizeVpk f inner no GenoPheno.plain cands kv x0 phenoX0 phenoVk = .ok r) :
    ∃ g σ ir, inner no g (survivors (kv.map Prod.fst) x0) σ GenoPheno.plain = .ok ir ∧
      (∀ z : List ℝ, z.length + kv.length = n → ∃ y, g z = f y ∧ y.length = n ∧ (∀ a ∈ kv, y[a.1]? = some a.2) ∧
        survivors (kv.map Prod.fst) y = z) ∧
      (∀ (a : ℕ × ℝ) (ha : a ∈ kv), |c.x ⟨a.1, hk a ha⟩ - a.2| ≤ σ) ∧
      (∃ (a : ℕ × ℝ) (ha : a ∈ kv), σ = |c.x ⟨a.1, hk a ha⟩ - a.2|) ∧
      r.best.1 = ir.fvalue ∧ r.cand = r.best ∧ r.nevals = ir.nevals ∧ r.status = ir.status ∧ r.best.2.length = n ∧
      (∀ a ∈ kv, r.best.2[a.1]? = some a.2) ∧ survivors (kv.map Prod.fst) r.best.2 = ir.x := by
  have hnd : (kv.map Prod.fst).Nodup := hord.imp (fun h => Nat.ne_of_lt h)
  obtain ⟨w, hw, hwl, hwv⟩ := point_spec kv (m := x0.length) hnd (fun a ha => by rw [hx0]; exact hk a ha)
  unfold optimizeVpk at h
  have hpl : ∀ l, GenoPheno.plain.pheno l = .ok l := fun _ => rfl
  have hgl : ∀ l, GenoPheno.plain.geno l = .ok l := fun _ => rfl
  simp only [hpl, hgl, Out.pure_eq, ite_self, Out.ok_bind, hw] at h
  obtain ⟨b, kv', rfl⟩ := List.exists_cons_of_ne_nil hne
  simp only [at!_eq_ok.2 hc, Out.ok_bind] at h
  rw [Out.bind_eq_ok] at h
  obtain ⟨⟨σ, rx⟩, hred, h⟩ := h
  simp only at h
  have hrx : rx = survivors ((b :: kv').map Prod.fst) x0 := (reduce_snd _ hred).trans (removeElements_reverse hord x0)
  have hrl : rx.length + (b :: kv').length = n := by
    rw [hrx, ← removeElements_reverse hord]
    have := removeElements_length ((b :: kv').map Prod.fst).reverse (l := x0) (List.pairwise_reverse.2 hord) (fun k hk' => by
      obtain ⟨a, ha, rfl⟩ := List.mem_map.1 (List.mem_reverse.1 hk')
      rw [hx0]
      exact hk a ha)
    rw [List.length_reverse, List.length_map, hx0] at this
    exact this
  rw [if_neg (by intro e; rw [e] at hrl; simp only [List.length_nil] at hrl; omega), Out.bind_eq_ok] at h
  obtain ⟨ir, hir, h⟩ := h
  by_cases hl : ir.x.length ≠ rx.length
  · rw [if_pos hl] at h
    exact nomatch h
  rw [if_neg hl] at h
  have hins : ∀ z : List ℝ, z.length + (b :: kv').length = n → ∃ y, insertAll ((b :: kv').map Prod.fst) w z = .ok y ∧
      y.length = n ∧ (∀ a ∈ b :: kv', y[a.1]? = some a.2) ∧ survivors ((b :: kv').map Prod.fst) y = z := by
    intro z hz
    obtain ⟨y, h1, h2, h3, h4⟩ := insertAll_spec ((b :: kv').map Prod.fst) (v := w) (x := z) hord
      (fun k hk' => by
        obtain ⟨a, ha, rfl⟩ := List.mem_map.1 hk'
        rw [List.length_map, hz]
        exact hk a ha)
      (fun k hk' => by
        obtain ⟨a, ha, rfl⟩ := List.mem_map.1 hk'
        rw [hwl, hx0]
        exact hk a ha)
    refine ⟨y, h1, by rw [h2, List.length_map, hz], fun a ha => ?_, ?_⟩
    · rw [h3 a.1 (List.mem_map.2 ⟨a, ha, rfl⟩)]
      exact hwv a ha
    · rw [← removeElements_reverse hord]
      exact h4
  obtain ⟨y, hy1, hy2, hy3, hy4⟩ := hins ir.x (by rw [not_not.1 hl]; exact hrl)
  rw [hy1, Out.ok_bind] at h
  obtain rfl := Except.ok.inj h
  obtain ⟨r1, r2⟩ := reduce_fst _ hred
  have hco : ∀ (a : ℕ × ℝ) (ha : a ∈ b :: kv'), coord c.x a.1 = .ok (c.x ⟨a.1, hk a ha⟩) := fun a ha =>
    coord_eq_ok.2 ⟨hk a ha, rfl⟩
  refine ⟨_, σ, ir, by rw [← hrx]; exact hir, ?_, fun a ha => r1 a ha _ (hco a ha), ?_, rfl, rfl, rfl, rfl, hy2, hy3, hy4⟩
  · intro z hz
    obtain ⟨y', h1, h2, h3, h4⟩ := hins z hz
    refine ⟨y', ?_, h2, h3, h4⟩
    unfold rfunc
    rw [h1]
  · rcases r2 with r2 | ⟨a, ha, x, hx, r2⟩
    · refine ⟨b, by simp, le_antisymm ?_ (r1 b (by simp) _ (hco b (by simp)))⟩
      have r2' : σ = 0 := r2
      rw [r2']
      exact abs_nonneg _
    · rw [hco a ha] at hx
      obtain rfl := Except.ok.inj hx
      exact ⟨a, ha, r2⟩

/-- **C86**, no error: with inner optimisations that end, the optimisation ends without error. -/
theorem C86_total {f : List ℝ → FVal} {inner : Inner} (hi : Inner.Fits inner) (no : ℕ) {cands : List (Cand n)} {c : Cand n}
    {kv : List (ℕ × ℝ)} {x0 : List ℝ} (phenoX0 phenoVk : Bool) (hc : cands[0]? = some c) (hx0 : x0.length = n)
    (hne : kv ≠ []) (hord : (kv.map Prod.fst).Pairwise (· < ·)) (hk : ∀ a ∈ kv, a.1 < n) :
    ∃ r, optimizeVpk f inner no GenoPheno.plain cands kv x0 phenoX0 phenoVk = .ok r := by
  have hnd : (kv.map Prod.fst).Nodup := hord.imp (fun h => Nat.ne_of_lt h)
  obtain ⟨w, hw, hwl, hwv⟩ := point_spec kv (m := x0.length) hnd (fun a ha => by rw [hx0]; exact hk a ha)
  unfold optimizeVpk
  have hpl : ∀ l, GenoPheno.plain.pheno l = .ok l := fun _ => rfl
  have hgl : ∀ l, GenoPheno.plain.geno l = .ok l := fun _ => rfl
  simp only [hpl, hgl, Out.pure_eq, ite_self, Out.ok_bind, hw, at!_eq_ok.2 hc]
  obtain ⟨b, kv', rfl⟩ := List.exists_cons_of_ne_nil hne
  obtain ⟨⟨σ, rx⟩, hred⟩ := reduce_ok (c := c) hk x0
  rw [hred, Out.ok_bind]
  simp only
  by_cases h0 : rx = []
  · rw [if_pos h0]
    exact ⟨_, rfl⟩
  rw [if_neg h0]
  have hrl : rx.length + (b :: kv').length = n := by
    have := removeElements_length ((b :: kv').map Prod.fst).reverse (l := x0) (List.pairwise_reverse.2 hord) (fun k hk' => by
      obtain ⟨a, ha, rfl⟩ := List.mem_map.1 (List.mem_reverse.1 hk')
      rw [hx0]
      exact hk a ha)
    rw [← reduce_snd _ hred, List.length_reverse, List.length_map, hx0] at this
    exact this
  obtain ⟨ir, hir, hl⟩ := hi no (rfunc f ((b :: kv').map Prod.fst) w) rx σ
  have hg : GenoPheno.plain.removeDimensions ((b :: kv').map Prod.fst) = GenoPheno.plain := rfl
  rw [hg, hir, Out.ok_bind, if_neg (not_not.2 hl)]
  obtain ⟨y, h1, _⟩ := insertAll_spec ((b :: kv').map Prod.fst) (v := w) (x := ir.x) hord
    (fun k hk' => by
      obtain ⟨a, ha, rfl⟩ := List.mem_map.1 hk'
      rw [List.length_map, hl, hrl]
      exact hk a ha)
    (fun k hk' => by
      obtain ⟨a, ha, rfl⟩ := List.mem_map.1 hk'
      rw [hwl, hx0]
      exact hk a ha)
  rw [h1]
  exact ⟨_, rfl⟩

example : ([(0, 2), (2, 5)] : List (ℕ × ℝ)).length < 4 ∧ (([(0, 2), (2, 5)] : List (ℕ × ℝ)).map Prod.fst).Pairwise (· < ·) ∧
    (∀ a ∈ ([(0, 2), (2, 5)] : List (ℕ × ℝ)), a.1 < 4) ∧
    ∃ r, optimizeVpk valley ones 0 GenoPheno.plain [exCand 4 0] [(0, 2), (2, 5)] [1, 2, 3, 4] false false = .ok r := by
  have h1 : (([(0, 2), (2, 5)] : List (ℕ × ℝ)).map Prod.fst).Pairwise (· < ·) := by simp
  have h2 : ∀ a ∈ ([(0, 2), (2, 5)] : List (ℕ × ℝ)), a.1 < 4 := by simp
  exact ⟨by norm_num, h1, h2, C86_total ones_fits 0 false false (c := exCand 4 0) rfl rfl (by simp) h1 h2⟩

/-- **C86** is false in another order: fixing parameter 1 at 7 and parameter 0 at 8, in this order, of three parameters gives a point
whose parameter 1 is not 7, and the inner optimisation starts from parameter 1 of the given point instead of the free
parameter 2. -/
theorem C86_order_false (f : List ℝ → FVal) (u : ℝ) (hu : u ≠ 7) (x y z : ℝ) (c : Cand 3) (cands : List (Cand 3))
    (phenoX0 phenoVk : Bool) : ∃ (inner : Inner) (r : VpkRes), Inner.Honest inner ∧
    optimizeVpk f inner 0 GenoPheno.plain (c :: cands) [(1, 7), (0, 8)] [x, y, z] phenoX0 phenoVk = .ok r ∧
    r.best = (f [8, u, 7], [8, u, 7]) ∧ r.best.2[1]? ≠ some 7 := by
  refine ⟨fun _ g _ _ gp => gp.pheno [u] >>= fun w => .ok ⟨g w, [u], 1, 0⟩, ⟨(f [8, u, 7], [8, u, 7]), (f [8, u, 7], [8, u, 7]), 1, 0⟩, ?_, ?_, rfl, ?_⟩
  · intro no g x0 σ gp r h
    rw [Out.bind_eq_ok] at h
    obtain ⟨w, h1, h2⟩ := h
    obtain rfl := Except.ok.inj h2
    exact ⟨w, h1, rfl⟩
  · cases phenoX0 <;> cases phenoVk <;> rfl
  · simpa using hu

/-- **C86** is false with bounds: fixing the parameters 0 and 1 of three with bounds [0,1], [0,1] and [0,100] leaves the inner
optimisation the bounds [0,1] of parameter 1 instead of those of parameter 2, so that one that looks for the greatest
value of the free parameter ends at 1. -/
theorem C86_bounds_false (f : List ℝ → FVal) (c : Cand 3) (cands : List (Cand 3)) : ∃ (inner : Inner) (r : VpkRes),
    (∀ no g x0 σ gp r, inner no g x0 σ gp = .ok r → ∃ u, gp.phenoUBound 0 = .ok u ∧ r.fvalue = g [u]) ∧
    optimizeVpk f inner 0 (GenoPheno.ofBounds none [0, 0, 0] [1, 1, 100]) (c :: cands) [(0, 1 / 2), (1, 1 / 2)] [1 / 2, 1 / 2, 50]
      true true = .ok r ∧ r.best.1 = f [1 / 2, 1 / 2, 1] := by
  refine ⟨fun _ g _ _ gp => gp.phenoUBound 0 >>= fun u => .ok ⟨g [u], [u], 1, 0⟩, ?_⟩
  have : ∃ r, optimizeVpk f (fun _ g _ _ gp => gp.phenoUBound 0 >>= fun u => .ok ⟨g [u], [u], 1, 0⟩) 0
      (GenoPheno.ofBounds none [0, 0, 0] [1, 1, 100]) (c :: cands) [(0, 1 / 2), (1, 1 / 2)] [1 / 2, 1 / 2, 50]
      true true = .ok r ∧ r.best.1 = f [1 / 2, 1 / 2, 1] := ⟨_, rfl, rfl⟩
  obtain ⟨r, h1, h2⟩ := this
  refine ⟨r, ?_, h1, h2⟩
  intro no g x0 σ gp r h
  rw [Out.bind_eq_ok] at h
  obtain ⟨u, h1, h2⟩ := h
  obtain rfl := Except.ok.inj h2
  exact ⟨u, h1, rfl⟩

end Libcmaes
