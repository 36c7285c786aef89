import Verif.Lemmas.ContourMin
import Verif.Lemmas.ContourWit

/-!
# C92, C93: contours
-/

namespace Libcmaes

namespace ErrStats

variable {n : ℕ}

/-- **C92**: if `contour_points` ends, the intervals of both parameters are stored; its polygon has the four corners at the ends of the
intervals, and arises from them by putting corners between two neighbours of greatest distance, where each parameter is
measured by its interval; one for each point asked for at most. -/
theorem C92_points {c : ContourArgs n} {fuel : ℕ} {nos : ℕ → ℕ} {npoints : ℤ} {pls pls' : Pls n} {pts : List (ℝ × ℝ)}
    (h : contourPoints c fuel nos npoints pls = .ok (some (pts, pls'))) :
    ∃ (x : Vec n) (plx ply : Pli n) (a0 b0 a1 b1 : ℝ), phenoV c.p.gp c.sol.bestCandidate.x = .ok x ∧
      getPli pls' c.px = some plx ∧ getPli pls' c.py = some ply ∧
      (∀ le, getPli pls c.px = some le → plx = le) ∧ (∀ le, getPli pls c.py = some le → ply = le) ∧
      Grows (fun a b => ((a.1 - b.1) / (plx.errmax - plx.errmin)) ^ 2 + ((a.2 - b.2) / (ply.errmax - ply.errmin)) ^ 2)
        (fun _ _ _ _ => True) (npoints - 4).toNat 0
        [(x c.px + plx.errmin, a0), (b0, x c.py + ply.errmin), (x c.px + plx.errmax, a1), (b1, x c.py + ply.errmax)] pts := by
  obtain ⟨x, plx, ply, a0, b0, a1, b1, h1, h2, h3, h4, h5, _, h6⟩ := contourPoints_cases h
  exact ⟨x, plx, ply, a0, b0, a1, b1, h1, h2, h3, h4, h5, by rw [← sqDist_eq]; exact h6.mono fun _ _ _ _ _ => trivial⟩

/-- **C92**, number of points: at least four, and no more than asked for (or four). -/
theorem C92_count {c : ContourArgs n} {fuel : ℕ} {nos : ℕ → ℕ} {npoints : ℤ} {pls pls' : Pls n} {pts : List (ℝ × ℝ)}
    (h : contourPoints c fuel nos npoints pls = .ok (some (pts, pls'))) : 4 ≤ pts.length ∧ (pts.length : ℤ) ≤ max 4 npoints := by
  obtain ⟨x, plx, ply, a0, b0, a1, b1, _, _, _, _, _, hg⟩ := C92_points h
  have := hg.length
  simp only [List.length_cons, List.length_nil] at this
  omega

/-- **C92**, intervals: a missing interval of the first parameter is computed as `profile_likelihood` does with the same `fup`,
`delta` and limit of rounds (and ten samples, no curve): calling it before changes nothing.  An interval there is already is used
as it is, also if it was computed with another `fup`. -/
theorem C92_intervals {c : ContourArgs n} {fuel : ℕ} {nos : ℕ → ℕ} {npoints : ℤ} {pls pls1 : Pls n} {le : Pli n}
    (hg : getPli pls c.px = none)
    (h : profileLikelihood c.f c.innerX fuel c.p c.sol pls c.px false 10 c.fup c.delta c.maxiters = .ok (some (le, pls1))) :
    contourPoints c fuel nos npoints pls = contourPoints c fuel nos npoints pls1 := by
  have h1 : pliOf c c.innerX fuel pls c.px = .ok (some (le, pls1)) := by
    unfold pliOf
    rw [hg]
    exact h
  have h2 : pliOf c c.innerX fuel pls1 c.px = .ok (some (le, pls1)) := by
    unfold pliOf
    rw [(pliOf_cases h1).1]
    rfl
  unfold contourPoints
  rw [h1, h2]

/-- **C92**, intervals: the same for the second parameter, when the first interval is there. -/
theorem C92_intervals' {c : ContourArgs n} {fuel : ℕ} {nos : ℕ → ℕ} {npoints : ℤ} {pls pls1 : Pls n} {lx le : Pli n}
    (hx : getPli pls c.px = some lx) (hg : getPli pls c.py = none)
    (h : profileLikelihood c.f c.innerY fuel c.p c.sol pls c.py false 10 c.fup c.delta c.maxiters = .ok (some (le, pls1))) :
    contourPoints c fuel nos npoints pls = contourPoints c fuel nos npoints pls1 := by
  have h1 : pliOf c c.innerY fuel pls c.py = .ok (some (le, pls1)) := by
    unfold pliOf
    rw [hg]
    exact h
  obtain ⟨k1, _, k3⟩ := pliOf_cases h1
  have h2 : pliOf c c.innerY fuel pls1 c.py = .ok (some (le, pls1)) := by
    unfold pliOf
    rw [k1]
    rfl
  have h3 : pliOf c c.innerX fuel pls c.px = .ok (some (lx, pls)) := by
    unfold pliOf
    rw [hx]
    rfl
  have h4 : pliOf c c.innerX fuel pls1 c.px = .ok (some (lx, pls1)) := by
    unfold pliOf
    rw [k3 _ _ hx]
    rfl
  unfold contourPoints
  rw [h3, h4]
  simp only [Out.ok_bind]
  rw [h1, h2]

/-- A case that meets the hypotheses of `C92_intervals` and `C92_intervals'`: two parameters, default arguments. -/
example (sz : ℕ → Bool) : ∃ (c : ContourArgs 2) (fuel : ℕ) (le le' : Pli 2) (pls1 pls2 : Pls 2), c.px = 0 ∧ c.py = 1 ∧
    profileLikelihood c.f c.innerX fuel c.p c.sol (fun _ => none) c.px false 10 c.fup c.delta c.maxiters = .ok (some (le, pls1)) ∧
    getPli pls1 c.px = some le ∧ getPli pls1 c.py = none ∧
    profileLikelihood c.f c.innerY fuel c.p c.sol pls1 c.py false 10 c.fup c.delta c.maxiters = .ok (some (le', pls2)) := by
  have ho := exSol_optimum (n := 2) 1 (valley_ones 2)
  obtain ⟨N, hN⟩ := profile_never_stuck ho (0 : Fin 2) (by simp [exSol, Sol.bestCandidate, exCand]) (by simp [exSol])
    (fup := 0.1) (delta := 0.1) (by norm_num) (by norm_num) (maxiters := 10000) (by norm_num)
  obtain ⟨N', hN'⟩ := profile_never_stuck ho (1 : Fin 2) (by simp [exSol, Sol.bestCandidate, exCand]) (by simp [exSol])
    (fup := 0.1) (delta := 0.1) (by norm_num) (by norm_num) (maxiters := 10000) (by norm_num)
  obtain ⟨o, h⟩ := profile_ok ho ones_fits (max N N') (fun _ => none) (0 : Fin 2) false (s := 10) (by norm_num) 0.1 0.1 10000
  rcases o with _ | ⟨le, pls1⟩
  · exact absurd h (hN _ (le_max_left _ _) ones _ false 10)
  obtain ⟨o, h'⟩ := profile_ok ho ones_fits (max N N') pls1 (1 : Fin 2) false (s := 10) (by norm_num) 0.1 0.1 10000
  rcases o with _ | ⟨le', pls2⟩
  · exact absurd h' (hN' _ (le_max_right _ _) ones _ false 10)
  obtain ⟨g1, g2⟩ := C56_get_partial h
  exact ⟨⟨valley, 0, 1, 0.1, exParams 2, exSol 1 (exCand 2 0), 0.1, 10000, ones, ones, ones, sz⟩, max N N', le, le', pls1, pls2,
    rfl, rfl, h, g1 rfl, g2 1 (by decide), h'⟩

/-- **C93** is false, and a case that meets the hypotheses of `C92_points`, `C92_count` and `C93_partial`: for the objective
max(|x-100|,|y-100|)²+z² with its optimum at (100,100,0), `fup` 1, exact inner optimisations and exact intervals, five
points are returned; the fifth is (99.25,100.75), whose least value is 0.5625 instead of 1. -/
theorem C93_value_false (sz : ℕ → Bool) (fuel : ℕ) (nos : ℕ → ℕ) : Inner.Exact (tubArgs 100 100 sz).inner ∧
    (tubArgs 100 100 sz).fup = 1 ∧ (tubArgs 100 100 sz).sol.bestCandidate.fvalue = FVal.ofReal 0 ∧
    Least (tub 100 100) 3 [(0, 100 - 1)] (FVal.ofReal 1) ∧ Least (tub 100 100) 3 [(0, 100 + 1)] (FVal.ofReal 1) ∧
    Least (tub 100 100) 3 [(1, 100 - 1)] (FVal.ofReal 1) ∧ Least (tub 100 100) 3 [(1, 100 + 1)] (FVal.ofReal 1) ∧
    contourPoints (tubArgs 100 100 sz) (fuel + 3) nos 5 (fun _ => some pliOne) =
      .ok (some ([(99, 100), (100, 99), (101, 100), (100, 101), (99.25, 100.75)], fun _ => some pliOne)) ∧
    Least (tub 100 100) 3 [(0, 99.25), (1, 100.75)] (FVal.ofReal 0.5625) := by
  have l0 : ∀ s : ℝ, |s| = 1 → Least (tub 100 100) 3 [(0, 100 + s)] (FVal.ofReal 1) := by
    intro s hs
    refine ⟨[100 + s, 100, 0], rfl, by simp, ?_, ?_⟩
    · unfold tub; simp only; rw [add_sub_cancel_left, hs]; norm_num
    · intro y' hl hv
      obtain ⟨u, v, w, rfl⟩ := List.length_eq_three.1 hl
      have : u = 100 + s := by simpa using hv (0, 100 + s) (by simp)
      subst this
      unfold tub
      rw [FVal.le_ofReal, add_sub_cancel_left, hs, sub_self, abs_zero, max_eq_left (by norm_num)]
      have : (1 : ℝ) ≤ max 1 |v - 100| := le_max_left _ _
      nlinarith [sq_nonneg w]
  have l1 : ∀ s : ℝ, |s| = 1 → Least (tub 100 100) 3 [(1, 100 + s)] (FVal.ofReal 1) := by
    intro s hs
    refine ⟨[100, 100 + s, 0], rfl, by simp, ?_, ?_⟩
    · unfold tub; simp only; rw [add_sub_cancel_left, hs]; norm_num
    · intro y' hl hv
      obtain ⟨u, v, w, rfl⟩ := List.length_eq_three.1 hl
      have : v = 100 + s := by simpa using hv (1, 100 + s) (by simp)
      subst this
      unfold tub
      rw [FVal.le_ofReal, add_sub_cancel_left, hs, sub_self, abs_zero, max_eq_right (by norm_num)]
      have : (1 : ℝ) ≤ max |u - 100| 1 := le_max_right _ _
      nlinarith [sq_nonneg w]
  refine ⟨oracle_exact _, rfl, rfl, l0 (-1) (by norm_num), l0 1 (by norm_num), l1 (-1) (by norm_num), l1 1 (by norm_num), ?_, ?_⟩
  · obtain ⟨c, hc, hs⟩ := contourStep_tub (p := 100) (q := 100) sz (fuel + 3) (nos 0)
    rw [cross_tub hc, lineLoop_tub_far hc, Out.ok_bind] at hs
    rw [contourPoints_tub sz _ nos (by norm_num), show ((5 : ℤ) - 4).toNat = 1 from rfl]
    unfold contourLoop
    rw [hs]
    have hp : ∀ x, c.pheno x = .ok x := by
      intro x
      unfold Crossing.pheno
      rw [hc.par]
      rfl
    simp only [hp, Out.ok_bind, Out.pure_eq]
    rw [if_neg (by norm_num)]
    show Except.ok (some ([((100 : ℝ) - 1, (100 : ℝ)), (100, 100 - 1), (100 + 1, 100), (100, 100 + 1), (100 - 0.75, 100 + 0.75)],
      _)) = _
    norm_num
  · refine ⟨[99.25, 100.75, 0], rfl, by simp, ?_, ?_⟩
    · unfold tub; norm_num
    · intro y' hl hv
      obtain ⟨u, v, w, rfl⟩ := List.length_eq_three.1 hl
      have h1 : u = 99.25 := by simpa using hv (0, 99.25) (by simp)
      have h2 : v = 100.75 := by simpa using hv (1, 100.75) (by simp)
      subst h1 h2
      exact tub_le _ _ _

/-- **C93**, partial: in an unconstrained search with at least three parameters, with inner optimisations that find the minimum and the
two parameters given in increasing order, each of the four first points has as least value that of the interval end it
is at; each further point is on the line at right angles from the middle of its two neighbours, or the least value
there is at most the minimum plus `fup`, and above it one step further.  The full property asks that the least value of
each point is the minimum plus `fup` (up to a tolerance). -/
theorem C93_partial {c : ContourArgs n} {fuel : ℕ} {nos : ℕ → ℕ} {npoints : ℤ} {pls pls' : Pls n} {pts : List (ℝ × ℝ)}
    (hn : 2 < n) (hgp : c.p.gp = GenoPheno.plain) (hxy : c.px < c.py) (he : Inner.Exact c.inner)
    (h : contourPoints c fuel nos npoints pls = .ok (some (pts, pls'))) :
    ∃ (plx ply : Pli n) (a0 b0 a1 b1 : ℝ) (pts0 : List (ℝ × ℝ)), getPli pls' c.px = some plx ∧ getPli pls' c.py = some ply ∧
      pts0 = [(c.sol.bestCandidate.x c.px + plx.errmin, a0), (b0, c.sol.bestCandidate.x c.py + ply.errmin),
        (c.sol.bestCandidate.x c.px + plx.errmax, a1), (b1, c.sol.bestCandidate.x c.py + ply.errmax)] ∧
      (∃ w, Least c.f n [(c.px.val, c.sol.bestCandidate.x c.px + plx.errmin)] w ∧
        Least c.f n [(c.px.val, c.sol.bestCandidate.x c.px + plx.errmin), (c.py.val, a0)] w) ∧
      (∃ w, Least c.f n [(c.py.val, c.sol.bestCandidate.x c.py + ply.errmin)] w ∧
        Least c.f n [(c.px.val, b0), (c.py.val, c.sol.bestCandidate.x c.py + ply.errmin)] w) ∧
      (∃ w, Least c.f n [(c.px.val, c.sol.bestCandidate.x c.px + plx.errmax)] w ∧
        Least c.f n [(c.px.val, c.sol.bestCandidate.x c.px + plx.errmax), (c.py.val, a1)] w) ∧
      (∃ w, Least c.f n [(c.py.val, c.sol.bestCandidate.x c.py + ply.errmax)] w ∧
        Least c.f n [(c.px.val, b1), (c.py.val, c.sol.bestCandidate.x c.py + ply.errmax)] w) ∧
      Grows (fun a b => ((a.1 - b.1) / (plx.errmax - plx.errmin)) ^ 2 + ((a.2 - b.2) / (ply.errmax - ply.errmin)) ^ 2)
        (fun _ a b z => Bisects a b z ∨
          Straddles c.f n c.px c.py (c.sol.bestCandidate.fvalue.add (FVal.ofReal c.fup)) a b z) (npoints - 4).toNat 0 pts0 pts := by
  obtain ⟨x, plx, ply, a0, b0, a1, b1, h1, h2, h3, _, _, h4, h5⟩ := contourPoints_cases h
  rw [hgp, phenoV_plain] at h1
  obtain rfl := Except.ok.inj h1
  obtain ⟨k1, k2, k3, k4⟩ := firstPoints_exact (by omega) hgp he h4
  exact ⟨plx, ply, a0, b0, a1, b1, _, h2, h3, rfl, k1, k2, k3, k4, by
    rw [← sqDist_eq]; exact h5.mono fun _ _ _ _ hz => newCorner_exact hn hgp hxy he hz⟩

/-- **C92** is false with two parameters: never are there more than four points, whatever the objective, the inner optimisations and the
number of points asked for. -/
theorem C92_dim2_false {c : ContourArgs 2} {d : Cand 2} {cands : List (Cand 2)} {a : ℝ} (hx : c.px = 0) (hy : c.py = 1)
    (hc : c.sol.cands = d :: cands) (hd : d.fvalue = FVal.ofReal a) (hb : c.sol.bestCandidate.fvalue = FVal.ofReal a)
    (hup : 0 < c.fup) {fuel : ℕ} {nos : ℕ → ℕ} {npoints : ℤ} {pls pls' : Pls 2} {pts : List (ℝ × ℝ)}
    (h : contourPoints c (11 + fuel) nos npoints pls = .ok (some (pts, pls'))) : pts.length = 4 := by
  obtain ⟨x, plx, ply, a0, b0, a1, b1, h1, h2, h3, _, _, h4, h5⟩ := contourPoints_cases h
  rw [h5.eq_of_none fun i a b z hz => ?_]
  · rfl
  obtain ⟨mid, dir, fc, _, _, _, _, hcr, hne, _⟩ := hz
  rw [Crossing.cross_two (c := crossingOf c mid dir) (by rw [show (crossingOf c mid dir).px = c.px.val from rfl, hx]; rfl)
    (by rw [show (crossingOf c mid dir).py = c.py.val from rfl, hy]; rfl) hc hd hb hup] at hcr
  obtain rfl := Option.some.inj (Except.ok.inj hcr)
  exact hne rfl

/-- A case that meets the hypotheses of `C92_dim2_false`: two parameters, intervals there are already, 20 points asked for. -/
example (sz : ℕ → Bool) : ∃ (c : ContourArgs 2) (pts : List (ℝ × ℝ)) (pls : Pls 2), c.px = 0 ∧ c.py = 1 ∧
    c.sol.cands = [exCand 2 0] ∧ (exCand 2 0).fvalue = FVal.ofReal 0 ∧ c.sol.bestCandidate.fvalue = FVal.ofReal 0 ∧ 0 < c.fup ∧
    contourPoints c 11 id 20 pls = .ok (some (pts, pls)) := by
  obtain ⟨c, hc⟩ : ∃ c : ContourArgs 2, c = ⟨valley, 0, 1, 1, exParams 2, exSol 1 (exCand 2 0), 0.1, 10000, ones, ones, ones, sz⟩ :=
    ⟨_, rfl⟩
  obtain ⟨le, hle⟩ : ∃ le : Pli 2, le = ⟨0, 0, [], [], 0, 0, -1, 1, 0, 0, [], 1, 0.1⟩ := ⟨_, rfl⟩
  have hx : c.px = 0 := by rw [hc]
  have hy : c.py = 1 := by rw [hc]
  have hca : c.sol.cands = [exCand 2 0] := by rw [hc]; rfl
  have hb : c.sol.bestCandidate.fvalue = FVal.ofReal 0 := by rw [hc]; rfl
  have hup : 0 < c.fup := by rw [hc]; norm_num
  refine ⟨c, [(1 - 1, 1), (1, 1 - 1), (1 + 1, 1), (1, 1 + 1)], fun _ => some le, hx, hy, hca, rfl, hb, hup, ?_⟩
  have hstep : ∀ no, contourStep c 0.5 0.5 11 no [(1 - 1, 1), (1, 1 - 1), (1 + 1, 1), (1, 1 + 1)] =
      .ok (some [(1 - 1, 1), (1, 1 - 1), (1 + 1, 1), (1, 1 + 1)]) := by
    intro no
    unfold contourStep
    rw [farthest_square]
    simp only [Out.ok_bind]
    have i3 : idx [((1 : ℝ) - 1, (1 : ℝ)), (1, 1 - 1), (1 + 1, 1), (1, 1 + 1)] 3 = .ok (1, 1 + 1) := rfl
    have i0 : idx [((1 : ℝ) - 1, (1 : ℝ)), (1, 1 - 1), (1 + 1, 1), (1, 1 + 1)] 0 = .ok (1 - 1, 1) := rfl
    rw [i3, Out.ok_bind, i0, Out.ok_bind, if_neg (by norm_num)]
    rw [show (11 : ℕ) = 11 + 0 from rfl, Crossing.cross_two (d := exCand 2 0) (cands := []) (a := 0) (by rw [hx]; rfl)
      (by rw [hy]; rfl) hca rfl hb hup]
    rfl
  have hloop : ∀ k i, contourLoop c 0.5 0.5 11 id k i [(1 - 1, 1), (1, 1 - 1), (1 + 1, 1), (1, 1 + 1)] =
      .ok (some [(1 - 1, 1), (1, 1 - 1), (1 + 1, 1), (1, 1 + 1)]) := by
    intro k
    induction k with
    | zero => exact fun _ => rfl
    | succ k ih =>
      intro i
      unfold contourLoop
      rw [hstep, Out.ok_bind]
      exact ih _
  have e : contourPoints c 11 id 20 (fun _ => some le) = (do
      let pts ← firstPoints c le le
      if le.errmax - le.errmin = 0 ∨ le.errmax - le.errmin = 0 then .error .notReal else do
      match ← contourLoop c (1 / (le.errmax - le.errmin)) (1 / (le.errmax - le.errmin)) 11 id 16 0 pts with
      | none => pure none
      | some r => pure (some (r, fun _ => some le))) := rfl
  have hf : firstPoints c le le = .ok [(1 - 1, 1), (1, 1 - 1), (1 + 1, 1), (1, 1 + 1)] := by
    rw [hc, hle]
    rfl
  have h1 : le.errmin = -1 := by rw [hle]
  have h2 : le.errmax = 1 := by rw [hle]
  rw [e, hf, Out.ok_bind, h1, h2, if_neg (by norm_num), show (1 / (1 - -1) : ℝ) = 0.5 by norm_num, hloop]
  rfl

/-- **C92** is false: for the objective max(|x-3/4|,|y+3/4|)²+z² with its optimum at (3/4,-3/4,0), `fup` 1, exact inner
optimisations and exact intervals, `contour_points` does not end when five points or more are asked for. -/
theorem C92_endless_false (sz : ℕ → Bool) (fuel : ℕ) (nos : ℕ → ℕ) {npoints : ℤ} (hp : 5 ≤ npoints) :
    contourPoints (tubArgs 0.75 (-0.75) sz) fuel nos npoints (fun _ => some pliOne) = .ok none := by
  obtain ⟨k, hk⟩ : ∃ k, (npoints - 4).toNat = k + 1 := ⟨(npoints - 5).toNat, by omega⟩
  rw [contourPoints_tub sz _ nos hp, hk]
  unfold contourLoop
  obtain ⟨c, hc, hs⟩ := contourStep_tub (p := 0.75) (q := -0.75) sz fuel (nos 0)
  rw [hs]
  have hn : c.cross fuel (nos 0) = .ok none := by
    rcases fuel with _ | _ | fuel
    · unfold Crossing.cross
      rw [begin_tub hc]
      rfl
    · unfold Crossing.cross
      rw [begin_tub hc, Out.ok_bind]
      simp only
      rw [Crossing.loop]
      simp only
      rw [if_neg (by rw [FVal.lt_ofReal]; norm_num)]
      rfl
    · rw [cross_tub hc, lineLoop_tub_stuck hc]
      rfl
  rw [hn]
  rfl

/-- **C92** is false with the parameters in the other order: with the last of three parameters as first and another as second, each inner
optimisation of a further point starts with two coordinates, and calls the objective with four. -/
theorem C92_order_false {c : Crossing 3} (hx : c.px = 2) (hy : c.py = 0) (hgp : c.p.gp = GenoPheno.plain) {no : ℕ}
    {cands : List (Cand 3)} {v : ℝ × ℝ} {r : VpkRes} (h : c.opt no cands v = .ok r) :
    ∃ (g : List ℝ → FVal) (x0 : List ℝ) (σ : ℝ) (ir : InnerRes), c.inner no g x0 σ GenoPheno.plain = .ok ir ∧ x0.length = 2 ∧
      ∀ z : List ℝ, z.length = 2 → ∃ y : List ℝ, y.length = 4 ∧ g z = c.f y := by
  unfold Crossing.opt optimizeVpk at h
  rw [hx, hy, hgp] at h
  obtain ⟨_, h0, h⟩ := Out.bind_eq_ok.1 h
  obtain ⟨d, _, h⟩ := Out.bind_eq_ok.1 h
  obtain rfl := Except.ok.inj h0
  have e : List.ofFn c.p.x0min = [c.p.x0min 0, c.p.x0min 1, c.p.x0min 2] := rfl
  rw [e] at h
  obtain ⟨ir, hir, _⟩ := Out.bind_eq_ok.1 (show (c.inner no (rfunc c.f [2, 0] [v.2, 0, v.1]) [c.p.x0min 1, c.p.x0min 2] _
    GenoPheno.plain >>= fun r => _) = _ from h)
  refine ⟨_, _, _, ir, hir, rfl, fun z hz => ?_⟩
  obtain ⟨s, t, rfl⟩ := List.length_eq_two.1 hz
  exact ⟨[v.2, s, t, v.1], rfl, rfl⟩

end ErrStats

end Libcmaes
