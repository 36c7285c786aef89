import Verif.Lemmas.Init

/-!
# C18: the initial state of a search
-/

namespace Libcmaes

open Spec

variable {n : ℕ}

/-- **C18.** A strategy constructed from parameters `p`, for every outcome of the random numbers, starts
at an allowed point (in internal units), with the requested step size (1/dim if it is not positive),
identity covariance, zero evolution paths and empty histories; the parameters it keeps are the given
ones with this step size. -/
theorem C18_initial_state (env : Env n) (kind : CovKind) (p : Params n) (s : Strat n)
    (hk : (p.fixedP.map Prod.fst).Nodup) (h : Strat.new env kind p = .ok s) :
    (∃ m, AllowedStart p m ∧ InternalUnits p.gp m s.sol.xmean) ∧
    (0 < p.sigmaInit → s.sol.sigma = p.sigmaInit) ∧ (p.sigmaInit ≤ 0 → s.sol.sigma = 1 / (n : ℝ)) ∧
    0 < s.sol.sigma ∧ s.p = { p with sigmaInit := s.sol.sigma } ∧ Fresh p.lambda s.sol ∧
    s.niter = 0 ∧ s.nevals = 0 ∧ s.calls = [] := by
  unfold Strat.new at h
  obtain ⟨⟨p', sol⟩, hm, h⟩ := Out.bind_eq_ok.1 h
  injection h with h
  subst h
  obtain ⟨h1, _, h3, h4, h5, h6, _⟩ := Sol.make_eq_ok hm
  have hn : (0 : ℝ) < n := by exact_mod_cast Nat.pos_of_ne_zero h3
  refine ⟨allowedStart_of_initialMean (env.rnd_mem 0) hk h1, ?_, ?_, ?_, h6, h4, rfl, rfl, rfl⟩
  · intro h; rw [h5, if_pos h]
  · intro h; rw [h5, if_neg (not_lt.2 h)]
  · show 0 < sol.sigma
    rw [h5]
    split_ifs with h
    · exact h
    · positivity

/-- **C18**, existence: the construction succeeds for every positive dimension and population size, when
the fixed indices are in range and the scaling, if any, has the right dimension. -/
theorem C18_construction_succeeds (env : Env n) (kind : CovKind) (p : Params n) (hn : n ≠ 0)
    (hl : p.lambda ≠ 0) (hfix : ∀ q ∈ p.fixedP, q.1 < n)
    (hs : ∀ s, p.gp.scale = .lin s → s.id = false → s.scaling.length = n ∧ s.shift.length = n) :
    ∃ s, Strat.new env kind p = .ok s := by
  have hi : ∃ m, initialMean p (env.rnd 0) = .ok m := by
    unfold initialMean
    obtain ⟨m, hm⟩ := (setFixed_ok_iff p.fixedP (if p.x0min = p.x0max then
      if p.x0min = fun _ => -dblMax then fun i => env.rnd 0 i * 4 else p.x0min
      else fun i => 0.5 * (env.rnd 0 i + 1) * (p.x0max i - p.x0min i) + p.x0min i)).2 hfix
    cases hsc : p.gp.scale with
    | noScaling =>
      refine ⟨m, ?_⟩
      show (setFixed p.fixedP _ >>= _) = _
      rw [hm, Out.ok_bind, scaleToInternalV_eq_ok]
      unfold InternalUnits; rw [hsc]
    | lin s =>
      by_cases hid : s.id = true
      · refine ⟨m, ?_⟩
        show (setFixed p.fixedP _ >>= _) = _
        rw [hm, Out.ok_bind, scaleToInternalV_eq_ok]
        unfold InternalUnits; rw [hsc]; simp [hid]
      · refine ⟨fun i => m i * s.scaling.getD i 0 + s.shift.getD i 0, ?_⟩
        show (setFixed p.fixedP _ >>= _) = _
        rw [hm, Out.ok_bind, scaleToInternalV_eq_ok]
        unfold InternalUnits; rw [hsc]
        simp only [hid]
        obtain ⟨h1, h2⟩ := hs s hsc (by simpa using hid)
        exact ⟨h1, h2, fun _ => trivial⟩
  obtain ⟨m, hm⟩ := hi
  unfold Strat.new Sol.make
  rw [hm]
  simp only [Out.ok_bind]
  rw [if_neg (by tauto)]
  exact ⟨_, rfl⟩

/-- Witness: dimension 3, a point, coordinate 1 fixed at 7. -/
example : let p := (Params.blank (n := 3) 4 (fun _ => 1) 0.5 1 GenoPheno.plain).setFixedP 1 7
    (p.fixedP.map Prod.fst).Nodup ∧ (∀ q ∈ p.fixedP, q.1 < 3) ∧ p.x0min = p.x0max ∧
      p.x0min ≠ (fun _ => -dblMax) ∧ p.lambda ≠ 0 := by
  have h := dblMax_ge
  refine ⟨?_, ?_, rfl, ?_, ?_⟩
  · simp [Params.setFixedP, Params.refreshFixed, mapInsert, Params.blank]
  · simp [Params.setFixedP, Params.refreshFixed, mapInsert, Params.blank]
  · intro h'
    have h2 := congrFun h' 0
    simp only [Params.setFixedP, Params.refreshFixed, Params.blank] at h2
    linarith
  · simp [Params.setFixedP, Params.refreshFixed, Params.blank]

end Libcmaes
