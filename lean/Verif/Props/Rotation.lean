import Verif.Lemmas.RotationRun
import Verif.Props.Invariance
import Verif.Props.Published
import Verif.Props.Resume

/-!
# C100: invariance under rotations of the search space

The code draws standard normal vectors and multiplies them by a root of the covariance matrix, which depends on the
eigensolver; a rotated search therefore needs rotated draws.  `T C` is the rotation of the draws in a generation with
covariance `C`: it is chosen before the draws, which hence keep their law (`C100_draws`).
-/

namespace Libcmaes

open Spec Matrix Finset MeasureTheory ProbabilityTheory

variable {n : ℕ}

/-- **C100.** Searching `x ↦ f(Rᵀ x)` from `R x0`, `R` orthogonal, passes through the distributions, paths and populations
of the search of `f` from `x0`, turned by `R`, with the same step sizes and objective values, for any number of
generations of the default and the active update with full covariance matrix: to each sequence of draws of the one
belongs one of the other, in each generation its image under a rotation that depends on the eigensolver, on `R`
and on the covariance matrix at the beginning of the generation only. -/
theorem C100_rotation (eig : EigSolver n) (R : Mat n) (hR : Rotation R) :
    ∃ T : Mat n → Mat n, (∀ C, PD C → Rotation (T C)) ∧
      ∀ (env : Env n) (kind : CovKind) (p : Params n) (s0 : Strat n), env.eig = eig → Usual kind p → NoExtras p →
        p.gp = GenoPheno.plain → p.sep = false → p.lazyUpdate = false → p.tpa < 2 → p.x0min = p.x0max →
        p.x0min ≠ (fun _ => -dblMax) → R.mulVec p.x0min ≠ (fun _ => -dblMax) → (∀ k y, (env.f k y).IsNum) →
        Strat.new env kind p = .ok s0 →
        ∃ (z' : ℕ → Vec n) (s0' : Strat n),
          Strat.new { env with f := fun k y => env.f k (Rᵀ.mulVec y), z := z' } kind
            { p with x0min := R.mulVec p.x0min, x0max := R.mulVec p.x0max } = .ok s0' ∧
          ∀ (g : ℕ) (s : Strat n), s0.generations env g = .ok s → ∃ s',
            s0'.generations { env with f := fun k y => env.f k (Rᵀ.mulVec y), z := z' } g = .ok s' ∧
            RotatedSearch R s.sol s'.sol ∧ PD s.sol.cov ∧ s.nz = g * p.lambda ∧
            ∀ j < p.lambda, z' (s.nz + j) = (T s.sol.cov).mulVec (env.z (s.nz + j)) := by
  have hA : ∀ C : Mat n, ∃ A : Mat n, PSD C → (A * Aᵀ = C ∧ ∀ (env : Env n) (s s1 : Strat n) (pop : List (Vec n)), env.eig = eig →
      s.sol.cov = C → s.p.sep = false → s.p.vd = false → s.p.withGradient = false →
      (s.p.tpa ≠ 2 ∨ s.niter = 0) → (s.p.lazyUpdate = false ∨ s.niter = 0) → s.ask env = .ok (pop, s1) →
      ∀ j < s.p.lambda, ∃ x, pop[j]? = some x ∧
        ∀ i, Free s.p i → x i = s.sol.xmean i + s.sol.sigma * A.mulVec (env.z (s.nz + j)) i) := by
    intro C
    by_cases hC : PSD C
    · obtain ⟨A, h⟩ := C19_full eig C hC
      exact ⟨A, fun _ => h⟩
    · exact ⟨1, fun h => absurd h hC⟩
  choose A hA using hA
  refine ⟨fun C => (A (R * C * Rᵀ))⁻¹ * R * A C, fun C hC =>
    (drawTurn hR hC (hA C hC.psd).1 (hA _ (rotated_pd hR hC).psd).1).1, ?_⟩
  intro env kind p s0 heig hu hx hgp hsep hlz htp hx0 hm1 hm2 hf h0
  set T : Mat n → Mat n := fun C => (A (R * C * Rᵀ))⁻¹ * R * A C with hT
  have hlam : 1 ≤ p.lambda := by have := hu.configured.good.1.lambda; omega
  set z' : ℕ → Vec n := fun j => (T (match s0.generations env (j / p.lambda) with | .ok s => s.sol.cov | .error _ => 1)).mulVec (env.z j)
    with hz'
  set env' : Env n := { env with f := fun k y => env.f k (Rᵀ.mulVec y), z := z' } with henv'
  set p' : Params n := { p with x0min := R.mulVec p.x0min, x0max := R.mulVec p.x0max } with hp'
  have hu' : Usual kind p' := ⟨⟨.other hu.configured ⟨rfl, rfl, rfl, rfl, rfl, rfl, rfl, rfl, rfl, rfl, rfl, rfl, rfl, rfl, rfl, rfl, rfl⟩,
    ⟨hu.strict.lt_one, hu.strict.active⟩, hu.update, hu.vd, hu.lazy, hu.grad, hu.initialElitist, hu.elitist⟩, hu.uh, hu.tpa⟩
  have hx' : NoExtras p' := ⟨hx.1, hx.2, hx.3, hx.4⟩
  obtain ⟨s0', h0'⟩ := new_plain (env := env') (kind := kind) (p := p') hgp hu'.configured.good.1
  obtain ⟨_, _, _, hp0, _, hf0, hn0, _, hcl0, hng0, _, _, _, _, _, _, _, _, hmean, _⟩ := Strat.new_ok h0
  obtain ⟨_, _, _, hp0', _, hf0', hn0', _, hcl0', hng0', _, _, _, _, _, _, _, _, hmean', _⟩ := Strat.new_ok h0'
  refine ⟨z', s0', h0', ?_⟩
  have key : ∀ (g : ℕ) (s : Strat n), s0.generations env g = .ok s → ∃ s', s0'.generations env' g = .ok s' ∧
      RotatedSearch R s.sol s'.sol ∧ s.nz = g * p.lambda ∧ s'.nz = s.nz ∧ s'.calls.length = s.calls.length ∧ s'.negate = s.negate := by
    intro g
    induction g with
    | zero =>
      intro s hs
      injection hs with hs
      subst hs
      refine ⟨s0', rfl, ⟨?_, ?_, ?_, ?_, ?_, ?_⟩, ?_, ?_, ?_, ?_⟩
      · rw [start_mean hx.fixed hgp hx0 hm1 hmean, start_mean (p := p') hx.fixed hgp (congrArg R.mulVec hx0) hm2 hmean']
      · rw [new_sigma h0, new_sigma h0']
      · rw [hf0.cov, hf0'.cov, Matrix.mul_one, hR]
      · rw [hf0.psigma, hf0'.psigma, mulVec_zero]
      · rw [hf0.pc, hf0'.pc, mulVec_zero]
      · rw [new_cands h0, new_cands h0', List.map_replicate]
        congr 1
        show _ = moved R.mulVec id Cand.blank
        unfold moved Cand.blank
        simp only [id]
        congr 1
        exact (mulVec_zero R).symm
      · rw [new_nz h0, Nat.zero_mul]
      · rw [new_nz h0, new_nz h0']
      · rw [hcl0, hcl0']
      · rw [hng0, hng0']
    | succ g ih =>
      intro t htg
      obtain ⟨s, hs, hgen⟩ := Strat.generations_succ_last g htg
      obtain ⟨s', hs', hrot, hnz, hnz', hcl, hng⟩ := ih s hs
      obtain ⟨t', ht'⟩ : ∃ t', s0'.generations env' (g + 1) = .ok t' := by
        rcases C67_total env' kind p' s0' hu' (fun k y => hf k _) h0' (g + 1) with h | ⟨x, e, he, _⟩
        · exact h
        · rw [show p'.gp = GenoPheno.plain from hgp, phenoV_plain] at he; cases he
      obtain ⟨s'', hs'', hgen'⟩ := Strat.generations_succ_last g ht'
      have : s'' = s' := Except.ok.inj (hs''.symm.trans hs')
      subst this
      obtain ⟨tr, htr, hrun⟩ := Strat.generations_askRun g hs
      obtain ⟨tr', htr', hrun'⟩ := Strat.generations_askRun g hs'
      obtain ⟨hN, hp⟩ := neutralSet_of hu hx h0 hrun
      obtain ⟨hN', hpp⟩ := neutralSet_of hu' hx' h0' hrun'
      obtain ⟨_, _, c3, c4, c5⟩ := neutral_counts hN hgen
      obtain ⟨_, _, c3', c4', c5'⟩ := neutral_counts hN' hgen'
      have hpd := run_pd hu hsep hlz h0 hrun
      have hl1 : s.p.lambda = p.lambda := by rw [hp]
      have hl2 : s''.p.lambda = p.lambda := by rw [hpp]
      obtain ⟨pop, s1, phen, s2, s3, ha, hph, hev, htl, rfl⟩ := generation_parts hgen
      obtain ⟨pop', s1', phen', s2', s3', ha', hph', hev', htl', rfl⟩ := generation_parts hgen'
      have g1 := generation_cands hN.cands hN.uh hN.elit hN.grad (Or.inl hN.tpa) (by rw [hp]; exact hgp) ha hph hev htl
      have g2 := generation_cands hN'.cands hN'.uh hN'.elit hN'.grad (Or.inl hN'.tpa) (by rw [hpp]; exact hgp) ha' hph' hev' htl'
      have hX : ∀ r < p.lambda, colX pop' r = R.mulVec (colX pop r) := by
        intro r hr
        obtain ⟨x, hx1, hx2⟩ := (hA _ hpd.psd).2 env s s1 pop heig rfl (by rw [hp]; exact hsep) hN.vd hN.grad (Or.inl hN.tpa)
          (Or.inl (by rw [hp]; exact hlz)) ha r (by rw [hl1]; exact hr)
        obtain ⟨x', hx1', hx2'⟩ := (hA _ (rotated_pd hR hpd).psd).2 env' s'' s1' pop' heig hrot.cov (by rw [hpp]; exact hsep) hN'.vd
          hN'.grad (Or.inl hN'.tpa) (Or.inl (by rw [hpp]; exact hlz)) ha' r (by rw [hl2]; exact hr)
        have ex : x = s.sol.xmean + s.sol.sigma • (A s.sol.cov).mulVec (env.z (s.nz + r)) := by
          funext i
          exact hx2 i (by unfold Free; rw [hN.extras.fixed]; simp)
        have ex' : x' = s''.sol.xmean + s''.sol.sigma • (A (R * s.sol.cov * Rᵀ)).mulVec (z' (s.nz + r)) := by
          funext i
          rw [← hnz']
          exact hx2' i (by unfold Free; rw [hN'.extras.fixed]; simp)
        have ez : z' (s.nz + r) = (T s.sol.cov).mulVec (env.z (s.nz + r)) := by
          rw [hz']
          have : (s.nz + r) / p.lambda = g := by
            rw [hnz, Nat.add_comm, Nat.add_mul_div_right _ _ hlam, Nat.div_eq_of_lt hr, Nat.zero_add]
          simp only
          rw [this, hs]
        unfold colX
        rw [List.getD, hx1', List.getD, hx1, Option.getD_some, Option.getD_some, ex, ex', ez, hrot.mean, hrot.sigma, mulVec_add,
          mulVec_smul, mulVec_mulVec, mulVec_mulVec, (drawTurn hR hpd (hA _ hpd.psd).1 (hA _ (rotated_pd hR hpd).psd).1).2]
      have hv : ∀ r < p.lambda, valueAt env' s'' (colX pop') r = valueAt env s (colX pop) r := by
        intro r hr
        unfold valueAt
        rw [hX r hr, hng, hcl, hl1, hl2]
        have : s''.order env' p.lambda = s.order env p.lambda := by
          unfold Strat.order
          rw [hpp, hp, hcl]
        rw [this]
        show negIf _ (env.f _ (Rᵀ.mulVec (R.mulVec _))) = _
        rw [hR.back]
      have ho : orderBy (valueAt env' s'' (colX pop')) p.lambda = orderBy (valueAt env s (colX pop)) p.lambda :=
        orderBy_congr hv
      have hcs : s3'.sol.cands = s3.sol.cands.map (moved R.mulVec id) := by
        rw [g1, g2, hl1, hl2, ho, List.map_map]
        refine List.map_congr_left fun r hr => ?_
        have hr' : r < p.lambda := List.mem_range.1 ((orderBy_perm _ _).mem_iff.1 hr)
        simp only [Function.comp, moved, id]
        rw [hX r hr', hv r hr']
      have hrk : ranked s3'.sol.cands = fun i => R.mulVec (ranked s3.sol.cands i) := by
        funext i
        unfold ranked
        rw [hcs, List.getElem?_map]
        cases s3.sol.cands[i]? with
        | none => exact (mulVec_zero _).symm
        | some c => rfl
      obtain ⟨e1, e2⟩ := run_turned hR hu hu' rfl hsep hlz htp hsep hlz htp h0 hrun h0' hrun' (htr'.trans htr.symm) ha hev htl ha' hev' htl'
        (by unfold stateOf turned; rw [hrot.mean, hrot.sigma, hrot.psigma, hrot.pc]) hrot.cov hrk
      refine ⟨s3'.incIter, ht', ⟨congrArg CmaState.m e1, congrArg CmaState.sigma e1, e2, congrArg CmaState.ps e1, congrArg CmaState.pc e1, hcs⟩,
        ?_, ?_, ?_, ?_⟩
      · rw [c4, hnz, hl1]; ring
      · rw [c4, c4', hnz', hl1, hl2]
      · rw [c5, c5', hcl, hl1, hl2]
      · rw [c3, c3', hng]
  intro g s hs
  obtain ⟨s', h1, h2, h3, h4, h5, h6⟩ := key g s hs
  obtain ⟨tr, htr, hrun⟩ := Strat.generations_askRun g hs
  refine ⟨s', h1, h2, run_pd hu hsep hlz h0 hrun, h3, fun j hj => ?_⟩
  rw [hz']
  have : (s.nz + j) / p.lambda = g := by
    rw [h3, Nat.add_comm, Nat.add_mul_div_right _ _ hlam, Nat.div_eq_of_lt hj, Nat.zero_add]
  simp only
  rw [this, hs]

/-- **C100.** Turning the draws, each by a rotation fixed beforehand, leaves their law as it is: they are again
independent standard normal vectors. -/
theorem C100_draws {Ω : Type*} [MeasurableSpace Ω] {P : Measure Ω} {Z : ℕ → Ω → Vec n} (hZ : StdDraws P Z) (Q : ℕ → Mat n)
    (hQ : ∀ k, Rotation (Q k)) : StdDraws P fun k ω => (Q k).mulVec (Z k ω) := by
  refine ⟨fun k => ?_, ?_⟩
  · have h := (isNormal_affine hZ k (Q k) 0).2
    have e : WithLp.toLp 2 (0 : Fin n → ℝ) = 0 := rfl
    rw [hQ k, e, multivariateGaussian_zero_one] at h
    simpa using h
  · exact hZ.indep.comp (fun k z => (Q k).mulVec z) fun k => by fun_prop

/-- **C100**, diagonal model: the numbering and the orientation of the axes are immaterial.  Searching
`x ↦ f(Rᵀ x)` from `R x0`, where `R` numbers the axes anew and mirrors some of them, with the draws changed likewise, goes through
the distributions, paths and populations of the search of `f` from `x0`, changed likewise, for any number of generations. -/
theorem C100_axes (a : Equiv.Perm (Fin n)) (e : Fin n → ℝ) (he : ∀ i, e i = 1 ∨ e i = -1) (env : Env n) (p : Params n)
    (s0 : Strat n) (hu : Usual .plain p) (hx : NoExtras p) (hgp : p.gp = GenoPheno.plain) (hsep : p.sep = true) (htp : p.tpa < 2)
    (hx0 : p.x0min = p.x0max) (hm1 : p.x0min ≠ fun _ => -dblMax)
    (hm2 : (fun i => e i * p.x0min (a i)) ≠ fun _ => -dblMax) (hf : ∀ k y, (env.f k y).IsNum)
    (h0 : Strat.new env .plain p = .ok s0) :
    ∃ s0', Strat.new { env with f := fun k y => env.f k fun i => e (a.symm i) * y (a.symm i), z := fun k i => e i * env.z k (a i) }
        .plain { p with x0min := fun i => e i * p.x0min (a i), x0max := fun i => e i * p.x0max (a i) } = .ok s0' ∧
      ∀ (g : ℕ) (s : Strat n), s0.generations env g = .ok s → ∃ s',
        s0'.generations { env with f := fun k y => env.f k fun i => e (a.symm i) * y (a.symm i), z := fun k i => e i * env.z k (a i) } g =
          .ok s' ∧ RelabelledSearch a e s.sol s'.sol := by
  have he2 : ∀ i, e i ^ 2 = 1 := fun i => by rcases he i with h | h <;> rw [h] <;> norm_num
  have hee : ∀ i, e i * e i = 1 := fun i => by rw [← pow_two]; exact he2 i
  have hRx : ∀ x : Vec n, (axisMap a e).mulVec x = fun i => e i * x (a i) := fun x => funext (axisMap_mulVec a e x)
  set env' : Env n := { env with f := fun k y => env.f k fun i => e (a.symm i) * y (a.symm i), z := fun k i => e i * env.z k (a i) }
    with henv'
  set p' : Params n := { p with x0min := fun i => e i * p.x0min (a i), x0max := fun i => e i * p.x0max (a i) } with hp'
  have hu' : Usual .plain p' := ⟨⟨.other hu.configured ⟨rfl, rfl, rfl, rfl, rfl, rfl, rfl, rfl, rfl, rfl, rfl, rfl, rfl, rfl, rfl, rfl, rfl⟩,
    ⟨hu.strict.lt_one, hu.strict.active⟩, hu.update, hu.vd, hu.lazy, hu.grad, hu.initialElitist, hu.elitist⟩, hu.uh, hu.tpa⟩
  have hx' : NoExtras p' := ⟨hx.1, hx.2, hx.3, hx.4⟩
  obtain ⟨s0', h0'⟩ := new_plain (env := env') (kind := .plain) (p := p') hgp hu'.configured.good.1
  obtain ⟨_, _, _, hp0, _, hf0, hn0, _, hcl0, hng0, _, _, _, _, _, _, _, _, hmean, _⟩ := Strat.new_ok h0
  obtain ⟨_, _, _, hp0', _, hf0', hn0', _, hcl0', hng0', _, _, _, _, _, _, _, _, hmean', _⟩ := Strat.new_ok h0'
  refine ⟨s0', h0', ?_⟩
  have key : ∀ (g : ℕ) (s : Strat n), s0.generations env g = .ok s → ∃ s', s0'.generations env' g = .ok s' ∧
      RelabelledSearch a e s.sol s'.sol ∧ s'.nz = s.nz ∧ s'.calls.length = s.calls.length ∧ s'.negate = s.negate := by
    intro g
    induction g with
    | zero =>
      intro s hs
      injection hs with hs
      subst hs
      refine ⟨s0', rfl, ⟨fun i => ?_, ?_, fun i => ?_, fun i => ?_, fun i => ?_, ?_⟩, ?_, ?_, ?_⟩
      · rw [start_mean hx.fixed hgp hx0 hm1 hmean,
          start_mean (p := p') hx.fixed hgp (by show (fun i => e i * p.x0min (a i)) = _; rw [hx0]) hm2 hmean']
      · rw [new_sigma h0, new_sigma h0']
      · rw [hf0.sepcov, hf0'.sepcov]
      · rw [hf0.psigma, hf0'.psigma]; exact (mul_zero _).symm
      · rw [hf0.pc, hf0'.pc]; exact (mul_zero _).symm
      · rw [new_cands h0, new_cands h0', List.map_replicate]
        congr 1
        unfold moved Cand.blank
        simp only [id]
        congr 1
        funext i
        exact (mul_zero _).symm
      · rw [new_nz h0, new_nz h0']
      · rw [hcl0, hcl0']
      · rw [hng0, hng0']
    | succ g ih =>
      intro t htg
      obtain ⟨s, hs, hgen⟩ := Strat.generations_succ_last g htg
      obtain ⟨s', hs', hrot, hnz', hcl, hng⟩ := ih s hs
      obtain ⟨t', ht'⟩ : ∃ t', s0'.generations env' (g + 1) = .ok t' := by
        rcases C67_total env' .plain p' s0' hu' (fun k y => hf k _) h0' (g + 1) with h | ⟨x, e, he, _⟩
        · exact h
        · rw [show p'.gp = GenoPheno.plain from hgp, phenoV_plain] at he; cases he
      obtain ⟨s'', hs'', hgen'⟩ := Strat.generations_succ_last g ht'
      have : s'' = s' := Except.ok.inj (hs''.symm.trans hs')
      subst this
      obtain ⟨tr, htr, hrun⟩ := Strat.generations_askRun g hs
      obtain ⟨tr', htr', hrun'⟩ := Strat.generations_askRun g hs'
      obtain ⟨hN, hp⟩ := neutralSet_of hu hx h0 hrun
      obtain ⟨hN', hpp⟩ := neutralSet_of hu' hx' h0' hrun'
      obtain ⟨_, _, c3, c4, c5⟩ := neutral_counts hN hgen
      obtain ⟨_, _, c3', c4', c5'⟩ := neutral_counts hN' hgen'
      have hl1 : s.p.lambda = p.lambda := by rw [hp]
      have hl2 : s''.p.lambda = p.lambda := by rw [hpp]
      obtain ⟨pop, s1, phen, s2, s3, ha, hph, hev, htl, rfl⟩ := generation_parts hgen
      obtain ⟨pop', s1', phen', s2', s3', ha', hph', hev', htl', rfl⟩ := generation_parts hgen'
      have g1 := generation_cands hN.cands hN.uh hN.elit hN.grad (Or.inl hN.tpa) (by rw [hp]; exact hgp) ha hph hev htl
      have g2 := generation_cands hN'.cands hN'.uh hN'.elit hN'.grad (Or.inl hN'.tpa) (by rw [hpp]; exact hgp) ha' hph' hev' htl'
      have hX : ∀ r < p.lambda, colX pop' r = fun i => e i * colX pop r (a i) := by
        intro r hr
        obtain ⟨x, hx1, hx2⟩ := (C19_sep env s s1 pop (by rw [hp]; exact hsep) hN.grad (Or.inl hN.tpa) ha).2 r (by rw [hl1]; exact hr)
        obtain ⟨x', hx1', hx2'⟩ := (C19_sep env' s'' s1' pop' (by rw [hpp]; exact hsep) hN'.grad (Or.inl hN'.tpa) ha').2 r
          (by rw [hl2]; exact hr)
        unfold colX
        rw [List.getD, hx1', List.getD, hx1, Option.getD_some, Option.getD_some]
        funext i
        rw [hx2 (a i) (by unfold Free; rw [hN.extras.fixed]; simp), hx2' i (by unfold Free; rw [hN'.extras.fixed]; simp),
          hrot.mean, hrot.sigma, hrot.sepcov, hnz']
        show e i * s.sol.xmean (a i) + s.sol.sigma * (Real.sqrt _ * (e i * env.z (s.nz + r) (a i))) = _
        ring
      have hv : ∀ r < p.lambda, valueAt env' s'' (colX pop') r = valueAt env s (colX pop) r := by
        intro r hr
        unfold valueAt
        rw [hX r hr, hng, hcl, hl1, hl2]
        have : s''.order env' p.lambda = s.order env p.lambda := by
          unfold Strat.order
          rw [hpp, hp, hcl]
        rw [this]
        show negIf _ (env.f _ fun i => e (a.symm i) * (e (a.symm i) * colX pop r (a (a.symm i)))) = _
        congr 2
        funext i
        rw [← mul_assoc, hee, one_mul, a.apply_symm_apply]
      have ho : orderBy (valueAt env' s'' (colX pop')) p.lambda = orderBy (valueAt env s (colX pop)) p.lambda :=
        orderBy_congr hv
      have hcs : s3'.sol.cands = s3.sol.cands.map (moved (fun x i => e i * x (a i)) id) := by
        rw [g1, g2, hl1, hl2, ho, List.map_map]
        refine List.map_congr_left fun r hr => ?_
        have hr' : r < p.lambda := List.mem_range.1 ((orderBy_perm _ _).mem_iff.1 hr)
        simp only [Function.comp, moved, id]
        rw [hX r hr', hv r hr']
      have hrk : ranked s3'.sol.cands = fun i => (axisMap a e).mulVec (ranked s3.sol.cands i) := by
        funext i
        unfold ranked
        rw [hcs, List.getElem?_map]
        cases s3.sol.cands[i]? with
        | none => exact (mulVec_zero _).symm
        | some c => exact (hRx c.x).symm
      obtain ⟨e1, e2⟩ := sep_turned (a := a) he2 hu hu' rfl rfl hsep htp hsep htp h0 hrun.run h0' hrun'.run (htr'.trans htr.symm) ha hev htl
        ha' hev' htl' (by
          unfold stateOf turned
          rw [hRx, hRx, hRx, hrot.sigma, funext hrot.mean, funext hrot.psigma, funext hrot.pc]) hrot.sepcov hrk
      refine ⟨s3'.incIter, ht', ⟨fun i => ?_, congrArg CmaState.sigma e1, e2, fun i => ?_, fun i => ?_, hcs⟩, ?_, ?_, ?_⟩
      · exact (congrFun (congrArg CmaState.m e1) i).trans (axisMap_mulVec a e _ i)
      · exact (congrFun (congrArg CmaState.ps e1) i).trans (axisMap_mulVec a e _ i)
      · exact (congrFun (congrArg CmaState.pc e1) i).trans (axisMap_mulVec a e _ i)
      · rw [c4, c4', hnz', hl1, hl2]
      · rw [c5, c5', hcl, hl1, hl2]
      · rw [c3, c3', hng]
  intro g s hs
  obtain ⟨s', h1, h2, -⟩ := key g s hs
  exact ⟨s', h1, h2⟩

/-- The rotation by 45 degrees in the plane of the first two coordinates. -/
noncomputable def eighth : Mat 4 :=
  !![Real.sqrt (1 / 2), -Real.sqrt (1 / 2), 0, 0; Real.sqrt (1 / 2), Real.sqrt (1 / 2), 0, 0; 0, 0, 1, 0; 0, 0, 0, 1]

theorem eighth_rotation : Rotation eighth := by
  have h : Real.sqrt (1 / 2) * Real.sqrt (1 / 2) = 1 / 2 := Real.mul_self_sqrt (by norm_num)
  unfold Rotation eighth
  ext i j
  fin_cases i <;> fin_cases j <;> simp [Matrix.mul_apply, Fin.sum_univ_four] <;> norm_num at h ⊢ <;> linarith

/-- **C100** fails for the diagonal model: in dimension 4 with two candidates, for any NaN-free objective and two equal first
draws along the first axis, the distribution after one generation, turned by 45 degrees, is one no state of the diagonal
model has; the search of the turned objective hence differs from the turned search whatever its draws. -/
theorem C100_sep_false (env : Env 4) (h0 : env.z 0 = ![1, 0, 0, 0]) (h1 : env.z 1 = ![1, 0, 0, 0])
    (hf : ∀ k y, (env.f k y).IsNum) (x0 : Vec 4) (sigma : ℝ) (seed clock : ℕ) :
    ∃ (p : Params 4) (s s' : Strat 4) (R : Mat 4), Params.make x0 sigma 2 seed clock GenoPheno.plain = .ok p ∧
      Strat.new env .plain p.setSep = .ok s ∧ s.generation env = .ok s' ∧ Rotation R ∧
      ∀ d : Vec 4, diagonal d ≠ R * diagonal s'.sol.sepcov * Rᵀ := by
  obtain ⟨p, s, s', h, hp, hs, hg, hfr, -, hss, hms, hpaths, hstep⟩ := sep_equal_draws env _ h0 h1 hf x0 sigma seed clock
  obtain ⟨-, c2, c3, -⟩ := make_two_sep hp
  have hcm : (0 : ℝ) < (constsOf p.setSep).cmu := by
    show (0 : ℝ) < p.setSep.cmu
    rw [make_two_sep_cmu hp]; norm_num
  have hc1 : (0 : ℝ) ≤ (constsOf p.setSep).c1 := by
    have hfl := Params.make_flags hp
    have hconf : Configured p.setSep := .sep (.make hp) hfl.1 hfl.2
    exact hconf.good.1.rates.c1_pos.le
  have hpc1 : (stateOf s'.sol).pc 1 = 0 := by
    rw [hpaths.pc, hms]
    show (1 - _) * s.sol.pc 1 + _ * (![1, 0, 0, 0] : Vec 4) 1 = 0
    rw [hfr.pc]; simp
  have e0 := hstep 0
  have e1 := hstep 1
  have hmu : (constsOf p.setSep).mu = 1 := c2
  have hw : (constsOf p.setSep).w 0 = 1 := c3
  rw [hmu, sum_range_one, hw, hss, hfr.sepcov] at e0 e1
  rw [hpc1] at e1
  simp only [Matrix.cons_val_zero, Matrix.cons_val_one] at e0 e1
  have hlt : s'.sol.sepcov 1 < s'.sol.sepcov 0 := by
    rw [e0, e1]
    nlinarith [mul_nonneg hc1 (sq_nonneg ((stateOf s'.sol).pc 0))]
  refine ⟨p, s, s', eighth, hp, hs, hg, eighth_rotation, fun d hd => ?_⟩
  have h01 := congrFun (congrFun hd 0) 1
  have hq : Real.sqrt (1 / 2) * Real.sqrt (1 / 2) = 1 / 2 := Real.mul_self_sqrt (by norm_num)
  rw [diagonal_apply_ne _ (by decide)] at h01
  have : (eighth * diagonal s'.sol.sepcov * eighthᵀ) 0 1 =
      Real.sqrt (1 / 2) * Real.sqrt (1 / 2) * (s'.sol.sepcov 0 - s'.sol.sepcov 1) := by
    rw [Matrix.mul_apply, Fin.sum_univ_four]
    simp only [mul_diagonal, transpose_apply]
    simp [eighth]
    ring
  rw [this, hq] at h01
  linarith

/-- The hypotheses of C100 are met: default parameters, any dimension, any NaN-free objective, started one away from the
origin along all axes, any number of generations; and in dimension 4 there is a rotation that is not the identity. -/
example (hn : 1 ≤ n) (env : Env n) (hf : ∀ k y, (env.f k y).IsNum) (R : Mat n) (hR : R.mulVec (fun _ => 1) ≠ fun _ => -dblMax)
    (kind : CovKind) (hk : kind ≠ .vd) (g : ℕ) : ∃ (p : Params n) (s0 s : Strat n), Usual kind p ∧ NoExtras p ∧
      p.gp = GenoPheno.plain ∧ p.sep = false ∧ p.lazyUpdate = false ∧ p.tpa < 2 ∧ p.x0min = p.x0max ∧
      p.x0min ≠ (fun _ => -dblMax) ∧ R.mulVec p.x0min ≠ (fun _ => -dblMax) ∧ Strat.new env kind p = .ok s0 ∧
      s0.generations env g = .ok s := by
  obtain ⟨p, s0, hp, h0, hk'⟩ := C67_default hn env kind (fun _ => 1) 1 0 0 hk hf
  obtain ⟨hu, hgp, hfx, hsg, hx1, hx2⟩ := usual_default (by norm_num) hp hk
  obtain ⟨u1, u2, u3, u4, u5, u6, u7, u8, u9, u10, u11, u12, u13, u14⟩ := Params.make_plain hp
  obtain ⟨s, hs⟩ := hk' g
  have hd : (0 : ℝ) < dblMax := by have := dblMax_ge; linarith
  refine ⟨p, s0, s, hu, ⟨u5, u4, u6, hfx⟩, hgp, (Params.make_flags hp).1, ?_, ?_, by rw [hx1, hx2], ?_, by rw [hx1]; exact hR, h0, hs⟩
  · unfold Params.make at hp
    obtain ⟨l, -, h⟩ := Out.bind_eq_ok.1 hp
    obtain ⟨mu, w, muw, cs, cc, c1, cm, ds, fs, fc, ch, lv, rl, al, e⟩ := initializeParameters_frame h
    rw [e]; rfl
  · unfold Params.make at hp
    obtain ⟨l, -, h⟩ := Out.bind_eq_ok.1 hp
    obtain ⟨mu, w, muw, cs, cc, c1, cm, ds, fs, fc, ch, lv, rl, al, e⟩ := initializeParameters_frame h
    rw [e]; show 1 < 2; norm_num
  · rw [hx1]
    intro h
    have h1 : (1 : ℝ) = -dblMax := congrFun h ⟨0, hn⟩
    linarith

/-- The hypotheses of `C100_axes` are met: default parameters with `set_sep`, any dimension, started at the origin, any
numbering and orientation of the axes. -/
example (hn : 1 ≤ n) (a : Equiv.Perm (Fin n)) (e : Fin n → ℝ) (env : Env n) (hf : ∀ k y, (env.f k y).IsNum) (g : ℕ) :
    ∃ (p : Params n) (s0 s : Strat n), Usual .plain p ∧ NoExtras p ∧ p.gp = GenoPheno.plain ∧ p.sep = true ∧ p.tpa < 2 ∧
      p.x0min = p.x0max ∧ p.x0min ≠ (fun _ => -dblMax) ∧ (fun i => e i * p.x0min (a i)) ≠ (fun _ => -dblMax) ∧
      Strat.new env .plain p = .ok s0 ∧ s0.generations env g = .ok s := by
  obtain ⟨p, -, hp, -, -⟩ := C67_default hn env .plain (fun _ => 0) 1 0 0 (by decide) hf
  obtain ⟨hu, -, s0, s, h0, hs⟩ := C55_sep_witness env .plain (fun _ => 0) 1 0 0 p (by decide) hf hp g
  obtain ⟨u1, u2, u3, u4, u5, u6, u7, u8, u9, u10, u11, u12, u13, u14⟩ := Params.make_plain hp
  have hd : (0 : ℝ) < dblMax := by have := dblMax_ge; linarith
  refine ⟨p.setSep, s0, s, hu, ⟨u5, u4, u6, u11⟩, u10, rfl, ?_, u12.trans u13.symm, ?_, ?_, h0, hs⟩
  · unfold Params.make at hp
    obtain ⟨l, -, h⟩ := Out.bind_eq_ok.1 hp
    obtain ⟨mu, w, muw, cs, cc, c1, cm, ds, fs, fc, ch, lv, rl, al, e⟩ := initializeParameters_frame h
    rw [e]; show 1 < 2; norm_num
  · show p.x0min ≠ _
    rw [u12]
    intro h
    have h1 : (0 : ℝ) = -dblMax := congrFun h ⟨0, hn⟩
    linarith
  · show (fun i => e i * p.x0min (a i)) ≠ _
    rw [u12]
    intro h
    have h1 : e ⟨0, hn⟩ * 0 = -dblMax := congrFun h ⟨0, hn⟩
    linarith

example : Rotation eighth ∧ eighth ≠ 1 := by
  refine ⟨eighth_rotation, fun h => ?_⟩
  have := congrFun (congrFun h 1) 0
  simp [eighth] at this

end Libcmaes
