import Verif.Lemmas.Rotation
import Verif.Props.Published
import Verif.Lemmas.RestartRun

/-!
# A generation of a rotated search
-/

namespace Libcmaes

open Spec Matrix Finset

variable {n : ℕ} {R : Mat n}

theorem colY_self (pop : List (Vec n)) (r : ℕ) : colY pop pop r = colX pop r := by
  unfold colY
  split_ifs <;> rfl

/-- The value of candidate `r` of a generation whose points are `X`. -/
noncomputable def valueAt (env : Env n) (s : Strat n) (X : ℕ → Vec n) (r : ℕ) : FVal :=
  negIf s.negate (env.f (s.calls.length + (s.order env s.p.lambda).idxOf r) (X r))

/-- The population after a generation: the points of `ask()` in the order of their values. -/
theorem generation_cands {env : Env n} {s s1 s2 s3 : Strat n} {pop phen : List (Vec n)}
    (hc : s.sol.cands.length = s.p.lambda) (huh : s.p.uh = false) (hel : s.elitismOn = false)
    (hg : s.p.withGradient = false) (ht : s.p.tpa ≠ 2 ∨ s.niter = 0) (hgp : s.p.gp = GenoPheno.plain)
    (ha : s.ask env = .ok (pop, s1)) (hph : s1.phenoCols pop = .ok phen) (he : s1.eval env pop phen = .ok s2)
    (htl : s2.tell env = .ok s3) :
    s3.sol.cands = (orderBy (valueAt env s (colX pop)) s.p.lambda).map fun r =>
      (⟨valueAt env s (colX pop) r, colX pop r, r⟩ : Cand n) := by
  obtain ⟨t, pop1, h1, h2, _⟩ := ask_plain hg ht ha
  obtain ⟨es, ei, ue, e1⟩ := Strat.askPrepare_frame h1
  obtain ⟨e2, _⟩ := Strat.askSample_frame h2
  have hpl := (Strat.ask_frame ha).2
  have es1 : s1 = { s with es := es, nz := s.nz + s.p.lambda, sol := { s.sol with eigeniter := ei, updatedEigen := ue } } := by
    rw [e2, e1]
  have hpp : phen = pop := Except.ok.inj (hph.symm.trans (phenoCols_plain (by rw [es1]; exact hgp) pop))
  subst hpp
  obtain ⟨hb1, hb2⟩ := Strat.eval_bounds he
  obtain ⟨s3', h3, e3⟩ := Strat.eval_ok (by rw [es1]; exact huh) he
  have hel1 : (s1.evaluated env phen phen).elitismOn = false := by rw [es1]; exact hel
  have h3' : s3' = s1.evaluated env phen phen := by
    unfold Strat.reinject at h3
    rw [if_neg (by rw [hel1]; simp)] at h3
    injection h3 with h3; exact h3.symm
  have hcs : s2.sol.cands = (List.range s.p.lambda).map fun r =>
      (⟨valueAt env s (colX phen) r, colX phen r, r⟩ : Cand n) := by
    have e4 : s2.sol.cands = (s1.evaluated env phen phen).sol.cands := by rw [e3, h3']; rfl
    rw [e4]
    apply List.ext_getElem?
    intro r
    rw [Strat.evaluated_cands hb1, List.getElem?_map, hpl]
    by_cases hr : r < s.p.lambda
    · rw [if_pos hr, List.getElem?_range hr]
      simp only [Option.map_some, Option.some.injEq, Cand.mk.injEq, and_true]
      unfold valueAt
      rw [es1, colY_self]
      rfl
    · rw [if_neg hr, List.getElem?_eq_none (by rw [es1]; show s.sol.cands.length ≤ r; omega), List.getElem?_eq_none (by simp; omega)]
      rfl
  obtain ⟨sol3, sol4, _, hc3, hsort, _, _⟩ := Strat.tell_step htl
  have hsort := hsort (by
    obtain ⟨_, _, _, _, _, _, e, _⟩ := Strat.eval_frame he
    rw [e, es1]; exact huh)
  rw [hcs] at hsort
  rw [← hc3]
  exact stableSort_orderBy hsort

open Classical in
theorem orderBy_congr {v w : ℕ → FVal} {l : ℕ} (h : ∀ r < l, v r = w r) : orderBy v l = orderBy w l := by
  unfold orderBy
  have := List.map_mergeSort (f := id) (l := List.range l) (r := fun a b => decide (¬ FVal.lt (v b) (v a)))
    (s := fun a b => decide (¬ FVal.lt (w b) (w a))) (fun a ha b hb => by
      simp only [id]
      rw [h a (List.mem_range.1 ha), h b (List.mem_range.1 hb)])
  simpa using this

theorem new_nz {env : Env n} {kind : CovKind} {p : Params n} {s : Strat n} (h : Strat.new env kind p = .ok s) : s.nz = 0 := by
  unfold Strat.new at h
  obtain ⟨_, _, h⟩ := Out.bind_eq_ok.1 h
  rw [← Except.ok.inj h]

theorem new_cands {env : Env n} {kind : CovKind} {p : Params n} {s : Strat n} (h : Strat.new env kind p = .ok s) :
    s.sol.cands = List.replicate p.lambda Cand.blank := by
  obtain ⟨hn, hl, _⟩ := Strat.new_ok h
  unfold Strat.new Sol.make at h
  obtain ⟨⟨q, sol⟩, h1, h⟩ := Out.bind_eq_ok.1 h
  obtain ⟨_, _, h1⟩ := Out.bind_eq_ok.1 h1
  rw [if_neg (by rintro (h | h); exacts [hl h, hn h])] at h1
  rw [← Except.ok.inj h]
  have := congrArg (fun r => r.2.cands) (Except.ok.inj h1)
  exact this.symm

/-- A given starting point is taken as it is. -/
theorem start_mean {p : Params n} {rnd m : Vec n} (hfx : p.fixedP = []) (hgp : p.gp = GenoPheno.plain) (hx : p.x0min = p.x0max)
    (hm : p.x0min ≠ fun _ => -dblMax) (h : initialMean p rnd = .ok m) : m = p.x0min := by
  unfold initialMean at h
  rw [if_pos hx, if_neg hm, hfx, hgp] at h
  exact (Except.ok.inj h).symm

theorem pd_unit {C : Mat n} (h : PD C) : IsUnit C.det := by
  rw [isUnit_iff_ne_zero]
  intro h0
  obtain ⟨v, hv, hz⟩ := exists_mulVec_eq_zero_iff.2 h0
  have := h.pos v hv
  unfold quad at this
  rw [hz, dotProduct_zero] at this
  exact lt_irrefl _ this

theorem root_unit {A C : Mat n} (h : PD C) (hA : A * Aᵀ = C) : IsUnit A.det := by
  have := pd_unit h
  rw [← hA, det_mul] at this
  exact isUnit_of_mul_isUnit_left this

/-- The turn of the draws that corresponds to the rotation of the space. -/
theorem drawTurn (hR : Rotation R) {A A' C : Mat n} (hC : PD C) (hA : A * Aᵀ = C) (hA' : A' * A'ᵀ = R * C * Rᵀ) :
    Rotation (A'⁻¹ * R * A) ∧ A' * (A'⁻¹ * R * A) = R * A := by
  have hu := root_unit (rotated_pd hR hC) hA'
  have h1 := mul_nonsing_inv A' hu
  have h2 := nonsing_inv_mul A' hu
  have h3 : A'ᵀ * (A'⁻¹)ᵀ = 1 := by rw [← transpose_mul, h2, transpose_one]
  constructor
  · unfold Rotation
    rw [transpose_mul, transpose_mul]
    calc A'⁻¹ * R * A * (Aᵀ * (Rᵀ * (A'⁻¹)ᵀ)) = A'⁻¹ * (R * (A * Aᵀ) * Rᵀ) * (A'⁻¹)ᵀ := by simp only [Matrix.mul_assoc]
      _ = (A'⁻¹ * A') * (A'ᵀ * (A'⁻¹)ᵀ) := by rw [hA, ← hA']; simp only [Matrix.mul_assoc]
      _ = 1 := by rw [h2, h3, Matrix.mul_one]
  · rw [← Matrix.mul_assoc, ← Matrix.mul_assoc, h1, Matrix.one_mul]

/-- The covariance of the runs considered is positive definite. -/
theorem run_pd {env : Env n} {kind : CovKind} {p : Params n} {s0 s : Strat n} {tr : List (List (Cand n))} (hu : Usual kind p)
    (hsep : p.sep = false) (hlz : p.lazyUpdate = false) (h0 : Strat.new env kind p = .ok s0) (h : AskRun env s0 tr s) :
    PD s.sol.cov := by
  rcases kind with _ | _ | _
  · exact (C26_cov_from_start env p s0 s tr hu.configured h0 h.run).2 hu.strict.lt_one
  · exact C27_active_pd_from_start env p s0 s tr hu.configured hu.strict hsep hu.vd hlz h0 h
  · exact absurd rfl hu.update

/-- The published equations for both updates, in one statement. -/
theorem run_turned (hR : Rotation R) {env env' : Env n} {kind : CovKind} {p p' : Params n} {s0 s s1 s2 s3 s0' s' s1' s2' s3' : Strat n}
    {tr tr' : List (List (Cand n))} {pop phen pop' phen' : List (Vec n)} (hu : Usual kind p) (hu' : Usual kind p')
    (hcc : constsOf p' = constsOf p) (hsep : p.sep = false) (hlz : p.lazyUpdate = false) (ht : p.tpa < 2)
    (hsep' : p'.sep = false) (hlz' : p'.lazyUpdate = false) (ht' : p'.tpa < 2)
    (h0 : Strat.new env kind p = .ok s0) (h : AskRun env s0 tr s) (h0' : Strat.new env' kind p' = .ok s0') (h' : AskRun env' s0' tr' s')
    (htr : tr'.length = tr.length)
    (ha : s.ask env = .ok (pop, s1)) (he : s1.eval env pop phen = .ok s2) (htl : s2.tell env = .ok s3)
    (ha' : s'.ask env' = .ok (pop', s1')) (he' : s1'.eval env' pop' phen' = .ok s2') (htl' : s2'.tell env' = .ok s3')
    (hst : stateOf s'.sol = turned R (stateOf s.sol)) (hcov : s'.sol.cov = R * s.sol.cov * Rᵀ)
    (hx : ranked s3'.sol.cands = fun i => R.mulVec (ranked s3.sol.cands i)) :
    stateOf s3'.sol = turned R (stateOf s3.sol) ∧ s3'.sol.cov = R * s3.sol.cov * Rᵀ := by
  have hz : ∀ {B B' : Mat n}, IsInvSqrt s.sol.cov B → IsInvSqrt s'.sol.cov B' →
      B'.mulVec (meanStep (constsOf p') (stateOf s'.sol) (ranked s3'.sol.cands)) =
        R.mulVec (B.mulVec (meanStep (constsOf p) (stateOf s.sol) (ranked s3.sol.cands))) := by
    intro B B' hB hB'
    rw [hcov] at hB'
    rw [isInvSqrt_unique hB' (rotated_invSqrt hR hB), hcc, hst, hx, meanStep_turned, ← mulVec_mulVec, ← mulVec_mulVec, hR.back]
  rcases kind with _ | _ | _
  · obtain ⟨B, b, hB, hP, hC⟩ := C68_default env p s0 s s1 s2 s3 tr pop pop phen hu.configured hsep hu.vd hlz hu.uh ht h0 h ha he htl
    obtain ⟨B', b', hB', hP', hC'⟩ := C68_default env' p' s0' s' s1' s2' s3' tr' pop' pop' phen' hu'.configured hsep' hu'.vd hlz' hu'.uh ht'
      h0' h' ha' he' htl'
    rw [hz hB hB', hcc, hst, hx, htr] at hP'
    obtain ⟨e1, e2⟩ := cmaPaths_turned hR hP hP'
    refine ⟨e1, ?_⟩
    rw [hcc, hst, hx, e1, e2, hcov] at hC'
    exact covStep_turned hC hC'
  · obtain ⟨B, b, hB, hP, hC⟩ := C69_active env p s0 s s1 s2 s3 tr pop pop phen hu.configured hu.strict hsep hu.vd hlz hu.uh ht h0 h ha he htl
    obtain ⟨B', b', hB', hP', hC'⟩ := C69_active env' p' s0' s' s1' s2' s3' tr' pop' pop' phen' hu'.configured hu'.strict hsep' hu'.vd hlz'
      hu'.uh ht' h0' h' ha' he' htl'
    rw [hz hB hB', hcc, hst, hx, htr] at hP'
    obtain ⟨e1, e2⟩ := cmaPaths_turned hR hP hP'
    refine ⟨e1, ?_⟩
    rw [hcc, hst, hx, e1, hcov] at hC'
    exact activeStep_turned hR hC hC'
  · exact absurd rfl hu.update

theorem axisMap_mulVec (a : Equiv.Perm (Fin n)) (e : Fin n → ℝ) (x : Vec n) (i : Fin n) :
    (axisMap a e).mulVec x i = e i * x (a i) := by
  unfold mulVec dotProduct axisMap
  simp

theorem axisMap_rotation (a : Equiv.Perm (Fin n)) {e : Fin n → ℝ} (he : ∀ i, e i ^ 2 = 1) : Rotation (axisMap a e) := by
  unfold Rotation
  ext i j
  rw [Matrix.mul_apply]
  show ∑ k, (if k = a i then e i else 0) * (if k = a j then e j else 0) = _
  simp only [ite_mul, zero_mul, sum_ite_eq', mem_univ, if_true]
  by_cases h : i = j
  · subst h
    rw [if_pos rfl, ← pow_two, he, one_apply_eq]
  · rw [if_neg (fun h' => h (a.injective h')), one_apply_ne h, mul_zero]

/-- One generation of the diagonal model. -/
theorem sep_turned {a : Equiv.Perm (Fin n)} {e : Fin n → ℝ} (he : ∀ i, e i ^ 2 = 1) {env env' : Env n} {p p' : Params n}
    {s0 s s1 s2 s3 s0' s' s1' s2' s3' : Strat n} {tr tr' : List (List (Cand n))} {pop phen pop' phen' : List (Vec n)}
    (hu : Usual .plain p) (hu' : Usual .plain p') (hcc : constsOf p' = constsOf p) (hff : p'.factPc = p.factPc)
    (hsep : p.sep = true) (ht : p.tpa < 2) (hsep' : p'.sep = true) (ht' : p'.tpa < 2)
    (h0 : Strat.new env .plain p = .ok s0) (h : Run env s0 tr s) (h0' : Strat.new env' .plain p' = .ok s0') (h' : Run env' s0' tr' s')
    (htr : tr'.length = tr.length)
    (ha : s.ask env = .ok (pop, s1)) (hev : s1.eval env pop phen = .ok s2) (htl : s2.tell env = .ok s3)
    (ha' : s'.ask env' = .ok (pop', s1')) (hev' : s1'.eval env' pop' phen' = .ok s2') (htl' : s2'.tell env' = .ok s3')
    (hst : stateOf s'.sol = turned (axisMap a e) (stateOf s.sol)) (hcov : ∀ i, s'.sol.sepcov i = s.sol.sepcov (a i))
    (hx : ranked s3'.sol.cands = fun i => (axisMap a e).mulVec (ranked s3.sol.cands i)) :
    stateOf s3'.sol = turned (axisMap a e) (stateOf s3.sol) ∧ ∀ i, s3'.sol.sepcov i = s3.sol.sepcov (a i) := by
  obtain ⟨b, _, hP, hC⟩ := C70_sep_partial env p s0 s s1 s2 s3 tr pop pop phen hu.configured hsep hu.uh ht h0 h ha hev htl
  obtain ⟨b', _, hP', hC'⟩ := C70_sep_partial env' p' s0' s' s1' s2' s3' tr' pop' pop' phen' hu'.configured hsep' hu'.uh ht'
    h0' h' ha' hev' htl'
  have hz : (fun i => meanStep (constsOf p') (stateOf s'.sol) (ranked s3'.sol.cands) i / Real.sqrt (s'.sol.sepcov i)) =
      (axisMap a e).mulVec fun i => meanStep (constsOf p) (stateOf s.sol) (ranked s3.sol.cands) i / Real.sqrt (s.sol.sepcov i) := by
    funext i
    rw [hcc, hst, hx, meanStep_turned, axisMap_mulVec, axisMap_mulVec, hcov, mul_div_assoc]
  rw [hz, hcc, hff, hst, hx, htr] at hP'
  obtain ⟨e1, e2⟩ := cmaPaths_turned (axisMap_rotation a he) hP hP'
  refine ⟨e1, fun i => ?_⟩
  rw [hcc, hst, hx, e1, e2] at hC'
  rw [hC' i, hC (a i), hcov i]
  congr 1
  · congr 1
    show _ * (axisMap a e).mulVec _ i ^ 2 = _
    rw [axisMap_mulVec, mul_pow, he, one_mul]
  · congr 1
    refine sum_congr rfl fun j _ => ?_
    rw [selStep_turned, axisMap_mulVec, mul_pow, he, one_mul]

end Libcmaes
