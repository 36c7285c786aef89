import Verif.Lemmas.Neutral
import Verif.Spec.Luck
import Verif.Props.Solutions

/-!
# The chance of a normal sample
-/

namespace Libcmaes

open Spec Matrix MeasureTheory ProbabilityTheory WithLp Measure

variable {n : ℕ} {Ω : Type*} [MeasurableSpace Ω] {P : Measure Ω}

theorem stdGaussian_openPos : IsOpenPosMeasure (stdGaussian (EuclideanSpace ℝ (Fin n))) := by
  have h1 : IsOpenPosMeasure (gaussianReal 0 1) :=
    (gaussianReal_absolutelyContinuous' 0 one_ne_zero).isOpenPosMeasure
  rw [← map_pi_eq_stdGaussian]
  exact (PiLp.continuous_toLp 2 _).isOpenPosMeasure_map (WithLp.toLp_surjective 2)

open scoped MatrixOrder in
theorem gaussian_openPos {S : Mat n} (hS : S.PosSemidef) (hd : S.det ≠ 0) (m : Vec n) :
    IsOpenPosMeasure (multivariateGaussian (toLp 2 m) S) := by
  have := stdGaussian_openPos (n := n)
  unfold multivariateGaussian
  refine Continuous.isOpenPosMeasure_map (by fun_prop) fun y => ?_
  refine ⟨toEuclideanCLM (𝕜 := ℝ) (CFC.sqrt S * S⁻¹) (y - toLp 2 m), ?_⟩
  have e : CFC.sqrt S * (CFC.sqrt S * S⁻¹) = 1 := by
    rw [← Matrix.mul_assoc, CFC.sqrt_mul_sqrt_self S hS.nonneg, Matrix.mul_nonsing_inv _ (isUnit_iff_ne_zero.2 hd)]
  rw [← mul_apply_eq_comp, ← map_mul, e, map_one]
  simp

theorem chance_pos {S : Mat n} (hS : S.PosSemidef) (hd : S.det ≠ 0) (m : Vec n) {A : Set (Vec n)}
    (hA : (interior A).Nonempty) : 0 < chance m S A := by
  have := gaussian_openPos hS hd m
  unfold chance
  refine measure_pos_of_nonempty_interior _ ?_
  obtain ⟨a, ha⟩ := hA
  refine ⟨toLp 2 a, ?_⟩
  have : ofLp ⁻¹' interior A ⊆ interior {x : EuclideanSpace ℝ (Fin n) | ofLp x ∈ A} :=
    interior_maximal (fun x (hx : ofLp x ∈ interior A) => show ofLp x ∈ A from interior_subset hx) (isOpen_interior.preimage (PiLp.continuous_ofLp 2 _))
  exact this ha

theorem chance_le_one (m : Vec n) (S : Mat n) (A : Set (Vec n)) : chance m S A ≤ 1 := prob_le_one

theorem chance_compl {m : Vec n} {S : Mat n} {A : Set (Vec n)} (hA : MeasurableSet A) :
    chance m S Aᶜ = 1 - chance m S A := by
  unfold chance
  have hm : MeasurableSet {x : EuclideanSpace ℝ (Fin n) | ofLp x ∈ A} := (PiLp.continuous_ofLp 2 _).measurable hA
  rw [← prob_compl_eq_one_sub hm]
  rfl

/-- One candidate of the sample. -/
theorem sampled_chance {p : Params n} {m : Vec n} {sigma : ℝ} {C : Mat n} {pop : Ω → List (Vec n)}
    (h : Sampled P p m sigma C pop) (hf : p.fixedP = []) {j : ℕ} (hj : j < p.lambda) {A : Set (Vec n)}
    (hA : MeasurableSet A) :
    NullMeasurableSet {ω | (pop ω).getD j 0 ∈ A} P ∧ P {ω | (pop ω).getD j 0 ∈ A} = chance m (sigma ^ 2 • C) A := by
  have hn := h.normal j hj n id (by intro a v hv; rw [hf] at hv; cases hv)
  have hm : MeasurableSet {x : EuclideanSpace ℝ (Fin n) | ofLp x ∈ A} := (PiLp.continuous_ofLp 2 _).measurable hA
  have e : {ω | (pop ω).getD j 0 ∈ A} = (fun ω => toLp 2 fun a => (pop ω).getD j 0 (id a)) ⁻¹'
      {x : EuclideanSpace ℝ (Fin n) | ofLp x ∈ A} := rfl
  refine ⟨?_, ?_⟩
  · rw [e]; exact hn.2.aemeasurable.nullMeasurableSet_preimage hm
  · rw [e, ← Measure.map_apply_of_aemeasurable hn.2.aemeasurable hm, hn.2.map_eq]
    rfl

/-- The sample as a whole. -/
theorem sampled_hit {p : Params n} {m : Vec n} {sigma : ℝ} {C : Mat n} {pop : Ω → List (Vec n)}
    (h : Sampled P p m sigma C pop) (hf : p.fixedP = []) {A : Set (Vec n)} (hA : MeasurableSet A) :
    P {ω | ∃ x ∈ pop ω, x ∈ A} = 1 - (1 - chance m (sigma ^ 2 • C) A) ^ p.lambda := by
  have hP : IsProbabilityMeasure P := h.indep.isProbabilityMeasure
  have e : {ω | ∃ x ∈ pop ω, x ∈ A} = (⋂ j ∈ (Finset.univ : Finset (Fin p.lambda)),
      (fun ω => (pop ω).getD j 0) ⁻¹' Aᶜ)ᶜ := by
    ext ω
    simp only [Set.mem_ofPred_eq, Finset.mem_univ, Set.iInter_true, Set.mem_compl_iff, Set.mem_iInter,
      Set.mem_preimage, not_forall, not_not]
    constructor
    · rintro ⟨x, hx, hxA⟩
      obtain ⟨i, hi, rfl⟩ := List.mem_iff_getElem.1 hx
      refine ⟨⟨i, by rw [← h.size ω]; exact hi⟩, ?_⟩
      rw [List.getD, List.getElem?_eq_getElem hi, Option.getD_some]; exact hxA
    · rintro ⟨j, hj⟩
      have hl : j.val < (pop ω).length := by rw [h.size ω]; exact j.2
      rw [List.getD, List.getElem?_eq_getElem hl, Option.getD_some] at hj
      exact ⟨_, List.getElem_mem hl, hj⟩
  have hnull : NullMeasurableSet (⋂ j ∈ (Finset.univ : Finset (Fin p.lambda)),
      (fun ω => (pop ω).getD j 0) ⁻¹' Aᶜ) P :=
    Finset.nullMeasurableSet_biInter _ fun j _ => (sampled_chance h hf j.2 hA.compl).1
  rw [e, prob_compl_eq_one_sub₀ hnull, h.indep.measure_inter_preimage_eq_mul _ (fun j _ => hA.compl)]
  congr 1
  rw [Finset.prod_congr rfl fun (j : Fin p.lambda) _ =>
    show P ((fun ω => (pop ω).getD j.val 0) ⁻¹' Aᶜ) = 1 - chance m (sigma ^ 2 • C) A by
      rw [← chance_compl hA]; exact (sampled_chance h hf j.2 hA.compl).2]
  simp

/-- Before the first turn there is no best candidate. -/
theorem askRun_unseen {env : Env n} {s s' : Strat n} {tr : List (List (Cand n))} (h : AskRun env s tr s')
    (h0 : s.sol.bestSeen = none ∧ s.sol.niter = 0) (ht : tr = []) : s'.sol.bestSeen = none ∧ s'.sol.niter = 0 := by
  have key := h.induct (past := []) (I := fun t past => past = [] → t.sol.bestSeen = none ∧ t.sol.niter = 0) ?_ ?_
    fun _ => h0
  · exact key (by rw [ht]; rfl)
  · intro t past b t' hi hh hp
    obtain ⟨k, r, e⟩ := Strat.stop_frame hh
    subst e; exact hi hp
  · intro t past pop t1 cols phen t2 t3 hi ha hh hh' hp
    simp at hp

/-- The candidates of a generation on an objective that is a function of the point. -/
theorem generation_values {env : Env n} {s s' : Strat n} {pop : List (Vec n)} {s1 : Strat n} {g : Vec n → FVal}
    (hN : NeutralSet s) (hneg : s.negate = s.p.maximize) (hdet : ∀ k y, env.f k y = g y)
    (ha : s.ask env = .ok (pop, s1)) (h : s.generation env = .ok s') :
    ∃ phen s2 s3, s1.eval env pop phen = .ok s2 ∧ s2.tell env = .ok s3 ∧ s' = s3.incIter ∧ s2.p = s.p ∧
      s2.sol.cands.length = pop.length ∧ ∀ r, r < pop.length → ∃ x y, pop[r]? = some x ∧ phenoV s.p.gp x = .ok y ∧
        s2.sol.cands[r]? = some ⟨if s.p.maximize then (g y).neg else g y, x, r⟩ := by
  obtain ⟨pop', s1', phen, s2, s3, ha', hp, he, ht, rfl⟩ := generation_parts h
  rw [ha] at ha'
  injection ha' with ha'
  injection ha' with e1 e2
  subst e1 e2
  have hel := hN.elit
  obtain ⟨⟨es, ei, ue, cc, nz, x1, x2, p1, p2, es1⟩, hpl⟩ := Strat.ask_frame ha
  obtain ⟨hb1, hb2⟩ := Strat.eval_bounds he
  obtain ⟨s3', h3, e3⟩ := Strat.eval_ok (by rw [es1]; exact hN.uh) he
  have h3' : s3' = s1.evaluated env pop phen := by
    unfold Strat.reinject at h3
    rw [if_neg (by
      rw [show (s1.evaluated env pop phen).elitismOn = s.elitismOn by rw [es1]; rfl, hel]; simp)] at h3
    injection h3 with h3; exact h3.symm
  unfold Strat.phenoCols at hp
  rw [Out.mapM_eq_ok] at hp
  have egp : s1.p.gp = s.p.gp := by rw [es1]
  have e4 : s2.sol.cands = (s1.evaluated env pop phen).sol.cands := by rw [e3, h3']; rfl
  refine ⟨phen, s2, s3, he, ht, rfl, by rw [e3, h3', es1]; rfl, ?_, ?_⟩
  · rw [e4, Strat.evaluated_length, es1, hpl]
    exact hN.cands
  · intro r hr
    have hr' : r < phen.length := by rw [← hp.length_eq]; exact hr
    refine ⟨pop[r], phen[r], List.getElem?_eq_getElem hr, ?_, ?_⟩
    · rw [← egp]
      exact (List.forall₂_iff_get.1 hp).2 r hr hr'
    · rw [e4, Strat.evaluated_cands hb1, if_pos hr, hdet]
      have ey : colY pop phen r = phen[r] := by
        unfold colY colX
        rw [if_neg (by rw [List.isEmpty_iff]; rintro rfl; simp at hr'), List.getD, List.getElem?_eq_getElem hr',
          Option.getD_some]
      have ex : colX pop r = pop[r] := by
        unfold colX
        rw [List.getD, List.getElem?_eq_getElem hr, Option.getD_some]
      rw [ey, ex, show s1.negate = s.p.maximize by rw [es1]; exact hneg]
      rfl

/-- The best value after a generation is below `c` if one of the candidates is. -/
theorem generation_best {env : Env n} {s s' : Strat n} {pop : List (Vec n)} {s1 : Strat n} {g : Vec n → FVal} {c : FVal}
    (hN : NeutralSet s) (hneg : s.negate = s.p.maximize) (h0 : s.sol.bestSeen = none → s.sol.niter = 0)
    (hb : ∀ b, s.sol.bestSeen = some b → b.fvalue.IsNum ∧ ¬ FVal.lt b.fvalue c) (hdet : ∀ k y, env.f k y = g y)
    (hnum : ∀ y, (g y).IsNum) (ha : s.ask env = .ok (pop, s1)) (h : s.generation env = .ok s') :
    (∃ b, s'.sol.bestSeen = some b ∧ FVal.lt b.fvalue c) ↔ ∃ x ∈ pop, x ∈ better s.p g c := by
  obtain ⟨phen, s2, s3, he, ht, rfl, -, hlen, hval⟩ := generation_values hN hneg hdet ha h
  have hmem : ∀ d, d ∈ s2.sol.cands ↔ ∃ x ∈ pop, ∃ (y : Vec n) (r : ℕ), phenoV s.p.gp x = .ok y ∧
      d = ⟨if s.p.maximize then (g y).neg else g y, x, r⟩ ∧ s2.sol.cands[r]? = some d := by
    intro d
    constructor
    · intro hd
      obtain ⟨r, hr, rfl⟩ := List.mem_iff_getElem.1 hd
      obtain ⟨x, y, q1, q2, q3⟩ := hval r (by omega)
      refine ⟨x, List.mem_of_getElem? q1, y, r, q2, ?_, List.getElem?_eq_getElem hr⟩
      rw [List.getElem?_eq_getElem hr] at q3
      exact Option.some.inj q3
    · rintro ⟨x, _, y, r, _, _, hd⟩
      exact List.mem_of_getElem? hd
  have hnumc : ∀ d ∈ s2.sol.cands, d.fvalue.IsNum := by
    intro d hd
    obtain ⟨x, _, y, r, _, rfl, _⟩ := (hmem d).1 hd
    show FVal.IsNum (if s.p.maximize then (g y).neg else g y)
    have := hnum y
    split_ifs
    · revert this; cases g y <;> simp [FVal.IsNum, FVal.neg]
    · exact this
  have hrun : Run env s [s2.sol.cands] s3.incIter := .ask ha (.turn he ht (.refl _))
  obtain ⟨b, hb', pre, post, hl, hpre, hpost⟩ := C22_best_seen env s s3.incIter _ hN.uh h0 (by simp) (by
    intro d hd
    rw [List.flatten_singleton] at hd
    rcases List.mem_append.1 hd with h | h
    · exact (hb d (by simpa using h)).1
    · exact hnumc d h) hrun
  rw [List.flatten_singleton] at hl
  rw [hb']
  have hbnum : b.fvalue.IsNum := by
    have : b ∈ s.sol.bestSeen.toList ++ s2.sol.cands := by rw [hl]; simp
    rcases List.mem_append.1 this with h | h
    · exact (hb b (by simpa using h)).1
    · exact hnumc b h
  constructor
  · rintro ⟨b', e, hlt⟩
    injection e with e
    subst e
    have : b ∈ s.sol.bestSeen.toList ++ s2.sol.cands := by rw [hl]; simp
    rcases List.mem_append.1 this with h | h
    · exact absurd hlt (hb b (by simpa using h)).2
    · obtain ⟨x, hx, y, r, hy, rfl, _⟩ := (hmem b).1 h
      exact ⟨x, hx, y, hy, hlt⟩
  · rintro ⟨x, hx, y, hy, hlt⟩
    refine ⟨b, rfl, ?_⟩
    obtain ⟨r, hr, rfl⟩ := List.mem_iff_getElem.1 hx
    obtain ⟨x', y', q1, q2, q3⟩ := hval r hr
    rw [List.getElem?_eq_getElem hr] at q1
    injection q1 with q1
    subst q1
    rw [hy] at q2
    injection q2 with q2
    subst q2
    set d : Cand n := ⟨if s.p.maximize then (g y).neg else g y, pop[r], r⟩ with hd
    have hdm : d ∈ s.sol.bestSeen.toList ++ s2.sol.cands := List.mem_append_right _ (List.mem_of_getElem? q3)
    have hnlt : ¬ FVal.lt d.fvalue b.fvalue := by
      rw [hl] at hdm
      rcases List.mem_append.1 hdm with h | h
      · exact FVal.lt_asymm (hpre d h)
      · rcases List.mem_cons.1 h with h | h
        · rw [h]; exact FVal.lt_irrefl _
        · exact hpost d h
    have hlt' : FVal.lt d.fvalue c := hlt
    by_contra hcon
    exact FVal.not_lt_trans hbnum hcon hnlt hlt'

/-- The covariance matrix of a reachable state is regular. -/
theorem searchCov_regular {env : Env n} {kind : CovKind} {p : Params n} {s0 s : Strat n} {tr : List (List (Cand n))}
    (hu : Usual kind p) (hl : p.sep = true ∨ p.lazyUpdate = false) (h0 : Strat.new env kind p = .ok s0)
    (h : AskRun env s0 tr s) : (s.sol.sigma ^ 2 • searchCov p s.sol).det ≠ 0 := by
  have hsig := C28_sigma_pos_from_start env kind p s0 s tr hu.configured h0 h.run
  obtain ⟨_, _, hk, hp, _, hf, _⟩ := Strat.new_ok h0
  rw [det_smul]
  refine mul_ne_zero (pow_ne_zero _ (pow_ne_zero _ hsig.ne')) ?_
  unfold searchCov
  split_ifs with hsep
  · rw [det_diagonal]
    refine Finset.prod_ne_zero_iff.2 fun i _ => (C29_sep_pos env s0 s tr (by rw [hk]; exact hu.update) ?_ ?_ ?_ ?_ h.run i).ne'
    · rw [hp]; exact hu.configured.with_sigmaInit _
    · rw [hp]; exact ⟨hu.strict.1, hu.strict.2⟩
    · rw [hp]; exact hsep
    · intro i; rw [hf.sepcov]; exact one_pos
  · have hsep' : p.sep = false := by simpa using hsep
    have hlz : p.lazyUpdate = false := by simpa [hsep] using hl
    have hPD : PD s.sol.cov := by
      rcases kind with _ | _ | _
      · exact (C26_cov_from_start env p s0 s tr hu.configured h0 h.run).2 hu.strict.lt_one
      · exact C27_active_pd_from_start env p s0 s tr hu.configured hu.strict hsep' hu.vd hlz h0 h
      · exact absurd rfl hu.update
    intro hd
    obtain ⟨v, hv, hm⟩ := exists_mulVec_eq_zero_iff.2 hd
    have := hPD.pos v hv
    unfold quad at this
    rw [hm, dotProduct_zero] at this
    exact lt_irrefl _ this

/-- The trace of a number of generations on an objective without NaN values. -/
theorem generations_noNaN {env : Env n} {s : Strat n} (hL : Live s) (hr : RefNum s) (hf : ∀ k y, (env.f k y).IsNum)
    (hg : ∀ x : Vec n, ∃ y : Vec n, phenoV s.p.gp x = .ok y) (k : ℕ) :
    ∃ tr s', s.generations env k = .ok s' ∧ AskRun env s tr s' ∧ tr.length = k ∧ NoNaN tr.flatten ∧ Live s' ∧ RefNum s' ∧
      s'.p = s.p := by
  induction k generalizing s with
  | zero => exact ⟨[], s, rfl, .refl _, rfl, by simp [NoNaN], hL, hr, rfl⟩
  | succ k ih =>
    rcases generation_total_num hL hf hr with ⟨t, g1, g2, g3⟩ | ⟨x, e, h1, _⟩
    · obtain ⟨pop, s1, phen, s2, s3, b1, b2, b3, b4, rfl⟩ := generation_parts g1
      obtain ⟨⟨es, ei, ue, c, nz, x1, x2, p1, p2, e1⟩, hpl⟩ := Strat.ask_frame b1
      have hnn : NoNaN s2.sol.cands := eval_noNaN (by rw [e1]; exact hL.uh) (by rw [hpl, e1]; exact hL.cands.le) hf
        (by rw [e1]; exact hr) b3
      have hp : s3.incIter.p = s.p := (run_p (AskRun.turn b1 b3 b4 (.refl _)).run).1
      obtain ⟨tr, s', i1, i2, i3, i4, i5, i6, i7⟩ := ih g2 g3 (by rw [hp]; exact hg)
      refine ⟨s2.sol.cands :: tr, s', ?_, .turn b1 b3 b4 i2, by simp [i3], ?_, i5, i6, by rw [i7, hp]⟩
      · unfold Strat.generations
        rw [g1, Out.ok_bind]
        exact i1
      · intro c hc
        rw [List.flatten_cons] at hc
        rcases List.mem_append.1 hc with hc | hc
        · exact hnn c hc
        · exact i4 c hc
    · obtain ⟨y, hy⟩ := hg x
      rw [hy] at h1
      cases h1

end Libcmaes
