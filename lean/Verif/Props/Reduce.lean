import Verif.Lemmas.Reduce
import Verif.Props.Resume
import Mathlib.Analysis.Complex.ExponentialBounds

/-!
# C102: removing a coordinate from a search

`Sol.resetAsFixed` and `Params.resetAsFixed` are `reset_as_fixed` of `CMASolutions` and of `CMAParameters`: the search is to
go on in the other coordinates.  For the coordinate `k`, the coordinate number `i` of what is left is `k.succAbove i`.
-/

namespace Libcmaes

open Spec Matrix Finset MeasureTheory ProbabilityTheory

variable {n : ℕ}

/-- **C102**, the solution, full covariance.  After a run with usual settings that made a generation, removing a coordinate
succeeds.  The distribution the solution holds is the one it held, as far as the other coordinates go: if a random
vector has the old one, then the vector of its other coordinates has the new one, and the covariance matrix is positive
definite.  The candidates keep order and values, and the other coordinates; counters and histories are empty. -/
theorem C102_solution_partial (env : Env (n + 1)) (kind : CovKind) (p : Params (n + 1)) (s s1 : Strat (n + 1)) (fuel : ℕ)
    (k : Fin (n + 1)) (hu : UsualRun kind p) (hk : UniqueKeys p) (hv : ValObjective env p)
    (hg : ∀ x : Vec (n + 1), ∃ y : Vec (n + 1), phenoV p.gp x = .ok y)
    (hs : ∀ x : Vec (n + 1), ∃ y : Vec (n + 1), scaleToInternalV p.gp x = .ok y)
    (he : p.withEdm = false) (hr : p.initialElitistOnRestart = false) (ha : CritActive p 7)
    (hsep : p.sep = false) (h0 : Strat.new env kind p = .ok s) (h1 : s.optimize env fuel = .ok (some s1))
    (hi : s1.niter ≠ 0) :
    ∃ r, s1.sol.resetAsFixed k = .ok r ∧ PD r.sol.cov ∧
      (∀ (Ω : Type) (_ : MeasurableSpace Ω) (P : Measure Ω) (X : Ω → Vec (n + 1)),
        IsNormal P X s1.sol.xmean (s1.sol.sigma ^ 2 • s1.sol.cov) →
        IsNormal P (fun ω i => X ω (k.succAbove i)) r.sol.xmean (r.sol.sigma ^ 2 • r.sol.cov)) ∧
      r.sol.cands.length = p.lambda ∧
      (∀ (j : ℕ) (c : Cand (n + 1)), s1.sol.cands[j]? = some c →
        ∃ d, r.sol.cands[j]? = some d ∧ d.fvalue = c.fvalue ∧ d.id = c.id ∧ ∀ i, d.x i = c.x (k.succAbove i)) ∧
      (∀ i j, r.sol.csqinv i j = s1.sol.csqinv (k.succAbove i) (k.succAbove j)) ∧
      (∀ i, r.sol.psigma i = s1.sol.psigma (k.succAbove i)) ∧ (∀ i, r.sol.pc i = s1.sol.pc (k.succAbove i)) ∧
      r.sol.niter = 0 ∧ r.sol.nevals = 0 ∧ r.sol.bestHist = [] ∧ r.sol.kBestHist = [] ∧ r.sol.bfvalues = [] ∧
      r.sol.medianFvalues = [] ∧ r.sol.runStatus = 0 := by
  have hp := (begins_new h0).params
  have hR := runReady_new hu.good h0 hk he hr ha hg hs
  have hvs : ValObjective env s.p := by rw [hp]; exact hv
  obtain ⟨hL1, hR1⟩ := hR.end_live hvs h1
  have hp1 : s1.p = s.p := (hR.done hvs h1).2.2.2.2.2
  have hsep1 : s1.p.sep = false := by rw [hp1, hp]; exact hsep
  obtain ⟨a1, a2, a3⟩ := hL1.full hsep1
  have a4 := (hR1.eig hi).1
  refine ⟨_, by unfold Sol.resetAsFixed; rw [if_neg (by rw [a1, (a3 hi).1, a4]; simp)], PD_dropMat k a2, ?_, ?_, ?_,
    fun i j => rfl, fun i => rfl, fun i => rfl, rfl, rfl, rfl, rfl, rfl, rfl, rfl⟩
  · intro Ω _ P X hX
    exact hX.marginal k.succAbove
  · show (s1.sol.cands.map _).length = _
    rw [List.length_map, hL1.cands, hp1, hp]
  · intro j c hc
    refine ⟨c.drop k, ?_, rfl, rfl, fun i => rfl⟩
    show (s1.sol.cands.map _)[j]? = _
    rw [List.getElem?_map, hc]; rfl

/-- **C102**, starting afresh with the reduced parameters, without fixed parameters and scaling: the search starts where the
search with the original parameters would, as far as the other coordinates go: at the starting point, or within the range of
starting points. -/
theorem C102_fresh (env' : Env n) (kind : CovKind) (p : Params (n + 1)) (k : Fin (n + 1)) (s : Strat n) (hf : p.fixedP = [])
    (hsc : p.gp.scale = .noScaling) (hfar : ∃ i, p.x0min (k.succAbove i) ≠ -dblMax)
    (h : Strat.new env' kind (p.resetAsFixed k).1 = .ok s) :
    (p.x0min = p.x0max → ∀ i, s.sol.xmean i = p.x0min (k.succAbove i)) ∧
      ∀ i, p.x0min (k.succAbove i) ≤ p.x0max (k.succAbove i) →
        p.x0min (k.succAbove i) ≤ s.sol.xmean i ∧ s.sol.xmean i ≤ p.x0max (k.succAbove i) := by
  obtain ⟨_, _, _, _, _, _, _, _, _, _, _, _, _, _, _, _, _, _, hm, _⟩ := Strat.new_ok h
  unfold initialMean at hm
  obtain ⟨m1, h1, hm⟩ := Out.bind_eq_ok.1 hm
  have hf' : (p.resetAsFixed k).1.fixedP = [] := hf
  have hsc' : (p.resetAsFixed k).1.gp.scale = .noScaling := hsc
  rw [hf'] at h1
  injection h1 with h1
  unfold scaleToInternalV at hm
  rw [hsc'] at hm
  injection hm with hm
  rw [← hm, ← h1]
  have hne : ¬ (p.resetAsFixed k).1.x0min = fun _ => -dblMax := by
    intro e
    obtain ⟨i, hi⟩ := hfar
    exact hi (congrFun e i)
  have e1 : ∀ i, (p.resetAsFixed k).1.x0min i = p.x0min (k.succAbove i) := fun _ => rfl
  have e2 : ∀ i, (p.resetAsFixed k).1.x0max i = p.x0max (k.succAbove i) := fun _ => rfl
  constructor
  · intro he i
    have : (p.resetAsFixed k).1.x0min = (p.resetAsFixed k).1.x0max := by funext j; rw [e1, e2, he]
    rw [if_pos this, if_neg hne]
    exact e1 i
  · intro i hi
    split_ifs with a
    · rw [e1]; exact ⟨le_rfl, hi⟩
    · show _ ≤ 0.5 * (env'.rnd 0 i + 1) * ((p.resetAsFixed k).1.x0max i - (p.resetAsFixed k).1.x0min i) +
        (p.resetAsFixed k).1.x0min i ∧ 0.5 * (env'.rnd 0 i + 1) * ((p.resetAsFixed k).1.x0max i -
        (p.resetAsFixed k).1.x0min i) + (p.resetAsFixed k).1.x0min i ≤ _
      rw [e1, e2]
      obtain ⟨r1, r2⟩ := env'.rnd_mem 0 i
      constructor <;> nlinarith

/-- A range of starting points, in three dimensions, the second coordinate removed: the new search starts in the rest of it. -/
example (env' : Env 2) (p : Params 3) (s : Strat 2) (hf : p.fixedP = []) (hsc : p.gp.scale = .noScaling)
    (h1 : p.x0min = ![0, 1, 2]) (h2 : p.x0max = ![1, 5, 4]) (h : Strat.new env' .plain (p.resetAsFixed 1).1 = .ok s) :
    0 ≤ s.sol.xmean 0 ∧ s.sol.xmean 0 ≤ 1 ∧ 2 ≤ s.sol.xmean 1 ∧ s.sol.xmean 1 ≤ 4 := by
  have e0 : Fin.succAbove (1 : Fin 3) (0 : Fin 2) = 0 := rfl
  have e1 : Fin.succAbove (1 : Fin 3) (1 : Fin 2) = 2 := rfl
  have hd : (0 : ℝ) < dblMax := by unfold dblMax; norm_num
  obtain ⟨-, hr⟩ := C102_fresh env' .plain p 1 s hf hsc ⟨0, by rw [e0, h1]; simp; linarith⟩ h
  have h3 := hr 0 (by rw [e0, h1, h2]; simp)
  have h4 := hr 1 (by rw [e1, h1, h2]; simp; norm_num)
  rw [e0, h1, h2] at h3
  rw [e1, h1, h2] at h4
  simp at h3 h4
  exact ⟨h3.1, h3.2, h4.1, h4.2⟩

/-- **C102**, going on, when the number of the coordinate is not below `mu`, without bounds for the removed coordinate
(`hg'`: the transform of the parameters takes points of the lower dimension), fixed parameters and elitism: parameters and
solution reduced, the search from this solution ends within the automatic limit on iterations, whatever the objective.  Its
first candidates are drawn around the rest of the mean. -/
theorem C102_search_partial (env : Env (n + 1)) (env' : Env n) (kind : CovKind) (p : Params (n + 1))
    (s s1 : Strat (n + 1)) (fuel : ℕ) (k : Fin (n + 1)) (hn : 1 ≤ n) (hu : UsualRun kind p) (hk : UniqueKeys p)
    (hv : ValObjective env p) (hg : ∀ x : Vec (n + 1), ∃ y : Vec (n + 1), phenoV p.gp x = .ok y)
    (hs : ∀ x : Vec (n + 1), ∃ y : Vec (n + 1), scaleToInternalV p.gp x = .ok y)
    (he : p.withEdm = false) (hr : p.initialElitistOnRestart = false) (ha : CritActive p 7)
    (hsep : p.sep = false) (h0 : Strat.new env kind p = .ok s) (h1 : s.optimize env fuel = .ok (some s1))
    (hi : s1.niter ≠ 0) (hf : p.fixedP = []) (_hel : p.elitist = false) (_hie : p.initialElitist = false)
    (hsg : 0 < p.sigmaInit) (hmu : p.mu ≤ k.val) (hv' : ∀ k y, Val (env'.f k y))
    (hg' : ∀ x : Vec n, ∃ y : Vec n, phenoV p.gp x = .ok y) :
    ∃ r q st t, s1.sol.resetAsFixed k = .ok r ∧ p.resetAsFixed k = (q, q.mu) ∧
      st = Strat.newFromSolution kind q r.sol ∧ st.generationW q.mu env' = st.generation env' ∧
      (∀ fuel', ⌈autoLimit q⌉₊ + 1 ≤ fuel' → st.optimize env' fuel' = .ok (some t)) ∧ t.niter ≤ ⌈autoLimit q⌉₊ ∧
      ∃ A : Mat n, A * Aᵀ = 1 ∧ ∃ pop st1, st.ask env' = .ok (pop, st1) ∧ ∀ j < p.lambda, ∃ x, pop[j]? = some x ∧
        ∀ i, x i = s1.sol.xmean (k.succAbove i) + s1.sol.sigma * A.mulVec (env'.z j) i := by
  have hp := (begins_new h0).params
  have hR := runReady_new hu.good h0 hk he hr ha hg hs
  have hvs : ValObjective env s.p := by rw [hp]; exact hv
  obtain ⟨hL1, hR1⟩ := hR.end_live hvs h1
  have hp1 : s1.p = s.p := (hR.done hvs h1).2.2.2.2.2
  have hsep1 : s1.p.sep = false := by rw [hp1, hp]; exact hsep
  obtain ⟨a1, a2, a3⟩ := hL1.full hsep1
  have a4 := (hR1.eig hi).1
  have hl1 : p.lambda = s1.p.lambda := by rw [hp1, hp]
  obtain ⟨r, hr1⟩ : ∃ r, s1.sol.resetAsFixed k = .ok r := by
    unfold Sol.resetAsFixed; rw [if_neg (by rw [a1, (a3 hi).1, a4]; simp)]; exact ⟨_, rfl⟩
  have hr2 := hr1
  unfold Sol.resetAsFixed at hr2
  rw [if_neg (by rw [a1, (a3 hi).1, a4]; simp)] at hr2
  injection hr2 with hr2
  obtain ⟨w1, w2⟩ := resetAsFixed_weights hmu
  set q := (p.resetAsFixed k).1 with hq
  have hgq : GoodRun kind q := resetAsFixed_good hn hu.good hf hmu
  have hS : ResumeSol q r.sol := by
    have hS1 := resumeSol hL1 hR1 hi hsep1 hl1
    rw [← hr2]
    refine ⟨hS1.csq, hS1.sigma, hS1.tpaPos, ?_, hS1.kcand, ?_, ?_, hS1.maxHist⟩
    · show (s1.sol.cands.map _).length = _
      rw [List.length_map]; exact hS1.cands
    · intro c hc
      obtain ⟨d, hd, e⟩ := Option.map_eq_some_iff.1 hc
      rw [← e]; exact hS1.bestSeen d hd
    · intro c hc
      obtain ⟨d, hd, e⟩ := Option.map_eq_some_iff.1 hc
      rw [← e]; exact hS1.initialCand d hd
  obtain ⟨t, t1, t2, t3, -⟩ := resume_run (env := env') hS hgq hsep hsg hv' hg' he hr
  refine ⟨r, q, _, t, hr1, Prod.ext rfl w1, rfl, generationW_eq, t1, t2, ?_⟩
  obtain ⟨A, hA, hAs⟩ := C19_full env'.eig (1 : Mat n) PD_one.psd
  set st := Strat.newFromSolution kind q r.sol with hst
  have hA1 : AskLive st := ⟨hgq.good.fixed_lt, hu.vd, hu.grad,
    fun _ => ⟨hS.csq, fun h => absurd rfl h⟩, fun h => absurd (hsep.symm.trans h) (by decide), fun h => absurd h hu.tpa⟩
  obtain ⟨pop, st1, hask, -⟩ := Strat.ask_total (env := env') hA1
  refine ⟨A, hA, pop, st1, hask, fun j hj => ?_⟩
  obtain ⟨x, hx, hx'⟩ := hAs env' st st1 pop rfl rfl hsep hu.vd hu.grad (Or.inr rfl) (Or.inr rfl) hask j hj
  refine ⟨x, hx, fun i => ?_⟩
  have := hx' i (by
    intro v hv
    have : (i.val, v) ∈ p.fixedP := hv
    rw [hf] at this; cases this)
  rw [show st.nz + j = j from Nat.zero_add j] at this
  rw [this, hst, ← hr2]
  rfl

/-- **C102** fails for the coordinates whose number is below `mu`: the vector of recombination weights loses an entry too, and
the first `tell` of the reduced search reads past its end.  Default settings in any dimension, and any coordinate
below `mu` (`0` and `1` among them), whatever the objective, starting afresh with the reduced parameters. -/
theorem C102_weights_false (env' : Env n) (kind : CovKind) (x0 : Vec (n + 1)) (sigma : ℝ) (seed clock : ℕ)
    (p : Params (n + 1)) (k : Fin (n + 1)) (hn : 1 ≤ n) (hkd : kind ≠ .vd)
    (hp : Params.make x0 sigma (-1) seed clock GenoPheno.plain = .ok p) (hk : k.val < p.mu) :
    2 ≤ p.mu ∧ ∃ q nw s, p.resetAsFixed k = (q, nw) ∧ nw < q.mu ∧ Strat.new env' kind q = .ok s ∧
      s.generationW nw env' = .error .ub := by
  obtain ⟨u1, u2, u3, u4, u5, u6, u7, u8, u9, u10, u11, u12, u13, u14⟩ := Params.make_plain hp
  obtain ⟨f1, f2⟩ := Params.make_flags hp
  obtain ⟨hu, -⟩ := usual_default (kind := kind) (by norm_num) hp hkd
  have hg := hu.configured.good.1
  have hlam : 4 ≤ p.lambda := by
    have hp' := hp
    unfold Params.make at hp'
    obtain ⟨l, hl, hp'⟩ := Out.bind_eq_ok.1 hp'
    rw [(initializeParameters_spec hp').lambda]
    unfold lambdaOf at hl
    rw [if_pos (by norm_num), if_neg (by omega)] at hl
    injection hl with hl
    show 4 ≤ l
    rw [← hl]
    have h0 : 0 ≤ ⌊3 * Real.log ((n + 1 : ℕ) : ℝ)⌋ := Int.floor_nonneg.2 (by
      have := Real.log_nonneg (x := ((n + 1 : ℕ) : ℝ)) (by push_cast; linarith [Nat.cast_nonneg (α := ℝ) n])
      linarith)
    omega
  have hmu : 2 ≤ p.mu := by rw [hg.mu]; omega
  set q := (p.resetAsFixed k).1 with hq
  have hnw : (p.resetAsFixed k).2 = p.mu - 1 := if_pos hk
  obtain ⟨s, hs⟩ : ∃ s, Strat.new env' kind q = .ok s := by
    unfold Strat.new Sol.make
    have hm : ∃ m, initialMean q (env'.rnd 0) = .ok m := by
      unfold initialMean
      have e1 : q.fixedP = [] := u11
      have e2 : q.gp = GenoPheno.plain := u10
      rw [e1, e2]
      exact ⟨_, rfl⟩
    obtain ⟨m, hm⟩ := hm
    rw [hm, Out.ok_bind, if_neg (by
      have : q.lambda = p.lambda := rfl
      rw [this]; omega)]
    exact ⟨_, rfl⟩
  refine ⟨hmu, q, p.mu - 1, s, Prod.ext rfl hnw, by show p.mu - 1 < p.mu; omega, hs, ?_⟩
  have hB := begins_new hs
  have hsp : s.p = _ := hB.params
  have hsol := hs
  unfold Strat.new at hsol
  obtain ⟨⟨p', sol⟩, hmk, hsol⟩ := Out.bind_eq_ok.1 hsol
  injection hsol with hsol
  obtain ⟨-, -, -, hF, -, -, -, -, -, ec, -⟩ := Sol.make_eq_ok hmk
  have hcov : s.sol.hasCov = true := by
    rw [← hsol]; show sol.hasCov = true
    rw [ec, show q.sep = false from f1, show q.vd = false from f2]; rfl
  have hcl : s.sol.cands.length = q.lambda := by
    rw [← hsol]; show sol.cands.length = _
    exact hF.cands
  have hni : s.niter = 0 := by rw [← hsol]
  refine generationW_ub ?_ ?_ ?_ ?_ ?_ ?_ ?_
  · refine ⟨?_, ?_, ?_, fun _ => ⟨hcov, fun h => absurd hni h⟩, fun h => ?_, fun h => ?_⟩
    · rw [hsp]; show ∀ r ∈ p.fixedP, _
      rw [u11]; intro r hr; cases hr
    · rw [hsp]; exact f2
    · rw [hsp]; exact u2
    · rw [hsp] at h; exact absurd (f1.symm.trans h) (by decide)
    · rw [hsp] at h; exact absurd h u3
  · rw [hsp]; show 2 ≤ p.lambda; omega
  · rw [hsp]; exact u1
  · rw [hsp]; exact hcl
  · unfold Strat.elitismOn; rw [hni]; simp
  · rw [hsp]; show ∀ x : Vec n, ∃ y : Vec n, phenoV p.gp x = .ok y
    rw [u10]; exact fun x => ⟨x, phenoV_plain x⟩
  · rw [hsp]; show p.mu - 1 < p.mu; omega

/-- **C102** fails as to the constants of the search: they stay those of the old dimension.  The expected length of a
standard normal vector, to which the evolution path is compared for adapting the step size, is above that of the
parameters which any call of the constructor gives for the new dimension, whichever coordinate is removed. -/
theorem C102_rates_false (x0 : Vec (n + 1)) (x0' : Vec n) (sigma sigma' : ℝ) (lambda lambda' : ℤ)
    (seed clock seed' clock' : ℕ) (gp gp' : GenoPheno) (p : Params (n + 1)) (q : Params n) (k : Fin (n + 1))
    (hp : Params.make x0 sigma lambda seed clock gp = .ok p)
    (hq : Params.make x0' sigma' lambda' seed' clock' gp' = .ok q) : q.chi < (p.resetAsFixed k).1.chi := by
  unfold Params.make at hp hq
  obtain ⟨l, -, hp⟩ := Out.bind_eq_ok.1 hp
  obtain ⟨l', -, hq⟩ := Out.bind_eq_ok.1 hq
  show q.chi < p.chi
  rw [(initializeParameters_rest hp).chi, (initializeParameters_rest hq).chi]
  push_cast
  exact chiOf_lt (initializeParameters_spec hq).n_real

/-- **C102** fails with bounds: those of the removed coordinate stay, and each later coordinate is held within the bounds of
the one before it.  Where these are below its own, every point proposed to the objective violates the bounds the user set. -/
theorem C102_bounds_false (lb ub : Vec (n + 1)) (p : Params (n + 1)) (k : Fin (n + 1)) (x y : Vec n)
    (hlt : ∀ i, lb i < ub i) (hgp : p.gp = GenoPheno.ofBounds none (List.ofFn lb) (List.ofFn ub))
    (h : phenoV (p.resetAsFixed k).1.gp x = .ok y) :
    (∀ i, lb i.castSucc ≤ y i ∧ y i ≤ ub i.castSucc) ∧
      ∀ i : Fin n, k ≤ i.castSucc → ub i.castSucc < lb i.succ → y i < lb (k.succAbove i) := by
  have h1 : ∀ i, lb i.castSucc ≤ y i ∧ y i ≤ ub i.castSucc := by
    have e : (p.resetAsFixed k).1.gp = GenoPheno.ofBounds none (List.ofFn lb) (List.ofFn ub) := hgp
    rw [e] at h
    unfold phenoV at h
    obtain ⟨l, h2, h3⟩ := Out.bind_eq_ok.1 h
    rw [toVec_eq_ok] at h3
    subst h3
    have h2' : (Pwq.ofBounds (List.ofFn lb) (List.ofFn ub)).toF (List.ofFn x) = .ok (List.ofFn y) := h2
    intro i
    exact toF_short hlt h2' i (y i) (by simp)
  refine ⟨h1, fun i hi hd => ?_⟩
  rw [Fin.succAbove_of_le_castSucc _ _ hi]
  exact lt_of_le_of_lt (h1 i).2 hd

/-- Bounds as in `C102_bounds_false`, in three dimensions; the second coordinate is removed. -/
example : ∃ (lb ub : Vec 3) (x y : Vec 2), (∀ i, lb i < ub i) ∧
    phenoV (GenoPheno.ofBounds none (List.ofFn lb) (List.ofFn ub)) x = .ok y ∧ (1 : Fin 3) ≤ (1 : Fin 2).castSucc ∧
    ub (1 : Fin 2).castSucc < lb (1 : Fin 2).succ := by
  refine ⟨![0, 5, 10], ![1, 6, 11], ![0.5, 5.5], ![0.5, 5.5], ?_, ?_, by decide, ?_⟩
  · intro i; fin_cases i <;> norm_num
  · unfold phenoV
    have : (GenoPheno.ofBounds none (List.ofFn ![(0 : ℝ), 5, 10]) (List.ofFn ![(1 : ℝ), 6, 11])).pheno
        (List.ofFn ![(0.5 : ℝ), 5.5]) = .ok (List.ofFn ![(0.5 : ℝ), 5.5]) := by
      show (Pwq.ofBounds (List.ofFn ![(0 : ℝ), 5, 10]) (List.ofFn ![(1 : ℝ), 6, 11])).toF (List.ofFn ![(0.5 : ℝ), 5.5]) = _
      unfold Pwq.toF
      rw [Out.mapM_eq_ok, forall₂_zipIdx (R := fun a i b =>
        ((Pwq.ofBounds (List.ofFn ![(0 : ℝ), 5, 10]) (List.ofFn ![(1 : ℝ), 6, 11])).coord i >>= fun c => c.toF a) = .ok b)]
      refine ⟨rfl, fun i a b ha hb => ?_⟩
      have hlt : i < 2 := by
        have := List.getElem?_eq_some_iff.1 ha
        simpa using this.1
      interval_cases i
      · simp only [List.ofFn_succ, List.ofFn_zero] at ha hb
        simp at ha hb
        subst ha; subst hb
        rw [Pwq.ofBounds, coord_ofBounds5 (l := 0) (u := 1) (by simp) (by simp), Out.ok_bind]
        unfold PwqCoord.toF PwqCoord.shift PwqCoord.fold PwqCoord.mk'
        norm_num
      · simp only [List.ofFn_succ, List.ofFn_zero] at ha hb
        simp at ha hb
        subst ha; subst hb
        rw [Pwq.ofBounds, coord_ofBounds5 (l := 5) (u := 6) (by simp) (by simp), Out.ok_bind]
        unfold PwqCoord.toF PwqCoord.shift PwqCoord.fold PwqCoord.mk'
        norm_num [abs_of_pos]
    rw [this, Out.ok_bind, toVec_eq_ok]
  · show (6 : ℝ) < 10
    norm_num

/-- **C102** fails as to eigenvalues and eigenvectors.  Let them be those of a matrix `C`, the covariance matrix of the last
sampling.  An eigenvalue does not belong to a coordinate; unless the eigenvalue number `k` is the variance of coordinate
`k`, the eigenvalues left are not those of `C` without the coordinate. -/
theorem C102_spectrum_false (k : Fin (n + 1)) (s : Sol (n + 1)) (r : ResetSol n) (C : Mat (n + 1))
    (h : s.resetAsFixed k = .ok r) (hB : s.leigenvectors * s.leigenvectorsᵀ = 1)
    (hd : s.leigenvectors * diagonal s.leigenvalues * s.leigenvectorsᵀ = C) (hne : s.leigenvalues k ≠ C k k) (B : Mat n)
    (hB' : B * Bᵀ = 1) : B * diagonal r.sol.leigenvalues * Bᵀ ≠ C.submatrix k.succAbove k.succAbove := by
  intro he
  have hl : r.sol.leigenvalues = dropVec k s.leigenvalues := by
    unfold Sol.resetAsFixed at h
    split_ifs at h
    injection h with h
    rw [← h]
  have tr : ∀ {m : ℕ} (A : Mat m) (d : Vec m), A * Aᵀ = 1 → (A * diagonal d * Aᵀ).trace = ∑ i, d i := by
    intro m A d hA
    rw [trace_mul_comm, ← Matrix.mul_assoc, mul_eq_one_comm.1 hA, Matrix.one_mul, trace_diagonal]
  have e1 := tr s.leigenvectors s.leigenvalues hB
  have e2 := tr B r.sol.leigenvalues hB'
  rw [hd] at e1
  rw [he, hl] at e2
  unfold Matrix.trace at e1 e2
  rw [Fin.sum_univ_succAbove _ k, Fin.sum_univ_succAbove (fun i => s.leigenvalues i) k] at e1
  have e3 : ∑ i, (C.submatrix k.succAbove k.succAbove).diag i = ∑ i, C.diag (k.succAbove i) := rfl
  have e4 : ∑ i, dropVec k s.leigenvalues i = ∑ i, s.leigenvalues (k.succAbove i) := rfl
  rw [e3, e4] at e2
  rw [e2] at e1
  exact hne (add_right_cancel e1).symm

/-- The matrix `!![41, 12; 12, 34]`, with eigenvalues 25 and 50. -/
example : (!![3/5, 4/5; -4/5, 3/5] : Mat 2) * (!![3/5, 4/5; -4/5, 3/5] : Mat 2)ᵀ = 1 ∧
    (!![3/5, 4/5; -4/5, 3/5] : Mat 2) * diagonal ![25, 50] * (!![3/5, 4/5; -4/5, 3/5] : Mat 2)ᵀ = !![41, 12; 12, 34] ∧
    (![25, 50] : Vec 2) 0 ≠ (!![41, 12; 12, 34] : Mat 2) 0 0 := by
  refine ⟨?_, ?_, by norm_num⟩ <;> ext i j <;> fin_cases i <;> fin_cases j <;>
    simp [Matrix.mul_apply, Fin.sum_univ_two, vecMul_diagonal] <;> norm_num

/-- **C102** fails for a search with diagonal covariance, and before the first generation: the full matrices are empty, and
removing a row of them is undefined. -/
theorem C102_empty_false (env : Env (n + 1)) (kind : CovKind) (p : Params (n + 1)) (s s1 : Strat (n + 1)) (m : ℕ)
    (k : Fin (n + 1)) (h0 : Strat.new env kind p = .ok s) (h1 : s.generations env m = .ok s1) (hm : p.sep = true ∨ m = 0) :
    s1.sol.resetAsFixed k = .error .ub := by
  have hc : s.sol.hasCsq = false := by
    have h0' := h0
    unfold Strat.new at h0'
    obtain ⟨⟨p', sol⟩, hmk, h0'⟩ := Out.bind_eq_ok.1 h0'
    injection h0' with h0'
    rw [← h0']
    exact Sol.make_hasCsq hmk
  have hc1 : s1.sol.hasCsq = false := by
    rcases hm with hm | hm
    · rw [generations_hasCsq m (by rw [(begins_new h0).params]; exact hm) h1, hc]
    · subst hm
      injection h1 with h1
      rw [← h1]; exact hc
  unfold Sol.resetAsFixed
  rw [if_pos (Or.inr (Or.inl hc1))]

/-- The hypotheses of `C102_solution_partial` and `C102_search_partial` are met by default settings from dimension 6 on, for the
last coordinate. -/
theorem C102_witness (env : Env (n + 1)) (kind : CovKind) (x0 : Vec (n + 1)) (sigma : ℝ) (seed clock : ℕ)
    (p : Params (n + 1)) (hn : 5 ≤ n) (hk : kind ≠ .vd) (hsg : 0 < sigma) (hv : ∀ k y, Val (env.f k y))
    (hpf : ∀ k q sol, env.pfunc k q sol = 0)
    (hp : Params.make x0 sigma (-1) seed clock GenoPheno.plain = .ok p) :
    UsualRun kind p ∧ UniqueKeys p ∧ ValObjective env p ∧ p.withEdm = false ∧ p.initialElitistOnRestart = false ∧
      CritActive p 7 ∧ p.sep = false ∧ (∃ s s1 fuel, Strat.new env kind p = .ok s ∧
        s.optimize env fuel = .ok (some s1) ∧ s1.niter ≠ 0) ∧ p.fixedP = [] ∧ p.elitist = false ∧
      p.initialElitist = false ∧ 0 < p.sigmaInit ∧ p.mu ≤ (Fin.last n).val ∧
      ∀ x : Vec n, ∃ y : Vec n, phenoV p.gp x = .ok y := by
  obtain ⟨u1, u2, u3, u4, u5, u6, u7, u8, u9, u10, u11, u12, u13, u14⟩ := Params.make_plain hp
  obtain ⟨w1, w2, w3, w4, w5, w6, w7, w8, -⟩ := C55_witness env kind x0 sigma seed clock p hk hsg hv hpf hp
  refine ⟨w1, w2, w3, w4, w5, w6, w7, w8, u11, u5, u4, by rw [u14]; exact hsg, ?_, by
    rw [u10]; exact fun x => ⟨x, phenoV_plain x⟩⟩
  have hg := w1.configured.good.1
  have hp' := hp
  unfold Params.make at hp'
  obtain ⟨l, hl, hp'⟩ := Out.bind_eq_ok.1 hp'
  have hlam : p.lambda = l := (initializeParameters_spec hp').lambda
  unfold lambdaOf at hl
  rw [if_pos (by norm_num), if_neg (by omega)] at hl
  injection hl with hl
  rw [hg.mu, hlam, Fin.val_last]
  have hlog : Real.log ((n + 1 : ℕ) : ℝ) ≤ (n + 1) / 4 - 1 + 2 * 0.6931471808 := by
    have h1 : ((n + 1 : ℕ) : ℝ) = ((n + 1) / 4 : ℝ) * (2 * 2) := by push_cast; ring
    have hpos : (0 : ℝ) < (n + 1) / 4 := by positivity
    rw [h1, Real.log_mul hpos.ne' (by norm_num), Real.log_mul (by norm_num) (by norm_num)]
    have := Real.log_le_sub_one_of_pos hpos
    have := Real.log_two_lt_d9
    linarith
  have hfl : (⌊3 * Real.log ((n + 1 : ℕ) : ℝ)⌋ : ℝ) ≤ 3 * Real.log ((n + 1 : ℕ) : ℝ) := Int.floor_le _
  have hn' : (5 : ℝ) ≤ n := by exact_mod_cast hn
  have : (⌊3 * Real.log ((n + 1 : ℕ) : ℝ)⌋ : ℝ) < ((2 * (n : ℤ) + 2 - 4 : ℤ) : ℝ) := by
    push_cast at hlog hfl ⊢
    linarith
  have h2 : ⌊3 * Real.log ((n + 1 : ℕ) : ℝ)⌋ < 2 * (n : ℤ) + 2 - 4 := by exact_mod_cast this
  rw [← hl]
  omega

end Libcmaes
