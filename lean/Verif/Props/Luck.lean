import Verif.Lemmas.Luck
import Verif.Props.Law
import Verif.Props.Bounds

/-!
# C106: what a generation may find

`StdDraws`, `Sampled`, `drawn`, `NoExtras`, `searchCov`: Spec/Law.lean; `chance`, `better`: Spec/Luck.lean; `Usual`:
Spec/Usual.lean; `AskRun`: Spec/Run.lean.
-/

namespace Libcmaes

open Spec Matrix MeasureTheory ProbabilityTheory WithLp

variable {n : ℕ} {Ω : Type*} [MeasurableSpace Ω] {P : Measure Ω}

/-- **C106.** At each state a run can come to: the probability that the next population has a point in `A` is
`1 - (1 - q)^lambda`, where `q` is the probability `A` has under the normal distribution the state holds. -/
theorem C106_hit {Z : ℕ → Ω → Vec n} (hZ : StdDraws P Z) (env0 env : Env n) (kind : CovKind) (p : Params n)
    (s0 s : Strat n) (tr : List (List (Cand n))) (pop : Ω → List (Vec n)) (s1 : Ω → Strat n) (hu : Usual kind p)
    (hfx : p.fixedP = []) (hl : p.sep = true ∨ p.lazyUpdate = false)
    (h0 : Strat.new env0 kind p = .ok s0) (h : AskRun env0 s0 tr s)
    (ha : ∀ ω, s.ask (drawn env Z ω) = .ok (pop ω, s1 ω)) (A : Set (Vec n)) (hA : MeasurableSet A) :
    P {ω | ∃ x ∈ pop ω, x ∈ A} =
      1 - (1 - chance s.sol.xmean (s.sol.sigma ^ 2 • searchCov p s.sol) A) ^ p.lambda :=
  sampled_hit (C95_sampled hZ env0 env kind p s0 s tr pop s1 hu (by rw [hfx]; simp) hl h0 h ha) hfx hA

/-- **C106**, no region is ever out of reach and none is ever certain: whatever happened before, each candidate of the
next population is with positive probability in `U`, if `U` has an inner point; and with positive probability
all of them miss `U`, if the complement of `U` has one. -/
theorem C106_reach {Z : ℕ → Ω → Vec n} (hZ : StdDraws P Z) (env0 env : Env n) (kind : CovKind) (p : Params n)
    (s0 s : Strat n) (tr : List (List (Cand n))) (pop : Ω → List (Vec n)) (s1 : Ω → Strat n) (hu : Usual kind p)
    (hfx : p.fixedP = []) (hl : p.sep = true ∨ p.lazyUpdate = false)
    (h0 : Strat.new env0 kind p = .ok s0) (h : AskRun env0 s0 tr s)
    (ha : ∀ ω, s.ask (drawn env Z ω) = .ok (pop ω, s1 ω)) (U : Set (Vec n)) :
    ((interior U).Nonempty → ∀ j < p.lambda, 0 < P {ω | (pop ω).getD j 0 ∈ U}) ∧
      ((interior Uᶜ).Nonempty → 0 < P {ω | ∀ x ∈ pop ω, x ∉ U}) := by
  have hS := C95_sampled hZ env0 env kind p s0 s tr pop s1 hu (by rw [hfx]; simp) hl h0 h ha
  have hlam : 0 < p.lambda := by have := hu.configured.good.1.lambda; omega
  have hpsd : (s.sol.sigma ^ 2 • searchCov p s.sol).PosSemidef := by
    have := (hS.normal 0 hlam n id (by intro a v hv; rw [hfx] at hv; cases hv)).1
    simpa using this
  have hdet := searchCov_regular hu hl h0 h
  constructor
  · intro hU j hj
    have hc := (sampled_chance hS hfx hj (A := interior U) isOpen_interior.measurableSet).2
    have hpos := chance_pos hpsd hdet s.sol.xmean (A := interior U) (by rwa [interior_interior])
    rw [← hc] at hpos
    exact lt_of_lt_of_le hpos (measure_mono fun ω (hω : (pop ω).getD j 0 ∈ interior U) =>
      show (pop ω).getD j 0 ∈ U from interior_subset hω)
  · intro hU
    have hpos := chance_pos hpsd hdet s.sol.xmean (A := interior Uᶜ) (by rwa [interior_interior])
    set A : Set (Vec n) := (interior Uᶜ)ᶜ with hA
    have hAm : MeasurableSet A := isOpen_interior.measurableSet.compl
    have hP : IsProbabilityMeasure P := hS.indep.isProbabilityMeasure
    have hhit := sampled_hit hS hfx hAm
    have hq : (1 - chance s.sol.xmean (s.sol.sigma ^ 2 • searchCov p s.sol) A) =
        chance s.sol.xmean (s.sol.sigma ^ 2 • searchCov p s.sol) (interior Uᶜ) := by
      rw [← chance_compl hAm, hA, compl_compl]
    rw [hq] at hhit
    have hsub : {ω | ∃ x ∈ pop ω, x ∈ A}ᶜ ⊆ {ω | ∀ x ∈ pop ω, x ∉ U} := by
      intro ω hω x hx hxU
      refine hω ⟨x, hx, ?_⟩
      intro hin
      exact interior_subset hin hxU
    refine lt_of_lt_of_le ?_ (measure_mono hsub)
    have hlt : P {ω | ∃ x ∈ pop ω, x ∈ A} < 1 := by
      rw [hhit]
      exact ENNReal.sub_lt_self ENNReal.one_ne_top one_ne_zero (pow_ne_zero _ hpos.ne')
    by_contra h0'
    have h0'' : P {ω | ∃ x ∈ pop ω, x ∈ A}ᶜ = 0 := by simpa using h0'
    have h1 : (1 : ENNReal) ≤ P {ω | ∃ x ∈ pop ω, x ∈ A} + P {ω | ∃ x ∈ pop ω, x ∈ A}ᶜ := by
      rw [← measure_univ (μ := P), ← Set.union_compl_self {ω | ∃ x ∈ pop ω, x ∈ A}]
      exact measure_union_le _ _
    rw [h0'', add_zero] at h1
    exact absurd hlt (not_lt.2 h1)

/-- **C106**, with bounds: each neighbourhood of each point of the box, the border included, is reached with positive
probability by each candidate of each generation. -/
theorem C106_box {Z : ℕ → Ω → Vec n} (hZ : StdDraws P Z) (env0 env : Env n) (kind : CovKind) (p : Params n)
    (s0 s : Strat n) (tr : List (List (Cand n))) (pop : Ω → List (Vec n)) (s1 : Ω → Strat n) (hu : Usual kind p)
    (hfx : p.fixedP = []) (hl : p.sep = true ∨ p.lazyUpdate = false)
    (h0 : Strat.new env0 kind p = .ok s0) (h : AskRun env0 s0 tr s)
    (ha : ∀ ω, s.ask (drawn env Z ω) = .ok (pop ω, s1 ω)) (lb ub : Vec n) (hb : ∀ i, lb i < ub i)
    (hgp : p.gp = GenoPheno.ofBounds none (List.ofFn lb) (List.ofFn ub)) (y : Vec n) (hy : ∀ i, lb i ≤ y i ∧ y i ≤ ub i)
    (eps : ℝ) (he : 0 < eps) (j : ℕ) (hj : j < p.lambda) :
    0 < P {ω | ∃ y', phenoV p.gp ((pop ω).getD j 0) = .ok y' ∧ ∀ i, |y' i - y i| < eps} := by
  refine lt_of_lt_of_le ((C106_reach hZ env0 env kind p s0 s tr pop s1 hu hfx hl h0 h ha
    {x | ∃ y', phenoV p.gp x = .ok y' ∧ ∀ i, |y' i - y i| < eps}).1 ?_ j hj) le_rfl
  set xi : Vec n := fun i => (PwqCoord.mk' (lb i) (ub i)).toInternal (y i) with hxi
  set U : Set (Vec n) := Set.univ.pi fun i => Set.Ioo (max (xi i - eps) (lb i - marginL (lb i) (ub i)))
    (min (xi i + eps) (ub i + marginU (lb i) (ub i))) with hU
  have hopen : IsOpen U := isOpen_set_pi Set.finite_univ fun i _ => isOpen_Ioo
  have hsub : U ⊆ {x | ∃ y', phenoV p.gp x = .ok y' ∧ ∀ i, |y' i - y i| < eps} := by
    intro x hx
    have hx' : ∀ i, |x i - xi i| < eps ∧ lb i - marginL (lb i) (ub i) ≤ x i ∧ x i ≤ ub i + marginU (lb i) (ub i) := by
      intro i
      have := hx i (Set.mem_univ i)
      rw [Set.mem_Ioo, max_lt_iff, lt_min_iff] at this
      obtain ⟨⟨a1, a2⟩, a3, a4⟩ := this
      exact ⟨by rw [abs_lt]; constructor <;> linarith, a2.le, a4.le⟩
    choose y' h1 _ using fun i => (C03_inverse (lb i) (ub i) (hb i)).2 (x i) (hx' i).2.1 (hx' i).2.2
    refine ⟨y', ?_, fun i => ?_⟩
    · have ht : (Pwq.ofBounds5 (List.ofFn lb) (List.ofFn ub) (List.ofFn lb) (List.ofFn ub)).toF (List.ofFn x) =
          .ok (List.ofFn y') := by
        refine (C02_coordinatewise _ _ _ _ _ _ (by simp) (by simp)).2 ⟨by simp, fun i l u a b e1 e2 e3 e4 => ?_⟩
        rw [List.getElem?_ofFn] at e1 e2 e3 e4
        split_ifs at e1 e2 e3 e4 with hi
        simp only [Option.some.injEq] at e1 e2 e3 e4
        subst e1 e2 e3 e4
        exact h1 ⟨i, hi⟩
      unfold phenoV
      rw [hgp]
      show ((Pwq.ofBounds5 (List.ofFn lb) (List.ofFn ub) (List.ofFn lb) (List.ofFn ub)).toF (List.ofFn x) >>= _) = _
      rw [ht, Out.ok_bind]
      exact toVec_ofFn y'
    · have hi := ((C03_inverse (lb i) (ub i) (hb i)).1 (y i) (hy i).1 (hy i).2).2.2
      exact lt_of_le_of_lt ((C02_smooth_transform (lb i) (ub i) (hb i)).lipschitz _ _ _ _ (h1 i) hi) (hx' i).1
  refine Set.Nonempty.mono (interior_maximal hsub hopen) ?_
  refine Set.univ_pi_nonempty_iff.2 fun i => Set.nonempty_Ioo.2 ?_
  obtain ⟨a1, a2, _⟩ := (C03_inverse (lb i) (ub i) (hb i)).1 (y i) (hy i).1 (hy i).2
  have hmL : 0 < marginL (lb i) (ub i) := by unfold marginL; exact lt_min (by linarith [hb i]) (by positivity)
  have hmU : 0 < marginU (lb i) (ub i) := by unfold marginU; exact lt_min (by linarith [hb i]) (by positivity)
  have := hb i
  rw [max_lt_iff, lt_min_iff, lt_min_iff]
  show (xi i - eps < xi i + eps ∧ xi i - eps < _) ∧ _ < xi i + eps ∧ _
  refine ⟨⟨by linarith, ?_⟩, ?_, ?_⟩
  · show (PwqCoord.mk' (lb i) (ub i)).toInternal (y i) - eps < _; linarith
  · show _ < (PwqCoord.mk' (lb i) (ub i)).toInternal (y i) + eps; linarith
  · linarith

/-- **C106**, improvement: the objective is a function `g` without NaN values, no form of elitism.  For `c` not above the
best value found so far, the probability that the next generation finds a value below `c` is `1 - (1 - q)^lambda`,
where `q` is the probability of the points better than `c`.  In particular (`c` the best value so far) the
probability of an improvement. -/
theorem C106_improve {Z : ℕ → Ω → Vec n} (hZ : StdDraws P Z) (env0 env : Env n) (kind : CovKind) (p : Params n)
    (s0 s : Strat n) (tr : List (List (Cand n))) (s' : Ω → Strat n) (hu : Usual kind p) (hx : NoExtras p)
    (hl : p.sep = true ∨ p.lazyUpdate = false) (h0 : Strat.new env0 kind p = .ok s0) (h : AskRun env0 s0 tr s)
    (hn : NoNaN tr.flatten) (g : Vec n → FVal) (hdet : ∀ k y, env.f k y = g y) (hnum : ∀ y, (g y).IsNum)
    (hg : ∀ ω, s.generation (drawn env Z ω) = .ok (s' ω)) (c : FVal)
    (hc : ∀ b, s.sol.bestSeen = some b → ¬ FVal.lt b.fvalue c) (hm : MeasurableSet (better p g c)) :
    P {ω | ∃ b, (s' ω).sol.bestSeen = some b ∧ FVal.lt b.fvalue c} =
      1 - (1 - chance s.sol.xmean (s.sol.sigma ^ 2 • searchCov p s.sol) (better p g c)) ^ p.lambda := by
  obtain ⟨hN, hp⟩ := neutralSet_of hu hx h0 h
  have hnew := Strat.new_ok h0
  have hf := hnew.2.2.2.2.2.1
  have hseen0 : s0.sol.bestSeen = none ∧ s0.sol.niter = 0 := ⟨hf.bestSeen, hf.niter⟩
  have hpast : (s.sol.bestSeen = none → s.sol.niter = 0) ∧ ∀ b, s.sol.bestSeen = some b → b.fvalue.IsNum := by
    by_cases htr : tr = []
    · obtain ⟨a1, a2⟩ := askRun_unseen h hseen0 htr
      exact ⟨fun _ => a2, fun b hb => by rw [a1] at hb; cases hb⟩
    · obtain ⟨b, hb, pre, post, e, _⟩ := C22_best_seen env0 s0 s tr (by rw [hnew.2.2.2.1]; exact hu.uh)
        (fun _ => hseen0.2) htr (by rw [hseen0.1]; simpa using hn) h.run
      refine ⟨fun h => (by rw [hb] at h; cases h), fun b' hb' => ?_⟩
      rw [hb] at hb'
      injection hb' with hb'
      subst hb'
      refine hn b ?_
      rw [hseen0.1] at e
      rw [show tr.flatten = pre ++ b :: post by simpa using e]
      simp
  have hask : ∀ ω, ∃ q : List (Vec n) × Strat n, s.ask (drawn env Z ω) = .ok q := by
    intro ω
    obtain ⟨pop, s1, _, _, _, ha, _⟩ := generation_parts (hg ω)
    exact ⟨(pop, s1), ha⟩
  choose q hq using hask
  have hneg : s.negate = s.p.maximize := by
    obtain ⟨_, _, _, _, _, _, _, r5, _⟩ := run_p h.run
    rw [hp]
    show s.negate = p.maximize
    rw [r5]
    exact hnew.2.2.2.2.2.2.2.2.2.1
  have e : {ω | ∃ b, (s' ω).sol.bestSeen = some b ∧ FVal.lt b.fvalue c} = {ω | ∃ x ∈ (q ω).1, x ∈ better p g c} := by
    ext ω
    have := generation_best (env := drawn env Z ω) (c := c) (g := g) hN hneg hpast.1 (fun b hb => ⟨hpast.2 b hb, hc b hb⟩) hdet hnum
      (hq ω) (hg ω)
    rw [show better s.p g c = better p g c by rw [hp]; rfl] at this
    exact this
  rw [e]
  exact C106_hit hZ env0 env kind p s0 s tr (fun ω => (q ω).1) (fun ω => (q ω).2) hu hx.fixed hl h0 h hq _ hm

/-! ### Cases that meet the hypotheses -/

/-- **C106** on the sum of squares with default settings (default or active update, full or diagonal, any dimension,
starting point and step size): after `k` generations with any draws, the next one goes well for all draws, and it
improves on the best value, if that is not 0, with a probability above 0 and below 1. -/
theorem C106_sphere (hn : 1 ≤ n) (kind : CovKind) (hk : kind ≠ .vd) (diag : Bool) (x0 : Vec n) (sigma : ℝ) (k : ℕ)
    (env : Env n) (hf : ∀ j y, env.f j y = .num ((∑ i, y i ^ 2 : ℝ) : EReal)) {Z : ℕ → Ω → Vec n} (hZ : StdDraws P Z) :
    ∃ (p : Params n) (s0 s : Strat n) (tr : List (List (Cand n))) (s' : Ω → Strat n), Usual kind p ∧ NoExtras p ∧
      p.sep = diag ∧ p.lazyUpdate = false ∧ Strat.new env kind p = .ok s0 ∧ AskRun env s0 tr s ∧ tr.length = k ∧
      NoNaN tr.flatten ∧ (∀ ω, s.generation (drawn env Z ω) = .ok (s' ω)) ∧
      ∀ (b : Cand n) (r : ℝ), s.sol.bestSeen = some b → b.fvalue = .num r → 0 < r →
        0 < P {ω | ∃ b', (s' ω).sol.bestSeen = some b' ∧ FVal.lt b'.fvalue b.fvalue} ∧
          P {ω | ∃ b', (s' ω).sol.bestSeen = some b' ∧ FVal.lt b'.fvalue b.fvalue} < 1 := by
  obtain ⟨q, hq1, hq2, hq3, hq4, hq5, hmax⟩ := flat_setup_min hn kind hk diag x0 sigma
  obtain ⟨s0, hs0⟩ := new_plain (env := env) (kind := kind) hq5 hq1.configured.good.1
  obtain ⟨hL, hr⟩ := live_new hq1 hs0
  have hgp0 : s0.p.gp = GenoPheno.plain := by rw [(Strat.new_ok hs0).2.2.2.1]; exact hq5
  have hnum : ∀ j y, (env.f j y).IsNum := fun j y => by rw [hf]; trivial
  obtain ⟨tr, s, h1, hrun, htr, hNN, h2, h3, h4⟩ := generations_noNaN hL hr hnum
    (fun x => by rw [hgp0, phenoV_plain]; exact ⟨x, rfl⟩) k
  have hgen : ∀ ω, ∃ s', s.generation (drawn env Z ω) = .ok s' := by
    intro ω
    rcases generation_total_num (env := drawn env Z ω) h2 hnum h3 with ⟨s', a, _⟩ | ⟨x, e, a, _⟩
    · exact ⟨s', a⟩
    · rw [h4, hgp0, phenoV_plain] at a; cases a
  choose s' hs' using hgen
  refine ⟨q, s0, s, tr, s', hq1, hq2, hq3, hq4, hs0, hrun, htr, hNN, hs', fun b r hb hbr hr0 => ?_⟩
  set g : Vec n → FVal := fun y => .num ((∑ i, y i ^ 2 : ℝ) : EReal) with hg
  have hbet : better q g b.fvalue = {x : Vec n | ∑ i, x i ^ 2 < r} := by
    ext x
    unfold better
    rw [Set.mem_ofPred_eq, Set.mem_ofPred_eq, hq5, hmax, hbr]
    constructor
    · rintro ⟨y, hy, hlt⟩
      rw [phenoV_plain] at hy
      injection hy with hy
      subst hy
      exact EReal.coe_lt_coe_iff.1 hlt
    · intro hlt
      exact ⟨x, phenoV_plain x, EReal.coe_lt_coe_iff.2 hlt⟩
  have hcont : Continuous fun x : Vec n => ∑ i, x i ^ 2 := by fun_prop
  have hopen : IsOpen {x : Vec n | ∑ i, x i ^ 2 < r} := isOpen_lt hcont continuous_const
  have hopen' : IsOpen {x : Vec n | r < ∑ i, x i ^ 2} := isOpen_lt continuous_const hcont
  have key := C106_improve hZ env env kind q s0 s tr s' hq1 hq2 (Or.inr hq4) hs0 hrun hNN g hf (fun _ => trivial) hs'
    b.fvalue (fun b' hb' => by rw [hb] at hb'; injection hb' with hb'; rw [hb']; exact FVal.lt_irrefl _)
    (by rw [hbet]; exact hopen.measurableSet)
  rw [hbet] at key
  have hask : ∀ ω, ∃ q : List (Vec n) × Strat n, s.ask (drawn env Z ω) = .ok q := by
    intro ω
    obtain ⟨pop, s1, _, _, _, ha, _⟩ := generation_parts (hs' ω)
    exact ⟨(pop, s1), ha⟩
  choose t ht using hask
  have hS := C95_sampled hZ env env kind q s0 s tr (fun ω => (t ω).1) (fun ω => (t ω).2) hq1 (by rw [hq2.fixed]; simp)
    (Or.inr hq4) hs0 hrun ht
  have hlam : 0 < q.lambda := by have := hq1.configured.good.1.lambda; omega
  have hpsd : (s.sol.sigma ^ 2 • searchCov q s.sol).PosSemidef := by
    have := (hS.normal 0 hlam n id (by intro a v hv; rw [hq2.fixed] at hv; cases hv)).1
    simpa using this
  have hdet := searchCov_regular hq1 (Or.inr hq4) hs0 hrun
  have hpos := chance_pos hpsd hdet s.sol.xmean (A := {x : Vec n | ∑ i, x i ^ 2 < r})
    (by rw [hopen.interior_eq]; exact ⟨0, by rw [Set.mem_ofPred_eq]; simpa using hr0⟩)
  have hpos' := chance_pos hpsd hdet s.sol.xmean (A := {x : Vec n | ∑ i, x i ^ 2 < r}ᶜ)
    (by
      refine Set.Nonempty.mono (interior_maximal (s := {x : Vec n | ∑ i, x i ^ 2 < r}ᶜ)
        (fun x (hx : r < ∑ i, x i ^ 2) => not_lt.2 hx.le) hopen') ⟨fun _ => r + 1, ?_⟩
      show r < ∑ i : Fin n, (r + 1) ^ 2
      rw [Finset.sum_const, Finset.card_univ, Fintype.card_fin, nsmul_eq_mul]
      have : (1 : ℝ) ≤ n := by exact_mod_cast hn
      nlinarith [sq_nonneg (r + 1)])
  rw [chance_compl hopen.measurableSet] at hpos'
  rw [key]
  constructor
  · rw [tsub_pos_iff_lt]
    refine pow_lt_one₀ zero_le ?_ hlam.ne'
    exact ENNReal.sub_lt_self ENNReal.one_ne_top one_ne_zero hpos.ne'
  · exact ENNReal.sub_lt_self ENNReal.one_ne_top one_ne_zero (pow_ne_zero _ hpos'.ne')

/-- **C106** with default settings and bounds: the hypotheses of `C106_box` are met in the first generation, for each box,
each starting point and each step size. -/
theorem C106_box_default (hn : 1 ≤ n) (kind : CovKind) (hk : kind ≠ .vd) (x0 : Vec n) (sigma : ℝ) (env : Env n)
    (lb ub : Vec n) (hb : ∀ i, lb i < ub i) {Z : ℕ → Ω → Vec n} (hZ : StdDraws P Z) :
    ∃ (p : Params n) (s : Strat n) (pop : Ω → List (Vec n)) (s1 : Ω → Strat n), Usual kind p ∧
      p.gp = GenoPheno.ofBounds none (List.ofFn lb) (List.ofFn ub) ∧ Strat.new env kind p = .ok s ∧ AskRun env s [] s ∧
      (∀ ω, s.ask (drawn env Z ω) = .ok (pop ω, s1 ω)) ∧
      ∀ y : Vec n, (∀ i, lb i ≤ y i ∧ y i ≤ ub i) → ∀ eps : ℝ, 0 < eps → ∀ j < p.lambda,
        0 < P {ω | ∃ y', phenoV p.gp ((pop ω).getD j 0) = .ok y' ∧ ∀ i, |y' i - y i| < eps} := by
  obtain ⟨p, hp, _⟩ := C11_weights hn x0 sigma (-1) 1 1 (GenoPheno.ofBounds none (List.ofFn lb) (List.ofFn ub))
  obtain ⟨hu, hgp, hfx, _⟩ := usual_default (by norm_num) hp hk
  have hlz : p.lazyUpdate = false := by
    unfold Params.make at hp
    obtain ⟨l, -, hm⟩ := Out.bind_eq_ok.1 hp
    obtain ⟨mu, w, muw, cs, cc, c1, cm, ds, fs, fc, ch, lv, rl, al, e⟩ := initializeParameters_frame hm
    rw [e]; rfl
  obtain ⟨s, hs⟩ := new_unscaled (env := env) (kind := kind) (by rw [hgp]; rfl) hu.configured.good.1
  obtain ⟨hL, _⟩ := live_new hu hs
  have hask : ∀ ω, ∃ q : List (Vec n) × Strat n, s.ask (drawn env Z ω) = .ok q := fun ω => by
    obtain ⟨pop, s1, h, _⟩ := Strat.ask_total (env := drawn env Z ω) (hL.toLiveCore.ask hL.moved)
    exact ⟨(pop, s1), h⟩
  choose q hq using hask
  exact ⟨p, s, fun ω => (q ω).1, fun ω => (q ω).2, hu, hgp, hs, .refl _, hq, fun y hy eps he j hj =>
    C106_box hZ env env kind p s s [] _ _ hu hfx (Or.inr hlz) hs (.refl _) hq lb ub hb hgp y hy eps he j hj⟩

end Libcmaes
