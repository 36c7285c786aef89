import Verif.Lemmas.Progress
import Verif.Props.Law
import Mathlib.Analysis.Convex.Quasiconvex

/-!
# C107: where selection moves the mean

`Scores`, `average`: Spec/Progress.lean; `GoodWeights`: Spec/Good.lean; `StdDraws`, `drawn`, `NoExtras`, `searchCov`:
Spec/Law.lean; `Usual`: Spec/Usual.lean; `AskRun`: Spec/Run.lean.
-/

namespace Libcmaes

open Spec Matrix MeasureTheory ProbabilityTheory WithLp Finset

variable {n : ℕ} {Ω : Type*} [MeasurableSpace Ω] {P : Measure Ω}

/-- **C107**, one call of `tell()` (any variant, no uncertainty handling), the values of the candidates being those of a
convex function `F`: the new mean is not worse than the weighted mean of the values selected, which is not
worse than the average of the population, and strictly better than it if two candidates differ in value. -/
theorem C107_tell (env : Env n) (s s' : Strat n) (F : Vec n → ℝ) (hF : ConvexOn ℝ Set.univ F) (hw : GoodWeights s.p)
    (huh : s.p.uh = false) (hv : ∀ c ∈ s.sol.cands, c.fvalue = .num (F c.x : EReal)) (h : s.tell env = .ok s') :
    F s'.sol.xmean ≤ average F (s.sol.cands.map Cand.x) ∧
      ((∃ c ∈ s.sol.cands, ∃ d ∈ s.sol.cands, F c.x ≠ F d.x) →
        F s'.sol.xmean < average F (s.sol.cands.map Cand.x)) := by
  set N := s.sol.cands.length with hN
  set V : Fin N → ℝ := fun i => F (s.sol.cands.get i).x with hV
  obtain ⟨hmu, hx, hsel⟩ := tell_selected (F := F) hw huh hN.symm V (fun i =>
    ⟨s.sol.cands.get i, by simp, hv _ (List.get_mem _ _), rfl⟩) h
  have hconv := convex_le hF hw (candX s'.sol.cands)
  rw [← hx, hsel] at hconv
  have hone := sum_rankWeight_one hw hmu
  have hNpos : 0 < N := lt_of_lt_of_le hw.mu_pos hmu
  have hNr : (0 : ℝ) < N := by exact_mod_cast hNpos
  have havg : average F (s.sol.cands.map Cand.x) = (∑ i, V i) / N := by
    unfold Spec.average
    rw [List.length_map, List.map_map, ← List.sum_ofFn]
    congr 2
    refine List.ext_getElem (by simp [hN]) fun i h1 h2 => ?_
    simp [hV]
  rw [havg]
  constructor
  · have := selected_avg (rankWeight_antitone hw) V
    rw [hone, one_mul] at this
    rw [le_div_iff₀ hNr, mul_comm]
    exact (mul_le_mul_of_nonneg_left hconv hNr.le).trans this
  · rintro ⟨c, hc, d, hd, hne⟩
    obtain ⟨i, rfl⟩ := List.mem_iff_get.1 hc
    obtain ⟨j, rfl⟩ := List.mem_iff_get.1 hd
    have h2 : 2 ≤ N := by
      by_contra hlt
      have : i = j := Fin.ext (by have := i.2; have := j.2; omega)
      exact hne (by rw [this])
    have := selected_avg_lt (rankWeight_antitone hw) hNpos (rankWeight_strict hw h2) (V := V) (a := i) (b := j) hne
    rw [hone, one_mul] at this
    rw [lt_div_iff₀ hNr, mul_comm]
    exact lt_of_le_of_lt (mul_le_mul_of_nonneg_left hconv hNr.le) this

/-- **C107**, quasi-convex functions (all level sets convex): the new mean is not worse than the worst candidate selected,
hence not worse than any of those not selected. -/
theorem C107_quasiconvex (env : Env n) (s s' : Strat n) (F : Vec n → ℝ) (hF : QuasiconvexOn ℝ Set.univ F)
    (hw : GoodWeights s.p) (huh : s.p.uh = false) (hv : ∀ c ∈ s.sol.cands, c.fvalue = .num (F c.x : EReal))
    (h : s.tell env = .ok s') :
    s'.sol.cands.Perm s.sol.cands ∧ ∀ c ∈ s'.sol.cands.drop (s.p.mu - 1), F s'.sol.xmean ≤ F c.x := by
  obtain ⟨hmu, hperm, hsort, hx⟩ := tell_values (F := F) hw huh hv h
  refine ⟨hperm, fun c hc => ?_⟩
  obtain ⟨r, hr, rfl⟩ := List.mem_iff_getElem.1 hc
  rw [List.length_drop] at hr
  rw [List.getElem_drop]
  have hset : Convex ℝ {x | x ∈ Set.univ ∧ F x ≤ F (s'.sol.cands[s.p.mu - 1 + r]'(by omega)).x} := hF _
  have hmem := hset.sum_mem (t := range s.p.mu) (w := s.p.weights) (z := candX s'.sol.cands)
    (fun i hi => (hw.pos i (mem_range.1 hi)).le) hw.sum_one (fun i hi => by
      have hi' : i < s.p.mu := mem_range.1 hi
      have hil : i < s'.sol.cands.length := by omega
      refine ⟨Set.mem_univ _, ?_⟩
      have e : candX s'.sol.cands i = (s'.sol.cands[i]).x := by
        unfold candX
        rw [List.getD, List.getElem?_eq_getElem hil, Option.getD_some]
      rw [e]
      rcases Nat.lt_or_ge i (s.p.mu - 1 + r) with hlt | hge
      · exact List.pairwise_iff_getElem.1 hsort i _ hil (by omega) hlt
      · have : i = s.p.mu - 1 + r := by omega
        subst this; exact le_rfl)
  rw [← hx] at hmem
  exact hmem.2

/-- **C107**, a whole generation of a run of the default or active update, full or diagonal: on an objective that is
convex as the search sees it, the new mean is at least as good as the points of the population on average, and better
if two of them differ in value. -/
theorem C107_convex (env0 env : Env n) (kind : CovKind) (p : Params n) (s0 s s' s1 : Strat n) (tr : List (List (Cand n)))
    (pop : List (Vec n)) (hu : Usual kind p) (hx : NoExtras p) (h0 : Strat.new env0 kind p = .ok s0)
    (h : AskRun env0 s0 tr s) (g : Vec n → FVal) (hdet : ∀ k y, env.f k y = g y) (F : Vec n → ℝ) (hs : Scores p g F)
    (hF : ConvexOn ℝ Set.univ F) (ha : s.ask env = .ok (pop, s1)) (hg : s.generation env = .ok s') :
    F s'.sol.xmean ≤ average F pop ∧
      ((∃ x ∈ pop, ∃ y ∈ pop, F x ≠ F y) → F s'.sol.xmean < average F pop) := by
  obtain ⟨hN, hp⟩ := neutralSet_of hu hx h0 h
  have hneg : s.negate = s.p.maximize := by
    obtain ⟨_, _, _, _, _, _, _, r5, _⟩ := run_p h.run
    rw [hp]
    show s.negate = p.maximize
    rw [r5]
    exact (Strat.new_ok h0).2.2.2.2.2.2.2.2.2.1
  have hs' : Scores s.p g F := by rw [hp]; exact hs
  have hw : GoodWeights s.p := hN.good.weights
  obtain ⟨x, hmu, hm, hsel⟩ := generation_selected hN hneg hdet hs' ha hg rfl (fun i => F (pop.get i))
    (fun i => ⟨pop.get i, by simp, rfl⟩)
  have hconv := convex_le hF hw x
  rw [← hm, hsel] at hconv
  have hone := sum_rankWeight_one hw hmu
  have hNpos : 0 < pop.length := lt_of_lt_of_le hw.mu_pos hmu
  have hNr : (0 : ℝ) < pop.length := by exact_mod_cast hNpos
  have havg : average F pop = (∑ i : Fin pop.length, F (pop.get i)) / pop.length := by
    unfold Spec.average
    rw [← List.sum_ofFn]
    congr 2
    refine List.ext_getElem (by simp) fun i h1 h2 => ?_
    simp
  rw [havg]
  constructor
  · have := selected_avg (rankWeight_antitone hw) fun i => F (pop.get i)
    rw [hone, one_mul] at this
    rw [le_div_iff₀ hNr, mul_comm]
    exact (mul_le_mul_of_nonneg_left hconv hNr.le).trans this
  · rintro ⟨c, hc, d, hd, hne⟩
    obtain ⟨i, rfl⟩ := List.mem_iff_get.1 hc
    obtain ⟨j, rfl⟩ := List.mem_iff_get.1 hd
    have h2 : 2 ≤ pop.length := by
      by_contra hlt
      have : i = j := Fin.ext (by have := i.2; have := j.2; omega)
      exact hne (by rw [this])
    have := selected_avg_lt (rankWeight_antitone hw) hNpos (rankWeight_strict hw h2) (V := fun i => F (pop.get i))
      (a := i) (b := j) hne
    rw [hone, one_mul] at this
    rw [lt_div_iff₀ hNr, mul_comm]
    exact lt_of_le_of_lt (mul_le_mul_of_nonneg_left hconv hNr.le) this

/-- **C107**, linear objectives: at each state a run can come to, the value of the next mean is almost surely below a
normal variable around the value `a·m + b` of the mean (with variance `sigma² aᵀCa / lambda`).  So it improves with
probability at least 1/2, and it improves in expectation. -/
theorem C107_linear {Z : ℕ → Ω → Vec n} (hZ : StdDraws P Z) (env0 env : Env n) (kind : CovKind) (p : Params n)
    (s0 s : Strat n) (tr : List (List (Cand n))) (s' : Ω → Strat n) (hu : Usual kind p) (hx : NoExtras p)
    (hl : p.sep = true ∨ p.lazyUpdate = false) (h0 : Strat.new env0 kind p = .ok s0) (h : AskRun env0 s0 tr s)
    (g : Vec n → FVal) (hdet : ∀ k y, env.f k y = g y) (a : Vec n) (ha : a ≠ 0) (b : ℝ)
    (hs : Scores p g fun x => a ⬝ᵥ x + b) (hg : ∀ ω, s.generation (drawn env Z ω) = .ok (s' ω)) :
    (∃ X : Ω → ℝ, HasLaw X (gaussianReal (a ⬝ᵥ s.sol.xmean + b)
        (s.sol.sigma ^ 2 / p.lambda * (a ⬝ᵥ (searchCov p s.sol).mulVec a)).toNNReal) P ∧
      ∀ᵐ ω ∂P, a ⬝ᵥ (s' ω).sol.xmean + b < X ω) ∧
      1 / 2 ≤ P {ω | a ⬝ᵥ (s' ω).sol.xmean + b < a ⬝ᵥ s.sol.xmean + b} ∧
      Integrable (fun ω => a ⬝ᵥ (s' ω).sol.xmean + b) P ∧
      ∫ ω, a ⬝ᵥ (s' ω).sol.xmean + b ∂P < a ⬝ᵥ s.sol.xmean + b := by
  have hP : IsProbabilityMeasure P := hZ.indep.isProbabilityMeasure
  obtain ⟨hN, hp⟩ := neutralSet_of hu hx h0 h
  have hneg : s.negate = s.p.maximize := by
    obtain ⟨_, _, _, _, _, _, _, r5, _⟩ := run_p h.run
    rw [hp]
    show s.negate = p.maximize
    rw [r5]
    exact (Strat.new_ok h0).2.2.2.2.2.2.2.2.2.1
  have hs' : Scores s.p g fun x => a ⬝ᵥ x + b := by rw [hp]; exact hs
  have hw : GoodWeights s.p := hN.good.weights
  have hlam : 2 ≤ p.lambda := hu.configured.good.1.lambda
  have hask : ∀ ω, ∃ q : List (Vec n) × Strat n, s.ask (drawn env Z ω) = .ok q := by
    intro ω
    obtain ⟨pop, s1, _, _, _, ha, _⟩ := generation_parts (hg ω)
    exact ⟨(pop, s1), ha⟩
  choose q hq using hask
  obtain ⟨A, hA, hpop⟩ := ask_drawn hZ hu hx.fixed hl h0 h hq
  set r : Vec n := s.sol.sigma • Aᵀ.mulVec a with hr
  set μ := a ⬝ᵥ s.sol.xmean + b with hμ
  set N := p.lambda with hNdef
  have hNr : (0 : ℝ) < N := by exact_mod_cast (by omega : 0 < N)
  set V : Fin N → Ω → ℝ := fun i ω => μ + r ⬝ᵥ Z (s.nz + i) ω with hV
  set W : Fin N → ℝ := fun i => rankWeight s.p i with hW
  have hWa : Antitone W := rankWeight_antitone hw
  have hval : ∀ ω z, a ⬝ᵥ (s.sol.xmean + s.sol.sigma • A.mulVec (Z z ω)) + b = μ + r ⬝ᵥ Z z ω := by
    intro ω z
    rw [dotProduct_add, dotProduct_smul, dotProduct_mulVec, ← mulVec_transpose, hr, smul_dotProduct, hμ]
    ring
  have hrr : r ⬝ᵥ r = s.sol.sigma ^ 2 * (a ⬝ᵥ (searchCov p s.sol).mulVec a) := by
    rw [hr, ← hA, smul_dotProduct, dotProduct_smul, ← mulVec_mulVec, dotProduct_mulVec a, ← mulVec_transpose]
    simp only [smul_eq_mul]
    ring
  have hr0 : 0 < r ⬝ᵥ r := by
    have hnn : 0 ≤ r ⬝ᵥ r := Finset.sum_nonneg fun i _ => mul_self_nonneg _
    refine lt_of_le_of_ne hnn fun h0' => ha ?_
    have hr' : r = 0 := dotProduct_self_eq_zero.1 h0'.symm
    refine Matrix.eq_zero_of_mulVec_eq_zero (searchCov_regular hu hl h0 h) ?_
    rw [← hA, smul_mulVec, ← mulVec_mulVec, pow_two, mul_smul, ← mulVec_smul, ← hr, hr', mulVec_zero, smul_zero]
  have key : ∀ ω, a ⬝ᵥ (s' ω).sol.xmean + b = selected W (fun i => V i ω) ∧ ∑ i, W i = 1 := by
    intro ω
    obtain ⟨hlen, hj⟩ := hpop ω
    obtain ⟨x, hmu, hm, hsel⟩ := generation_selected (env := drawn env Z ω) (F := fun x => a ⬝ᵥ x + b) hN hneg (fun k y => hdet k y) hs' (hq ω) (hg ω)
      hlen (fun i => V i ω) (fun i => ⟨_, hj i i.2, hval ω _⟩)
    refine ⟨?_, sum_rankWeight_one hw hmu⟩
    rw [hm, affine_eq hw, hsel]
  obtain ⟨ω0⟩ : Nonempty Ω := @nonempty_of_isProbabilityMeasure _ _ P hP
  have hone := (key ω0).2
  set X : Ω → ℝ := fun ω => (∑ i, V i ω) / N with hX
  have hXe : X = fun ω => μ + ∑ i : Fin N, (1 / (N : ℝ)) * (r ⬝ᵥ Z (s.nz + i) ω) := by
    funext ω
    rw [hX]
    simp only [hV, sum_add_distrib, sum_const, card_univ, Fintype.card_fin, nsmul_eq_mul, ← mul_sum]
    field_simp
  have hinj : Function.Injective fun i : Fin N => s.nz + i.val := fun i j hij => Fin.ext (by
    have : s.nz + i.val = s.nz + j.val := hij
    omega)
  have hXlaw : HasLaw X (gaussianReal μ (s.sol.sigma ^ 2 / N * (a ⬝ᵥ (searchCov p s.sol).mulVec a)).toNNReal) P := by
    have := linear_law hZ (fun i : Fin N => s.nz + i.val) hinj (fun _ => 1 / (N : ℝ)) r μ
    rw [← hXe, hrr] at this
    convert this using 3
    rw [sum_const, card_univ, Fintype.card_fin, nsmul_eq_mul]
    field_simp
  have hvne : (s.sol.sigma ^ 2 / N * (a ⬝ᵥ (searchCov p s.sol).mulVec a)).toNNReal ≠ 0 := by
    rw [Ne, Real.toNNReal_eq_zero, not_le, div_mul_eq_mul_div, ← hrr]
    positivity
  have hVlaw : ∀ i : Fin N, HasLaw (V i) (gaussianReal μ (r ⬝ᵥ r).toNNReal) P := by
    intro i
    have := linear_law hZ (fun _ : Fin 1 => s.nz + i.val) (fun a b _ => Subsingleton.elim a b) (fun _ => 1) r μ
    simpa using this
  have hle : ∀ ω, a ⬝ᵥ (s' ω).sol.xmean + b ≤ X ω := by
    intro ω
    rw [(key ω).1, hX, le_div_iff₀ hNr, mul_comm]
    have := selected_avg hWa fun i => V i ω
    rwa [hone, one_mul] at this
  have hae : ∀ᵐ ω ∂P, a ⬝ᵥ (s' ω).sol.xmean + b < X ω := by
    have hdiff := linear_law hZ (fun i : Fin 2 => s.nz + i.val) (fun i j hij => Fin.ext (by
      have : s.nz + i.val = s.nz + j.val := hij
      omega)) ![1, -1] r 0
    have hne := null_eq (by
      rw [Ne, Real.toNNReal_eq_zero, not_le]
      rw [Fin.sum_univ_two]
      simp only [Matrix.cons_val_zero, Matrix.cons_val_one]
      linarith) hdiff 0
    filter_upwards [hne] with ω hω
    rw [(key ω).1, hX, lt_div_iff₀ hNr, mul_comm]
    have := selected_avg_lt hWa (by omega) (rankWeight_strict hw hlam) (V := fun i => V i ω) (a := ⟨0, by omega⟩)
      (b := ⟨1, by omega⟩) (by
        intro he
        refine hω ?_
        rw [Fin.sum_univ_two]
        simp only [hV, add_zero] at he
        simp
        linarith)
    rwa [hone, one_mul] at this
  have hint : Integrable (fun ω => a ⬝ᵥ (s' ω).sol.xmean + b) P := by
    have e : (fun ω => a ⬝ᵥ (s' ω).sol.xmean + b) = fun ω => selected W (fun i => V i ω) := funext fun ω => (key ω).1
    rw [e]
    have hm : AEMeasurable (fun ω => selected W (fun i => V i ω)) P :=
      (selected_measurable hWa).comp_aemeasurable (aemeasurable_pi_lambda _ fun i => (hVlaw i).aemeasurable)
    refine Integrable.mono' (g := fun ω => (∑ i, |W i|) * ∑ j, |V j ω|) ?_ hm.aestronglyMeasurable
      (.of_forall fun ω => by rw [Real.norm_eq_abs]; exact selected_abs W fun i => V i ω)
    exact (integrable_finsetSum _ fun j _ => (law_integrable (hVlaw j)).abs).const_mul _
  refine ⟨⟨X, hXlaw, hae⟩, ?_, hint, ?_⟩
  · rw [← half_below hvne hXlaw]
    exact measure_mono fun ω (hω : X ω < μ) => lt_of_le_of_lt (hle ω) hω
  · have hXi := law_integrable hXlaw
    rw [← law_integral hXlaw, ← sub_pos, ← integral_sub hXi hint]
    rw [integral_pos_iff_support_of_nonneg_ae (.of_forall fun ω => sub_nonneg.2 (hle ω)) (hXi.sub hint)]
    have : P (Function.support fun ω => X ω - (a ⬝ᵥ (s' ω).sol.xmean + b)) = 1 := by
      rw [← measure_univ (μ := P)]
      refine measure_congr (Filter.eventuallyEq_set.2 ?_)
      filter_upwards [hae] with ω hω
      simp [(sub_pos.2 hω).ne']
    rw [this]
    exact one_pos

/-! ### Cases that meet the hypotheses -/

/-- **C107** with default settings, minimising `a·x + b`: after `k` generations with any draws, the next one goes well for
all draws and moves the mean downhill with probability at least 1/2, and in expectation. -/
theorem C107_linear_default (hn : 1 ≤ n) (kind : CovKind) (hk : kind ≠ .vd) (diag : Bool) (x0 : Vec n) (sigma : ℝ)
    (k : ℕ) (a : Vec n) (ha : a ≠ 0) (b : ℝ) (env : Env n) (hf : ∀ j y, env.f j y = .num ((a ⬝ᵥ y + b : ℝ) : EReal))
    {Z : ℕ → Ω → Vec n} (hZ : StdDraws P Z) :
    ∃ (p : Params n) (s0 s : Strat n) (tr : List (List (Cand n))) (s' : Ω → Strat n), Usual kind p ∧ NoExtras p ∧
      p.sep = diag ∧ p.lazyUpdate = false ∧ Strat.new env kind p = .ok s0 ∧ AskRun env s0 tr s ∧ tr.length = k ∧
      (∀ ω, s.generation (drawn env Z ω) = .ok (s' ω)) ∧
      1 / 2 ≤ P {ω | a ⬝ᵥ (s' ω).sol.xmean + b < a ⬝ᵥ s.sol.xmean + b} ∧
      ∫ ω, a ⬝ᵥ (s' ω).sol.xmean + b ∂P < a ⬝ᵥ s.sol.xmean + b := by
  have hnum : ∀ j y, (env.f j y).IsNum := fun j y => by rw [hf]; trivial
  obtain ⟨q, s0, s, tr, h1, h2, h3, h4, h5, h6, h7, h8, h9, h10⟩ := default_run hn kind hk diag x0 sigma k env hnum
  choose s' hs' using fun ω => h10 (drawn env Z ω) hnum
  have := C107_linear hZ env env kind q s0 s tr s' h1 h2 (Or.inr h4) h7 h8 _ hf a ha b
    (scores_plain h5 h6 fun x => a ⬝ᵥ x + b) hs'
  exact ⟨q, s0, s, tr, s', h1, h2, h3, h4, h7, h8, h9, hs', this.2.1, this.2.2.2⟩

/-- **C107** with default settings on a convex function: the hypotheses of `C107_convex` are met in each generation. -/
theorem C107_convex_default (hn : 1 ≤ n) (kind : CovKind) (hk : kind ≠ .vd) (diag : Bool) (x0 : Vec n) (sigma : ℝ)
    (k : ℕ) (F : Vec n → ℝ) (hF : ConvexOn ℝ Set.univ F) (env : Env n) (hf : ∀ j y, env.f j y = .num (F y : EReal)) :
    ∃ (p : Params n) (s0 s s1 s' : Strat n) (tr : List (List (Cand n))) (pop : List (Vec n)), Usual kind p ∧ NoExtras p ∧
      p.sep = diag ∧ Strat.new env kind p = .ok s0 ∧ AskRun env s0 tr s ∧ tr.length = k ∧
      s.ask env = .ok (pop, s1) ∧ s.generation env = .ok s' ∧ F s'.sol.xmean ≤ Spec.average F pop := by
  have hnum : ∀ j y, (env.f j y).IsNum := fun j y => by rw [hf]; trivial
  obtain ⟨q, s0, s, tr, h1, h2, h3, h4, h5, h6, h7, h8, h9, h10⟩ := default_run hn kind hk diag x0 sigma k env hnum
  obtain ⟨s', hs'⟩ := h10 env hnum
  obtain ⟨pop, s1, _, _, _, ha, _⟩ := generation_parts hs'
  exact ⟨q, s0, s, s1, s', tr, pop, h1, h2, h3, h7, h8, h9, ha, hs',
    (C107_convex env env kind q s0 s s' s1 tr pop h1 h2 h7 h8 _ hf F (scores_plain h5 h6 F) hF ha hs').1⟩

end Libcmaes
