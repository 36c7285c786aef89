import Verif.Lemmas.Luck
import Verif.Spec.Progress
import Mathlib.Data.Fin.Tuple.Sort
import Mathlib.Algebra.Order.Rearrangement
import Mathlib.Analysis.Convex.Jensen

/-!
# Weighted sums of sorted values
-/

namespace Libcmaes

open Spec Matrix MeasureTheory ProbabilityTheory WithLp Finset

variable {n : ℕ}

/-- Chebyshev's inequality with the case of strictness. -/
theorem cheb {N : ℕ} {W U : Fin N → ℝ} (hW : Antitone W) (hU : Monotone U) :
    N * ∑ i, W i * U i ≤ (∑ i, W i) * ∑ i, U i ∧
      ∀ a b, W b < W a → U a < U b → N * ∑ i, W i * U i < (∑ i, W i) * ∑ i, U i := by
  have hterm : ∀ i j, (W i - W j) * (U i - U j) ≤ 0 := by
    intro i j
    rcases le_total i j with h | h
    · exact mul_nonpos_of_nonneg_of_nonpos (sub_nonneg.2 (hW h)) (sub_nonpos.2 (hU h))
    · exact mul_nonpos_of_nonpos_of_nonneg (sub_nonpos.2 (hW h)) (sub_nonneg.2 (hU h))
  have hid : ∑ i, ∑ j, (W i - W j) * (U i - U j) = 2 * (N * ∑ i, W i * U i - (∑ i, W i) * ∑ i, U i) := by
    have e : ∀ i, ∑ j, (W i - W j) * (U i - U j) =
        N * (W i * U i) + (∑ j, W j * U j) - W i * (∑ j, U j) - U i * ∑ j, W j := by
      intro i
      have e' : ∀ j, (W i - W j) * (U i - U j) = W i * U i + W j * U j - W i * U j - U i * W j := fun j => by ring
      simp_rw [e', Finset.sum_sub_distrib, Finset.sum_add_distrib, ← Finset.mul_sum]
      rw [Finset.sum_const, Finset.card_univ, Fintype.card_fin, nsmul_eq_mul]
      ring
    simp_rw [e, Finset.sum_sub_distrib, Finset.sum_add_distrib, ← Finset.mul_sum, ← Finset.sum_mul]
    rw [Finset.sum_const, Finset.card_univ, Fintype.card_fin, nsmul_eq_mul]
    ring
  constructor
  · have : ∑ i, ∑ j, (W i - W j) * (U i - U j) ≤ 0 := Finset.sum_nonpos fun i _ => Finset.sum_nonpos fun j _ => hterm i j
    rw [hid] at this
    linarith
  · intro a b h1 h2
    have : ∑ i, ∑ j, (W i - W j) * (U i - U j) < 0 := by
      refine Finset.sum_neg' (fun i _ => Finset.sum_nonpos fun j _ => hterm i j) ⟨a, Finset.mem_univ a, ?_⟩
      refine Finset.sum_neg' (fun j _ => hterm a j) ⟨b, Finset.mem_univ b, ?_⟩
      exact mul_neg_of_pos_of_neg (by linarith) (by linarith)
    rw [hid] at this
    linarith

/-- The weights of the ranks, 0 for those not selected. -/
noncomputable def rankWeight (p : Params n) (i : ℕ) : ℝ := if i < p.mu then p.weights i else 0

theorem rankWeight_antitone {p : Params n} (hw : GoodWeights p) {N : ℕ} : Antitone fun i : Fin N => rankWeight p i := by
  intro i j hij
  show rankWeight p j ≤ rankWeight p i
  unfold rankWeight
  have hle : i.val ≤ j.val := hij
  split_ifs with h1 h2 h2
  · rcases hle.lt_or_eq with h | h
    · exact (hw.dec _ _ h h1).le
    · rw [h]
  · omega
  · exact (hw.pos _ h2).le
  · exact le_rfl

theorem sum_rankWeight (p : Params n) {N : ℕ} (hN : p.mu ≤ N) (u : ℕ → ℝ) :
    ∑ i : Fin N, rankWeight p i * u i = ∑ i ∈ range p.mu, p.weights i * u i := by
  rw [Fin.sum_univ_eq_sum_range (fun i => rankWeight p i * u i)]
  rw [← Finset.sum_subset (Finset.range_mono hN)]
  · refine Finset.sum_congr rfl fun i hi => ?_
    unfold rankWeight
    rw [if_pos (Finset.mem_range.1 hi)]
  · intro i _ hi
    unfold rankWeight
    rw [if_neg (by simpa using hi), zero_mul]

theorem sum_rankWeight_one {p : Params n} (hw : GoodWeights p) {N : ℕ} (hN : p.mu ≤ N) :
    ∑ i : Fin N, rankWeight p i = 1 := by
  have := sum_rankWeight p hN fun _ => 1
  simpa [hw.sum_one] using this

/-- What `tell()` does to a population whose values are those of `F`. -/
theorem tell_values {env : Env n} {s s' : Strat n} {F : Vec n → ℝ} (hw : GoodWeights s.p) (huh : s.p.uh = false)
    (hv : ∀ c ∈ s.sol.cands, c.fvalue = .num (F c.x : EReal)) (h : s.tell env = .ok s') :
    s.p.mu ≤ s'.sol.cands.length ∧ s'.sol.cands.Perm s.sol.cands ∧
      s'.sol.cands.Pairwise (fun a b => F a.x ≤ F b.x) ∧
      s'.sol.xmean = ∑ i ∈ range s.p.mu, s.p.weights i • candX s'.sol.cands i := by
  obtain ⟨sol3, sol4, hc, hcs, hsort, _, mx, mn, lv, le, e⟩ := Strat.tell_step h
  obtain ⟨hmu, hx⟩ := covarianceUpdate_mean hw.sum_one hc
  have hx' : s'.sol.xmean = recombine s.p s'.sol.cands := by rw [← hcs, ← hx, e]
  rw [hcs] at hmu
  have hS := (stableSort_eq_ok (hsort huh)).2
  rw [hcs] at hS
  refine ⟨hmu, hS.perm, ?_, ?_⟩
  · refine hS.sorted.imp_of_mem fun {a b} ha hb hab => ?_
    unfold candLt at hab
    rw [hv a (hS.perm.mem_iff.1 ha), hv b (hS.perm.mem_iff.1 hb)] at hab
    have : ¬ ((F b.x : EReal) < (F a.x : EReal)) := hab
    rw [EReal.coe_lt_coe_iff] at this
    exact not_lt.1 this
  · rw [hx']; funext k; simp [recombine, Finset.sum_apply]

/-! ### The weighted sum of the sorted values as a function of the values -/

/-- `Σ W_i V_(i)`, `V_(i)` the values in ascending order. -/
noncomputable def selected {N : ℕ} (W V : Fin N → ℝ) : ℝ := ∑ i, W i * V (Tuple.sort V i)

theorem selected_of {N : ℕ} (W V : Fin N → ℝ) {L : List ℝ} (hs : L.Pairwise (· ≤ ·)) (hp : L.Perm (List.ofFn V)) :
    ∑ i : Fin N, W i * L.getD i 0 = selected W V := by
  have h2 : (List.ofFn (V ∘ Tuple.sort V)).Pairwise (· ≤ ·) := by
    rw [List.pairwise_ofFn]
    intro i j hij
    exact Tuple.monotone_sort V hij.le
  have e : L = List.ofFn (V ∘ Tuple.sort V) :=
    List.Perm.eq_of_pairwise' hs h2 (hp.trans ((Tuple.sort V).ofFn_comp_perm V).symm)
  unfold selected
  refine Finset.sum_congr rfl fun i _ => ?_
  rw [e, List.getD, List.getElem?_ofFn, dif_pos i.2]
  rfl

theorem selected_avg {N : ℕ} {W : Fin N → ℝ} (hW : Antitone W) (V : Fin N → ℝ) :
    N * selected W V ≤ (∑ i, W i) * ∑ i, V i := by
  have h := (cheb hW (Tuple.monotone_sort V)).1
  rwa [show ∑ i, (V ∘ Tuple.sort V) i = ∑ i, V i from (Tuple.sort V).sum_comp univ V (by simp)] at h

theorem selected_avg_lt {N : ℕ} {W : Fin N → ℝ} (hW : Antitone W) {V : Fin N → ℝ} (hN : 0 < N)
    (hlt : W ⟨N - 1, by omega⟩ < W ⟨0, hN⟩) {a b : Fin N} (hab : V a ≠ V b) :
    N * selected W V < (∑ i, W i) * ∑ i, V i := by
  have hm := Tuple.monotone_sort V
  have h := (cheb hW hm).2 ⟨0, hN⟩ ⟨N - 1, by omega⟩ hlt
  rw [show ∑ i, (V ∘ Tuple.sort V) i = ∑ i, V i from (Tuple.sort V).sum_comp univ V (by simp)] at h
  refine h (lt_of_not_ge fun hge => hab ?_)
  have hb : ∀ i, V i = (V ∘ Tuple.sort V) ⟨0, hN⟩ := by
    intro i
    obtain ⟨j, rfl⟩ := (Tuple.sort V).surjective i
    have h1 : (V ∘ Tuple.sort V) ⟨0, hN⟩ ≤ (V ∘ Tuple.sort V) j := hm (Fin.mk_le_of_le_val (Nat.zero_le _))
    have h2 : (V ∘ Tuple.sort V) j ≤ (V ∘ Tuple.sort V) ⟨N - 1, by omega⟩ :=
      hm (by rw [Fin.le_def]; show j.val ≤ N - 1; omega)
    exact le_antisymm (h2.trans hge) h1
  rw [hb a, hb b]

theorem selected_inf {N : ℕ} {W : Fin N → ℝ} (hW : Antitone W) :
    selected W = (Finset.univ : Finset (Equiv.Perm (Fin N))).inf' univ_nonempty
      (fun (t : Equiv.Perm (Fin N)) V => ∑ i, W i * V (t i)) := by
  funext V
  rw [Finset.inf'_apply]
  refine le_antisymm (Finset.le_inf' _ _ fun t _ => ?_) (Finset.inf'_le _ (Finset.mem_univ (Tuple.sort V)))
  have h := (hW.antivary (Tuple.monotone_sort V)).sum_mul_le_sum_mul_comp_perm (σ := t.trans (Tuple.sort V).symm)
  simpa [selected] using h

theorem selected_measurable {N : ℕ} {W : Fin N → ℝ} (hW : Antitone W) : Measurable (selected W) := by
  rw [selected_inf hW]
  exact Finset.inf'_induction univ_nonempty _ (p := Measurable) (fun _ hf _ hg => hf.inf hg) fun t _ => by fun_prop

theorem selected_abs {N : ℕ} (W V : Fin N → ℝ) : |selected W V| ≤ (∑ i, |W i|) * ∑ j, |V j| := by
  unfold selected
  refine (Finset.abs_sum_le_sum_abs _ _).trans ?_
  rw [Finset.sum_mul]
  refine Finset.sum_le_sum fun i _ => ?_
  rw [abs_mul]
  exact mul_le_mul_of_nonneg_left (Finset.single_le_sum (f := fun j => |V j|) (fun _ _ => abs_nonneg _) (Finset.mem_univ _))
    (abs_nonneg _)

theorem rankWeight_strict {p : Params n} (hw : GoodWeights p) {N : ℕ} (hN : 2 ≤ N) :
    rankWeight p (N - 1) < rankWeight p 0 := by
  unfold rankWeight
  rw [if_pos (show 0 < p.mu from hw.mu_pos)]
  split_ifs with h
  · exact hw.dec 0 (N - 1) (by omega) h
  · exact hw.pos 0 hw.mu_pos

/-- The mean value of the selected candidates, in terms of the values of the population. -/
theorem tell_selected {env : Env n} {s s' : Strat n} {F : Vec n → ℝ} (hw : GoodWeights s.p) (huh : s.p.uh = false)
    {N : ℕ} (hN : s.sol.cands.length = N) (V : Fin N → ℝ)
    (hv : ∀ i : Fin N, ∃ c, s.sol.cands[i.val]? = some c ∧ c.fvalue = .num (V i : EReal) ∧ F c.x = V i)
    (h : s.tell env = .ok s') :
    s.p.mu ≤ N ∧ s'.sol.xmean = ∑ i ∈ range s.p.mu, s.p.weights i • candX s'.sol.cands i ∧
      ∑ i ∈ range s.p.mu, s.p.weights i * F (candX s'.sol.cands i) = selected (fun i : Fin N => rankWeight s.p i) V := by
  obtain ⟨hmu, hperm, hsort, hx⟩ := tell_values (F := F) hw huh (fun c hc => by
    obtain ⟨r, hr, rfl⟩ := List.mem_iff_getElem.1 hc
    obtain ⟨c', h1, h2, h3⟩ := hv ⟨r, hN ▸ hr⟩
    rw [List.getElem?_eq_getElem hr] at h1
    injection h1 with h1
    rw [h1, h2, h3]) h
  have hmu' : s.p.mu ≤ N := by rw [← hN, ← hperm.length_eq]; exact hmu
  refine ⟨hmu', hx, ?_⟩
  have e : s.sol.cands.map (fun c => F c.x) = List.ofFn V := by
    refine List.ext_getElem? fun r => ?_
    rw [List.getElem?_map, List.getElem?_ofFn]
    split_ifs with hr
    · obtain ⟨c', h1, h2, h3⟩ := hv ⟨r, hr⟩
      rw [h1, Option.map_some, h3]
    · rw [List.getElem?_eq_none (by omega)]; rfl
  have hs := selected_of (fun i : Fin N => rankWeight s.p i) V (L := s'.sol.cands.map fun c => F c.x)
    (List.pairwise_map.2 hsort) (e ▸ hperm.map _)
  rw [← hs, sum_rankWeight s.p hmu' fun i => (s'.sol.cands.map fun c => F c.x).getD i 0]
  refine Finset.sum_congr rfl fun i hi => ?_
  have hi' : i < s'.sol.cands.length := lt_of_lt_of_le (Finset.mem_range.1 hi) hmu
  unfold candX
  rw [List.getD, List.getD, List.getElem?_map, List.getElem?_eq_getElem hi']
  rfl

/-- A generation on an objective that `F` describes. -/
theorem generation_selected {env : Env n} {s s' : Strat n} {pop : List (Vec n)} {s1 : Strat n} {g : Vec n → FVal}
    {F : Vec n → ℝ} (hN : NeutralSet s) (hneg : s.negate = s.p.maximize) (hdet : ∀ k y, env.f k y = g y)
    (hF : Scores s.p g F) (ha : s.ask env = .ok (pop, s1)) (h : s.generation env = .ok s') {N : ℕ}
    (hl : pop.length = N) (V : Fin N → ℝ) (hV : ∀ i : Fin N, ∃ x, pop[i.val]? = some x ∧ F x = V i) :
    ∃ x : ℕ → Vec n, s.p.mu ≤ N ∧ s'.sol.xmean = ∑ i ∈ range s.p.mu, s.p.weights i • x i ∧
      ∑ i ∈ range s.p.mu, s.p.weights i * F (x i) = selected (fun i : Fin N => rankWeight s.p i) V := by
  obtain ⟨phen, s2, s3, h1, h2, h3, h4, h5, h6⟩ := generation_values hN hneg hdet ha h
  subst h3
  have := tell_selected (F := F) (by rw [h4]; exact hN.good.weights) (by rw [h4]; exact hN.uh) (h5.trans hl) V
    (fun i => by
      obtain ⟨x, y, a1, a2, a3⟩ := h6 i.val (by rw [hl]; exact i.2)
      obtain ⟨x', b1, b2⟩ := hV i
      rw [a1] at b1
      injection b1 with b1
      subst b1
      obtain ⟨y', c1, c2⟩ := hF x
      rw [a2] at c1
      injection c1 with c1
      subst c1
      exact ⟨_, a3, by show (if s.p.maximize then (g y).neg else g y) = _; rw [c2, b2], b2⟩) h2
  rw [h4] at this
  exact ⟨candX s3.sol.cands, this⟩

/-- The candidates, as affine images of the draws. -/
theorem ask_drawn {Ω : Type*} [MeasurableSpace Ω] {P : Measure Ω} {Z : ℕ → Ω → Vec n} (hZ : StdDraws P Z)
    {env0 env : Env n} {kind : CovKind} {p : Params n} {s0 s : Strat n} {tr : List (List (Cand n))}
    {pop : Ω → List (Vec n)} {s1 : Ω → Strat n} (hu : Usual kind p) (hfx : p.fixedP = [])
    (hl : p.sep = true ∨ p.lazyUpdate = false) (h0 : Strat.new env0 kind p = .ok s0) (h : AskRun env0 s0 tr s)
    (ha : ∀ ω, s.ask (drawn env Z ω) = .ok (pop ω, s1 ω)) :
    ∃ A : Mat n, A * Aᵀ = searchCov p s.sol ∧ ∀ ω, (pop ω).length = p.lambda ∧ ∀ j < p.lambda,
      (pop ω)[j]? = some (s.sol.xmean + s.sol.sigma • A.mulVec (Z (s.nz + j) ω)) := by
  obtain ⟨_, _, hkd, hp0, _, hf, hn0, _⟩ := Strat.new_ok h0
  obtain ⟨r1, _⟩ := run_p h.run
  have hp : s.p = { p with sigmaInit := s0.sol.sigma } := by rw [r1, hp0]
  have hlen : ∀ ω, (pop ω).length = p.lambda := by
    intro ω
    have := (C19_fixed (drawn env Z ω) s (s1 ω) (pop ω) (by rw [hp]; show (p.fixedP.map _).Nodup; rw [hfx]; simp) (ha ω)).1
    rwa [hp] at this
  have hfree : ∀ i, Free s.p i := fun i v hv => by
    rw [hp] at hv
    have hv' : (_, v) ∈ p.fixedP := hv
    rw [hfx] at hv'; cases hv'
  unfold searchCov
  by_cases hsep : p.sep = true
  · rw [if_pos hsep]
    have hg := fun ω => C19_sep (drawn env Z ω) s (s1 ω) (pop ω) (by rw [hp]; exact hsep) (by rw [hp]; exact hu.grad)
      (Or.inl (by rw [hp]; exact hu.tpa)) (ha ω)
    obtain ⟨ω0⟩ : Nonempty Ω := @nonempty_of_isProbabilityMeasure _ _ P hZ.indep.isProbabilityMeasure
    refine ⟨diagonal fun i => Real.sqrt (s.sol.sepcov i), ?_, fun ω => ⟨hlen ω, fun j hj => ?_⟩⟩
    · rw [diagonal_transpose, diagonal_mul_diagonal]
      congr 1
      funext i
      exact Real.mul_self_sqrt ((hg ω0).1 i)
    · obtain ⟨x, h1, h2⟩ := (hg ω).2 j (by rw [hp]; exact hj)
      rw [h1]
      congr 1
      funext i
      rw [h2 i (hfree i), Pi.add_apply, Pi.smul_apply, mulVec_diagonal]
      rfl
  · rw [if_neg hsep]
    have hsep' : p.sep = false := by simpa using hsep
    have hlz : p.lazyUpdate = false := by simpa [hsep] using hl
    have hpsd : PSD s.sol.cov := by
      rcases kind with _ | _ | _
      · exact (C26_cov_from_start env0 p s0 s tr hu.configured h0 h.run).1
      · exact (C27_active_pd_from_start env0 p s0 s tr hu.configured hu.strict hsep' hu.vd hlz h0 h).psd
      · exact absurd rfl hu.update
    obtain ⟨A, hA, hg⟩ := C19_full env.eig s.sol.cov hpsd
    refine ⟨A, hA, fun ω => ⟨hlen ω, fun j hj => ?_⟩⟩
    obtain ⟨x, h1, h2⟩ := hg (drawn env Z ω) s (s1 ω) (pop ω) rfl rfl (by rw [hp]; exact hsep') (by rw [hp]; exact hu.vd)
      (by rw [hp]; exact hu.grad) (Or.inl (by rw [hp]; exact hu.tpa)) (Or.inl (by rw [hp]; exact hlz)) (ha ω) j
      (by rw [hp]; exact hj)
    rw [h1]
    congr 1
    funext i
    rw [h2 i (hfree i)]
    rfl

/-! ### Linear functions of normal draws -/

variable {Ω : Type*} [MeasurableSpace Ω] {P : Measure Ω}

theorem linear_law {Z : ℕ → Ω → Vec n} (hZ : StdDraws P Z) {m : ℕ} (q : Fin m → ℕ) (hq : q.Injective) (w : Fin m → ℝ)
    (r : Vec n) (μ : ℝ) :
    HasLaw (fun ω => μ + ∑ i, w i * (r ⬝ᵥ Z (q i) ω)) (gaussianReal μ ((∑ i, w i ^ 2) * (r ⬝ᵥ r)).toNNReal) P := by
  have h := isNormal_weighted hZ q hq w (Matrix.of fun (_ : Fin 1) k => r k) (fun _ => μ)
  have hm := (measurePreserving_eval_multivariateGaussian (μ := toLp 2 fun _ : Fin 1 => μ) h.1 (i := 0)).hasLaw
  have := hm.comp h.2
  convert this using 2
  · simp [Matrix.mulVec, dotProduct]
  · congr 1

theorem half_below {X : Ω → ℝ} {μ : ℝ} {v : NNReal} (hv : v ≠ 0) (h : HasLaw X (gaussianReal μ v) P) :
    P {ω | X ω < μ} = 1 / 2 := by
  have := nullSingletonClass_gaussianReal (μ := μ) hv
  have e1 : P {ω | X ω < μ} = gaussianReal μ v (Set.Iio μ) := by
    rw [← h.map_eq, Measure.map_apply_of_aemeasurable h.aemeasurable measurableSet_Iio]; rfl
  rw [e1]
  have e2 : gaussianReal μ v (Set.Iio μ) = gaussianReal μ v (Set.Ioi μ) := by
    have hm := gaussianReal_map_const_sub (μ := μ) (v := v) (2 * μ)
    rw [show 2 * μ - μ = μ by ring] at hm
    conv_lhs => rw [← hm]
    rw [Measure.map_apply (by fun_prop) measurableSet_Iio]
    congr 1
    ext x
    simp only [Set.mem_preimage, Set.mem_Iio, Set.mem_Ioi]
    constructor <;> intro h <;> linarith
  have e3 : gaussianReal μ v (Set.Ici μ) = gaussianReal μ v (Set.Ioi μ) := measure_congr Ioi_ae_eq_Ici.symm
  have e4 : gaussianReal μ v (Set.Iio μ) + gaussianReal μ v (Set.Ici μ) = 1 := by
    rw [← Set.compl_Iio, measure_add_measure_compl measurableSet_Iio, measure_univ]
  rw [e3, ← e2, ← two_mul] at e4
  rw [ENNReal.eq_div_iff (by simp) (by simp), e4]

theorem null_eq {X : Ω → ℝ} {μ : ℝ} {v : NNReal} (hv : v ≠ 0) (h : HasLaw X (gaussianReal μ v) P) (c : ℝ) :
    ∀ᵐ ω ∂P, X ω ≠ c := by
  have := nullSingletonClass_gaussianReal (μ := μ) hv
  have e1 : P {ω | X ω = c} = gaussianReal μ v {c} := by
    rw [← h.map_eq, Measure.map_apply_of_aemeasurable h.aemeasurable (measurableSet_singleton c)]; rfl
  rw [measure_singleton] at e1
  rw [ae_iff]
  simpa using e1

theorem law_integrable {X : Ω → ℝ} {μ : ℝ} {v : NNReal} (h : HasLaw X (gaussianReal μ v) P) : Integrable X P := by
  have : Integrable (fun x : ℝ => x) (P.map X) := by
    rw [h.map_eq]
    exact IsGaussian.integrable_fun_id
  exact (integrable_map_measure (by fun_prop) h.aemeasurable).1 this

theorem law_integral {X : Ω → ℝ} {μ : ℝ} {v : NNReal} (h : HasLaw X (gaussianReal μ v) P) : ∫ ω, X ω ∂P = μ := by
  rw [h.integral_eq, integral_id_gaussianReal]

/-! ### Means and runs -/

theorem convex_le {F : Vec n → ℝ} (hF : ConvexOn ℝ Set.univ F) {p : Params n} (hw : GoodWeights p) (x : ℕ → Vec n) :
    F (∑ i ∈ range p.mu, p.weights i • x i) ≤ ∑ i ∈ range p.mu, p.weights i * F (x i) := by
  have := hF.map_sum_le (t := range p.mu) (w := p.weights) (p := x) (fun i hi => (hw.pos i (mem_range.1 hi)).le) hw.sum_one
    (fun _ _ => Set.mem_univ _)
  simpa using this

theorem affine_eq {p : Params n} (hw : GoodWeights p) (x : ℕ → Vec n) (a : Vec n) (b : ℝ) :
    a ⬝ᵥ (∑ i ∈ range p.mu, p.weights i • x i) + b = ∑ i ∈ range p.mu, p.weights i * (a ⬝ᵥ x i + b) := by
  simp_rw [mul_add, sum_add_distrib, ← sum_mul, hw.sum_one, one_mul, dotProduct_sum, dotProduct_smul, smul_eq_mul]

/-- A run of default settings on an objective without NaN values. -/
theorem default_run (hn : 1 ≤ n) (kind : CovKind) (hk : kind ≠ .vd) (diag : Bool) (x0 : Vec n) (sigma : ℝ) (k : ℕ)
    (env : Env n) (hnum : ∀ j y, (env.f j y).IsNum) :
    ∃ (p : Params n) (s0 s : Strat n) (tr : List (List (Cand n))), Usual kind p ∧ NoExtras p ∧ p.sep = diag ∧
      p.lazyUpdate = false ∧ p.gp = GenoPheno.plain ∧ p.maximize = false ∧ Strat.new env kind p = .ok s0 ∧
      AskRun env s0 tr s ∧ tr.length = k ∧
      ∀ env' : Env n, (∀ j y, (env'.f j y).IsNum) → ∃ s', s.generation env' = .ok s' := by
  obtain ⟨q, hq1, hq2, hq3, hq4, hq5, hmax⟩ := flat_setup_min hn kind hk diag x0 sigma
  obtain ⟨s0, hs0⟩ := new_plain (env := env) (kind := kind) hq5 hq1.configured.good.1
  obtain ⟨hL, hr⟩ := live_new hq1 hs0
  have hgp0 : s0.p.gp = GenoPheno.plain := by rw [(Strat.new_ok hs0).2.2.2.1]; exact hq5
  obtain ⟨tr, s, h1, hrun, htr, hNN, h2, h3, h4⟩ := generations_noNaN hL hr hnum
    (fun x => by rw [hgp0, phenoV_plain]; exact ⟨x, rfl⟩) k
  refine ⟨q, s0, s, tr, hq1, hq2, hq3, hq4, hq5, hmax, hs0, hrun, htr, fun env' hnum' => ?_⟩
  rcases generation_total_num (env := env') h2 hnum' h3 with ⟨s', a, _⟩ | ⟨x, e, a, _⟩
  · exact ⟨s', a⟩
  · rw [h4, hgp0, phenoV_plain] at a; cases a

theorem scores_plain {p : Params n} (hg : p.gp = GenoPheno.plain) (hm : p.maximize = false) (F : Vec n → ℝ) :
    Scores p (fun y => .num (F y : EReal)) F := by
  intro x
  exact ⟨x, by rw [hg, phenoV_plain], by rw [hm]; rfl⟩

end Libcmaes
