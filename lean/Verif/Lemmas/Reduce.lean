import Verif.Model.Reduce
import Verif.Lemmas.Resume
import Verif.Lemmas.ErrStatsEnds
import Verif.Lemmas.Gauss
import Verif.Lemmas.PwqVec
import Verif.Lemmas.Stats
import Verif.Props.Bounds

/-!
# Removing a coordinate
-/

namespace Libcmaes

open Spec Matrix Finset MeasureTheory ProbabilityTheory WithLp

variable {n : ℕ}

/-- `dropVec` is `removeElement`. -/
theorem removeElement_ofFn (k : Fin (n + 1)) (x : Vec (n + 1)) :
    removeElement (List.ofFn x) k = List.ofFn (dropVec k x) := by
  refine List.ext_getElem? fun i => ?_
  rw [getElem?_removeElement _ _ _ (by rw [List.length_ofFn]; exact k.isLt)]
  simp only [List.getElem?_ofFn]
  by_cases hi : i < n
  · rw [dif_pos hi]
    split_ifs with h1 h2 h2
    · congr 2
      rw [Fin.succAbove_of_castSucc_lt _ _ (by rw [Fin.lt_def]; exact h1)]
      rfl
    · omega
    · congr 2
      rw [Fin.succAbove_of_le_castSucc _ _ (by rw [Fin.le_def]; exact not_lt.1 h1)]
      rfl
    · omega
  · rw [dif_neg hi]
    have := k.isLt
    split_ifs with h1 h2 h2
    · omega
    · rfl
    · omega
    · rfl

/-- The rows of a matrix. -/
def matRows {m : ℕ} (c : Mat m) : List (List ℝ) := List.ofFn fun i => List.ofFn (c i)

theorem take_append_drop_ofFn {α : Type} (k : Fin (n + 1)) (f : Fin (n + 1) → α) :
    (List.ofFn f).take k ++ (List.ofFn f).drop (k + 1) = List.ofFn fun i => f (k.succAbove i) := by
  refine List.ext_getElem? fun i => ?_
  have hk := k.isLt
  by_cases h1 : i < k
  · rw [List.getElem?_append_left (by simp; omega), List.getElem?_take_of_lt h1]
    simp only [List.getElem?_ofFn]
    rw [dif_pos (by omega), dif_pos (by omega)]
    congr 2
    rw [Fin.succAbove_of_castSucc_lt _ _ (by rw [Fin.lt_def]; exact h1)]
    rfl
  · rw [List.getElem?_append_right (by simp; omega), List.getElem?_drop]
    simp only [List.length_take, List.length_ofFn, List.getElem?_ofFn]
    have e : k.val + 1 + (i - min k.val (n + 1)) = i + 1 := by omega
    rw [e]
    by_cases h2 : i < n
    · rw [dif_pos (by omega), dif_pos h2]
      congr 2
      rw [Fin.succAbove_of_le_castSucc _ _ (by rw [Fin.le_def]; exact not_lt.1 h1)]
      rfl
    · rw [dif_neg (by omega), dif_neg h2]

theorem take_ofFn_last {α : Type} (k : Fin (n + 1)) (hk : ¬ k.val < n) (f : Fin (n + 1) → α) :
    (List.ofFn f).take n = List.ofFn fun i => f (k.succAbove i) := by
  rw [← take_append_drop_ofFn, show k.val = n by have := k.isLt; omega, List.drop_of_length_le (by simp),
    List.append_nil]

/-- `dropMat` is `removeRow` followed by `removeColumn`. -/
theorem removeRowColumn_rows (k : Fin (n + 1)) (c : Mat (n + 1)) :
    (removeRow (matRows c) k >>= fun m => removeColumn (n + 1) m k) = .ok (matRows (dropMat k c)) := by
  have h1 : removeRow (matRows c) k = .ok (List.ofFn fun i => List.ofFn (c (k.succAbove i))) := by
    unfold removeRow matRows
    rw [if_neg (by simp)]
    simp only [List.length_ofFn, Nat.add_sub_cancel]
    split_ifs with h
    · rw [take_append_drop_ofFn]
    · rw [take_ofFn_last k h]
  rw [h1, Out.ok_bind]
  unfold removeColumn matRows
  rw [if_neg (by omega)]
  simp only [Nat.add_sub_cancel, List.map_ofFn]
  split_ifs with h
  · congr 2
    funext i
    exact take_append_drop_ofFn k (c (k.succAbove i))
  · congr 2
    funext i
    exact take_ofFn_last k h (c (k.succAbove i))

/-- A vector with a zero put in at `k`. -/
def padZero (k : Fin (n + 1)) (x : Vec n) : Vec (n + 1) := k.insertNth 0 x

theorem quad_dropMat (k : Fin (n + 1)) (c : Mat (n + 1)) (x : Vec n) :
    quad (dropMat k c) x = quad c (padZero k x) := by
  unfold quad
  simp only [dotProduct, mulVec]
  rw [Fin.sum_univ_succAbove _ k]
  simp only [padZero, Fin.insertNth_apply_same, zero_mul, zero_add, Fin.insertNth_apply_succAbove]
  refine Finset.sum_congr rfl fun i _ => ?_
  rw [Fin.sum_univ_succAbove _ k]
  simp only [Fin.insertNth_apply_same, mul_zero, zero_add, Fin.insertNth_apply_succAbove]
  rfl

theorem PD_dropMat (k : Fin (n + 1)) {c : Mat (n + 1)} (h : PD c) : PD (dropMat k c) := by
  refine ⟨?_, fun x hx => ?_⟩
  · ext i j
    show c _ _ = c _ _
    exact congrFun (congrFun h.symm _) _
  · rw [quad_dropMat]
    refine h.pos _ fun he => hx ?_
    funext i
    have := congrFun he (k.succAbove i)
    simpa [padZero] using this

/-- Some coordinates of a normal vector. -/
theorem Spec.IsNormal.marginal {Ω : Type*} [MeasurableSpace Ω] {P : Measure Ω} {ι κ : Type*} [Fintype ι] [DecidableEq ι]
    [Fintype κ] [DecidableEq κ] {X : Ω → ι → ℝ} {m : ι → ℝ} {S : Matrix ι ι ℝ} (h : IsNormal P X m S) (e : κ → ι) :
    IsNormal P (fun ω a => X ω (e a)) (fun a => m (e a)) (S.submatrix e e) := by
  refine ⟨h.1.submatrix e, ?_⟩
  set L : EuclideanSpace ℝ ι →L[ℝ] EuclideanSpace ℝ κ :=
    ((EuclideanSpace.equiv κ ℝ).symm.toContinuousLinearMap).comp
      (ContinuousLinearMap.pi fun a => EuclideanSpace.proj (e a)) with hL
  have hLx : ∀ x a, L x a = x (e a) := fun x a => rfl
  have hmap : Measure.map L (multivariateGaussian (toLp 2 m) S) =
      multivariateGaussian (toLp 2 fun a => m (e a)) (S.submatrix e e) := by
    apply IsGaussian.ext
    · simp only [id_eq, integral_id_multivariateGaussian]
      rw [ContinuousLinearMap.integral_id_map, integral_id_multivariateGaussian]
      · rfl
      · exact IsGaussian.integrable_id
    rw [← ContinuousLinearMap.toBilinForm_inj]
    refine LinearMap.BilinForm.ext_basis (EuclideanSpace.basisFun κ ℝ).toBasis fun i j ↦ ?_
    rw [ContinuousLinearMap.toBilinForm_apply, ContinuousLinearMap.toBilinForm_apply,
      covarianceBilin_apply_eq_cov, covariance_map]
    · have (i : κ) : (fun u ↦ inner ℝ ((EuclideanSpace.basisFun κ ℝ).toBasis i) u) ∘ L = fun u ↦ u (e i) := by
        ext u
        simp [PiLp.inner_apply, hLx]
      simp_rw [this, covariance_eval_multivariateGaussian h.1,
        covarianceBilin_multivariateGaussian (h.1.submatrix _)]
      simp
    any_goals exact Measurable.aestronglyMeasurable (by fun_prop)
    · fun_prop
    · exact IsGaussian.memLp_two_id
  have h2 := h.2
  refine ⟨?_, ?_⟩
  · exact (L.continuous.measurable.comp_aemeasurable h2.aemeasurable :)
  · rw [← hmap, ← h2.map_eq, AEMeasurable.map_map_of_aemeasurable L.continuous.aemeasurable h2.aemeasurable]
    rfl

/-- The weights left after `reset_as_fixed`: all of them if the index is not one of theirs. -/
theorem resetAsFixed_weights {k : Fin (n + 1)} {p : Params (n + 1)} (hk : p.mu ≤ k.val) :
    (p.resetAsFixed k).2 = p.mu ∧ (p.resetAsFixed k).1.weights = p.weights := by
  unfold Params.resetAsFixed
  exact ⟨if_neg (by omega), if_neg (by omega)⟩

/-- Then the parameters are fit for a search. -/
theorem resetAsFixed_good {kind : CovKind} {k : Fin (n + 1)} {p : Params (n + 1)} (hn : 1 ≤ n) (hu : GoodRun kind p)
    (hf : p.fixedP = []) (hk : p.mu ≤ k.val) : GoodRun kind (p.resetAsFixed k).1 := by
  have hg := hu.good
  obtain ⟨-, hw⟩ := resetAsFixed_weights hk
  refine ⟨⟨hn, hg.lambda, hg.mu, ⟨hg.weights.mu_pos, ?_, ?_, ?_⟩, ?_, hg.muw, hg.chi, hg.alphathuh, hg.rlambda, ?_, ?_, ?_⟩,
    ⟨hu.strict.1, hu.strict.2⟩, hu.update, hu.vd, hu.lazy, hu.grad, hu.uh, hu.tpa⟩
  · rw [hw]; exact hg.weights.pos
  · rw [hw]; exact hg.weights.dec
  · rw [hw]; exact hg.weights.sum_one
  · have := hg.rates
    exact ⟨this.c1_pos, this.cmu_nonneg, this.c1_cmu_le, this.cc_pos, this.cc_le, this.csigma_pos, this.csigma_lt,
      this.dsigma_pos⟩
  · show ∀ q ∈ p.fixedP, _
    rw [hf]; intro q hq; cases hq
  · show (p.fixedP.map Prod.fst).Nodup
    rw [hf]; exact List.nodup_nil
  · show p.fixedP.length < n
    rw [hf]; exact hn

/-- A generation with too few weights. -/
theorem generationW_ub {env : Env n} {s : Strat n} {nw : ℕ} (hA : AskLive s) (hl : 2 ≤ s.p.lambda) (huh : s.p.uh = false)
    (hc : s.sol.cands.length = s.p.lambda) (hel : s.elitismOn = false)
    (hph : ∀ x : Vec n, ∃ y : Vec n, phenoV s.p.gp x = .ok y) (hw : nw < s.p.mu) :
    s.generationW nw env = .error .ub := by
  obtain ⟨pop, s1, hask, -⟩ := Strat.ask_total (env := env) hA
  obtain ⟨⟨es, ei, ue, c, nz, x1, x2, p1, p2, e1⟩, hpl⟩ := Strat.ask_frame hask
  have hel1 : s1.elitismOn = false := by rw [e1]; exact hel
  obtain ⟨phen, hphen⟩ : ∃ phen, s1.phenoCols pop = .ok phen :=
    Out.mapM_ok_of fun x _ => by rw [e1]; exact hph x
  have hphl : phen.length = s.p.lambda := by rw [← hpl]; exact (Out.mapM_length hphen).symm
  obtain ⟨s2, hev⟩ := Strat.eval_total (env := env) (s := s1) (cols := pop) (phen := phen)
    (by rw [e1]; exact huh) (by rw [e1]; exact hl) (by rw [e1]; exact hc)
    (by rw [hpl, e1]) (by rw [hphl, e1]) (by rw [hel1]; intro h; cases h)
  obtain ⟨c2, nu, nzuh, lr, cu, cs, e2, hcs, _⟩ := Strat.eval_frame hev
  unfold Strat.generationW
  rw [hask, Out.ok_bind]
  simp only
  rw [hphen, Out.ok_bind, hev, Out.ok_bind, if_pos (by rw [e2, e1]; exact hw)]
  rfl

/-- With all weights there, a generation is a generation. -/
theorem generationW_eq {env : Env n} {s : Strat n} : s.generationW s.p.mu env = s.generation env := by
  unfold Strat.generationW Strat.generation
  cases hask : s.ask env with
  | error e => rfl
  | ok o =>
    obtain ⟨pop, s1⟩ := o
    obtain ⟨⟨es, ei, ue, c, nz, x1, x2, p1, p2, e1⟩, hpl⟩ := Strat.ask_frame hask
    simp only [Out.ok_bind]
    cases hph : s1.phenoCols pop with
    | error e => rfl
    | ok phen =>
      simp only [Out.ok_bind]
      cases hev : s1.eval env pop phen with
      | error e => rfl
      | ok s2 =>
        obtain ⟨c2, nu, nzuh, lr, cu, cs, e2, hcs, _⟩ := Strat.eval_frame hev
        simp only [Out.ok_bind]
        rw [if_neg (by rw [e2, e1]; exact lt_irrefl _)]

/-- Bounds for more coordinates than the point has: the first ones count. -/
theorem toF_short {lb ub : Vec (n + 1)} (hlt : ∀ i, lb i < ub i) {x : Vec n} {y : List ℝ}
    (h : (Pwq.ofBounds (List.ofFn lb) (List.ofFn ub)).toF (List.ofFn x) = .ok y) :
    ∀ i : Fin n, ∀ b, y[i.val]? = some b → lb i.castSucc ≤ b ∧ b ≤ ub i.castSucc := by
  unfold Pwq.toF at h
  rw [Out.mapM_eq_ok, forall₂_zipIdx (R := fun a i b => ((Pwq.ofBounds (List.ofFn lb) (List.ofFn ub)).coord i >>=
    fun c => c.toF a) = .ok b)] at h
  intro i b hb
  have := h.2 i.val (x i) b (by simp) hb
  rw [Pwq.ofBounds, coord_ofBounds5 (l := lb i.castSucc) (u := ub i.castSucc)
    (by rw [List.getElem?_ofFn, dif_pos (by have := i.isLt; omega)]; rfl)
    (by rw [List.getElem?_ofFn, dif_pos (by have := i.isLt; omega)]; rfl), Out.ok_bind] at this
  rcases PwqCoord.toF_cases (hlt i.castSucc) (x i) with ⟨_, z, h1, h2, h3⟩ | ⟨_, h1⟩
  · rw [h1] at this; injection this with this; subst this; exact ⟨h2, h3⟩
  · rw [h1] at this; cases this

theorem chiOf_lt {d : ℝ} (hd : 1 ≤ d) : chiOf d < chiOf (d + 1) := by
  have h1 : (0 : ℝ) < d := by linarith
  have hs1 : 0 < Real.sqrt d := Real.sqrt_pos.2 h1
  have hs2 : Real.sqrt d < Real.sqrt (d + 1) := Real.sqrt_lt_sqrt h1.le (by linarith)
  unfold chiOf
  refine mul_lt_mul hs2 ?_ ?_ (Real.sqrt_nonneg _)
  · have : 1 / (4 * (d + 1)) - 1 / (21 * (d + 1) * (d + 1)) - (1 / (4 * d) - 1 / (21 * d * d)) ≤ 0 := by
      have e : 1 / (4 * (d + 1)) - 1 / (21 * (d + 1) * (d + 1)) - (1 / (4 * d) - 1 / (21 * d * d)) =
          -((21 * d * (d + 1) - 4 * (2 * d + 1)) / (84 * d ^ 2 * (d + 1) ^ 2)) := by
        field_simp
        ring
      rw [e]
      refine neg_nonpos.2 (div_nonneg ?_ (by positivity))
      nlinarith
    linarith
  · have : 1 / (4 * d) ≤ 1 / 4 := one_div_le_one_div_of_le (by norm_num) (by linarith)
    have : 0 ≤ 1 / (21 * d * d) := by positivity
    linarith

end Libcmaes
