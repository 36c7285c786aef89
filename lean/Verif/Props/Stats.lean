import Verif.Lemmas.Stats
import Verif.Lemmas.Restart
import Verif.Props.Params
import Verif.Props.Eval

/-!
# Statistics of a solution

C63 correlations, C65 reported standard deviations.
-/

namespace Libcmaes

open Spec Matrix

variable {n : ℕ}

/-! ### C63 -/

/-- **C63.** Whenever the covariance is positive definite, `corr()` is its correlation matrix: symmetric,
unit diagonal, entries in `[-1,1]`, and `corr(i,j)` is its entry.  For a full covariance and for the VD
form. -/
theorem C63_corr (s : Sol n) (hs : s.hasCov = true ∨ (s.hasV = true ∧ s.hasSep = true)) (hC : PD s.fullCov) :
    ∃ R : Mat n, s.corr = .ok (.square R) ∧ IsCorrelation s.fullCov R ∧ ∀ i j, s.corrAt i j = .ok (R i j) := by
  refine ⟨_, ?_, isCorrelation_of_pd hC, ?_⟩
  · unfold Sol.corr Sol.fullCov at *
    by_cases hc : s.hasCov = true
    · rw [if_pos hc] at hC ⊢
      rw [corrOf_pd hC, if_pos hc]; rfl
    · rw [if_neg hc] at hC ⊢
      have hv := (hs.resolve_left hc).1
      rw [if_pos hv] at hC ⊢
      rw [corrOf_pd hC, if_neg hc, if_pos hv]; rfl
  · intro i j
    have hd := (isCorrelation_of_pd hC).diag
    unfold Sol.corrAt
    by_cases hij : i = j
    · subst hij
      rw [if_pos rfl, hd]; rfl
    · rw [if_neg hij]
      have hp := hC.diag_pos
      have hr : ∀ k, 0 < Real.sqrt (s.fullCov k k) := fun k => Real.sqrt_pos.2 (hp k)
      unfold Sol.fullCov at *
      by_cases hc : s.hasCov = true
      · rw [if_pos hc] at hC hp hr ⊢
        rw [stds_full hc fun i => (hp i).le, Out.ok_bind, if_pos hc]
        unfold divR
        rw [if_neg (mul_pos (hr i) (hr j)).ne', div_eq_mul_inv, mul_inv, mul_assoc]
      · rw [if_neg hc] at hC hp hr ⊢
        obtain ⟨hv, hsep⟩ := hs.resolve_left hc
        rw [if_pos hv] at hC hp hr ⊢
        rw [stds_vd hv hsep, Out.ok_bind, if_neg hc, if_pos hv]
        have hne := (mul_pos (hr i) (hr j)).ne'
        show divR (vdCov ![s.sepcov i, s.sepcov j] ![s.v i, s.v j] 0 1)
          (Real.sqrt (vdCov s.sepcov s.v i i) * Real.sqrt (vdCov s.sepcov s.v j j)) = _
        have he : vdCov ![s.sepcov i, s.sepcov j] ![s.v i, s.v j] 0 1 = vdCov s.sepcov s.v i j := by
          rw [vdCov_apply, vdCov_apply, one_apply_ne hij, one_apply_ne (by decide)]; rfl
        unfold divR
        rw [if_neg hne, he, div_eq_mul_inv, mul_inv, mul_assoc]

/-- When `D (I + v v^T) D` is positive definite: no entry of `D` is zero. -/
theorem C63_vd (s : Sol n) (hc : s.hasCov = false) (hv : s.hasV = true) :
    PD s.fullCov ↔ ∀ i, s.sepcov i ≠ 0 := by
  unfold Sol.fullCov
  rw [if_neg (by rw [hc]; decide), if_pos hv]
  exact vdCov_pd _ _

/-- Runs of the optimiser with a full covariance meet the hypotheses of `C63_corr`, after any number of
generations: any parameters made by the constructor and setters and met by a normal use (`Usual`), any
objective with no NaN. -/
theorem C63_run (env : Env n) (kind : CovKind) (p : Params n) (s t : Strat n) (k : ℕ) (hu : Usual kind p)
    (hsep : p.sep = false) (hf : ∀ k y, (env.f k y).IsNum) (hs : Strat.new env kind p = .ok s)
    (ht : s.generations env k = .ok t) :
    ∃ R : Mat n, t.sol.corr = .ok (.square R) ∧ IsCorrelation t.sol.cov R ∧
      ∀ i j, t.sol.corrAt i j = .ok (R i j) := by
  obtain ⟨hL, hr⟩ := live_new hu hs
  have hp := (begins_new hs).params
  rcases generations_total hL hf hr k with ⟨t', e1, e2, e3, e4⟩ | ⟨x, e, _, h2⟩
  · have : t' = t := by rw [ht] at e1; injection e1 with e1; exact e1.symm
    subst this
    obtain ⟨h1, h2, _⟩ := e2.full (by rw [e4, hp]; exact hsep)
    have hfc : t'.sol.fullCov = t'.sol.cov := by unfold Sol.fullCov; rw [if_pos h1]
    have := C63_corr t'.sol (Or.inl h1) (by rw [hfc]; exact h2)
    rw [hfc] at this
    exact this
  · rw [ht] at h2; cases h2

/-- Default settings meet the hypotheses of `C63_run`. -/
theorem C63_witness (env : Env n) (kind : CovKind) (x0 : Vec n) (sigma : ℝ) (seed clock : ℕ) (p : Params n)
    (hk : kind ≠ .vd) (hf : ∀ k y, (env.f k y).IsNum)
    (hp : Params.make x0 sigma (-1) seed clock GenoPheno.plain = .ok p) (k : ℕ) :
    Usual kind p ∧ p.sep = false ∧ ∃ s t, Strat.new env kind p = .ok s ∧ s.generations env k = .ok t := by
  obtain ⟨hu, hgp, -⟩ := usual_default (by norm_num) hp hk
  obtain ⟨f1, f2⟩ := Params.make_flags hp
  obtain ⟨s, hs⟩ := new_plain (env := env) (kind := kind) hgp hu.configured.good.1
  obtain ⟨hL, hr⟩ := live_new hu hs
  refine ⟨hu, f1, s, ?_⟩
  rcases generations_total hL hf hr k with ⟨t, e1, -⟩ | ⟨x, e, h1, _⟩
  · exact ⟨t, hs, e1⟩
  · rw [(begins_new hs).params, show ({ p with sigmaInit := _ } : Params n).gp = GenoPheno.plain from hgp,
      phenoV_plain] at h1
    cases h1

/-- A VD search at its start meets the hypotheses of `C63_corr`, with the correlations given by the random
vector drawn by the constructor. -/
theorem C63_witness_vd (env : Env n) (kind : CovKind) (p : Params n) (s : Strat n) (hvd : p.vd = true)
    (hs : Strat.new env kind p = .ok s) :
    (s.sol.hasV = true ∧ s.sol.hasSep = true) ∧ PD s.sol.fullCov ∧
      ∀ i j, i ≠ j → s.sol.fullCov i j = s.sol.v i * s.sol.v j := by
  obtain ⟨-, -, -, -, -, hf, -, -, -, -, h1, h2, h3, -⟩ := Strat.new_ok hs
  rw [hvd] at h1 h2 h3
  have hc : s.sol.hasCov = false := by rw [h1]; cases p.sep <;> rfl
  have hS : s.sol.hasSep = true := by rw [h2]; cases p.sep <;> rfl
  have h4 : s.sol.sepcov = fun _ => 1 := funext hf.sepcov
  refine ⟨⟨h3, hS⟩, (C63_vd _ hc h3).2 fun i => by rw [h4]; exact one_ne_zero, fun i j hij => ?_⟩
  unfold Sol.fullCov
  rw [if_neg (by rw [hc]; decide), if_pos h3, vdCov_apply, one_apply_ne hij, h4]
  ring

/-- **C63** does not extend to a diagonal covariance: `corr()` is then one column of ones, not a square
matrix, while `corr(i,j)` is defined for every pair. -/
theorem C63_sep_false (env : Env n) (kind : CovKind) (p : Params n) (s : Strat n) (hsep : p.sep = true)
    (hvd : p.vd = false) (hs : Strat.new env kind p = .ok s) :
    s.sol.corr = .ok (.column fun _ => 1) ∧ PD s.sol.fullCov ∧
      ∀ i j, s.sol.corrAt i j = .ok (if i = j then 1 else 0) := by
  obtain ⟨-, -, -, -, -, hf, -, -, -, -, h1, h2, h3, -⟩ := Strat.new_ok hs
  have hc : s.sol.hasCov = false := by rw [h1, hsep]; rfl
  have hv : s.sol.hasV = false := by rw [h3, hvd]
  have h4 : s.sol.sepcov = fun _ => 1 := funext hf.sepcov
  refine ⟨?_, ?_, fun i j => ?_⟩
  · unfold Sol.corr
    rw [if_neg (by rw [hc]; decide), if_neg (by rw [hv]; decide)]; rfl
  · unfold Sol.fullCov
    rw [if_neg (by rw [hc]; decide), if_neg (by rw [hv]; decide), h4,
      show diagonal (fun _ => (1 : ℝ)) = (1 : Mat n) from diagonal_one]
    exact PD_one
  · unfold Sol.corrAt
    rw [if_neg (show ¬ s.sol.hasCov = true by rw [hc]; decide), if_neg (show ¬ s.sol.hasV = true by rw [hv]; decide)]
    split_ifs <;> rfl

/-! ### C65 -/

/-- **C65, what holds.**  With any transform, `stds` and `errors` are non-negative.  With the identity they
are `sqrt (C_ii)` and `sqrt sigma * sqrt (C_ii)`, for the three forms of the covariance; the second is not
`sigma * sqrt (C_ii)`, see `C65_false`. -/
theorem C65_errors_partial (s : Sol n) :
    (∀ (gp : GenoPheno) (sep vd : Bool) (e : Vec n), s.errors gp sep vd = .ok e → ∀ i, 0 ≤ e i) ∧
    (∀ sep vd : Bool, 0 ≤ s.sigma → PD s.fullCov → s.hasCov = (!sep && !vd) → s.hasSep = !(!sep && !vd) →
      s.hasV = vd → (sep && vd) = false →
      s.stds GenoPheno.plain sep vd = .ok (fun i => Real.sqrt (s.fullCov i i)) ∧
      s.errors GenoPheno.plain sep vd = .ok (fun i => Real.sqrt s.sigma * Real.sqrt (s.fullCov i i))) := by
  constructor
  · intro gp sep vd e h i
    unfold Sol.errors at h
    obtain ⟨sd, h1, h⟩ := Out.bind_eq_ok.1 h
    unfold Sol.stds at h1
    obtain ⟨m, _, h1⟩ := Out.bind_eq_ok.1 h1
    obtain ⟨r, _, h1⟩ := Out.bind_eq_ok.1 h1
    obtain ⟨ms, _, h1⟩ := Out.bind_eq_ok.1 h1
    injection h1 with h1
    subst h1
    split_ifs at h
    injection h with h
    subst h
    exact mul_nonneg (Real.sqrt_nonneg _) (abs_nonneg _)
  · intro sep vd hsig hC hc hs hv hx
    have key : s.stds GenoPheno.plain sep vd = .ok (fun i => Real.sqrt (s.fullCov i i)) := by
      have hp := hC.diag_pos
      unfold Sol.fullCov at *
      cases sep <;> cases vd <;> simp at hc hs hv hx
      · rw [stds_full hc]
        · simp [hc]
        · intro i; have := hp i; simp [hc] at this; exact this.le
      · rw [stds_vd hv hs]; simp [hc, hv]
      · rw [stds_sep hs]
        · simp [hc, hv]
        · intro i; have := hp i; simp [hc, hv] at this; exact this.le
    refine ⟨key, ?_⟩
    unfold Sol.errors
    rw [key, Out.ok_bind, if_pos hsig]
    rfl

/-- In a box, each reported deviation is at most `sqrt sigma` times the width of the box. -/
theorem C65_in_box (s : Sol n) (lb ub : Vec n) (gp : GenoPheno) (sep vd : Bool) (e : Vec n)
    (hg : SoundBoxTransform (List.ofFn lb) (List.ofFn ub) gp) (h : s.errors gp sep vd = .ok e) :
    ∀ i, e i ≤ Real.sqrt s.sigma * (ub i - lb i) := by
  intro i
  unfold Sol.errors at h
  obtain ⟨sd, h1, h⟩ := Out.bind_eq_ok.1 h
  unfold Sol.stds at h1
  obtain ⟨m, a1, h1⟩ := Out.bind_eq_ok.1 h1
  obtain ⟨r, _, h1⟩ := Out.bind_eq_ok.1 h1
  obtain ⟨ms, a2, h1⟩ := Out.bind_eq_ok.1 h1
  injection h1 with h1
  subst h1
  split_ifs at h
  injection h with h
  subst h
  refine mul_le_mul_of_nonneg_left ?_ (Real.sqrt_nonneg _)
  have b1 := phenoV_inBox hg a1 i
  have b2 := phenoV_inBox hg a2 i
  rw [abs_le]
  constructor <;> linarith [b1.1, b1.2, b2.1, b2.2]

/-- With linear scaling by 2 the deviations are in the user's units: halved. -/
theorem C65_scaled (s : Sol n) (hc : s.hasCov = true) (h : ∀ i, 0 ≤ s.cov i i) :
    s.stds (doubled n) false false = .ok fun i => Real.sqrt (s.cov i i) / 2 := by
  unfold Sol.stds Sol.rawStds
  rw [phenoV_doubled, Out.ok_bind]
  simp only [Bool.not_false, Bool.and_self, if_true, hc]
  unfold sqrtV
  rw [if_pos h, Out.ok_bind, phenoV_doubled, Out.ok_bind]
  show Except.ok _ = Except.ok _
  congr 1
  ext i
  rw [← sub_div, add_sub_cancel_left, abs_of_nonneg (by positivity)]

/-- **C65 is false**: a search begun with step size 4 in one dimension reports the standard deviation 2,
while the candidates are drawn with standard deviation `sigma * sqrt (C_ii) = 4`. -/
theorem C65_false :
    ∃ (env : Env 1) (p : Params 1) (s : Strat 1) (e : Vec 1), Usual .plain p ∧ Strat.new env .plain p = .ok s ∧
      s.sol.errors p.gp p.sep p.vd = .ok e ∧ e 0 = 2 ∧ s.sol.sigma * Real.sqrt (s.sol.cov 0 0) = 4 := by
  obtain ⟨p, hp, _⟩ := C11_weights (n := 1) le_rfl (fun _ => 0) 4 (-1) 0 0 GenoPheno.plain
  obtain ⟨hu, hgp, -⟩ := usual_default (by norm_num) hp (kind := .plain) (by decide)
  obtain ⟨f1, f2⟩ := Params.make_flags hp
  obtain ⟨-, -, -, -, -, -, -, -, -, -, -, -, -, hsg⟩ := Params.make_plain hp
  set env : Env 1 := Env.basic (fun _ x => FVal.ofReal (x 0)) (fun j _ => j)
  obtain ⟨s, hs⟩ := new_plain (env := env) (kind := .plain) hgp hu.configured.good.1
  obtain ⟨-, -, -, -, hpos, hf, -, -, -, -, h1, h2, h3, -⟩ := Strat.new_ok hs
  have hcov : s.sol.cov = 1 := hf.cov
  have hsig : s.sol.sigma = 4 := by rw [Strat.new_sigma hs (by rw [hsg]; norm_num), hsg]
  rw [f1, f2] at h1
  have hfc : s.sol.fullCov = 1 := by unfold Sol.fullCov; rw [if_pos (by rw [h1]; rfl), hcov]
  have key := ((C65_errors_partial s.sol).2 false false hpos.le (by rw [hfc]; exact PD_one) h1
    (by rw [h2, f1, f2]) (by rw [h3, f2]) rfl).2
  refine ⟨env, p, s, _, hu, hs, by rw [hgp, f1, f2]; exact key, ?_, ?_⟩
  · show Real.sqrt s.sol.sigma * Real.sqrt (s.sol.fullCov 0 0) = 2
    rw [hsig, hfc, one_apply_eq, Real.sqrt_one, show (4 : ℝ) = 2 ^ 2 by norm_num, Real.sqrt_sq (by norm_num)]
    norm_num
  · rw [hsig, hcov, one_apply_eq, Real.sqrt_one]; norm_num

/-- With bounds it may even report 0: bounds `[-1,1]`, start at 0.6.  One standard deviation (1 in internal
units) further, at 1.6, the bound transform folds back to 0.6. -/
theorem C65_bounds_false :
    ∃ (env : Env 1) (p : Params 1) (s : Strat 1), Usual .plain p ∧
      p.gp = GenoPheno.ofBounds none [-1] [1] ∧ Strat.new env .plain p = .ok s ∧
      s.sol.errors p.gp p.sep p.vd = .ok 0 ∧ s.sol.sigma * Real.sqrt (s.sol.cov 0 0) = 1 := by
  obtain ⟨p, hp, _⟩ := C11_weights (n := 1) le_rfl (fun _ => 0.6) 1 (-1) 0 0 (GenoPheno.ofBounds none [-1] [1])
  obtain ⟨hu, hgp, hfx, -⟩ := usual_default (by norm_num) hp (kind := .plain) (by decide)
  obtain ⟨f1, f2⟩ := Params.make_flags hp
  obtain ⟨-, -, -, -, -, -, -, -, -, -, -, hx1, hx2, hsg⟩ := Params.make_plain hp
  set env : Env 1 := Env.basic (fun _ x => FVal.ofReal (x 0)) (fun j _ => j)
  obtain ⟨s, hs⟩ := new_unscaled (env := env) (kind := .plain) (p := p) (by rw [hgp]; rfl) hu.configured.good.1
  obtain ⟨-, -, -, -, hpos, hf, -, -, -, -, h1, h2, h3, -, -, -, -, -, him, -⟩ := Strat.new_ok hs
  have hcov : s.sol.cov = 1 := hf.cov
  have hsig : s.sol.sigma = 1 := by rw [Strat.new_sigma hs (by rw [hsg]; norm_num), hsg]
  have hne : ¬ (fun _ : Fin 1 => (0.6 : ℝ)) = fun _ => -dblMax := by
    intro h
    have := congrFun h 0
    have hd : 0 < dblMax := by unfold dblMax; positivity
    norm_num at this
    linarith
  have hmean : s.sol.xmean = fun _ => 0.6 := by
    unfold initialMean at him
    rw [hx1, hx2, if_pos rfl, if_neg hne, hfx] at him
    unfold scaleToInternalV at him
    rw [hgp] at him
    simp only [setFixed, List.foldlM_nil, Out.pure_eq, Out.ok_bind] at him
    injection him with him
    exact him.symm
  rw [f1, f2] at h1
  have c1 : (PwqCoord.mk' (-1) 1).toF 0.6 = .ok 0.6 := by
    unfold PwqCoord.toF PwqCoord.shift PwqCoord.fold PwqCoord.mk'
    norm_num [Out.pure_eq, Out.ok_bind]
  have c2 : (PwqCoord.mk' (-1) 1).toF 1.6 = .ok 0.6 := by
    unfold PwqCoord.toF PwqCoord.shift PwqCoord.fold PwqCoord.mk'
    norm_num [Out.pure_eq, Out.ok_bind]
  have hph : ∀ a : ℝ, (PwqCoord.mk' (-1) 1).toF a = .ok 0.6 →
      phenoV (n := 1) (GenoPheno.ofBounds none [-1] [1]) (fun _ => a) = .ok fun _ => 0.6 := by
    intro a ha
    unfold phenoV
    have : (GenoPheno.ofBounds none [-1] [1]).pheno (List.ofFn fun _ : Fin 1 => a) = .ok [0.6] := by
      show (Pwq.ofBounds5 [-1] [1] [-1] [1]).toF (List.ofFn fun _ : Fin 1 => a) = .ok [0.6]
      rw [Pwq.toF_eq_ok_iff (by simp) (by simp)]
      refine ⟨rfl, ?_⟩
      intro i l u a' b hl hu ha' hb
      cases i with
      | succ i => simp at hl
      | zero =>
        simp at hl hu ha' hb
        subst hl hu ha' hb
        exact ha
    rw [this, Out.ok_bind, toVec_eq_ok]
    rfl
  refine ⟨env, p, s, hu, hgp, hs, ?_, ?_⟩
  · unfold Sol.errors Sol.stds Sol.rawStds
    rw [hgp, hmean, hph _ c1, Out.ok_bind, f1, f2, h1]
    simp only [Bool.not_false, Bool.and_self, if_true]
    rw [sqrtV_pos fun i => by rw [hcov, one_apply_eq]; norm_num, Out.ok_bind]
    have : (fun i : Fin 1 => (0.6 : ℝ) + Real.sqrt (s.sol.cov i i)) = fun _ => 1.6 := by
      ext i; rw [hcov, one_apply_eq, Real.sqrt_one]; norm_num
    rw [this, hph _ c2, Out.ok_bind, Out.pure_eq, Out.ok_bind, if_pos hpos.le]
    show Except.ok _ = Except.ok _
    congr 1
    ext i
    simp
  · rw [hsig, hcov, one_apply_eq, Real.sqrt_one]; norm_num

end Libcmaes
