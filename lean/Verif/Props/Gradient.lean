import Verif.Lemmas.GradientWit
import Verif.Props.Solutions

/-!
# C109: the candidate made from the gradient
-/

namespace Libcmaes

open Matrix Spec

variable {n : ℕ}

/-- **C109**, gradient given by the user: in each generation of each run, the first candidate is the point that a linear model
of the objective at the mean makes least, among the points no farther from the mean than a sample is in the mean square. -/
theorem C109_steepest (env : Env n) (kind : CovKind) (p : Params n) (s t t' : Strat n) (tr : List (List (Cand n)))
    (pop : List (Vec n)) (F : Vec n → ℝ) (c b a : Vec n) (hc : Configured p) (hst : StrictRates p) (hk : kind ≠ .vd)
    (hvd : p.vd = false) (hlz : p.lazyUpdate = false) (hw : p.withGradient = true) (hfx : p.fixedP = [])
    (h0 : Strat.new env kind p = .ok s) (hr : AskRun env s tr t) (hF : GivesGradient env F)
    (hQ : QuadraticNear p.gp t.sol.xmean c b a) (ha : t.ask env = .ok (pop, t'))
    (hne : fderiv ℝ (fun x => F (c * x * x + b * x + a)) t.sol.xmean ≠ 0) :
    ∃ x, pop[0]? = some x ∧
      SteepestPoint (fun x => F (c * x * x + b * x + a)) t.sol.xmean t.sol.sigma (searchCov t.p t.sol) x := by
  obtain ⟨htp, hC, hsg⟩ := searchCov_pd hc hst hk hvd hlz h0 hr
  have hp := (Strat.new_ok h0).2.2.2.1
  obtain ⟨G, hG, hd⟩ := hF
  refine ask_steepest (by rw [htp, hp]; exact hvd) (Or.inr (by rw [htp, hp]; exact hlz)) (by rw [htp, hp]; exact hw)
    (by rw [htp, hp]; exact hfx) hC hsg (by rw [htp, hp]; exact hQ) ?_ ha hne
  intro sa sb ph g _ _ _ _ hgf
  obtain ⟨L, h1, h2⟩ := hd sa.calls.length ph
  exact ⟨L, h1, fun i => by rw [h2 i, (gradf_given hG hgf).2]⟩

/-- **C109**, the other candidates: they are those of the same call with injection off; if the gradient vanishes at the mean all
are. -/
theorem C109_rest (env : Env n) (t t' : Strat n) (pop : List (Vec n)) (hvd : t.p.vd = false)
    (hlz : t.niter = 0 ∨ t.p.lazyUpdate = false) (hw : t.p.withGradient = true) (hfx : t.p.fixedP = []) (htpa : t.p.tpa ≠ 2)
    (hC : PD (searchCov t.p t.sol)) (ha : t.ask env = .ok (pop, t')) :
    ∃ pop0 t0, Strat.ask env { t with p := { t.p with withGradient := false } } = .ok (pop0, t0) ∧ pop.length = pop0.length ∧
      (∀ i, i ≠ 0 → pop[i]? = pop0[i]?) ∧
      ∀ (F : Vec n → ℝ) (c b a : Vec n), GivesGradient env F → QuadraticNear t.p.gp t.sol.xmean c b a →
        fderiv ℝ (fun x => F (c * x * x + b * x + a)) t.sol.xmean = 0 → pop = pop0 := by
  obtain ⟨sa, sb, pop0, ph, g, gg, h1, h2, h3, h4, h5, h6, h7, h8, h9, h10, h11, h12, h13⟩ :=
    ask_first hvd hlz hw hfx hC ha
  obtain ⟨t1, k1, h10⟩ := Out.bind_eq_ok.1 h10
  obtain ⟨⟨q, t2⟩, k2, h10⟩ := Out.bind_eq_ok.1 h10
  injection h10 with h10
  have h10 : q = pop0 := h10
  subst h10
  obtain ⟨es, ei, ue, e1⟩ := Strat.askPrepare_frame k1
  obtain ⟨e2, hl⟩ := Strat.askSample_frame k2
  have hoff : Strat.ask env t.noGrad = .ok (q, t2.noGrad) := by
    unfold Strat.ask
    rw [Strat.askPrepare_noGrad, Out.bind_map, k1, Out.ok_bind, Strat.askSample_noGrad, Out.bind_map, k2, Out.ok_bind]
    have k3 : t2.noGrad.askGradient env q = .ok (q, t2.noGrad) := by unfold Strat.askGradient; exact if_pos rfl
    have k4 : t2.noGrad.askTpa env q = .ok (q, t2.noGrad) := by
      unfold Strat.askTpa
      rw [if_neg]
      rintro ⟨h, -⟩
      have : t2.p = t.p := by rw [e2, e1]
      exact htpa (by rw [← this]; exact h)
    show (t2.noGrad.askGradient env q >>= _) = _
    rw [k3, Out.ok_bind]
    show (t2.noGrad.askTpa env q >>= _) = _
    rw [k4, Out.ok_bind]
    show (q.mapM (setFixed t.p.fixedP) >>= _) = _
    rw [hfx, show (setFixed [] : Vec n → Out (Vec n)) = fun x => .ok (id x) from rfl, mapM_ok, List.map_id]
    rfl
  have hrest := h13 fun h => htpa h.1
  have hlen : pop.length = q.length := by
    rw [(Strat.ask_frame ha).2, hl, e1]
  refine ⟨q, t2.noGrad, hoff, hlen, hrest, fun F c b a hF hQ hz => ?_⟩
  obtain ⟨G, hG, hd⟩ := hF
  obtain ⟨L, k3, k4⟩ := hd sa.calls.length ph
  have hpb : sb.p = t.p := by
    obtain ⟨cs, e⟩ := Strat.gradf_frame h6
    rw [e, ← h2]
  obtain ⟨m1, m2⟩ := gradgp_quadratic (s := sb) (by rw [hpb]; exact hQ)
  rw [hpb, h5] at m1
  injection m1 with m1
  rw [h7] at m2
  injection m2 with m2
  rw [m1] at k3
  obtain ⟨L', k5, k6⟩ := chain_quadratic (g := g) k3 fun i => by rw [k4 i, (gradf_given hG h6).2]
  have hzero : g * gg = 0 := by
    rw [k5.fderiv] at hz
    rw [m2]
    funext i
    have := k6 (Pi.single i 1)
    rw [hz] at this
    simpa using this.symm
  apply List.ext_getElem? fun i => ?_
  by_cases hi : i = 0
  · subst hi; exact h11 hzero
  · exact hrest i hi

/-- **C109**, numerical gradient: `ask` makes `n + 1` calls of the objective, at the mean and next to it, and counts them; each
slope it uses is taken by the objective within a step `10⁻⁸ (1 + |y_i|)` of the mean; the first candidate is the steepest point
of the linear function with these slopes. -/
theorem C109_numeric (env : Env n) (kind : CovKind) (p : Params n) (s t t' : Strat n) (tr : List (List (Cand n)))
    (pop : List (Vec n)) (F : Vec n → ℝ) (c b a y ub : Vec n) (hc : Configured p) (hst : StrictRates p) (hk : kind ≠ .vd)
    (hvd : p.vd = false) (hlz : p.lazyUpdate = false) (hw : p.withGradient = true) (hfx : p.fixedP = [])
    (h0 : Strat.new env kind p = .ok s) (hr : AskRun env s tr t) (hG : env.gfunc = none)
    (hF : ∀ k y, negIf t.negate (env.f k y) = FVal.ofReal (F y)) (hdF : Differentiable ℝ F)
    (hub : ∀ i : Fin n, p.gp.uBound i = .ok (ub i)) (hQ : QuadraticNear p.gp t.sol.xmean c b a)
    (hy : y = c * t.sol.xmean * t.sol.xmean + b * t.sol.xmean + a)
    (hin : ∀ i, y i + 1e-8 * (1 + |y i|) ≤ ub i) (ha : t.ask env = .ok (pop, t')) :
    ∃ (w : Vec n) (l : List (Fin n)),
      (∀ i, ∃ d, 0 < d ∧ d < 1e-8 * (1 + |y i|) ∧ w i = fderiv ℝ F (y + d • Pi.single i 1) (Pi.single i 1)) ∧
      l.Perm (List.finRange n) ∧ t'.nevals = t.nevals + (n + 1) ∧
      t'.calls.map Prod.fst = t.calls.map Prod.fst ++ y :: l.map (fun i => y + (1e-8 * (1 + |y i|)) • Pi.single i 1) ∧
      (w * (2 * c * t.sol.xmean + b) ≠ 0 → ∃ x, pop[0]? = some x ∧
        SteepestPoint (fun x => (w * (2 * c * t.sol.xmean + b)) ⬝ᵥ x) t.sol.xmean t.sol.sigma (searchCov t.p t.sol) x) := by
  obtain ⟨htp, hC, hsg⟩ := searchCov_pd hc hst hk hvd hlz h0 hr
  have hp := (Strat.new_ok h0).2.2.2.1
  have hgp : t.p.gp = p.gp := by rw [htp, hp]
  obtain ⟨sa, sb, pop0, ph, g, gg, h1, h2, h3, h4, h5, h6, h7, h8, h9, h10, h11, h12, h13⟩ :=
    ask_first (by rw [htp, hp]; exact hvd) (Or.inr (by rw [htp, hp]; exact hlz)) (by rw [htp, hp]; exact hw)
      (by rw [htp, hp]; exact hfx) hC ha
  have hpb : sb.p = t.p := by
    obtain ⟨cs, e⟩ := Strat.gradf_frame h6
    rw [e, ← h2]
  obtain ⟨k1, k2⟩ := gradgp_quadratic (s := sb) (by rw [hpb, hgp]; exact hQ)
  rw [hpb, h5] at k1
  injection k1 with k1
  rw [h7] at k2
  injection k2 with k2
  rw [k1, ← hy] at h6
  obtain ⟨s', l, g1, g2, g3, g4⟩ := gradf_numeric (env := env) (s := sa) (F := F) (ub := ub) y hG (by rw [h3]; exact hF)
    (by rw [h2, hgp]; exact hub)
  rw [h6] at g1
  injection g1 with g1
  injection g1 with g1 g1'
  subst g1
  refine ⟨quotient F y ub, l, fun i => quotient_slope hdF (hin i), g3, by rw [h9, g2, h4], ?_, fun hne => ?_⟩
  · rw [h8, g4, h1]
    congr 2
    refine List.map_congr_left fun i _ => ?_
    unfold gradPoint
    rw [min_eq_left (show y i + Strat.gradEps y i ≤ ub i from hin i)]
    funext j
    by_cases hj : j = i
    · subst hj; simp [Strat.gradEps]
    · simp [hj]
  · rw [← g1', ← k2] at hne ⊢
    obtain ⟨L, hL, hLi⟩ := hasFDerivAt_linear (g * gg) 0 t.sol.xmean
    simp only [add_zero] at hL
    have hLv : ∀ v, L v = (g * gg) ⬝ᵥ v := by
      intro v
      conv_lhs => rw [show v = ∑ i, v i • Pi.single i (1 : ℝ) by
        ext k; simp [Finset.sum_apply, Pi.single_apply]]
      rw [map_sum]
      unfold dotProduct
      exact Finset.sum_congr rfl fun i _ => by rw [map_smul, hLi, smul_eq_mul, mul_comm]
    exact ⟨_, h12 hne, steepest_of hL hLv hne hC hsg⟩

/-- **C109**, linear objectives, numerical gradient: the differences are exact, so that in each generation the first candidate is
the steepest point; its value is below that at the mean by `√n` times the standard deviation of the values of samples, and the
best candidate of the generation is not worse.  `d + w·y` are the values as the search sees them. -/
theorem C109_linear (env : Env n) (kind : CovKind) (p : Params n) (s t t' : Strat n) (tr : List (List (Cand n)))
    (w b a ub : Vec n) (d : ℝ) (hc : Configured p) (hst : StrictRates p) (hk : kind ≠ .vd)
    (hvd : p.vd = false) (hlz : p.lazyUpdate = false) (hw : p.withGradient = true) (hfx : p.fixedP = []) (huh : p.uh = false)
    (h0 : Strat.new env kind p = .ok s) (hr : AskRun env s tr t) (hG : env.gfunc = none)
    (hF : ∀ k y, negIf t.negate (env.f k y) = FVal.ofReal (w ⬝ᵥ y + d))
    (hub : ∀ i : Fin n, p.gp.uBound i = .ok (ub i)) (hQ : AffinePheno p.gp b a)
    (hin : ∀ i, (b * t.sol.xmean + a) i + 1e-8 * (1 + |(b * t.sol.xmean + a) i|) ≤ ub i) (hne : w * b ≠ 0)
    (hg : t.generation env = .ok t') :
    let F : Vec n → ℝ := fun x => w ⬝ᵥ (b * x + a) + d
    ∃ c ∈ t'.sol.cands, SteepestPoint F t.sol.xmean t.sol.sigma (searchCov t.p t.sol) c.x ∧
      c.fvalue = FVal.ofReal (F t.sol.xmean - Real.sqrt n * slopeStd F t.sol.xmean t.sol.sigma (searchCov t.p t.sol)) ∧
      0 < slopeStd F t.sol.xmean t.sol.sigma (searchCov t.p t.sol) ∧
      ∀ best, t'.sol.cands.head? = some best → ¬ FVal.lt c.fvalue best.fvalue := by
  intro F
  obtain ⟨htp, hC, hsg⟩ := searchCov_pd hc hst hk hvd hlz h0 hr
  have hp := (Strat.new_ok h0).2.2.2.1
  have hgp : t.p.gp = p.gp := by rw [htp, hp]
  have hFeq : F = fun x => (w * b) ⬝ᵥ x + (w ⬝ᵥ a + d) := by
    funext x
    show w ⬝ᵥ (b * x + a) + d = _
    rw [dotProduct_add, add_assoc]
    congr 1
    unfold dotProduct
    exact Finset.sum_congr rfl fun i _ => by simp only [Pi.mul_apply]; ring
  obtain ⟨L, hL, hLi⟩ := hasFDerivAt_linear (w * b) (w ⬝ᵥ a + d) t.sol.xmean
  have hLv : ∀ v, L v = (w * b) ⬝ᵥ v := by
    intro v
    conv_lhs => rw [show v = ∑ i, v i • Pi.single i (1 : ℝ) by
      ext k; simp [Finset.sum_apply, Pi.single_apply]]
    rw [map_sum]
    unfold dotProduct
    exact Finset.sum_congr rfl fun i _ => by rw [map_smul, hLi, smul_eq_mul, mul_comm]
  rw [← hFeq] at hL
  set C := searchCov t.p t.sol with hCd
  have hslope : slopeStd F t.sol.xmean t.sol.sigma C = t.sol.sigma * Real.sqrt (quad C (w * b)) := by
    unfold slopeStd
    rw [hL.fderiv]
    congr 3
    funext i
    exact hLi i
  have hqp : 0 < quad C (w * b) := hC.pos _ hne
  set x : Vec n := t.sol.xmean - (t.sol.sigma * Real.sqrt (n / quad C (w * b))) • C.mulVec (w * b) with hx
  have hpop : ∀ pop s1, t.ask env = .ok (pop, s1) → pop[0]? = some x := by
    intro pop s1 ha
    obtain ⟨sa, sb, pop0, ph, g, gg, h1, h2, h3, h4, h5, h6, h7, h8, h9, h10, h11, h12, h13⟩ :=
      ask_first (by rw [htp, hp]; exact hvd) (Or.inr (by rw [htp, hp]; exact hlz)) (by rw [htp, hp]; exact hw)
        (by rw [htp, hp]; exact hfx) hC ha
    rw [hgp, hQ] at h5
    injection h5 with h5
    have hpb : sb.p = t.p := by
      obtain ⟨cs, e⟩ := Strat.gradf_frame h6
      rw [e, ← h2]
    rw [gradgp_affine (by rw [hpb, hgp]; exact hQ)] at h7
    injection h7 with h7
    obtain ⟨s', l, g1, -⟩ := gradf_numeric (env := env) (s := sa) (F := fun y => w ⬝ᵥ y + d) (ub := ub) ph hG
      (by rw [h3]; exact hF) (by rw [h2, hgp]; exact hub)
    rw [h6] at g1
    injection g1 with g1
    injection g1 with _ g1
    have hgw : g = w := by
      rw [g1]
      funext i
      exact quotient_linear (by rw [← h5]; exact hin i)
    rw [hgw, ← h7] at h12
    exact h12 hne
  obtain ⟨c, hcm, hcx, ⟨k, hcv⟩, hbest⟩ := generation_first (by rw [htp, hp]; exact huh) hpop
    (show phenoV t.p.gp x = .ok (b * x + a) by rw [hgp]; exact hQ x) hg
  refine ⟨c, hcm, ?_, ?_, ?_, hbest⟩
  · rw [hcx]; exact steepest_of hL hLv hne hC hsg
  · rw [hcv, hF, hslope]
    congr 1
    have e1 : w ⬝ᵥ (b * x + a) + d = F x := rfl
    rw [e1, hFeq]
    simp only [hx]
    rw [dotProduct_sub, dotProduct_smul, show (w * b) ⬝ᵥ C.mulVec (w * b) = quad C (w * b) from rfl, Real.sqrt_div (Nat.cast_nonneg n),
      smul_eq_mul]
    have : Real.sqrt n / Real.sqrt (quad C (w * b)) * quad C (w * b) = Real.sqrt n * Real.sqrt (quad C (w * b)) := by
      have h := Real.mul_self_sqrt hqp.le
      have h' := (Real.sqrt_pos.2 hqp).ne'
      field_simp
      rw [sq, h]
    linear_combination -t.sol.sigma * this
  · rw [hslope]
    exact mul_pos hsg (Real.sqrt_pos.2 hqp)

/-- **C109**, no failure: with gradient injection no generation of a run fails, however many there are, if the transform is
defined everywhere, no value is NaN, and the gradient can be computed: given by the user, or all values are finite. -/
theorem C109_total (env : Env n) (kind : CovKind) (p : Params n) (s : Strat n) (k : ℕ)
    (hu : Usual kind { p with withGradient := false }) (h0 : Strat.new env kind p = .ok s)
    (hph : ∀ x : Vec n, ∃ y : Vec n, phenoV p.gp x = .ok y) (hf : ∀ k y, (env.f k y).IsNum)
    (hG : env.gfunc.isSome = true ∨ ((∀ k y, ∃ r : ℝ, env.f k y = FVal.ofReal r) ∧ ∀ i : Fin n, ∃ u, p.gp.uBound i = .ok u)) :
    ∃ t, s.generations env k = .ok t ∧ t.p.withGradient = p.withGradient := by
  obtain ⟨hL, hr⟩ := live_new_gradient hu h0
  have hp := (Strat.new_ok h0).2.2.2.1
  obtain ⟨t, h1, _, _, h4⟩ := generations_total_gradient hL (by rw [hp]; exact hG) (by rw [hp]; exact hph) hf hr k
  exact ⟨t, h1, by rw [h4, hp]⟩

/-- A concrete case: minimising the linear function `d + w·y` in any dimension with default settings, the numerical gradient, and
no bounds.  In each generation, one candidate is below the mean by `√n` times the standard deviation of the values of samples. -/
example (hn : 1 ≤ n) (w : Vec n) (hw : w ≠ 0) (d : ℝ) (z : ℕ → Vec n) (k : ℕ) :
    ∃ (p : Params n) (s t t' : Strat n), Params.make (fun _ => 0) 1 (-1) 0 0 GenoPheno.plain = .ok p ∧
      Strat.new (Env.basic (fun _ y => FVal.ofReal (w ⬝ᵥ y + d)) z) .plain { p with withGradient := true } = .ok s ∧
      s.generations (Env.basic (fun _ y => FVal.ofReal (w ⬝ᵥ y + d)) z) k = .ok t ∧
      t.generation (Env.basic (fun _ y => FVal.ofReal (w ⬝ᵥ y + d)) z) = .ok t' ∧
      ((∀ i, t.sol.xmean i + 1e-8 * (1 + |t.sol.xmean i|) ≤ dblMax) → ∃ c ∈ t'.sol.cands, c.fvalue = FVal.ofReal
        (w ⬝ᵥ (1 * t.sol.xmean + 0) + d - Real.sqrt n * slopeStd (fun x => w ⬝ᵥ (1 * x + 0) + d) t.sol.xmean t.sol.sigma
          (searchCov t.p t.sol))) := by
  obtain ⟨p, hp, _⟩ := C11_weights (n := n) hn (fun _ => 0) 1 (-1) 0 0 GenoPheno.plain
  obtain ⟨hu, hsep, hvd, hfx, hgp, hs, h1, h2, hlz, hmx, huh, htpa, hc, hst⟩ := default_gradient hp
  set env : Env n := Env.basic (fun _ y => FVal.ofReal (w ⬝ᵥ y + d)) z with henv
  obtain ⟨s, h0⟩ := new_plain (env := env) (kind := .plain) (p := { p with withGradient := true }) hgp hc.good.1
  have hfin : ∀ k y, ∃ r : ℝ, env.f k y = FVal.ofReal r := fun k y => ⟨_, rfl⟩
  have hG : env.gfunc.isSome = true ∨ ((∀ k y, ∃ r : ℝ, env.f k y = FVal.ofReal r) ∧ ∀ i : Fin n, ∃ u, p.gp.uBound i = .ok u) :=
    Or.inr ⟨hfin, fun i => ⟨dblMax, by rw [hgp]; rfl⟩⟩
  have hph : ∀ x : Vec n, ∃ y : Vec n, phenoV p.gp x = .ok y := fun x => ⟨x, by rw [hgp]; exact phenoV_plain x⟩
  obtain ⟨t, ht, -⟩ := C109_total env .plain { p with withGradient := true } s k hu h0 hph (fun k y => trivial) hG
  obtain ⟨t', ht', -⟩ := C109_total env .plain { p with withGradient := true } s (k + 1) hu h0 hph (fun k y => trivial) hG
  have hsplit : t.generation env = .ok t' := by
    obtain ⟨u, hu1, hu2⟩ := Strat.generations_succ_last k ht'
    rw [ht] at hu1
    injection hu1 with hu1
    rw [hu1]; exact hu2
  refine ⟨p, s, t, t', hp, h0, ht, hsplit, fun hin => ?_⟩
  obtain ⟨tr, -, hrun⟩ := Strat.generations_askRun k ht
  have htneg : t.negate = false := by
    rw [(run_p hrun.run).2.2.2.2.2.2.2.1, (Strat.new_ok h0).2.2.2.2.2.2.2.2.2.1]; exact hmx
  obtain ⟨c, hc1, -, hc2, -⟩ := C109_linear env .plain { p with withGradient := true } s t t' tr w 1 0 (fun _ => dblMax) d hc hst
    (by decide) hvd hlz rfl hfx huh h0 hrun rfl (fun k y => by rw [htneg]; rfl) (fun i => by show p.gp.uBound i = _; rw [hgp]; rfl)
    (fun x => by show phenoV p.gp x = _; rw [hgp, phenoV_plain, one_mul, add_zero])
    (fun i => by rw [one_mul, add_zero]; exact hin i) (by rw [mul_one]; exact hw) hsplit
  exact ⟨c, hc1, hc2⟩

/-- **C109 fails with bounds and scaling and the numerical gradient**: the points of the differences are cut at the upper bound in
internal units, 10, not at the user's, 200.  Minimising `y` from 150, the objective is called at 10, outside of the bounds, and the
first candidate goes up, to 160. -/
theorem C109_scaling_false :
    ∃ (env : Env 1) (gp : GenoPheno) (p : Params 1) (s s1 : Strat 1) (pop : List (Vec 1)) (x : Vec 1),
      GenoPheno.ofBoundsScaled none [100] [200] = .ok gp ∧ Params.make (fun _ => 150) 1 (-1) 0 0 gp = .ok p ∧
      env.f = (fun _ y => FVal.ofReal (y 0)) ∧ env.gfunc = none ∧
      Strat.new env .plain { p with withGradient := true } = .ok s ∧ phenoV gp s.sol.xmean = .ok (fun _ => 150) ∧
      s.ask env = .ok (pop, s1) ∧ pop[0]? = some x ∧ phenoV gp x = .ok (fun _ => 160) ∧
      s1.calls.map Prod.fst = [fun _ => 150, fun _ => 10] := by
  obtain ⟨p, hp, _⟩ := C11_weights (n := 1) le_rfl (fun _ => 150) 1 (-1) 0 0 boxed
  obtain ⟨hu, hsep, hvd, hfx, hgp, hs, h1, h2, hlz, hmx, huh, htpa, hc, hst⟩ := default_gradient hp
  set env : Env 1 := Env.basic (fun _ y => FVal.ofReal (y 0)) (fun _ _ => 0) with henv
  have hm := initialMean_boxed (p := { p with withGradient := true }) (rnd := env.rnd 0) hgp hfx h1 h2
  obtain ⟨s, h0⟩ : ∃ s, Strat.new env .plain { p with withGradient := true } = .ok s := by
    unfold Strat.new Sol.make
    rw [hm, Out.ok_bind, if_neg (by have := hc.good.1.lambda; omega)]
    exact ⟨_, rfl⟩
  have hx : s.sol.xmean = fun _ => 5 := by
    have := (Strat.new_ok h0).2.2.2.2.2.2.2.2.2.2.2.2.2.2.2.2.2.2.1
    rw [hm] at this
    injection this with this
    exact this.symm
  have hub : ∀ i : Fin 1, boxed.uBound i = .ok 10 := fun i => by fin_cases i; rfl
  have hQ : QuadraticNear boxed s.sol.xmean 0 (fun _ => 10) (fun _ => 100) := by
    intro y hy
    have h := hy 0
    rw [hx] at h
    have h : |y 0 - 5| ≤ 1e-8 * (1 + |(5 : ℝ)|) := h
    rw [abs_le] at h
    norm_num at h
    rw [phenoV_boxed y (by linarith) (by linarith), zero_mul, zero_mul, zero_add]
    rfl
  obtain ⟨hsg, pop, s1, sa, sb, ph, g, gg, ha, k1, k2, k3, k4, k5, k6, k7, k8, k9⟩ := first_injected hp h0
    (Or.inr ⟨fun k y => ⟨_, rfl⟩, fun i => ⟨10, hub i⟩⟩) hQ.near
  have h5 : phenoV boxed s.sol.xmean = .ok fun _ => 150 := by
    rw [hx, phenoV_boxed _ (by norm_num) (by norm_num)]
    norm_num
  rw [h5] at k5
  injection k5 with k5
  rw [(gradgp_quadratic (by rw [k4]; exact hQ)).2] at k7
  injection k7 with k7
  obtain ⟨s', l, g1, -, hl, hcalls⟩ := gradf_numeric (env := env) (s := sa) (F := fun y => y 0) (ub := fun _ => 10) ph rfl
    (by rw [k2]; exact fun k y => rfl) (by rw [k3]; exact hub)
  rw [k6] at g1
  injection g1 with g1
  injection g1 with e1 e2
  have hpt : gradPoint ph 0 10 = fun _ => 10 := by
    funext i
    fin_cases i
    unfold gradPoint Strat.gradEps
    rw [← k5]
    norm_num
  have hv : g * gg = fun _ => (10 - 150) / (1e-8 * (1 + |(150 : ℝ)|)) * 10 := by
    funext i
    fin_cases i
    rw [e2, ← k7]
    show (gradPoint ph 0 10 0 - ph 0) / (1e-8 * (1 + |ph 0|)) * _ = _
    rw [hpt, ← k5]
    simp
  have hvn : (10 - 150) / (1e-8 * (1 + |(150 : ℝ)|)) * 10 < (0 : ℝ) := by norm_num
  set v : ℝ := (10 - 150) / (1e-8 * (1 + |(150 : ℝ)|)) * 10 with hvd
  have hstep : s.sol.xmean - Real.sqrt ((1 : ℕ) / ((g * gg) ⬝ᵥ (g * gg))) • (g * gg) = fun _ => 6 := by
    rw [hv, hx]
    funext i
    have : (fun _ : Fin 1 => v) ⬝ᵥ (fun _ : Fin 1 => v) = (-v) ^ 2 := by simp [dotProduct]; ring
    simp only [Pi.sub_apply, Pi.smul_apply, smul_eq_mul]
    rw [this, Nat.cast_one, Real.sqrt_div zero_le_one, Real.sqrt_one, Real.sqrt_sq (by linarith)]
    have : v ≠ 0 := hvn.ne
    field_simp
    norm_num
  refine ⟨env, boxed, p, s, s1, pop, fun _ => 6, boxed_eq, hp, rfl, rfl, h0, h5, ha, ?_, ?_, ?_⟩
  · rw [k9 (by rw [hv]; intro h; exact hvn.ne (congrFun h 0)), hstep]
  · rw [phenoV_boxed _ (by norm_num) (by norm_num)]
    norm_num
  · rw [k8, e1, hcalls, k1, ← k5]
    have : l = [0] := List.perm_singleton.1 hl
    rw [this]
    show [] ++ ([_, gradPoint _ 0 10] : List (Vec 1)) = _
    rw [k5, hpt]
    rfl

/-- **C109 fails for a transform that mixes coordinates**: only the diagonal of its derivative is taken.  With the coordinates
exchanged and the gradient of `y ↦ y 0` given by the user, the first candidate of the first generation has the value of the mean,
though the objective is not flat there. -/
theorem C109_mixed_false :
    ∃ (env : Env 2) (gp : GenoPheno) (p : Params 2) (s s1 : Strat 2) (pop : List (Vec 2)) (x y : Vec 2),
      (∀ x : Vec 2, phenoV gp x = .ok ![x 1, x 0]) ∧ Params.make (fun _ => 0) 1 (-1) 0 0 gp = .ok p ∧
      env.f = (fun _ y => FVal.ofReal (y 0)) ∧ GivesGradient env (fun y => y 0) ∧
      Strat.new env .plain { p with withGradient := true } = .ok s ∧ s.ask env = .ok (pop, s1) ∧ pop[0]? = some x ∧
      phenoV gp s.sol.xmean = .ok 0 ∧ phenoV gp x = .ok y ∧ y 0 = 0 ∧ y 1 ≠ 0 := by
  obtain ⟨p, hp, _⟩ := C11_weights (n := 2) (by norm_num) (fun _ => 0) 1 (-1) 0 0 swapped
  obtain ⟨hu, hsep, hvd, hfx, hgp, hs, h1, h2, hlz, hmx, huh, htpa, hc, hst⟩ := default_gradient hp
  set env : Env 2 := { Env.basic (fun _ y => FVal.ofReal (y 0)) (fun _ _ => 0) with gfunc := some fun _ _ => ![1, 0] } with henv
  obtain ⟨s, h0⟩ := new_unscaled (env := env) (kind := .plain) (p := { p with withGradient := true })
    (by show p.gp.scale = _; rw [hgp]; rfl) hc.good.1
  have hx : s.sol.xmean = 0 := by
    have := (Strat.new_ok h0).2.2.2.2.2.2.2.2.2.2.2.2.2.2.2.2.2.2.1
    unfold initialMean at this
    simp only at this
    rw [h1, h2, if_pos rfl, if_neg (by
      intro h
      have := congrFun h 0
      have h3 := hundred_le_dblMax
      linarith), hfx, hgp] at this
    have this : (Except.ok (fun _ => 0) : Out (Vec 2)) = .ok s.sol.xmean := this
    injection this with this
    exact this.symm
  obtain ⟨hsg, pop, s1, sa, sb, ph, g, gg, ha, k1, k2, k3, k4, k5, k6, k7, k8, k9⟩ := first_injected hp h0
    (Or.inl rfl) ⟨⟨_, phenoV_swapped _⟩, ⟨_, phenoV_swapped _⟩, _, phenoV_swapped _⟩
  have hg : g = ![1, 0] := (gradf_given rfl k6).2
  have hgg : gg = 1 := by
    unfold Strat.gradgp at k7
    rw [k4, phenoV_swapped, phenoV_swapped, Out.ok_bind, Out.ok_bind, hx] at k7
    injection k7 with k7
    rw [← k7]
    funext i
    fin_cases i <;> simp [Strat.gradEps] <;> norm_num
  have hv : g * gg = ![1, 0] := by rw [hg, hgg, mul_one]
  have hpop := k9 (by rw [hv]; intro h; exact one_ne_zero (congrFun h 0))
  refine ⟨env, swapped, p, s, s1, pop, _, _, phenoV_swapped, hp, rfl, ⟨_, rfl, fun k x => ?_⟩, h0, ha, hpop, ?_, phenoV_swapped _, ?_, ?_⟩
  · obtain ⟨L, hL, hLi⟩ := hasFDerivAt_linear (![1, 0] : Vec 2) 0 x
    have e : (fun y : Vec 2 => (![1, 0] : Vec 2) ⬝ᵥ y + 0) = fun y => y 0 := by
      funext y
      simp [dotProduct]
    exact ⟨L, e ▸ hL, hLi⟩
  · rw [hx, phenoV_swapped]
    congr 1
    funext i
    fin_cases i <;> rfl
  · rw [hv, hx]
    simp
  · rw [hv, hx]
    simp

end Libcmaes
