import Verif.Lemmas.GradientVd
import Verif.Props.Solutions

/-!
# C109 for the VD model: the candidate made from the gradient ignores the vector `v`
-/

namespace Libcmaes

open Matrix Spec

variable {n : ℕ}

/-- **C109 for the VD model**, gradient given by the user: the squared distance from the mean of the first candidate, in units
of the distribution, with `g` the gradient at the mean and `d`, `v` the parameters of the distribution. -/
theorem C109_vd (env : Env n) (t t' : Strat n) (pop : List (Vec n)) (F : Vec n → ℝ) (c b a g : Vec n)
    (hvd : t.p.vd = true) (hw : t.p.withGradient = true) (hfx : t.p.fixedP = [])
    (hd : ∀ i, 0 < t.sol.sepcov i) (hsg : 0 < t.sol.sigma) (hF : GivesGradient env F)
    (hQ : QuadraticNear t.p.gp t.sol.xmean c b a) (ha : t.ask env = .ok (pop, t'))
    (hg : ∀ i, g i = fderiv ℝ (fun x => F (c * x * x + b * x + a)) t.sol.xmean (Pi.single i 1)) (hne : g ≠ 0) :
    ∃ x, pop[0]? = some x ∧
      distSq t.sol.xmean t.sol.sigma (vdMat t.sol.sepcov t.sol.v) x =
        n * (g ⬝ᵥ g - (t.sol.v ⬝ᵥ g) ^ 2 / (1 + t.sol.v ⬝ᵥ t.sol.v)) / ∑ i, t.sol.sepcov i * g i ^ 2 := by
  obtain ⟨sa, sb, ph, g0, gg, h1, h2, h3, h5, h6, h7, h8⟩ := ask_vd_first hvd hw hfx hd ha
  obtain ⟨G, hG, hD⟩ := hF
  obtain ⟨L, k1, k2⟩ := hD sa.calls.length ph
  have hpb : sb.p = t.p := by
    obtain ⟨cs, e⟩ := Strat.gradf_frame h6
    rw [e, ← h2]
  obtain ⟨m1, m2⟩ := gradgp_quadratic (s := sb) (by rw [hpb]; exact hQ)
  rw [hpb, h5] at m1
  injection m1 with m1
  rw [h7] at m2
  injection m2 with m2
  rw [m1] at k1
  obtain ⟨L', k3, k4⟩ := chain_quadratic (g := g0) k1 fun i => by rw [k2 i, (gradf_given hG h6).2, m1]
  have hgv : g0 * gg = g := by
    rw [m2]
    funext i
    rw [hg i, k3.fderiv, k4]
    simp
  rw [hgv] at h8
  exact ⟨_, h8 hne, distSq_vd hd hsg hne⟩

/-- **C109 fails for the VD model**: in the first generation of every search whose drawn vector `v` is not orthogonal to the
gradient at the mean, the first candidate is nearer to the mean than a sample is in the mean square, and is not the point that
the linear model makes least at that distance. -/
theorem C109_vd_false (env : Env n) (kind : CovKind) (p : Params n) (s s' : Strat n) (pop : List (Vec n)) (F : Vec n → ℝ)
    (c b a g : Vec n) (hvd : p.vd = true) (hw : p.withGradient = true) (hfx : p.fixedP = [])
    (h0 : Strat.new env kind p = .ok s) (hF : GivesGradient env F) (hQ : QuadraticNear p.gp s.sol.xmean c b a)
    (ha : s.ask env = .ok (pop, s'))
    (hg : ∀ i, g i = fderiv ℝ (fun x => F (c * x * x + b * x + a)) s.sol.xmean (Pi.single i 1))
    (hv : s.sol.v ⬝ᵥ g ≠ 0) :
    ∃ x, pop[0]? = some x ∧ distSq s.sol.xmean s.sol.sigma (vdMat s.sol.sepcov s.sol.v) x < n ∧
      ¬ SteepestPoint (fun x => F (c * x * x + b * x + a)) s.sol.xmean s.sol.sigma (vdMat s.sol.sepcov s.sol.v) x := by
  obtain ⟨hn, -, -, hp, hsg, hfr, -⟩ := Strat.new_ok h0
  have hd := hfr.sepcov
  have hne : g ≠ 0 := by rintro rfl; simp at hv
  obtain ⟨x, hx, hdist⟩ := C109_vd env s s' pop F c b a g (by rw [hp]; exact hvd) (by rw [hp]; exact hw)
    (by rw [hp]; exact hfx) (fun i => by rw [hd]; norm_num) hsg hF (by rw [hp]; exact hQ) ha hg hne
  have hlt : distSq s.sol.xmean s.sol.sigma (vdMat s.sol.sepcov s.sol.v) x < n := by
    have hS : ∑ i, s.sol.sepcov i * g i ^ 2 = g ⬝ᵥ g := by
      show _ = ∑ i, g i * g i
      refine Finset.sum_congr rfl fun i _ => ?_
      rw [hd, one_mul, sq]
    have hpos : 0 < g ⬝ᵥ g := by
      obtain ⟨i, hi⟩ : ∃ i, g i ≠ 0 := by
        by_contra h; push Not at h; exact hne (funext h)
      refine Finset.sum_pos' (fun j _ => mul_self_nonneg _) ⟨i, Finset.mem_univ i, mul_self_pos.2 hi⟩
    have hvv := dot_self_nonneg s.sol.v
    have hcut : 0 < (s.sol.v ⬝ᵥ g) ^ 2 / (1 + s.sol.v ⬝ᵥ s.sol.v) := by positivity
    have hnp : (0 : ℝ) < n := by exact_mod_cast Nat.pos_of_ne_zero hn
    rw [hdist, hS, div_lt_iff₀ hpos]
    exact mul_lt_mul_of_pos_left (by linarith) hnp
  exact ⟨x, hx, hlt, fun h => hlt.ne h.dist⟩

/-- A concrete case: VD-CMA in dimension 6 with the gradient of `y ↦ y 0`, the draw of `v` with all coordinates `√6`. -/
example (T : ℝ) :
    ∃ (env : Env 6) (p p' : Params 6) (s s' : Strat 6) (pop : List (Vec 6)) (x : Vec 6),
      Params.make 0 1 4 0 0 GenoPheno.plain = .ok p ∧ p' = { vdP4 p with withGradient := true } ∧
      Strat.new env .vd p' = .ok s ∧ GivesGradient env (fun y => y 0) ∧
      s.ask env = .ok (pop, s') ∧ pop[0]? = some x ∧
      distSq s.sol.xmean s.sol.sigma (vdMat s.sol.sepcov s.sol.v) x = 36 / 7 ∧ s.sol.v ⬝ᵥ Pi.single 0 1 ≠ 0 := by
  obtain ⟨p0, hp0, _⟩ := C11_weights (n := 6) (by norm_num) 0 1 4 0 0 GenoPheno.plain
  obtain ⟨c1, c2, c3, c4, c5, c6, c7, c8, c9, c10, c11, c12, c13, c14⟩ := vdP4_ok hp0
  set env : Env 6 := { vdEnv T with gfunc := some fun _ _ => Pi.single 0 1 } with henv
  set p : Params 6 := { vdP4 p0 with withGradient := true } with hp
  have hc : Configured p :=
    .other c1 ⟨rfl, rfl, rfl, rfl, rfl, rfl, rfl, rfl, rfl, rfl, rfl, rfl, rfl, rfl, rfl, rfl, rfl⟩
  obtain ⟨s, hs⟩ := new_plain (env := env) (kind := .vd) (p := p) c9 hc.good.1
  obtain ⟨hn, hl, hk, hps, hsg, hfr, hni, hne0, hcs, hng, hcov, hsp, hv', hpa, hmh, hkc, hic, hts, hmean, hie⟩ :=
    Strat.new_ok hs
  have hv : ∀ k, s.sol.v k = 1 := by
    intro k
    unfold Strat.new Sol.make at hs
    obtain ⟨⟨q, sol⟩, hm, hs⟩ := Out.bind_eq_ok.1 hs
    obtain ⟨m, hmean, hm⟩ := Out.bind_eq_ok.1 hm
    rw [if_neg (by have := hc.good.1.lambda; omega)] at hm
    injection hm with hm; injection hm with hq hm
    injection hs with hs
    rw [← hs, ← hm]
    have : p.vd = true := c2
    simp only [this, if_true]
    show Real.sqrt 6 / Real.sqrt ((6 : ℕ) : ℝ) = 1
    push_cast
    exact div_self (Real.sqrt_pos.2 (by norm_num)).ne'
  have hvd : s.p.vd = true := by rw [hps]; exact c2
  have hsep : s.p.sep = false := by rw [hps]; exact c3
  have hwg : s.p.withGradient = true := by rw [hps]
  have hfx : s.p.fixedP = [] := by rw [hps]; exact c10
  have hgp : s.p.gp = GenoPheno.plain := by rw [hps]; exact c9
  have hF : GivesGradient env (fun y => y 0) := by
    refine ⟨_, rfl, fun k x => ?_⟩
    obtain ⟨L, hL, hLi⟩ := hasFDerivAt_linear (Pi.single 0 1 : Vec 6) 0 x
    have e : (fun y : Vec 6 => (Pi.single 0 1 : Vec 6) ⬝ᵥ y + 0) = fun y => y 0 := by
      funext y
      simp
    exact ⟨L, e ▸ hL, hLi⟩
  have hQ : ∀ m : Vec 6, QuadraticNear s.p.gp m 0 1 0 := by
    intro m x _
    rw [hgp, phenoV_plain]
    simp
  obtain ⟨pop, s', ha⟩ : ∃ pop s', s.ask env = .ok (pop, s') := by
    have hq : ∀ x : Strat 6, x.p = s.p → x.gradgp s.sol.xmean = .ok (2 * 0 * s.sol.xmean + 1) := fun x hx =>
      (gradgp_quadratic (s := x) (by rw [hx]; exact hQ _)).2
    have hsn : sqNorm s.sol.v ≠ 0 := by
      have : sqNorm s.sol.v = 6 := by
        unfold sqNorm
        show ∑ i, s.sol.v i * s.sol.v i = 6
        simp [hv]
      rw [this]; norm_num
    obtain ⟨s1, k1⟩ : ∃ s1, s.askPrepare env = .ok s1 := by
      unfold Strat.askPrepare
      rw [if_neg (by rw [hvd]; simp), if_neg (by rw [hsp]; simp [show p.vd = true from c2]), if_neg (by rw [hsep]; simp)]
      exact ⟨_, rfl⟩
    obtain ⟨es, ei, ue, e1⟩ := Strat.askPrepare_frame k1
    obtain ⟨pop1, s2, k2⟩ : ∃ pop1 s2, s1.askSample env = .ok (pop1, s2) := by
      unfold Strat.askSample
      rw [e1]
      simp only
      rw [if_neg (by rw [hvd]; simp), if_neg (by rw [hsep]; simp), if_neg (by rw [hv']; simp [show p.vd = true from c2]),
        if_neg hsn]
      exact ⟨_, _, rfl⟩
    obtain ⟨e2, l2⟩ := Strat.askSample_frame k2
    obtain ⟨pop2, s3, k3⟩ : ∃ pop2 s3, s2.askGradient env pop1 = .ok (pop2, s3) := by
      unfold Strat.askGradient
      have hp2 : s2.p = s.p := by rw [e2, e1]
      have hm2 : s2.sol.xmean = s.sol.xmean := by rw [e2, e1]
      have hc2 : s2.sol.sepcov = s.sol.sepcov := by rw [e2, e1]
      have hgf : s2.gradf env s.sol.xmean = .ok (s2, Pi.single 0 1) := rfl
      rw [if_neg (by rw [hp2, hwg]; simp), hp2, hgp, phenoV_plain, Out.ok_bind, hm2, hgf, Out.ok_bind]
      simp only
      rw [hq s2 hp2, Out.ok_bind]
      have hgr : (Pi.single 0 1 * (2 * 0 * s.sol.xmean + 1) : Vec 6) = Pi.single 0 1 := by simp
      simp only [hgr]
      rw [if_neg (by simp), if_neg (by
        intro h
        have := l2
        rw [h, e1] at this
        exact hl (by rw [hps] at this; exact this.symm)), if_neg (by rw [hvd]; simp),
        if_pos (fun i => by rw [hc2, hfr.sepcov]; norm_num), if_neg]
      · exact ⟨_, _, rfl⟩
      · refine vnorm_ne_zero fun h => ?_
        have := congrFun h 0
        rw [hc2] at this
        simp [hfr.sepcov] at this
    obtain ⟨⟨cs, e3⟩, l3⟩ := Strat.askGradient_frame k3
    have k4 : s3.askTpa env pop2 = .ok (pop2, s3) := by
      unfold Strat.askTpa
      rw [if_neg]
      rw [e3, e2, e1]
      rintro ⟨h, -⟩
      exact c6 (by rw [hps] at h; exact h)
    refine ⟨pop2, s3, ?_⟩
    unfold Strat.ask
    rw [k1, Out.ok_bind, k2, Out.ok_bind]
    show (s2.askGradient env pop1 >>= _) = _
    rw [k3, Out.ok_bind]
    show (s3.askTpa env pop2 >>= _) = _
    rw [k4, Out.ok_bind]
    show (pop2.mapM (setFixed s.p.fixedP) >>= _) = _
    rw [hfx, show (setFixed [] : Vec 6 → Out (Vec 6)) = fun x => .ok (id x) from rfl, mapM_ok, List.map_id]
    rfl
  have hgr : ∀ i, (Pi.single 0 1 : Vec 6) i =
      fderiv ℝ (fun x : Vec 6 => (0 * x * x + 1 * x + 0) 0) s.sol.xmean (Pi.single i 1) := by
    intro i
    obtain ⟨L, hL, hLi⟩ := hasFDerivAt_linear (Pi.single 0 1 : Vec 6) 0 s.sol.xmean
    have e : (fun y : Vec 6 => (Pi.single 0 1 : Vec 6) ⬝ᵥ y + 0) = fun x : Vec 6 => (0 * x * x + 1 * x + 0) 0 := by
      funext y
      simp
    rw [← e, hL.fderiv, hLi]
  have hne : (Pi.single 0 1 : Vec 6) ≠ 0 := by simp
  obtain ⟨x, hx, hdist⟩ := C109_vd env s s' pop (fun y => y 0) 0 1 0 (Pi.single 0 1) hvd hwg hfx
    (fun i => by rw [hfr.sepcov]; norm_num) hsg hF (hQ _) ha hgr hne
  refine ⟨env, p0, p, s, s', pop, x, hp0, rfl, hs, hF, ha, hx, ?_, ?_⟩
  · rw [hdist]
    have h1 : s.sol.v ⬝ᵥ s.sol.v = 6 := by
      show ∑ i, s.sol.v i * s.sol.v i = 6
      simp [hv]
    have h2 : ∑ i, s.sol.sepcov i * (Pi.single 0 1 : Vec 6) i ^ 2 = 1 := by
      rw [Finset.sum_eq_single 0]
      · simp [hfr.sepcov]
      · intro j _ hj; simp [hj]
      · simp
    rw [h1, h2]
    simp [hv]
    norm_num
  · simp [hv]

end Libcmaes
