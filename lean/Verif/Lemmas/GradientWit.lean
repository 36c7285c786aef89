import Verif.Lemmas.GradientTotal
import Verif.Lemmas.Witness
import Verif.Lemmas.PwqVec
import Verif.Lemmas.Scaling
import Verif.Lemmas.Stats

/-!
# Transforms of the witnesses for the injection of a gradient step
-/

namespace Libcmaes

open Matrix Spec

variable {n : ℕ}

/-- Bounds 100 and 200 with the scaling derived from them. -/
noncomputable def boxed : GenoPheno :=
  ⟨.pwq (Pwq.ofBounds5 [0] [10] [100] [200]), none, .lin ⟨[1 / 10], [-10], false⟩⟩

theorem hundred_le_dblMax : (100 : ℝ) ≤ dblMax := by
  unfold dblMax
  have h : (2 : ℝ) ^ 7 ≤ 2 ^ 1023 := pow_le_pow_right₀ (by norm_num) (by norm_num)
  have h2 : (1 : ℝ) ≤ 2 - 1 / 2 ^ 52 := by norm_num
  calc (100 : ℝ) ≤ 1 * 2 ^ 7 := by norm_num
    _ ≤ (2 - 1 / 2 ^ 52) * 2 ^ 1023 := mul_le_mul h2 h (by norm_num) (by norm_num)

theorem boxed_eq : GenoPheno.ofBoundsScaled none [100] [200] = .ok boxed := by
  have h := LinScaling.ofBounds_eq (lb := [100]) (ub := [200]) (.cons (by norm_num) .nil)
    (.cons (by have := hundred_le_dblMax; norm_num; linarith) .nil)
  unfold GenoPheno.ofBoundsScaled
  rw [h]
  unfold boxed
  simp only [List.zipWith_cons_cons, List.zipWith_nil_right, Out.ok_bind, List.length_singleton, List.replicate_one]
  norm_num
  rfl

theorem phenoV_boxed (x : Vec 1) (h1 : 1 ≤ x 0) (h2 : x 0 ≤ 9) : phenoV boxed x = .ok fun i => 10 * x i + 100 := by
  have e : List.ofFn x = [x 0] := by simp
  have hp : (Pwq.ofBounds5 [0] [10] [100] [200]).toF [x 0] = .ok [x 0] := by
    rw [Pwq.toF_eq_ok_iff (by rfl) (by rfl)]
    refine ⟨rfl, fun i l u a b hl hu ha hb => ?_⟩
    cases i with
    | succ i => simp at hl
    | zero =>
      simp only [List.getElem?_cons_zero, Option.some.injEq] at hl hu ha hb
      subst hl; subst hu; subst ha; subst hb
      unfold PwqCoord.toF PwqCoord.shift PwqCoord.mk'
      simp only
      norm_num
      have a1 : ¬ x 0 < -(51 / 10) := by linarith
      have a2 : ¬ 161 / 10 < x 0 := by linarith
      have a3 : ¬ x 0 < -(1 / 20) := by linarith
      have a4 : ¬ 211 / 20 < x 0 := by linarith
      have a5 : ¬ x 0 < -(50000000000001 / 1000000000000000) := by linarith
      have a6 : ¬ 10550000000000001 / 1000000000000000 < x 0 := by linarith
      have a7 : ¬ x 0 < 1 / 20 := by linarith
      have a8 : ¬ 189 / 20 < x 0 := by linarith
      simp only [a1, a2, a3, a4, a5, a6, if_false, Out.pure_eq, Out.ok_bind, or_self]
      unfold PwqCoord.fold
      simp only
      norm_num [a7, a8]
  unfold phenoV
  rw [e]
  show (((Pwq.ofBounds5 [0] [10] [100] [200]).toF [x 0] >>= _) >>= _) = _
  rw [hp, Out.ok_bind]
  show (LinScaling.toF ⟨[1 / 10], [-10], false⟩ [x 0] >>= _) = _
  rw [LinScaling.toF_eq (x := [x 0]) rfl rfl (by norm_num), Out.ok_bind, toVec_eq_ok]
  simp
  ring

theorem initialMean_boxed {p : Params 1} {rnd : Vec 1} (hgp : p.gp = boxed) (hfx : p.fixedP = []) (h1 : p.x0min = fun _ => 150)
    (h2 : p.x0max = fun _ => 150) : initialMean p rnd = .ok fun _ => 5 := by
  unfold initialMean
  simp only
  rw [h1, h2, if_pos rfl, if_neg (by
    intro h
    have := congrFun h 0
    have h3 := hundred_le_dblMax
    linarith), hfx]
  show (Except.ok _ >>= _) = _
  rw [Out.ok_bind, hgp]
  unfold scaleToInternalV boxed
  simp only [Bool.false_eq_true, if_false]
  rw [LinScaling.toInternal_eq (by simp) (by simp), Out.ok_bind, toVec_eq_ok]
  simp
  norm_num

/-- The two coordinates exchanged. -/
def swapped : GenoPheno := GenoPheno.ofCustom false false ⟨List.reverse, List.reverse, by simp, by simp⟩

theorem phenoV_swapped (x : Vec 2) : phenoV swapped x = .ok ![x 1, x 0] := by
  unfold phenoV
  show (Except.ok ((List.ofFn x).reverse) >>= _) = _
  rw [Out.ok_bind, toVec_eq_ok]
  simp

theorem default_gradient {x0 : Vec n} {gp : GenoPheno} {p : Params n} (hp : Params.make x0 1 (-1) 0 0 gp = .ok p) :
    Usual .plain { { p with withGradient := true } with withGradient := false } ∧ p.sep = false ∧ p.vd = false ∧ p.fixedP = [] ∧
      p.gp = gp ∧ p.sigmaInit = 1 ∧ p.x0min = x0 ∧ p.x0max = x0 ∧ p.lazyUpdate = false ∧ p.maximize = false ∧ p.uh = false ∧
      p.tpa ≠ 2 ∧ Configured { p with withGradient := true } ∧ StrictRates { p with withGradient := true } := by
  obtain ⟨hu, hgp, hfx, hs, h1, h2⟩ := usual_default (kind := .plain) (by norm_num) hp (by decide)
  obtain ⟨hsep, hvd⟩ := Params.make_flags hp
  obtain ⟨huh, hwg, -, -, -, -, -, hmx, -⟩ := Params.make_plain hp
  have hlz : p.lazyUpdate = false := by
    unfold Params.make at hp
    obtain ⟨l, -, hm⟩ := Out.bind_eq_ok.1 hp
    obtain ⟨mu, w, muw, cs, cc, c1, cm, ds, fs, fc, ch, lv, rl, al, e⟩ := initializeParameters_frame hm
    rw [e]
    rfl
  have e : { { p with withGradient := true } with withGradient := false } = p := by
    show { p with withGradient := false } = p
    rw [← hwg]
  exact ⟨by rw [e]; exact hu, hsep, hvd, hfx, hgp, hs, h1, h2, hlz, hmx, huh, hu.tpa,
    hu.configured.other ⟨rfl, rfl, rfl, rfl, rfl, rfl, rfl, rfl, rfl, rfl, rfl, rfl, rfl, rfl, rfl, rfl, rfl⟩,
    ⟨hu.strict.lt_one, hu.strict.active⟩⟩

/-- The first candidate of the first generation of a search with default settings and injection. -/
theorem first_injected {env : Env n} {x0 : Vec n} {gp : GenoPheno} {p : Params n} {s : Strat n}
    (hp : Params.make x0 1 (-1) 0 0 gp = .ok p) (h0 : Strat.new env .plain { p with withGradient := true } = .ok s)
    (hG : GradientComputable env gp) (hph : PhenoNear gp s.sol.xmean) :
    s.sol.sigma = 1 ∧ ∃ (pop : List (Vec n)) (s1 sa sb : Strat n) (ph g gg : Vec n), s.ask env = .ok (pop, s1) ∧
      sa.calls = [] ∧ sa.negate = false ∧ sa.p.gp = gp ∧ sb.p.gp = gp ∧ phenoV gp s.sol.xmean = .ok ph ∧
      sa.gradf env ph = .ok (sb, g) ∧ sb.gradgp s.sol.xmean = .ok gg ∧ s1.calls = sb.calls ∧
      (g * gg ≠ 0 → pop[0]? = some (s.sol.xmean - Real.sqrt (n / ((g * gg) ⬝ᵥ (g * gg))) • (g * gg))) := by
  obtain ⟨hu, hsep, hvd, hfx, hgp, hs, h1, h2, hlz, hmx, huh, htpa, hc, hst⟩ := default_gradient hp
  obtain ⟨-, -, -, e4, -, e6, e7, -, e9, e10, -⟩ := Strat.new_ok h0
  have hsg : s.sol.sigma = 1 := by rw [Strat.new_sigma h0 (by show 0 < p.sigmaInit; rw [hs]; exact one_pos)]; exact hs
  obtain ⟨hL, -⟩ := live_new_gradient hu h0
  have egp : s.p.gp = gp := by rw [e4]; exact hgp
  obtain ⟨pop, s1, ha, -⟩ := ask_total_gradient hL (by rw [egp]; exact hG) (by rw [egp]; exact hph)
  have hC : searchCov s.p s.sol = 1 := by
    unfold searchCov
    rw [if_neg (by rw [e4]; show ¬ p.sep = true; rw [hsep]; decide)]
    exact e6.cov
  have hPD := (searchCov_pd hc hst (by decide) hvd hlz h0 (.refl s)).2.1
  obtain ⟨sa, sb, pop0, ph, g, gg, k1, k2, k3, k4, k5, k6, k7, k8, k9, k10, k11, k12, k13⟩ :=
    ask_first (by rw [e4]; exact hvd) (Or.inl e7) (by rw [e4]) (by rw [e4]; exact hfx) hPD ha
  refine ⟨hsg, pop, s1, sa, sb, ph, g, gg, ha, by rw [k1, e9], by rw [k3, e10]; exact hmx, by rw [k2, egp], ?_, by rw [← egp]; exact k5,
    k6, k7, k8, fun h => ?_⟩
  · obtain ⟨cs, e⟩ := Strat.gradf_frame k6
    rw [e]
    show sa.p.gp = gp
    rw [k2, egp]
  · rw [k12 h, hC, hsg, one_mulVec, one_mul]
    unfold quad
    rw [one_mulVec]

end Libcmaes
