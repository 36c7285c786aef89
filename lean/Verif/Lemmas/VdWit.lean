import Verif.Lemmas.VdTotal
import Verif.Lemmas.Turn
import Verif.Lemmas.Points
import Verif.Lemmas.Env
import Verif.Props.Sampling

/-!
# A generation of the VD variant computed

Dimension 6, population 4, `v = (1, …, 1)`, all selected steps equal to `T (0, 1, -1, 0, 0, 0)`.
-/

namespace Libcmaes

open Spec Matrix Finset

/-- The direction. -/
def vdDir : Vec 6 := ![0, 1, -1, 0, 0, 0]

/-- The factor of the first component of `D`. -/
theorem vd_uniform {p : Params 6} {s : Sol 6} {T : ℝ} {g : VdStep 6} (hw : ∑ i ∈ range p.mu, p.weights i = 1)
    (hv : ∀ k, s.v k = 1) (hy : ∀ i < p.mu, vdY s i = T • vdDir) (hs : s.hsig = false)
    (h : vdGradient p s (sqNorm s.v) = .ok g) :
    g.sepcov 0 = s.sepcov 0 * (1 - p.cmu * (10 + T ^ 2) / 20) := by
  have hn : sqNorm s.v = 6 := by unfold sqNorm; simp [hv]
  have h6 : Real.sqrt 6 * Real.sqrt 6 = 6 := Real.mul_self_sqrt (by norm_num)
  have h60 : Real.sqrt 6 ≠ 0 := (Real.sqrt_pos.2 (by norm_num)).ne'
  rw [hn] at h
  set c : ℝ := 1 / Real.sqrt 6 with hc
  have hcc : c * c = 1 / 6 := by
    rw [hc, div_mul_div_comm, one_mul, h6]
  have hvb : (fun k => s.v k / Real.sqrt 6 : Vec 6) = fun _ => c := by funext k; rw [hv]
  have hvbb : ((fun _ => c : Vec 6) * fun _ => c) = fun _ => 1 / 6 := by funext k; exact hcc
  have hal : vdAlpha 6 (fun _ => 1 / 6 : Vec 6) = 1 := by
    unfold vdAlpha
    apply min_eq_left
    have hm : maxCoeff (fun _ => 1 / 6 : Vec 6) = 1 / 6 := by
      unfold maxCoeff
      simp
    rw [hm]
    have h7 : 1 / Real.sqrt (1 + 6) ≤ 1 := by
      rw [div_le_one (Real.sqrt_pos.2 (by norm_num))]
      exact Real.le_sqrt_of_sq_le (by norm_num)
    rw [le_div_iff₀ (by norm_num), one_mul]
    apply Real.le_sqrt_of_sq_le
    have : (2 - 1 / Real.sqrt (1 + 6)) * (1 + 6) / (1 / 6) = (2 - 1 / Real.sqrt (1 + 6)) * 42 := by ring
    rw [this]
    linarith
  have hb : vdB 6 1 = 2 := by unfold vdB; norm_num
  have hden : vdDen 6 1 (fun _ => 1 / 6 : Vec 6) = fun _ => 4 / 3 := by
    funext k; unfold vdDen; rw [hb]; norm_num
  have hdot : ∀ i < p.mu, (fun _ => c : Vec 6) ⬝ᵥ vdY s i = 0 := by
    intro i hi
    rw [hy i hi]
    simp [dotProduct, Fin.sum_univ_succ, vdDir]
  have hP : ∀ k, vdP p s 6 (fun _ => c) k = T ^ 2 * vdDir k ^ 2 - 1 := by
    intro k
    unfold vdP
    have : T ^ 2 * vdDir k ^ 2 - 1 = ∑ i ∈ range p.mu, (T ^ 2 * vdDir k ^ 2 - 1) * p.weights i := by
      rw [← Finset.mul_sum, hw, mul_one]
    rw [this]
    refine sum_congr rfl fun i hi => ?_
    rw [hdot i (mem_range.1 hi), hy i (mem_range.1 hi)]
    show ((T * vdDir k) * (T * vdDir k) - _ * (c * 0 * _) - 1) * _ = _
    ring
  have hQ : ∀ k, vdQ p s 6 (fun _ => c) k = -(7 / 2) * c := by
    intro k
    unfold vdQ
    have : -(7 / 2) * c = ∑ i ∈ range p.mu, (-(7 / 2) * c) * p.weights i := by
      rw [← Finset.mul_sum, hw, mul_one]
    rw [this]
    refine sum_congr rfl fun i hi => ?_
    rw [hdot i (mem_range.1 hi), show (0.5 : ℝ) = 1 / 2 by norm_num]
    ring
  unfold vdGradient at h
  simp only [hvb, hvbb, hal, hb, hden] at h
  split_ifs at h with h1 h2
  obtain rfl := Except.ok.inj h
  have hR : ∀ k, vdR 6 1 (fun _ => c) (vdPvec p s 6 fun _ => c) (vdQvec p s 6 fun _ => c) k =
      p.cmu * (T ^ 2 * vdDir k ^ 2 - 5 / 6) := by
    intro k
    unfold vdR vdPvec vdQvec
    rw [if_neg (by simp [hs]), if_neg (by simp [hs])]
    have e1 : (p.cmu • vdP p s 6 fun _ => c) k = p.cmu * (T ^ 2 * vdDir k ^ 2 - 1) := by
      rw [← hP k]; rfl
    have e2 : (p.cmu • vdQ p s 6 fun _ => c) = fun _ => p.cmu * (-(7 / 2) * c) := by
      funext j; rw [← hQ j]; rfl
    rw [e1, e2]
    have e3 : ((fun _ => c : Vec 6) ⬝ᵥ fun _ => p.cmu * (-(7 / 2) * c)) = p.cmu * (-(7 / 2)) := by
      simp only [dotProduct, sum_const, card_univ, Fintype.card_fin, nsmul_eq_mul]
      have : (6 : ℝ) * (c * (p.cmu * (-(7 / 2) * c))) = p.cmu * (-(7 / 2)) * (6 * (c * c)) := by ring
      push_cast
      rw [this, hcc]; norm_num
    rw [e3]
    have : c * (p.cmu * (-(7 / 2) * c)) = p.cmu * (-(7 / 2)) * (c * c) := by ring
    rw [this, hcc]
    ring
  show s.sepcov 0 + s.sepcov 0 * vdS 2 (fun _ => 1 / (4 / 3)) (fun _ => 1 / 6) _ 0 = _
  have hS : vdS 2 (fun _ => 1 / (4 / 3)) (fun _ => 1 / 6)
      (vdR 6 1 (fun _ => c) (vdPvec p s 6 fun _ => c) (vdQvec p s 6 fun _ => c)) 0 =
      -(p.cmu * (10 + T ^ 2) / 20) := by
    have hRf : vdR 6 1 (fun _ => c) (vdPvec p s 6 fun _ => c) (vdQvec p s 6 fun _ => c) =
      fun k => p.cmu * (T ^ 2 * vdDir k ^ 2 - 5 / 6) := funext hR
    rw [hRf]
    unfold vdS
    simp [dotProduct, Fin.sum_univ_succ, vdDir]
    ring
  rw [hS]
  ring

/-- The parameters of the witness. -/
noncomputable def vdP4 (p0 : Params 6) : Params 6 := ({ p0 with algo := 12 } : Params 6).setVd

theorem vdP4_eq (p0 : Params 6) : vdP4 p0 =
    (let csigma := Real.sqrt p0.muw / (2 * (Real.sqrt (6 : ℕ) + Real.sqrt p0.muw))
     { p0 with
       algo := 12, vd := true, csigma := csigma, c1 := p0.c1 * (((6 : ℕ) - 5 : ℝ) / 6)
       cmu := min (1 - p0.c1 * (((6 : ℕ) - 5 : ℝ) / 6))
        (((6 : ℕ) - 5 : ℝ) / 6 * (2 * (p0.muw - 2 + 1 / p0.muw) / (((6 : ℕ) + 2 : ℝ) ^ 2 + p0.muw)))
       dsigma := if p0.tpa = 0 then dsigmaDefault 6 p0.muw csigma else p0.dsigma
       factPs := Real.sqrt (csigma * (2 - csigma) * p0.muw) }) := by
  unfold vdP4 Params.setVd
  rw [if_neg (by simp)]

theorem make_four {x0 : Vec 6} {sigma : ℝ} {seed clock : ℕ} {gp : GenoPheno} {p0 : Params 6}
    (h : Params.make x0 sigma 4 seed clock gp = .ok p0) :
    (vdP4 p0).lambda = 4 ∧ (vdP4 p0).mu = 2 ∧ 0 < (vdP4 p0).cmu ∧ (vdP4 p0).cmu ≤ 1 / 384 ∧
      1 / 4 ≤ (vdP4 p0).factPs ∧ (vdP4 p0).chi ≤ 3 ∧ 0 ≤ (vdP4 p0).chi := by
  unfold Params.make lambdaOf at h
  rw [if_neg (by norm_num)] at h
  replace h : initializeParameters (Params.blank 4 x0 sigma (if seed = 0 then clock else seed) gp) = .ok p0 := h
  have hs := initializeParameters_spec h
  have hmu : p0.mu = 2 := by rw [hs.mu]; simp [Params.blank]
  have hlam : p0.lambda = 4 := by rw [hs.lambda]; simp [Params.blank]
  have h1 : 1 < p0.muw := by
    rw [hs.muw, hmu]
    unfold muwOf
    have a0 := rawWeight_pos (mu := 2) (i := 0) (by norm_num)
    have a1 := rawWeight_pos (mu := 2) (i := 1) (by norm_num)
    rw [lt_div_iff₀ (sqRaw_pos (by norm_num))]
    simp only [Finset.sum_range_succ, Finset.sum_range_zero, zero_add]
    nlinarith [mul_pos a0 a1]
  have h2 : p0.muw ≤ 2 := by rw [hs.muw, hmu]; exact muwOf_le (by norm_num)
  have hc1 : p0.c1 ≤ 2 / 7.3 ^ 2 := by
    rw [hs.c1]
    apply div_le_div_of_nonneg_left (by norm_num) (by norm_num)
    push_cast
    linarith
  have hm : 0 < p0.muw - 2 + 1 / p0.muw ∧ p0.muw - 2 + 1 / p0.muw ≤ 1 / 2 := by
    have h0 : 0 < p0.muw := by linarith
    have e : p0.muw - 2 + 1 / p0.muw = (p0.muw - 1) ^ 2 / p0.muw := by field_simp; ring
    rw [e]
    refine ⟨by have : 0 < p0.muw - 1 := by linarith
               positivity, ?_⟩
    rw [div_le_iff₀ h0]
    nlinarith
  have hcm : (vdP4 p0).cmu = min (1 - p0.c1 * (((6 : ℕ) - 5 : ℝ) / 6))
        (((6 : ℕ) - 5 : ℝ) / 6 * (2 * (p0.muw - 2 + 1 / p0.muw) / (((6 : ℕ) + 2 : ℝ) ^ 2 + p0.muw))) := by
    rw [vdP4_eq]
  have hfp : (vdP4 p0).factPs = Real.sqrt (Real.sqrt p0.muw / (2 * (Real.sqrt (6 : ℕ) + Real.sqrt p0.muw)) *
      (2 - Real.sqrt p0.muw / (2 * (Real.sqrt (6 : ℕ) + Real.sqrt p0.muw))) * p0.muw) := by
    rw [vdP4_eq]
  have hchi : (vdP4 p0).chi = chiOf (6 : ℕ) := by rw [vdP4_eq]; exact hs.chi
  have h6 : Real.sqrt 6 ≤ 3 := by
    rw [Real.sqrt_le_left (by norm_num)]; norm_num
  have h60 : 0 < Real.sqrt 6 := Real.sqrt_pos.2 (by norm_num)
  refine ⟨by rw [vdP4_eq]; exact hlam, by rw [vdP4_eq]; exact hmu, ?_, ?_, ?_, ?_, ?_⟩
  · rw [hcm]
    apply lt_min
    · push_cast
      norm_num at hc1 ⊢
      linarith
    · have := hm.1
      push_cast
      have : 0 < p0.muw := by linarith
      apply mul_pos (by norm_num)
      apply div_pos (by linarith) (by positivity)
  · rw [hcm]
    refine (min_le_right _ _).trans ?_
    push_cast
    have h3 : 2 * (p0.muw - 2 + 1 / p0.muw) / ((6 + 2 : ℝ) ^ 2 + p0.muw) ≤ 1 / 64 := by
      rw [div_le_div_iff₀ (by norm_num; linarith) (by norm_num)]
      linarith [hm.2]
    linarith
  · rw [hfp]
    apply Real.le_sqrt_of_sq_le
    have hr1 : 1 ≤ Real.sqrt p0.muw := Real.one_le_sqrt.2 h1.le
    push_cast
    set r := Real.sqrt p0.muw
    have hd : 0 < 2 * (Real.sqrt 6 + r) := by linarith
    have g1 : 1 / 8 ≤ r / (2 * (Real.sqrt 6 + r)) := by
      rw [div_le_div_iff₀ (by norm_num) hd]; linarith
    have g2 : r / (2 * (Real.sqrt 6 + r)) ≤ 1 / 2 := by
      rw [div_le_div_iff₀ hd (by norm_num)]; linarith
    set q := r / (2 * (Real.sqrt 6 + r))
    have g3 : 1 / 8 ≤ q * (2 - q) := by nlinarith
    nlinarith
  · rw [hchi]
    unfold chiOf
    push_cast
    nlinarith
  · rw [hchi]
    unfold chiOf
    push_cast
    positivity

/-- Sorting: if all candidates but the first are strictly better than the first unless alike, the last one is
the first. -/
theorem sorted_good {α : Type} {lt : α → α → Prop} {c : α} {l out : List α} {good : α → Prop}
    (hg : ∀ d ∈ l, good d) (hb : ∀ d ∈ c :: l, ∀ e ∈ c :: l, good d → ¬ good e → lt d e)
    (h : Sorts lt (c :: l) out) {i : ℕ} (hi : i < l.length) (hi' : i < out.length) : good out[i] := by
  classical
  by_contra hbad
  have hlen : out.length = l.length + 1 := h.perm.length_eq
  have hmem : ∀ j (hj : j < out.length), out[j] ∈ c :: l := fun j hj => h.perm.mem_iff.1 (List.getElem_mem hj)
  have hj : i + 1 < out.length := by omega
  have hbad2 : ¬ good out[i + 1] := fun hgd =>
    List.pairwise_iff_getElem.1 h.sorted i (i + 1) hi' hj (by omega) (hb _ (hmem _ _) _ (hmem _ _) hgd hbad)
  have hc1 : (c :: l).countP (fun d => decide (¬ good d)) ≤ 1 := by
    rw [List.countP_cons]
    have : l.countP (fun d => decide (¬ good d)) = 0 := by
      rw [List.countP_eq_zero]; intro d hd; simpa using hg d hd
    rw [this]; split_ifs <;> omega
  rw [← h.perm.countP_eq] at hc1
  have hsplit : out = out.take i ++ out[i] :: out[i + 1] :: out.drop (i + 2) := by
    rw [← List.drop_eq_getElem_cons hj, ← List.drop_eq_getElem_cons hi', List.take_append_drop]
  rw [hsplit, List.countP_append, List.countP_cons, List.countP_cons] at hc1
  simp [hbad, hbad2] at hc1
  omega

/-- The environment of the witness: the objective `x_0²`, the first draw `(√6, …, √6)`, the others
`T (0, 1, -1, 0, 0, 0)`. -/
noncomputable def vdEnv (T : ℝ) : Env 6 :=
  Env.basic (fun _ y => .num ((y 0 ^ 2 : ℝ) : EReal)) fun j => if j = 0 then fun _ => Real.sqrt 6 else T • vdDir

theorem vdP4_ok {sigma : ℝ} {seed clock : ℕ} {p0 : Params 6}
    (h : Params.make 0 sigma 4 seed clock GenoPheno.plain = .ok p0) :
    Configured (vdP4 p0) ∧ (vdP4 p0).vd = true ∧ (vdP4 p0).sep = false ∧ (vdP4 p0).withGradient = false ∧
      (vdP4 p0).uh = false ∧ (vdP4 p0).tpa ≠ 2 ∧ (vdP4 p0).initialElitist = false ∧ (vdP4 p0).elitist = false ∧
      (vdP4 p0).gp = GenoPheno.plain ∧ (vdP4 p0).fixedP = [] ∧ (vdP4 p0).x0min = 0 ∧ (vdP4 p0).x0max = 0 ∧
      (vdP4 p0).maximize = false ∧ (vdP4 p0).initialElitistOnRestart = false := by
  obtain ⟨f1, f2⟩ := Params.make_flags h
  obtain ⟨u1, u2, u3, u4, u5, u6, u7, u8, u9, u10, u11, u12, u13, u14⟩ := Params.make_plain h
  refine ⟨.vd (.other (.make h) ⟨rfl, rfl, rfl, rfl, rfl, rfl, rfl, rfl, rfl, rfl, rfl, rfl, rfl, rfl, rfl, rfl, rfl⟩)
    f1 f2 le_rfl, ?_⟩
  rw [vdP4_eq]
  exact ⟨rfl, f1, u2, u1, u3, u4, u5, u10, u11, u12, u13, u8, u6⟩

theorem vd_new {T sigma : ℝ} {seed clock : ℕ} {p0 : Params 6}
    (h : Params.make 0 sigma 4 seed clock GenoPheno.plain = .ok p0) :
    ∃ s, Strat.new (vdEnv T) .vd (vdP4 p0) = .ok s ∧ VdLive s ∧ RefNum s ∧ (∀ k, s.sol.sepcov k = 1) ∧
      (∀ k, s.sol.v k = 1) ∧ s.sol.xmean = 0 ∧ s.nz = 0 ∧ s.calls = [] ∧ s.negate = false := by
  obtain ⟨c1, c2, c3, c4, c5, c6, c7, c8, c9, c10, c11, c12, c13, c14⟩ := vdP4_ok h
  obtain ⟨s, hs⟩ := new_plain (env := vdEnv T) (kind := .vd) (p := vdP4 p0) c9 c1.good.1
  obtain ⟨hL, hr, hd⟩ := vdLive_new c1 c2 c3 c4 c5 c6 c7 (by rw [c8]; simp) hs
  refine ⟨s, hs, hL, hr, hd, ?_⟩
  unfold Strat.new Sol.make at hs
  obtain ⟨⟨q, sol⟩, hm, hs⟩ := Out.bind_eq_ok.1 hs
  obtain ⟨m, hmean, hm⟩ := Out.bind_eq_ok.1 hm
  rw [if_neg (by have := c1.good.1.lambda; omega)] at hm
  injection hm with hm; injection hm with hq hm
  injection hs with hs
  have hm0 : m = 0 := by
    unfold initialMean at hmean
    simp only at hmean
    rw [c10, c11, c12, if_pos rfl, if_neg, c9] at hmean
    · obtain ⟨m1, h1, h2⟩ := Out.bind_eq_ok.1 hmean
      obtain rfl : (0 : Vec 6) = m1 := Except.ok.inj h1
      exact (Except.ok.inj h2).symm
    · intro h0
      have h1 : (0 : ℝ) = -dblMax := congrFun h0 0
      have h2 : (0 : ℝ) < dblMax := by unfold dblMax; norm_num
      linarith
  refine ⟨?_, ?_, ?_, ?_, ?_⟩
  · intro k
    rw [← hs, ← hm]
    simp only [c2, if_true]
    show Real.sqrt 6 / Real.sqrt ((6 : ℕ) : ℝ) = 1
    push_cast
    exact div_self (Real.sqrt_pos.2 (by norm_num)).ne'
  · rw [← hs, ← hm]; exact hm0
  · rw [← hs]
  · rw [← hs]
  · rw [← hs]; exact c13

/-- The population of the first generation. -/
theorem vd_pop {T : ℝ} {s s1 : Strat 6} {pop : List (Vec 6)} (hL : VdLive s) (hd : ∀ k, s.sol.sepcov k = 1)
    (hv : ∀ k, s.sol.v k = 1) (hnz : s.nz = 0) (hfx : s.p.fixedP = []) (hlam : s.p.lambda = 4)
    (ha : s.ask (vdEnv T) = .ok (pop, s1)) :
    ∃ x, pop = x :: List.replicate 3 (s.sol.xmean + s.sol.sigma • T • vdDir) ∧
      s.sol.xmean 0 < x 0 := by
  obtain ⟨t, pop1, h1, h2, h3⟩ := ask_plain hL.grad (Or.inl hL.tpa) ha
  have hpop : pop1 = pop := by
    rw [hfx] at h3
    have := Out.mapM_eq_ok.1 h3
    clear h2 h3 ha
    induction this with
    | nil => rfl
    | cons a _ ih => rw [← Except.ok.inj a, ih]
  unfold Strat.askPrepare at h1
  rw [if_neg (by simp [hL.vd]), if_neg (by simp [hL.hasSep]), if_neg (by simp [hL.sep])] at h1
  injection h1 with h1
  subst h1
  unfold Strat.askSample at h2
  simp only at h2
  rw [if_neg (by simp [hL.vd]), if_neg (by simp [hL.sep]), if_neg (by simp [hL.hasV])] at h2
  have hvs : s.sol.v = fun _ => 1 := funext hv
  have hds : s.sol.sepcov = 1 := funext hd
  have hn6 : sqNorm s.sol.v = 6 := by unfold sqNorm; simp [hv]
  rw [hn6, if_neg (by norm_num), hlam, hnz] at h2
  injection h2 with h2; injection h2 with h4 h5
  rw [hpop] at h4
  have h6 : 0 < Real.sqrt 6 := Real.sqrt_pos.2 (by norm_num)
  have h66 : Real.sqrt 6 * Real.sqrt 6 = 6 := Real.mul_self_sqrt (by norm_num)
  have hw : ∀ j, (vdEnv T).z (j + 1) = T • vdDir := fun j => rfl
  have h0 : (vdEnv T).z 0 = fun _ => Real.sqrt 6 := rfl
  have hz : ((fun k => s.sol.v k / Real.sqrt 6 : Vec 6) ⬝ᵥ (T • vdDir)) = 0 := by
    rw [hvs]
    simp [dotProduct, Fin.sum_univ_succ, vdDir]
  refine ⟨s.sol.xmean + s.sol.sigma • (s.sol.sepcov * ((vdEnv T).z 0 + ((Real.sqrt (1 + 6) - 1) *
      ((fun k => s.sol.v k / Real.sqrt 6 : Vec 6) ⬝ᵥ (vdEnv T).z 0)) • fun k => s.sol.v k / Real.sqrt 6)), h4.symm.trans ?_, ?_⟩
  · simp only [List.range_succ_eq_map, List.range_zero, List.map_cons, List.map_nil, zero_add]
    rw [show List.replicate 3 (s.sol.xmean + s.sol.sigma • T • vdDir) =
      [s.sol.xmean + s.sol.sigma • T • vdDir, s.sol.xmean + s.sol.sigma • T • vdDir,
        s.sol.xmean + s.sol.sigma • T • vdDir] from rfl]
    rw [hw 0, hw 1, hw 2, hz, mul_zero, zero_smul, add_zero, hds]
    simp only [one_mul]
  · show s.sol.xmean 0 < s.sol.xmean 0 + s.sol.sigma * (s.sol.sepcov 0 * (Real.sqrt 6 + ((Real.sqrt (1 + 6) - 1) *
      ((fun k => s.sol.v k / Real.sqrt 6 : Vec 6) ⬝ᵥ (vdEnv T).z 0)) * (s.sol.v 0 / Real.sqrt 6)))
    have hdot : (fun k => s.sol.v k / Real.sqrt 6 : Vec 6) ⬝ᵥ (vdEnv T).z 0 = 6 := by
      rw [hvs, h0]
      simp [dotProduct, h6.ne']
    have h7 : 1 ≤ Real.sqrt (1 + 6) := Real.le_sqrt_of_sq_le (by norm_num)
    rw [hd, hv, hdot]
    have := hL.sigma
    have h8 : 0 ≤ (Real.sqrt (1 + 6) - 1) * 6 * (1 / Real.sqrt 6) := by
      have : 0 ≤ Real.sqrt (1 + 6) - 1 := by linarith
      positivity
    nlinarith

/-- The selected candidates of the first generation. -/
theorem vd_selected {T : ℝ} {s s1 s2 s3 : Strat 6} {pop phen : List (Vec 6)} (hL : VdLive s)
    (hd : ∀ k, s.sol.sepcov k = 1) (hv : ∀ k, s.sol.v k = 1) (hm : s.sol.xmean = 0) (hnz : s.nz = 0)
    (hneg : s.negate = false) (hni : s.niter = 0)
    (hfx : s.p.fixedP = []) (hlam : s.p.lambda = 4) (hgp : s.p.gp = GenoPheno.plain)
    (ha : s.ask (vdEnv T) = .ok (pop, s1)) (hph : s1.phenoCols pop = .ok phen)
    (he : s1.eval (vdEnv T) pop phen = .ok s2) (ht : s2.tell (vdEnv T) = .ok s3) {i : ℕ} (hi : i < 3) :
    candX s3.sol.cands i = s.sol.xmean + s.sol.sigma • T • vdDir := by
  obtain ⟨x, hpop, hx⟩ := vd_pop hL hd hv hnz hfx hlam ha
  obtain ⟨⟨es, ei, ue, c, nz, x1, x2, p1, p2, e1⟩, hpl⟩ := Strat.ask_frame ha
  have huh : s1.p.uh = false := by rw [e1]; exact hL.uh
  obtain ⟨t3, h3, e2⟩ := Strat.eval_ok huh he
  have hph' : phen = pop := by
    have : s1.p.gp = GenoPheno.plain := by rw [e1]; exact hgp
    rw [phenoCols_plain this] at hph
    exact (Except.ok.inj hph).symm
  subst hph'
  have hlen : phen.length = 4 := by rw [hpl, hlam]
  have hcl : s1.sol.cands.length = 4 := by rw [e1]; exact hL.cands.trans hlam
  have hre : t3.sol.cands = (s1.evaluated (vdEnv T) phen phen).sol.cands := by
    unfold Strat.reinject at h3
    rw [if_neg] at h3
    · rw [← Except.ok.inj h3]
    · have : (s1.evaluated (vdEnv T) phen phen).niter = 0 := by
        show s1.niter = 0
        rw [e1]; exact hni
      unfold Strat.elitismOn
      simp [this]
  have hcs : s2.sol.cands = (s1.evaluated (vdEnv T) phen phen).sol.cands := by rw [e2]; exact hre
  have hget := fun r => Strat.evaluated_cands (env := vdEnv T) (s := s1) (cols := phen) (phen := phen)
    (by omega : phen.length ≤ s1.sol.cands.length) r
  rw [← hcs] at hget
  have hneg1 : s1.negate = false := by rw [e1]; exact hneg
  set w : Vec 6 := s.sol.xmean + s.sol.sigma • T • vdDir with hw
  have hw0 : w 0 = 0 := by
    rw [hw, hm]
    simp [vdDir]
  have hlist : s2.sol.cands = ⟨.num ((x 0 ^ 2 : ℝ) : EReal), x, 0⟩ :: [⟨.num ((w 0 ^ 2 : ℝ) : EReal), w, 1⟩,
      ⟨.num ((w 0 ^ 2 : ℝ) : EReal), w, 2⟩, ⟨.num ((w 0 ^ 2 : ℝ) : EReal), w, 3⟩] := by
    apply List.ext_getElem?
    intro r
    rw [hget r]
    by_cases hr : r < phen.length
    · rw [if_pos hr, hneg1, hpop]
      have hr4 : r < 4 := by omega
      interval_cases r <;> rfl
    · rw [if_neg hr, List.getElem?_eq_none (by omega), List.getElem?_eq_none (by simp; omega)]
  obtain ⟨sol3, sol4, _, hc3, hsort, _, _⟩ := Strat.tell_step ht
  have hsort := hsort (by
    obtain ⟨_, _, _, _, _, _, e, _⟩ := Strat.eval_frame he
    rw [e]; exact huh)
  rw [hlist] at hsort
  have hS := (stableSort_eq_ok hsort).2
  rw [hc3] at hS
  have hol : s3.sol.cands.length = 4 := by rw [hS.perm.length_eq]; rfl
  have hgood := sorted_good (good := fun d : Cand 6 => d.x = w) (i := i) (by
      intro d hd
      simp only [List.mem_cons, List.not_mem_nil, or_false] at hd
      rcases hd with rfl | rfl | rfl <;> rfl) (by
      have hlt : FVal.lt (.num ((w 0 ^ 2 : ℝ) : EReal)) (.num ((x 0 ^ 2 : ℝ) : EReal)) := by
        show ((w 0 ^ 2 : ℝ) : EReal) < ((x 0 ^ 2 : ℝ) : EReal)
        rw [EReal.coe_lt_coe_iff, hw0]
        rw [hm] at hx
        have : (0 : ℝ) < x 0 := hx
        nlinarith
      intro d hd e hee hgd hbe
      simp only [List.mem_cons, List.not_mem_nil, or_false] at hd hee
      rcases hee with rfl | rfl | rfl | rfl
      · rcases hd with rfl | rfl | rfl | rfl
        · exact absurd hgd hbe
        all_goals exact hlt
      all_goals exact absurd rfl hbe) hS (by simpa using hi) (by omega)
  unfold candX
  rw [List.getD_eq_getElem?_getD, List.getElem?_eq_getElem (by omega)]
  exact hgood

/-- The first component of `D` after the first generation. -/
theorem vd_first {T sigma : ℝ} {seed clock : ℕ} {p0 : Params 6} (hT : 80 ≤ T)
    (h : Params.make 0 sigma 4 seed clock GenoPheno.plain = .ok p0) :
    ∃ s s', Strat.new (vdEnv T) .vd (vdP4 p0) = .ok s ∧ s.generation (vdEnv T) = .ok s' ∧ VdLive s' ∧
      s'.sol.sepcov 0 = 1 - (vdP4 p0).cmu * (10 + T ^ 2) / 20 := by
  obtain ⟨k1, k2, k3, k4, k5, k6, k7⟩ := make_four h
  obtain ⟨c1, c2, c3, c4, c5, c6, c7, c8, c9, c10, c11, c12, c13, c14⟩ := vdP4_ok h
  obtain ⟨s, hs, hL, hr, hd, hv, hm, hnz, hcl, hneg⟩ := vd_new (T := T) h
  obtain ⟨_, _, _, hsp, hsig, hfr, hsn, _⟩ := Strat.new_ok hs
  have hn6 : sqNorm s.sol.v = 6 := by unfold sqNorm; simp [hv]
  have hgen : ∃ s', s.generation (vdEnv T) = .ok s' ∧ VdLive s' := by
    rcases hL.generation (env := vdEnv T) (fun _ _ => trivial) hr (fun k => by rw [hd]; norm_num)
      (by rw [hn6]; norm_num) with ⟨s', h1, h2, _⟩ | ⟨x, e, h1, _⟩
    · exact ⟨s', h1, h2⟩
    · have : s.p.gp = GenoPheno.plain := by rw [hsp]; exact c9
      rw [this, phenoV_plain] at h1; cases h1
  obtain ⟨s', hg, hL'⟩ := hgen
  refine ⟨s, s', hs, hg, hL', ?_⟩
  obtain ⟨pop, s1, phen, s2, s3, ha, hph, hev, ht, es', -, -, -⟩ := generation_points hL.good hL.cands hg
  have hsel := fun (i : ℕ) (hi : i < 3) => vd_selected (i := i) hL hd hv hm hnz hneg hsn (by rw [hsp]; exact c10)
    (by rw [hsp]; exact k1) (by rw [hsp]; exact c9) ha hph hev ht hi
  obtain ⟨sol3, sol4, hu, b1, b2, b3, b4, b5, b6, b7, b8, b9, b10, b11⟩ := turn_update hL.uh ha hev ht
  unfold covarianceUpdate at hu
  rw [hL.kind] at hu
  simp only at hu
  obtain ⟨hpre, _, _, hd3, hv3, hb, g, h2, h3, rfl⟩ := vdUpdate_ok hu
  have b3x : sol3.xmean = s.sol.xmean := congrArg CmaState.m b3
  have b3s : sol3.sigma = s.sol.sigma := congrArg CmaState.sigma b3
  have b3p : sol3.psigma = s.sol.psigma := congrArg CmaState.ps b3
  have hmu : s.p.mu = 2 := by rw [hsp]; exact k2
  have hw : ∑ i ∈ range s.p.mu, s.p.weights i = 1 := hL.good.weights.sum_one
  have hX : ∀ i < s.p.mu, candX sol3.cands i = s.sol.xmean + s.sol.sigma • T • vdDir := by
    intro i hi
    rw [b1]; exact hsel i (by omega)
  have hdm : diffMean sol3 (recombine s.p sol3.cands) = T • vdDir := by
    funext k
    have hrec : recombine s.p sol3.cands k = s.sol.xmean k + s.sol.sigma * (T * vdDir k) := by
      unfold recombine
      have : s.sol.xmean k + s.sol.sigma * (T * vdDir k) =
          ∑ i ∈ range s.p.mu, s.p.weights i * (s.sol.xmean k + s.sol.sigma * (T * vdDir k)) := by
        rw [← Finset.sum_mul, hw, one_mul]
      rw [this]
      refine sum_congr rfl fun i hi => ?_
      rw [hX i (mem_range.1 hi)]; rfl
    unfold diffMean
    have h0 := hL.sigma.ne'
    simp only [b3x, b3s, Pi.smul_apply, hrec, smul_eq_mul]
    field_simp
    ring
  have hps : (vdPaths s.p sol3 hb).psigma = s.p.factPs • fun k => 1 / Real.sqrt 2 * (T * vdDir k) := by
    show (1 - s.p.csigma) • sol3.psigma + s.p.factPs • (fun k => 1 / Real.sqrt (1 + sol3.v k * sol3.v k) *
      (1 / sol3.sepcov k) * diffMean sol3 (recombine s.p sol3.cands) k) = _
    rw [b3p, hfr.psigma, smul_zero, zero_add, hdm, b10, b5]
    congr 1
    funext k
    rw [hv, hd]
    norm_num
  have hhs : (vdPaths s.p sol3 hb).hsig = false := by
    show hsigNext (vdPaths s.p sol3 hb).psigma hb = false
    unfold hsigNext
    rw [decide_eq_false_iff_not, not_lt]
    have hfac : 1 / 4 ≤ s.p.factPs := by rw [hsp]; exact k5
    have hchi : s.p.chi ≤ 3 := by rw [hsp]; exact k6
    have hchi0 : 0 ≤ s.p.chi := by rw [hsp]; exact k7
    have hb6 : hb ≤ 6 := by
      unfold hsigBound at h2
      split_ifs at h2 with q1 q2
      rw [← Except.ok.inj h2]
      have hf0 : s.p.fixedP = [] := by rw [hsp]; exact c10
      rw [hf0]
      have hcs1 := hL.good.rates.csigma_lt
      have hcs0 := hL.good.rates.csigma_pos
      have hs1 : Real.sqrt (1 - (1 - s.p.csigma) ^ (2 * (sol3.niter + 1))) ≤ 1 := by
        rw [Real.sqrt_le_one]
        have : 0 ≤ (1 - s.p.csigma) ^ (2 * (sol3.niter + 1)) := by
          apply pow_nonneg; linarith
        linarith
      have hs0 := Real.sqrt_nonneg (1 - (1 - s.p.csigma) ^ (2 * (sol3.niter + 1)))
      simp only [List.length_nil]
      push_cast
      norm_num
      nlinarith [mul_nonneg hs0 hchi0]
    have hps1 : (vdPaths s.p sol3 hb).psigma 1 = s.p.factPs * (1 / Real.sqrt 2 * T) := by
      rw [hps]
      show s.p.factPs * (1 / Real.sqrt 2 * (T * vdDir 1)) = _
      simp [vdDir]
    have h22 : Real.sqrt 2 ≤ 2 := by rw [Real.sqrt_le_left (by norm_num)]; norm_num
    have h20 : 0 < Real.sqrt 2 := Real.sqrt_pos.2 (by norm_num)
    have hlow : 6 ≤ (vdPaths s.p sol3 hb).psigma 1 := by
      rw [hps1]
      have : 1 / 2 ≤ 1 / Real.sqrt 2 := by
        rw [div_le_div_iff₀ (by norm_num) h20]; linarith
      have h40 : 40 ≤ 1 / Real.sqrt 2 * T := by nlinarith
      nlinarith
    refine le_trans (hb6.trans hlow) ?_
    unfold vnorm
    apply Real.le_sqrt_of_sq_le
    rw [pow_two]
    exact Finset.single_le_sum (f := fun i => (vdPaths s.p sol3 hb).psigma i * (vdPaths s.p sol3 hb).psigma i)
      (fun j _ => mul_self_nonneg _) (Finset.mem_univ 1)
  have hcmu : s.p.cmu = (vdP4 p0).cmu := by rw [hsp]
  rw [hhs, if_pos (by rw [hcmu]; simp [hsigR, k3])] at h3
  have hfin := vd_uniform (p := s.p) (s := vdPaths s.p sol3 hb) (T := T) (g := g) hw
    (fun k => by show sol3.v k = 1; rw [b10]; exact hv k) (fun i hi => by
      funext k
      show (1 / sol3.sepcov k) * (candX sol3.cands i k - sol3.xmean k) / sol3.sigma = T * vdDir k
      rw [hX i hi, b5, hd, b3x, b3s]
      show 1 / 1 * (s.sol.xmean k + s.sol.sigma * (T * vdDir k) - s.sol.xmean k) / s.sol.sigma = _
      have h0 := hL.sigma.ne'
      field_simp
      ring) hhs h3
  have e1 : s'.sol.sepcov = g.sepcov := by rw [es']; exact b9
  rw [e1, hfin, hcmu]
  show sol3.sepcov 0 * _ = _
  rw [b5, hd, one_mul]

end Libcmaes
