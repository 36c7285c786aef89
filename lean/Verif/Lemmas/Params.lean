import Verif.Spec.Rates
import Verif.Lemmas.Out
import Mathlib.Algebra.Order.Chebyshev
import Mathlib.Algebra.BigOperators.Field

/-!
# Lemmas on the strategy parameters
-/

namespace Libcmaes

open Finset Spec

theorem rawWeight_pos {mu i : ℕ} (h : i < mu) : 0 < rawWeight mu i := by
  unfold rawWeight
  have : Real.log (i + 1) < Real.log (mu + 1) := by
    apply Real.log_lt_log (by positivity)
    have : (i : ℝ) < mu := by exact_mod_cast h
    linarith
  linarith

theorem rawWeight_lt {mu i j : ℕ} (h : i < j) : rawWeight mu j < rawWeight mu i := by
  unfold rawWeight
  have : Real.log (i + 1) < Real.log (j + 1) := by
    apply Real.log_lt_log (by positivity)
    have : (i : ℝ) < j := by exact_mod_cast h
    linarith
  linarith

theorem sumRaw_pos {mu : ℕ} (h : 1 ≤ mu) : 0 < ∑ i ∈ range mu, rawWeight mu i :=
  sum_pos (fun i hi => rawWeight_pos (mem_range.1 hi)) ⟨0, mem_range.2 (by omega)⟩

theorem sqRaw_pos {mu : ℕ} (h : 1 ≤ mu) : 0 < ∑ i ∈ range mu, rawWeight mu i * rawWeight mu i :=
  sum_pos (fun i hi => mul_pos (rawWeight_pos (mem_range.1 hi)) (rawWeight_pos (mem_range.1 hi)))
    ⟨0, mem_range.2 (by omega)⟩

/-- The variance effective selection mass as computed. -/
noncomputable def muwOf (mu : ℕ) : ℝ :=
  (∑ i ∈ range mu, rawWeight mu i) * (∑ i ∈ range mu, rawWeight mu i) /
    ∑ i ∈ range mu, rawWeight mu i * rawWeight mu i

theorem muwOf_le {mu : ℕ} (h : 1 ≤ mu) : muwOf mu ≤ mu := by
  unfold muwOf
  rw [div_le_iff₀ (sqRaw_pos h)]
  have := sq_sum_le_card_mul_sum_sq (s := range mu) (f := rawWeight mu)
  simpa [sq] using this

theorem one_le_muwOf {mu : ℕ} (h : 1 ≤ mu) : 1 ≤ muwOf mu := by
  unfold muwOf
  rw [le_div_iff₀ (sqRaw_pos h), one_mul, sum_mul]
  apply sum_le_sum
  intro i hi
  apply mul_le_mul_of_nonneg_left _ (rawWeight_pos (mem_range.1 hi)).le
  exact single_le_sum (f := rawWeight mu) (fun j hj => (rawWeight_pos (mem_range.1 hj)).le) hi

theorem initializeParameters_ok {n : ℕ} (p : Params n) (hl : 2 ≤ p.lambda) (hn : 1 ≤ n) :
    ∃ q, initializeParameters p = .ok q := by
  unfold initializeParameters
  have : ¬ (p.lambda / 2 = 0 ∨ n = 0) := by omega
  simp only [this, if_false]
  exact ⟨_, rfl⟩

/-- All that later proofs need about `initialize_parameters`. -/
structure InitSpec {n : ℕ} (p q : Params n) : Prop where
  mu : q.mu = p.lambda / 2
  lambda : q.lambda = p.lambda
  mu_pos : 1 ≤ q.mu
  n_pos : 1 ≤ n
  weights : ∀ i, q.weights i = rawWeight q.mu i / ∑ i ∈ range q.mu, rawWeight q.mu i
  muw : q.muw = muwOf q.mu
  csigma : q.csigma = if n < 1000 then (q.muw + 2) / (n + q.muw + 5)
    else (Real.sqrt q.muw + 2) / (Real.sqrt n + Real.sqrt q.muw + 3)
  cc : q.cc = (4 + q.muw / n) / (n + 4 + 2 * q.muw / n)
  c1 : q.c1 = 2 / (((n : ℝ) + 1.3) ^ 2 + q.muw)
  cmu : q.cmu = min (1 - q.c1) (2 * (q.muw - 2 + 1 / q.muw) / (((n : ℝ) + 2) ^ 2 + q.muw))
  dsigma : q.dsigma = dsigmaDefault n q.muw q.csigma
  chi : q.chi = chiOf n
  factPs : q.factPs = Real.sqrt (q.csigma * (2 - q.csigma) * q.muw)
  factPc : q.factPc = Real.sqrt (q.cc * (2 - q.cc) * q.muw)
  lazyValue : q.lazyValue = 1 / (q.c1 + q.cmu) / n / 10
  maxIter : q.maxIter = p.maxIter
  maxFevals : q.maxFevals = p.maxFevals
  x0min : q.x0min = p.x0min
  x0max : q.x0max = p.x0max
  ftarget : q.ftarget = p.ftarget
  ftolerance : q.ftolerance = p.ftolerance
  xtol : q.xtol = p.xtol
  seed : q.seed = p.seed
  algo : q.algo = p.algo
  withGradient : q.withGradient = p.withGradient
  withEdm : q.withEdm = p.withEdm
  fixedP : q.fixedP = p.fixedP
  gp : q.gp = p.gp
  mtFeval : q.mtFeval = p.mtFeval
  maxHist : q.maxHist = p.maxHist
  maximize : q.maximize = p.maximize
  initialFvalue : q.initialFvalue = p.initialFvalue
  uh : q.uh = p.uh
  tpa : q.tpa = p.tpa
  sigmaInit : q.sigmaInit = p.sigmaInit
  nrestarts : q.nrestarts = p.nrestarts
  lazyUpdate : q.lazyUpdate = p.lazyUpdate
  sep : q.sep = p.sep
  vd : q.vd = p.vd
  elitist : q.elitist = p.elitist
  initialElitist : q.initialElitist = p.initialElitist
  initialElitistOnRestart : q.initialElitistOnRestart = p.initialElitistOnRestart
  stoppingCrit : q.stoppingCrit = p.stoppingCrit

theorem initializeParameters_spec {n : ℕ} {p q : Params n} (h : initializeParameters p = .ok q) :
    InitSpec p q := by
  unfold initializeParameters at h
  by_cases hg : p.lambda / 2 = 0 ∨ n = 0
  · simp only [hg, if_true] at h
    cases h
  · simp only [hg, if_false, Except.ok.injEq] at h
    subst h
    constructor <;> first | rfl | (intro i; rfl) | (dsimp only; omega) | omega

theorem cmu_term_nonneg {m : ℝ} (hm : 1 ≤ m) : 0 ≤ m - 2 + 1 / m := by
  have : m - 2 + 1 / m = (m - 1) ^ 2 / m := by field_simp; ring
  rw [this]; positivity

theorem dsigmaDefault_ge (n : ℕ) (muw cs : ℝ) : 1 + cs ≤ dsigmaDefault n muw cs := by
  unfold dsigmaDefault
  have : 0 ≤ max 0 (Real.sqrt ((muw - 1) / (n + 1)) - 1) := le_max_left _ _
  linarith

theorem chiOf_pos {d : ℝ} (hd : 1 ≤ d) : 0 < chiOf d := by
  unfold chiOf
  apply mul_pos (Real.sqrt_pos.2 (by linarith))
  have h1 : 1 / (4 * d) ≤ 1 / 4 := by
    apply one_div_le_one_div_of_le <;> linarith
  have h2 : 0 < 1 / (21 * d * d) := by positivity
  linarith

section
variable {n : ℕ} {p q : Params n}

theorem InitSpec.one_le_muw (h : InitSpec p q) : 1 ≤ q.muw := h.muw ▸ one_le_muwOf h.mu_pos

theorem InitSpec.n_real (h : InitSpec p q) : (1 : ℝ) ≤ n := by exact_mod_cast h.n_pos

theorem InitSpec.c1_pos (h : InitSpec p q) : 0 < q.c1 := by
  have := h.one_le_muw
  rw [h.c1]; positivity

theorem InitSpec.c1_lt (h : InitSpec p q) : q.c1 < 1 / 3 := by
  have h1 := h.one_le_muw
  have h2 := h.n_real
  rw [h.c1, div_lt_iff₀ (by positivity)]
  nlinarith

theorem InitSpec.admissible (h : InitSpec p q) : Admissible q := by
  have h1 := h.one_le_muw
  have h2 := h.n_real
  have h3 := h.c1_lt
  have h4 := h.c1_pos
  have h5 := cmu_term_nonneg h1
  have hcs : 0 < q.csigma ∧ q.csigma < 1 := by
    rw [h.csigma]
    split_ifs
    · constructor
      · positivity
      · rw [div_lt_one (by positivity)]; linarith
    · have hs : 0 < Real.sqrt n := Real.sqrt_pos.2 (by linarith)
      constructor
      · positivity
      · rw [div_lt_one (by positivity)]; linarith
  refine ⟨h4, ?_, ?_, ?_, ?_, hcs.1, hcs.2, ?_⟩
  · rw [h.cmu]
    apply le_min (by linarith)
    apply div_nonneg <;> [linarith; positivity]
  · rw [h.cmu]
    have := min_le_left (1 - q.c1) (2 * (q.muw - 2 + 1 / q.muw) / (((n : ℝ) + 2) ^ 2 + q.muw))
    linarith
  · rw [h.cc]; positivity
  · rw [h.cc, div_le_one (by positivity)]
    have : 0 ≤ q.muw / n := by positivity
    have : 2 * q.muw / n = 2 * (q.muw / n) := by ring
    linarith
  · rw [h.dsigma]
    have := dsigmaDefault_ge n q.muw q.csigma
    linarith

end

end Libcmaes
