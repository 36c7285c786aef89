import Verif.Lemmas.Params
import Verif.Lemmas.GenoPheno
import Verif.Spec.Setters
import Mathlib.Tactic.IntervalCases

/-!
# Lemmas on the setters
-/

namespace Libcmaes

open Finset Spec

/-- The rates reached without any call of `set_sep` or `set_vd`: admissible, and the rank-one rate
not above its default value. -/
structure BaseRates {n : ℕ} (p : Params n) : Prop where
  adm : Admissible p
  lambda : 2 ≤ p.lambda
  n_pos : 1 ≤ n
  muw : 1 ≤ p.muw
  c1 : p.c1 ≤ 2 / (((n : ℝ) + 1.3) ^ 2 + p.muw)

theorem InitSpec.base {n : ℕ} {p q : Params n} (h : InitSpec p q) : BaseRates q := by
  refine ⟨h.admissible, ?_, h.n_pos, h.one_le_muw, h.c1.le⟩
  have := h.mu_pos; have := h.mu; have := h.lambda; omega

theorem setTpa_dsigma_pos {n : ℕ} (hn : 1 ≤ n) (p : Params n) (hc : 0 < p.csigma) (b : ℤ) :
    0 < (p.setTpa b).dsigma := by
  unfold Params.setTpa
  dsimp only
  split_ifs
  · have h1 : (1 : ℝ) ≤ Real.sqrt n := by
      rw [Real.one_le_sqrt]; exact_mod_cast hn
    have : 3.6 / Real.sqrt n ≤ 3.6 := div_le_self (by norm_num) h1
    norm_num at this ⊢
    linarith
  · have := dsigmaDefault_ge n p.muw p.csigma
    linarith

theorem setNoisy_base {n : ℕ} {p q : Params n} (h : p.setNoisy = .ok q) :
    BaseRates q := by
  unfold Params.setNoisy at h
  obtain ⟨r, hr, h⟩ := Out.bind_eq_ok.1 h
  have hs := initializeParameters_spec hr
  have hb := hs.base
  have h3 := hs.c1_lt
  have h4 := hs.c1_pos
  have h5 := cmu_term_nonneg hs.one_le_muw
  have hm := hb.muw
  cases h
  refine ⟨⟨by dsimp only; positivity, ?_, ?_, hb.adm.cc_pos, hb.adm.cc_le, hb.adm.csigma_pos,
    hb.adm.csigma_lt, hb.adm.dsigma_pos⟩, hb.lambda, hb.n_pos, hb.muw, ?_⟩
  · apply le_min
    · norm_num at *; linarith
    · apply div_nonneg <;> [skip; positivity]
      norm_num at *; linarith
  · have := min_le_left (1 - r.c1 * 0.2)
      (2 * 0.2 * (r.muw - 2 + 1 / r.muw) / (((n : ℝ) + 2) ^ 2 + r.muw))
    dsimp only
    linarith
  · dsimp only
    rw [← hs.c1]
    norm_num
    linarith

theorem Spec.Admissible.of_rates {n : ℕ} {p q : Params n} (h : Admissible p) (h1 : q.c1 = p.c1)
    (h2 : q.cmu = p.cmu) (h3 : q.cc = p.cc) (h4 : q.csigma = p.csigma) (h5 : 0 < q.dsigma) :
    Admissible q :=
  ⟨h1 ▸ h.c1_pos, h2 ▸ h.cmu_nonneg, by rw [h1, h2]; exact h.c1_cmu_le, h3 ▸ h.cc_pos,
    h3 ▸ h.cc_le, h4 ▸ h.csigma_pos, h4 ▸ h.csigma_lt, h5⟩

theorem setElitism_rates {n : ℕ} (p : Params n) (e : ℤ) :
    (p.setElitism e).c1 = p.c1 ∧ (p.setElitism e).cmu = p.cmu ∧ (p.setElitism e).cc = p.cc ∧
    (p.setElitism e).csigma = p.csigma ∧ (p.setElitism e).dsigma = p.dsigma ∧
    (p.setElitism e).lambda = p.lambda ∧ (p.setElitism e).muw = p.muw := by
  unfold Params.setElitism
  split_ifs <;> simp

theorem RateCall.run_base {n : ℕ} {p q : Params n} (hp : BaseRates p) {c : RateCall}
    (h : c.run p = .ok q) : BaseRates q := by
  cases c with
  | noisy => exact setNoisy_base h
  | tpa b =>
    cases h
    exact ⟨hp.adm.of_rates rfl rfl rfl rfl (setTpa_dsigma_pos hp.n_pos p hp.adm.csigma_pos b),
      hp.lambda, hp.n_pos, hp.muw, hp.c1⟩
  | fix i v =>
    cases h
    exact ⟨hp.adm.of_rates rfl rfl rfl rfl hp.adm.dsigma_pos, hp.lambda, hp.n_pos, hp.muw, hp.c1⟩
  | unfix i =>
    cases h
    exact ⟨hp.adm.of_rates rfl rfl rfl rfl hp.adm.dsigma_pos, hp.lambda, hp.n_pos, hp.muw, hp.c1⟩
  | elitism e =>
    cases h
    obtain ⟨h1, h2, h3, h4, h5, h6, h7⟩ := setElitism_rates p e
    exact ⟨hp.adm.of_rates h1 h2 h3 h4 (h5 ▸ hp.adm.dsigma_pos), h6 ▸ hp.lambda, hp.n_pos,
      h7 ▸ hp.muw, by rw [h1, h7]; exact hp.c1⟩
  | algo a =>
    cases h
    exact ⟨hp.adm.of_rates rfl rfl rfl rfl hp.adm.dsigma_pos, hp.lambda, hp.n_pos, hp.muw, hp.c1⟩

theorem RateCall.run_admissible {n : ℕ} (hn : 1 ≤ n) {p q : Params n} (hp : Admissible p)
    {c : RateCall} (h : c.run p = .ok q) : Admissible q := by
  cases c with
  | noisy => exact (setNoisy_base h).adm
  | tpa b => cases h; exact hp.of_rates rfl rfl rfl rfl (setTpa_dsigma_pos hn p hp.csigma_pos b)
  | fix i v => cases h; exact hp.of_rates rfl rfl rfl rfl hp.dsigma_pos
  | unfix i => cases h; exact hp.of_rates rfl rfl rfl rfl hp.dsigma_pos
  | elitism e =>
    cases h
    obtain ⟨h1, h2, h3, h4, h5, -, -⟩ := setElitism_rates p e
    exact hp.of_rates h1 h2 h3 h4 (h5 ▸ hp.dsigma_pos)
  | algo a => cases h; exact hp.of_rates rfl rfl rfl rfl hp.dsigma_pos

theorem setSep_admissible {n : ℕ} {p : Params n} (hp : BaseRates p) : Admissible p.setSep := by
  have hn : (1 : ℝ) ≤ n := by exact_mod_cast hp.n_pos
  have hm := hp.muw
  have ht := cmu_term_nonneg hm
  have hs : (1 : ℝ) ≤ Real.sqrt n := by rw [Real.one_le_sqrt]; exact hn
  have hc1 : 0 < p.c1 * ((n + 2) / 3) := mul_pos hp.adm.c1_pos (by positivity)
  have hc1' : p.c1 * ((n + 2) / 3) ≤ 1 := by
    have h1 : p.c1 * (((n : ℝ) + 2) / 3) ≤ 2 / (((n : ℝ) + 1.3) ^ 2 + p.muw) * ((n + 2) / 3) :=
      mul_le_mul_of_nonneg_right hp.c1 (by positivity)
    refine h1.trans ?_
    rw [div_mul_div_comm, div_le_one (by positivity)]
    nlinarith
  refine ⟨hc1, ?_, ?_, ?_, ?_, hp.adm.csigma_pos, hp.adm.csigma_lt, hp.adm.dsigma_pos⟩
  · apply le_min
    · linarith
    · apply div_nonneg
      · norm_num; norm_num at ht; linarith
      · positivity
  · have := min_le_left (1 - p.c1 * (((n : ℝ) + 2) / 3))
      ((0.3 + p.muw - 2 + 1 / p.muw) / (n + 4 * Real.sqrt n + p.muw / 2))
    simp only [Params.setSep]
    linarith
  · simp only [Params.setSep]; positivity
  · simp only [Params.setSep]
    rw [div_le_one (by positivity)]
    have : 2 * p.muw / n = 2 * (p.muw / n) := by ring
    have : 0 ≤ p.muw / n := by positivity
    linarith

theorem setVd_admissible {n : ℕ} {p : Params n} (hp : BaseRates p) (h6 : 6 ≤ n) :
    Admissible p.setVd := by
  have hn : (6 : ℝ) ≤ n := by exact_mod_cast h6
  have hm := hp.muw
  have ht := cmu_term_nonneg hm
  have hs : 0 < Real.sqrt n := Real.sqrt_pos.2 (by linarith)
  have hms : 0 < Real.sqrt p.muw := Real.sqrt_pos.2 (by linarith)
  unfold Params.setVd
  by_cases ha : p.algo ≠ 12 ∧ p.algo ≠ 13 ∧ p.algo ≠ 14
  · rw [if_pos ha]; exact hp.adm
  rw [if_neg ha]
  have hc1 : 0 < p.c1 * ((n - 5) / 6) := mul_pos hp.adm.c1_pos (by linarith)
  have hc1' : p.c1 * ((n - 5) / 6) ≤ 1 := by
    have h1 : p.c1 * (((n : ℝ) - 5) / 6) ≤ 2 / (((n : ℝ) + 1.3) ^ 2 + p.muw) * ((n - 5) / 6) :=
      mul_le_mul_of_nonneg_right hp.c1 (by linarith)
    refine h1.trans ?_
    rw [div_mul_div_comm, div_le_one (by positivity)]
    nlinarith
  have hcs : 0 < Real.sqrt p.muw / (2 * (Real.sqrt n + Real.sqrt p.muw)) := by positivity
  refine ⟨hc1, ?_, ?_, hp.adm.cc_pos, hp.adm.cc_le, hcs, ?_, ?_⟩
  · apply le_min
    · linarith
    · apply mul_nonneg (by linarith)
      apply div_nonneg <;> [linarith; positivity]
  · have := min_le_left (1 - p.c1 * (((n : ℝ) - 5) / 6))
      ((n - 5) / 6 * (2 * (p.muw - 2 + 1 / p.muw) / ((n + 2) ^ 2 + p.muw)))
    dsimp only
    linarith
  · dsimp only
    rw [div_lt_one (by positivity)]
    linarith
  · dsimp only
    split_ifs
    · have := dsigmaDefault_ge n p.muw (Real.sqrt p.muw / (2 * (Real.sqrt n + Real.sqrt p.muw)))
      linarith
    · exact hp.adm.dsigma_pos

theorem mapFind_insert {κ α : Type} [DecidableEq κ] (m : List (κ × α)) (k i : κ) (v : α) :
    mapFind (mapInsert m k v) i =
      if i = k then (mapFind m k).or (some v) else mapFind m i := by
  unfold mapInsert
  induction m with
  | nil =>
    by_cases h : k = i
    · subst h; simp [mapFind]
    · simp [mapFind, h, Ne.symm h]
  | cons x xs ih =>
    by_cases hx : x.1 = k
    · by_cases hi : i = k
      · subst hi; simp [mapFind, hx]
      · simp [hx, mapFind, hi]
    · by_cases hm : k ∈ xs.map Prod.fst
      · have hm' : k ∈ (x :: xs).map Prod.fst := by simp at hm ⊢; tauto
        rw [if_pos hm] at ih
        rw [if_pos hm']
        by_cases hi : i = k
        · subst hi
          simp only [if_true] at ih ⊢
          simp only [mapFind, List.find?_cons, hx, decide_false] at ih ⊢
          exact ih
        · simp [hi]
      · have hm' : k ∉ (x :: xs).map Prod.fst := by
          simp at hm ⊢; exact ⟨fun h => hx h.symm, hm⟩
        rw [if_neg hm] at ih
        rw [if_neg hm']
        simp only [mapFind, List.cons_append, List.find?_cons] at ih ⊢
        by_cases hi : i = k
        · subst hi
          simp only [hx, decide_false] at ih ⊢
          exact ih
        · simp only [hi, if_false] at ih ⊢
          by_cases hxi : x.1 = i
          · simp [hxi]
          · simp only [hxi, decide_false]
            exact ih

theorem mapFind_erase {κ α : Type} [DecidableEq κ] (m : List (κ × α)) (k i : κ) :
    mapFind (mapErase m k) i = if i = k then none else mapFind m i := by
  unfold mapErase
  induction m with
  | nil => simp [mapFind]
  | cons x xs ih =>
    by_cases hx : x.1 = k
    · rw [List.filter_cons_of_neg (by simp [hx]), ih]
      by_cases hi : i = k
      · simp [hi]
      · simp [hi, mapFind, hx, Ne.symm hi]
    · rw [List.filter_cons_of_pos (by simp [hx])]
      by_cases hi : i = k
      · subst hi
        simp only [mapFind, List.find?_cons, hx, decide_false, if_true] at ih ⊢
        exact ih
      · simp only [hi, if_false] at ih ⊢
        by_cases hxi : x.1 = i
        · simp [mapFind, hxi]
        · simp only [mapFind, List.find?_cons, hxi, decide_false] at ih ⊢
          exact ih

theorem launch_none (a : ℤ) : launch a = none ↔ a < 0 ∨ 14 < a := by
  constructor
  · intro h
    by_contra hc
    have h1 : 0 ≤ a := by omega
    have h2 : a ≤ 14 := by omega
    interval_cases a <;> simp [launch] at h
  · intro h
    unfold launch
    repeat rw [if_neg (by omega)]

theorem launch_spec {a : ℤ} {l : Launch} (h : launch a = some l) :
    0 ≤ a ∧ a ≤ 14 ∧ (l.cov = .active ↔ a / 3 = 1 ∨ a / 3 = 3) ∧ (l.cov = .vd ↔ a / 3 = 4) ∧
    (l.restart = .single ↔ a % 3 = 0) ∧ (l.restart = .ipop ↔ a % 3 = 1) ∧
    (l.restart = .bipop ↔ a % 3 = 2) ∧ (l.forceSep = true ↔ 6 ≤ a ∧ a ≤ 11) ∧
    (l.forceVd = true ↔ 12 ≤ a) := by
  have hn : ¬ (a < 0 ∨ 14 < a) := by rw [← launch_none, h]; simp
  have h1 : 0 ≤ a := by omega
  have h2 : a ≤ 14 := by omega
  interval_cases a <;> (simp [launch] at h; subst h; simp)

theorem setVd_algo {n : ℕ} (p : Params n) : p.setVd.algo = p.algo := by
  unfold Params.setVd; split_ifs <;> rfl

/-- `set_str_algo` leaves the code found in the table. -/
theorem setStrAlgo_algo {n : ℕ} (p : Params n) (name : String) :
    (p.setStrAlgo name).algo = (mapFind Params.algoTable name).getD p.algo := by
  unfold Params.setStrAlgo
  dsimp only
  cases h : mapFind Params.algoTable name <;> dsimp only <;> split_ifs <;>
    simp [setVd_algo, Params.setSep]

end Libcmaes
