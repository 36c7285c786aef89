import Verif.Model.SurrDispatch
import Verif.Lemmas.Good
import Verif.Props.Params

/-!
# C98: `surrcmaes()` runs the chosen algorithm
-/

namespace Libcmaes

open Spec

variable {n : ℕ}

/-- **C98**, the choice: for each algorithm code `surrcmaes()` runs the covariance update and the restart scheme that
`cmaes()` runs, and nothing for the same codes; separable and VD codes run with the corresponding flag. -/
theorem C98_choice (p : Params n) :
    (surrLaunchParams p = none ↔ launchParams p = none) ∧
    ∀ l q, surrLaunchParams p = some (l, q) → q.algo = p.algo ∧
      (6 ≤ p.algo ∧ p.algo ≤ 11 → q.sep = true) ∧ (12 ≤ p.algo → q.vd = true) ∧
      ∃ l' q', launchParams p = some (l', q') ∧ l.cov = l'.cov ∧ l.restart = l'.restart := by
  refine ⟨by simp only [surrLaunchParams, launchParams, Option.map_eq_none_iff], fun l q h => ?_⟩
  unfold surrLaunchParams at h
  rw [Option.map_eq_some_iff] at h
  obtain ⟨l', hl', he⟩ := h
  simp only [Prod.mk.injEq] at he
  obtain ⟨rfl, hq⟩ := he
  obtain ⟨_, _, _, _, _, _, _, h7, h8⟩ := launch_spec hl'
  refine ⟨?_, fun h => ?_, fun h => ?_, ?_⟩
  · subst hq
    split_ifs <;> simp [setVd_algo, Params.setSep]
  · have hf := h7.2 h
    have hv : l'.forceVd = false := by rw [← Bool.not_eq_true, h8]; omega
    subst hq
    simp [hf, hv, Params.setSep]
  · have hv := h8.2 h
    have hf : l'.forceSep = false := by rw [← Bool.not_eq_true, h7]; omega
    have hg : ¬ (p.algo ≠ 12 ∧ p.algo ≠ 13 ∧ p.algo ≠ 14) := by have := (launch_spec hl').2.1; omega
    subst hq
    simp [hf, hv, Params.setVd, hg]
  · unfold launchParams
    rw [hl']
    exact ⟨_, _, rfl, rfl, rfl⟩

/-- **C98**, partial: on a parameters object for which `set_sep` and `set_vd` were not called, the search has the
parameters with which `cmaes()` runs; and the codes that are neither separable nor VD leave the object as it is, so
that each call is like the first.  Missing: objects on which they were called, for which the property is false
(see `C98_repeated_false`). -/
theorem C98_params_partial (p : Params n) (l : Launch) (q : Params n) (h : surrLaunchParams p = some (l, q)) :
    (p.sep = false → p.vd = false → ∃ l', launchParams p = some (l', q)) ∧
    (p.algo < 6 → ∀ k, afterSurrCalls p k = p) := by
  have hcopy := h
  unfold surrLaunchParams at h
  rw [Option.map_eq_some_iff] at h
  obtain ⟨l', hl', he⟩ := h
  simp only [Prod.mk.injEq] at he
  obtain ⟨rfl, hq⟩ := he
  obtain ⟨_, _, _, _, _, _, _, h7, h8⟩ := launch_spec hl'
  refine ⟨fun hs hv => ⟨l', ?_⟩, fun ha k => ?_⟩
  · unfold launchParams
    rw [hl']
    have : (p.setSep).vd = p.vd := rfl
    subst hq
    by_cases h1 : l'.forceSep = true <;> by_cases h2 : l'.forceVd = true <;> simp [h1, h2, hs, hv, this]
  · have hv : l'.forceVd = false := by rw [← Bool.not_eq_true, h8]; omega
    have hf : l'.forceSep = false := by rw [← Bool.not_eq_true, h7]; omega
    have hqp : q = p := by subst hq; simp [hf, hv]
    subst hqp
    induction k with
    | zero => rfl
    | succ k ih => unfold afterSurrCalls; rw [ih, hcopy]

/-- **C98** is false for repeated calls: each call with a separable algorithm multiplies the rank-one rate of the caller's
object by `(dim + 2) / 3`.  In each dimension from 2 on, whatever the population size, there is a call, and after it
all later calls, that searches with a rank-one rate above 1 and a negative rank-mu rate.  With `cmaes()` the rates
are the same in all calls. -/
theorem C98_repeated_false (hn : 2 ≤ n) (x0 : Vec n) (sigma : ℝ) (lambda : ℤ) (seed clock : ℕ) (gp : GenoPheno) (a : ℤ)
    (ha : 6 ≤ a ∧ a ≤ 11) :
    ∃ p, Params.make x0 sigma lambda seed clock gp = .ok p ∧
      (∀ k, (afterSurrCalls (p.setAlgo a) k).c1 = p.c1 * (((n : ℝ) + 2) / 3) ^ k) ∧
      (∃ k0, ∀ k ≥ k0, 1 < (afterSurrCalls (p.setAlgo a) k).c1 ∧ (afterSurrCalls (p.setAlgo a) k).cmu < 0 ∧
        ¬ Admissible (afterSurrCalls (p.setAlgo a) k)) ∧
      ∃ l l' q, launchParams (p.setAlgo a) = some (l, q) ∧ launchParams q = some (l', q) := by
  obtain ⟨p, hp, had, -⟩ := C12_default_rates (by omega : 1 ≤ n) x0 sigma lambda seed clock gp
  have hstep : ∀ q : Params n, q.algo = a → ∃ l, surrLaunchParams q = some (l, q.setSep) ∧ q.setSep.algo = a := by
    intro q hq
    obtain ⟨l, hl⟩ : ∃ l, launch q.algo = some l := by
      rcases h : launch q.algo with _ | l
      · rw [launch_none] at h; omega
      · exact ⟨l, rfl⟩
    obtain ⟨_, _, _, _, _, _, _, h7, h8⟩ := launch_spec hl
    have hf := h7.2 (by omega)
    have hv : l.forceVd = false := by rw [← Bool.not_eq_true, h8]; omega
    refine ⟨{ l with usesSolution := false }, ?_, by simpa [Params.setSep] using hq⟩
    unfold surrLaunchParams
    rw [hl]
    simp [hf, hv]
  have hiter : ∀ k, (afterSurrCalls (p.setAlgo a) k).algo = a ∧
      afterSurrCalls (p.setAlgo a) (k + 1) = (afterSurrCalls (p.setAlgo a) k).setSep := by
    intro k
    have hn : ∀ k, (afterSurrCalls (p.setAlgo a) k).algo = a := by
      intro k
      induction k with
      | zero => rfl
      | succ k ih =>
        obtain ⟨l, h1, h2⟩ := hstep _ ih
        show (match surrLaunchParams (afterSurrCalls (p.setAlgo a) k) with
          | some (_, q) => q
          | none => afterSurrCalls (p.setAlgo a) k).algo = a
        rw [h1]
        exact h2
    refine ⟨hn k, ?_⟩
    obtain ⟨l, h1, _⟩ := hstep _ (hn k)
    show (match surrLaunchParams (afterSurrCalls (p.setAlgo a) k) with
          | some (_, q) => q
          | none => afterSurrCalls (p.setAlgo a) k) = _
    rw [h1]
  have hc : ∀ k, (afterSurrCalls (p.setAlgo a) k).c1 = p.c1 * (((n : ℝ) + 2) / 3) ^ k := by
    intro k
    induction k with
    | zero => simp [afterSurrCalls, Params.setAlgo]
    | succ k ih =>
      rw [(hiter k).2, pow_succ, ← mul_assoc, ← ih]
      rfl
  have hn2 : (2 : ℝ) ≤ n := by exact_mod_cast hn
  refine ⟨p, hp, hc, ?_, ?_⟩
  · obtain ⟨k0, hk0⟩ := pow_unbounded_of_one_lt (1 / p.c1) (by linarith : (1 : ℝ) < ((n : ℝ) + 2) / 3)
    have hbig : ∀ k ≥ k0, 1 < (afterSurrCalls (p.setAlgo a) k).c1 := by
      intro k hk
      have h1 : (((n : ℝ) + 2) / 3) ^ k0 ≤ (((n : ℝ) + 2) / 3) ^ k := pow_le_pow_right₀ (by linarith) hk
      rw [hc k]
      have := had.c1_pos
      rw [div_lt_iff₀ this] at hk0
      nlinarith
    refine ⟨k0 + 1, fun k hk => ?_⟩
    have h1 := hbig k (by omega)
    have h2 : (afterSurrCalls (p.setAlgo a) k).cmu < 0 := by
      obtain ⟨j, rfl⟩ : ∃ j, k = j + 1 := ⟨k - 1, by omega⟩
      rw [(hiter j).2] at h1 ⊢
      exact lt_of_le_of_lt (min_le_left _ _) (by have h1' : 1 < (afterSurrCalls (p.setAlgo a) j).setSep.c1 := h1
                                                 have : (afterSurrCalls (p.setAlgo a) j).setSep.c1 = (afterSurrCalls (p.setAlgo a) j).c1 * (((n : ℝ) + 2) / 3) := rfl
                                                 linarith)
    exact ⟨h1, h2, fun h => absurd h.cmu_nonneg (not_le.2 h2)⟩
  · obtain ⟨l, hl⟩ : ∃ l, launch a = some l := by
      rcases h : launch a with _ | l
      · rw [launch_none] at h; omega
      · exact ⟨l, rfl⟩
    obtain ⟨_, _, _, _, _, _, _, h7, h8⟩ := launch_spec hl
    have hf := h7.2 (by omega)
    have hv : l.forceVd = false := by rw [← Bool.not_eq_true, h8]; omega
    have hps : (p.setAlgo a).sep = false := (Params.make_flags hp).1
    refine ⟨l, l, (p.setAlgo a).setSep, ?_, ?_⟩
    · unfold launchParams
      rw [show (p.setAlgo a).algo = a from rfl, hl]
      simp [hf, hv, hps]
    · unfold launchParams
      rw [show (p.setAlgo a).setSep.algo = a from rfl, hl]
      simp [hv, show (p.setAlgo a).setSep.sep = true from rfl]

/-- A case that meets the hypotheses of `C98_choice` and `C98_params_partial`: each algorithm code, on constructed parameters. -/
example (hn : 1 ≤ n) (a : ℤ) (ha : 0 ≤ a ∧ a ≤ 14) : ∃ (p : Params n) (l : Launch) (q : Params n),
    Params.make 0 1 (-1) 1 0 .plain = .ok p ∧ surrLaunchParams (p.setAlgo a) = some (l, q) ∧ (p.setAlgo a).sep = false ∧
    (p.setAlgo a).vd = false := by
  obtain ⟨p, hp, _⟩ := C12_default_rates hn (0 : Vec n) 1 (-1) 1 0 .plain
  obtain ⟨hs, hv⟩ := Params.make_flags hp
  rcases h : launch a with _ | l
  · rw [launch_none] at h; omega
  have e : ∃ q, surrLaunchParams (p.setAlgo a) = some ({ l with usesSolution := false }, q) := by
    unfold surrLaunchParams
    rw [show (p.setAlgo a).algo = a from rfl, h]
    exact ⟨_, rfl⟩
  obtain ⟨q, e⟩ := e
  exact ⟨p, _, q, hp, e, hs, hv⟩

end Libcmaes
