import Verif.Spec.Lazy
import Verif.Lemmas.Points
import Verif.Lemmas.Neutral

/-!
The generations in which a lazy search decomposes its covariance.
-/

namespace Libcmaes

open Spec Matrix

variable {n : ℕ}

/-- What the sampler holds: the mean and the decomposition of the covariance in state `u`. -/
structure Holds (env : Env n) (es : Es n) (u : Strat n) : Prop where
  mean : es.mean = u.sol.xmean
  eig : es.eig = some (env.eig.solve u.sol.cov)
  transform : es.transform = (env.eig.solve u.sol.cov).2 *
    diagonal fun i => Real.sqrt (max ((env.eig.solve u.sol.cov).1 i) 0)

/-- The sampler after `ask`. -/
theorem ask_es {env : Env n} {s s' : Strat n} {pop : List (Vec n)} (h : s.ask env = .ok (pop, s')) :
    ∃ t, s.askPrepare env = .ok t ∧ s'.es = t.es ∧ s'.sol.eigeniter = t.sol.eigeniter ∧
      s'.sol.updatedEigen = t.sol.updatedEigen := by
  unfold Strat.ask at h
  obtain ⟨s1, h1, h⟩ := Out.bind_eq_ok.1 h
  obtain ⟨⟨pop1, s2⟩, h2, h⟩ := Out.bind_eq_ok.1 h
  obtain ⟨⟨pop2, s3⟩, h3, h⟩ := Out.bind_eq_ok.1 h
  obtain ⟨⟨pop3, s4⟩, h4, h⟩ := Out.bind_eq_ok.1 h
  obtain ⟨pop4, h5, h⟩ := Out.bind_eq_ok.1 h
  injection h with h; injection h with h6 h7
  subst h6; subst h7
  obtain ⟨e2, l2⟩ := Strat.askSample_frame h2
  obtain ⟨⟨c, e3⟩, l3⟩ := Strat.askGradient_frame h3
  obtain ⟨⟨nz, x1, x2, p1, p2, e4⟩, l4, _⟩ := Strat.askTpa_frame h4
  refine ⟨s1, h1, ?_, ?_, ?_⟩ <;> rw [e4, e3, e2]

/-- The first part of `ask` for a full covariance. -/
theorem askPrepare_full {env : Env n} {s t : Strat n} (hsep : s.p.sep = false) (hvd : s.p.vd = false)
    (hlz : s.p.lazyUpdate = true) (h : s.askPrepare env = .ok t) :
    ((s.niter = 0 ∨ s.p.lazyValue < (((s.niter : ℤ) - s.sol.eigeniter : ℤ) : ℝ)) ∧ Holds env t.es s ∧
        t.sol.eigeniter = s.niter ∧ t.sol.updatedEigen = true) ∨
      (¬ (s.niter = 0 ∨ s.p.lazyValue < (((s.niter : ℤ) - s.sol.eigeniter : ℤ) : ℝ)) ∧ t.es = s.es ∧
        t.sol.eigeniter = s.sol.eigeniter ∧ t.sol.updatedEigen = false) := by
  unfold Strat.askPrepare at h
  rw [if_pos (by simp [hsep, hvd])] at h
  by_cases hc : s.niter = 0 ∨ s.p.lazyValue < (((s.niter : ℤ) - s.sol.eigeniter : ℤ) : ℝ)
  · rw [if_pos (by rcases hc with h | h; exacts [Or.inl h, Or.inr (Or.inr h)])] at h
    split_ifs at h
    injection h with h
    subst h
    exact Or.inl ⟨hc, ⟨rfl, rfl, rfl⟩, rfl, rfl⟩
  · rw [if_neg (by rintro (h | h | h); exacts [hc (Or.inl h), absurd (hlz.symm.trans h) (by decide), hc (Or.inr h)])] at h
    injection h with h
    subst h
    exact Or.inr ⟨hc, rfl, rfl, rfl⟩

/-- The generations of the decompositions: `ask` in generation `k` leaves the sampler with the mean and the covariance of
the first generation of the period. -/
theorem lazy_ask {env : Env n} {s0 : Strat n} (h0 : s0.niter = 0) (hsep : s0.p.sep = false) (hvd : s0.p.vd = false)
    (hlz : s0.p.lazyUpdate = true) (k : ℕ) {s : Strat n} (h : s0.generations env k = .ok s) {t : Strat n}
    (ht : s.askPrepare env = .ok t) :
    ∃ u, s0.generations env (periodStart (lazyPeriod s0.p) k) = .ok u ∧ Holds env t.es u ∧
      t.sol.eigeniter = periodStart (lazyPeriod s0.p) k ∧ t.sol.updatedEigen = decide (k % lazyPeriod s0.p = 0) := by
  have hP : 0 < lazyPeriod s0.p := Nat.succ_pos _
  induction k generalizing s t with
  | zero =>
    injection h with h
    subst h
    have e0 : periodStart (lazyPeriod s0.p) 0 = 0 := by simp [periodStart]
    rcases askPrepare_full hsep hvd hlz ht with ⟨_, h1, h2, h3⟩ | ⟨h1, _⟩
    · exact ⟨s0, by rw [e0]; rfl, h1, by rw [h2, h0, e0], by rw [h3]; simp⟩
    · exact absurd (Or.inl h0) h1
  | succ k ih =>
    obtain ⟨s1, h1, hg⟩ := Strat.generations_succ_last k h
    obtain ⟨pop, sa, phen, sb, sc, ha, _, he, htl, es⟩ := generation_parts hg
    obtain ⟨ta, hta, ea, eb, _⟩ := ask_es ha
    obtain ⟨u, hu, hh, hi, _⟩ := ih h1 hta
    obtain ⟨c2, nu, nzuh, lr, cu, cs, e2, _⟩ := Strat.eval_frame he
    obtain ⟨cs', cu', su, ts, sol3, _, hb, csq, hc, sc', ps, hs'', pc, cov, sep, v, sg, xp, xm, mx, mn, lv, le,
      e3⟩ := Strat.tell_frame htl
    obtain ⟨c0, ck, cl, med, _, _, _, _, eb', _⟩ := Sol.updateBest_ok hb
    have hes : s.es = ta.es ∧ s.sol.eigeniter = ta.sol.eigeniter := by
      rw [← ea, ← eb, es, e3, eb', e2]
      exact ⟨rfl, rfl⟩
    obtain ⟨tr, hl, hr⟩ := Strat.generations_run (k + 1) h
    obtain ⟨hp, _, _, hn, _⟩ := run_p hr
    rw [h0, hl, zero_add] at hn
    have hdm := Nat.div_add_mod k (lazyPeriod s0.p)
    have hml := Nat.mod_lt k hP
    have hgap : (((s.niter : ℤ) - s.sol.eigeniter : ℤ) : ℝ) = ((k % lazyPeriod s0.p + 1 : ℕ) : ℝ) := by
      rw [hn, hes.2, hi]
      have : ((k + 1 : ℕ) : ℤ) - (periodStart (lazyPeriod s0.p) k : ℕ) = ((k % lazyPeriod s0.p + 1 : ℕ) : ℤ) := by
        unfold periodStart
        generalize k / lazyPeriod s0.p = q at hdm
        generalize k % lazyPeriod s0.p = r at hdm
        rw [← hdm]; push_cast; ring
      rw [this]; norm_cast
    have hiff : (s.niter = 0 ∨ s.p.lazyValue < (((s.niter : ℤ) - s.sol.eigeniter : ℤ) : ℝ)) ↔
        k % lazyPeriod s0.p + 1 = lazyPeriod s0.p := by
      rw [hn, hp] at *
      rw [hgap, ← Nat.floor_lt' (Nat.succ_ne_zero _)]
      have hpd : lazyPeriod s0.p = ⌊s0.p.lazyValue⌋₊ + 1 := rfl
      omega
    rcases askPrepare_full (by rw [hp]; exact hsep) (by rw [hp]; exact hvd) (by rw [hp]; exact hlz) ht with
      ⟨h3, h4, h5, h6⟩ | ⟨h3, h4, h5, h6⟩
    · have h7 := hiff.1 h3
      have hdvd : k + 1 = lazyPeriod s0.p * (k / lazyPeriod s0.p + 1) := by rw [mul_add, mul_one]; omega
      have e0 : periodStart (lazyPeriod s0.p) (k + 1) = k + 1 := by
        unfold periodStart
        rw [Nat.mul_div_cancel' ⟨_, hdvd⟩]
      exact ⟨s, by rw [e0]; exact h, h4, by rw [h5, hn, e0], by
        rw [h6, eq_comm, decide_eq_true_eq]; exact Nat.mod_eq_zero_of_dvd ⟨_, hdvd⟩⟩
    · have h7 : k % lazyPeriod s0.p + 1 < lazyPeriod s0.p := by
        have := mt hiff.2 h3; omega
      have e0 : (k + 1) / lazyPeriod s0.p = k / lazyPeriod s0.p ∧ (k + 1) % lazyPeriod s0.p = k % lazyPeriod s0.p + 1 := by
        rw [Nat.div_mod_unique hP]
        exact ⟨by omega, h7⟩
      have e1 : periodStart (lazyPeriod s0.p) (k + 1) = periodStart (lazyPeriod s0.p) k := by
        unfold periodStart; rw [e0.1]
      refine ⟨u, by rw [e1]; exact hu, by rw [h4, hes.1]; exact hh, by rw [h5, hes.2, hi, e1], ?_⟩
      rw [h6, e0.2]; simp

end Libcmaes
