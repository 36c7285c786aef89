import Verif.Lemmas.SurrTrain
import Verif.Lemmas.RestartRun

/-! # Restarts of a surrogate strategy -/

namespace Libcmaes

open Spec

namespace Surr

variable {n : ℕ} {M : Type}

theorem restart_ok {env : Env n} {t t' : Surr n M} (h : t.restart env = .ok t') :
    ∃ s q, t' = { t with s := s } ∧ initializeParameters { t.s.p with lambda := t.s.p.lambda * 2 } = .ok q ∧
      ({ t.s with p := q } : Strat n).resetSearchState env = .ok s ∧ s.niter = 0 ∧ s.calls = t.s.calls ∧
      s.negate = t.s.negate ∧ s.p.lambda = t.s.p.lambda * 2 ∧ s.sol.cands.length = s.p.lambda ∧
      KeepsSettings t.s.p s.p := by
  unfold restart at h
  obtain ⟨s1, h1, ha⟩ := Out.bind_eq_ok.1 h
  obtain ⟨s2, h2, hb⟩ := Out.bind_eq_ok.1 ha
  have he := Except.ok.inj hb
  clear h ha hb
  obtain ⟨q, hq, e1⟩ := Strat.lambdaInc_ok h1
  subst e1
  obtain ⟨mu, w, muw, cs, cc, c1, cm, ds, fs, fc, ch, lv, rl, al, e⟩ := initializeParameters_frame hq
  have hk : KeepsSettings t.s.p q := by rw [e]; rfl
  obtain ⟨b1, b2, _⟩ := afresh_reset h2 hk
  obtain ⟨p, sol, hm, e2⟩ := Strat.resetSearchState_ok h2
  refine ⟨s2, q, he.symm, hq, h2, by rw [e2], by rw [e2], b1.negate, by rw [b2, e], ?_, b1.settings⟩
  exact b1.fresh.cands

theorem keeps {p q : Params n} (h : KeepsSettings p q) : q.uh = p.uh ∧ q.withGradient = p.withGradient ∧
    q.elitist = p.elitist ∧ q.initialElitist = p.initialElitist ∧
    q.initialElitistOnRestart = p.initialElitistOnRestart ∧ q.mtFeval = p.mtFeval ∧ q.gp = p.gp := by
  rw [h]; exact ⟨rfl, rfl, rfl, rfl, rfl, rfl, rfl⟩

theorem begun_begun (t : Surr n M) : t.begun.begun = t.begun := by
  by_cases h : t.s.niter = 0
  · have e : t.begun = { t with
        prelambda := if t.tset.isEmpty then t.prelambda else 50 * t.s.p.lambda }.resetTrainingSet := by
      unfold begun; rw [if_pos h]
    rw [e]
    unfold begun resetTrainingSet
    simp only
    rw [if_pos h]
    rfl
  · rw [begun_of_ne h, begun_of_ne h]

theorem acmGeneration_begun (env : Env n) (sf : SurrFuncs n M) (fuel : ℕ) (t : Surr n M) :
    t.acmGeneration env sf fuel = t.begun.acmGeneration env sf fuel := by
  unfold acmGeneration
  rw [acmAsk_eq, acmAsk_eq, begun_begun, begun_exploit, begun_s]

theorem acmGenerations_begun (env : Env n) (sf : SurrFuncs n M) (fuel : ℕ) (t : Surr n M) (k : ℕ) :
    t.acmGenerations env sf fuel (k + 1) = t.begun.acmGenerations env sf fuel (k + 1) := by
  unfold acmGenerations
  rw [acmGeneration_begun]

theorem acmGenerations_prelambda {env : Env n} {sf : SurrFuncs n M} {fuel : ℕ} {t t' : Surr n M} {k : ℕ}
    (huh : t.s.p.uh = false) (hgr : t.s.p.withGradient = false) (hlen : t.s.sol.cands.length = t.s.p.lambda)
    (hl1 : 1 ≤ t.s.p.lambda) (hn : t.s.niter ≠ 0) (h : t.acmGenerations env sf fuel k = .ok (some t')) :
    t'.prelambda = t.prelambda := by
  induction k generalizing t with
  | zero => obtain rfl := Option.some.inj (Except.ok.inj h); rfl
  | succ k ih =>
    obtain ⟨t1, h1, h2⟩ := acmGenerations_succ h
    obtain ⟨c, added, hs⟩ := acmGeneration_step huh hgr hlen hl1 h1
    rw [ih (by rw [hs.p]; exact huh) (by rw [hs.p]; exact hgr) (by rw [hs.p]; exact hs.cands)
      (by rw [hs.p]; exact hl1) (by rw [hs.niter]; omega) h2, hs.prelambda, begun_of_ne hn]

/-- A restarted search is fit to go on. -/
theorem restart_live {env : Env n} {t : Surr n M} (hL : SimpleLive t) (hneg : t.s.negate = t.s.p.maximize)
    (hi : t.s.initialElitist = false) (hif : t.s.p.initialFvalue = false)
    (hel : t.s.p.elitist = false ∧ t.s.p.initialElitist = false ∧ t.s.p.initialElitistOnRestart = false)
    (hsc : ∀ x : Vec n, ∃ y : Vec n, scaleToInternalV t.s.p.gp x = .ok y)
    (hv : ∀ k y, Val (negIf t.s.p.maximize (env.f k y))) (hsmall : t.s.p.lambda * 2 ≤ (n + 2) ^ 2) :
    ∃ t', t.restart env = .ok t' ∧ SimpleLive t' := by
  have hl2 := hL.live.good.lambda
  obtain ⟨q, hq⟩ := initializeParameters_ok { t.s.p with lambda := t.s.p.lambda * 2 }
    (by show 2 ≤ t.s.p.lambda * 2; omega) hL.live.good.dim
  obtain ⟨mu, w, muw, cs, cc, c1, cm, ds, fs, fc, ch, lv, rl, al, e⟩ := initializeParameters_frame hq
  have hk : KeepsSettings t.s.p q := by rw [e]; rfl
  have hg : GoodParams q := goodParams_init hq hL.live.good.fixOk
  have hst : StrictRates q := defaultRates_strict (defaultRates_of_init hq) (by rw [e]; exact hsmall)
  obtain ⟨s3, h3⟩ := reset_total (env := env) (s := { t.s with p := q }) hg (by
    show ∀ x : Vec n, ∃ y : Vec n, scaleToInternalV q.gp x = .ok y
    rw [hk]; exact hsc)
  obtain ⟨b1, b2, b3, b4, b5⟩ := afresh_reset h3 hk
  have hB := begins_reset h3 (by show t.s.negate = q.maximize; rw [hneg, hk]) hi
  have hk3 := b1.settings
  have hgr : GoodRun t.s.kind s3.p := by
    refine ⟨?_, ?_, ?_, ?_, ?_, ?_, ?_, ?_⟩
    · rw [b2]; exact hg.same ⟨rfl, rfl, rfl, rfl, rfl, rfl, rfl, rfl, rfl, rfl, rfl, rfl, rfl, rfl, rfl, rfl, rfl⟩
    · rw [b2]; exact ⟨hst.1, hst.2⟩
    · exact hL.live.kind
    · rw [hk3]; exact hL.live.vd
    · rw [hk3]; exact hL.live.lazy
    · rw [hk3]; exact hL.live.grad
    · rw [hk3]; exact hL.live.uh
    · rw [hk3]; exact hL.live.tpa
  have hev : s3.evalInitial env = .ok s3 := by
    unfold Strat.evalInitial
    have h1 : s3.p.elitist = false ∧ s3.p.initialElitist = false ∧ s3.p.initialElitistOnRestart = false := by
      rw [hk3]; exact hel
    rw [if_neg (by
      have h2 : s3.p.initialFvalue = false := by rw [hk3]; exact hif
      simp [h1.1, h1.2.1, hB.elitist, h2])]
  obtain ⟨hl3, -⟩ := start_live hgr hB (by intro e he; rw [b4] at he; exact hL.live.eig e he) hev (by
    intro k y
    have : s3.p.maximize = t.s.p.maximize := by rw [hk3]
    rw [this]; exact hv k y)
  refine ⟨{ t with s := s3 }, ?_, hl3, ?_, ?_, hL.smooth, hL.nsteps, hL.terr, hL.nmax, hL.nmax_lt, hL.ratio⟩
  · unfold restart Strat.lambdaInc
    rw [hq, Out.ok_bind, Out.pure_eq, Out.ok_bind, h3, Out.ok_bind]
    rfl
  · refine ⟨fun c hc => ?_, fun c hc => ?_⟩
    · have := hB.fresh.bestSeen
      rw [this] at hc; cases hc
    · have := hB.initialCand
      rw [this] at hc; cases hc
  · intro h; exact absurd hB.niter h

/-- What a number of generations of the simple strategy leaves as it was. -/
structure SimpleRun (t t' : Surr n M) (k : ℕ) : Prop where
  p : t'.s.p = t.s.p
  negate : t'.s.negate = t.s.negate
  niter : t'.s.niter = t.s.niter + k
  initialElitist : t'.s.initialElitist = t.s.initialElitist
  l : t'.l = t.l
  exploit : t'.exploit = t.exploit
  auto : t'.autoNsteps = t.autoNsteps
  cands : t'.s.sol.cands.length = t.s.p.lambda

theorem simpleGenerations_succ {env : Env n} {sf : SurrFuncs n M} {t t' : Surr n M} {k : ℕ}
    (h : t.simpleGenerations env sf (k + 1) = .ok t') :
    ∃ t1, t.simpleGeneration env sf = .ok t1 ∧ t1.simpleGenerations env sf k = .ok t' := by
  unfold simpleGenerations at h
  exact Out.bind_eq_ok.1 h

theorem simpleGenerations_last {env : Env n} {sf : SurrFuncs n M} {t t' : Surr n M} {k : ℕ}
    (h : t.simpleGenerations env sf (k + 1) = .ok t') :
    ∃ t1, t.simpleGenerations env sf k = .ok t1 ∧ t1.simpleGeneration env sf = .ok t' := by
  induction k generalizing t with
  | zero =>
    obtain ⟨t1, h1, h2⟩ := simpleGenerations_succ h
    obtain rfl := Except.ok.inj h2
    exact ⟨t, rfl, h1⟩
  | succ k ih =>
    obtain ⟨t1, h1, h2⟩ := simpleGenerations_succ h
    obtain ⟨t2, h3, h4⟩ := ih h2
    exact ⟨t2, by unfold simpleGenerations; rw [h1, Out.ok_bind]; exact h3, h4⟩

theorem acmGenerations_last {env : Env n} {sf : SurrFuncs n M} {fuel : ℕ} {t t' : Surr n M} {k : ℕ}
    (h : t.acmGenerations env sf fuel (k + 1) = .ok (some t')) :
    ∃ t1, t.acmGenerations env sf fuel k = .ok (some t1) ∧ t1.acmGeneration env sf fuel = .ok (some t') := by
  induction k generalizing t with
  | zero =>
    obtain ⟨t1, h1, h2⟩ := acmGenerations_succ h
    obtain rfl := Option.some.inj (Except.ok.inj h2)
    exact ⟨t, rfl, h1⟩
  | succ k ih =>
    obtain ⟨t1, h1, h2⟩ := acmGenerations_succ h
    obtain ⟨t2, h3, h4⟩ := ih h2
    exact ⟨t2, by unfold acmGenerations; rw [h1]; exact h3, h4⟩

theorem simpleGenerations_run {env : Env n} {sf : SurrFuncs n M} (honly : OnlyValues sf) {t t' : Surr n M} {k : ℕ}
    (huh : t.s.p.uh = false) (hgr : t.s.p.withGradient = false) (hlen : t.s.sol.cands.length = t.s.p.lambda)
    (h : t.simpleGenerations env sf k = .ok t') : SimpleRun t t' k := by
  induction k generalizing t with
  | zero =>
    obtain rfl := Except.ok.inj h
    exact ⟨rfl, rfl, rfl, rfl, rfl, rfl, rfl, hlen⟩
  | succ k ih =>
    obtain ⟨t1, h1, h2⟩ := simpleGenerations_succ h
    obtain ⟨b, c, s1⟩ := simpleGeneration_step honly huh hgr hlen h1
    have r := ih (by rw [s1.p]; exact huh) (by rw [s1.p]; exact hgr) (by rw [s1.cands, s1.p]; exact hlen) h2
    exact ⟨r.p.trans s1.p, r.negate.trans s1.negate, by rw [r.niter, s1.niter]; omega,
      r.initialElitist.trans s1.initialElitist, r.l.trans s1.l, r.exploit.trans s1.exploit, r.auto.trans s1.auto,
      by rw [r.cands, s1.p]⟩

/-- In a generation of true evaluations the training set grows by a population, up to its capacity. -/
theorem busy_length {sf : SurrFuncs n M} {t t' : Surr n M} {c : List (Vec n × FVal)}
    (hs : SimpleStep sf t t' true c) (hlen : t.s.sol.cands.length = t.s.p.lambda) (hts : t.tset.length ≤ t.l.toNat) :
    t'.tset.length = min t.l.toNat (t.tset.length + t.s.p.lambda) := by
  obtain ⟨_, added, h1, _, h2, _⟩ := hs.busy rfl
  have h3 : t'.tset = lastN t.l.toNat (t.tset ++ added) := by rw [h2, ← foldl_push, lastN_self hts]
  rw [h3, length_lastN, List.length_append, h1, hlen]

/-- While the training set is not full, every generation is one of true evaluations, and neither the number of
steps nor the model changes. -/
theorem simpleGenerations_filling {env : Env n} {sf : SurrFuncs n M} (honly : OnlyValues sf) {t t' : Surr n M} {k : ℕ}
    (huh : t.s.p.uh = false) (hgr : t.s.p.withGradient = false) (hlen : t.s.sol.cands.length = t.s.p.lambda)
    (hts : t.tset = []) (hk : (k : ℤ) * t.s.p.lambda < t.l)
    (h : t.simpleGenerations env sf k = .ok t') :
    t'.tset.length = k * t.s.p.lambda ∧ t'.nsteps = t.nsteps ∧ t'.m = t.m ∧
      t'.s.calls.length = t.s.calls.length + k * t.s.p.lambda := by
  induction k generalizing t' with
  | zero =>
    obtain rfl := Except.ok.inj h
    simp [hts]
  | succ k ih =>
    obtain ⟨t1, h1, h2⟩ := simpleGenerations_last h
    have hk' : (k : ℤ) * t.s.p.lambda < t.l := by
      push_cast at hk
      nlinarith [Int.natCast_nonneg t.s.p.lambda]
    obtain ⟨i1, i2, i3, i4⟩ := ih hk' h1
    have r := simpleGenerations_run honly huh hgr hlen h1
    have hlen1 : t1.s.sol.cands.length = t1.s.p.lambda := by rw [r.p]; exact r.cands
    obtain ⟨b, c, s1⟩ := simpleGeneration_step honly (by rw [r.p]; exact huh) (by rw [r.p]; exact hgr) hlen1 h2
    have hnf : t1.full = false := by
      unfold full
      rw [r.l, i1]
      simp only [decide_eq_false_iff_not, not_le]
      push_cast; exact hk'
    obtain rfl : b = true := by
      have := s1.trueEval
      unfold trueEval at this
      split_ifs at this
      · exact (Except.ok.inj this).symm
      · rw [hnf] at this
        simpa using (Except.ok.inj this).symm
    have hl0 : (k * t.s.p.lambda + t.s.p.lambda : ℤ) < t.l := by
      push_cast at hk
      linarith
    have hl1 : k * t.s.p.lambda + t.s.p.lambda < t.l.toNat := by
      zify
      rw [Int.toNat_of_nonneg (by nlinarith [Int.natCast_nonneg t.s.p.lambda, Int.natCast_nonneg k])]
      exact hl0
    have hlen2 := busy_length s1 hlen1 (by rw [i1, r.l]; omega)
    rw [r.l, i1, r.p, min_eq_right (by omega)] at hlen2
    obtain ⟨hcl, _, _, _, _, _, _, hst, _⟩ := s1.busy rfl
    have hst := hst (fun h => by rw [hnf] at h; exact absurd h.2 (by simp))
    have hm := (simpleGeneration_model honly h2).2 (fun hT => by
      have := hT.1
      unfold full at this
      rw [s1.l, r.l, hlen2] at this
      simp only [decide_eq_true_eq] at this
      push_cast at this
      linarith)
    refine ⟨by rw [hlen2]; ring, hst.2.trans i2, hm.trans i3, ?_⟩
    rw [s1.calls, List.length_append, hcl, i4, r.p]
    ring

theorem newSimple_exists {env : Env n} {kind : CovKind} {p : Params n} {s : Strat n}
    (h : Strat.new env kind p = .ok s) (m : M) : ∃ t, newSimple env kind p m = .ok t ∧ t.nsteps = 1 ∧
      t.l = ⌊30 * Real.sqrt n⌋ ∧ t.exploit = true ∧ t.autoNsteps = false := by
  unfold newSimple new
  rw [h, Out.ok_bind]
  exact ⟨_, rfl, rfl, rfl, rfl, rfl⟩

theorem foldl_push_full {l : ℤ} (as : List (Cand n)) {w : List (Cand n)} (hw : l ≤ w.length) :
    l ≤ (as.foldl (push l) w).length := by
  induction as generalizing w with
  | nil => exact hw
  | cons a as ih =>
    refine ih ?_
    unfold push
    split_ifs with hc
    · rw [List.length_tail, List.length_append, List.length_singleton]
      rw [List.length_append, List.length_singleton] at hc
      push_cast at hc ⊢
      omega
    · rw [List.length_append]; push_cast; omega

end Surr

end Libcmaes
