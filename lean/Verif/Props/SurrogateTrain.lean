import Verif.Lemmas.SurrRestart
import Verif.Props.Surrogate
import Verif.Props.SurrogateAcm

/-!
# C82, C83: what the model of a surrogate strategy has been trained with

`SimpleStart`, `AcmStart`, `Answers`, `OnlyValues`, `Pointwise`, `Sane`: Spec/Surrogate.lean; `lastN`: Spec/Run.lean.
-/

namespace Libcmaes

open Spec Surr

variable {n : ℕ} {M : Type}

/-! ### C82 -/

/-- **C82**, ACM strategy: whenever the training set is full at the end of a generation, so that the next one uses
the model, the model is the outcome of a training with exactly this set, and the training error published is the error
of that model on it. -/
theorem C82_acm (env : Env n) (sf : SurrFuncs n M) (fuel : ℕ) (t t' : Surr n M) (k : ℕ)
    (h : t.acmGenerations env sf fuel (k + 1) = .ok (some t')) (hf : t'.l ≤ t'.tset.length) :
    ∃ (m0 : M) (sol : Sol n), sf.train m0 t'.tset sol = .ok t'.m ∧
      ({ t' with s := { t'.s with sol := sol } } : Surr n M).computeError sf t'.tset = .ok t'.trainErr := by
  obtain ⟨t1, _, h2⟩ := acmGenerations_last h
  obtain ⟨⟨m0, h3⟩, h4⟩ := acmGeneration_model h2 (by unfold full; simpa using hf)
  exact ⟨m0, _, h3, h4⟩

/-- **C82**, simple strategy, with a fixed number of steps: what was trained with the present training set stays so. -/
theorem C82_kept (env : Env n) (sf : SurrFuncs n M) (t t' : Surr n M) (k : ℕ) (honly : OnlyValues sf)
    (huh : t.s.p.uh = false) (hgr : t.s.p.withGradient = false)
    (hlen : t.s.sol.cands.length = t.s.p.lambda) (hauto : t.autoNsteps = false) (hf : t.l ≤ t.tset.length)
    (h0 : ∃ (m0 : M) (sol : Sol n), sf.train m0 t.tset sol = .ok t.m)
    (h : t.simpleGenerations env sf k = .ok t') :
    ∃ (m0 : M) (sol : Sol n), sf.train m0 t'.tset sol = .ok t'.m := by
  induction k generalizing t with
  | zero => obtain rfl := Except.ok.inj h; exact h0
  | succ k ih =>
    obtain ⟨t1, h1, h2⟩ := simpleGenerations_succ h
    obtain ⟨b, c, hs⟩ := simpleGeneration_step honly huh hgr hlen h1
    obtain ⟨g1, g2⟩ := simpleGeneration_model honly h1
    have hfull : t1.l ≤ t1.tset.length := by
      rw [hs.l]
      cases b with
      | false => rw [(hs.quiet rfl).2.1]; exact hf
      | true =>
        obtain ⟨_, added, _, _, q, _⟩ := hs.busy rfl
        rw [q]
        exact foldl_push_full _ hf
    refine ih t1 (by rw [hs.p]; exact huh) (by rw [hs.p]; exact hgr) (by rw [hs.cands, hs.p]; exact hlen)
      (by rw [hs.auto]; exact hauto) hfull ?_ h2
    by_cases hT : Trains t1 t.s.niter
    · exact ⟨_, _, g1 hT⟩
    · cases b with
      | false => rw [(hs.quiet rfl).2.1, g2 hT]; exact h0
      | true =>
        refine absurd ⟨by unfold full; simpa using hfull, ?_⟩ hT
        have hq := hs.trueEval
        unfold trueEval at hq
        split_ifs at hq with a1 a2
        · left; rw [hs.exploit]; simpa using a1
        · right; right
          have : full t = true := by unfold full; simpa using hf
          rw [this] at hq
          have hq := Except.ok.inj hq
          simp only [Bool.not_true, Bool.or_false, decide_eq_true_eq] at hq
          obtain ⟨_, _, _, _, _, _, q1, q2, _⟩ := hs.busy rfl
          have e : t1.nsteps = t.nsteps := by
            by_cases hc : t.s.niter ≠ 0 ∧ t.full = true
            · obtain ⟨_, _, _, _, _, _, _, r⟩ := q1 hc
              exact r hauto
            · exact (q2 hc).2
          rw [e]
          exact Int.dvd_of_tmod_eq_zero hq

/-- **C82**, simple strategy: without exploitation, or with a fixed number of steps and room in the training set for
no more than one population, the model is trained with the present training set whenever that is full. -/
theorem C82_simple_partial (env : Env n) (sf : SurrFuncs n M) (kind : CovKind) (p : Params n) (m : M)
    (t t' : Surr n M) (k : ℕ) (honly : OnlyValues sf) (huh : p.uh = false) (hgr : p.withGradient = false)
    (h0 : SimpleStart env kind p m t)
    (hcase : t.exploit = false ∨ (t.autoNsteps = false ∧ t.l ≤ p.lambda))
    (h : t.simpleGenerations env sf (k + 1) = .ok t') (hf : t'.l ≤ t'.tset.length) :
    ∃ (m0 : M) (sol : Sol n), sf.train m0 t'.tset sol = .ok t'.m := by
  obtain ⟨⟨s, cr, hs, e, _⟩, _, hts, _, hns, _⟩ := simpleStart_ok h0
  obtain ⟨_, _, _, hsp, _, hfr, hni, _⟩ := Strat.new_ok hs
  have hp : t.s.p = { p with sigmaInit := s.sol.sigma } := by rw [e]; exact hsp
  have hlen : t.s.sol.cands.length = t.s.p.lambda := by rw [hp, e]; exact hfr.cands
  have hn0 : t.s.niter = 0 := by rw [e]; exact hni
  have huh' : t.s.p.uh = false := by rw [hp]; exact huh
  have hgr' : t.s.p.withGradient = false := by rw [hp]; exact hgr
  rcases hcase with hx | ⟨ha, hl⟩
  · obtain ⟨t1, h1, h2⟩ := simpleGenerations_last h
    have r := simpleGenerations_run honly huh' hgr' hlen h1
    obtain ⟨b, c, hst⟩ := simpleGeneration_step honly (by rw [r.p]; exact huh') (by rw [r.p]; exact hgr')
      (by rw [r.p]; exact r.cands) h2
    exact ⟨_, _, (simpleGeneration_model honly h2).1
      ⟨by unfold full; simpa using hf, Or.inl (by rw [hst.exploit, r.exploit]; exact hx)⟩⟩
  · obtain ⟨t1, h1, h2⟩ := simpleGenerations_succ h
    obtain ⟨b, c, hst⟩ := simpleGeneration_step honly huh' hgr' hlen h1
    obtain rfl : b = true := by
      have := hst.trueEval
      unfold trueEval at this
      split_ifs at this
      · exact (Except.ok.inj this).symm
      · rw [hn0] at this
        simpa using (Except.ok.inj this).symm
    have hl1 := busy_length hst hlen (by rw [hts]; simp)
    have hlam : t.s.p.lambda = p.lambda := by rw [hp]
    have hf1 : t1.l ≤ t1.tset.length := by
      rw [hst.l, hl1, hts, hlam]
      simp only [List.length_nil, zero_add]
      omega
    refine C82_kept env sf t1 t' k honly (by rw [hst.p]; exact huh') (by rw [hst.p]; exact hgr')
      (by rw [hst.cands, hst.p]; exact hlen) (by rw [hst.auto]; exact ha) hf1 ?_ h2
    exact ⟨_, _, (simpleGeneration_model honly h1).1 ⟨by unfold full; simpa using hf1, Or.inr (Or.inl hn0)⟩⟩

/-- **C82** fails for the simple strategy, whatever the objective and the model: when the training set gets full in
generation `J`, and the number of steps divides neither `J` nor the number `J + 1` of the next generation, the model
has never been trained, and still the next generation uses its predictions instead of the objective. -/
theorem C82_untrained_false (env : Env n) (sf : SurrFuncs n M) (g : M → List (Cand n) → Vec n → FVal)
    (kind : CovKind) (p : Params n) (m : M) (t t1 t2 : Surr n M) (J : ℕ)
    (hp : Pointwise sf fun m ts _ => g m ts) (huh : p.uh = false) (hgr : p.withGradient = false)
    (hlam : 1 ≤ p.lambda) (h0 : SimpleStart env kind p m t) (hx : t.exploit = true)
    (hJ : (J : ℤ) * p.lambda < t.l) (hJ' : t.l ≤ (J + 1 : ℤ) * p.lambda) (hd : ¬ t.nsteps ∣ (J : ℤ))
    (hd' : ¬ t.nsteps ∣ (J + 1 : ℤ)) (h1 : t.simpleGenerations env sf (J + 1) = .ok t1)
    (h2 : t1.simpleGeneration env sf = .ok t2) :
    t1.l ≤ t1.tset.length ∧ t1.m = m ∧ t2.m = m ∧ t1.s.calls.length = (J + 1) * p.lambda ∧
      t2.s.calls = t1.s.calls ∧ ∀ c ∈ t2.s.sol.cands, c.fvalue = g m t1.tset c.x := by
  have honly := onlyValues_of_pointwise hp
  obtain ⟨⟨s, cr, hs, e, _⟩, hm, hts, _, hns, _⟩ := simpleStart_ok h0
  obtain ⟨_, _, _, hsp, _, hfr, hni, _, hcl, _⟩ := Strat.new_ok hs
  have hpp : t.s.p = { p with sigmaInit := s.sol.sigma } := by rw [e]; exact hsp
  have hlen : t.s.sol.cands.length = t.s.p.lambda := by rw [hpp, e]; exact hfr.cands
  have hn0 : t.s.niter = 0 := by rw [e]; exact hni
  have hc0 : t.s.calls = [] := by rw [e]; exact hcl
  have huh' : t.s.p.uh = false := by rw [hpp]; exact huh
  have hgr' : t.s.p.withGradient = false := by rw [hpp]; exact hgr
  have hla : t.s.p.lambda = p.lambda := by rw [hpp]
  obtain ⟨t0, g1, g2⟩ := simpleGenerations_last h1
  obtain ⟨i1, i2, i3, i4⟩ := simpleGenerations_filling honly huh' hgr' hlen hts (by rw [hla]; exact hJ) g1
  have r := simpleGenerations_run honly huh' hgr' hlen g1
  have hlen0 : t0.s.sol.cands.length = t0.s.p.lambda := by rw [r.p]; exact r.cands
  obtain ⟨b, c, hst⟩ := simpleGeneration_step honly (by rw [r.p]; exact huh') (by rw [r.p]; exact hgr') hlen0 g2
  have hnf : t0.full = false := by
    unfold full
    rw [r.l, i1, hla]
    simp only [decide_eq_false_iff_not, not_le]
    push_cast; exact hJ
  obtain rfl : b = true := by
    have := hst.trueEval
    unfold trueEval at this
    split_ifs at this
    · exact (Except.ok.inj this).symm
    · rw [hnf] at this
      simpa using (Except.ok.inj this).symm
  have hlJ : J * p.lambda < t.l.toNat := by
    zify
    rw [Int.toNat_of_nonneg (by nlinarith [Int.natCast_nonneg p.lambda, Int.natCast_nonneg J])]
    exact hJ
  have hlJ' : t.l.toNat ≤ J * p.lambda + p.lambda := by
    zify
    rw [Int.toNat_of_nonneg (by nlinarith [Int.natCast_nonneg p.lambda, Int.natCast_nonneg J])]
    linarith
  have hl1 := busy_length hst hlen0 (by rw [i1, r.l, hla]; omega)
  rw [r.l, i1, r.p, hla, min_eq_left hlJ'] at hl1
  obtain ⟨hcc, _, _, _, _, _, _, hst2, _⟩ := hst.busy rfl
  have hns1 : t1.nsteps = t.nsteps :=
    (hst2 (fun h => by rw [hnf] at h; exact absurd h.2 (by simp))).2.trans i2
  have hni1 : t0.s.niter = J := by rw [r.niter, hn0]; omega
  have hm1 : t1.m = m := by
    rw [(simpleGeneration_model honly g2).2 ?_, i3, hm]
    rintro ⟨_, hT | hT | hT⟩
    · rw [hst.exploit, r.exploit, hx] at hT; cases hT
    · rw [hni1] at hT; subst hT; exact hd (by simp)
    · rw [hns1, hni1] at hT; exact hd hT
  have hf1 : t1.l ≤ t1.tset.length := by rw [hl1, hst.l, r.l]; omega
  obtain ⟨q1, _, q2, _, _, q3, _⟩ := C75_quiet env sf g t1 t2 hp (by rw [hst.p, r.p]; exact huh')
    (by rw [hst.p, r.p]; exact hgr') (by rw [hst.p, r.p, hla]; exact hlam)
    (by rw [hst.cands, hst.p]; exact hlen0) (by rw [hst.exploit, r.exploit]; exact hx) hf1
    (by rw [hns1, hst.niter, hni1]; push_cast; exact hd') (by rw [hns1]; exact hns) h2
  refine ⟨hf1, hm1, q2.trans hm1, ?_, q1, by rw [← hm1]; exact q3⟩
  rw [hst.calls, List.length_append, hcc, i4, hc0, r.p, hla]
  simp; ring

/-- **C82** fails for the simple strategy with default settings but three steps, in dimension 1: after 8 generations
and 32 evaluations the model has not been trained, and in the ninth generation it is used. -/
theorem C82_default_false (f : ℕ → Vec 1 → FVal) (z : ℕ → Vec 1) (sf : SurrFuncs 1 M)
    (g : M → List (Cand 1) → Vec 1 → FVal) (m : M) (hS : Sane (Env.basic f z) sf fun m ts _ => g m ts) :
    ∃ (p : Params 1) (t t1 t2 : Surr 1 M), Params.make 0 1 (-1) 0 0 GenoPheno.plain = .ok p ∧
      newSimple (Env.basic f z) .plain p m = .ok t ∧
      (t.setNsteps 3).simpleGenerations (Env.basic f z) sf 8 = .ok t1 ∧
      t1.simpleGeneration (Env.basic f z) sf = .ok t2 ∧ t1.s.calls.length = 32 ∧ t1.m = m ∧
      t2.s.calls = t1.s.calls ∧ ∀ c ∈ t2.s.sol.cands, c.fvalue = g m t1.tset c.x := by
  obtain ⟨p, hp, _⟩ := C11_weights (le_refl 1) (0 : Vec 1) 1 (-1) 0 0 GenoPheno.plain
  obtain ⟨hu, hgp, _⟩ := usual_default (kind := .plain) (by norm_num) hp (by decide)
  obtain ⟨_, _, h4⟩ := default_lambda (le_refl 1) (by norm_num) hp
  obtain ⟨s, hs⟩ := new_plain (env := Env.basic f z) (kind := .plain) hgp hu.configured.good.1
  obtain ⟨t, ht, hns, hl, hx, _⟩ := newSimple_exists hs m
  have hst : SimpleStart (Env.basic f z) .plain p m (t.setNsteps 3) := .setNsteps 3 (by norm_num) (.new ht)
  obtain ⟨t2, h2⟩ := C74_total (Env.basic f z) sf _ .plain p m _ hu hS
    (by intro x; rw [hgp]; exact ⟨x, phenoV_plain x⟩) hst 9
  obtain ⟨t1, h1, h2⟩ := simpleGenerations_last h2
  have hl' : (t.setNsteps 3).l = 30 := by show t.l = 30; rw [hl]; norm_num
  obtain ⟨_, q2, _, q4, q5, q6⟩ := C82_untrained_false (Env.basic f z) sf g .plain p m (t.setNsteps 3) t1 t2 7
    hS.predict hu.uh hu.grad (by rw [h4 rfl]; norm_num) hst hx (by rw [h4 rfl, hl']; norm_num)
    (by rw [h4 rfl, hl']; norm_num) (by show ¬ (3 : ℤ) ∣ _; norm_num) (by show ¬ (3 : ℤ) ∣ _; norm_num) h1 h2
  exact ⟨p, t, t1, t2, hp, ht, h1, h2, by rw [q4, h4 rfl], q2, q5, q6⟩

/-- **C82** fails for the simple strategy with automatic life length (`set_nsteps` with a negative number), whatever
the objective and the model: with a training set of one population, the second generation replaces all of the training
set by its own points, and leaves the model as it was trained with the first. -/
theorem C82_auto_false (env : Env n) (sf : SurrFuncs n M) (kind : CovKind) (p : Params n) (m : M)
    (t t1 t2 : Surr n M) (honly : OnlyValues sf) (huh : p.uh = false) (hgr : p.withGradient = false)
    (hel : p.elitist = false ∧ p.initialElitist = false ∧ p.initialElitistOnRestart = false) (hlam : 2 ≤ p.lambda)
    (hmt : p.mtFeval = false) (h0 : SimpleStart env kind p m t) (hx : t.exploit = true) (ha : t.autoNsteps = true)
    (hns : t.nsteps = -1) (hl : t.l = p.lambda) (h1 : t.simpleGeneration env sf = .ok t1)
    (h2 : t1.simpleGeneration env sf = .ok t2) :
    (∃ (sol : Sol n), sf.train m t1.tset sol = .ok t1.m) ∧ t2.m = t1.m ∧
      ∃ c, c.length = p.lambda ∧ t2.s.calls = t1.s.calls ++ c ∧
        List.Forall₂ (Answers p.maximize p.gp) t2.tset c := by
  obtain ⟨⟨s, cr, hs, e, _⟩, hm, hts, hsm, _, hterr, hnmax⟩ := simpleStart_ok h0
  obtain ⟨_, _, _, hsp, _, hfr, hni, _, hcl, hng, _⟩ := Strat.new_ok hs
  have hp : t.s.p = { p with sigmaInit := s.sol.sigma } := by rw [e]; exact hsp
  have hlen : t.s.sol.cands.length = t.s.p.lambda := by rw [hp, e]; exact hfr.cands
  have hn0 : t.s.niter = 0 := by rw [e]; exact hni
  have huh' : t.s.p.uh = false := by rw [hp]; exact huh
  have hgr' : t.s.p.withGradient = false := by rw [hp]; exact hgr
  have hla : t.s.p.lambda = p.lambda := by rw [hp]
  obtain ⟨b, c1, s1⟩ := simpleGeneration_step honly huh' hgr' hlen h1
  have hte : ∀ b, t.nsteps ∣ (t.s.niter : ℤ) → t.trueEval = .ok b → b = true := by
    intro b hd hq
    unfold trueEval at hq
    split_ifs at hq
    · exact (Except.ok.inj hq).symm
    · rw [Int.tmod_eq_zero_of_dvd hd] at hq
      simpa using (Except.ok.inj hq).symm
  obtain rfl := hte b (by rw [hns]; exact ⟨-t.s.niter, by ring⟩) s1.trueEval
  have hl1 := busy_length s1 hlen (by rw [hts]; simp)
  have hf1 : t1.l ≤ t1.tset.length := by
    rw [s1.l, hl1, hts, hla, hl]; simp
  have hlen1 : t1.s.sol.cands.length = t1.s.p.lambda := by rw [s1.cands, s1.p]; exact hlen
  obtain ⟨_, _, _, _, _, _, _, q2, _⟩ := s1.busy rfl
  obtain ⟨a1, a2⟩ := q2 (fun h => h.1 hn0)
  obtain ⟨b', c2, s2⟩ := simpleGeneration_step honly (by rw [s1.p]; exact huh') (by rw [s1.p]; exact hgr') hlen1 h2
  obtain rfl : b' = true := by
    have hq := s2.trueEval
    unfold trueEval at hq
    split_ifs at hq
    · exact (Except.ok.inj hq).symm
    · rw [Int.tmod_eq_zero_of_dvd (by rw [a2, hns]; exact ⟨-t1.s.niter, by ring⟩)] at hq
      simpa using (Except.ok.inj hq).symm
  obtain ⟨hcc, added, hal, _, hts2, hans, q1, _⟩ := s2.busy rfl
  obtain ⟨sol1, er, _, w1, w2, w3, w4, _⟩ := q1 ⟨by rw [s1.niter]; omega, by unfold full; simpa using hf1⟩
  have hsm2 := s2.smooth honly (by rw [s1.cands, hlen, hla]; omega) ⟨_, a1.trans hsm, by norm_num, by norm_num⟩
  obtain ⟨v, hv, v0, v1⟩ := hsm2
  rw [w3] at hv
  have hge : 2 ≤ t2.nsteps := (lifelength_ok hv v0 (by show 0 < t1.terr; rw [s1.terr, hterr]; norm_num)
    (by show 1 ≤ t1.nmax; rw [s1.nmax, hnmax]; norm_num) (w4 (by rw [s1.auto]; exact ha))).2.1
  have htr := (simpleGeneration_model honly h1).1 ⟨by unfold full; simpa using hf1, Or.inr (Or.inl hn0)⟩
  rw [hm] at htr
  refine ⟨⟨_, htr⟩, ?_, c2, by rw [hcc, s1.p, hla], s2.calls, ?_⟩
  · refine (simpleGeneration_model honly h2).2 ?_
    rintro ⟨_, hT | hT | hT⟩
    · rw [s2.exploit, s1.exploit, hx] at hT; cases hT
    · rw [s1.niter] at hT; omega
    · rw [s1.niter, hn0] at hT
      have := Int.le_of_dvd (by norm_num) hT
      norm_num at this
      omega
  · obtain ⟨c', _, r2, r3⟩ := hans (elitismOn_off (by rw [s1.p, hp]; exact hel))
    rw [r2 (by rw [s1.p, hp]; exact hmt), s1.negate, s1.p] at r3
    have hneg : t.s.negate = p.maximize := by rw [e]; exact hng
    rw [hneg, hp] at r3
    have : t2.tset = added := by
      rw [hts2, ← lastN_self (k := t1.l.toNat) (l := t1.tset) (by rw [hl1, s1.l]; exact min_le_left _ _), foldl_push]
      unfold lastN
      rw [List.drop_append_of_le_length (by rw [List.length_append, hal, s1.cands, hlen, hla, s1.l, hl]; simp),
        List.drop_eq_nil_of_le, List.nil_append]
      rw [List.length_append, hal, s1.cands, hlen, hla, s1.l, hl]; simp
    rw [this]
    exact r3

/-- Runs as in `C82_auto_false` exist in every dimension, with any objective and any sane model. -/
example (hn : 1 ≤ n) (f : ℕ → Vec n → FVal) (z : ℕ → Vec n) (sf : SurrFuncs n M)
    (g : M → List (Cand n) → Vec n → FVal) (m : M) (hS : Sane (Env.basic f z) sf fun m ts _ => g m ts) :
    ∃ (p : Params n) (t t1 t2 : Surr n M), SimpleStart (Env.basic f z) .plain p m t ∧ t.exploit = true ∧
      t.autoNsteps = true ∧ t.nsteps = -1 ∧ t.l = p.lambda ∧ t.simpleGeneration (Env.basic f z) sf = .ok t1 ∧
      t1.simpleGeneration (Env.basic f z) sf = .ok t2 ∧ t2.m = t1.m := by
  obtain ⟨p, hp, _⟩ := C11_weights hn (0 : Vec n) 1 (-1) 0 0 GenoPheno.plain
  obtain ⟨hu, hgp, _⟩ := usual_default (kind := .plain) (by norm_num) hp (by decide)
  obtain ⟨_, _, _, e1, e2, e3, _, _, e4, _⟩ := Params.make_plain hp
  obtain ⟨s, hs⟩ := new_plain (env := Env.basic f z) (kind := .plain) hgp hu.configured.good.1
  obtain ⟨t, ht, hns, hl, hx, _⟩ := newSimple_exists hs m
  have hst : SimpleStart (Env.basic f z) .plain p m ((t.setL p.lambda).setNsteps (-1)) :=
    .setNsteps _ (by norm_num) (.setL _ (.new ht))
  obtain ⟨t2, h2⟩ := C74_total (Env.basic f z) sf _ .plain p m _ hu hS
    (by intro x; rw [hgp]; exact ⟨x, phenoV_plain x⟩) hst 2
  obtain ⟨t1, h1, h2⟩ := simpleGenerations_last h2
  obtain ⟨t0, h0, h1⟩ := simpleGenerations_last h1
  obtain rfl := Except.ok.inj h0
  have ha : ((t.setL p.lambda).setNsteps (-1)).autoNsteps = true := by simp [setNsteps]
  exact ⟨p, _, t1, t2, hst, hx, ha, rfl, rfl, h1, h2,
    (C82_auto_false _ sf _ p m _ t1 t2 (onlyValues_of_pointwise hS.predict) hu.uh hu.grad ⟨e2, e1, e3⟩
      hu.configured.good.1.lambda e4 hst hx ha rfl rfl h1 h2).2.1⟩

/-! ### C83 -/

/-- **C83**, ACM strategy: after a restart and one or more generations the training set holds the last `l` points
truly evaluated since the restart, and no other. -/
theorem C83_acm (env : Env n) (sf : SurrFuncs n M) (fuel : ℕ) (t t1 t' : Surr n M) (k : ℕ)
    (huh : t.s.p.uh = false) (hgr : t.s.p.withGradient = false)
    (hel : t.s.p.elitist = false ∧ t.s.p.initialElitist = false ∧ t.s.p.initialElitistOnRestart = false)
    (hlam : 1 ≤ t.s.p.lambda) (hr : t.restart env = .ok t1)
    (h : t1.acmGenerations env sf fuel (k + 1) = .ok (some t')) :
    ∃ (c c' : List (Vec n × FVal)) (added : List (Cand n)), t'.s.calls = t.s.calls ++ c ∧ c'.Perm c ∧
      (t.s.p.mtFeval = false → c' = c) ∧ List.Forall₂ (Answers t.s.negate t.s.p.gp) added c' ∧
      t'.tset = lastN t.l.toNat added := by
  obtain ⟨s, q, e, _, _, r1, r2, r3, r4, r5, r6⟩ := restart_ok hr
  obtain ⟨k1, k2, k3, k4, k5, k6, k7⟩ := keeps r6
  subst e
  rw [acmGenerations_begun] at h
  set t0 := ({ t with s := s } : Surr n M).begun with ht0
  have hs : t0.s = s := by rw [ht0, begun_s]
  have hl0 : t0.l = t.l := by
    rw [ht0]
    unfold begun
    split_ifs <;> rfl
  have hts : t0.tset = [] := by
    rw [ht0]
    unfold begun
    rw [if_pos (by exact r1)]
    rfl
  obtain ⟨c, c', added, q1, q2, q3, q4, q5, _⟩ := C58_acm env sf fuel t0 t' (k + 1) (by rw [hs, k1]; exact huh)
    (by rw [hs, k2]; exact hgr) (by rw [hs, k3, k4, k5]; exact hel) (by rw [hs, r4]; omega) (by rw [hs]; exact r5)
    (by rw [hts]; simp) (Or.inr hts) h
  rw [hs, r2] at q1
  rw [hs, k6] at q3
  rw [hs, r3, k7] at q4
  rw [hts, hl0, List.nil_append] at q5
  exact ⟨c, c', added, q1, q2, q3, q4, q5⟩

/-- **C83** fails for the simple strategy: after a restart, the points of the run before stay in the training set,
in front of those evaluated since, until they are pushed out. -/
theorem C83_simple_false (env : Env n) (sf : SurrFuncs n M) (t t1 t' : Surr n M) (k : ℕ) (honly : OnlyValues sf)
    (huh : t.s.p.uh = false) (hgr : t.s.p.withGradient = false)
    (hel : t.s.p.elitist = false ∧ t.s.p.initialElitist = false ∧ t.s.p.initialElitistOnRestart = false)
    (hts : t.tset.length ≤ t.l.toNat) (hr : t.restart env = .ok t1) (h : t1.simpleGenerations env sf k = .ok t') :
    ∃ (c c' : List (Vec n × FVal)) (added : List (Cand n)), t'.s.calls = t.s.calls ++ c ∧ c'.Perm c ∧
      List.Forall₂ (Answers t.s.negate t.s.p.gp) added c' ∧
      t'.tset = lastN t.l.toNat (t.tset ++ added) ∧
      (t.tset.length + c.length ≤ t.l.toNat → t.tset <+: t'.tset) := by
  obtain ⟨s, q, e, _, _, r1, r2, r3, r4, r5, r6⟩ := restart_ok hr
  obtain ⟨k1, k2, k3, k4, k5, k6, k7⟩ := keeps r6
  subst e
  obtain ⟨c, c', added, q1, q2, _, q4, q5, _⟩ := C58_simple env sf { t with s := s } t' k honly
    (by rw [← huh]; exact k1) (by rw [← hgr]; exact k2)
    ⟨k3.trans hel.1, k4.trans hel.2.1, k5.trans hel.2.2⟩ r5 hts h
  have q1' : t'.s.calls = t.s.calls ++ c := by rw [q1]; show s.calls ++ c = _; rw [r2]
  have q4' : List.Forall₂ (Answers t.s.negate t.s.p.gp) added c' := by
    have : List.Forall₂ (Answers s.negate s.p.gp) added c' := q4
    rwa [r3, k7] at this
  refine ⟨c, c', added, q1', q2, q4', q5, fun hl => ?_⟩
  have : t'.tset = t.tset ++ added := by
    rw [q5]
    refine lastN_self ?_
    show (t.tset ++ added).length ≤ t.l.toNat
    rw [List.length_append, q4'.length_eq, q2.length_eq]
    exact hl
  rw [this]
  exact List.prefix_append _ _

/-- **C83** fails for the simple strategy with default settings in dimension 1: one generation, a restart, one
generation; the training set still begins with the four points of the first run. -/
theorem C83_default_false (f : ℕ → Vec 1 → FVal) (z : ℕ → Vec 1) (hf : ∀ k y, Val (f k y)) (sf : SurrFuncs 1 M)
    (g : M → List (Cand 1) → Sol 1 → Vec 1 → FVal) (m : M) (hS : Sane (Env.basic f z) sf g) :
    ∃ (p : Params 1) (t t1 t2 t3 : Surr 1 M), Params.make 0 1 (-1) 0 0 GenoPheno.plain = .ok p ∧
      newSimple (Env.basic f z) .plain p m = .ok t ∧ t.simpleGeneration (Env.basic f z) sf = .ok t1 ∧
      t1.restart (Env.basic f z) = .ok t2 ∧ t2.simpleGeneration (Env.basic f z) sf = .ok t3 ∧
      t1.tset.length = 4 ∧ t3.tset.length = 12 ∧ t1.tset <+: t3.tset := by
  have honly := onlyValues_of_pointwise hS.predict
  obtain ⟨p, hp, _⟩ := C11_weights (le_refl 1) (0 : Vec 1) 1 (-1) 0 0 GenoPheno.plain
  obtain ⟨hu, hgp, _⟩ := usual_default (kind := .plain) (by norm_num) hp (by decide)
  obtain ⟨_, _, _, e1, e2, e3, e4, e5, _⟩ := Params.make_plain hp
  obtain ⟨_, _, h4⟩ := default_lambda (le_refl 1) (by norm_num) hp
  obtain ⟨s, hs⟩ := new_plain (env := Env.basic f z) (kind := .plain) hgp hu.configured.good.1
  obtain ⟨t, ht, hns, hl, hx, _⟩ := newSimple_exists hs m
  have hst : SimpleStart (Env.basic f z) .plain p m t := .new ht
  obtain ⟨⟨s', cr, hs', e, _⟩, _, hts, _⟩ := simpleStart_ok hst
  obtain ⟨_, _, _, hsp, _, hfr, hni, _, hcl, hng, hie, _⟩ := Strat.new_ok hs'
  have hpp : t.s.p = { p with sigmaInit := s'.sol.sigma } := by rw [e]; exact hsp
  have hlen : t.s.sol.cands.length = t.s.p.lambda := by rw [hpp, e]; exact hfr.cands
  have hn0 : t.s.niter = 0 := by rw [e]; exact hni
  have hla : t.s.p.lambda = 4 := by rw [hpp]; exact h4 rfl
  have hl30 : t.l = 30 := by rw [hl]; norm_num
  have hgpt : t.s.p.gp = GenoPheno.plain := by rw [hpp]; exact hgp
  have hgph : ∀ (q : Params 1), q.gp = GenoPheno.plain → ∀ x : Vec 1, ∃ y, phenoV q.gp x = .ok y :=
    fun q hq x => by rw [hq]; exact ⟨x, phenoV_plain x⟩
  obtain ⟨t1, h1, L1⟩ := simpleGeneration_total hS (hgph _ hgpt) (simpleLive_start hu hst)
  obtain ⟨b, c, s1⟩ := simpleGeneration_step honly (by rw [hpp]; exact hu.uh) (by rw [hpp]; exact hu.grad) hlen h1
  obtain rfl : b = true := by
    have := s1.trueEval
    unfold trueEval at this
    split_ifs at this
    · exact (Except.ok.inj this).symm
    · rw [hn0] at this
      simpa using (Except.ok.inj this).symm
  have hl1 := busy_length s1 hlen (by rw [hts]; simp)
  rw [hts, hla, hl30] at hl1
  have hl4 : t1.tset.length = 4 := hl1.trans (by decide)
  have hie : t.s.initialElitist = false := by
    rw [e]; exact (Strat.new_ok hs').2.2.2.2.2.2.2.2.2.2.2.2.2.2.2.2.2.2.2
  obtain ⟨t2, h2, L2⟩ := restart_live (env := Env.basic f z) L1
    (by rw [s1.negate, s1.p, hpp, e]; exact hng) (by rw [s1.initialElitist]; exact hie)
    (by rw [s1.p, hpp]; exact e4) (by rw [s1.p, hpp]; exact ⟨e2, e1, e3⟩)
    (by rw [s1.p, hgpt]; intro x; exact ⟨x, rfl⟩)
    (by
      intro k y
      have : t1.s.p.maximize = false := by rw [s1.p, hpp]; exact e5
      rw [this]; exact hf k y)
    (by rw [s1.p, hla]; norm_num)
  obtain ⟨s2, q, e6, _, _, r1, r2, r3, r4, r5, r6⟩ := restart_ok h2
  have hgp2 : t2.s.p.gp = GenoPheno.plain := by rw [e6]; exact (keeps r6).2.2.2.2.2.2.trans (by rw [s1.p]; exact hgpt)
  obtain ⟨t3, h3, L3⟩ := simpleGeneration_total hS (hgph _ hgp2) L2
  have h3' : t2.simpleGenerations (Env.basic f z) sf 1 = .ok t3 := by
    unfold simpleGenerations simpleGenerations
    rw [h3]; rfl
  obtain ⟨b, c', s3⟩ := simpleGeneration_step honly L2.live.uh L2.live.grad L2.live.cands h3
  have hla2 : t2.s.p.lambda = 8 := by rw [e6]; exact r4.trans (by rw [s1.p, hla])
  obtain rfl : b = true := by
    have := s3.trueEval
    unfold trueEval at this
    split_ifs at this
    · exact (Except.ok.inj this).symm
    · have h0 : t2.s.niter = 0 := by rw [e6]; exact r1
      rw [h0] at this
      simpa using (Except.ok.inj this).symm
  have hts2 : t2.tset = t1.tset := by rw [e6]
  have hl2 : t2.l = 30 := by rw [e6]; exact s1.l.trans hl30
  have hl3 := busy_length s3 L2.live.cands (by rw [hts2, hl4, hl2]; decide)
  rw [hts2, hl4, hla2, hl2] at hl3
  obtain ⟨c2, c2', added, q1, q2, q3, q4, q5⟩ := C83_simple_false (Env.basic f z) sf t1 t2 t3 1 honly
    L1.live.uh L1.live.grad (by rw [s1.p, hpp]; exact ⟨e2, e1, e3⟩) (by rw [hl4, s1.l, hl30]; decide) h2 h3'
  refine ⟨p, t, t1, t2, t3, hp, ht, h1, h2, h3, hl4, hl3.trans (by decide), q5 ?_⟩
  have hcc : c2 = c' := by
    have hcl2 : t2.s.calls = t1.s.calls := by rw [e6]; exact r2
    have := s3.calls
    rw [q1, hcl2] at this
    exact List.append_cancel_left this
  rw [hcc, (s3.busy rfl).1, hl4, hla2, s1.l, hl30]
  decide

/-- **C83**: after a restart the ACM strategy samples 50 times the new population size before each pre-selection,
whatever number the user set, unless no point was evaluated before; the number of true evaluations stays the one set
for the old population size. -/
theorem C83_prelambda_false (env : Env n) (sf : SurrFuncs n M) (fuel : ℕ) (kind : CovKind) (p : Params n) (m : M)
    (t t1 t2 t' : Surr n M) (i j : ℕ) (huh : p.uh = false) (hgr : p.withGradient = false) (hlam : 1 ≤ p.lambda)
    (h0 : AcmStart env kind p m t) (hl : 1 ≤ t.l) (h1 : t.acmGenerations env sf fuel (i + 1) = .ok (some t1))
    (hr : t1.restart env = .ok t2) (h2 : t2.acmGenerations env sf fuel (j + 1) = .ok (some t')) :
    t'.s.p.lambda = 2 * p.lambda ∧ t'.prelambda = 100 * p.lambda ∧ t'.lambdaprime = t.lambdaprime := by
  obtain ⟨_, _, hts, _⟩ := acmStart_ok h0
  obtain ⟨hp, hni, _, hc, hn, hcs, _⟩ := acmStart_lambda h0
  have huh' : t.s.p.uh = false := by rw [hp]; exact huh
  have hgr' : t.s.p.withGradient = false := by rw [hp]; exact hgr
  have hla : t.s.p.lambda = p.lambda := by rw [hp]
  have hlen : t.s.sol.cands.length = t.s.p.lambda := by rw [hla]; exact hcs
  obtain ⟨c1, w⟩ := acmGenerations_run huh' hgr' hlen (by omega) h1
  have hfill := acmGenerations_fill huh' hgr' hlen (by omega) (Or.inr hts) (by rw [hts]; simp) h1
  have hne : t1.tset ≠ [] := by
    intro hnil
    rw [hnil, hts, hla] at hfill
    simp only [List.length_nil, zero_add, nonpos_iff_eq_zero, Nat.min_eq_zero_iff] at hfill
    rcases hfill with h | h
    · omega
    · have : 1 * 1 ≤ (i + 1) * p.lambda := Nat.mul_le_mul (by omega) hlam
      omega
  obtain ⟨s, q, e, _, _, r1, r2, r3, r4, r5, r6⟩ := restart_ok hr
  obtain ⟨k1, k2, _⟩ := keeps r6
  subst e
  have hlam2 : s.p.lambda = 2 * p.lambda := by rw [r4, w.p, hla]; ring
  have huh2 : s.p.uh = false := by rw [k1, w.p]; exact huh'
  have hgr2 : s.p.withGradient = false := by rw [k2, w.p]; exact hgr'
  obtain ⟨t3, h3, h4⟩ := acmGenerations_succ h2
  obtain ⟨c2, added, st⟩ := acmGeneration_step (t := { t1 with s := s }) huh2 hgr2 r5 (by
    show 1 ≤ s.p.lambda; omega) h3
  obtain ⟨c3, w'⟩ := acmGenerations_run (t := { t1 with s := s }) huh2 hgr2 r5 (by
    show 1 ≤ s.p.lambda; omega) h2
  have st3 : t3.s.p = s.p := st.p
  have hpre := acmGenerations_prelambda (by rw [st3]; exact huh2) (by rw [st3]; exact hgr2)
    (by rw [st3]; exact st.cands) (by rw [st3]; omega) (by rw [st.niter]; omega) h4
  refine ⟨by rw [w'.p]; exact hlam2, ?_, w'.lambdaprime.trans w.lambdaprime⟩
  rw [hpre, st.prelambda]
  unfold begun
  rw [if_pos (by exact r1)]
  show (if t1.tset.isEmpty then t1.prelambda else 50 * (s.p.lambda : ℤ)) = _
  rw [if_neg (by simpa using hne), hlam2]
  push_cast; ring

end Libcmaes
