import Verif.Lemmas.SurrAcmWitness
import Verif.Lemmas.SurrTheta
import Verif.Props.Sampling

/-!
# C58, C59, C61, C77–C81: the ACM surrogate strategy

`Preselected`, `AcmStart`, `Reaches`, `Answers`, `Pointwise`, `OnlyValues`, `Sane`: Spec/Surrogate.lean; `lastN`:
Spec/Run.lean.  `fuel` bounds the numbers drawn in one loop of a pre-selection; `ok none`: the loop has not ended.
-/

namespace Libcmaes

open Spec Surr

variable {n : ℕ} {M : Type}

/-! ### C58 -/

/-- **C58**, ACM strategy: as `C58_simple`, from any state whose training set is within its capacity (and empty, if
no generation was made yet: the first `ask` clears it). -/
theorem C58_acm (env : Env n) (sf : SurrFuncs n M) (fuel : ℕ) (t t' : Surr n M) (k : ℕ)
    (huh : t.s.p.uh = false) (hgr : t.s.p.withGradient = false)
    (hel : t.s.p.elitist = false ∧ t.s.p.initialElitist = false ∧ t.s.p.initialElitistOnRestart = false)
    (hlam : 1 ≤ t.s.p.lambda) (hlen : t.s.sol.cands.length = t.s.p.lambda) (hts : t.tset.length ≤ t.l.toNat)
    (h0 : t.s.niter ≠ 0 ∨ t.tset = []) (h : t.acmGenerations env sf fuel k = .ok (some t')) :
    ∃ (c c' : List (Vec n × FVal)) (added : List (Cand n)), t'.s.calls = t.s.calls ++ c ∧ c'.Perm c ∧
      (t.s.p.mtFeval = false → c' = c) ∧ List.Forall₂ (Answers t.s.negate t.s.p.gp) added c' ∧
      t'.tset = lastN t.l.toNat (t.tset ++ added) ∧ t'.tset.length ≤ t.l.toNat := by
  induction k generalizing t with
  | zero =>
    obtain rfl := Option.some.inj (Except.ok.inj h)
    exact ⟨[], [], [], by simp, .nil, fun _ => rfl, .nil, by simp [lastN_self hts], hts⟩
  | succ k ih =>
    obtain ⟨t1, h1, h2⟩ := acmGenerations_succ h
    obtain ⟨c1, added1, hs⟩ := acmGeneration_step huh hgr hlen hlam h1
    have a4 : t1.tset = lastN t.l.toNat (t.tset ++ added1) := by
      rw [hs.tset, begun_tset h0, ← foldl_push, lastN_self hts]
    have hone : ∃ c1' : List (Vec n × FVal), c1'.Perm c1 ∧ (t.s.p.mtFeval = false → c1' = c1) ∧
        List.Forall₂ (Answers t.s.negate t.s.p.gp) added1 c1' := by
      by_cases hb : (t.exploit && t.begun.full) = true
      · obtain ⟨_, _, _, E, _, _, _, _, _, hP, _, e, _⟩ := hs.pre hb
        exact ⟨c1, .refl _, fun _ => rfl, by rw [e]; exact hP.evaluated⟩
      · obtain ⟨_, _, _, _, ha, _⟩ := hs.plain (by simpa using hb)
        exact ha (elitismOn_off hel)
    obtain ⟨c1', a1, a2, a3⟩ := hone
    obtain ⟨c, c', added, b1, b2, b3, b4, b5, b6⟩ := ih t1 (by rw [hs.p]; exact huh) (by rw [hs.p]; exact hgr)
      (by rw [hs.p]; exact hel) (by rw [hs.p]; exact hlam) (by rw [hs.p]; exact hs.cands)
      (by rw [a4, hs.l, length_lastN]; exact min_le_left _ _) (by rw [hs.niter]; left; omega) h2
    rw [hs.l] at b5 b6
    rw [hs.negate, hs.p] at b4
    refine ⟨c1 ++ c, c1' ++ c', added1 ++ added, ?_, a1.append b2, fun hm => ?_, List.rel_append a3 b4, ?_, b6⟩
    · rw [b1, hs.calls, List.append_assoc]
    · rw [a2 hm, b3 (by rw [hs.p]; exact hm)]
    · rw [b5, a4, ← foldl_push, lastN_self (k := t.l.toNat) (l := lastN _ _) (by rw [length_lastN]; exact min_le_left _ _),
        foldl_push, List.append_assoc]

/-- **C58**, ACM strategy, from the start: the training set holds the last `l` truly evaluated points of the whole
search, with the answers to the calls of the objective. -/
theorem C58_acm_from_start (env : Env n) (sf : SurrFuncs n M) (fuel : ℕ) (kind : CovKind) (p : Params n) (m : M)
    (t t' : Surr n M) (k : ℕ) (huh : p.uh = false) (hgr : p.withGradient = false)
    (hel : p.elitist = false ∧ p.initialElitist = false ∧ p.initialElitistOnRestart = false)
    (hlam : 1 ≤ p.lambda) (hmt : p.mtFeval = false) (h0 : AcmStart env kind p m t)
    (h : t.acmGenerations env sf fuel k = .ok (some t')) :
    ∃ added : List (Cand n), List.Forall₂ (Answers p.maximize p.gp) added t'.s.calls ∧
      t'.tset = lastN t.l.toNat added := by
  obtain ⟨_, _, h2, _⟩ := acmStart_ok h0
  obtain ⟨hp, hni, _, hc, hn, hcs, _⟩ := acmStart_lambda h0
  obtain ⟨c, c', added, q1, q2, q3, q4, q5, _⟩ := C58_acm env sf fuel t t' k (by rw [hp]; exact huh)
    (by rw [hp]; exact hgr) (by rw [hp]; exact hel) (by rw [hp]; exact hlam) (by rw [hp]; exact hcs)
    (by rw [h2]; simp) (Or.inr h2) h
  rw [q3 (by rw [hp]; exact hmt), hn] at q4
  rw [hp] at q4
  rw [hc, List.nil_append] at q1
  rw [h2, List.nil_append] at q5
  exact ⟨added, by rw [q1]; exact q4, q5⟩

/-! ### C59 -/

/-- **C59**, history, ACM strategy: over any number of generations, with at least two candidates and at least two
true evaluations in a pre-selection (`lambdaprime`), the smoothed error is a number in [0,1] if it was one at the
start. -/
theorem C59_smoothed_acm_partial (env : Env n) (sf : SurrFuncs n M) (fuel : ℕ) (t t' : Surr n M) (k : ℕ)
    (honly : OnlyValues sf) (huh : t.s.p.uh = false) (hgr : t.s.p.withGradient = false) (hlam : 2 ≤ t.s.p.lambda)
    (hprime : 2 ≤ t.lambdaprime) (hlen : t.s.sol.cands.length = t.s.p.lambda)
    (h0 : ∃ v, t.smooth = some v ∧ 0 ≤ v ∧ v ≤ 1) (h : t.acmGenerations env sf fuel k = .ok (some t')) :
    ∃ v, t'.smooth = some v ∧ 0 ≤ v ∧ v ≤ 1 := by
  induction k generalizing t with
  | zero => obtain rfl := Option.some.inj (Except.ok.inj h); exact h0
  | succ k ih =>
    obtain ⟨t1, h1, h2⟩ := acmGenerations_succ h
    obtain ⟨c, added, hs⟩ := acmGeneration_step huh hgr hlen (by omega) h1
    refine ih t1 (by rw [hs.p]; exact huh) (by rw [hs.p]; exact hgr) (by rw [hs.p]; exact hlam)
      (by rw [hs.lambdaprime]; exact hprime) (by rw [hs.p]; exact hs.cands) ?_ h2
    obtain ⟨v, v1, v2, v3⟩ := begun_smooth h0
    by_cases hb : (t.exploit && t.begun.full) = true
    · obtain ⟨_, _, _, E, _, _, _, _, _, hP, _, ea, hc, e, t2, q1, q2, _⟩ := hs.pre hb
      have hal : added.length = c.length := by rw [ea]; exact hP.evaluated.length_eq
      obtain ⟨w, rfl, w0, w1⟩ := computeError_ok honly (by omega) q1
      rw [q2]
      exact setTestError_range v1 v2 v3 w0 w1
    · obtain ⟨_, _, _, _, _, g1, g2⟩ := hs.plain (by simpa using hb)
      by_cases hc : t.s.niter ≠ 0 ∧ t.begun.full = true
      · obtain ⟨e, t2, q1, q2⟩ := g1 hc
        obtain ⟨w, rfl, w0, w1⟩ := computeError_ok honly (by omega) q1
        rw [q2]
        exact setTestError_range v1 v2 v3 w0 w1
      · rw [g2 hc]; exact ⟨v, v1, v2, v3⟩

/-- **C59**, history, fails for the ACM strategy with `lambdaprime` of at most 1: from the first pre-selection on, for
every objective and every model, the smoothed error is not a number. -/
theorem C59_acm_false (env : Env n) (sf : SurrFuncs n M) (fuel : ℕ) (t t' : Surr n M) (k : ℕ)
    (huh : t.s.p.uh = false) (hgr : t.s.p.withGradient = false) (hlam : 1 ≤ t.s.p.lambda)
    (hprime : t.lambdaprime ≤ 1) (hlen : t.s.sol.cands.length = t.s.p.lambda) (hx : t.exploit = true)
    (h0 : t.s.niter ≠ 0) (hf : t.l ≤ t.tset.length) (h : t.acmGenerations env sf fuel (k + 1) = .ok (some t')) :
    t'.smooth = none := by
  obtain ⟨t1, h1, h2⟩ := acmGenerations_succ h
  obtain ⟨c, added, hs⟩ := acmGeneration_step huh hgr hlen hlam h1
  have hbf : t.begun.full = true := by rw [begun_of_ne h0]; unfold full; simpa using hf
  have h3 : t1.smooth = none := by
    obtain ⟨_, _, _, E, _, _, _, _, _, hP, _, ea, hc, e, t2, q1, q2, _⟩ := hs.pre (by rw [hx, hbf]; rfl)
    have hal : added.length = c.length := by rw [ea]; exact hP.evaluated.length_eq
    unfold computeError at q1
    obtain ⟨_, _, q1⟩ := Out.bind_eq_ok.1 q1
    obtain ⟨_, _, q1⟩ := Out.bind_eq_ok.1 q1
    have q1 := Except.ok.inj q1
    rw [if_pos (by omega)] at q1
    rw [q2, ← q1]
    unfold setTestError
    cases t.begun.smooth <;> rfl
  have h4 : t1.s.niter ≠ 0 := by rw [hs.niter]; omega
  have h5 := hs.cands
  rw [← hs.p] at huh hgr hlam h5
  clear h1 h hs hbf hf h0 hx hlen hprime
  induction k generalizing t1 with
  | zero => obtain rfl := Option.some.inj (Except.ok.inj h2); exact h3
  | succ k ih =>
    obtain ⟨t2, g1, g2⟩ := acmGenerations_succ h2
    obtain ⟨c, added, hs⟩ := acmGeneration_step huh hgr h5 hlam g1
    refine ih t2 (by rw [hs.p]; exact hlam) (by rw [hs.p]; exact hgr) (by rw [hs.p]; exact huh) g2 ?_
      (by rw [hs.niter]; omega) (by rw [hs.p]; exact hs.cands)
    have hn : ∀ e, (t1.begun.setTestError e).smooth = none := by
      intro e; rw [begun_of_ne h4]; unfold setTestError; rw [h3]
    by_cases hb : (t1.exploit && t1.begun.full) = true
    · obtain ⟨_, _, _, E, _, _, _, _, _, _, _, _, _, e, _, _, q2, _⟩ := hs.pre hb
      rw [q2]; exact hn e
    · obtain ⟨_, _, _, _, _, a1, a2⟩ := hs.plain (by simpa using hb)
      by_cases hc : t1.s.niter ≠ 0 ∧ t1.begun.full = true
      · obtain ⟨e, _, _, q2⟩ := a1 hc
        rw [q2]; exact hn e
      · rw [a2 hc, begun_of_ne h4]; exact h3

/-- **C59**, history, fails for the ACM strategy with default settings in dimension 1: after 9 or more generations,
whatever the objective, the model and the random numbers, the smoothed error is not a number. -/
theorem C59_acm_default_false (env : Env 1) (sf : SurrFuncs 1 M) (fuel : ℕ) (kind : CovKind) (x0 : Vec 1)
    (sigma : ℝ) (seed clock : ℕ) (p : Params 1) (m : M) (t t' : Surr 1 M) (k : ℕ)
    (hp : Params.make x0 sigma (-1) seed clock GenoPheno.plain = .ok p) (ht : newAcm env kind p m = .ok t)
    (h : t.acmGenerations env sf fuel (k + 9) = .ok (some t')) : t'.smooth = none := by
  obtain ⟨_, _, h4⟩ := default_lambda (le_refl 1) (by norm_num) hp
  obtain ⟨h5, h6, _⟩ := Params.make_plain hp
  have hst : AcmStart env kind p m t := .new ht
  obtain ⟨hsp, hni, _, _, _, hcs, _⟩ := acmStart_lambda hst
  obtain ⟨⟨s, cr, hs, _⟩, _, hts, _⟩ := acmStart_ok hst
  obtain ⟨t0, ht0, _, g2, g3, g4⟩ := newAcm_exists hs m
  rw [ht] at ht0
  obtain rfl := Except.ok.inj ht0
  have hlam : t.s.p.lambda = 4 := by rw [hsp]; exact h4 rfl
  have hl : t.l = 30 := by rw [g3]; norm_num
  have hlp : t.lambdaprime = 1 := by
    rw [g2, h4 rfl, Int.floor_eq_iff]; norm_num
  have hsplit : ∀ (j : ℕ) (a : Surr 1 M), a.acmGenerations env sf fuel (k + 1 + j) = .ok (some t') →
      ∃ b, a.acmGenerations env sf fuel j = .ok (some b) ∧ b.acmGenerations env sf fuel (k + 1) = .ok (some t') := by
    intro j
    induction j with
    | zero => intro a ha; exact ⟨a, rfl, ha⟩
    | succ j ih =>
      intro a ha
      obtain ⟨a1, w1, w2⟩ := acmGenerations_succ ha
      obtain ⟨b, w3, w4⟩ := ih a1 w2
      refine ⟨b, ?_, w4⟩
      unfold acmGenerations
      rw [w1]; exact w3
  obtain ⟨b, hb1, hb2⟩ := hsplit 8 t h
  have huh : t.s.p.uh = false := by rw [hsp]; exact h5
  have hgr : t.s.p.withGradient = false := by rw [hsp]; exact h6
  have hlen : t.s.sol.cands.length = t.s.p.lambda := by rw [hsp]; exact hcs
  obtain ⟨c, r⟩ := acmGenerations_run huh hgr hlen (by omega) hb1
  have hfill := acmGenerations_fill huh hgr hlen (by omega) (Or.inr hts) (by rw [hts]; simp) hb1
  refine C59_acm_false env sf fuel b t' k (by rw [r.p]; exact huh) (by rw [r.p]; exact hgr) (by rw [r.p]; omega)
    (by rw [r.lambdaprime]; omega) (by rw [r.p]; exact r.cands) (by rw [r.exploit]; exact g4)
    (by rw [r.niter]; omega) ?_ hb2
  rw [hts, hl, hlam] at hfill
  rw [r.l, hl]
  simp at hfill
  omega

/-! ### C61 -/

/-- **C61.** In a generation with a full training set: `prelambda` points are sampled; `lambda` of them, distinct
ones, make up the new population, in order of value; the objective is called exactly max(1, `lambdaprime`) times, for
as many different members of the population, among them a point predicted to be best of all samples; each of these
has the value of its own call, and the others have the greatest `double`; the calls are counted. -/
theorem C61_preselection (env : Env n) (sf : SurrFuncs n M) (g : M → List (Cand n) → Sol n → Vec n → FVal)
    (fuel : ℕ) (t t' : Surr n M) (hg : Pointwise sf g) (huh : t.s.p.uh = false) (hgr : t.s.p.withGradient = false)
    (hlam : 1 ≤ t.s.p.lambda) (hlen : t.s.sol.cands.length = t.s.p.lambda) (hx : t.exploit = true)
    (h0 : t.s.niter ≠ 0) (hf : t.l ≤ t.tset.length) (h : t.acmGeneration env sf fuel = .ok (some t')) :
    ∃ (pop : List (Vec n)) (s1 : Strat n) (c : List (Vec n × FVal)) (E rest L : List (Cand n × Cand n)),
      ({ t.s with p := { t.s.p with lambda := t.prelambda.toNat } }).ask env = .ok (pop, s1) ∧
      (pop.length : ℤ) = t.prelambda ∧
      Preselected t.s.negate t.s.p.gp (pop.map fun x => ⟨g t.m t.tset
        { s1.sol with cands := pop.map fun x => ⟨FVal.ofReal 0, x, -1⟩ } x, x, -1⟩) c E rest L ∧
      t'.s.sol.cands = L.map Prod.fst ∧ L.length = t.s.p.lambda ∧ (c.length : ℤ) = max 1 t.lambdaprime ∧
      t'.s.calls = t.s.calls ++ c ∧ t'.s.nevals = t.s.nevals + c.length := by
  obtain ⟨c, added, hs⟩ := acmGeneration_step huh hgr hlen hlam h
  have hbe := begun_of_ne h0
  have hbf : t.full = true := by unfold full; simpa using hf
  obtain ⟨pop, t1, pr, E, rest, L, h1, h2, h3, hP, h4, h5, h6, _⟩ := hs.pre (by rw [hx, hbe, hbf]; rfl)
  rw [acmAsk_eq, hbe, if_pos (by rw [hx, hbf]; rfl)] at h1
  by_cases hneg : t.prelambda < 0
  · rw [if_pos hneg] at h1; cases h1
  rw [if_neg hneg] at h1
  obtain ⟨⟨pop', s1⟩, ha, h1⟩ := Out.bind_eq_ok.1 h1
  obtain ⟨e1, e2⟩ := Prod.mk.inj (Except.ok.inj h1)
  simp only at e1 e2
  subst e1
  rw [hg, List.map_map] at h3
  have h3 := Except.ok.inj h3
  refine ⟨pop', s1, c, E, rest, L, ha, by rw [h2, hbe]; omega, ?_, h4, ?_, h6, hs.calls, hs.nevals⟩
  · rw [← h3, ← e2] at hP
    exact hP
  · rw [← hs.cands, h4, List.length_map]

/-- **C61** fails if `lambdaprime` is set to more than `lambda`: in any dimension, a search with default parameters
and `set_lambdaprime(lambda+1)`, and with room for one population in the training set, makes its first generation;
its second one never ends, whatever the objective and the samples. -/
theorem C61_hang_false (hn : 1 ≤ n) (hn2 : n < 2147483648) (f : ℕ → Vec n → FVal) (hf : ∀ k y, (f k y).IsNum)
    (z : ℕ → Vec n) :
    ∃ (sf : SurrFuncs n Unit) (p : Params n) (t t1 : Surr n Unit),
      Params.make 0 1 (-1) 0 0 GenoPheno.plain = .ok p ∧ AcmStart (Env.basic f z) .plain p () t ∧
      t.lambdaprime = p.lambda + 1 ∧ (∀ fuel, t.acmGenerations (Env.basic f z) sf fuel 1 = .ok (some t1)) ∧
      ∀ fuel, t.acmGenerations (Env.basic f z) sf fuel 2 = .ok none := by
  obtain ⟨p, hp, _⟩ := C11_weights hn (0 : Vec n) 1 (-1) 0 0 GenoPheno.plain
  obtain ⟨hu, hgp, _⟩ := usual_default (kind := .plain) (by norm_num) hp (by decide)
  obtain ⟨hl4, hl97, _⟩ := default_lambda hn hn2 hp
  obtain ⟨t0, ht0, q1, q2, q3, q4⟩ := acm_default (env := Env.basic f z) hu hgp
  set t := (t0.setL p.lambda).setLambdaprime (p.lambda + 1) with htdef
  have ht : AcmStart (Env.basic f z) .plain p () t := .setLambdaprime _ (.setL _ ht0)
  set sf := cycling (n := n) (fun _ => FVal.ofReal 0) p.lambda (50 * p.lambda) with hsf
  have hS : Sane (Env.basic f z) sf fun _ _ _ _ => FVal.ofReal 0 :=
    cycling_sane hf fun _ => by simp [FVal.ofReal, FVal.IsNum]
  have hL : AcmLive t := acmLive_start hu ht
  obtain ⟨hsp, hni, _⟩ := acmStart_lambda ht
  have hlam : t.s.p.lambda = p.lambda := by rw [hsp]
  have hgp' : ∀ x : Vec n, ∃ y, phenoV t.s.p.gp x = .ok y := by
    intro x; rw [hsp]; show ∃ y, phenoV p.gp x = .ok y; rw [hgp]; exact ⟨x, phenoV_plain x⟩
  have hts := hL.fresh hni
  have hfull : t.full = false := by
    unfold full
    rw [hts]
    show decide ((([] : List (Cand n)).length : ℤ) ≥ (p.lambda : ℤ)) = false
    simp; omega
  obtain ⟨F, t1, g1, L1⟩ := acmGeneration_total hS hgp' (by rw [hfull]; simp) hL
  obtain ⟨c1, a1, s1⟩ := acmGeneration_step hL.live.uh hL.live.grad hL.live.cands (by omega) (g1 F le_rfl)
  have hx : t.exploit = true := q4
  have hfull1 : t1.full = true := by
    obtain ⟨w1, w2⟩ := s1.tset_length (begun_tset (Or.inr hts)) (by rw [hts]; simp)
    unfold full
    rw [s1.l, w1, w2 hfull, hts, hlam]
    show decide (((min (Int.toNat (p.lambda : ℤ)) _ : ℕ) : ℤ) ≥ (p.lambda : ℤ)) = true
    simp
  have hg : ∀ fuel, t.acmGeneration (Env.basic f z) sf fuel = .ok (some t1) := by
    intro fuel
    have := g1 F le_rfl
    rw [← this]
    unfold acmGeneration acmEval
    cases hask : t.acmAsk (Env.basic f z) with
    | error e => rfl
    | ok q =>
      obtain ⟨⟨es, ei, ue, nz, x1, x2, p1, p2, e1⟩, _⟩ := acmAsk_ok hL.live.grad (show t.acmAsk (Env.basic f z) = .ok (q.1, q.2) from hask)
      have hbf : t.begun.full = t.full := by
        obtain ⟨ts0, tr0, te0, sm0, pl0, e0⟩ := begun_frame t
        unfold full
        rw [begun_tset (Or.inr hts), e0]
      have : q.2.full = false := by
        rw [← hfull, ← hbf, e1]; rfl
      simp only [Out.ok_bind, this, Bool.and_false]
      rfl
  have hsel := cycling_selects (g := fun _ => FVal.ofReal 0) ht0 (by omega) (by omega) q1
    (by rw [q2]; exact (third_le _ (by omega)).1.le)
  have hsel0 := hsel.draws0
  have hsel1 := hsel.draws1.small
  have hpl : t1.prelambda = t0.prelambda := by rw [s1.prelambda]; exact begun_prelambda hL.fresh
  have hd0 : t1.dev0 = t0.dev0 := s1.dev0
  have hd1 : t1.dev1 = t0.dev1 := s1.dev1
  have hp1 : t1.s.p = t.s.p := s1.p
  have hh := acmGeneration_hangs (t := t1) hS (by rw [s1.p]; exact hgp') (by rw [s1.exploit, hx, hfull1]; rfl)
    (by rw [hp1, hpl, hlam, q1]; omega) (by rw [hp1, s1.lambdaprime, hlam]; show (p.lambda : ℤ) < p.lambda + 1; omega)
    (by rw [hpl, hd0]; exact hsel0) (by rw [hp1, hd1]; exact hsel1) L1
  refine ⟨sf, p, t, t1, hp, ht, rfl, fun fuel => ?_, fun fuel => ?_⟩
  · unfold acmGenerations acmGenerations
    rw [hg]; rfl
  · unfold acmGenerations acmGenerations
    rw [hg, Out.ok_bind]
    simp only
    rw [hh]; rfl

/-! ### C77 -/

/-- **C77**, ACM strategy, what holds: without elitism, if every answer of the objective (negated when maximizing) is
below the greatest `double`, then after one or more generations the best candidate and the best candidate seen are
points the objective was called at, with the values it returned. -/
theorem C77_acm_partial (env : Env n) (sf : SurrFuncs n M) (fuel : ℕ) (kind : CovKind) (p : Params n) (m : M)
    (t t' : Surr n M) (k : ℕ) (huh : p.uh = false) (hgr : p.withGradient = false)
    (hel : p.elitist = false ∧ p.initialElitist = false ∧ p.initialElitistOnRestart = false)
    (hlam : 1 ≤ p.lambda) (hst : AcmStart env kind p m t)
    (h : t.acmGenerations env sf fuel (k + 1) = .ok (some t'))
    (hfin : ∀ q ∈ t'.s.calls, FVal.lt (negIf p.maximize q.2) (FVal.ofReal dblMax)) :
    (∃ q ∈ t'.s.calls, Answers p.maximize p.gp t'.s.sol.bestCandidate q) ∧
      ∃ b, t'.s.sol.bestSeen = some b ∧ ∃ q ∈ t'.s.calls, Answers p.maximize p.gp b q := by
  obtain ⟨hsp, hni, hni', hcl, hng, hcs, hbs, _, hmh⟩ := acmStart_lambda hst
  have key : ∀ (k : ℕ) (t : Surr n M), t.s.p.uh = false → t.s.p.withGradient = false →
      (t.s.p.elitist = false ∧ t.s.p.initialElitist = false ∧ t.s.p.initialElitistOnRestart = false) →
      1 ≤ t.s.p.lambda → t.s.sol.cands.length = t.s.p.lambda → t.s.negate = p.maximize → t.s.p.gp = p.gp →
      0 < t.s.sol.maxHist → (t.s.sol.niter = 0 ∨ t.s.sol.bestSeen.isSome = true) →
      (∀ b, t.s.sol.bestSeen = some b → ∃ q ∈ t.s.calls, Answers p.maximize p.gp b q) →
      (t.s.niter ≠ 0 → t.s.sol.bestSeen.isSome = true ∧
        ∃ q ∈ t.s.calls, Answers p.maximize p.gp t.s.sol.bestCandidate q) →
      t.acmGenerations env sf fuel k = .ok (some t') →
      (∀ b, t'.s.sol.bestSeen = some b → ∃ q ∈ t'.s.calls, Answers p.maximize p.gp b q) ∧
      (t'.s.niter ≠ 0 → t'.s.sol.bestSeen.isSome = true ∧
        ∃ q ∈ t'.s.calls, Answers p.maximize p.gp t'.s.sol.bestCandidate q) := by
    intro k
    induction k with
    | zero =>
      intro t _ _ _ _ _ _ _ _ _ b1 b2 hg
      obtain rfl := Option.some.inj (Except.ok.inj hg)
      exact ⟨b1, b2⟩
    | succ k ih =>
      intro t a1 a2 a3 a4 a5 a6 a7 a8 a9 b1 b2 hg
      obtain ⟨t1, g1, g2⟩ := acmGenerations_succ hg
      obtain ⟨c, added, hs⟩ := acmGeneration_step a1 a2 a5 a4 g1
      obtain ⟨d, r⟩ := acmGenerations_run (by rw [hs.p]; exact a1) (by rw [hs.p]; exact a2)
        (by rw [hs.p]; exact hs.cands) (by rw [hs.p]; exact a4) g2
      have hin : ∀ q ∈ c, q ∈ t1.s.calls := fun q hq => by rw [hs.calls]; exact List.mem_append_right _ hq
      obtain ⟨c0, e0, e1, e2, e3, _⟩ := hs.best'
      obtain ⟨q0, hq0, ha0⟩ := hs.first (elitismOn_off a3) (fun q hq => by
        rw [a6]; exact hfin q (by rw [r.calls]; exact List.mem_append_left _ (hin q hq))) e0
      rw [a6, a7] at ha0
      refine ih t1 (by rw [hs.p]; exact a1) (by rw [hs.p]; exact a2) (by rw [hs.p]; exact a3) (by rw [hs.p]; exact a4)
        (by rw [hs.p]; exact hs.cands) (by rw [hs.negate]; exact a6) (by rw [hs.p]; exact a7)
        (by rw [hs.maxHist]; exact a8) (Or.inr (e3 a9)) ?_ (fun _ => ⟨e3 a9, q0, hin q0 hq0, ?_⟩) g2
      · intro b hb
        rcases e2 b hb with rfl | hb'
        · exact ⟨q0, hin q0 hq0, ha0⟩
        · obtain ⟨q, hq, hq'⟩ := b1 b hb'
          exact ⟨q, by rw [hs.calls]; exact List.mem_append_left _ hq, hq'⟩
      · rw [e1 a8]; exact ha0
  obtain ⟨k1, k2⟩ := key (k + 1) t (by rw [hsp]; exact huh) (by rw [hsp]; exact hgr)
    (by rw [hsp]; exact hel) (by rw [hsp]; exact hlam) (by rw [hsp]; exact hcs) hng (by rw [hsp]) hmh
    (Or.inl hni') (by rw [hbs]; simp) (fun h => absurd hni h) h
  obtain ⟨d, r⟩ := acmGenerations_run (by rw [hsp]; exact huh) (by rw [hsp]; exact hgr) (by rw [hsp]; exact hcs)
    (by rw [hsp]; exact hlam) h
  obtain ⟨k3, k4⟩ := k2 (by rw [r.niter]; omega)
  obtain ⟨b, hb⟩ := Option.isSome_iff_exists.1 k3
  exact ⟨k4, b, hb, k1 b hb⟩

/-- Default parameters, any objective without NaN, room for one population in the training set: two generations. -/
private theorem two_runs (hn : 1 ≤ n) (hn2 : n < 2147483648) (f : ℕ → Vec n → FVal) (hf : ∀ k y, (f k y).IsNum)
    (z : ℕ → Vec n) :
    ∃ (sf : SurrFuncs n Unit) (p : Params n) (t t1 t2 : Surr n Unit) (fuel : ℕ) (c1 c2 : List (Vec n × FVal))
      (a1 a2 : List (Cand n)), Pointwise sf (fun _ _ _ _ => FVal.ofReal 0) ∧
      Params.make 0 1 (-1) 0 0 GenoPheno.plain = .ok p ∧ AcmStart (Env.basic f z) .plain p () t ∧
      t.lambdaprime = ⌊(p.lambda : ℝ) / 3⌋ ∧ 4 ≤ p.lambda ∧ t.s.p.lambda = p.lambda ∧
      t.acmGenerations (Env.basic f z) sf fuel 1 = .ok (some t1) ∧
      t.acmGenerations (Env.basic f z) sf fuel 2 = .ok (some t2) ∧ t.exploit = true ∧
      t.full = false ∧ t1.full = true ∧ t1.exploit = true ∧
      AcmStep (Env.basic f z) sf t t1 c1 a1 ∧ AcmStep (Env.basic f z) sf t1 t2 c2 a2 ∧ AcmLive t1 := by
  obtain ⟨p, hp, _⟩ := C11_weights hn (0 : Vec n) 1 (-1) 0 0 GenoPheno.plain
  obtain ⟨hu, hgp, _⟩ := usual_default (kind := .plain) (by norm_num) hp (by decide)
  obtain ⟨hl4, hl97, _⟩ := default_lambda hn hn2 hp
  obtain ⟨t0, ht0, q1, q2, q3, q4⟩ := acm_default (env := Env.basic f z) hu hgp
  have ht : AcmStart (Env.basic f z) .plain p () (t0.setL p.lambda) := .setL _ ht0
  obtain ⟨hsp, hni, _⟩ := acmStart_lambda ht
  have hlam : (t0.setL p.lambda).s.p.lambda = p.lambda := by rw [hsp]
  obtain ⟨fuel, t1, t2, c1, c2, a1, a2, _, _, g1, g2, s1, s2, f0, f1, x1, L1, _⟩ := acm_two
    (cycling_sane (l := p.lambda) (k := 50 * p.lambda) (g := fun _ => FVal.ofReal 0) (env := Env.basic f z) hf
      fun _ => by simp [FVal.ofReal, FVal.IsNum])
    (t := t0.setL p.lambda) (by intro x; rw [hsp]; show ∃ y, phenoV p.gp x = .ok y; rw [hgp]; exact ⟨x, phenoV_plain x⟩)
    (cycling_selects ht (by omega) (by omega) q1 (by show t0.lambdaprime ≤ _; rw [q2]; exact (third_le _ (by omega)).1.le))
    (acmLive_start hu ht) hni (by rw [hlam]; rfl) q4
  exact ⟨_, p, _, t1, t2, fuel, c1, c2, a1, a2, cycling_pointwise _ _ _, hp, ht, q2, hl4, hlam, g1, g2, q4, f0, f1, x1,
    s1, s2, L1⟩

/-- **C77** fails for the ACM strategy: with an objective that is +∞ everywhere (a search in which no feasible point
has been found yet), after two generations the best candidate and the best candidate seen have the value of the
greatest `double`, which the objective never returned. -/
theorem C77_acm_false (hn : 1 ≤ n) (hn2 : n < 2147483648) (z : ℕ → Vec n) :
    ∃ (env : Env n) (sf : SurrFuncs n Unit) (fuel : ℕ) (p : Params n) (t t' : Surr n Unit),
      (∀ k y, env.f k y = .num ⊤) ∧ Pointwise sf (fun _ _ _ _ => FVal.ofReal 0) ∧ env.z = z ∧
      Params.make 0 1 (-1) 0 0 GenoPheno.plain = .ok p ∧ AcmStart env .plain p () t ∧
      t.acmGenerations env sf fuel 2 = .ok (some t') ∧
      t'.s.sol.bestCandidate.fvalue = FVal.ofReal dblMax ∧
      (∃ b, t'.s.sol.bestSeen = some b ∧ b.fvalue = FVal.ofReal dblMax) ∧ ∀ q ∈ t'.s.calls, q.2 = .num ⊤ := by
  obtain ⟨sf, p, t, t1, t2, fuel, c1, c2, a1, a2, hpw, hp, ht, hlp, hl4, hlam, g1, g2, hx, f0, f1, x1, s1, s2, L1⟩ :=
    two_runs hn hn2 (fun _ _ => .num ⊤) (fun _ _ => by simp [FVal.IsNum]) z
  obtain ⟨_, _, _, _, hel2, hel3, _, hmax, _⟩ := Params.make_plain hp
  obtain ⟨hsp, hni, hni', hcl, hng, hcs, hbs, _, hmh⟩ := acmStart_lambda ht
  have hneg : t.s.negate = false := by rw [hng, hmax]
  have htop : ∀ q ∈ c1 ++ c2, q.2 = .num ⊤ := by
    intro q hq
    rcases List.mem_append.1 hq with hq | hq
    · obtain ⟨k, h⟩ := s1.truth q hq; exact h
    · obtain ⟨k, h⟩ := s2.truth q hq; exact h
  have hb1 : t.begun.full = false := by
    obtain ⟨ts0, tr0, te0, sm0, pl0, e0⟩ := begun_frame t
    have : t.begun.full = t.full := by
      unfold full
      rw [begun_tset (Or.inr (acmStart_ok ht).2.2.1), e0]
    rw [this, f0]
  obtain ⟨c0, b1, _, _, _, b2, _⟩ := s1.best'
  have hbs1 := b2 hbs hni'
  have hc0 : c0.fvalue = .num ⊤ := by
    obtain ⟨_, hpm, _, _, ha, _⟩ := s1.plain (by rw [hb1]; simp)
    obtain ⟨c', p1, _, p2⟩ := ha (elitismOn_off (by rw [hsp]; exact ⟨hel2, by
      obtain ⟨_, _, _, h, _⟩ := Params.make_plain hp; exact h, hel3⟩))
    obtain ⟨q, hq, ha⟩ := answered p2 (hpm.mem_iff.1 (List.mem_of_getElem? b1))
    have := ha.2
    rw [hneg] at this
    exact this.trans (htop q (List.mem_append_left _ (p1.mem_iff.1 hq)))
  have hbe : t1.begun = t1 := begun_of_ne (by rw [s1.niter]; omega)
  obtain ⟨_, _, _, E, rest, L, _, _, _, hP, e, _, hc, _⟩ := s2.pre (by rw [x1, hbe, f1]; rfl)
  obtain ⟨d0, b3, b4, _, _, _, b5⟩ := s2.best'
  have hL : L.length = p.lambda := by
    rw [← hlam, ← s1.p, ← s2.cands, e, List.length_map]
  have hlenP := hP.parts.length_eq
  have hE : E.length = c2.length := by
    have := hP.evaluated.length_eq
    rwa [List.length_map] at this
  rw [List.length_append] at hlenP
  have hthird := third_le p.lambda (by omega)
  rw [s1.lambdaprime, hlp] at hc
  obtain ⟨r, hr⟩ : ∃ r, r ∈ rest := List.exists_mem_of_length_pos (by omega)
  have hlt : FVal.lt (FVal.ofReal dblMax) (.num ⊤) := EReal.coe_lt_top _
  have hd0 : d0.fvalue = FVal.ofReal dblMax := by
    rw [e, List.getElem?_map] at b3
    obtain ⟨q0, hq0, rfl⟩ := Option.map_eq_some_iff.1 b3
    rcases List.mem_append.1 (hP.parts.mem_iff.1 (List.mem_of_getElem? hq0)) with hm | hm
    · exfalso
      obtain ⟨q, hq, ha⟩ := answered hP.evaluated (List.mem_map.2 ⟨q0, hm, rfl⟩)
      have hv := ha.2
      rw [s1.negate, hneg] at hv
      have hv : q0.1.fvalue = .num ⊤ := hv.trans (htop q (List.mem_append_right _ hq))
      obtain ⟨hj, hj'⟩ := List.getElem?_eq_some_iff.1 hq0
      obtain ⟨i, hi, hi'⟩ := List.getElem_of_mem (hP.parts.mem_iff.2 (List.mem_append.2 (Or.inr hr)))
      rcases Nat.eq_zero_or_pos i with rfl | hi0
      · rw [hj'] at hi'
        have := hP.worst r hr
        rw [← hi', hv] at this
        rw [this] at hlt
        exact FVal.lt_irrefl _ hlt
      · have := (List.pairwise_iff_getElem.1 hP.sorted 0 i hj hi hi0).1
        rw [hj', hi', hv, hP.worst r hr] at this
        exact this hlt
    · exact hP.worst q0 hm
  refine ⟨_, sf, fuel, p, t, t2, fun _ _ => rfl, hpw, rfl, hp, ht, g2, ?_, ⟨d0, b5 c0 hbs1 ?_, hd0⟩, ?_⟩
  · rw [b4 (by rw [s1.maxHist]; exact hmh)]; exact hd0
  · rw [hd0, hc0]; exact hlt
  · rw [s2.calls, s1.calls, hcl, List.nil_append]; exact htop

/-! ### C78 -/

/-- **C78**, what holds: after a generation, except one that exploits the model and in which the training set gets
full, the candidates are sorted by value; the best candidate has the least value of them. -/
theorem C78_partial (env : Env n) (sf : SurrFuncs n M) (fuel : ℕ) (t t' : Surr n M) (huh : t.s.p.uh = false)
    (hgr : t.s.p.withGradient = false) (hlam : 1 ≤ t.s.p.lambda) (hlen : t.s.sol.cands.length = t.s.p.lambda)
    (hmh : 0 < t.s.sol.maxHist) (h0 : t.s.niter ≠ 0 ∨ t.tset = [])
    (hex : t.exploit = false ∨ t.l ≤ t.tset.length ∨ (t'.tset.length : ℤ) < t.l)
    (h : t.acmGeneration env sf fuel = .ok (some t')) :
    (t'.s.sol.cands.Pairwise fun a b => ¬ FVal.lt b.fvalue a.fvalue) ∧
      ∀ a ∈ t'.s.sol.cands, ¬ FVal.lt a.fvalue t'.s.sol.bestCandidate.fvalue := by
  obtain ⟨c, added, hs⟩ := acmGeneration_step huh hgr hlen hlam h
  have hbf : t.begun.full = t.full := by
    obtain ⟨ts0, tr0, te0, sm0, pl0, e0⟩ := begun_frame t
    unfold full
    rw [begun_tset h0, e0]
  have hsorted : t'.s.sol.cands.Pairwise fun a b => ¬ FVal.lt b.fvalue a.fvalue := by
    by_cases hb : (t.exploit && t.begun.full) = true
    · obtain ⟨_, _, _, _, _, L, _, _, _, hP, e, _⟩ := hs.pre hb
      rw [e, List.pairwise_map]
      exact hP.sorted.imp fun h => h.1
    · obtain ⟨_, _, a1, _⟩ := hs.plain (by simpa using hb)
      refine a1 ?_
      rcases hex with h1 | h1 | h1
      · rw [h1]; rfl
      · cases hx : t.exploit with
        | false => rfl
        | true =>
          exfalso
          refine hb ?_
          rw [hx, hbf]
          unfold full
          simpa using h1
      · have : t'.full = false := by unfold full; rw [hs.l]; simpa using h1
        rw [this]; simp
  refine ⟨hsorted, ?_⟩
  obtain ⟨c0, e0, e1, _⟩ := hs.best'
  rw [e1 hmh]
  obtain ⟨hl0, hg0⟩ := List.getElem?_eq_some_iff.1 e0
  intro a ha
  obtain ⟨i, hi, rfl⟩ := List.getElem_of_mem ha
  rcases Nat.eq_zero_or_pos i with rfl | hi0
  · rw [hg0]; exact FVal.lt_irrefl _
  · have := List.pairwise_iff_getElem.1 hsorted 0 i hl0 hi hi0
    rwa [hg0] at this

/-- **C78** fails, for every objective and model: in a generation that exploits the model and in which the training
set gets full, the candidates are not sorted but in the order of the calls, and the best candidate is the point
evaluated first, whatever the answers. -/
theorem C78_unsorted_false (env : Env n) (sf : SurrFuncs n M) (fuel : ℕ) (t t' : Surr n M) (huh : t.s.p.uh = false)
    (hgr : t.s.p.withGradient = false)
    (hel : t.s.p.elitist = false ∧ t.s.p.initialElitist = false ∧ t.s.p.initialElitistOnRestart = false)
    (hmt : t.s.p.mtFeval = false) (hlam : 1 ≤ t.s.p.lambda) (hlen : t.s.sol.cands.length = t.s.p.lambda)
    (hmh : 0 < t.s.sol.maxHist) (h0 : t.s.niter ≠ 0 ∨ t.tset = []) (hx : t.exploit = true)
    (hnf : (t.tset.length : ℤ) < t.l) (hf : t.l ≤ t'.tset.length)
    (h : t.acmGeneration env sf fuel = .ok (some t')) :
    ∃ c, t'.s.calls = t.s.calls ++ c ∧ List.Forall₂ (Answers t.s.negate t.s.p.gp) t'.s.sol.cands c ∧
      ∃ q, c[0]? = some q ∧ Answers t.s.negate t.s.p.gp t'.s.sol.bestCandidate q := by
  obtain ⟨c, added, hs⟩ := acmGeneration_step huh hgr hlen hlam h
  have hbf : t.begun.full = false := by
    obtain ⟨ts0, tr0, te0, sm0, pl0, e0⟩ := begun_frame t
    unfold full
    rw [begun_tset h0, e0]
    simpa using hnf
  have hf' : t'.full = true := by unfold full; rw [hs.l]; simpa using hf
  obtain ⟨_, _, _, a2, a3, _⟩ := hs.plain (by rw [hbf]; simp)
  obtain ⟨c', _, b2, b3⟩ := a3 (elitismOn_off hel)
  obtain rfl := b2 hmt
  have hcs := a2 (by rw [hx, hf']; rfl)
  obtain ⟨c0, e0, e1, _⟩ := hs.best'
  rw [← hcs] at b3
  refine ⟨c', hs.calls, b3, ?_⟩
  rw [e1 hmh]
  obtain ⟨hl0, hg0⟩ := List.getElem?_eq_some_iff.1 e0
  obtain ⟨hl1, hget⟩ := List.forall₂_iff_get.1 b3
  have hl2 : 0 < c'.length := by omega
  refine ⟨c'[0], List.getElem?_eq_getElem hl2, ?_⟩
  have := hget 0 hl0 hl2
  simp only [List.get_eq_getElem] at this
  rwa [hg0] at this

/-- **C78** fails: with an objective that is 0 at the start point and 1 elsewhere, and default parameters but room
for one population in the training set, there are samples for which after the first generation the best candidate
and the best candidate seen have value 1, although other calls of the objective in this generation returned 0. -/
theorem C78_best_false (hn : 1 ≤ n) (hn2 : n < 2147483648) :
    ∃ (env : Env n) (sf : SurrFuncs n Unit) (fuel : ℕ) (p : Params n) (t t' : Surr n Unit),
      (∀ k, env.f k 0 = FVal.ofReal 0) ∧ (∀ k y, y ≠ 0 → env.f k y = FVal.ofReal 1) ∧
      Params.make 0 1 (-1) 0 0 GenoPheno.plain = .ok p ∧ AcmStart env .plain p () t ∧
      t.acmGenerations env sf fuel 1 = .ok (some t') ∧
      t'.s.sol.bestCandidate.fvalue = FVal.ofReal 1 ∧
      (∃ b, t'.s.sol.bestSeen = some b ∧ b.fvalue = FVal.ofReal 1) ∧ ∃ q ∈ t'.s.calls, q.2 = FVal.ofReal 0 := by
  classical
  set f : ℕ → Vec n → FVal := fun _ y => if y = 0 then FVal.ofReal 0 else FVal.ofReal 1 with hf
  set z : ℕ → Vec n := fun k => if k = 0 then fun _ => 1 else 0 with hz
  obtain ⟨sf, p, t, t1, t2, fuel, c1, c2, a1, a2, hpw, hp, ht, hlp, hl4, hlam, g1, g2, hx, f0, f1, x1, s1, s2, L1⟩ :=
    two_runs hn hn2 f (fun _ y => by rw [hf]; simp only; split_ifs <;> simp [FVal.ofReal, FVal.IsNum]) z
  obtain ⟨u1, u2, u3, u4, u5, u6, u7, u8, u9, u10, u11, u12, u13, _⟩ := Params.make_plain hp
  obtain ⟨hsp, hni, hni', hcl, hng, hcs, hbs, _, hmh⟩ := acmStart_lambda ht
  obtain ⟨⟨s, cr, hs, hts, _⟩, _, htset, _⟩ := acmStart_ok ht
  obtain ⟨_, _, _, _, hsig, hfr, _, _, _, _, _, _, _, _, _, _, _, _, hsm, _⟩ := Strat.new_ok hs
  have hnz : t.s.nz = 0 := by
    rw [hts]
    have hs' := hs
    unfold Strat.new at hs'
    obtain ⟨⟨p', sol⟩, hm, hs'⟩ := Out.bind_eq_ok.1 hs'
    injection hs' with hs'; rw [← hs']
  have hxm : t.s.sol.xmean = 0 := by
    have e : initialMean p ((Env.basic f z).rnd 0) = .ok 0 := by
      unfold initialMean
      rw [u12, u13, u11, u10, if_pos rfl, if_neg (by
        intro h
        have := congrFun h ⟨0, by omega⟩
        have h2 := dblMax_ge
        simp only [Pi.zero_apply] at this
        linarith)]
      rfl
    rw [e] at hsm
    rw [hts]
    exact (Except.ok.inj hsm).symm
  have hsep : p.sep = false ∧ p.vd = false ∧ p.lazyUpdate = false := by
    have hp' := hp
    unfold Params.make at hp'
    obtain ⟨l, -, hp'⟩ := Out.bind_eq_ok.1 hp'
    obtain ⟨mu, w, muw, cs, cc, c1, cm, ds, fs, fc, ch, lv, rl, al, e⟩ := initializeParameters_frame hp'
    rw [e]
    exact ⟨rfl, rfl, rfl⟩
  have hel : t.s.p.elitist = false ∧ t.s.p.initialElitist = false ∧ t.s.p.initialElitistOnRestart = false := by
    rw [hsp]; exact ⟨u5, u4, u6⟩
  have hb1 : t.begun.full = false := by
    obtain ⟨ts0, tr0, te0, sm0, pl0, e0⟩ := begun_frame t
    have : t.begun.full = t.full := by
      unfold full
      rw [begun_tset (Or.inr htset), e0]
    rw [this, f0]
  obtain ⟨pop, sa, hask, hpop⟩ := s1.points (by rw [hb1]; simp) (elitismOn_off hel)
  obtain ⟨_, hpm, _, hun, ha, _⟩ := s1.plain (by rw [hb1]; simp)
  obtain ⟨c', p1, p2, p3⟩ := ha (elitismOn_off hel)
  have hun := hun (by rw [hx, f1]; rfl)
  have hPSD1 : PSD (1 : Mat n) := ⟨Matrix.isSymm_one, fun x => by
    rw [quad_one]; exact Finset.sum_nonneg fun i _ => mul_self_nonneg _⟩
  obtain ⟨A, hA, hpts⟩ := C19_full (EigSolver.spectral n) 1 hPSD1
  have hpts := hpts (Env.basic f z) t.s sa pop rfl (by rw [hts]; exact hfr.cov) (by rw [hsp]; exact hsep.1)
    (by rw [hsp]; exact hsep.2.1) (by rw [hsp]; exact u2) (Or.inr hni) (Or.inr hni) hask
  have hfree : ∀ i, Free t.s.p i := by
    intro i v hv
    rw [hsp] at hv
    change (i.val, v) ∈ p.fixedP at hv
    rw [u11] at hv
    cases hv
  obtain ⟨y0, hy0, hv0⟩ := hpts 0 (by omega)
  obtain ⟨y1, hy1, hv1⟩ := hpts 1 (by omega)
  have hsg : 0 < t.s.sol.sigma := by rw [hts]; exact hsig
  have e1 : y1 = 0 := by
    funext i
    rw [hv1 i (hfree i), hxm, hnz]
    simp [Env.basic, hz]
  have e0 : y0 ≠ 0 := by
    intro h
    have hA0 : A.mulVec (fun _ => 1) = 0 := by
      funext i
      have := hv0 i (hfree i)
      rw [h, hxm, hnz] at this
      simp only [Pi.zero_apply, zero_add] at this
      have h2 : A.mulVec ((Env.basic f z).z 0) i = 0 := by
        rcases mul_eq_zero.1 this.symm with h | h
        · exact absurd h hsg.ne'
        · exact h
      simpa [Env.basic, hz] using h2
    have hA' : A.transpose * A = 1 := mul_eq_one_comm.1 hA
    have : (fun _ : Fin n => (1 : ℝ)) = 0 := by
      calc (fun _ : Fin n => (1 : ℝ)) = (A.transpose * A).mulVec (fun _ => 1) := by rw [hA', Matrix.one_mulVec]
        _ = A.transpose.mulVec (A.mulVec (fun _ => 1)) := by rw [Matrix.mulVec_mulVec]
        _ = 0 := by rw [hA0, Matrix.mulVec_zero]
    have := congrFun this ⟨0, by omega⟩
    norm_num at this
  have hval : ∀ a ∈ a1, ∃ q ∈ c1, q.1 = a.x ∧ a.fvalue = q.2 ∧ q.2 = f 0 a.x := by
    intro a ha
    obtain ⟨q, hq, h1, h2⟩ := answered p3 ha
    rw [hng, u8] at h2
    rw [hsp] at h1
    change phenoV p.gp a.x = _ at h1
    rw [u10, phenoV_plain] at h1
    have h3 := Except.ok.inj h1
    obtain ⟨k, hk⟩ := s1.truth q (p1.mem_iff.1 hq)
    exact ⟨q, p1.mem_iff.1 hq, h3.symm, h2, by rw [hk, ← h3]; rfl⟩
  have hat : ∀ (j : ℕ) (y : Vec n), pop[j]? = some y → ∃ a ∈ a1, a1[j]? = some a ∧ a.x = y := by
    intro j y hj
    rw [← hpop, List.getElem?_map] at hj
    obtain ⟨a, ha, h⟩ := Option.map_eq_some_iff.1 hj
    exact ⟨a, List.mem_of_getElem? ha, ha, h⟩
  obtain ⟨d0, m0, i0, x0'⟩ := hat 0 y0 hy0
  obtain ⟨d1, m1, _, x1'⟩ := hat 1 y1 hy1
  obtain ⟨q0, _, _, v0, w0⟩ := hval d0 m0
  obtain ⟨q1, hq1, _, v1, w1⟩ := hval d1 m1
  obtain ⟨cc, b1, b2, _, _, b3, _⟩ := s1.best'
  rw [hun, i0] at b1
  obtain rfl := Option.some.inj b1
  have hd0 : d0.fvalue = FVal.ofReal 1 := by
    rw [v0, w0, x0', hf]; simp only; rw [if_neg e0]
  refine ⟨Env.basic f z, sf, fuel, p, t, t1, fun k => ?_, fun k y hy => ?_, hp, ht, g1, ?_, ⟨d0, b3 hbs hni', hd0⟩,
    q1, ?_, ?_⟩
  · show f k 0 = _; rw [hf]; simp
  · show f k y = _; rw [hf]; simp only; rw [if_neg hy]
  · rw [b2 hmh]; exact hd0
  · rw [s1.calls]; exact List.mem_append_right _ hq1
  · rw [w1, x1', e1, hf]; simp

/-! ### C79 -/

/-- **C79** fails, for every objective and model: after a generation with pre-selection in which fewer than `lambda`
candidates are evaluated, if all answers of the search so far (negated when maximizing) are below the greatest
`double`, the worst candidate seen is none that was evaluated. -/
theorem C79_false (env : Env n) (sf : SurrFuncs n M) (fuel : ℕ) (t t' : Surr n M) (huh : t.s.p.uh = false)
    (hgr : t.s.p.withGradient = false) (hlam : 2 ≤ t.s.p.lambda) (hprime : t.lambdaprime < t.s.p.lambda)
    (hlen : t.s.sol.cands.length = t.s.p.lambda) (hx : t.exploit = true) (h0 : t.s.niter ≠ 0)
    (hw : t.s.sol.worstSeen.isSome = true) (hf : t.l ≤ t.tset.length)
    (h : t.acmGeneration env sf fuel = .ok (some t'))
    (hfin : ∀ q ∈ t'.s.calls, FVal.lt (negIf t.s.negate q.2) (FVal.ofReal dblMax)) :
    ∃ w, t'.s.sol.worstSeen = some w ∧ ¬ FVal.lt w.fvalue (FVal.ofReal dblMax) ∧
      ∀ q ∈ t'.s.calls, ¬ Answers t.s.negate t.s.p.gp w q := by
  obtain ⟨c, added, hs⟩ := acmGeneration_step huh hgr hlen (by omega) h
  have hbf : t.begun.full = true := by rw [begun_of_ne h0]; unfold full; simpa using hf
  obtain ⟨_, _, _, E, rest, L, _, _, _, hP, e, ea, hc, _⟩ := hs.pre (by rw [hx, hbf]; rfl)
  obtain ⟨cl, w1, _, w2, _⟩ := hs.worst'
  have hL : L.length = t.s.p.lambda := by rw [← hs.cands, e, List.length_map]
  have hlenP := hP.parts.length_eq
  have hE : E.length = c.length := by
    have := hP.evaluated.length_eq
    rwa [List.length_map] at this
  rw [List.length_append] at hlenP
  obtain ⟨r, hr⟩ : ∃ r, r ∈ rest := List.exists_mem_of_length_pos (by omega)
  rw [e, List.getLast?_map] at w1
  obtain ⟨ql, hql, rfl⟩ := Option.map_eq_some_iff.1 w1
  have hge : ¬ FVal.lt ql.1.fvalue (FVal.ofReal dblMax) := by
    rw [← hP.worst r hr]
    obtain ⟨i, hi, hi'⟩ := List.getElem_of_mem (hP.parts.mem_iff.2 (List.mem_append.2 (Or.inr hr)))
    rw [List.getLast?_eq_getElem?] at hql
    obtain ⟨hj, hj'⟩ := List.getElem?_eq_some_iff.1 hql
    rcases Nat.lt_or_ge i (L.length - 1) with hlt | hge
    · have := (List.pairwise_iff_getElem.1 hP.sorted i _ hi hj hlt).1
      rwa [hi', hj'] at this
    · have : i = L.length - 1 := by omega
      subst this
      rw [← hi', ← hj']; exact FVal.lt_irrefl _
  have hin : ∀ q ∈ c, q ∈ t'.s.calls := fun q hq => by rw [hs.calls]; exact List.mem_append_right _ hq
  have hcl : ql.1.fvalue = FVal.ofReal dblMax := by
    rcases List.mem_append.1 (hP.parts.mem_iff.1 (List.mem_of_getLast? hql)) with hm | hm
    · exfalso
      obtain ⟨q, hq, ha⟩ := answered hP.evaluated (List.mem_map.2 ⟨ql, hm, rfl⟩)
      have hv : ql.1.fvalue = negIf t.s.negate q.2 := ha.2
      rw [hv] at hge
      exact hge (hfin q (hin q hq))
    · exact hP.worst ql hm
  obtain ⟨w, hw1, hw2⟩ := w2 hw
  have hwd : ¬ FVal.lt w.fvalue (FVal.ofReal dblMax) := by
    rcases hw2 with rfl | hw2
    · exact hge
    · rwa [hcl] at hw2
  refine ⟨w, hw1, hwd, fun q hq ha => ?_⟩
  have hv : w.fvalue = negIf t.s.negate q.2 := ha.2
  rw [hv] at hwd
  exact hwd (hfin q hq)

/-- **C79** fails: a search with default parameters, room for one population in the training set, and the
objective 0 everywhere, reports after two generations a worst candidate whose value is not below the greatest
`double`. -/
theorem C79_default_false (hn : 1 ≤ n) (hn2 : n < 2147483648) (z : ℕ → Vec n) :
    ∃ (env : Env n) (sf : SurrFuncs n Unit) (fuel : ℕ) (p : Params n) (t t' : Surr n Unit),
      (∀ k y, env.f k y = FVal.ofReal 0) ∧ env.z = z ∧
      Params.make 0 1 (-1) 0 0 GenoPheno.plain = .ok p ∧ AcmStart env .plain p () t ∧
      t.acmGenerations env sf fuel 2 = .ok (some t') ∧ (∀ q ∈ t'.s.calls, q.2 = FVal.ofReal 0) ∧
      ∃ w, t'.s.sol.worstSeen = some w ∧ ¬ FVal.lt w.fvalue (FVal.ofReal dblMax) ∧ w.fvalue ≠ FVal.ofReal 0 := by
  obtain ⟨sf, p, t, t1, t2, fuel, c1, c2, a1, a2, hpw, hp, ht, hlp, hl4, hlam, g1, g2, hx, f0, f1, x1, s1, s2, L1⟩ :=
    two_runs hn hn2 (fun _ _ => FVal.ofReal 0) (fun _ _ => by simp [FVal.ofReal, FVal.IsNum]) z
  obtain ⟨hsp, hni, hni', hcl, hng, hcs, _, hws, hmh⟩ := acmStart_lambda ht
  obtain ⟨_, _, _, _, _, _, _, hmax, _⟩ := Params.make_plain hp
  obtain ⟨t1', r1, r2⟩ := acmGenerations_succ g2
  obtain rfl : t1' = t1 := by
    obtain ⟨t1'', r3, r4⟩ := acmGenerations_succ g1
    obtain rfl := Option.some.inj (Except.ok.inj r4)
    rw [r1] at r3
    exact Option.some.inj (Except.ok.inj r3)
  obtain ⟨t2', r3, r4⟩ := acmGenerations_succ r2
  obtain rfl := Option.some.inj (Except.ok.inj r4)
  have hzero : ∀ q ∈ t2'.s.calls, q.2 = FVal.ofReal 0 := by
    intro q hq
    rw [s2.calls, s1.calls, hcl, List.nil_append] at hq
    rcases List.mem_append.1 hq with hq | hq
    · obtain ⟨k, h⟩ := s1.truth q hq; exact h
    · obtain ⟨k, h⟩ := s2.truth q hq; exact h
  obtain ⟨cl, _, _, _, w1⟩ := s1.worst'
  have hw := w1 hws hni'
  have hthird := third_le p.lambda (by omega)
  have hn1 : t1'.s.negate = false := by rw [s1.negate, hng, hmax]
  obtain ⟨w, v1, v2, _⟩ := C79_false _ sf fuel t1' t2' L1.live.uh L1.live.grad (by rw [s1.p]; omega)
    (by rw [s1.lambdaprime, s1.p, hlp, hlam]; exact hthird.1) L1.live.cands x1 (by rw [s1.niter]; omega)
    (by rw [hw]; rfl) (by unfold full at f1; simpa using f1) r3 (by
      intro q hq
      rw [hzero q hq, hn1]
      show (((0 : ℝ) : EReal) < ((dblMax : ℝ) : EReal))
      have := dblMax_ge
      exact_mod_cast (by linarith : (0 : ℝ) < dblMax))
  refine ⟨_, sf, fuel, p, t, t2', fun _ _ => rfl, rfl, hp, ht, g2, hzero, w, v1, v2, fun h => v2 ?_⟩
  rw [h]
  show (((0 : ℝ) : EReal) < ((dblMax : ℝ) : EReal))
  have := dblMax_ge
  exact_mod_cast (by linarith : (0 : ℝ) < dblMax)

/-- **C79**, what holds: without elitism, in a search that does not exploit the model, the worst candidate seen is a
point the objective was called at, with the value it returned. -/
theorem C79_partial (env : Env n) (sf : SurrFuncs n M) (fuel : ℕ) (kind : CovKind) (p : Params n) (m : M)
    (t t' : Surr n M) (k : ℕ) (huh : p.uh = false) (hgr : p.withGradient = false)
    (hel : p.elitist = false ∧ p.initialElitist = false ∧ p.initialElitistOnRestart = false)
    (hlam : 1 ≤ p.lambda) (hst : AcmStart env kind p m t) (hx : t.exploit = false)
    (h : t.acmGenerations env sf fuel k = .ok (some t')) (w : Cand n) (hw : t'.s.sol.worstSeen = some w) :
    ∃ q ∈ t'.s.calls, Answers p.maximize p.gp w q := by
  obtain ⟨hsp, hni, hni', hcl, hng, hcs, _, hws, hmh⟩ := acmStart_lambda hst
  have key : ∀ (k : ℕ) (t : Surr n M), t.s.p.uh = false → t.s.p.withGradient = false →
      (t.s.p.elitist = false ∧ t.s.p.initialElitist = false ∧ t.s.p.initialElitistOnRestart = false) →
      1 ≤ t.s.p.lambda → t.s.sol.cands.length = t.s.p.lambda → t.s.negate = p.maximize → t.s.p.gp = p.gp →
      t.exploit = false →
      (∀ b, t.s.sol.worstSeen = some b → ∃ q ∈ t.s.calls, Answers p.maximize p.gp b q) →
      t.acmGenerations env sf fuel k = .ok (some t') →
      (∀ b, t'.s.sol.worstSeen = some b → ∃ q ∈ t'.s.calls, Answers p.maximize p.gp b q) := by
    intro k
    induction k with
    | zero =>
      intro t _ _ _ _ _ _ _ _ b1 hg
      obtain rfl := Option.some.inj (Except.ok.inj hg)
      exact b1
    | succ k ih =>
      intro t a1 a2 a3 a4 a5 a6 a7 a8 b1 hg
      obtain ⟨t1, g1, g2⟩ := acmGenerations_succ hg
      obtain ⟨c, added, hs⟩ := acmGeneration_step a1 a2 a5 a4 g1
      refine ih t1 (by rw [hs.p]; exact a1) (by rw [hs.p]; exact a2) (by rw [hs.p]; exact a3) (by rw [hs.p]; exact a4)
        (by rw [hs.p]; exact hs.cands) (by rw [hs.negate]; exact a6) (by rw [hs.p]; exact a7)
        (by rw [hs.exploit]; exact a8) (fun b hb => ?_) g2
      obtain ⟨cl, e0, e1, _⟩ := hs.worst'
      rcases e1 b hb with rfl | hb'
      · obtain ⟨_, hp, _, _, ha, _⟩ := hs.plain (by rw [a8]; rfl)
        obtain ⟨c', p1, _, p2⟩ := ha (elitismOn_off a3)
        obtain ⟨q, hq, h'⟩ := answered p2 (hp.mem_iff.1 (List.mem_of_getLast? e0))
        rw [a6, a7] at h'
        exact ⟨q, by rw [hs.calls]; exact List.mem_append_right _ (p1.mem_iff.1 hq), h'⟩
      · obtain ⟨q, hq, hq'⟩ := b1 b hb'
        exact ⟨q, by rw [hs.calls]; exact List.mem_append_left _ hq, hq'⟩
  exact key k t (by rw [hsp]; exact huh) (by rw [hsp]; exact hgr) (by rw [hsp]; exact hel) (by rw [hsp]; exact hlam)
    (by rw [hsp]; exact hcs) hng (by rw [hsp]) hx (by rw [hws]; simp) h w hw

/-! ### C80 -/

/-- **C80.** An ACM surrogate search with the usual settings, in which the user's functions work, never fails and
every generation ends, whatever its setters were called with, provided `lambda ≤ prelambda` and
`lambdaprime ≤ lambda`, and the numbers drawn are small enough for an `int` and reach every index again and again. -/
theorem C80_total (env : Env n) (sf : SurrFuncs n M) (g : M → List (Cand n) → Sol n → Vec n → FVal)
    (kind : CovKind) (p : Params n) (m : M) (t : Surr n M) (hu : Usual kind p) (hS : Sane env sf g)
    (hgp : ∀ x : Vec n, ∃ y, phenoV p.gp x = .ok y) (h : AcmStart env kind p m t)
    (hpre : (p.lambda : ℤ) ≤ t.prelambda) (hprime : t.lambdaprime ≤ p.lambda)
    (h0 : Reaches t.prelambda (0.4 * 0.4) sf.z0 t.prelambda.toNat) (h1 : Reaches p.lambda (0.8 * 0.8) sf.z1 p.lambda)
    (k : ℕ) : ∃ F t', ∀ fuel ≥ F, t.acmGenerations env sf fuel k = .ok (some t') := by
  obtain ⟨_, _, _, _, _, h5, h6⟩ := acmStart_ok h
  obtain ⟨hsp, _⟩ := acmStart_lambda h
  have hlam : t.s.p.lambda = p.lambda := by rw [hsp]
  obtain ⟨F, t', hF, _⟩ := acmGenerations_total hS (t := t) (by rw [hsp]; exact hgp)
    ⟨by rw [hlam]; exact hpre, by rw [hlam]; exact hprime, by rw [h5]; exact h0, by rw [hlam, h6]; exact h1⟩
    (acmLive_start hu h) k
  exact ⟨F, t', hF⟩

/-- **C80** with default settings: in any dimension, for every objective that returns numbers, there are draws with
which the search makes any number of generations. -/
theorem C80_default (hn : 1 ≤ n) (hn2 : n < 2147483648) (f : ℕ → Vec n → FVal) (hf : ∀ k y, (f k y).IsNum)
    (z : ℕ → Vec n) : ∃ (sf : SurrFuncs n Unit) (p : Params n) (t : Surr n Unit),
      Params.make 0 1 (-1) 0 0 GenoPheno.plain = .ok p ∧ newAcm (Env.basic f z) .plain p () = .ok t ∧
      ∀ k, ∃ F t', ∀ fuel ≥ F, t.acmGenerations (Env.basic f z) sf fuel k = .ok (some t') := by
  obtain ⟨p, hp, _⟩ := C11_weights hn (0 : Vec n) 1 (-1) 0 0 GenoPheno.plain
  obtain ⟨hu, hgp, _⟩ := usual_default (kind := .plain) (by norm_num) hp (by decide)
  obtain ⟨hl4, hl97, _⟩ := default_lambda hn hn2 hp
  obtain ⟨s, hs⟩ := new_plain (env := Env.basic f z) (kind := .plain) hgp hu.configured.good.1
  obtain ⟨t, ht, q1, q2, _⟩ := newAcm_exists hs ()
  have hst : AcmStart (Env.basic f z) .plain p () t := .new ht
  have hsel := cycling_selects (g := fun _ => FVal.ofReal 0) hst (by omega) (by omega) q1
    (by rw [q2]; exact (third_le _ (by omega)).1.le)
  obtain ⟨_, _, _, _, _, h5, h6⟩ := acmStart_ok hst
  obtain ⟨hsp, _⟩ := acmStart_lambda hst
  have hlam : t.s.p.lambda = p.lambda := by rw [hsp]
  refine ⟨_, p, t, hp, ht, fun k => C80_total _ _ _ _ p () t hu
    (cycling_sane (l := p.lambda) (k := 50 * p.lambda) (g := fun _ => FVal.ofReal 0) (env := Env.basic f z) hf
      fun _ => by simp [FVal.ofReal, FVal.IsNum])
    (by intro x; rw [hgp]; exact ⟨x, phenoV_plain x⟩) hst (by rw [← hlam]; exact hsel.pre)
    (by rw [← hlam]; exact hsel.prime) (by rw [← h5]; exact hsel.draws0) (by rw [← h6, ← hlam]; exact hlam ▸ hsel.draws1) k⟩

/-! ### C81 -/

/-- **C81** fails: the selection spreads given by `set_theta_sel0` and `set_theta_sel1` have no effect. In any state,
for any values of them, any number of generations goes as without these calls: the same outcome, and the same state
in the end, except for the values the getters return. -/
theorem C81_false (env : Env n) (sf : SurrFuncs n M) (fuel : ℕ) (t : Surr n M) (v w : ℝ) (k : ℕ) :
    ((t.setTheta0 v).setTheta1 w).acmGenerations env sf fuel k =
      (t.acmGenerations env sf fuel k).map (Option.map fun u => (u.setTheta0 v).setTheta1 w) := by
  have h := acmGenerations_th env sf fuel v w t k
  show (t.th v w).acmGenerations env sf fuel k = _
  rw [h]
  cases t.acmGenerations env sf fuel k <;> rfl

/-- **C81** fails with default settings: in any dimension and for every objective that returns numbers there is a
search such that, whatever spreads are set, any number of generations ends with the same calls of the objective, the
same candidates and the same best candidates. -/
theorem C81_default_false (hn : 1 ≤ n) (hn2 : n < 2147483648) (f : ℕ → Vec n → FVal) (hf : ∀ k y, (f k y).IsNum)
    (z : ℕ → Vec n) : ∃ (sf : SurrFuncs n Unit) (p : Params n) (t : Surr n Unit),
      Params.make 0 1 (-1) 0 0 GenoPheno.plain = .ok p ∧ newAcm (Env.basic f z) .plain p () = .ok t ∧
      ∀ k, ∃ F s', ∀ v w, ∀ fuel ≥ F, ∃ t', t'.s = s' ∧ t'.theta0 = v ∧ t'.theta1 = w ∧
        ((t.setTheta0 v).setTheta1 w).acmGenerations (Env.basic f z) sf fuel k = .ok (some t') := by
  obtain ⟨sf, p, t, hp, ht, h⟩ := C80_default hn hn2 f hf z
  refine ⟨sf, p, t, hp, ht, fun k => ?_⟩
  obtain ⟨F, t', hF⟩ := h k
  refine ⟨F, t'.s, fun v w fuel hfuel => ⟨(t'.setTheta0 v).setTheta1 w, rfl, rfl, rfl, ?_⟩⟩
  rw [C81_false, hF fuel hfuel]
  rfl

end Libcmaes
