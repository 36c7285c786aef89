import Verif.Lemmas.RsvmRun
import Verif.Lemmas.SurrRestart
import Verif.Lemmas.SurrAcmWitness

/-!
# Properties: the ranking SVM as surrogate (C91)

Spec: Verif/Spec/RsvmStrategy.lean, Verif/Spec/Rsvm.lean, Verif/Spec/Surrogate.lean
-/

namespace Libcmaes

open Spec Surr

variable {n : ℕ}

/-- **C91.** Once the training set is full, a generation ranks its samples by a ranker that was trained on exactly
the training set as it is then, from the worst to the best, in coordinates relative to the mean and covariance
matrix of the search: each sample gets the score of the ranker in the same coordinates, and the preselection goes
by these scores. -/
theorem C91_ranked (env : Env n) (diag : Bool) (us : USort (Cand n)) (usR : USort (RCand n)) (z0 z1 : ℕ → ℝ)
    (iter : ℤ) (u : ℕ → ℝ) (fuel : ℕ) (kind : CovKind) (p : Params n) (huh : p.uh = false)
    (hgr : p.withGradient = false) (hlam : 1 ≤ p.lambda) (t : Surr n (Ranker n)) (ht : AcmStart env kind p none t)
    (hx : t.exploit = true) (hl : 2 ≤ t.l) (k : ℕ) (t1 t2 : Surr n (Ranker n))
    (h1 : t.acmGenerations env (rsvmFuncs diag us usR z0 z1 iter u) fuel (k + 1) = .ok (some t1))
    (hfull : t1.l ≤ t1.tset.length)
    (h2 : t1.acmGeneration env (rsvmFuncs diag us usR z0 z1 iter u) fuel = .ok (some t2)) :
    ∃ (m : ℕ) (r : Svm n m) (y : Pts n (m + 1)) (pop : List (Vec n)) (s1 : Strat n) (c : List (Vec n × FVal))
      (E rest L : List (Cand n × Cand n)),
      t1.m = some ⟨m, r⟩ ∧ TrainedOn diag iter u t1.s.sol t1.tset r y ∧
      ({ t1.s with p := { t1.s.p with lambda := t1.prelambda.toNat } }).ask env = .ok (pop, s1) ∧
      (pop.length : ℤ) = t1.prelambda ∧
      Preselected t1.s.negate p.gp (pop.map fun x =>
        ⟨FVal.ofReal (rankScore r.alpha r.kfun y (encoded diag t1.s.sol x)), x, -1⟩) c E rest L ∧
      t2.s.sol.cands = L.map Prod.fst ∧ L.length = p.lambda ∧ (c.length : ℤ) = max 1 t1.lambdaprime ∧
      t2.s.calls = t1.s.calls ++ c ∧ t2.s.nevals = t1.s.nevals + c.length := by
  obtain ⟨hsp, hni, _, _, _, hcl, _⟩ := acmStart_lambda ht
  have hsl : t.s.p.lambda = p.lambda := by rw [hsp]
  have hsu : t.s.p.uh = false := by rw [hsp]; exact huh
  have hsg : t.s.p.withGradient = false := by rw [hsp]; exact hgr
  obtain ⟨c0, hr⟩ := acmGenerations_run hsu hsg (by rw [hcl, hsl]) (by rw [hsl]; exact hlam) h1
  have hsp1 : t1.s.p.lambda = p.lambda ∧ t1.s.p.gp = p.gp := by rw [hr.p, hsp]; exact ⟨rfl, rfl⟩
  have hx1 : t1.exploit = true := by rw [hr.exploit, hx]
  have hl1 : 2 ≤ t1.l := by rw [hr.l]; exact hl
  have hni1 : t1.s.niter ≠ 0 := by rw [hr.niter]; omega
  have hf1 : t1.full = true := by unfold full; simpa using hfull
  obtain ⟨tl, _, h3⟩ := acmGenerations_last h1
  obtain ⟨⟨m0, htr⟩, _⟩ := acmGeneration_model h3 hf1
  have hne : t1.tset ≠ [] := by rintro h; rw [h] at hfull; simp at hfull; omega
  obtain ⟨m, q, x, e1, e2, e3, e4, e5, e6, e7⟩ := rsvmTrain_ok (show rsvmTrain diag us iter u m0 t1.tset (told t1.s.sol) = .ok t1.m
    from htr) hne
  obtain ⟨c, added, hs⟩ := acmGeneration_step (by rw [hr.p]; exact hsu) (by rw [hr.p]; exact hsg)
    (by rw [hr.p]; exact hr.cands)
    (by rw [hsp1.1]; exact hlam) h2
  have hbe := begun_of_ne hni1
  obtain ⟨pop, t3, pr, E, rest, L, a1, a2, a3, hP, a4, a5, a6, _⟩ := hs.pre (by rw [hx1, hbe, hf1]; rfl)
  obtain ⟨⟨es, ei, ue, nz, x1, x2, p1, p2, e8⟩, _⟩ := acmAsk_ok (by rw [hr.p]; exact hsg) a1
  rw [hbe] at e8
  rw [acmAsk_eq, hbe, if_pos (by rw [hx1, hf1]; rfl)] at a1
  by_cases hneg : t1.prelambda < 0
  · rw [if_pos hneg] at a1; cases a1
  rw [if_neg hneg] at a1
  obtain ⟨⟨pop', s1⟩, ha, a1⟩ := Out.bind_eq_ok.1 a1
  obtain ⟨b1, b2⟩ := Prod.mk.inj (Except.ok.inj a1)
  simp only at b1
  subst b1
  have hpop : pop'.map (fun x => (⟨FVal.ofReal 0, x, -1⟩ : Cand n)) ≠ [] := by
    intro h0
    rw [h0] at a3
    cases a3
  have a3' : rsvmPredict diag us t3.m t3.tset { t3.s.sol with cands := pop'.map fun x => ⟨FVal.ofReal 0, x, -1⟩ }
      (pop'.map fun x => ⟨FVal.ofReal 0, x, -1⟩) = .ok pr := a3
  have g1 : t3.m = some ⟨m, q⟩ := by rw [e8]; exact e1
  have g2 : t3.tset = t1.tset := by rw [e8]
  rw [g1, g2, rsvmPredict_eq (x := x) (by omega) e4 e3 (by
    rcases e7 with e7 | e7
    · exact Or.inl e7
    · refine Or.inr ?_
      show t3.s.sol.hasCsq = true
      rw [e8]; exact e7) hpop, List.map_map] at a3'
  have a3' := Except.ok.inj a3'
  have henc : ∀ z, encoded diag { t3.s.sol with cands := pop'.map fun x => (⟨FVal.ofReal 0, x, -1⟩ : Cand n) } z =
      encoded diag t1.s.sol z := by
    intro z; rw [e8]; rfl
  refine ⟨m, q, fun i => encoded diag t1.s.sol (x i), pop', s1, c, E, rest, L, e1, e6, ha, by rw [a2, hbe]; omega, ?_,
    a4, ?_, a6, hs.calls, hs.nevals⟩
  · rw [← hsp1.2]
    convert hP using 1
    rw [← a3']
    refine List.map_congr_left fun z _ => ?_
    simp only [Function.comp, henc]
  · rw [← hsp1.1, ← hs.cands, a4, List.length_map]

/-- **C91 (failures).** With a training set of two points or more and settings for which the preselection ends, a
search with the ranking SVM makes any number of generations, except that training may fail (on a division by zero);
then two of the points it was to train on are the same: points of the training set so far or of the population. -/
theorem C91_total (env : Env n) (diag : Bool) (us : USort (Cand n)) (usR : USort (RCand n)) (z0 z1 : ℕ → ℝ)
    (iter : ℤ) (u : ℕ → ℝ) (hf : ∀ k y, (env.f k y).IsNum) (kind : CovKind) (p : Params n) (hu : Usual kind p)
    (hgp : ∀ x : Vec n, ∃ y, phenoV p.gp x = .ok y) (hd : diag = p.sep) (t : Surr n (Ranker n))
    (ht : AcmStart env kind p none t) (hl : 2 ≤ t.l)
    (hpre : (p.lambda : ℤ) ≤ t.prelambda) (hprime : t.lambdaprime ≤ p.lambda)
    (hz0 : Reaches t.prelambda (0.4 * 0.4) z0 t.prelambda.toNat) (hz1 : Reaches p.lambda (0.8 * 0.8) z1 p.lambda)
    (k : ℕ) :
    ∃ F, (∃ t', ∀ fuel ≥ F, t.acmGenerations env (rsvmFuncs diag us usR z0 z1 iter u) fuel k = .ok (some t')) ∨
      ((∀ fuel ≥ F, t.acmGenerations env (rsvmFuncs diag us usR z0 z1 iter u) fuel k = .error .notReal) ∧
        ∃ (j : ℕ) (t1 : Surr n (Ranker n)) (added : List (Cand n)), j < k ∧
          (∀ fuel ≥ F, t.acmGenerations env (rsvmFuncs diag us usR z0 z1 iter u) fuel j = .ok (some t1)) ∧
          (∀ fuel ≥ F, t1.acmGeneration env (rsvmFuncs diag us usR z0 z1 iter u) fuel = .error .notReal) ∧
          ¬ ((added.foldl (push t1.l) t1.tset).map fun a => a.x).Nodup) := by
  have hp := (acmStart_lambda ht).1
  have hsel : Selects (rsvmFuncs diag us usR z0 z1 iter u) t := by
    have e : t.s.p.lambda = p.lambda := by rw [hp]
    obtain ⟨_, _, _, _, _, d0, d1⟩ := acmStart_ok ht
    exact ⟨by rw [e]; exact hpre, by rw [e]; exact hprime, by rw [d0]; exact hz0, by rw [e, d1]; exact hz1⟩
  have hgp' : ∀ x : Vec n, ∃ y, phenoV t.s.p.gp x = .ok y := by rw [hp]; exact hgp
  have hL := rsvmGo_start (diag := diag) hu ht hl hd
  clear ht hl hp hpre hprime hz0 hz1
  induction k generalizing t with
  | zero => exact ⟨0, Or.inl ⟨t, fun _ _ => rfl⟩⟩
  | succ k ih =>
    obtain ⟨F1, t1, c, added, hst, h1⟩ := rsvmGo_cases (diag := diag) (us := us) (usR := usR) (z0 := z0) (z1 := z1)
      (iter := iter) (u := u) hf hgp' hL hsel
    have hts : t.begun.tset = t.tset := begun_tset (by
      by_cases h0 : t.s.niter = 0
      · exact Or.inr (hL.fresh h0)
      · exact Or.inl h0)
    rcases h1 with ⟨h1, hL1⟩ | ⟨h1, h2, h3⟩
    · have hpl : t1.prelambda = t.prelambda := by rw [hst.prelambda]; exact begun_prelambda hL.fresh
      obtain ⟨F2, h4⟩ := ih t1 ⟨by rw [hst.p, hpl]; exact hsel.pre, by rw [hst.p, hst.lambdaprime]; exact hsel.prime,
        by rw [hpl, hst.dev0]; exact hsel.draws0, by rw [hst.p, hst.dev1]; exact hsel.draws1⟩
        (by rw [hst.p]; exact hgp') hL1
      have hstep : ∀ fuel ≥ max F1 F2, ∀ i, t.acmGenerations env (rsvmFuncs diag us usR z0 z1 iter u) fuel (i + 1) =
          t1.acmGenerations env (rsvmFuncs diag us usR z0 z1 iter u) fuel i := by
        intro fuel hfu i
        show (t.acmGeneration env (rsvmFuncs diag us usR z0 z1 iter u) fuel >>= _) = _
        rw [h1 fuel (le_trans (le_max_left _ _) hfu)]
        rfl
      refine ⟨max F1 F2, ?_⟩
      rcases h4 with ⟨t', h4⟩ | ⟨h4, j, t2, ad, h5, h6, h7, h8⟩
      · exact Or.inl ⟨t', fun fuel hfu => by rw [hstep fuel hfu]; exact h4 fuel (le_trans (le_max_right _ _) hfu)⟩
      · exact Or.inr ⟨fun fuel hfu => by rw [hstep fuel hfu]; exact h4 fuel (le_trans (le_max_right _ _) hfu),
          j + 1, t2, ad, by omega,
          fun fuel hfu => by rw [hstep fuel hfu]; exact h6 fuel (le_trans (le_max_right _ _) hfu),
          fun fuel hfu => h7 fuel (le_trans (le_max_right _ _) hfu), h8⟩
    · refine ⟨F1, Or.inr ⟨fun fuel hfu => ?_, 0, t, added, by omega, fun _ _ => rfl, h1, ?_⟩⟩
      · show (t.acmGeneration env (rsvmFuncs diag us usR z0 z1 iter u) fuel >>= _) = _
        rw [h1 fuel hfu]
        rfl
      · rw [hst.tset, hts] at h3
        exact h3

/-- **C91 (no failure).** If each generation evaluates enough points to replace the whole training set, and the
normal random vectors are all different, a search with the ranking SVM makes any number of generations. -/
theorem C91_runs (env : Env n) (diag : Bool) (us : USort (Cand n)) (usR : USort (RCand n)) (z0 z1 : ℕ → ℝ)
    (iter : ℤ) (u : ℕ → ℝ) (hf : ∀ k y, (env.f k y).IsNum) (hz : Function.Injective env.z) (kind : CovKind)
    (p : Params n) (hu : Usual kind p) (hlazy : p.lazyUpdate = false) (hfix : p.fixedP = [])
    (hel : p.elitist = false) (hel2 : p.initialElitistOnRestart = false)
    (hgp : ∀ x : Vec n, ∃ y, phenoV p.gp x = .ok y) (hd : diag = p.sep) (t : Surr n (Ranker n))
    (ht : AcmStart env kind p none t) (hl : 2 ≤ t.l) (hll : t.l ≤ p.lambda) (hlp : t.l ≤ t.lambdaprime)
    (hpre : (p.lambda : ℤ) ≤ t.prelambda) (hprime : t.lambdaprime ≤ p.lambda)
    (hz0 : Reaches t.prelambda (0.4 * 0.4) z0 t.prelambda.toNat) (hz1 : Reaches p.lambda (0.8 * 0.8) z1 p.lambda)
    (k : ℕ) :
    ∃ F t', ∀ fuel ≥ F, t.acmGenerations env (rsvmFuncs diag us usR z0 z1 iter u) fuel k = .ok (some t') := by
  have hp := (acmStart_lambda ht).1
  have hsel : Selects (rsvmFuncs diag us usR z0 z1 iter u) t := by
    have e : t.s.p.lambda = p.lambda := by rw [hp]
    obtain ⟨_, _, _, _, _, d0, d1⟩ := acmStart_ok ht
    exact ⟨by rw [e]; exact hpre, by rw [e]; exact hprime, by rw [d0]; exact hz0, by rw [e, d1]; exact hz1⟩
  have hgp' : ∀ x : Vec n, ∃ y, phenoV t.s.p.gp x = .ok y := by rw [hp]; exact hgp
  have hL := rsvmGo_start (diag := diag) hu ht hl hd
  have hie : t.s.p.initialElitist = false := by rw [hp]; exact hu.initialElitist
  have hA : AllNew t := ⟨by rw [hp]; exact hlazy, by rw [hp]; exact hfix, by
    unfold Strat.elitismOn
    rw [hie]
    simp only [hp, hel, hel2, Bool.or_self, Bool.and_false], by rw [hp]; exact hll, hlp⟩
  have h1 : t.s.p.elitist = false := by rw [hp]; exact hel
  have h2 : t.s.p.initialElitistOnRestart = false := by rw [hp]; exact hel2
  clear ht hl hp hll hlp hpre hprime hz0 hz1
  induction k generalizing t with
  | zero => exact ⟨0, t, fun _ _ => rfl⟩
  | succ k ih =>
    obtain ⟨F1, t1, c, added, hst, hc⟩ := rsvmGo_cases (diag := diag) (us := us) (usR := usR) (z0 := z0) (z1 := z1)
      (iter := iter) (u := u) hf hgp' hL hsel
    have hnd := rsvm_nodup hz hL hA hst
    rcases hc with ⟨hc, hL1⟩ | ⟨_, _, hc⟩
    · have hpl : t1.prelambda = t.prelambda := by rw [hst.prelambda]; exact begun_prelambda hL.fresh
      obtain ⟨F2, t2, h4⟩ := ih t1 ⟨by rw [hst.p, hpl]; exact hsel.pre, by rw [hst.p, hst.lambdaprime]; exact hsel.prime,
        by rw [hpl, hst.dev0]; exact hsel.draws0, by rw [hst.p, hst.dev1]; exact hsel.draws1⟩
        (by rw [hst.p]; exact hgp') hL1 (by rw [hst.p]; exact hie)
        ⟨by rw [hst.p]; exact hA.lazy, by rw [hst.p]; exact hA.fixed, by
          unfold Strat.elitismOn
          simp only [hst.p, h1, h2, hie, Bool.or_self, Bool.and_false], by rw [hst.p, hst.l]; exact hA.l,
          by rw [hst.l, hst.lambdaprime]; exact hA.prime⟩ (by rw [hst.p]; exact h1) (by rw [hst.p]; exact h2)
      refine ⟨max F1 F2, t2, fun fuel hfu => ?_⟩
      show (t.acmGeneration env (rsvmFuncs diag us usR z0 z1 iter u) fuel >>= _) = _
      rw [hc fuel (le_trans (le_max_left _ _) hfu)]
      exact h4 fuel (le_trans (le_max_right _ _) hfu)
    · exact absurd hnd hc

/-- Witness: a search in any dimension with default parameters, a training set of as many points as the search
evaluates per generation, and any objective that returns numbers, satisfies the hypotheses of `C91_total`,
`C91_runs` and (from the second generation on) of `C91_ranked`. -/
theorem C91_default (hn : 1 ≤ n) (hn2 : n < 2147483648) (f : ℕ → Vec n → FVal) (hf : ∀ k y, (f k y).IsNum)
    (l : ℤ) (hl : 2 ≤ l) (hl4 : l ≤ 4) :
    ∃ (p : Params n) (t : Surr n (Ranker n)) (z : ℕ → Vec n) (z0 z1 : ℕ → ℝ),
      Params.make 0 1 (-1) 0 0 GenoPheno.plain = .ok p ∧ AcmStart (Env.basic f z) .plain p none t ∧ t.l = l ∧
      t.lambdaprime = l ∧ t.exploit = true ∧ 1 ≤ p.lambda ∧ p.uh = false ∧ p.withGradient = false ∧
      ∀ (us : USort (Cand n)) (usR : USort (RCand n)) (iter : ℤ) (u : ℕ → ℝ) (k : ℕ), ∃ F t', ∀ fuel ≥ F,
        t.acmGenerations (Env.basic f z) (rsvmFuncs false us usR z0 z1 iter u) fuel k = .ok (some t') := by
  obtain ⟨p, hp, _⟩ := C11_weights hn (0 : Vec n) 1 (-1) 0 0 GenoPheno.plain
  obtain ⟨hu, hgp, hfix, _⟩ := usual_default (kind := .plain) (by norm_num) hp (by decide)
  obtain ⟨hlam4, hl97, _⟩ := default_lambda hn hn2 hp
  set z : ℕ → Vec n := fun k _ => k with hzdef
  obtain ⟨s, hs⟩ := new_plain (env := Env.basic f z) (kind := .plain) hgp hu.configured.good.1
  obtain ⟨t0, ht0, q1, q2, q3, q4⟩ := newAcm_exists (M := Ranker n) hs none
  have ht : AcmStart (Env.basic f z) .plain p none ((t0.setL l).setLambdaprime l) :=
    .setLambdaprime _ (.setL _ (.new ht0))
  have hflags : p.lazyUpdate = false ∧ p.elitist = false ∧ p.initialElitistOnRestart = false ∧ p.sep = false := by
    have hm := hp
    unfold Params.make at hm
    obtain ⟨l', -, hm⟩ := Out.bind_eq_ok.1 hm
    obtain ⟨mu, w, muw, cs, cc, c1, cm, ds, fs, fc, ch, lv, rl, al, e⟩ := initializeParameters_frame hm
    rw [e]
    simp [Params.blank]
  refine ⟨p, (t0.setL l).setLambdaprime l, z,
    fun j => ((j % (50 * p.lambda) : ℕ) + 1 / 2) / ((50 * p.lambda : ℕ) * (0.4 * 0.4)),
    fun j => ((j % p.lambda : ℕ) + 1 / 2) / (p.lambda * (0.8 * 0.8)), hp, ht, rfl, rfl, q4, by omega, hu.uh, hu.grad,
    fun us usR iter u k => ?_⟩
  have hlp : (0 : ℝ) < p.lambda := by exact_mod_cast (by omega : 0 < p.lambda)
  refine C91_runs (Env.basic f z) false us usR _ _ iter u hf ?_ .plain p hu hflags.1 hfix hflags.2.1 hflags.2.2.1
    (fun x => by rw [hgp]; exact ⟨x, phenoV_plain x⟩) hflags.2.2.2.symm _ ht hl
    (show l ≤ (p.lambda : ℤ) by omega) (le_refl l) ?_ (show l ≤ (p.lambda : ℤ) by omega) ?_ ?_ k
  · intro a b hab
    have := congrFun hab ⟨0, hn⟩
    simp only [hzdef, Env.basic] at this
    exact_mod_cast this
  · show (p.lambda : ℤ) ≤ t0.prelambda
    rw [q1]; omega
  · have e : ((t0.setL l).setLambdaprime l).prelambda = ((50 * p.lambda : ℕ) : ℤ) := by
      show t0.prelambda = _
      rw [q1]; push_cast; rfl
    rw [e, Int.toNat_natCast, Int.cast_natCast]
    exact reaches_cycle (by push_cast; positivity) (by norm_num) (by omega) (by omega)
  · exact reaches_cycle (by positivity) (by norm_num) (by omega) (by omega)

/-- **C91** fails for training sets of less than two points (`set_l(1)`, `set_l(0)`): not even the first
generation ends with a result. -/
theorem C91_small_false (env : Env n) (diag : Bool) (us : USort (Cand n)) (usR : USort (RCand n)) (z0 z1 : ℕ → ℝ)
    (iter : ℤ) (hi : 0 < iter) (u : ℕ → ℝ) (fuel : ℕ) (kind : CovKind) (p : Params n) (huh : p.uh = false)
    (hgr : p.withGradient = false) (hlam : 1 ≤ p.lambda) (t : Surr n (Ranker n)) (ht : AcmStart env kind p none t)
    (hl : t.l ≤ 1) (t' : Surr n (Ranker n)) :
    t.acmGeneration env (rsvmFuncs diag us usR z0 z1 iter u) fuel ≠ .ok (some t') := by
  intro h
  obtain ⟨hsp, hni, _, _, _, hcl, _⟩ := acmStart_lambda ht
  obtain ⟨_, _, hts0, _⟩ := acmStart_ok ht
  have hsl : t.s.p.lambda = p.lambda := by rw [hsp]
  obtain ⟨c, added, hs⟩ := acmGeneration_step (by rw [hsp]; exact huh) (by rw [hsp]; exact hgr) (by rw [hcl, hsl])
    (by rw [hsl]; exact hlam) h
  have hts : t'.tset = lastN t.l.toNat added := by
    have e : t.begun.tset = [] := by rw [begun_tset (Or.inr hts0), hts0]
    rw [hs.tset, e]
    have h2 := foldl_push (l := t.l) (h := []) added
    rwa [lastN_self (by simp), List.nil_append] at h2
  by_cases h0 : t.l ≤ 0
  · have hnil : t'.tset = [] := by
      rw [hts, show t.l.toNat = 0 by omega]
      unfold lastN
      simp
    obtain ⟨_, he⟩ := acmGeneration_model h (by unfold full; rw [hnil, hs.l]; simpa using h0)
    unfold computeError at he
    obtain ⟨ct, hct, he⟩ := Out.bind_eq_ok.1 he
    obtain ⟨q, hq, _⟩ := Out.bind_eq_ok.1 he
    rw [hnil] at hct
    have hnil2 : ct = [] := List.perm_nil.1 (unstableSort_ok hct).2.1
    rw [hnil2] at hq
    cases hq
  · have h1 : t.l = 1 := by omega
    have hadd : 1 ≤ added.length := by
      cases hb : (t.exploit && t.begun.full) with
      | true =>
        obtain ⟨_, _, _, E, _, _, _, _, _, hP, _, ea, hc, _⟩ := hs.pre hb
        have := hP.evaluated.length_eq
        rw [← ea] at this
        omega
      | false =>
        obtain ⟨_, hpm, _⟩ := hs.plain hb
        have := hpm.length_eq
        have := hs.cands
        omega
    have hlen : t'.tset.length = 1 := by
      rw [hts, h1]
      unfold lastN
      rw [List.length_drop]
      omega
    obtain ⟨⟨m0, htr⟩, _⟩ := acmGeneration_model h (by unfold full; rw [hlen, hs.l, h1]; rfl)
    obtain ⟨m, q, x, e1, e2, e3, e4, e5, ⟨x', _, _, q', hq', _⟩, _⟩ := rsvmTrain_ok
      (show rsvmTrain diag us iter u m0 t'.tset (told t'.s.sol) = .ok t'.m from htr)
      (by rintro h0; rw [h0] at hlen; cases hlen)
    have hm : m = 0 := by omega
    subst hm
    exact C62_single_false _ _ iter hi _ _ _ _ hq'

/-- **C91** fails for the reported test error: with `set_l(2)` and `set_lambdaprime(2)` the test error is 0 in every
generation with a preselection, whatever the objective.  The two points evaluated have replaced the points of the
training set before the ranker, trained on the latter, is tested on them. -/
theorem C91_blind_false (env : Env n) (diag : Bool) (us : USort (Cand n)) (usR : USort (RCand n)) (z0 z1 : ℕ → ℝ)
    (iter : ℤ) (u : ℕ → ℝ) (hu : ∀ k, 0 ≤ u k ∧ u k < 1) (fuel : ℕ) (kind : CovKind) (p : Params n)
    (huh : p.uh = false) (hgr : p.withGradient = false) (hlam : 2 ≤ p.lambda) (t : Surr n (Ranker n))
    (ht : AcmStart env kind p none t) (hx : t.exploit = true) (hl : t.l = 2) (hlp : t.lambdaprime = 2) (k : ℕ)
    (t1 : Surr n (Ranker n))
    (h1 : t.acmGenerations env (rsvmFuncs diag us usR z0 z1 iter u) fuel (k + 2) = .ok (some t1)) :
    t1.testErr = some 0 := by
  obtain ⟨ta, ha, hb⟩ := acmGenerations_last h1
  obtain ⟨hsp, hni, _, _, _, hcl, _⟩ := acmStart_lambda ht
  obtain ⟨_, _, hts0, _⟩ := acmStart_ok ht
  have hsl : t.s.p.lambda = p.lambda := by rw [hsp]
  have hsu : t.s.p.uh = false := by rw [hsp]; exact huh
  have hsg : t.s.p.withGradient = false := by rw [hsp]; exact hgr
  obtain ⟨c0, hr⟩ := acmGenerations_run hsu hsg (by rw [hcl, hsl]) (by rw [hsl]; omega) ha
  have hfill := acmGenerations_fill hsu hsg (by rw [hcl, hsl]) (by rw [hsl]; omega) (Or.inr hts0) (by rw [hts0]; simp) ha
  have hla : ta.l = 2 := by rw [hr.l, hl]
  have hlen : 2 ≤ ta.tset.length := by
    rw [hl, hts0, hsl] at hfill
    have : 2 ≤ (k + 1) * p.lambda := by nlinarith
    simp only [List.length_nil, zero_add] at hfill
    have e : (2 : ℤ).toNat = 2 := rfl
    rw [e, min_eq_left this] at hfill
    exact hfill
  have hle : ∀ (j : ℕ) (s s' : Surr n (Ranker n)), s.s.p.uh = false → s.s.p.withGradient = false →
      s.s.sol.cands.length = s.s.p.lambda → 1 ≤ s.s.p.lambda → (s.s.niter ≠ 0 ∨ s.tset = []) →
      s.tset.length ≤ s.l.toNat →
      s.acmGenerations env (rsvmFuncs diag us usR z0 z1 iter u) fuel j = .ok (some s') →
      s'.tset.length ≤ s.l.toNat := by
    intro j
    induction j with
    | zero =>
      intro s s' _ _ _ _ _ h h'
      obtain rfl := Option.some.inj (Except.ok.inj h')
      exact h
    | succ j ih =>
      intro s s' a1 a2 a3 a4 a5 a6 h'
      obtain ⟨s1, b1, b2⟩ := acmGenerations_succ h'
      obtain ⟨_, _, hs⟩ := acmGeneration_step a1 a2 a3 a4 b1
      have := (hs.tset_length (begun_tset a5) a6).1
      rw [← hs.l]
      exact ih s1 s' (by rw [hs.p]; exact a1) (by rw [hs.p]; exact a2) (by rw [hs.p]; exact hs.cands)
        (by rw [hs.p]; exact a4) (Or.inl (by rw [hs.niter]; omega)) (by rw [hs.l]; omega) b2
  have hlen2 : ta.tset.length = 2 := by
    have := hle (k + 1) t ta hsu hsg (by rw [hcl, hsl]) (by rw [hsl]; omega) (Or.inr hts0) (by rw [hts0]; simp) ha
    rw [hl] at this
    exact le_antisymm this hlen
  clear hle hfill
  have hfa : ta.full = true := by unfold full; rw [hla, hlen2]; rfl
  have hnia : ta.s.niter ≠ 0 := by rw [hr.niter]; omega
  obtain ⟨tb, _, hgen⟩ := acmGenerations_last ha
  obtain ⟨⟨m0, htr⟩, _⟩ := acmGeneration_model hgen hfa
  obtain ⟨m, q, x, e1, e2, e3, e4, e5, ⟨x', _, _, q', hq', w1, w2, _⟩, e7⟩ := rsvmTrain_ok
    (show rsvmTrain diag us iter u m0 ta.tset (told ta.s.sol) = .ok ta.m from htr)
    (by intro h0; rw [h0] at hlen2; cases hlen2)
  have hm : m = 1 := by omega
  subst hm
  obtain ⟨c, added, hs⟩ := acmGeneration_step (by rw [hr.p]; exact hsu) (by rw [hr.p]; exact hsg)
    (by rw [hr.p]; exact hr.cands) (by rw [hr.p, hsl]; omega) hb
  have hbe := begun_of_ne hnia
  obtain ⟨pop, t3, pr, E, rest, L, a1, a2, a3, hP, a4, a5, a6, e, t2, g1, g2, g3, g4, g5⟩ :=
    hs.pre (by rw [hr.exploit, hx, hbe, hfa]; rfl)
  have hadd : added.length = 2 := by
    have := hP.evaluated.length_eq
    rw [← a5] at this
    rw [hr.lambdaprime, hlp] at a6
    omega
  have htset : t1.tset = added := by
    have e : t1.tset = lastN 2 (ta.tset ++ added) := by
      have h2 := foldl_push (l := ta.l) (h := ta.tset) added
      rw [hla, show (2 : ℤ).toNat = 2 from rfl, lastN_self (by omega)] at h2
      rw [hs.tset, hbe, hla, h2]
    rw [e]
    unfold lastN
    rw [List.length_append, hlen2, hadd, List.drop_append, List.drop_eq_nil_of_le (by omega), hlen2]
    rfl
  rw [g3]
  unfold computeError at g1
  obtain ⟨ct, hct, g1⟩ := Out.bind_eq_ok.1 g1
  obtain ⟨pq, hpq, g1⟩ := Out.bind_eq_ok.1 g1
  have g1 := Except.ok.inj g1
  rw [if_neg (by omega)] at g1
  rw [← g1]
  have hctl : ct.length = 2 := by rw [(unstableSort_ok hct).2.1.length_eq, hadd]
  obtain ⟨a, b, rfl⟩ : ∃ a b, ct = [a, b] := by
    match ct, hctl with
    | [a, b], _ => exact ⟨a, b, rfl⟩
  have hpq' : rsvmPredict diag us (some ⟨1, q⟩) added t2.s.sol [a, b] = .ok pq := by
    rw [← e1, ← g4, ← htset, ← g5]; exact hpq
  have hcov := rsvmPredict_cov (by omega) e4 hpq'
  have hmat : toMatVec us added = .ok (List.ofFn (![a.x, b.x] : Pts n 2)) := by
    unfold toMatVec
    have hct' : unstableSort us (fun a b => FVal.lt b.fvalue a.fvalue) added = .ok [a, b] := hct
    rw [hct']
    rfl
  rw [rsvmPredict_eq (by omega) e4 hmat hcov (by simp)] at hpq'
  rw [← Except.ok.inj hpq']
  have hsc := rankScore_two (y := fun i => encoded diag t2.s.sol ((![a.x, b.x] : Pts n 2) i)) hq'
    (fun i => hu i) w1 w2
  have hd : disorder [({ a with fvalue := FVal.ofReal (rankScore q.alpha q.kfun
        (fun i => encoded diag t2.s.sol ((![a.x, b.x] : Pts n 2) i)) (encoded diag t2.s.sol a.x)) } : Cand n),
      { b with fvalue := FVal.ofReal (rankScore q.alpha q.kfun
        (fun i => encoded diag t2.s.sol ((![a.x, b.x] : Pts n 2) i)) (encoded diag t2.s.sol b.x)) }] = 0 := by
    simp only [disorder, List.filter_nil, List.length_nil, add_zero, List.length_eq_zero_iff, List.filter_eq_nil_iff,
      List.mem_singleton, decide_eq_true_eq, not_not]
    rintro d rfl
    show FVal.le (FVal.ofReal _) (FVal.ofReal _)
    simp only [FVal.ofReal, FVal.le, EReal.coe_le_coe_iff]
    exact hsc
  rw [List.map_cons, List.map_cons, List.map_nil, hd]
  simp

/-- Witness: such searches exist in any dimension for any objective that returns numbers, and make any number of
generations. -/
example (hn : 1 ≤ n) (hn2 : n < 2147483648) (f : ℕ → Vec n → FVal) (hf : ∀ k y, (f k y).IsNum) (us : USort (Cand n))
    (usR : USort (RCand n)) (u : ℕ → ℝ) (hu : ∀ k, 0 ≤ u k ∧ u k < 1) (k : ℕ) :
    ∃ (env : Env n) (z0 z1 : ℕ → ℝ) (t t1 : Surr n (Ranker n)) (fuel : ℕ), env.f = f ∧
      t.acmGenerations env (rsvmFuncs false us usR z0 z1 1000000 u) fuel (k + 2) = .ok (some t1) ∧
      t1.testErr = some 0 := by
  obtain ⟨p, t, z, z0, z1, hp, ht, h1, h2, h3, h4, h5, h6, h7⟩ := C91_default hn hn2 f hf 2 le_rfl (by norm_num)
  obtain ⟨F, t1, h8⟩ := h7 us usR 1000000 u (k + 2)
  have hl2 := (default_lambda hn hn2 hp).1
  exact ⟨Env.basic f z, z0, z1, t, t1, F, rfl, h8 F le_rfl, C91_blind_false _ false us usR z0 z1 1000000 u hu F .plain p
    h5 h6 (by omega) t ht h3 h1 h2 k t1 (h8 F le_rfl)⟩

end Libcmaes
