import Verif.Lemmas.Begin
import Verif.Lemmas.FixInv
import Verif.Spec.Restart

/-! # The runs of the restart strategies -/

namespace Libcmaes

open Spec

variable {n : ℕ}

theorem Spec.KeepsSettings.of_init {p q : Params n} {lam : ℕ} {sg : ℝ} {m : ℤ}
    (h : initializeParameters { p with lambda := lam, sigmaInit := sg, maxFevals := m } = .ok q) :
    KeepsSettings p q := by
  obtain ⟨mu, w, muw, cs, cc, c1, cm, ds, fs, fc, ch, lv, rl, al, e⟩ := initializeParameters_frame h
  rw [e]; rfl

/-- The rates do not depend on anything but the population size. -/
theorem defaultRates_of_init {p q : Params n} (h : initializeParameters p = .ok q) : DefaultRates q := by
  unfold DefaultRates Params.make
  unfold initializeParameters at h
  by_cases hg : p.lambda / 2 = 0 ∨ n = 0
  · simp only [hg, if_true] at h; cases h
  · simp only [hg, if_false, Except.ok.injEq] at h
    have hl : q.lambda = p.lambda := by rw [← h]
    have h2 : ¬ ((q.lambda : ℤ) < 2) := by rw [hl]; omega
    have hlo : lambdaOf n (q.lambda : ℤ) = .ok p.lambda := by
      unfold lambdaOf
      rw [if_neg h2, hl]; rfl
    rw [hlo, Out.ok_bind]
    unfold initializeParameters
    have hb : (Params.blank p.lambda (fun _ : Fin n => (0 : ℝ)) 1 (if (1 : ℕ) = 0 then 0 else 1)
      GenoPheno.plain).lambda = p.lambda := rfl
    simp only [hb, hg, if_false]
    refine ⟨_, rfl, ?_⟩
    rw [← h]
    exact ⟨rfl, rfl, rfl, rfl, rfl, rfl, rfl, rfl, rfl, rfl, rfl, rfl, rfl, rfl, rfl⟩

theorem Sol.make_tpa {p p' : Params n} {rnd z0 : Vec n} {s : Sol n}
    (hm : Sol.make p rnd z0 = .ok (p', s)) : s.tpaP1 = 0 ∧ s.tpaP2 = 1 := by
  unfold Sol.make at hm
  obtain ⟨m, _, hm⟩ := Out.bind_eq_ok.1 hm
  by_cases h0 : p.lambda = 0 ∨ n = 0
  · rw [if_pos h0] at hm; cases hm
  rw [if_neg h0] at hm
  injection hm with hm
  injection hm with _ hm
  subst hm
  exact ⟨rfl, rfl⟩

/-- The state after `reset_search_state`. -/
theorem afresh_reset {env : Env n} {a s' : Strat n} {q : Params n}
    (h : ({ a with p := q } : Strat n).resetSearchState env = .ok s') (hk : KeepsSettings a.p q) :
    Afresh a s' ∧ s'.p = { q with sigmaInit := s'.sol.sigma } ∧
      (0 < q.sigmaInit → s'.sol.sigma = q.sigmaInit) ∧ s'.es = a.es ∧ s'.initialElitist = a.initialElitist := by
  obtain ⟨p, sol, hm, e⟩ := Strat.resetSearchState_ok h
  simp only at hm
  obtain ⟨h1, h2, h3, h4, h5, h6, h7, h8, h9, h10, h11, h12, h13, h14, h15⟩ := Sol.make_eq_ok hm
  have hn : (0 : ℝ) < n := by exact_mod_cast Nat.pos_of_ne_zero h3
  have hfp : q.fixedP = a.p.fixedP := by rw [hk]
  subst e
  refine ⟨⟨?_, rfl, ?_, ?_, ?_, rfl, rfl, ?_, rfl, rfl, rfl⟩, h6, ?_, rfl, rfl⟩
  · show Fresh p.lambda sol
    rw [h6]; exact h4
  · show sol.sigma = p.sigmaInit
    rw [h6]
  · show 0 < sol.sigma
    rw [h5]; split_ifs with h
    · exact h
    · positivity
  · intro hnd
    obtain ⟨m, i1, i2⟩ := allowedStart_of_initialMean (env.rnd_mem a.nrnd) (hfp ▸ hnd) h1
    refine ⟨m, ?_, ?_⟩
    · show AllowedStart p m
      rw [h6]; exact ⟨i1.fixed, i1.point, i1.box, i1.unset⟩
    · show InternalUnits p.gp m sol.xmean
      rw [h6]; exact i2
  · show KeepsSettings a.p p
    rw [h6]
    unfold KeepsSettings at hk ⊢
    rw [hk]
  · intro h
    show sol.sigma = _
    rw [h5, if_pos h]

/-- It is the starting state of a run with these parameters. -/
theorem begins_reset {env : Env n} {a s' : Strat n} (h : a.resetSearchState env = .ok s')
    (hn : a.negate = a.p.maximize) (he : a.initialElitist = false) : Begins a.kind s'.p s' := by
  obtain ⟨p, sol, hm, e⟩ := Strat.resetSearchState_ok h
  obtain ⟨h1, h2, h3, h4, h5, h6, h7, h8, h9, h10, h11, h12, h13, h14, h15⟩ := Sol.make_eq_ok hm
  obtain ⟨t1, t2⟩ := Sol.make_tpa hm
  have hp : (0 : ℝ) < n := by exact_mod_cast Nat.pos_of_ne_zero h3
  subst e
  refine ⟨h3, ?_, rfl, ?_, ?_, ?_, rfl, ?_, ?_, ?_, h13, ?_, ?_, h9, he, t1, t2⟩
  · show p.lambda ≠ 0; rw [h6]; exact h2
  · show p = { p with sigmaInit := sol.sigma }; rw [h6]
  · show 0 < sol.sigma
    rw [h5]; split_ifs with h
    · exact h
    · positivity
  · show Fresh p.lambda sol; rw [h6]; exact h4
  · show a.negate = p.maximize; rw [h6]; exact hn
  · show sol.hasCov = (!p.sep && !p.vd); rw [h6]; exact h10
  · show sol.hasSep = !(!p.sep && !p.vd); rw [h6]; exact h11
  · show sol.maxHist = maxHistOf p.maxHist n p.lambda; rw [h6]; exact h7
  · show sol.kcand = kcandOf p.lambda; rw [h6]; exact h8

/-- A run changes of the parameters at most the starting point and step size (elitist restarts), and keeps
the size of the population. -/
theorem optimize_keeps {env : Env n} {k : ℕ} {s s' : Strat n} (h : s.optimize env k = .ok (some s')) :
    (∃ (a b : Vec n) (sg : ℝ), s'.p = { s.p with x0min := a, x0max := b, sigmaInit := sg } ∧
      (0 < s.p.sigmaInit → sg = s.p.sigmaInit)) ∧
      (GoodParams s.p → s.sol.cands.length = s.p.lambda → s'.sol.cands.length = s'.p.lambda) ∧
      s'.crit = s.crit ∧ s'.negate = s.negate ∧ s'.kind = s.kind := by
  refine Strat.optimize_induct_gen (I := fun t => (∃ (a b : Vec n) (sg : ℝ),
      t.p = { s.p with x0min := a, x0max := b, sigmaInit := sg } ∧ (0 < s.p.sigmaInit → sg = s.p.sigmaInit)) ∧
      (GoodParams s.p → s.sol.cands.length = s.p.lambda → t.sol.cands.length = t.p.lambda) ∧
      t.crit = s.crit ∧ t.negate = s.negate ∧ t.kind = s.kind) ?_ ?_ ?_ ?_ ?_ k
    ⟨⟨s.p.x0min, s.p.x0max, s.p.sigmaInit, rfl, fun _ => rfl⟩, fun _ => id, rfl, rfl, rfl⟩ h
  · rintro t t' ⟨i1, i2, i3, i4, i5⟩ h
    rcases Strat.evalInitial_frame h with e | ⟨y, v, _, _, e⟩ <;> rw [e] <;> exact ⟨i1, i2, i3, i4, i5⟩
  · rintro t b t' ⟨i1, i2, i3, i4, i5⟩ h
    obtain ⟨k, r, e⟩ := Strat.stop_frame h
    rw [e]; exact ⟨i1, i2, i3, i4, i5⟩
  · rintro t t' ⟨i1, i2, i3, i4, i5⟩ h
    obtain ⟨tr, hrun⟩ := Strat.generation_run h
    obtain ⟨r1, _, _, _, _, r6, r7, r8, _⟩ := run_p hrun
    refine ⟨by rw [r1]; exact i1, ?_, by rw [r7, i3], by rw [r8, i4], by rw [r6, i5]⟩
    intro hg hl
    obtain ⟨a, b, sg, e, _⟩ := i1
    have hg' : GoodParams t.p := by
      rw [e]
      exact hg.same ⟨rfl, rfl, rfl, rfl, rfl, rfl, rfl, rfl, rfl, rfl, rfl, rfl, rfl, rfl, rfl, rfl, rfl⟩
    obtain ⟨_, _, _, _, _, _, _, _, _, _, _, hlen, _⟩ := generation_points hg' (i2 hg hl) h
    rw [r1]; exact hlen
  · rintro t t' ⟨i1, i2, i3, i4, i5⟩ _ h
    obtain ⟨c, ed, e⟩ := Strat.edm_frame h
    rw [e]; exact ⟨i1, i2, i3, i4, i5⟩
  · rintro t t' ⟨⟨a, b, sg, i1, i1'⟩, i2, i3, i4, i5⟩ h
    obtain ⟨c, p, sol, hb, hm, e⟩ := Strat.elitistRestart_ok h
    obtain ⟨h1, h2, h3, h4, h5, h6, _⟩ := Sol.make_eq_ok hm
    rw [e]
    refine ⟨⟨c.x, c.x, sol.sigma, ?_, ?_⟩, fun _ _ => ?_, i3, i4, i5⟩
    · show p = _
      rw [h6, i1]
    · intro hs
      have hsg : t.p.sigmaInit = s.p.sigmaInit := by rw [i1]; exact i1' hs
      rw [h5]
      show (if 0 < t.p.sigmaInit then t.p.sigmaInit else _) = _
      rw [hsg, if_pos hs]
    · show sol.cands.length = p.lambda
      rw [h6]; exact h4.cands

/-- One turn of the loop of IPOP. -/
theorem ipopLoop_succ {env : Env n} {fuel r : ℕ} {s s' : Strat n} {b b' : Option (Sol n)}
    (h : s.ipopLoop env fuel (r + 1) b = .ok (some (s', b'))) :
    ∃ s1 p s3, s.optimize env fuel = .ok (some s1) ∧
      initializeParameters { s1.p with lambda := s1.p.lambda * 2 } = .ok p ∧
      ({ s1 with p := p } : Strat n).resetSearchState env = .ok s3 ∧
      (s3.budgetSpent = true ∧ s' = s3 ∧ b' = s1.captureBest b ∨
       s3.budgetSpent = false ∧ s3.ipopLoop env fuel r (s1.captureBest b) = .ok (some (s', b'))) := by
  unfold Strat.ipopLoop at h
  obtain ⟨o, h1, h⟩ := Out.bind_eq_ok.1 h
  cases o with
  | none => cases h
  | some s1 =>
    replace h : (s1.lambdaInc >>= fun s2 => s2.resetSearchState env >>= fun s3 =>
      if s3.budgetSpent then pure (some (s3, s1.captureBest b))
      else Strat.ipopLoop env fuel r s3 (s1.captureBest b)) = _ := h
    obtain ⟨s2, h2, h⟩ := Out.bind_eq_ok.1 h
    obtain ⟨s3, h3, h⟩ := Out.bind_eq_ok.1 h
    obtain ⟨p, h4, e⟩ := Strat.lambdaInc_ok h2
    refine ⟨s1, p, s3, h1, h4, e ▸ h3, ?_⟩
    by_cases hb : s3.budgetSpent = true
    · rw [if_pos hb] at h
      injection h with h; injection h with h; injection h with h h'
      exact Or.inl ⟨hb, h.symm, h'.symm⟩
    · rw [if_neg hb] at h
      exact Or.inr ⟨by simpa using hb, h⟩

/-- The best run so far, as the strategies keep it. -/
noncomputable def bestOf (b : Option (Sol n)) (runs : List (SubRun n)) : Option (Sol n) :=
  runs.foldl (fun acc r => r.fin.captureBest acc) b

/-- From the end of a run to the start of the next one. -/
structure Restarted (a c : SubRun n) : Prop where
  afresh : Afresh a.fin c.start
  rates : DefaultRates c.start.p
  good : GoodParams a.start.p → GoodParams c.start.p
  begins : a.fin.negate = a.fin.p.maximize → a.fin.initialElitist = false → Begins a.fin.kind c.start.p c.start
  es : c.start.es = a.fin.es
  elitist : c.start.initialElitist = a.fin.initialElitist
  npf : c.start.npf = a.fin.npf

theorem restarted_of {env : Env n} {fuel lam : ℕ} {sg sg' : ℝ} {mf : ℤ} {s s1 s3 : Strat n} {q : Params n}
    (h1 : s.optimize env fuel = .ok (some s1))
    (h2 : initializeParameters { s1.p with lambda := lam, sigmaInit := sg } = .ok q)
    (h3 : ({ s1 with p := { q with sigmaInit := sg', maxFevals := mf } } : Strat n).resetSearchState env = .ok s3)
    (c : SubRun n) (hc : c.start = s3) :
    Restarted ⟨s, s1⟩ c ∧ c.start.p.lambda = lam ∧ c.start.p.maxFevals = mf ∧
      c.start.p.sigmaInit = c.start.sol.sigma ∧ c.start.sol.sigma = if 0 < sg' then sg' else 1 / n := by
  obtain ⟨⟨x1, x2, sg2, k1, k1'⟩, k2, k3, k4, k5⟩ := optimize_keeps h1
  obtain ⟨mu, w, muw, cs, cc, c1, cm, ds, fs, fc, ch, lv, rl, al, e⟩ := initializeParameters_frame h2
  have hkeep : KeepsSettings s1.p { q with sigmaInit := sg', maxFevals := mf } := by rw [e]; rfl
  obtain ⟨a1, a2, a3, a4, a5⟩ := afresh_reset h3 hkeep
  refine ⟨⟨hc ▸ a1, ?_, ?_, ?_, hc ▸ a4, hc ▸ a5, ?_⟩, ?_, ?_, ?_, ?_⟩
  · have := defaultRates_of_init h2
    rw [hc, a2]; exact this
  · intro hg
    have : FixOk n s1.p.fixedP := by rw [k1]; exact GoodParams.fixOk (p := s.p) hg
    rw [hc, a2]
    exact (goodParams_init h2 this).same
      ⟨rfl, rfl, rfl, rfl, rfl, rfl, rfl, rfl, rfl, rfl, rfl, rfl, rfl, rfl, rfl, rfl, rfl⟩
  · intro hn he
    rw [hc]
    refine begins_reset (a := { s1 with p := { q with sigmaInit := sg', maxFevals := mf } }) h3 ?_ he
    show s1.negate = q.maximize
    rw [e]; exact hn
  · obtain ⟨q, sol, _, e'⟩ := Strat.resetSearchState_ok h3
    rw [hc, e']
  · rw [hc, a2]; show q.lambda = _; rw [e]
  · rw [hc, a2]
  · rw [hc, a2]
  · obtain ⟨q', sol, hm, e'⟩ := Strat.resetSearchState_ok h3
    rw [hc, e']
    exact (Sol.make_eq_ok hm).2.2.2.2.1

/-- From the end of a run of IPOP to the start of the next one. -/
structure IpopNext (a c : SubRun n) : Prop extends Restarted a c where
  lambda : c.start.p.lambda = 2 * a.start.p.lambda
  budget : c.start.budgetSpent = false
  maxFevals : c.start.p.maxFevals = a.start.p.maxFevals
  sigma : 0 < a.start.p.sigmaInit → c.start.p.sigmaInit = a.start.p.sigmaInit

theorem ipopNext_of {env : Env n} {fuel : ℕ} {s s1 s3 : Strat n} {p : Params n}
    (h1 : s.optimize env fuel = .ok (some s1))
    (h2 : initializeParameters { s1.p with lambda := s1.p.lambda * 2 } = .ok p)
    (h3 : ({ s1 with p := p } : Strat n).resetSearchState env = .ok s3) (hb : s3.budgetSpent = false)
    (c : SubRun n) (hc : c.start = s3) : IpopNext ⟨s, s1⟩ c := by
  obtain ⟨⟨x1, x2, sg, k1, k1'⟩, _⟩ := optimize_keeps h1
  obtain ⟨mu, w, muw, cs, cc, c1, cm, ds, fs, fc, ch, lv, rl, al, e⟩ := initializeParameters_frame h2
  obtain ⟨a1, a2, a3, a4, a5⟩ := restarted_of (sg := s1.p.sigmaInit) (sg' := p.sigmaInit) (mf := p.maxFevals) h1 h2
    h3 c hc
  refine ⟨a1, ?_, hc ▸ hb, ?_, ?_⟩
  · rw [a2, k1]; show s.p.lambda * 2 = 2 * s.p.lambda; omega
  · rw [a3, e]
    show s1.p.maxFevals = s.p.maxFevals
    rw [k1]
  · intro hs
    have : p.sigmaInit = s.p.sigmaInit := by rw [e, k1]; exact k1' hs
    rw [a4, a5, this, if_pos hs]

/-- The runs of IPOP. -/
theorem ipopLoop_history {env : Env n} {fuel : ℕ} (r : ℕ) {s s' : Strat n} {b b' : Option (Sol n)}
    (h : s.ipopLoop env fuel r b = .ok (some (s', b'))) :
    ∃ runs : List (SubRun n), History env s runs s' ∧ runs.length ≤ r ∧ (r ≠ 0 → runs ≠ []) ∧
      (runs.length = r ∨ s'.budgetSpent = true) ∧ runs.IsChain IpopNext ∧ b' = bestOf b runs := by
  induction r generalizing s b with
  | zero =>
    injection h with h; injection h with h; injection h with h h'
    subst h; subst h'
    exact ⟨[], ⟨by simp, by simp, List.IsChain.nil, by simp, fun _ => rfl⟩, le_rfl, by simp, Or.inl rfl,
      List.IsChain.nil, rfl⟩
  | succ r ih =>
    obtain ⟨s1, p, s3, h1, h2, h3, h4⟩ := ipopLoop_succ h
    obtain ⟨mu, w, muw, cs, cc, c1, cm, ds, fs, fc, ch, lv, rl, al, e⟩ := initializeParameters_frame h2
    have hkeep : KeepsSettings s1.p p := by rw [e]; rfl
    have hA := (afresh_reset h3 hkeep).1
    rcases h4 with ⟨hb, e1, e2⟩ | ⟨hb, h4⟩
    · subst e1; subst e2
      refine ⟨[⟨s, s1⟩], ⟨?_, ?_, List.IsChain.singleton _, ?_, by simp⟩, by simp, by simp, Or.inr hb,
        List.IsChain.singleton _, rfl⟩
      · intro q hq; rw [List.mem_singleton.1 hq]; exact ⟨fuel, h1⟩
      · intro q hq; injection hq with hq; rw [← hq]
      · intro q hq; injection hq with hq; rw [← hq]; exact ⟨hA.calls, hA.nevals⟩
    · obtain ⟨runs, hH, hl, hne, hd, hch, hbest⟩ := ih h4
      refine ⟨⟨s, s1⟩ :: runs, ⟨?_, ?_, ?_, ?_, by simp⟩, by simp; omega, by simp, ?_, ?_, ?_⟩
      · intro q hq
        rcases List.mem_cons.1 hq with e | hq
        · rw [e]; exact ⟨fuel, h1⟩
        · exact hH.done q hq
      · intro q hq; injection hq with hq; rw [← hq]
      · refine List.isChain_cons.2 ⟨fun y hy => ?_, hH.next⟩
        rw [hH.first y hy]; exact hA
      · intro q hq
        by_cases hr : runs = []
        · rw [hr] at hq
          injection hq with hq
          rw [← hq, hH.none hr]; exact ⟨hA.calls, hA.nevals⟩
        · rw [List.getLast?_cons_of_ne_nil hr] at hq
          exact hH.last q hq
      · rcases hd with hd | hd
        · left; simp [hd]
        · right; exact hd
      · refine List.isChain_cons.2 ⟨fun y hy => ?_, hch⟩
        exact ipopNext_of h1 h2 h3 hb y (hH.first y hy)
      · rw [hbest]; rfl

theorem bestOf_append (b : Option (Sol n)) (l : List (SubRun n)) (r : SubRun n) :
    bestOf b (l ++ [r]) = r.fin.captureBest (bestOf b l) := by
  unfold bestOf; rw [List.foldl_append]; rfl

/-- If the first run does not end with NaN, the strategies keep the best run. -/
theorem bestOf_best {l : List (SubRun n)} {a : SubRun n} (h1 : l.head? = some a) (ha : a.value.IsNum)
    (hc : ∀ r ∈ l, r.fin.sol.cands ≠ []) : ∃ r, BestRun l r ∧ bestOf none l = some r.fin.sol := by
  induction l using List.reverseRecOn with
  | nil => cases h1
  | append_singleton l x ih =>
    rw [bestOf_append]
    by_cases hl : l = []
    · subst hl
      injection h1 with h1
      subst h1
      exact ⟨x, ⟨ha, [], [], rfl, by simp, by simp⟩, rfl⟩
    · have h1' : l.head? = some a := by
        rw [List.head?_append_of_ne_nil _ hl] at h1; exact h1
      obtain ⟨r, ⟨hr, pre, post, e, hpre, hpost⟩, hb⟩ := ih h1' fun r hr => hc r (by simp [hr])
      have hcr : r.fin.sol.cands.isEmpty = false := by
        have := hc r (by rw [e]; simp)
        simpa using this
      rw [hb]
      unfold Strat.captureBest
      simp only [hcr, Bool.false_or, decide_eq_true_eq]
      by_cases hlt : FVal.lt x.fin.sol.bestCandidate.fvalue r.fin.sol.bestCandidate.fvalue
      · rw [if_pos hlt]
        refine ⟨x, ⟨(FVal.IsNum_of_lt hlt).1, l, [], by simp, ?_, by simp⟩, rfl⟩
        intro q hq hqn
        rw [e] at hq
        rcases List.mem_append.1 hq with hq | hq
        · exact FVal.lt_trans hlt (hpre q hq hqn)
        rcases List.mem_cons.1 hq with hq | hq
        · rw [hq]; exact hlt
        · by_contra hn
          exact FVal.not_lt_trans hqn (hpost q hq) hn hlt
      · rw [if_neg hlt]
        refine ⟨r, ⟨hr, pre, post ++ [x], by rw [e]; simp, hpre, ?_⟩, rfl⟩
        intro q hq
        rcases List.mem_append.1 hq with hq | hq
        · exact hpost q hq
        · rw [List.mem_singleton.1 hq]; exact hlt

/-- If the first run ends with NaN, they keep that one. -/
theorem bestOf_nan {l : List (SubRun n)} {a : SubRun n} (h1 : l.head? = some a) (ha : ¬ a.value.IsNum)
    (hc : a.fin.sol.cands ≠ []) : bestOf none l = some a.fin.sol := by
  induction l using List.reverseRecOn with
  | nil => cases h1
  | append_singleton l x ih =>
    rw [bestOf_append]
    by_cases hl : l = []
    · subst hl
      injection h1 with h1
      subst h1
      rfl
    · have h1' : l.head? = some a := by
        rw [List.head?_append_of_ne_nil _ hl] at h1; exact h1
      rw [ih h1']
      unfold Strat.captureBest
      have hcr : a.fin.sol.cands.isEmpty = false := by simpa using hc
      have hna : a.fin.sol.bestCandidate.fvalue = .nan := FVal.not_isNum.1 ha
      simp only [hcr, Bool.false_or, decide_eq_true_eq, hna]
      rw [if_neg (FVal.not_lt_nan _)]

/-- What the first run has and every next one inherits, all runs have. -/
theorem chain_all {R : SubRun n → SubRun n → Prop} {P : ℕ → SubRun n → Prop} {l : List (SubRun n)}
    (hc : l.IsChain R) (h0 : ∀ a, l.head? = some a → P 0 a)
    (hs : ∀ i a c, a ∈ l → c ∈ l → R a c → P i a → P (i + 1) c) (i : ℕ) {r : SubRun n} (hr : l[i]? = some r) :
    P i r := by
  induction i generalizing r with
  | zero => exact h0 r (by rw [← hr]; exact List.head?_eq_getElem?)
  | succ i ih =>
    obtain ⟨hi, e⟩ := List.getElem?_eq_some_iff.1 hr
    have hi' : i < l.length := by omega
    have h1 := List.isChain_iff_getElem.1 hc i (by omega)
    have := ih (List.getElem?_eq_getElem hi')
    rw [← e]
    exact hs i _ _ (List.getElem_mem _) (List.getElem_mem _) h1 this

end Libcmaes
