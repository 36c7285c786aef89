import Verif.Lemmas.RestartRun

/-!
# BIPOP as a sequence of runs
-/

namespace Libcmaes

open Spec

variable {n : ℕ}

/-- The budget has no part in `reset_search_state`. -/
theorem Strat.reset_maxFevals {env : Env n} {s s' : Strat n} (m : ℤ) (h : s.resetSearchState env = .ok s') :
    ({ s with p := { s.p with maxFevals := m } } : Strat n).resetSearchState env =
      .ok { s' with p := { s'.p with maxFevals := m } } := by
  unfold Strat.resetSearchState Sol.make at *
  obtain ⟨⟨p, sol⟩, hm, h⟩ := Out.bind_eq_ok.1 h
  obtain ⟨x, hx, hm⟩ := Out.bind_eq_ok.1 hm
  have hx' : initialMean { s.p with maxFevals := m } (env.rnd s.nrnd) = .ok x := hx
  simp only
  rw [hx', Out.ok_bind]
  by_cases h0 : s.p.lambda = 0 ∨ n = 0
  · rw [if_pos h0] at hm; cases hm
  rw [if_neg h0] at hm ⊢
  injection hm with hm; injection hm with hm1 hm2
  injection h with h
  rw [← h, ← hm1, ← hm2]
  rfl

theorem Spec.History.append {env : Env n} {s s1 : Strat n} {runs : List (SubRun n)} {r : SubRun n}
    (h : History env s runs s1) (hd : r.Done env) (h0 : runs = [] → r.start = s)
    (hn : ∀ q, runs.getLast? = some q → Afresh q.fin r.start) : History env s (runs ++ [r]) r.fin := by
  refine ⟨?_, ?_, ?_, ?_, ?_⟩
  · intro q hq
    rcases List.mem_append.1 hq with hq | hq
    · exact h.done q hq
    · rw [List.mem_singleton.1 hq]; exact hd
  · intro q hq
    cases runs with
    | nil => injection hq with hq; rw [← hq]; exact h0 rfl
    | cons a l => exact h.first q (by simpa using hq)
  · exact List.isChain_append.2 ⟨h.next, List.IsChain.singleton _, fun x hx y hy => by
      injection hy with hy; rw [← hy]; exact hn x hx⟩
  · intro q hq
    rw [List.getLast?_concat] at hq
    injection hq with hq
    rw [← hq]; exact ⟨rfl, rfl⟩
  · simp

/-- Population size of a small run. -/
theorem smallLambda_range {lam j : ℕ} {u : ℝ} (hl : 2 ≤ lam) (h0 : 0 ≤ u) (h1 : u < 1) :
    2 ≤ Bipop.smallLambda lam (lam * 2 ^ j) u ∧
      min lam ((lam * 2 ^ j + 1) / 2) ≤ Bipop.smallLambda lam (lam * 2 ^ j) u ∧
      Bipop.smallLambda lam (lam * 2 ^ j) u ≤ max lam ((lam * 2 ^ j + 1) / 2) := by
  unfold Bipop.smallLambda
  have hl' : (2 : ℝ) ≤ lam := by exact_mod_cast hl
  have hlp : (0 : ℝ) < lam := by linarith
  have hr : (0.5 : ℝ) * (((lam * 2 ^ j : ℕ) : ℝ) / lam) = 2 ^ j / 2 := by
    push_cast; field_simp; norm_num
  rw [hr]
  cases j with
  | zero =>
    have h2 : (1 / 2 : ℝ) < (1 / 2 : ℝ) ^ u := by
      have := Real.rpow_lt_rpow_of_exponent_gt (show (0 : ℝ) < 1 / 2 by norm_num) (by norm_num) h1
      rwa [Real.rpow_one] at this
    have h3 : (1 / 2 : ℝ) ^ u ≤ 1 := Real.rpow_le_one (by norm_num) (by norm_num) h0
    simp only [pow_zero]
    have h4 : (lam : ℝ) / 2 < lam * (1 / 2 : ℝ) ^ u := by nlinarith
    have h5 : (lam : ℝ) * (1 / 2 : ℝ) ^ u ≤ lam := by nlinarith
    generalize hc : ⌈(lam : ℝ) * (1 / 2 : ℝ) ^ u⌉ = c
    have h6 : c ≤ lam := by
      rw [← hc, Int.ceil_le]; exact_mod_cast h5
    have h7 : (lam : ℤ) < 2 * c := by
      have := Int.le_ceil ((lam : ℝ) * (1 / 2 : ℝ) ^ u)
      rw [hc] at this
      have : (lam : ℝ) < 2 * c := by linarith
      exact_mod_cast this
    omega
  | succ j =>
    have e : (2 : ℝ) ^ (j + 1) / 2 = 2 ^ j := by rw [pow_succ]; field_simp
    have e2 : (lam * 2 ^ (j + 1) + 1) / 2 = lam * 2 ^ j := by rw [pow_succ, ← mul_assoc]; omega
    rw [e, e2]
    have hj : (1 : ℝ) ≤ 2 ^ j := one_le_pow₀ (by norm_num)
    have h2 : (1 : ℝ) ≤ ((2 : ℝ) ^ j) ^ u := Real.one_le_rpow hj h0
    have h3 : ((2 : ℝ) ^ j) ^ u ≤ 2 ^ j := by
      have := Real.rpow_le_rpow_of_exponent_le hj h1.le
      rwa [Real.rpow_one] at this
    generalize hc : ⌈(lam : ℝ) * ((2 : ℝ) ^ j) ^ u⌉ = c
    have h6 : c ≤ (lam * 2 ^ j : ℕ) := by
      rw [← hc, Int.ceil_le]
      push_cast
      exact mul_le_mul_of_nonneg_left h3 hlp.le
    have h7 : (lam : ℤ) ≤ c := by
      have := Int.le_ceil ((lam : ℝ) * ((2 : ℝ) ^ j) ^ u)
      rw [hc] at this
      have : (lam : ℝ) ≤ c := by nlinarith
      exact_mod_cast this
    omega

theorem smallSigma_range {u : ℝ} (h0 : 0 ≤ u) (h1 : u < 1) :
    0.02 < 2 * (10 : ℝ) ^ (-2 * u) ∧ 2 * (10 : ℝ) ^ (-2 * u) ≤ 2 := by
  constructor
  · have : (10 : ℝ) ^ (-2 : ℝ) < (10 : ℝ) ^ (-2 * u) :=
      Real.rpow_lt_rpow_of_exponent_lt (by norm_num) (by linarith)
    have e : (10 : ℝ) ^ (-2 : ℝ) = 0.01 := by
      rw [show (-2 : ℝ) = ((-2 : ℤ) : ℝ) by norm_num, Real.rpow_intCast]; norm_num
    rw [e] at this
    linarith
  · have : (10 : ℝ) ^ (-2 * u) ≤ 1 := Real.rpow_le_one_of_one_le_of_nonpos (by norm_num) (by linarith)
    linarith

/-- The state of the loops of BIPOP after the runs `runs`. -/
structure BiInv (env : Env n) (p : Params n) (b0 : Bipop n) (l : Bipop.Loop n) (runs : List (BiRun n)) : Prop where
  hist : History env b0.s (runs.map BiRun.run) l.b.s
  chain : (runs.map BiRun.run).IsChain Restarted
  last : ∀ r, runs.getLast? = some r → l.b.s = r.run.fin
  first : runs = [] → l.b = b0
  budget0 : l.budget0 = spent true runs
  budget1 : l.budget1 = spent false runs
  best : l.best = bestOf none (runs.map BiRun.run)
  lambdaDef : l.b.lambdaDef = p.lambda
  lambdaL : l.b.lambdaL = p.lambda * 2 ^ (numLarge runs - 1)
  sigma0 : l.b.sigmaInit0 = some p.sigmaInit
  max0 : l.b.maxFevals0 = some p.maxFevals
  large : runs ≠ [] → 1 ≤ numLarge runs
  good : GoodParams l.b.s.p
  settings : ∃ x y : Vec n, KeepsSettings { p with x0min := x, x0max := y } l.b.s.p
  each : ∀ pre r post, runs = pre ++ r :: post → Regime p pre r ∧ GoodParams r.run.start.p ∧
    r.run.start.sol.cands.length = r.run.start.p.lambda ∧
    r.run.fin.sol.cands.length = r.run.start.p.lambda ∧
    ∃ x y : Vec n, KeepsSettings { p with x0min := x, x0max := y } r.run.start.p

theorem spent_append (b : Bool) (l : List (BiRun n)) (r : BiRun n) :
    spent b (l ++ [r]) = spent b l + if r.large = b then r.run.cost else 0 := by
  unfold spent
  rw [List.filter_append, List.map_append, List.sum_append]
  by_cases h : r.large = b
  · simp [h]
  · simp [h]

theorem numLarge_append (l : List (BiRun n)) (r : BiRun n) :
    numLarge (l ++ [r]) = numLarge l + if r.large = true then 1 else 0 := by
  unfold numLarge
  rw [List.countP_append]
  by_cases h : r.large = true
  · simp [h]
  · simp [h]

theorem split_append {α : Type} {l pre post : List α} {a r : α} (h : l ++ [a] = pre ++ r :: post) :
    (pre = l ∧ r = a ∧ post = []) ∨ ∃ post', l = pre ++ r :: post' := by
  rcases List.eq_nil_or_concat post with rfl | ⟨post', x, rfl⟩
  · left
    obtain ⟨h1, h2⟩ := List.append_inj' h rfl
    injection h2 with h2
    exact ⟨h1.symm, h2.symm, rfl⟩
  · right
    refine ⟨post', ?_⟩
    have : l ++ [a] = (pre ++ r :: post') ++ [x] := by rw [h]; simp
    exact (List.append_inj' this rfl).1

/-- A further run. -/
theorem BiInv.append {env : Env n} {p : Params n} {b0 : Bipop n} {l l' : Bipop.Loop n} {runs : List (BiRun n)}
    {fuel : ℕ} {large : Bool} {s3 s4 : Strat n} (h : BiInv env p b0 l runs)
    (h4 : s3.optimize env fuel = .ok (some s4))
    (hs : l'.b.s = s4) (hg : GoodParams s3.p) (hc : s3.sol.cands.length = s3.p.lambda)
    (hset : ∃ x y : Vec n, KeepsSettings { p with x0min := x, x0max := y } s3.p)
    (h0 : runs = [] → s3 = b0.s ∧ large = true)
    (hn : ∀ q, runs.getLast? = some q → Restarted q.run ⟨s3, s4⟩)
    (hb0 : l'.budget0 = l.budget0 + if large then Bipop.charge s4 else 0)
    (hb1 : l'.budget1 = l.budget1 + if large then 0 else Bipop.charge s4)
    (hbest : l'.best = s4.captureBest l.best) (hdef : l'.b.lambdaDef = l.b.lambdaDef)
    (hL : l'.b.lambdaL = if large then p.lambda * 2 ^ numLarge runs else l.b.lambdaL)
    (hsg : l'.b.sigmaInit0 = l.b.sigmaInit0) (hmx : l'.b.maxFevals0 = l.b.maxFevals0)
    (hreg : Regime p runs ⟨large, s3, s4⟩) : BiInv env p b0 l' (runs ++ [⟨large, s3, s4⟩]) := by
  obtain ⟨⟨x1, x2, sg, k1, _⟩, k2, _⟩ := optimize_keeps h4
  refine ⟨?_, ?_, ?_, fun e => absurd e (by simp), ?_, ?_, ?_, ?_, ?_, ?_, ?_, ?_, ?_, ?_, ?_⟩
  · rw [List.map_append, hs]
    refine h.hist.append ⟨fuel, h4⟩ ?_ ?_
    · intro he
      exact (h0 (List.map_eq_nil_iff.1 he)).1
    · intro q hq
      rw [List.getLast?_map] at hq
      cases hq' : runs.getLast? with
      | none => rw [hq'] at hq; cases hq
      | some q' =>
        rw [hq'] at hq; injection hq with hq
        rw [← hq]; exact (hn q' hq').afresh
  · rw [List.map_append]
    refine List.isChain_append.2 ⟨h.chain, List.IsChain.singleton _, fun x hx y hy => ?_⟩
    injection hy with hy
    rw [List.getLast?_map] at hx
    cases hq' : runs.getLast? with
    | none => rw [hq'] at hx; cases hx
    | some q' =>
      rw [hq'] at hx; injection hx with hx
      rw [← hx, ← hy]; exact hn q' hq'
  · intro r hr
    rw [List.getLast?_concat] at hr
    injection hr with hr
    rw [← hr]; exact hs
  · rw [hb0, h.budget0, spent_append]
    cases large <;> simp [Bipop.charge, SubRun.cost]
  · rw [hb1, h.budget1, spent_append]
    cases large <;> simp [Bipop.charge, SubRun.cost]
  · rw [List.map_append, hbest, h.best]
    exact (bestOf_append _ _ (⟨s3, s4⟩ : SubRun n)).symm
  · rw [hdef, h.lambdaDef]
  · rw [hL, numLarge_append]
    cases large
    · simp [h.lambdaL]
    · simp
  · rw [hsg, h.sigma0]
  · rw [hmx, h.max0]
  · intro _
    rw [numLarge_append]
    cases large
    · have := h.large (fun e => by have := (h0 e).2; cases this)
      omega
    · simp
  · rw [hs, k1]
    exact hg.same ⟨rfl, rfl, rfl, rfl, rfl, rfl, rfl, rfl, rfl, rfl, rfl, rfl, rfl, rfl, rfl, rfl, rfl⟩
  · obtain ⟨x, y, hxy⟩ := hset
    refine ⟨x1, x2, ?_⟩
    unfold KeepsSettings at hxy ⊢
    rw [hs, k1, hxy]
  · intro pre r post he
    rcases split_append he with ⟨rfl, rfl, rfl⟩ | ⟨post', he⟩
    · refine ⟨hreg, hg, hc, ?_, hset⟩
      show s4.sol.cands.length = s3.p.lambda
      rw [k2 hg hc, k1]
    · exact h.each _ _ _ he

/-- A small run. -/
theorem BiInv.small {env : Env n} {p : Params n} {b0 : Bipop n} {l l' : Bipop.Loop n} {runs : List (BiRun n)}
    {fuel : ℕ} (h : BiInv env p b0 l runs) (hp : 2 ≤ p.lambda) (hb : l.budget0 > l.budget1)
    (h1 : Bipop.smallRun env fuel l = .ok (some l')) :
    ∃ r, r.large = false ∧ BiInv env p b0 l' (runs ++ [r]) := by
  obtain ⟨b1, s3, s4, h2, h3, h4, e⟩ := Bipop.smallRun_ok h1
  obtain ⟨q, h5, e5⟩ := Bipop.r2_ok h2
  have hlt : spent false runs < spent true runs := by
    have := h.budget0; have := h.budget1; omega
  have hne : runs ≠ [] := by
    rintro rfl; exact absurd hlt (lt_irrefl _)
  obtain ⟨a, ha⟩ : ∃ a, runs.getLast? = some a := by
    cases hq : runs.getLast? with
    | none => exact absurd (List.getLast?_eq_none_iff.1 hq) hne
    | some a => exact ⟨a, rfl⟩
  have hlast := h.last a ha
  have hmem : a.run ∈ runs.map BiRun.run := List.mem_map_of_mem (List.mem_of_getLast? ha)
  obtain ⟨fa, hfa⟩ := h.hist.done a.run hmem
  rw [h.lambdaDef, h.lambdaL, hlast] at h5
  have h3' : ({ a.run.fin with p := { q with sigmaInit := q.sigmaInit, maxFevals := l.budget0 / 2 } } : Strat n).resetSearchState env =
      .ok s3 := by
    rw [← h3, e5, ← hlast]; rfl
  obtain ⟨c1, c2, c3, c4, c5⟩ := restarted_of (fuel := fa) hfa h5 h3' ⟨s3, s4⟩ rfl
  have hq := (initializeParameters_spec h5).sigmaInit
  simp only at hq
  obtain ⟨u1, u2⟩ := env.ub_mem l.b.nub
  obtain ⟨v1, v2⟩ := env.ub_mem (l.b.nub + 1)
  obtain ⟨w1, w2⟩ := smallSigma_range v1 v2
  rw [hq, if_pos (by linarith)] at c5
  have hga : GoodParams a.run.start.p := by
    obtain ⟨pre, hpre⟩ : ∃ pre, runs = pre ++ [a] := by
      obtain ⟨pre, hpre⟩ := List.getLast?_eq_some_iff.1 ha
      exact ⟨pre, hpre⟩
    exact (h.each pre a [] hpre).2.1
  have hset : ∃ x y : Vec n, KeepsSettings { p with x0min := x, x0max := y } s3.p := by
    obtain ⟨x, y, hxy⟩ := h.settings
    refine ⟨x, y, ?_⟩
    have := c1.afresh.settings
    rw [hlast] at hxy
    unfold KeepsSettings at hxy this ⊢
    rw [this, hxy]
  refine ⟨⟨false, s3, s4⟩, rfl, h.append h4 (by rw [e]) (c1.good hga) c1.afresh.fresh.cands hset
    (fun e => absurd e hne) ?_ (by rw [e]; simp) (by rw [e]; simp) (by rw [e]) ?_ ?_ ?_ ?_ ?_⟩
  · intro q hq
    rw [ha] at hq; injection hq with hq
    rw [← hq]; exact c1
  · rw [e, e5]; rfl
  · rw [e, e5]; rfl
  · rw [e, e5]; rfl
  · rw [e, e5]; rfl
  · refine ⟨(fun h => by cases h), fun _ => ⟨hlt, ⟨_, rfl, ?_⟩, ?_, ?_, ?_, c1.rates⟩⟩
    · show 2 ≤ s3.p.lambda ∧ _ ≤ s3.p.lambda ∧ s3.p.lambda ≤ _
      have c2' : s3.p.lambda = _ := c2
      rw [c2']
      exact smallLambda_range hp u1 u2
    · show _ < s3.sol.sigma
      have c5' : s3.sol.sigma = _ := c5
      rw [c5']; exact w1
    · show s3.sol.sigma ≤ 2
      have c5' : s3.sol.sigma = _ := c5
      rw [c5']; exact w2
    · show s3.p.maxFevals = _
      have c3' : s3.p.maxFevals = _ := c3
      rw [c3', h.budget0]; norm_cast

/-- A large run. -/
theorem BiInv.big {env : Env n} {p : Params n} {b0 : Bipop n} {l l' : Bipop.Loop n} {runs : List (BiRun n)}
    {fuel r : ℕ} (h : BiInv env p b0 l runs) (hr : r = numLarge runs) (hb : l.budget0 ≤ l.budget1)
    (hm0 : b0.s.p.maxFevals = p.maxFevals)
    (hl0 : b0.s.p.lambda = p.lambda) (hs0 : b0.s.sol.sigma = if 0 < p.sigmaInit then p.sigmaInit else 1 / n)
    (hc0 : b0.s.sol.cands.length = p.lambda)
    (h1 : Bipop.largeRun env fuel r l = .ok (some l')) :
    ∃ r, r.large = true ∧ BiInv env p b0 l' (runs ++ [r]) := by
  obtain ⟨b1, m, s4, h2, h3, h4, e⟩ := Bipop.largeRun_ok h1
  have hle : spent true runs ≤ spent false runs := by
    have := h.budget0; have := h.budget1; omega
  rcases h2 with ⟨hr0, rfl⟩ | ⟨hr0, b2, s, h5, h6, e6⟩
  · have hnil : runs = [] := by
      by_contra hne
      have := h.large hne
      omega
    subst hnil
    have hm : m = p.maxFevals := by
      have := h.max0; rw [h3] at this; injection this
    have hbs : (l.b.setMaxFevals m).s = b0.s := by
      rw [h.first rfl, hm, ← hm0]; rfl
    rw [hbs] at h4
    have hset := h.settings
    have hgd := h.good
    rw [h.first rfl] at hset hgd
    refine ⟨⟨true, b0.s, s4⟩, rfl, h.append h4 (by rw [e]) hgd (by rw [hc0, hl0]) hset (fun _ => ⟨rfl, rfl⟩)
      (fun q hq => by cases hq) (by rw [e]; simp) (by rw [e]; simp) (by rw [e]) (by rw [e]; rfl) ?_
      (by rw [e]; rfl) (by rw [e]; rfl) ?_⟩
    · rw [e]
      show l.b.lambdaL = _
      rw [h.lambdaL]; simp [numLarge]
    · refine ⟨fun _ => ⟨hle, ?_, hs0, hm0, fun h => absurd rfl h⟩, (fun h => by cases h)⟩
      show b0.s.p.lambda = _
      rw [hl0]; simp [numLarge]
  · have hne : runs ≠ [] := by
      rintro rfl; simp [numLarge] at hr; omega
    obtain ⟨a, ha⟩ : ∃ a, runs.getLast? = some a := by
      cases hq : runs.getLast? with
      | none => exact absurd (List.getLast?_eq_none_iff.1 hq) hne
      | some a => exact ⟨a, rfl⟩
    have hlast := h.last a ha
    have hmem : a.run ∈ runs.map BiRun.run := List.mem_map_of_mem (List.mem_of_getLast? ha)
    obtain ⟨fa, hfa⟩ := h.hist.done a.run hmem
    obtain ⟨q, sg, h7, h8, e8⟩ := Bipop.r1_ok h5
    have hsg : sg = p.sigmaInit := by
      have := h.sigma0; rw [h8] at this; injection this
    have hm : m = p.maxFevals := by
      have := h.max0
      rw [e6, e8] at h3
      rw [show l.b.maxFevals0 = some m from h3] at this
      injection this
    have hL : l.b.lambdaL * 2 = p.lambda * 2 ^ numLarge runs := by
      rw [h.lambdaL]
      have := h.large hne
      obtain ⟨k, hk⟩ : ∃ k, numLarge runs = k + 1 := ⟨numLarge runs - 1, by omega⟩
      rw [hk, Nat.add_sub_cancel, pow_succ, mul_assoc]
    rw [hL, hlast] at h7
    have h6' := Strat.reset_maxFevals m h6
    rw [hsg] at e8
    have h6'' : ({ a.run.fin with p := { q with sigmaInit := p.sigmaInit, maxFevals := m } } : Strat n).resetSearchState env =
        .ok (b1.setMaxFevals m).s := by
      rw [e6]
      refine Eq.trans ?_ h6'
      rw [e8, hlast]
    obtain ⟨c1, c2, c3, c4, c5⟩ := restarted_of (fuel := fa) (sg := a.run.fin.p.sigmaInit) hfa h7 h6'' ⟨(b1.setMaxFevals m).s, s4⟩ rfl
    have hga : GoodParams a.run.start.p := by
      obtain ⟨pre, hpre⟩ := List.getLast?_eq_some_iff.1 ha
      exact (h.each pre a [] hpre).2.1
    have hset : ∃ x y : Vec n, KeepsSettings { p with x0min := x, x0max := y } (b1.setMaxFevals m).s.p := by
      obtain ⟨x, y, hxy⟩ := h.settings
      refine ⟨x, y, ?_⟩
      have := c1.afresh.settings
      rw [hlast] at hxy
      unfold KeepsSettings at hxy this ⊢
      rw [this, hxy]
    refine ⟨⟨true, (b1.setMaxFevals m).s, s4⟩, rfl, h.append h4 (by rw [e]) (c1.good hga) c1.afresh.fresh.cands hset
      (fun e => absurd e hne) ?_ (by rw [e]; simp) (by rw [e]; simp) (by rw [e]) ?_ ?_ ?_ ?_ ?_⟩
    · intro q hq
      rw [ha] at hq; injection hq with hq
      rw [← hq]; exact c1
    · rw [e, e6, e8]; rfl
    · rw [e, e6, e8]
      show q.lambda = _
      rw [(initializeParameters_spec h7).lambda]; rfl
    · rw [e, e6, e8]; rfl
    · rw [e, e6, e8]; rfl
    · refine ⟨fun _ => ⟨hle, c2, c5, ?_, fun _ => c1.rates⟩, (fun h => by cases h)⟩
      rw [← hm]; exact c3

/-- The state after the constructor. -/
theorem Bipop.new_start {env : Env n} {kind : CovKind} {p : Params n} {b : Bipop n} (hg : GoodParams p)
    (h0 : Bipop.new env kind p = .ok b) :
    b.s.p = { p with sigmaInit := b.s.sol.sigma } ∧
      b.s.sol.sigma = (if 0 < p.sigmaInit then p.sigmaInit else 1 / n) ∧ Begins kind b.s.p b.s ∧
      EsSound b.s ∧ b.s.npf = 0 ∧ b.s.calls = [] ∧ b.s.nevals = 0 ∧ (UniqueKeys p → FlagsOf b.s.p b.s.crit) := by
  obtain ⟨s, h1, h2, _⟩ := Bipop.new_ok h0
  obtain ⟨_, _, _, _, _, hF, _, hn, hc, _⟩ := Strat.new_ok h1
  have hB := begins_new h1
  have hp := hB.params
  have hmu : ({ s.p with mu := s.p.lambda / 2 } : Params n) = s.p := by
    have : s.p.lambda / 2 = s.p.mu := by rw [hp]; exact hg.mu.symm
    rw [this]
  rw [hmu] at h2
  have hsig := new_sigma h1
  have hB' := begins_reset (a := s) h2 (by rw [hB.negate, hp]) hB.elitist
  obtain ⟨q, sol, hm, e⟩ := Strat.resetSearchState_ok h2
  obtain ⟨_, _, _, _, h5, h6, _⟩ := Sol.make_eq_ok hm
  have hsol : b.s.sol.sigma = s.sol.sigma := by
    rw [e]
    show sol.sigma = _
    rw [h5, hp]
    exact if_pos hB.sigma
  have hbp : b.s.p = { p with sigmaInit := b.s.sol.sigma } := by
    rw [e]
    show q = _
    rw [h6, hp]
  rw [hB.kind_eq] at hB'
  refine ⟨hbp, by rw [hsol, hsig], hB', ?_, ?_, ?_, ?_, ?_⟩
  · intro x hx; rw [e] at hx; exact esSound_new h1 x hx
  · rw [e]
    show s.npf = 0
    unfold Strat.new at h1
    obtain ⟨⟨p', sol⟩, _, h1⟩ := Out.bind_eq_ok.1 h1
    injection h1 with h1; rw [← h1]
  · rw [e]; exact hc
  · rw [e]; exact hn
  · intro hk
    have := new_crit h1 hk
    have hcr : b.s.crit = s.crit := by rw [e]
    rw [hcr, hbp]; exact this

theorem BiInv.init {env : Env n} {kind : CovKind} {p : Params n} {b : Bipop n} (hg : GoodParams p)
    (h0 : Bipop.new env kind p = .ok b) : BiInv env p b ⟨b, 0, 0, none⟩ [] := by
  obtain ⟨s, h1, h2, d1, d2, d3, d4, _⟩ := Bipop.new_ok h0
  obtain ⟨e1, e2, e3, _⟩ := Bipop.new_start hg h0
  refine ⟨⟨by simp, by simp, List.IsChain.nil, by simp, fun _ => rfl⟩, List.IsChain.nil, by simp, fun _ => rfl, rfl, rfl, rfl,
    d1, by rw [show numLarge ([] : List (BiRun n)) = 0 from rfl]; simpa using d2, d3, d4, by simp, ?_, ?_, by simp⟩
  · show GoodParams b.s.p
    rw [e1]
    exact hg.same ⟨rfl, rfl, rfl, rfl, rfl, rfl, rfl, rfl, rfl, rfl, rfl, rfl, rfl, rfl, rfl, rfl, rfl⟩
  · refine ⟨p.x0min, p.x0max, ?_⟩
    show KeepsSettings _ b.s.p
    rw [e1]; rfl

theorem BiInv.smalls {env : Env n} {p : Params n} {b0 : Bipop n} {fuel : ℕ} (hp : 2 ≤ p.lambda) (k : ℕ)
    {l l' : Bipop.Loop n} {runs : List (BiRun n)} (h : BiInv env p b0 l runs)
    (h1 : Bipop.smallLoop env fuel k l = .ok (some l')) :
    ∃ runs', BiInv env p b0 l' runs' ∧ numLarge runs' = numLarge runs ∧ l'.budget0 ≤ l'.budget1 := by
  obtain ⟨⟨runs', i1, i2⟩, i3⟩ := Bipop.smallLoop_induct
    (I := fun l => ∃ runs', BiInv env p b0 l runs' ∧ numLarge runs' = numLarge runs)
    (fun l l' hI hb hs => by
      obtain ⟨runs', i1, i2⟩ := hI
      obtain ⟨r, hr, i3⟩ := i1.small hp hb hs
      refine ⟨_, i3, ?_⟩
      rw [numLarge_append, i2, hr]; simp) k ⟨runs, h, rfl⟩ h1
  exact ⟨runs', i1, i2, i3⟩

/-- The runs of BIPOP. -/
theorem bipop_runs {env : Env n} {kind : CovKind} {p : Params n} {b : Bipop n} {l : Bipop.Loop n} {fuel : ℕ}
    (hg : GoodParams p) (h0 : Bipop.new env kind p = .ok b) (h : b.optimize env fuel = .ok (some l)) :
    ∃ runs, BiInv env p b l runs ∧ numLarge runs = p.nrestarts ∧
      (p.nrestarts ≠ 0 → ∃ pre r, runs = pre ++ [r] ∧ r.large = true) := by
  obtain ⟨e1, e2, e3, _⟩ := Bipop.new_start hg h0
  have hm0 : b.s.p.maxFevals = p.maxFevals := by rw [e1]
  have hl0 : b.s.p.lambda = p.lambda := by rw [e1]
  have hc0 : b.s.sol.cands.length = p.lambda := by rw [e3.fresh.cands, hl0]
  have hnr : b.s.p.nrestarts = p.nrestarts := by rw [e1]
  have key : ∀ k r (l l' : Bipop.Loop n) (runs : List (BiRun n)), BiInv env p b l runs → r = numLarge runs →
      Bipop.outer env fuel k r l = .ok (some l') →
      ∃ runs', BiInv env p b l' runs' ∧ numLarge runs' = numLarge runs + k ∧
        (k = 0 → runs' = runs) ∧ (k ≠ 0 → ∃ pre r, runs' = pre ++ [r] ∧ r.large = true) := by
    intro k
    induction k with
    | zero =>
      intro r l l' runs hI _ h
      injection h with h; injection h with h
      exact ⟨runs, h ▸ hI, rfl, fun _ => rfl, fun h => absurd rfl h⟩
    | succ k ih =>
      intro r l l' runs hI hr h
      unfold Bipop.outer at h
      obtain ⟨o, h1, h⟩ := Out.bind_eq_ok.1 h
      cases o with
      | none => cases h
      | some l1 =>
        obtain ⟨runs1, i1, i2, i3⟩ := hI.smalls hg.lambda _ h1
        obtain ⟨o, h2, h⟩ := Out.bind_eq_ok.1 h
        cases o with
        | none => cases h
        | some l2 =>
          obtain ⟨x, hx, j1⟩ := i1.big (hr.trans i2.symm) i3 hm0 hl0 e2 hc0 h2
          have hnum : numLarge (runs1 ++ [x]) = numLarge runs + 1 := by rw [numLarge_append, hx, i2]; simp
          obtain ⟨runs', j2, j3, j4, j5⟩ := ih (r + 1) l2 l' _ j1 (by rw [hnum, hr]) h
          refine ⟨runs', j2, by rw [j3, hnum]; omega, fun h => by omega, fun _ => ?_⟩
          by_cases hk : k = 0
          · exact ⟨_, _, j4 hk, hx⟩
          · exact j5 hk
  unfold Bipop.optimize at h
  obtain ⟨runs, i1, i2, i3, i4⟩ := key _ 0 _ _ [] (BiInv.init hg h0) rfl h
  exact ⟨runs, i1, by rw [i2, hnr]; simp [numLarge], by rw [hnr] at i4; exact i4⟩

end Libcmaes
