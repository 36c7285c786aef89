import Verif.Lemmas.BipopTotal

/-!
# C52, C54: the restarts of BIPOP

`BiRun`, `Regime`, `spent`, `numLarge`, `History`, `BestRun`: Spec/Restart.lean.
-/

namespace Libcmaes

open Spec

variable {n : ℕ}

/-- **C52**, BIPOP: if the first run does not end with NaN, the solution returned is that of the best run; if
it does, the solution returned is that of the first run. -/
theorem C52_bipop (env : Env n) (kind : CovKind) (p : Params n) (b : Bipop n) (l : Bipop.Loop n) (fuel : ℕ)
    (hg : GoodParams p) (h0 : Bipop.new env kind p = .ok b) (h : b.optimize env fuel = .ok (some l)) :
    ∃ runs, History env b.s runs l.b.s ∧
      ((∃ a, runs.head? = some a ∧ a.value.IsNum) → ∃ r, BestRun runs r ∧ l.best = some r.fin.sol) ∧
      (∀ a, runs.head? = some a → ¬ a.value.IsNum → l.best = some a.fin.sol) ∧
      (p.nrestarts = 0 ↔ l.best = none) := by
  obtain ⟨runs, hI, hnum, hlast⟩ := bipop_runs hg h0 h
  have hc : ∀ r ∈ runs.map BiRun.run, r.fin.sol.cands ≠ [] := by
    intro r hr
    obtain ⟨x, hx, rfl⟩ := List.mem_map.1 hr
    obtain ⟨pre, post, e⟩ := List.append_of_mem hx
    obtain ⟨_, e1, e2, e3, _⟩ := hI.each pre x post e
    intro e
    rw [e] at e3
    have := e1.lambda
    simp at e3
    omega
  have hbest : (∃ a, (runs.map BiRun.run).head? = some a ∧ a.value.IsNum) →
      ∃ r, BestRun (runs.map BiRun.run) r ∧ l.best = some r.fin.sol := by
    rintro ⟨a, ha, hn⟩
    rw [hI.best]
    exact bestOf_best ha hn hc
  have hnan : ∀ a, (runs.map BiRun.run).head? = some a → ¬ a.value.IsNum → l.best = some a.fin.sol := by
    intro a ha hn
    rw [hI.best]
    exact bestOf_nan ha hn (hc a (List.mem_of_head? ha))
  refine ⟨_, hI.hist, hbest, hnan, ?_, ?_⟩
  · intro hz
    have : runs = [] := by
      by_contra hne
      have := hI.large hne
      omega
    rw [hI.best, this]; rfl
  · intro hn
    by_contra hr
    cases hruns : runs with
    | nil => rw [hruns] at hnum; exact hr hnum.symm
    | cons a l =>
      have ha : (runs.map BiRun.run).head? = some a.run := by rw [hruns]; rfl
      by_cases hv : a.run.value.IsNum
      · obtain ⟨r, _, e⟩ := hbest ⟨_, ha, hv⟩
        rw [e] at hn; cases hn
      · have := hnan _ ha hv
        rw [this] at hn; cases hn

/-- **C54.** A BIPOP search is a sequence of runs, each one from scratch, of two regimes, with as many runs with
large populations as the user asked for.  The first and the last run have a large population.  Population size, step size and budget
of each run are those of its regime (`Regime`), and each run starts in the regime that is due. -/
theorem C54_runs (env : Env n) (kind : CovKind) (p : Params n) (b : Bipop n) (l : Bipop.Loop n) (fuel : ℕ)
    (hg : GoodParams p) (h0 : Bipop.new env kind p = .ok b) (h : b.optimize env fuel = .ok (some l)) :
    ∃ runs : List (BiRun n), History env b.s (runs.map BiRun.run) l.b.s ∧ numLarge runs = p.nrestarts ∧
      ∀ pre r post, runs = pre ++ r :: post → Regime p pre r ∧ (pre = [] ∨ post = [] → r.large = true) ∧
        r.run.start.sol.cands.length = r.run.start.p.lambda ∧
        r.run.fin.sol.cands.length = r.run.start.p.lambda ∧
        ∃ x y : Vec n, KeepsSettings { p with x0min := x, x0max := y } r.run.start.p := by
  obtain ⟨runs, hI, hnum, hlast⟩ := bipop_runs hg h0 h
  refine ⟨runs, hI.hist, hnum, fun pre r post e => ?_⟩
  obtain ⟨e1, _, e2, e3, e4⟩ := hI.each pre r post e
  refine ⟨e1, fun hp => ?_, e2, e3, e4⟩
  rcases hp with hp | hp
  · by_contra hr
    have := (e1.2 (by simpa using hr)).1
    rw [hp] at this
    exact absurd this (lt_irrefl _)
  · obtain ⟨pre', r', e', hr'⟩ := hlast (by
      rw [← hnum]
      have := hI.large (by rw [e]; simp)
      omega)
    rw [e', hp] at e
    obtain ⟨_, e⟩ := List.append_inj' e rfl
    injection e with e
    rw [← e]; exact hr'

/-- **C54**, the search ends with a result, whatever the objective (with values in `Val`) and the draws, if the
progress function lets each run make its first iteration, as long as the largest population it uses has at most
`(n+2)²` candidates. -/
theorem C54_result (env : Env n) (kind : CovKind) (p : Params n) (b : Bipop n) (hu : UsualRun kind p)
    (hk : UniqueKeys p) (hv : ValObjective env p) (hg : ∀ x : Vec n, ∃ y : Vec n, phenoV p.gp x = .ok y)
    (hs : ∀ x : Vec n, ∃ y : Vec n, scaleToInternalV p.gp x = .ok y)
    (he : p.withEdm = false) (hr : p.initialElitistOnRestart = false) (ha : CritActive p 7)
    (hpf : ∀ k q (sol : Sol n), sol.niter = 0 → env.pfunc k q sol = 0)
    (h0 : Bipop.new env kind p = .ok b) (hl : p.lambda * 2 ^ (p.nrestarts - 1) ≤ (n + 2) ^ 2) :
    ∃ l N, ∀ fuel, N ≤ fuel → b.optimize env fuel = .ok (some l) :=
  bipop_total hu.good.good h0 (runReady_bipop hu.good h0 hk he hr ha hg hs) hv hpf
    fun _ hq hql => defaultRates_strict hq (hql.trans hl)

/-- The default set-up with two large runs. -/
theorem default_bipop {env : Env n} {kind : CovKind} {x0 : Vec n} {sigma : ℝ} {seed clock : ℕ} {p : Params n}
    (hk : kind ≠ .vd) (hp : Params.make x0 sigma (-1) seed clock GenoPheno.plain = .ok p) :
    UsualRun kind { p with nrestarts := 2 } ∧
      ∃ b, Bipop.new env kind { p with nrestarts := 2 } = .ok b ∧ RunReady kind b.s := by
  obtain ⟨hu, -⟩ := default_ready (env := env) 2 hk hp (Or.inl rfl)
  obtain ⟨u1, u2, u3, u4, u5, u6, u7, u8, u9, u10, u11, u12, u13, u14⟩ := Params.make_plain hp
  obtain ⟨l1, l2, l3, l4⟩ := Params.make_limits hp
  obtain ⟨b, hb⟩ := bipop_new (env := env) (kind := kind) (p := { p with nrestarts := 2 }) u10 hu.good.good
  refine ⟨hu, b, hb, runReady_bipop hu.good hb ?_ l2 u6 ⟨by decide, ?_⟩ ?_ ?_⟩
  · show (p.stoppingCrit.map Prod.fst).Nodup; rw [l1]; simp
  · show ¬ _ ∈ p.stoppingCrit; rw [l1]; simp
  · intro x; show ∃ y : Vec n, phenoV p.gp x = .ok y; rw [u10, phenoV_plain]; exact ⟨_, rfl⟩
  · intro x; show ∃ y : Vec n, scaleToInternalV p.gp x = .ok y; rw [u10]; exact ⟨x, rfl⟩

/-- **C54**, the default set-up with two runs with large populations, in any dimension: the search ends, and some
run with a small population lies between the two. -/
theorem C54_default (hn : 1 ≤ n) (env : Env n) (kind : CovKind) (x0 : Vec n) (sigma : ℝ) (seed clock : ℕ)
    (hk : kind ≠ .vd) (hv : ∀ k y, Val (env.f k y))
    (hpf : ∀ k q (sol : Sol n), sol.niter = 0 → env.pfunc k q sol = 0) :
    ∃ p b l, Params.make x0 sigma (-1) seed clock GenoPheno.plain = .ok p ∧
      Bipop.new env kind { p with nrestarts := 2 } = .ok b ∧
      (∃ N, ∀ fuel, N ≤ fuel → b.optimize env fuel = .ok (some l)) ∧
      ∃ (r1 r2 : BiRun n) (small : List (BiRun n)),
        History env b.s ((r1 :: small ++ [r2]).map BiRun.run) l.b.s ∧
        r1.large = true ∧ r1.run.start.p.lambda = p.lambda ∧
        r2.large = true ∧ r2.run.start.p.lambda = 2 * p.lambda ∧
        small ≠ [] ∧ ∀ r ∈ small, r.large = false ∧ 2 ≤ r.run.start.p.lambda ∧
          r.run.start.p.lambda ≤ p.lambda := by
  obtain ⟨p, hp, _⟩ := C11_weights hn x0 sigma (-1) seed clock GenoPheno.plain
  obtain ⟨u1, u2, u3, u4, u5, u6, u7, u8, u9, u10, u11, u12, u13, u14⟩ := Params.make_plain hp
  obtain ⟨hu, b, hb, hR⟩ := default_bipop (env := env) hk hp
  obtain ⟨l1, l2, l3, l4⟩ := Params.make_limits hp
  obtain ⟨l, N, hN⟩ := bipop_total hu.good.good hb hR
    (by intro k y; show Val (if p.maximize then _ else _); rw [u8]; exact hv k y) hpf
    fun _ hq hql => defaultRates_strict hq
      (hql.trans (by have := Params.make_lambda_le (by norm_num) hp; exact this))
  obtain ⟨e1, _⟩ := Bipop.new_start hu.good.good hb
  obtain ⟨runs, hI, hnum, hlast⟩ := bipop_runs hu.good.good hb (hN N le_rfl)
  obtain ⟨pre, r2, rfl, hr2⟩ := hlast (show 2 ≠ 0 by decide)
  have hpre : numLarge pre = 1 := by
    rw [numLarge_append, hr2] at hnum
    replace hnum : numLarge pre + 1 = 2 := by simpa using hnum
    omega
  obtain ⟨r1, small, rfl⟩ : ∃ r1 small, pre = r1 :: small := by
    cases pre with
    | nil => cases hpre
    | cons a b => exact ⟨a, b, rfl⟩
  obtain ⟨⟨g1, g1'⟩, _⟩ := hI.each [] r1 (small ++ [r2]) rfl
  have hr1 : r1.large = true := by
    by_contra hr
    exact absurd (g1' (by simpa using hr)).1 (lt_irrefl _)
  have hsm : numLarge small = 0 := by
    unfold numLarge at hpre ⊢
    rw [List.countP_cons, hr1] at hpre
    simpa using hpre
  have hall : ∀ r ∈ small, r.large = false := by
    unfold numLarge at hsm
    intro r hr
    have := List.countP_eq_zero.1 hsm r hr
    simpa using this
  obtain ⟨⟨g2, _⟩, _⟩ := hI.each (r1 :: small) r2 [] rfl
  obtain ⟨a1, a2, _⟩ := g1 hr1
  obtain ⟨c1, c2, _⟩ := g2 hr2
  have hst : r1.run.start = b.s := hI.hist.first r1.run rfl
  obtain ⟨k, hk1⟩ := hI.hist.done r1.run (by simp)
  rw [hst] at hk1
  have hvb : ValObjective env b.s.p := by
    intro k y
    have : b.s.p.maximize = false := by rw [e1]; exact u8
    rw [this]; exact hv k y
  obtain ⟨_, d2, _, _, d5, d6⟩ := hR.done hvb hk1
  have hcost : 0 < r1.run.cost := by
    unfold SubRun.cost
    rw [d5]
    refine Nat.mul_pos (Nat.pos_of_ne_zero (d2 fun q sol h => hpf _ q sol h)) ?_
    rw [d6]
    have := hR.good.good.lambda
    omega
  refine ⟨p, b, l, hp, hb, ⟨N, hN⟩, r1, r2, small, hI.hist, hr1, ?_, hr2, ?_, ?_, fun r hr => ⟨hall r hr, ?_⟩⟩
  · rw [a2]; simp [numLarge]
  · rw [c2, hpre]; show p.lambda * 2 ^ 1 = _; ring
  · rintro rfl
    unfold spent at c1
    simp only [List.filter_cons, hr1] at c1
    simp at c1
    omega
  · obtain ⟨pre', post', e⟩ := List.append_of_mem hr
    obtain ⟨⟨_, g3⟩, _⟩ := hI.each (r1 :: pre') r (post' ++ [r2]) (by rw [e]; simp)
    obtain ⟨_, ⟨half, q1, q2, q3, q4⟩, _⟩ := g3 (hall r hr)
    have hz : numLarge (r1 :: pre') - 1 = 0 := by
      have : numLarge pre' = 0 := by
        unfold numLarge at hsm ⊢
        rw [e, List.countP_append] at hsm
        omega
      unfold numLarge at this ⊢
      rw [List.countP_cons, hr1, this]
      simp
    rw [hz] at q1
    replace q1 : half = (p.lambda * 2 ^ 0 + 1) / 2 := q1
    replace q4 : r.run.start.p.lambda ≤ max p.lambda half := q4
    refine ⟨q2, q4.trans ?_⟩
    have := hu.good.good.lambda
    replace this : 2 ≤ p.lambda := this
    refine max_le le_rfl ?_
    rw [q1]
    omega

/-- **C54** fails if the progress function asks for a stop for good once the first run is under way: the runs with
small populations then cost nothing, and their regime never catches up.  So it is for the default set-up in any
dimension, whatever the objective and the draws. -/
theorem C54_stuck_false (hn : 1 ≤ n) (env : Env n) (kind : CovKind) (x0 : Vec n) (sigma : ℝ) (seed clock : ℕ)
    (hk : kind ≠ .vd) (hv : ∀ k y, Val (env.f k y)) (hp0 : ∀ q sol, env.pfunc 0 q sol = 0)
    (hp1 : ∀ k q sol, 1 ≤ k → env.pfunc k q sol ≠ 0) :
    ∃ p b, Params.make x0 sigma (-1) seed clock GenoPheno.plain = .ok p ∧
      Bipop.new env kind { p with nrestarts := 2 } = .ok b ∧
      ∀ fuel l, b.optimize env fuel ≠ .ok (some l) := by
  obtain ⟨p, hp, _⟩ := C11_weights hn x0 sigma (-1) seed clock GenoPheno.plain
  obtain ⟨u1, u2, u3, u4, u5, u6, u7, u8, u9, u10, u11, u12, u13, u14⟩ := Params.make_plain hp
  obtain ⟨l1, l2, l3, l4⟩ := Params.make_limits hp
  obtain ⟨hu, b, hb, hR⟩ := default_bipop (env := env) hk hp
  obtain ⟨e1, _, _, _, e5, _⟩ := Bipop.new_start hu.good.good hb
  refine ⟨p, b, hp, hb, fun fuel l h => ?_⟩
  obtain ⟨runs, hI, hnum, hlast⟩ := bipop_runs hu.good.good hb h
  obtain ⟨pre, r2, rfl, hr2⟩ := hlast (show 2 ≠ 0 by decide)
  have hpre : numLarge pre = 1 := by
    rw [numLarge_append, hr2] at hnum
    replace hnum : numLarge pre + 1 = 2 := by simpa using hnum
    omega
  obtain ⟨r1, small, rfl⟩ : ∃ r1 small, pre = r1 :: small := by
    cases pre with
    | nil => cases hpre
    | cons a b => exact ⟨a, b, rfl⟩
  obtain ⟨⟨g1, g1'⟩, _⟩ := hI.each [] r1 (small ++ [r2]) rfl
  have hr1 : r1.large = true := by
    by_contra hr
    exact absurd (g1' (by simpa using hr)).1 (lt_irrefl _)
  obtain ⟨⟨g2, _⟩, _⟩ := hI.each (r1 :: small) r2 [] rfl
  obtain ⟨c1, _⟩ := g2 hr2
  have hst : r1.run.start = b.s := hI.hist.first r1.run rfl
  obtain ⟨k, hk1⟩ := hI.hist.done r1.run (by simp)
  rw [hst] at hk1
  have hvb : ValObjective env b.s.p := by
    intro k y
    have : b.s.p.maximize = false := by rw [e1]; exact u8
    rw [this]; exact hv k y
  obtain ⟨_, d2, _, d4, d5, d6⟩ := hR.done hvb hk1
  have hcost : 0 < r1.run.cost := by
    unfold SubRun.cost
    rw [d5]
    refine Nat.mul_pos (Nat.pos_of_ne_zero (d2 fun q sol _ => by rw [e5]; exact hp0 q sol)) ?_
    rw [d6]
    have := hR.good.good.lambda
    omega
  have hlater : ∀ (i : ℕ) (r : SubRun n), (((r1 :: small) ++ [r2]).map BiRun.run)[i]? = some r →
      1 ≤ r.fin.npf ∧ (i ≠ 0 → r.cost = 0) := by
    intro i
    induction i with
    | zero =>
      intro r hr
      injection hr with hr
      subst hr
      exact ⟨by omega, fun h => absurd rfl h⟩
    | succ i ih =>
      intro r hr
      have hc := hI.chain
      obtain ⟨hi2, e⟩ := List.getElem?_eq_some_iff.1 hr
      have hi' : i < (((r1 :: small) ++ [r2]).map BiRun.run).length := by omega
      have hn := List.isChain_iff_getElem.1 hc i (by omega)
      rw [e] at hn
      have hprev := (ih _ (List.getElem?_eq_getElem hi')).1
      rw [← hn.npf] at hprev
      obtain ⟨b1, b2, b3⟩ := chain_begins hI.hist hc hR.begins hR.norestart hR.flags (i + 1) hr
      obtain ⟨k, hk1⟩ := hI.hist.done r (List.mem_of_getElem? hr)
      obtain ⟨x, hx, rfl⟩ := List.mem_map.1 (List.mem_of_getElem? hr)
      obtain ⟨pre', post', e'⟩ := List.append_of_mem hx
      obtain ⟨_, _, _, _, y, z, hset⟩ := hI.each pre' x post' e'
      unfold KeepsSettings at hset
      have hfin := optimize_at_once b1 b3 b2 (by rw [hset]; exact l2) (by rw [hset]; exact u4) (by rw [hset]; exact u5)
        (by rw [hset]; exact u7) (fun q sol => hp1 _ q sol hprev) hk1
      refine ⟨by rw [hfin]; show 1 ≤ x.run.start.npf + 1; omega, fun _ => ?_⟩
      unfold SubRun.cost
      rw [hfin]
      show x.run.start.sol.niter * _ = 0
      rw [b1.fresh.niter, Nat.zero_mul]
  have hz : spent false (r1 :: small) = 0 := by
    unfold spent
    rw [List.filter_cons_of_neg (by rw [hr1]; decide)]
    rw [List.sum_eq_zero_iff]
    intro x hx
    obtain ⟨r, hr, rfl⟩ := List.mem_map.1 hx
    obtain ⟨i, hi⟩ := List.mem_iff_getElem?.1 (List.mem_filter.1 hr).1
    refine (hlater (i + 1) r.run ?_).2 (by omega)
    have hlt := (List.getElem?_eq_some_iff.1 hi).1
    rw [List.getElem?_map]
    simp [List.getElem?_append_left hlt, hi]
  rw [hz] at c1
  unfold spent at c1
  simp only [List.filter_cons, hr1] at c1
  simp at c1
  omega

end Libcmaes
