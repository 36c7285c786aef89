import Verif.Lemmas.Plateau
import Verif.Spec.Plateau
import Verif.Props.StopCrit

/-!
# C105: on a plateau the search gives up after a definite number of iterations

`lookBack`, `FlatObjective`, `InfiniteObjective`: Spec/Plateau.lean; `UsualRun`: Spec/Usual.lean; `CritActive`,
`UniqueKeys`, `OnlyActive`: Spec/Stop.lean.  Codes: 1 TOLHISTFUN, 6 STAGNATION, -13 TOLUPSIGMA, -15 CONDITIONCOV.
-/

namespace Libcmaes

open Spec

variable {n : ℕ}

theorem Spec.FlatObjective.val {env : Env n} {p : Params n} {a b : ℝ} (h : FlatObjective env p a b) : ValObjective env p :=
  fun k y => by
    obtain ⟨r, _, _, h3, h4⟩ := h k y
    rw [h4]
    exact Or.inr ⟨r, h3, rfl⟩

theorem lookBack_pos (p : Params n) : 0 < lookBack p := by
  unfold lookBack
  generalize 30 * n / p.lambda = k
  split_ifs with h <;> omega

theorem lookBack_eq {p : Params n} {m : ℤ} (hm : m = maxHistOf p.maxHist n p.lambda) :
    min m.toNat (10 + 30 * n / p.lambda) = lookBack p := by
  unfold lookBack
  rw [hm]
  unfold maxHistOf
  split_ifs
  · rfl
  · omega

/-- On a plateau TOLHISTFUN holds from iteration `lookBack p` on. -/
theorem tolHistFun_plateau {env : Env n} {kind : CovKind} {p : Params n} {s s0 t : Strat n} {tr : List (List (Cand n))}
    {a b : ℝ} (hu : UsualRun kind p) (hf : FlatObjective env p a b) (hab : b - a < max p.ftolerance 1e-12)
    (h0 : Strat.new env kind p = .ok s) (h1 : s.evalInitial env = .ok s0) (h2 : LoopTo env s0 tr t) :
    TolHistFun t.p t.sol ↔ lookBack p ≤ tr.length := by
  have hst : Started env kind p s0 := Or.inl ⟨hu, s, h0, h1⟩
  obtain ⟨hL, hR, hv'⟩ := hst.live hf.val
  have hnew := Strat.new_ok h0
  have hneg : s.negate = p.maximize := hnew.2.2.2.2.2.2.2.2.2.1
  have hP : ∀ k y, Between a b (negIf s.negate (env.f k y)) := by
    intro k y
    obtain ⟨r, r1, r2, _, r4⟩ := hf k y
    rw [hneg]
    exact ⟨r, r1, r2, r4⟩
  obtain ⟨e1, e2, e3, e4, e5, e6, e7, _, e8⟩ := evalInitial_kept h1
  have hW := genRun_within h2.genRun hL hR (within_start h0 h1 hP) (medClosed_between a b) hv' (by rw [e5]; exact hP)
  obtain ⟨m, hm'⟩ : ∃ m : ℕ, s0.sol.maxHist = m := ⟨s0.sol.maxHist.toNat, by have := hR.maxHist; omega⟩
  obtain ⟨r1, _, r3, _⟩ := run_p h2.askRun.run
  have hbf : s0.sol.bestHist = [] ∧ s0.sol.kBestHist = [] ∧ s0.sol.bfvalues = [] := by
    have hfr := hnew.2.2.2.2.2.1
    rcases Strat.evalInitial_frame h1 with e | ⟨y, v, _, _, e⟩
    · rw [e]; exact ⟨hfr.bestHist, hfr.kBestHist, hfr.bfvalues⟩
    · rw [e]; exact ⟨hfr.bestHist, hfr.kBestHist, hfr.bfvalues⟩
  obtain ⟨hb, _⟩ := C21_bounded env s0 t tr m (by have := hR.maxHist; omega) hm' hbf.1 hbf.2.1 hbf.2.2 h2.askRun.run
  have hp : t.p = { p with sigmaInit := s.sol.sigma } := by rw [r1, e1, hnew.2.2.2.1]
  have hmh : t.sol.maxHist = maxHistOf p.maxHist n p.lambda := by
    rw [r3, e8]; exact hnew.2.2.2.2.2.2.2.2.2.2.2.2.2.2.1
  have hlb : min t.sol.maxHist.toNat (10 + 30 * n / t.p.lambda) = lookBack p := by
    rw [hp]; exact lookBack_eq hmh
  have hmt : t.sol.maxHist = m := by rw [r3, hm']
  unfold TolHistFun
  simp only
  rw [hlb]
  have hle : lookBack p ≤ m := by rw [← hlb, hmt]; simp
  constructor
  · rintro ⟨h, _⟩
    rw [hb] at h
    omega
  · intro h
    refine ⟨by rw [hb]; omega, ?_⟩
    intro c hc d hd
    obtain ⟨x, x1, x2, hx⟩ := hW.best c (List.mem_of_mem_drop hc)
    obtain ⟨y, y1, y2, hy⟩ := hW.best d (List.mem_of_mem_drop hd)
    refine ⟨x, y, hx, hy, lt_of_le_of_lt ?_ (show b - a < max t.p.ftolerance 1e-12 by rw [hp]; exact hab)⟩
    rw [abs_le]; constructor <;> linarith

/-- **C105.** TOLHISTFUN active, objective flat up to the function tolerance (any elitism but that on restart, default or
active update, full or diagonal): whatever the draws, `optimize()` ends with a result after at most
`lookBack p = min(max_hist, 10 + 30n/λ)` iterations; and if it takes that many and the progress function did not stop
it, it reports TOLHISTFUN, unless one of the two numerical failures was there at the same time. -/
theorem C105_plateau (env : Env n) (kind : CovKind) (p : Params n) (s : Strat n) (a b : ℝ) (hu : UsualRun kind p)
    (hk : UniqueKeys p) (hf : FlatObjective env p a b) (hab : b - a < max p.ftolerance 1e-12)
    (hg : ∀ x : Vec n, ∃ y : Vec n, phenoV p.gp x = .ok y) (he : p.withEdm = false)
    (hr : p.initialElitistOnRestart = false) (ha : CritActive p 1) (h0 : Strat.new env kind p = .ok s) :
    ∃ s', (∀ fuel, lookBack p + 1 ≤ fuel → s.optimize env fuel = .ok (some s')) ∧ s'.niter ≤ lookBack p ∧
      (s'.niter = lookBack p → s'.sol.runStatus ≠ 0 →
        s'.sol.runStatus = 1 ∨ s'.sol.runStatus = -13 ∨ s'.sol.runStatus = -15) := by
  have hv := hf.val
  have hnew := Strat.new_ok h0
  obtain ⟨h1, h2, h3⟩ := optimize_ends (env := env) (s := s) (N := lookBack p)
    (by rw [hnew.2.2.2.1]; exact hr) fun s0 tr t t' i1 i2 i3 hs => by
      have hst : Started env kind p s0 := Or.inl ⟨hu, s, h0, i1⟩
      obtain ⟨hL, hR, hv'⟩ := hst.live hv
      obtain ⟨hL', hR', _⟩ := genRun_live i2.genRun hL hR hv'
      obtain ⟨_, e2, e3, _⟩ := evalInitial_kept i1
      obtain ⟨_, _, _, r4, _, _, r7, _⟩ := run_p i2.askRun.run
      have hc : FlagsOf p t.crit := by rw [r7, e2]; exact new_crit h0 hk
      have hpos := lookBack_pos p
      rcases (stop_false hs).2.2 with ⟨h2, _⟩ | ⟨h2', h2, _⟩
      · rw [r4, e3, hnew.2.2.2.2.2.2.1] at h2; omega
      · have := stopCrit_zero h2 1 ((hc.mem 1).2 ha)
        rw [show critFun env.fladd 1 t.p t.sol = critTolHistFun t.p t.sol from rfl] at this
        classical
        rw [crit_tolHistFun (hR'.ready hL'.toLiveCore h2'), if_pos ((tolHistFun_plateau hu hf hab h0 i1 i2).2 i3)] at this
        injection this with this
        cases this
  obtain ⟨s', hs'⟩ := ends_well hu.good (begins_new h0) (esSound_new h0) (new_crit h0 hk) hv hg he hr (lookBack p + 1) h2
  have hni : s'.niter ≤ lookBack p := by
    have := h3 s' hs'
    rwa [hnew.2.2.2.2.2.2.1, Nat.zero_add] at this
  refine ⟨s', fun fuel hfu => by rw [h1 fuel hfu, hs'], hni, fun hN hne => ?_⟩
  obtain ⟨c1, c2, c3⟩ := C48_criterion env kind p s s' _ hu hv h0 hk hr he hs' hne
  obtain ⟨s0, tr, t, i1, i2, i3, i4, i5, i6, i7, i8, i9, i10⟩ := optimize_end (begins_new h0) (new_crit h0 hk) hr he hs'
  obtain ⟨k, r, e⟩ := Strat.stop_frame i3
  have htr : tr.length = lookBack p := by rw [← i6, ← hN, e]
  have hT : TolHistFun s'.p s'.sol := by
    have := (tolHistFun_plateau hu hf hab h0 i1 i2).2 htr.ge
    rw [e]; exact this
  have hle : s'.sol.runStatus ≤ 1 := by
    by_contra hlt
    exact c3 1 (by omega) ha (by unfold Fires; simp [hT])
  have hmem := c1.1
  unfold stopCodes at hmem
  simp only [List.mem_cons, List.not_mem_nil, or_false] at hmem
  omega

/-- **C105**, nothing else active and no progress function: exactly `lookBack p` iterations, and TOLHISTFUN is
reported. -/
theorem C105_exact (env : Env n) (kind : CovKind) (p : Params n) (s : Strat n) (a b : ℝ) (hu : UsualRun kind p)
    (hk : UniqueKeys p) (hf : FlatObjective env p a b) (hab : b - a < max p.ftolerance 1e-12)
    (hg : ∀ x : Vec n, ∃ y : Vec n, phenoV p.gp x = .ok y) (he : p.withEdm = false)
    (hr : p.initialElitistOnRestart = false) (ha : OnlyActive p 1) (hpf : ∀ k q sol, env.pfunc k q sol = 0)
    (h0 : Strat.new env kind p = .ok s) :
    ∃ s', (∀ fuel, lookBack p + 1 ≤ fuel → s.optimize env fuel = .ok (some s')) ∧ s'.niter = lookBack p ∧
      s'.sol.runStatus = 1 ∧ s'.retCode = 0 := by
  have hv := hf.val
  obtain ⟨s', h1, h2, _⟩ := C105_plateau env kind p s a b hu hk hf hab hg he hr ha.1 h0
  have hs' := h1 _ le_rfl
  obtain ⟨s0, tr, t, i1, i2, i3, i4, i5, i6, i7, i8, i9, i10⟩ := optimize_end (begins_new h0) (new_crit h0 hk) hr he hs'
  rcases i10 with ⟨x, _⟩ | ⟨_, hn, c, hc, hcf, _, e⟩
  · exact absurd (hpf _ _ _) x
  · have hc1 := ha.2 c hc
    subst hc1
    have hst : Started env kind p s0 := Or.inl ⟨hu, s, h0, i1⟩
    obtain ⟨hL, hR, hv'⟩ := hst.live hv
    obtain ⟨hL', hR', _⟩ := genRun_live i2.genRun hL hR hv'
    rw [show critFun env.fladd 1 t.p t.sol = critTolHistFun t.p t.sol from rfl] at hcf
    classical
    rw [crit_tolHistFun (hR'.ready hL'.toLiveCore hn)] at hcf
    injection hcf with hcf
    have hT : TolHistFun t.p t.sol := by
      by_contra hx
      rw [if_neg hx] at hcf
      cases hcf
    have := (tolHistFun_plateau hu hf hab h0 i1 i2).1 hT
    refine ⟨s', h1, le_antisymm h2 ?_, by rw [e], by rw [e]; rfl⟩
    rw [e]
    show _ ≤ t.niter
    rw [i6]; exact this

/-- **C105** for an objective that is `+∞` everywhere (an infeasible region): TOLHISTFUN does not recognise this plateau
(`∞ - ∞` is NaN), and it is STAGNATION which ends the run, after at most 20 iterations; the return value says success
unless a numerical failure was found. -/
theorem C105_infinite (env : Env n) (kind : CovKind) (p : Params n) (s : Strat n) (hu : UsualRun kind p)
    (hk : UniqueKeys p) (hf : InfiniteObjective env p) (hg : ∀ x : Vec n, ∃ y : Vec n, phenoV p.gp x = .ok y)
    (he : p.withEdm = false) (hr : p.initialElitistOnRestart = false) (ha : CritActive p 6)
    (h0 : Strat.new env kind p = .ok s) :
    ∃ s', (∀ fuel, 21 ≤ fuel → s.optimize env fuel = .ok (some s')) ∧ s'.niter ≤ 20 ∧ s'.sol.runStatus ≠ 1 ∧
      (s'.niter = 20 → s'.sol.runStatus ≤ 6) := by
  have hv : ValObjective env p := fun k y => by rw [hf k y]; exact Or.inl rfl
  have hnew := Strat.new_ok h0
  have hneg : s.negate = p.maximize := hnew.2.2.2.2.2.2.2.2.2.1
  have hP : ∀ k y, negIf s.negate (env.f k y) = .num ⊤ := by
    intro k y; rw [hneg]; exact hf k y
  have key : ∀ s0 tr t, s.evalInitial env = .ok s0 → LoopTo env s0 tr t →
      ¬ (t.niter ≠ 0 ∧ TolHistFun t.p t.sol) ∧ (20 ≤ tr.length → Stagnation t.sol) := by
    intro s0 tr t i1 i2
    have hst : Started env kind p s0 := Or.inl ⟨hu, s, h0, i1⟩
    obtain ⟨hL, hR, hv'⟩ := hst.live hv
    obtain ⟨e1, e2, e3, e4, e5, e6, e7, _, e8⟩ := evalInitial_kept i1
    have hW := genRun_within i2.genRun hL hR (within_start h0 i1 hP) medClosed_top hv' (by rw [e5]; exact hP)
    have hmd := genRun_medians i2.genRun
    obtain ⟨m, hm'⟩ : ∃ m : ℕ, s0.sol.maxHist = m := ⟨s0.sol.maxHist.toNat, by have := hR.maxHist; omega⟩
    have hbf : s0.sol.bestHist = [] ∧ s0.sol.kBestHist = [] ∧ s0.sol.bfvalues = [] := by
      have hfr := hnew.2.2.2.2.2.1
      rcases Strat.evalInitial_frame i1 with e | ⟨y, v, _, _, e⟩
      · rw [e]; exact ⟨hfr.bestHist, hfr.kBestHist, hfr.bfvalues⟩
      · rw [e]; exact ⟨hfr.bestHist, hfr.kBestHist, hfr.bfvalues⟩
    obtain ⟨hb, _, hbl⟩ := C21_bounded env s0 t tr m (by have := hR.maxHist; omega) hm' hbf.1 hbf.2.1 hbf.2.2 i2.askRun.run
    obtain ⟨r1, _, r3, r4, _⟩ := run_p i2.askRun.run
    constructor
    · rintro ⟨hn, h1, h2⟩
      have hmp := hR.maxHist
      have hk1 : 0 < min t.sol.maxHist.toNat (10 + 30 * n / t.p.lambda) := by
        rw [r3]; generalize 30 * n / t.p.lambda = k; omega
      obtain ⟨c, hc⟩ : ∃ c, c ∈ lastN (min t.sol.maxHist.toNat (10 + 30 * n / t.p.lambda)) t.sol.bestHist := by
        refine List.exists_mem_of_length_pos ?_
        unfold lastN
        rw [List.length_drop]
        omega
      obtain ⟨x, y, h3, _⟩ := h2 c hc c hc
      rw [hW.best c (List.mem_of_mem_drop hc)] at h3
      injection h3 with h3
      exact absurd h3 (EReal.coe_ne_top x).symm
    · intro hl
      refine ⟨by omega, by omega, List.replicate 20 ⊤, List.replicate 20 ⊤, ⊤, ⊤, ?_, ?_, ?_, ?_, le_rfl⟩
      · rw [List.map_replicate]
        exact List.eq_replicate_iff.2 ⟨by omega, hW.bf⟩
      · rw [List.map_replicate]
        exact List.eq_replicate_iff.2 ⟨by rw [List.length_take]; omega, fun v hv => hW.med v (List.mem_of_mem_take hv)⟩
      all_goals
        refine ⟨List.replicate 20 ⊤, List.Perm.refl _, ?_, ⊤, ⊤, by simp, by simp, ?_⟩
        · exact List.pairwise_replicate.2 (Or.inr le_rfl)
        · rw [EReal.top_add_of_ne_bot (by simp), EReal.top_mul_coe_of_pos (by norm_num)]
  obtain ⟨h1, h2, h3⟩ := optimize_ends (env := env) (s := s) (N := 20)
    (by rw [hnew.2.2.2.1]; exact hr) fun s0 tr t t' i1 i2 i3 hs => by
      have hst : Started env kind p s0 := Or.inl ⟨hu, s, h0, i1⟩
      obtain ⟨hL, hR, hv'⟩ := hst.live hv
      obtain ⟨hL', hR', _⟩ := genRun_live i2.genRun hL hR hv'
      obtain ⟨_, e2, e3, _⟩ := evalInitial_kept i1
      obtain ⟨_, _, _, r4, _, _, r7, _⟩ := run_p i2.askRun.run
      have hc : FlagsOf p t.crit := by rw [r7, e2]; exact new_crit h0 hk
      rcases (stop_false hs).2.2 with ⟨h2, _⟩ | ⟨h2', h2, _⟩
      · rw [r4, e3, hnew.2.2.2.2.2.2.1] at h2; omega
      · have := stopCrit_zero h2 6 ((hc.mem 6).2 ha)
        rw [show critFun env.fladd 6 t.p t.sol = critStagnation t.p t.sol from rfl] at this
        classical
        rw [crit_stagnation (hR'.ready hL'.toLiveCore h2'), if_pos ((key s0 tr t i1 i2).2 i3)] at this
        injection this with this
        cases this
  obtain ⟨s', hs'⟩ := ends_well hu.good (begins_new h0) (esSound_new h0) (new_crit h0 hk) hv hg he hr 21 h2
  have hni : s'.niter ≤ 20 := by
    have := h3 s' hs'
    rwa [hnew.2.2.2.2.2.2.1, Nat.zero_add] at this
  obtain ⟨s0, tr, t, i1, i2, i3, i4, i5, i6, i7, i8, i9, i10⟩ := optimize_end (begins_new h0) (new_crit h0 hk) hr he hs'
  obtain ⟨k, r, e⟩ := Strat.stop_frame i3
  refine ⟨s', fun fuel hfu => by rw [h1 fuel hfu, hs'], hni, fun hst => ?_, fun hN => ?_⟩
  · obtain ⟨_, c2, _⟩ := C48_criterion env kind p s s' _ hu hv h0 hk hr he hs' (by rw [hst]; decide)
    rw [hst] at c2
    unfold Fires at c2
    simp only [Int.reduceEq, Int.reduceNeg, false_and, true_and, false_or, or_false] at c2
    rcases i10 with ⟨_, e'⟩ | ⟨_, hn, _⟩
    · rw [e'] at hst
      have : t.sol.runStatus = 1 := hst
      omega
    · refine (key s0 tr t i1 i2).1 ⟨hn, ?_⟩
      rw [e] at c2; exact c2
  · by_cases hz : s'.sol.runStatus = 0
    · omega
    · obtain ⟨_, _, c3⟩ := C48_criterion env kind p s s' _ hu hv h0 hk hr he hs' hz
      by_contra hlt
      refine c3 6 (by omega) ha ?_
      have htr : 20 ≤ tr.length := by rw [← i6, ← hN, e]
      have := (key s0 tr t i1 i2).2 htr
      unfold Fires
      rw [e]
      simp only [Int.reduceEq, Int.reduceNeg, false_and, true_and, false_or, or_false]
      exact this

/-- The default set-up in any dimension meets the hypotheses: for every starting point, step size, sequence of draws and
progress function, a search on an objective that is constant ends after at most `10 + 30n/λ` iterations, and one on an
objective that is `+∞` everywhere after at most 20. -/
theorem C105_default (hn : 1 ≤ n) (env : Env n) (kind : CovKind) (x0 : Vec n) (sigma : ℝ) (seed clock : ℕ)
    (hk : kind ≠ .vd) (v : EReal) (hv : v = ⊤ ∨ ∃ r : ℝ, |r| ≤ dblMax ∧ v = r) (hf : ∀ k y, env.f k y = .num v) :
    ∃ p s s', Params.make x0 sigma (-1) seed clock GenoPheno.plain = .ok p ∧ Strat.new env kind p = .ok s ∧
      (∃ N, ∀ fuel, N ≤ fuel → s.optimize env fuel = .ok (some s')) ∧
      s'.niter ≤ (if v = ⊤ then 20 else 10 + 30 * n / p.lambda) := by
  obtain ⟨p, hp, _⟩ := C11_weights hn x0 sigma (-1) seed clock GenoPheno.plain
  obtain ⟨hu, hgp, _⟩ := usual_default (by norm_num) hp hk
  obtain ⟨s, hs⟩ := new_plain (env := env) (kind := kind) hgp hu.configured.good.1
  have hfl : p.maximize = false ∧ p.stoppingCrit = [] ∧ p.withEdm = false ∧ p.initialElitistOnRestart = false ∧
      p.maxHist = -1 := by
    have hp' := hp
    unfold Params.make at hp'
    obtain ⟨l, -, hp'⟩ := Out.bind_eq_ok.1 hp'
    obtain ⟨mu, w, muw, cs, cc, c1, cm, ds, fs, fc, ch, lv, rl, al, e⟩ := initializeParameters_frame hp'
    rw [e]; exact ⟨rfl, rfl, rfl, rfl, rfl⟩
  obtain ⟨f1, f2, f3, f4, f5⟩ := hfl
  have hk' : UniqueKeys p := by rw [UniqueKeys, f2]; simp
  have hg : ∀ x : Vec n, ∃ y : Vec n, phenoV p.gp x = .ok y := by
    intro x; rw [hgp, phenoV_plain]; exact ⟨_, rfl⟩
  rcases hv with rfl | ⟨r, hr, rfl⟩
  · obtain ⟨s', h1, h2, _⟩ := C105_infinite env kind p s hu.run hk' (by intro k y; rw [f1]; exact hf k y) hg f3 f4
      (by rw [CritActive, f2]; decide) hs
    exact ⟨p, s, s', hp, hs, ⟨21, h1⟩, by rw [if_pos rfl]; exact h2⟩
  · obtain ⟨s', h1, h2, _⟩ := C105_plateau env kind p s r r hu.run hk'
      (by intro k y; rw [f1]; exact ⟨r, le_rfl, le_rfl, hr, hf k y⟩)
      (by rw [sub_self]; exact lt_of_lt_of_le (by norm_num) (le_max_right _ _)) hg f3 f4
      (by rw [CritActive, f2]; decide) hs
    refine ⟨p, s, s', hp, hs, ⟨_, h1⟩, ?_⟩
    rw [if_neg (EReal.coe_ne_top r)]
    unfold lookBack at h2
    rwa [if_neg (by rw [f5]; omega)] at h2

end Libcmaes
