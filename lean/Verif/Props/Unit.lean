import Verif.Lemmas.Unit
import Verif.Lemmas.UnitWit
import Verif.Props.Plateau
import Verif.Props.Shift

/-!
# C117: the unit in which the objective is measured

`timesBy`: Spec/Unit.lean; `BlindToValues`, `SameEnd`: Spec/Shift.lean; `ValObjective`, `CritActive`, `UniqueKeys`: Spec/Stop.lean;
`UsualRun`: Spec/Usual.lean.
-/

namespace Libcmaes

open Spec Finset

variable {n : ℕ}

/-- **C117**, TOLHISTFUN switched off.  Searching `c f`, `c > 0`, in place of `f`, with the target value multiplied by `c`,
`optimize()` goes through the same search to the end: it stops after the same number of iterations and evaluations, for the same
reason, with the same distribution and the same points, whose values are multiplied by `c`.  All the other stopping criteria,
elitism but that on restart, bounds, scaling, fixed parameters; full or diagonal covariance, default or active update. -/
theorem C117_factor_partial (env : Env n) (kind : CovKind) (p : Params n) (c : ℝ) (s : Strat n) (hu : UsualRun kind p)
    (hpos : 0 < c) (hk : UniqueKeys p) (hq : ¬ CritActive p 1)
    (he : p.withEdm = false) (hr : p.initialElitistOnRestart = false) (hb : BlindToValues env) (hv : ValObjective env p)
    (hv' : ValObjective { env with f := fun k x => timesBy c (env.f k x) } p) (h0 : Strat.new env kind p = .ok s) :
    ∃ s', Strat.new { env with f := fun k x => timesBy c (env.f k x) } kind
        { p with ftarget := timesBy c p.ftarget } = .ok s' ∧
      ∀ fuel,
        (∀ t, s.optimize env fuel = .ok (some t) →
          ∃ t', s'.optimize { env with f := fun k x => timesBy c (env.f k x) } fuel = .ok (some t') ∧
            SameEnd (timesBy c) t t') ∧
        (s.optimize env fuel = .ok none →
          s'.optimize { env with f := fun k x => timesBy c (env.f k x) } fuel = .ok none) := by
  set env' : Env n := { env with f := fun k x => timesBy c (env.f k x) } with henv'
  set D := timesAff n c p.maximize p.ftarget with hD
  have hpar : D.par p = { p with ftarget := timesBy c p.ftarget } := by rw [hD, timesAff_par]
  have hE : TimesEnv c p.maximize env env' := ⟨rfl, rfl, rfl, rfl, rfl, fun k x => neg_timesBy c _ _, hpos, hb, hv, hv'⟩
  obtain ⟨J, r0, hc⟩ := Aff.new_map (D := D) one_pos (env' := env') rfl (Or.inr rfl)
    (fun m hm => by rw [hpar, hD, timesAff_pt]; exact hm) h0
  have hnew := Strat.new_ok h0
  have hfl : FlagsOf p s.crit := new_crit h0 hk
  have hB := begins_new h0
  have hneg : s.negate = p.maximize := hB.negate
  have hsp := hB.params
  have hmed : J.med = [] := (Strat.new_ok r0).2.2.2.2.2.1.medianFvalues
  have hmed0 : s.sol.medianFvalues = [] := hnew.2.2.2.2.2.1.medianFvalues
  have hg := hu.good
  have hg' : GoodRun kind (D.par p) := by
    rw [hpar]
    exact ⟨⟨hg.good.dim, hg.good.lambda, hg.good.mu, ⟨hg.good.weights.1, hg.good.weights.2, hg.good.weights.3, hg.good.weights.4⟩,
      by cases hg.good.rates; constructor <;> assumption, hg.good.muw, hg.good.chi, hg.good.alphathuh, hg.good.rlambda, hg.good.fixed_lt, hg.good.fixed_nodup,
      hg.good.fixed_len⟩, ⟨hg.strict.1, hg.strict.2⟩, hg.update, hg.vd, hg.lazy, hg.grad, hg.uh, hg.tpa⟩
  refine ⟨D.st J s, by rw [← hpar]; exact r0, ?_⟩
  have key : ∀ fuel o, s.optimize env fuel = .ok o → match o with
      | none => (D.st J s).optimize env' fuel = .ok none
      | some t => ∃ t', (D.st J s).optimize env' fuel = .ok (some t') ∧ SameEnd (timesBy c) t t' := by
    intro fuel o h
    cases fuel with
    | zero => injection h with h; subst h; rfl
    | succ k =>
      unfold Strat.optimize at h
      obtain ⟨s0, h1, h⟩ := Out.bind_eq_ok.1 h
      obtain ⟨o1, h2, h⟩ := Out.bind_eq_ok.1 h
      obtain ⟨J0, r1, hc0, hm0⟩ := evalInitial_times hE hc hneg h1
      obtain ⟨k1, k2, k3, k4, k5, k6, k7, k8, k9⟩ := evalInitial_kept h1
      obtain ⟨hL, hR⟩ := start_live hg hB (esSound_new h0) h1 hv
      obtain ⟨hL', hR'⟩ := start_live hg' (begins_new r0) (esSound_new r0) r1 (by rw [hpar]; exact hv')
      have hm1 : s0.sol.medianFvalues = [] := by
        rcases Strat.evalInitial_frame h1 with e | ⟨y, v, _, _, e⟩ <;> rw [e] <;> exact hmed0
      have hP : TimesPair c p.maximize p.ftarget J0 s0 := by
        refine ⟨hc0, hL, hR, hL', hR', by rw [hm0, hmed, hm1]; rfl, fun hn => absurd ?_ hn, by rw [k5, hneg],
          by rw [k1, hsp], by rw [k1, hsp]; exact hg.grad, by rw [k1, hsp]; exact hg.good.weights.sum_one,
          by rw [k1, hsp]; exact he, by rw [k1, hsp]; exact hr,
          fun h => hq ((hfl.mem 1).1 (by rw [← k2]; exact h))⟩
        rw [k3, hB.niter]
      have hl := hP.loop hE (k + 1) h2
      cases o1 with
      | none =>
        injection h with h
        subst h
        show (D.st J s).optimize env' (k + 1) = .ok none
        unfold Strat.optimize
        rw [r1, Out.ok_bind, hl, Out.ok_bind]
        rfl
      | some t =>
        obtain ⟨J1, r2, hP1⟩ := hl
        have hew := hP1.edm
        have her := hP1.restart
        simp only [hew, Bool.false_eq_true, if_false] at h
        change (t.wantsRestart >>= _) = _ at h
        rw [wantsRestart_off her, Out.ok_bind] at h
        injection h with h
        subst h
        refine ⟨D.st J1 t, ?_, ⟨rfl, rfl, rfl, timesAff_same, fun hn => ?_⟩⟩
        · unfold Strat.optimize
          rw [r1, Out.ok_bind, r2, Out.ok_bind]
          show (if t.p.withEdm then (D.st J1 t).edm env' else pure (D.st J1 t)) >>= _ = _
          rw [hew]
          show ((D.st J1 t).wantsRestart >>= _) = _
          rw [wantsRestart_off (s := D.st J1 t) her, Out.ok_bind]
          rfl
        · have := Aff.points (D := D) (J := J1) (s := t) (hP1.past hn).2 (hP1.past hn).1
          rw [hD, timesAff_pt] at this
          exact this
  exact fun fuel => ⟨fun t h => key fuel _ h, fun h => key fuel _ h⟩


/-- **C117**, TOLHISTFUN active: for every objective with values in `[-B, B]`, and every factor `c` with `2 B c` below the function
tolerance, the search of `c f` ends after at most `lookBack p = min(max_hist, 10 + 30n/λ)` iterations, whatever there is to be
found. -/
theorem C117_short (env : Env n) (kind : CovKind) (p : Params n) (s : Strat n) (B c : ℝ) (hu : UsualRun kind p)
    (hk : UniqueKeys p) (hc : 0 < c) (hB : ∀ k y, ∃ v : ℝ, |v| ≤ B ∧ env.f k y = .num (v : EReal))
    (hsmall : 2 * (B * c) < max p.ftolerance 1e-12) (hmax : B * c ≤ dblMax)
    (hg : ∀ x : Vec n, ∃ y : Vec n, phenoV p.gp x = .ok y) (he : p.withEdm = false)
    (hr : p.initialElitistOnRestart = false) (ha : CritActive p 1)
    (h0 : Strat.new { env with f := fun k x => timesBy c (env.f k x) } kind p = .ok s) :
    ∃ s', (∀ fuel, lookBack p + 1 ≤ fuel →
        s.optimize { env with f := fun k x => timesBy c (env.f k x) } fuel = .ok (some s')) ∧ s'.niter ≤ lookBack p := by
  obtain ⟨s', h1, h2, _⟩ := C105_plateau { env with f := fun k x => timesBy c (env.f k x) } kind p s (-(B * c)) (B * c) hu hk
    (fun k y => by
      obtain ⟨v, hv, e⟩ := hB k y
      have hvc : |v * c| ≤ B * c := by
        rw [abs_mul, abs_of_pos hc]
        exact mul_le_mul_of_nonneg_right hv hc.le
      have e' : timesBy c (env.f k y) = .num ((v * c : ℝ) : EReal) := by
        rw [e]
        exact congrArg FVal.num (EReal.coe_mul v c).symm
      by_cases hm : p.maximize = true
      · refine ⟨-(v * c), by have := (abs_le.1 hvc).2; linarith, by have := (abs_le.1 hvc).1; linarith,
          by rw [abs_neg]; exact hvc.trans hmax, ?_⟩
        show (if p.maximize = true then (timesBy c (env.f k y)).neg else _) = _
        rw [if_pos hm, e']
        exact congrArg FVal.num (EReal.coe_neg _).symm
      · refine ⟨v * c, (abs_le.1 hvc).1, (abs_le.1 hvc).2, hvc.trans hmax, ?_⟩
        show (if p.maximize = true then _ else timesBy c (env.f k y)) = _
        rw [if_neg hm, e']) (by linarith) hg he hr ha h0
  exact ⟨s', h1, h2⟩

/-- **C117** is false with TOLHISTFUN, whose tolerance is not relative: an objective whose first `λ` calls return 0 and all later ones
1, TOLHISTFUN alone.  Multiplied by any `c ≤ 1e-13`, the search ends after `lookBack p` iterations; as it is, the search goes on. -/
theorem C117_unit_false (env : Env n) (kind : CovKind) (p : Params n) (s s' : Strat n) (c : ℝ) (hu : UsualRun kind p)
    (hk : UniqueKeys p) (ha : OnlyActive p 1) (hc : 0 < c) (hc1 : c ≤ 1e-13)
    (hf : ∀ j y, env.f j y = if j < p.lambda then .num 0 else .num 1)
    (hg : ∀ x : Vec n, ∃ y : Vec n, phenoV p.gp x = .ok y) (hmx : p.maximize = false) (hiv : p.initialFvalue = false)
    (hel : p.elitist = false ∧ p.initialElitist = false ∧ p.initialElitistOnRestart = false) (he : p.withEdm = false)
    (htol : p.ftolerance ≤ 1) (hlb : 2 ≤ lookBack p) (hpf : ∀ k q sol, env.pfunc k q sol = 0)
    (h0 : Strat.new env kind p = .ok s)
    (h0' : Strat.new { env with f := fun k x => timesBy c (env.f k x) } kind p = .ok s') :
    (∃ t', (∀ fuel, lookBack p + 1 ≤ fuel →
        s'.optimize { env with f := fun k x => timesBy c (env.f k x) } fuel = .ok (some t')) ∧ t'.niter = lookBack p) ∧
      ∀ fuel t, s.optimize env fuel = .ok (some t) → lookBack p < t.niter := by
  constructor
  · obtain ⟨t', h1, h2, _⟩ := C105_exact { env with f := fun k x => timesBy c (env.f k x) } kind p s' 0 c hu hk
      (fun k y => by
        have := dblMax_ge
        rw [hmx]
        show ∃ r : ℝ, 0 ≤ r ∧ r ≤ c ∧ |r| ≤ dblMax ∧ timesBy c (env.f k y) = .num (r : EReal)
        rw [hf]
        split_ifs
        · exact ⟨0, le_rfl, hc.le, by rw [abs_zero]; linarith, congrArg FVal.num (by simp)⟩
        · exact ⟨c, hc.le, le_rfl, by rw [abs_of_pos hc]; norm_num at hc1 ⊢; linarith, congrArg FVal.num (one_mul _)⟩)
      (by
        refine lt_of_lt_of_le ?_ (le_max_right _ _)
        norm_num at hc1 ⊢
        linarith) hg he hel.2.2 ha hpf h0'
    exact ⟨t', h1, h2⟩
  · intro fuel u hopt
    have hv : ValObjective env p := fun k y => by rw [hmx]; exact lowFirst_val hf k y
    obtain ⟨s0, tr, t, i1, i2, i3, i4, i5, i6, i7, i8, i9, i10⟩ :=
      optimize_end (begins_new h0) (new_crit h0 hk) hel.2.2 he hopt
    rcases i10 with ⟨x, _⟩ | ⟨_, hn, d, hd, hcf, _, e⟩
    · exact absurd (hpf _ _ _) x
    have hd1 := ha.2 d hd
    subst hd1
    have hst : Started env kind p s0 := Or.inl ⟨hu, s, h0, i1⟩
    obtain ⟨hL, hR, hv'⟩ := hst.live hv
    obtain ⟨hL', hR', _⟩ := genRun_live i2.genRun hL hR hv'
    rw [show critFun env.fladd 1 t.p t.sol = critTolHistFun t.p t.sol from rfl] at hcf
    classical
    rw [crit_tolHistFun (hR'.ready hL'.toLiveCore hn)] at hcf
    injection hcf with hcf
    have hT : TolHistFun t.p t.sol := by
      by_contra hx
      rw [if_neg hx] at hcf
      cases hcf
    have hnew := Strat.new_ok h0
    obtain ⟨e1, e2, e3, e4, e5, e6, e7, _, e8⟩ := evalInitial_kept i1
    obtain ⟨m, hm'⟩ : ∃ m : ℕ, s0.sol.maxHist = m := ⟨s0.sol.maxHist.toNat, by have := hR.maxHist; omega⟩
    have hm0 : 0 < m := by have := hR.maxHist; omega
    have hfr := hnew.2.2.2.2.2.1
    have hsp : s.p = { p with sigmaInit := s.sol.sigma } := hnew.2.2.2.1
    have hs0 : s0 = s := by
      unfold Strat.evalInitial at i1
      have hie : s.initialElitist = false := hnew.2.2.2.2.2.2.2.2.2.2.2.2.2.2.2.2.2.2.2
      rw [if_neg (by rw [hie, hsp]; simp [hel.1, hel.2.1, hiv])] at i1
      injection i1 with i1
      exact i1.symm
    have hLow : LowFirst m s0 0 s0 := by
      refine ⟨hL, hR, rfl, ?_, ?_, [], [], ⟨hm', rfl, ?_, ?_, ?_⟩, rfl, fun i c h => by cases h⟩
      · rw [e5, (begins_new h0).negate, hmx]
      · rw [hs0, hnew.2.2.2.2.2.2.2.2.1]; simp
      · rw [hs0, hfr.bestHist]; simp [lastN]
      · rw [hs0, hfr.kBestHist]; simp [lastN]
      · rw [hs0, hfr.bfvalues]; simp [lastN]
    have hlam : s0.p.lambda = p.lambda := by rw [e1, hsp]
    obtain ⟨bests, ks, hi, b1, b2⟩ := (genRun_lowFirst hm0 (by rw [hlam]; exact hf) (by rw [e1, hsp]; exact hu.good.grad)
      (by rw [e1, hsp]; exact hel) hLow i2.genRun).hist
    have hun : u.niter = tr.length := by rw [e]; exact i6
    rw [hun]
    have hmh : t.sol.maxHist = maxHistOf p.maxHist n p.lambda := by
      rw [(run_p i2.askRun.run).2.2.1, e8]; exact hnew.2.2.2.2.2.2.2.2.2.2.2.2.2.2.1
    have hwin : min t.sol.maxHist.toNat (10 + 30 * n / t.p.lambda) = lookBack p := by
      rw [i5]; exact lookBack_eq hmh
    unfold TolHistFun at hT
    simp only at hT
    rw [hwin] at hT
    obtain ⟨t1, t2⟩ := hT
    rw [hi.best, length_lastN, b1] at t1
    by_contra hle
    have hlen : tr.length = lookBack p := by omega
    have hall : lastN (lookBack p) t.sol.bestHist = bests := by
      rw [hi.best]
      unfold lastN
      rw [List.length_drop, b1]
      have z1 : tr.length - m = 0 := by omega
      rw [z1, List.drop_zero, hlen]
      simp
    rw [hall] at t2
    obtain ⟨x0, hx0⟩ : ∃ a, bests[0]? = some a := ⟨_, List.getElem?_eq_getElem (by omega)⟩
    obtain ⟨x1, hx1⟩ : ∃ a, bests[1]? = some a := ⟨_, List.getElem?_eq_getElem (by omega)⟩
    obtain ⟨a, b, ea, eb, hab⟩ := t2 x0 (List.mem_of_getElem? hx0) x1 (List.mem_of_getElem? hx1)
    rw [b2 0 x0 hx0, if_pos rfl] at ea
    rw [b2 1 x1 hx1, if_neg one_ne_zero] at eb
    injection ea with ea
    injection eb with eb
    have ea' : a = 0 := by exact_mod_cast ea.symm
    have eb' : b = 1 := by exact_mod_cast eb.symm
    have htp : t.p.ftolerance ≤ 1 := by rw [i5]; exact htol
    rw [ea', eb'] at hab
    have : max t.p.ftolerance 1e-12 ≤ 1 := max_le htp (by norm_num)
    rw [zero_sub, abs_neg, abs_one] at hab
    linarith

theorem usual_crit {kind : CovKind} {p : Params n} (hu : UsualRun kind p) (l : List (ℤ × Bool)) :
    UsualRun kind { p with stoppingCrit := l } :=
  ⟨.other hu.configured ⟨rfl, rfl, rfl, rfl, rfl, rfl, rfl, rfl, rfl, rfl, rfl, rfl, rfl, rfl, rfl, rfl, rfl⟩,
    ⟨hu.strict.1, hu.strict.2⟩, hu.update, hu.vd, hu.lazy, hu.grad, hu.uh, hu.tpa⟩

/-- `C117_unit_false` in every dimension, for every starting point, step size, seed and sequence of draws: default settings with
TOLHISTFUN alone, and the factor 1e-13. -/
theorem C117_default_false (hn : 1 ≤ n) (env0 : Env n) (kind : CovKind) (x0 : Vec n) (sigma : ℝ) (seed clock : ℕ)
    (hk : kind ≠ .vd) (hpf : ∀ k q sol, env0.pfunc k q sol = 0) :
    ∃ p, Params.make x0 sigma (-1) seed clock GenoPheno.plain = .ok p ∧
      ∀ env env' : Env n, env = { env0 with f := fun j _ => if j < p.lambda then .num 0 else .num 1 } →
        env' = { env with f := fun k x => timesBy 1e-13 (env.f k x) } →
        ∃ s s' t', Strat.new env kind (onlyCrit 1 p) = .ok s ∧ Strat.new env' kind (onlyCrit 1 p) = .ok s' ∧
          (∃ N, ∀ fuel, N ≤ fuel → s'.optimize env' fuel = .ok (some t')) ∧
          ∀ fuel t, s.optimize env fuel = .ok (some t) → t'.niter < t.niter := by
  obtain ⟨p, hp, _⟩ := C11_weights hn x0 sigma (-1) seed clock GenoPheno.plain
  obtain ⟨hu, _⟩ := usual_default (by norm_num) hp hk
  obtain ⟨u1, u2, u3, u4, u5, u6, u7, u8, u9, u10, u11, u12, u13, u14⟩ := Params.make_plain hp
  refine ⟨p, hp, fun env env' e e' => ?_⟩
  have hu' : UsualRun kind (onlyCrit 1 p) := usual_crit hu.run _
  have hgp : (onlyCrit 1 p).gp = GenoPheno.plain := u10
  obtain ⟨s, hs⟩ := new_plain (env := env) (kind := kind) hgp hu'.configured.good.1
  obtain ⟨s', hs'⟩ := new_plain (env := env') (kind := kind) hgp hu'.configured.good.1
  have hfl : p.maxHist = -1 ∧ p.withEdm = false ∧ p.ftolerance = 1e-12 := by
    have hp' := hp
    unfold Params.make at hp'
    obtain ⟨l, -, hp'⟩ := Out.bind_eq_ok.1 hp'
    obtain ⟨mu, w, muw, cs, cc, c1, cm, ds, fs, fc, ch, lv, rl, al, e⟩ := initializeParameters_frame hp'
    rw [e]; exact ⟨rfl, rfl, rfl⟩
  have hact := onlyCrit_active (c := 1) (by decide) p
  rw [e'] at hs'
  obtain ⟨⟨t', h1, h2⟩, h3⟩ := C117_unit_false env kind (onlyCrit 1 p) s s' 1e-13 hu' hact.1 hact.2 (by norm_num) le_rfl
    (by intro j y; rw [e]; rfl) (fun x => ⟨x, by rw [hgp, phenoV_plain]⟩) u8 u7 ⟨u5, u4, u6⟩ hfl.2.1
    (by show p.ftolerance ≤ 1; rw [hfl.2.2]; norm_num)
    (by
      show 2 ≤ lookBack _
      unfold lookBack
      rw [if_neg (by show ¬ 0 < p.maxHist; rw [hfl.1]; omega)]
      generalize 30 * n / (onlyCrit 1 p).lambda = k
      omega) (by intro k q sol; rw [e]; exact hpf k q sol) hs hs'
  exact ⟨s, s', t', hs, by rw [e']; exact hs', ⟨_, by rw [e']; exact h1⟩, fun fuel t h => by rw [h2]; exact h3 fuel t h⟩

/-- The hypotheses of `C117_factor_partial` on the settings are met: the default ones with TOLHISTFUN switched off; those on the
objective and the progress function as in `C114_case`. -/
theorem C117_case (hn : 1 ≤ n) (kind : CovKind) (x0 : Vec n) (sigma : ℝ) (seed clock : ℕ) (hk : kind ≠ .vd) (env : Env n) :
    ∃ p s, Params.make x0 sigma (-1) seed clock GenoPheno.plain = .ok p ∧
      UsualRun kind { p with stoppingCrit := [(1, false)] } ∧ UniqueKeys { p with stoppingCrit := [(1, false)] } ∧
      ¬ CritActive { p with stoppingCrit := [(1, false)] } 1 ∧ CritActive { p with stoppingCrit := [(1, false)] } 6 ∧
      p.withEdm = false ∧ p.initialElitistOnRestart = false ∧
      Strat.new env kind { p with stoppingCrit := [(1, false)] } = .ok s := by
  obtain ⟨p, hp, _⟩ := C11_weights hn x0 sigma (-1) seed clock GenoPheno.plain
  obtain ⟨hu, hgp, _⟩ := usual_default (by norm_num) hp hk
  have hu' := usual_crit hu.run [(1, false)]
  obtain ⟨s, hs⟩ := new_plain (env := env) (kind := kind) (p := { p with stoppingCrit := [(1, false)] }) hgp hu'.configured.good.1
  refine ⟨p, s, hp, hu', ?_, ?_, ?_, ?_, (Params.make_plain hp).2.2.2.2.2.1, hs⟩
  · show [(1 : ℤ)].Nodup
    simp
  · exact fun h => h.2 List.mem_cons_self
  · exact ⟨by decide, by simp⟩
  · unfold Params.make at hp
    obtain ⟨l, -, hp⟩ := Out.bind_eq_ok.1 hp
    obtain ⟨mu, w, muw, cs, cc, c1, cm, ds, fs, fc, ch, lv, rl, al, e⟩ := initializeParameters_frame hp
    rw [e]; rfl

end Libcmaes
