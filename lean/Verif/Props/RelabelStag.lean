import Verif.Lemmas.StagCrit
import Verif.Props.Relabel

/-!
# C118 with STAGNATION

`relabel`: Spec/Relabel.lean; `OnlyActive`, `UniqueKeys`: Spec/Stop.lean; `UsualRun`: Spec/Usual.lean.
-/

namespace Libcmaes

open Spec

variable {n : ℕ}

theorem stag_start {env : Env n} {kind : CovKind} {p : Params n} {s s0 t : Strat n} {V : ℝ} {tr : List (List (Cand n))}
    (hu : UsualRun kind p) (hV : |V| ≤ 100) (hf : ∀ j y, env.f j y = stagF p.lambda V j) (hmx : p.maximize = false)
    (hiv : p.initialFvalue = false) (hmt : p.mtFeval = false) (hlam : 4 ≤ p.lambda)
    (hel : p.elitist = false ∧ p.initialElitist = false ∧ p.initialElitistOnRestart = false)
    (h0 : Strat.new env kind p = .ok s) (i1 : s.evalInitial env = .ok s0) (i2 : LoopTo env s0 tr t) :
    ∃ m, Stag V m s0 tr.length t := by
  have hv : ValObjective env p := fun k y => by rw [hmx]; show Val (env.f k y); rw [hf]; exact stagG_val hV _ _
  have hst : Started env kind p s0 := Or.inl ⟨hu, s, h0, i1⟩
  obtain ⟨hL, hR, hv'⟩ := hst.live hv
  have hnew := Strat.new_ok h0
  obtain ⟨e1, e2, e3, e4, e5, e6, e7, _, e8⟩ := evalInitial_kept i1
  obtain ⟨m, hm'⟩ : ∃ m : ℕ, s0.sol.maxHist = m := ⟨s0.sol.maxHist.toNat, by have := hR.maxHist; omega⟩
  have hm0 : 0 < m := by have := hR.maxHist; omega
  have hfr := hnew.2.2.2.2.2.1
  have hsp : s.p = { p with sigmaInit := s.sol.sigma } := hnew.2.2.2.1
  have hs0 : s0 = s := by
    unfold Strat.evalInitial at i1
    have hie : s.initialElitist = false := hnew.2.2.2.2.2.2.2.2.2.2.2.2.2.2.2.2.2.2.2
    rw [if_neg (by rw [hie, hsp]; simp [hel.1, hel.2.1, hiv])] at i1
    injection i1 with i1
    exact i1.symm
  have hS : Stag V m s0 0 s0 := by
    refine ⟨hL, hR, rfl, ?_, ?_, ⟨[], [], ⟨hm', rfl, ?_, ?_, ?_⟩, rfl⟩, fun _ => ?_⟩
    · rw [e5, (begins_new h0).negate, hmx]
    · rw [hs0, hnew.2.2.2.2.2.2.2.2.1]; simp
    · rw [hs0, hfr.bestHist]; simp [lastN]
    · rw [hs0, hfr.kBestHist]; simp [lastN]
    · rw [hs0, hfr.bfvalues]; simp [lastN]
    · rw [hs0, hfr.medianFvalues]; rfl
  have hl : s0.p.lambda = p.lambda := by rw [e1, hsp]
  exact ⟨m, genRun_stag hm0 hV (by rw [hl]; exact hf) (by rw [e1, hsp]; exact hu.good.grad) (by rw [e1, hsp]; exact hmt)
    (by rw [hl]; exact hlam) (by rw [e1, hsp]; exact hel) hS i2.genRun⟩

/-- **C118** is false with STAGNATION, which compares means of two values.  In each of the first 20 generations the objective returns
-10 once and 0 otherwise; later it returns 5.  With positive values doubled, which leaves every comparison as it is, the search ends
after at most 30 iterations; as it is, the search goes on. -/
theorem C118_stagnation_false (env : Env n) (kind : CovKind) (p : Params n) (s s' : Strat n) (g : EReal → EReal)
    (hu : UsualRun kind p) (hk : UniqueKeys p) (ha : OnlyActive p 6)
    (hg : g = fun a => if a ≤ 0 then a else a * ((2 : ℝ) : EReal))
    (hf : ∀ j y, env.f j y = if j / p.lambda < 20 then (if j % p.lambda = 0 then .num ((-10 : ℝ) : EReal) else .num ((0 : ℝ) : EReal))
      else .num ((5 : ℝ) : EReal))
    (hgp : ∀ x : Vec n, ∃ y : Vec n, phenoV p.gp x = .ok y) (hmx : p.maximize = false) (hiv : p.initialFvalue = false)
    (hmt : p.mtFeval = false) (hlam : 4 ≤ p.lambda)
    (hel : p.elitist = false ∧ p.initialElitist = false ∧ p.initialElitistOnRestart = false) (he : p.withEdm = false)
    (hpf : ∀ k q sol, env.pfunc k q sol = 0) (h0 : Strat.new env kind p = .ok s)
    (h0' : Strat.new { env with f := fun k x => relabel g (env.f k x) } kind p = .ok s') :
    StrictMono g ∧
      (∃ t', (∀ fuel, 31 ≤ fuel → s'.optimize { env with f := fun k x => relabel g (env.f k x) } fuel = .ok (some t')) ∧
        t'.niter ≤ 30) ∧
      ∀ fuel t, s.optimize env fuel = .ok (some t) → 30 < t.niter := by
  subst hg
  refine ⟨C118_example.1, ?_, ?_⟩
  · set env' : Env n := { env with f := fun k x => relabel (fun a => if a ≤ 0 then a else a * ((2 : ℝ) : EReal)) (env.f k x) } with henv'
    have hf' : ∀ j y, env'.f j y = stagF p.lambda 10 j := by
      intro j y
      show relabel _ (env.f j y) = _
      rw [hf]
      unfold stagF stagG
      split_ifs
      · show FVal.num (if ((-10 : ℝ) : EReal) ≤ ((0 : ℝ) : EReal) then _ else _) = _
        rw [if_pos (EReal.coe_le_coe_iff.2 (by norm_num))]
      · show FVal.num (if ((0 : ℝ) : EReal) ≤ ((0 : ℝ) : EReal) then _ else _) = _
        rw [if_pos le_rfl]
      · show FVal.num (if ((5 : ℝ) : EReal) ≤ ((0 : ℝ) : EReal) then _ else _) = _
        rw [if_neg (by rw [EReal.coe_le_coe_iff]; norm_num), ← EReal.coe_mul]
        norm_num
    have hV : |(10 : ℝ)| ≤ 100 := by norm_num
    have hv : ValObjective env' p := fun k y => by rw [hmx]; show Val (env'.f k y); rw [hf']; exact stagG_val hV _ _
    have hnew := Strat.new_ok h0'
    obtain ⟨h1, h2, h3⟩ := optimize_ends (env := env') (s := s') (N := 30)
      (by rw [hnew.2.2.2.1]; exact hel.2.2) fun s0 tr t t' i1 i2 i3 hs => by
        obtain ⟨t1, t2, tr1, j2, j3, j4⟩ : ∃ t1 t2 tr1, LoopTo env' s0 tr1 t1 ∧ t1.stop env' = .ok (false, t2) ∧ tr1.length = 30 := by
          by_cases hd : tr.drop 30 = []
          · exact ⟨t, t', tr, i2, hs, by have := List.drop_eq_nil_iff.1 hd; omega⟩
          · obtain ⟨t1, t2, a, b⟩ := i2.prefix (List.take_append_drop 30 tr).symm hd
            exact ⟨t1, t2, _, a, b, by rw [List.length_take]; omega⟩
        have hst : Started env' kind p s0 := Or.inl ⟨hu, s', h0', i1⟩
        obtain ⟨hL, hR, hv'⟩ := hst.live hv
        obtain ⟨hL', hR', _⟩ := genRun_live j2.genRun hL hR hv'
        obtain ⟨m, I⟩ := stag_start hu hV hf' hmx hiv hmt hlam hel h0' i1 j2
        rw [j4] at I
        obtain ⟨_, e2, e3, _⟩ := evalInitial_kept i1
        obtain ⟨_, _, _, r4, _, _, r7, _⟩ := run_p j2.askRun.run
        have hc : FlagsOf p t1.crit := by rw [r7, e2]; exact new_crit h0' hk
        rcases (stop_false j3).2.2 with ⟨h2, _⟩ | ⟨h2', h2, _⟩
        · rw [r4, e3, hnew.2.2.2.2.2.2.1] at h2; omega
        · have := stopCrit_zero h2 6 ((hc.mem 6).2 ha.1)
          rw [show critFun env'.fladd 6 t1.p t1.sol = critStagnation t1.p t1.sol from rfl] at this
          classical
          rw [crit_stagnation (hR'.ready hL'.toLiveCore h2'), if_pos I.stagnation] at this
          injection this with this
          cases this
    obtain ⟨t', ht'⟩ := ends_well hu.good (begins_new h0') (esSound_new h0') (new_crit h0' hk) hv hgp he hel.2.2 31 h2
    refine ⟨t', fun fuel hfu => by rw [h1 fuel hfu, ht'], ?_⟩
    have := h3 t' ht'
    rwa [hnew.2.2.2.2.2.2.1, Nat.zero_add] at this
  · intro fuel u hopt
    have hV : |(5 : ℝ)| ≤ 100 := by norm_num
    have hf' : ∀ j y, env.f j y = stagF p.lambda 5 j := hf
    have hv : ValObjective env p := fun k y => by rw [hmx]; show Val (env.f k y); rw [hf']; exact stagG_val hV _ _
    obtain ⟨s0, tr, t, i1, i2, i3, i4, i5, i6, i7, i8, i9, i10⟩ :=
      optimize_end (begins_new h0) (new_crit h0 hk) hel.2.2 he hopt
    rcases i10 with ⟨x, _⟩ | ⟨_, hn, d, hd, hcf, _, e⟩
    · exact absurd (hpf _ _ _) x
    have hd1 := ha.2 d hd
    subst hd1
    have hst : Started env kind p s0 := Or.inl ⟨hu, s, h0, i1⟩
    obtain ⟨hL, hR, hv'⟩ := hst.live hv
    obtain ⟨hL', hR', _⟩ := genRun_live i2.genRun hL hR hv'
    rw [show critFun env.fladd 6 t.p t.sol = critStagnation t.p t.sol from rfl] at hcf
    classical
    rw [crit_stagnation (hR'.ready hL'.toLiveCore hn)] at hcf
    injection hcf with hcf
    have hT : Stagnation t.sol := by
      by_contra hx
      rw [if_neg hx] at hcf
      cases hcf
    obtain ⟨m, I⟩ := stag_start hu hV hf' hmx hiv hmt hlam hel h0 i1 i2
    have hun : u.niter = tr.length := by rw [e]; exact i6
    rw [hun]
    by_contra hle
    exact I.not_stagnation (not_lt.1 hle) (by norm_num) (by norm_num) hT

/-- `C118_stagnation_false` in every dimension, for every starting point, step size, seed and sequence of draws: default settings with
STAGNATION alone. -/
theorem C118_default_false (hn : 1 ≤ n) (env0 : Env n) (kind : CovKind) (x0 : Vec n) (sigma : ℝ) (seed clock : ℕ)
    (hk : kind ≠ .vd) (hpf : ∀ k q sol, env0.pfunc k q sol = 0) (g : EReal → EReal)
    (hg : g = fun a => if a ≤ 0 then a else a * ((2 : ℝ) : EReal)) :
    ∃ p, Params.make x0 sigma (-1) seed clock GenoPheno.plain = .ok p ∧
      ∀ env env' : Env n, env = { env0 with f := fun j _ => if j / p.lambda < 20 then
          (if j % p.lambda = 0 then .num ((-10 : ℝ) : EReal) else .num ((0 : ℝ) : EReal)) else .num ((5 : ℝ) : EReal) } →
        env' = { env with f := fun k x => relabel g (env.f k x) } →
        ∃ s s' t', Strat.new env kind (onlyCrit 6 p) = .ok s ∧ Strat.new env' kind (onlyCrit 6 p) = .ok s' ∧
          (∃ N, ∀ fuel, N ≤ fuel → s'.optimize env' fuel = .ok (some t')) ∧
          ∀ fuel t, s.optimize env fuel = .ok (some t) → t'.niter < t.niter := by
  obtain ⟨p, hp, _⟩ := C11_weights hn x0 sigma (-1) seed clock GenoPheno.plain
  obtain ⟨hu, _⟩ := usual_default (by norm_num) hp hk
  obtain ⟨u1, u2, u3, u4, u5, u6, u7, u8, u9, u10, u11, u12, u13, u14⟩ := Params.make_plain hp
  refine ⟨p, hp, fun env env' e e' => ?_⟩
  have hu' : UsualRun kind (onlyCrit 6 p) := usual_crit hu.run _
  have hgp : (onlyCrit 6 p).gp = GenoPheno.plain := u10
  obtain ⟨s, hs⟩ := new_plain (env := env) (kind := kind) hgp hu'.configured.good.1
  obtain ⟨s', hs'⟩ := new_plain (env := env') (kind := kind) hgp hu'.configured.good.1
  have hact := onlyCrit_active (c := 6) (by decide) p
  have hl : 4 ≤ p.lambda := by
    obtain ⟨q, hq, hlq, _⟩ := C11_weights hn x0 sigma (-1) seed clock GenoPheno.plain
    rw [hp] at hq; injection hq with hq
    obtain ⟨l, h1, _, _, h2⟩ := C11_lambda n hn (-1)
    rw [← hq, h1] at hlq; injection hlq with hlq
    rw [← hlq]; exact (h2 (by norm_num)).2
  have hed : p.withEdm = false := by
    have hp' := hp
    unfold Params.make at hp'
    obtain ⟨l, -, hp'⟩ := Out.bind_eq_ok.1 hp'
    obtain ⟨mu, w, muw, cs, cc, c1, cm, ds, fs, fc, ch, lv, rl, al, e⟩ := initializeParameters_frame hp'
    rw [e]; rfl
  rw [e'] at hs'
  obtain ⟨_, ⟨t', h1, h2⟩, h3⟩ := C118_stagnation_false env kind (onlyCrit 6 p) s s' g hu' hact.1 hact.2 hg
    (by intro j y; rw [e]; rfl) (fun x => ⟨x, by rw [hgp, phenoV_plain]⟩) u8 u7 u9 hl ⟨u5, u4, u6⟩ hed
    (by intro k q sol; rw [e]; exact hpf k q sol) hs hs'
  exact ⟨s, s', t', hs, by rw [e']; exact hs', ⟨_, by rw [e']; exact h1⟩, fun fuel t h => lt_of_le_of_lt h2 (h3 fuel t h)⟩

end Libcmaes
