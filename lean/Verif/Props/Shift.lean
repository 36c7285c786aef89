import Verif.Lemmas.Shift
import Verif.Props.Stop
import Verif.Lemmas.Witness

/-!
# C114: adding a constant to the objective

`shiftBy`, `BlindToValues`, `SameEnd`: Spec/Shift.lean; `ValObjective`: Spec/Stop.lean; `UsualRun`: Spec/Usual.lean.
-/

namespace Libcmaes

open Spec Finset

variable {n : ℕ}

/-- The constant as the search sees it: with the other sign when maximising. -/
def seenConst (p : Params n) (c : ℝ) : ℝ := if p.maximize then -c else c

/-- **C114.** Searching `f + c` in place of `f`, with the target value moved by the same constant (it is compared with the negated
values when maximising), `optimize()` goes through the same search to the end: it stops after the same number of iterations and
evaluations, for the same reason, with the same distribution and the same points, whose values differ by the constant.  Any
stopping criteria, elitism but that on restart, bounds, scaling, fixed parameters; full or diagonal covariance, default or active
update. -/
theorem C114_constant (env : Env n) (kind : CovKind) (p : Params n) (c : ℝ) (s : Strat n) (hu : UsualRun kind p)
    (he : p.withEdm = false) (hr : p.initialElitistOnRestart = false) (hb : BlindToValues env) (hv : ValObjective env p)
    (hv' : ValObjective { env with f := fun k x => shiftBy c (env.f k x) } p) (h0 : Strat.new env kind p = .ok s) :
    ∃ s', Strat.new { env with f := fun k x => shiftBy c (env.f k x) } kind
        { p with ftarget := shiftBy (seenConst p c) p.ftarget } = .ok s' ∧
      ∀ fuel,
        (∀ t, s.optimize env fuel = .ok (some t) →
          ∃ t', s'.optimize { env with f := fun k x => shiftBy c (env.f k x) } fuel = .ok (some t') ∧
            SameEnd (shiftBy (seenConst p c)) t t') ∧
        (s.optimize env fuel = .ok none →
          s'.optimize { env with f := fun k x => shiftBy c (env.f k x) } fuel = .ok none) := by
  set env' : Env n := { env with f := fun k x => shiftBy c (env.f k x) } with henv'
  set d := seenConst p c with hd
  set D := shiftAff n d p.maximize p.ftarget with hD
  have hpar : D.par p = { p with ftarget := shiftBy d p.ftarget } := by rw [hD, shiftAff_par]
  have hE : ShiftEnv d p.maximize env env' := by
    refine ⟨rfl, rfl, rfl, rfl, rfl, fun k x => ?_, hb, hv, hv'⟩
    have h1 : ∀ v, seen p.maximize (seen p.maximize v) = v := fun v => by
      unfold seen; split_ifs
      · exact v.neg_neg'
      · rfl
    have := seen_shiftBy c p.maximize (seen p.maximize (env.f k x))
    rw [h1] at this
    exact this
  obtain ⟨J, r0, hc⟩ := Aff.new_map (D := D) one_pos (env' := env') rfl (Or.inr rfl)
    (fun m hm => by rw [hpar, hD, shiftAff_pt]; exact hm) h0
  have hnew := Strat.new_ok h0
  have hB := begins_new h0
  have hneg : s.negate = p.maximize := hB.negate
  have hsp := hB.params
  have hmed : J.med = [] := (Strat.new_ok r0).2.2.2.2.2.1.medianFvalues
  have hmed0 : s.sol.medianFvalues = [] := hnew.2.2.2.2.2.1.medianFvalues
  have hg := hu.good
  have hg' : GoodRun kind (D.par p) := by
    rw [hpar]
    exact ⟨⟨hg.good.dim, hg.good.lambda, hg.good.mu, ⟨hg.good.weights.1, hg.good.weights.2, hg.good.weights.3, hg.good.weights.4⟩,
      by cases hg.good.rates; constructor <;> assumption, hg.good.muw, hg.good.chi, hg.good.alphathuh, hg.good.rlambda, hg.good.fixed_lt, hg.good.fixed_nodup,
      hg.good.fixed_len⟩, ⟨hg.strict.1, hg.strict.2⟩, hg.update, hg.vd, hg.lazy, hg.grad, hg.uh, hg.tpa⟩
  refine ⟨D.st J s, by rw [← hpar]; exact r0, ?_⟩
  have key : ∀ fuel o, s.optimize env fuel = .ok o → match o with
      | none => (D.st J s).optimize env' fuel = .ok none
      | some t => ∃ t', (D.st J s).optimize env' fuel = .ok (some t') ∧ SameEnd (shiftBy d) t t' := by
    intro fuel o h
    cases fuel with
    | zero => injection h with h; subst h; rfl
    | succ k =>
      unfold Strat.optimize at h
      obtain ⟨s0, h1, h⟩ := Out.bind_eq_ok.1 h
      obtain ⟨o1, h2, h⟩ := Out.bind_eq_ok.1 h
      obtain ⟨J0, r1, hc0, hm0⟩ := evalInitial_shift hE hc hneg h1
      obtain ⟨k1, k2, k3, k4, k5, k6, k7, k8, k9⟩ := evalInitial_kept h1
      obtain ⟨hL, hR⟩ := start_live hg hB (esSound_new h0) h1 hv
      obtain ⟨hL', hR'⟩ := start_live hg' (begins_new r0) (esSound_new r0) r1 (by rw [hpar]; exact hv')
      have hm1 : s0.sol.medianFvalues = [] := by
        rcases Strat.evalInitial_frame h1 with e | ⟨y, v, _, _, e⟩ <;> rw [e] <;> exact hmed0
      have hP : ShiftPair d p.maximize p.ftarget J0 s0 := by
        refine ⟨hc0, hL, hR, hL', hR', by rw [hm0, hmed, hm1]; rfl, fun hn => absurd ?_ hn, by rw [k5, hneg],
          by rw [k1, hsp], by rw [k1, hsp]; exact hg.grad, by rw [k1, hsp]; exact hg.good.weights.sum_one,
          by rw [k1, hsp]; exact he, by rw [k1, hsp]; exact hr⟩
        rw [k3, hB.niter]
      have hl := hP.loop hE (k + 1) h2
      cases o1 with
      | none =>
        injection h with h
        subst h
        show (D.st J s).optimize env' (k + 1) = .ok none
        unfold Strat.optimize
        rw [r1, Out.ok_bind, hl, Out.ok_bind]
        rfl
      | some t =>
        obtain ⟨J1, r2, hP1⟩ := hl
        have hew := hP1.edm
        have her := hP1.restart
        simp only [hew, Bool.false_eq_true, if_false] at h
        change (t.wantsRestart >>= _) = _ at h
        rw [wantsRestart_off her, Out.ok_bind] at h
        injection h with h
        subst h
        refine ⟨D.st J1 t, ?_, ⟨rfl, rfl, rfl, shiftAff_same, fun hn => ?_⟩⟩
        · unfold Strat.optimize
          rw [r1, Out.ok_bind, r2, Out.ok_bind]
          show (if t.p.withEdm then (D.st J1 t).edm env' else pure (D.st J1 t)) >>= _ = _
          rw [hew]
          show ((D.st J1 t).wantsRestart >>= _) = _
          rw [wantsRestart_off (s := D.st J1 t) her, Out.ok_bind]
          rfl
        · have := Aff.points (D := D) (J := J1) (s := t) (hP1.past hn).2 (hP1.past hn).1
          rw [hD, shiftAff_pt] at this
          exact this
  exact fun fuel => ⟨fun t h => key fuel _ h, fun h => key fuel _ h⟩

/-- **C114**, the default set-up in any dimension, with the same settings for both searches: for every starting point, step size,
seed, sequence of draws, real objective `f` such that `f` and `f + c` do not overflow, both searches end, and end alike. -/
theorem C114_default (hn : 1 ≤ n) (env : Env n) (kind : CovKind) (x0 : Vec n) (sigma : ℝ) (seed clock : ℕ) (c : ℝ)
    (hk : kind ≠ .vd) (hb : BlindToValues env)
    (hf : ∀ k y, ∃ v : ℝ, env.f k y = .num (v : EReal) ∧ |v| ≤ dblMax ∧ |v + c| ≤ dblMax) :
    ∃ p s s' t t', Params.make x0 sigma (-1) seed clock GenoPheno.plain = .ok p ∧ Strat.new env kind p = .ok s ∧
      Strat.new { env with f := fun k x => shiftBy c (env.f k x) } kind p = .ok s' ∧
      (∃ N, ∀ fuel, N ≤ fuel → s.optimize env fuel = .ok (some t) ∧
        s'.optimize { env with f := fun k x => shiftBy c (env.f k x) } fuel = .ok (some t')) ∧
      SameEnd (shiftBy c) t t' := by
  have hv : ∀ k y, Val (env.f k y) := fun k y => by
    obtain ⟨v, e, h, _⟩ := hf k y
    exact Or.inr ⟨v, h, e⟩
  have hv' : ∀ k y, Val (shiftBy c (env.f k y)) := fun k y => by
    obtain ⟨v, e, _, h⟩ := hf k y
    refine Or.inr ⟨v + c, h, ?_⟩
    rw [e]
    show FVal.num ((v : EReal) + (c : EReal)) = _
    norm_cast
  obtain ⟨p, s, t, hp, hs, N, hN⟩ := C45_default hn env kind x0 sigma seed clock hk hv
  obtain ⟨p1, s1, t1, hp1, hs1, N1, hN1⟩ := C45_default hn { env with f := fun k x => shiftBy c (env.f k x) } kind x0 sigma seed
    clock hk hv'
  rw [hp] at hp1
  injection hp1 with hp1
  subst hp1
  obtain ⟨hu, _⟩ := usual_default (by norm_num) hp hk
  obtain ⟨f1, f2, f3, f4⟩ : p.maximize = false ∧ p.withEdm = false ∧ p.initialElitistOnRestart = false ∧ p.ftarget = .num ⊥ := by
    have hp' := hp
    unfold Params.make at hp'
    obtain ⟨l, -, hp'⟩ := Out.bind_eq_ok.1 hp'
    obtain ⟨mu, w, muw, cs, cc, c1, cm, ds, fs, fc, ch, lv, rl, al, e⟩ := initializeParameters_frame hp'
    rw [e]; exact ⟨rfl, rfl, rfl, rfl⟩
  have hc : seenConst p c = c := by unfold seenConst; rw [f1]; rfl
  obtain ⟨s', h1, h2⟩ := C114_constant env kind p c s hu.run f2 f3 hb (fun k y => by rw [f1]; exact hv k y)
    (fun k y => by rw [f1]; exact hv' k y) hs
  have hpp : { p with ftarget := shiftBy (seenConst p c) p.ftarget } = p := by rw [f4]; rw [← f4]; congr 1; rw [f4]; exact congrArg FVal.num (EReal.bot_add _)
  rw [hpp, hs1] at h1
  injection h1 with h1
  subst h1
  have ht1 : ∀ fuel, max N N1 ≤ fuel → s.optimize env fuel = .ok (some t) ∧
      s1.optimize { env with f := fun k x => shiftBy c (env.f k x) } fuel = .ok (some t1) := fun fuel hfu =>
    ⟨hN fuel (le_trans (le_max_left _ _) hfu), hN1 fuel (le_trans (le_max_right _ _) hfu)⟩
  refine ⟨p, s, s1, t, t1, hp, hs, hs1, ⟨max N N1, ht1⟩, ?_⟩
  obtain ⟨t', h3, h4⟩ := (h2 (max N N1)).1 t (ht1 _ le_rfl).1
  rw [(ht1 _ le_rfl).2] at h3
  injection h3 with h3
  injection h3 with h3
  subst h3
  rwa [hc] at h4

/-- The hypotheses are met: a progress function that stops after `m` iterations looks at no value, and the objective
`|x|²/(1+|x|²)` and the constant 1 do not overflow. -/
theorem C114_case (z : ℕ → Vec n) (m : ℕ) :
    BlindToValues { Env.basic (fun _ x => FVal.ofReal (sqNorm x / (1 + sqNorm x))) z with
      pfunc := fun _ _ t => if m ≤ t.niter then 1 else 0 } ∧
    ∀ (k : ℕ) (y : Vec n), ∃ v : ℝ, (Env.basic (fun _ x => FVal.ofReal (sqNorm x / (1 + sqNorm x))) z).f k y = .num (v : EReal) ∧
      |v| ≤ dblMax ∧ |v + 1| ≤ dblMax := by
  refine ⟨fun k q q' t t' _ h _ => by simp only [h], fun k y => ⟨_, rfl, ?_⟩⟩
  have h0 : 0 ≤ sqNorm y := Finset.sum_nonneg fun i _ => mul_self_nonneg _
  have h1 : 0 ≤ sqNorm y / (1 + sqNorm y) := by positivity
  have h2 : sqNorm y / (1 + sqNorm y) ≤ 1 := by rw [div_le_one (by linarith)]; linarith
  have := dblMax_ge
  constructor
  · rw [abs_of_nonneg h1]; linarith
  · rw [abs_of_nonneg (by linarith)]; linarith

end Libcmaes
