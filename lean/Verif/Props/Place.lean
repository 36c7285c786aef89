import Verif.Lemmas.Place
import Verif.Props.Invariance
import Verif.Props.Stop
import Verif.Props.Shift
import Verif.Lemmas.Witness

/-!
# C116: moving and magnifying the search space, to the end of the search

`RoundsAlike`, `BlindToPlace`, `SameEndAt`: Spec/Place.lean; `affine`, `movedBy`, `StartGiven`: Props/Invariance.lean;
`ValObjective`: Spec/Stop.lean; `UsualRun`: Spec/Usual.lean.
-/

namespace Libcmaes

open Spec Finset

variable {n : ℕ}

/-- **C116.** Searching `f'` with `f'(a x + t) = f(x)` in place of `f`, from the start moved by the same map and with `a` times the
step size, `optimize()` goes through the same search to the end: it stops after the same number of iterations and evaluations, for
the same reason, with the distribution and the points moved by that map, and the same values.  Any stopping criteria, elitism but
that on restart; full or diagonal covariance, default or active update; no bounds, no scaling, no fixed parameter. -/
theorem C116_place (env : Env n) (f' : ℕ → Vec n → FVal) (kind : CovKind) (p : Params n) (a : ℝ) (t : Vec n) (s : Strat n)
    (hu : UsualRun kind p) (he : p.withEdm = false) (hr : p.initialElitistOnRestart = false) (hgp : p.gp = GenoPheno.plain)
    (hfp : p.fixedP = []) (ha : 0 < a) (hf : ∀ k x, f' k (affine a t x) = env.f k x)
    (hst : StartGiven p) (hst' : StartGiven (p.movedBy a t)) (hsg : 0 < p.sigmaInit ∨ a = 1)
    (hfl : RoundsAlike env.fladd a t) (hb : BlindToPlace env (affine a t) a) (hv : ValObjective env p)
    (h0 : Strat.new env kind p = .ok s) :
    ∃ s', Strat.new { env with f := f' } kind (p.movedBy a t) = .ok s' ∧
      ∀ fuel,
        (∀ u, s.optimize env fuel = .ok (some u) →
          ∃ u', s'.optimize { env with f := f' } fuel = .ok (some u') ∧ SameEndAt (affine a t) a u u') ∧
        (s.optimize env fuel = .ok none → s'.optimize { env with f := f' } fuel = .ok none) := by
  set env' : Env n := { env with f := f' } with henv'
  set D := placeAff a t p.maximize p.ftarget with hD
  have hpar : D.par p = p.movedBy a t := rfl
  have hv' : ValObjective env' p := by
    intro k y
    have e : affine a t (fun i => a⁻¹ * (y i - t i)) = y := by
      funext i
      show a * (a⁻¹ * (y i - t i)) + t i = y i
      rw [mul_inv_cancel_left₀ ha.ne']; ring
    have := hf k (fun i => a⁻¹ * (y i - t i))
    rw [e] at this
    show _ ∨ _
    have h2 := hv k (fun i => a⁻¹ * (y i - t i))
    rw [← this] at h2
    exact h2
  have hE : PlaceEnv a t p.maximize env env' := ⟨rfl, rfl, rfl, rfl, rfl, hf, ha, hfl, hb, hv, hv'⟩
  obtain ⟨J, r0, hc⟩ := Aff.new_map (D := D) ha (env' := env') rfl hsg
    (fun m hm => by
      unfold initialMean at hm ⊢
      simp only at hm ⊢
      rw [hpar, show (p.movedBy a t).fixedP = p.fixedP from rfl, show (p.movedBy a t).gp = p.gp from rfl]
      rw [hfp, hgp] at hm ⊢
      rw [setFixed_nil, Out.ok_bind] at hm ⊢
      unfold scaleToInternalV at hm ⊢
      simp only [GenoPheno.plain] at hm ⊢
      injection hm with hm
      congr 1
      rw [← hm]
      have hinj : (p.movedBy a t).x0min = (p.movedBy a t).x0max ↔ p.x0min = p.x0max := by
        constructor
        · intro h
          funext i
          have : a * p.x0min i + t i = a * p.x0max i + t i := congrFun h i
          have := mul_left_cancel₀ ha.ne' (add_right_cancel this)
          exact this
        · intro h
          show affine a t _ = affine a t _
          rw [h]
      by_cases he : p.x0min = p.x0max
      · rw [if_pos he, if_pos (hinj.2 he), if_neg fun h => hst ⟨he, h⟩,
          if_neg fun h => hst' ⟨hinj.2 he, h⟩]
        rfl
      · rw [if_neg he, if_neg fun h => he (hinj.1 h)]
        funext i
        show 0.5 * (env.rnd 0 i + 1) * ((a * p.x0max i + t i) - (a * p.x0min i + t i)) + (a * p.x0min i + t i) =
          a * (0.5 * (env.rnd 0 i + 1) * (p.x0max i - p.x0min i) + p.x0min i) + t i
        ring) h0
  have hnew := Strat.new_ok h0
  have hB := begins_new h0
  have hneg : s.negate = p.maximize := hB.negate
  have hsp := hB.params
  have hmed : J.med = [] := (Strat.new_ok r0).2.2.2.2.2.1.medianFvalues
  have hmed0 : s.sol.medianFvalues = [] := hnew.2.2.2.2.2.1.medianFvalues
  have hg := hu.good
  have hg' : GoodRun kind (D.par p) := by
    rw [hpar]
    exact ⟨⟨hg.good.dim, hg.good.lambda, hg.good.mu, ⟨hg.good.weights.1, hg.good.weights.2, hg.good.weights.3, hg.good.weights.4⟩,
      by cases hg.good.rates; constructor <;> assumption, hg.good.muw, hg.good.chi, hg.good.alphathuh, hg.good.rlambda, hg.good.fixed_lt, hg.good.fixed_nodup,
      hg.good.fixed_len⟩, ⟨hg.strict.1, hg.strict.2⟩, hg.update, hg.vd, hg.lazy, hg.grad, hg.uh, hg.tpa⟩
  refine ⟨D.st J s, by rw [← hpar]; exact r0, ?_⟩
  have key : ∀ fuel o, s.optimize env fuel = .ok o → match o with
      | none => (D.st J s).optimize env' fuel = .ok none
      | some u => ∃ u', (D.st J s).optimize env' fuel = .ok (some u') ∧ SameEndAt (affine a t) a u u' := by
    intro fuel o h
    cases fuel with
    | zero => injection h with h; subst h; rfl
    | succ k =>
      unfold Strat.optimize at h
      obtain ⟨s0, h1, h⟩ := Out.bind_eq_ok.1 h
      obtain ⟨o1, h2, h⟩ := Out.bind_eq_ok.1 h
      obtain ⟨J0, r1, hc0, hm0⟩ := evalInitial_place hE hc hneg (by rw [hsp]; exact hgp) h1
      obtain ⟨k1, k2, k3, k4, k5, k6, k7, k8, k9⟩ := evalInitial_kept h1
      obtain ⟨hL, hR⟩ := start_live hg hB (esSound_new h0) h1 hv
      obtain ⟨hL', hR'⟩ := start_live hg' (begins_new r0) (esSound_new r0) r1 (by rw [hpar]; exact hv')
      have hm1 : s0.sol.medianFvalues = [] := by
        rcases Strat.evalInitial_frame h1 with e | ⟨y, v, _, _, e⟩ <;> rw [e] <;> exact hmed0
      have hP : PlacePair a t p.maximize p.ftarget J0 s0 := by
        refine ⟨hc0, hL, hR, hL', hR', by rw [hm0, hmed, hm1], fun hn => absurd ?_ hn, by rw [k5, hneg],
          by rw [k1, hsp], by rw [k1, hsp]; exact hg.grad, by rw [k1, hsp]; exact hg.good.weights.sum_one,
          by rw [k1, hsp]; exact he, by rw [k1, hsp]; exact hr, by rw [k1, hsp]; exact hgp,
          by rw [k1, hsp]; exact hfp⟩
        rw [k3, hB.niter]
      have hl := hP.loop hE (k + 1) h2
      cases o1 with
      | none =>
        injection h with h
        subst h
        show (D.st J s).optimize env' (k + 1) = .ok none
        unfold Strat.optimize
        rw [r1, Out.ok_bind, hl, Out.ok_bind]
        rfl
      | some u =>
        obtain ⟨J1, r2, hP1⟩ := hl
        have hew := hP1.edm
        have her := hP1.restart
        simp only [hew, Bool.false_eq_true, if_false] at h
        change (u.wantsRestart >>= _) = _ at h
        rw [wantsRestart_off her, Out.ok_bind] at h
        injection h with h
        subst h
        refine ⟨D.st J1 u, ?_, ⟨rfl, rfl, rfl, placeAff_same, fun hn => ?_⟩⟩
        · unfold Strat.optimize
          rw [r1, Out.ok_bind, r2, Out.ok_bind]
          show (if u.p.withEdm then (D.st J1 u).edm env' else pure (D.st J1 u)) >>= _ = _
          rw [hew]
          show ((D.st J1 u).wantsRestart >>= _) = _
          rw [wantsRestart_off (s := D.st J1 u) her, Out.ok_bind]
          rfl
        · exact Aff.points (D := D) (J := J1) (s := u) (hP1.past hn).2 (hP1.past hn).1
  exact fun fuel => ⟨fun u h => key fuel _ h, fun h => key fuel _ h⟩


/-- The settings of the moved search are those the constructor gives for the moved start and step size. -/
theorem make_moved {x0 : Vec n} {sigma : ℝ} {lambda : ℤ} {seed clock : ℕ} {gp : GenoPheno} {p : Params n} (a : ℝ) (t : Vec n)
    (h : Params.make x0 sigma lambda seed clock gp = .ok p) :
    Params.make (affine a t x0) (a * sigma) lambda seed clock gp = .ok (p.movedBy a t) := by
  unfold Params.make at h ⊢
  obtain ⟨l, e, h⟩ := Out.bind_eq_ok.1 h
  rw [e, Out.ok_bind]
  unfold initializeParameters at h ⊢
  by_cases hg : l / 2 = 0 ∨ n = 0
  · rw [if_pos (show (Params.blank l x0 sigma (if seed = 0 then clock else seed) gp).lambda / 2 = 0 ∨ n = 0 from hg)] at h
    cases h
  · rw [if_neg (show ¬ ((Params.blank l x0 sigma (if seed = 0 then clock else seed) gp).lambda / 2 = 0 ∨ n = 0) from hg)] at h
    rw [if_neg (show ¬ ((Params.blank l (affine a t x0) (a * sigma) (if seed = 0 then clock else seed) gp).lambda / 2 = 0 ∨ n = 0)
      from hg)]
    injection h with h
    subst h
    rfl

/-- **C116**, the default set-up in any dimension: for every starting point and step size, magnification `a > 0` and displacement
`t`, seed, sequence of draws and real objective, the search of `f` from `x0` with `sigma` and the search of `f((x - t)/a)` from
`a x0 + t` with `a sigma` both end, and end alike. -/
theorem C116_default (hn : 1 ≤ n) (env : Env n) (kind : CovKind) (x0 : Vec n) (sigma a : ℝ) (t : Vec n) (seed clock : ℕ)
    (hk : kind ≠ .vd) (hs : 0 < sigma) (ha : 0 < a) (hx : x0 ≠ fun _ => -dblMax) (hx' : affine a t x0 ≠ fun _ => -dblMax)
    (hfl : RoundsAlike env.fladd a t) (hb : BlindToPlace env (affine a t) a)
    (hf : ∀ k y, ∃ v : ℝ, env.f k y = .num (v : EReal) ∧ |v| ≤ dblMax) :
    ∃ p p' s s' u u', Params.make x0 sigma (-1) seed clock GenoPheno.plain = .ok p ∧
      Params.make (affine a t x0) (a * sigma) (-1) seed clock GenoPheno.plain = .ok p' ∧
      Strat.new env kind p = .ok s ∧
      Strat.new { env with f := fun k x => env.f k (fun i => (x i - t i) / a) } kind p' = .ok s' ∧
      (∃ N, ∀ fuel, N ≤ fuel → s.optimize env fuel = .ok (some u) ∧
        s'.optimize { env with f := fun k x => env.f k (fun i => (x i - t i) / a) } fuel = .ok (some u')) ∧
      SameEndAt (affine a t) a u u' := by
  have hv : ∀ k y, Val (env.f k y) := fun k y => by
    obtain ⟨v, e, h⟩ := hf k y
    exact Or.inr ⟨v, h, e⟩
  obtain ⟨p, s, u, hp, hs0, N, hN⟩ := C45_default hn env kind x0 sigma seed clock hk hv
  obtain ⟨hu, _⟩ := usual_default (by norm_num) hp hk
  have hp2 := make_moved a t hp
  obtain ⟨f1, f2, f3, f4, f5, f6, f7, f8⟩ : p.maximize = false ∧ p.withEdm = false ∧ p.initialElitistOnRestart = false ∧
      p.gp = GenoPheno.plain ∧ p.fixedP = [] ∧ p.x0min = x0 ∧ p.x0max = x0 ∧ p.sigmaInit = sigma := by
    have hp' := hp
    unfold Params.make at hp'
    obtain ⟨l, -, hp'⟩ := Out.bind_eq_ok.1 hp'
    obtain ⟨mu, w, muw, cs, cc, c1, cm, ds, fs, fc, ch, lv, rl, al, e⟩ := initializeParameters_frame hp'
    rw [e]; exact ⟨rfl, rfl, rfl, rfl, rfl, rfl, rfl, rfl⟩
  obtain ⟨s', h1, h2⟩ := C116_place env (fun k x => env.f k (fun i => (x i - t i) / a)) kind p a t s hu.run f2 f3 f4 f5 ha
    (fun k x => by
      congr 1
      funext i
      show (a * x i + t i - t i) / a = x i
      rw [add_sub_cancel_right, mul_div_cancel_left₀ _ ha.ne'])
    (fun h => hx (by rw [← f6]; exact h.2))
    (fun h => hx' (by rw [← f6]; exact h.2)) (Or.inl (by rw [f8]; exact hs)) hfl hb
    (fun k y => by rw [f1]; exact hv k y) hs0
  obtain ⟨u', h3, h4⟩ := (h2 N).1 u (hN N le_rfl)
  refine ⟨p, _, s, s', u, u', hp, hp2, hs0, h1, ⟨N, fun fuel hfu => ⟨hN fuel hfu, ?_⟩⟩, h4⟩
  rw [optimize_mono_le hfu (by rw [h3]; exact fun h => by cases h), h3]

/-- The hypotheses are met: exact addition rounds nothing, and a progress function that stops after `m` iterations looks at no
place. -/
theorem C116_case (z : ℕ → Vec n) (m : ℕ) (a : ℝ) (t : Vec n) (ha : 0 < a) :
    RoundsAlike (· + ·) a t ∧
    BlindToPlace { Env.basic (fun _ x => FVal.ofReal (sqNorm x / (1 + sqNorm x))) z with
      pfunc := fun _ _ t => if m ≤ t.niter then 1 else 0 } (affine a t) a ∧
    ∀ (k : ℕ) (y : Vec n), ∃ v : ℝ, (Env.basic (fun _ x => FVal.ofReal (sqNorm x / (1 + sqNorm x))) z).f k y = .num (v : EReal) ∧
      |v| ≤ dblMax := by
  refine ⟨fun i x d => ?_, fun k q q' t t' _ h _ => by simp only [h], fun k y => ?_⟩
  · show a * x + t i = a * x + t i + a * d ↔ x = x + d
    rw [left_eq_add, left_eq_add, mul_eq_zero]
    exact ⟨fun h => h.resolve_left ha.ne', Or.inr⟩
  · obtain ⟨v, e, h, _⟩ := (C114_case z m).2 k y
    exact ⟨v, e, h⟩

end Libcmaes
