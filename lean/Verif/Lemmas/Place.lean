import Verif.Lemmas.Shift
import Verif.Spec.Place
import Verif.Lemmas.Witness

/-!
# Two searches in different places, at different scales, to their end
-/

namespace Libcmaes

open Finset Spec

variable {n : ℕ}

/-- The correspondence of two searches: `x ↦ a x + t` on points, the same values. -/
def placeAff (a : ℝ) (t : Vec n) (neg : Bool) (tgt : FVal) : Aff n := ⟨a, t, id, neg, tgt⟩

section
variable {a : ℝ} {t : Vec n} {neg : Bool} {tgt : FVal}

theorem placeAff_mono : (placeAff a t neg tgt).Mono := fun _ _ => Iff.rfl

theorem placeAff_value (d : Cand n) : ((placeAff a t neg tgt).cand d).fvalue = d.fvalue := rfl

theorem fires_place {fladd : ℝ → ℝ → ℝ} {p : Params n} {s : Sol n} {J : Rest n} (k : ℤ) (ha : 0 < a) (hfl : RoundsAlike fladd a t)
    (ht : p.ftarget = tgt) (hm : J.med = s.medianFvalues) (hb : s.bestHist ≠ []) :
    Fires fladd k ((placeAff a t neg tgt).par p) ((placeAff a t neg tgt).sol J s) ↔ Fires fladd k p s := by
  subst ht
  have hrat : ∀ x y : ℝ, a * x / (a * y) = x / y := fun x y => mul_div_mul_left x y ha.ne'
  have e1 : ∀ {k : ℕ}, (∀ c ∈ lastN k (s.bestHist.map (placeAff a t neg p.ftarget).cand),
      ∀ b ∈ lastN k (s.bestHist.map (placeAff a t neg p.ftarget).cand),
        ∃ x y : ℝ, c.fvalue = .num x ∧ b.fvalue = .num y ∧ |x - y| < max p.ftolerance 1e-12) ↔
      ∀ c ∈ lastN k s.bestHist, ∀ b ∈ lastN k s.bestHist,
        ∃ x y : ℝ, c.fvalue = .num x ∧ b.fvalue = .num y ∧ |x - y| < max p.ftolerance 1e-12 := by
    intro k
    rw [lastN_map]
    simp only [List.forall_mem_map, placeAff_value]
  unfold Fires
  refine or_congr Iff.rfl (or_congr (and_congr Iff.rfl ?_) (or_congr (and_congr Iff.rfl ?_) (or_congr (and_congr Iff.rfl ?_)
    (or_congr (and_congr Iff.rfl ?_) (or_congr (and_congr Iff.rfl ?_) (or_congr (and_congr Iff.rfl ?_)
    (or_congr (and_congr Iff.rfl ?_) (or_congr Iff.rfl (or_congr Iff.rfl (or_congr Iff.rfl (and_congr Iff.rfl ?_)))))))))))
  · unfold TolUpSigma
    simp only [Aff.par, Aff.sol, placeAff, hrat]
  · unfold TolHistFun
    simp only [Aff.par, Aff.sol, List.length_map, e1]
  · unfold TolXCoded
    simp only [Aff.par, Aff.sol, placeAff, hrat]
    exact Iff.rfl
  · unfold NoEffectAxisCoded
    have hax : ∀ (i : Fin n) (u v : ℝ), (placeAff a t neg p.ftarget).pt s.xmean i =
        fladd ((placeAff a t neg p.ftarget).pt s.xmean i) (0.1 * (a * s.sigma) * u * v) ↔
        s.xmean i = fladd (s.xmean i) (0.1 * s.sigma * u * v) := by
      intro i u v
      rw [show 0.1 * (a * s.sigma) * u * v = a * (0.1 * s.sigma * u * v) by ring]
      exact hfl i _ _
    have hax' : ∀ (i : Fin n) (u : ℝ), (placeAff a t neg p.ftarget).pt s.xmean i =
        fladd ((placeAff a t neg p.ftarget).pt s.xmean i) (0.1 * (a * s.sigma) * u) ↔
        s.xmean i = fladd (s.xmean i) (0.1 * s.sigma * u) := by
      intro i u
      have := hax i u 1
      rwa [mul_one, mul_one] at this
    by_cases hs : p.sep = false ∧ p.vd = false
    · rw [if_pos hs, if_pos (show ((placeAff a t neg p.ftarget).par p).sep = false ∧ ((placeAff a t neg p.ftarget).par p).vd = false from hs)]
      exact forall_congr' fun i => forall_congr' fun j => hax i _ _
    · rw [if_neg hs, if_neg (show ¬ (((placeAff a t neg p.ftarget).par p).sep = false ∧ ((placeAff a t neg p.ftarget).par p).vd = false) from hs)]
      exact forall_congr' fun i => hax' i _
  · unfold NoEffectCoor
    refine forall_congr' fun i => ?_
    show a * s.xmean i + t i = fladd (a * s.xmean i + t i) (0.2 * (a * s.sigma) * Real.sqrt (varOf p s i)) ↔ _
    rw [show 0.2 * (a * s.sigma) * Real.sqrt (varOf p s i) = a * (0.2 * s.sigma * Real.sqrt (varOf p s i)) by ring]
    exact hfl i _ _
  · unfold EqualFunValsCoded equalCount
    simp only [Aff.sol, List.length_map, lastN_map, List.zip_map, List.countP_map]
    exact Iff.rfl
  · unfold Stagnation
    simp only [Aff.sol, placeAff, List.map_id, hm]
  · unfold FTarget
    refine and_congr Iff.rfl ?_
    have : (Sol.bestCandidate ((placeAff a t neg p.ftarget).sol J s)).fvalue = s.bestCandidate.fvalue := by
      unfold Sol.bestCandidate
      simp only [Aff.sol, List.getLast?_map]
      cases h : s.bestHist.getLast? with
      | none => exact absurd (List.getLast?_eq_none_iff.1 h) hb
      | some d => rfl
    rw [this]
    exact Iff.rfl

theorem stopCrit_place {fladd : ℝ → ℝ → ℝ} {p : Params n} {s : Sol n} {J : Rest n} (ha : 0 < a) (hfl : RoundsAlike fladd a t)
    (ht : p.ftarget = tgt) (hm : J.med = s.medianFvalues) (hb : s.bestHist ≠ []) (hr : StopReady p s)
    (hr' : StopReady ((placeAff a t neg tgt).par p) ((placeAff a t neg tgt).sol J s)) (l : List (ℤ × Bool)) :
    stopCrit fladd l ((placeAff a t neg tgt).par p) ((placeAff a t neg tgt).sol J s) = stopCrit fladd l p s := by
  induction l with
  | nil => rfl
  | cons x l ih =>
    obtain ⟨k, b⟩ := x
    unfold stopCrit
    rw [ih]
    have : critFun fladd k ((placeAff a t neg tgt).par p) ((placeAff a t neg tgt).sol J s) = critFun fladd k p s := by
      by_cases hk : k ∈ stopCodes
      · rw [critFun_fires hr hk, critFun_fires hr' hk]
        by_cases hF : Fires fladd k p s
        · rw [if_pos hF, if_pos ((fires_place k ha hfl ht hm hb).2 hF)]
        · rw [if_neg hF, if_neg fun h => hF ((fires_place k ha hfl ht hm hb).1 h)]
      · rw [critFun_other hk, critFun_other hk]
    rw [this]

end

/-- Two searches that correspond, both in order. -/
structure PlacePair (a : ℝ) (t : Vec n) (neg : Bool) (tgt : FVal) (J : Rest n) (s : Strat n) : Prop where
  corr : (placeAff a t neg tgt).Corr J s
  live : Live s
  recd : Recorded s
  live' : Live ((placeAff a t neg tgt).st J s)
  recd' : Recorded ((placeAff a t neg tgt).st J s)
  med : J.med = s.sol.medianFvalues
  past : s.niter ≠ 0 → s.sol.bestHist ≠ [] ∧ J.cands = s.sol.cands.map (placeAff a t neg tgt).cand
  negate : s.negate = neg
  target : s.p.ftarget = tgt
  grad : s.p.withGradient = false
  weights : ∑ i ∈ range s.p.mu, s.p.weights i = 1
  edm : s.p.withEdm = false
  restart : s.p.initialElitistOnRestart = false
  gp : s.p.gp = GenoPheno.plain
  fixed : s.p.fixedP = []

variable {a : ℝ} {t : Vec n} {neg : Bool} {tgt : FVal} {env env' : Env n} {J : Rest n} {s : Strat n}

/-- The environments of the two searches. -/
structure PlaceEnv (a : ℝ) (t : Vec n) (neg : Bool) (env env' : Env n) : Prop where
  eig : env'.eig = env.eig
  z : env'.z = env.z
  sched : env'.sched = env.sched
  fladd : env'.fladd = env.fladd
  pfunc : env'.pfunc = env.pfunc
  f : ∀ k x, env'.f k ((placeAff a t neg (.num 0)).pt x) = env.f k x
  pos : 0 < a
  rounds : RoundsAlike env.fladd a t
  blind : BlindToPlace env (placeAff a t neg (.num 0)).pt a
  val : ∀ k y, Val (negIf neg (env.f k y))
  val' : ∀ k y, Val (negIf neg (env'.f k y))

theorem PlacePair.generation (hE : PlaceEnv a t neg env env') (hP : PlacePair a t neg tgt J s) {s' : Strat n}
    (h : s.generation env = .ok s') :
    ∃ J', ((placeAff a t neg tgt).st J s).generation env' = .ok ((placeAff a t neg tgt).st J' s') ∧ PlacePair a t neg tgt J' s' := by
  obtain ⟨J', r, hc, hcs, hp, hn⟩ := Aff.generation_map (D := placeAff a t neg tgt) placeAff_mono hE.pos hE.eig hE.z hE.sched
    (fun k x => by
      rw [hP.negate]
      show negIf neg (env'.f k ((placeAff a t neg (.num 0)).pt x)) = _
      rw [hE.f]; rfl) hP.live.uh hP.grad hP.weights
    (fun x y h => by
      rw [hP.fixed, setFixed_nil] at h ⊢
      injection h with h; rw [h])
    (fun x y h => by
      rw [hP.gp, phenoV_plain] at h ⊢
      injection h with h; rw [h]) hP.corr h
  obtain ⟨hL, hR, _⟩ := genRun_live (.turn (.refl s) h) hP.live hP.recd (by rw [hP.negate]; exact hE.val)
  obtain ⟨hL', hR', _⟩ := genRun_live (.turn (.refl _) r) hP.live' hP.recd' hE.val'
  obtain ⟨hb, m, hm, em⟩ := generation_records hP.recd.maxHist h
  obtain ⟨-, m', hm', em'⟩ := generation_records hP.recd'.maxHist r
  refine ⟨J', r, hc, hL, hR, hL', hR', ?_, fun _ => ⟨hb, hcs⟩, by rw [hn, hP.negate], by rw [hp, hP.target], by rw [hp]; exact hP.grad,
    by rw [hp]; exact hP.weights, by rw [hp]; exact hP.edm, by rw [hp]; exact hP.restart, by rw [hp]; exact hP.gp, by rw [hp]; exact hP.fixed⟩
  have e1 : J'.med = Sol.pushBounded (Sol.medianBound s.sol.niter n J'.cands.length) J.med m' := em'
  have e2 : Sol.medianOf (J'.cands.map (·.fvalue)) = .ok m' := hm'
  have e3 : J'.cands.map (·.fvalue) = s'.sol.cands.map (·.fvalue) := by
    rw [hcs, List.map_map]
    rfl
  rw [e3, hm] at e2
  injection e2 with e2
  rw [e1, em, hP.med, ← e2, hcs, List.length_map]

theorem placeAff_same : SameSearch (placeAff a t neg tgt).pt a s.sol ((placeAff a t neg tgt).st J s).sol :=
  Aff.same (D := placeAff a t neg tgt) (J := J) (s := s)

theorem PlacePair.stop (hE : PlaceEnv a t neg env env') (hP : PlacePair a t neg tgt J s) {b : Bool} {s' : Strat n}
    (h : s.stop env = .ok (b, s')) :
    ((placeAff a t neg tgt).st J s).stop env' = .ok (b, (placeAff a t neg tgt).st J s') ∧ PlacePair a t neg tgt J s' := by
  constructor
  · unfold Strat.stop at h ⊢
    rw [hE.pfunc, hE.fladd]
    have hpf : env.pfunc ((placeAff a t neg tgt).st J s).npf ((placeAff a t neg tgt).st J s).p ((placeAff a t neg tgt).st J s).sol =
        env.pfunc s.npf s.p s.sol := hE.blind _ _ _ _ _ placeAff_same rfl rfl
    simp only [hpf]
    change (if s.sol.runStatus < 0 then _ else if env.pfunc s.npf s.p s.sol ≠ 0 then _ else if s.niter = 0 then _ else _) = _
    by_cases h1 : s.sol.runStatus < 0
    · rw [if_pos h1] at h ⊢
      injection h with h
      obtain ⟨rfl, rfl⟩ := Prod.mk.inj h
      rfl
    · rw [if_neg h1] at h ⊢
      by_cases h2 : env.pfunc s.npf s.p s.sol ≠ 0
      · rw [if_pos h2] at h ⊢
        injection h with h
        obtain ⟨rfl, rfl⟩ := Prod.mk.inj h
        rfl
      · rw [if_neg h2] at h ⊢
        by_cases h3 : s.niter = 0
        · rw [if_pos h3] at h ⊢
          injection h with h
          obtain ⟨rfl, rfl⟩ := Prod.mk.inj h
          rfl
        · rw [if_neg h3] at h ⊢
          obtain ⟨r, hr, h⟩ := Out.bind_eq_ok.1 h
          injection h with h
          obtain ⟨rfl, rfl⟩ := Prod.mk.inj h
          have e := stopCrit_place (fladd := env.fladd) (neg := neg) hE.pos hE.rounds hP.target hP.med (hP.past h3).1
            (hP.recd.ready hP.live.toLiveCore h3) (hP.recd'.ready hP.live'.toLiveCore h3) s.crit
          show (stopCrit env.fladd s.crit ((placeAff a t neg tgt).par s.p) ((placeAff a t neg tgt).sol J s.sol) >>= _) = _
          rw [e]
          rw [show stopCrit env.fladd s.crit s.p s.sol = .ok r from hr, Out.ok_bind]
          rfl
  · obtain ⟨k, r, e⟩ := Strat.stop_frame h
    subst e
    exact ⟨⟨hP.corr.cands, hP.corr.calls, hP.corr.mean, hP.corr.prev, hP.corr.lambda⟩, hP.live.withRun _ _, hP.recd.withRun _ _,
      hP.live'.withRun _ _, hP.recd'.withRun _ _, hP.med, hP.past, hP.negate, hP.target, hP.grad, hP.weights,
      hP.edm, hP.restart, hP.gp, hP.fixed⟩

theorem PlacePair.loop (hE : PlaceEnv a t neg env env') (k : ℕ) (hP : PlacePair a t neg tgt J s) {r : Option (Strat n)}
    (h : Strat.loop env k s = .ok r) :
    match r with
    | none => Strat.loop env' k ((placeAff a t neg tgt).st J s) = .ok none
    | some s' => ∃ J', Strat.loop env' k ((placeAff a t neg tgt).st J s) = .ok (some ((placeAff a t neg tgt).st J' s')) ∧
        PlacePair a t neg tgt J' s' := by
  induction k generalizing s J with
  | zero => injection h with h; subst h; rfl
  | succ k ih =>
    unfold Strat.loop at h
    obtain ⟨⟨b, s1⟩, h1, h⟩ := Out.bind_eq_ok.1 h
    obtain ⟨r1, hP1⟩ := hP.stop hE h1
    cases b with
    | true =>
      simp only [if_true] at h
      injection h with h
      subst h
      refine ⟨J, ?_, hP1⟩
      unfold Strat.loop
      rw [r1, Out.ok_bind]
      rfl
    | false =>
      simp only [Bool.false_eq_true, if_false] at h
      obtain ⟨s2, h2, h⟩ := Out.bind_eq_ok.1 h
      obtain ⟨J2, r2, hP2⟩ := hP1.generation hE h2
      have e : Strat.loop env' (k + 1) ((placeAff a t neg tgt).st J s) = Strat.loop env' k ((placeAff a t neg tgt).st J2 s2) := by
        conv_lhs => unfold Strat.loop
        rw [r1, Out.ok_bind]
        show (((placeAff a t neg tgt).st J s1).generation env' >>= fun s2 => Strat.loop env' k s2) = _
        rw [r2, Out.ok_bind]
      have := ih hP2 h
      rw [e]
      cases r <;> exact this

theorem evalInitial_place (hE : PlaceEnv a t neg env env') (hc : (placeAff a t neg tgt).Corr J s) (hn : s.negate = neg)
    (hgp : s.p.gp = GenoPheno.plain) {s0 : Strat n} (h : s.evalInitial env = .ok s0) :
    ∃ J0, ((placeAff a t neg tgt).st J s).evalInitial env' = .ok ((placeAff a t neg tgt).st J0 s0) ∧
      (placeAff a t neg tgt).Corr J0 s0 ∧ J0.med = J.med := by
  unfold Strat.evalInitial at h ⊢
  change ∃ J0, (if (s.initialElitist || s.p.initialElitist || s.p.elitist || s.p.initialFvalue) = true then _ else _) = _ ∧ _
  split_ifs at h ⊢ with hi
  · obtain ⟨y, hy, h⟩ := Out.bind_eq_ok.1 h
    injection h with h
    subst h
    rw [hgp, phenoV_plain] at hy
    injection hy with hy
    subst hy
    set y' := (placeAff a t neg tgt).pt s.sol.xmean with hy'd
    have hy' : phenoV ((placeAff a t neg tgt).st J s).p.gp ((placeAff a t neg tgt).st J s).sol.xmean = .ok y' := by
      show phenoV s.p.gp ((placeAff a t neg tgt).pt s.sol.xmean) = _
      rw [hgp, phenoV_plain]
    have hf : (if neg then (env'.f J.calls.length y').neg else env'.f J.calls.length y') =
        (if s.negate then (env.f s.calls.length s.sol.xmean).neg else env.f s.calls.length s.sol.xmean) := by
      have := hE.f s.calls.length s.sol.xmean
      rw [hc.calls, hn]
      show (if neg then (env'.f s.calls.length ((placeAff a t neg (.num 0)).pt s.sol.xmean)).neg else
        env'.f s.calls.length ((placeAff a t neg (.num 0)).pt s.sol.xmean)) = _
      rw [this]
    refine ⟨{ J with calls := J.calls ++ [(y', env'.f J.calls.length y')] }, ?_, ⟨hc.cands, ?_, hc.mean, hc.prev, hc.lambda⟩, rfl⟩
    · rw [hy', Out.ok_bind]
      show Except.ok _ = Except.ok _
      congr 1
      have e' : some (⟨if neg then (env'.f J.calls.length y').neg else env'.f J.calls.length y', y', -1⟩ : Cand n) =
          Option.map (placeAff a t neg tgt).cand
            (some ⟨if s.negate then (env.f s.calls.length s.sol.xmean).neg else env.f s.calls.length s.sol.xmean, s.sol.xmean, -1⟩) := by
        rw [hf]; rfl
      let G : Option (Cand n) → Strat n := fun o =>
        { (placeAff a t neg tgt).st J s with
          calls := J.calls ++ [(y', env'.f J.calls.length y')], nevals := s.nevals + 1
          sol := { (placeAff a t neg tgt).sol J s.sol with nevals := s.sol.nevals + 1, initialCand := o, bestSeen := o } }
      exact congrArg G e'
    · show (J.calls ++ [_]).length = (s.calls ++ [_]).length
      simp [hc.calls]
  · injection h with h
    subst h
    exact ⟨J, rfl, hc, rfl⟩

end Libcmaes
