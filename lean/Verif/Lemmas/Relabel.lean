import Verif.Lemmas.Shift
import Verif.Spec.Relabel

/-!
# Objectives with the same ranking
-/

namespace Libcmaes

open Spec Finset

variable {n : ℕ}

theorem relabel_lt {g : EReal → EReal} (hg : StrictMono g) (a b : FVal) : FVal.lt (relabel g a) (relabel g b) ↔ FVal.lt a b := by
  cases a <;> cases b <;> first | exact Iff.rfl | exact hg.lt_iff_lt

theorem relabel_le {g : EReal → EReal} (hg : StrictMono g) (a b : FVal) : FVal.le (relabel g a) (relabel g b) ↔ FVal.le a b := by
  cases a <;> cases b <;> first | exact Iff.rfl | exact hg.le_iff_le

theorem relabel_eq {g : EReal → EReal} (hg : StrictMono g) (a b : FVal) : FVal.eq (relabel g a) (relabel g b) ↔ FVal.eq a b := by
  cases a <;> cases b <;> first | exact Iff.rfl | exact hg.injective.eq_iff

theorem neg_relabel (g : EReal → EReal) (b : Bool) (v : FVal) : negIf b (relabel g v) = relabel (seenMap b g) (negIf b v) := by
  cases b with
  | false => rfl
  | true =>
    cases v with
    | nan => rfl
    | num a =>
      show FVal.num (-g a) = FVal.num (-g (- -a))
      rw [neg_neg]

theorem seenMap_mono {g : EReal → EReal} (hg : StrictMono g) (b : Bool) : StrictMono (seenMap b g) := by
  cases b with
  | false => exact hg
  | true =>
    intro x y h
    exact EReal.neg_lt_neg_iff.2 (hg (EReal.neg_lt_neg_iff.2 h))

theorem relabel_top {g : EReal → EReal} (hg : StrictMono g) (ht : g ⊤ = ⊤) (v : FVal) : relabel g v = .num ⊤ ↔ v = .num ⊤ := by
  cases v with
  | nan => exact Iff.rfl
  | num a =>
    constructor
    · intro h
      injection h with h
      rw [← ht] at h
      rw [hg.injective h]
    · intro h
      injection h with h
      rw [h]
      exact congrArg FVal.num ht

/-- The correspondence of two searches whose objectives rank alike. -/
def relAff (n : ℕ) (g : EReal → EReal) (neg : Bool) (tgt : FVal) : Aff n := ⟨1, fun _ => 0, relabel g, neg, relabel g tgt⟩

section
variable {g : EReal → EReal} {neg : Bool} {tgt : FVal}

theorem relAff_pt : (relAff n g neg tgt).pt = id := by
  funext x i
  show 1 * x i + 0 = x i
  ring

theorem relAff_mono (hc : StrictMono g) : (relAff n g neg tgt).Mono := relabel_lt hc

theorem relAff_cand (d : Cand n) : (relAff n g neg tgt).cand d = ⟨relabel g d.fvalue, d.x, d.id⟩ := by
  unfold Aff.cand
  rw [relAff_pt]
  rfl

theorem relAff_par (p : Params n) :
    (relAff n g neg tgt).par p = { p with maximize := neg, ftarget := relabel g tgt } := by
  unfold Aff.par
  rw [relAff_pt]
  simp [relAff]

theorem relAff_sol (J : Rest n) (s : Sol n) : (relAff n g neg tgt).sol J s =
    { s with
      cands := J.cands
      bestHist := s.bestHist.map (relAff n g neg tgt).cand, kBestHist := s.kBestHist.map (relAff n g neg tgt).cand
      bfvalues := s.bfvalues.map (relabel g), medianFvalues := J.med
      bestSeen := s.bestSeen.map (relAff n g neg tgt).cand, worstSeen := s.worstSeen.map (relAff n g neg tgt).cand
      initialCand := s.initialCand.map (relAff n g neg tgt).cand, tpaX1 := J.x1, tpaX2 := J.x2, xmeanPrev := J.prev } := by
  unfold Aff.sol
  rw [relAff_pt]
  simp [relAff]

theorem fires_relabel {fladd : ℝ → ℝ → ℝ} {p : Params n} {s : Sol n} {J : Rest n} (hc : StrictMono g) (hT : g ⊤ = ⊤) {k : ℤ} (hk : k ≠ 1) (hk6 : k ≠ 6)
    (ht : p.ftarget = tgt) (hb : s.bestHist ≠ []) :
    Fires fladd k ((relAff n g neg tgt).par p) ((relAff n g neg tgt).sol J s) ↔ Fires fladd k p s := by
  rw [relAff_par, relAff_sol]
  subst ht
  unfold Fires
  refine or_congr Iff.rfl (or_congr Iff.rfl (or_congr ⟨fun h => absurd h.1 hk, fun h => absurd h.1 hk⟩ (or_congr Iff.rfl (or_congr Iff.rfl
    (or_congr Iff.rfl (or_congr (and_congr Iff.rfl ?_) (or_congr ⟨fun h => absurd h.1 hk6, fun h => absurd h.1 hk6⟩ (or_congr Iff.rfl (or_congr Iff.rfl
    (or_congr Iff.rfl (and_congr Iff.rfl ?_)))))))))))
  · unfold EqualFunValsCoded equalCount
    simp only [List.length_map, lastN_map, List.zip_map, List.countP_map]
    have : ∀ q : Cand n × Cand n, FVal.eq ((relAff n g neg p.ftarget).cand q.1).fvalue ((relAff n g neg p.ftarget).cand q.2).fvalue
        ↔ FVal.eq q.1.fvalue q.2.fvalue := fun q => relabel_eq hc _ _
    simp only [Function.comp_def, Prod.map_fst, Prod.map_snd, this]
  · unfold FTarget
    refine and_congr (not_congr ?_) ?_
    · exact relabel_top hc hT p.ftarget
    · have : (Sol.bestCandidate { s with
          cands := J.cands
          bestHist := s.bestHist.map (relAff n g neg p.ftarget).cand, kBestHist := s.kBestHist.map (relAff n g neg p.ftarget).cand
          bfvalues := s.bfvalues.map (relabel g), medianFvalues := J.med
          bestSeen := s.bestSeen.map (relAff n g neg p.ftarget).cand, worstSeen := s.worstSeen.map (relAff n g neg p.ftarget).cand
          initialCand := s.initialCand.map (relAff n g neg p.ftarget).cand, tpaX1 := J.x1, tpaX2 := J.x2
          xmeanPrev := J.prev }).fvalue = relabel g s.bestCandidate.fvalue := by
        unfold Sol.bestCandidate
        simp only [List.getLast?_map]
        cases h : s.bestHist.getLast? with
        | none => exact absurd (List.getLast?_eq_none_iff.1 h) hb
        | some d => rfl
      rw [this]
      exact relabel_le hc _ _

theorem stopCrit_relabel {fladd : ℝ → ℝ → ℝ} {p : Params n} {s : Sol n} {J : Rest n} (hc : StrictMono g) (hT : g ⊤ = ⊤) (ht : p.ftarget = tgt)
    (hb : s.bestHist ≠ []) (hr : StopReady p s)
    (hr' : StopReady ((relAff n g neg tgt).par p) ((relAff n g neg tgt).sol J s)) (l : List (ℤ × Bool)) (hl : (1, true) ∉ l)
    (hl6 : (6, true) ∉ l) :
    stopCrit fladd l ((relAff n g neg tgt).par p) ((relAff n g neg tgt).sol J s) = stopCrit fladd l p s := by
  induction l with
  | nil => rfl
  | cons a l ih =>
    obtain ⟨k, b⟩ := a
    unfold stopCrit
    rw [ih (fun h => hl (List.mem_cons_of_mem _ h)) fun h => hl6 (List.mem_cons_of_mem _ h)]
    cases b with
    | false => rfl
    | true =>
    have hk6 : k ≠ 6 := fun h => hl6 (by rw [h]; exact List.mem_cons_self)
    have hk1 : k ≠ 1 := fun h => hl (by rw [h]; exact List.mem_cons_self)
    have : critFun fladd k ((relAff n g neg tgt).par p) ((relAff n g neg tgt).sol J s) = critFun fladd k p s := by
      by_cases hk : k ∈ stopCodes
      · rw [critFun_fires hr hk, critFun_fires hr' hk]
        by_cases hF : Fires fladd k p s
        · rw [if_pos hF, if_pos ((fires_relabel hc hT hk1 hk6 ht hb).2 hF)]
        · rw [if_neg hF, if_neg fun h => hF ((fires_relabel hc hT hk1 hk6 ht hb).1 h)]
      · rw [critFun_other hk, critFun_other hk]
    rw [this]

end

/-- Two searches that correspond, both in order. -/
structure RelPair (g : EReal → EReal) (neg : Bool) (tgt : FVal) (J : Rest n) (s : Strat n) : Prop where
  corr : (relAff n g neg tgt).Corr J s
  live : Live s
  recd : Recorded s
  live' : Live ((relAff n g neg tgt).st J s)
  recd' : Recorded ((relAff n g neg tgt).st J s)
  past : s.niter ≠ 0 → s.sol.bestHist ≠ [] ∧ J.cands = s.sol.cands.map (relAff n g neg tgt).cand
  negate : s.negate = neg
  target : s.p.ftarget = tgt
  grad : s.p.withGradient = false
  weights : ∑ i ∈ range s.p.mu, s.p.weights i = 1
  edm : s.p.withEdm = false
  restart : s.p.initialElitistOnRestart = false
  quiet : (1, true) ∉ s.crit
  quiet6 : (6, true) ∉ s.crit

variable {g : EReal → EReal} {neg : Bool} {tgt : FVal} {env env' : Env n} {J : Rest n} {s : Strat n}

/-- The environments of the two searches. -/
structure RelEnv (g : EReal → EReal) (neg : Bool) (env env' : Env n) : Prop where
  eig : env'.eig = env.eig
  z : env'.z = env.z
  sched : env'.sched = env.sched
  fladd : env'.fladd = env.fladd
  pfunc : env'.pfunc = env.pfunc
  f : ∀ k x, negIf neg (env'.f k x) = relabel g (negIf neg (env.f k x))
  pos : StrictMono g
  top : g ⊤ = ⊤
  blind : BlindToValues env
  val : ∀ k y, Val (negIf neg (env.f k y))
  val' : ∀ k y, Val (negIf neg (env'.f k y))

theorem RelPair.generation (hE : RelEnv g neg env env') (hP : RelPair g neg tgt J s) {s' : Strat n}
    (h : s.generation env = .ok s') :
    ∃ J', ((relAff n g neg tgt).st J s).generation env' = .ok ((relAff n g neg tgt).st J' s') ∧ RelPair g neg tgt J' s' := by
  obtain ⟨J', r, hc, hcs, hp, hn⟩ := Aff.generation_map (D := relAff n g neg tgt) (relAff_mono hE.pos) one_pos hE.eig hE.z hE.sched
    (fun k x => by rw [relAff_pt, hP.negate]; exact hE.f k x) hP.live.uh hP.grad hP.weights
    (fun x y h => by rw [relAff_pt]; exact h) (fun x y h => by rw [relAff_pt]; exact h) hP.corr h
  obtain ⟨hL, hR, _⟩ := genRun_live (.turn (.refl s) h) hP.live hP.recd (by rw [hP.negate]; exact hE.val)
  obtain ⟨hL', hR', _⟩ := genRun_live (.turn (.refl _) r) hP.live' hP.recd' hE.val'
  obtain ⟨hb, -⟩ := generation_records hP.recd.maxHist h
  obtain ⟨_, hrun⟩ := Strat.generation_askRun h
  have hcr := (run_p hrun.run).2.2.2.2.2.2.1
  exact ⟨J', r, hc, hL, hR, hL', hR', fun _ => ⟨hb, hcs⟩, by rw [hn, hP.negate], by rw [hp, hP.target], by rw [hp]; exact hP.grad,
    by rw [hp]; exact hP.weights, by rw [hp]; exact hP.edm, by rw [hp]; exact hP.restart, by rw [hcr]; exact hP.quiet,
    by rw [hcr]; exact hP.quiet6⟩

theorem relAff_same : SameSearch id 1 s.sol ((relAff n g neg tgt).st J s).sol := by
  have := Aff.same (D := relAff n g neg tgt) (J := J) (s := s)
  rwa [relAff_pt] at this

theorem RelPair.stop (hE : RelEnv g neg env env') (hP : RelPair g neg tgt J s) {b : Bool} {s' : Strat n}
    (h : s.stop env = .ok (b, s')) :
    ((relAff n g neg tgt).st J s).stop env' = .ok (b, (relAff n g neg tgt).st J s') ∧ RelPair g neg tgt J s' := by
  constructor
  · unfold Strat.stop at h ⊢
    rw [hE.pfunc, hE.fladd]
    have hpf : env.pfunc ((relAff n g neg tgt).st J s).npf ((relAff n g neg tgt).st J s).p ((relAff n g neg tgt).st J s).sol =
        env.pfunc s.npf s.p s.sol := hE.blind _ _ _ _ _ relAff_same rfl rfl
    simp only [hpf]
    change (if s.sol.runStatus < 0 then _ else if env.pfunc s.npf s.p s.sol ≠ 0 then _ else if s.niter = 0 then _ else _) = _
    by_cases h1 : s.sol.runStatus < 0
    · rw [if_pos h1] at h ⊢
      injection h with h
      obtain ⟨rfl, rfl⟩ := Prod.mk.inj h
      rfl
    · rw [if_neg h1] at h ⊢
      by_cases h2 : env.pfunc s.npf s.p s.sol ≠ 0
      · rw [if_pos h2] at h ⊢
        injection h with h
        obtain ⟨rfl, rfl⟩ := Prod.mk.inj h
        rfl
      · rw [if_neg h2] at h ⊢
        by_cases h3 : s.niter = 0
        · rw [if_pos h3] at h ⊢
          injection h with h
          obtain ⟨rfl, rfl⟩ := Prod.mk.inj h
          rfl
        · rw [if_neg h3] at h ⊢
          obtain ⟨r, hr, h⟩ := Out.bind_eq_ok.1 h
          injection h with h
          obtain ⟨rfl, rfl⟩ := Prod.mk.inj h
          have e := stopCrit_relabel (fladd := env.fladd) (neg := neg) hE.pos hE.top hP.target (hP.past h3).1
            (hP.recd.ready hP.live.toLiveCore h3) (hP.recd'.ready hP.live'.toLiveCore h3) s.crit hP.quiet hP.quiet6
          show (stopCrit env.fladd s.crit ((relAff n g neg tgt).par s.p) ((relAff n g neg tgt).sol J s.sol) >>= _) = _
          rw [e]
          rw [show stopCrit env.fladd s.crit s.p s.sol = .ok r from hr, Out.ok_bind]
          rfl
  · obtain ⟨k, r, e⟩ := Strat.stop_frame h
    subst e
    exact ⟨⟨hP.corr.cands, hP.corr.calls, hP.corr.mean, hP.corr.prev, hP.corr.lambda⟩, hP.live.withRun _ _, hP.recd.withRun _ _,
      hP.live'.withRun _ _, hP.recd'.withRun _ _, hP.past, hP.negate, hP.target, hP.grad, hP.weights,
      hP.edm, hP.restart, hP.quiet, hP.quiet6⟩

theorem RelPair.loop (hE : RelEnv g neg env env') (k : ℕ) (hP : RelPair g neg tgt J s) {r : Option (Strat n)}
    (h : Strat.loop env k s = .ok r) :
    match r with
    | none => Strat.loop env' k ((relAff n g neg tgt).st J s) = .ok none
    | some t => ∃ J', Strat.loop env' k ((relAff n g neg tgt).st J s) = .ok (some ((relAff n g neg tgt).st J' t)) ∧
        RelPair g neg tgt J' t := by
  induction k generalizing s J with
  | zero => injection h with h; subst h; rfl
  | succ k ih =>
    unfold Strat.loop at h
    obtain ⟨⟨b, s1⟩, h1, h⟩ := Out.bind_eq_ok.1 h
    obtain ⟨r1, hP1⟩ := hP.stop hE h1
    cases b with
    | true =>
      simp only [if_true] at h
      injection h with h
      subst h
      refine ⟨J, ?_, hP1⟩
      unfold Strat.loop
      rw [r1, Out.ok_bind]
      rfl
    | false =>
      simp only [Bool.false_eq_true, if_false] at h
      obtain ⟨s2, h2, h⟩ := Out.bind_eq_ok.1 h
      obtain ⟨J2, r2, hP2⟩ := hP1.generation hE h2
      have e : Strat.loop env' (k + 1) ((relAff n g neg tgt).st J s) = Strat.loop env' k ((relAff n g neg tgt).st J2 s2) := by
        conv_lhs => unfold Strat.loop
        rw [r1, Out.ok_bind]
        show (((relAff n g neg tgt).st J s1).generation env' >>= fun s2 => Strat.loop env' k s2) = _
        rw [r2, Out.ok_bind]
      have := ih hP2 h
      rw [e]
      cases r <;> exact this

theorem evalInitial_relabel (hE : RelEnv g neg env env') (hc : (relAff n g neg tgt).Corr J s) (hn : s.negate = neg) {s0 : Strat n}
    (h : s.evalInitial env = .ok s0) :
    ∃ J0, ((relAff n g neg tgt).st J s).evalInitial env' = .ok ((relAff n g neg tgt).st J0 s0) ∧
      (relAff n g neg tgt).Corr J0 s0 := by
  unfold Strat.evalInitial at h ⊢
  change ∃ J0, (if (s.initialElitist || s.p.initialElitist || s.p.elitist || s.p.initialFvalue) = true then _ else _) = _ ∧ _
  split_ifs at h ⊢ with hi
  · obtain ⟨y, hy, h⟩ := Out.bind_eq_ok.1 h
    injection h with h
    subst h
    have hy' : phenoV ((relAff n g neg tgt).st J s).p.gp ((relAff n g neg tgt).st J s).sol.xmean = .ok y := by
      show phenoV s.p.gp ((relAff n g neg tgt).pt s.sol.xmean) = _
      rw [relAff_pt]
      exact hy
    have hf : (if neg then (env'.f J.calls.length y).neg else env'.f J.calls.length y) =
        relabel g (if s.negate then (env.f s.calls.length y).neg else env.f s.calls.length y) := by
      rw [hc.calls, hn]
      exact hE.f _ _
    refine ⟨{ J with calls := J.calls ++ [(y, env'.f J.calls.length y)] }, ?_, ⟨hc.cands, ?_, hc.mean, hc.prev, hc.lambda⟩⟩
    · rw [hy', Out.ok_bind]
      show Except.ok _ = Except.ok _
      congr 1
      have e : (⟨if neg then (env'.f J.calls.length y).neg else env'.f J.calls.length y, (relAff n g neg tgt).pt s.sol.xmean, -1⟩ : Cand n) =
          (relAff n g neg tgt).cand ⟨if s.negate then (env.f s.calls.length y).neg else env.f s.calls.length y, s.sol.xmean, -1⟩ := by
        rw [hf]
        rfl
      have e' : some (⟨if neg then (env'.f J.calls.length y).neg else env'.f J.calls.length y, (relAff n g neg tgt).pt s.sol.xmean, -1⟩ : Cand n) =
          Option.map (relAff n g neg tgt).cand
            (some ⟨if s.negate then (env.f s.calls.length y).neg else env.f s.calls.length y, s.sol.xmean, -1⟩) := by
        rw [e]; rfl
      let G : Option (Cand n) → Strat n := fun o =>
        { (relAff n g neg tgt).st J s with
          calls := J.calls ++ [(y, env'.f J.calls.length y)], nevals := s.nevals + 1
          sol := { (relAff n g neg tgt).sol J s.sol with nevals := s.sol.nevals + 1, initialCand := o, bestSeen := o } }
      exact congrArg G e'
    · show (J.calls ++ [_]).length = (s.calls ++ [_]).length
      simp [hc.calls]
  · injection h with h
    subst h
    exact ⟨J, rfl, hc⟩

end Libcmaes
