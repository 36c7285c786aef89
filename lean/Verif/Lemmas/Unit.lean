import Verif.Lemmas.Shift
import Verif.Spec.Unit

/-!
# Multiplying the objective by a positive factor
-/

namespace Libcmaes

open Spec Finset

variable {n : ℕ}

theorem mulc_cancel {c : ℝ} (hc : 0 < c) (a : EReal) : a * (c : EReal) * ((c⁻¹ : ℝ) : EReal) = a := by
  rw [mul_assoc, ← EReal.coe_mul, mul_inv_cancel₀ hc.ne', EReal.coe_one, mul_one]

theorem mulc_le {c : ℝ} (hc : 0 < c) {a b : EReal} : a * (c : EReal) ≤ b * (c : EReal) ↔ a ≤ b := by
  have mono : ∀ {c : ℝ}, 0 < c → ∀ {a b : EReal}, a ≤ b → a * (c : EReal) ≤ b * (c : EReal) := fun h _ _ hab =>
    mul_le_mul_of_nonneg_right hab (by exact_mod_cast h.le)
  refine ⟨fun h => ?_, mono hc⟩
  have := mono (inv_pos.2 hc) h
  rwa [mulc_cancel hc, mulc_cancel hc] at this

theorem mulc_lt {c : ℝ} (hc : 0 < c) {a b : EReal} : a * (c : EReal) < b * (c : EReal) ↔ a < b := by
  rw [lt_iff_not_ge, lt_iff_not_ge, mulc_le hc]

theorem mulc_inj {c : ℝ} (hc : 0 < c) {a b : EReal} : a * (c : EReal) = b * (c : EReal) ↔ a = b := by
  constructor
  · intro h
    rw [← mulc_cancel hc a, h, mulc_cancel hc]
  · rintro rfl; rfl

theorem timesBy_inv {c : ℝ} (hc : 0 < c) (v : FVal) : timesBy c⁻¹ (timesBy c v) = v := by
  cases v with
  | nan => rfl
  | num a => exact congrArg FVal.num (mulc_cancel hc a)

theorem timesBy_lt {c : ℝ} (hc : 0 < c) (a b : FVal) : FVal.lt (timesBy c a) (timesBy c b) ↔ FVal.lt a b := by
  cases a <;> cases b <;> first | exact Iff.rfl | exact mulc_lt hc

theorem timesBy_le {c : ℝ} (hc : 0 < c) (a b : FVal) : FVal.le (timesBy c a) (timesBy c b) ↔ FVal.le a b := by
  cases a <;> cases b <;> first | exact Iff.rfl | exact mulc_le hc

theorem timesBy_eq {c : ℝ} (hc : 0 < c) (a b : FVal) : FVal.eq (timesBy c a) (timesBy c b) ↔ FVal.eq a b := by
  cases a <;> cases b <;> first | exact Iff.rfl | exact mulc_inj hc

/-- The factor is the same when maximising. -/
theorem neg_timesBy (c : ℝ) (b : Bool) (v : FVal) : negIf b (timesBy c v) = timesBy c (negIf b v) := by
  cases b with
  | false => rfl
  | true =>
    cases v with
    | nan => rfl
    | num a => exact congrArg FVal.num (neg_mul a (c : EReal)).symm

theorem half_mulc {c : ℝ} (hc : 0 < c) (a b : EReal) :
    (a * (c : EReal) + b * (c : EReal)) * ((1 / 2 : ℝ) : EReal) = (a + b) * ((1 / 2 : ℝ) : EReal) * (c : EReal) := by
  rw [← EReal.right_distrib_of_nonneg_of_ne_top (by exact_mod_cast hc.le) (EReal.coe_ne_top c), mul_right_comm]

theorem half_add_times {c : ℝ} (hc : 0 < c) (u v : FVal) :
    FVal.half (FVal.add (timesBy c u) (timesBy c v)) = timesBy c (FVal.half (FVal.add u v)) := by
  cases u with
  | nan => cases v <;> rfl
  | num a =>
    cases v with
    | nan => rfl
    | num b =>
      have ht : ∀ x : EReal, x * (c : EReal) = ⊤ ↔ x = ⊤ := fun x => by
        rw [← mulc_inj hc (a := x) (b := ⊤), EReal.top_mul_coe_of_pos hc]
      have hb : ∀ x : EReal, x * (c : EReal) = ⊥ ↔ x = ⊥ := fun x => by
        rw [← mulc_inj hc (a := x) (b := ⊥), EReal.bot_mul_coe_of_pos hc]
      simp only [timesBy, FVal.add, ht, hb]
      split_ifs
      · rfl
      · have := half_mulc hc a b
        rw [one_div] at this
        exact congrArg FVal.num this

theorem medianOf_times {c : ℝ} (hc : 0 < c) {l : List FVal} {m : FVal} (h : Sol.medianOf l = .ok m) :
    Sol.medianOf (l.map (timesBy c)) = .ok (timesBy c m) := by
  unfold Sol.medianOf at h ⊢
  have hi : ∀ {i v}, idx l i = .ok v → idx (l.map (timesBy c)) i = .ok (timesBy c v) := by
    intro i v hv
    rw [idx_eq_ok] at hv ⊢
    rw [List.getElem?_map, hv]
    rfl
  rw [List.length_map]
  split_ifs at h ⊢ with h0 h1
  · obtain ⟨u, hu, h⟩ := Out.bind_eq_ok.1 h
    obtain ⟨w, hw, h⟩ := Out.bind_eq_ok.1 h
    injection h with h
    subst h
    rw [hi hu, Out.ok_bind, hi hw, Out.ok_bind, half_add_times hc]
    rfl
  · exact hi h

/-! ### The criteria -/

theorem isMedian_times {c : ℝ} (hc : 0 < c) {l : List EReal} {m : EReal} (h : IsMedian l m) :
    IsMedian (l.map (· * (c : EReal))) (m * (c : EReal)) := by
  obtain ⟨t, h1, h2, a, b, ha, hb, e⟩ := h
  refine ⟨t.map (· * (c : EReal)), h1.map _, List.pairwise_map.2 (h2.imp fun h => (mulc_le hc).2 h), a * c, b * c, ?_, ?_, ?_⟩
  · rw [List.length_map, List.getElem?_map, ha]; rfl
  · rw [List.length_map, List.getElem?_map, hb]; rfl
  · rw [half_mulc hc, ← e]

theorem stagnation_times {c : ℝ} (hc : 0 < c) {s s' : Sol n} (hb : s'.bfvalues = s.bfvalues.map (timesBy c))
    (hm : s'.medianFvalues = s.medianFvalues.map (timesBy c)) (h : Stagnation s) : Stagnation s' := by
  obtain ⟨l1, l2, bs, ms, a, b, e1, e2, m1, m2, hab⟩ := h
  have hmap : ∀ l : List EReal, (l.map FVal.num).map (timesBy c) = (l.map (· * (c : EReal))).map FVal.num := fun l => by
    rw [List.map_map, List.map_map]; rfl
  refine ⟨by rw [hb, List.length_map]; exact l1, by rw [hm, List.length_map]; exact l2, bs.map (· * (c : EReal)),
    ms.map (· * (c : EReal)), a * c, b * c, ?_, ?_, isMedian_times hc m1, isMedian_times hc m2, (mulc_le hc).2 hab⟩
  · rw [hb, e1, hmap]
  · rw [hm, ← List.map_take, e2, hmap]

/-- The correspondence of two searches whose objectives differ by a factor. -/
noncomputable def timesAff (n : ℕ) (c : ℝ) (neg : Bool) (tgt : FVal) : Aff n := ⟨1, fun _ => 0, timesBy c, neg, timesBy c tgt⟩

section
variable {c : ℝ} {neg : Bool} {tgt : FVal}

theorem timesAff_pt : (timesAff n c neg tgt).pt = id := by
  funext x i
  show 1 * x i + 0 = x i
  ring

theorem timesAff_mono (hc : 0 < c) : (timesAff n c neg tgt).Mono := timesBy_lt hc

theorem timesAff_cand (d : Cand n) : (timesAff n c neg tgt).cand d = ⟨timesBy c d.fvalue, d.x, d.id⟩ := by
  unfold Aff.cand
  rw [timesAff_pt]
  rfl

theorem timesAff_par (p : Params n) :
    (timesAff n c neg tgt).par p = { p with maximize := neg, ftarget := timesBy c tgt } := by
  unfold Aff.par
  rw [timesAff_pt]
  simp [timesAff]

theorem timesAff_sol (J : Rest n) (s : Sol n) : (timesAff n c neg tgt).sol J s =
    { s with
      cands := J.cands
      bestHist := s.bestHist.map (timesAff n c neg tgt).cand, kBestHist := s.kBestHist.map (timesAff n c neg tgt).cand
      bfvalues := s.bfvalues.map (timesBy c), medianFvalues := J.med
      bestSeen := s.bestSeen.map (timesAff n c neg tgt).cand, worstSeen := s.worstSeen.map (timesAff n c neg tgt).cand
      initialCand := s.initialCand.map (timesAff n c neg tgt).cand, tpaX1 := J.x1, tpaX2 := J.x2, xmeanPrev := J.prev } := by
  unfold Aff.sol
  rw [timesAff_pt]
  simp [timesAff]

theorem fires_times {fladd : ℝ → ℝ → ℝ} {p : Params n} {s : Sol n} {J : Rest n} (hc : 0 < c) {k : ℤ} (hk : k ≠ 1) (ht : p.ftarget = tgt)
    (hm : J.med = s.medianFvalues.map (timesBy c)) (hb : s.bestHist ≠ []) :
    Fires fladd k ((timesAff n c neg tgt).par p) ((timesAff n c neg tgt).sol J s) ↔ Fires fladd k p s := by
  rw [timesAff_par, timesAff_sol]
  subst ht
  unfold Fires
  refine or_congr Iff.rfl (or_congr Iff.rfl (or_congr ⟨fun h => absurd h.1 hk, fun h => absurd h.1 hk⟩ (or_congr Iff.rfl (or_congr Iff.rfl
    (or_congr Iff.rfl (or_congr (and_congr Iff.rfl ?_) (or_congr (and_congr Iff.rfl ?_) (or_congr Iff.rfl (or_congr Iff.rfl
    (or_congr Iff.rfl (and_congr Iff.rfl ?_)))))))))))
  · unfold EqualFunValsCoded equalCount
    simp only [List.length_map, lastN_map, List.zip_map, List.countP_map]
    have : ∀ q : Cand n × Cand n, FVal.eq ((timesAff n c neg p.ftarget).cand q.1).fvalue ((timesAff n c neg p.ftarget).cand q.2).fvalue
        ↔ FVal.eq q.1.fvalue q.2.fvalue := fun q => timesBy_eq hc _ _
    simp only [Function.comp_def, Prod.map_fst, Prod.map_snd, this]
  · constructor
    · refine stagnation_times (inv_pos.2 hc) ?_ ?_
      · show s.bfvalues = (s.bfvalues.map (timesBy c)).map (timesBy c⁻¹)
        rw [List.map_map]
        simp [Function.comp_def, timesBy_inv hc]
      · show s.medianFvalues = J.med.map (timesBy c⁻¹)
        rw [hm, List.map_map]
        simp [Function.comp_def, timesBy_inv hc]
    · exact stagnation_times hc rfl hm
  · unfold FTarget
    refine and_congr (not_congr ?_) ?_
    · show timesBy c p.ftarget = .num ⊤ ↔ _
      constructor
      · intro h
        rw [← timesBy_inv hc p.ftarget, h]
        exact congrArg FVal.num (EReal.top_mul_coe_of_pos (inv_pos.2 hc))
      · intro h
        rw [h]
        exact congrArg FVal.num (EReal.top_mul_coe_of_pos hc)
    · have : (Sol.bestCandidate { s with
          cands := J.cands
          bestHist := s.bestHist.map (timesAff n c neg p.ftarget).cand, kBestHist := s.kBestHist.map (timesAff n c neg p.ftarget).cand
          bfvalues := s.bfvalues.map (timesBy c), medianFvalues := J.med
          bestSeen := s.bestSeen.map (timesAff n c neg p.ftarget).cand, worstSeen := s.worstSeen.map (timesAff n c neg p.ftarget).cand
          initialCand := s.initialCand.map (timesAff n c neg p.ftarget).cand, tpaX1 := J.x1, tpaX2 := J.x2
          xmeanPrev := J.prev }).fvalue = timesBy c s.bestCandidate.fvalue := by
        unfold Sol.bestCandidate
        simp only [List.getLast?_map]
        cases h : s.bestHist.getLast? with
        | none => exact absurd (List.getLast?_eq_none_iff.1 h) hb
        | some d => rfl
      rw [this]
      exact timesBy_le hc _ _

theorem stopCrit_times {fladd : ℝ → ℝ → ℝ} {p : Params n} {s : Sol n} {J : Rest n} (hc : 0 < c) (ht : p.ftarget = tgt)
    (hm : J.med = s.medianFvalues.map (timesBy c)) (hb : s.bestHist ≠ []) (hr : StopReady p s)
    (hr' : StopReady ((timesAff n c neg tgt).par p) ((timesAff n c neg tgt).sol J s)) (l : List (ℤ × Bool)) (hl : (1, true) ∉ l) :
    stopCrit fladd l ((timesAff n c neg tgt).par p) ((timesAff n c neg tgt).sol J s) = stopCrit fladd l p s := by
  induction l with
  | nil => rfl
  | cons a l ih =>
    obtain ⟨k, b⟩ := a
    unfold stopCrit
    rw [ih fun h => hl (List.mem_cons_of_mem _ h)]
    cases b with
    | false => rfl
    | true =>
    have hk1 : k ≠ 1 := fun h => hl (by rw [h]; exact List.mem_cons_self)
    have : critFun fladd k ((timesAff n c neg tgt).par p) ((timesAff n c neg tgt).sol J s) = critFun fladd k p s := by
      by_cases hk : k ∈ stopCodes
      · rw [critFun_fires hr hk, critFun_fires hr' hk]
        by_cases hF : Fires fladd k p s
        · rw [if_pos hF, if_pos ((fires_times hc hk1 ht hm hb).2 hF)]
        · rw [if_neg hF, if_neg fun h => hF ((fires_times hc hk1 ht hm hb).1 h)]
      · rw [critFun_other hk, critFun_other hk]
    rw [this]

end

/-- Two searches that correspond, both in order. -/
structure TimesPair (c : ℝ) (neg : Bool) (tgt : FVal) (J : Rest n) (s : Strat n) : Prop where
  corr : (timesAff n c neg tgt).Corr J s
  live : Live s
  recd : Recorded s
  live' : Live ((timesAff n c neg tgt).st J s)
  recd' : Recorded ((timesAff n c neg tgt).st J s)
  med : J.med = s.sol.medianFvalues.map (timesBy c)
  past : s.niter ≠ 0 → s.sol.bestHist ≠ [] ∧ J.cands = s.sol.cands.map (timesAff n c neg tgt).cand
  negate : s.negate = neg
  target : s.p.ftarget = tgt
  grad : s.p.withGradient = false
  weights : ∑ i ∈ range s.p.mu, s.p.weights i = 1
  edm : s.p.withEdm = false
  restart : s.p.initialElitistOnRestart = false
  quiet : (1, true) ∉ s.crit

variable {c : ℝ} {neg : Bool} {tgt : FVal} {env env' : Env n} {J : Rest n} {s : Strat n}

/-- The environments of the two searches. -/
structure TimesEnv (c : ℝ) (neg : Bool) (env env' : Env n) : Prop where
  eig : env'.eig = env.eig
  z : env'.z = env.z
  sched : env'.sched = env.sched
  fladd : env'.fladd = env.fladd
  pfunc : env'.pfunc = env.pfunc
  f : ∀ k x, negIf neg (env'.f k x) = timesBy c (negIf neg (env.f k x))
  pos : 0 < c
  blind : BlindToValues env
  val : ∀ k y, Val (negIf neg (env.f k y))
  val' : ∀ k y, Val (negIf neg (env'.f k y))

theorem TimesPair.generation (hE : TimesEnv c neg env env') (hP : TimesPair c neg tgt J s) {s' : Strat n}
    (h : s.generation env = .ok s') :
    ∃ J', ((timesAff n c neg tgt).st J s).generation env' = .ok ((timesAff n c neg tgt).st J' s') ∧ TimesPair c neg tgt J' s' := by
  obtain ⟨J', r, hc, hcs, hp, hn⟩ := Aff.generation_map (D := timesAff n c neg tgt) (timesAff_mono hE.pos) one_pos hE.eig hE.z hE.sched
    (fun k x => by rw [timesAff_pt, hP.negate]; exact hE.f k x) hP.live.uh hP.grad hP.weights
    (fun x y h => by rw [timesAff_pt]; exact h) (fun x y h => by rw [timesAff_pt]; exact h) hP.corr h
  obtain ⟨hL, hR, _⟩ := genRun_live (.turn (.refl s) h) hP.live hP.recd (by rw [hP.negate]; exact hE.val)
  obtain ⟨hL', hR', _⟩ := genRun_live (.turn (.refl _) r) hP.live' hP.recd' hE.val'
  obtain ⟨hb, m, hm, em⟩ := generation_records hP.recd.maxHist h
  obtain ⟨-, m', hm', em'⟩ := generation_records hP.recd'.maxHist r
  refine ⟨J', r, hc, hL, hR, hL', hR', ?_, fun _ => ⟨hb, hcs⟩, by rw [hn, hP.negate], by rw [hp, hP.target], by rw [hp]; exact hP.grad,
    by rw [hp]; exact hP.weights, by rw [hp]; exact hP.edm, by rw [hp]; exact hP.restart, by
      obtain ⟨_, hrun⟩ := Strat.generation_askRun h
      rw [(run_p hrun.run).2.2.2.2.2.2.1]; exact hP.quiet⟩
  have e1 : J'.med = Sol.pushBounded (Sol.medianBound s.sol.niter n J'.cands.length) J.med m' := em'
  have e2 : Sol.medianOf (J'.cands.map (·.fvalue)) = .ok m' := hm'
  have e3 : J'.cands.map (·.fvalue) = (s'.sol.cands.map (·.fvalue)).map (timesBy c) := by
    rw [hcs, List.map_map, List.map_map]
    rfl
  rw [e3, medianOf_times hE.pos hm] at e2
  injection e2 with e2
  rw [e1, em, hP.med, ← e2, hcs, List.length_map, Aff.pushBounded_map]

theorem timesAff_same : SameSearch id 1 s.sol ((timesAff n c neg tgt).st J s).sol := by
  have := Aff.same (D := timesAff n c neg tgt) (J := J) (s := s)
  rwa [timesAff_pt] at this

theorem TimesPair.stop (hE : TimesEnv c neg env env') (hP : TimesPair c neg tgt J s) {b : Bool} {s' : Strat n}
    (h : s.stop env = .ok (b, s')) :
    ((timesAff n c neg tgt).st J s).stop env' = .ok (b, (timesAff n c neg tgt).st J s') ∧ TimesPair c neg tgt J s' := by
  constructor
  · unfold Strat.stop at h ⊢
    rw [hE.pfunc, hE.fladd]
    have hpf : env.pfunc ((timesAff n c neg tgt).st J s).npf ((timesAff n c neg tgt).st J s).p ((timesAff n c neg tgt).st J s).sol =
        env.pfunc s.npf s.p s.sol := hE.blind _ _ _ _ _ timesAff_same rfl rfl
    simp only [hpf]
    change (if s.sol.runStatus < 0 then _ else if env.pfunc s.npf s.p s.sol ≠ 0 then _ else if s.niter = 0 then _ else _) = _
    by_cases h1 : s.sol.runStatus < 0
    · rw [if_pos h1] at h ⊢
      injection h with h
      obtain ⟨rfl, rfl⟩ := Prod.mk.inj h
      rfl
    · rw [if_neg h1] at h ⊢
      by_cases h2 : env.pfunc s.npf s.p s.sol ≠ 0
      · rw [if_pos h2] at h ⊢
        injection h with h
        obtain ⟨rfl, rfl⟩ := Prod.mk.inj h
        rfl
      · rw [if_neg h2] at h ⊢
        by_cases h3 : s.niter = 0
        · rw [if_pos h3] at h ⊢
          injection h with h
          obtain ⟨rfl, rfl⟩ := Prod.mk.inj h
          rfl
        · rw [if_neg h3] at h ⊢
          obtain ⟨r, hr, h⟩ := Out.bind_eq_ok.1 h
          injection h with h
          obtain ⟨rfl, rfl⟩ := Prod.mk.inj h
          have e := stopCrit_times (fladd := env.fladd) (neg := neg) hE.pos hP.target hP.med (hP.past h3).1
            (hP.recd.ready hP.live.toLiveCore h3) (hP.recd'.ready hP.live'.toLiveCore h3) s.crit hP.quiet
          show (stopCrit env.fladd s.crit ((timesAff n c neg tgt).par s.p) ((timesAff n c neg tgt).sol J s.sol) >>= _) = _
          rw [e]
          rw [show stopCrit env.fladd s.crit s.p s.sol = .ok r from hr, Out.ok_bind]
          rfl
  · obtain ⟨k, r, e⟩ := Strat.stop_frame h
    subst e
    exact ⟨⟨hP.corr.cands, hP.corr.calls, hP.corr.mean, hP.corr.prev, hP.corr.lambda⟩, hP.live.withRun _ _, hP.recd.withRun _ _,
      hP.live'.withRun _ _, hP.recd'.withRun _ _, hP.med, hP.past, hP.negate, hP.target, hP.grad, hP.weights,
      hP.edm, hP.restart, hP.quiet⟩

theorem TimesPair.loop (hE : TimesEnv c neg env env') (k : ℕ) (hP : TimesPair c neg tgt J s) {r : Option (Strat n)}
    (h : Strat.loop env k s = .ok r) :
    match r with
    | none => Strat.loop env' k ((timesAff n c neg tgt).st J s) = .ok none
    | some t => ∃ J', Strat.loop env' k ((timesAff n c neg tgt).st J s) = .ok (some ((timesAff n c neg tgt).st J' t)) ∧
        TimesPair c neg tgt J' t := by
  induction k generalizing s J with
  | zero => injection h with h; subst h; rfl
  | succ k ih =>
    unfold Strat.loop at h
    obtain ⟨⟨b, s1⟩, h1, h⟩ := Out.bind_eq_ok.1 h
    obtain ⟨r1, hP1⟩ := hP.stop hE h1
    cases b with
    | true =>
      simp only [if_true] at h
      injection h with h
      subst h
      refine ⟨J, ?_, hP1⟩
      unfold Strat.loop
      rw [r1, Out.ok_bind]
      rfl
    | false =>
      simp only [Bool.false_eq_true, if_false] at h
      obtain ⟨s2, h2, h⟩ := Out.bind_eq_ok.1 h
      obtain ⟨J2, r2, hP2⟩ := hP1.generation hE h2
      have e : Strat.loop env' (k + 1) ((timesAff n c neg tgt).st J s) = Strat.loop env' k ((timesAff n c neg tgt).st J2 s2) := by
        conv_lhs => unfold Strat.loop
        rw [r1, Out.ok_bind]
        show (((timesAff n c neg tgt).st J s1).generation env' >>= fun s2 => Strat.loop env' k s2) = _
        rw [r2, Out.ok_bind]
      have := ih hP2 h
      rw [e]
      cases r <;> exact this

theorem evalInitial_times (hE : TimesEnv c neg env env') (hc : (timesAff n c neg tgt).Corr J s) (hn : s.negate = neg) {s0 : Strat n}
    (h : s.evalInitial env = .ok s0) :
    ∃ J0, ((timesAff n c neg tgt).st J s).evalInitial env' = .ok ((timesAff n c neg tgt).st J0 s0) ∧
      (timesAff n c neg tgt).Corr J0 s0 ∧ J0.med = J.med := by
  unfold Strat.evalInitial at h ⊢
  change ∃ J0, (if (s.initialElitist || s.p.initialElitist || s.p.elitist || s.p.initialFvalue) = true then _ else _) = _ ∧ _
  split_ifs at h ⊢ with hi
  · obtain ⟨y, hy, h⟩ := Out.bind_eq_ok.1 h
    injection h with h
    subst h
    have hy' : phenoV ((timesAff n c neg tgt).st J s).p.gp ((timesAff n c neg tgt).st J s).sol.xmean = .ok y := by
      show phenoV s.p.gp ((timesAff n c neg tgt).pt s.sol.xmean) = _
      rw [timesAff_pt]
      exact hy
    have hf : (if neg then (env'.f J.calls.length y).neg else env'.f J.calls.length y) =
        timesBy c (if s.negate then (env.f s.calls.length y).neg else env.f s.calls.length y) := by
      rw [hc.calls, hn]
      exact hE.f _ _
    refine ⟨{ J with calls := J.calls ++ [(y, env'.f J.calls.length y)] }, ?_, ⟨hc.cands, ?_, hc.mean, hc.prev, hc.lambda⟩, rfl⟩
    · rw [hy', Out.ok_bind]
      show Except.ok _ = Except.ok _
      congr 1
      have e : (⟨if neg then (env'.f J.calls.length y).neg else env'.f J.calls.length y, (timesAff n c neg tgt).pt s.sol.xmean, -1⟩ : Cand n) =
          (timesAff n c neg tgt).cand ⟨if s.negate then (env.f s.calls.length y).neg else env.f s.calls.length y, s.sol.xmean, -1⟩ := by
        rw [hf]
        rfl
      have e' : some (⟨if neg then (env'.f J.calls.length y).neg else env'.f J.calls.length y, (timesAff n c neg tgt).pt s.sol.xmean, -1⟩ : Cand n) =
          Option.map (timesAff n c neg tgt).cand
            (some ⟨if s.negate then (env.f s.calls.length y).neg else env.f s.calls.length y, s.sol.xmean, -1⟩) := by
        rw [e]; rfl
      let G : Option (Cand n) → Strat n := fun o =>
        { (timesAff n c neg tgt).st J s with
          calls := J.calls ++ [(y, env'.f J.calls.length y)], nevals := s.nevals + 1
          sol := { (timesAff n c neg tgt).sol J s.sol with nevals := s.sol.nevals + 1, initialCand := o, bestSeen := o } }
      exact congrArg G e'
    · show (J.calls ++ [_]).length = (s.calls ++ [_]).length
      simp [hc.calls]
  · injection h with h
    subst h
    exact ⟨J, rfl, hc, rfl⟩

end Libcmaes
