import Verif.Lemmas.Sim
import Verif.Lemmas.StopRun
import Verif.Spec.Shift

/-!
# Adding a constant to the objective
-/

namespace Libcmaes

open Spec Finset

variable {n : ℕ}

theorem addc_cancel (a : EReal) (c : ℝ) : a + (c : EReal) + ((-c : ℝ) : EReal) = a := by
  rw [add_assoc, ← EReal.coe_add, add_neg_cancel, EReal.coe_zero, add_zero]

theorem addc_le {a b : EReal} (c : ℝ) : a + (c : EReal) ≤ b + (c : EReal) ↔ a ≤ b := by
  constructor
  · intro h
    have := add_le_add h (le_refl (((-c : ℝ) : EReal)))
    rwa [addc_cancel, addc_cancel] at this
  · exact fun h => add_le_add h le_rfl

theorem addc_lt {a b : EReal} (c : ℝ) : a + (c : EReal) < b + (c : EReal) ↔ a < b := by
  rw [lt_iff_not_ge, lt_iff_not_ge, addc_le]

theorem addc_inj {a b : EReal} (c : ℝ) : a + (c : EReal) = b + (c : EReal) ↔ a = b := by
  constructor
  · intro h
    rw [← addc_cancel a c, h, addc_cancel]
  · rintro rfl; rfl

theorem shiftBy_neg (c : ℝ) (v : FVal) : shiftBy (-c) (shiftBy c v) = v := by
  cases v with
  | nan => rfl
  | num a => exact congrArg FVal.num (addc_cancel a c)

theorem shiftBy_lt (c : ℝ) (a b : FVal) : FVal.lt (shiftBy c a) (shiftBy c b) ↔ FVal.lt a b := by
  cases a <;> cases b <;> first | exact Iff.rfl | exact addc_lt c

theorem shiftBy_le (c : ℝ) (a b : FVal) : FVal.le (shiftBy c a) (shiftBy c b) ↔ FVal.le a b := by
  cases a <;> cases b <;> first | exact Iff.rfl | exact addc_le c

theorem shiftBy_eq (c : ℝ) (a b : FVal) : FVal.eq (shiftBy c a) (shiftBy c b) ↔ FVal.eq a b := by
  cases a <;> cases b <;> first | exact Iff.rfl | exact addc_inj c

/-- What a constant looks like when maximising. -/
theorem seen_shiftBy (c : ℝ) (b : Bool) (v : FVal) : seen b (shiftBy c (seen b v)) = shiftBy (if b then -c else c) v := by
  cases b with
  | false => rfl
  | true =>
    cases v with
    | nan => rfl
    | num a =>
      show FVal.num (-(-a + (c : EReal))) = FVal.num (a + ((-c : ℝ) : EReal))
      congr 1
      induction a with
      | bot => simp
      | top => simp
      | coe a => norm_cast; ring

theorem half_add_shift (c : ℝ) (u v : FVal) :
    FVal.half (FVal.add (shiftBy c u) (shiftBy c v)) = shiftBy c (FVal.half (FVal.add u v)) := by
  cases u with
  | nan => cases v <;> rfl
  | num a =>
    cases v with
    | nan => rfl
    | num b =>
      simp only [shiftBy, FVal.add]
      induction a with
      | bot =>
        induction b with
        | bot => simp [FVal.half, EReal.bot_mul_coe_of_pos]
        | top => simp [FVal.half]
        | coe b =>
          have : ((b : EReal) + (c : EReal)) = ((b + c : ℝ) : EReal) := by norm_cast
          rw [this]
          simp [-EReal.coe_add, FVal.half, EReal.bot_mul_coe_of_pos]
      | top =>
        induction b with
        | bot => simp [FVal.half]
        | top => simp [FVal.half, EReal.top_mul_coe_of_pos]
        | coe b =>
          have : ((b : EReal) + (c : EReal)) = ((b + c : ℝ) : EReal) := by norm_cast
          rw [this]
          simp [-EReal.coe_add, FVal.half, EReal.top_mul_coe_of_pos]
      | coe a =>
        have ha : ((a : EReal) + (c : EReal)) = ((a + c : ℝ) : EReal) := by norm_cast
        rw [ha]
        induction b with
        | bot => simp [-EReal.coe_add, FVal.half, EReal.bot_mul_coe_of_pos]
        | top => simp [-EReal.coe_add, FVal.half, EReal.top_mul_coe_of_pos]
        | coe b =>
          have hb : ((b : EReal) + (c : EReal)) = ((b + c : ℝ) : EReal) := by norm_cast
          rw [hb]
          simp only [EReal.coe_ne_top, EReal.coe_ne_bot, and_false, or_self, if_false, FVal.half]
          congr 1
          norm_cast
          ring

theorem medianOf_shift (c : ℝ) {l : List FVal} {m : FVal} (h : Sol.medianOf l = .ok m) :
    Sol.medianOf (l.map (shiftBy c)) = .ok (shiftBy c m) := by
  unfold Sol.medianOf at h ⊢
  have hi : ∀ {i v}, idx l i = .ok v → idx (l.map (shiftBy c)) i = .ok (shiftBy c v) := by
    intro i v hv
    rw [idx_eq_ok] at hv ⊢
    rw [List.getElem?_map, hv]
    rfl
  rw [List.length_map]
  split_ifs at h ⊢ with h0 h1
  · obtain ⟨u, hu, h⟩ := Out.bind_eq_ok.1 h
    obtain ⟨w, hw, h⟩ := Out.bind_eq_ok.1 h
    injection h with h
    subst h
    rw [hi hu, Out.ok_bind, hi hw, Out.ok_bind, half_add_shift]
    rfl
  · exact hi h

/-! ### The criteria -/

theorem half_addc (a b : EReal) (c : ℝ) :
    (a + (c : EReal) + (b + (c : EReal))) * ((1 / 2 : ℝ) : EReal) = (a + b) * ((1 / 2 : ℝ) : EReal) + (c : EReal) := by
  have e : a + (c : EReal) + (b + (c : EReal)) = (a + b) + ((c + c : ℝ) : EReal) := by
    rw [EReal.coe_add]; abel
  rw [e]
  generalize a + b = x
  induction x with
  | bot => simp [EReal.bot_mul_coe_of_pos]
  | top => rw [EReal.top_add_coe, EReal.top_mul_coe_of_pos (by norm_num), EReal.top_add_coe]
  | coe x => norm_cast; ring

theorem isMedian_shift (c : ℝ) {l : List EReal} {m : EReal} (h : IsMedian l m) :
    IsMedian (l.map (· + (c : EReal))) (m + (c : EReal)) := by
  obtain ⟨t, h1, h2, a, b, ha, hb, e⟩ := h
  refine ⟨t.map (· + (c : EReal)), h1.map _, List.pairwise_map.2 (h2.imp fun h => (addc_le c).2 h), a + c, b + c, ?_, ?_, ?_⟩
  · rw [List.length_map, List.getElem?_map, ha]; rfl
  · rw [List.length_map, List.getElem?_map, hb]; rfl
  · rw [half_addc, ← e]

theorem stagnation_shift (c : ℝ) {s s' : Sol n} (hb : s'.bfvalues = s.bfvalues.map (shiftBy c))
    (hm : s'.medianFvalues = s.medianFvalues.map (shiftBy c)) (h : Stagnation s) : Stagnation s' := by
  obtain ⟨l1, l2, bs, ms, a, b, e1, e2, m1, m2, hab⟩ := h
  have hmap : ∀ l : List EReal, (l.map FVal.num).map (shiftBy c) = (l.map (· + (c : EReal))).map FVal.num := fun l => by
    rw [List.map_map, List.map_map]; rfl
  refine ⟨by rw [hb, List.length_map]; exact l1, by rw [hm, List.length_map]; exact l2, bs.map (· + (c : EReal)),
    ms.map (· + (c : EReal)), a + c, b + c, ?_, ?_, isMedian_shift c m1, isMedian_shift c m2, (addc_le c).2 hab⟩
  · rw [hb, e1, hmap]
  · rw [hm, ← List.map_take, e2, hmap]

theorem lastN_map {α β : Type} (f : α → β) (k : ℕ) (l : List α) : lastN k (l.map f) = (lastN k l).map f := by
  unfold lastN
  rw [List.length_map, List.map_drop]

/-- The correspondence of two searches whose objectives differ by a constant. -/
noncomputable def shiftAff (n : ℕ) (c : ℝ) (neg : Bool) (tgt : FVal) : Aff n := ⟨1, fun _ => 0, shiftBy c, neg, shiftBy c tgt⟩

section
variable {c : ℝ} {neg : Bool} {tgt : FVal}

theorem shiftAff_pt : (shiftAff n c neg tgt).pt = id := by
  funext x i
  show 1 * x i + 0 = x i
  ring

theorem shiftAff_mono : (shiftAff n c neg tgt).Mono := shiftBy_lt c

theorem shiftAff_cand (d : Cand n) : (shiftAff n c neg tgt).cand d = ⟨shiftBy c d.fvalue, d.x, d.id⟩ := by
  unfold Aff.cand
  rw [shiftAff_pt]
  rfl

theorem shiftAff_par (p : Params n) :
    (shiftAff n c neg tgt).par p = { p with maximize := neg, ftarget := shiftBy c tgt } := by
  unfold Aff.par
  rw [shiftAff_pt]
  simp [shiftAff]

theorem shiftAff_sol (J : Rest n) (s : Sol n) : (shiftAff n c neg tgt).sol J s =
    { s with
      cands := J.cands
      bestHist := s.bestHist.map (shiftAff n c neg tgt).cand, kBestHist := s.kBestHist.map (shiftAff n c neg tgt).cand
      bfvalues := s.bfvalues.map (shiftBy c), medianFvalues := J.med
      bestSeen := s.bestSeen.map (shiftAff n c neg tgt).cand, worstSeen := s.worstSeen.map (shiftAff n c neg tgt).cand
      initialCand := s.initialCand.map (shiftAff n c neg tgt).cand, tpaX1 := J.x1, tpaX2 := J.x2, xmeanPrev := J.prev } := by
  unfold Aff.sol
  rw [shiftAff_pt]
  simp [shiftAff]

theorem fires_shift {fladd : ℝ → ℝ → ℝ} {p : Params n} {s : Sol n} {J : Rest n} (k : ℤ) (ht : p.ftarget = tgt)
    (hm : J.med = s.medianFvalues.map (shiftBy c)) (hb : s.bestHist ≠ []) :
    Fires fladd k ((shiftAff n c neg tgt).par p) ((shiftAff n c neg tgt).sol J s) ↔ Fires fladd k p s := by
  rw [shiftAff_par, shiftAff_sol]
  subst ht
  have e1 : ∀ {k : ℕ}, (∀ a ∈ lastN k (s.bestHist.map (shiftAff n c neg p.ftarget).cand),
      ∀ b ∈ lastN k (s.bestHist.map (shiftAff n c neg p.ftarget).cand),
        ∃ x y : ℝ, a.fvalue = .num x ∧ b.fvalue = .num y ∧ |x - y| < max p.ftolerance 1e-12) ↔
      ∀ a ∈ lastN k s.bestHist, ∀ b ∈ lastN k s.bestHist,
        ∃ x y : ℝ, a.fvalue = .num x ∧ b.fvalue = .num y ∧ |x - y| < max p.ftolerance 1e-12 := by
    intro k
    rw [lastN_map]
    simp only [List.forall_mem_map, shiftAff_cand]
    refine forall₂_congr fun a _ => forall₂_congr fun b _ => ⟨?_, ?_⟩
    · rintro ⟨x, y, hx, hy, hxy⟩
      refine ⟨x - c, y - c, ?_, ?_, by rwa [sub_sub_sub_cancel_right]⟩
      · rw [← shiftBy_neg c a.fvalue, hx]
        show FVal.num ((x : EReal) + ((-c : ℝ) : EReal)) = _
        norm_cast
      · rw [← shiftBy_neg c b.fvalue, hy]
        show FVal.num ((y : EReal) + ((-c : ℝ) : EReal)) = _
        norm_cast
    · rintro ⟨x, y, hx, hy, hxy⟩
      refine ⟨x + c, y + c, ?_, ?_, by rwa [add_sub_add_right_eq_sub]⟩
      · rw [hx]; show FVal.num ((x : EReal) + (c : EReal)) = _; norm_cast
      · rw [hy]; show FVal.num ((y : EReal) + (c : EReal)) = _; norm_cast
  unfold Fires
  refine or_congr Iff.rfl (or_congr Iff.rfl (or_congr (and_congr Iff.rfl ?_) (or_congr Iff.rfl (or_congr Iff.rfl
    (or_congr Iff.rfl (or_congr (and_congr Iff.rfl ?_) (or_congr (and_congr Iff.rfl ?_) (or_congr Iff.rfl (or_congr Iff.rfl
    (or_congr Iff.rfl (and_congr Iff.rfl ?_)))))))))))
  · unfold TolHistFun
    simp only [List.length_map, e1]
  · unfold EqualFunValsCoded equalCount
    simp only [List.length_map, lastN_map, List.zip_map, List.countP_map]
    have : ∀ q : Cand n × Cand n, FVal.eq ((shiftAff n c neg p.ftarget).cand q.1).fvalue ((shiftAff n c neg p.ftarget).cand q.2).fvalue
        ↔ FVal.eq q.1.fvalue q.2.fvalue := fun q => shiftBy_eq c _ _
    simp only [Function.comp_def, Prod.map_fst, Prod.map_snd, this]
  · constructor
    · refine stagnation_shift (-c) ?_ ?_
      · show s.bfvalues = (s.bfvalues.map (shiftBy c)).map (shiftBy (-c))
        rw [List.map_map]
        simp [Function.comp_def, shiftBy_neg]
      · show s.medianFvalues = J.med.map (shiftBy (-c))
        rw [hm, List.map_map]
        simp [Function.comp_def, shiftBy_neg]
    · exact stagnation_shift c rfl hm
  · unfold FTarget
    refine and_congr (not_congr ?_) ?_
    · show shiftBy c p.ftarget = .num ⊤ ↔ _
      constructor
      · intro h
        rw [← shiftBy_neg c p.ftarget, h]
        rfl
      · intro h
        rw [h]; rfl
    · have : (Sol.bestCandidate { s with
          cands := J.cands
          bestHist := s.bestHist.map (shiftAff n c neg p.ftarget).cand, kBestHist := s.kBestHist.map (shiftAff n c neg p.ftarget).cand
          bfvalues := s.bfvalues.map (shiftBy c), medianFvalues := J.med
          bestSeen := s.bestSeen.map (shiftAff n c neg p.ftarget).cand, worstSeen := s.worstSeen.map (shiftAff n c neg p.ftarget).cand
          initialCand := s.initialCand.map (shiftAff n c neg p.ftarget).cand, tpaX1 := J.x1, tpaX2 := J.x2
          xmeanPrev := J.prev }).fvalue = shiftBy c s.bestCandidate.fvalue := by
        unfold Sol.bestCandidate
        simp only [List.getLast?_map]
        cases h : s.bestHist.getLast? with
        | none => exact absurd (List.getLast?_eq_none_iff.1 h) hb
        | some d => rfl
      rw [this]
      exact shiftBy_le c _ _

theorem critFun_other {fladd : ℝ → ℝ → ℝ} {p : Params n} {s : Sol n} {k : ℤ} (hk : k ∉ stopCodes) :
    critFun fladd k p s = .ok 0 := by
  unfold stopCodes at hk
  simp only [List.mem_cons, List.not_mem_nil, or_false, not_or] at hk
  unfold critFun
  simp [hk]

theorem stopCrit_shift {fladd : ℝ → ℝ → ℝ} {p : Params n} {s : Sol n} {J : Rest n} (ht : p.ftarget = tgt)
    (hm : J.med = s.medianFvalues.map (shiftBy c)) (hb : s.bestHist ≠ []) (hr : StopReady p s)
    (hr' : StopReady ((shiftAff n c neg tgt).par p) ((shiftAff n c neg tgt).sol J s)) (l : List (ℤ × Bool)) :
    stopCrit fladd l ((shiftAff n c neg tgt).par p) ((shiftAff n c neg tgt).sol J s) = stopCrit fladd l p s := by
  induction l with
  | nil => rfl
  | cons a l ih =>
    obtain ⟨k, b⟩ := a
    unfold stopCrit
    rw [ih]
    have : critFun fladd k ((shiftAff n c neg tgt).par p) ((shiftAff n c neg tgt).sol J s) = critFun fladd k p s := by
      by_cases hk : k ∈ stopCodes
      · rw [critFun_fires hr hk, critFun_fires hr' hk]
        by_cases hF : Fires fladd k p s
        · rw [if_pos hF, if_pos ((fires_shift k ht hm hb).2 hF)]
        · rw [if_neg hF, if_neg fun h => hF ((fires_shift k ht hm hb).1 h)]
      · rw [critFun_other hk, critFun_other hk]
    rw [this]

end

/-! ### Generations -/

/-- What a generation adds to the records. -/
theorem generation_records {env : Env n} {s s' : Strat n} (hm : 0 < s.sol.maxHist)
    (h : s.generation env = .ok s') :
    s'.sol.bestHist ≠ [] ∧ ∃ med, Sol.medianOf (s'.sol.cands.map (·.fvalue)) = .ok med ∧
      s'.sol.medianFvalues = Sol.pushBounded (Sol.medianBound s.sol.niter n s'.sol.cands.length) s.sol.medianFvalues med := by
  unfold Strat.generation at h
  obtain ⟨⟨pop, t1⟩, g1, h⟩ := Out.bind_eq_ok.1 h
  obtain ⟨phen, g2, h⟩ := Out.bind_eq_ok.1 h
  obtain ⟨t2, g3, h⟩ := Out.bind_eq_ok.1 h
  obtain ⟨t3, g4, h⟩ := Out.bind_eq_ok.1 h
  injection h with h
  subst h
  obtain ⟨⟨es, ei, ue, c, nz, y1, y2, p1, p2, e1⟩, _⟩ := Strat.ask_frame g1
  obtain ⟨c2, nu, nzuh, lr, cu, cs, e2, _⟩ := Strat.eval_frame g3
  obtain ⟨cs', cu', su, ts, sol3, hs, hb, csq, hc, sc, ps, hs', pc, cov, sep, v, sg, xp, xm, mx, mn, lv, le,
    e'⟩ := Strat.tell_frame g4
  obtain ⟨c0, ck, cl, med, h0, hk, hl, hmed, e3, _⟩ := Sol.updateBest_ok hb
  have hm2 : t2.sol.maxHist = s.sol.maxHist := by rw [e2, e1]
  have hmf : t2.sol.medianFvalues = s.sol.medianFvalues := by rw [e2, e1]
  have hni : t2.sol.niter = s.sol.niter := by rw [e2, e1]
  have hcs : t3.incIter.sol.cands = cs' := by rw [e']; show sol3.cands = cs'; rw [e3]
  refine ⟨?_, med, by rw [hcs]; exact hmed, ?_⟩
  · rw [e']
    show sol3.bestHist ≠ []
    rw [e3]
    simp only
    split_ifs with hif
    · rw [hm2] at hif
      intro h
      have := congrArg List.length h
      rw [List.length_tail, List.length_nil] at this
      omega
    · simp
  · rw [hcs, e']
    show sol3.medianFvalues = _
    rw [e3]
    simp only [hmf, hni]

/-- Two searches that correspond, both in order. -/
structure ShiftPair (c : ℝ) (neg : Bool) (tgt : FVal) (J : Rest n) (s : Strat n) : Prop where
  corr : (shiftAff n c neg tgt).Corr J s
  live : Live s
  recd : Recorded s
  live' : Live ((shiftAff n c neg tgt).st J s)
  recd' : Recorded ((shiftAff n c neg tgt).st J s)
  med : J.med = s.sol.medianFvalues.map (shiftBy c)
  past : s.niter ≠ 0 → s.sol.bestHist ≠ [] ∧ J.cands = s.sol.cands.map (shiftAff n c neg tgt).cand
  negate : s.negate = neg
  target : s.p.ftarget = tgt
  grad : s.p.withGradient = false
  weights : ∑ i ∈ range s.p.mu, s.p.weights i = 1
  edm : s.p.withEdm = false
  restart : s.p.initialElitistOnRestart = false

variable {c : ℝ} {neg : Bool} {tgt : FVal} {env env' : Env n} {J : Rest n} {s : Strat n}

/-- The environments of the two searches. -/
structure ShiftEnv (c : ℝ) (neg : Bool) (env env' : Env n) : Prop where
  eig : env'.eig = env.eig
  z : env'.z = env.z
  sched : env'.sched = env.sched
  fladd : env'.fladd = env.fladd
  pfunc : env'.pfunc = env.pfunc
  f : ∀ k x, negIf neg (env'.f k x) = shiftBy c (negIf neg (env.f k x))
  blind : BlindToValues env
  val : ∀ k y, Val (negIf neg (env.f k y))
  val' : ∀ k y, Val (negIf neg (env'.f k y))

theorem ShiftPair.generation (hE : ShiftEnv c neg env env') (hP : ShiftPair c neg tgt J s) {s' : Strat n}
    (h : s.generation env = .ok s') :
    ∃ J', ((shiftAff n c neg tgt).st J s).generation env' = .ok ((shiftAff n c neg tgt).st J' s') ∧ ShiftPair c neg tgt J' s' := by
  obtain ⟨J', r, hc, hcs, hp, hn⟩ := Aff.generation_map (D := shiftAff n c neg tgt) shiftAff_mono one_pos hE.eig hE.z hE.sched
    (fun k x => by rw [shiftAff_pt, hP.negate]; exact hE.f k x) hP.live.uh hP.grad hP.weights
    (fun x y h => by rw [shiftAff_pt]; exact h) (fun x y h => by rw [shiftAff_pt]; exact h) hP.corr h
  obtain ⟨hL, hR, _⟩ := genRun_live (.turn (.refl s) h) hP.live hP.recd (by rw [hP.negate]; exact hE.val)
  obtain ⟨hL', hR', _⟩ := genRun_live (.turn (.refl _) r) hP.live' hP.recd' hE.val'
  obtain ⟨hb, m, hm, em⟩ := generation_records hP.recd.maxHist h
  obtain ⟨-, m', hm', em'⟩ := generation_records hP.recd'.maxHist r
  refine ⟨J', r, hc, hL, hR, hL', hR', ?_, fun _ => ⟨hb, hcs⟩, by rw [hn, hP.negate], by rw [hp, hP.target], by rw [hp]; exact hP.grad,
    by rw [hp]; exact hP.weights, by rw [hp]; exact hP.edm, by rw [hp]; exact hP.restart⟩
  have e1 : J'.med = Sol.pushBounded (Sol.medianBound s.sol.niter n J'.cands.length) J.med m' := em'
  have e2 : Sol.medianOf (J'.cands.map (·.fvalue)) = .ok m' := hm'
  have e3 : J'.cands.map (·.fvalue) = (s'.sol.cands.map (·.fvalue)).map (shiftBy c) := by
    rw [hcs, List.map_map, List.map_map]
    rfl
  rw [e3, medianOf_shift c hm] at e2
  injection e2 with e2
  rw [e1, em, hP.med, ← e2, hcs, List.length_map, Aff.pushBounded_map]

theorem shiftAff_same : SameSearch id 1 s.sol ((shiftAff n c neg tgt).st J s).sol := by
  have := Aff.same (D := shiftAff n c neg tgt) (J := J) (s := s)
  rwa [shiftAff_pt] at this

theorem ShiftPair.stop (hE : ShiftEnv c neg env env') (hP : ShiftPair c neg tgt J s) {b : Bool} {s' : Strat n}
    (h : s.stop env = .ok (b, s')) :
    ((shiftAff n c neg tgt).st J s).stop env' = .ok (b, (shiftAff n c neg tgt).st J s') ∧ ShiftPair c neg tgt J s' := by
  constructor
  · unfold Strat.stop at h ⊢
    rw [hE.pfunc, hE.fladd]
    have hpf : env.pfunc ((shiftAff n c neg tgt).st J s).npf ((shiftAff n c neg tgt).st J s).p ((shiftAff n c neg tgt).st J s).sol =
        env.pfunc s.npf s.p s.sol := hE.blind _ _ _ _ _ shiftAff_same rfl rfl
    simp only [hpf]
    change (if s.sol.runStatus < 0 then _ else if env.pfunc s.npf s.p s.sol ≠ 0 then _ else if s.niter = 0 then _ else _) = _
    by_cases h1 : s.sol.runStatus < 0
    · rw [if_pos h1] at h ⊢
      injection h with h
      obtain ⟨rfl, rfl⟩ := Prod.mk.inj h
      rfl
    · rw [if_neg h1] at h ⊢
      by_cases h2 : env.pfunc s.npf s.p s.sol ≠ 0
      · rw [if_pos h2] at h ⊢
        injection h with h
        obtain ⟨rfl, rfl⟩ := Prod.mk.inj h
        rfl
      · rw [if_neg h2] at h ⊢
        by_cases h3 : s.niter = 0
        · rw [if_pos h3] at h ⊢
          injection h with h
          obtain ⟨rfl, rfl⟩ := Prod.mk.inj h
          rfl
        · rw [if_neg h3] at h ⊢
          obtain ⟨r, hr, h⟩ := Out.bind_eq_ok.1 h
          injection h with h
          obtain ⟨rfl, rfl⟩ := Prod.mk.inj h
          have e := stopCrit_shift (fladd := env.fladd) (neg := neg) hP.target hP.med (hP.past h3).1
            (hP.recd.ready hP.live.toLiveCore h3) (hP.recd'.ready hP.live'.toLiveCore h3) s.crit
          show (stopCrit env.fladd s.crit ((shiftAff n c neg tgt).par s.p) ((shiftAff n c neg tgt).sol J s.sol) >>= _) = _
          rw [e]
          rw [show stopCrit env.fladd s.crit s.p s.sol = .ok r from hr, Out.ok_bind]
          rfl
  · obtain ⟨k, r, e⟩ := Strat.stop_frame h
    subst e
    exact ⟨⟨hP.corr.cands, hP.corr.calls, hP.corr.mean, hP.corr.prev, hP.corr.lambda⟩, hP.live.withRun _ _, hP.recd.withRun _ _,
      hP.live'.withRun _ _, hP.recd'.withRun _ _, hP.med, hP.past, hP.negate, hP.target, hP.grad, hP.weights,
      hP.edm, hP.restart⟩

theorem ShiftPair.loop (hE : ShiftEnv c neg env env') (k : ℕ) (hP : ShiftPair c neg tgt J s) {r : Option (Strat n)}
    (h : Strat.loop env k s = .ok r) :
    match r with
    | none => Strat.loop env' k ((shiftAff n c neg tgt).st J s) = .ok none
    | some t => ∃ J', Strat.loop env' k ((shiftAff n c neg tgt).st J s) = .ok (some ((shiftAff n c neg tgt).st J' t)) ∧
        ShiftPair c neg tgt J' t := by
  induction k generalizing s J with
  | zero => injection h with h; subst h; rfl
  | succ k ih =>
    unfold Strat.loop at h
    obtain ⟨⟨b, s1⟩, h1, h⟩ := Out.bind_eq_ok.1 h
    obtain ⟨r1, hP1⟩ := hP.stop hE h1
    cases b with
    | true =>
      simp only [if_true] at h
      injection h with h
      subst h
      refine ⟨J, ?_, hP1⟩
      unfold Strat.loop
      rw [r1, Out.ok_bind]
      rfl
    | false =>
      simp only [Bool.false_eq_true, if_false] at h
      obtain ⟨s2, h2, h⟩ := Out.bind_eq_ok.1 h
      obtain ⟨J2, r2, hP2⟩ := hP1.generation hE h2
      have e : Strat.loop env' (k + 1) ((shiftAff n c neg tgt).st J s) = Strat.loop env' k ((shiftAff n c neg tgt).st J2 s2) := by
        conv_lhs => unfold Strat.loop
        rw [r1, Out.ok_bind]
        show (((shiftAff n c neg tgt).st J s1).generation env' >>= fun s2 => Strat.loop env' k s2) = _
        rw [r2, Out.ok_bind]
      have := ih hP2 h
      rw [e]
      cases r <;> exact this

theorem evalInitial_shift (hE : ShiftEnv c neg env env') (hc : (shiftAff n c neg tgt).Corr J s) (hn : s.negate = neg) {s0 : Strat n}
    (h : s.evalInitial env = .ok s0) :
    ∃ J0, ((shiftAff n c neg tgt).st J s).evalInitial env' = .ok ((shiftAff n c neg tgt).st J0 s0) ∧
      (shiftAff n c neg tgt).Corr J0 s0 ∧ J0.med = J.med := by
  unfold Strat.evalInitial at h ⊢
  change ∃ J0, (if (s.initialElitist || s.p.initialElitist || s.p.elitist || s.p.initialFvalue) = true then _ else _) = _ ∧ _
  split_ifs at h ⊢ with hi
  · obtain ⟨y, hy, h⟩ := Out.bind_eq_ok.1 h
    injection h with h
    subst h
    have hy' : phenoV ((shiftAff n c neg tgt).st J s).p.gp ((shiftAff n c neg tgt).st J s).sol.xmean = .ok y := by
      show phenoV s.p.gp ((shiftAff n c neg tgt).pt s.sol.xmean) = _
      rw [shiftAff_pt]
      exact hy
    have hf : (if neg then (env'.f J.calls.length y).neg else env'.f J.calls.length y) =
        shiftBy c (if s.negate then (env.f s.calls.length y).neg else env.f s.calls.length y) := by
      rw [hc.calls, hn]
      exact hE.f _ _
    refine ⟨{ J with calls := J.calls ++ [(y, env'.f J.calls.length y)] }, ?_, ⟨hc.cands, ?_, hc.mean, hc.prev, hc.lambda⟩, rfl⟩
    · rw [hy', Out.ok_bind]
      show Except.ok _ = Except.ok _
      congr 1
      have e : (⟨if neg then (env'.f J.calls.length y).neg else env'.f J.calls.length y, (shiftAff n c neg tgt).pt s.sol.xmean, -1⟩ : Cand n) =
          (shiftAff n c neg tgt).cand ⟨if s.negate then (env.f s.calls.length y).neg else env.f s.calls.length y, s.sol.xmean, -1⟩ := by
        rw [hf]
        rfl
      have e' : some (⟨if neg then (env'.f J.calls.length y).neg else env'.f J.calls.length y, (shiftAff n c neg tgt).pt s.sol.xmean, -1⟩ : Cand n) =
          Option.map (shiftAff n c neg tgt).cand
            (some ⟨if s.negate then (env.f s.calls.length y).neg else env.f s.calls.length y, s.sol.xmean, -1⟩) := by
        rw [e]; rfl
      let G : Option (Cand n) → Strat n := fun o =>
        { (shiftAff n c neg tgt).st J s with
          calls := J.calls ++ [(y, env'.f J.calls.length y)], nevals := s.nevals + 1
          sol := { (shiftAff n c neg tgt).sol J s.sol with nevals := s.sol.nevals + 1, initialCand := o, bestSeen := o } }
      exact congrArg G e'
    · show (J.calls ++ [_]).length = (s.calls ++ [_]).length
      simp [hc.calls]
  · injection h with h
    subst h
    exact ⟨J, rfl, hc, rfl⟩

end Libcmaes
