import Verif.Lemmas.Stop
import Verif.Lemmas.Optimize
import Verif.Lemmas.Total
import Verif.Lemmas.Elitism

/-! # The stopping tests along a run -/

namespace Libcmaes

open Spec

variable {n : ℕ}

/-! ### The active flags -/

theorem foldl_setCriteria (l : List (ℤ × Bool)) (codes : List ℤ) (g : ℤ → Bool) :
    l.foldl (fun c q => setCriteriaActive c q.1 q.2) (codes.map fun c => (c, g c)) =
      codes.map fun c => (c, l.foldl (fun b q => if q.1 = c then q.2 else b) (g c)) := by
  induction l generalizing g with
  | nil => rfl
  | cons q l ih =>
    rw [List.foldl_cons]
    have : setCriteriaActive (codes.map fun c => (c, g c)) q.1 q.2 =
        codes.map fun c => (c, if q.1 = c then q.2 else g c) := by
      unfold setCriteriaActive
      rw [List.map_map]
      refine List.map_congr_left fun c _ => ?_
      simp only [Function.comp]
      by_cases h : c = q.1
      · rw [if_pos h, if_pos h.symm]
      · rw [if_neg h, if_neg (Ne.symm h)]
    rw [this, ih]
    rfl

theorem foldl_flag_of_not_mem (l : List (ℤ × Bool)) (c : ℤ) (b : Bool) (h : c ∉ l.map Prod.fst) :
    l.foldl (fun b q => if q.1 = c then q.2 else b) b = b := by
  induction l generalizing b with
  | nil => rfl
  | cons q l ih =>
    simp only [List.map_cons, List.mem_cons, not_or] at h
    rw [List.foldl_cons, if_neg (Ne.symm h.1), ih _ h.2]

theorem foldl_flag (l : List (ℤ × Bool)) (c : ℤ) (h : (l.map Prod.fst).Nodup) :
    l.foldl (fun b q => if q.1 = c then q.2 else b) true = decide (¬ (c, false) ∈ l) := by
  induction l with
  | nil => rfl
  | cons q l ih =>
    rw [List.map_cons, List.nodup_cons] at h
    rw [List.foldl_cons]
    by_cases hq : q.1 = c
    · rw [if_pos hq, foldl_flag_of_not_mem _ _ _ (hq ▸ h.1)]
      have hl : (c, false) ∉ l := fun hm => h.1 (hq ▸ List.mem_map_of_mem (f := Prod.fst) hm)
      cases hb : q.2 with
      | true =>
        have : q ≠ (c, false) := fun e => by rw [e] at hb; cases hb
        simp [hl, Ne.symm this]
      | false =>
        have : q = (c, false) := Prod.ext hq hb
        simp [this]
    · rw [if_neg hq, ih h.2]
      have : q ≠ (c, false) := fun e => hq (by rw [e])
      simp [Ne.symm this]

open Classical in
theorem new_crit {env : Env n} {kind : CovKind} {p : Params n} {s : Strat n}
    (h : Strat.new env kind p = .ok s) (hnd : (p.stoppingCrit.map Prod.fst).Nodup) :
    s.crit = stopCodes.map fun c => (c, decide (¬ (c, false) ∈ p.stoppingCrit)) := by
  unfold Strat.new at h
  obtain ⟨⟨p', sol⟩, hm, h⟩ := Out.bind_eq_ok.1 h
  injection h with h
  subst h
  show p.stoppingCrit.foldl (fun c q => setCriteriaActive c q.1 q.2) (critCodes.map fun c => (c, true)) = _
  rw [foldl_setCriteria]
  refine List.map_congr_left fun c _ => ?_
  rw [foldl_flag _ _ hnd]

theorem stopCodes_ne_zero {c : ℤ} (h : c ∈ stopCodes) : c ≠ 0 := by
  rintro rfl; revert h; decide

theorem stopCrit_list {fladd : ℝ → ℝ → ℝ} {p : Params n} {s : Sol n} (h : StopReady p s)
    (l : List (ℤ × Bool)) (hl : ∀ q ∈ l, q.1 ∈ stopCodes) (hs : l.Pairwise fun a b => a.1 < b.1) :
    ∃ r, stopCrit fladd l p s = .ok r ∧
      ((r = 0 ∧ ∀ c, (c, true) ∈ l → ¬ Fires fladd c p s) ∨
       ((r, true) ∈ l ∧ Fires fladd r p s ∧ ∀ c, c < r → (c, true) ∈ l → ¬ Fires fladd c p s)) := by
  induction l with
  | nil => exact ⟨0, rfl, Or.inl ⟨rfl, by simp⟩⟩
  | cons q l ih =>
    obtain ⟨c, a⟩ := q
    rw [List.pairwise_cons] at hs
    obtain ⟨r, hr, hrest⟩ := ih (fun q hq => hl q (by simp [hq])) hs.2
    unfold stopCrit
    have hc := hl (c, a) (by simp)
    cases a with
    | false =>
      rw [if_neg (by simp)]
      refine ⟨r, hr, ?_⟩
      rcases hrest with ⟨h0, hn⟩ | ⟨hm, hf, hn⟩
      · refine Or.inl ⟨h0, fun d hd => ?_⟩
        simp only [List.mem_cons, Prod.mk.injEq, Bool.true_eq_false, and_false, false_or] at hd
        exact hn d hd
      · refine Or.inr ⟨by simp [hm], hf, fun d hd hdm => ?_⟩
        simp only [List.mem_cons, Prod.mk.injEq, Bool.true_eq_false, and_false, false_or] at hdm
        exact hn d hd hdm
    | true =>
      rw [if_pos rfl, critFun_fires h hc, Out.ok_bind]
      by_cases hf : Fires fladd c p s
      · rw [if_pos hf, if_pos (stopCodes_ne_zero hc)]
        refine ⟨c, rfl, Or.inr ⟨by simp, hf, fun d hd hdm => ?_⟩⟩
        exfalso
        simp only [List.mem_cons, Prod.mk.injEq, and_true] at hdm
        rcases hdm with rfl | hdm
        · omega
        · have := hs.1 _ hdm
          simp only at this
          omega
      · rw [if_neg hf, if_neg (by simp)]
        refine ⟨r, hr, ?_⟩
        rcases hrest with ⟨h0, hn⟩ | ⟨hm, hf', hn⟩
        · refine Or.inl ⟨h0, fun d hd => ?_⟩
          simp only [List.mem_cons, Prod.mk.injEq, and_true] at hd
          rcases hd with rfl | hd
          · exact hf
          · exact hn d hd
        · refine Or.inr ⟨by simp [hm], hf', fun d hd hdm => ?_⟩
          simp only [List.mem_cons, Prod.mk.injEq, and_true] at hdm
          rcases hdm with rfl | hdm
          · exact hf
          · exact hn d hd hdm

/-- The same for the flags set up by the constructor. -/
theorem stopCrit_spec {fladd : ℝ → ℝ → ℝ} {p q : Params n} {s : Sol n} {crit : List (ℤ × Bool)}
    (h : StopReady q s)
    (hc : crit = stopCodes.map fun c => (c, open Classical in decide (¬ (c, false) ∈ p.stoppingCrit))) :
    ∃ r, stopCrit fladd crit q s = .ok r ∧
      ((r = 0 ∧ ∀ c, CritActive p c → ¬ Fires fladd c q s) ∨
       (CritActive p r ∧ Fires fladd r q s ∧ ∀ c, c < r → CritActive p c → ¬ Fires fladd c q s)) := by
  have hmem : ∀ c, (c, true) ∈ crit ↔ CritActive p c := by
    intro c
    rw [hc, List.mem_map]
    unfold CritActive
    constructor
    · rintro ⟨d, hd, e⟩
      injection e with e1 e2
      subst e1
      exact ⟨hd, by simpa using e2⟩
    · rintro ⟨h1, h2⟩
      exact ⟨c, h1, by simp [h2]⟩
  obtain ⟨r, hr, hr'⟩ := stopCrit_list (fladd := fladd) h crit
    (by rw [hc]; intro q hq; obtain ⟨d, hd, rfl⟩ := List.mem_map.1 hq; exact hd)
    (by rw [hc, List.pairwise_map]; simp only; decide)
  simp only [hmem] at hr'
  exact ⟨r, hr, hr'⟩

/-! ### Values along a run -/

theorem negIf_val (b : Bool) {v : FVal} (h : Val (negIf b v)) : Val (negIf b v) := h

theorem medianOf_val {l : List FVal} {m : FVal} (h : ∀ v ∈ l, Val v) (hm : Sol.medianOf l = .ok m) : Val m := by
  unfold Sol.medianOf at hm
  split_ifs at hm with h0 h1
  · obtain ⟨a, ha, hm⟩ := Out.bind_eq_ok.1 hm
    obtain ⟨b, hb, hm⟩ := Out.bind_eq_ok.1 hm
    injection hm with hm
    subst hm
    have va := h a (List.mem_of_getElem? (idx_eq_ok.1 ha))
    have vb := h b (List.mem_of_getElem? (idx_eq_ok.1 hb))
    obtain ⟨x, ex, hx⟩ := va.num
    obtain ⟨y, ey, hy⟩ := vb.num
    rw [ex, ey, half_add hx hy]
    have hpos : (0 : ℝ) < 1 / 2 := by norm_num
    rcases va with e1 | ⟨r1, b1, e1⟩
    · rw [ex] at e1; injection e1 with e1; subst e1
      left; rw [EReal.top_add_of_ne_bot hy, EReal.top_mul_coe_of_pos hpos]
    · rw [ex] at e1; injection e1 with e1; subst e1
      rcases vb with e2 | ⟨r2, b2, e2⟩
      · rw [ey] at e2; injection e2 with e2; subst e2
        left; rw [EReal.add_top_of_ne_bot hx, EReal.top_mul_coe_of_pos hpos]
      · rw [ey] at e2; injection e2 with e2; subst e2
        refine Or.inr ⟨(r1 + r2) * (1 / 2), ?_, by norm_cast⟩
        obtain ⟨c1, c2⟩ := abs_le.1 b1
        obtain ⟨c3, c4⟩ := abs_le.1 b2
        rw [abs_le]; constructor <;> linarith
  · exact h m (List.mem_of_getElem? (idx_eq_ok.1 hm))

theorem mem_pushBounded {α : Type} {m : ℕ} {l : List α} {a b : α} (h : b ∈ Sol.pushBounded m l a) :
    b ∈ l ∨ b = a := by
  unfold Sol.pushBounded at h
  split_ifs at h
  · have := List.mem_of_mem_tail h
    simpa using this
  · simpa using h

/-- The recorded values can be compared by the criteria, and the eigenvalues they read are positive. -/
structure Recorded (s : Strat n) : Prop where
  bestSeen : ∀ c, s.sol.bestSeen = some c → Val c.fvalue
  initialCand : ∀ c, s.sol.initialCand = some c → Val c.fvalue
  best : ∀ c ∈ s.sol.bestHist, Val c.fvalue
  bf : ∀ v ∈ s.sol.bfvalues, Val v
  med : ∀ v ∈ s.sol.medianFvalues, Val v
  len : s.sol.kBestHist.length = s.sol.bestHist.length
  maxHist : 0 < s.sol.maxHist
  sigmaInit : 0 < s.p.sigmaInit
  eig : s.niter ≠ 0 → s.sol.hasLeig = true ∧ (∀ i, 0 < s.sol.leigenvalues i) ∧
    0 ≤ s.sol.maxEigenv ∧ 0 < s.sol.minEigenv

theorem Recorded.refNum {s : Strat n} (h : Recorded s) : RefNum s :=
  ⟨fun c hc => (h.bestSeen c hc).isNum, fun c hc => (h.initialCand c hc).isNum⟩

theorem minCoeff_pos {x : Vec n} (hn : n ≠ 0) (h : ∀ i, 0 < x i) : 0 < minCoeff x := by
  unfold minCoeff
  have : Nonempty (Fin n) := ⟨⟨0, Nat.pos_of_ne_zero hn⟩⟩
  obtain ⟨i, hi⟩ := exists_eq_ciInf_of_finite (f := x)
  rw [← hi]; exact h i

theorem maxCoeff_nonneg {x : Vec n} (h : ∀ i, 0 < x i) : 0 ≤ maxCoeff x :=
  Real.iSup_nonneg fun i => (h i).le

theorem val_isNum_f {env : Env n} {b : Bool} (hv : ∀ k y, Val (negIf b (env.f k y))) (k : ℕ) (y : Vec n) :
    (env.f k y).IsNum := by
  have := (hv k y).isNum
  cases hf : env.f k y with
  | nan => rw [hf] at this; cases b <;> simp [negIf, FVal.neg, FVal.IsNum] at this
  | num a => trivial

/-- One turn keeps the records sound. -/
theorem Recorded.generation {env : Env n} {s s' : Strat n} (hR : Recorded s) (hL : Live s) (hL' : Live s')
    (hv : ∀ k y, Val (negIf s.negate (env.f k y))) (h : s.generation env = .ok s') : Recorded s' := by
  obtain ⟨tr, hrun⟩ := Strat.generation_run h
  obtain ⟨r1, r2, r3, r4, r5, r6, r7, r8, r9, r10⟩ := run_p hrun
  unfold Strat.generation at h
  obtain ⟨⟨pop, s1⟩, ha, h⟩ := Out.bind_eq_ok.1 h
  obtain ⟨phen, hp, h⟩ := Out.bind_eq_ok.1 h
  obtain ⟨s2, he, h⟩ := Out.bind_eq_ok.1 h
  obtain ⟨s3, ht, h⟩ := Out.bind_eq_ok.1 h
  injection h with h
  subst h
  obtain ⟨⟨es, ei, ue, c, nz, x1, x2, p1, p2, e1⟩, hpl⟩ := Strat.ask_frame ha
  obtain ⟨c2, nu, nzuh, lr, cu, cs, e2, hcs, _⟩ := Strat.eval_frame he
  have hval : ∀ d ∈ s2.sol.cands, Val d.fvalue := by
    intro d hd
    rcases Strat.eval_values (by rw [e1]; exact hL.uh) (by rw [hpl, e1]; exact hL.cands.le) he d hd with
      ⟨j, y, e, _⟩ | ⟨_, e⟩
    · rw [e, e1]; exact hv j y
    · rcases elitistRef_mem e with h | h
      · exact hR.bestSeen d (by rw [e1] at h; exact h)
      · exact hR.initialCand d (by rw [e1] at h; exact h)
  obtain ⟨cs', cu', su, ts, sol3, hs, hb, csq, hc, sc, ps, hs', pc, cov, sep, v, sg, xp, xm, mx, mn, lv, le,
    e3⟩ := Strat.tell_frame ht
  have hsort := hs (by rw [e2, e1]; exact hL.uh)
  have hperm := (stableSort_eq_ok hsort).2.perm
  have hval' : ∀ d ∈ cs', Val d.fvalue := fun d hd => hval d (hperm.mem_iff.1 hd)
  have hseen := (updateBest_seen hb).2
  obtain ⟨c0, ck, cl, med, h0, hk, hl, hmed, eb, _⟩ := Sol.updateBest_ok hb
  have v0 : Val c0.fvalue := hval' c0 (List.mem_of_getElem? h0)
  have eh : s2.sol.bestHist = s.sol.bestHist := by rw [e2, e1]
  have ekh : s2.sol.kBestHist = s.sol.kBestHist := by rw [e2, e1]
  have ebf : s2.sol.bfvalues = s.sol.bfvalues := by rw [e2, e1]
  have emd : s2.sol.medianFvalues = s.sol.medianFvalues := by rw [e2, e1]
  have ebs : s2.sol.bestSeen = s.sol.bestSeen := by rw [e2, e1]
  refine ⟨?_, ?_, ?_, ?_, ?_, ?_, ?_, ?_, ?_⟩
  · intro d hd
    have : s3.incIter.sol.bestSeen = sol3.bestSeen := by rw [e3]; rfl
    rw [this] at hd
    rcases hseen d hd with h | h
    · exact hval' d h
    · exact hR.bestSeen d (ebs ▸ h)
  · intro d hd; rw [r10] at hd; exact hR.initialCand d hd
  · intro d hd
    have e : s3.incIter.sol.bestHist = sol3.bestHist := by rw [e3]; rfl
    rw [e, eb] at hd
    have hd' : d ∈ s2.sol.bestHist ++ [c0] := by
      simp only at hd
      split_ifs at hd
      · exact List.mem_of_mem_tail hd
      · exact hd
    rw [eh] at hd'
    rcases List.mem_append.1 hd' with h | h
    · exact hR.best d h
    · rw [List.mem_singleton.1 h]; exact v0
  · intro w hw
    have e : s3.incIter.sol.bfvalues = sol3.bfvalues := by rw [e3]; rfl
    rw [e, eb] at hw
    rcases mem_pushBounded hw with h | h
    · exact hR.bf w (ebf ▸ h)
    · rw [h]; exact v0
  · intro w hw
    have e : s3.incIter.sol.medianFvalues = sol3.medianFvalues := by rw [e3]; rfl
    rw [e, eb] at hw
    rcases mem_pushBounded hw with h | h
    · exact hR.med w (emd ▸ h)
    · rw [h]
      refine medianOf_val ?_ hmed
      intro u hu
      obtain ⟨d, hd, rfl⟩ := List.mem_map.1 hu
      exact hval' d hd
  · have e : s3.incIter.sol.kBestHist = sol3.kBestHist := by rw [e3]; rfl
    have e' : s3.incIter.sol.bestHist = sol3.bestHist := by rw [e3]; rfl
    rw [e, e', eb]
    simp only
    split_ifs <;> simp [ekh, eh, hR.len]
  · rw [r3]; exact hR.maxHist
  · rw [r1]; exact hR.sigmaInit
  · intro _
    obtain ⟨t1, tS, u3, u4, _, _, _, _, hfin⟩ := Strat.tell_ok ht
    have hn0 : n ≠ 0 := by
      intro h0
      unfold Strat.tellFinish at hfin
      simp only at hfin
      rw [if_pos h0] at hfin
      cases hfin
    unfold Strat.tellFinish at hfin
    simp only at hfin
    rw [if_neg hn0] at hfin
    have hvd : s2.p.vd = false := by rw [e2, e1]; exact hL.vd
    by_cases hsep : s2.p.sep = true
    · rw [if_neg (by simp [hsep])] at hfin
      injection hfin with hfin
      have hpp : s3.incIter.p.sep = true := by rw [← hfin]; exact hsep
      have hpos := (hL'.sep hpp).2
      subst hfin
      exact ⟨rfl, hpos, maxCoeff_nonneg hpos, minCoeff_pos hn0 hpos⟩
    · rw [if_pos (by simp [hsep, hvd])] at hfin
      cases hes : s2.es.eig with
      | none => rw [hes] at hfin; cases hfin
      | some ee =>
        rw [hes] at hfin
        injection hfin with hfin
        have hpos : ∀ i, 0 < ee.1 i := (hL'.eig ee (by rw [← hfin]; exact hes)).1
        subst hfin
        exact ⟨rfl, hpos, maxCoeff_nonneg hpos, minCoeff_pos hn0 hpos⟩

/-- After at least one generation the criteria are all defined. -/
theorem Recorded.ready {s : Strat n} (hR : Recorded s) (hL : LiveCore s) (h0 : s.niter ≠ 0) :
    StopReady s.p s.sol := by
  obtain ⟨e1, e2, e3, e4⟩ := hR.eig h0
  have hl := hL.good.lambda
  refine ⟨by omega, hR.sigmaInit, hL.paths, e1, fun h => (hL.full h.1).1, fun h => ?_, ?_, fun i => (e2 i).le,
    e3, e4, hR.maxHist, hR.len, hR.best, hR.bf, hR.med⟩
  · refine (hL.sep ?_).1
    by_contra hc
    exact h ⟨by simpa using hc, hL.vd⟩
  · intro i
    unfold varOf
    by_cases hs : s.p.sep = false ∧ s.p.vd = false
    · rw [if_pos hs]
      have := (hL.full hs.1).2.1.psd.nonneg (Pi.single i 1)
      simpa [quad] using this
    · rw [if_neg hs]
      refine ((hL.sep ?_).2 i).le
      by_contra hc
      exact hs ⟨by simpa using hc, hL.vd⟩

theorem Live.withRun {s : Strat n} (h : Live s) (k : ℕ) (r : ℤ) :
    Live { s with npf := k, sol := { s.sol with runStatus := r } } := by
  obtain ⟨⟨a1, a2, a3, a4, a5, a6, a7, a8, a9, a10, a11, a12, a13, a14, a15, a16, a17⟩, b, c⟩ := h
  exact ⟨⟨a1, a2, a3, a4, a5, a6, a7, a8, a9, a10, a11, a12, a13, a14, a15, a16, a17⟩, b, c⟩

theorem Recorded.withRun {s : Strat n} (h : Recorded s) (k : ℕ) (r : ℤ) :
    Recorded { s with npf := k, sol := { s.sol with runStatus := r } } := by
  obtain ⟨a1, a2, a3, a4, a5, a6, a7, a8, a9⟩ := h
  exact ⟨a1, a2, a3, a4, a5, a6, a7, a8, a9⟩

/-- A strategy about to start a run with the parameters `p`: just constructed, or restarted by IPOP or
BIPOP. -/
structure Begins (kind : CovKind) (p : Params n) (s : Strat n) : Prop where
  dim : n ≠ 0
  lambda : p.lambda ≠ 0
  kind_eq : s.kind = kind
  params : s.p = { p with sigmaInit := s.sol.sigma }
  sigma : 0 < s.sol.sigma
  fresh : Fresh p.lambda s.sol
  niter : s.niter = 0
  negate : s.negate = p.maximize
  hasCov : s.sol.hasCov = (!p.sep && !p.vd)
  hasSep : s.sol.hasSep = !(!p.sep && !p.vd)
  paths : s.sol.pathsOk = true
  maxHist : s.sol.maxHist = maxHistOf p.maxHist n p.lambda
  kcand : s.sol.kcand = kcandOf p.lambda
  initialCand : s.sol.initialCand = none
  elitist : s.initialElitist = false
  tpaP1 : s.sol.tpaP1 = 0
  tpaP2 : s.sol.tpaP2 = 1

theorem begins_new {env : Env n} {kind : CovKind} {p : Params n} {s : Strat n}
    (h : Strat.new env kind p = .ok s) : Begins kind p s := by
  obtain ⟨h1, h2, h3, h4, h5, h6, h7, h8, h9, h10, h11, h12, h13, h14, h15, h16, h17, h18, h19, h20⟩ :=
    Strat.new_ok h
  obtain ⟨t1, t2, _⟩ := new_tpa h
  exact ⟨h1, h2, h3, h4, h5, h6, h7, h10, h11, h12, h14, h15, h16, h17, h20, t1, t2⟩

/-- The last eigendecomposition, if any, is one of a positive definite matrix. -/
def EsSound (s : Strat n) : Prop := ∀ e, s.es.eig = some e → (∀ i, 0 < e.1 i) ∧ e.2 * e.2.transpose = 1

theorem Spec.UsualRun.good {kind : CovKind} {p : Params n} (h : UsualRun kind p) : GoodRun kind p :=
  ⟨h.configured.good.1, h.strict, h.update, h.vd, h.lazy, h.grad, h.uh, h.tpa⟩

/-- The state in which the loop of `optimize` starts. -/
theorem start_live_any {env : Env n} {kind : CovKind} {p : Params n} {s s0 : Strat n} (hu : GoodRun kind p)
    (h : Begins kind p { s with initialElitist := false, sol := { s.sol with nevals := 0 } }) (hes : EsSound s) (he : s.evalInitial env = .ok s0)
    (hv : ∀ k y, Val (negIf p.maximize (env.f k y))) :
    Live s0 ∧ Recorded s0 := by
  obtain ⟨h1, h2, h3, h4, h5, h6, h7, h10, h11, h12, h14, h15, h16, h17, -, t1, t2⟩ := h
  obtain ⟨q1, q2, -, -, q5, q6, q7, q8, q9, q10, -, -, q13, -⟩ := h6
  dsimp only at h3 h4 h5 h7 h10 h11 h12 h14 h15 h16 h17 t1 t2 q1 q2 q5 q6 q7 q8 q9 q10 q13
  have hg : GoodParams s.p := by
    rw [h4]
    exact hu.good.same ⟨rfl, rfl, rfl, rfl, rfl, rfl, rfl, rfl, rfl, rfl, rfl, rfl, rfl, rfl, rfl, rfl, rfl⟩
  have hl := hg.lambda
  have hsep : s.p.sep = p.sep := by rw [h4]
  have hlam : s.p.lambda = p.lambda := by rw [h4]
  have hinit : s0 = s ∧ (s.p.elitist || s.p.initialElitist || s.initialElitist) = false ∨
      ∃ c : Cand n, Val c.fvalue ∧ s0.sol.initialCand = some c ∧ s0.sol.bestSeen = some c := by
    unfold Strat.evalInitial at he
    split_ifs at he with hc
    · right
      obtain ⟨y, hy, he⟩ := Out.bind_eq_ok.1 he
      injection he with he
      subst he
      refine ⟨_, ?_, rfl, rfl⟩
      have := hv s.calls.length y
      rw [← h10] at this
      unfold negIf at this
      exact this
    · left
      injection he with he
      simp only [Bool.or_eq_true, not_or, Bool.not_eq_true] at hc
      exact ⟨he.symm, by simp [hc]⟩
  have hf := Strat.evalInitial_frame he
  have f1 : s0.p = s.p := by rcases hf with e | ⟨y, v, _, _, e⟩ <;> rw [e]
  have f2 : s0.kind = s.kind := by rcases hf with e | ⟨y, v, _, _, e⟩ <;> rw [e]
  have f3 : s0.es = s.es := by rcases hf with e | ⟨y, v, _, _, e⟩ <;> rw [e]
  have f4 : s0.niter = s.niter := by rcases hf with e | ⟨y, v, _, _, e⟩ <;> rw [e]
  have f5 : s0.initialElitist = s.initialElitist := by rcases hf with e | ⟨y, v, _, _, e⟩ <;> rw [e]
  have g1 : s0.sol.tpaP1 = s.sol.tpaP1 ∧ s0.sol.tpaP2 = s.sol.tpaP2 ∧ s0.sol.pathsOk = s.sol.pathsOk ∧
      s0.sol.sigma = s.sol.sigma ∧ s0.sol.cands = s.sol.cands ∧ s0.sol.kcand = s.sol.kcand ∧
      s0.sol.niter = s.sol.niter ∧ s0.sol.hasCov = s.sol.hasCov ∧ s0.sol.cov = s.sol.cov ∧
      s0.sol.hasSep = s.sol.hasSep ∧ s0.sol.sepcov = s.sol.sepcov ∧ s0.sol.bestHist = s.sol.bestHist ∧
      s0.sol.kBestHist = s.sol.kBestHist ∧ s0.sol.bfvalues = s.sol.bfvalues ∧
      s0.sol.medianFvalues = s.sol.medianFvalues ∧ s0.sol.maxHist = s.sol.maxHist := by
    rcases hf with e | ⟨y, v, _, _, e⟩ <;> rw [e] <;>
      exact ⟨rfl, rfl, rfl, rfl, rfl, rfl, rfl, rfl, rfl, rfl, rfl, rfl, rfl, rfl, rfl, rfl⟩
  obtain ⟨g1, g2, g3, g4, g5, g6, g7, g8, g9, g10, g11, g12, g13, g14, g15, g16⟩ := g1
  refine ⟨⟨⟨f1 ▸ hg, ?_, f2 ▸ h3 ▸ hu.update, ?_, ?_, ?_, ?_, ?_, g3 ▸ h14, g4 ▸ h5, ?_, ?_, ?_, ?_, ?_, ?_, ?_⟩,
    ?_, ?_⟩, ?_, ?_, ?_, ?_, ?_, ?_, ?_, ?_, ?_⟩
  · rw [f1, h4]; exact ⟨hu.strict.1, hu.strict.2⟩
  · rw [f1, h4]; exact hu.vd
  · rw [f1, f2, h3, h4]; exact hu.lazy
  · rw [f1, h4]; exact hu.grad
  · rw [g1, g2, f1, t1, t2]; exact ⟨by omega, by omega⟩
  · intro e he; rw [f3] at he; exact hes e he
  · rw [f1, g5, hlam]; exact q5
  · rw [f1, g6, h16, hlam]; exact kcandOf_lt (by rw [← hlam]; exact hl)
  · rw [g7, f4, h7, q10]
  · intro hs
    rw [f1, hsep] at hs
    exact ⟨by rw [g8, h11, hs, hu.vd]; rfl, by rw [g9, q1]; exact PD_one, fun h => absurd (f4.trans h7) h⟩
  · intro hs
    rw [f1, hsep] at hs
    exact ⟨by rw [g10, h12, hs]; rfl, fun i => by rw [g11, q2 i]; norm_num⟩
  · intro h; exact absurd (f4.trans h7) h
  · intro a b
    rcases hinit with ⟨e, hc⟩ | ⟨c, _, hc, _⟩
    · exfalso
      rw [f1, f5] at b
      simp only [Bool.or_eq_false_iff] at hc
      simp [hc.1.1, hc.1.2, hc.2] at b
    · rw [hc]; rfl
  · rw [f1, h4]; exact hu.uh
  · rw [f1, h4]; exact hu.tpa
  · intro c hc
    rcases hinit with ⟨e, _⟩ | ⟨d, hd, _, hd2⟩
    · rw [e, q13] at hc; cases hc
    · rw [hd2] at hc; injection hc with hc; exact hc ▸ hd
  · intro c hc
    rcases hinit with ⟨e, _⟩ | ⟨d, hd, hd2, _⟩
    · rw [e, h17] at hc; cases hc
    · rw [hd2] at hc; injection hc with hc; exact hc ▸ hd
  · rw [g12, q6]; simp
  · rw [g14, q8]; simp
  · rw [g15, q9]; simp
  · rw [g12, g13, q6, q7]
  · rw [g16, h15]; exact maxHistOf_pos _ _ _
  · rw [f1, h4]; exact h5
  · intro h; exact absurd (f4.trans h7) h

theorem start_live {env : Env n} {kind : CovKind} {p : Params n} {s s0 : Strat n} (hu : GoodRun kind p)
    (h : Begins kind p s) (hes : EsSound s) (he : s.evalInitial env = .ok s0)
    (hv : ∀ k y, Val (negIf p.maximize (env.f k y))) :
    Live s0 ∧ Recorded s0 := by
  refine start_live_any hu ?_ hes he hv
  have : ({ s with initialElitist := false, sol := { s.sol with nevals := 0 } } : Strat n) = s := by
    rw [← h.elitist, ← h.fresh.nevals]
  rw [this]; exact h

/-! ### The test of the loop -/

theorem stop_false {env : Env n} {s s1 : Strat n} (h : s.stop env = .ok (false, s1)) :
    env.pfunc s.npf s.p s.sol = 0 ∧ 0 ≤ s.sol.runStatus ∧
      (s.niter = 0 ∧ s1 = { s with npf := s.npf + 1 } ∨
       s.niter ≠ 0 ∧ stopCrit env.fladd s.crit s.p s.sol = .ok 0 ∧
         s1 = { s with npf := s.npf + 1, sol := { s.sol with runStatus := 0 } }) := by
  unfold Strat.stop at h
  by_cases hr : s.sol.runStatus < 0
  · rw [if_pos hr] at h; injection h with h; injection h with h _; cases h
  rw [if_neg hr] at h
  simp only at h
  by_cases hp : env.pfunc s.npf s.p s.sol = 0
  · rw [if_neg (by simpa using hp)] at h
    refine ⟨hp, by omega, ?_⟩
    by_cases h0 : s.niter = 0
    · rw [if_pos h0] at h
      injection h with h; injection h with _ h
      exact Or.inl ⟨h0, h.symm⟩
    · rw [if_neg h0] at h
      obtain ⟨c, hc, h⟩ := Out.bind_eq_ok.1 h
      injection h with h; injection h with h h'
      have : c = 0 := by simpa using h
      subst this
      exact Or.inr ⟨h0, hc, h'.symm⟩
  · rw [if_pos hp] at h
    injection h with h; injection h with h _; cases h

theorem stop_true {env : Env n} {s s1 : Strat n} (h : s.stop env = .ok (true, s1)) :
    (s.sol.runStatus < 0 ∧ s1 = s) ∨
    (0 ≤ s.sol.runStatus ∧ env.pfunc s.npf s.p s.sol ≠ 0 ∧ s1 = { s with npf := s.npf + 1 }) ∨
    (0 ≤ s.sol.runStatus ∧ env.pfunc s.npf s.p s.sol = 0 ∧ s.niter ≠ 0 ∧
      ∃ c, c ≠ 0 ∧ stopCrit env.fladd s.crit s.p s.sol = .ok c ∧
        s1 = { s with npf := s.npf + 1, sol := { s.sol with runStatus := c } }) := by
  unfold Strat.stop at h
  by_cases hr : s.sol.runStatus < 0
  · rw [if_pos hr] at h; injection h with h; injection h with _ h; exact Or.inl ⟨hr, h.symm⟩
  rw [if_neg hr] at h
  simp only at h
  by_cases hp : env.pfunc s.npf s.p s.sol = 0
  · rw [if_neg (by simpa using hp)] at h
    by_cases h0 : s.niter = 0
    · rw [if_pos h0] at h
      injection h with h; injection h with h _; cases h
    · rw [if_neg h0] at h
      obtain ⟨c, hc, h⟩ := Out.bind_eq_ok.1 h
      injection h with h; injection h with h h'
      exact Or.inr (Or.inr ⟨by omega, hp, h0, c, by simpa using h, hc, h'.symm⟩)
  · rw [if_pos hp] at h
    injection h with h; injection h with _ h
    exact Or.inr (Or.inl ⟨by omega, hp, h.symm⟩)

/-- No criterion that was passed over has fired. -/
theorem stopCrit_zero {fladd : ℝ → ℝ → ℝ} {l : List (ℤ × Bool)} {p : Params n} {s : Sol n}
    (h : stopCrit fladd l p s = .ok 0) (c : ℤ) (hc : (c, true) ∈ l) : critFun fladd c p s = .ok 0 := by
  induction l with
  | nil => simp at hc
  | cons q l ih =>
    obtain ⟨d, a⟩ := q
    unfold stopCrit at h
    cases a with
    | false =>
      rw [if_neg (by simp)] at h
      simp only [List.mem_cons, Prod.mk.injEq, Bool.true_eq_false, and_false, false_or] at hc
      exact ih h hc
    | true =>
      rw [if_pos rfl] at h
      obtain ⟨r, hr, h⟩ := Out.bind_eq_ok.1 h
      by_cases h0 : r = 0
      · subst h0
        rw [if_neg (by simp)] at h
        simp only [List.mem_cons, Prod.mk.injEq, and_true] at hc
        rcases hc with rfl | hc
        · exact hr
        · exact ih h hc
      · rw [if_pos h0] at h
        injection h with h
        exact absurd h h0

/-- A reported code belongs to an active criterion that fired. -/
theorem stopCrit_code {fladd : ℝ → ℝ → ℝ} {l : List (ℤ × Bool)} {p : Params n} {s : Sol n} {r : ℤ}
    (h : stopCrit fladd l p s = .ok r) (h0 : r ≠ 0) : ∃ c, (c, true) ∈ l ∧ critFun fladd c p s = .ok r := by
  induction l with
  | nil => injection h with h; exact absurd h.symm h0
  | cons q l ih =>
    obtain ⟨d, a⟩ := q
    unfold stopCrit at h
    cases a with
    | false =>
      rw [if_neg (by simp)] at h
      obtain ⟨c, hc, hr⟩ := ih h
      exact ⟨c, by simp [hc], hr⟩
    | true =>
      rw [if_pos rfl] at h
      obtain ⟨r', hr, h⟩ := Out.bind_eq_ok.1 h
      by_cases h1 : r' = 0
      · rw [if_neg (by simpa using h1)] at h
        obtain ⟨c, hc, hr⟩ := ih h
        exact ⟨c, by simp [hc], hr⟩
      · rw [if_pos h1] at h
        injection h with h
        subst h
        exact ⟨d, by simp, hr⟩

/-! ### The loop -/

/-- The loop of `optimize`, unrolled: every test up to the last one lets it go on. -/
inductive LoopTo (env : Env n) : Strat n → List (List (Cand n)) → Strat n → Prop
  | refl (s) : LoopTo env s [] s
  | step {s s1 s2 tr pop t} : LoopTo env s tr t → t.stop env = .ok (false, s1) → s1.generation env = .ok s2 →
      AskRun env s1 [pop] s2 → LoopTo env s (tr ++ [pop]) s2

theorem LoopTo.cons {env : Env n} {s s1 s2 t : Strat n} {pop tr} (h1 : s.stop env = .ok (false, s1))
    (h2 : s1.generation env = .ok s2) (h3 : AskRun env s1 [pop] s2) (h : LoopTo env s2 tr t) :
    LoopTo env s (pop :: tr) t := by
  induction h with
  | refl => exact .step (.refl _) h1 h2 h3
  | step _ i1 i2 i3 ih => exact .step ih i1 i2 i3

theorem LoopTo.askRun {env : Env n} {s t : Strat n} {tr} (h : LoopTo env s tr t) : AskRun env s tr t := by
  induction h with
  | refl => exact .refl _
  | step _ i1 i2 i3 ih => exact ih.trans (.stop i1 i3)

theorem loop_some {env : Env n} (k : ℕ) {s s' : Strat n} (h : s.loop env k = .ok (some s')) :
    ∃ tr t, tr.length < k ∧ LoopTo env s tr t ∧ t.stop env = .ok (true, s') := by
  induction k generalizing s with
  | zero => cases h
  | succ k ih =>
    unfold Strat.loop at h
    obtain ⟨⟨b, s1⟩, h1, h⟩ := Out.bind_eq_ok.1 h
    cases b with
    | true =>
      injection h with h; injection h with h
      exact ⟨[], s, by simp, .refl _, by rw [h1, h]⟩
    | false =>
      replace h : (s1.generation env >>= fun s2 => Strat.loop env k s2) = .ok (some s') := h
      obtain ⟨s2, h2, h⟩ := Out.bind_eq_ok.1 h
      obtain ⟨pop, h3⟩ := Strat.generation_askRun h2
      obtain ⟨tr, t, i1, i2, i3⟩ := ih h
      exact ⟨pop :: tr, t, by simpa using i1, .cons h1 h2 h3 i2, i3⟩

theorem loop_none {env : Env n} (k : ℕ) {s : Strat n} (h : s.loop env (k + 1) = .ok none) :
    ∃ tr t t', tr.length = k ∧ LoopTo env s tr t ∧ t.stop env = .ok (false, t') := by
  induction k generalizing s with
  | zero =>
    unfold Strat.loop at h
    obtain ⟨⟨b, s1⟩, h1, h⟩ := Out.bind_eq_ok.1 h
    cases b with
    | true => injection h with h; cases h
    | false => exact ⟨[], s, s1, rfl, .refl _, h1⟩
  | succ k ih =>
    unfold Strat.loop at h
    obtain ⟨⟨b, s1⟩, h1, h⟩ := Out.bind_eq_ok.1 h
    cases b with
    | true => injection h with h; cases h
    | false =>
      replace h : (s1.generation env >>= fun s2 => Strat.loop env (k + 1) s2) = .ok none := h
      obtain ⟨s2, h2, h⟩ := Out.bind_eq_ok.1 h
      obtain ⟨pop, h3⟩ := Strat.generation_askRun h2
      obtain ⟨tr, t, t', i1, i2, i3⟩ := ih h
      exact ⟨pop :: tr, t, t', by simp [i1], .cons h1 h2 h3 i2, i3⟩

/-- More fuel does not change a result. -/
theorem loop_mono {env : Env n} (k : ℕ) {s : Strat n} (h : s.loop env k ≠ .ok none) :
    s.loop env (k + 1) = s.loop env k := by
  induction k generalizing s with
  | zero => exact absurd rfl h
  | succ k ih =>
    rw [Strat.loop, Strat.loop]
    cases hs : s.stop env with
    | error e => rfl
    | ok q =>
      obtain ⟨b, s1⟩ := q
      cases b with
      | true => rfl
      | false =>
        show (s1.generation env >>= fun s2 => Strat.loop env (k + 1) s2) =
          (s1.generation env >>= fun s2 => Strat.loop env k s2)
        cases hg : s1.generation env with
        | error e => rfl
        | ok s2 =>
          rw [Out.ok_bind, Out.ok_bind]
          refine ih ?_
          intro hn
          refine h ?_
          rw [Strat.loop, hs]
          show (s1.generation env >>= fun s2 => Strat.loop env k s2) = _
          rw [hg, Out.ok_bind, hn]

theorem loop_mono_le {env : Env n} {k k' : ℕ} (hk : k ≤ k') {s : Strat n} (h : s.loop env k ≠ .ok none) :
    s.loop env k' = s.loop env k := by
  induction hk with
  | refl => rfl
  | step _ ih => rw [loop_mono _ (by rw [ih]; exact h), ih]

theorem LoopTo.genRun {env : Env n} {s t : Strat n} {tr} (h : LoopTo env s tr t) :
    GenRun env s tr.length t := by
  induction h with
  | refl => exact .refl _
  | step _ i1 i2 i3 ih => rw [List.length_append]; exact .turn (.stop ih i1) i2

theorem Spec.GenRun.askRun {env : Env n} {s t : Strat n} {k} (h : GenRun env s k t) :
    ∃ tr, tr.length = k ∧ AskRun env s tr t := by
  induction h with
  | refl => exact ⟨[], rfl, .refl _⟩
  | stop _ i ih =>
    obtain ⟨tr, h1, h2⟩ := ih
    exact ⟨tr, h1, by simpa using h2.trans (.stop i (.refl _))⟩
  | turn _ i ih =>
    obtain ⟨tr, h1, h2⟩ := ih
    obtain ⟨pop, h3⟩ := Strat.generation_askRun i
    exact ⟨tr ++ [pop], by simp [h1], h2.trans h3⟩

/-- All that a run keeps. -/
theorem genRun_live {env : Env n} {s t : Strat n} {k : ℕ} (h : GenRun env s k t) (hL : Live s) (hR : Recorded s)
    (hv : ∀ k y, Val (negIf s.negate (env.f k y))) : Live t ∧ Recorded t ∧ t.negate = s.negate := by
  induction h with
  | refl => exact ⟨hL, hR, rfl⟩
  | stop _ i ih =>
    obtain ⟨a, b, c⟩ := ih
    obtain ⟨k, r, e⟩ := Strat.stop_frame i
    rw [e]
    exact ⟨a.withRun _ _, b.withRun _ _, c⟩
  | turn _ i ih =>
    obtain ⟨a, b, c⟩ := ih
    have hf := val_isNum_f hv
    obtain ⟨pop, hrun⟩ := Strat.generation_run i
    rcases generation_total_num a hf b.refNum with ⟨s', h1, h2, _⟩ | ⟨x, e, _, h2⟩
    · rw [i] at h1
      injection h1 with h1
      subst h1
      exact ⟨h2, b.generation a h2 (by rw [c]; exact hv) i, by rw [(run_p hrun).2.2.2.2.2.2.2.1, c]⟩
    · rw [i] at h2; cases h2

/-- The constructor's flags. -/
def FlagsOf (p : Params n) (crit : List (ℤ × Bool)) : Prop :=
  crit = stopCodes.map fun c => (c, open Classical in decide (¬ (c, false) ∈ p.stoppingCrit))

theorem FlagsOf.mem {p : Params n} {crit : List (ℤ × Bool)} (h : FlagsOf p crit) (c : ℤ) :
    (c, true) ∈ crit ↔ CritActive p c := by
  rw [h, List.mem_map]
  unfold CritActive
  constructor
  · rintro ⟨d, hd, e⟩
    injection e with e1 e2
    subst e1
    exact ⟨hd, by simpa using e2⟩
  · rintro ⟨h1, h2⟩
    exact ⟨c, h1, by simp [h2]⟩

/-- The test of the loop is defined, and reports what it should. -/
theorem stop_total {env : Env n} {p : Params n} {s : Strat n} (hL : Live s) (hR : Recorded s)
    (hc : FlagsOf p s.crit) (hp : env.pfunc s.npf s.p s.sol = 0) (hs : 0 ≤ s.sol.runStatus) (h0 : s.niter ≠ 0) :
    ∃ r, s.stop env = .ok (decide (r ≠ 0), { s with npf := s.npf + 1, sol := { s.sol with runStatus := r } }) ∧
      ((r = 0 ∧ ∀ c, CritActive p c → ¬ Fires env.fladd c s.p s.sol) ∨
       (CritActive p r ∧ Fires env.fladd r s.p s.sol ∧
        ∀ c, c < r → CritActive p c → ¬ Fires env.fladd c s.p s.sol)) := by
  obtain ⟨r, h1, h2⟩ := stopCrit_spec (fladd := env.fladd) (hR.ready hL.toLiveCore h0) hc
  refine ⟨r, ?_, h2⟩
  unfold Strat.stop
  rw [if_neg (by omega)]
  simp only
  rw [if_neg (by simpa using hp), if_neg h0, h1, Out.ok_bind]
  rfl

theorem stop_defined {env : Env n} {p : Params n} {s : Strat n} (hL : Live s) (hR : Recorded s)
    (hc : FlagsOf p s.crit) : ∃ q : Bool × Strat n, s.stop env = .ok q := by
  by_cases hs : s.sol.runStatus < 0
  · exact ⟨_, by unfold Strat.stop; rw [if_pos hs]⟩
  by_cases hp : env.pfunc s.npf s.p s.sol = 0
  · by_cases h0 : s.niter = 0
    · refine ⟨(false, { s with npf := s.npf + 1 }), ?_⟩
      unfold Strat.stop
      rw [if_neg hs]
      simp only
      rw [if_neg (by simpa using hp), if_pos h0]
    · obtain ⟨r, h, _⟩ := stop_total hL hR hc hp (by omega) h0
      exact ⟨_, h⟩
  · refine ⟨(true, { s with npf := s.npf + 1 }), ?_⟩
    unfold Strat.stop
    rw [if_neg hs]
    simp only
    rw [if_pos hp]

/-- The loop does not fail. -/
theorem loop_total {env : Env n} {p : Params n} (k : ℕ) {s : Strat n} (hL : Live s) (hR : Recorded s)
    (hc : FlagsOf p s.crit) (hv : ∀ k y, Val (negIf s.negate (env.f k y)))
    (hg : ∀ x : Vec n, ∃ y : Vec n, phenoV s.p.gp x = .ok y) : ∃ o, s.loop env k = .ok o := by
  induction k generalizing s with
  | zero => exact ⟨none, rfl⟩
  | succ k ih =>
    obtain ⟨⟨b, s1⟩, h1⟩ := stop_defined (env := env) hL hR hc
    unfold Strat.loop
    rw [h1, Out.ok_bind]
    cases b with
    | true => exact ⟨some s1, rfl⟩
    | false =>
      have r1 : GenRun env s 0 s1 := .stop (.refl _) h1
      obtain ⟨hL1, hR1, hn1⟩ := genRun_live r1 hL hR hv
      rcases generation_total_num hL1 (val_isNum_f hv) hR1.refNum with ⟨s2, h2, hL2, _⟩ | ⟨x, e, h2, _⟩
      · have r2 := GenRun.turn r1 h2
        obtain ⟨_, hR2, hn2⟩ := genRun_live r2 hL hR hv
        obtain ⟨tr, _, hrun⟩ := r2.askRun
        obtain ⟨p1, _, _, _, _, _, p7, _⟩ := run_p hrun.run
        obtain ⟨o, ho⟩ := ih hL2 hR2 (by rw [p7]; exact hc) (by rw [hn2]; exact hv) (by rw [p1]; exact hg)
        refine ⟨o, ?_⟩
        show (s1.generation env >>= fun s2 => Strat.loop env k s2) = _
        rw [h2, Out.ok_bind, ho]
      · exfalso
        obtain ⟨tr, _, hrun⟩ := r1.askRun
        rw [(run_p hrun.run).1] at h2
        obtain ⟨y, hy⟩ := hg x
        rw [hy] at h2; cases h2

/-! ### `optimize` -/

theorem wantsRestart_off {s : Strat n} (h : s.p.initialElitistOnRestart = false) : s.wantsRestart = .ok false := by
  unfold Strat.wantsRestart
  rw [h]; rfl

theorem evalInitial_kept {env : Env n} {s s' : Strat n} (h : s.evalInitial env = .ok s') :
    s'.p = s.p ∧ s'.crit = s.crit ∧ s'.niter = s.niter ∧ s'.sol.niter = s.sol.niter ∧ s'.negate = s.negate ∧
      s'.npf = s.npf ∧ s'.sol.runStatus = s.sol.runStatus ∧ s'.sol.nevals ≤ s.sol.nevals + 1 ∧
      s'.sol.maxHist = s.sol.maxHist := by
  rcases Strat.evalInitial_frame h with e | ⟨y, v, _, _, e⟩ <;> rw [e] <;> simp

theorem edm_p {env : Env n} {s s' : Strat n} (h : s.edm env = .ok s') :
    s'.p = s.p ∧ s'.niter = s.niter ∧ s'.sol.runStatus = s.sol.runStatus ∧ s'.npf = s.npf := by
  obtain ⟨c, e, h⟩ := Strat.edm_frame h
  rw [h]; exact ⟨rfl, rfl, rfl, rfl⟩

/-- Without elitist restarts, `optimize` is one run of the loop. -/
theorem optimize_plain {env : Env n} {k : ℕ} {s s' : Strat n} (hr : s.p.initialElitistOnRestart = false)
    (h : s.optimize env k = .ok (some s')) :
    ∃ s0 s1 tr t, s.evalInitial env = .ok s0 ∧ LoopTo env s0 tr t ∧ t.stop env = .ok (true, s1) ∧
      (if s1.p.withEdm then s1.edm env else pure s1) = .ok s' := by
  cases k with
  | zero => cases h
  | succ k =>
    obtain ⟨s0, s1, s2, b, h0, h1, h2, h3, h4⟩ := Strat.optimize_succ_ok h
    obtain ⟨tr, t, _, i1, i2⟩ := loop_some _ h1
    have hp : s2.p = s.p := by
      have e1 : s1.p = s.p := by
        obtain ⟨_, hrun⟩ := Strat.loop_run _ h1
        rw [(run_p hrun).1, (evalInitial_kept h0).1]
      split_ifs at h2
      · rw [(edm_p h2).1, e1]
      · injection h2 with h2; rw [← h2, e1]
    rw [wantsRestart_off (by rw [hp]; exact hr)] at h3
    injection h3 with h3
    subst h3
    rcases h4 with ⟨h4, _⟩ | ⟨_, h4⟩
    · cases h4
    · subst h4
      exact ⟨s0, s1, tr, t, h0, i1, i2, h2⟩

theorem optimize_mono {env : Env n} (k : ℕ) {s : Strat n} (h : s.optimize env k ≠ .ok none) :
    s.optimize env (k + 1) = s.optimize env k := by
  induction k generalizing s with
  | zero => exact absurd rfl h
  | succ k ih =>
    rw [Strat.optimize, Strat.optimize] at *
    cases h0 : s.evalInitial env with
    | error e => rfl
    | ok s0 =>
      rw [h0, Out.ok_bind] at h
      rw [Out.ok_bind, Out.ok_bind]
      have hl : s0.loop env (k + 1) ≠ .ok none := by
        intro e
        rw [e] at h
        exact h rfl
      rw [loop_mono _ hl]
      cases h1 : s0.loop env (k + 1) with
      | error e => rfl
      | ok o =>
        rw [h1, Out.ok_bind] at h
        rw [Out.ok_bind, Out.ok_bind]
        cases o with
        | none => exact absurd rfl h
        | some s1 =>
          simp only at h ⊢
          cases h2 : (if s1.p.withEdm then s1.edm env else pure s1) with
          | error e => rfl
          | ok s2 =>
            rw [h2, Out.ok_bind] at h
            rw [Out.ok_bind, Out.ok_bind]
            cases h3 : s2.wantsRestart with
            | error e => rfl
            | ok b =>
              rw [h3, Out.ok_bind] at h
              rw [Out.ok_bind, Out.ok_bind]
              cases b with
              | false => rfl
              | true =>
                rw [if_pos rfl] at h
                rw [if_pos rfl, if_pos rfl]
                cases h4 : s2.elitistRestart env with
                | error e => rfl
                | ok s3 =>
                  rw [h4, Out.ok_bind] at h
                  rw [Out.ok_bind, Out.ok_bind]
                  exact ih h

theorem optimize_mono_le {env : Env n} {k k' : ℕ} (hk : k ≤ k') {s : Strat n}
    (h : s.optimize env k ≠ .ok none) : s.optimize env k' = s.optimize env k := by
  induction hk with
  | refl => rfl
  | step _ ih => rw [optimize_mono _ (by rw [ih]; exact h), ih]

/-! ### Starting states -/

theorem recorded_new {env : Env n} {kind : CovKind} {p : Params n} {s : Strat n}
    (h : Strat.new env kind p = .ok s) : Recorded s := by
  obtain ⟨h1, h2, h3, h4, h5, h6, h7, h8, h9, h10, h11, h12, h13, h14, h15, h16, h17, h18, h19, h20⟩ :=
    Strat.new_ok h
  refine ⟨?_, ?_, ?_, ?_, ?_, ?_, ?_, ?_, ?_⟩
  · intro c hc; rw [h6.bestSeen] at hc; cases hc
  · intro c hc; rw [h17] at hc; cases hc
  · rw [h6.bestHist]; simp
  · rw [h6.bfvalues]; simp
  · rw [h6.medianFvalues]; simp
  · rw [h6.bestHist, h6.kBestHist]
  · rw [h15]; exact maxHistOf_pos _ _ _
  · rw [h4]; exact h5
  · intro h; exact absurd h7 h

theorem esSound_new {env : Env n} {kind : CovKind} {p : Params n} {s : Strat n}
    (h : Strat.new env kind p = .ok s) : EsSound s := by
  intro e he; rw [(new_tpa h).2.2] at he; cases he

theorem Spec.Started.live {env : Env n} {kind : CovKind} {p : Params n} {s : Strat n} (h : Started env kind p s)
    (hv : ValObjective env p) : Live s ∧ Recorded s ∧ ∀ k y, Val (negIf s.negate (env.f k y)) := by
  rcases h with ⟨hu, s0, h0, h1⟩ | ⟨hu, h0⟩
  · obtain ⟨a, b⟩ := start_live hu.good (begins_new h0) (esSound_new h0) h1 hv
    refine ⟨a, b, ?_⟩
    rw [(evalInitial_kept h1).2.2.2.2.1, (Strat.new_ok h0).2.2.2.2.2.2.2.2.2.1]
    exact hv
  · refine ⟨(live_new hu h0).1, recorded_new h0, ?_⟩
    rw [(Strat.new_ok h0).2.2.2.2.2.2.2.2.2.1]
    exact hv

theorem Spec.Started.flags {env : Env n} {kind : CovKind} {p : Params n} {s : Strat n}
    (h : Started env kind p s) (hnd : UniqueKeys p) : FlagsOf p s.crit := by
  rcases h with ⟨hu, s0, h0, h1⟩ | ⟨hu, h0⟩
  · rw [(evalInitial_kept h1).2.1]; exact new_crit h0 hnd
  · exact new_crit h0 hnd

theorem Spec.Started.zero {env : Env n} {kind : CovKind} {p : Params n} {s : Strat n}
    (h : Started env kind p s) : s.niter = 0 ∧ s.sol.niter = 0 ∧ s.sol.runStatus = 0 := by
  rcases h with ⟨hu, s0, h0, h1⟩ | ⟨hu, h0⟩
  · obtain ⟨_, _, e1, e2, _, _, e3, _⟩ := evalInitial_kept h1
    rw [e1, e2, e3]
    exact ⟨(Strat.new_ok h0).2.2.2.2.2.2.1, (Strat.new_ok h0).2.2.2.2.2.1.niter, (Strat.new_ok h0).2.2.2.2.2.1.runStatus⟩
  · exact ⟨(Strat.new_ok h0).2.2.2.2.2.2.1, (Strat.new_ok h0).2.2.2.2.2.1.niter, (Strat.new_ok h0).2.2.2.2.2.1.runStatus⟩

theorem Spec.Started.p {env : Env n} {kind : CovKind} {p : Params n} {s : Strat n}
    (h : Started env kind p s) : s.p = { p with sigmaInit := s.p.sigmaInit } := by
  rcases h with ⟨hu, s0, h0, h1⟩ | ⟨hu, h0⟩
  · rw [(evalInitial_kept h1).1, (Strat.new_ok h0).2.2.2.1]
  · rw [(Strat.new_ok h0).2.2.2.1]

theorem generation_npf {env : Env n} {s s' : Strat n} (h : s.generation env = .ok s') :
    s'.npf = s.npf ∧ s'.sol.runStatus = s.sol.runStatus := by
  unfold Strat.generation at h
  obtain ⟨⟨pop, s1⟩, ha, h⟩ := Out.bind_eq_ok.1 h
  obtain ⟨phen, hp, h⟩ := Out.bind_eq_ok.1 h
  obtain ⟨s2, he, h⟩ := Out.bind_eq_ok.1 h
  obtain ⟨s3, ht, h⟩ := Out.bind_eq_ok.1 h
  injection h with h
  subst h
  obtain ⟨⟨es, ei, ue, c, nz, x1, x2, p1, p2, e1⟩, hpl⟩ := Strat.ask_frame ha
  obtain ⟨c2, nu, nzuh, lr, cu, cs, e2, hcs, _⟩ := Strat.eval_frame he
  obtain ⟨cs', cu', su, ts, sol3, hs, hb, csq, hc, sc, ps, hs', pc, cov, sep, v, sg, xp, xm, mx, mn, lv, le,
    e3⟩ := Strat.tell_frame ht
  obtain ⟨c0, ck, cl, med, h0, hk, hl, hmed, eb, _⟩ := Sol.updateBest_ok hb
  constructor
  · rw [e3, e2, e1]; rfl
  · have : s3.incIter.sol.runStatus = sol3.runStatus := by rw [e3]; rfl
    rw [this, eb, e2, e1]

/-- The k-th test calls the progress function for the k-th time; until the loop ends the status stays 0. -/
theorem LoopTo.npf {env : Env n} {s t : Strat n} {tr} (h : LoopTo env s tr t) (h0 : s.sol.runStatus = 0) :
    t.npf = s.npf + tr.length ∧ t.sol.runStatus = 0 := by
  induction h with
  | refl => exact ⟨rfl, h0⟩
  | step _ i1 i2 i3 ih =>
    obtain ⟨e1, e2⟩ := ih
    obtain ⟨g1, g2⟩ := generation_npf i2
    rw [g1, g2]
    rcases (stop_false i1).2.2 with ⟨_, e⟩ | ⟨_, _, e⟩ <;> rw [e] <;> simp [e1, e2, Nat.add_assoc]

theorem mapInsert_nodup {κ α : Type} [DecidableEq κ] {m : List (κ × α)} (h : (m.map Prod.fst).Nodup) (k : κ)
    (v : α) : ((mapInsert m k v).map Prod.fst).Nodup := by
  unfold mapInsert
  split_ifs with hk
  · exact h
  · rw [List.map_append, List.nodup_append]
    refine ⟨h, by simp, ?_⟩
    intro a ha b hb e
    simp only [List.map_cons, List.map_nil, List.mem_singleton] at hb
    exact hk (hb ▸ e ▸ ha)

/-- No test beyond the `N`-th iteration lets the loop go on: `optimize` ends. -/
theorem optimize_ends {env : Env n} {s : Strat n} {N : ℕ} (hr : s.p.initialElitistOnRestart = false)
    (hN : ∀ s0 tr t t', s.evalInitial env = .ok s0 → LoopTo env s0 tr t → N ≤ tr.length →
      t.stop env ≠ .ok (false, t')) :
    (∀ k, N + 1 ≤ k → s.optimize env k = s.optimize env (N + 1)) ∧ s.optimize env (N + 1) ≠ .ok none ∧
      ∀ s', s.optimize env (N + 1) = .ok (some s') → s'.niter ≤ s.niter + N := by
  have hne : s.optimize env (N + 1) ≠ .ok none := by
    intro h
    rw [Strat.optimize] at h
    cases h0 : s.evalInitial env with
    | error e => rw [h0] at h; cases h
    | ok s0 =>
      rw [h0, Out.ok_bind] at h
      cases h1 : s0.loop env (N + 1) with
      | error e => rw [h1] at h; cases h
      | ok o =>
        rw [h1, Out.ok_bind] at h
        cases o with
        | none =>
          obtain ⟨tr, t, t', a, b, c⟩ := loop_none _ h1
          exact hN s0 tr t t' h0 b a.ge c
        | some s1 =>
          simp only at h
          have hp1 : s1.p = s.p := by
            obtain ⟨_, hrun⟩ := Strat.loop_run _ h1
            rw [(run_p hrun).1, (evalInitial_kept h0).1]
          obtain ⟨s2, h2, h⟩ := Out.bind_eq_ok.1 h
          have hp : s2.p = s.p := by
            split_ifs at h2
            · rw [(edm_p h2).1, hp1]
            · injection h2 with h2; rw [← h2, hp1]
          rw [wantsRestart_off (by rw [hp]; exact hr)] at h
          cases h
  refine ⟨fun k hk => optimize_mono_le hk hne, hne, ?_⟩
  intro s' h
  obtain ⟨s0, s1, tr, t, h0, h1, h2, h3⟩ := optimize_plain hr h
  have hlen : tr.length ≤ N := by
    cases h1 with
    | refl => simp
    | step i1 i2 i3 i4 =>
      by_contra hc
      rw [List.length_append, List.length_singleton] at hc
      exact hN _ _ _ _ h0 i1 (by omega) i2
  have hni : s'.niter = s1.niter := by
    split_ifs at h3
    · exact (edm_p h3).2.1
    · injection h3 with h3; rw [h3]
  have h4 : s1.niter = t.niter := by
    obtain ⟨k, r, e⟩ := Strat.stop_frame h2
    rw [e]
  have h5 := (run_p h1.askRun.run).2.2.2.1
  rw [hni, h4, h5, (evalInitial_kept h0).2.2.1]
  omega

/-! ### The end of a run -/

theorem LoopTo.nil {env : Env n} {s t : Strat n} {tr} (h : LoopTo env s tr t) (he : tr = []) : t = s := by
  induction h with
  | refl => rfl
  | step => simp at he

/-- Every test before the last one let the loop go on. -/
theorem LoopTo.prefix {env : Env n} {s t : Strat n} {tr} (h : LoopTo env s tr t) {a b : List (List (Cand n))}
    (he : tr = a ++ b) (hb : b ≠ []) : ∃ t1 t2, LoopTo env s a t1 ∧ t1.stop env = .ok (false, t2) := by
  induction h generalizing b with
  | refl =>
    rw [eq_comm, List.append_eq_nil_iff] at he
    exact absurd he.2 hb
  | step i0 i1 i2 i3 ih =>
    rcases List.eq_nil_or_concat b with e | ⟨b', q, rfl⟩
    · exact absurd e hb
    · rw [List.concat_eq_append, ← List.append_assoc] at he
      have h1 := (List.append_inj' he rfl).1
      by_cases hb' : b' = []
      · subst hb'
        rw [List.append_nil] at h1
        subst h1
        exact ⟨_, _, i0, i1⟩
      · exact ih h1 hb'

/-- The best candidate is the best of the last population. -/
theorem askRun_best {env : Env n} {s t : Strat n} {tr : List (List (Cand n))} {pop : List (Cand n)}
    (huh : s.p.uh = false) (hm : 0 < s.sol.maxHist) (h : AskRun env s (tr ++ [pop]) t) :
    FirstMin pop t.sol.bestCandidate := by
  have := h.induct (I := fun t past => t.p.uh = false ∧ 0 < t.sol.maxHist ∧
      ∀ l pop, past = l ++ [pop] → FirstMin pop t.sol.bestCandidate) (past := []) ?_ ?_
    ⟨huh, hm, fun l pop e => by simp at e⟩
  · exact this.2.2 tr pop (by simp)
  · rintro t past b t' ⟨i1, i2, i3⟩ h
    obtain ⟨k, r, e⟩ := Strat.stop_frame h
    rw [e]
    exact ⟨i1, i2, i3⟩
  · rintro t past pop t1 cols phen t2 t3 ⟨i1, i2, i3⟩ ha he ht
    obtain ⟨⟨es, ei, ue, c, nz, x1, x2, p1, p2, e1⟩, hpl⟩ := Strat.ask_frame ha
    obtain ⟨c2, nu, nzuh, lr, cu, cs, e2, hcs, _⟩ := Strat.eval_frame he
    obtain ⟨cs', cu', su, ts, sol3, hs, hb, csq, hc, sc, ps, hs', pc, cov, sep, v, sg, xp, xm, mx, mn, lv, le,
      e3⟩ := Strat.tell_frame ht
    have hsort := hs (by rw [e2, e1]; exact i1)
    obtain ⟨c0, ck, cl, med, h0, hk, hl, hmed, eb, _⟩ := Sol.updateBest_ok hb
    have hmax : sol3.maxHist = t.sol.maxHist := by rw [eb, e2, e1]
    refine ⟨by rw [e3, e2, e1]; exact i1, ?_, ?_⟩
    · have : t3.incIter.sol.maxHist = sol3.maxHist := by rw [e3]; rfl
      rw [this, hmax]; exact i2
    · intro l q hq
      have hq' := (List.append_inj' hq rfl).2
      injection hq' with hq' _
      subst hq'
      have hbc : t3.incIter.sol.bestCandidate = c0 := by
        have e : t3.incIter.sol.bestHist = sol3.bestHist := by rw [e3]; rfl
        have : t3.incIter.sol.bestHist.getLast? = some c0 := by
          rw [e, eb]
          simp only
          split_ifs with hlen
          · have hne : t2.sol.bestHist ≠ [] := by
              intro e0
              have hm2 : t2.sol.maxHist = t.sol.maxHist := by rw [e2, e1]
              rw [e0] at hlen
              simp only [List.nil_append, List.length_singleton, hm2] at hlen
              omega
            obtain ⟨a, rest, e0⟩ := List.exists_cons_of_ne_nil hne
            rw [e0]
            simp
          · simp
        unfold Sol.bestCandidate
        rw [this]
      rw [hbc]
      exact firstMin_of_stableSort hsort h0

/-- The first minimum is unique. -/
theorem FirstMin_unique {l : List (Cand n)} {a b : Cand n} (ha : FirstMin l a) (hb : FirstMin l b) : a = b := by
  obtain ⟨p1, q1, e1, i1, j1⟩ := ha
  obtain ⟨p2, q2, e2, i2, j2⟩ := hb
  rw [e1, List.append_eq_append_iff] at e2
  rcases e2 with ⟨m, e3, e4⟩ | ⟨m, e3, e4⟩
  · cases m with
    | nil => simp only [List.nil_append, List.cons.injEq] at e4; exact e4.1
    | cons c m =>
      simp only [List.cons_append, List.cons.injEq] at e4
      obtain ⟨rfl, e4⟩ := e4
      have hlt := i2 a (by rw [e3]; simp)
      exact absurd hlt (j1 b (by rw [e4]; simp))
  · cases m with
    | nil => simp only [List.nil_append, List.cons.injEq] at e4; exact e4.1.symm
    | cons c m =>
      simp only [List.cons_append, List.cons.injEq] at e4
      obtain ⟨rfl, e4⟩ := e4
      have hlt := i1 b (by rw [e3]; simp)
      exact absurd hlt (j2 a (by rw [e4]; simp))

/-- A criterion returns its own code or 0. -/
theorem critFun_code {fladd : ℝ → ℝ → ℝ} {c : ℤ} {p : Params n} {s : Sol n} {r : ℤ} (hc : c ∈ stopCodes)
    (h : critFun fladd c p s = .ok r) : r = 0 ∨ r = c := by
  unfold stopCodes at hc
  simp only [List.mem_cons, List.not_mem_nil, or_false] at hc
  rcases hc with rfl | rfl | rfl | rfl | rfl | rfl | rfl | rfl | rfl | rfl | rfl | rfl
  · change critConditionCov p s = _ at h
    unfold critConditionCov at h
    injection h with h
    split_ifs at h <;> simp [← h]
  · change critTolUpSigma p s = _ at h
    unfold critTolUpSigma at h
    split_ifs at h <;> injection h with h <;> simp [← h]
  · change critTolHistFun p s = _ at h
    unfold critTolHistFun at h
    split_ifs at h
    simp only at h
    split_ifs at h <;> injection h with h <;> simp [← h]
  · change critTolX p s = _ at h
    unfold critTolX at h
    simp only at h
    split_ifs at h <;> injection h with h <;> simp [← h]
  · change critNoEffectAxis fladd p s = _ at h
    unfold critNoEffectAxis at h
    simp only at h
    split_ifs at h <;> injection h with h <;> simp [← h]
  · change critNoEffectCoor fladd p s = _ at h
    unfold critNoEffectCoor at h
    split_ifs at h <;> injection h with h <;> simp [← h]
  · change critEqualFunVals p s = _ at h
    unfold critEqualFunVals at h
    simp only at h
    split_ifs at h <;> injection h with h <;> simp [← h]
  · change critStagnation p s = _ at h
    unfold critStagnation at h
    split_ifs at h with h1
    · injection h with h; simp [← h]
    · obtain ⟨a, _, h⟩ := Out.bind_eq_ok.1 h
      obtain ⟨b, _, h⟩ := Out.bind_eq_ok.1 h
      injection h with h
      split_ifs at h <;> simp [← h]
  · change critAutoMaxIter p s = _ at h
    unfold critAutoMaxIter at h
    split_ifs at h <;> injection h with h <;> simp [← h]
  · change critMaxFEvals p s = _ at h
    unfold critMaxFEvals at h
    injection h with h
    split_ifs at h <;> simp [← h]
  · change critMaxIter p s = _ at h
    unfold critMaxIter at h
    injection h with h
    split_ifs at h <;> simp [← h]
  · change critFTarget p s = _ at h
    unfold critFTarget at h
    injection h with h
    split_ifs at h <;> simp [← h]

theorem stopCrit_status {fladd : ℝ → ℝ → ℝ} {p q : Params n} {crit : List (ℤ × Bool)} {s : Sol n} {r : ℤ}
    (hc : FlagsOf p crit) (h : stopCrit fladd crit q s = .ok r) (h0 : r ≠ 0) :
    CritActive p r ∧ critFun fladd r q s = .ok r := by
  obtain ⟨c, h1, h2⟩ := stopCrit_code h h0
  have h3 := (hc.mem c).1 h1
  rcases critFun_code h3.1 h2 with e | e
  · exact absurd e h0
  · subst e; exact ⟨h3, h2⟩

/-- How a run of `optimize` without elitist restarts ends: by the progress function, or by a criterion. -/
theorem optimize_end {env : Env n} {kind : CovKind} {p : Params n} {s s' : Strat n} {fuel : ℕ}
    (h0 : Begins kind p s) (hk : FlagsOf p s.crit) (hr : p.initialElitistOnRestart = false)
    (he : p.withEdm = false) (h : s.optimize env fuel = .ok (some s')) :
    ∃ s0 tr t, s.evalInitial env = .ok s0 ∧ LoopTo env s0 tr t ∧ t.stop env = .ok (true, s') ∧
      FlagsOf p t.crit ∧ t.p = { p with sigmaInit := s.sol.sigma } ∧ t.niter = tr.length ∧
      t.sol.niter = tr.length ∧ t.npf = s.npf + tr.length ∧ t.sol.runStatus = 0 ∧
      ((env.pfunc t.npf t.p t.sol ≠ 0 ∧ s' = { t with npf := t.npf + 1 }) ∨
       (env.pfunc t.npf t.p t.sol = 0 ∧ t.niter ≠ 0 ∧ ∃ c, CritActive p c ∧
          critFun env.fladd c t.p t.sol = .ok c ∧ stopCrit env.fladd t.crit t.p t.sol = .ok c ∧
          s' = { t with npf := t.npf + 1, sol := { t.sol with runStatus := c } })) := by
  obtain ⟨s0, s1, tr, t, h1, h2, h3, h4⟩ := optimize_plain (by rw [h0.params]; exact hr) h
  obtain ⟨e1, e2, e3, e4, _, e6, e7, _⟩ := evalInitial_kept h1
  obtain ⟨r1, _, _, r4, r5, _, r7, _⟩ := run_p h2.askRun.run
  obtain ⟨n1, n2⟩ := h2.npf (by rw [e7]; exact h0.fresh.runStatus)
  have hp : t.p = { p with sigmaInit := s.sol.sigma } := by rw [r1, e1, h0.params]
  have hs1 : s1.p = t.p := by
    obtain ⟨k, r, e⟩ := Strat.stop_frame h3
    rw [e]
  rw [if_neg (by rw [hs1, hp]; simp [he])] at h4
  injection h4 with h4
  subst h4
  have hc : FlagsOf p t.crit := by rw [r7, e2]; exact hk
  refine ⟨s0, tr, t, h1, h2, h3, hc, hp, ?_, ?_, by rw [n1, e6], n2, ?_⟩
  · rw [r4, e3, h0.niter, Nat.zero_add]
  · rw [r5, e4, h0.fresh.niter, Nat.zero_add]
  · rcases stop_true h3 with ⟨a, _⟩ | ⟨_, a, b⟩ | ⟨_, a, b, c, d, e, f⟩
    · omega
    · exact Or.inl ⟨a, b⟩
    · obtain ⟨g1, g2⟩ := stopCrit_status hc e d
      exact Or.inr ⟨a, b, c, g1, g2, e, f⟩

/-- Without uncertainty handling and gradient a generation takes `λ` evaluations. -/
theorem generation_evals {env : Env n} {s s' : Strat n} (huh : s.p.uh = false) (hg : s.p.withGradient = false)
    (h : s.generation env = .ok s') : s'.sol.nevals = s.sol.nevals + s.p.lambda := by
  unfold Strat.generation at h
  obtain ⟨⟨pop, s1⟩, ha, h⟩ := Out.bind_eq_ok.1 h
  obtain ⟨phen, hp, h⟩ := Out.bind_eq_ok.1 h
  obtain ⟨s2, he, h⟩ := Out.bind_eq_ok.1 h
  obtain ⟨s3, ht, h⟩ := Out.bind_eq_ok.1 h
  injection h with h
  subst h
  have hcl := Strat.ask_calls ha hg
  obtain ⟨⟨es, ei, ue, c, nz, x1, x2, p1, p2, e1⟩, hpl⟩ := Strat.ask_frame ha
  have hc0 : c = [] := by
    have : s1.calls = s.calls ++ c := by rw [e1]
    rw [hcl] at this
    simpa using this
  obtain ⟨s4, h4, e4⟩ := Strat.eval_ok (by rw [e1]; exact huh) he
  obtain ⟨cs', cu', su, ts, sol3, hs, hb, csq, hc, sc, ps, hs', pc, cov, sep, v, sg, xp, xm, mx, mn, lv, le,
    e3⟩ := Strat.tell_frame ht
  obtain ⟨c0, ck, cl, med, _, _, _, _, eb, _⟩ := Sol.updateBest_ok hb
  have h1 : s3.incIter.sol.nevals = sol3.nevals := by rw [e3]; rfl
  have h2 : sol3.nevals = s2.sol.nevals := by rw [eb]
  have h3 : s4.sol.nevals = s1.sol.nevals := by
    rcases Strat.reinject_frame h4 with h | ⟨_, _, _, h⟩ <;> rw [h] <;> rfl
  have h5 : s1.sol.nevals = s.sol.nevals := by rw [e1, hc0]; simp
  rw [h1, h2, e4]
  show s4.sol.nevals + pop.length = _
  rw [h3, h5, hpl]

end Libcmaes
