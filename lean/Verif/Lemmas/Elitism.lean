import Verif.Spec.Elitism
import Verif.Lemmas.Points
import Verif.Lemmas.Total
import Verif.Lemmas.Optimize

/-! # Reinjection of a protected candidate -/

namespace Libcmaes

open Spec

variable {n : ℕ}

theorem FVal.eq_of_not_lt {a b : FVal} (ha : a.IsNum) (hb : b.IsNum) (h1 : ¬ lt a b) (h2 : ¬ lt b a) :
    a = b := by
  cases a <;> cases b <;> simp_all [lt, IsNum]
  exact le_antisymm h2 h1

theorem FVal.le_trans {a b c : FVal} (h1 : le a b) (h2 : le b c) : le a c := by
  cases a <;> cases b <;> cases c <;> simp_all [le]
  exact _root_.le_trans h1 h2

theorem maxHistOf_pos (m : ℤ) (n l : ℕ) : 0 < maxHistOf m n l := by
  unfold maxHistOf
  split_ifs with h
  · exact h
  · positivity

theorem Spec.ElitismMode.flags {p : Params n} {e : ℤ} (h : ElitismMode p e) :
    p.elitist = decide (e = 1) ∧ p.initialElitist = decide (e = 2) ∧
      p.initialElitistOnRestart = decide (e = 3) := by
  obtain ⟨h1, h2, h3⟩ := h
  refine ⟨?_, ?_, ?_⟩ <;> rw [Bool.eq_iff_iff] <;> simp [h1, h2, h3]

theorem Spec.Reference.on {s : Strat n} {c : Cand n} (h : Reference s c) :
    s.elitismOn = true ∧ s.elitistRef = some c := by
  unfold Strat.elitismOn Strat.elitistRef
  obtain ⟨h0, ⟨h1, h2⟩ | ⟨h1, h2⟩ | ⟨h1, h2, h3⟩⟩ := h <;>
    obtain ⟨f1, f2, f3⟩ := h1.flags <;> simp [*]

theorem Spec.NoReference.off {s : Strat n} (h : NoReference s) : s.elitismOn = false := by
  unfold Strat.elitismOn
  rcases h with h | h | ⟨h, h2⟩
  · simp [h]
  · obtain ⟨f1, f2, f3⟩ := h.flags; simp [f1, f2, f3]
  · obtain ⟨f1, f2, f3⟩ := h.flags; simp [f1, f2, f3, h2]

theorem withoutElitism_off (s : Strat n) : (withoutElitism s).elitismOn = false := by
  simp [withoutElitism, Strat.elitismOn]

theorem reinject_off {s : Strat n} (k : ℕ) (h : s.elitismOn = false) : s.reinject k = .ok s := by
  unfold Strat.reinject; rw [if_neg (by simp [h])]

/-- Reinjection, with the reference known. -/
theorem reinject_on {s s' : Strat n} {k : ℕ} {c : Cand n} (hon : s.elitismOn = true)
    (hr : s.elitistRef = some c) (h : s.reinject k = .ok s') :
    s.improvers k < k / 2 ∧ s' = { s with sol := { s.sol with cands := s.sol.cands.set 1 c } } ∨
      k / 2 ≤ s.improvers k ∧ s' = s := by
  unfold Strat.reinject at h
  rw [if_pos hon] at h
  by_cases h1 : s.sol.cands.length < k
  · rw [if_pos h1] at h; cases h
  rw [if_neg h1] at h
  by_cases h2 : s.improvers k < k / 2
  · rw [if_pos h2, hr] at h
    simp only at h
    split_ifs at h
    injection h with h
    exact Or.inl ⟨h2, h.symm⟩
  · rw [if_neg h2] at h
    injection h with h
    exact Or.inr ⟨by omega, h.symm⟩

theorem improvers_eq {s : Strat n} {k : ℕ} {c : Cand n} (hr : s.elitistRef = some c)
    (hk : k = s.sol.cands.length) : s.improvers k = betterThan c s.sol.cands := by
  unfold Strat.improvers betterThan Strat.elitistRefValue
  rw [hr, hk, List.take_length]

theorem reinject_withoutElitism {s s3 t3 : Strat n} {k m : ℕ} {ref : Cand n} (on : s.elitismOn = true)
    (href : s.elitistRef = some ref) (hk : k = s.sol.cands.length) (hs : s.reinject k = .ok s3)
    (ht : (withoutElitism s).reinject k = .ok t3) :
    s3.updateFevals m = { t3.updateFevals m with p := s.p, sol := { (t3.updateFevals m).sol with
      cands := if betterThan ref (t3.updateFevals m).sol.cands < k / 2 then
          (t3.updateFevals m).sol.cands.set 1 ref
        else (t3.updateFevals m).sol.cands } } := by
  rw [reinject_off _ (withoutElitism_off _)] at ht
  injection ht with ht
  subst ht
  have hc : ((withoutElitism s).updateFevals m).sol.cands = s.sol.cands := rfl
  rw [hc, ← improvers_eq href hk]
  rcases reinject_on on href hs with ⟨hk, e3⟩ | ⟨hk, e3⟩
  · rw [if_pos hk, e3]; rfl
  · rw [if_neg (by omega), e3]; rfl

theorem reinject_withoutElitism_off {s s3 t3 : Strat n} {k m : ℕ} (off : s.elitismOn = false)
    (hs : s.reinject k = .ok s3) (ht : (withoutElitism s).reinject k = .ok t3) :
    s3.updateFevals m = { t3.updateFevals m with p := s.p } := by
  rw [reinject_off _ (withoutElitism_off _)] at ht
  rw [reinject_off _ off] at hs
  injection ht with ht
  injection hs with hs
  subst ht hs
  rfl

/-- After evaluation with a protected candidate, some candidate is at least as good. -/
theorem eval_elitist {env : Env n} {s s2 : Strat n} {cols phen : List (Vec n)} {b : Cand n}
    (huh : s.p.uh = false) (hon : s.elitismOn = true) (hr : s.elitistRef = some b)
    (hl : cols.length = s.sol.cands.length) (h2 : 2 ≤ cols.length) (h : s.eval env cols phen = .ok s2) :
    ∃ c ∈ s2.sol.cands, ¬ FVal.lt b.fvalue c.fvalue := by
  obtain ⟨s3, h3, e⟩ := Strat.eval_ok huh h
  have hlen := Strat.evaluated_length env s cols phen
  have e2 : s2.sol.cands = s3.sol.cands := by rw [e]; rfl
  rw [e2]
  rcases reinject_on (s := s.evaluated env cols phen) (c := b) hon hr h3 with ⟨_, e3⟩ | ⟨hk, e3⟩
  · refine ⟨b, ?_, FVal.lt_irrefl _⟩
    rw [e3]
    refine List.mem_iff_getElem?.2 ⟨1, ?_⟩
    show (List.set _ 1 b)[1]? = _
    rw [List.getElem?_set_self (by rw [hlen]; omega)]
  · rw [e3]
    rw [improvers_eq (s := s.evaluated env cols phen) (c := b) hr (by rw [hlen, hl])] at hk
    have : 0 < betterThan b (s.evaluated env cols phen).sol.cands := by omega
    unfold betterThan at this
    obtain ⟨c, hc⟩ := List.exists_mem_of_length_pos this
    obtain ⟨h5, h6⟩ := List.mem_filter.1 hc
    simp only [decide_eq_true_eq] at h6
    exact ⟨c, h5, FVal.lt_asymm h6⟩

/-- What a turn does to the best seen candidate, and its relation to the best of the turn. -/
theorem turn_best {env : Env n} {s s2 s3 : Strat n} {cols phen : List (Vec n)} (huh : s.p.uh = false)
    (hm : 0 < s.sol.maxHist) (h : s.eval env cols phen = .ok s2) (h' : s2.tell env = .ok s3) :
    ∃ c0, FirstMin s2.sol.cands c0 ∧ s3.incIter.sol.bestCandidate = c0 ∧
      (s.sol.bestSeen = none → s.sol.niter = 0 → s3.incIter.sol.bestSeen = some c0) ∧
      (∀ b, s.sol.bestSeen = some b → FVal.lt c0.fvalue b.fvalue → s3.incIter.sol.bestSeen = some c0) ∧
      (∀ b, s.sol.bestSeen = some b → ¬ FVal.lt c0.fvalue b.fvalue → s3.incIter.sol.bestSeen = some b) := by
  obtain ⟨c, nu, nzuh, lr, cu, cs, e, _⟩ := Strat.eval_frame h
  obtain ⟨cs', cu', su, ts, sol3, hs, hb, csq, hc, sc, ps, hs', pc, cov, sep, v, sg, xp, xm, mx, mn, lv, le,
    e'⟩ := Strat.tell_frame h'
  obtain ⟨c0, ck, cl, med, h0, hk, hl, hmed, e3, b1, b2, b3, b4, _⟩ := Sol.updateBest_ok hb
  have hmin : FirstMin s2.sol.cands c0 := firstMin_of_stableSort (hs (by rw [e]; exact huh)) h0
  have ebs : s2.sol.bestSeen = s.sol.bestSeen := by rw [e]
  have eni : s2.sol.niter = s.sol.niter := by rw [e]
  have emh : s2.sol.maxHist = s.sol.maxHist := by rw [e]
  have efin : s3.incIter.sol.bestSeen = sol3.bestSeen := by rw [e']; rfl
  refine ⟨c0, hmin, ?_, fun h1 h2 => ?_, fun b h1 h2 => ?_, fun b h1 h2 => ?_⟩
  · have hne : sol3.bestHist.getLast? = some c0 := by
      rw [e3]
      simp only
      split_ifs with hif
      · rw [List.getLast?_tail, if_neg]
        · simp
        · intro hlen
          rw [hlen] at hif
          omega
      · simp
    rw [e']
    show (match sol3.bestHist.getLast? with | some c => c | none => _) = _
    rw [hne]
  · rw [efin]; exact (b1 (ebs.trans h1) (eni.trans h2)).1
  · rw [efin]; exact (b3 b (ebs.trans h1) h2).1
  · rw [efin]; exact (b4 b (ebs.trans h1) h2).1

/-- One turn with elitism. -/
theorem elitist_turn (env : Env n) (s s2 s3 : Strat n) (cols phen : List (Vec n)) (b : Cand n)
    (hmode : ElitismMode s.p 1) (huh : s.p.uh = false) (hm : 0 < s.sol.maxHist) (hit : 0 < s.niter)
    (hb : s.sol.bestSeen = some b) (hl : cols.length = s.sol.cands.length) (h2 : 2 ≤ cols.length)
    (h : s.eval env cols phen = .ok s2) (h' : s2.tell env = .ok s3) (hn : NoNaN s2.sol.cands)
    (hbn : b.fvalue.IsNum) :
    FVal.le s3.incIter.sol.bestCandidate.fvalue b.fvalue ∧
      ∃ b', s3.incIter.sol.bestSeen = some b' ∧ b'.fvalue = s3.incIter.sol.bestCandidate.fvalue := by
  obtain ⟨on, ref⟩ := Reference.on (s := s) (c := b) ⟨hit, Or.inl ⟨hmode, hb⟩⟩
  obtain ⟨c, hc, hcb⟩ := eval_elitist huh on ref hl h2 h
  obtain ⟨c0, hmin, e0, -, a3, a4⟩ := turn_best huh hm h h'
  rw [e0]
  have hc0 : c0 ∈ s2.sol.cands := by
    obtain ⟨p, q, e, _⟩ := hmin
    rw [e]; simp
  have hle : ¬ FVal.lt c.fvalue c0.fvalue := by
    obtain ⟨p, q, e, i, j⟩ := hmin
    rw [e] at hc
    rcases List.mem_append.1 hc with hc | hc
    · exact FVal.lt_asymm (i c hc)
    · rcases List.mem_cons.1 hc with rfl | hc
      · exact FVal.lt_irrefl _
      · exact j c hc
  have h0 : ¬ FVal.lt b.fvalue c0.fvalue := FVal.not_lt_trans (hn c hc) hle hcb
  refine ⟨(FVal.le_iff_not_lt (hn c0 hc0) hbn).2 h0, ?_⟩
  by_cases hlt : FVal.lt c0.fvalue b.fvalue
  · exact ⟨c0, a3 b hb hlt, rfl⟩
  · exact ⟨b, a4 b hb hlt, FVal.eq_of_not_lt hbn (hn c0 hc0) h0 hlt⟩

/-- What holds before each turn of an elitist run. -/
structure ElitistInv (s : Strat n) : Prop where
  good : GoodParams s.p
  mode : ElitismMode s.p 1
  uh : s.p.uh = false
  hist : 0 < s.sol.maxHist
  cands : s.sol.cands.length = s.p.lambda
  niter : s.sol.niter = s.niter
  num : ∀ b, s.sol.bestSeen = some b → b.fvalue.IsNum
  init : ∀ b, s.sol.initialCand = some b → b.fvalue.IsNum
  seen : 0 < s.niter → s.sol.bestSeen.isSome = true
  start : ∀ i, s.sol.initialCand = some i → ∃ b, s.sol.bestSeen = some b ∧ FVal.le b.fvalue i.fvalue
  later : 2 ≤ s.niter → ∃ b, s.sol.bestSeen = some b ∧ b.fvalue = s.sol.bestCandidate.fvalue

theorem ElitistInv.generation {env : Env n} {s s' : Strat n} (hf : ∀ k y, (env.f k y).IsNum)
    (hi : ElitistInv s) (h : s.generation env = .ok s') :
    ElitistInv s' ∧ s'.niter = s.niter + 1 ∧
      (∀ b, s.sol.bestSeen = some b → ∃ b', s'.sol.bestSeen = some b' ∧ FVal.le b'.fvalue b.fvalue) ∧
      (0 < s.niter → ∀ b, s.sol.bestSeen = some b → FVal.le s'.sol.bestCandidate.fvalue b.fvalue) := by
  obtain ⟨pop, s1, phen, s2, s3, ha, hph, he, ht, es, hperm, hlen, -⟩ := generation_points hi.good hi.cands h
  obtain ⟨⟨es', ei, ue, c, nz, x1, x2, p1, p2, e1⟩, hpl⟩ := Strat.ask_frame ha
  have hrun : Run env s [s2.sol.cands] s' := by rw [es]; exact .ask ha (.turn he ht (.refl _))
  obtain ⟨r1, r2, r3, r4, r5, r6, r7, r8, r9, r10⟩ := run_p hrun
  have hp1 : s1.p = s.p := by rw [e1]
  have hl1 : pop.length = s1.sol.cands.length := by rw [hpl, e1]; exact hi.cands.symm
  have hn : NoNaN s2.sol.cands := eval_noNaN (by rw [hp1]; exact hi.uh) hl1.ge hf
    ⟨by rw [e1]; exact hi.num, by rw [e1]; exact hi.init⟩ he
  have hm1 : 0 < s1.sol.maxHist := by rw [e1]; exact hi.hist
  have hb1 : s1.sol.bestSeen = s.sol.bestSeen := by rw [e1]
  obtain ⟨c0, hmin, e0, a2, a3, a4⟩ := turn_best (by rw [hp1]; exact hi.uh) hm1 he ht
  rw [← es] at e0 a2 a3 a4
  have hc0 : c0 ∈ s2.sol.cands := by
    obtain ⟨p, q, e, _⟩ := hmin
    rw [e]; simp
  have hkey : 0 < s.niter → ∀ b, s.sol.bestSeen = some b →
      FVal.le s'.sol.bestCandidate.fvalue b.fvalue ∧
      ∃ b', s'.sol.bestSeen = some b' ∧ b'.fvalue = s'.sol.bestCandidate.fvalue := by
    intro h0 b hb
    have := elitist_turn env s1 s2 s3 pop phen b (by rw [hp1]; exact hi.mode) (by rw [hp1]; exact hi.uh) hm1
      (by rw [e1]; exact h0) (hb1.trans hb) hl1 (by rw [hpl]; exact hi.good.lambda) he ht hn (hi.num b hb)
    rw [← es] at this
    exact this
  have hsome : ∃ b', s'.sol.bestSeen = some b' ∧ b'.fvalue.IsNum ∧
      ∀ b, s.sol.bestSeen = some b → FVal.le b'.fvalue b.fvalue := by
    cases hb : s.sol.bestSeen with
    | none =>
      have h0 : s.niter = 0 := by
        by_contra h0
        have := hi.seen (by omega)
        rw [hb] at this; cases this
      refine ⟨c0, a2 (hb1.trans hb) ?_, hn c0 hc0, fun b hb => by cases hb⟩
      rw [e1]; exact hi.niter.trans h0
    | some b =>
      have hbn := hi.num b hb
      by_cases hlt : FVal.lt c0.fvalue b.fvalue
      · refine ⟨c0, a3 b (hb1.trans hb) hlt, hn c0 hc0, fun b' hb' => ?_⟩
        injection hb' with hb'; subst hb'
        exact (FVal.le_iff_not_lt (hn c0 hc0) hbn).2 (FVal.lt_asymm hlt)
      · refine ⟨b, a4 b (hb1.trans hb) hlt, hbn, fun b' hb' => ?_⟩
        injection hb' with hb'; subst hb'
        exact (FVal.le_iff_not_lt hbn hbn).2 (FVal.lt_irrefl _)
  obtain ⟨b', hb', hbn', hble⟩ := hsome
  refine ⟨⟨by rw [r1]; exact hi.good, by rw [r1]; exact hi.mode, by rw [r1]; exact hi.uh,
    by rw [r3]; exact hi.hist, by rw [hlen, r1], by rw [r4, r5, hi.niter], ?_, by rw [r10]; exact hi.init,
    fun _ => by rw [hb']; rfl, fun i hi' => ?_, fun h2 => ?_⟩, r4, fun b hb => ⟨b', hb', hble b hb⟩,
    fun h0 b hb => (hkey h0 b hb).1⟩
  · intro b hb
    rw [hb'] at hb
    injection hb with hb; rw [← hb]; exact hbn'
  · rw [r10] at hi'
    obtain ⟨b, hb, hbi⟩ := hi.start i hi'
    exact ⟨b', hb', FVal.le_trans (hble b hb) hbi⟩
  · have h0 : 0 < s.niter := by rw [r4] at h2; simp at h2; omega
    obtain ⟨b, hb⟩ := Option.isSome_iff_exists.1 (hi.seen h0)
    exact (hkey h0 b hb).2

theorem ElitistInv.generations {env : Env n} {s s' : Strat n} (hf : ∀ k y, (env.f k y).IsNum)
    (hi : ElitistInv s) (k : ℕ) (h : s.generations env k = .ok s') : ElitistInv s' ∧ s'.niter = s.niter + k := by
  induction k generalizing s with
  | zero => injection h with h; subst h; exact ⟨hi, rfl⟩
  | succ k ih =>
    unfold Strat.generations at h
    obtain ⟨s1, h1, h⟩ := Out.bind_eq_ok.1 h
    obtain ⟨i1, n1, _⟩ := hi.generation hf h1
    obtain ⟨i2, n2⟩ := ih i1 h
    exact ⟨i2, by omega⟩

theorem ElitistInv.stop {env : Env n} {s s' : Strat n} {b : Bool} (hi : ElitistInv s)
    (h : s.stop env = .ok (b, s')) : ElitistInv s' := by
  obtain ⟨k, r, e⟩ := Strat.stop_frame h
  subst e
  exact ⟨hi.1, hi.2, hi.3, hi.4, hi.5, hi.6, hi.7, hi.8, hi.9, hi.10, hi.11⟩

theorem ElitistInv.evalInitial {env : Env n} {s s' : Strat n} (hf : ∀ k y, (env.f k y).IsNum)
    (hi : ElitistInv s) (h0 : s.niter = 0) (h : s.evalInitial env = .ok s') :
    ElitistInv s' ∧ s'.niter = 0 ∧ ∃ c, s'.sol.initialCand = some c := by
  have hel : s.p.elitist = true := by rw [hi.mode.flags.1]; rfl
  rcases Strat.evalInitial_frame h with rfl | ⟨y, v, _, hv, rfl⟩
  · unfold Strat.evalInitial at h
    rw [if_pos (by simp [hel])] at h
    obtain ⟨y, _, h⟩ := Out.bind_eq_ok.1 h
    injection h with h
    have := congrArg Strat.nevals h
    simp [Strat.updateFevals] at this
  · have hnum : ((if s.negate then v.neg else v) : FVal).IsNum := by
      rw [hv]; exact negIf_isNum (hf _ _)
    refine ⟨⟨hi.1, hi.2, hi.3, hi.4, hi.5, hi.6, ?_, ?_, fun _ => rfl, fun i hi' => ?_, fun h => ?_⟩, h0, _, rfl⟩
    · intro b hb; injection hb with hb; rw [← hb]; exact hnum
    · intro b hb; injection hb with hb; rw [← hb]; exact hnum
    · injection hi' with hi'
      exact ⟨_, rfl, by rw [← hi']; exact (FVal.le_iff_not_lt hnum hnum).2 (FVal.lt_irrefl _)⟩
    · have : s.niter ≥ 2 := h
      omega

/-- A fresh strategy in mode 1. -/
theorem elitistInv_new {env : Env n} {kind : CovKind} {p : Params n} {s : Strat n} (hc : Configured p)
    (hmode : ElitismMode p 1) (huh : p.uh = false) (h : Strat.new env kind p = .ok s) :
    ElitistInv s ∧ s.niter = 0 := by
  obtain ⟨h1, h2, h3, h4, h5, h6, h7, h8, h9, h10, h11, h12, h13, h14, h15, h16, h17, h18, h19, h20⟩ :=
    Strat.new_ok h
  refine ⟨⟨by rw [h4]; exact hc.with_sigmaInit _, by rw [h4]; exact hmode, by rw [h4]; exact huh, ?_,
    by rw [h4]; exact h6.cands, by rw [h7, h6.niter], ?_, ?_, fun h => by omega, ?_, fun h => by omega⟩, h7⟩
  · rw [h15]; exact maxHistOf_pos _ _ _
  · rw [h6.bestSeen]; intro b hb; cases hb
  · rw [h17]; intro b hb; cases hb
  · rw [h17]; intro b hb; cases hb

end Libcmaes
