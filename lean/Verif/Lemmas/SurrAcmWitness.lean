import Verif.Lemmas.SurrAcmTotal
import Verif.Lemmas.Witness
import Verif.Lemmas.SurrWitness
import Verif.Props.Params

/-! # ACM surrogate strategies: consequences of a generation, set-ups -/

namespace Libcmaes

open Spec

variable {n : ℕ} {M : Type}

namespace Surr

theorem answered {neg : Bool} {gp : GenoPheno} {ds : List (Cand n)} {c : List (Vec n × FVal)}
    (h : List.Forall₂ (Answers neg gp) ds c) {a : Cand n} (ha : a ∈ ds) : ∃ q ∈ c, Answers neg gp a q := by
  induction h with
  | nil => cases ha
  | cons h _ ih =>
    rcases List.mem_cons.1 ha with rfl | ha
    · exact ⟨_, List.mem_cons_self, h⟩
    · obtain ⟨q, hq, h'⟩ := ih ha
      exact ⟨q, List.mem_cons_of_mem _ hq, h'⟩

theorem elitismOn_off {s : Strat n}
    (h : s.p.elitist = false ∧ s.p.initialElitist = false ∧ s.p.initialElitistOnRestart = false) :
    s.elitismOn = false := by unfold Strat.elitismOn; simp [h.1, h.2.1, h.2.2]

/-- The first candidate after a generation answers a call, if all answers are below the greatest `double`. -/
theorem AcmStep.first {env : Env n} {sf : SurrFuncs n M} {t t' : Surr n M} {c : List (Vec n × FVal)}
    {added : List (Cand n)} (h : AcmStep env sf t t' c added) (hel : t.s.elitismOn = false)
    (hfin : ∀ q ∈ c, FVal.lt (negIf t.s.negate q.2) (FVal.ofReal dblMax)) {c0 : Cand n}
    (h0 : t'.s.sol.cands[0]? = some c0) : ∃ q ∈ c, Answers t.s.negate t.s.p.gp c0 q := by
  by_cases hb : (t.exploit && t.begun.full) = true
  · obtain ⟨pop, t1, pr, E, rest, L, _, _, _, hP, e1, _, _⟩ := h.pre hb
    rw [e1, List.getElem?_map] at h0
    obtain ⟨q0, hq0, hq1⟩ := Option.map_eq_some_iff.1 h0
    obtain ⟨hl, hg⟩ := List.getElem?_eq_some_iff.1 hq0
    have hmem : q0 ∈ L := List.mem_of_getElem? hq0
    rcases List.mem_append.1 (hP.parts.mem_iff.1 hmem) with hE | hr
    · exact answered hP.evaluated (by rw [← hq1]; exact List.mem_map.2 ⟨q0, hE, rfl⟩)
    · exfalso
      obtain ⟨q, hq, _⟩ := hP.best
      obtain ⟨r, hr', ha⟩ := answered hP.evaluated (List.mem_map.2 ⟨q, hq, rfl⟩)
      have hlt := hfin r hr'
      have hv : q.1.fvalue = negIf t.s.negate r.2 := ha.2
      rw [← hv, ← hP.worst q0 hr] at hlt
      obtain ⟨i, hi, hi'⟩ := List.getElem_of_mem (hP.parts.mem_iff.2 (List.mem_append.2 (Or.inl hq)))
      rcases Nat.eq_zero_or_pos i with rfl | hi0
      · rw [hg] at hi'; rw [hi'] at hlt; exact FVal.lt_irrefl _ hlt
      · have := (List.pairwise_iff_getElem.1 hP.sorted 0 i hl hi hi0).1
        rw [hg, hi'] at this
        exact this hlt
  · obtain ⟨_, hp, _, _, ha, _⟩ := h.plain (by simpa using hb)
    obtain ⟨c', p1, _, p2⟩ := ha hel
    obtain ⟨q, hq, h'⟩ := answered p2 (hp.mem_iff.1 (List.mem_of_getElem? h0))
    exact ⟨q, p1.mem_iff.1 hq, h'⟩

/-- The best candidates after a generation. -/
theorem AcmStep.best' {env : Env n} {sf : SurrFuncs n M} {t t' : Surr n M} {c : List (Vec n × FVal)}
    {added : List (Cand n)} (h : AcmStep env sf t t' c added) : ∃ c0, t'.s.sol.cands[0]? = some c0 ∧
      (0 < t.s.sol.maxHist → t'.s.sol.bestCandidate = c0) ∧
      (∀ b, t'.s.sol.bestSeen = some b → b = c0 ∨ t.s.sol.bestSeen = some b) ∧
      (t.s.sol.niter = 0 ∨ t.s.sol.bestSeen.isSome = true → t'.s.sol.bestSeen.isSome = true) ∧
      (t.s.sol.bestSeen = none → t.s.sol.niter = 0 → t'.s.sol.bestSeen = some c0) ∧
      (∀ b, t.s.sol.bestSeen = some b → FVal.lt c0.fvalue b.fvalue → t'.s.sol.bestSeen = some c0) := by
  obtain ⟨s0, sol2, b1, b2, b3, b4, b5, b6, b7, b8, b9, b10, b11, b12⟩ := h.best
  obtain ⟨c0, ck, cl, med, q0, _, _, _, e, a1, a2, a3, a4, _⟩ := Sol.updateBest_ok b1
  refine ⟨c0, by rw [← b2]; exact q0, fun hm => ?_, fun b hb => ?_, fun hs => ?_, fun h1 h2 => ?_, fun b h1 h2 => ?_⟩
  · have hlast : t'.s.sol.bestHist.getLast? = some c0 := by
      rw [b10, e]
      simp only
      split_ifs with hif
      · rw [List.getLast?_tail, if_neg]
        · simp
        · intro hlen
          rw [hlen, b7] at hif
          omega
      · simp
    unfold Sol.bestCandidate
    rw [hlast]
  · rw [b8] at hb
    cases hs : s0.bestSeen with
    | none =>
      by_cases h0 : s0.niter = 0
      · rw [(a1 hs h0).1] at hb; injection hb with hb; exact Or.inl hb.symm
      · rw [(a2 hs h0).1] at hb; cases hb
    | some b' =>
      by_cases hlt : FVal.lt c0.fvalue b'.fvalue
      · rw [(a3 b' hs hlt).1] at hb; injection hb with hb; exact Or.inl hb.symm
      · rw [(a4 b' hs hlt).1, ← hs, b3] at hb; exact Or.inr hb
  · rw [b8]
    refine (updateBest_seen b1).1 ?_
    rw [b3, b6]; exact hs
  · rw [b8]; exact (a1 (b3.trans h1) (b6.trans h2)).1
  · rw [b8]; exact (a3 b (b3.trans h1) h2).1

/-- The worst candidate after a generation. -/
theorem AcmStep.worst' {env : Env n} {sf : SurrFuncs n M} {t t' : Surr n M} {c : List (Vec n × FVal)}
    {added : List (Cand n)} (h : AcmStep env sf t t' c added) : ∃ cl, t'.s.sol.cands.getLast? = some cl ∧
      (∀ w, t'.s.sol.worstSeen = some w → w = cl ∨ t.s.sol.worstSeen = some w) ∧
      (t.s.sol.worstSeen.isSome = true → ∃ w, t'.s.sol.worstSeen = some w ∧
        (w = cl ∨ ¬ FVal.lt w.fvalue cl.fvalue)) ∧
      (t.s.sol.worstSeen = none → t.s.sol.niter = 0 → t'.s.sol.worstSeen = some cl) := by
  obtain ⟨s0, sol2, b1, b2, b3, b4, b5, b6, b7, b8, b9, b10, b11, b12⟩ := h.best
  obtain ⟨c0, ck, cl, med, _, _, ql, _, e, _, _, _, _, a1, a2, a3, a4⟩ := Sol.updateBest_ok b1
  refine ⟨cl, by rw [← b2]; exact ql, fun w hw => ?_, fun hs => ?_, fun h1 h2 => ?_⟩
  · rw [b9] at hw
    cases hs : s0.worstSeen with
    | none =>
      by_cases h0 : s0.niter = 0
      · rw [a1 hs h0] at hw; injection hw with hw; exact Or.inl hw.symm
      · rw [a2 hs h0] at hw; cases hw
    | some b' =>
      by_cases hlt : FVal.lt b'.fvalue cl.fvalue
      · rw [a3 b' hs hlt] at hw; injection hw with hw; exact Or.inl hw.symm
      · rw [a4 b' hs hlt, ← hs, b4] at hw; exact Or.inr hw
  · obtain ⟨b, hb⟩ := Option.isSome_iff_exists.1 hs
    rw [b9]
    by_cases hlt : FVal.lt b.fvalue cl.fvalue
    · exact ⟨cl, a3 b (b4.trans hb) hlt, Or.inl rfl⟩
    · exact ⟨b, a4 b (b4.trans hb) hlt, Or.inr hlt⟩
  · rw [b9]; exact a1 (b4.trans h1) (b6.trans h2)

/-- The training set grows with the calls, up to its capacity. -/
theorem AcmStep.tset_length {env : Env n} {sf : SurrFuncs n M} {t t' : Surr n M} {c : List (Vec n × FVal)}
    {added : List (Cand n)} (h : AcmStep env sf t t' c added) (hts : t.begun.tset = t.tset)
    (hle : t.tset.length ≤ t.l.toNat) :
    t'.tset.length = min t.l.toNat (t.tset.length + added.length) ∧ (t.full = false → added.length = t.s.p.lambda) := by
  constructor
  · rw [h.tset, hts, ← lastN_self hle, foldl_push, length_lastN, List.length_append, lastN_self hle]
  · intro hf
    have hbf : t.begun.full = t.full := by
      obtain ⟨ts0, tr0, te0, sm0, pl0, e0⟩ := begun_frame t
      unfold full
      rw [hts, e0]
    obtain ⟨_, hp, _⟩ := h.plain (by rw [hbf, hf]; simp)
    rw [← hp.length_eq, h.cands]

/-- Draws that run through all indices in turn. -/
theorem reaches_cycle {scale dev : ℝ} (hs : 0 < scale) (hd : 0 < dev) {size : ℕ} (h1 : 0 < size)
    (h2 : size < 2147483648) :
    Reaches scale dev (fun j => ((j % size : ℕ) + 1 / 2) / (scale * dev)) size := by
  have e : ∀ j : ℕ, scale * |dev * ((((j % size : ℕ) : ℝ) + 1 / 2) / (scale * dev))| = ((j % size : ℕ) : ℝ) + 1 / 2 := by
    intro j
    rw [abs_of_nonneg (by positivity)]
    field_simp
  have hm : ∀ j : ℕ, j % size < size := fun j => Nat.mod_lt _ h1
  refine ⟨fun j => ?_, fun i hi j => ?_⟩
  · rw [e]
    have : ((j % size : ℕ) : ℝ) + 1 ≤ 2147483648 := by exact_mod_cast (by have := hm j; omega : j % size + 1 ≤ 2147483648)
    linarith
  · refine ⟨i + size * j, by nlinarith, ?_⟩
    rw [e, Nat.add_mul_mod_self_left, Nat.mod_eq_of_lt hi, Int.floor_eq_iff]
    constructor
    · push_cast; linarith
    · push_cast; linarith

/-- A model that is never trained and predicts by `g`, with draws that run through all indices, for an ACM strategy
with population size `lambda` and default selection spreads. -/
noncomputable def cycling (g : Vec n → FVal) (lambda pre : ℕ) : SurrFuncs n Unit :=
  { untrained g with
    z0 := fun j => ((j % pre : ℕ) + 1 / 2) / (pre * (0.4 * 0.4))
    z1 := fun j => ((j % lambda : ℕ) + 1 / 2) / (lambda * (0.8 * 0.8)) }

theorem cycling_pointwise (g : Vec n → FVal) (l k : ℕ) : Pointwise (cycling g l k) fun _ _ _ => g := fun _ _ _ _ => rfl

theorem cycling_sane {env : Env n} {g : Vec n → FVal} {l k : ℕ} (hf : ∀ k y, (env.f k y).IsNum)
    (hg : ∀ x, (g x).IsNum) : Sane env (cycling g l k) fun _ _ _ => g :=
  ⟨hf, fun _ _ _ => hg, cycling_pointwise g l k, fun m _ _ => ⟨m, rfl⟩⟩

theorem acmStart_lambda {env : Env n} {kind : CovKind} {p : Params n} {m : M} {t : Surr n M}
    (h : AcmStart env kind p m t) : t.s.p = { p with sigmaInit := t.s.sol.sigma } ∧ t.s.niter = 0 ∧ t.s.sol.niter = 0 ∧
      t.s.calls = [] ∧ t.s.negate = p.maximize ∧ t.s.sol.cands.length = p.lambda ∧ t.s.sol.bestSeen = none ∧
      t.s.sol.worstSeen = none ∧ 0 < t.s.sol.maxHist := by
  obtain ⟨⟨s, cr, hs, e, _⟩, _⟩ := acmStart_ok h
  obtain ⟨_, _, _, hsp, _, hfr, hni, _, hcl, hng, _, _, _, _, hmh, _⟩ := Strat.new_ok hs
  rw [e]
  refine ⟨hsp, hni, hfr.niter, hcl, hng, hfr.cands, hfr.bestSeen, hfr.worstSeen, ?_⟩
  show 0 < s.sol.maxHist
  rw [hmh]
  unfold maxHistOf
  split_ifs with h
  · exact h
  · positivity

theorem cycling_selects {env : Env n} {kind : CovKind} {p : Params n} {t : Surr n Unit} {g : Vec n → FVal}
    (h : AcmStart env kind p () t) (hpos : 0 < p.lambda) (hlt : 50 * p.lambda < 2147483648)
    (hpre : t.prelambda = 50 * p.lambda) (hprime : t.lambdaprime ≤ p.lambda) :
    Selects (cycling g p.lambda (50 * p.lambda)) t := by
  obtain ⟨_, _, _, _, _, h5, h6⟩ := acmStart_ok h
  obtain ⟨hp, _⟩ := acmStart_lambda h
  have hlam : t.s.p.lambda = p.lambda := by rw [hp]
  refine ⟨by rw [hlam, hpre]; omega, by rw [hlam]; exact hprime, ?_, ?_⟩
  · rw [hpre, h5]
    have e1 : (50 * (p.lambda : ℤ)).toNat = 50 * p.lambda := by omega
    have e2 : ((50 * (p.lambda : ℤ) : ℤ) : ℝ) = ((50 * p.lambda : ℕ) : ℝ) := by push_cast; ring
    rw [e1, e2]
    exact reaches_cycle (by exact_mod_cast (by omega : 0 < 50 * p.lambda)) (by norm_num) (by omega) hlt
  · rw [hlam, h6]
    exact reaches_cycle (by exact_mod_cast hpos) (by norm_num) hpos (by omega)

/-- Two generations with room for one population in the training set: the second makes a pre-selection. -/
theorem acm_two {env : Env n} {sf : SurrFuncs n M} {g} {t : Surr n M} (hS : Sane env sf g)
    (hgp : ∀ x : Vec n, ∃ y, phenoV t.s.p.gp x = .ok y) (hsel : Selects sf t) (hL : AcmLive t)
    (h0 : t.s.niter = 0) (hl : t.l = t.s.p.lambda) (hx : t.exploit = true) :
    ∃ (fuel : ℕ) (t1 t2 : Surr n M) (c1 c2 : List (Vec n × FVal)) (a1 a2 : List (Cand n)),
      t.acmGeneration env sf fuel = .ok (some t1) ∧ t1.acmGeneration env sf fuel = .ok (some t2) ∧
      t.acmGenerations env sf fuel 1 = .ok (some t1) ∧
      t.acmGenerations env sf fuel 2 = .ok (some t2) ∧ AcmStep env sf t t1 c1 a1 ∧ AcmStep env sf t1 t2 c2 a2 ∧
      t.full = false ∧ t1.full = true ∧ t1.exploit = true ∧ AcmLive t1 ∧ AcmLive t2 := by
  have hts := hL.fresh h0
  have hl2 := hL.live.good.lambda
  obtain ⟨F1, t1, g1, L1⟩ := acmGeneration_total hS hgp (fun _ => hsel) hL
  obtain ⟨c1, a1, s1⟩ := acmGeneration_step hL.live.uh hL.live.grad hL.live.cands (by omega) (g1 F1 le_rfl)
  have hpl : t1.prelambda = t.prelambda := by rw [s1.prelambda]; exact begun_prelambda hL.fresh
  have hsel1 : Selects sf t1 := ⟨by rw [s1.p, hpl]; exact hsel.pre, by rw [s1.p, s1.lambdaprime]; exact hsel.prime,
        by rw [hpl, s1.dev0]; exact hsel.draws0, by rw [s1.p, s1.dev1]; exact hsel.draws1⟩
  obtain ⟨F2, t2, g2, L2⟩ := acmGeneration_total hS (t := t1) (by rw [s1.p]; exact hgp) (fun _ => hsel1) L1
  obtain ⟨c2, a2, s2⟩ := acmGeneration_step L1.live.uh L1.live.grad L1.live.cands
    (by rw [s1.p]; omega) (g2 F2 le_rfl)
  have hfull : t.full = false := by
    unfold full
    rw [hts, hl]
    simp only [List.length_nil, decide_eq_false_iff_not]
    omega
  have e1 := g1 (max F1 F2) (le_max_left _ _)
  have e2 := g2 (max F1 F2) (le_max_right _ _)
  refine ⟨max F1 F2, t1, t2, c1, c2, a1, a2, e1, e2, ?_, ?_, s1, s2, hfull, ?_, by rw [s1.exploit]; exact hx, L1, L2⟩
  · unfold acmGenerations acmGenerations
    rw [e1]; rfl
  · unfold acmGenerations acmGenerations acmGenerations
    rw [e1, Out.ok_bind]
    simp only
    rw [e2]; rfl
  · obtain ⟨q1, q2⟩ := s1.tset_length (begun_tset (Or.inr hts)) (by rw [hts]; simp)
    unfold full
    rw [s1.l, q1, q2 hfull, hts, hl]
    simp

theorem acmGenerations_succ {env : Env n} {sf : SurrFuncs n M} {fuel : ℕ} {t t' : Surr n M} {k : ℕ}
    (h : t.acmGenerations env sf fuel (k + 1) = .ok (some t')) :
    ∃ t1, t.acmGeneration env sf fuel = .ok (some t1) ∧ t1.acmGenerations env sf fuel k = .ok (some t') := by
  unfold acmGenerations at h
  obtain ⟨o, h1, h⟩ := Out.bind_eq_ok.1 h
  rcases o with _ | t1
  · injection h with h; cases h
  · exact ⟨t1, h1, h⟩

/-- Several generations. -/
structure AcmRun (t t' : Surr n M) (k : ℕ) (c : List (Vec n × FVal)) : Prop where
  p : t'.s.p = t.s.p
  negate : t'.s.negate = t.s.negate
  niter : t'.s.niter = t.s.niter + k
  l : t'.l = t.l
  exploit : t'.exploit = t.exploit
  lambdaprime : t'.lambdaprime = t.lambdaprime
  calls : t'.s.calls = t.s.calls ++ c
  cands : t'.s.sol.cands.length = t.s.p.lambda

theorem acmGenerations_run {env : Env n} {sf : SurrFuncs n M} {fuel : ℕ} {t t' : Surr n M} {k : ℕ}
    (huh : t.s.p.uh = false) (hgr : t.s.p.withGradient = false) (hlen : t.s.sol.cands.length = t.s.p.lambda)
    (hl1 : 1 ≤ t.s.p.lambda) (h : t.acmGenerations env sf fuel k = .ok (some t')) : ∃ c, AcmRun t t' k c := by
  induction k generalizing t with
  | zero =>
    obtain rfl := Option.some.inj (Except.ok.inj h)
    exact ⟨[], rfl, rfl, rfl, rfl, rfl, rfl, by simp, hlen⟩
  | succ k ih =>
    obtain ⟨t1, h1, h2⟩ := acmGenerations_succ h
    obtain ⟨c1, a1, s1⟩ := acmGeneration_step huh hgr hlen hl1 h1
    obtain ⟨c, r⟩ := ih (by rw [s1.p]; exact huh) (by rw [s1.p]; exact hgr) (by rw [s1.p]; exact s1.cands)
      (by rw [s1.p]; exact hl1) h2
    exact ⟨c1 ++ c, r.p.trans s1.p, r.negate.trans s1.negate, by rw [r.niter, s1.niter]; omega, r.l.trans s1.l,
      r.exploit.trans s1.exploit, r.lambdaprime.trans s1.lambdaprime, by rw [r.calls, s1.calls, List.append_assoc],
      by rw [r.cands, s1.p]⟩

/-- The training set fills up. -/
theorem acmGenerations_fill {env : Env n} {sf : SurrFuncs n M} {fuel : ℕ} {t t' : Surr n M} {k : ℕ}
    (huh : t.s.p.uh = false) (hgr : t.s.p.withGradient = false) (hlen : t.s.sol.cands.length = t.s.p.lambda)
    (hl1 : 1 ≤ t.s.p.lambda) (hts : t.s.niter ≠ 0 ∨ t.tset = []) (hle : t.tset.length ≤ t.l.toNat)
    (h : t.acmGenerations env sf fuel k = .ok (some t')) :
    min t.l.toNat (t.tset.length + k * t.s.p.lambda) ≤ t'.tset.length := by
  induction k generalizing t with
  | zero =>
    obtain rfl := Option.some.inj (Except.ok.inj h)
    simp
  | succ k ih =>
    obtain ⟨t1, h1, h2⟩ := acmGenerations_succ h
    obtain ⟨c1, a1, s1⟩ := acmGeneration_step huh hgr hlen hl1 h1
    obtain ⟨q1, q2⟩ := s1.tset_length (begun_tset hts) hle
    have := ih (by rw [s1.p]; exact huh) (by rw [s1.p]; exact hgr) (by rw [s1.p]; exact s1.cands)
      (by rw [s1.p]; exact hl1) (by rw [s1.niter]; left; omega) (by rw [q1, s1.l]; exact min_le_left _ _) h2
    rw [s1.l, s1.p] at this
    refine le_trans ?_ this
    rw [Nat.succ_mul]
    cases hf : t.full with
    | false => rw [q1, q2 hf]; omega
    | true =>
      unfold full at hf
      rw [decide_eq_true_eq] at hf
      omega

/-- A default population is small. -/
theorem default_lambda {x0 : Vec n} {sigma : ℝ} {seed clock : ℕ} {gp : GenoPheno} {p : Params n} (hn : 1 ≤ n)
    (hn2 : n < 2147483648) (h : Params.make x0 sigma (-1) seed clock gp = .ok p) :
    4 ≤ p.lambda ∧ p.lambda ≤ 97 ∧ (n = 1 → p.lambda = 4) := by
  obtain ⟨p', hp', hl, _⟩ := C11_weights hn x0 sigma (-1) seed clock gp
  rw [h] at hp'
  obtain rfl := Except.ok.inj hp'
  obtain ⟨l, hl', _, _, h4⟩ := C11_lambda n hn (-1)
  rw [hl] at hl'
  obtain rfl := Except.ok.inj hl'
  obtain ⟨h5, h6⟩ := h4 (by norm_num)
  refine ⟨h6, ?_, fun h1 => ?_⟩
  · have hlog : Real.log n ≤ 31 := by
      have h1 : Real.log n ≤ Real.log ((2 : ℝ) ^ 31) := Real.log_le_log (by exact_mod_cast hn) (by
        have : (n : ℝ) ≤ 2147483648 := by exact_mod_cast hn2.le
        norm_num; linarith)
      rw [Real.log_pow] at h1
      have := Real.log_le_sub_one_of_pos (show (0 : ℝ) < 2 by norm_num)
      push_cast at h1
      linarith
    have : ⌊3 * Real.log n⌋ ≤ 93 := by
      have : ((⌊3 * Real.log n⌋ : ℤ) : ℝ) ≤ 93 := (Int.floor_le _).trans (by linarith)
      exact_mod_cast this
    omega
  · subst h1
    simp at h5
    omega

/-- An ACM strategy with default settings and, if wanted, another training set size. -/
theorem acm_default {env : Env n} {kind : CovKind} {p : Params n} (hu : Usual kind p)
    (hgp : p.gp = GenoPheno.plain) : ∃ t : Surr n Unit, AcmStart env kind p () t ∧ t.prelambda = 50 * p.lambda ∧
      t.lambdaprime = ⌊(p.lambda : ℝ) / 3⌋ ∧ t.l = ⌊30 * Real.sqrt n⌋ ∧ t.exploit = true := by
  obtain ⟨s, hs⟩ := new_plain (env := env) (kind := kind) hgp hu.configured.good.1
  obtain ⟨t, ht, h1, h2, h3, h4⟩ := newAcm_exists hs ()
  exact ⟨t, .new ht, h1, h2, h3, h4⟩

theorem third_le (l : ℕ) (hl : 1 ≤ l) : ⌊(l : ℝ) / 3⌋ < (l : ℤ) ∧ (0 : ℤ) ≤ ⌊(l : ℝ) / 3⌋ := by
  refine ⟨Int.floor_lt.2 ?_, Int.floor_nonneg.2 (by positivity)⟩
  have : (1 : ℝ) ≤ l := by exact_mod_cast hl
  push_cast
  linarith

end Surr

end Libcmaes
