import Verif.Props.Elitism

/-!
# C40: elitism can lose the best point ever evaluated
-/

namespace Libcmaes

open Spec Matrix

variable {n : ℕ}

/-- The objective: 1 at `x0`, 0 elsewhere. -/
noncomputable def awayFrom (x0 : Vec n) (_ : ℕ) (y : Vec n) : FVal :=
  open Classical in if y = x0 then .num 1 else .num 0

theorem filter_length_le_one {α : Type} {P : α → Bool} {l : List α}
    (h : ∀ r c, r ≠ 1 → l[r]? = some c → P c = false) : (l.filter P).length ≤ 1 := by
  match l, h with
  | [], _ => simp
  | [a], h => exact (List.length_filter_le _ _).trans (by simp)
  | a :: b :: rest, h =>
    have ha : P a = false := h 0 a (by omega) rfl
    have hr : rest.filter P = [] := by
      rw [List.filter_eq_nil_iff]
      intro c hc
      obtain ⟨r, hr⟩ := List.mem_iff_getElem?.1 hc
      rw [h (r + 2) c (by omega) (by simpa using hr)]
      simp
    rw [List.filter_cons_of_neg (by simp [ha])]
    by_cases hb : P b = true
    · rw [List.filter_cons_of_pos hb, hr]; simp
    · rw [List.filter_cons_of_neg hb, hr]; simp

theorem PD_det_ne_zero {C : Mat n} (h : PD C) : C.det ≠ 0 := by
  intro h0
  obtain ⟨v, hv, hm⟩ := exists_mulVec_eq_zero_iff.2 h0
  have := h.pos v hv
  unfold quad at this
  rw [hm, dotProduct_zero] at this
  exact lt_irrefl _ this

/-- The state after `k` generations of the run below. -/
structure LossInv (x0 : Vec n) (p : Params n) (k : ℕ) (s : Strat n) : Prop where
  live : Live s
  par : s.p = p
  mean : s.sol.xmean = x0
  nz : s.nz = k * p.lambda
  niter : s.niter = k
  negate : s.negate = false
  hist : 0 < s.sol.maxHist
  init : s.sol.initialCand = none
  unseen : k = 0 → s.sol.bestSeen = none
  seen : 1 ≤ k → ∃ b, s.sol.bestSeen = some b ∧ b.x = x0 ∧ b.fvalue = .num 1
  best : 1 ≤ k → s.sol.bestCandidate.fvalue = .num 1
  call : 2 ≤ k → ∃ y, (y, FVal.num 0) ∈ s.calls

theorem LossInv.step {env : Env n} {x0 : Vec n} {p : Params n} {k : ℕ} {s : Strat n} (hi : LossInv x0 p k s)
    (hl : 4 ≤ p.lambda) (hz : ∀ j, env.z j = 0 ↔ j ≠ p.lambda + 1) (hf : env.f = awayFrom x0)
    (hmode : ElitismMode p 1) (hgp : p.gp = GenoPheno.plain) (hfix : p.fixedP = []) (hsep : p.sep = false)
    (hlz : p.lazyUpdate = false) :
    ∃ s', s.generation env = .ok s' ∧ LossInv x0 p (k + 1) s' := by
  have hnum : ∀ k y, (env.f k y).IsNum := by
    intro k y; rw [hf]; unfold awayFrom; split_ifs <;> trivial
  have hr : RefNum s := by
    constructor
    · intro c hc
      rcases Nat.eq_zero_or_pos k with h | h
      · rw [hi.unseen h] at hc; cases hc
      · obtain ⟨b, h1, _, h3⟩ := hi.seen h
        rw [h1] at hc; injection hc with hc
        rw [← hc, h3]; trivial
    · intro c hc; rw [hi.init] at hc; cases hc
  rcases generation_total_num hi.live hnum hr with ⟨s', hg, hL', hr'⟩ | ⟨x, e, h1, _⟩
  swap
  · rw [hi.par, hgp, phenoV_plain] at h1; cases h1
  refine ⟨s', hg, ?_⟩
  obtain ⟨pop, s1, phen, s2, s3, ha, hph, he, ht, es', hperm, hlen, hpts⟩ :=
    generation_points hi.live.good hi.live.cands hg
  have hplen := (Strat.ask_frame ha).2
  obtain ⟨t0, pop1, hpr, hsa, hfx⟩ := ask_plain (s := s) hi.live.grad (Or.inl hi.live.tpa) ha
  obtain ⟨es, ei, ue, e0⟩ := Strat.askPrepare_frame hpr
  obtain ⟨e1', -⟩ := Strat.askSample_frame hsa
  have e1 : s1 = { s with es := es, nz := s.nz + s.p.lambda
                          sol := { s.sol with eigeniter := ei, updatedEigen := ue } } := by rw [e1', e0]
  have hphen : phen = pop := by
    rw [phenoCols_plain (by rw [e1]; show s.p.gp = _; rw [hi.par]; exact hgp)] at hph
    injection hph with hph; exact hph.symm
  subst hphen
  -- the sampled points
  have hPD := (hi.live.full (by rw [hi.par]; exact hsep)).2.1
  obtain ⟨A, hA, hAs⟩ := C19_full env.eig s.sol.cov hPD.psd
  have hcand := hAs env s s1 phen rfl rfl (by rw [hi.par]; exact hsep) hi.live.vd hi.live.grad
    (Or.inl hi.live.tpa) (Or.inl (by rw [hi.par]; exact hlz)) ha
  have hpop : ∀ j < p.lambda, phen[j]? = some (x0 + s.sol.sigma • A.mulVec (env.z (k * p.lambda + j))) := by
    intro j hj
    obtain ⟨x, hx, hxi⟩ := hcand j (by rw [hi.par]; exact hj)
    rw [hx]
    congr 1
    funext i
    rw [hxi i (by intro v hv; rw [hi.par, hfix] at hv; cases hv), hi.mean, hi.nz]
    rfl
  have hx0 : ∀ j < p.lambda, (k ≠ 1 ∨ j ≠ 1) → phen[j]? = some x0 := by
    intro j hj hkj
    have hz0 : env.z (k * p.lambda + j) = 0 := by
      rw [hz]
      rcases Nat.lt_trichotomy k 1 with h | h | h
      · have : k = 0 := by omega
        subst this; omega
      · subst h; omega
      · have : 2 * p.lambda ≤ k * p.lambda := Nat.mul_le_mul_right _ h
        omega
    rw [hpop j hj, hz0, mulVec_zero, smul_zero, add_zero]
  -- the evaluated candidates
  have hl1 : phen.length ≤ s1.sol.cands.length := by
    rw [hplen, e1]; exact hi.live.cands.ge
  have hlp : phen.length = p.lambda := by rw [hplen, hi.par]
  have huh : s1.p.uh = false := by rw [e1]; exact hi.live.uh
  obtain ⟨s4, h4, e4⟩ := Strat.eval_ok huh he
  have hE : ∀ (r : ℕ) x, phen[r]? = some x → (s1.evaluated env phen phen).sol.cands[r]? =
      some (⟨awayFrom x0 0 x, x, r⟩ : Cand n) := by
    intro r x hx
    have hr := (List.getElem?_eq_some_iff.1 hx).1
    rw [Strat.evaluated_cands hl1, if_pos hr]
    have hne : s1.negate = false := by rw [e1]; exact hi.negate
    have hcx : colX phen r = x := by unfold colX; rw [List.getD_eq_getElem?_getD, hx]; rfl
    have hcy : colY phen phen r = x := by unfold colY; rw [hcx]; simp
    rw [hne, hf, hcx, hcy]; rfl
  have hEl : (s1.evaluated env phen phen).sol.cands.length = p.lambda := by
    rw [Strat.evaluated_length, e1]; show s.sol.cands.length = _; rw [hi.live.cands, hi.par]
  have hE1 : ∀ r c, (k ≠ 1 ∨ r ≠ 1) → (s1.evaluated env phen phen).sol.cands[r]? = some c →
      c.fvalue = .num 1 ∧ c.x = x0 := by
    intro r c hkr hc
    have hrl : r < p.lambda := by rw [← hEl]; exact (List.getElem?_eq_some_iff.1 hc).1
    rw [hE r x0 (hx0 r hrl hkr)] at hc
    injection hc with hc
    rw [← hc]
    exact ⟨by simp [awayFrom], rfl⟩
  have hseen1 : s1.sol.bestSeen = s.sol.bestSeen := by rw [e1]
  have hall : ∀ c ∈ s2.sol.cands, c.fvalue = .num 1 ∧ c.x = x0 := by
    have e2 : s2.sol.cands = s4.sol.cands := by rw [e4]; rfl
    intro c hc
    rw [e2] at hc
    by_cases hk : k = 1
    · obtain ⟨b, hb, hbx, hbv⟩ := hi.seen (by omega)
      obtain ⟨on, ref⟩ := Reference.on (s := s1) (c := b) ⟨by rw [e1]; show 0 < s.niter; rw [hi.niter]; omega,
        Or.inl ⟨by rw [e1]; show ElitismMode s.p 1; rw [hi.par]; exact hmode, hseen1.trans hb⟩⟩
      have hbt : betterThan b (s1.evaluated env phen phen).sol.cands ≤ 1 := by
        unfold betterThan
        refine filter_length_le_one fun r c hr hc => ?_
        rw [decide_eq_false_iff_not, (hE1 r c (Or.inr hr) hc).1, hbv]
        exact FVal.lt_irrefl _
      rcases reinject_on (s := s1.evaluated env phen phen) (c := b) on ref h4 with ⟨hlt, e⟩ | ⟨hge, e⟩
      · rw [e] at hc
        obtain ⟨r, hr⟩ := List.mem_iff_getElem?.1 hc
        rw [show ∀ (t : Strat n) (l : List (Cand n)), ({ t with sol := { t.sol with cands := l } } : Strat n).sol.cands = l
          from fun _ _ => rfl, List.getElem?_set] at hr
        split_ifs at hr with h1 h2
        · injection hr with hr; rw [← hr]; exact ⟨hbv, hbx⟩
        · exact hE1 r c (Or.inr (Ne.symm h1)) hr
      · rw [improvers_eq (s := s1.evaluated env phen phen) (c := b) ref (by rw [hEl, hlp]), hlp] at hge
        omega
    · rcases Strat.reinject_frame h4 with e | ⟨b, hb, hon, e⟩
      · rw [e] at hc
        obtain ⟨r, hr⟩ := List.mem_iff_getElem?.1 hc
        exact hE1 r c (Or.inl hk) hr
      · rw [e] at hc
        rcases List.mem_or_eq_of_mem_set hc with hc | hc
        · obtain ⟨r, hr⟩ := List.mem_iff_getElem?.1 hc
          exact hE1 r c (Or.inl hk) hr
        · have hk0 : 1 ≤ k := by
            by_contra h0
            have : s1.niter = 0 := by rw [e1]; show s.niter = 0; rw [hi.niter]; omega
            have hon' : s1.elitismOn = true := hon
            unfold Strat.elitismOn at hon'
            simp [this] at hon'
          obtain ⟨b', hb', hbx, hbv⟩ := hi.seen hk0
          have hb2 : s1.elitistRef = some b := hb
          rcases elitistRef_mem hb2 with h | h
          · rw [hseen1, hb'] at h; injection h with h; rw [hc, ← h]; exact ⟨hbv, hbx⟩
          · have : s1.sol.initialCand = none := by rw [e1]; exact hi.init
            rw [this] at h; cases h
  have hrun : Run env s [s2.sol.cands] s' := by rw [es']; exact .ask ha (.turn he ht (.refl _))
  obtain ⟨r1, r2, r3, r4, r5, r6, r7, r8, r9, r10⟩ := run_p hrun
  have hm1 : 0 < s1.sol.maxHist := by rw [e1]; exact hi.hist
  obtain ⟨c0, hmin, ec0, a2, a3, a4⟩ := turn_best huh hm1 he ht
  rw [← es'] at ec0 a2 a3 a4
  have hc0 := hall c0 (by obtain ⟨p, q, e, _⟩ := hmin; rw [e]; simp)
  obtain ⟨c2, nu, nzuh, lr, cu, cs, e2, _⟩ := Strat.eval_frame he
  obtain ⟨cs', cu', su, ts, sol3, hs, hb, csq, hc, sc, ps, hs', pc, cov, sep, v, sg, xp, xm, mx, mn, lv, le,
    e3⟩ := Strat.tell_frame ht
  have hcalls : s'.calls = (s1.evaluated env phen phen).calls := by
    have : s'.calls = s2.calls := by rw [es', e3]; rfl
    rw [this, e4]
    show s4.calls = _
    rcases Strat.reinject_frame h4 with h | ⟨_, _, _, h⟩ <;> rw [h]
  refine ⟨hL', by rw [r1, hi.par], ?_, ?_, by rw [r4, hi.niter]; rfl, by rw [r8]; exact hi.negate,
    by rw [r3]; exact hi.hist, by rw [r10]; exact hi.init, fun h => by omega, fun _ => ?_, fun _ => ?_, fun hk => ?_⟩
  · have := (C25_mean_convex env s2 s3 (by rw [e2, e1]; exact hi.live.good.weights) ht).2 {x0}
      (convex_singleton x0) ?_
    · rw [es']; exact this
    · intro c hc
      have hc' : c ∈ s'.sol.cands := by rw [es']; exact List.mem_of_mem_take hc
      exact (hall c (hperm.mem_iff.1 hc')).2
  · rw [es', e3, e2, e1]
    show s.nz + s.p.lambda = _
    rw [hi.nz, hi.par]; ring
  · by_cases hk : k = 0
    · exact ⟨c0, a2 (hseen1.trans (hi.unseen hk)) (by rw [e1]; show s.sol.niter = 0; rw [hi.live.niter, hi.niter, hk]),
        hc0.2, hc0.1⟩
    · obtain ⟨b, hb, hbx, hbv⟩ := hi.seen (by omega)
      exact ⟨b, a4 b (hseen1.trans hb) (by rw [hc0.1, hbv]; exact FVal.lt_irrefl _), hbx, hbv⟩
  · rw [ec0]; exact hc0.1
  · rw [hcalls]
    by_cases hk1 : k = 1
    · set y := x0 + s.sol.sigma • A.mulVec (env.z (k * p.lambda + 1)) with hy
      have hyp : phen[1]? = some y := hpop 1 (by omega)
      have hyx : y ≠ x0 := by
        intro h
        have h5 : s.sol.sigma • A.mulVec (env.z (k * p.lambda + 1)) = 0 := by
          have : x0 + s.sol.sigma • A.mulVec (env.z (k * p.lambda + 1)) = x0 + 0 := by rw [← hy, h, add_zero]
          exact add_left_cancel this
        have h6 : A.mulVec (env.z (k * p.lambda + 1)) = 0 := (smul_eq_zero.1 h5).resolve_left hi.live.sigma.ne'
        have hdet : IsUnit (A * Aᵀ).det := by
          rw [hA]
          exact isUnit_iff_ne_zero.2 (PD_det_ne_zero hPD)
        have hdA : IsUnit A.det := by
          rw [det_mul] at hdet
          exact isUnit_of_mul_isUnit_left hdet
        have h7 : env.z (k * p.lambda + 1) = 0 := by
          have := congrArg (A⁻¹.mulVec) h6
          rw [mulVec_mulVec, nonsing_inv_mul A hdA, one_mulVec, mulVec_zero] at this
          exact this
        rw [hz] at h7
        apply h7
        rw [hk1]; omega
      refine ⟨y, ?_⟩
      show _ ∈ s1.calls ++ loopCalls _ _ _ _
      apply List.mem_append_right
      have hord : 1 ∈ s1.order env phen.length := Strat.mem_order.2 (by omega)
      refine List.mem_iff_getElem?.2 ⟨(s1.order env phen.length).idxOf 1, ?_⟩
      rw [loopCalls_getElem?, List.getElem?_idxOf hord]
      have hcx : colX phen 1 = y := by unfold colX; rw [List.getD_eq_getElem?_getD, hyp]; rfl
      have hcy : colY phen phen 1 = y := by unfold colY; rw [hcx]; simp
      show some (colY phen phen 1, env.f _ (colY phen phen 1)) = _
      rw [hcy, hf]
      simp [awayFrom, hyx]
    · obtain ⟨y, hy⟩ := hi.call (by omega)
      refine ⟨y, ?_⟩
      show _ ∈ s1.calls ++ loopCalls _ _ _ _
      apply List.mem_append_left
      rw [e1]; exact hy

/-- **C40**, a consequence: elitism mode 1 can lose the best point ever evaluated.  In any dimension, with the
default settings and the objective that is 1 at the starting point and 0 elsewhere: if all draws are zero but
that of candidate 1 of the second generation, then this candidate is evaluated, with value 0, and replaced by
the starting point; after any number of generations both the best candidate and the best one seen have
value 1. -/
theorem C40_loss_false (hn : 1 ≤ n) (env : Env n) (x0 : Vec n) (hx0 : x0 ≠ fun _ => -dblMax) (sigma : ℝ)
    (seed clock : ℕ) (p : Params n) (hp : Params.make x0 sigma (-1) seed clock GenoPheno.plain = .ok p)
    (hz : ∀ j, env.z j = 0 ↔ j ≠ p.lambda + 1) (hf : env.f = awayFrom x0) :
    ∃ s, Strat.new env .plain (p.setElitism 1) = .ok s ∧ ∀ k, 2 ≤ k → ∃ s', s.generations env k = .ok s' ∧
      (∃ y, (y, FVal.num 0) ∈ s'.calls) ∧ (∃ b, s'.sol.bestSeen = some b ∧ b.fvalue = .num 1) ∧
      s'.sol.bestCandidate.fvalue = .num 1 := by
  obtain ⟨u1, u2, u3, u4, u5, u6, u7, u8, u9, u10, u11, u12, u13, u14⟩ := Params.make_plain hp
  obtain ⟨hu, hm⟩ := usual_elitist (kind := .plain) hp (by decide)
  have hl : 4 ≤ p.lambda := by
    obtain ⟨q, hq, hlq, _⟩ := C11_weights hn x0 sigma (-1) seed clock GenoPheno.plain
    rw [hp] at hq; injection hq with hq
    obtain ⟨l, h1, _, _, h2⟩ := C11_lambda n hn (-1)
    rw [← hq, h1] at hlq; injection hlq with hlq
    rw [← hlq]; exact (h2 (by norm_num)).2
  obtain ⟨s, hs⟩ := new_plain (env := env) (kind := .plain) (p := p.setElitism 1) u10 hu.configured.good.1
  obtain ⟨h1, h2, h3, h4, h5, h6, h7, h8, h9, h10, h11, h12, h13, h14, h15, h16, h17, h18, h19, h20⟩ :=
    Strat.new_ok hs
  have hflags : p.sep = false ∧ p.lazyUpdate = false := by
    unfold Params.make at hp
    obtain ⟨l, -, hp⟩ := Out.bind_eq_ok.1 hp
    obtain ⟨mu, w, muw, cs, cc, c1, cm, ds, fs, fc, ch, lv, rl, al, e⟩ := initializeParameters_frame hp
    rw [e]; exact ⟨rfl, rfl⟩
  have hmean : s.sol.xmean = x0 := by
    have e1 : (p.setElitism 1).x0min = x0 := u12
    have e2 : (p.setElitism 1).x0max = x0 := u13
    have e3 : (p.setElitism 1).fixedP = [] := u11
    have e4 : (p.setElitism 1).gp = GenoPheno.plain := u10
    unfold initialMean at h19
    simp only [e1, e2, e3, e4, if_true] at h19
    rw [if_neg hx0, setFixed_nil, Out.ok_bind] at h19
    injection h19 with h19
    exact h19.symm
  have hnz : s.nz = 0 := by
    unfold Strat.new at hs
    obtain ⟨⟨p', sol⟩, hm, hs⟩ := Out.bind_eq_ok.1 hs
    injection hs with hs; rw [← hs]
  have i0 : LossInv x0 s.p 0 s := ⟨(live_new hu hs).1, rfl, hmean, by rw [hnz]; simp, h7, by rw [h10]; exact u8,
    by rw [h15]; exact maxHistOf_pos _ _ _, h17, fun _ => h6.bestSeen, fun h => by omega, fun h => by omega,
    fun h => by omega⟩
  have hlam : s.p.lambda = p.lambda := by rw [h4]; rfl
  have hall : ∀ k, ∃ s', s.generations env k = .ok s' ∧ LossInv x0 s.p k s' := by
    intro k
    induction k with
    | zero => exact ⟨s, rfl, i0⟩
    | succ k ih =>
      obtain ⟨s1, g1, i1⟩ := ih
      obtain ⟨s2, g2, i2⟩ := i1.step (env := env) (by rw [hlam]; exact hl) (by rw [hlam]; exact hz) hf
        (by rw [h4]; exact hm) (by rw [h4]; exact u10) (by rw [h4]; exact u11) (by rw [h4]; exact hflags.1)
        (by rw [h4]; exact hflags.2)
      exact ⟨s2, Strat.generations_snoc k g1 g2, i2⟩
  refine ⟨s, hs, fun k hk => ?_⟩
  obtain ⟨s', h1, h2⟩ := hall k
  obtain ⟨b, hb, _, hv⟩ := h2.seen (by omega)
  exact ⟨s', h1, h2.call hk, ⟨b, hb, hv⟩, h2.best (by omega)⟩

/-- Such draws exist. -/
example : ∃ (p : Params 2) (env : Env 2), Params.make 0 1 (-1) 0 0 GenoPheno.plain = .ok p ∧
    (0 : Vec 2) ≠ (fun _ => -dblMax) ∧ (∀ j, env.z j = 0 ↔ j ≠ p.lambda + 1) ∧ env.f = awayFrom 0 := by
  obtain ⟨p, hp, _⟩ := C11_weights (n := 2) (by norm_num) 0 1 (-1) 0 0 GenoPheno.plain
  refine ⟨p, Env.basic (awayFrom 0) (fun j => if j = p.lambda + 1 then 1 else 0), hp, ?_, ?_, rfl⟩
  · intro h
    have h1 : (0 : ℝ) = -dblMax := congrFun h 0
    have := dblMax_ge
    linarith
  · intro j
    show (if j = p.lambda + 1 then (1 : Vec 2) else 0) = 0 ↔ _
    split_ifs with h
    · simp [h]
    · simp [h]

end Libcmaes
