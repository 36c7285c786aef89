import Verif.Lemmas.Eval
import Verif.Props.Distribution
import Verif.Spec.Usual

/-! # When a generation cannot fail -/

namespace Libcmaes

open Spec Matrix

variable {n : ℕ}

/-- What makes the next generation succeed, up to the ranking: usable parameters, members of the right
size, positive variances, no option with a known gap. -/
structure LiveCore (s : Strat n) : Prop where
  good : GoodParams s.p
  strict : StrictRates s.p
  kind : s.kind ≠ .vd
  vd : s.p.vd = false
  lazy : s.kind = .active → s.p.lazyUpdate = false
  grad : s.p.withGradient = false
  tpaPos : s.sol.tpaP1 < s.p.lambda ∧ s.sol.tpaP2 < s.p.lambda
  eig : ∀ e, s.es.eig = some e → (∀ i, 0 < e.1 i) ∧ e.2 * e.2ᵀ = 1
  paths : s.sol.pathsOk = true
  sigma : 0 < s.sol.sigma
  cands : s.sol.cands.length = s.p.lambda
  kcand : s.sol.kcand < s.p.lambda
  niter : s.sol.niter = s.niter
  full : s.p.sep = false → s.sol.hasCov = true ∧ PD s.sol.cov ∧
    (s.niter ≠ 0 → s.sol.hasCsq = true ∧ s.es.eig.isSome = true)
  sep : s.p.sep = true → s.sol.hasSep = true ∧ ∀ i, 0 < s.sol.sepcov i
  seen : s.niter ≠ 0 → s.sol.bestSeen.isSome = true
  init : (s.p.initialElitistOnRestart || s.p.initialElitist) = true →
    (s.p.elitist || s.p.initialElitist || (s.initialElitist && s.p.initialElitistOnRestart)) = true →
    s.sol.initialCand.isSome = true

/-- The same, without uncertainty handling and two-point adaptation. -/
structure Live (s : Strat n) : Prop extends LiveCore s where
  uh : s.p.uh = false
  tpa : s.p.tpa ≠ 2

/-- With two-point adaptation, the last generation moved the mean. -/
def Moved (s : Strat n) : Prop := s.p.tpa = 2 → s.niter > 0 → s.sol.xmean ≠ s.sol.xmeanPrev

theorem kcandOf_lt {l : ℕ} (h : 2 ≤ l) : kcandOf l < l := by
  unfold kcandOf
  exact lt_of_le_of_lt (min_le_left _ _) (by omega)

theorem Out.mapM_ok_of {α β : Type} {f : α → Out β} {l : List α} (h : ∀ a ∈ l, ∃ b, f a = .ok b) :
    ∃ ys, l.mapM f = .ok ys := by
  cases hm : l.mapM f with
  | ok ys => exact ⟨ys, rfl⟩
  | error e =>
    obtain ⟨a, ha, h1⟩ := Out.mapM_eq_error hm
    obtain ⟨b, hb⟩ := h a ha
    rw [h1] at hb; cases hb

theorem updateBest_seen {s s' : Sol n} (h : s.updateBest = .ok s') :
    (s.niter = 0 ∨ s.bestSeen.isSome = true → s'.bestSeen.isSome = true) ∧
    ∀ b, s'.bestSeen = some b → b ∈ s.cands ∨ s.bestSeen = some b := by
  obtain ⟨c0, ck, cl, med, h0, _, _, _, _, a1, a2, a3, a4, _⟩ := Sol.updateBest_ok h
  have hm : c0 ∈ s.cands := List.mem_of_getElem? h0
  cases hb : s.bestSeen with
  | none =>
    by_cases hn : s.niter = 0
    · have := (a1 hb hn).1
      rw [this]
      exact ⟨fun _ => rfl, fun b hb => by injection hb with hb; subst hb; exact Or.inl hm⟩
    · have := (a2 hb hn).1
      rw [this]
      refine ⟨fun h => ?_, fun b hb => by cases hb⟩
      rcases h with h | h
      · exact absurd h hn
      · cases h
  | some b0 =>
    by_cases hl : FVal.lt c0.fvalue b0.fvalue
    · rw [(a3 b0 hb hl).1]
      exact ⟨fun _ => rfl, fun b hb => by injection hb with hb; subst hb; exact Or.inl hm⟩
    · rw [(a4 b0 hb hl).1]
      exact ⟨fun _ => rfl, fun b hb => Or.inr hb⟩

/-- What makes `ask` succeed without gradient injection. -/
structure AskLive (s : Strat n) : Prop where
  fixed_lt : ∀ q ∈ s.p.fixedP, q.1 < n
  vd : s.p.vd = false
  grad : s.p.withGradient = false
  full : s.p.sep = false → s.sol.hasCov = true ∧ (s.niter ≠ 0 → s.es.eig.isSome = true)
  sep : s.p.sep = true → s.sol.hasSep = true ∧ ∀ i, 0 < s.sol.sepcov i
  tpa : s.p.tpa = 2 → s.niter > 0 → s.sol.sigma ≠ 0 ∧ s.sol.xmean ≠ s.sol.xmeanPrev ∧
    (s.sol.tpaP1 < s.p.lambda ∧ s.sol.tpaP2 < s.p.lambda) ∧
    (s.p.sep = false → PD s.sol.cov ∧ ∀ e, s.es.eig = some e → (∀ i, 0 < e.1 i) ∧ e.2 * e.2ᵀ = 1)

theorem LiveCore.ask {s : Strat n} (h : LiveCore s) (hm : Moved s) : AskLive s :=
  ⟨h.good.fixed_lt, h.vd, h.grad, fun hs => ⟨(h.full hs).1, fun hn => ((h.full hs).2.2 hn).2⟩, h.sep,
    fun h1 h2 => ⟨h.sigma.ne', hm h1 h2, h.tpaPos, fun hs => ⟨(h.full hs).2.1, h.eig⟩⟩⟩

theorem Live.moved {s : Strat n} (h : Live s) : Moved s := fun h1 => absurd h1 h.tpa

theorem vnorm_ne_zero {x : Vec n} (h : x ≠ 0) : vnorm x ≠ 0 := by
  unfold vnorm
  rw [Real.sqrt_ne_zero']
  unfold sqNorm
  obtain ⟨i, hi⟩ : ∃ i, x i ≠ 0 := by
    by_contra hc
    push Not at hc
    exact h (funext hc)
  exact Finset.sum_pos' (fun i _ => mul_self_nonneg _) ⟨i, Finset.mem_univ i, mul_self_pos.2 hi⟩

/-- The norm of a mean shift that is not zero. -/
theorem Strat.meanShiftNorm_total {s : Strat n} {d : Vec n} (hd : d ≠ 0) (hs : s.sol.sigma ≠ 0)
    (hvd : s.p.vd = false) (hsep : s.p.sep = true → ∀ i, 0 < s.sol.sepcov i)
    (hfull : s.p.sep = false → ∃ e, s.es.eig = some e ∧ (∀ i, 0 < e.1 i) ∧ e.2 * e.2ᵀ = 1) :
    ∃ r, s.meanShiftNorm d = .ok r ∧ r ≠ 0 := by
  unfold meanShiftNorm
  by_cases h : s.p.sep = true
  · rw [if_neg (by simp [h]), if_pos (hsep h)]
    refine ⟨_, rfl, div_ne_zero (vnorm_ne_zero fun h0 => hd ?_) hs⟩
    funext i
    have := congrFun h0 i
    have hp := Real.sqrt_pos.2 (hsep h i)
    rcases mul_eq_zero.1 this with h1 | h1
    · exact absurd h1 (by positivity)
    · exact h1
  · rw [if_pos (by simp [h, hvd])]
    obtain ⟨e, he, hp, ho⟩ := hfull (by simpa using h)
    rw [he]
    simp only
    rw [if_pos hp]
    refine ⟨_, rfl, div_ne_zero (vnorm_ne_zero fun h0 => hd ?_) hs⟩
    have h1 : e.2ᵀ.mulVec d = 0 := by
      funext i
      have := congrFun h0 i
      have hp := Real.sqrt_pos.2 (hp i)
      rcases mul_eq_zero.1 this with h1 | h1
      · exact absurd h1 (by positivity)
      · exact h1
    have h2 := congrArg e.2.mulVec h1
    rw [mulVec_mulVec, ho, one_mulVec, mulVec_zero] at h2
    exact h2

namespace Strat

theorem ask_total {env : Env n} {s : Strat n} (hL : AskLive s) :
    ∃ pop s1, s.ask env = .ok (pop, s1) ∧ s1.calls = s.calls ∧
      (s.p.sep = false →
        s1.sol.updatedEigen = true ∧ s1.es.eig = some (env.eig.solve s.sol.cov) ∨
        s1.sol.updatedEigen = false ∧ s.niter ≠ 0 ∧ s1.es.eig = s.es.eig) ∧
      (s.p.sep = true → s1.es.eig = s.es.eig) ∧
      s1.sol.tpaP1 = s.sol.tpaP1 ∧ s1.sol.tpaP2 = s.sol.tpaP2 := by
  have hgr : ∀ (t : Strat n) pop, t.p = s.p → t.askGradient env pop = .ok (pop, t) := by
    intro t pop e
    unfold askGradient; rw [if_pos (by rw [e]; exact hL.grad)]
  have hfix : ∀ pop : List (Vec n), ∃ pop', pop.mapM (setFixed s.p.fixedP) = .ok pop' := fun pop =>
    Out.mapM_ok_of fun x _ => (setFixed_ok_iff s.p.fixedP x).2 hL.fixed_lt
  -- it is enough to treat the two first parts
  suffices h : ∃ s1, s.askPrepare env = .ok s1 ∧ (∃ q, s1.askSample env = .ok q) ∧
      (s.p.sep = false →
        s1.sol.updatedEigen = true ∧ s1.es.eig = some (env.eig.solve s.sol.cov) ∨
        s1.sol.updatedEigen = false ∧ s.niter ≠ 0 ∧ s1.es.eig = s.es.eig) ∧
      (s.p.sep = true → s1.es.eig = s.es.eig) by
    obtain ⟨s1, h1, ⟨⟨pop, s2⟩, h2⟩, h3, h3'⟩ := h
    obtain ⟨e2, hpl⟩ := askSample_frame h2
    obtain ⟨es, ei, ue, e1⟩ := askPrepare_frame h1
    have ep : s2.p = s.p := by rw [e2, e1]
    have hpl : pop.length = s.p.lambda := by rw [hpl, e1]
    have htp : ∃ pop' nz x1 x2, s2.askTpa env pop = .ok (pop', { s2 with nz := nz, sol := { s2.sol with
        tpaX1 := x1, tpaX2 := x2 } }) := by
      unfold askTpa
      by_cases hc : s2.p.tpa = 2 ∧ s2.niter > 0
      · have hc' : s.p.tpa = 2 ∧ s.niter > 0 := by rw [e2, e1] at hc; exact hc
        obtain ⟨t1, t2, ⟨t3, t4⟩, t5⟩ := hL.tpa hc'.1 hc'.2
        obtain ⟨r, hr, hr0⟩ := meanShiftNorm_total (s := s2) (d := s2.sol.xmean - s2.sol.xmeanPrev)
          (by rw [e2, e1]; exact sub_ne_zero.2 t2) (by rw [e2, e1]; exact t1) (by rw [ep]; exact hL.vd)
          (fun hs => by rw [ep] at hs; rw [e2, e1]; exact (hL.sep hs).2)
          (fun hs => by
            rw [ep] at hs
            have ees : s2.es = s1.es := by rw [e2]
            rw [ees]
            obtain ⟨c1, c2⟩ := t5 hs
            rcases h3 hs with ⟨_, h⟩ | ⟨_, h0, h⟩
            · exact ⟨_, h, fun i => eig_pos _ c1 i, env.eig.orth _ c1.symm⟩
            · obtain ⟨e, he⟩ := Option.isSome_iff_exists.1 ((hL.full hs).2 h0)
              exact ⟨e, by rw [h, he], c2 e he⟩)
        rw [if_pos hc, if_neg (by rw [e2, e1]; exact t1)]
        simp only
        have hw : s2.p.withGradient = false := by rw [ep]; exact hL.grad
        rw [hr, Out.ok_bind, if_neg hr0]
        simp only [hw, Bool.false_eq_true, if_false]
        rw [if_neg (by
            rw [hpl, e2, e1]
            push Not
            exact ⟨t3, t4⟩)]
        exact ⟨_, _, _, _, rfl⟩
      · rw [if_neg hc]
        exact ⟨pop, s2.nz, s2.sol.tpaX1, s2.sol.tpaX2, rfl⟩
    obtain ⟨pop', nz, x1, x2, h4⟩ := htp
    obtain ⟨pop'', hp⟩ := hfix pop'
    refine ⟨pop'', { s2 with nz := nz, sol := { s2.sol with tpaX1 := x1, tpaX2 := x2 } }, ?_, ?_⟩
    · unfold ask
      rw [h1, Out.ok_bind, h2, Out.ok_bind]
      show (s2.askGradient env pop >>= _) = _
      rw [hgr s2 pop ep, Out.ok_bind]
      show (s2.askTpa env pop >>= _) = _
      rw [h4, Out.ok_bind]
      show (pop'.mapM (setFixed s.p.fixedP) >>= _) = _
      rw [hp]; rfl
    · refine ⟨by rw [e2, e1], ?_, ?_, ?_⟩
      · intro hs; have := h3 hs; rw [e2]; exact this
      · intro hs; have := h3' hs; rw [e2]; exact this
      · rw [e2, e1]; exact ⟨rfl, rfl⟩
  by_cases hsep : s.p.sep = true
  · obtain ⟨hs1, hs2⟩ := hL.sep hsep
    have h1 : s.askPrepare env = .ok { s with es := { s.es with
        mean := s.sol.xmean, sepTransform := fun i => Real.sqrt (s.sol.sepcov i) } } := by
      unfold askPrepare
      rw [if_neg (by simp [hsep]), if_neg (by simp [hs1]), if_pos hsep, if_pos fun i => (hs2 i).le]
    refine ⟨_, h1, ?_, (fun h => by rw [hsep] at h; cases h), fun _ => rfl⟩
    · unfold askSample
      simp only
      rw [if_neg (by simp [hsep]), if_pos hsep]
      exact ⟨_, rfl⟩
  · have hsep' : s.p.sep = false := by simpa using hsep
    obtain ⟨hc1, hc3⟩ := hL.full hsep'
    by_cases hcond : s.niter = 0 ∨ s.p.lazyUpdate = false ∨
        (((s.niter : ℤ) - s.sol.eigeniter : ℤ) : ℝ) > s.p.lazyValue
    · have h1 : s.askPrepare env = .ok { s with
          es := { s.es with
            mean := s.sol.xmean
            eig := some (env.eig.solve s.sol.cov)
            transform := (env.eig.solve s.sol.cov).2 *
              diagonal fun i => Real.sqrt (max ((env.eig.solve s.sol.cov).1 i) 0) }
          sol := { s.sol with eigeniter := s.niter, updatedEigen := true } } := by
        unfold askPrepare
        rw [if_pos (by simp [hsep', hL.vd]), if_pos hcond, if_neg (by simp [hc1])]
      refine ⟨_, h1, ?_, fun _ => Or.inl ⟨rfl, rfl⟩, fun h => absurd h hsep⟩
      · unfold askSample
        simp only
        rw [if_pos (by simp [hsep', hL.vd]), if_neg (by simp)]
        exact ⟨_, rfl⟩
    · have h1 : s.askPrepare env = .ok { s with sol := { s.sol with updatedEigen := false } } := by
        unfold askPrepare
        rw [if_pos (by simp [hsep', hL.vd]), if_neg hcond]
      have hn : s.niter ≠ 0 := fun h => hcond (Or.inl h)
      refine ⟨_, h1, ?_, fun _ => Or.inr ⟨rfl, hn, rfl⟩, fun h => absurd h hsep⟩
      · unfold askSample
        simp only
        have := hc3 hn
        rw [if_pos (by simp [hsep', hL.vd]), if_neg (by
          cases he : s.es.eig <;> simp_all)]
        exact ⟨_, rfl⟩

theorem reinject_total {s : Strat n} {k : ℕ} (hl : 2 ≤ k) (hk : k ≤ s.sol.cands.length)
    (hel : s.elitismOn = true → s.elitistRef.isSome = true) : ∃ s', s.reinject k = .ok s' := by
  unfold reinject
  by_cases he : s.elitismOn = true
  · rw [if_pos he, if_neg (by omega)]
    by_cases h1 : s.improvers k < k / 2
    · rw [if_pos h1]
      obtain ⟨c, hcc⟩ := Option.isSome_iff_exists.1 (hel he)
      rw [hcc]
      simp only
      rw [if_neg (by omega)]
      exact ⟨_, rfl⟩
    · rw [if_neg h1]; exact ⟨_, rfl⟩
  · rw [if_neg he]
    exact ⟨_, rfl⟩

theorem eval_total {env : Env n} {s : Strat n} {cols phen : List (Vec n)} (huh : s.p.uh = false)
    (hl : 2 ≤ s.p.lambda) (hc : s.sol.cands.length = s.p.lambda) (hcols : cols.length = s.p.lambda)
    (hphen : phen.length = s.p.lambda)
    (hel : s.elitismOn = true → s.elitistRef.isSome = true) :
    ∃ s2, s.eval env cols phen = .ok s2 := by
  have hb : ∀ r ∈ s.order env cols.length, EvalBounds cols phen s.sol.cands.length r := by
    intro r hr
    have : r < cols.length := List.mem_range.1 ((order_perm env s cols.length).mem_iff.1 hr)
    exact ⟨this, by omega, fun _ => by omega⟩
  unfold eval
  rw [evalFold_eq _ hb, Out.ok_bind, if_neg (by simp [huh])]
  show ∃ s2, (Strat.reinject _ cols.length >>= _) = _
  obtain ⟨s3, h3⟩ := reinject_total (s := { s with
      calls := s.calls ++ loopCalls env.f (colY cols phen) s.calls.length (s.order env cols.length)
      sol := { s.sol with
        cands := loopCands env.f s.negate (colX cols) (colY cols phen) s.calls.length
          (s.order env cols.length) s.sol.cands } }) (k := cols.length) (by omega)
      (by simp only [loopCands_length]; omega) hel
  rw [h3]
  exact ⟨_, rfl⟩

theorem medianOf_total {l : List FVal} (h : l ≠ []) : ∃ m, Sol.medianOf l = .ok m := by
  have hl : 0 < l.length := List.length_pos_iff.2 h
  have hi : ∀ i, i < l.length → ∃ a, idx l i = .ok a := fun i hi =>
    ⟨l[i], by rw [idx_eq_ok, List.getElem?_eq_getElem hi]⟩
  unfold Sol.medianOf
  rw [if_neg (by omega)]
  split_ifs
  · obtain ⟨a, ha⟩ := hi (l.length / 2 - 1) (by omega)
    obtain ⟨b, hb⟩ := hi (l.length / 2) (by omega)
    rw [ha, hb]; exact ⟨_, rfl⟩
  · exact hi _ (by omega)

theorem updateBest_total {s : Sol n} (h : s.kcand < s.cands.length) : ∃ s', s.updateBest = .ok s' := by
  have hi : ∀ i, i < s.cands.length → ∃ a, at! s.cands i = .ok a := fun i hi =>
    ⟨s.cands[i], by rw [at!_eq_ok, List.getElem?_eq_getElem hi]⟩
  obtain ⟨c0, h0⟩ := hi 0 (by omega)
  obtain ⟨ck, hk⟩ := hi _ h
  obtain ⟨cl, hl⟩ := hi (s.cands.length - 1) (by omega)
  obtain ⟨m, hm⟩ := medianOf_total (l := s.cands.map (·.fvalue)) (by
    intro h'; simp at h'; rw [h'] at h; simp at h)
  unfold Sol.updateBest
  rw [h0, Out.ok_bind, hk, Out.ok_bind, hm, Out.ok_bind, hl]
  exact ⟨_, rfl⟩

theorem hsigBound_total {p : Params n} (hg : GoodParams p) (k : ℕ) : ∃ hb, hsigBound p k = .ok hb := by
  unfold hsigBound
  rw [if_neg (by have := hg.fixed_len; omega), if_neg]
  · exact ⟨_, rfl⟩
  · have h1 := hg.rates.csigma_pos
    have h2 := hg.rates.csigma_lt
    have : (1 - p.csigma) ^ (2 * (k + 1)) ≤ 1 := pow_le_one₀ (by linarith) (by linarith)
    linarith

theorem updatePre_total {p : Params n} {s : Sol n} (hg : GoodParams p) (h1 : s.cands.length = p.lambda)
    (h2 : s.pathsOk = true) (h3 : 0 < s.sigma) : updatePre p s = .ok () := by
  unfold updatePre
  have := hg.mu
  rw [if_neg (by rw [h1]; omega), if_neg (by simp [h2]), if_neg]
  push Not
  exact ⟨h3.ne', hg.chi.ne', hg.rates.dsigma_pos.ne'⟩

theorem cminusOf_total {p : Params n} (h : p.cmu < 1) (t : ℝ) : ∃ cm, cminusOf p t = .ok cm := by
  unfold cminusOf
  simp only
  split_ifs <;> exact ⟨_, rfl⟩

theorem inverseSqrt_total {e : Vec n × Mat n} (h : ∀ i, 0 < e.1 i) : ∃ c, inverseSqrt e = .ok c := by
  unfold inverseSqrt
  rw [if_pos h]; exact ⟨_, rfl⟩

theorem covarianceUpdate_total {eig : EigSolver n} {k : CovKind} {p : Params n} {es : Es n} {s : Sol n}
    (hk : k ≠ .vd) (hg : GoodParams p) (hst : StrictRates p) (h1 : s.cands.length = p.lambda)
    (h2 : s.pathsOk = true) (h3 : 0 < s.sigma)
    (hsep : p.sep = true → s.hasSep = true ∧ ∀ i, 0 < s.sepcov i)
    (hfull : p.sep = false → s.hasCov = true ∧ ∃ c, csqinvOf es s = .ok c) :
    ∃ s', covarianceUpdate eig k p es s = .ok s' := by
  have hpre := updatePre_total hg h1 h2 h3
  obtain ⟨hb, hhb⟩ := hsigBound_total hg s.niter
  have hcmu : p.cmu < 1 := by have := hst.lt_one; have := hg.rates.c1_pos; linarith
  have hmu := hg.mu
  unfold covarianceUpdate
  cases k with
  | vd => exact absurd rfl hk
  | plain =>
    simp only
    by_cases hs : p.sep = true
    · rw [if_pos hs]
      obtain ⟨a1, a2⟩ := hsep hs
      unfold covUpdateSep sepcsqinvOf
      rw [hpre, Out.ok_bind, if_neg (by simp [a1]), if_pos a2, Out.ok_bind, hhb]
      exact ⟨_, rfl⟩
    · rw [if_neg hs]
      obtain ⟨a1, c, a2⟩ := hfull (by simpa using hs)
      unfold covUpdateFull
      rw [hpre, Out.ok_bind, if_neg (by simp [a1]), a2, Out.ok_bind, hhb]
      exact ⟨_, rfl⟩
  | active =>
    simp only
    by_cases hs : p.sep = true
    · rw [if_pos hs]
      obtain ⟨a1, a2⟩ := hsep hs
      unfold acovUpdateSep sepcsqinvOf
      rw [hpre, Out.ok_bind, if_neg (by simp [a1]), if_neg (by omega), if_pos a2, Out.ok_bind, hhb, Out.ok_bind]
      obtain ⟨cm, hcm⟩ := cminusOf_total hcmu
        (maxCoeff ((fun i => Real.sqrt (1 / s.sepcov i)) * (rankMuMinusSep p s * fun i => Real.sqrt (1 / s.sepcov i))))
      rw [hcm]
      exact ⟨_, rfl⟩
    · rw [if_neg hs]
      obtain ⟨a1, c, a2⟩ := hfull (by simpa using hs)
      unfold acovUpdateFull
      rw [hpre, Out.ok_bind, if_neg (by simp [a1]), if_neg (by omega), a2, Out.ok_bind, hhb, Out.ok_bind]
      obtain ⟨cm, hcm⟩ := cminusOf_total hcmu (maxCoeff (eig.solve (c * rankMuMinus p s * c)).1)
      rw [hcm]
      exact ⟨_, rfl⟩

theorem tellFinish_total {s : Strat n} (hn : n ≠ 0) (hvd : s.p.vd = false)
    (he : s.p.sep = false → s.es.eig.isSome = true) : ∃ s', s.tellFinish = .ok s' := by
  unfold tellFinish
  simp only
  rw [if_neg hn]
  by_cases hs : s.p.sep = true
  · rw [if_neg (by simp [hs])]
    exact ⟨_, rfl⟩
  · rw [if_pos (by simp [hvd, hs])]
    obtain ⟨e, hee⟩ := Option.isSome_iff_exists.1 (he (by simpa using hs))
    rw [hee]
    exact ⟨_, rfl⟩


theorem tell_total_rank {env : Env n} {s s1 : Strat n} (hg : GoodParams s.p) (hst : StrictRates s.p)
    (hk : s.kind ≠ .vd) (hvd : s.p.vd = false)
    (hpaths : s.sol.pathsOk = true) (hsig : 0 < s.sol.sigma)
    (hkc : s.sol.kcand < s.p.lambda)
    (hsep : s.p.sep = true → s.sol.hasSep = true ∧ ∀ i, 0 < s.sol.sepcov i)
    (hfull : s.p.sep = false → s.sol.hasCov = true ∧ s.es.eig.isSome = true ∧
      ∃ c, csqinvOf s.es s.sol = .ok c)
    (hr : s.rank env = .ok s1) (hlen : s1.sol.cands.length = s.p.lambda) : ∃ s', s.tell env = .ok s' := by
  obtain ⟨cu, su, cs, e1⟩ := rank_frame hr
  subst e1
  obtain ⟨ts, h2⟩ : ∃ ts, (if s.p.tpa = 2 ∧ s.niter > 0 then
      Strat.tpaUpdate { s with sol := { s.sol with candsUh := cu, suh := su, cands := cs } } else
      pure { s with sol := { s.sol with candsUh := cu, suh := su, cands := cs } }) =
      .ok { s with sol := { s.sol with candsUh := cu, suh := su, cands := cs, tpaS := ts } } := by
    split_ifs
    · unfold tpaUpdate
      rw [if_neg (by have := hg.lambda; show s.p.lambda ≠ 1; omega)]
      exact ⟨_, rfl⟩
    · exact ⟨s.sol.tpaS, rfl⟩
  obtain ⟨sol3, h3⟩ := updateBest_total (s := { s.sol with candsUh := cu, suh := su, cands := cs, tpaS := ts })
    (by simp only at hlen ⊢; omega)
  obtain ⟨c0, ck, cl, med, _, _, _, _, e3, _⟩ := Sol.updateBest_ok h3
  obtain ⟨sol4, h4⟩ := covarianceUpdate_total (eig := env.eig) (es := s.es) (s := sol3) hk hg hst
    (by rw [e3]; exact hlen) (by rw [e3]; exact hpaths) (by rw [e3]; exact hsig)
    (by rw [e3]; exact hsep) (by rw [e3]; exact fun h => ⟨(hfull h).1, (hfull h).2.2⟩)
  obtain ⟨s', h5⟩ := tellFinish_total (s := { s with sol := sol4 }) (by have := hg.dim; omega) hvd
    (fun h => (hfull h).2.1)
  refine ⟨s', ?_⟩
  unfold tell
  rw [hr, Out.ok_bind, h2, Out.ok_bind]
  show (Sol.updateBest { s.sol with candsUh := cu, suh := su, cands := cs, tpaS := ts } >>= _) = _
  rw [h3, Out.ok_bind]
  show (covarianceUpdate env.eig s.kind s.p s.es sol3 >>= _) = _
  rw [h4, Out.ok_bind]
  exact h5

theorem tell_total {env : Env n} {s : Strat n} (hg : GoodParams s.p) (hst : StrictRates s.p)
    (hk : s.kind ≠ .vd) (hvd : s.p.vd = false) (huh : s.p.uh = false)
    (hpaths : s.sol.pathsOk = true) (hsig : 0 < s.sol.sigma) (hc : s.sol.cands.length = s.p.lambda)
    (hkc : s.sol.kcand < s.p.lambda)
    (hsep : s.p.sep = true → s.sol.hasSep = true ∧ ∀ i, 0 < s.sol.sepcov i)
    (hfull : s.p.sep = false → s.sol.hasCov = true ∧ s.es.eig.isSome = true ∧
      ∃ c, csqinvOf s.es s.sol = .ok c)
    (hsw : StrictWeakOn candLt s.sol.cands) : ∃ s', s.tell env = .ok s' := by
  obtain ⟨cs, hcs⟩ : ∃ cs, stableSort candLt s.sol.cands = .ok cs := by
    unfold stableSort; rw [if_pos hsw]; exact ⟨_, rfl⟩
  have hperm := (stableSort_eq_ok hcs).2.perm
  have hr : s.rank env = .ok { s with sol := { s.sol with cands := cs } } := by
    unfold rank
    rw [if_neg (by simp [huh])]
    unfold Sol.sortCandidates
    rw [hcs]; rfl
  exact tell_total_rank hg hst hk hvd hpaths hsig hkc hsep hfull hr
    (by show cs.length = _; rw [hperm.length_eq, hc])

end Strat

/-- The reference for elitism exists when it is needed. -/
theorem LiveCore.elitist {s : Strat n} (hL : LiveCore s) (hel : s.elitismOn = true) :
    s.elitistRef.isSome = true := by
  unfold Strat.elitismOn at hel
  simp only [Bool.and_eq_true, decide_eq_true_eq] at hel
  unfold Strat.elitistRef
  split_ifs with a1 a2
  · exact hL.init a1 hel.2
  · exact hL.seen (by omega)
  · exfalso
    have := hel.2
    simp_all

/-- A state in which `tell` succeeds, up to the ranking. -/
structure Ready (env : Env n) (s : Strat n) : Prop where
  good : GoodParams s.p
  strict : StrictRates s.p
  kind : s.kind ≠ .vd
  vd : s.p.vd = false
  lazy : s.kind = .active → s.p.lazyUpdate = false
  grad : s.p.withGradient = false
  tpaPos : s.sol.tpaP1 < s.p.lambda ∧ s.sol.tpaP2 < s.p.lambda
  eig : ∀ e, s.es.eig = some e → (∀ i, 0 < e.1 i) ∧ e.2 * e.2ᵀ = 1
  paths : s.sol.pathsOk = true
  sigma : 0 < s.sol.sigma
  kcand : s.sol.kcand < s.p.lambda
  niter : s.sol.niter = s.niter
  full : s.p.sep = false → s.sol.hasCov = true ∧ PD s.sol.cov ∧ s.es.eig.isSome = true ∧
    (∃ c, csqinvOf s.es s.sol = .ok c) ∧
    (s.p.lazyUpdate = false → s.sol.updatedEigen = true ∧ s.es.eig = some (env.eig.solve s.sol.cov))
  sep : s.p.sep = true → s.sol.hasSep = true ∧ ∀ i, 0 < s.sol.sepcov i
  seen : s.niter ≠ 0 → s.sol.bestSeen.isSome = true
  init : (s.p.initialElitistOnRestart || s.p.initialElitist) = true →
    (s.p.elitist || s.p.initialElitist || (s.initialElitist && s.p.initialElitistOnRestart)) = true →
    s.sol.initialCand.isSome = true

/-- `ask` makes a live state ready. -/
theorem LiveCore.ready {env : Env n} {s : Strat n} (hL : LiveCore s) (hm : Moved s) :
    ∃ pop s1, s.ask env = .ok (pop, s1) ∧ Ready env s1 := by
  obtain ⟨pop, s1, hask, -, heig, heig', htp1, htp2⟩ := Strat.ask_total (env := env) (hL.ask hm)
  refine ⟨pop, s1, hask, ?_⟩
  have hfr := Strat.ask_eig hask
  obtain ⟨⟨es, ei, ue, c, nz, x1, x2, p1, p2, e1⟩, hpl⟩ := Strat.ask_frame hask
  refine ⟨by rw [e1]; exact hL.good, by rw [e1]; exact hL.strict, by rw [e1]; exact hL.kind,
    by rw [e1]; exact hL.vd, by rw [e1]; exact hL.lazy, by rw [e1]; exact hL.grad, ?_, ?_,
    by rw [e1]; exact hL.paths, by rw [e1]; exact hL.sigma, by rw [e1]; exact hL.kcand,
    by rw [e1]; exact hL.niter, ?_, by rw [e1]; exact hL.sep, by rw [e1]; exact hL.seen,
    by rw [e1]; exact hL.init⟩
  · rw [htp1, htp2, e1]; exact hL.tpaPos
  · intro e he
    by_cases hsp : s.p.sep = true
    · rw [heig' hsp] at he; exact hL.eig e he
    · have hsp : s.p.sep = false := by simpa using hsp
      rcases heig hsp with ⟨_, h⟩ | ⟨_, _, h⟩
      · rw [h] at he; injection he with he; rw [← he]
        have hpd := (hL.full hsp).2.1
        exact ⟨fun i => eig_pos _ hpd i, env.eig.orth _ hpd.symm⟩
      · rw [h] at he; exact hL.eig e he
  · intro hs
    have hs' : s.p.sep = false := by rw [e1] at hs; exact hs
    obtain ⟨f1, f2, f3⟩ := hL.full hs'
    refine ⟨by rw [e1]; exact f1, by rw [e1]; exact f2, ?_, ?_, ?_⟩
    · rcases heig hs' with ⟨_, h⟩ | ⟨_, h0, h⟩
      · rw [h]; rfl
      · rw [h]; exact (f3 h0).2
    · unfold csqinvOf
      rcases heig hs' with ⟨hu, h⟩ | ⟨hu, h0, h⟩
      · rw [if_pos hu, h]
        exact Strat.inverseSqrt_total (fun i => eig_pos _ f2 i)
      · rw [if_neg (by simp [hu]), if_pos (by rw [e1]; exact (f3 h0).1)]
        exact ⟨_, rfl⟩
    · intro hl
      obtain ⟨a1, a2, _⟩ := hfr hs' hL.vd (Or.inr (by rw [e1] at hl; exact hl))
      exact ⟨a2, by rw [a1, e1]⟩

/-- Being ready does not depend on the candidates, the number of evaluations and so on. -/
theorem Ready.change {env : Env n} {s : Strat n} (h : Ready env s) {c : List (Vec n × FVal)} {ne nu nz lr}
    {cr : List (ℤ × Bool)} {cu : List RankedCand} {cs : List (Cand n)} {sne} :
    Ready env { s with
      calls := c, nevals := ne, nu := nu, nzuh := nz, crit := cr,
      sol := { s.sol with lambdaReev := lr, nevals := sne, candsUh := cu, cands := cs } } :=
  ⟨h.good, h.strict, h.kind, h.vd, h.lazy, h.grad, h.tpaPos, h.eig, h.paths, h.sigma, h.kcand, h.niter,
    h.full, h.sep, h.seen, h.init⟩

/-- The update of the distribution keeps what is needed. -/
theorem Ready.update {env : Env n} {s : Strat n} (h : Ready env s) {sol2 sol3 : Sol n}
    (hcov : sol2.cov = s.sol.cov) (hsc : sol2.sepcov = s.sol.sepcov) (hue : sol2.updatedEigen = s.sol.updatedEigen)
    (hsig : sol2.sigma = s.sol.sigma)
    (hc : covarianceUpdate env.eig s.kind s.p s.es sol2 = .ok sol3) :
    0 < sol3.sigma ∧ (s.p.sep = false → PD sol3.cov ∧ sol3.hasCsq = true) ∧
      (s.p.sep = true → ∀ i, 0 < sol3.sepcov i) := by
  have hg := h.good
  have hst := h.strict
  refine ⟨?_, ?_, ?_⟩
  · rw [covarianceUpdate_sigma hc]
    exact sigmaUpdate_pos (by rw [hsig]; exact h.sigma) _
  · intro hsp
    obtain ⟨f1, f2, f3, f4, f5⟩ := h.full hsp
    rw [← hcov] at f2
    unfold covarianceUpdate at hc
    rcases hk : s.kind with _ | _ | _
    · rw [hk] at hc
      simp only at hc
      rw [if_neg (by simp [hsp])] at hc
      obtain ⟨_, _, csq, hb, _, _, rfl⟩ := covUpdateFull_ok hc
      refine ⟨?_, rfl⟩
      obtain ⟨h3, h4⟩ := covNext_quad (csq := csq) (hb := hb) hg.weights hg.rates f2.psd
      exact ⟨h3, fun x hx => lt_of_lt_of_le (mul_pos (by have := hst.lt_one; linarith) (f2.pos x hx)) (h4 x)⟩
    · rw [hk] at hc
      simp only at hc
      rw [if_neg (by simp [hsp])] at hc
      obtain ⟨_, _, _, _, csq, hb, cm, h1, _, h3, rfl⟩ := acovUpdateFull_ok hc
      refine ⟨?_, rfl⟩
      obtain ⟨g1, g2⟩ := f5 (h.lazy hk)
      unfold csqinvOf at h1
      rw [hue, g1, if_pos rfl, g2, ← hcov] at h1
      exact acovNext_pd env.eig hg.dim hg.weights hg.rates hst f2 hg.muw h1 h3
    · exact absurd hk h.kind
  · intro hsp
    have hs := (h.sep hsp).2
    rw [← hsc] at hs
    unfold covarianceUpdate at hc
    cases hkd : s.kind with
    | vd => exact absurd hkd h.kind
    | plain =>
      rw [hkd] at hc
      simp only [hsp] at hc
      obtain ⟨_, _, csq, hb, _, _, rfl⟩ := covUpdateSep_ok hc
      intro i
      refine lt_of_lt_of_le (mul_pos ?_ (hs i)) (covNextSep_ge hg.weights hg.rates i (hs i).le)
      have := hst.lt_one; linarith
    | active =>
      rw [hkd] at hc
      simp only [hsp] at hc
      obtain ⟨_, _, _, _, csq, hb, cm, h1, _, h3, rfl⟩ := acovUpdateSep_ok hc
      exact acovNextSep_pos hg.weights hg.rates hst hg.muw h1 h3

/-- The state after the update of the distribution is live again. -/
theorem Ready.live {env : Env n} {s : Strat n} (h : Ready env s) {sol3 sol4 : Sol n}
    (e3 : ∃ cs cu su ts bh kb bf mf bs bi ws, sol3 = { s.sol with
        cands := cs, candsUh := cu, suh := su, tpaS := ts, bestHist := bh, kBestHist := kb
        bfvalues := bf, medianFvalues := mf, bestSeen := bs, bestSeenIter := bi, worstSeen := ws })
    (hc : covarianceUpdate env.eig s.kind s.p s.es sol3 = .ok sol4)
    (hl : sol3.cands.length = s.p.lambda) (hs : sol3.bestSeen.isSome = true)
    {sg mx mn : ℝ} {lv : Vec n} {le : Mat n} (hsg : 0 < sol4.sigma → 0 < sg) :
    LiveCore (Strat.incIter { s with sol := { sol4 with
        sigma := sg, maxEigenv := mx, minEigenv := mn, leigenvalues := lv, leigenvectors := le
        hasLeig := true } }) := by
  obtain ⟨cs, cu, su, ts, bh, kb, bf, mf, bs, bi, ws, e3⟩ := e3
  obtain ⟨q1, q2, q3⟩ := h.update (sol2 := sol3) (sol3 := sol4) (by rw [e3]) (by rw [e3])
    (by rw [e3]) (by rw [e3]) hc
  obtain ⟨csq, hc', sc, ps, hs', pc, cov, sep, v, sg', xp, xm, e4⟩ := covarianceUpdate_frame hc
  refine ⟨h.good, h.strict, h.kind, h.vd, h.lazy, h.grad, ?_, h.eig, ?_, hsg q1, ?_, ?_, ?_, ?_, ?_, ?_, ?_⟩
  · have g1 : sol4.tpaP1 = s.sol.tpaP1 := by rw [e4, e3]
    have g2 : sol4.tpaP2 = s.sol.tpaP2 := by rw [e4, e3]
    show sol4.tpaP1 < _ ∧ sol4.tpaP2 < _
    rw [g1, g2]; exact h.tpaPos
  · show sol4.pathsOk = true
    rw [e4, e3]; exact h.paths
  · show sol4.cands.length = _
    rw [e4]; exact hl
  · show sol4.kcand < _
    rw [e4, e3]; exact h.kcand
  · show sol4.niter + 1 = s.niter + 1
    rw [e4, e3, ← h.niter]
  · intro hsp
    obtain ⟨f1, f2, f3, f4, f5⟩ := h.full hsp
    refine ⟨?_, (q2 hsp).1, fun _ => ⟨(q2 hsp).2, f3⟩⟩
    show sol4.hasCov = true
    rw [e4, e3]; exact f1
  · intro hsp
    refine ⟨?_, q3 hsp⟩
    show sol4.hasSep = true
    rw [e4, e3]; exact (h.sep hsp).1
  · intro _
    show sol4.bestSeen.isSome = true
    rw [e4]; exact hs
  · intro i1 i2
    show sol4.initialCand.isSome = true
    rw [e4, e3]; exact h.init i1 i2

/-- `tell` in a ready state, if the ranking succeeds. -/
theorem Ready.tell {env : Env n} {s t : Strat n} (h : Ready env s) (hrk : s.rank env = .ok t)
    (hrl : t.sol.cands.length = s.p.lambda) : ∃ s', s.tell env = .ok s' ∧ LiveCore s'.incIter := by
  obtain ⟨s3, htl⟩ := Strat.tell_total_rank h.good h.strict h.kind h.vd h.paths h.sigma h.kcand h.sep
    (fun hs => ⟨(h.full hs).1, (h.full hs).2.2.1, (h.full hs).2.2.2.1⟩) hrk hrl
  refine ⟨s3, htl, ?_⟩
  obtain ⟨t1, ts, sol3, sol4, k1, k2, k3, k4, k5⟩ := Strat.tell_ok htl
  rw [hrk] at k1
  injection k1 with k1
  subst k1
  obtain ⟨cu, su, cs, e1⟩ := Strat.rank_frame hrk
  obtain ⟨c0, ck, cl, med, _, _, _, _, f3, _⟩ := Sol.updateBest_ok k3
  obtain ⟨_, mx, mn, lv, le, f5⟩ := Strat.tellFinish_ok k5
  rw [f5]
  refine h.live (sol3 := sol3) ?_ k4 ?_ ?_ ?_
  · rw [f3, e1]; exact ⟨_, _, _, _, _, _, _, _, _, _, _, rfl⟩
  · rw [f3]; exact hrl
  · refine (updateBest_seen k3).1 ?_
    rw [e1]
    show s.sol.niter = 0 ∨ s.sol.bestSeen.isSome = true
    by_cases h0 : s.niter = 0
    · left; rw [h.niter, h0]
    · exact Or.inr (h.seen h0)
  · intro h4
    have hal := lt_of_lt_of_le one_pos h.good.one_le_alphathuh
    show 0 < if s.p.uh = true ∧ sol4.suh > 0 then sol4.sigma * s.p.alphathuh else sol4.sigma
    split_ifs
    · positivity
    · exact h4

/-- A generation either succeeds, keeping the invariant, or fails with an error of the transform, provided that
evaluation and ranking succeed. -/
theorem generation_total_core {env : Env n} {s : Strat n} (hL : LiveCore s) (hm : Moved s)
    (hev : ∀ pop s1 phen, s.ask env = .ok (pop, s1) → s1.phenoCols pop = .ok phen →
      ∃ s2, s1.eval env pop phen = .ok s2 ∧ ∃ t, s2.rank env = .ok t ∧ t.sol.cands.length = s.p.lambda) :
    (∃ s', s.generation env = .ok s' ∧ LiveCore s') ∨
      ∃ (x : Vec n) (e : Err), phenoV s.p.gp x = .error e ∧ s.generation env = .error e := by
  obtain ⟨pop, s1, hask, hR⟩ := hL.ready (env := env) hm
  obtain ⟨⟨es, ei, ue, c, nz, x1, x2, p1, p2, e1⟩, hpl⟩ := Strat.ask_frame hask
  unfold Strat.generation
  rw [hask, Out.ok_bind]
  simp only
  cases hph : s1.phenoCols pop with
  | error e =>
    right
    obtain ⟨x, _, hx⟩ := Out.mapM_eq_error hph
    exact ⟨x, e, by rw [e1] at hx; exact hx, rfl⟩
  | ok phen =>
    left
    rw [Out.ok_bind]
    obtain ⟨s2, hev, t, hrk, hrl⟩ := hev pop s1 phen hask hph
    rw [hev, Out.ok_bind]
    obtain ⟨c2, nu, nzuh, lr, cu, cs, e2, hcs, _⟩ := Strat.eval_frame hev
    have hR2 : Ready env s2 := by rw [e2]; exact hR.change
    obtain ⟨s3, htl, h3⟩ := hR2.tell hrk (by rw [hrl, e2, e1])
    exact ⟨s3.incIter, by rw [htl]; rfl, h3⟩

/-- Without uncertainty handling evaluation always succeeds, and the ranking if the values are comparable. -/
theorem generation_total_plain {env : Env n} {s : Strat n} (hL : LiveCore s) (huh : s.p.uh = false)
    (hm : Moved s)
    (hrank : ∀ pop s1 phen s2, s.ask env = .ok (pop, s1) → s1.eval env pop phen = .ok s2 →
      StrictWeakOn candLt s2.sol.cands) :
    (∃ s', s.generation env = .ok s' ∧ LiveCore s' ∧ s'.p = s.p) ∨
      ∃ (x : Vec n) (e : Err), phenoV s.p.gp x = .error e ∧ s.generation env = .error e := by
  have hev : ∀ pop s1 phen, s.ask env = .ok (pop, s1) → s1.phenoCols pop = .ok phen →
      ∃ s2, s1.eval env pop phen = .ok s2 ∧ ∃ t, s2.rank env = .ok t ∧ t.sol.cands.length = s.p.lambda := by
    intro pop s1 phen hask hph
    obtain ⟨⟨es, ei, ue, c, nz, x1, x2, p1, p2, e1⟩, hpl⟩ := Strat.ask_frame hask
    have hphl : phen.length = s.p.lambda := by rw [← hpl]; exact (Out.mapM_length hph).symm
    obtain ⟨s2, hev⟩ := Strat.eval_total (env := env) (s := s1) (cols := pop) (phen := phen)
      (by rw [e1]; exact huh) (by rw [e1]; exact hL.good.lambda) (by rw [e1]; exact hL.cands)
      (by rw [hpl, e1]) (by rw [hphl, e1]) (by
        intro hel
        rw [e1] at hel ⊢
        exact hL.elitist hel)
    have hsw := hrank _ _ _ _ hask hev
    obtain ⟨c2, nu, nzuh, lr, cu, cs, e2, hcs, _⟩ := Strat.eval_frame hev
    obtain ⟨cs', hcs'⟩ : ∃ cs', stableSort candLt s2.sol.cands = .ok cs' := by
      unfold stableSort; rw [if_pos hsw]; exact ⟨_, rfl⟩
    refine ⟨s2, hev, { s2 with sol := { s2.sol with cands := cs' } }, ?_, ?_⟩
    · unfold Strat.rank
      rw [if_neg (by rw [e2, e1]; simp [huh])]
      unfold Sol.sortCandidates
      rw [hcs']; rfl
    · show cs'.length = _
      rw [(stableSort_eq_ok hcs').2.perm.length_eq, e2]
      show cs.length = _
      rw [hcs, e1]; exact hL.cands
  rcases generation_total_core (env := env) hL hm hev with ⟨s', h1, h2⟩ | h
  · obtain ⟨tr, hr⟩ := Strat.generation_run h1
    exact Or.inl ⟨s', h1, h2, (run_p hr).1⟩
  · exact Or.inr h

theorem generation_total {env : Env n} {s : Strat n} (hL : Live s)
    (hrank : ∀ pop s1 phen s2, s.ask env = .ok (pop, s1) → s1.eval env pop phen = .ok s2 →
      StrictWeakOn candLt s2.sol.cands) :
    (∃ s', s.generation env = .ok s' ∧ Live s') ∨
      ∃ (x : Vec n) (e : Err), phenoV s.p.gp x = .error e ∧ s.generation env = .error e := by
  rcases generation_total_plain hL.toLiveCore hL.uh hL.moved hrank with ⟨s', h1, h2, h3⟩ | h
  · exact Or.inl ⟨s', h1, h2, by rw [h3]; exact hL.uh, by rw [h3]; exact hL.tpa⟩
  · exact Or.inr h

/-- No NaN among the candidates kept as references. -/
def RefNum (s : Strat n) : Prop :=
  (∀ c, s.sol.bestSeen = some c → c.fvalue.IsNum) ∧ ∀ c, s.sol.initialCand = some c → c.fvalue.IsNum

theorem negIf_isNum {b : Bool} {v : FVal} (h : v.IsNum) : (negIf b v).IsNum := by
  cases v with
  | nan => exact absurd h (by simp [FVal.IsNum])
  | num a => cases b <;> simp [negIf, FVal.neg, FVal.IsNum]

theorem elitistRef_mem {s : Strat n} {c : Cand n} (h : s.elitistRef = some c) :
    s.sol.bestSeen = some c ∨ s.sol.initialCand = some c := by
  unfold Strat.elitistRef at h
  split_ifs at h
  · exact Or.inr h
  · exact Or.inl h

theorem eval_noNaN {env : Env n} {s s' : Strat n} {cols phen : List (Vec n)} (huh : s.p.uh = false)
    (hl : s.sol.cands.length ≤ cols.length) (hf : ∀ k y, (env.f k y).IsNum) (hr : RefNum s)
    (h : s.eval env cols phen = .ok s') : NoNaN s'.sol.cands := by
  intro c hc
  rcases Strat.eval_values huh hl h c hc with ⟨j, y, e, _⟩ | ⟨_, e⟩
  · rw [e]; exact negIf_isNum (hf j y)
  · rcases elitistRef_mem e with h | h
    · exact hr.1 c h
    · exact hr.2 c h

theorem strictWeakOn_of_noNaN {l : List (Cand n)} (h : NoNaN l) : StrictWeakOn candLt l :=
  (strictWeakOn_fval (fun c : Cand n => c.fvalue) l).2 (Or.inl h)

/-- With an objective that never returns NaN, no generation fails but by the transform. -/
theorem generation_total_num_core {env : Env n} {s : Strat n} (hL : LiveCore s) (huh : s.p.uh = false)
    (hm : Moved s) (hf : ∀ k y, (env.f k y).IsNum) (hr : RefNum s) :
    (∃ s', s.generation env = .ok s' ∧ LiveCore s' ∧ RefNum s' ∧ s'.p = s.p) ∨
      ∃ (x : Vec n) (e : Err), phenoV s.p.gp x = .error e ∧ s.generation env = .error e := by
  have hnn : ∀ pop s1 phen s2, s.ask env = .ok (pop, s1) → s1.eval env pop phen = .ok s2 →
      NoNaN s2.sol.cands := by
    intro pop s1 phen s2 h1 h2
    obtain ⟨⟨es, ei, ue, c, nz, x1, x2, p1, p2, e1⟩, hpl⟩ := Strat.ask_frame h1
    refine eval_noNaN (by rw [e1]; exact huh) ?_ hf ?_ h2
    · rw [hpl, e1]; exact hL.cands.le
    · rw [e1]; exact hr
  rcases generation_total_plain hL huh hm fun pop s1 phen s2 h1 h2 =>
    strictWeakOn_of_noNaN (hnn pop s1 phen s2 h1 h2) with ⟨s', h1, h2, hpp⟩ | h
  · refine Or.inl ⟨s', h1, h2, ?_, hpp⟩
    unfold Strat.generation at h1
    obtain ⟨⟨pop, s1⟩, ha, h1⟩ := Out.bind_eq_ok.1 h1
    obtain ⟨phen, hp, h1⟩ := Out.bind_eq_ok.1 h1
    obtain ⟨s2, he, h1⟩ := Out.bind_eq_ok.1 h1
    obtain ⟨s3, ht, h1⟩ := Out.bind_eq_ok.1 h1
    injection h1 with h1
    subst h1
    have hn := hnn pop s1 phen s2 ha he
    obtain ⟨⟨es, ei, ue, c, nz, x1, x2, p1, p2, e1⟩, hpl⟩ := Strat.ask_frame ha
    obtain ⟨c2, nu, nzuh, lr, cu, cs, e2, hcs, _⟩ := Strat.eval_frame he
    obtain ⟨cs', cu', su, ts, sol3, hs, hb, csq, hc, sc, ps, hs', pc, cov, sep, v, sg, xp, xm, mx, mn, lv, le,
      e3⟩ := Strat.tell_frame ht
    have hcs' := hs (by rw [e2, e1]; exact huh)
    have hperm := (stableSort_eq_ok hcs').2.perm
    refine ⟨fun c hc => ?_, fun c hc => ?_⟩
    · have : s3.incIter.sol.bestSeen = sol3.bestSeen := by rw [e3]; rfl
      rw [this] at hc
      rcases (updateBest_seen hb).2 c hc with h | h
      · exact hn c (hperm.mem_iff.1 h)
      · refine hr.1 c ?_
        rw [e2, e1] at h; exact h
    · refine hr.2 c ?_
      have hrun : AskRun env s [s2.sol.cands] s3.incIter := .turn ha he ht (.refl _)
      obtain ⟨r1, r2, r3, r4, r5, r6, r7, r8, r9, r10⟩ := run_p hrun.run
      rw [← r10]; exact hc
  · exact Or.inr h

theorem generation_total_num {env : Env n} {s : Strat n} (hL : Live s) (hf : ∀ k y, (env.f k y).IsNum)
    (hr : RefNum s) :
    (∃ s', s.generation env = .ok s' ∧ Live s' ∧ RefNum s') ∨
      ∃ (x : Vec n) (e : Err), phenoV s.p.gp x = .error e ∧ s.generation env = .error e := by
  rcases generation_total_num_core hL.toLiveCore hL.uh hL.moved hf hr with ⟨s', h1, h2, h3, h4⟩ | h
  · exact Or.inl ⟨s', h1, ⟨h2, by rw [h4]; exact hL.uh, by rw [h4]; exact hL.tpa⟩, h3⟩
  · exact Or.inr h

theorem generations_total {env : Env n} {s : Strat n} (hL : Live s) (hf : ∀ k y, (env.f k y).IsNum)
    (hr : RefNum s) (k : ℕ) :
    (∃ s', s.generations env k = .ok s' ∧ Live s' ∧ RefNum s' ∧ s'.p = s.p) ∨
      ∃ (x : Vec n) (e : Err), phenoV s.p.gp x = .error e ∧ s.generations env k = .error e := by
  induction k generalizing s with
  | zero => exact Or.inl ⟨s, rfl, hL, hr, rfl⟩
  | succ k ih =>
    unfold Strat.generations
    rcases generation_total_num hL hf hr with ⟨s1, h1, h2, h3⟩ | ⟨x, e, h1, h2⟩
    · rw [h1, Out.ok_bind]
      obtain ⟨tr, hrun⟩ := Strat.generation_run h1
      have hp := (run_p hrun).1
      rcases ih h2 h3 with ⟨s', i1, i2, i3, i4⟩ | ⟨x, e, i1, i2⟩
      · exact Or.inl ⟨s', i1, i2, i3, i4.trans hp⟩
      · exact Or.inr ⟨x, e, by rw [← hp]; exact i1, i2⟩
    · exact Or.inr ⟨x, e, h1, by rw [h2]; rfl⟩

theorem new_tpa {env : Env n} {kind : CovKind} {p : Params n} {s : Strat n}
    (h : Strat.new env kind p = .ok s) : s.sol.tpaP1 = 0 ∧ s.sol.tpaP2 = 1 ∧ s.es.eig = none := by
  unfold Strat.new at h
  obtain ⟨⟨p', sol⟩, hm, h⟩ := Out.bind_eq_ok.1 h
  injection h with h
  subst h
  unfold Sol.make at hm
  obtain ⟨m, _, hm⟩ := Out.bind_eq_ok.1 hm
  by_cases h0 : p.lambda = 0 ∨ n = 0
  · rw [if_pos h0] at hm; cases hm
  rw [if_neg h0] at hm
  injection hm with hm
  injection hm with _ hm
  subst hm
  exact ⟨rfl, rfl, rfl⟩

/-- A fresh strategy is live. -/
theorem liveCore_new {env : Env n} {kind : CovKind} {p : Params n} {s : Strat n} (hu : UsualCore kind p)
    (h : Strat.new env kind p = .ok s) : LiveCore s ∧ RefNum s := by
  obtain ⟨h1, h2, h3, h4, h5, h6, h7, h8, h9, h10, h11, h12, h13, h14, h15, h16, h17, h18, h19, h20⟩ :=
    Strat.new_ok h
  have hg : GoodParams s.p := by rw [h4]; exact hu.configured.with_sigmaInit _
  have hl := hg.lambda
  have hsep : s.p.sep = p.sep := by rw [h4]
  have hlam : s.p.lambda = p.lambda := by rw [h4]
  refine ⟨⟨hg, ?_, h3 ▸ hu.update, ?_, ?_, ?_, ?_, ?_, h14, h5, ?_, ?_, ?_, ?_, ?_, ?_, ?_⟩, ?_, ?_⟩
  · rw [h4]; exact ⟨hu.strict.1, hu.strict.2⟩
  · rw [h4]; exact hu.vd
  · rw [h3, h4]; exact hu.lazy
  · rw [h4]; exact hu.grad
  · rw [(new_tpa h).1, (new_tpa h).2.1]; exact ⟨by omega, by omega⟩
  · intro e he; rw [(new_tpa h).2.2] at he; cases he
  · rw [hlam]; exact h6.cands
  · rw [h16, hlam]; exact kcandOf_lt (by rw [← hlam]; exact hl)
  · rw [h7, h6.niter]
  · intro hs
    rw [hsep] at hs
    exact ⟨by rw [h11, hs, hu.vd]; rfl, by rw [h6.cov]; exact PD_one, fun h => absurd h7 h⟩
  · intro hs
    rw [hsep] at hs
    exact ⟨by rw [h12, hs]; rfl, fun i => by rw [h6.sepcov i]; norm_num⟩
  · intro h; exact absurd h7 h
  · intro a b
    exfalso
    rw [h4, h20] at b
    rw [h4] at a
    simp only [hu.initialElitist, Bool.or_false, Bool.false_and] at a b
    exact hu.elitist ⟨b, a⟩
  · intro c hc; rw [h6.bestSeen] at hc; cases hc
  · intro c hc; rw [h17] at hc; cases hc

theorem live_new {env : Env n} {kind : CovKind} {p : Params n} {s : Strat n} (hu : Usual kind p)
    (h : Strat.new env kind p = .ok s) : Live s ∧ RefNum s := by
  obtain ⟨h1, h2⟩ := liveCore_new hu.toUsualCore h
  exact ⟨⟨h1, by rw [(Strat.new_ok h).2.2.2.1]; exact hu.uh, by rw [(Strat.new_ok h).2.2.2.1]; exact hu.tpa⟩, h2⟩

/-- Executions of any length in which no value is NaN. -/
theorem noNaN_runs {env : Env n} {kind : CovKind} {p : Params n} {s : Strat n} (hu : Usual kind p)
    (hf : ∀ k y, (env.f k y).IsNum) (hg : ∀ x : Vec n, ∃ y : Vec n, phenoV p.gp x = .ok y)
    (h : Strat.new env kind p = .ok s) (k : ℕ) :
    ∃ tr s', Run env s tr s' ∧ tr.length = k ∧ NoNaN tr.flatten := by
  suffices ∃ tr s', Run env s tr s' ∧ tr.length = k ∧ NoNaN tr.flatten ∧ Live s' ∧ RefNum s' ∧ s'.p.gp = p.gp by
    obtain ⟨tr, s', a, b, c, _⟩ := this
    exact ⟨tr, s', a, b, c⟩
  induction k with
  | zero =>
    obtain ⟨h1, h2⟩ := live_new hu h
    exact ⟨[], s, .refl _, rfl, by simp [NoNaN], h1, h2, by rw [(Strat.new_ok h).2.2.2.1]⟩
  | succ k ih =>
    obtain ⟨tr, t, a1, a2, a3, a4, a5, a6⟩ := ih
    rcases generation_total_num a4 hf a5 with ⟨s', g1, g2, g3⟩ | ⟨x, e, h1, _⟩
    · obtain ⟨pop, s1, phen, s2, s3, b1, b2, b3, b4, b5⟩ : ∃ pop s1 phen s2 s3, t.ask env = .ok (pop, s1) ∧
          s1.phenoCols pop = .ok phen ∧ s1.eval env pop phen = .ok s2 ∧ s2.tell env = .ok s3 ∧ s3.incIter = s' := by
        unfold Strat.generation at g1
        obtain ⟨⟨pop, s1⟩, h1, g1⟩ := Out.bind_eq_ok.1 g1
        obtain ⟨phen, h2, g1⟩ := Out.bind_eq_ok.1 g1
        obtain ⟨s2, h3, g1⟩ := Out.bind_eq_ok.1 g1
        obtain ⟨s3, h4, g1⟩ := Out.bind_eq_ok.1 g1
        injection g1 with g1
        exact ⟨pop, s1, phen, s2, s3, h1, h2, h3, h4, g1⟩
      have hrun : Run env t [s2.sol.cands] s' := .ask b1 (.turn b3 b4 (b5 ▸ .refl _))
      obtain ⟨⟨es, ei, ue, c, nz, x1, x2, p1, p2, e1⟩, hpl⟩ := Strat.ask_frame b1
      have hnn : NoNaN s2.sol.cands := eval_noNaN (by rw [e1]; exact a4.uh) (by rw [hpl, e1]; exact a4.cands.le) hf
        (by rw [e1]; exact a5) b3
      refine ⟨tr ++ [s2.sol.cands], s', a1.trans hrun, by simp [a2], ?_, g2, g3, by rw [(run_p hrun).1]; exact a6⟩
      rw [List.flatten_append]
      intro c hc
      rcases List.mem_append.1 hc with hc | hc
      · exact a3 c hc
      · exact hnn c (by simpa using hc)
    · obtain ⟨y, hy⟩ := hg x
      rw [a6, hy] at h1
      cases h1

end Libcmaes
