import Verif.Lemmas.HandLoop
import Verif.Lemmas.RotationRun
import Verif.Props.Total
import Verif.Props.Solutions
import Verif.Props.Distribution
import Verif.Props.Lazy

/-!
# C111: a loop written by hand that asks again, evaluates another number of points or tells again
-/

namespace Libcmaes

open Spec Matrix Filter

variable {n : ℕ}

/-- **C111**, `ask()` twice: the second population is the one the first call would have returned from the next
`lambda` normal vectors, and nothing but the position in the stream of normal vectors differs afterwards: a
population thrown away costs random numbers only. -/
theorem C111_ask_again (env : Env n) (s s1 : Strat n) (pop : List (Vec n)) (hg : s.p.withGradient = false)
    (ht : s.p.tpa ≠ 2 ∨ s.niter = 0)
    (hl : s.p.lazyUpdate = false ∨ s.niter = 0 ∨ s.p.sep = true ∨ s.p.vd = true)
    (hfix : ∀ q ∈ s.p.fixedP, q.1 < n) (h : s.ask env = .ok (pop, s1)) :
    ∃ pop', s1.ask env = .ok (pop', { s1 with nz := s1.nz + s.p.lambda }) ∧
      s.ask (skipDraws env s.p.lambda) = .ok (pop', s1) := by
  obtain ⟨t, pop1, h1, h2, h3⟩ := ask_plain hg ht h
  obtain ⟨es, ei, ue, e1⟩ := Strat.askPrepare_frame h1
  have tp : t.p = s.p := by rw [e1]
  obtain ⟨e2, pop1', h4, h5⟩ := Strat.askSample_again h2
  have s1p : s1.p = s.p := by rw [e2, tp]
  have s1n : s1.niter = s.niter := by rw [e2, e1]
  obtain ⟨pop', h6⟩ : ∃ pop', pop1'.mapM (setFixed s.p.fixedP) = .ok pop' :=
    Out.mapM_ok_of fun x _ => (setFixed_ok_iff _ x).2 hfix
  have hprep : s1.askPrepare env = .ok s1 := by
    rw [e2]; exact Strat.askPrepare_again _ hl h1
  rw [tp] at h4 h5
  refine ⟨pop', Strat.ask_of_parts (by rw [s1p]; exact hg) (by rw [s1p, s1n]; exact ht) hprep h4 (by rw [s1p]; exact h6),
    Strat.ask_of_parts hg ht ?_ h5 h6⟩
  exact h1

/-- **C111**, `ask()` twice under lazy decompositions: if the first call of a later generation was a date of a
decomposition, after a second call `tell()` no longer uses the inverse root of the current covariance but the
stored one, of an earlier decomposition. -/
theorem C111_ask_lazy_false (env : Env n) (s s1 : Strat n) (pop : List (Vec n)) (hg : s.p.withGradient = false)
    (ht : s.p.tpa ≠ 2) (hsep : s.p.sep = false) (hvd : s.p.vd = false) (hlz : s.p.lazyUpdate = true)
    (hlv : 0 ≤ s.p.lazyValue) (hn : s.niter ≠ 0) (hcs : s.sol.hasCsq = true) (hfix : ∀ q ∈ s.p.fixedP, q.1 < n)
    (hd : s1.sol.updatedEigen = true) (h : s.ask env = .ok (pop, s1)) :
    csqinvOf s1.es s1.sol = inverseSqrt (env.eig.solve s.sol.cov) ∧
      ∃ pop' s2, s1.ask env = .ok (pop', s2) ∧ csqinvOf s2.es s2.sol = .ok s.sol.csqinv := by
  obtain ⟨t, pop1, h1, h2, h3⟩ := ask_plain hg (Or.inl ht) h
  obtain ⟨e2, -⟩ := Strat.askSample_frame h2
  obtain ⟨es, ei, ue, e1⟩ := Strat.askPrepare_frame h1
  have s1p : s1.p = s.p := by rw [e2, e1]
  have n1 : s1.niter = s.niter := by rw [e2, e1]
  have hue : t.sol.updatedEigen = true := by rw [e2] at hd; exact hd
  have hcase : s1.es.eig = some (env.eig.solve s.sol.cov) ∧ s1.sol.eigeniter = s1.niter := by
    unfold Strat.askPrepare at h1
    rw [if_pos (by simp [hsep, hvd])] at h1
    split_ifs at h1 with b1 b2
    · injection h1 with h1
      rw [e2, ← h1]; exact ⟨rfl, rfl⟩
    · injection h1 with h1
      rw [← h1] at hue
      exact absurd hue (by simp)
  have k1 : s1.askPrepare env = .ok { s1 with sol := { s1.sol with updatedEigen := false } } := by
    unfold Strat.askPrepare
    rw [if_pos (by rw [s1p]; simp [hsep, hvd]), if_neg (by
      rw [s1p, hcase.2]
      push Not
      refine ⟨by rw [n1]; exact hn, by rw [hlz]; simp, by simpa using hlv⟩)]
  obtain ⟨pop1', t2, k2⟩ : ∃ pop1' t2, ({ s1 with sol := { s1.sol with updatedEigen := false } } : Strat n).askSample env =
      .ok (pop1', t2) := by
    unfold Strat.askSample
    simp only
    rw [if_pos (by rw [s1p]; simp [hsep, hvd]), if_neg (by rw [hcase.1]; simp)]
    exact ⟨_, _, rfl⟩
  obtain ⟨e2', -⟩ := Strat.askSample_frame k2
  obtain ⟨pop', k3⟩ : ∃ pop', pop1'.mapM (setFixed s.p.fixedP) = .ok pop' :=
    Out.mapM_ok_of fun x _ => (setFixed_ok_iff _ x).2 hfix
  refine ⟨?_, pop', t2, Strat.ask_of_parts (by rw [s1p]; exact hg) (Or.inl (by rw [s1p]; exact ht)) k1 k2
    (by rw [s1p]; exact k3), ?_⟩
  · unfold csqinvOf
    rw [if_pos hd, hcase.1]
  · have q0 : t2.sol = { s1.sol with updatedEigen := false } := by rw [e2']
    have q1 : s1.sol.hasCsq = true := by rw [e2, e1]; exact hcs
    have q2 : s1.sol.csqinv = s.sol.csqinv := by rw [e2, e1]
    unfold csqinvOf
    rw [q0]
    simp only
    rw [q1, q2]
    rfl

/-- **C111**, more columns than there are candidates: `eval()` throws `std::out_of_range`, whatever the schedule of
its threads. -/
theorem C111_more (env : Env n) (s : Strat n) (cols phen : List (Vec n))
    (hp : phen ≠ [] → phen.length = cols.length) (hm : s.sol.cands.length < cols.length) :
    s.eval env cols phen = .error .outOfRange := by
  unfold Strat.eval
  rw [Strat.evalFold_outOfRange _ (fun r hr => ?_) ⟨cols.length - 1, Strat.mem_order.2 (by omega), by omega⟩]
  · rfl
  · have := Strat.mem_order.1 hr
    exact ⟨this, fun h => by rw [hp h]; exact this⟩

/-- **C111**, fewer columns: `eval()` succeeds, calls the objective once for each of them, and fills that many
candidates; the others stay those of the previous ranking. -/
theorem C111_fewer (env : Env n) (s : Strat n) (cols phen : List (Vec n)) (huh : s.p.uh = false)
    (hel : s.elitismOn = false) (hp : phen ≠ [] → phen.length = cols.length)
    (hm : cols.length ≤ s.sol.cands.length) :
    ∃ s2, s.eval env cols phen = .ok s2 ∧ s2.sol.cands.drop cols.length = s.sol.cands.drop cols.length ∧
      s2.sol.cands.length = s.sol.cands.length ∧ s2.calls.length = s.calls.length + cols.length ∧
      ∀ (r : ℕ) (hr : r < cols.length), ∃ j v, s.calls.length ≤ j ∧ j < s.calls.length + cols.length ∧
        v = env.f j (if hph : phen = [] then cols[r] else phen[r]'(by rw [hp hph]; exact hr)) ∧
        s2.sol.cands[r]? = some ⟨if s.negate then v.neg else v, cols[r], r⟩ := by
  have hph : phen ≠ [] → cols.length ≤ phen.length := fun h => by rw [hp h]
  have hre : (s.evaluated env cols phen).reinject cols.length = .ok (s.evaluated env cols phen) := by
    unfold Strat.reinject
    rw [if_neg (by
      have : (s.evaluated env cols phen).elitismOn = s.elitismOn := rfl
      rw [this, hel]; simp)]
  have hev : s.eval env cols phen = .ok ((s.evaluated env cols phen).updateFevals cols.length) := by
    unfold Strat.eval
    rw [Strat.eval_loop hm hph, Out.ok_bind, if_neg (by simp [Strat.evaluated, huh])]
    show ((s.evaluated env cols phen).reinject cols.length >>= fun s3 => pure (s3.updateFevals cols.length)) = _
    rw [hre]; rfl
  refine ⟨_, hev, ?_, Strat.evaluated_length env s cols phen, ?_, fun r hr => ?_⟩
  · refine List.ext_getElem? fun i => ?_
    rw [List.getElem?_drop, List.getElem?_drop]
    show (s.evaluated env cols phen).sol.cands[cols.length + i]? = _
    rw [Strat.evaluated_cands hm, if_neg (by omega)]
  · show (s.calls ++ _).length = _
    rw [List.length_append, loopCalls_length, Strat.order_length]
  · refine ⟨s.calls.length + (s.order env cols.length).idxOf r, _, by omega, ?_, rfl, ?_⟩
    · have := List.idxOf_lt_length_of_mem (Strat.mem_order (env := env) (s := s).2 hr)
      rw [Strat.order_length] at this
      omega
    · show (s.evaluated env cols phen).sol.cands[r]? = _
      rw [Strat.evaluated_cands hm, if_pos hr]
      have ex : colX cols r = cols[r] := by
        simp [colX, List.getD, List.getElem?_eq_getElem hr]
      have ey : colY cols phen r = if hph : phen = [] then cols[r] else phen[r]'(by rw [hp hph]; exact hr) := by
        unfold colY
        by_cases h : phen = []
        · rw [dif_pos h, if_pos (by simp [h]), ex]
        · have hr' : r < phen.length := by rw [hp h]; exact hr
          rw [dif_neg h, if_neg (by simpa using h)]
          simp [colX, List.getD, List.getElem?_eq_getElem hr']
      rw [ex, ey]
      rfl

/-- **C111**, what `tell()` does with them: it ranks the new candidates together with the old ones that were left,
and recombines the best of both. -/
theorem C111_fewer_tell (env : Env n) (s s2 s3 : Strat n) (cols phen : List (Vec n)) (huh : s.p.uh = false)
    (hel : s.elitismOn = false) (hw : GoodWeights s.p) (hmx : 0 < s.sol.maxHist)
    (he : s.eval env cols phen = .ok s2) (ht : s2.tell env = .ok s3) :
    ∃ new : List (Cand n), new.map (·.x) = cols ∧ Ranked (new ++ s.sol.cands.drop cols.length) s3.sol.cands ∧
      ∃ hmu : s.p.mu ≤ s3.sol.cands.length, ∀ k, s3.sol.xmean k = ∑ i : Fin s.p.mu,
        s.p.weights i * (s3.sol.cands[i.val]'(lt_of_lt_of_le i.2 hmu)).x k := by
  obtain ⟨hm, hph⟩ := Strat.eval_bounds he
  obtain ⟨t3, h3, e⟩ := Strat.eval_ok huh he
  have e3 : t3 = s.evaluated env cols phen := by
    unfold Strat.reinject at h3
    rw [if_neg (by
      have : (s.evaluated env cols phen).elitismOn = s.elitismOn := rfl
      rw [this, hel]; simp)] at h3
    injection h3 with h3
    exact h3.symm
  have hp2 : s2.p = s.p := by rw [e, e3]; rfl
  have hc2 : s2.sol.cands = (s.evaluated env cols phen).sol.cands := by rw [e, e3]; rfl
  have hm2 : s2.sol.maxHist = s.sol.maxHist := by rw [e, e3]; rfl
  obtain ⟨hr, -, -⟩ := C20_tell_ranks env s2 s3 (by rw [hp2]; exact huh) (by rw [hm2]; exact hmx) ht
  obtain ⟨hx, -⟩ := C25_mean_convex env s2 s3 (by rw [hp2]; exact hw) ht
  rw [hp2] at hx
  refine ⟨s2.sol.cands.take cols.length, ?_, ?_, hx⟩
  · refine List.ext_getElem? fun r => ?_
    rw [List.getElem?_map, List.getElem?_take]
    by_cases hrc : r < cols.length
    · rw [if_pos hrc, hc2, Strat.evaluated_cands hm, if_pos hrc, List.getElem?_eq_getElem hrc]
      simp [colX, List.getD, List.getElem?_eq_getElem hrc]
    · rw [if_neg hrc, List.getElem?_eq_none_iff.2 (by omega)]; rfl
  · have : s2.sol.cands.take cols.length ++ s.sol.cands.drop cols.length = s2.sol.cands := by
      have hd : s.sol.cands.drop cols.length = s2.sol.cands.drop cols.length := by
        refine List.ext_getElem? fun i => ?_
        rw [List.getElem?_drop, List.getElem?_drop, hc2, Strat.evaluated_cands hm, if_neg (by omega)]
      rw [hd, List.take_append_drop]
    rw [this]; exact hr

/-- **C111**, fewer columns in the first generation: the other candidates have no value yet (NaN), and as soon as
two of the evaluated ones differ `tell()` sorts with a comparison that is no ordering, undefined behaviour. -/
theorem C111_fresh (env : Env n) (kind : CovKind) (p : Params n) (s s2 : Strat n) (cols phen : List (Vec n))
    (huh : p.uh = false) (h0 : Strat.new env kind p = .ok s) (hm : cols.length < p.lambda)
    (he : s.eval env cols phen = .ok s2)
    (hv : ∃ a ∈ s2.sol.cands, ∃ b ∈ s2.sol.cands, FVal.lt a.fvalue b.fvalue) : s2.tell env = .error .ub := by
  obtain ⟨_, _, _, hsp, _, hfr, hn0, _⟩ := Strat.new_ok h0
  have huh' : s.p.uh = false := by rw [hsp]; exact huh
  have hbl : s.sol.cands = List.replicate p.lambda Cand.blank := new_cands h0
  obtain ⟨hm', hph⟩ := Strat.eval_bounds he
  obtain ⟨t3, h3, e⟩ := Strat.eval_ok huh' he
  have e3 : t3 = s.evaluated env cols phen := by
    unfold Strat.reinject at h3
    rw [if_neg (by
      have : (s.evaluated env cols phen).elitismOn = s.elitismOn := rfl
      rw [this]; unfold Strat.elitismOn; rw [hn0]; simp)] at h3
    injection h3 with h3
    exact h3.symm
  have hp2 : s2.p = s.p := by rw [e, e3]; rfl
  have hc2 : s2.sol.cands = (s.evaluated env cols phen).sol.cands := by rw [e, e3]; rfl
  have hlast : (Cand.blank : Cand n) ∈ s2.sol.cands := by
    rw [hc2]
    refine List.mem_of_getElem? (i := cols.length) ?_
    rw [Strat.evaluated_cands hm', if_neg (lt_irrefl _), hbl, List.getElem?_replicate, if_pos hm]
  have hnot : ¬ StrictWeakOn candLt s2.sol.cands := by
    intro hsw
    rcases (strictWeakOn_fval (fun c : Cand n => c.fvalue) s2.sol.cands).1 hsw with h | h
    · exact absurd (h _ hlast) (by simp [Cand.blank, FVal.IsNum])
    · obtain ⟨a, ha, b, hb, hab⟩ := hv
      exact h a ha b hb hab
  have hr : s2.rank env = .error .ub := by
    unfold Strat.rank
    rw [if_neg (by rw [hp2, huh']; simp)]
    unfold Sol.sortCandidates stableSort
    rw [if_neg hnot]
    rfl
  unfold Strat.tell
  rw [hr]
  rfl

/-- **C111**, `tell()` again: with the full covariance every further call without an evaluation succeeds, keeps the
candidates and the mean, shortens both evolution paths by their constant factors and multiplies the step size
accordingly. -/
theorem C111_tell_again (env : Env n) (s s1 : Strat n) (hg : GoodParams s.p) (hst : StrictRates s.p)
    (hk : s.kind ≠ .vd) (hvd : s.p.vd = false) (hsep : s.p.sep = false) (huh : s.p.uh = false)
    (hsig : 0 < s.sol.sigma) (hlen : s.sol.cands.length = s.p.lambda) (h1 : s.tell env = .ok s1) (k : ℕ) :
    ∃ u, tellAgain env s1 k = .ok u ∧ u.sol.cands = s1.sol.cands ∧ u.sol.xmean = s1.sol.xmean ∧
      u.sol.psigma = (1 - s.p.csigma) ^ k • s1.sol.psigma ∧ u.sol.pc = (1 - s.p.cc) ^ k • s1.sol.pc ∧
      (s.p.tpa < 2 → u.sol.sigma = s1.sol.sigma * Real.exp (s.p.csigma / s.p.dsigma *
        ∑ j ∈ Finset.range k, ((1 - s.p.csigma) ^ (j + 1) * vnorm s1.sol.psigma / s.p.chi - 1))) ∧
      u.calls = s1.calls ∧ u.niter = s1.niter := by
  obtain ⟨t, u, hu, _, _, _, _, _, _, _, r⟩ := tellAgain_spec hg hst hk hvd hsep huh hsig hlen h1 k
  exact ⟨u, hu, r⟩

/-- **C111**, hence `tell()` again and again drives the step size to zero, without a single call of the objective. -/
theorem C111_tell_shrinks (env : Env n) (s s1 : Strat n) (hg : GoodParams s.p) (hst : StrictRates s.p)
    (hk : s.kind ≠ .vd) (hvd : s.p.vd = false) (hsep : s.p.sep = false) (huh : s.p.uh = false) (htpa : s.p.tpa < 2)
    (hsig : 0 < s.sol.sigma) (hlen : s.sol.cands.length = s.p.lambda) (h1 : s.tell env = .ok s1) (ε : ℝ) (hε : 0 < ε) :
    ∃ K, ∀ k ≥ K, ∃ u, tellAgain env s1 k = .ok u ∧ 0 < u.sol.sigma ∧ u.sol.sigma < ε ∧ u.calls = s1.calls := by
  have hc := hg.rates.csigma_pos
  have hc1 := hg.rates.csigma_lt
  have hd := hg.rates.dsigma_pos
  set A := vnorm s1.sol.psigma / s.p.chi with hA
  have hA0 : 0 ≤ A := div_nonneg (Real.sqrt_nonneg _) hg.chi.le
  have hs1 : 0 < s1.sol.sigma := (tell_again_total hg hst hk hvd hsep huh hsig hlen h1).1
  have hlim : Tendsto (fun k : ℕ => s1.sol.sigma * Real.exp (s.p.csigma / s.p.dsigma * (A / s.p.csigma - k))) atTop (nhds 0) := by
    have t1 : Tendsto (fun k : ℕ => s.p.csigma / s.p.dsigma * (A / s.p.csigma - (k : ℝ))) atTop atBot :=
      Tendsto.const_mul_atBot (div_pos hc hd)
        (tendsto_atBot_add_const_left _ (A / s.p.csigma) (tendsto_neg_atTop_atBot.comp tendsto_natCast_atTop_atTop) |>.congr fun k => by
          simp [sub_eq_add_neg])
    have t2 := (Real.tendsto_exp_atBot.comp t1).const_mul s1.sol.sigma
    rw [mul_zero] at t2
    exact t2
  obtain ⟨K, hK⟩ := eventually_atTop.1 (hlim.eventually (gt_mem_nhds hε))
  refine ⟨K, fun k hk' => ?_⟩
  obtain ⟨u, hu, _, _, _, _, hs, hcl, _⟩ := C111_tell_again env s s1 hg hst hk hvd hsep huh hsig hlen h1 k
  have hs := hs htpa
  refine ⟨u, hu, by rw [hs]; positivity, lt_of_le_of_lt ?_ (hK k hk'), hcl⟩
  rw [hs]
  refine mul_le_mul_of_nonneg_left (Real.exp_le_exp.2 (mul_le_mul_of_nonneg_left ?_ (div_pos hc hd).le)) hs1.le
  have hgeo : ∑ j ∈ Finset.range k, (1 - s.p.csigma) ^ (j + 1) ≤ 1 / s.p.csigma := by
    have h0 : ∑ j ∈ Finset.range k, (1 - s.p.csigma) ^ (j + 1) ≤ ∑ j ∈ Finset.range k, (1 - s.p.csigma) ^ j :=
      Finset.sum_le_sum fun j _ => pow_le_pow_of_le_one (by linarith) (by linarith) (Nat.le_succ j)
    refine h0.trans ?_
    have hne : (1 - s.p.csigma) ≠ 1 := by linarith
    rw [geom_sum_eq hne, show (1 - s.p.csigma) - 1 = -s.p.csigma by ring, div_neg, ← neg_div, neg_sub]
    exact div_le_div_of_nonneg_right (by have := pow_nonneg (by linarith : (0:ℝ) ≤ 1 - s.p.csigma) k; linarith) hc.le
  have : ∑ j ∈ Finset.range k, ((1 - s.p.csigma) ^ (j + 1) * vnorm s1.sol.psigma / s.p.chi - 1) =
      A * ∑ j ∈ Finset.range k, (1 - s.p.csigma) ^ (j + 1) - k := by
    rw [Finset.sum_sub_distrib, Finset.mul_sum]
    simp only [Finset.sum_const, Finset.card_range, nsmul_eq_mul, mul_one]
    congr 1
    exact Finset.sum_congr rfl fun j _ => by rw [hA]; ring
  rw [this]
  have := mul_le_mul_of_nonneg_left hgeo hA0
  rw [mul_one_div] at this
  linarith

/-! ### The hypotheses are met -/

/-- A default strategy: `ask` again, `eval` of too many columns, and after the first generation `tell` again. -/
example (hn : 1 ≤ n) (env : Env n) (hf : ∀ k y, (env.f k y).IsNum) (x0 : Vec n) :
    ∃ (s s1 s2 s3 : Strat n) (pop phen : List (Vec n)), s.ask env = .ok (pop, s1) ∧ s1.eval env pop phen = .ok s2 ∧
      s2.tell env = .ok s3 ∧
      (∃ pop', s1.ask env = .ok (pop', { s1 with nz := s1.nz + s.p.lambda })) ∧
      s1.eval env (pop ++ pop) [] = .error .outOfRange ∧
      (∃ s2', s1.eval env (pop.take 1) [] = .ok s2') ∧
      ∃ K, ∀ k ≥ K, ∃ u, tellAgain env s3 k = .ok u ∧ u.sol.sigma < 1e-9 := by
  obtain ⟨p, hp, _⟩ := C11_weights hn x0 1 (-1) 0 0 GenoPheno.plain
  obtain ⟨hu, hgp, hfx, _⟩ := usual_default (kind := .plain) (by norm_num) hp (by simp)
  obtain ⟨a1, a2, a3, a4, a5, a6, a7, a8, a9, _⟩ := Params.make_plain hp
  obtain ⟨s, hs⟩ := new_plain (env := env) (kind := .plain) hgp hu.configured.good.1
  obtain ⟨_, _, hk, hsp, hsig, hfr, hn0, _⟩ := Strat.new_ok hs
  obtain ⟨s', hs'⟩ : ∃ s', s.generation env = .ok s' := by
    rcases C67_total env .plain p s hu hf hs 1 with ⟨s', h⟩ | ⟨x, e, h1, _⟩
    · obtain ⟨t, h1, h2⟩ := Out.bind_eq_ok.1 h
      exact ⟨t, h1⟩
    · rw [hgp, phenoV_plain] at h1; cases h1
  obtain ⟨pop, s1, phen, s2, s3, h1, h2, h3, h4, _⟩ := generation_parts hs'
  obtain ⟨hsep, hvd⟩ := Params.make_flags hp
  have htpa : p.tpa < 2 := by rw [Params.make_tpa hp]; norm_num
  obtain ⟨⟨es, ei, ue, c, nz, x1, x2, p1, p2, e1⟩, hlen⟩ := Strat.ask_frame h1
  obtain ⟨c', nu, nzuh, lr, cu, cs, e2, hcs, _⟩ := Strat.eval_frame h3
  have l1 : s1.sol.cands.length = s.p.lambda := by rw [e1]; show s.sol.cands.length = _; rw [hfr.cands, hsp]
  have p1' : s1.p = s.p := by rw [e1]
  have p2' : s2.p = s.p := by rw [e2, p1']
  have hg : GoodParams s.p := by rw [hsp]; exact hu.configured.with_sigmaInit _
  have hla := hg.lambda
  have hel : s1.elitismOn = false := by
    have : s1.niter = 0 := by rw [e1]; exact hn0
    unfold Strat.elitismOn; rw [this]; simp
  obtain ⟨pop', hq, -⟩ := C111_ask_again env s s1 pop (by rw [hsp]; exact a2) (Or.inr hn0) (Or.inr (Or.inl hn0)) hg.fixed_lt h1
  obtain ⟨s2', hf', -⟩ := C111_fewer env s1 (pop.take 1) [] (by rw [p1', hsp]; exact a1) hel (fun h => absurd rfl h)
    (by rw [l1]; simp; omega)
  obtain ⟨K, hK⟩ := C111_tell_shrinks env s2 s3 (by rw [p2']; exact hg) (by rw [p2', hsp]; exact ⟨hu.strict.lt_one, hu.strict.active⟩)
    (by rw [e2, e1]; show s.kind ≠ _; rw [hk]; simp) (by rw [p2', hsp]; exact hvd) (by rw [p2', hsp]; exact hsep)
    (by rw [p2', hsp]; exact a1) (by rw [p2', hsp]; exact htpa) (by rw [e2, e1]; exact hsig)
    (by rw [p2', e2]; show cs.length = _; rw [hcs, l1]) h4 1e-9 (by norm_num)
  exact ⟨s, s1, s2, s3, pop, phen, h1, h3, h4, ⟨pop', hq⟩, C111_more env s1 (pop ++ pop) [] (fun h => absurd rfl h)
    (by rw [l1, List.length_append, hlen]; omega), ⟨s2', hf'⟩, K, fun k hk => by
      obtain ⟨u, q1, _, q2, _⟩ := hK k hk; exact ⟨u, q1, q2⟩⟩

/-- A first generation with two columns out of seven. -/
example (hn : 1 ≤ n) (x0 a b : Vec n) : ∃ p s s2, Params.make x0 1 7 0 0 GenoPheno.plain = .ok p ∧
    Strat.new (Env.basic (fun k _ => .num k) fun _ _ => 0) .plain p = .ok s ∧
    s.eval (Env.basic (fun k _ => .num k) fun _ _ => 0) [a, b] [] = .ok s2 ∧
    s2.tell (Env.basic (fun k _ => .num k) fun _ _ => 0) = .error .ub := by
  set env : Env n := Env.basic (fun k _ => .num k) fun _ _ => 0 with henv
  obtain ⟨p, hp, hl, _⟩ := C11_weights hn x0 1 7 0 0 GenoPheno.plain
  have hl7 : p.lambda = 7 := by
    unfold lambdaOf at hl
    rw [if_neg (by norm_num)] at hl
    injection hl with hl
    exact hl.symm
  obtain ⟨a1, a2, a3, a4, a5, a6, a7, a8, a9, a10, _⟩ := Params.make_plain hp
  obtain ⟨s, hs⟩ := new_plain (env := env) (kind := .plain) a10 (Configured.make hp).good.1
  obtain ⟨_, _, hk, hsp, hsig, hfr, hn0, _, hcl, hneg, _⟩ := Strat.new_ok hs
  have hel : s.elitismOn = false := by unfold Strat.elitismOn; rw [hn0]; simp
  obtain ⟨s2, he, _, _, _, hv⟩ := C111_fewer env s [a, b] [] (by rw [hsp]; exact a1) hel (fun h => absurd rfl h)
    (by rw [hfr.cands, hl7]; simp)
  refine ⟨p, s, s2, hp, hs, he, C111_fresh env .plain p s s2 [a, b] [] a1 hs (by rw [hl7]; simp) he ?_⟩
  have hord : s.order env 2 = [0, 1] := by
    unfold Strat.order
    split_ifs <;> rfl
  have hev : s2.sol.cands = (s.evaluated env [a, b] []).sol.cands := by
    obtain ⟨t3, h3, e⟩ := Strat.eval_ok (by rw [hsp]; exact a1) he
    unfold Strat.reinject at h3
    rw [if_neg (by
      have : (s.evaluated env [a, b] []).elitismOn = s.elitismOn := rfl
      rw [this, hel]; simp)] at h3
    injection h3 with h3
    rw [e, ← h3]; rfl
  have hc : ∀ r : ℕ, r < 2 → ∃ c ∈ s2.sol.cands, c.fvalue = .num (r : EReal) := by
    intro r hr
    have := Strat.evaluated_cands (env := env) (s := s) (cols := [a, b]) (phen := []) (by rw [hfr.cands, hl7]; simp) r
    rw [if_pos (by simpa using hr), ← hev] at this
    refine ⟨_, List.mem_of_getElem? this, ?_⟩
    show negIf s.negate (env.f (s.calls.length + (s.order env 2).idxOf r) _) = _
    rw [hord, hneg, a8, hcl]
    show FVal.num _ = _
    interval_cases r <;> simp
  obtain ⟨c0, m0, v0⟩ := hc 0 (by norm_num)
  obtain ⟨c1, m1, v1⟩ := hc 1 (by norm_num)
  refine ⟨c0, m0, c1, m1, ?_⟩
  rw [v0, v1]
  simp [FVal.lt]

/-- Lazy decompositions of period two: in the third generation the inverse root after a second `ask` is the stored
one. -/
example (env : Env 18) (hf : ∀ k y, (env.f k y).IsNum) (x0 : Vec 18) : ∃ (s s1 s2 : Strat 18) (pop pop' : List (Vec 18)),
    s.niter = 2 ∧ s.ask env = .ok (pop, s1) ∧ s1.ask env = .ok (pop', s2) ∧
      csqinvOf s1.es s1.sol = inverseSqrt (env.eig.solve s.sol.cov) ∧ csqinvOf s2.es s2.sol = .ok s.sol.csqinv := by
  obtain ⟨p, s0, hp, hs, hP, hc, h1, h2, h3, h4, h5, h6, h7, htot⟩ := lazy_two env hf x0 1 0 0
  obtain ⟨t3, ht3⟩ := htot 3
  obtain ⟨s, hs2, hg⟩ := Strat.generations_succ_last 2 ht3
  obtain ⟨r, hr, hgr⟩ := Strat.generations_succ_last 1 hs2
  obtain ⟨pop, s1, phen, s2, s3, k1, k2, k3, k4, _⟩ := generation_parts hg
  obtain ⟨pop0, r1, phen0, r2, r3, j1, j2, j3, j4, j5⟩ := generation_parts hgr
  obtain ⟨_, _, hk, hsp, hsig, hfr, hn0, _⟩ := Strat.new_ok hs
  obtain ⟨tr, htr, hrun⟩ := Strat.generations_run 2 hs2
  obtain ⟨tr', htr', hrun'⟩ := Strat.generations_run 1 hr
  obtain ⟨q1, _, _, q2, _, q3, _⟩ := run_p hrun
  obtain ⟨q1', _, _, _, _, q3', _⟩ := run_p hrun'
  have hn2 : s.niter = 2 := by rw [q2, hn0, htr]
  obtain ⟨t, b1, b2, b3, b4⟩ := ask_es k1
  obtain ⟨u, _, _, _, b5⟩ := lazy_ask hn0 (by rw [hsp]; exact h1) (by rw [hsp]; exact h2) (by rw [hsp]) 2 hs2 b1
  have hP' : lazyPeriod s0.p = 2 := by rw [← hP, hsp]; rfl
  have hd : s1.sol.updatedEigen = true := by rw [b4, b5, hP']; simp
  obtain ⟨⟨es, ei, ue, c, nz, x1, x2, p1, p2, f1⟩, _⟩ := Strat.ask_frame j1
  obtain ⟨c', nu, nzuh, lr, cu, cs, f2, _⟩ := Strat.eval_frame j3
  have hcsq : s.sol.hasCsq = true := by
    have := tell_hasCsq (by rw [f2, f1]; show r.kind ≠ _; rw [q3', hk]; simp)
      (by rw [f2, f1]; show r.p.sep = _; rw [q1', hsp]; exact h1) j4
    rw [j5]; exact this
  obtain ⟨g1, pop', s2', g2, g3⟩ := C111_ask_lazy_false env s s1 pop (by rw [q1, hsp]; exact h3) (by rw [q1, hsp]; exact h4)
    (by rw [q1, hsp]; exact h1) (by rw [q1, hsp]; exact h2) (by rw [q1, hsp]) (by
      rw [q1, hsp]
      show 0 ≤ p.lazyValue
      rw [(make_two hp).2.2.2]; positivity) (by rw [hn2]; norm_num) hcsq
    (by rw [q1, hsp]; exact (hc.with_sigmaInit _).fixed_lt) hd k1
  exact ⟨s, s1, s2', pop, pop', hn2, k1, g2, g1, g3⟩

end Libcmaes
