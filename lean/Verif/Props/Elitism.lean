import Verif.Lemmas.Elitism
import Verif.Props.Total
import Verif.Props.Sampling

/-!
# C39, C40: elitism
-/

namespace Libcmaes

open Spec Matrix

variable {n : ℕ}

/-! ### C39 -/

/-- **C39**, one turn: in elitism mode 1, without uncertainty handling, after a turn whose values are all
numbers, the best candidate of the turn is at least as good as the best seen before, and it has the value of
the best seen now. -/
theorem C39_turn (env : Env n) (s s2 s3 : Strat n) (cols phen : List (Vec n)) (b : Cand n)
    (hmode : ElitismMode s.p 1) (huh : s.p.uh = false) (hm : 0 < s.sol.maxHist) (hit : 0 < s.niter)
    (hb : s.sol.bestSeen = some b) (hl : cols.length = s.sol.cands.length) (h2 : 2 ≤ cols.length)
    (h : s.eval env cols phen = .ok s2) (h' : s2.tell env = .ok s3) (hn : NoNaN s2.sol.cands)
    (hbn : b.fvalue.IsNum) :
    FVal.le s3.incIter.sol.bestCandidate.fvalue b.fvalue ∧
      ∃ b', s3.incIter.sol.bestSeen = some b' ∧ b'.fvalue = s3.incIter.sol.bestCandidate.fvalue :=
  elitist_turn env s s2 s3 cols phen b hmode huh hm hit hb hl h2 h h' hn hbn

/-- **C39**, the loop a user writes: with elitism mode 1 and an objective that never returns NaN, after any
number `k ≥ 1` of generations the best candidate of the next generation is at least as good as the best one
seen before, and is (in value) the best seen. -/
theorem C39_generations (env : Env n) (kind : CovKind) (p : Params n) (s s1 s2 : Strat n) (k : ℕ)
    (hc : Configured p) (hmode : ElitismMode p 1) (huh : p.uh = false) (hf : ∀ k y, (env.f k y).IsNum)
    (h0 : Strat.new env kind p = .ok s) (hk : 1 ≤ k) (h1 : s.generations env k = .ok s1)
    (h2 : s1.generation env = .ok s2) :
    ∃ b b', s1.sol.bestSeen = some b ∧ s2.sol.bestSeen = some b' ∧
      FVal.le s2.sol.bestCandidate.fvalue b.fvalue ∧ b'.fvalue = s2.sol.bestCandidate.fvalue := by
  obtain ⟨i0, n0⟩ := elitistInv_new hc hmode huh h0
  obtain ⟨i1, n1⟩ := i0.generations hf k h1
  obtain ⟨i2, n2, _, a⟩ := i1.generation hf h2
  obtain ⟨b, hb⟩ := Option.isSome_iff_exists.1 (i1.seen (by omega))
  obtain ⟨b', hb', e⟩ := i2.later (by omega)
  exact ⟨b, b', hb, hb', a (by omega) b hb, e⟩

/-- **C39**, `optimize`: with elitism mode 1 and an objective that never returns NaN, a run of at least two
iterations ends with a best candidate whose value is that of the best candidate seen in the whole run, and
not above the value of the starting point. -/
theorem C39_optimize (env : Env n) (kind : CovKind) (p : Params n) (s s' : Strat n) (k : ℕ)
    (hc : Configured p) (hmode : ElitismMode p 1) (huh : p.uh = false) (hf : ∀ k y, (env.f k y).IsNum)
    (h0 : Strat.new env kind p = .ok s) (h : s.optimize env k = .ok (some s')) (hn : 2 ≤ s'.niter) :
    (∃ b, s'.sol.bestSeen = some b ∧ b.fvalue = s'.sol.bestCandidate.fvalue) ∧
      ∃ i, s'.sol.initialCand = some i ∧ FVal.le s'.sol.bestCandidate.fvalue i.fvalue := by
  obtain ⟨i0, n0⟩ := elitistInv_new hc hmode huh h0
  cases k with
  | zero => cases h
  | succ k =>
    obtain ⟨s0, s1, s2, b, g0, g1, g2, g3, g4⟩ := Strat.optimize_succ_ok h
    obtain ⟨i1, n1, c, hc'⟩ := i0.evalInitial hf n0 g0
    have i2 := Strat.loop_induct (I := fun t => ElitistInv t ∧ t.sol.initialCand = some c)
      (fun t b t' hi ht => ⟨hi.1.stop ht, by
        obtain ⟨k, r, e⟩ := Strat.stop_frame ht
        rw [e]; exact hi.2⟩)
      (fun t t' hi ht => ⟨(hi.1.generation hf ht).1, by
        obtain ⟨tr, hr⟩ := Strat.generation_run ht
        rw [(run_p hr).2.2.2.2.2.2.2.2.2]; exact hi.2⟩) _ ⟨i1, hc'⟩ g1
    have hs2 : s2.p = s1.p ∧ s2.niter = s1.niter ∧ s2.sol.bestSeen = s1.sol.bestSeen ∧
        s2.sol.bestCandidate = s1.sol.bestCandidate ∧ s2.sol.initialCand = s1.sol.initialCand := by
      split_ifs at g2
      · obtain ⟨c, e, e2⟩ := Strat.edm_frame g2
        rw [e2]; exact ⟨rfl, rfl, rfl, rfl, rfl⟩
      · injection g2 with g2; rw [g2]; exact ⟨rfl, rfl, rfl, rfl, rfl⟩
    obtain ⟨e1, e2, e3, e4, e5⟩ := hs2
    have hb : b = false := by
      unfold Strat.wantsRestart at g3
      rw [if_neg (by rw [e1, i2.1.mode.flags.2.2]; simp)] at g3
      injection g3 with g3
      exact g3.symm
    rcases g4 with ⟨g4, _⟩ | ⟨_, rfl⟩
    · rw [hb] at g4; cases g4
    · rw [e3, e4, e5]
      obtain ⟨b', hb', hbe⟩ := i2.1.later (by omega)
      obtain ⟨b'', hb'', hbe''⟩ := i2.1.start c i2.2
      rw [hb'] at hb''; injection hb'' with hb''; subst hb''
      exact ⟨⟨b', hb', hbe⟩, c, i2.2, by rw [← hbe]; exact hbe''⟩

/-- The default set-up with `set_elitism(1)`. -/
theorem usual_elitist {x0 : Vec n} {sigma : ℝ} {seed clock : ℕ} {p : Params n} {kind : CovKind}
    (hp : Params.make x0 sigma (-1) seed clock GenoPheno.plain = .ok p) (hk : kind ≠ .vd) :
    Usual kind (p.setElitism 1) ∧ ElitismMode (p.setElitism 1) 1 := by
  obtain ⟨hu, _⟩ := usual_default (by norm_num) hp hk
  refine ⟨⟨⟨.other hu.configured ⟨rfl, rfl, rfl, rfl, rfl, rfl, rfl, rfl, rfl, rfl, rfl, rfl, rfl, rfl, rfl, rfl, rfl⟩,
    ⟨hu.strict.1, hu.strict.2⟩, hu.update, hu.vd, hu.lazy, hu.grad, rfl, ?_⟩, hu.uh, hu.tpa⟩, ?_⟩
  · simp [Params.setElitism]
  · simp [ElitismMode, Params.setElitism]

/-- Such runs exist, of any length, with any objective without NaN. -/
example (hn : 1 ≤ n) (env : Env n) (x0 : Vec n) (hf : ∀ k y, (env.f k y).IsNum) (k : ℕ) :
    ∃ p s s1 s2, Configured p ∧ ElitismMode p 1 ∧ p.uh = false ∧ Strat.new env .plain p = .ok s ∧
      s.generations env k = .ok s1 ∧ s1.generation env = .ok s2 := by
  obtain ⟨p, hp, _⟩ := C11_weights hn x0 1 (-1) 0 0 GenoPheno.plain
  obtain ⟨hu, hm⟩ := usual_elitist (kind := .plain) hp (by decide)
  have hgp : (p.setElitism 1).gp = GenoPheno.plain := (Params.make_plain hp).2.2.2.2.2.2.2.2.2.1
  obtain ⟨s, hs⟩ := new_plain (env := env) (kind := .plain) hgp hu.configured.good.1
  obtain ⟨s2, hs2⟩ : ∃ s2, s.generations env (k + 1) = .ok s2 := by
    rcases C67_total env .plain _ s hu hf hs (k + 1) with h | ⟨x, e, h1, _⟩
    · exact h
    · rw [hgp, phenoV_plain] at h1; cases h1
  obtain ⟨s1, h1, h2⟩ := Strat.generations_succ_last k hs2
  exact ⟨_, s, s1, s2, hu.configured, hm, hu.uh, hs, h1, h2⟩

/-! ### C40 -/

/-- **C40.** Evaluation of a population with a protected candidate `ref` is the evaluation without elitism,
except that, if fewer than half as many candidates as there are (rounded down) are better than `ref`, the
candidate at position 1 is replaced by `ref`.  In particular no call is made and no evaluation is counted for
it. -/
theorem C40_reinjection (env : Env n) (s s' t : Strat n) (cols phen : List (Vec n)) (ref : Cand n)
    (hp : GoodParams s.p) (hr : Reference s ref) (hl : cols.length = s.p.lambda)
    (hc : s.sol.cands.length = s.p.lambda) (hph : phen.length = cols.length)
    (h : s.eval env cols phen = .ok s') (ht : (withoutElitism s).eval env cols phen = .ok t) :
    s' = { t with p := s.p, sol := { t.sol with
      cands := if betterThan ref t.sol.cands < cols.length / 2 then t.sol.cands.set 1 ref
        else t.sol.cands } } := by
  obtain ⟨on, href⟩ := hr.on
  have hlen := Strat.evaluated_length env s cols phen
  by_cases huh : s.p.uh = true
  · obtain ⟨a1, a2, -⟩ := lambdaReev_good env s.p s.nu hp
    rw [eval_uh_eq huh (by omega) (fun _ => by omega) (by omega)] at h
    rw [eval_uh_eq (s := withoutElitism s) huh (by show _ ≤ s.sol.cands.length; omega) (fun _ => by omega)
      (by show Strat.lambdaReevOf s.p _ ≤ _; rw [hl]; exact a2)] at ht
    obtain ⟨t3, ht3, ht⟩ := Out.bind_eq_ok.1 ht
    obtain ⟨s3, hs3, h⟩ := Out.bind_eq_ok.1 h
    injection ht with ht
    injection h with h
    rw [← h, ← ht]
    have hcl : cols.length = (s.evaluated env cols phen).sol.cands.length := by rw [hlen]; omega
    have := fun a b c => reinject_withoutElitism (m := cols.length + Strat.lambdaReevOf s.p (env.u s.nu))
      (ref := ref) a b c hs3 ht3
    exact this on href hcl
  · obtain ⟨s3, h3, e⟩ := Strat.eval_ok (by simpa using huh) h
    obtain ⟨t3, ht3, et⟩ := Strat.eval_ok (s := withoutElitism s) (by show s.p.uh = false; simpa using huh) ht
    rw [e, et]
    exact reinject_withoutElitism (s := s.evaluated env cols phen) on href (by rw [hlen]; omega) h3 ht3

/-- **C40**, when nothing is protected: evaluation is that without elitism. -/
theorem C40_none (env : Env n) (s s' t : Strat n) (cols phen : List (Vec n)) (hp : GoodParams s.p)
    (hr : NoReference s) (hl : cols.length = s.p.lambda) (hc : s.sol.cands.length = s.p.lambda)
    (hph : phen.length = cols.length) (h : s.eval env cols phen = .ok s')
    (ht : (withoutElitism s).eval env cols phen = .ok t) : s' = { t with p := s.p } := by
  have off := hr.off
  by_cases huh : s.p.uh = true
  · obtain ⟨a1, a2, -⟩ := lambdaReev_good env s.p s.nu hp
    rw [eval_uh_eq huh (by omega) (fun _ => by omega) (by omega)] at h
    rw [eval_uh_eq (s := withoutElitism s) huh (by show _ ≤ s.sol.cands.length; omega) (fun _ => by omega)
      (by show Strat.lambdaReevOf s.p _ ≤ _; rw [hl]; exact a2)] at ht
    obtain ⟨t3, ht3, ht⟩ := Out.bind_eq_ok.1 ht
    obtain ⟨s3, hs3, h⟩ := Out.bind_eq_ok.1 h
    injection ht with ht
    injection h with h
    rw [← h, ← ht]
    have := fun a => reinject_withoutElitism_off (m := cols.length + Strat.lambdaReevOf s.p (env.u s.nu))
      a hs3 ht3
    exact this off
  · obtain ⟨s3, h3, e⟩ := Strat.eval_ok (by simpa using huh) h
    obtain ⟨t3, ht3, et⟩ := Strat.eval_ok (s := withoutElitism s) (by show s.p.uh = false; simpa using huh) ht
    rw [e, et]
    exact reinject_withoutElitism_off (s := s.evaluated env cols phen) off h3 ht3

end Libcmaes
