import Verif.Lemmas.Total
import Verif.Props.Params
import Verif.Props.Solutions
import Verif.Lemmas.Witness

/-!
# C67: a run does not fail

`Usual` (Spec/Usual.lean) lists the settings.  "Fails" covers every outcome other than a result: an
exception, undefined behaviour, a value that is not a real number.
-/

namespace Libcmaes

open Spec

variable {n : ℕ}

/-! ### C67 -/

/-- **C67.** With the settings of `Usual`, and an objective that never returns NaN (infinities allowed),
any number of generations, under any schedule and any random draws, succeeds, unless the
genotype/phenotype transform fails on some point, in which case the error is that of the transform. -/
theorem C67_total (env : Env n) (kind : CovKind) (p : Params n) (s : Strat n) (hu : Usual kind p)
    (hf : ∀ k y, (env.f k y).IsNum) (h0 : Strat.new env kind p = .ok s) (k : ℕ) :
    (∃ s', s.generations env k = .ok s') ∨
      ∃ (x : Vec n) (e : Err), phenoV p.gp x = .error e ∧ s.generations env k = .error e := by
  obtain ⟨hL, hr⟩ := live_new hu h0
  have hgp : s.p.gp = p.gp := by rw [(Strat.new_ok h0).2.2.2.1]
  rcases generations_total hL hf hr k with ⟨s', h, _⟩ | ⟨x, e, h1, h2⟩
  · exact Or.inl ⟨s', h⟩
  · exact Or.inr ⟨x, e, hgp ▸ h1, h2⟩

/-- **C67**, the default set-up in any dimension: constructing the parameters and the strategy and running
any number of generations never fails, from any starting point, with any step size and seed, whatever
the (NaN-free) objective, for the default and the active update. -/
theorem C67_default (hn : 1 ≤ n) (env : Env n) (kind : CovKind) (x0 : Vec n) (sigma : ℝ) (seed clock : ℕ)
    (hk : kind ≠ .vd) (hf : ∀ k y, (env.f k y).IsNum) :
    ∃ p s, Params.make x0 sigma (-1) seed clock GenoPheno.plain = .ok p ∧ Strat.new env kind p = .ok s ∧
      ∀ k, ∃ s', s.generations env k = .ok s' := by
  obtain ⟨p, hp, _⟩ := C11_weights hn x0 sigma (-1) seed clock GenoPheno.plain
  obtain ⟨hu, hgp, _⟩ := usual_default (by norm_num) hp hk
  obtain ⟨s, hs⟩ := new_plain (env := env) (kind := kind) hgp hu.configured.good.1
  refine ⟨p, s, hp, hs, fun k => ?_⟩
  rcases C67_total env kind p s hu hf hs k with h | ⟨x, e, h1, _⟩
  · exact h
  · rw [hgp, phenoV_plain] at h1; cases h1

/-- The hypotheses are met, e.g. with the sphere function in dimension 3, active update. -/
example : ∃ (env : Env 3), (∀ k y, (env.f k y).IsNum) ∧ CovKind.active ≠ .vd :=
  ⟨Env.basic (fun _ x => .num ((∑ i, x i ^ 2 : ℝ) : EReal)) (fun _ _ => 0), fun _ _ => trivial, by decide⟩

/-! ### C22: a first generation of NaN values -/

/-- The objective: NaN for the first `m` calls, 0 ever after. -/
noncomputable def nanThenZero (m : ℕ) (k : ℕ) (_ : Vec n) : FVal := if k < m then .nan else .num 0

theorem nan_first {env : Env n} {s : Strat n} (hL : Live s) (hf : env.f = nanThenZero s.p.lambda)
    (hc : s.calls = []) (hneg : s.negate = false) (h0 : s.niter = 0) (hb : s.sol.bestSeen = none)
    (hgp : s.p.gp = GenoPheno.plain) :
    ∃ s' c, s.generation env = .ok s' ∧ Live s' ∧ s'.sol.bestSeen = some c ∧ c.fvalue = .nan ∧
      s'.calls.length = s.p.lambda ∧ s'.p = s.p ∧ s'.negate = s.negate := by
  have hnan : ∀ pop s1 phen s2, s.ask env = .ok (pop, s1) → s1.eval env pop phen = .ok s2 →
      ∀ c ∈ s2.sol.cands, c.fvalue = .nan := by
    intro pop s1 phen s2 h1 h2 c hcc
    obtain ⟨⟨es, ei, ue, c1, nz, x1, x2, p1, p2, e1⟩, hpl⟩ := Strat.ask_frame h1
    have hcl := Strat.ask_calls h1 hL.grad
    rcases Strat.eval_values (by rw [e1]; exact hL.uh) (by rw [hpl, e1]; exact hL.cands.le) h2 c hcc with
      ⟨j, y, e, _, hj⟩ | ⟨e, _⟩
    · rw [e]
      have : s1.negate = false := by rw [e1]; exact hneg
      rw [this, hf]
      rw [hcl, hc, hpl] at hj
      simp only [List.length_nil, Nat.zero_add] at hj
      simp [negIf, nanThenZero, hj]
    · exfalso
      unfold Strat.elitismOn at e
      rw [e1] at e
      simp [h0] at e
  rcases generation_total hL fun pop s1 phen s2 h1 h2 =>
    (strictWeakOn_fval (fun c : Cand n => c.fvalue) _).2 (Or.inr fun a ha b hb => by
      rw [hnan _ _ _ _ h1 h2 a ha]; exact FVal.nan_not_lt _) with ⟨s', h1, h2⟩ | ⟨x, e, h1, _⟩
  · have h1' := h1
    unfold Strat.generation at h1
    obtain ⟨⟨pop, s1⟩, ha, h1⟩ := Out.bind_eq_ok.1 h1
    obtain ⟨phen, hp, h1⟩ := Out.bind_eq_ok.1 h1
    obtain ⟨s2, he, h1⟩ := Out.bind_eq_ok.1 h1
    obtain ⟨s3, ht, h1⟩ := Out.bind_eq_ok.1 h1
    injection h1 with h1
    subst h1
    obtain ⟨⟨es, ei, ue, c, nz, x1, x2, p1, p2, e1⟩, hpl⟩ := Strat.ask_frame ha
    obtain ⟨c2, nu, nzuh, lr, cu, cs, e2, hcs, _⟩ := Strat.eval_frame he
    obtain ⟨cs', cu', su, ts, sol3, hs, hb', csq, hc', sc, ps, hs', pc, cov, sep, v, sg, xp, xm, mx, mn, lv, le,
      e3⟩ := Strat.tell_frame ht
    have hcs' := hs (by rw [e2, e1]; exact hL.uh)
    have hperm := (stableSort_eq_ok hcs').2.perm
    have hseen : s3.incIter.sol.bestSeen = sol3.bestSeen := by rw [e3]; rfl
    obtain ⟨s4, h4, e4⟩ := Strat.eval_ok (by rw [e1]; exact hL.uh) he
    obtain ⟨c, hc1⟩ := Option.isSome_iff_exists.1 (h2.seen (by simp [Strat.incIter]))
    refine ⟨_, c, h1', h2, hc1, ?_, ?_, ?_, ?_⟩
    · rw [hseen] at hc1
      rcases (updateBest_seen hb').2 c hc1 with h | h
      · exact hnan _ _ _ _ ha he c (hperm.mem_iff.1 h)
      · exfalso
        have : s2.sol.bestSeen = none := by rw [e2, e1]; exact hb
        rw [show (_ : Option (Cand n)) = s2.sol.bestSeen from rfl, this] at h
        cases h
    · have : s3.incIter.calls = s2.calls := by rw [e3]; rfl
      rw [this, e4]
      have hcl := Strat.ask_calls ha hL.grad
      have : s4.calls = (s1.evaluated env pop phen).calls := by
        rcases Strat.reinject_frame h4 with h | ⟨_, _, _, h⟩ <;> rw [h]
      show s4.calls.length = _
      rw [this]
      simp [Strat.evaluated, loopCalls_length, Strat.order_length, hcl, hc, hpl]
    · rw [e3, e2, e1]; rfl
    · rw [e3, e2, e1]; rfl
  · rw [hgp, phenoV_plain] at h1; cases h1

theorem nan_later {env : Env n} {s : Strat n} {c : Cand n} (hL : Live s)
    (hf : env.f = nanThenZero s.p.lambda) (hc : s.p.lambda ≤ s.calls.length) (hneg : s.negate = false)
    (hb : s.sol.bestSeen = some c) (hnan : c.fvalue = .nan) (hgp : s.p.gp = GenoPheno.plain)
    (hel : s.p.elitist = false) (hel' : s.p.initialElitist = false)
    (hel'' : s.p.initialElitistOnRestart = false) :
    ∃ s', s.generation env = .ok s' ∧ Live s' ∧ s'.sol.bestSeen = some c ∧
      (∀ d ∈ s'.sol.cands, d.fvalue = .num 0) ∧
      s.p.lambda ≤ s'.calls.length ∧ s'.p = s.p ∧ s'.negate = s.negate := by
  have hzero : ∀ pop s1 phen s2, s.ask env = .ok (pop, s1) → s1.eval env pop phen = .ok s2 →
      ∀ d ∈ s2.sol.cands, d.fvalue = .num 0 := by
    intro pop s1 phen s2 h1 h2 c hcc
    obtain ⟨⟨es, ei, ue, c1, nz, x1, x2, p1, p2, e1⟩, hpl⟩ := Strat.ask_frame h1
    have hcl := Strat.ask_calls h1 hL.grad
    rcases Strat.eval_values (by rw [e1]; exact hL.uh) (by rw [hpl, e1]; exact hL.cands.le) h2 c hcc with
      ⟨j, y, e, hj, _⟩ | ⟨e, _⟩
    · rw [e]
      have : s1.negate = false := by rw [e1]; exact hneg
      rw [this, hf]
      rw [hcl] at hj
      have : ¬ j < s.p.lambda := by omega
      simp [negIf, nanThenZero, this]
    · exfalso
      unfold Strat.elitismOn at e
      rw [e1] at e
      simp [hel, hel', hel''] at e
  rcases generation_total hL fun pop s1 phen s2 h1 h2 => strictWeakOn_of_noNaN fun d hd => by
      rw [hzero _ _ _ _ h1 h2 d hd]; trivial with ⟨s', h1, h2⟩ | ⟨x, e, h1, _⟩
  · obtain ⟨tr, hrun⟩ := Strat.generation_run h1
    have hr := run_p hrun
    have hbs := C22_nan_false env s s' _ c hb hnan hrun
    have h1' := h1
    unfold Strat.generation at h1
    obtain ⟨⟨pop, s1⟩, ha, h1⟩ := Out.bind_eq_ok.1 h1
    obtain ⟨phen, hp, h1⟩ := Out.bind_eq_ok.1 h1
    obtain ⟨s2, he, h1⟩ := Out.bind_eq_ok.1 h1
    obtain ⟨s3, ht, h1⟩ := Out.bind_eq_ok.1 h1
    injection h1 with h1
    subst h1
    obtain ⟨⟨es, ei, ue, c, nz, x1, x2, p1, p2, e1⟩, hpl⟩ := Strat.ask_frame ha
    obtain ⟨c2, nu, nzuh, lr, cu, cs, e2, hcs, _⟩ := Strat.eval_frame he
    obtain ⟨cs', cu', su, ts, sol3, hs, hb', csq, hc', sc, ps, hs', pc, cov, sep, v, sg, xp, xm, mx, mn, lv, le,
      e3⟩ := Strat.tell_frame ht
    obtain ⟨c0, ck, cl, med, _, _, _, _, eb, _⟩ := Sol.updateBest_ok hb'
    have hcs' := hs (by rw [e2, e1]; exact hL.uh)
    have hperm := (stableSort_eq_ok hcs').2.perm
    refine ⟨_, h1', h2, hbs, ?_, ?_, hr.1, hr.2.2.2.2.2.2.2.1⟩
    · intro d hd
      have : s3.incIter.sol.cands = cs' := by rw [e3, eb]; rfl
      rw [this] at hd
      exact hzero _ _ _ _ ha he d (hperm.mem_iff.1 hd)
    · have : s3.incIter.calls = s2.calls := by rw [e3]; rfl
      rw [this, e2, e1]
      simp only [List.length_append]
      omega
  · rw [hgp, phenoV_plain] at h1; cases h1

/-- **C22** fails for NaN in a run: with an objective that returns NaN for the calls of the first
generation and 0 ever after, a run of any number of generations from the second on succeeds, all values
of its last population are 0, and yet the best candidate seen is one of value NaN. -/
theorem C22_nan_run (hn : 1 ≤ n) (env : Env n) (x0 : Vec n) (sigma : ℝ) (seed clock : ℕ) :
    ∃ p, Params.make x0 sigma (-1) seed clock GenoPheno.plain = .ok p ∧
      ∀ env' : Env n, env' = { env with f := fun k _ => if k < p.lambda then .nan else .num 0 } →
        ∃ s, Strat.new env' .plain p = .ok s ∧ ∀ k,
          ∃ s' c, s.generations env' (k + 2) = .ok s' ∧ s'.sol.bestSeen = some c ∧ c.fvalue = .nan ∧
            ∀ d ∈ s'.sol.cands, d.fvalue = .num 0 := by
  obtain ⟨p, hp, _⟩ := C11_weights hn x0 sigma (-1) seed clock GenoPheno.plain
  obtain ⟨hu, hgp, _⟩ := usual_default (kind := .plain) (by norm_num) hp (by decide)
  have hel : p.elitist = false ∧ p.initialElitistOnRestart = false ∧ p.maximize = false := by
    unfold Params.make at hp
    obtain ⟨l, -, hm⟩ := Out.bind_eq_ok.1 hp
    obtain ⟨mu, w, muw, cs, cc, c1, cm, ds, fs, fc, ch, lv, rl, al, e⟩ := initializeParameters_frame hm
    rw [e]; exact ⟨rfl, rfl, rfl⟩
  refine ⟨p, hp, fun env' he => ?_⟩
  obtain ⟨s, hs⟩ := new_plain (env := env') (kind := .plain) hgp hu.configured.good.1
  refine ⟨s, hs, ?_⟩
  obtain ⟨hL, _⟩ := live_new hu hs
  obtain ⟨h1, h2, h3, h4, h5, h6, h7, h8, h9, h10, _⟩ := Strat.new_ok hs
  have hlam : s.p.lambda = p.lambda := by rw [h4]
  have hgp' : s.p.gp = GenoPheno.plain := by rw [h4]; exact hgp
  have hf : env'.f = nanThenZero s.p.lambda := by rw [he, hlam]; rfl
  obtain ⟨s1, c, g1, g2, g3, g4, g5, g6, g7⟩ := nan_first hL hf h9 (by rw [h10]; exact hel.2.2) h7
    h6.bestSeen hgp'
  -- all further generations
  have key : ∀ k (t : Strat n), Live t → t.p = s.p → t.negate = false → s.p.lambda ≤ t.calls.length →
      t.sol.bestSeen = some c → ∃ s', t.generations env' (k + 1) = .ok s' ∧ s'.sol.bestSeen = some c ∧
        ∀ d ∈ s'.sol.cands, d.fvalue = .num 0 := by
    intro k
    induction k with
    | zero =>
      intro t hLt hp hneg hcl hb
      obtain ⟨t', i1, i2, i3, i4, i5, i6, i7⟩ := nan_later (s := t) hLt (by rw [hp]; exact hf)
        (by rw [hp]; exact hcl) hneg hb g4 (by rw [hp]; exact hgp') (by rw [hp, h4]; exact hel.1)
        (by rw [hp, h4]; exact hu.initialElitist) (by rw [hp, h4]; exact hel.2.1)
      exact ⟨t', by unfold Strat.generations; rw [i1]; rfl, i3, i4⟩
    | succ k ih =>
      intro t hLt hp hneg hcl hb
      obtain ⟨t', i1, i2, i3, i4, i5, i6, i7⟩ := nan_later (s := t) hLt (by rw [hp]; exact hf)
        (by rw [hp]; exact hcl) hneg hb g4 (by rw [hp]; exact hgp') (by rw [hp, h4]; exact hel.1)
        (by rw [hp, h4]; exact hu.initialElitist) (by rw [hp, h4]; exact hel.2.1)
      obtain ⟨s', j1, j2⟩ := ih t' i2 (i6.trans hp) (i7.trans hneg) (by rw [← hp]; exact i5) i3
      exact ⟨s', by unfold Strat.generations; rw [i1]; exact j1, j2⟩
  intro k
  obtain ⟨s', k1, k2, k3⟩ := key k s1 g2 g6 (by rw [g7, h10]; exact hel.2.2) g5.ge g3
  exact ⟨s', c, by unfold Strat.generations; rw [g1]; exact k1, k2, g4, k3⟩

end Libcmaes
