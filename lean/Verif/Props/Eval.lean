import Verif.Lemmas.Calls
import Verif.Props.GenoPheno
import Verif.Props.Total

/-!
# C36-C38: calls to the objective

`calls` of a state is the log of the calls made to the user's objective since the optimiser was created:
`(y, v)` for a call at the point `y` answered by `v`.
-/

namespace Libcmaes

open Spec

variable {n : ℕ}

/-! ### C36 -/

/-- **C36**, hand-written loops: whatever the sequence of ask/eval/tell/stop and whatever the settings, both
counters increase by the number of calls made. -/
theorem C36_run (env : Env n) (s s' : Strat n) (tr : List (List (Cand n))) (h : Run env s tr s') :
    ∃ c, s'.calls = s.calls ++ c ∧ s'.nevals = s.nevals + c.length ∧
      s'.sol.nevals = s.sol.nevals + c.length := by
  have := h.induct (I := fun t _ => ∃ c, t.calls = s.calls ++ c ∧ t.nevals = s.nevals + c.length ∧
      t.sol.nevals = s.sol.nevals + c.length) (past := []) ?_ ?_ ?_ ⟨[], by simp⟩
  · exact this
  · rintro t past pop t' ⟨c, h1, h2, h3⟩ h
    obtain ⟨⟨es, ei, ue, d, nz, x1, x2, p1, p2, e⟩, _⟩ := Strat.ask_frame h
    refine ⟨c ++ d, ?_, ?_, ?_⟩ <;> rw [e] <;> simp [h1, h2, h3] <;> omega
  · rintro t past b t' ⟨c, h1, h2, h3⟩ h
    obtain ⟨k, r, e⟩ := Strat.stop_frame h
    refine ⟨c, ?_, ?_, ?_⟩ <;> rw [e] <;> simp [h1, h2, h3]
  · rintro t past cols phen t2 t3 ⟨c, h1, h2, h3⟩ he ht
    obtain ⟨d, nu, nzuh, lr, cu, cs, e2, _⟩ := Strat.eval_frame he
    obtain ⟨cs', cu', su, ts, sol3, hs, hb, csq, hc, sc, ps, hs', pc, cov, sep, v, sg, xp, xm, mx, mn, lv, le,
      e3⟩ := Strat.tell_frame ht
    obtain ⟨c0, ck, cl, med, _, _, _, _, eb, _⟩ := Sol.updateBest_ok hb
    refine ⟨c ++ d, ?_, ?_, ?_⟩
    · rw [e3, e2]; simp [Strat.incIter, h1]
    · rw [e3, e2]; simp [Strat.incIter, h2]; omega
    · rw [e3, eb, e2]; simp [Strat.incIter, h3]; omega

/-- **C36**, `optimize()` of a search created from parameters: after the run, with all evaluations of
initial points, re-evaluations, numerical gradients and elitist restarts, `fevals()` is the number of
calls. -/
theorem C36_optimize (env : Env n) (kind : CovKind) (p : Params n) (s s' : Strat n) (k : ℕ)
    (h0 : Strat.new env kind p = .ok s) (h : s.optimize env k = .ok (some s')) :
    s'.nevals = s'.calls.length ∧ s'.sol.nevals = s'.calls.length := by
  obtain ⟨_, _, _, _, _, hF, _, hn, hc, _⟩ := Strat.new_ok h0
  refine Strat.optimize_induct (I := fun s => s.nevals = s.calls.length ∧ s.sol.nevals = s.calls.length)
    ?_ ?_ ?_ ?_ k ⟨by rw [hn, hc]; rfl, by rw [hF.nevals, hc]; rfl⟩ h
  · rintro t t' ⟨i1, i2⟩ h
    rcases Strat.evalInitial_frame h with e | ⟨y, v, _, _, e⟩ <;> rw [e]
    · exact ⟨i1, i2⟩
    · simp [i1, i2]
  · rintro t tr t' ⟨i1, i2⟩ h
    obtain ⟨c, e1, e2, e3⟩ := C36_run _ _ _ _ h.run
    rw [e1, e2, e3]; simp [i1, i2]
  · rintro t t' ⟨i1, i2⟩ h
    obtain ⟨c, ed, e⟩ := Strat.edm_frame h
    rw [e]; simp [i1, i2]
  · rintro t t' ⟨i1, i2⟩ h
    obtain ⟨b, p, sol, hb, hm, e⟩ := Strat.elitistRestart_ok h
    rw [e]; exact ⟨i1, i1⟩

/-- What a run of `optimize` keeps when it is part of a restart strategy. -/
theorem optimize_counted {env : Env n} {s s' : Strat n} (k : ℕ)
    (hI : s.nevals = s.calls.length ∧ s.sol.nevals ≤ s.calls.length)
    (h : s.optimize env k = .ok (some s')) :
    s'.nevals = s'.calls.length ∧ s'.sol.nevals ≤ s'.calls.length := by
  refine Strat.optimize_induct (I := fun s => s.nevals = s.calls.length ∧ s.sol.nevals ≤ s.calls.length)
    ?_ ?_ ?_ ?_ k hI h
  · rintro t t' ⟨i1, i2⟩ h
    rcases Strat.evalInitial_frame h with e | ⟨y, v, _, _, e⟩ <;> rw [e]
    · exact ⟨i1, i2⟩
    · simp [i1, i2]
  · rintro t tr t' ⟨i1, i2⟩ h
    obtain ⟨c, e1, e2, e3⟩ := C36_run _ _ _ _ h.run
    rw [e1, e2, e3]; simp [i1, i2]
  · rintro t t' ⟨i1, i2⟩ h
    obtain ⟨c, ed, e⟩ := Strat.edm_frame h
    rw [e]; simp [i1, i2]
  · rintro t t' ⟨i1, i2⟩ h
    obtain ⟨b, p, sol, hb, hm, e⟩ := Strat.elitistRestart_ok h
    rw [e]; exact ⟨i1, i1.le⟩

theorem reset_counted {env : Env n} {s s' : Strat n}
    (hI : s.nevals = s.calls.length ∧ s.sol.nevals ≤ s.calls.length)
    (h : s.resetSearchState env = .ok s') :
    s'.nevals = s'.calls.length ∧ s'.sol.nevals ≤ s'.calls.length := by
  obtain ⟨p, sol, hm, e⟩ := Strat.resetSearchState_ok h
  rw [e]
  refine ⟨hI.1, ?_⟩
  show sol.nevals ≤ _
  rw [(Sol.make_eq_ok hm).2.2.2.1.nevals]
  exact Nat.zero_le _

/-- **C36**, IPOP: the counter of the strategy (which bounds the total budget) is the number of calls over
all restarts.  That of the solution covers the current run only. -/
theorem C36_ipop (env : Env n) (kind : CovKind) (p : Params n) (s s' : Strat n) (k : ℕ)
    (b : Option (Sol n)) (h0 : Strat.new env kind p = .ok s)
    (h : s.ipopOptimize env k = .ok (some (s', b))) :
    s'.nevals = s'.calls.length ∧ s'.sol.nevals ≤ s'.calls.length := by
  obtain ⟨_, _, _, _, _, hF, _, hn, hc, _⟩ := Strat.new_ok h0
  refine Strat.ipopLoop_induct (I := fun s => s.nevals = s.calls.length ∧ s.sol.nevals ≤ s.calls.length)
    (fun _ _ i h => optimize_counted k i h) ?_ (fun _ _ i h => reset_counted i h) _
    ⟨by rw [hn, hc]; rfl, by rw [hF.nevals, hc]; rfl⟩ h
  intro t t' i h
  obtain ⟨q, _, e⟩ := Strat.lambdaInc_ok h
  rw [e]; exact i

/-- **C36**, BIPOP. -/
theorem C36_bipop (env : Env n) (kind : CovKind) (p : Params n) (b : Bipop n) (k : ℕ)
    (l : Bipop.Loop n) (h0 : Bipop.new env kind p = .ok b) (h : b.optimize env k = .ok (some l)) :
    l.b.s.nevals = l.b.s.calls.length ∧ l.b.s.sol.nevals ≤ l.b.s.calls.length := by
  obtain ⟨s, h1, h2, _⟩ := Bipop.new_ok h0
  obtain ⟨_, _, _, _, _, hF, _, hn, hc, _⟩ := Strat.new_ok h1
  refine Bipop.optimize_induct (I := fun s => s.nevals = s.calls.length ∧ s.sol.nevals ≤ s.calls.length)
    (fun _ _ i h => optimize_counted k i h) (fun _ _ i _ => i) (fun _ _ i h => reset_counted i h)
    (reset_counted ⟨by rw [hn, hc]; rfl, by rw [hF.nevals, hc]; rfl⟩ h2) h

/-! ### C37 -/

/-- **C37.** `eval` of a population of points `cols` with phenotypes `phen`, no uncertainty handling: there is an order `o` of execution,
in which each candidate occurs once, such that the calls made are one at the phenotype of each candidate
in that order, answered by the objective, and each candidate (other than a reinjected one) is stored with
its point and the answer of its own call. -/
theorem C37_eval (env : Env n) (s s' : Strat n) (cols phen : List (Vec n)) (huh : s.p.uh = false)
    (hlen : phen.length = cols.length) (h : s.eval env cols phen = .ok s') :
    ∃ o : List ℕ, o.Perm (List.range cols.length) ∧ ∃ c : List (Vec n × FVal),
      s'.calls = s.calls ++ c ∧ c.map Prod.fst = o.map (fun r => phen.getD r 0) ∧
      (∀ j q, c[j]? = some q → q.2 = env.f (s.calls.length + j) q.1) ∧
      ∀ r x, cols[r]? = some x → (r ≠ 1 ∨ s.elitismOn = false) →
        ∃ (j : ℕ) (y : Vec n) (v : FVal), o[j]? = some r ∧ phen[r]? = some y ∧ c[j]? = some (y, v) ∧
          s'.sol.cands[r]? = some ⟨if s.negate then v.neg else v, x, r⟩ := by
  obtain ⟨h1, h2⟩ := Strat.eval_bounds h
  obtain ⟨s3, h3, e⟩ := Strat.eval_ok huh h
  have hcalls : s'.calls = (s.evaluated env cols phen).calls := by
    rw [e]
    show s3.calls = _
    rcases Strat.reinject_frame h3 with h | ⟨_, _, _, h⟩ <;> rw [h]
  have hY : ∀ r < cols.length, colY cols phen r = phen.getD r 0 := by
    intro r hr
    unfold colY
    rw [if_neg]
    · rfl
    · intro he
      rw [List.isEmpty_iff] at he
      rw [he] at hlen
      simp at hlen
      omega
  refine ⟨s.order env cols.length, Strat.order_perm _ _ _, _, hcalls, ?_, ?_, ?_⟩
  · rw [loopCalls_fst]
    exact List.map_congr_left fun r hr => hY r (Strat.mem_order.1 hr)
  · intro j q hq
    rw [loopCalls_getElem?] at hq
    obtain ⟨r, _, hq⟩ := Option.map_eq_some_iff.1 hq
    rw [← hq]
  · intro r x hx hr
    have hrl : r < cols.length := (List.getElem?_eq_some_iff.1 hx).1
    have hro : r ∈ s.order env cols.length := Strat.mem_order.2 hrl
    have hidx := List.getElem?_idxOf hro
    refine ⟨(s.order env cols.length).idxOf r, phen.getD r 0,
      env.f (s.calls.length + (s.order env cols.length).idxOf r) (phen.getD r 0), hidx, ?_, ?_, ?_⟩
    · rw [List.getD_eq_getElem?_getD, List.getElem?_eq_getElem (by omega)]; rfl
    · rw [loopCalls_getElem?, hidx, ← hY r hrl]; rfl
    · have hev := Strat.evaluated_cands (env := env) (phen := phen) h1 r
      rw [if_pos hrl, hY r hrl] at hev
      have hcx : colX cols r = x := by
        unfold colX
        rw [List.getD_eq_getElem?_getD, hx]; rfl
      rw [hcx] at hev
      have : s'.sol.cands[r]? = (s.evaluated env cols phen).sol.cands[r]? := by
        rw [e]
        show s3.sol.cands[r]? = _
        rcases Strat.reinject_frame h3 with h | ⟨c, _, hon, h⟩
        · rw [h]
        · rw [h]
          rcases hr with hr | hr
          · exact List.getElem?_set_ne (Ne.symm hr)
          · have : (s.evaluated env cols phen).elitismOn = s.elitismOn := rfl
            rw [this, hr] at hon
            cases hon
      rw [this, hev]
      rfl

theorem reinject_calls {s : Strat n} (c : List (Vec n × FVal)) (m : ℕ) :
    ({ s with calls := c } : Strat n).reinject m = s.reinject m >>= fun t => .ok { t with calls := c } := by
  have h1 : ({ s with calls := c } : Strat n).improvers m = s.improvers m := rfl
  have h2 : ({ s with calls := c } : Strat n).elitistRef = s.elitistRef := rfl
  have h3 : ({ s with calls := c } : Strat n).elitismOn = s.elitismOn := rfl
  unfold Strat.reinject
  rw [h1, h2, h3]
  simp only
  by_cases a : s.elitismOn = true
  · rw [if_pos a, if_pos a]
    by_cases b : s.sol.cands.length < m
    · rw [if_pos b, if_pos b]; rfl
    · rw [if_neg b, if_neg b]
      by_cases d : s.improvers m < m / 2
      · rw [if_pos d, if_pos d]
        cases s.elitistRef with
        | none => rfl
        | some e =>
          simp only
          by_cases g : s.sol.cands.length ≤ 1
          · rw [if_pos g, if_pos g]; rfl
          · rw [if_neg g, if_neg g]; rfl
      · rw [if_neg d, if_neg d]; rfl
  · rw [if_neg a, if_neg a]; rfl

/-- **C37**, independence of the schedule: for an objective that depends on the point only, `eval` run under
another schedule `env'` of the parallel loop leaves the same state, but for the order of the calls. -/
theorem C37_schedule (env : Env n) (sched' : (k m : ℕ) → {l : List ℕ // l.Perm (List.range m)})
    (s s' : Strat n) (cols phen : List (Vec n)) (huh : s.p.uh = false)
    (hdet : ∀ k y, env.f k y = env.f 0 y) (h : s.eval env cols phen = .ok s') :
    ∃ c, c.Perm s'.calls ∧ s.eval { env with sched := sched' } cols phen = .ok { s' with calls := c } := by
  obtain ⟨h1, h2⟩ := Strat.eval_bounds h
  obtain ⟨s3, h3, e⟩ := Strat.eval_ok huh h
  set env' : Env n := { env with sched := sched' } with henv
  have hcands : (s.evaluated env' cols phen).sol.cands = (s.evaluated env cols phen).sol.cands := by
    apply List.ext_getElem?
    intro r
    rw [Strat.evaluated_cands h1, Strat.evaluated_cands h1]
    show (if r < cols.length then some (Cand.mk (negIf s.negate (env.f _ _)) _ _) else _) = _
    rw [hdet, hdet (s.calls.length + (s.order env cols.length).idxOf r)]
  have hev : s.evaluated env' cols phen =
      { s.evaluated env cols phen with calls := (s.evaluated env' cols phen).calls } := by
    show ({ s with calls := _, sol := { s.sol with cands := (s.evaluated env' cols phen).sol.cands } } : Strat n) = _
    rw [hcands]
    rfl
  have hperm : ((s.evaluated env' cols phen).calls).Perm (s.evaluated env cols phen).calls := by
    have key : ∀ (l : List ℕ) (k : ℕ), loopCalls env.f (colY cols phen) k l =
        l.map fun r => (colY cols phen r, env.f 0 (colY cols phen r)) := by
      intro l
      induction l with
      | nil => intro k; rfl
      | cons r l ih => intro k; rw [loopCalls, ih, hdet k]; rfl
    show (s.calls ++ loopCalls env.f _ _ _).Perm (s.calls ++ loopCalls env.f _ _ _)
    rw [key, key]
    exact (((Strat.order_perm env' s cols.length).trans (Strat.order_perm env s cols.length).symm).map _).append_left _
  refine ⟨(s.evaluated env' cols phen).calls, ?_, ?_⟩
  · have : s'.calls = (s.evaluated env cols phen).calls := by
      rw [e]
      show s3.calls = _
      rcases Strat.reinject_frame h3 with h | ⟨_, _, _, h⟩ <;> rw [h]
    rw [this]; exact hperm
  · unfold Strat.eval
    rw [Strat.eval_loop h1 h2, Out.ok_bind, if_neg (by simp [Strat.evaluated, huh])]
    show ((s.evaluated env' cols phen).reinject cols.length >>= fun s3 =>
      (pure (s3.updateFevals cols.length) : Out (Strat n))) = _
    rw [hev, reinject_calls, h3, Out.ok_bind, Out.ok_bind, e]
    rfl

/-! ### C38 -/

theorem inBox_ofFn {lb ub y : Vec n} :
    InBox (List.ofFn lb) (List.ofFn ub) (List.ofFn y) ↔ ∀ i, lb i ≤ y i ∧ y i ≤ ub i := by
  unfold InBox
  rw [List.forall₂_iff_get, List.forall₂_iff_get]
  constructor
  · rintro ⟨⟨_, h1⟩, ⟨_, h2⟩⟩ i
    have a := h1 i.val (by simp) (by simp)
    have b := h2 i.val (by simp) (by simp)
    simp only [List.get_eq_getElem, List.getElem_ofFn] at a b
    exact ⟨a, b⟩
  · intro h
    refine ⟨⟨by simp, ?_⟩, ⟨by simp, ?_⟩⟩
    · intro i h1 h2; simpa using (h ⟨i, by simpa using h1⟩).1
    · intro i h1 h2; simpa using (h ⟨i, by simpa using h1⟩).2

theorem phenoV_inBox {lb ub : Vec n} {g : GenoPheno}
    (hg : SoundBoxTransform (List.ofFn lb) (List.ofFn ub) g) {x y : Vec n} (h : phenoV g x = .ok y) :
    ∀ i, lb i ≤ y i ∧ y i ≤ ub i := by
  unfold phenoV at h
  obtain ⟨l, h1, h2⟩ := Out.bind_eq_ok.1 h
  rw [toVec_eq_ok] at h2
  subst h2
  exact inBox_ofFn.1 (hg.inBox _ _ (by simp) h1)

theorem callSet_box {env : Env n} {lb ub : Vec n} {g : GenoPheno} {b : Bool}
    (hg : SoundBoxTransform (List.ofFn lb) (List.ofFn ub) g)
    (hb : b = true → env.gfunc = none → ∀ i : Fin n, g.uBound i.val = .ok (ub i)) :
    CallSet (fun y => ∀ i, lb i ≤ y i ∧ y i ≤ ub i) env g b := by
  refine ⟨fun x y h => phenoV_inBox hg h, ?_⟩
  intro h1 h2 y i u hy hu
  rw [hb h1 h2 i] at hu
  injection hu with hu
  subst hu
  intro j
  unfold gradPoint
  by_cases hj : j = i
  · subst hj
    have h3 : 0 ≤ Strat.gradEps y j := by unfold Strat.gradEps; positivity
    have h4 := hy j
    rw [Function.update_self]
    exact ⟨le_min (by linarith) (by linarith), min_le_right _ _⟩
  · rw [Function.update_of_ne hj]; exact hy j

/-- The points at which the objective has been called lie in the box. -/
def CalledInBox (lb ub : Vec n) (s : Strat n) : Prop :=
  ∀ q ∈ s.calls, ∀ i, lb i ≤ q.1 i ∧ q.1 i ≤ ub i

/-- **C38.** With a transform that is sound for the box (which those built from bounds are, see C06), and
without uncertainty handling, all calls to the objective in a run are inside the box: evaluations of
candidates and of initial points, elitist restarts.  Numerical gradients (gradient injection, expected
distance to the minimum) are covered when the internal upper bounds are those of the box. -/
theorem C38_optimize (env : Env n) (kind : CovKind) (p : Params n) (s s' : Strat n) (k : ℕ) (lb ub : Vec n)
    (hg : SoundBoxTransform (List.ofFn lb) (List.ofFn ub) p.gp) (huh : p.uh = false)
    (hgrad : (p.withGradient || p.withEdm) = true → env.gfunc = none →
      ∀ i : Fin n, p.gp.uBound i.val = .ok (ub i))
    (h0 : Strat.new env kind p = .ok s) (h : s.optimize env k = .ok (some s')) :
    CalledInBox lb ub s' :=
  ((RunIn.new huh (callSet_box hg hgrad) h0).optimize k h).calls

/-- **C38**, hand-written loops of ask, pheno, eval, tell. -/
theorem C38_generations (env : Env n) (kind : CovKind) (p : Params n) (s s' : Strat n) (k : ℕ)
    (lb ub : Vec n) (hg : SoundBoxTransform (List.ofFn lb) (List.ofFn ub) p.gp) (huh : p.uh = false)
    (hgrad : p.withGradient = true → env.gfunc = none → ∀ i : Fin n, p.gp.uBound i.val = .ok (ub i))
    (h0 : Strat.new env kind p = .ok s) (h : s.generations env k = .ok s') :
    CalledInBox lb ub s' := by
  obtain ⟨_, _, _, hp, _, _, _, _, hc, _⟩ := Strat.new_ok h0
  have key : ∀ k (t : Strat n), t.p = s.p → CallsIn (fun y => ∀ i, lb i ≤ y i ∧ y i ≤ ub i) t →
      t.generations env k = .ok s' → CallsIn (fun y => ∀ i, lb i ≤ y i ∧ y i ≤ ub i) s' := by
    intro k
    induction k with
    | zero => intro t _ hc h; injection h with h; exact h ▸ hc
    | succ k ih =>
      intro t ht hc h
      unfold Strat.generations at h
      obtain ⟨t1, h1, h⟩ := Out.bind_eq_ok.1 h
      obtain ⟨tr, hr⟩ := Strat.generation_run h1
      refine ih t1 ((run_p hr).1.trans ht) ?_ h
      refine Strat.generation_callsIn (by rw [ht, hp]; exact huh) ?_ h1 hc
      rw [ht, hp]
      exact callSet_box hg hgrad
  exact key k s rfl (by intro q hq; rw [hc] at hq; cases hq) h

/-- **C38**, IPOP. -/
theorem C38_ipop (env : Env n) (kind : CovKind) (p : Params n) (s s' : Strat n) (k : ℕ) (lb ub : Vec n)
    (b : Option (Sol n)) (hg : SoundBoxTransform (List.ofFn lb) (List.ofFn ub) p.gp) (huh : p.uh = false)
    (hgrad : (p.withGradient || p.withEdm) = true → env.gfunc = none →
      ∀ i : Fin n, p.gp.uBound i.val = .ok (ub i))
    (h0 : Strat.new env kind p = .ok s) (h : s.ipopOptimize env k = .ok (some (s', b))) :
    CalledInBox lb ub s' :=
  ((RunIn.new huh (callSet_box hg hgrad) h0).ipop h).calls

/-- **C38**, BIPOP. -/
theorem C38_bipop (env : Env n) (kind : CovKind) (p : Params n) (b : Bipop n) (k : ℕ) (lb ub : Vec n)
    (l : Bipop.Loop n) (hg : SoundBoxTransform (List.ofFn lb) (List.ofFn ub) p.gp) (huh : p.uh = false)
    (hgrad : (p.withGradient || p.withEdm) = true → env.gfunc = none →
      ∀ i : Fin n, p.gp.uBound i.val = .ok (ub i))
    (h0 : Bipop.new env kind p = .ok b) (h : b.optimize env k = .ok (some l)) :
    CalledInBox lb ub l.b.s :=
  ((RunIn.bipopNew huh (callSet_box hg hgrad) h0).bipop h).calls

/-- Transforms built from bounds, unscaled: both hypotheses hold. -/
theorem C38_bounds (lb ub : Vec n) (custom : Option Custom) (h : ∀ i, lb i < ub i) :
    SoundBoxTransform (List.ofFn lb) (List.ofFn ub) (GenoPheno.ofBounds custom (List.ofFn lb) (List.ofFn ub)) ∧
      ∀ i : Fin n, (GenoPheno.ofBounds custom (List.ofFn lb) (List.ofFn ub)).uBound i.val = .ok (ub i) := by
  refine ⟨C06_bounds _ _ _ ?_, fun i => ?_⟩
  · unfold ProperBox
    rw [List.forall₂_iff_get]
    refine ⟨by simp, fun i h1 h2 => by simpa using h ⟨i, by simpa using h1⟩⟩
  · show idx ((List.zipWith PwqCoord.mk' (List.ofFn lb) (List.ofFn ub)).map (·.ub)) i.val = _
    rw [idx_eq_ok]
    simp [PwqCoord.mk'_ub]

/-- The hypotheses of C38 are met by runs of any length: dimension 2, box `[-1,1]^2` reached through a sine,
default parameters, any NaN-free objective. -/
example (k : ℕ) (env : Env 2) (hf : ∀ k y, (env.f k y).IsNum) : ∃ p s s',
    Params.make (fun _ => 0) 0.5 (-1) 1 0 (sineBox 2) = .ok p ∧ p.uh = false ∧
      SoundBoxTransform (List.ofFn fun _ : Fin 2 => (-1 : ℝ)) (List.ofFn fun _ : Fin 2 => (1 : ℝ)) p.gp ∧
      Strat.new env .plain p = .ok s ∧ s.generations env k = .ok s' ∧
      CalledInBox (fun _ => -1) (fun _ => 1) s' := by
  obtain ⟨p, hp, _⟩ := C11_weights (n := 2) (by norm_num) (fun _ => 0) 0.5 (-1) 1 0 (sineBox 2)
  obtain ⟨hu, hgp, _⟩ := usual_default (by norm_num) hp (kind := .plain) (by decide)
  obtain ⟨s, hs⟩ := new_unscaled (env := env) (kind := .plain) (by rw [hgp]; rfl) hu.configured.good.1
  have hb := (C38_bounds (n := 2) (fun _ => -1) (fun _ => 1) (some sineCustom) (by norm_num)).1
  have hg : SoundBoxTransform (List.ofFn fun _ : Fin 2 => (-1 : ℝ)) (List.ofFn fun _ : Fin 2 => (1 : ℝ)) p.gp := by
    rw [hgp]; exact hb
  rcases C67_total env .plain p s hu hf hs k with ⟨s', h⟩ | ⟨x, e, h1, _⟩
  · exact ⟨p, s, s', hp, hu.uh, hg, hs, h, C38_generations env .plain p s s' k _ _ hg hu.uh
      (fun h => by rw [hu.grad] at h; cases h) hs h⟩
  · rw [hgp] at h1
    obtain ⟨y, hy⟩ := phenoV_sineBox x
    rw [hy] at h1; cases h1

end Libcmaes
