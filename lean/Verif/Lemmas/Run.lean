import Verif.Lemmas.Tell

/-! # Induction over executions -/

namespace Libcmaes

open Spec

variable {n : ℕ}

theorem Spec.Run.trans {env : Env n} {s s1 s2 : Strat n} {t1 t2 : List (List (Cand n))}
    (h1 : Run env s t1 s1) (h2 : Run env s1 t2 s2) : Run env s (t1 ++ t2) s2 := by
  induction h1 with
  | refl => simpa using h2
  | ask h _ ih => exact .ask h (ih h2)
  | stop h _ ih => exact .stop h (ih h2)
  | turn h h' _ ih => exact .turn h h' (ih h2)

theorem Spec.AskRun.trans {env : Env n} {s s1 s2 : Strat n} {t1 t2 : List (List (Cand n))}
    (h1 : AskRun env s t1 s1) (h2 : AskRun env s1 t2 s2) : AskRun env s (t1 ++ t2) s2 := by
  induction h1 with
  | refl => simpa using h2
  | stop h _ ih => exact .stop h (ih h2)
  | turn h h' h'' _ ih => exact .turn h h' h'' (ih h2)

theorem Spec.AskRun.run {env : Env n} {s s' : Strat n} {tr : List (List (Cand n))}
    (h : AskRun env s tr s') : Run env s tr s' := by
  induction h with
  | refl => exact .refl _
  | stop h _ ih => exact .stop h ih
  | turn h h' h'' _ ih => exact .ask h (.turn h' h'' ih)

/-- One turn of the loop of `optimize` is an execution. -/
theorem Strat.generation_askRun {env : Env n} {s s' : Strat n} (h : s.generation env = .ok s') :
    ∃ pop, AskRun env s [pop] s' := by
  unfold generation at h
  obtain ⟨⟨pop, s1⟩, h1, h⟩ := Out.bind_eq_ok.1 h
  obtain ⟨phen, _, h⟩ := Out.bind_eq_ok.1 h
  obtain ⟨s2, h2, h⟩ := Out.bind_eq_ok.1 h
  obtain ⟨s3, h3, h⟩ := Out.bind_eq_ok.1 h
  injection h with h
  exact ⟨_, .turn h1 h2 h3 (h ▸ .refl _)⟩

theorem Strat.generation_run {env : Env n} {s s' : Strat n} (h : s.generation env = .ok s') :
    ∃ pop, Run env s [pop] s' :=
  let ⟨pop, h⟩ := generation_askRun h
  ⟨pop, h.run⟩

theorem Strat.generations_askRun {env : Env n} (k : ℕ) {s s' : Strat n}
    (h : s.generations env k = .ok s') : ∃ tr, tr.length = k ∧ AskRun env s tr s' := by
  induction k generalizing s with
  | zero => injection h with h; exact ⟨[], rfl, h ▸ .refl _⟩
  | succ k ih =>
    obtain ⟨s1, h1, h⟩ := Out.bind_eq_ok.1 h
    obtain ⟨pop, h1⟩ := generation_askRun h1
    obtain ⟨tr, hl, h2⟩ := ih h
    exact ⟨_, by simp [hl], h1.trans h2⟩

theorem Strat.generations_run {env : Env n} (k : ℕ) {s s' : Strat n}
    (h : s.generations env k = .ok s') : ∃ tr, tr.length = k ∧ Run env s tr s' :=
  let ⟨tr, h1, h2⟩ := generations_askRun k h
  ⟨tr, h1, h2.run⟩

/-- The last of a number of turns. -/
theorem Strat.generations_succ_last {env : Env n} (k : ℕ) {s s' : Strat n}
    (h : s.generations env (k + 1) = .ok s') :
    ∃ s1, s.generations env k = .ok s1 ∧ s1.generation env = .ok s' := by
  induction k generalizing s with
  | zero =>
    unfold generations at h
    obtain ⟨s1, h1, h⟩ := Out.bind_eq_ok.1 h
    injection h with h
    exact ⟨s, rfl, h ▸ h1⟩
  | succ k ih =>
    unfold generations at h
    obtain ⟨s1, h1, h⟩ := Out.bind_eq_ok.1 h
    obtain ⟨s2, h2, h3⟩ := ih h
    refine ⟨s2, ?_, h3⟩
    unfold generations
    rw [h1]; exact h2

theorem Strat.generations_snoc {env : Env n} (k : ℕ) {s s1 s' : Strat n}
    (h : s.generations env k = .ok s1) (h' : s1.generation env = .ok s') :
    s.generations env (k + 1) = .ok s' := by
  induction k generalizing s with
  | zero =>
    injection h with h
    subst h
    unfold generations
    rw [h']; rfl
  | succ k ih =>
    unfold generations at h
    obtain ⟨s2, h1, h⟩ := Out.bind_eq_ok.1 h
    unfold generations
    rw [h1]
    exact ih h

/-- The loop of `optimize` is an execution. -/
theorem Strat.loop_askRun {env : Env n} (k : ℕ) {s s' : Strat n}
    (h : loop env k s = .ok (some s')) : ∃ tr, AskRun env s tr s' := by
  induction k generalizing s with
  | zero => injection h with h; cases h
  | succ k ih =>
    unfold loop at h
    obtain ⟨⟨b, s1⟩, h1, h⟩ := Out.bind_eq_ok.1 h
    cases b with
    | true =>
      injection h with h; injection h with h
      exact ⟨[], .stop h1 (h ▸ .refl _)⟩
    | false =>
      replace h : (s1.generation env >>= fun s2 => loop env k s2) = .ok (some s') := h
      obtain ⟨s2, h2, h⟩ := Out.bind_eq_ok.1 h
      obtain ⟨pop, h2⟩ := generation_askRun h2
      obtain ⟨tr, h3⟩ := ih h
      exact ⟨_, .stop h1 (h2.trans h3)⟩

theorem Strat.loop_run {env : Env n} (k : ℕ) {s s' : Strat n}
    (h : loop env k s = .ok (some s')) : ∃ tr, Run env s tr s' :=
  let ⟨tr, h⟩ := loop_askRun k h
  ⟨tr, h.run⟩

/-- An invariant kept by each kind of step holds throughout. -/
theorem Spec.Run.induct {env : Env n} {I : Strat n → List (List (Cand n)) → Prop}
    (hask : ∀ s past pop s', I s past → s.ask env = .ok (pop, s') → I s' past)
    (hstop : ∀ s past b s', I s past → s.stop env = .ok (b, s') → I s' past)
    (hturn : ∀ s past cols phen s2 s3, I s past → s.eval env cols phen = .ok s2 →
      s2.tell env = .ok s3 → I s3.incIter (past ++ [s2.sol.cands]))
    {s s' : Strat n} {tr past : List (List (Cand n))} (h : Run env s tr s') (h0 : I s past) :
    I s' (past ++ tr) := by
  induction h generalizing past with
  | refl => simpa using h0
  | ask h _ ih => exact ih (hask _ _ _ _ h0 h)
  | stop h _ ih => exact ih (hstop _ _ _ _ h0 h)
  | turn h h' _ ih =>
    have := ih (hturn _ _ _ _ _ _ h0 h h')
    simpa using this

/-- The same when each turn begins with an `ask`. -/
theorem Spec.AskRun.induct {env : Env n} {I : Strat n → List (List (Cand n)) → Prop}
    (hstop : ∀ s past b s', I s past → s.stop env = .ok (b, s') → I s' past)
    (hturn : ∀ s past pop s1 cols phen s2 s3, I s past → s.ask env = .ok (pop, s1) →
      s1.eval env cols phen = .ok s2 → s2.tell env = .ok s3 → I s3.incIter (past ++ [s2.sol.cands]))
    {s s' : Strat n} {tr past : List (List (Cand n))} (h : AskRun env s tr s') (h0 : I s past) :
    I s' (past ++ tr) := by
  induction h generalizing past with
  | refl => simpa using h0
  | stop h _ ih => exact ih (hstop _ _ _ _ h0 h)
  | turn h h' h'' _ ih =>
    have := ih (hturn _ _ _ _ _ _ _ _ h0 h h' h'')
    simpa using this

theorem Strat.generations_succ {env : Env n} (k : ℕ) (s : Strat n) :
    s.generations env (k + 1) = (s.generations env k >>= fun t => t.generation env) := by
  induction k generalizing s with
  | zero =>
    show (s.generation env >>= fun s1 => .ok s1) = s.generation env
    cases s.generation env <;> rfl
  | succ k ih =>
    rw [generations]
    conv_rhs => rw [generations]
    cases h : s.generation env with
    | error e => rfl
    | ok t => exact ih t

end Libcmaes
