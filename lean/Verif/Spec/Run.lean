import Verif.Model.Stop

/-!
# Executions of the search, as a user drives it

`Run env s tr s'`: from `s` any sequence of calls `ask()`, `stop()`, and of turns `eval(...); tell();
inc_iter()` leads to `s'`.  The points given to `eval` are arbitrary: those returned by `ask` or any
other ones the user injects.  `tr` lists, oldest first, the populations as they are when `tell` is
called (points, ids and objective values).
-/

namespace Libcmaes.Spec

variable {n : ℕ}

inductive Run (env : Env n) : Strat n → List (List (Cand n)) → Strat n → Prop
  | refl (s) : Run env s [] s
  | ask {s pop s1 tr s'} : s.ask env = .ok (pop, s1) → Run env s1 tr s' → Run env s tr s'
  | stop {s b s1 tr s'} : s.stop env = .ok (b, s1) → Run env s1 tr s' → Run env s tr s'
  | turn {s cols phen s2 s3 tr s'} : s.eval env cols phen = .ok s2 → s2.tell env = .ok s3 →
      Run env s3.incIter tr s' → Run env s (s2.sol.cands :: tr) s'

/-- Executions in which each `eval; tell` is preceded by an `ask` of its own, as in the loop of
`optimize`; the evaluated points are still arbitrary. -/
inductive AskRun (env : Env n) : Strat n → List (List (Cand n)) → Strat n → Prop
  | refl (s) : AskRun env s [] s
  | stop {s b s1 tr s'} : s.stop env = .ok (b, s1) → AskRun env s1 tr s' → AskRun env s tr s'
  | turn {s pop s1 cols phen s2 s3 tr s'} : s.ask env = .ok (pop, s1) →
      s1.eval env cols phen = .ok s2 → s2.tell env = .ok s3 →
      AskRun env s3.incIter tr s' → AskRun env s (s2.sol.cands :: tr) s'

/-- Executions of the loop of `optimize`, or of the same loop written by hand: any number of `k`
generations, with calls of `stop()` anywhere between them. -/
inductive GenRun (env : Env n) : Strat n → ℕ → Strat n → Prop
  | refl (s) : GenRun env s 0 s
  | stop {s k t b t'} : GenRun env s k t → t.stop env = .ok (b, t') → GenRun env s k t'
  | turn {s k t t'} : GenRun env s k t → t.generation env = .ok t' → GenRun env s (k + 1) t'

/-- The last `k` elements of a list. -/
def lastN {α : Type} (k : ℕ) (l : List α) : List α := l.drop (l.length - k)

/-- `c` is the first of the candidates with the smallest objective value in `l`. -/
def FirstMin (l : List (Cand n)) (c : Cand n) : Prop :=
  ∃ pre post, l = pre ++ c :: post ∧ (∀ d ∈ pre, FVal.lt c.fvalue d.fvalue) ∧
    ∀ d ∈ post, ¬ FVal.lt d.fvalue c.fvalue

/-- `c` is one of the candidates with the largest objective value in `l`. -/
def Largest (l : List (Cand n)) (c : Cand n) : Prop :=
  c ∈ l ∧ ∀ d ∈ l, ¬ FVal.lt c.fvalue d.fvalue

/-- `out` is `l` ranked: the same candidates, by ascending objective value, candidates with equal
values in the order they had. -/
structure Ranked (l out : List (Cand n)) : Prop where
  perm : out.Perm l
  sorted : out.Pairwise fun a b => ¬ FVal.lt b.fvalue a.fvalue
  stable : ∀ v : FVal, (out.filter fun c => open Classical in decide (c.fvalue = v)) =
    l.filter fun c => open Classical in decide (c.fvalue = v)

/-- All objective values are comparable (infinities included, no NaN). -/
def NoNaN (l : List (Cand n)) : Prop := ∀ c ∈ l, c.fvalue.IsNum

end Libcmaes.Spec
