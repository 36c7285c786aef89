import Verif.Model.Print
import Verif.Spec.ElitistRestart
import Verif.Spec.Run

/-! # Specification: the printed summary of a solution -/

namespace Libcmaes.Spec

open ErrStats

variable {n : ℕ}

/-- Profiles a solution may hold: any number of calls of `profile_likelihood`, for any parameters, with any arguments. -/
inductive Profiled (p : Params n) (sol : Sol n) : Pls n → Prop
  | none : Profiled p sol fun _ => none
  | add {pls pls' f inner fuel k curve s fup delta maxiters le} : Profiled p sol pls →
      profileLikelihood f inner fuel p sol pls k curve s fup delta maxiters = .ok (some (le, pls')) → Profiled p sol pls'

/-- What a user takes from the first line printed after `k` generations with objective `f`: the point is one of the
candidates of the last population, none of them is better, the value is that of the objective there (negated when
maximising), and the counts are those of the calls and of the generations. -/
structure HonestSummary (f : Vec n → FVal) (p : Params n) (k : ℕ) (s : Strat n) (q : Printed n) : Prop where
  value : q.fvalue = if p.maximize then (f q.x).neg else f q.x
  mem : ∃ c ∈ s.sol.cands, c.fvalue = q.fvalue ∧ phenoV p.gp c.x = .ok q.x
  least : ∀ c ∈ s.sol.cands, ¬ FVal.lt c.fvalue q.fvalue
  fevals : q.fevals = s.calls.length
  iter : q.iter = k

/-- What a user takes from the line of one confidence interval: ordered bounds, whose distances to the printed optimum are
the printed errors, and which are the coordinates of two points of the profile, one on each side of the optimum; the two
printed values are those of these points; the first status is that of the first point, none being printed only if it is 0. -/
structure HonestInterval (le : Pli n) (q : Printed n) (I : PrintedInterval n) : Prop where
  ordered : I.lo ≤ I.hi
  points : ∃ (k : Fin n) (a b : Vec n) (va vb : FVal) (sa : ℤ) (i j : ℕ), k.val = I.dim ∧
    i < le.samplesize ∧ le.samplesize < j ∧ j ≤ 2 * le.samplesize ∧
    le.xm[i]? = some a ∧ le.fvaluem[i]? = some va ∧ le.err[i]? = some sa ∧ le.xm[j]? = some b ∧ le.fvaluem[j]? = some vb ∧
    I.lo = min (a k) (b k) ∧ I.hi = max (a k) (b k) ∧ I.errlo = I.lo - q.x k ∧ I.errhi = I.hi - q.x k ∧
    I.fvalues = (va, vb) ∧ (∀ e, I.ends = some e → e = (a, b)) ∧
    (I.status = none → sa = 0) ∧ ∀ st, I.status = some st → st.1 = sa

/-- The status a user expects beside an interval: that of the inner optimisations that found its two ends `a` and `b`;
nothing is printed only if both are 0. -/
def HonestStatus (le : Pli n) (I : PrintedInterval n) : Prop :=
  ∃ (i j : ℕ) (sa sb : ℤ), le.minindex = i ∧ le.maxindex = j ∧ le.err[i]? = some sa ∧
    le.err[le.samplesize + 1 + j]? = some sb ∧ I.status = if sa = 0 ∧ sb = 0 then none else some (sa, sb)

end Libcmaes.Spec
