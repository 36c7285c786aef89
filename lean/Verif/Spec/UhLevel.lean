import Verif.Model.Solutions

/-!
# The uncertainty level of uncertainty handling
-/

namespace Libcmaes.Spec

/-- The rank of `c` in `l` by the values `v`: the number of candidates with a smaller value. -/
noncomputable def rankBy (v : RankedCand → FVal) (l : List RankedCand) (c : RankedCand) : ℕ :=
  open Classical in l.countP fun d => decide (FVal.lt (v d) (v c))

/-- `x` is the element of `l` at position `k` in increasing order, counted from 0. -/
def IsNth (l : List ℝ) (k : ℕ) (x : ℝ) : Prop :=
  open Classical in
  x ∈ l ∧ (l.countP fun y => decide (y < x)) ≤ k ∧ k < l.countP fun y => decide (y ≤ x)

/-- The change of rank that is not yet a sign of noise at rank `R`: the lower decile of
`|1 - R|, …, |2 λ - 1 - R|`. -/
def IsRankLimit (lambda : ℕ) (R : ℤ) (x : ℝ) : Prop :=
  IsNth ((List.range (2 * lambda - 1)).map fun j : ℕ => |((j : ℝ) + 1) - R|) ((2 * lambda - 1) / 10) x

/-- The change of rank from the first to the second evaluation, a change by one not counting. -/
def rankChange (r1 r2 : ℕ) : ℤ :=
  if r1 < r2 then (r2 : ℤ) - r1 - 1 else if r2 < r1 then (r2 : ℤ) - r1 + 1 else 0

/-- The excess of the change of rank of a candidate over the limits at its two ranks. -/
noncomputable def rankExcess (lim : ℤ → ℝ) (r1 r2 : ℕ) : ℝ :=
  2 * |(rankChange r1 r2 : ℝ)| - lim ((r2 : ℤ) - if r1 < r2 then 1 else 0) - lim ((r1 : ℤ) - if r2 < r1 then 1 else 0)

/-- The uncertainty level of the candidates `l`, of which those with index below `lreev` are evaluated twice: the
mean excess over these. -/
noncomputable def uncertaintyLevel (lim : ℤ → ℝ) (lreev : ℕ) (l : List RankedCand) : ℝ :=
  ((l.filter fun c => decide (c.idx < lreev)).map fun c =>
    rankExcess lim (rankBy RankedCand.fvalue l c) (rankBy RankedCand.fvalueMut l c)).sum / lreev

/-- The values are numbers and no two are equal. -/
def DistinctBy (v : RankedCand → FVal) (l : List RankedCand) : Prop :=
  (∀ c ∈ l, (v c).IsNum) ∧ l.Pairwise fun a b => FVal.lt (v a) (v b) ∨ FVal.lt (v b) (v a)

end Libcmaes.Spec
