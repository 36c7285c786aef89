import Verif.Model.Stats
import Verif.Model.Strategy

/-!
# The plot file: what the scripts read, and what they should
-/

namespace Libcmaes.Spec

/-- A line as `python/cma_multiplt.py` understands it. -/
structure Reading where
  dim : ℕ
  fvalue : FVal
  fevals : FVal
  sigma : FVal
  kappa : FVal
  eigenv : List FVal
  stds : List FVal
  xmean : List FVal

/-- `python/cma_multiplt.py:44-66`: the dimension is estimated from the number of columns (`single_values` is
4), and the columns are cut accordingly. -/
def readLine (cols : List FVal) : Reading :=
  let dim := (cols.length - 4) / 3
  { dim := dim
    fvalue := cols.getD 0 .nan, fevals := cols.getD 1 .nan, sigma := cols.getD 2 .nan, kappa := cols.getD 3 .nan
    eigenv := (cols.drop 4).take dim
    stds := (cols.drop (4 + dim)).take dim
    xmean := (cols.drop (4 + dim + dim)).take dim }

/-- The further columns `python/cma_legacyplt.py` finds in a line of the complete format. -/
structure LegacyReading extends Reading where
  bestF : FVal
  medianF : FVal
  worstF : FVal
  minEig : FVal
  maxEig : FVal
  bestX : List FVal

/-- `python/cma_legacyplt.py:44-64`; the dimension comes from the first line. -/
def readLegacy (dim : ℕ) (cols : List FVal) : LegacyReading :=
  { dim := dim
    fvalue := cols.getD 0 .nan, fevals := cols.getD 1 .nan, sigma := cols.getD 2 .nan, kappa := cols.getD 3 .nan
    bestF := cols.getD 4 .nan, medianF := cols.getD 5 .nan, worstF := cols.getD 6 .nan
    minEig := cols.getD 7 .nan, maxEig := cols.getD 8 .nan
    bestX := (cols.drop 9).take dim
    eigenv := (cols.drop (9 + dim)).take dim
    stds := (cols.drop (9 + dim + dim)).take dim
    xmean := (cols.drop (9 + dim + dim + dim)).take dim }

/-- The further columns `python/cma_multiplt_surr.py` finds in a line of a surrogate strategy. -/
structure SurrReading extends Reading where
  trainErr : FVal
  testErr : FVal
  smoothTestErr : FVal

/-- `python/cma_multiplt_surr.py:29-58`. -/
def readSurr (cols : List FVal) : SurrReading :=
  let dim := (cols.length - 4 - 3) / 3
  { dim := dim
    fvalue := cols.getD 0 .nan, fevals := cols.getD 1 .nan, sigma := cols.getD 2 .nan, kappa := cols.getD 3 .nan
    eigenv := (cols.drop 4).take dim
    stds := (cols.drop (4 + dim)).take dim
    xmean := (cols.drop (4 + dim + dim)).take dim
    trainErr := cols.getD (4 + 3 * dim + 1) .nan
    testErr := cols.getD (4 + 3 * dim + 2) .nan
    smoothTestErr := cols.getD (4 + 3 * dim + 3) .nan }

/-- The numbers of a vector as they stand in the file. -/
noncomputable def printed {n : ℕ} (x : Fin n → ℝ) : List FVal := (List.ofFn x).map FVal.ofReal

variable {n : ℕ}

/-- What a line should tell about the search `t` after `j` generations: the dimension, the calls of the
objective made, the step size, the mean and the standard deviations in the user's coordinates; and, after at
least one generation, the absolute value of the best candidate of the last population, the (positive)
eigenvalues, and the square root of the ratio of the largest to the smallest. -/
structure Describes (j : ℕ) (t : Strat n) (r : Reading) : Prop where
  dim : r.dim = n
  fevals : r.fevals = .ofReal t.calls.length
  sigma : r.sigma = .ofReal t.sol.sigma
  mean : ∃ m : Vec n, phenoV t.p.gp t.sol.xmean = .ok m ∧ r.xmean = printed m
  stds : ∃ sd, t.sol.stds t.p.gp t.p.sep t.p.vd = .ok sd ∧ r.stds = printed sd ∧ ∀ i, 0 ≤ sd i
  first : j = 0 → r.eigenv = printed (0 : Vec n) ∧ r.kappa = .ofReal 1
  later : j ≠ 0 → r.eigenv = printed t.sol.leigenvalues ∧
    (∃ a b, (∀ i, a ≤ t.sol.leigenvalues i ∧ t.sol.leigenvalues i ≤ b) ∧ a ∈ Set.range t.sol.leigenvalues ∧
      b ∈ Set.range t.sol.leigenvalues ∧ 0 < a ∧ r.kappa = .ofReal (Real.sqrt (b / a)))
  best : j ≠ 0 → ∃ c, t.sol.cands[0]? = some c ∧ (∀ d ∈ t.sol.cands, ¬ FVal.lt d.fvalue c.fvalue) ∧
    r.fvalue = c.fvalue.abs

/-- What the complete format adds: the best and worst candidates seen so far (the former with its point, in
internal coordinates), the value in the middle of the ranked population, and the extreme eigenvalues. -/
structure DescribesFull (t : Strat n) (r : LegacyReading) : Prop where
  best : ∀ b, t.sol.bestSeen = some b → r.bestF = b.fvalue ∧ r.bestX = printed b.x
  worst : ∀ b, t.sol.worstSeen = some b → r.worstF = b.fvalue
  median : ∃ c, t.sol.cands[t.p.lambda / 2]? = some c ∧ r.medianF = c.fvalue
  extreme : r.minEig = .ofReal t.sol.minEigenv ∧ r.maxEig = .ofReal t.sol.maxEigenv

end Libcmaes.Spec
