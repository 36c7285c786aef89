import Verif.Model.Strategy

/-!
# Specification: where and how wide a search starts
-/

namespace Libcmaes.Spec

variable {n : ℕ}

/-- `x` is the point `m` in the internal units of `g`: coordinates times scaling plus shift, the same
point if `g` does not scale. -/
def InternalUnits (g : GenoPheno) (m x : Vec n) : Prop :=
  match g.scale with
  | .noScaling => x = m
  | .lin s => if s.id then x = m else
      s.scaling.length = n ∧ s.shift.length = n ∧
        ∀ i : Fin n, x i = m i * s.scaling.getD i 0 + s.shift.getD i 0

/-- `m` is an allowed starting point: fixed coordinates have their value, the others are those of
`x0`, in the box if `x0` is a box, within 4 of the origin if `x0` was not given. -/
structure AllowedStart (p : Params n) (m : Vec n) : Prop where
  fixed : ∀ (i : Fin n) v, (i.val, v) ∈ p.fixedP → m i = v
  point : ∀ i : Fin n, (∀ q ∈ p.fixedP, q.1 ≠ i) → p.x0min = p.x0max → p.x0min ≠ (fun _ => -dblMax) →
    m i = p.x0min i
  box : ∀ i : Fin n, (∀ q ∈ p.fixedP, q.1 ≠ i) → p.x0min ≠ p.x0max → p.x0min i ≤ p.x0max i →
    p.x0min i ≤ m i ∧ m i ≤ p.x0max i
  unset : ∀ i : Fin n, (∀ q ∈ p.fixedP, q.1 ≠ i) → p.x0min = p.x0max → p.x0min = (fun _ => -dblMax) →
    -4 ≤ m i ∧ m i ≤ 4

/-- A search state in which nothing happened yet. -/
structure Fresh (lambda : ℕ) (s : Sol n) : Prop where
  cov : s.cov = 1
  sepcov : ∀ i, s.sepcov i = 1
  psigma : s.psigma = 0
  pc : s.pc = 0
  cands : s.cands.length = lambda
  bestHist : s.bestHist = []
  kBestHist : s.kBestHist = []
  bfvalues : s.bfvalues = []
  medianFvalues : s.medianFvalues = []
  niter : s.niter = 0
  nevals : s.nevals = 0
  runStatus : s.runStatus = 0
  bestSeen : s.bestSeen = none
  worstSeen : s.worstSeen = none

end Libcmaes.Spec
