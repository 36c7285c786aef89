import Verif.Spec.Progress

/-!
# Two-point adaptation on linear objectives
-/

namespace Libcmaes.Spec

open Matrix

variable {n : ℕ}

/-- The search sees a strictly increasing function of `w·x` (in internal coordinates, to be minimised), whatever the number
of the call. -/
def RanksBy (env : Env n) (p : Params n) (w : Vec n) : Prop :=
  ∃ (g : Vec n → FVal) (phi : ℝ → ℝ), (∀ k y, env.f k y = g y) ∧ StrictMono phi ∧ Scores p g fun x => phi (w ⬝ᵥ x)

/-- Two-point adaptation with no elitism, uncertainty handling, gradient injection, fixed parameters. -/
structure PlainTpa (p : Params n) : Prop where
  tpa : p.tpa = 2
  grad : p.withGradient = false
  uh : p.uh = false
  fixed : p.fixedP = []
  elitist : p.elitist = false
  initialElitist : p.initialElitist = false
  elitistOnRestart : p.initialElitistOnRestart = false

/-- In each of the `k` generations of the run that begins in `s` the mean goes down (`w·m` decreases). -/
def Downhill (env : Env n) (s : Strat n) (w : Vec n) (k : ℕ) : Prop :=
  ∀ j t t', j < k → s.generations env j = .ok t → t.generation env = .ok t' → w ⬝ᵥ t'.sol.xmean < w ⬝ᵥ t.sol.xmean

end Libcmaes.Spec
