import Verif.Spec.Law

/-!
# Specification: the objective seen from the internal space
-/

namespace Libcmaes.Spec

variable {n : ℕ}

/-- `F` is the objective `g`, after the map to the user's space and to be minimised: what the search sees. -/
def Scores (p : Params n) (g : Vec n → FVal) (F : Vec n → ℝ) : Prop :=
  ∀ x, ∃ y, phenoV p.gp x = .ok y ∧ (if p.maximize then (g y).neg else g y) = .num (F x : EReal)

/-- The average of `F` over a list of points. -/
noncomputable def average (F : Vec n → ℝ) (l : List (Vec n)) : ℝ := (l.map F).sum / l.length

end Libcmaes.Spec
