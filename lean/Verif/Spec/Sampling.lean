import Verif.Model.Strategy

/-!
# Specification of fixed coordinates
-/

namespace Libcmaes.Spec

variable {n : ℕ}

/-- `x` has the prescribed value in each fixed coordinate. -/
def FixedAt (p : Params n) (x : Vec n) : Prop := ∀ (i : Fin n) (v : ℝ), (i.val, v) ∈ p.fixedP → x i = v

/-- Coordinate `i` is not fixed. -/
def Free (p : Params n) (i : Fin n) : Prop := ∀ v : ℝ, (i.val, v) ∉ p.fixedP

end Libcmaes.Spec
