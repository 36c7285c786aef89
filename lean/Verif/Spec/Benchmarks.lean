import Verif.Model.Params
import Mathlib.Analysis.Calculus.Deriv.Basic

/-!
# Gradients and minima
-/

namespace Libcmaes.Spec

variable {n : ℕ}

/-- At `x` each component of `g` is the derivative of `f` along that coordinate. -/
def GradientAt (f : Vec n → ℝ) (g : Vec n) (x : Vec n) : Prop :=
  ∀ i, HasDerivAt (fun t => f (Function.update x i t)) (g i) (x i)

/-- `f` takes the value `v` at `x`, nowhere else, and nowhere less. -/
def UniqueMin (f : Vec n → ℝ) (v : ℝ) (x : Vec n) : Prop := f x = v ∧ ∀ y, v ≤ f y ∧ (f y = v → y = x)

end Libcmaes.Spec
