import Verif.Model.Rotated

/-!
# Functions of rotated coordinates
-/

namespace Libcmaes.Spec

open Bench Matrix

variable {n : ℕ}

/-- Rows of length 1 at right angles to each other. -/
def OrthonormalRows (b : Fin n → Vec n) : Prop := ∀ i j, b i ⬝ᵥ b j = if i = j then 1 else 0

/-- The rotated ellipsoid, and the rotated sum of different powers. -/
noncomputable def rotValue (b : Fin n → Vec n) (f : RotFunc) (x : Vec n) : ℝ :=
  match f with
  | .ellirot => ∑ i : Fin n, Real.exp (Real.log 1e3 * 2 * i / ((n : ℝ) - 1)) * (b i ⬝ᵥ x) ^ 2
  | .diffpowrot => ∑ i : Fin n, |b i ⬝ᵥ x| ^ (2 + 10 * (i : ℝ) / ((n : ℝ) - 1))

end Libcmaes.Spec
