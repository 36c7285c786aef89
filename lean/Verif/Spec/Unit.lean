import Verif.Spec.Shift

/-!
# Objectives that differ by a factor
-/

namespace Libcmaes.Spec

/-- The value times the factor `c`; NaN stays. -/
noncomputable def timesBy (c : ℝ) : FVal → FVal
  | .nan => .nan
  | .num a => .num (a * (c : EReal))

end Libcmaes.Spec
