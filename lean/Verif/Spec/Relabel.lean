import Verif.Spec.Shift

/-!
# Objectives with the same ranking
-/

namespace Libcmaes.Spec

/-- The value `g v` in place of `v`; NaN stays. -/
def relabel (g : EReal → EReal) : FVal → FVal
  | .nan => .nan
  | .num a => .num (g a)

/-- The same change of values as seen by a search, which changes the sign when maximising. -/
noncomputable def seenMap (maximize : Bool) (g : EReal → EReal) : EReal → EReal :=
  if maximize then fun a => -g (-a) else g

end Libcmaes.Spec
