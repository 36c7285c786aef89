import Verif.Spec.Good
import Verif.Spec.Law

/-!
# Specification of the lazy update

With `set_lazy_update(true)` the generations are grouped in periods of equal length.
-/

namespace Libcmaes.Spec

variable {n : ℕ}

/-- Length of a period: the least number of generations greater than the threshold. -/
noncomputable def lazyPeriod (p : Params n) : ℕ := ⌊p.lazyValue⌋₊ + 1

/-- First generation of the period of generation `k`. -/
def periodStart (P k : ℕ) : ℕ := P * (k / P)

/-- The settings: active update, full covariance, lazy update, nothing else. -/
structure LazyActive (p : Params n) : Prop where
  configured : Configured p
  strict : StrictRates p
  sep : p.sep = false
  vd : p.vd = false
  lazy : p.lazyUpdate = true
  grad : p.withGradient = false
  tpa : p.tpa ≠ 2
  uh : p.uh = false
  extras : NoExtras p
  min : p.maximize = false
  gp : p.gp = GenoPheno.plain

end Libcmaes.Spec
