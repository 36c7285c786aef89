import Mathlib.Data.Real.Basic
import Mathlib.Data.EReal.Operations

/-!
# Outcomes and objective values

Conventions shared by all model files.

* Coordinates, step sizes and matrices are exact real numbers.  Rounding of C++ `double`s is
  not modelled.
* A C++ operation may leave the modelled world.  This is recorded in the outcome, never
  totalised away:
  - `Err.ub`          undefined behaviour of the C++ abstract machine;
  - `Err.outOfRange`  `std::out_of_range` thrown by `std::vector::at`;
  - `Err.fatal`       `LOG(FATAL)`, which aborts the process;
  - `Err.notReal`     the `double` computation produces an infinity or a NaN where the model has a
                      real number (division by zero, square root of a negative number).
-/

namespace Libcmaes

/-- Ways in which a modelled C++ function may fail to return a value of the model. -/
inductive Err where
  | ub
  | outOfRange
  | fatal
  | notReal
  deriving DecidableEq, Repr

/-- Result of a modelled C++ function. -/
abbrev Out (α : Type) := Except Err α

/-- `std::vector::at` (used throughout, e.g. src/cmasolutions.cc:92-93): bounds-checked access
that throws. -/
def at! {α : Type} (l : List α) (i : ℕ) : Out α :=
  match l[i]? with
  | some a => .ok a
  | none => .error .outOfRange

/-- Unchecked element access `v[i]`, `v(i)` on an Eigen vector (e.g.
src/pwq_bound_strategy.cc:87-90): out of range is undefined behaviour. -/
def idx {α : Type} (l : List α) (i : ℕ) : Out α :=
  match l[i]? with
  | some a => .ok a
  | none => .error .ub

/-- The value of a C++ `double` returned by an objective function: NaN, or a real number or an
infinity.  Modelled in full because the library compares such values everywhere (e.g.
include/libcmaes/cmasolutions.h:78-79, src/cmasolutions.cc:115,122). -/
inductive FVal where
  | nan
  | num (v : EReal)

namespace FVal

/-- IEEE `<`: false as soon as one side is NaN. -/
def lt : FVal → FVal → Prop
  | num a, num b => a < b
  | _, _ => False

/-- IEEE `<=`: false as soon as one side is NaN. -/
def le : FVal → FVal → Prop
  | num a, num b => a ≤ b
  | _, _ => False

/-- IEEE `==`: false as soon as one side is NaN. -/
def eq : FVal → FVal → Prop
  | num a, num b => a = b
  | _, _ => False

/-- IEEE negation, used through `-1.0*_funcaux(x,N)` (src/esostrategy.cc:49). -/
noncomputable def neg : FVal → FVal
  | nan => nan
  | num a => num (-a)

/-- The value is not NaN. -/
def IsNum : FVal → Prop
  | nan => False
  | num _ => True

noncomputable instance : DecidableRel FVal.lt := Classical.decRel _
noncomputable instance : DecidableRel FVal.le := Classical.decRel _
noncomputable instance : DecidableRel FVal.eq := Classical.decRel _
noncomputable instance : DecidablePred FVal.IsNum := Classical.decPred _

end FVal

end Libcmaes
