import Verif.Model.EoMatrix

/-!
# Model of include/libcmaes/scaling.h
-/

namespace Libcmaes

/-- `std::numeric_limits<double>::max()` (include/libcmaes/scaling.h:117): `(2 - 2^-52) * 2^1023`. -/
noncomputable def dblMax : ℝ := (2 - 1 / 2 ^ 52) * 2 ^ 1023

/-- Element-wise binary operation of two Eigen vectors (`cwiseProduct`, `cwiseQuotient`, `+`, `-`;
include/libcmaes/scaling.h:125,131-132).  Eigen requires equal sizes; anything else is undefined
behaviour. -/
def cwise {α : Type} (f : α → α → Out α) (a b : List α) : Out (List α) :=
  if a.length = b.length then (a.zip b).mapM fun p => f p.1 p.2 else .error .ub

/-- Division of `double`s: no real result when the divisor is zero. -/
noncomputable def divR (a b : ℝ) : Out ℝ := if b = 0 then .error .notReal else .ok (a / b)

/-- `linScalingStrategy` (include/libcmaes/scaling.h:84-154).  `_intmin = 0`, `_intmax = 10` are
constants (lines 147-148). -/
structure LinScaling where
  scaling : List ℝ
  shift : List ℝ
  id : Bool

/-- Default constructor (include/libcmaes/scaling.h:90-93): one-element vectors. -/
def LinScaling.default : LinScaling := ⟨[1], [0], true⟩

/-- `compute_scaling` (include/libcmaes/scaling.h:110-120). `lbounds`, `ubounds` have `dim`
elements. -/
noncomputable def LinScaling.computeScaling (lb ub : List ℝ) : Out (List ℝ × List ℝ) := do
  let denom ← cwise (fun u l => .ok (min (u - l) dblMax)) ub lb
  let scaling ← denom.mapM fun d => divR (10 - 0) d
  let shift ← cwise (fun s u => .ok (10 - s * u)) scaling ub
  pure (scaling, shift)

/-- Constructor from bounds (include/libcmaes/scaling.h:95-101). -/
noncomputable def LinScaling.ofBounds (lb ub : List ℝ) : Out LinScaling := do
  let (s, t) ← LinScaling.computeScaling lb ub
  pure ⟨s, t, false⟩

/-- Constructor from vectors (include/libcmaes/scaling.h:103-106). -/
def LinScaling.ofVectors (scaling shift : List ℝ) : LinScaling := ⟨scaling, shift, false⟩

/-- `scale_to_internal` (include/libcmaes/scaling.h:122-126). -/
noncomputable def LinScaling.toInternal (s : LinScaling) (y : List ℝ) : Out (List ℝ) := do
  let p ← cwise (fun a b => .ok (a * b)) y s.scaling
  cwise (fun a b => .ok (a + b)) p s.shift

/-- `scale_to_f` (include/libcmaes/scaling.h:128-133). -/
noncomputable def LinScaling.toF (s : LinScaling) (x : List ℝ) : Out (List ℝ) := do
  let d ← cwise (fun a b => .ok (a - b)) x s.shift
  cwise divR d s.scaling

/-- `remove_dimensions` (include/libcmaes/scaling.h:137-144). -/
def LinScaling.removeDimensions (s : LinScaling) (ks : List ℕ) : LinScaling :=
  { s with scaling := removeElements s.scaling ks, shift := removeElements s.shift ks }

end Libcmaes
