import Mathlib.Data.Real.Basic
import Mathlib.Data.List.Forall2

/-!
# What a user means by "box constraints"

No reference to the model.
-/

namespace Libcmaes.Spec

/-- Every coordinate of `y` lies between the bounds, and there are as many coordinates as bounds. -/
def InBox (lb ub y : List ℝ) : Prop :=
  List.Forall₂ (· ≤ ·) lb y ∧ List.Forall₂ (· ≤ ·) y ub

/-- A proper box: as many lower as upper bounds, each lower one strictly below. -/
def ProperBox (lb ub : List ℝ) : Prop := List.Forall₂ (· < ·) lb ub

/-- Width of the soft margin at the lower bound (documented as `al`). -/
noncomputable def marginL (lb ub : ℝ) : ℝ := min ((ub - lb) / 2) ((1 + |lb|) / 20)

/-- Width of the soft margin at the upper bound (documented as `au`). -/
noncomputable def marginU (lb ub : ℝ) : ℝ := min ((ub - lb) / 2) ((1 + |ub|) / 20)

/-- Period of the bound transform: twice the width of the box with its margins. -/
noncomputable def period (lb ub : ℝ) : ℝ := 2 * ((ub + marginU lb ub) - (lb - marginL lb ub))

/-- Number of periods separating `x` from the part of the line handled without shifting, which is
the box extended on each side by twice the margin and half the box. Zero or negative inside. -/
noncomputable def periodsAway (lb ub x : ℝ) : ℝ :=
  max (((lb - 2 * marginL lb ub - (ub - lb) / 2) - x) / period lb ub)
      ((x - (ub + 2 * marginU lb ub + (ub - lb) / 2)) / period lb ub)

end Libcmaes.Spec
