import Verif.Spec.ErrStats
import Mathlib.Data.List.Rotate

/-!
# Specification: contours

A contour is a closed polygon, given by the list of its corners.
-/

namespace Libcmaes

namespace ErrStats

variable {n : ℕ}

/-- `a` and `b` follow each other on the polygon (the last corner is followed by the first). -/
def Follows (pts : List (ℝ × ℝ)) (a b : ℝ × ℝ) : Prop := ∃ m, pts ~r (b :: m) ∧ (b :: m).getLast? = some a

/-- The polygon `pts'` arises from `pts` by putting `z` between two corners `a`, `b` that follow each other, of greatest distance
`d`. The first corner stays the first. -/
def Split (d : ℝ × ℝ → ℝ × ℝ → ℝ) (pts : List (ℝ × ℝ)) (a b z : ℝ × ℝ) (pts' : List (ℝ × ℝ)) : Prop :=
  (∃ m, pts ~r (b :: m) ∧ (b :: m).getLast? = some a ∧ pts' ~r (z :: b :: m)) ∧ pts'.head? = pts.head? ∧
    List.Sublist pts pts' ∧ ∀ u v, Follows pts u v → d u v ≤ d a b

/-- `pts'` arises from `pts` by at most `k` such steps, one for each number `i` in `[i0, i0 + k)`, whose new corner satisfies
`Z i a b z`. -/
inductive Grows (d : ℝ × ℝ → ℝ × ℝ → ℝ) (Z : ℕ → ℝ × ℝ → ℝ × ℝ → ℝ × ℝ → Prop) : ℕ → ℕ → List (ℝ × ℝ) → List (ℝ × ℝ) → Prop
  | done (i : ℕ) (pts : List (ℝ × ℝ)) : Grows d Z 0 i pts pts
  | skip {k i : ℕ} {pts pts' : List (ℝ × ℝ)} : Grows d Z k (i + 1) pts pts' → Grows d Z (k + 1) i pts pts'
  | step {k i : ℕ} {pts pts1 pts' : List (ℝ × ℝ)} {a b z : ℝ × ℝ} : Split d pts a b z pts1 → Z i a b z →
      Grows d Z k (i + 1) pts1 pts' → Grows d Z (k + 1) i pts pts'

/-- `w` is the least value of the objective among the points of `n` coordinates with those of `kv` fixed. -/
def Least (f : List ℝ → FVal) (n : ℕ) (kv : List (ℕ × ℝ)) (w : FVal) : Prop :=
  ∃ y : List ℝ, y.length = n ∧ (∀ a ∈ kv, y[a.1]? = some a.2) ∧ f y = w ∧
    ∀ y' : List ℝ, y'.length = n → (∀ a ∈ kv, y'[a.1]? = some a.2) → FVal.le (f y) (f y')

/-- `z` is on the line through the middle of `a` and `b`, at right angles to the line between them. -/
def Bisects (a b z : ℝ × ℝ) : Prop :=
  (z.1 - (a.1 + b.1) / 2) * (b.1 - a.1) + (z.2 - (a.2 + b.2) / 2) * (b.2 - a.2) = 0

/-- The least value with the parameters `i`, `j` fixed at `z` is not above `aim`; it is above one step further.  The step is a tenth of
the coordinates of a point on the line at right angles. -/
def Straddles (f : List ℝ → FVal) (n i j : ℕ) (aim : FVal) (a b z : ℝ × ℝ) : Prop :=
  ∃ (w w' : FVal) (u d : ℝ × ℝ), Bisects a b u ∧ |d.1| = |u.1| / 10 ∧ |d.2| = |u.2| / 10 ∧
    Least f n [(i, z.1), (j, z.2)] w ∧ ¬ FVal.lt aim w ∧ Least f n [(i, z.1 + d.1), (j, z.2 + d.2)] w' ∧ FVal.lt aim w'

/-- The inner optimisations, on unconstrained problems, find a minimum. -/
def Inner.Exact (inner : Inner) : Prop :=
  ∀ no g x0 σ r, inner no g x0 σ GenoPheno.plain = .ok r → r.x.length = x0.length ∧ r.fvalue = g r.x ∧
    ∀ y : List ℝ, y.length = x0.length → FVal.le (g r.x) (g y)

end ErrStats

end Libcmaes
