import Verif.Spec.RsvmStrategy

/-!
# Training sets with the same ranking
-/

namespace Libcmaes.Spec

variable {n : ℕ}

/-- `c'` has the points of `c`, in any order, with values that rank them in the same way. -/
def SameRanking (c c' : List (Cand n)) : Prop :=
  ∃ h : Cand n → Cand n, c'.Perm (c.map h) ∧ (∀ a ∈ c, (h a).x = a.x) ∧
    ∀ a ∈ c, ∀ b ∈ c, (FVal.lt (h a).fvalue (h b).fvalue ↔ FVal.lt a.fvalue b.fvalue)

/-- No two candidates of the list have equal values. -/
def NoTies (c : List (Cand n)) : Prop := c.Pairwise fun a b => FVal.lt a.fvalue b.fvalue ∨ FVal.lt b.fvalue a.fvalue

end Libcmaes.Spec
