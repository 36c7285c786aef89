import Verif.Model.Basic

/-!
# Specification: deleting coordinates
-/

namespace Libcmaes

/-- The coordinates whose index is not in `ks`, in order: what "removing the coordinates `ks`"
means. -/
def survivors {α : Type} (ks : List ℕ) (v : List α) : List α :=
  (v.zipIdx.filter fun p => decide (p.2 ∉ ks)).map Prod.fst

end Libcmaes
