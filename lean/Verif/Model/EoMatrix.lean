import Verif.Model.Basic

/-!
# Model of include/libcmaes/eo_matrix.h

Vectors of variable size (`dVec`) are lists.
-/

namespace Libcmaes

/-- `removeElement` (include/libcmaes/eo_matrix.h:56-62): nothing happens when `k >= size`,
otherwise the tail is copied one place to the left and the vector shortened. -/
def removeElement {α : Type} (v : List α) (k : ℕ) : List α :=
  if v.length ≤ k then v
  else v.take k ++ v.drop (k + 1)

/-- `addElement` (include/libcmaes/eo_matrix.h:64-71): nothing happens when `k >= size+1`,
otherwise the tail is moved one place to the right and `xk` stored at `k`.
The move is written `std::copy(vec+k, vec+size-1, vec+k+1)`, whose destination lies inside the
source range; this definition is its `memmove` reading (what libstdc++ does for `double`). -/
def addElement {α : Type} (v : List α) (k : ℕ) (xk : α) : List α :=
  if v.length + 1 ≤ k then v
  else v.take k ++ xk :: v.drop k

/-- Element-by-element forward reading of the overlapping `std::copy` in `addElement`
(include/libcmaes/eo_matrix.h:69): position `k` is copied to `k+1`, then the *new* `k+1` to `k+2`,
and so on.  The C++ standard leaves the overlapping call undefined; this is the other
implementation it allows. -/
def addElementForward {α : Type} (v : List α) (k : ℕ) (xk : α) : List α :=
  if v.length + 1 ≤ k then v
  else v.take k ++ xk :: List.replicate (v.length - k) ((v[k]?).getD xk)

/-- `remove_dimensions` applied to one member vector (src/pwq_bound_strategy.cc:127-141,
include/libcmaes/scaling.h:137-144): `removeElement` for each index of `ks`, in the order given. -/
def removeElements {α : Type} (v : List α) (ks : List ℕ) : List α :=
  ks.foldl removeElement v

/-- Rows of a matrix as a list of rows: `removeRow` (include/libcmaes/eo_matrix.h:34-43).
There is no guard: an index past the end still drops the last row.  A matrix with no row makes
`rows()-1` wrap around (an allocation failure), recorded as `Err.ub`. -/
def removeRow {α : Type} (m : List (List α)) (k : ℕ) : Out (List (List α)) :=
  if m.length = 0 then .error .ub
  else if k < m.length - 1 then .ok (m.take k ++ m.drop (k + 1))
  else .ok (m.take (m.length - 1))

end Libcmaes
