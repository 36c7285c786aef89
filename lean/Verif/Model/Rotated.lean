import Verif.Model.Benchmarks
import Mathlib.Analysis.SpecialFunctions.Pow.Real

/-!
# The rotated benchmark functions over all calls of a process (tests/test-functions.cc)

`orthogonalBasis` keeps its result in a `static` variable.  Exact arithmetic, as in Model/Benchmarks.
-/

namespace Libcmaes.Bench

variable {n : ℕ}

/-- The `static` variable `b` (tests/test-functions.cc:70) after the first call: a square matrix of the dimension of that call. -/
structure Basis where
  dim : ℕ
  row : Fin dim → Vec dim

/-- `b(i,k)` (tests/test-functions.cc:315, 341): outside the matrix undefined behaviour. -/
def Basis.entry (b : Basis) (i k : ℕ) : Out ℝ :=
  if h : i < b.dim ∧ k < b.dim then .ok (b.row ⟨i, h.1⟩ ⟨k, h.2⟩) else .error .ub

/-- `orthogonalBasis` (tests/test-functions.cc:68-103).  `c`: the `static` variable, `none` before the first call; `z m i`: the
normal vector drawn for row `i` if the first call is for dimension `m`.  A division by a zero length is an error here. -/
noncomputable def orthogonalBasis (z : (m : ℕ) → Fin m → Vec m) (c : Option Basis) (N : ℕ) : Out Basis :=
  match c with
  | some b => .ok b
  | none => do
    let rows ← basisRows (List.ofFn (z N)).reverse
    pure ⟨N, fun i => rows.reverse.getD i 0⟩

/-- Which function is called. -/
inductive RotFunc where
  | ellirot
  | diffpowrot

/-- What row `i` adds: `ellirot` (tests/test-functions.cc:316), `diffpowrot` (tests/test-functions.cc:342). -/
noncomputable def RotFunc.term (N i : ℕ) (y : ℝ) : RotFunc → ℝ
  | .ellirot => elliScale N i * y * y
  | .diffpowrot => |y| ^ (2 + 10 * (i : ℝ) / ((N : ℝ) - 1))

/-- The inner loop (tests/test-functions.cc:313-315, 339-341). -/
def rotInner (b : Basis) (x : Vec n) (i m : ℕ) : Out ℝ :=
  (List.range m).foldlM (fun y k => do let e ← b.entry i k; pure (y + e * ext x k)) 0

/-- `ellirot` and `diffpowrot` (tests/test-functions.cc:305-319, 331-345): the value, and the `static` variable afterwards. -/
noncomputable def rotCall (z : (m : ℕ) → Fin m → Vec m) (c : Option Basis) (f : RotFunc) (x : Vec n) : Out (ℝ × Option Basis) :=
  if n = 1 then .ok (ext x 0 * ext x 0, c)
  else do
    let b ← orthogonalBasis z c n
    let v ← (List.range n).foldlM (fun val i => do let y ← rotInner b x i n; pure (val + f.term n i y)) 0
    pure (v, some b)

/-- A call of one of the two functions, in any dimension. -/
structure RotQuery where
  dim : ℕ
  func : RotFunc
  point : Vec dim

/-- The values of successive calls in one process. -/
noncomputable def rotCalls (z : (m : ℕ) → Fin m → Vec m) : Option Basis → List RotQuery → Out (List ℝ)
  | _, [] => .ok []
  | c, q :: qs => do
    let r ← rotCall z c q.func q.point
    let vs ← rotCalls z r.2 qs
    pure (r.1 :: vs)

end Libcmaes.Bench
