import Verif.Model.Update
import Mathlib.Analysis.SpecialFunctions.Trigonometric.Basic

/-!
# The benchmark functions of the test program (tests/test-functions.cc)

The functions for which the program states the minimum (`msols`), and their gradients (`mgfuncs`).  Exact arithmetic; arrays are
functions on the natural numbers, of which the first `n` entries are the point.  Reading beyond the end, which `ackleys` does in
dimension 1, is not modelled: `ackleys` is a function of two coordinates here.
-/

namespace Libcmaes.Bench

variable {n : ℕ}

/-- `x[i]`; used for `i < n` only. -/
def ext (x : Vec n) (i : ℕ) : ℝ := if h : i < n then x ⟨i, h⟩ else 0

/-- A loop `for (int i=a;i<b;i++) val += t(i)` that starts from `v`. -/
def addLoop (v : ℝ) (a b : ℕ) (t : ℕ → ℝ) : ℝ := (List.range' a (b - a)).foldl (fun val i => val + t i) v

/-- `ackleys` (tests/test-functions.cc:115-118). -/
noncomputable def ackleys (x : Vec 2) : ℝ :=
  -20 * Real.exp (-0.2 * Real.sqrt (0.5 * (x 0 * x 0 + x 1 * x 1))) -
    Real.exp (0.5 * (Real.cos (2 * Real.pi * x 0) + Real.cos (2 * Real.pi * x 1))) + 20 + Real.exp 1

/-- `fsphere` (tests/test-functions.cc:120-126). -/
def fsphere (x : Vec n) : ℝ := addLoop 0 0 n fun i => ext x i * ext x i

/-- `grad_fsphere` (tests/test-functions.cc:128-134). -/
def gradFsphere (x : Vec n) : Vec n := fun i => 2 * x i

/-- `rosenbrock` (tests/test-functions.cc:145-153). -/
def rosenbrock (x : Vec n) : ℝ :=
  addLoop 0 0 (n - 1) fun i => 100 * (ext x (i + 1) - ext x i * ext x i) ^ 2 + (ext x i - 1) ^ 2

/-- The body of the loop of `grad_rosenbrock` (tests/test-functions.cc:160-161): one assignment, one addition. -/
def rosenbrockStep (X : ℕ → ℝ) (g : ℕ → ℝ) (i : ℕ) : ℕ → ℝ :=
  let g1 := Function.update g i (-400 * X i * (X (i + 1) - X i * X i) - 2 * (1 - X i))
  Function.update g1 (i + 1) (g1 (i + 1) + 200 * (X (i + 1) - X i * X i))

/-- `grad_rosenbrock` (tests/test-functions.cc:155-164). -/
def gradRosenbrock (x : Vec n) : Vec n := fun i =>
  ((List.range (n - 1)).foldl (rosenbrockStep (ext x)) fun _ => 0) i

/-- `rastrigin` (tests/test-functions.cc:244-251). -/
noncomputable def rastrigin (x : Vec n) : ℝ :=
  addLoop (10 * n) 0 n fun i => ext x i * ext x i - 10 * Real.cos (2 * Real.pi * ext x i)

/-- `exp(log(1e3)*2.0*i/(N-1))` (tests/test-functions.cc:261, 274, 316). -/
noncomputable def elliScale (n i : ℕ) : ℝ := Real.exp (Real.log 1e3 * 2 * i / (n - 1 : ℕ))

/-- `elli` (tests/test-functions.cc:255-263). -/
noncomputable def elli (x : Vec n) : ℝ :=
  if n = 1 then ext x 0 * ext x 0
  else addLoop 0 0 n fun i => elliScale n i * ext x i * ext x i

/-- `grad_elli` (tests/test-functions.cc:265-276). -/
noncomputable def gradElli (x : Vec n) : Vec n := fun i =>
  if n = 1 then 2 * ext x 0 else elliScale n i * 2 * x i

/-- `tablet` (tests/test-functions.cc:278-284). -/
def tablet (x : Vec n) : ℝ := addLoop (1e6 * ext x 0 * ext x 0) 1 n fun i => ext x i * ext x i

/-- `grad_tablet` (tests/test-functions.cc:286-293): the first entry is assigned before the loop, which starts from 0. -/
def gradTablet (x : Vec n) : Vec n := fun i =>
  ((List.range n).foldl (fun g j => Function.update g j (2 * ext x j))
    (Function.update (fun _ => 0) 0 (1e6 * 2 * ext x 0))) i

/-- `cigar` (tests/test-functions.cc:295-303). -/
def cigar (x : Vec n) : ℝ := addLoop 0 1 n (fun i => ext x i * ext x i) * 1e6 + ext x 0 * ext x 0

/-- The inner loop of `orthogonalBasis` (tests/test-functions.cc:88-95), over the rows already there, last one first: subtraction
of the projections. -/
def deflate (rows : List (Vec n)) (v : Vec n) : Vec n :=
  rows.foldl (fun v b => v - (v ⬝ᵥ b) • b) v

open Classical in
/-- `orthogonalBasis` (tests/test-functions.cc:68-103): one pass for each drawn row; the rows, last one first.  A division by a
zero length is an error here.  The result is kept in a `static` variable for all further calls, whatever their dimension: Model/Rotated. -/
noncomputable def basisRows : List (Vec n) → Out (List (Vec n))
  | [] => .ok []
  | z :: zs => do
    let rows ← basisRows zs
    let v := deflate rows z
    if sqNorm v = 0 then .error .notReal else .ok ((fun k => v k / Real.sqrt (sqNorm v)) :: rows)

/-- `ellirot` (tests/test-functions.cc:305-319) for the rows `b` of the basis. -/
noncomputable def ellirot (b : Fin n → Vec n) (x : Vec n) : ℝ :=
  if n = 1 then ext x 0 * ext x 0
  else addLoop 0 0 n fun i =>
    let y := if h : i < n then addLoop 0 0 n fun k => ext (b ⟨i, h⟩) k * ext x k else 0
    elliScale n i * y * y

/-- The points stated as solutions, with value 0 (tests/test-functions.cc:396-443): `dVec::Constant(d,c)`. -/
def statedPoint (n : ℕ) (c : ℝ) : Vec n := fun _ => c

end Libcmaes.Bench
