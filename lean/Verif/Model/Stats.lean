import Verif.Model.Solutions
import Mathlib.Analysis.Real.Sqrt
import Mathlib.Data.Matrix.Diagonal

/-!
# Statistics of a solution: src/cmasolutions.cc:128-196, include/libcmaes/cmasolutions.h:286-318

`full_cov()`, the two functions `corr`, `stds` and `errors`.  Arithmetic is exact real arithmetic; a
square root of a negative number or a division by zero is `Err.notReal`.  An Eigen operation between
operands of different sizes is undefined behaviour (the library's build defines no assertion there).
-/

namespace Libcmaes

open Matrix

variable {n : ℕ}

/-- The matrix an empty `_cov` and a non-empty `_v` stand for: `D (I + v v^T) D`
(src/cmasolutions.cc:133, 153). -/
def vdCov (d v : Vec n) : Mat n :=
  diagonal d * (1 + vecMulVec v v) * diagonal d

/-- `full_cov()` (src/cmasolutions.cc:128-136). -/
def Sol.fullCov (s : Sol n) : Mat n :=
  if s.hasCov then s.cov
  else if s.hasV then vdCov s.sepcov s.v
  else diagonal s.sepcov

/-- Square roots of the entries of a vector (`cwiseSqrt`). -/
noncomputable def sqrtV (d : Vec n) : Out (Vec n) :=
  if ∀ i, 0 ≤ d i then .ok (fun i => Real.sqrt (d i)) else .error .notReal

/-- Inverses of the entries of a vector (`cwiseInverse`). -/
noncomputable def invV (d : Vec n) : Out (Vec n) :=
  if ∀ i, d i ≠ 0 then .ok (fun i => (d i)⁻¹) else .error .notReal

/-- What `corr()` returns: a square matrix, or a matrix of one column (src/cmasolutions.cc:161). -/
inductive CorrOut (n : ℕ) where
  | square (r : Mat n)
  | column (r : Vec n)

/-- The two loops of `corr()` over columns and rows (src/cmasolutions.cc:143-148, 154-159). -/
noncomputable def corrOf (c : Mat n) : Out (Mat n) := do
  let sd ← sqrtV (fun i => c i i)
  let dinv ← invV sd
  let byCol : Mat n := fun i j => c i j * dinv i
  pure (fun i j => byCol i j * dinv j)

/-- `corr()` (src/cmasolutions.cc:138-163). -/
noncomputable def Sol.corr (s : Sol n) : Out (CorrOut n) :=
  if s.hasCov then do
    let r ← corrOf s.cov
    pure (.square r)
  else if s.hasV then do
    let r ← corrOf (vdCov s.sepcov s.v)
    pure (.square r)
  else pure (.column fun _ => 1)

/-- The vector of standard deviations in internal units inside `stds` (include/libcmaes/
cmasolutions.h:298-304), by the flags of the parameters given.  An empty `_cov`, `_sepcov` or `_v` is
then added to a vector of another size. -/
noncomputable def Sol.rawStds (s : Sol n) (sep vd : Bool) : Out (Vec n) :=
  if !sep && !vd then
    if s.hasCov then sqrtV (fun i => s.cov i i) else .error .ub
  else if sep then
    if s.hasSep then sqrtV s.sepcov else .error .ub
  else
    if s.hasV && s.hasSep then do
      let w ← sqrtV (fun i => 1 + s.v i * s.v i)
      pure (fun i => w i * s.sepcov i)
    else .error .ub

/-- `stds(cmaparams)` (include/libcmaes/cmasolutions.h:294-307): only the transform and the flags of
the parameters are read (and `dim()`, the size of `_v`). -/
noncomputable def Sol.stds (s : Sol n) (gp : GenoPheno) (sep vd : Bool) : Out (Vec n) := do
  let m ← phenoV gp s.xmean
  let sd ← s.rawStds sep vd
  let ms ← phenoV gp (fun i => s.xmean i + sd i)
  pure (fun i => |ms i - m i|)

/-- `errors(cmaparams)` (include/libcmaes/cmasolutions.h:314-318). -/
noncomputable def Sol.errors (s : Sol n) (gp : GenoPheno) (sep vd : Bool) : Out (Vec n) := do
  let sd ← s.stds gp sep vd
  if 0 ≤ s.sigma then pure (fun i => Real.sqrt s.sigma * sd i) else .error .notReal

/-- `corr(i,j)` (src/cmasolutions.cc:165-196).  The parameter objects made on lines 171 and 177 have the
identity transform; the second has the
`vd` flag set.  On lines 181-187 the two-by-two covariance of coordinates `i` and `j` is formed. -/
noncomputable def Sol.corrAt (s : Sol n) (i j : Fin n) : Out ℝ :=
  if i = j then pure 1
  else if s.hasCov then do
    let st ← s.stds GenoPheno.plain false false
    divR (s.cov i j) (st i * st j)
  else if s.hasV then do
    let st ← s.stds GenoPheno.plain false true
    let c := vdCov ![s.sepcov i, s.sepcov j] ![s.v i, s.v j]
    divR (c 0 1) (st i * st j)
  else pure 0

end Libcmaes
