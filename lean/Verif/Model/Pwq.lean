import Verif.Model.EoMatrix
import Mathlib.Analysis.Real.Sqrt
import Mathlib.Algebra.Order.Floor.Ring

/-!
# Model of src/pwq_bound_strategy.cc (piecewise quadratic box constraints)
-/

namespace Libcmaes

/-- `static_cast<int>(q)` for a finite `double` (used at src/pwq_bound_strategy.cc:100,102):
truncation towards zero, undefined behaviour when the truncated value does not fit a 32-bit
`int`. -/
noncomputable def castInt (q : ℝ) : Out ℤ :=
  if -2147483649 < q ∧ q < 2147483648 then
    .ok (if 0 ≤ q then ⌊q⌋ else ⌈q⌉)
  else .error .ub

/-- `static_cast<int>(a/r)` (src/pwq_bound_strategy.cc:100,102).  With `r == 0` the quotient is an
infinity or NaN and its conversion to `int` is undefined behaviour. -/
noncomputable def castQuot (a r : ℝ) : Out ℤ :=
  if r = 0 then .error .ub else castInt (a / r)

/-- The per-coordinate members of `pwqBoundStrategy` used by the transforms
(include/libcmaes/pwq_bound_strategy.h:64-70). -/
structure PwqCoord where
  lb : ℝ
  ub : ℝ
  al : ℝ
  au : ℝ
  xlow : ℝ
  xup : ℝ
  r : ℝ

/-- Per-coordinate part of the constructors (src/pwq_bound_strategy.cc:43-55 and 63-75, which are
identical). -/
noncomputable def PwqCoord.mk' (lb ub : ℝ) : PwqCoord :=
  let diff1 := ub - lb
  let diff2 := 0.5 * diff1
  let al := min diff2 ((1 / 20) * (1 + |lb|))
  let au := min diff2 ((1 / 20) * (1 + |ub|))
  { lb := lb, ub := ub, al := al, au := au
    xlow := lb - 2 * al - diff2
    xup := ub + 2 * au + diff2
    r := 2 * (diff1 + al + au) }

/-- Body of the loop of `shift_into_feasible` for one coordinate
(src/pwq_bound_strategy.cc:99-111), in statement order, including the `LOG(FATAL)` check. -/
noncomputable def PwqCoord.shift (c : PwqCoord) (x : ℝ) : Out ℝ := do
  let x1 ← (if x < c.xlow then do
        let k ← castQuot (c.xlow - x) c.r
        pure (x + c.r * (1 + (k : ℝ)))
      else pure x)
  let x2 ← (if x1 > c.xup then do
        let k ← castQuot (x1 - c.xup) c.r
        pure (x1 - c.r * (1 + (k : ℝ)))
      else pure x1)
  let x3 := if x2 < c.lb - c.al then x2 + 2 * (c.lb - c.al - x2) else x2
  let x4 := if x3 > c.ub + c.au then x3 - 2 * (x3 - c.ub - c.au) else x3
  if x4 < c.lb - c.al - 1e-15 ∨ x4 > c.ub + c.au + 1e-15 then .error .fatal
  else .ok x4

/-- The quadratic part of `to_f_representation` for one coordinate
(src/pwq_bound_strategy.cc:87-90).  The divisions by `_al[i]`, `_au[i]` give no real number when the
margin is zero. -/
noncomputable def PwqCoord.fold (c : PwqCoord) (y : ℝ) : Out ℝ :=
  if y < c.lb + c.al then
    if c.al = 0 then .error .notReal
    else .ok (c.lb + (y - (c.lb - c.al)) * (y - (c.lb - c.al)) / 4 / c.al)
  else if y > c.ub - c.au then
    if c.au = 0 then .error .notReal
    else .ok (c.ub - (y - (c.ub + c.au)) * (y - (c.ub + c.au)) / 4 / c.au)
  else .ok y

/-- `to_f_representation` for one coordinate (src/pwq_bound_strategy.cc:82-92). -/
noncomputable def PwqCoord.toF (c : PwqCoord) (x : ℝ) : Out ℝ := do
  let y ← c.shift x
  c.fold y

/-- `to_internal_representation` for one coordinate (src/pwq_bound_strategy.cc:120-123). -/
noncomputable def PwqCoord.toInternal (c : PwqCoord) (y : ℝ) : ℝ :=
  if y < c.lb + c.al then (c.lb - c.al) + 2 * Real.sqrt (c.al * |c.lb - y|)
  else if y > c.ub - c.au then (c.ub + c.au) - 2 * Real.sqrt (c.au * |y - c.ub|)
  else y

/-- `pwqBoundStrategy` as the struct of vectors it is
(include/libcmaes/pwq_bound_strategy.h:64-72). -/
structure Pwq where
  lb : List ℝ
  ub : List ℝ
  al : List ℝ
  au : List ℝ
  xlow : List ℝ
  xup : List ℝ
  r : List ℝ
  plb : List ℝ
  pub : List ℝ

/-- Five-argument constructor (src/pwq_bound_strategy.cc:58-76).  The arrays all have `dim`
elements. -/
noncomputable def Pwq.ofBounds5 (lb ub plb pub : List ℝ) : Pwq :=
  let cs := List.zipWith PwqCoord.mk' lb ub
  { lb := cs.map (·.lb), ub := cs.map (·.ub), al := cs.map (·.al), au := cs.map (·.au)
    xlow := cs.map (·.xlow), xup := cs.map (·.xup), r := cs.map (·.r)
    plb := plb, pub := pub }

/-- Three-argument constructor (src/pwq_bound_strategy.cc:39-56): the reported bounds are the
bounds. -/
noncomputable def Pwq.ofBounds (lb ub : List ℝ) : Pwq := Pwq.ofBounds5 lb ub lb ub

/-- Default constructor (src/pwq_bound_strategy.cc:35-37): all vectors are empty. -/
def Pwq.empty : Pwq := ⟨[], [], [], [], [], [], [], [], []⟩

/-- The reads `_lbounds[i]`, `_al[i]`, ... made for coordinate `i` by the loops of
src/pwq_bound_strategy.cc:85-91,97-112; out of range is undefined behaviour. -/
def Pwq.coord (b : Pwq) (i : ℕ) : Out PwqCoord := do
  let lb ← idx b.lb i
  let ub ← idx b.ub i
  let al ← idx b.al i
  let au ← idx b.au i
  let xlow ← idx b.xlow i
  let xup ← idx b.xup i
  let r ← idx b.r i
  pure ⟨lb, ub, al, au, xlow, xup, r⟩

/-- `to_f_representation` (src/pwq_bound_strategy.cc:82-92): coordinates are independent, so the
two successive loops of the source are fused into one. -/
noncomputable def Pwq.toF (b : Pwq) (x : List ℝ) : Out (List ℝ) :=
  x.zipIdx.mapM fun (xi, i) => do
    let c ← b.coord i
    c.toF xi

/-- `to_internal_representation` (src/pwq_bound_strategy.cc:115-125). -/
noncomputable def Pwq.toInternal (b : Pwq) (y : List ℝ) : Out (List ℝ) :=
  y.zipIdx.mapM fun (yi, i) => do
    let c ← b.coord i
    pure (c.toInternal yi)

/-- `remove_dimensions` (src/pwq_bound_strategy.cc:127-141). -/
def Pwq.removeDimensions (b : Pwq) (ks : List ℕ) : Pwq :=
  { lb := removeElements b.lb ks, ub := removeElements b.ub ks
    al := removeElements b.al ks, au := removeElements b.au ks
    xlow := removeElements b.xlow ks, xup := removeElements b.xup ks
    r := removeElements b.r ks
    plb := removeElements b.plb ks, pub := removeElements b.pub ks }

/-- `getPhenoLBound(k)` (include/libcmaes/pwq_bound_strategy.h:50). -/
def Pwq.getPhenoLBound (b : Pwq) (k : ℕ) : Out ℝ := idx b.plb k

/-- `getPhenoUBound(k)` (include/libcmaes/pwq_bound_strategy.h:51). -/
def Pwq.getPhenoUBound (b : Pwq) (k : ℕ) : Out ℝ := idx b.pub k

/-- `getLBound(k)` (include/libcmaes/pwq_bound_strategy.h:48). -/
def Pwq.getLBound (b : Pwq) (k : ℕ) : Out ℝ := idx b.lb k

/-- `getUBound(k)` (include/libcmaes/pwq_bound_strategy.h:49). -/
def Pwq.getUBound (b : Pwq) (k : ℕ) : Out ℝ := idx b.ub k

end Libcmaes
