import Verif.Model.Pwq
import Verif.Model.Scaling

/-!
# Model of include/libcmaes/genopheno.h (and include/libcmaes/noboundstrategy.h)

The template parameters `TBoundStrategy` and `TScalingStrategy` become constructors of two inductive
types; the explicit specialisations of the header become separate branches.
-/

namespace Libcmaes

/-- `TBoundStrategy`: `NoBoundStrategy` (include/libcmaes/noboundstrategy.h:31-76) or
`pwqBoundStrategy`. -/
inductive BoundS where
  | noBound
  | pwq (b : Pwq)

/-- `TScalingStrategy`: `NoScalingStrategy` (include/libcmaes/scaling.h:37-80) or
`linScalingStrategy`. -/
inductive ScaleS where
  | noScaling
  | lin (s : LinScaling)

/-- The user's `TransFunc` pair (include/libcmaes/genopheno.h:32).  A `TransFunc` fills an output
buffer of the same dimension from an input buffer; it is modelled as a dimension-preserving function
on vectors. -/
structure Custom where
  genof : List ℝ → List ℝ
  phenof : List ℝ → List ℝ
  genof_length : ∀ v, (genof v).length = v.length
  phenof_length : ∀ v, (phenof v).length = v.length

/-- `GenoPheno` (include/libcmaes/genopheno.h:35-261).  `custom = none` is `_id == true`. -/
structure GenoPheno where
  bound : BoundS
  custom : Option Custom
  scale : ScaleS

namespace GenoPheno

/-- Default constructor for `<NoBoundStrategy,NoScalingStrategy>`
(include/libcmaes/genopheno.h:40-42). -/
def plain : GenoPheno := ⟨.noBound, none, .noScaling⟩

/-- Constructor from `(genof,phenof)` (include/libcmaes/genopheno.h:44-46): bound and scaling
strategies are default constructed. -/
def ofCustom (bounded scaled : Bool) (c : Custom) : GenoPheno :=
  ⟨if bounded then .pwq Pwq.empty else .noBound, some c,
   if scaled then .lin LinScaling.default else .noScaling⟩

/-- Constructors from bounds with or without user transform
(include/libcmaes/genopheno.h:48-60, 62-75) for `<pwqBoundStrategy,NoScalingStrategy>`. -/
noncomputable def ofBounds (custom : Option Custom) (lb ub : List ℝ) : GenoPheno :=
  ⟨.pwq (Pwq.ofBounds lb ub), custom, .noScaling⟩

/-- Constructors from bounds (include/libcmaes/genopheno.h:48-60, 62-75) for
`<pwqBoundStrategy,linScalingStrategy>`: internal bounds are `[0,10]`. -/
noncomputable def ofBoundsScaled (custom : Option Custom) (lb ub : List ℝ) : Out GenoPheno := do
  let s ← LinScaling.ofBounds lb ub
  pure ⟨.pwq (Pwq.ofBounds5 (List.replicate lb.length 0) (List.replicate lb.length 10) lb ub),
        custom, .lin s⟩

/-- Constructors from bounds (include/libcmaes/genopheno.h:48-60, 62-75) for
`<NoBoundStrategy,linScalingStrategy>`: scaling without constraint. -/
noncomputable def ofScaledNoBound (custom : Option Custom) (lb ub : List ℝ) : Out GenoPheno := do
  let s ← LinScaling.ofBounds lb ub
  pure ⟨.noBound, custom, .lin s⟩

/-- Scaling-vector constructor for `<NoBoundStrategy,linScalingStrategy>`
(include/libcmaes/genopheno.h:336-345). -/
def ofVectorsNoBound (scaling shift : List ℝ) : GenoPheno :=
  ⟨.noBound, none, .lin (LinScaling.ofVectors scaling shift)⟩

/-- Scaling-vector constructor for `<pwqBoundStrategy,linScalingStrategy>` with bounds
(include/libcmaes/genopheno.h:347-362): the three-argument `pwqBoundStrategy` constructor is called
on the scaled bounds. -/
noncomputable def ofVectorsPwq (scaling shift lb ub : List ℝ) : Out GenoPheno := do
  let s := LinScaling.ofVectors scaling shift
  let nl ← s.toInternal lb
  let nu ← s.toInternal ub
  pure ⟨.pwq (Pwq.ofBounds nl nu), none, .lin s⟩

/-- `if (!_id) _phenof(...)` (include/libcmaes/genopheno.h:193-198). -/
def applyPheno (g : GenoPheno) (x : List ℝ) : List ℝ :=
  match g.custom with
  | none => x
  | some c => c.phenof x

/-- `if (!_id) _genof(...)` (include/libcmaes/genopheno.h:232-238). -/
def applyGeno (g : GenoPheno) (x : List ℝ) : List ℝ :=
  match g.custom with
  | none => x
  | some c => c.genof x

/-- `pheno(const dVec&)`: generic (include/libcmaes/genopheno.h:190-214), `<NoBound,NoScaling>`
(270-280) and `<NoBound,lin>` (293-304; scaling is applied whatever its `_id`). -/
noncomputable def pheno (g : GenoPheno) (x : List ℝ) : Out (List ℝ) :=
  match g.bound, g.scale with
  | .noBound, .noScaling => .ok (g.applyPheno x)
  | .noBound, .lin s => s.toF (g.applyPheno x)
  | .pwq b, .noScaling => b.toF (g.applyPheno x)
  | .pwq b, .lin s => do
    let p ← b.toF (g.applyPheno x)
    if s.id then pure p else s.toF p

/-- `geno(const dVec&)`: generic (include/libcmaes/genopheno.h:216-239), `<NoBound,NoScaling>`
(281-291) and `<NoBound,lin>` (305-317).  In the last one, with a user transform, the function
writes `_genof`'s result over its own argument and returns `ncandidate`, an uninitialised vector:
reading it is undefined behaviour. -/
noncomputable def geno (g : GenoPheno) (y : List ℝ) : Out (List ℝ) :=
  match g.bound, g.scale with
  | .noBound, .noScaling => .ok (g.applyGeno y)
  | .noBound, .lin s => do
    let z ← s.toInternal y
    match g.custom with
    | none => pure z
    | some _ => .error .ub
  | .pwq b, .noScaling => do
    let z ← b.toInternal y
    pure (g.applyGeno z)
  | .pwq b, .lin s => do
    let z ← (if s.id then pure y else s.toInternal y)
    let w ← b.toInternal z
    pure (g.applyGeno w)

/-- `#pragma omp parallel for` over the columns of a matrix, each iteration reading and writing its
own column (e.g. include/libcmaes/genopheno.h:139-145).  The iterations are executed in the order
`order`, an arbitrary schedule. -/
def parCols (order : List ℕ) (f : List ℝ → Out (List ℝ)) (m : List (List ℝ)) :
    Out (List (List ℝ)) :=
  order.foldlM (fun m i => do
    let c ← idx m i
    let c' ← f c
    pure (m.set i c')) m

/-- A schedule for each of the three parallel loops of `pheno(dMat)`/`geno(dMat)`. -/
structure Schedule where
  custom : List ℕ
  bound : List ℕ
  scale : List ℕ

/-- `pheno_candidates` (include/libcmaes/genopheno.h:98-113). -/
def phenoCandidates (g : GenoPheno) (order : List ℕ) (m : List (List ℝ)) : Out (List (List ℝ)) :=
  match g.custom with
  | none => .ok m
  | some c => parCols order (fun x => .ok (c.phenof x)) m

/-- `geno_candidates` (include/libcmaes/genopheno.h:115-130). -/
def genoCandidates (g : GenoPheno) (order : List ℕ) (m : List (List ℝ)) : Out (List (List ℝ)) :=
  match g.custom with
  | none => .ok m
  | some c => parCols order (fun x => .ok (c.genof x)) m

/-- `pheno(const dMat&)`: generic (include/libcmaes/genopheno.h:133-159), `<NoBound,NoScaling>`
(264-269) and `<NoBound,lin>` (318-334).  A matrix is its list of columns. -/
noncomputable def phenoMat (g : GenoPheno) (o : Schedule) (m : List (List ℝ)) :
    Out (List (List ℝ)) :=
  match g.bound, g.scale with
  | .noBound, .noScaling => g.phenoCandidates o.custom m
  | .noBound, .lin s => do
    let n ← g.phenoCandidates o.custom m
    parCols o.scale s.toF n
  | .pwq b, .noScaling => do
    let n ← g.phenoCandidates o.custom m
    parCols o.bound b.toF n
  | .pwq b, .lin s => do
    let n ← g.phenoCandidates o.custom m
    let n2 ← parCols o.bound b.toF n
    if s.id then pure n2 else parCols o.scale s.toF n2

/-- `geno(const dMat&)` (include/libcmaes/genopheno.h:161-188).  `NoBoundStrategy` has no
`to_internal_representation`, so only the `pwqBoundStrategy` instances compile; the other case is
given the outcome `Err.ub` and no theorem is stated about it. -/
noncomputable def genoMat (g : GenoPheno) (o : Schedule) (m : List (List ℝ)) :
    Out (List (List ℝ)) :=
  match g.bound with
  | .noBound => .error .ub
  | .pwq b => do
    let n ← (match g.scale with
      | .noScaling => .ok m
      | .lin s => if s.id then .ok m else parCols o.scale s.toInternal m)
    let n2 ← parCols o.bound b.toInternal n
    g.genoCandidates o.custom n2

/-- `remove_dimensions` (include/libcmaes/genopheno.h:247-253); `pwqBoundStrategy::is_id()` is
false, `NoBoundStrategy::is_id()` and `NoScalingStrategy::is_id()` are true. -/
def removeDimensions (g : GenoPheno) (ks : List ℕ) : GenoPheno :=
  { g with
    scale := match g.scale with
      | .noScaling => .noScaling
      | .lin s => .lin (if s.id then s else s.removeDimensions ks)
    bound := match g.bound with
      | .noBound => .noBound
      | .pwq b => .pwq (b.removeDimensions ks) }

/-- `get_boundstrategy().getPhenoLBound(k)` (include/libcmaes/genopheno.h:241,
noboundstrategy.h:71, pwq_bound_strategy.h:50). -/
noncomputable def phenoLBound (g : GenoPheno) (k : ℕ) : Out ℝ :=
  match g.bound with
  | .noBound => .ok (-dblMax)
  | .pwq b => b.getPhenoLBound k

/-- `get_boundstrategy().getPhenoUBound(k)` (include/libcmaes/genopheno.h:241,
noboundstrategy.h:72, pwq_bound_strategy.h:51). -/
noncomputable def phenoUBound (g : GenoPheno) (k : ℕ) : Out ℝ :=
  match g.bound with
  | .noBound => .ok dblMax
  | .pwq b => b.getPhenoUBound k

/-- `get_boundstrategy().getUBound(k)` (include/libcmaes/noboundstrategy.h:70,
pwq_bound_strategy.h:49): the bound in internal units. -/
noncomputable def uBound (g : GenoPheno) (k : ℕ) : Out ℝ :=
  match g.bound with
  | .noBound => .ok dblMax
  | .pwq b => b.getUBound k

end GenoPheno

end Libcmaes
